import Verif.Model.Keplerian

/-!
# Model of `src/jaxoplanet/object_stack.py` and of `System` in `orbits/keplerian.py`

Arrays are nested lists.  (Simplification: an array with a zero-length axis forgets the sizes of the
axes after it; dtypes are not modelled.)  `jax.vmap` itself is trusted, i.e. modelled by its
documented meaning.
-/

namespace Jaxoplanet.Stack

/-- an array: a scalar or a list of arrays of equal shape; array leaves handled by `object_stack.py:37-49, 129-134` -/
inductive Arr where
  | scalar (x : ℝ)
  | vec (l : List Arr)

/-- `shape`: the array is a well-formed array of this shape; array leaves handled by `object_stack.py:37-49, 129-134` -/
inductive Arr.HasShape : Arr → List ℕ → Prop where
  | scalar (x : ℝ) : HasShape (.scalar x) []
  | vec {l : List Arr} {s : List ℕ} : (∀ a ∈ l, HasShape a s) → HasShape (.vec l) (l.length :: s)

/-- `arg[(slice(None),) * axis + (n,)]` of `object_stack.py:129-134`.  JAX clamps an out-of-range
integer index to the last element.  `none`: too few axes (IndexError) or an empty axis. -/
def Arr.index : ℕ → ℕ → Arr → Option Arr
  | _, _, .scalar _ => none
  | 0, n, .vec l => l[min n (l.length - 1)]?
  | a + 1, n, .vec l => (l.mapM (Arr.index a n)).map .vec

/-- `index_helper`, `object_stack.py:129-134`: `None` leaves the argument alone. -/
def indexHelper (n : ℕ) (arg : Arr) (axis : Option ℕ) : Option Arr :=
  match axis with
  | none => some arg
  | some a => arg.index a n

/-- the entries along the leading axis; array leaves handled by `object_stack.py:37-49, 129-134` -/
def Arr.entries : Arr → Option (List Arr)
  | .scalar _ => none
  | .vec l => some l

/-- `jnpu.stack(parts, axis=a)`; `none` when the parts do not have enough axes (or are ragged). `object_stack.py:48, 122` -/
def stackArr : ℕ → List Arr → Option Arr
  | 0, parts => some (.vec parts)
  | a + 1, parts => do
    let ls ← parts.mapM Arr.entries
    match ls with
    | [] => none
    | l0 :: _ =>
      if ls.all (fun l => l.length == l0.length) then
        let cols ← (List.range l0.length).mapM fun j => do
          let col ← ls.mapM (fun l => l[j]?)
          stackArr a col
        return .vec cols
      else none

/-- A pytree: an opaque structure together with its array leaves
(`jax.tree_util.tree_flatten`). `object_stack.py:45, 97, 144` -/
structure PyTree (σ : Type) where
  spec : σ
  leaves : List Arr

/-- Outcome of a call. `object_stack.py:110-115`, and the errors of `jax.vmap`, l.88 -/
inductive VErr where
  /-- an error raised by the mapped function -/
  | user (e : PyErr)
  /-- `ValueError` of the mapping machinery (sizes, axes, structures) -/
  | value
  /-- any other failure (`AttributeError` on an empty stack, `IndexError`) -/
  | other

/-- a function of an object and of array arguments returning a pytree; the function given to `object_stack.py:54-59` -/
abbrev ObjFun (σ τ : Type) := PyTree σ → List Arr → Except PyErr (PyTree τ)

/-- read an option as a result; plumbing of `object_stack.py:103-124` -/
def orErr {α : Type} (e : VErr) : Option α → Except VErr α
  | none => .error e
  | some a => .ok a

/-- size of the mapped axis; array leaves handled by `object_stack.py:37-49, 129-134` -/
def Arr.size : ℕ → Arr → Option ℕ
  | _, .scalar _ => none
  | 0, .vec l => some l.length
  | a + 1, .vec l => l.head?.bind (Arr.size a)

open Classical in
/-- One output leaf, `object_stack.py:122-123`.  `jax.vmap` (`strictNone`) refuses an unmapped output
that differs between the objects; the loop takes the first one (l.122). -/
noncomputable def outLeaf (strictNone : Bool) (axis : Option ℕ) (parts : List Arr) :
    Except VErr Arr :=
  match axis with
  | none =>
    if strictNone ∧ ¬ (∀ p ∈ parts, some p = parts.head?) then .error .value
    else orErr .other parts.head?
  | some a => orErr .value (stackArr a parts)

/-- The `i`-th output leaf, collected from all objects (`object_stack.py:121-124`). -/
noncomputable def column {τ : Type} (axes : List (Option ℕ)) (strictNone : Bool)
    (results : List (PyTree τ)) (i : ℕ) : Except VErr Arr := do
  let parts ← orErr .other (results.mapM fun r => r.leaves[i]?)
  let axis ← orErr .value (axes[i]?)
  outLeaf strictNone axis parts

/-- Collect the leaf-wise results of all objects: `object_stack.py:109-124`.
`out_axes` is a prefix tree in JAX; here it is already flattened to one axis per output leaf
(`outAxes spec`), as in l.118-120. -/
noncomputable def assemble {τ : Type} (outAxes : τ → List (Option ℕ)) (strictNone : Bool)
    (results : List (PyTree τ)) [DecidableEq τ] : Except VErr (PyTree τ) :=
  match results with
  | [] => .error .other
  | r0 :: _ =>
    -- l.109-116
    if results.all (fun r => r.spec == r0.spec) then do
      -- l.121-124
      let leaves ← (List.range r0.leaves.length).mapM
        (column (outAxes r0.spec) strictNone results)
      return ⟨r0.spec, leaves⟩
    else .error .value

/-- One call: the arguments are indexed, the function applied (`object_stack.py:105-108, 137-144`). -/
def callAt {σ τ : Type} (f : ObjFun σ τ) (inAxes : List (Option ℕ)) (args : List Arr) (n : ℕ)
    (obj : PyTree σ) : Except VErr (PyTree τ) := do
  let args' ← orErr .other ((args.zip inAxes).mapM fun (a, ax) => indexHelper n a ax)
  match f obj args' with
  | .ok r => .ok r
  | .error e => .error (.user e)

/-- The loop path, `object_stack.py:91-124`. -/
noncomputable def loopPath {σ τ : Type} [DecidableEq τ] (f : ObjFun σ τ) (inAxes : List (Option ℕ))
    (outAxes : τ → List (Option ℕ)) (objects : List (PyTree σ)) (args : List Arr) :
    Except VErr (PyTree τ) := do
  let results ← objects.zipIdx.mapM fun x => callAt f inAxes args x.2 x.1
  assemble outAxes false results

/-- the `n`-th object of a stacked pytree, as seen inside `jax.vmap(..., in_axes=(0, ...))`; trusted behaviour of the `jax.vmap` call, `object_stack.py:88-90` -/
def unstack {σ : Type} (stack : PyTree σ) (n : ℕ) : Option (PyTree σ) :=
  (stack.leaves.mapM (Arr.index 0 n)).map fun l => ⟨stack.spec, l⟩

/-- every mapped axis has size `N`; trusted behaviour of the `jax.vmap` call, `object_stack.py:88-90` -/
def sizesOk (N : ℕ) (inAxes : List (Option ℕ)) (args : List Arr) : Bool :=
  (args.zip inAxes).all fun (a, ax) => match ax with
    | none => true
    | some k => a.size k == some N

/-- The meaning of `jax.vmap(func, in_axes=(0,)+in_axes, out_axes)(stack, *args)`
(`object_stack.py:87-90`): all mapped axes must have the same size `N` (the stack contributes
`N = number of objects`), the function is applied to the `n`-th slices and the results stacked.
Trusted meaning of `jax.vmap`, not code of this repository. -/
noncomputable def vmapPath {σ τ : Type} [DecidableEq τ] (f : ObjFun σ τ) (inAxes : List (Option ℕ))
    (outAxes : τ → List (Option ℕ)) (N : ℕ) (stack : PyTree σ) (args : List Arr) :
    Except VErr (PyTree τ) := do
  if !sizesOk N inAxes args then throw .value
  let results ← (List.range N).mapM fun n => do
    let o ← orErr .other (unstack stack n)
    callAt f inAxes args n o
  assemble outAxes true results

/-- `ObjectStack`, `object_stack.py:34-35`. -/
structure ObjectStack (σ : Type) where
  objects : List (PyTree σ)
  stack : Option (PyTree σ)

/-- stack the leaves: `tree_map(lambda *x: jnp.stack(x, axis=0), *objects)`, l.47-49; `object_stack.py:47-49` -/
def stackTrees {σ : Type} (objects : List (PyTree σ)) (o0 : PyTree σ) : Option (PyTree σ) := do
  let leaves ← (List.range o0.leaves.length).mapM fun i => do
    let parts ← objects.mapM fun o => o.leaves[i]?
    stackArr 0 parts
  return ⟨o0.spec, leaves⟩

/-- `ObjectStack.__init__`, `object_stack.py:37-49`. -/
def ObjectStack.init {σ : Type} [DecidableEq σ] (objects : List (PyTree σ)) : ObjectStack σ :=
  { objects
    stack := match objects with
      | [] => none
      | o0 :: _ =>
        -- `spec.count(spec[0]) == len(spec)`
        if (objects.map (·.spec)).count o0.spec = objects.length then stackTrees objects o0
        else none }

/-- `ObjectStack.vmap(func, in_axes, out_axes)(*args)`, `object_stack.py:54-126`, with `in_axes`
already normalised to one axis per flattened argument (l.81-84, l.97-100).  Axes are natural numbers;
negative axes are modelled in `Verif/Model/StackAxes.lean`. -/
noncomputable def ObjectStack.vmap {σ τ : Type} [DecidableEq τ] (S : ObjectStack σ) (f : ObjFun σ τ)
    (inAxes : List (Option ℕ)) (outAxes : τ → List (Option ℕ)) (args : List Arr) :
    Except VErr (PyTree τ) :=
  match S.stack with
  | some st => vmapPath f inAxes outAxes S.objects.length st args
  | none => loopPath f inAxes outAxes S.objects args

end Jaxoplanet.Stack

namespace Jaxoplanet.Keplerian

open Stack

/-- Which optional fields of an `OrbitalBody` are present: its tree structure. pytree structure of the fields `orbits/keplerian.py:259-277` -/
structure BodySpec where
  mass : Bool
  radius : Bool
  ecc : Bool
  node : Bool
  rv : Bool
  parallax : Bool
  deriving DecidableEq

/-- optional scalar leaf; pytree structure of the fields `orbits/keplerian.py:259-277` -/
def optLeaf : Option ℝ → List Arr
  | none => []
  | some x => [.scalar x]

/-- optional eccentricity leaves; pytree structure of the fields `orbits/keplerian.py:259-277` -/
def eccLeaves : Option Ecc → List Arr
  | none => []
  | some k => [.scalar k.e, .scalar k.sinw, .scalar k.cosw]

/-- optional node leaves; pytree structure of the fields `orbits/keplerian.py:259-277` -/
def nodeLeaves : Option (ℝ × ℝ) → List Arr
  | none => []
  | some (s, c) => [.scalar s, .scalar c]

/-- `tree_flatten` of an `OrbitalBody` (equinox module: fields in order,
`orbits/keplerian.py:259-277`; `None` fields have no leaf).  The order of leaves is immaterial. -/
def OrbitalBody.flatten (o : OrbitalBody) : PyTree BodySpec where
  spec := ⟨o.mass.isSome, o.radius.isSome, o.ecc.isSome, o.node.isSome,
    o.radial_velocity_semiamplitude.isSome, o.parallax.isSome⟩
  leaves := [.scalar o.central.mass, .scalar o.central.radius, .scalar o.central.density,
    .scalar o.time_ref, .scalar o.time_transit, .scalar o.period, .scalar o.semimajor,
    .scalar o.sin_inclination, .scalar o.cos_inclination, .scalar o.impact_param] ++
    (optLeaf o.mass ++ (optLeaf o.radius ++
    (eccLeaves o.ecc ++ (nodeLeaves o.node ++
    (optLeaf o.radial_velocity_semiamplitude ++ optLeaf o.parallax)))))

/-- take one optional leaf; pytree structure of the fields `orbits/keplerian.py:259-277` -/
def takeLeaf : Bool → List Arr → Option (Option ℝ × List Arr)
  | false, l => some (none, l)
  | true, .scalar x :: l => some (some x, l)
  | true, _ => none

/-- `tree_unflatten` for `OrbitalBody` with scalar leaves. pytree structure of the fields `orbits/keplerian.py:259-277` -/
def OrbitalBody.unflatten (t : PyTree BodySpec) : Option OrbitalBody :=
  match t.leaves with
  | .scalar cm :: .scalar cr :: .scalar cd :: .scalar tr :: .scalar tt :: .scalar p :: .scalar a ::
      .scalar si :: .scalar ci :: .scalar b :: rest => do
    let (m, rest) ← takeLeaf t.spec.mass rest
    let (r, rest) ← takeLeaf t.spec.radius rest
    let (e, rest) ← takeLeaf t.spec.ecc rest
    let (sw, rest) ← takeLeaf t.spec.ecc rest
    let (cw, rest) ← takeLeaf t.spec.ecc rest
    let (sn, rest) ← takeLeaf t.spec.node rest
    let (cn, rest) ← takeLeaf t.spec.node rest
    let (rv, rest) ← takeLeaf t.spec.rv rest
    let (px, rest) ← takeLeaf t.spec.parallax rest
    match rest with
    | [] =>
      return { central := ⟨cm, cr, cd⟩, time_ref := tr, time_transit := tt, period := p,
               semimajor := a, sin_inclination := si, cos_inclination := ci, impact_param := b,
               mass := m, radius := r,
               ecc := match e, sw, cw with
                 | some e, some s, some c => some ⟨e, s, c⟩
                 | _, _, _ => none,
               node := match sn, cn with
                 | some s, some c => some (s, c)
                 | _, _ => none,
               radial_velocity_semiamplitude := rv, parallax := px }
    | _ => none
  | _ => none

/-- `System`, `orbits/keplerian.py:676-680`; the body stack is determined by the bodies. -/
structure System where
  central : Central
  bodies : List OrbitalBody

/-- a user-supplied body: a `Body` still to be bound to a central, or an `OrbitalBody`; the `bodies` argument, `orbits/keplerian.py:686` -/
inductive BodyLike where
  | body (b : Body ℝ)
  | orbital (o : OrbitalBody)

/-- `b if isinstance(b, OrbitalBody) else OrbitalBody(self.central, b)`,
`orbits/keplerian.py:690-693`.  A `Body` is checked when the user constructs it. -/
noncomputable def bindBody (G : ℝ) (c : Central) : BodyLike → Except PyErr OrbitalBody
  | .body b => mkOrbitalBody G c b
  | .orbital o => .ok o

/-- `System.__init__`, `orbits/keplerian.py:682-694`. -/
noncomputable def System.init (G : ℝ) (central : Option Central) (bodies : List BodyLike) :
    Except PyErr System := do
  let c ← match central with
    | none => Central.init none none none
    | some c => .ok c
  let bs ← bodies.mapM (bindBody G c)
  return ⟨c, bs⟩

/-- `System.add_body`, `orbits/keplerian.py:717-737`; `body = none` stands for the keyword form
`Body(**kwargs)`, which is the same as passing that `Body`, so the `Body` is an argument here. -/
noncomputable def System.addBody (G : ℝ) (s : System) (body : Body ℝ) (central : Option Central) :
    Except PyErr System := do
  let b ← match central with
    | some c => (mkOrbitalBody G c body).map BodyLike.orbital
    | none => .ok (BodyLike.body body)
  System.init G (some s.central) (s.bodies.map .orbital ++ [b])

/-- the body stack built at l.689-694; `orbits/keplerian.py:689-694` -/
def System.bodyStack (s : System) : ObjectStack BodySpec :=
  ObjectStack.init (s.bodies.map OrbitalBody.flatten)

/-- a function of a body as a function of its flattened form (JAX unflattens inside `vmap`); plumbing of `orbits/keplerian.py:739-777` -/
def onTree (func : OrbitalBody → Except PyErr (List ℝ)) : ObjFun BodySpec Unit := fun tree _ =>
  match OrbitalBody.unflatten tree with
  | none => .error .assertionError
  | some o => (func o).map fun l => ⟨(), l.map .scalar⟩

/-- `System.body_vmap(func, in_axes=None)(t)`, `orbits/keplerian.py:739-777`, for a function of an
`OrbitalBody` and the (unmapped) arguments, whose result is a tuple of `k` scalars. -/
noncomputable def System.bodyVmap (s : System) (k : ℕ) (func : OrbitalBody → Except PyErr (List ℝ)) :
    Except VErr (PyTree Unit) :=
  s.bodyStack.vmap (onTree func) [] (fun _ => List.replicate k (some 0)) []

/-- components of a vector, as the tuple returned by the code; leaves of the tuple returned at `orbits/keplerian.py:779-798` -/
def V3.toList (v : V3) : List ℝ := [v.x, v.y, v.z]

variable (kep : ℝ → ℝ → ℝ × ℝ) (au : ℝ)

/-- `System.position`, `orbits/keplerian.py:779-780`. -/
noncomputable def System.position (s : System) (t : ℝ) : Except VErr (PyTree Unit) :=
  s.bodyVmap 3 fun o => .ok (o.position kep au t).toList

/-- `System.central_position`, `orbits/keplerian.py:782-783`. -/
noncomputable def System.central_position (s : System) (t : ℝ) : Except VErr (PyTree Unit) :=
  s.bodyVmap 3 fun o => (o.central_position kep au t).map V3.toList

/-- `System.relative_position`, `orbits/keplerian.py:785-786`. -/
noncomputable def System.relative_position (s : System) (t : ℝ) : Except VErr (PyTree Unit) :=
  s.bodyVmap 3 fun o => .ok (o.relative_position kep au t).toList

/-- `System.velocity`, `orbits/keplerian.py:788-789`. -/
noncomputable def System.velocity (s : System) (t : ℝ) : Except VErr (PyTree Unit) :=
  s.bodyVmap 3 fun o => (o.velocity kep au t).map V3.toList

/-- `System.central_velocity`, `orbits/keplerian.py:791-792`. -/
noncomputable def System.central_velocity (s : System) (t : ℝ) : Except VErr (PyTree Unit) :=
  s.bodyVmap 3 fun o => .ok (o.central_velocity kep au t).toList

/-- `System.relative_velocity`, `orbits/keplerian.py:794-795`. -/
noncomputable def System.relative_velocity (s : System) (t : ℝ) : Except VErr (PyTree Unit) :=
  s.bodyVmap 3 fun o => (o.relative_velocity kep au t).map V3.toList

/-- `System.radial_velocity`, `orbits/keplerian.py:797-798`. -/
noncomputable def System.radial_velocity (s : System) (t : ℝ) : Except VErr (PyTree Unit) :=
  s.bodyVmap 1 fun o => .ok [o.radial_velocity kep au t]

end Jaxoplanet.Keplerian
