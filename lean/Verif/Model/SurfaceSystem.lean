import Verif.Model.Stack
import Verif.Model.SurfaceLight

/-!
# Model of `src/jaxoplanet/starry/orbit.py` and `src/jaxoplanet/starry/system_observable.py`

One time at a time (`vectorize` maps over the times); all the lengths in solar radii and the time in days, so that
`.magnitude` of a ratio of lengths is the ratio of the numbers (`quantity_input` converts the time).
-/

namespace Jaxoplanet.Starry

open Real Stack Keplerian

/-! ## `SurfaceSystem` -/

/-- a body handed to a `SurfaceSystem`: a `Body` (its attribute `surface` is missing, so `getattr(body, "surface", None)` is
`None`), a `SurfaceBody` with its field `surface`, `starry/orbit.py:9-10`, or an `OrbitalBody` (which has no such attribute) -/
inductive SurfaceBodyLike where
  | body (b : Body ℝ) (surface : Option Surface)
  | orbital (o : OrbitalBody)

/-- `getattr(body, "surface", None)`, `starry/orbit.py:40, 60` -/
def SurfaceBodyLike.attr : SurfaceBodyLike → Option Surface
  | .body _ s => s
  | .orbital _ => none

/-- `SurfaceSystem`, `starry/orbit.py:13-15` (the stacks are determined by their objects) -/
structure SurfaceSystem where
  central : Central
  central_surface : Option Surface
  bodies : List OrbitalBody
  body_surfaces : List (Option Surface)

/-- one iteration of the loop of `__init__`, `starry/orbit.py:33-42` -/
noncomputable def bindSurfaceBody (G : ℝ) (c : Central) : SurfaceBodyLike × Option Surface → Except PyErr (OrbitalBody × Option Surface)
  | (.orbital o, s) => .ok (o, s)
  | (.body b a, s) => do
    let o ← mkOrbitalBody G c b
    return (o, if s.isNone then (SurfaceBodyLike.body b a).attr else s)

/-- `SurfaceSystem.__init__`, `starry/orbit.py:17-45` -/
noncomputable def SurfaceSystem.init (G : ℝ) (central : Option Central) (central_surface : Option Surface)
    (bodies : List (SurfaceBodyLike × Option Surface)) : Except PyErr SurfaceSystem := do
  let c ← match central with
    | none => Central.init none none none
    | some c => .ok c
  let cs ← match central_surface with
    | none => Surface.init {}
    | some s => .ok s
  let bs ← bodies.mapM (bindSurfaceBody G c)
  return ⟨c, some cs, bs.map (·.1), bs.map (·.2)⟩

/-- `SurfaceSystem.add_body(body, surface)`, `starry/orbit.py:51-68`. The keyword form `add_body(surface=..., **kwargs)` is
the same as passing `Body(**kwargs)`. `zip(..., strict=False)` stops at the shorter sequence. -/
noncomputable def SurfaceSystem.addBody (G : ℝ) (s : SurfaceSystem) (body : SurfaceBodyLike) (surface : Option Surface) :
    Except PyErr SurfaceSystem :=
  let surface := if surface.isNone then body.attr else surface
  let bodies := (s.bodies.map SurfaceBodyLike.orbital).zip s.body_surfaces ++ [(body, surface)]
  SurfaceSystem.init G (some s.central) s.central_surface bodies

/-- the `System` that a `SurfaceSystem` is (inheritance), `starry/orbit.py:13` -/
def SurfaceSystem.toSystem (s : SurfaceSystem) : System := ⟨s.central, s.bodies⟩

/-! ## the stack of surfaces -/

/-- tree structure of a `Surface`: the keys of the map, which optional fields are present, the number of limb darkening
coefficients. (Simplification: JAX compares the sorted keys, here they are compared in insertion order. This decides only
between the two paths of `ObjectStack.vmap`, which agree, `vmap_eq_loop`.); pytree structure of the fields `starry/surface.py:57-87` -/
structure SurfaceSpec where
  keys : List (ℕ × ℤ)
  inc : Bool
  obl : Bool
  udeg : ℕ
  period : Bool
  deriving DecidableEq

/-- `tree_flatten` of a `Surface` or `None` (which has no leaves). The field `normalize` has no effect after construction. pytree structure of the fields `starry/surface.py:57-87` -/
def flattenSurface : Option Surface → PyTree (Option SurfaceSpec)
  | none => ⟨none, []⟩
  | some s =>
    { spec := some ⟨s.y.data.map (·.1), s.inc.isSome, s.obl.isSome, s.u.length, s.period.isSome⟩
      leaves := s.y.data.map (fun e => .scalar e.2) ++ (s.u.map .scalar ++
        (optLeaf s.inc ++ (optLeaf s.obl ++ (optLeaf s.period ++ [.scalar s.amplitude, .scalar s.phase, .scalar s.radius])))) }

/-- take `n` scalar leaves; pytree structure of the fields `starry/surface.py:57-87` -/
def takeScalars : ℕ → List Stack.Arr → Option (List ℝ × List Stack.Arr)
  | 0, l => some ([], l)
  | n + 1, .scalar x :: l => (takeScalars n l).map fun r => (x :: r.1, r.2)
  | _ + 1, _ => none

/-- `tree_unflatten` for a `Surface` or `None`; pytree structure of the fields `starry/surface.py:57-87` -/
def unflattenSurface (t : PyTree (Option SurfaceSpec)) : Option (Option Surface) :=
  match t.spec with
  | none => some none
  | some sp => do
    let (data, rest) ← takeScalars sp.keys.length t.leaves
    let (u, rest) ← takeScalars sp.udeg rest
    let (inc, rest) ← takeLeaf sp.inc rest
    let (obl, rest) ← takeLeaf sp.obl rest
    let (period, rest) ← takeLeaf sp.period rest
    match rest with
    | [.scalar amplitude, .scalar phase, .scalar radius] =>
      return some { y := ⟨sp.keys.zip data⟩, inc, obl, u, period, amplitude, phase, radius }
    | _ => none

/-- a function of a surface, four numbers (one of each array per surface) and the time, as a function of the flattened surface; plumbing of `starry/orbit.py:70-76` -/
def onSurfaceTree (func : Option Surface → ℝ → ℝ → ℝ → ℝ → ℝ → Except PyErr ℝ) : ObjFun (Option SurfaceSpec) Unit := fun tree args =>
  match unflattenSurface tree, args with
  | some s, [.scalar r, .scalar x, .scalar y, .scalar z, .scalar t] => (func s r x y z t).map fun v => ⟨(), [.scalar v]⟩
  | _, _ => .error .assertionError

/-- `SurfaceSystem.surface_vmap(func, in_axes=(0, 0, 0, 0, None))(radius, x, y, z, time)`, `starry/orbit.py:70-76` -/
noncomputable def SurfaceSystem.surfaceVmap (s : SurfaceSystem) (func : Option Surface → ℝ → ℝ → ℝ → ℝ → ℝ → Except PyErr ℝ)
    (radius x y z : List ℝ) (t : ℝ) : Except VErr (PyTree Unit) :=
  (ObjectStack.init (s.body_surfaces.map flattenSurface)).vmap (onSurfaceTree func) [some 0, some 0, some 0, some 0, none]
    (fun _ => [some 0]) [.vec (radius.map .scalar), .vec (x.map .scalar), .vec (y.map .scalar), .vec (z.map .scalar), .scalar t]

/-! ## `system_observable` -/

/-- `Surface.rotational_phase`, `starry/surface.py:229-241` -/
noncomputable def Surface.rotationalPhase (s : Surface) (time : ℝ) : Option ℝ :=
  match s.period with
  | none => none
  | some p => some (2 * π * time / p + s.phase)

/-- an observable of one surface: `surface_observable(surface, r, x, y, z, theta)`; the `surface_observable` argument of `starry/system_observable.py:13` -/
abbrev SurfaceObservable := Surface → Option ℝ → Option ℝ → Option ℝ → Option ℝ → Option ℝ → Except PyErr ℝ

/-- an error of the mapped function; plumbing of `starry/system_observable.py:21-40` -/
def liftUser {α : Type} : Except PyErr α → Except VErr α
  | .ok a => .ok a
  | .error e => .error (.user e)

/-- the number in a zero-dimensional array; plumbing of `starry/system_observable.py:21-40` -/
def scalarOf : Stack.Arr → Option ℝ
  | .scalar x => some x
  | .vec _ => none

/-- the numbers of a one-dimensional array; plumbing of `starry/system_observable.py:21-40` -/
def vecOf : Option Stack.Arr → Except VErr (List ℝ)
  | some (.vec l) => orErr .other (l.mapM scalarOf)
  | _ => .error .other

/-- `lambda body: body.radius`, `orbits/keplerian.py:711`. A missing radius is `None`, which the division by the radius of the
central rejects (`TypeError`), `starry/system_observable.py:60`; for bodies with and without radius the loop of
`ObjectStack.vmap` raises. -/
def bodyRadius (o : OrbitalBody) : Except PyErr (List ℝ) :=
  match o.radius with
  | some r => .ok [r]
  | none => .error (.typeError "unsupported operand type(s) for /: 'NoneType'")

/-- `System.radius`, `orbits/keplerian.py:709-711` -/
noncomputable def systemRadius (s : System) : Except VErr (PyTree Unit) := s.bodyVmap 1 bodyRadius

/-- `compute_body_observable`, `starry/system_observable.py:27-40` -/
noncomputable def bodyObservable (obs : SurfaceObservable) (central_radius : ℝ) (surface : Option Surface) (radius x y z time : ℝ) :
    Except PyErr ℝ :=
  match surface with
  | none => .ok 0
  | some s => obs s (some (central_radius / radius)) (some (x / radius)) (some (y / radius)) (some (z / radius)) (s.rotationalPhase time)

/-- `central_bodies_observable(...)`, `starry/system_observable.py:21-23, 58-65`: `jax.vmap` over the bodies -/
noncomputable def centralObservable (obs : SurfaceObservable) (central_radius : ℝ) (cs : Surface) (radius x y z : List ℝ) (theta : Option ℝ) :
    Except PyErr (List ℝ) :=
  (List.range x.length).mapM fun i : ℕ => obs cs (some (radius.getD i 0 / central_radius)) (some (x.getD i 0 / central_radius))
    (some (y.getD i 0 / central_radius)) (some (z.getD i 0 / central_radius)) theta

/-- the branch of a system with bodies, `starry/system_observable.py:55-77` -/
noncomputable def observableWithBodies (obs : SurfaceObservable) (kep : ℝ → ℝ → ℝ × ℝ) (au : ℝ) (sys : SurfaceSystem) (cs : Surface)
    (theta : Option ℝ) (phase : ℝ) (time : ℝ) : Except VErr (List ℝ) := do
  let pos ← sys.toSystem.relative_position kep au time
  let xos ← vecOf pos.leaves[0]?
  let yos ← vecOf pos.leaves[1]?
  let zos ← vecOf pos.leaves[2]?
  let n := xos.length
  let rad ← systemRadius sys.toSystem
  let radius ← vecOf rad.leaves[0]?
  let lc ← liftUser (centralObservable obs sys.central.radius cs radius xos yos zos theta)
  let central := if n > 1 then [lc.sum - phase * (n - 1)] else lc
  let rows ← sys.surfaceVmap (bodyObservable obs sys.central.radius) radius (xos.map (- ·)) (yos.map (- ·)) (zos.map (- ·)) time
  let bodies ← vecOf rows.leaves[0]?
  return central ++ bodies

/-- `system_observable(surface_observable, **kwargs)(system)(time)`, `starry/system_observable.py:13-83`. `obs0` is
`surface_observable`, `obs` is `partial(surface_observable, **kwargs)`. The branch without a central surface has no
`return` statement (l.47-48), the result is `None`. -/
noncomputable def systemObservable (obs0 obs : SurfaceObservable) (kep : ℝ → ℝ → ℝ × ℝ) (au : ℝ) (sys : SurfaceSystem) (time : ℝ) :
    Except VErr (Option (List ℝ)) :=
  match sys.central_surface with
  | none => .ok none
  | some cs => do
    let theta := cs.rotationalPhase time
    let phase ← liftUser (obs0 cs none none none none theta)
    if sys.bodies.length > 0 then do
      let rows ← observableWithBodies obs kep au sys cs theta phase time
      return some rows
    else return some [phase]

/-- `light_curve(system, order)(time)`, `starry/light_curves.py:143-144`; the default order is 20, l.24 -/
noncomputable def systemLightCurve (eps : ℝ) (quad : ℕ → List (ℝ × ℝ)) (asEuler : ℝ × ℝ × ℝ → ℝ × ℝ × ℝ) (order : ℕ)
    (kep : ℝ → ℝ → ℝ × ℝ) (au : ℝ) (sys : SurfaceSystem) (time : ℝ) : Except VErr (Option (List ℝ)) :=
  systemObservable (surfaceLightCurve eps quad asEuler 20) (surfaceLightCurve eps quad asEuler order) kep au sys time

end Jaxoplanet.Starry
