import Verif.Model.Stack

/-!
# Model of the axis arguments of `ObjectStack.vmap`, `src/jaxoplanet/object_stack.py`

`Verif/Model/Stack.lean` models `ObjectStack.vmap` for axes that are already normalised to one natural number per flattened argument.
Here `in_axes` is what the caller writes: an integer (possibly negative) or `None` for all arguments, or a sequence whose entries are
prefixes of the arguments, which are trees of arrays.
In the first part `out_axes` is still one natural number (or `None`) per output leaf; `vmapCallOut` at the end takes it as the caller
writes it, too: a tree of integers (possibly negative) or `None` that is a prefix of the structure of the results.
Simplification: what `jax.vmap` does with an output axis that is out of range is not documented; here it is an error.
-/

namespace Jaxoplanet.Stack

/-- a tree of tuples (`nil`/`cons`) with leaves in `α`: the positional arguments `args`, or `in_axes_`, `object_stack.py:78-84` -/
inductive Tree (α : Type) where
  | leaf (a : α)
  | nil
  | cons (head tail : Tree α)

/-- `tree_flatten`, `object_stack.py:97` -/
def Tree.flat {α : Type} : Tree α → List α
  | .leaf a => [a]
  | .nil => []
  | .cons h t => h.flat ++ t.flat

/-- `jax.api_util.flatten_axes("body_vmap in_axes", in_tree, in_axes_)` (trusted JAX function), `object_stack.py:98-100`: an axis given
for a subtree holds for all its leaves; `none`: `in_axes` is not a prefix of the arguments (`ValueError`).  `jax.vmap` (l.88) uses the
same function. -/
def flattenAxes {α : Type} : Tree (Option ℤ) → Tree α → Option (List (Option ℤ))
  | .leaf a, t => some (List.replicate t.flat.length a)
  | .nil, .nil => some []
  | .cons h t, .cons h' t' => do
    let a ← flattenAxes h h'
    let b ← flattenAxes t t'
    return a ++ b
  | _, _ => none

/-- the `in_axes` argument, `object_stack.py:57` -/
inductive InAxes where
  /-- an integer or `None` -/
  | all (a : Option ℤ)
  /-- a sequence -/
  | seq (t : Tree (Option ℤ))

/-- `tuple(in_axes for _ in args)`, `object_stack.py:84` -/
def spread (a : Option ℤ) : Tree Arr → Tree (Option ℤ)
  | .cons _ t => .cons (.leaf a) (spread a t)
  | _ => .nil

/-- `in_axes_`, `object_stack.py:81-84` -/
def InAxes.normalise (i : InAxes) (args : Tree Arr) : Tree (Option ℤ) :=
  match i with
  | .seq t => t
  | .all a => spread a args

/-- the number of axes; `jnp.ndim` of the arguments of the `jax.vmap` call, `object_stack.py:88-90` -/
def Arr.ndim : Arr → ℕ
  | .scalar _ => 0
  | .vec [] => 1
  | .vec (a :: _) => a.ndim + 1

/-- the axis `(slice(None),) * axis + (n,)` of `index_helper` indexes, `object_stack.py:133`: in Python a tuple times a negative number
is the empty tuple, so a negative axis is axis 0 -/
def loopAxis (a : ℤ) : ℕ := a.toNat

/-- the axis `jax.vmap` maps (trusted meaning): a negative axis is counted from the end; `none`: out of range (`ValueError`).
The call is at `object_stack.py:88-90` -/
def vmapAxis (ndim : ℕ) (a : ℤ) : Option ℕ :=
  if -(ndim : ℤ) ≤ a ∧ a < ndim then some (if a < 0 then (a + ndim).toNat else a.toNat) else none

/-- the axis of one argument leaf in the `jax.vmap` call, `object_stack.py:88-90` -/
def vmapLeafAxis : Arr × Option ℤ → Option (Option ℕ)
  | (_, none) => some none
  | (arg, some a) => (vmapAxis arg.ndim a).map some

/-- `ObjectStack.vmap(func, in_axes, out_axes)(*args)`, `object_stack.py:54-126`, with the axes as the caller writes them. -/
noncomputable def ObjectStack.vmapCall {σ τ : Type} [DecidableEq τ] (S : ObjectStack σ) (f : ObjFun σ τ) (in_axes : InAxes)
    (outAxes : τ → List (Option ℕ)) (args : Tree Arr) : Except VErr (PyTree τ) := do
  -- l.80-84
  let in_axes_ := in_axes.normalise args
  match S.stack with
  | some st =>
    -- l.87-90
    let axes ← orErr .value (flattenAxes in_axes_ args)
    let axes ← orErr .value ((args.flat.zip axes).mapM vmapLeafAxis)
    vmapPath f axes outAxes S.objects.length st args.flat
  | none =>
    -- l.97-124
    let axes ← orErr .value (flattenAxes in_axes_ args)
    loopPath f (axes.map (Option.map loopAxis)) outAxes S.objects args.flat

/-- One output leaf with the axis as the caller writes it, `object_stack.py:121-124`: `jnpu.stack(parts, axis=a)` counts a negative axis
from the end of the axes of its result, one more than those of a part; `jax.vmap` (l.88-90) does the same with the axes of its outputs. -/
noncomputable def outLeafZ (strictNone : Bool) (axis : Option ℤ) (parts : List Arr) : Except VErr Arr :=
  match axis with
  | none => outLeaf strictNone none parts
  | some a => do
    let p ← orErr .other parts.head?
    let k ← orErr .value (vmapAxis (p.ndim + 1) a)
    outLeaf strictNone (some k) parts

/-- The `i`-th output leaf, collected from all objects (`object_stack.py:121-124`). -/
noncomputable def columnZ {τ : Type} (axes : List (Option ℤ)) (strictNone : Bool) (results : List (PyTree τ)) (i : ℕ) :
    Except VErr Arr := do
  let parts ← orErr .other (results.mapM fun r => r.leaves[i]?)
  let axis ← orErr .value (axes[i]?)
  outLeafZ strictNone axis parts

/- the structure of a result is a tree, too; equality of structures, `object_stack.py:110` -/
deriving instance DecidableEq for Tree

/-- Collect the results, `object_stack.py:109-124`, with `flatten_axes("body_vmap out_axes", out_tree, out_axes)` of l.118-120 (and of
`jax.vmap`, l.88-90). -/
noncomputable def assembleZ (out_axes : Tree (Option ℤ)) (strictNone : Bool) (results : List (PyTree (Tree Unit))) :
    Except VErr (PyTree (Tree Unit)) :=
  match results with
  | [] => .error .other
  | r0 :: _ =>
    -- l.109-116
    if results.all (fun r => r.spec == r0.spec) then do
      -- l.118-120
      let axes ← orErr .value (flattenAxes out_axes r0.spec)
      -- l.121-124
      let leaves ← (List.range r0.leaves.length).mapM (columnZ axes strictNone results)
      return ⟨r0.spec, leaves⟩
    else .error .value

/-- `ObjectStack.vmap(func, in_axes, out_axes)(*args)`, `object_stack.py:54-126`, with `in_axes` and `out_axes` as the caller writes
them. -/
noncomputable def ObjectStack.vmapCallOut {σ : Type} (S : ObjectStack σ) (f : ObjFun σ (Tree Unit)) (in_axes : InAxes)
    (out_axes : Tree (Option ℤ)) (args : Tree Arr) : Except VErr (PyTree (Tree Unit)) := do
  -- l.80-84
  let in_axes_ := in_axes.normalise args
  match S.stack with
  | some st =>
    -- l.87-90
    let axes ← orErr .value (flattenAxes in_axes_ args)
    let axes ← orErr .value ((args.flat.zip axes).mapM vmapLeafAxis)
    if !sizesOk S.objects.length axes args.flat then throw .value
    let results ← (List.range S.objects.length).mapM fun n => do
      let o ← orErr .other (unstack st n)
      callAt f axes args.flat n o
    assembleZ out_axes true results
  | none =>
    -- l.97-124
    let axes ← orErr .value (flattenAxes in_axes_ args)
    let results ← S.objects.zipIdx.mapM fun x => callAt f (axes.map (Option.map loopAxis)) args.flat x.2 x.1
    assembleZ out_axes false results

end Jaxoplanet.Stack
