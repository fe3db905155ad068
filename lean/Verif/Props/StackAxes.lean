import Verif.Model.StackAxes
import Verif.Props.Stack

/-!
# C99 — the axes of `ObjectStack.vmap` and `System.body_vmap`
-/

namespace Jaxoplanet.Stack

variable {σ τ : Type}

/-- Specification: what `jax.vmap` documents for an axis of an array with `ndim` axes: `k` itself if it is not negative, the axis
`ndim + k` if it is. -/
def AxisMeans (ndim : ℕ) (a : ℤ) (k : ℕ) : Prop := k < ndim ∧ (a = k ∨ a = (k : ℤ) - ndim)

/-- Specification: the axis of each leaf of the arguments, in order: an entry of `in_axes` holds for all the arrays in the argument (or
part of an argument) in its place. -/
inductive Prefix {α : Type} : Tree (Option ℤ) → Tree α → List (Option ℤ) → Prop where
  | leaf (a : Option ℤ) (t : Tree α) : Prefix (.leaf a) t (t.flat.map fun _ => a)
  | nil : Prefix .nil .nil []
  | cons {h t h' t' l l'} : Prefix h h' l → Prefix t t' l' → Prefix (.cons h t) (.cons h' t') (l ++ l')

/-- the arguments, one by one, are a tuple -/
def IsTuple {α : Type} : Tree α → Prop
  | .leaf _ => False
  | .nil => True
  | .cons _ t => IsTuple t

theorem flattenAxes_iff {α : Type} (i : Tree (Option ℤ)) (t : Tree α) (l : List (Option ℤ)) :
    flattenAxes i t = some l ↔ Prefix i t l := by
  constructor
  · intro h
    induction i generalizing t l with
    | leaf a =>
      simp only [flattenAxes, Option.some.injEq] at h
      subst h
      rw [← List.map_const']
      exact .leaf a t
    | nil =>
      cases t with
      | nil => simp only [flattenAxes, Option.some.injEq] at h; subst h; exact .nil
      | leaf => simp [flattenAxes] at h
      | cons => simp [flattenAxes] at h
    | cons hd tl ih1 ih2 =>
      cases t with
      | nil => simp [flattenAxes] at h
      | leaf => simp [flattenAxes] at h
      | cons h' t' =>
        simp only [flattenAxes] at h
        cases h1 : flattenAxes hd h' with
        | none => rw [h1] at h; cases h
        | some a =>
          cases h2 : flattenAxes tl t' with
          | none => rw [h1, h2] at h; cases h
          | some b =>
            rw [h1, h2] at h
            obtain rfl : a ++ b = l := Option.some.inj h
            exact .cons (ih1 _ _ h1) (ih2 _ _ h2)
  · intro h
    induction h with
    | leaf a t => simp [flattenAxes]
    | nil => rfl
    | cons _ _ h1 h2 => simp [flattenAxes, h1, h2]

theorem Prefix.length {α : Type} {i : Tree (Option ℤ)} {t : Tree α} {l : List (Option ℤ)} (h : Prefix i t l) : l.length = t.flat.length := by
  induction h with
  | leaf => simp
  | nil => rfl
  | cons _ _ h1 h2 => simp [Tree.flat, h1, h2]

/-- the same axis for all arguments -/
theorem prefix_spread (a : Option ℤ) {t : Tree Arr} (ht : IsTuple t) : Prefix (spread a t) t (t.flat.map fun _ => a) := by
  induction t with
  | leaf => exact ht.elim
  | nil => exact .nil
  | cons h t _ ih =>
    have := Prefix.cons (Prefix.leaf a h) (ih ht)
    rwa [← List.map_append] at this

/-- `vmapAxis` is what the documentation says -/
theorem vmapAxis_iff (ndim : ℕ) (a : ℤ) (k : ℕ) : vmapAxis ndim a = some k ↔ AxisMeans ndim a k := by
  unfold vmapAxis AxisMeans
  split_ifs with h1 h2
  · rw [Option.some.injEq]; constructor
    · rintro rfl; omega
    · intro h; omega
  · rw [Option.some.injEq]; constructor
    · rintro rfl; omega
    · intro h; omega
  · constructor
    · intro h; cases h
    · intro h; omega

/-- the axes (one per leaf) as the caller gave them, and the axes they mean, one by one -/
inductive AxesMean : List Arr → List (Option ℤ) → List (Option ℕ) → Prop where
  | nil : AxesMean [] [] []
  | unmapped {args az ax} (a : Arr) : AxesMean args az ax → AxesMean (a :: args) (none :: az) (none :: ax)
  | mapped {args az ax} {a : Arr} {z : ℤ} {k : ℕ} : AxisMeans a.ndim z k → AxesMean args az ax →
      AxesMean (a :: args) (some z :: az) (some k :: ax)

theorem AxesMean.mapM {args : List Arr} {az : List (Option ℤ)} {ax : List (Option ℕ)} (h : AxesMean args az ax) :
    (args.zip az).mapM vmapLeafAxis = some ax := by
  induction h with
  | nil => rfl
  | unmapped a _ ih => simp [vmapLeafAxis, ih]
  | mapped hm _ ih => simp [vmapLeafAxis, (vmapAxis_iff _ _ _).2 hm, ih]

/-- the axes for which the loop means the same: not negative, or minus the number of axes -/
def LoopSafe (args : List Arr) (az : List (Option ℤ)) : Prop :=
  ∀ a z, (a, some z) ∈ args.zip az → 0 ≤ z ∨ z = -(a.ndim : ℤ)

theorem AxesMean.loop {args : List Arr} {az : List (Option ℤ)} {ax : List (Option ℕ)} (h : AxesMean args az ax)
    (hs : LoopSafe args az) : az.map (Option.map loopAxis) = ax := by
  induction h with
  | nil => rfl
  | unmapped a _ ih =>
    rw [List.map_cons, ih fun b z hz => hs b z (List.mem_cons_of_mem _ hz)]
    rfl
  | @mapped args az ax a z k hm _ ih =>
    rw [List.map_cons, ih fun b z hz => hs b z (List.mem_cons_of_mem _ hz)]
    have := hs a z List.mem_cons_self
    obtain ⟨h1, h2⟩ := hm
    simp only [Option.map_some, loopAxis, List.cons.injEq, Option.some.injEq, and_true]
    omega

/-- **C99 (a).** For every list of objects, stackable or not, every function, every tree of arguments and every `in_axes` that is a
prefix of it: the result is the one of the plain loop over the objects in which every array is indexed along the axis that `in_axes`
gives it, provided that no axis is negative (or it is minus the number of axes of its array). -/
theorem vmap_axes_partial [DecidableEq σ] [DecidableEq τ] (objs : List (PyTree σ)) (hobjs : SpecDeterminesLeaves objs) (f : ObjFun σ τ)
    (in_axes : InAxes) (outAxes : τ → List (Option ℕ)) (args : Tree Arr) {az : List (Option ℤ)} {ax : List (Option ℕ)}
    (hpre : Prefix (in_axes.normalise args) args az) (hax : AxesMean args.flat az ax) (hsafe : LoopSafe args.flat az)
    (hout : ∀ s, ∀ a ∈ outAxes s, a ≠ none)
    (hsize : ∀ a k, (a, some k) ∈ args.flat.zip ax → a.size k = some objs.length) :
    (ObjectStack.init objs).vmapCall f in_axes outAxes args = loopPath f ax outAxes objs args.flat := by
  have key := vmap_eq_loop objs hobjs f ax outAxes args.flat hout hsize
  unfold ObjectStack.vmap at key
  unfold ObjectStack.vmapCall
  simp only [(flattenAxes_iff _ _ _).2 hpre]
  cases hst : (ObjectStack.init objs).stack with
  | none =>
    show loopPath f (az.map (Option.map loopAxis)) outAxes (ObjectStack.init objs).objects args.flat = _
    rw [hax.loop hsafe]
    rfl
  | some st =>
    rw [hst] at key
    simp only at key
    rw [← key]
    simp only [orErr, bind, Except.bind, hax.mapM]

/-- **C99 (b).** When the objects stack (for example for a system whose bodies have the same parameters), negative axes are counted
from the end, as documented. -/
theorem vmap_axes_stacked [DecidableEq σ] [DecidableEq τ] (objs : List (PyTree σ)) (hobjs : SpecDeterminesLeaves objs) (f : ObjFun σ τ)
    (in_axes : InAxes) (outAxes : τ → List (Option ℕ)) (args : Tree Arr) {az : List (Option ℤ)} {ax : List (Option ℕ)}
    (hpre : Prefix (in_axes.normalise args) args az) (hax : AxesMean args.flat az ax)
    (hst : (ObjectStack.init objs).stack ≠ none) (hout : ∀ s, ∀ a ∈ outAxes s, a ≠ none)
    (hsize : ∀ a k, (a, some k) ∈ args.flat.zip ax → a.size k = some objs.length) :
    (ObjectStack.init objs).vmapCall f in_axes outAxes args = loopPath f ax outAxes objs args.flat := by
  have key := vmap_eq_loop objs hobjs f ax outAxes args.flat hout hsize
  unfold ObjectStack.vmap at key
  unfold ObjectStack.vmapCall
  simp only [(flattenAxes_iff _ _ _).2 hpre]
  cases hst' : (ObjectStack.init objs).stack with
  | none => exact absurd hst' hst
  | some st =>
    rw [hst'] at key
    simp only at key
    rw [← key]
    simp only [orErr, bind, Except.bind, hax.mapM]

/-- **C99 (c).** An `in_axes` that is not a prefix of the arguments is rejected, whether the objects stack or not. -/
theorem vmap_axes_not_prefix [DecidableEq σ] [DecidableEq τ] (objs : List (PyTree σ)) (f : ObjFun σ τ) (in_axes : InAxes)
    (outAxes : τ → List (Option ℕ)) (args : Tree Arr) (h : ¬∃ az, Prefix (in_axes.normalise args) args az) :
    (ObjectStack.init objs).vmapCall f in_axes outAxes args = .error .value := by
  have hn : flattenAxes (in_axes.normalise args) args = none := by
    cases hf : flattenAxes (in_axes.normalise args) args with
    | none => rfl
    | some l => exact absurd ⟨l, (flattenAxes_iff _ _ _).1 hf⟩ h
  unfold ObjectStack.vmapCall
  simp only [hn]
  cases (ObjectStack.init objs).stack <;> rfl

/-- **C99 (d), finding F44.** When the objects do not stack, every negative axis is silently taken as the first axis, for all
arguments. -/
theorem negative_axis_is_first [DecidableEq σ] [DecidableEq τ] (objs : List (PyTree σ)) (f : ObjFun σ τ) (z : ℤ) (hz : z < 0)
    (outAxes : τ → List (Option ℕ)) (args : Tree Arr) (hst : (ObjectStack.init objs).stack = none) :
    (ObjectStack.init objs).vmapCall f (.all (some z)) outAxes args = (ObjectStack.init objs).vmapCall f (.all (some 0)) outAxes args := by
  have e : ∀ t : Tree Arr, (flattenAxes (spread (some z) t) t).map (List.map (Option.map loopAxis)) =
      (flattenAxes (spread (some 0) t) t).map (List.map (Option.map loopAxis)) := by
    intro t
    induction t with
    | leaf => rfl
    | nil => rfl
    | cons h t _ ih =>
      have h0 : loopAxis z = loopAxis 0 := by unfold loopAxis; omega
      simp only [spread, flattenAxes]
      cases h1 : flattenAxes (spread (some z) t) t <;> cases h2 : flattenAxes (spread (some 0) t) t <;> rw [h1, h2] at ih
      · rfl
      · cases ih
      · cases ih
      · simp only [Option.map_some, Option.some.injEq] at ih
        simp [ih, h0]
  unfold ObjectStack.vmapCall
  rw [hst]
  simp only [InAxes.normalise]
  have := e args
  cases h1 : flattenAxes (spread (some z) args) args <;> cases h2 : flattenAxes (spread (some 0) args) args <;> rw [h1, h2] at this
  · cases this
  · cases this
  · simp only [Option.map_some, Option.some.injEq] at this
    simp only [orErr, bind, Except.bind, this]

/-- **C99 (d), finding F44.** So the same call with the last axis gives the columns of a matrix for objects that stack, and its rows
for objects that do not. -/
theorem negative_axis_depends_on_structure :
    let f : ObjFun Bool Unit := fun _ args => .ok ⟨(), args⟩
    let arg := Arr.vec [.vec [.scalar 1, .scalar 2], .vec [.scalar 3, .scalar 4]]
    let mixed : List (PyTree Bool) := [⟨true, []⟩, ⟨false, []⟩]
    let same : List (PyTree Bool) := [⟨true, []⟩, ⟨true, []⟩]
    (ObjectStack.init mixed).vmapCall f (.all (some (-1))) (fun _ => [some 0]) (.cons (.leaf arg) .nil) =
      .ok ⟨(), [.vec [.vec [.scalar 1, .scalar 2], .vec [.scalar 3, .scalar 4]]]⟩ ∧
    (ObjectStack.init same).vmapCall f (.all (some (-1))) (fun _ => [some 0]) (.cons (.leaf arg) .nil) =
      .ok ⟨(), [.vec [.vec [.scalar 1, .scalar 3], .vec [.scalar 2, .scalar 4]]]⟩ := by
  constructor
  · rfl
  · rfl

/-- non-vacuity: a tuple of an array and a pair of arrays, `in_axes = (1, None)`: axis 1 of the first, the pair unmapped -/
example : let A := Arr.vec [.vec [.scalar 1, .scalar 2], .vec [.scalar 3, .scalar 4]]
    let args : Tree Arr := .cons (.leaf A) (.cons (.cons (.leaf A) (.cons (.leaf (.scalar 7)) .nil)) .nil)
    Prefix ((InAxes.seq (.cons (.leaf (some 1)) (.cons (.leaf none) .nil))).normalise args) args [some 1, none, none] ∧
      AxesMean args.flat [some 1, none, none] [some 1, none, none] ∧ LoopSafe args.flat [some 1, none, none] := by
  refine ⟨.cons (.leaf _ (.leaf _)) (.cons (.leaf none _) .nil), ?_, ?_⟩
  · refine .mapped ⟨by simp [Arr.ndim], .inl rfl⟩ (.unmapped _ (.unmapped _ .nil))
  · intro a z h
    simp [Tree.flat] at h
    omega

end Jaxoplanet.Stack
