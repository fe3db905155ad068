import Verif.Proofs.Stack

/-!
# C21 — `ObjectStack.vmap` does not depend on whether the objects stack
-/

namespace Jaxoplanet.Stack

variable {σ τ : Type}

theorem zipIdx_mapM {m : Type → Type} [Monad m] [LawfulMonad m] {α β : Type} (objs : List α)
    (f : α × ℕ → m β) (h : ℕ → m β) (k : ℕ)
    (hf : ∀ n o, objs[n]? = some o → f (o, k + n) = h (k + n)) :
    (objs.zipIdx k).mapM f = (List.range' k objs.length).mapM h := by
  induction objs generalizing k with
  | nil => simp
  | cons o os ih =>
    rw [List.zipIdx_cons, List.length_cons, List.range'_succ, List.mapM_cons, List.mapM_cons]
    have h0 := hf 0 o (by simp)
    simp only [Nat.add_zero] at h0
    rw [h0, ih (k + 1)]
    intro n o' ho'
    have := hf (n + 1) o' (by simpa using ho')
    rw [show k + 1 + n = k + (n + 1) by omega]
    exact this

theorem assemble_strict [DecidableEq τ] {outAxes : τ → List (Option ℕ)}
    (hout : ∀ s, ∀ a ∈ outAxes s, a ≠ none) (results : List (PyTree τ)) :
    assemble outAxes true results = assemble outAxes false results := by
  cases results with
  | nil => rfl
  | cons r0 rs =>
    simp only [assemble]
    split_ifs with h
    · congr 1
      apply mapM_congr'
      intro i _
      unfold column
      cases h1 : (List.mapM (fun r => r.leaves[i]?) (r0 :: rs)) with
      | none => rfl
      | some parts =>
        cases h2 : (outAxes r0.spec)[i]? with
        | none => rfl
        | some ax =>
          cases ax with
          | none => exact absurd rfl (hout _ none (List.mem_of_getElem? h2))
          | some a => rfl
    · rfl

/-- **C21 (a).** For every list of objects (stackable or not), every function, all in-axes and
out-axes: if the mapped axes of the arguments have one entry per object, the result — value or
error — is the one of the plain loop over the objects.  (`out_axes = None` is excluded: see
`unmapped_output_differs`.) -/
theorem vmap_eq_loop [DecidableEq σ] [DecidableEq τ] (objs : List (PyTree σ))
    (hobjs : SpecDeterminesLeaves objs) (f : ObjFun σ τ) (inAxes : List (Option ℕ))
    (outAxes : τ → List (Option ℕ)) (args : List Arr)
    (hout : ∀ s, ∀ a ∈ outAxes s, a ≠ none)
    (hsize : ∀ a k, (a, some k) ∈ args.zip inAxes → a.size k = some objs.length) :
    (ObjectStack.init objs).vmap f inAxes outAxes args = loopPath f inAxes outAxes objs args := by
  unfold ObjectStack.vmap
  cases hst : (ObjectStack.init objs).stack with
  | none => rfl
  | some st =>
    cases objs with
    | nil => simp [ObjectStack.init] at hst
    | cons o0 os =>
      simp only [ObjectStack.init] at hst
      split_ifs at hst with hcount
      have hspec := all_spec_of_count hcount
      have hlen : ∀ o ∈ o0 :: os, o.leaves.length = o0.leaves.length := fun o ho =>
        hobjs o ho o0 (by simp) (hspec o ho)
      have hchk : sizesOk (o0 :: os).length inAxes args = true := by
        unfold sizesOk
        rw [List.all_eq_true]
        rintro ⟨a, ax⟩ hm
        cases ax with
        | none => rfl
        | some k => simp only [hsize a k hm, beq_self_eq_true]
      simp only [vmapPath, loopPath]
      rw [zipIdx_mapM (o0 :: os) _ (fun n => do
        let o ← orErr .other (unstack st n)
        callAt f inAxes args n o) 0]
      · rw [← List.range_eq_range']
        simp only [ObjectStack.init, hchk]
        simp only [bind, Except.bind, assemble_strict hout, Bool.not_true, Bool.false_eq_true,
          if_false]
      · intro n o ho
        simp only [Nat.zero_add]
        rw [unstack_stackTrees hspec hlen hst ho]
        rfl

/-- what the mapped call must return for one object -/
def CallsTo (f : ObjFun σ τ) (inAxes : List (Option ℕ)) (args : List Arr) (n : ℕ) (o : PyTree σ)
    (res : PyTree τ) : Prop :=
  ∃ sliced, List.Forall₂ (fun (x : Arr × Option ℕ) a => match x.2 with
      | none => a = x.1
      | some k => x.1.index k n = some a) (args.zip inAxes) sliced ∧ f o sliced = .ok res

/-- **C21 (b).** Whatever path is taken, a successful result consists, object by object, of the
results of the function on that object and on the arguments sliced at its index: indexing each
output leaf along its out-axis at `n` gives the `n`-th object's own leaf. -/
theorem vmap_result [DecidableEq σ] [DecidableEq τ] (objs : List (PyTree σ))
    (hobjs : SpecDeterminesLeaves objs) (f : ObjFun σ τ) (inAxes : List (Option ℕ))
    (outAxes : τ → List (Option ℕ)) (args : List Arr)
    (hout : ∀ s, ∀ a ∈ outAxes s, a ≠ none)
    (hsize : ∀ a k, (a, some k) ∈ args.zip inAxes → a.size k = some objs.length)
    {r : PyTree τ} (h : (ObjectStack.init objs).vmap f inAxes outAxes args = .ok r)
    {n : ℕ} {o : PyTree σ} (hn : objs[n]? = some o) :
    ∃ res, CallsTo f inAxes args n o res ∧ res.spec = r.spec ∧
      ∀ (i : ℕ) (leaf : Arr), r.leaves[i]? = some leaf → ∃ a part, (outAxes r.spec)[i]? = some (some a) ∧
        res.leaves[i]? = some part ∧ leaf.index a n = some part := by
  rw [vmap_eq_loop objs hobjs f inAxes outAxes args hout hsize] at h
  simp only [loopPath, bind, Except.bind] at h
  split at h
  · cases h
  rename_i results hres
  have hn' : objs.zipIdx[n]? = some (o, n) := by simp [List.getElem?_zipIdx, hn]
  obtain ⟨res, hresn, hcall⟩ := Forall₂.get? (mapM_ok_iff.1 hres) hn'
  cases results with
  | nil => simp at hresn
  | cons r0 rs =>
    simp only [assemble] at h
    split_ifs at h with hall
    simp only [bind, Except.bind] at h
    split at h
    · cases h
    rename_i leaves hleaves
    simp only [pure, Except.pure, Except.ok.injEq] at h
    subst h
    refine ⟨res, ?_, ?_, ?_⟩
    · simp only [callAt, bind, Except.bind] at hcall
      split at hcall
      · cases hcall
      rename_i sliced hsl
      refine ⟨sliced, ?_, ?_⟩
      · cases hm : (args.zip inAxes).mapM (fun (x : Arr × Option ℕ) => indexHelper n x.1 x.2) with
        | none =>
          rw [show (List.mapM (fun x : Arr × Option ℕ => match x with
            | (a, ax) => indexHelper n a ax) (args.zip inAxes)) = none from hm] at hsl
          simp [orErr] at hsl
        | some l =>
          rw [show (List.mapM (fun x : Arr × Option ℕ => match x with
            | (a, ax) => indexHelper n a ax) (args.zip inAxes)) = some l from hm] at hsl
          simp only [orErr, Except.ok.injEq] at hsl
          subst hsl
          refine (mapM_some_iff.1 hm).imp ?_
          rintro ⟨a, ax⟩ b hb
          cases ax with
          | none => simp only [indexHelper, Option.some.injEq] at hb; exact hb.symm
          | some k => exact hb
      · cases hf : f o sliced with
        | error e => rw [hf] at hcall; cases hcall
        | ok x => rw [hf] at hcall; simp only [Except.ok.injEq] at hcall; rw [hcall]
    · have := List.all_eq_true.1 hall res (List.mem_of_getElem? hresn)
      simpa using this
    · intro i leaf hi
      obtain ⟨j, hj, hleaf⟩ := Forall₂.get?' (mapM_ok_iff.1 hleaves) hi
      have hij : j = i := by
        have := (List.getElem?_eq_some_iff.1 hj)
        obtain ⟨hlt, h2⟩ := this
        simpa using h2.symm
      subst hij
      simp only [column, bind, Except.bind] at hleaf
      cases hp : (r0 :: rs).mapM (fun r => r.leaves[j]?) with
      | none => rw [hp] at hleaf; simp [orErr] at hleaf
      | some parts =>
        rw [hp] at hleaf
        simp only [orErr] at hleaf
        cases hax : (outAxes r0.spec)[j]? with
        | none => rw [hax] at hleaf; simp at hleaf
        | some ax =>
          rw [hax] at hleaf
          cases ax with
          | none => exact absurd rfl (hout _ none (List.mem_of_getElem? hax))
          | some a =>
            simp only [outLeaf] at hleaf
            cases hs : stackArr a parts with
            | none => rw [hs] at hleaf; simp [orErr] at hleaf
            | some leaf' =>
              rw [hs] at hleaf
              simp only [orErr, Except.ok.injEq] at hleaf
              subst hleaf
              obtain ⟨part, hpart, hpp⟩ := Forall₂.get? (mapM_some_iff.1 hp) hresn
              exact ⟨a, part, rfl, hpp, index_stackArr hs hpart⟩

/-- **F5 (finding).** The hypothesis on sizes is needed: with objects of different structure and a
mapped argument that is too short, the loop silently reuses the last entry of the argument, while
objects of equal structure are rejected with a `ValueError`. -/
theorem size_mismatch_depends_on_structure :
    let f : ObjFun Bool Unit := fun _ args => .ok ⟨(), args⟩
    let arg := Arr.vec [.scalar 7]
    let mixed : List (PyTree Bool) := [⟨true, []⟩, ⟨false, []⟩]
    let same : List (PyTree Bool) := [⟨true, []⟩, ⟨true, []⟩]
    (ObjectStack.init mixed).vmap f [some 0] (fun _ => [some 0]) [arg] =
      .ok ⟨(), [.vec [.scalar 7, .scalar 7]]⟩ ∧
    (ObjectStack.init same).vmap f [some 0] (fun _ => [some 0]) [arg] = .error .value := by
  constructor
  · rfl
  · rfl

/-- **F5 (finding).** `out_axes=None`: mixed structures silently return the first object's value,
equal structures reject. -/
theorem unmapped_output_differs :
    let f : ObjFun (Bool × Bool) Unit := fun o _ => .ok ⟨(), o.leaves⟩
    let mixed : List (PyTree (Bool × Bool)) := [⟨(true, true), [.scalar 1]⟩, ⟨(false, true), [.scalar 2]⟩]
    let same : List (PyTree (Bool × Bool)) := [⟨(true, true), [.scalar 1]⟩, ⟨(true, true), [.scalar 2]⟩]
    (ObjectStack.init mixed).vmap f [] (fun _ => [none]) [] = .ok ⟨(), [.scalar 1]⟩ ∧
    (ObjectStack.init same).vmap f [] (fun _ => [none]) [] = .error .value := by
  constructor
  · simp [ObjectStack.vmap, ObjectStack.init, loopPath, callAt, assemble, column, outLeaf, orErr, bind,
      Except.bind, pure, Except.pure, List.range_succ]
  · simp [ObjectStack.vmap, ObjectStack.init, vmapPath, callAt, assemble, column, outLeaf, orErr, bind,
      Except.bind, pure, Except.pure, List.range_succ, stackTrees, stackArr, unstack, Arr.index,
      sizesOk]

/-- non-vacuity of C21: two objects of different structure, a mapped argument -/
example : SpecDeterminesLeaves [(⟨true, [.scalar 1]⟩ : PyTree Bool), ⟨false, []⟩] ∧
    (Arr.vec [.scalar 3, .scalar 4]).size 0 = some 2 := by
  refine ⟨?_, rfl⟩
  intro o ho o' ho' h
  simp only [List.mem_cons, List.not_mem_nil, or_false] at ho ho'
  rcases ho with rfl | rfl <;> rcases ho' with rfl | rfl <;> simp_all

end Jaxoplanet.Stack
