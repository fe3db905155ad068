import Verif.Props.StackAxes

/-!
# C114 — the `out_axes` of `ObjectStack.vmap`
-/

namespace Jaxoplanet.Stack

variable {σ : Type}

theorem assembleZ_strict {out_axes : Tree (Option ℤ)} {results : List (PyTree (Tree Unit))}
    (hout : ∀ r ∈ results, ∀ l, Prefix out_axes r.spec l → none ∉ l) :
    assembleZ out_axes true results = assembleZ out_axes false results := by
  cases results with
  | nil => rfl
  | cons r0 rs =>
    simp only [assembleZ]
    split_ifs with h
    · cases hf : flattenAxes out_axes r0.spec with
      | none => rfl
      | some axes =>
        have hn := hout r0 List.mem_cons_self axes ((flattenAxes_iff _ _ _).1 hf)
        simp only [orErr, bind, Except.bind]
        congr 1
        apply mapM_congr'
        intro i _
        unfold columnZ
        cases h1 : (List.mapM (fun r => r.leaves[i]?) (r0 :: rs)) with
        | none => rfl
        | some parts =>
          cases h2 : axes[i]? with
          | none => rfl
          | some ax =>
            cases ax with
            | none => exact absurd (List.mem_of_getElem? h2) hn
            | some a => rfl
    · rfl

/-- the calls of the two paths are the same -/
theorem vmap_calls_eq [DecidableEq σ] {objs : List (PyTree σ)} (hobjs : SpecDeterminesLeaves objs) (f : ObjFun σ (Tree Unit))
    (ax : List (Option ℕ)) (args : List Arr) {st : PyTree σ} (hst : (ObjectStack.init objs).stack = some st) :
    (List.range objs.length).mapM (fun n => do
      let o ← orErr .other (unstack st n)
      callAt f ax args n o) = objs.zipIdx.mapM fun x => callAt f ax args x.2 x.1 := by
  cases objs with
  | nil => simp [ObjectStack.init] at hst
  | cons o0 os =>
    simp only [ObjectStack.init] at hst
    split_ifs at hst with hcount
    have hspec := all_spec_of_count hcount
    have hlen : ∀ o ∈ o0 :: os, o.leaves.length = o0.leaves.length := fun o ho =>
      hobjs o ho o0 (by simp) (hspec o ho)
    rw [zipIdx_mapM (o0 :: os) _ (fun n => do
      let o ← orErr .other (unstack st n)
      callAt f ax args n o) 0]
    · rw [← List.range_eq_range']
    · intro n o ho
      simp only [Nat.zero_add]
      rw [unstack_stackTrees hspec hlen hst ho]
      rfl

/-- Specification: the plain loop over the objects, and the collection of the results. -/
noncomputable def plainLoop (f : ObjFun σ (Tree Unit)) (ax : List (Option ℕ)) (out_axes : Tree (Option ℤ)) (objs : List (PyTree σ))
    (args : List Arr) : Except VErr (PyTree (Tree Unit)) := do
  let results ← objs.zipIdx.mapM fun x => callAt f ax args x.2 x.1
  assembleZ out_axes false results

/-- **C114 (a).** The result does not depend on whether the objects stack, also for output axes as the caller writes them: trees of
integers, negative ones included, that are a prefix of the structure of the results. -/
theorem out_axes_path [DecidableEq σ] (objs : List (PyTree σ)) (hobjs : SpecDeterminesLeaves objs) (f : ObjFun σ (Tree Unit))
    (in_axes : InAxes) (out_axes : Tree (Option ℤ)) (args : Tree Arr) {az : List (Option ℤ)} {ax : List (Option ℕ)}
    (hpre : Prefix (in_axes.normalise args) args az) (hax : AxesMean args.flat az ax) (hsafe : LoopSafe args.flat az)
    (hout : ∀ (s : Tree Unit) (l : List (Option ℤ)), Prefix out_axes s l → none ∉ l)
    (hsize : ∀ a k, (a, some k) ∈ args.flat.zip ax → a.size k = some objs.length) :
    (ObjectStack.init objs).vmapCallOut f in_axes out_axes args = plainLoop f ax out_axes objs args.flat := by
  unfold ObjectStack.vmapCallOut plainLoop
  simp only [(flattenAxes_iff _ _ _).2 hpre]
  cases hst : (ObjectStack.init objs).stack with
  | none =>
    simp only [orErr, bind, Except.bind, hax.loop hsafe]
    rfl
  | some st =>
    have hchk : sizesOk objs.length ax args.flat = true := by
      unfold sizesOk
      rw [List.all_eq_true]
      rintro ⟨a, ax⟩ hm
      cases ax with
      | none => rfl
      | some k => simp only [hsize a k hm, beq_self_eq_true]
    have key := vmap_calls_eq hobjs f ax args.flat hst
    have ho : (ObjectStack.init objs).objects = objs := rfl
    simp only [bind, Except.bind, orErr] at key
    simp only [orErr, bind, Except.bind, hax.mapM, ho, hchk, Bool.not_true, Bool.false_eq_true, if_false, key]
    cases hr : List.mapM (fun x : PyTree σ × ℕ => callAt f ax args.flat x.2 x.1) objs.zipIdx with
    | error e => rfl
    | ok results => exact assembleZ_strict fun r _ l hl => hout _ l hl

theorem callsTo_of_callAt {f : ObjFun σ (Tree Unit)} {ax : List (Option ℕ)} {args : List Arr} {n : ℕ} {o : PyTree σ}
    {res : PyTree (Tree Unit)} (hcall : callAt f ax args n o = .ok res) : CallsTo f ax args n o res := by
  simp only [callAt, bind, Except.bind] at hcall
  split at hcall
  · cases hcall
  rename_i sliced hsl
  refine ⟨sliced, ?_, ?_⟩
  · cases hm : (args.zip ax).mapM (fun (x : Arr × Option ℕ) => indexHelper n x.1 x.2) with
    | none =>
      rw [show (List.mapM (fun x : Arr × Option ℕ => match x with
        | (a, ax) => indexHelper n a ax) (args.zip ax)) = none from hm] at hsl
      simp [orErr] at hsl
    | some l =>
      rw [show (List.mapM (fun x : Arr × Option ℕ => match x with
        | (a, ax) => indexHelper n a ax) (args.zip ax)) = some l from hm] at hsl
      simp only [orErr, Except.ok.injEq] at hsl
      subst hsl
      refine (mapM_some_iff.1 hm).imp ?_
      rintro ⟨a, ax⟩ b hb
      cases ax with
      | none => simp only [indexHelper, Option.some.injEq] at hb; exact hb.symm
      | some k => exact hb
  · cases hf : f o sliced with
    | error e => rw [hf] at hcall; cases hcall
    | ok x => rw [hf] at hcall; simp only [Except.ok.injEq] at hcall; rw [hcall]

/-- **C114 (b).** A result consists, object by object, of the results of the function: its structure is theirs, and every leaf,
indexed at `n` along the axis that `out_axes` gives it (counted from the end if it is negative), is the leaf of the `n`-th object. -/
theorem out_axes_result [DecidableEq σ] (objs : List (PyTree σ)) (hobjs : SpecDeterminesLeaves objs) (f : ObjFun σ (Tree Unit))
    (in_axes : InAxes) (out_axes : Tree (Option ℤ)) (args : Tree Arr) {az : List (Option ℤ)} {ax : List (Option ℕ)}
    (hpre : Prefix (in_axes.normalise args) args az) (hax : AxesMean args.flat az ax) (hsafe : LoopSafe args.flat az)
    (hout : ∀ (s : Tree Unit) (l : List (Option ℤ)), Prefix out_axes s l → none ∉ l)
    (hsize : ∀ a k, (a, some k) ∈ args.flat.zip ax → a.size k = some objs.length) {r : PyTree (Tree Unit)}
    (h : (ObjectStack.init objs).vmapCallOut f in_axes out_axes args = .ok r) {n : ℕ} {o : PyTree σ} (hn : objs[n]? = some o) :
    ∃ res axes, CallsTo f ax args.flat n o res ∧ res.spec = r.spec ∧ Prefix out_axes r.spec axes ∧
      ∀ (i : ℕ) (leaf : Arr), r.leaves[i]? = some leaf → ∃ (a : ℤ) (k : ℕ) (first part : Arr), axes[i]? = some (some a) ∧
        res.leaves[i]? = some part ∧ AxisMeans (first.ndim + 1) a k ∧
        (∃ o0 res0, objs[0]? = some o0 ∧ CallsTo f ax args.flat 0 o0 res0 ∧ res0.leaves[i]? = some first) ∧
        leaf.index k n = some part := by
  rw [out_axes_path objs hobjs f in_axes out_axes args hpre hax hsafe hout hsize] at h
  simp only [plainLoop, bind, Except.bind] at h
  split at h
  · cases h
  rename_i results hres
  have hn' : objs.zipIdx[n]? = some (o, n) := by simp [List.getElem?_zipIdx, hn]
  obtain ⟨res, hresn, hcall⟩ := Forall₂.get? (mapM_ok_iff.1 hres) hn'
  cases results with
  | nil => simp at hresn
  | cons r0 rs =>
    have h0 : ∃ o0, objs[0]? = some o0 := by
      cases objs with
      | nil => simp at hn
      | cons a l => exact ⟨a, rfl⟩
    obtain ⟨o0, h0⟩ := h0
    have h0' : objs.zipIdx[0]? = some (o0, 0) := by simp [List.getElem?_zipIdx, h0]
    obtain ⟨res0, hres0, hcall0⟩ := Forall₂.get? (mapM_ok_iff.1 hres) h0'
    obtain rfl : r0 = res0 := by simpa using hres0
    simp only [assembleZ] at h
    split_ifs at h with hall
    cases hf : flattenAxes out_axes r0.spec with
    | none => rw [hf] at h; cases h
    | some axes =>
      rw [hf] at h
      simp only [orErr, bind, Except.bind] at h
      split at h
      · cases h
      rename_i leaves hleaves
      simp only [pure, Except.pure, Except.ok.injEq] at h
      subst h
      have hp0 := (flattenAxes_iff _ _ _).1 hf
      refine ⟨res, axes, callsTo_of_callAt hcall, ?_, hp0, ?_⟩
      · have := List.all_eq_true.1 hall res (List.mem_of_getElem? hresn)
        simpa using this
      · intro i leaf hi
        obtain ⟨j, hj, hleaf⟩ := Forall₂.get?' (mapM_ok_iff.1 hleaves) hi
        have hij : j = i := by
          have := (List.getElem?_eq_some_iff.1 hj)
          obtain ⟨hlt, h2⟩ := this
          simpa using h2.symm
        subst hij
        simp only [columnZ, bind, Except.bind] at hleaf
        cases hp : (r0 :: rs).mapM (fun r => r.leaves[j]?) with
        | none => rw [hp] at hleaf; simp [orErr] at hleaf
        | some parts =>
          rw [hp] at hleaf
          simp only [orErr] at hleaf
          cases hax' : axes[j]? with
          | none => rw [hax'] at hleaf; simp at hleaf
          | some a' =>
            rw [hax'] at hleaf
            cases a' with
            | none => exact absurd (List.mem_of_getElem? hax') (hout _ _ hp0)
            | some a =>
              obtain ⟨first, hfirst, hpf⟩ := Forall₂.get? (mapM_some_iff.1 hp) hres0
              obtain ⟨part, hpart, hpp⟩ := Forall₂.get? (mapM_some_iff.1 hp) hresn
              have hhead : parts.head? = some first := by rw [List.head?_eq_getElem?]; exact hfirst
              simp only [outLeafZ, hhead, orErr, bind, Except.bind] at hleaf
              cases hk : vmapAxis (first.ndim + 1) a with
              | none => rw [hk] at hleaf; cases hleaf
              | some k =>
                rw [hk] at hleaf
                simp only [outLeaf] at hleaf
                cases hs : stackArr k parts with
                | none => rw [hs] at hleaf; simp [orErr] at hleaf
                | some leaf' =>
                  rw [hs] at hleaf
                  simp only [orErr, Except.ok.injEq] at hleaf
                  subst hleaf
                  exact ⟨a, k, first, part, rfl, hpp, (vmapAxis_iff _ _ _).1 hk,
                    ⟨o0, r0, h0, callsTo_of_callAt hcall0, hpf⟩, index_stackArr hs hpart⟩

/-- **C114 (c).** An `out_axes` that is not a prefix of the structure of the results is rejected. -/
theorem out_axes_not_prefix (f : ObjFun σ (Tree Unit)) (ax : List (Option ℕ)) (out_axes : Tree (Option ℤ)) (objs : List (PyTree σ))
    (args : List Arr) (h : ∀ o res n, callAt f ax args n o = .ok res → ¬∃ l, Prefix out_axes res.spec l) (r : PyTree (Tree Unit)) :
    plainLoop f ax out_axes objs args ≠ .ok r := by
  intro hr
  simp only [plainLoop, bind, Except.bind] at hr
  split at hr
  · cases hr
  rename_i results hres
  cases results with
  | nil => cases hr
  | cons r0 rs =>
    obtain ⟨x, hx, hcall⟩ := Forall₂.get?' (i := 0) (mapM_ok_iff.1 hres) rfl
    have := h _ _ _ hcall
    simp only [assembleZ] at hr
    split_ifs at hr
    cases hf : flattenAxes out_axes r0.spec with
    | none => rw [hf] at hr; cases hr
    | some axes => exact this ⟨axes, (flattenAxes_iff _ _ _).1 hf⟩

/-- non-vacuity: two objects of different structure, a function that returns a pair of an array and a number, `out_axes = (-1, 0)`: the
arrays become the columns of a matrix -/
example :
    let f : ObjFun Bool (Tree Unit) := fun o args => .ok ⟨.cons (.leaf ()) (.cons (.leaf ()) .nil),
      args ++ [.scalar (if o.spec then 5 else 6)]⟩
    let A := Arr.vec [.vec [.scalar 1, .scalar 2], .vec [.scalar 3, .scalar 4]]
    let objs : List (PyTree Bool) := [⟨true, []⟩, ⟨false, []⟩]
    (ObjectStack.init objs).vmapCallOut f (.all (some 0)) (.cons (.leaf (some (-1))) (.cons (.leaf (some 0)) .nil))
        (.cons (.leaf A) .nil) =
      .ok ⟨.cons (.leaf ()) (.cons (.leaf ()) .nil),
        [.vec [.vec [.scalar 1, .scalar 3], .vec [.scalar 2, .scalar 4]], .vec [.scalar 5, .scalar 6]]⟩ ∧
    ∀ (s : Tree Unit) (l : List (Option ℤ)), Prefix (.cons (.leaf (some (-1))) (.cons (.leaf (some 0)) .nil)) s l → none ∉ l := by
  refine ⟨rfl, ?_⟩
  intro s l h
  cases h with
  | cons h1 h2 =>
    cases h1
    cases h2 with
    | cons h3 h4 =>
      cases h3
      cases h4
      simp

end Jaxoplanet.Stack
