import Verif.Model.Stack
import Mathlib.Tactic

/-! Helper lemmas about `mapM`, arrays and stacks. -/

namespace Jaxoplanet.Stack

variable {α β ε : Type}

theorem mapM_ok_iff {f : α → Except ε β} {l : List α} {r : List β} :
    l.mapM f = .ok r ↔ List.Forall₂ (fun a b => f a = .ok b) l r := by
  induction l generalizing r with
  | nil => simp [pure, Except.pure, eq_comm]
  | cons a l ih =>
    rw [List.mapM_cons]
    cases hfa : f a with
    | error e => simp [bind, Except.bind, List.forall₂_cons_left_iff, hfa]
    | ok b =>
      cases hl : l.mapM f with
      | error e =>
        simp only [bind, Except.bind, List.forall₂_cons_left_iff, hfa, reduceCtorEq, false_iff,
          not_exists, not_and]
        rintro b' r' - hr' -
        rw [← ih] at hr'
        rw [hl] at hr'
        cases hr'
      | ok r0 =>
        simp only [bind, Except.bind, pure, Except.pure, Except.ok.injEq,
          List.forall₂_cons_left_iff, hfa]
        constructor
        · rintro rfl
          exact ⟨b, r0, rfl, ih.1 hl, rfl⟩
        · rintro ⟨b', r', rfl, hr', rfl⟩
          rw [← ih, hl] at hr'
          cases hr'
          rfl

theorem mapM_some_iff {f : α → Option β} {l : List α} {r : List β} :
    l.mapM f = some r ↔ List.Forall₂ (fun a b => f a = some b) l r := by
  induction l generalizing r with
  | nil => simp [eq_comm]
  | cons a l ih =>
    rw [List.mapM_cons]
    cases hfa : f a with
    | none => simp [List.forall₂_cons_left_iff, hfa]
    | some b =>
      cases hl : l.mapM f with
      | none =>
        simp only [bind, Option.bind, List.forall₂_cons_left_iff, hfa, reduceCtorEq, false_iff,
          not_exists, not_and]
        rintro b' r' - hr' -
        rw [← ih] at hr'
        rw [hl] at hr'
        cases hr'
      | some r0 =>
        simp only [bind, Option.bind, pure, Option.some.injEq,
          List.forall₂_cons_left_iff, hfa]
        constructor
        · rintro rfl
          exact ⟨b, r0, rfl, ih.1 hl, rfl⟩
        · rintro ⟨b', r', rfl, hr', rfl⟩
          rw [← ih, hl] at hr'
          cases hr'
          rfl

theorem Forall₂.get? {R : α → β → Prop} {l : List α} {r : List β} (h : List.Forall₂ R l r)
    {i : ℕ} {a : α} (hi : l[i]? = some a) : ∃ b, r[i]? = some b ∧ R a b := by
  induction h generalizing i with
  | nil => simp at hi
  | @cons a' b' l r hab hlr ih =>
    cases i with
    | zero => simp at hi; subst hi; exact ⟨b', by simp, hab⟩
    | succ i => simp at hi; simpa using ih hi

theorem Forall₂.get?' {R : α → β → Prop} {l : List α} {r : List β} (h : List.Forall₂ R l r)
    {i : ℕ} {b : β} (hi : r[i]? = some b) : ∃ a, l[i]? = some a ∧ R a b := by
  have := Forall₂.get? (R := fun b a => R a b) h.flip hi
  exact this

theorem mapM_congr' {m : Type → Type} [Monad m] [LawfulMonad m] {f g : α → m β} {l : List α}
    (h : ∀ a ∈ l, f a = g a) : l.mapM f = l.mapM g := by
  induction l with
  | nil => rfl
  | cons a l ih =>
    rw [List.mapM_cons, List.mapM_cons, h a (by simp), ih (fun b hb => h b (by simp [hb]))]

/-- indexing a stack along the stacking axis gives the part back -/
theorem index_stackArr {a : ℕ} {parts : List Arr} {r : Arr} (h : stackArr a parts = some r)
    {n : ℕ} {p : Arr} (hn : parts[n]? = some p) : r.index a n = some p := by
  induction a generalizing parts r p with
  | zero =>
    simp only [stackArr, Option.some.injEq] at h
    subst h
    have hlt : n < parts.length := (List.getElem?_eq_some_iff.1 hn).1
    simp only [Arr.index]
    rw [Nat.min_eq_left (by omega)]
    exact hn
  | succ a ih =>
    simp only [stackArr] at h
    cases hls : parts.mapM Arr.entries with
    | none => rw [hls] at h; simp at h
    | some ls =>
      rw [hls] at h
      cases ls with
      | nil => simp at h
      | cons l0 ls' =>
        simp only [bind, Option.bind] at h
        split_ifs at h with hall
        obtain ⟨l, hl, hpl⟩ := Forall₂.get? (mapM_some_iff.1 hls) hn
        have hp : p = .vec l := by
          cases p with
          | scalar x => simp [Arr.entries] at hpl
          | vec l' => simp only [Arr.entries, Option.some.injEq] at hpl; rw [hpl]
        subst hp
        have hlen : l.length = l0.length := by
          have := List.all_eq_true.1 hall l (List.mem_of_getElem? hl)
          simpa using this
        split at h
        · simp at h
        · rename_i cols hcols
          simp only [pure, Option.some.injEq] at h
          subst h
          have hc := mapM_some_iff.1 hcols
          simp only [Arr.index]
          have : cols.mapM (Arr.index a n) = some l := by
            rw [mapM_some_iff, List.forall₂_iff_get]
            have hclen : cols.length = l0.length := by
              have := hc.length_eq; simpa using this.symm
            refine ⟨by rw [hclen, hlen], ?_⟩
            intro i hi1 hi2
            have hri : (List.range l0.length)[i]? = some i := by
              rw [List.getElem?_range (by omega)]
            obtain ⟨c, hci, hcc⟩ := Forall₂.get? hc hri
            have hcg : cols.get ⟨i, hi1⟩ = c := by
              have := List.getElem?_eq_getElem hi1
              rw [this] at hci
              simpa using hci
            rw [hcg]
            split at hcc
            · simp at hcc
            · rename_i col hcol
              obtain ⟨q, hq, hql⟩ := Forall₂.get? (mapM_some_iff.1 hcol) hl
              have := ih hcc hq
              rw [this, ← hql]
              simp
          rw [this]
          rfl

theorem index_zero_of_lt {l : List Arr} {n : ℕ} (h : n < l.length) :
    (Arr.vec l).index 0 n = l[n]? := by
  simp only [Arr.index]
  rw [Nat.min_eq_left (by omega)]

variable {σ τ : Type}

/-- a tree structure determines the number of leaves -/
def SpecDeterminesLeaves (objs : List (PyTree σ)) : Prop :=
  ∀ o ∈ objs, ∀ o' ∈ objs, o.spec = o'.spec → o.leaves.length = o'.leaves.length

theorem all_spec_of_count [DecidableEq σ] {objs : List (PyTree σ)} {s : σ}
    (h : (objs.map (·.spec)).count s = objs.length) : ∀ o ∈ objs, o.spec = s := by
  intro o ho
  have : (objs.map (·.spec)).count s = (objs.map (·.spec)).length := by simpa using h
  have := List.count_eq_length.1 this
  exact (this o.spec (List.mem_map_of_mem ho)).symm

theorem unstack_stackTrees {objs : List (PyTree σ)} {o0 st : PyTree σ}
    (hspec : ∀ o ∈ objs, o.spec = o0.spec)
    (hlen : ∀ o ∈ objs, o.leaves.length = o0.leaves.length)
    (h : stackTrees objs o0 = some st) {n : ℕ} {o : PyTree σ} (hn : objs[n]? = some o) :
    unstack st n = some o := by
  simp only [stackTrees, bind, Option.bind] at h
  split at h
  · simp at h
  · rename_i leaves hleaves
    simp only [pure, Option.some.injEq] at h
    subst h
    have hmem := List.mem_of_getElem? hn
    have hl := mapM_some_iff.1 hleaves
    have hll : leaves.length = o0.leaves.length := by simpa using hl.length_eq.symm
    have : leaves.mapM (Arr.index 0 n) = some o.leaves := by
      rw [mapM_some_iff, List.forall₂_iff_get]
      refine ⟨by rw [hll, hlen o hmem], ?_⟩
      intro i hi1 hi2
      have hri : (List.range o0.leaves.length)[i]? = some i := by
        rw [List.getElem?_range (by omega)]
      obtain ⟨c, hci, hcc⟩ := Forall₂.get? hl hri
      have hcg : leaves.get ⟨i, hi1⟩ = c := by
        have := List.getElem?_eq_getElem hi1
        rw [this] at hci
        simpa using hci
      rw [hcg]
      split at hcc
      · simp at hcc
      · rename_i parts hparts
        obtain ⟨q, hq, hql⟩ := Forall₂.get? (mapM_some_iff.1 hparts) hn
        rw [index_stackArr hcc hq, ← hql]
        simp
    unfold unstack
    simp only [this, Option.map_some, Option.some.injEq]
    rw [← hspec o hmem]

theorem stackTrees_isSome {objs : List (PyTree σ)} {o0 : PyTree σ}
    (hlen : ∀ o ∈ objs, o.leaves.length = o0.leaves.length) :
    ∃ st, stackTrees objs o0 = some st := by
  have : ∃ leaves, (List.range o0.leaves.length).mapM (fun i => do
      let parts ← objs.mapM fun o => o.leaves[i]?
      stackArr 0 parts) = some leaves := by
    refine ⟨(List.range o0.leaves.length).map (fun i => .vec (objs.filterMap fun o => o.leaves[i]?)),
      ?_⟩
    rw [mapM_some_iff, List.forall₂_map_right_iff, List.forall₂_same]
    intro i hi
    have hi := List.mem_range.1 hi
    have : objs.mapM (fun o => o.leaves[i]?) = some (objs.filterMap fun o => o.leaves[i]?) := by
      induction objs with
      | nil => rfl
      | cons o os ih =>
        have ho := hlen o (by simp)
        have hlt : i < o.leaves.length := by omega
        rw [List.mapM_cons, ih (fun o' h => hlen o' (by simp [h])), List.filterMap_cons,
          List.getElem?_eq_getElem hlt]
        rfl
    rw [this]
    rfl
  obtain ⟨l, hl⟩ := this
  unfold stackTrees
  rw [hl]
  exact ⟨_, rfl⟩

end Jaxoplanet.Stack
