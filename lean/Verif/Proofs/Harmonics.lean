import Verif.Spec.Harmonics
import Mathlib.Tactic

/-! Helper lemmas about dictionaries and dense vectors. -/

namespace Jaxoplanet.Starry

open Spec

variable {κ : Type} [DecidableEq κ]

namespace Dict

/-- keys of a dictionary -/
def keys {κ : Type} (d : Dict κ) : List κ := d.map Prod.fst

omit [DecidableEq κ] in
@[simp] theorem keys_nil : keys ([] : Dict κ) = [] := rfl
omit [DecidableEq κ] in
@[simp] theorem keys_cons (e : κ × ℝ) (d : Dict κ) : keys (e :: d) = e.1 :: keys d := rfl

@[simp] theorem getD0_nil (k : κ) : getD0 ([] : Dict κ) k = 0 := by simp [getD0, get1]
theorem getD0_cons (e : κ × ℝ) (d : Dict κ) (k : κ) :
    getD0 (e :: d) k = if k = e.1 then e.2 else getD0 d k := by
  unfold getD0 get1
  rw [show (e :: d : List (κ × ℝ)) = (e.1, e.2) :: d from rfl, List.lookup_cons]
  by_cases h : k = e.1
  · simp [h]
  · have : (k == e.1) = false := by simpa using h
    simp [h, this]

theorem getD0_of_notMem {d : Dict κ} {k : κ} (h : k ∉ keys d) : getD0 d k = 0 := by
  induction d with
  | nil => simp
  | cons e d ih =>
    rw [keys_cons, List.mem_cons, not_or] at h
    rw [getD0_cons, if_neg h.1, ih h.2]

theorem getD0_of_mem {d : Dict κ} (hd : WF d) {e : κ × ℝ} (h : e ∈ d) : getD0 d e.1 = e.2 := by
  induction d with
  | nil => simp at h
  | cons f d ih =>
    have hn : f.1 ∉ keys d ∧ WF d := by
      unfold WF at hd
      rw [List.map_cons, List.nodup_cons] at hd
      exact hd
    rw [getD0_cons]
    rcases List.mem_cons.1 h with h | h
    · simp [h]
    · rw [if_neg, ih hn.2 h]
      intro hh
      exact hn.1 (hh ▸ List.mem_map_of_mem h)

omit [DecidableEq κ] in
theorem WF.cons_iff {e : κ × ℝ} {d : Dict κ} : WF (e :: d) ↔ e.1 ∉ keys d ∧ WF d := by
  unfold WF keys
  rw [List.map_cons, List.nodup_cons]

theorem keys_accum (d : Dict κ) (k : κ) (v : ℝ) :
    keys (accum d k v) = if k ∈ keys d then keys d else keys d ++ [k] := by
  induction d with
  | nil => simp [accum]
  | cons e d ih =>
    unfold accum
    by_cases h : e.1 = k
    · simp [h]
    · rw [if_neg h, keys_cons, ih]
      by_cases h2 : k ∈ keys d
      · simp [h2]
      · simp [h2, Ne.symm h]

theorem mem_keys_accum (d : Dict κ) (k : κ) (v : ℝ) (k' : κ) :
    k' ∈ keys (accum d k v) ↔ k' ∈ keys d ∨ k' = k := by
  rw [keys_accum]
  split_ifs with h
  · constructor
    · exact Or.inl
    · rintro (h1 | rfl)
      · exact h1
      · exact h
  · simp

theorem accum_ne_nil (d : Dict κ) (k : κ) (v : ℝ) : accum d k v ≠ [] := by
  cases d with
  | nil => simp [accum]
  | cons e d => unfold accum; split_ifs <;> simp

theorem WF.accum {d : Dict κ} (hd : WF d) (k : κ) (v : ℝ) : WF (accum d k v) := by
  show (keys (Dict.accum d k v)).Nodup
  rw [keys_accum]
  split_ifs with h
  · exact hd
  · rw [List.nodup_append]
    refine ⟨hd, by simp, ?_⟩
    intro a ha b hb
    rw [List.mem_singleton] at hb
    rintro rfl
    exact h (hb ▸ ha)

theorem getD0_accum (d : Dict κ) (k : κ) (v : ℝ) (k' : κ) :
    getD0 (accum d k v) k' = getD0 d k' + if k' = k then v else 0 := by
  induction d with
  | nil => simp [accum, getD0_cons]
  | cons e d ih =>
    unfold accum
    by_cases h : e.1 = k
    · rw [if_pos h, getD0_cons, getD0_cons]
      subst h
      by_cases h' : k' = e.1 <;> simp [h']
    · rw [if_neg h, getD0_cons, getD0_cons, ih]
      by_cases h' : k' = e.1
      · subst h'; simp [h]
      · simp [h']

omit [DecidableEq κ] in
theorem WF.sum_eq [DecidableEq κ] {d : Dict κ} (hd : WF d) (S : Finset κ) (hS : ∀ k ∈ keys d, k ∈ S) (f : κ → ℝ) :
    (d.map fun e => e.2 * f e.1).sum = ∑ k ∈ S, getD0 d k * f k := by
  induction d with
  | nil => simp
  | cons e d ih =>
    rw [WF.cons_iff] at hd
    rw [List.map_cons, List.sum_cons, ih hd.2 fun k hk => hS k (by simp [hk])]
    have he : e.1 ∈ S := hS _ (by simp)
    rw [← Finset.add_sum_erase _ _ he, ← Finset.add_sum_erase _ _ he, getD0_cons, if_pos rfl,
      getD0_of_notMem hd.1]
    have : ∀ k ∈ S.erase e.1, getD0 (e :: d) k * f k = getD0 d k * f k := by
      intro k hk
      rw [getD0_cons, if_neg (Finset.ne_of_mem_erase hk)]
    rw [Finset.sum_congr rfl this]
    ring

end Dict

theorem get1_cons (e : κ × ℝ) (d : Dict κ) (k : κ) :
    Dict.get1 (e :: d) k = if k = e.1 then some e.2 else Dict.get1 d k := by
  unfold Dict.get1
  rw [show (e :: d : List (κ × ℝ)) = (e.1, e.2) :: d from rfl, List.lookup_cons]
  by_cases h : k = e.1
  · simp [h]
  · have : (k == e.1) = false := by simpa using h
    simp [h, this]

theorem lookup_map_val (d : Dict κ) (f : ℝ → ℝ) (k : κ) :
    Dict.get1 (d.map fun e => (e.1, f e.2)) k = (Dict.get1 d k).map f := by
  induction d with
  | nil => rfl
  | cons e d ih =>
    rw [List.map_cons, get1_cons, get1_cons, ih]
    split_ifs <;> rfl

theorem lookup_isSome_iff (d : Dict κ) (k : κ) :
    (∃ v, Dict.get1 d k = some v) ↔ k ∈ Dict.keys d := by
  induction d with
  | nil => simp [Dict.get1]
  | cons e d ih =>
    rw [get1_cons, Dict.keys_cons, List.mem_cons]
    by_cases h : k = e.1
    · simp [h]
    · simp [h, ih]

/-! ### index arithmetic -/

theorem sqrt_eq_of_bounds {n l : ℕ} (h1 : l ^ 2 ≤ n) (h2 : n < (l + 1) ^ 2) : Nat.sqrt n = l := by
  symm
  rw [Nat.eq_sqrt]
  constructor
  · nlinarith
  · nlinarith

theorem sqrt_bounds (n : ℕ) : (Nat.sqrt n) ^ 2 ≤ n ∧ n ≤ (Nat.sqrt n) ^ 2 + 2 * Nat.sqrt n := by
  have h1 := Nat.sqrt_le n
  have h2 := Nat.sqrt_lt_self_succ_sq n
  constructor
  · nlinarith
  · omega
where
  /-- strict upper bound -/
  Nat.sqrt_lt_self_succ_sq (n : ℕ) : n < (Nat.sqrt n) ^ 2 + 2 * Nat.sqrt n + 1 := by
    have := Nat.lt_succ_sqrt n
    simp only [Nat.succ_eq_add_one] at this
    nlinarith

theorem index_nonneg {l : ℕ} {m : ℤ} (h : |m| ≤ (l : ℤ)) :
    (l : ℤ) ^ 2 ≤ Ylm.index l m ∧ Ylm.index l m ≤ (l : ℤ) ^ 2 + 2 * l := by
  rw [abs_le] at h
  unfold Ylm.index
  constructor <;> nlinarith

theorem lmOfIndex_index' {l : ℕ} {m : ℤ} (h : |m| ≤ (l : ℤ)) {n : ℕ} (hn : (n : ℤ) = Ylm.index l m) :
    lmOfIndex n = (l, m) := by
  have hb := index_nonneg h
  have hs : Nat.sqrt n = l := by
    apply sqrt_eq_of_bounds
    · have := hb.1; rw [← hn] at this; exact_mod_cast this
    · have := hb.2; rw [← hn] at this
      have : n ≤ l ^ 2 + 2 * l := by exact_mod_cast this
      nlinarith
  unfold lmOfIndex
  rw [hs, hn]
  unfold Ylm.index
  ext <;> simp

theorem index_lmOfIndex' (n : ℕ) :
    Ylm.index (lmOfIndex n).1 (lmOfIndex n).2 = n ∧ |(lmOfIndex n).2| ≤ ((lmOfIndex n).1 : ℤ) := by
  have h := sqrt_bounds n
  unfold lmOfIndex Ylm.index
  simp only
  constructor
  · ring
  · have h1 : ((Nat.sqrt n : ℤ)) ^ 2 ≤ n := by exact_mod_cast h.1
    have h2 : (n : ℤ) ≤ (Nat.sqrt n : ℤ) ^ 2 + 2 * Nat.sqrt n := by exact_mod_cast h.2
    rw [abs_le]
    constructor <;> nlinarith

theorem bcooDense_length (es : List (ℤ × ℝ)) (n : ℕ) : (bcooDense es n).length = n := by
  simp [bcooDense]

/-- the dense vector of a dictionary whose keys are sent to distinct indices -/
theorem bcooDense_getD {d : Dict κ} (hd : Dict.WF d) (ix : κ → ℤ) {n i : ℕ} (hi : i < n) (k : κ)
    (hk : ix k = i) (hinj : ∀ e ∈ d, ix e.1 = i → e.1 = k) :
    (bcooDense (d.map fun e => (ix e.1, e.2)) n).getD i 0 = Dict.getD0 d k := by
  have h0 : (bcooDense (d.map fun e => (ix e.1, e.2)) n).getD i 0 =
      (((d.map fun e => (ix e.1, e.2)).filter fun e => e.1 = (i : ℤ)).map Prod.snd).sum := by
    rw [List.getD_eq_getElem?_getD]
    simp [bcooDense, hi]
  rw [h0]
  clear h0
  induction d with
  | nil => simp
  | cons e d ih =>
    rw [Dict.WF.cons_iff] at hd
    have ih' := ih hd.2 fun f hf => hinj f (List.mem_cons_of_mem _ hf)
    rw [List.map_cons, List.filter_cons, Dict.getD0_cons]
    by_cases hke : ix e.1 = i
    · have hek := hinj e (by simp) hke
      simp only [hek, hk, decide_true, if_true, List.map_cons, List.sum_cons]
      rw [ih', Dict.getD0_of_notMem (hek ▸ hd.1)]
      ring
    · have : k ≠ e.1 := fun h => hke (h ▸ hk)
      simp only [hke, decide_false, Bool.false_eq_true, if_false, this]
      exact ih'

end Jaxoplanet.Starry
