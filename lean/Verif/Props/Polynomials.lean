import Verif.Proofs.Harmonics

/-!
# C41: `Pijk` arithmetic is polynomial arithmetic on the sphere
-/

namespace Jaxoplanet.Starry

open Spec

/-! ## index maps -/

theorem ijk2lm_eq (i j k : ℕ) (hk : k ≤ 1) :
    ijk2lm (i, j, k) = ((i : ℤ) + j + k, (j : ℤ) - i) := by
  unfold ijk2lm
  rcases (by omega : k = 0 ∨ k = 1) with rfl | rfl
  · simp only [if_true, Prod.mk.injEq]
    constructor
    · rw [show (2 * (j : ℤ) + 2 * i) = ((i : ℤ) + j) * 2 by ring, Int.mul_tdiv_cancel _ (by norm_num)]; simp
    · rw [show (2 * (j : ℤ) - 2 * i) = ((j : ℤ) - i) * 2 by ring, Int.mul_tdiv_cancel _ (by norm_num)]
  · simp only [one_ne_zero, if_false, Prod.mk.injEq]
    constructor
    · rw [show (2 * (j : ℤ) + 1 + (2 * i + 1)) = ((i : ℤ) + j + 1) * 2 by ring,
        Int.mul_tdiv_cancel _ (by norm_num)]; simp
    · rw [show (2 * (j : ℤ) + 1 - (2 * i + 1)) = ((j : ℤ) - i) * 2 by ring,
        Int.mul_tdiv_cancel _ (by norm_num)]

theorem pIndex_eq (i j k : ℕ) (hk : k ≤ 1) :
    pIndex (i, j, k) = (((i + j + k) ^ 2 + (2 * j + k) : ℕ) : ℤ) := by
  unfold pIndex
  rw [ijk2lm_eq i j k hk]
  push_cast
  ring

/-- C41: `n2lm` and `lm2n` are mutually inverse on `|m| ≤ l` -/
theorem n2lm_lm2n :
    (∀ n : ℕ, lm2n (n2lm n).1 (n2lm n).2 = n ∧ |(n2lm n).2| ≤ ((n2lm n).1 : ℤ)) ∧
    (∀ (l : ℕ) (m : ℤ), |m| ≤ (l : ℤ) → n2lm (lm2n l m).toNat = (l, m)) := by
  have e1 : ∀ n, n2lm n = lmOfIndex n := by
    intro n; unfold n2lm lmOfIndex; ext <;> simp only; ring
  have e2 : ∀ l m, lm2n l m = Ylm.index l m := by intro l m; unfold lm2n Ylm.index; ring
  refine ⟨fun n => ?_, fun l m h => ?_⟩
  · rw [e1, e2]; exact index_lmOfIndex' n
  · rw [e1, e2]
    refine lmOfIndex_index' h (Int.toNat_of_nonneg ?_)
    have := (index_nonneg h).1
    nlinarith

/-- C41: `ijk2lm` and `lm2ijk` are mutually inverse between `{k ≤ 1}` and `{|m| ≤ l}` -/
theorem ijk2lm_lm2ijk :
    (∀ i j k : ℕ, k ≤ 1 → ∃ l : ℕ, ∃ m : ℤ, ijk2lm (i, j, k) = ((l : ℤ), m) ∧ |m| ≤ (l : ℤ) ∧
      lm2ijk l m = ((i : ℤ), (j : ℤ), (k : ℤ))) ∧
    (∀ (l : ℕ) (m : ℤ), |m| ≤ (l : ℤ) → ∃ i j k : ℕ, k ≤ 1 ∧ lm2ijk l m = ((i : ℤ), (j : ℤ), (k : ℤ)) ∧
      ijk2lm (i, j, k) = ((l : ℤ), m)) := by
  constructor
  · intro i j k hk
    refine ⟨i + j + k, (j : ℤ) - i, ?_, ?_, ?_⟩
    · rw [ijk2lm_eq i j k hk]; push_cast; rfl
    · rw [abs_le]; push_cast; constructor <;> omega
    · unfold lm2ijk
      push_cast
      rcases (by omega : k = 0 ∨ k = 1) with rfl | rfl
      · rw [if_pos (by omega)]
        simp only [Nat.cast_zero, Prod.mk.injEq]
        refine ⟨by omega, by omega, trivial⟩
      · rw [if_neg (by omega)]
        simp only [Nat.cast_one, Prod.mk.injEq]
        refine ⟨by omega, by omega, trivial⟩
  · intro l m h
    rw [abs_le] at h
    unfold lm2ijk
    by_cases hp : ((l : ℤ) + m) % 2 = 0
    · refine ⟨(((l : ℤ) - m) / 2).toNat, (((l : ℤ) + m) / 2).toNat, 0, by norm_num, ?_, ?_⟩
      · simp only [hp, if_true, Prod.mk.injEq]
        refine ⟨by omega, by omega, rfl⟩
      · rw [ijk2lm_eq _ _ _ (by norm_num)]
        ext
        · push_cast; omega
        · simp only; omega
    · refine ⟨(((l : ℤ) - m - 1) / 2).toNat, (((l : ℤ) + m - 1) / 2).toNat, 1, le_rfl, ?_, ?_⟩
      · simp only [hp, if_false, Prod.mk.injEq]
        refine ⟨by omega, by omega, rfl⟩
      · rw [ijk2lm_eq _ _ _ le_rfl]
        ext
        · push_cast; omega
        · simp only; omega

theorem n2ijk_eq (n : ℕ) :
    n2ijk n = ((2 * Nat.sqrt n - (n - Nat.sqrt n ^ 2)) / 2, (n - Nat.sqrt n ^ 2) / 2, (n - Nat.sqrt n ^ 2) % 2) := by
  have hb := sqrt_bounds n
  unfold n2ijk lm2ijk n2lm
  simp only
  generalize hs : Nat.sqrt n = l at hb
  obtain ⟨q, hq⟩ : ∃ q : ℕ, n = l ^ 2 + q := ⟨n - l ^ 2, by omega⟩
  have h2 : q ≤ 2 * l := by omega
  have e1 : n - l ^ 2 = q := by omega
  have e2 : (n : ℤ) - (l : ℤ) ^ 2 - l = (q : ℤ) - l := by rw [hq]; push_cast; ring
  rw [e1, e2]
  by_cases hp : ((l : ℤ) + ((q : ℤ) - l)) % 2 = 0
  · rw [if_pos hp]
    ext <;> simp only <;> omega
  · rw [if_neg hp]
    ext <;> simp only <;> omega

/-- C41: the flattened index and `n2ijk` are mutually inverse between `{k ≤ 1}` and the naturals -/
theorem pIndex_n2ijk :
    (∀ n : ℕ, (n2ijk n).2.2 ≤ 1 ∧ pIndex (n2ijk n) = n) ∧
    (∀ e : Ijk, e.2.2 ≤ 1 → 0 ≤ pIndex e ∧ n2ijk (pIndex e).toNat = e) := by
  constructor
  · intro n
    have hb := sqrt_bounds n
    rw [n2ijk_eq]
    generalize hs : Nat.sqrt n = l at hb
    obtain ⟨q, hq⟩ : ∃ q : ℕ, n = l ^ 2 + q := ⟨n - l ^ 2, by omega⟩
    have h2 : q ≤ 2 * l := by omega
    have e1 : n - l ^ 2 = q := by omega
    rw [e1]
    refine ⟨by simp only; omega, ?_⟩
    rw [pIndex_eq _ _ _ (by omega)]
    have h3 : (2 * l - q) / 2 + q / 2 + q % 2 = l := by omega
    have h4 : 2 * (q / 2) + q % 2 = q := by omega
    rw [h3, h4, hq]
  · rintro ⟨i, j, k⟩ hk
    simp only at hk
    rw [pIndex_eq i j k hk]
    refine ⟨by positivity, ?_⟩
    rw [Int.toNat_natCast, n2ijk_eq]
    have hs : Nat.sqrt ((i + j + k) ^ 2 + (2 * j + k)) = i + j + k := by
      apply sqrt_eq_of_bounds
      · omega
      · have : (i + j + k + 1) ^ 2 = (i + j + k) ^ 2 + 2 * (i + j + k) + 1 := by ring
        omega
    rw [hs]
    have e1 : (i + j + k) ^ 2 + (2 * j + k) - (i + j + k) ^ 2 = 2 * j + k := by omega
    rw [e1]
    ext <;> simp only <;> omega

/-! ## construction -/

theorem make_ok {d : Dict Ijk} (hd : ValidPoly d) (deg : Option ℕ) :
    ∃ p, Pijk.make d deg = .ok p ∧ p.data = d ∧ (∀ n, deg = some n → p.degree = n) ∧
      (deg = none → (∀ e ∈ d, e.1.1 + e.1.2.1 + e.1.2.2 ≤ p.degree) ∧
        ∃ e ∈ d, e.1.1 + e.1.2.1 + e.1.2.2 = p.degree) := by
  have h1 : (d.any fun e => e.1.2.2 > 1) = false := by
    rw [Bool.eq_false_iff]
    intro h
    rw [List.any_eq_true] at h
    obtain ⟨e, he, h⟩ := h
    have := hd.zle e he
    simp at h
    omega
  have h2 : d.isEmpty = false := by
    cases d with
    | nil => exact absurd rfl hd.nonempty
    | cons e d => rfl
  unfold Pijk.make
  rw [h1]
  cases deg with
  | some n => exact ⟨_, rfl, rfl, fun m hm => by simpa using hm, fun h => by simp at h⟩
  | none =>
    simp only [h2, Bool.false_eq_true, if_false]
    refine ⟨_, rfl, rfl, by simp, fun _ => ?_⟩
    have hl : ∀ e ∈ d, (ijk2lm e.1).1.toNat = e.1.1 + e.1.2.1 + e.1.2.2 := by
      intro e he
      rw [show e.1 = (e.1.1, e.1.2.1, e.1.2.2) from rfl, ijk2lm_eq _ _ _ (hd.zle e he)]
      simp only
      omega
    have hmap : (d.map fun e => (ijk2lm e.1).1.toNat) = d.map fun e => e.1.1 + e.1.2.1 + e.1.2.2 :=
      List.map_congr_left hl
    simp only [hmap]
    have hne := hd.nonempty
    clear hl hmap h1 h2 hd
    constructor
    · intro e he
      induction d with
      | nil => simp at he
      | cons f d ih =>
        rw [List.map_cons, List.foldr_cons]
        rcases List.mem_cons.1 he with h | h
        · rw [h]; exact le_max_left _ _
        · by_cases hd : d = []
          · simp [hd] at h
          · exact le_trans (ih hd h) (le_max_right _ _)
    · induction d with
      | nil => exact absurd rfl hne
      | cons f d ih =>
        rw [List.map_cons, List.foldr_cons]
        by_cases hd : d = []
        · exact ⟨f, by simp, by simp [hd]⟩
        · obtain ⟨e, he, h⟩ := ih hd
          rcases le_total (f.1.1 + f.1.2.1 + f.1.2.2)
            ((d.map fun e => e.1.1 + e.1.2.1 + e.1.2.2).foldr max 0) with hm | hm
          · exact ⟨e, List.mem_cons_of_mem _ he, by rw [max_eq_right hm, h]⟩
          · exact ⟨f, by simp, by rw [max_eq_left hm]⟩

/-- C41: a power of `z` above one is refused; so is an empty polynomial of unknown degree -/
theorem make_errors (d : Dict Ijk) (deg : Option ℕ) :
    ((∃ e ∈ d, 1 < e.1.2.2) → Pijk.make d deg = .error .assertionError) ∧
    (Pijk.make [] none = .error (.valueError "max() arg is an empty sequence")) := by
  constructor
  · rintro ⟨e, he, h⟩
    have : (d.any fun e => e.1.2.2 > 1) = true := List.any_eq_true.2 ⟨e, he, by simpa using h⟩
    unfold Pijk.make
    rw [this]
    rfl
  · rfl

/-! ## addition -/

theorem polyVal_cons (e : Ijk × ℝ) (d : Dict Ijk) (x y z : ℝ) :
    polyVal (e :: d) x y z = e.2 * mono x y z e.1 + polyVal d x y z := by
  simp [polyVal, mono]

theorem polyVal_accum (d : Dict Ijk) (k : Ijk) (v x y z : ℝ) :
    polyVal (Dict.accum d k v) x y z = polyVal d x y z + v * mono x y z k := by
  induction d with
  | nil => simp [Dict.accum, polyVal, mono]
  | cons e d ih =>
    unfold Dict.accum
    split_ifs with h
    · rw [polyVal_cons, polyVal_cons]
      simp only [h]
      ring
    · rw [polyVal_cons, ih, polyVal_cons]
      simp only
      ring

/-- the first loop of `_add` -/
theorem addLoop1 (u d : Dict Ijk) (g : Ijk → ℝ) (hd : Dict.WF d) :
    let r := u.foldl (fun d e => Dict.accum d e.1 (e.2 + g e.1)) d
    Dict.WF r ∧ (∀ k, k ∈ Dict.keys r ↔ k ∈ Dict.keys d ∨ k ∈ Dict.keys u) ∧
    ∀ x y z, polyVal r x y z =
      polyVal d x y z + polyVal u x y z + (u.map fun e => g e.1 * mono x y z e.1).sum := by
  induction u generalizing d with
  | nil => exact ⟨hd, by simp, by simp [polyVal]⟩
  | cons e u ih =>
    obtain ⟨h1, h2, h3⟩ := ih (Dict.accum d e.1 (e.2 + g e.1)) (hd.accum _ _)
    refine ⟨h1, fun k => ?_, fun x y z => ?_⟩
    · rw [List.foldl_cons, h2, Dict.mem_keys_accum, Dict.keys_cons, List.mem_cons, or_assoc]
    · rw [List.foldl_cons, h3, polyVal_accum, polyVal_cons, List.map_cons, List.sum_cons]
      ring

/-- the second loop of `_add` -/
theorem addLoop2 (v d : Dict Ijk) (g : Ijk → ℝ) (hd : Dict.WF d) (hv : Dict.WF v) :
    let r := v.foldl (fun d e => if e.1 ∈ d.map Prod.fst then d else Dict.accum d e.1 (e.2 + g e.1)) d
    Dict.WF r ∧ (∀ k, k ∈ Dict.keys r ↔ k ∈ Dict.keys d ∨ k ∈ Dict.keys v) ∧
    ∀ x y z, polyVal r x y z = polyVal d x y z +
      (v.map fun e => if e.1 ∈ Dict.keys d then 0 else (e.2 + g e.1) * mono x y z e.1).sum := by
  induction v generalizing d with
  | nil => exact ⟨hd, by simp, by simp⟩
  | cons e v ih =>
    rw [Dict.WF.cons_iff] at hv
    rw [List.foldl_cons]
    by_cases he : e.1 ∈ Dict.keys d
    · rw [if_pos (show e.1 ∈ d.map Prod.fst from he)]
      obtain ⟨h1, h2, h3⟩ := ih d hd hv.2
      refine ⟨h1, fun k => ?_, fun x y z => ?_⟩
      · rw [h2, Dict.keys_cons, List.mem_cons]
        constructor
        · rintro (h | h)
          · exact Or.inl h
          · exact Or.inr (Or.inr h)
        · rintro (h | rfl | h)
          · exact Or.inl h
          · exact Or.inl he
          · exact Or.inr h
      · rw [h3, List.map_cons, List.sum_cons, if_pos he, zero_add]
    · rw [if_neg (show e.1 ∉ d.map Prod.fst from he)]
      obtain ⟨h1, h2, h3⟩ := ih (Dict.accum d e.1 (e.2 + g e.1)) (hd.accum _ _) hv.2
      refine ⟨h1, fun k => ?_, fun x y z => ?_⟩
      · rw [h2, Dict.mem_keys_accum, Dict.keys_cons, List.mem_cons, or_assoc]
      · rw [h3, polyVal_accum, List.map_cons, List.sum_cons, if_neg he]
        have : (v.map fun f => if f.1 ∈ Dict.keys (Dict.accum d e.1 (e.2 + g e.1)) then (0 : ℝ) else
            (f.2 + g f.1) * mono x y z f.1) =
            v.map fun f => if f.1 ∈ Dict.keys d then 0 else (f.2 + g f.1) * mono x y z f.1 := by
          apply List.map_congr_left
          intro f hf
          have : f.1 ≠ e.1 := fun h => hv.1 (h ▸ List.mem_map_of_mem hf)
          simp only [Dict.mem_keys_accum, this, or_false]
        rw [this]
        ring

theorem sum_getD0_split (u v : Dict Ijk) (hu : Dict.WF u) (hv : Dict.WF v) (x y z : ℝ) :
    (u.map fun e => Dict.getD0 v e.1 * mono x y z e.1).sum +
      (v.map fun e => if e.1 ∈ Dict.keys u then 0 else e.2 * mono x y z e.1).sum = polyVal v x y z := by
  induction u with
  | nil => simp [polyVal, mono]
  | cons f u ih =>
    rw [Dict.WF.cons_iff] at hu
    rw [← ih hu.2, List.map_cons, List.sum_cons]
    have key : ∀ w : Dict Ijk, Dict.WF w →
        Dict.getD0 w f.1 * mono x y z f.1 +
          (w.map fun e => if e.1 ∈ Dict.keys (f :: u) then 0 else e.2 * mono x y z e.1).sum =
        (w.map fun e => if e.1 ∈ Dict.keys u then 0 else e.2 * mono x y z e.1).sum := by
      intro w hw
      induction w with
      | nil => simp
      | cons e w ihw =>
        rw [Dict.WF.cons_iff] at hw
        have ih2 := ihw hw.2
        rw [List.map_cons, List.sum_cons, List.map_cons, List.sum_cons, Dict.getD0_cons]
        by_cases h : f.1 = e.1
        · rw [if_pos h, if_pos (by simp [h]), if_neg (h ▸ hu.1), ← ih2,
            Dict.getD0_of_notMem (h ▸ hw.1), h]
          ring
        · rw [if_neg h, ← ih2]
          have : (e.1 ∈ Dict.keys (f :: u)) ↔ e.1 ∈ Dict.keys u := by simp [Ne.symm h]
          simp only [this]
          ring
    rw [← key v hv]
    ring

/-- C41: the sum of two polynomials evaluates, at every point, to the sum of their values; it is again a
well formed polynomial with `k ≤ 1`, its degree is the larger of the two -/
theorem pijk_add (u v : Pijk) (hu : ValidPoly u.data) (hv : ValidPoly v.data) :
    ∃ w, u.add v = .ok w ∧ ValidPoly w.data ∧
      (∀ x y z, polyVal w.data x y z = polyVal u.data x y z + polyVal v.data x y z) ∧
      (∀ k, k ∈ Dict.keys w.data ↔ k ∈ Dict.keys u.data ∨ k ∈ Dict.keys v.data) ∧
      (∀ e ∈ w.data, e.1.1 + e.1.2.1 + e.1.2.2 ≤ w.degree) := by
  obtain ⟨a1, a2, a3⟩ := addLoop1 u.data [] (Dict.getD0 v.data) (by simp [Dict.WF])
  obtain ⟨b1, b2, b3⟩ := addLoop2 v.data _ (Dict.getD0 u.data) a1 hv.wf
  have hkeys : ∀ k, k ∈ Dict.keys (v.data.foldl (fun d e => if e.1 ∈ d.map Prod.fst then d else
      Dict.accum d e.1 (e.2 + Dict.getD0 u.data e.1))
        (u.data.foldl (fun d e => Dict.accum d e.1 (e.2 + Dict.getD0 v.data e.1)) [])) ↔
      k ∈ Dict.keys u.data ∨ k ∈ Dict.keys v.data := by
    intro k
    rw [b2, a2]
    simp
  have hval : ValidPoly (v.data.foldl (fun d e => if e.1 ∈ d.map Prod.fst then d else
      Dict.accum d e.1 (e.2 + Dict.getD0 u.data e.1))
        (u.data.foldl (fun d e => Dict.accum d e.1 (e.2 + Dict.getD0 v.data e.1)) [])) := by
    refine ⟨b1, fun h0 => ?_, fun e he => ?_⟩
    · obtain ⟨e, he⟩ := List.exists_mem_of_ne_nil _ hu.nonempty
      have := (hkeys e.1).2 (Or.inl (List.mem_map_of_mem he))
      rw [h0] at this
      simp at this
    · rcases (hkeys e.1).1 (List.mem_map_of_mem he) with h | h
      · obtain ⟨f, hf, hfe⟩ := List.mem_map.1 h
        rw [← hfe]; exact hu.zle f hf
      · obtain ⟨f, hf, hfe⟩ := List.mem_map.1 h
        rw [← hfe]; exact hv.zle f hf
  obtain ⟨w, hw, hd, _, hdeg⟩ := make_ok hval none
  refine ⟨w, hw, hd ▸ hval, fun x y z => ?_, fun k => by rw [hd]; exact hkeys k, ?_⟩
  · rw [hd, b3, a3]
    rw [← sum_getD0_split u.data v.data hu.wf hv.wf x y z]
    have : (v.data.map fun e => if e.1 ∈ Dict.keys
        (u.data.foldl (fun d e => Dict.accum d e.1 (e.2 + Dict.getD0 v.data e.1)) []) then (0 : ℝ) else
          (e.2 + Dict.getD0 u.data e.1) * mono x y z e.1) =
        v.data.map fun e => if e.1 ∈ Dict.keys u.data then 0 else e.2 * mono x y z e.1 := by
      apply List.map_congr_left
      intro e he
      simp only [a2, Dict.keys_nil, List.not_mem_nil, false_or]
      split_ifs with h
      · rfl
      · rw [Dict.getD0_of_notMem h, add_zero]
    rw [this]
    simp only [polyVal, List.map_nil, List.sum_nil]
    ring
  · rw [hd]
    exact (hdeg rfl).1

/-! ## multiplication -/

theorem mono_mul (x y z : ℝ) (i1 j1 k1 i2 j2 k2 : ℕ) :
    mono x y z (i1, j1, k1) * mono x y z (i2, j2, k2) = mono x y z (i1 + i2, j1 + j2, k1 + k2) := by
  simp only [mono, pow_add]
  ring

theorem mulTerm_spec (d : Dict Ijk) (e1 e2 : Ijk × ℝ) (h1 : e1.1.2.2 ≤ 1) (h2 : e2.1.2.2 ≤ 1) (hd : Dict.WF d) :
    Dict.WF (mulTerm d e1 e2) ∧
    (∀ k ∈ Dict.keys (mulTerm d e1 e2), k ∈ Dict.keys d ∨
      (k.2.2 ≤ 1 ∧ k.1 + k.2.1 + k.2.2 ≤ (e1.1.1 + e1.1.2.1 + e1.1.2.2) + (e2.1.1 + e2.1.2.1 + e2.1.2.2))) ∧
    (∀ k ∈ Dict.keys d, k ∈ Dict.keys (mulTerm d e1 e2)) ∧
    (∃ k ∈ Dict.keys (mulTerm d e1 e2),
      k.1 + k.2.1 + k.2.2 = (e1.1.1 + e1.1.2.1 + e1.1.2.2) + (e2.1.1 + e2.1.2.1 + e2.1.2.2)) ∧
    ∀ x y z, x ^ 2 + y ^ 2 + z ^ 2 = 1 → polyVal (mulTerm d e1 e2) x y z =
      polyVal d x y z + (e1.2 * mono x y z e1.1) * (e2.2 * mono x y z e2.1) := by
  obtain ⟨⟨i1, j1, k1⟩, v1⟩ := e1
  obtain ⟨⟨i2, j2, k2⟩, v2⟩ := e2
  simp only at h1 h2
  unfold mulTerm
  simp only
  by_cases h : k1 + k2 = 2
  · obtain ⟨rfl, rfl⟩ : k1 = 1 ∧ k2 = 1 := by omega
    simp only [show (1 + 1 = 2) from rfl, if_true]
    refine ⟨((hd.accum _ _).accum _ _).accum _ _, ?_, ?_, ?_, ?_⟩
    · intro k hk
      simp only [Dict.mem_keys_accum] at hk
      rcases hk with ((h | rfl) | rfl) | rfl
      · exact Or.inl h
      · right; simp only; omega
      · right; simp only; omega
      · right; simp only; omega
    · intro k hk
      simp only [Dict.mem_keys_accum]
      tauto
    · refine ⟨(i1 + i2 + 2, j1 + j2, 0), ?_, ?_⟩
      · simp only [Dict.mem_keys_accum]; tauto
      · simp only; omega
    · intro x y z hs
      rw [polyVal_accum, polyVal_accum, polyVal_accum]
      have e : (v1 * mono x y z (i1, j1, 1)) * (v2 * mono x y z (i2, j2, 1)) =
          v1 * v2 * mono x y z (i1 + i2, j1 + j2, 2) := by
        rw [← mono_mul x y z i1 j1 1 i2 j2 1]; ring
      rw [e]
      simp only [mono, pow_add, pow_zero, mul_one]
      linear_combination (-v1 * v2 * (x ^ i1 * x ^ i2 * (y ^ j1 * y ^ j2))) * hs
  · rw [if_neg h]
    refine ⟨hd.accum _ _, ?_, ?_, ?_, ?_⟩
    · intro k hk
      rw [Dict.mem_keys_accum] at hk
      rcases hk with h' | rfl
      · exact Or.inl h'
      · right; simp only; omega
    · intro k hk
      rw [Dict.mem_keys_accum]
      exact Or.inl hk
    · exact ⟨_, (Dict.mem_keys_accum _ _ _ _).2 (Or.inr rfl), by simp only; omega⟩
    · intro x y z _
      rw [polyVal_accum, ← mono_mul]
      ring

theorem mulLoop2 (v d : Dict Ijk) (e1 : Ijk × ℝ) (h1 : e1.1.2.2 ≤ 1) (hv : ∀ e ∈ v, e.1.2.2 ≤ 1)
    (hd : Dict.WF d) :
    let r := v.foldl (fun d e2 => mulTerm d e1 e2) d
    Dict.WF r ∧
    (∀ k ∈ Dict.keys r, k ∈ Dict.keys d ∨ ∃ e2 ∈ v,
      (k.2.2 ≤ 1 ∧ k.1 + k.2.1 + k.2.2 ≤ (e1.1.1 + e1.1.2.1 + e1.1.2.2) + (e2.1.1 + e2.1.2.1 + e2.1.2.2))) ∧
    (∀ k ∈ Dict.keys d, k ∈ Dict.keys r) ∧
    (∀ e2 ∈ v, ∃ k ∈ Dict.keys r,
      k.1 + k.2.1 + k.2.2 = (e1.1.1 + e1.1.2.1 + e1.1.2.2) + (e2.1.1 + e2.1.2.1 + e2.1.2.2)) ∧
    ∀ x y z, x ^ 2 + y ^ 2 + z ^ 2 = 1 → polyVal r x y z =
      polyVal d x y z + (e1.2 * mono x y z e1.1) * polyVal v x y z := by
  induction v generalizing d with
  | nil => exact ⟨hd, by simp, by simp, by simp, by simp [polyVal]⟩
  | cons e v ih =>
    obtain ⟨a1, a2, a3, a4, a5⟩ := mulTerm_spec d e1 e h1 (hv e (by simp)) hd
    obtain ⟨b1, b2, b3, b4, b5⟩ := ih (mulTerm d e1 e) (fun f hf => hv f (by simp [hf])) a1
    refine ⟨b1, fun k hk => ?_, fun k hk => b3 k (a3 k hk), fun e2 he2 => ?_, fun x y z hs => ?_⟩
    · rcases b2 k hk with h | ⟨e2, he2, h⟩
      · rcases a2 k h with h | h
        · exact Or.inl h
        · exact Or.inr ⟨e, by simp, h⟩
      · exact Or.inr ⟨e2, by simp [he2], h⟩
    · rcases List.mem_cons.1 he2 with rfl | h
      · obtain ⟨k, hk, hh⟩ := a4
        exact ⟨k, b3 k hk, hh⟩
      · exact b4 e2 h
    · rw [List.foldl_cons, b5 x y z hs, a5 x y z hs, polyVal_cons]
      ring

theorem mulLoop1 (u v d : Dict Ijk) (hu : ∀ e ∈ u, e.1.2.2 ≤ 1) (hv : ∀ e ∈ v, e.1.2.2 ≤ 1)
    (hd : Dict.WF d) :
    let r := u.foldl (fun d e1 => v.foldl (fun d e2 => mulTerm d e1 e2) d) d
    Dict.WF r ∧
    (∀ k ∈ Dict.keys r, k ∈ Dict.keys d ∨ ∃ e1 ∈ u, ∃ e2 ∈ v,
      (k.2.2 ≤ 1 ∧ k.1 + k.2.1 + k.2.2 ≤ (e1.1.1 + e1.1.2.1 + e1.1.2.2) + (e2.1.1 + e2.1.2.1 + e2.1.2.2))) ∧
    (∀ k ∈ Dict.keys d, k ∈ Dict.keys r) ∧
    (∀ e1 ∈ u, ∀ e2 ∈ v, ∃ k ∈ Dict.keys r,
      k.1 + k.2.1 + k.2.2 = (e1.1.1 + e1.1.2.1 + e1.1.2.2) + (e2.1.1 + e2.1.2.1 + e2.1.2.2)) ∧
    ∀ x y z, x ^ 2 + y ^ 2 + z ^ 2 = 1 → polyVal r x y z =
      polyVal d x y z + polyVal u x y z * polyVal v x y z := by
  induction u generalizing d with
  | nil => exact ⟨hd, by simp, by simp, by simp, by simp [polyVal]⟩
  | cons e u ih =>
    obtain ⟨a1, a2, a3, a4, a5⟩ := mulLoop2 v d e (hu e (by simp)) hv hd
    obtain ⟨b1, b2, b3, b4, b5⟩ := ih (v.foldl (fun d e2 => mulTerm d e e2) d)
      (fun f hf => hu f (by simp [hf])) a1
    refine ⟨b1, fun k hk => ?_, fun k hk => b3 k (a3 k hk), fun e1 he1 => ?_, fun x y z hs => ?_⟩
    · rcases b2 k hk with h | ⟨e1, he1, h⟩
      · rcases a2 k h with h | h
        · exact Or.inl h
        · exact Or.inr ⟨e, by simp, h⟩
      · exact Or.inr ⟨e1, by simp [he1], h⟩
    · rcases List.mem_cons.1 he1 with rfl | h
      · intro e2 he2
        obtain ⟨k, hk, hh⟩ := a4 e2 he2
        exact ⟨k, b3 k hk, hh⟩
      · exact b4 e1 h
    · rw [List.foldl_cons, b5 x y z hs, a5 x y z hs, polyVal_cons]
      ring

/-- C41: the product of two polynomials evaluates, at every point of the unit sphere, to the product of
their values; it is again well formed with `k ≤ 1`, and its degree is the sum of the degrees -/
theorem pijk_mul (u v : Pijk) (hu : ValidPoly u.data) (hv : ValidPoly v.data) :
    ∃ w, u.mul v = .ok w ∧ ValidPoly w.data ∧
      (∀ x y z, x ^ 2 + y ^ 2 + z ^ 2 = 1 →
        polyVal w.data x y z = polyVal u.data x y z * polyVal v.data x y z) ∧
      (∀ e ∈ w.data, e.1.1 + e.1.2.1 + e.1.2.2 ≤ w.degree) ∧
      ∀ a b : ℕ, (∀ e ∈ u.data, e.1.1 + e.1.2.1 + e.1.2.2 ≤ a) → (∃ e ∈ u.data, e.1.1 + e.1.2.1 + e.1.2.2 = a) →
        (∀ e ∈ v.data, e.1.1 + e.1.2.1 + e.1.2.2 ≤ b) → (∃ e ∈ v.data, e.1.1 + e.1.2.1 + e.1.2.2 = b) →
        w.degree = a + b := by
  obtain ⟨a1, a2, _, a4, a5⟩ := mulLoop1 u.data v.data [] hu.zle hv.zle (by simp [Dict.WF])
  have hval : ValidPoly (u.data.foldl (fun d e1 => v.data.foldl (fun d e2 => mulTerm d e1 e2) d) []) := by
    refine ⟨a1, fun h0 => ?_, fun e he => ?_⟩
    · obtain ⟨e1, he1⟩ := List.exists_mem_of_ne_nil _ hu.nonempty
      obtain ⟨e2, he2⟩ := List.exists_mem_of_ne_nil _ hv.nonempty
      obtain ⟨k, hk, _⟩ := a4 e1 he1 e2 he2
      rw [h0] at hk
      simp at hk
    · rcases a2 e.1 (List.mem_map_of_mem he) with h | ⟨e1, _, e2, _, h, _⟩
      · simp at h
      · exact h
  obtain ⟨w, hw, hd, _, hdeg⟩ := make_ok hval none
  obtain ⟨d1, d2⟩ := hdeg rfl
  refine ⟨w, hw, hd ▸ hval, fun x y z hs => ?_, by rw [hd]; exact d1, ?_⟩
  · rw [hd, a5 x y z hs]
    simp [polyVal]
  · rintro a b ha ⟨e1, he1, rfl⟩ hb ⟨e2, he2, rfl⟩
    apply le_antisymm
    · obtain ⟨e, he, h⟩ := d2
      rw [← h]
      rcases a2 e.1 (List.mem_map_of_mem he) with h | ⟨f1, hf1, f2, hf2, _, h⟩
      · simp at h
      · have := ha f1 hf1
        have := hb f2 hf2
        omega
    · obtain ⟨k, hk, h⟩ := a4 e1 he1 e2 he2
      obtain ⟨f, hf, rfl⟩ := List.mem_map.1 hk
      rw [← h]
      exact d1 f hf

/-- C41: multiplying by a scalar -/
theorem pijk_mulScalar (u : Pijk) (c x y z : ℝ) :
    polyVal (u.mulScalar c).data x y z = c * polyVal u.data x y z := by
  unfold Pijk.mulScalar polyVal
  simp only
  induction u.data with
  | nil => simp
  | cons e d ih => rw [List.map_cons, List.map_cons, List.sum_cons, ih, List.map_cons, List.sum_cons]; ring

/-- F18: adding a scalar to a polynomial does not add a constant: `x + 1` evaluates to `2 x` -/
theorem pijk_addScalar_not_constant (x y z : ℝ) :
    polyVal (Pijk.addScalar ⟨[((1, 0, 0), 1)], 1⟩ 1).data x y z = 2 * x := by
  simp only [Pijk.addScalar, polyVal, List.map_cons, List.map_nil, List.sum_cons, List.sum_nil]
  ring

/-! ## dense form -/

theorem pijk_todense_length (p : Pijk) : p.todense.length = (p.degree + 1) ^ 2 := by
  unfold Pijk.todense
  rw [bcooDense_length]
  rfl

/-- C41: entry `n` of the dense vector is the coefficient of the `n`-th monomial -/
theorem pijk_todense_entry (p : Pijk) (hp : ValidPoly p.data) {n : ℕ} (hn : n < (p.degree + 1) ^ 2) :
    p.todense.getD n 0 = Dict.getD0 p.data (n2ijk n) := by
  unfold Pijk.todense
  refine bcooDense_getD hp.wf pIndex hn (n2ijk n) (pIndex_n2ijk.1 n).2 fun e he h => ?_
  have := (pIndex_n2ijk.2 e.1 (hp.zle e he)).2
  rw [h, Int.toNat_natCast] at this
  exact this.symm

/-- C41: the dense vector evaluates, in the monomial basis, to the polynomial -/
theorem pijk_denseVal (p : Pijk) (hp : ValidPoly p.data)
    (hdeg : ∀ e ∈ p.data, e.1.1 + e.1.2.1 + e.1.2.2 ≤ p.degree) (x y z : ℝ) :
    denseVal p.todense x y z = polyVal p.data x y z := by
  unfold denseVal
  rw [pijk_todense_length]
  have h1 : polyVal p.data x y z =
      ∑ k ∈ (Finset.range ((p.degree + 1) ^ 2)).image n2ijk, Dict.getD0 p.data k * mono x y z k := by
    refine hp.wf.sum_eq _ (fun k hk => ?_) (mono x y z)
    obtain ⟨e, he, rfl⟩ := List.mem_map.1 hk
    have hz := hp.zle e he
    have h := pIndex_n2ijk.2 e.1 hz
    refine Finset.mem_image.2 ⟨(pIndex e.1).toNat, ?_, h.2⟩
    rw [Finset.mem_range]
    have e1 := pIndex_eq e.1.1 e.1.2.1 e.1.2.2 hz
    rw [show ((e.1.1, e.1.2.1, e.1.2.2) : Ijk) = e.1 from rfl] at e1
    rw [e1, Int.toNat_natCast]
    have h2 := hdeg e he
    have h3 : (e.1.1 + e.1.2.1 + e.1.2.2 + 1) ^ 2 ≤ (p.degree + 1) ^ 2 := Nat.pow_le_pow_left (by omega) 2
    have h4 : (e.1.1 + e.1.2.1 + e.1.2.2 + 1) ^ 2 = (e.1.1 + e.1.2.1 + e.1.2.2) ^ 2 +
      2 * (e.1.1 + e.1.2.1 + e.1.2.2) + 1 := by ring
    omega
  rw [h1, Finset.sum_image]
  · refine Finset.sum_congr rfl fun n hn => ?_
    rw [Finset.mem_range] at hn
    simp only
    rw [pijk_todense_entry p hp hn, n2ijk_eq]
    simp only [mono]
  · intro a _ b _ h
    have ha := (pIndex_n2ijk.1 a).2
    have hb := (pIndex_n2ijk.1 b).2
    rw [h, hb] at ha
    exact_mod_cast ha.symm

/-- C41: `from_dense` represents the polynomial of the dense vector, with `k ≤ 1` -/
theorem pijk_fromDense (c : List ℝ) (hc : c ≠ []) (degree : Option ℕ) :
    ∃ p, Pijk.fromDense c degree = .ok p ∧ ValidPoly p.data ∧
      (∀ x y z, polyVal p.data x y z = denseVal c x y z) ∧
      (∀ d, degree = some d → p.degree = d) ∧
      (∀ d, c.length = (d + 1) ^ 2 → (∀ e ∈ p.data, e.1.1 + e.1.2.1 + e.1.2.2 ≤ d) ∧
        (∃ e ∈ p.data, e.1.1 + e.1.2.1 + e.1.2.2 = d) ∧ (degree = none → p.degree = d)) ∧
      (∀ n < c.length, Dict.getD0 p.data (n2ijk n) = c.getD n 0) := by
  have hinj : Function.Injective n2ijk := by
    intro a b h
    have ha := (pIndex_n2ijk.1 a).2
    have hb := (pIndex_n2ijk.1 b).2
    rw [h, hb] at ha
    exact_mod_cast ha.symm
  have hkeys : (c.mapIdx fun i v => (n2ijk i, v)).map Prod.fst = (List.range c.length).map n2ijk := by
    apply List.ext_getElem
    · simp
    · intro i h1 h2
      simp
  have hval : ValidPoly (c.mapIdx fun i v => (n2ijk i, v)) := by
    refine ⟨?_, by simpa using hc, fun e he => ?_⟩
    · unfold Dict.WF
      rw [hkeys]
      exact List.nodup_range.map hinj
    · have : e.1 ∈ (c.mapIdx fun i v => (n2ijk i, v)).map Prod.fst := List.mem_map_of_mem he
      rw [hkeys] at this
      obtain ⟨n, _, hn⟩ := List.mem_map.1 this
      rw [← hn]
      exact (pIndex_n2ijk.1 n).1
  have hget : ∀ n < c.length, Dict.getD0 (c.mapIdx fun i v => (n2ijk i, v)) (n2ijk n) = c.getD n 0 := by
    intro n hn
    have hmem : (n2ijk n, c.getD n 0) ∈ (c.mapIdx fun i v => (n2ijk i, v)) := by
      rw [List.mem_iff_getElem]
      exact ⟨n, by simpa using hn, by simp [List.getD_eq_getElem?_getD, hn]⟩
    exact Dict.getD0_of_mem hval.wf hmem
  obtain ⟨p, hp, hd, hdeg, hdeg2⟩ := make_ok hval degree
  refine ⟨p, hp, hd ▸ hval, fun x y z => ?_, hdeg, fun d hl => ?_, hd ▸ hget⟩
  · rw [hd]
    have h1 : polyVal (c.mapIdx fun i v => (n2ijk i, v)) x y z =
        ∑ k ∈ (Finset.range c.length).image n2ijk,
          Dict.getD0 (c.mapIdx fun i v => (n2ijk i, v)) k * mono x y z k := by
      refine hval.wf.sum_eq _ (fun k hk => ?_) (mono x y z)
      unfold Dict.keys at hk
      rw [hkeys] at hk
      obtain ⟨n, hn, rfl⟩ := List.mem_map.1 hk
      exact Finset.mem_image_of_mem _ (Finset.mem_range.2 (List.mem_range.1 hn))
    rw [h1, Finset.sum_image fun a _ b _ h => hinj h]
    unfold denseVal
    refine Finset.sum_congr rfl fun n hn => ?_
    rw [Finset.mem_range] at hn
    simp only
    rw [hget n hn, n2ijk_eq]
    simp only [mono]
  · have hl1 : ∀ n, (n2ijk n).1 + (n2ijk n).2.1 + (n2ijk n).2.2 = Nat.sqrt n := by
      intro n
      have hb := sqrt_bounds n
      rw [n2ijk_eq]
      simp only
      omega
    have A : ∀ e ∈ p.data, e.1.1 + e.1.2.1 + e.1.2.2 ≤ d := by
      intro e he
      rw [hd] at he
      have : e.1 ∈ (c.mapIdx fun i v => (n2ijk i, v)).map Prod.fst := List.mem_map_of_mem he
      rw [hkeys] at this
      obtain ⟨n, hn, hne⟩ := List.mem_map.1 this
      rw [← hne, hl1]
      have hn := List.mem_range.1 hn
      rw [hl] at hn
      have : Nat.sqrt n < d + 1 := by rw [Nat.sqrt_lt]; nlinarith
      omega
    have B : ∃ e ∈ p.data, e.1.1 + e.1.2.1 + e.1.2.2 = d := by
      have h1 : 1 ≤ (d + 1) ^ 2 := Nat.one_le_pow _ _ (by omega)
      have : n2ijk ((d + 1) ^ 2 - 1) ∈ (c.mapIdx fun i v => (n2ijk i, v)).map Prod.fst := by
        rw [hkeys]
        exact List.mem_map_of_mem (List.mem_range.2 (by omega))
      obtain ⟨e, he, hee⟩ := List.mem_map.1 this
      refine ⟨e, hd ▸ he, ?_⟩
      rw [hee, hl1]
      have h2 : (d + 1) ^ 2 = d ^ 2 + 2 * d + 1 := by ring
      exact sqrt_eq_of_bounds (by omega) (by omega)
    refine ⟨A, B, fun hn => ?_⟩
    obtain ⟨c1, e, he, c2⟩ := hdeg2 hn
    obtain ⟨f, hf, hB⟩ := B
    rw [hd] at hf
    apply le_antisymm
    · rw [← c2]; exact A e (hd ▸ he)
    · rw [← hB]; exact c1 f hf

/-- C41: dense vectors of full length survive the way through `Pijk` -/
theorem pijk_todense_fromDense {c : List ℝ} {d : ℕ} (hc : c.length = (d + 1) ^ 2) (degree : Option ℕ)
    (hd : degree = none ∨ degree = some d) {p : Pijk} (h : Pijk.fromDense c degree = .ok p) :
    p.todense = c := by
  have hne : c ≠ [] := by
    rintro rfl
    have : 0 < (d + 1) ^ 2 := by positivity
    rw [← hc] at this
    simp at this
  obtain ⟨p', hp', hv, _, h1, h2, h3⟩ := pijk_fromDense c hne degree
  rw [hp', Except.ok.injEq] at h
  subst h
  have hdeg : p'.degree = d := by
    rcases hd with hd | hd
    · exact (h2 d hc).2.2 hd
    · exact h1 d hd
  apply List.ext_getElem
  · rw [pijk_todense_length, hdeg, hc]
  · intro n ha hb
    have := pijk_todense_entry p' hv (n := n) (by rw [hdeg, ← hc]; exact hb)
    rw [h3 n hb] at this
    simpa [List.getD_eq_getElem?_getD, ha, hb] using this

/-- C41, as used by the renderer and the light curve: multiplying two dense vectors through `Pijk` gives
the dense vector, of the length belonging to the sum of the degrees, of the product -/
theorem dense_product {c1 c2 : List ℝ} {d1 d2 : ℕ} (h1 : c1.length = (d1 + 1) ^ 2)
    (h2 : c2.length = (d2 + 1) ^ 2) :
    ∃ p q w, Pijk.fromDense c1 (some d1) = .ok p ∧ Pijk.fromDense c2 (some d2) = .ok q ∧ p.mul q = .ok w ∧
      w.todense.length = (d1 + d2 + 1) ^ 2 ∧
      ∀ x y z, x ^ 2 + y ^ 2 + z ^ 2 = 1 →
        denseVal w.todense x y z = denseVal c1 x y z * denseVal c2 x y z := by
  have ne : ∀ (c : List ℝ) (d : ℕ), c.length = (d + 1) ^ 2 → c ≠ [] := by
    rintro c d hc rfl
    have : 0 < (d + 1) ^ 2 := by positivity
    rw [← hc] at this
    simp at this
  obtain ⟨p, hp, vp, ep, _, dp, _⟩ := pijk_fromDense c1 (ne _ _ h1) (some d1)
  obtain ⟨q, hq, vq, eq, _, dq, _⟩ := pijk_fromDense c2 (ne _ _ h2) (some d2)
  obtain ⟨w, hw, vw, ew, dw1, dw2⟩ := pijk_mul p q vp vq
  have hdeg := dw2 d1 d2 (dp d1 h1).1 (dp d1 h1).2.1 (dq d2 h2).1 (dq d2 h2).2.1
  refine ⟨p, q, w, hp, hq, hw, by rw [pijk_todense_length, hdeg], fun x y z hs => ?_⟩
  rw [pijk_denseVal w vw dw1, ew x y z hs, ep, eq]

/-- the hypotheses hold for a polynomial with a `z` term: `z · z = 1 - x² - y²` -/
example : ∃ w, (Pijk.mul ⟨[((0, 0, 1), 1)], 1⟩ ⟨[((0, 0, 1), 1)], 1⟩) = .ok w ∧ w.degree = 2 := by
  have hv : ValidPoly [((0, 0, 1), 1)] := ⟨by simp [Dict.WF], by simp, by simp⟩
  obtain ⟨w, hw, _, _, _, h⟩ := pijk_mul ⟨_, 1⟩ ⟨_, 1⟩ hv hv
  exact ⟨w, hw, h 1 1 (by simp) (by simp) (by simp) (by simp)⟩

end Jaxoplanet.Starry
