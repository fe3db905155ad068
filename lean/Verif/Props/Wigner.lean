import Verif.Proofs.WignerAlg

/-!
# C56: the Wigner 3j symbols are those of Racah's formula
-/

namespace Jaxoplanet.Starry.Wig

open Spec

theorem aPoly_cast (j j2 j3 M : ℤ) :
    (((j ^ 2 - (j2 - j3) ^ 2) * ((j2 + j3 + 1) ^ 2 - j ^ 2) * (j ^ 2 - (-M) ^ 2) : ℤ) : ℝ) = aPoly j2 j3 M j := by
  unfold aPoly; push_cast; ring

theorem aPoly_nonneg {j2 j3 M j : ℤ} (h1 : jMin j2 j3 M ≤ j) (h2 : j ≤ j2 + j3 + 1) : 0 ≤ aPoly j2 j3 M j := by
  have h0 := (jMin_nonneg j2 j3 M).trans h1
  rcases h2.lt_or_eq with h2 | rfl
  · rcases h1.lt_or_eq with h1 | rfl
    · unfold jMin at h1
      rw [max_lt_iff] at h1
      exact (aPoly_pos h1.1 h1.2 (by omega)).le
    · unfold aPoly jMin
      rcases max_choice |j2 - j3| |M| with h | h <;> rw [h]
      · rw [Int.cast_abs, sq_abs]; push_cast; simp
      · rw [Int.cast_abs, sq_abs]; simp
  · unfold aPoly; push_cast; simp

theorem A_ok {j2 j3 M j : ℤ} (h1 : jMin j2 j3 M ≤ j) (h2 : j ≤ j2 + j3 + 1) : A j j2 j3 (-M) = .ok (aCoef j2 j3 M j) := by
  unfold A
  rw [aPoly_cast, sqrt_ok (aPoly_nonneg h1 h2)]
  rfl

/-- the symbols solve the recurrence of the algorithm -/
theorem ctx {j2 j3 m2 m3 : ℤ} (h2 : |m2| ≤ j2) (h3 : |m3| ≤ j3) (hab : jMin j2 j3 (m2 + m3) < j2 + j3) :
    Ctx j2 j3 m2 m3 (-(m2 + m3)) (jMin j2 j3 (m2 + m3)) (j2 + j3) (fun j => j * aCoef j2 j3 (m2 + m3) (j + 1))
      (fun j => (j + 1) * aCoef j2 j3 (m2 + m3) j) (w3 j2 j3 m2 m3) := by
  have h0 := jMin_nonneg j2 j3 (m2 + m3)
  have hz : jMin j2 j3 (m2 + m3) = 0 → j2 = j3 ∧ m3 = -m2 := by
    intro h
    have := (le_max_left _ _).trans_eq h
    have hb := (le_max_right _ _).trans_eq h
    have c1 := abs_nonpos_iff.1 this
    have c2 := abs_nonpos_iff.1 hb
    omega
  have hm : ∀ j, jMin j2 j3 (m2 + m3) ≤ j ↔ |j2 - j3| ≤ j ∧ |m2 + m3| ≤ j := fun j => max_le_iff
  have hm' : ∀ j, jMin j2 j3 (m2 + m3) < j ↔ |j2 - j3| < j ∧ |m2 + m3| < j := fun j => max_lt_iff
  have hpair : jMin j2 j3 (m2 + m3) = 0 → aCoef j2 j3 (m2 + m3) 1 * w3 j2 j3 m2 m3 1 = 2 * m2 * w3 j2 j3 m2 m3 0 ∧ 0 < aCoef j2 j3 (m2 + m3) 1 := by
    intro h
    obtain ⟨rfl, rfl⟩ := hz h
    have hJ : 0 < j2 := by omega
    refine ⟨?_, aCoef_pos (by simp) (by simp) (by omega)⟩
    rw [show m2 + -m2 = 0 by ring]
    exact w3_zero_one h2 hJ
  constructor
  · exact h0
  · exact hab
  · intro j q1 q2
    unfold Xf
    rw [A_ok (by omega) (by omega)]
    rfl
  · intro j q1 q2
    unfold Zf
    rw [A_ok (by omega) (by omega)]
    rfl
  · intro j q1 q2
    have := w3_rec h2 h3 (coupled_iff.2 ⟨q1, q2⟩)
    unfold Yf
    push_cast
    linarith
  · intro j q1 q2 q3
    have hj : (0 : ℝ) < j := by exact_mod_cast q2
    obtain ⟨c1, c2⟩ := (hm j).1 q1
    exact mul_pos hj (aCoef_pos (by omega) (by omega) (by omega))
  · intro h
    simp only [h]; simp
  · intro h
    obtain ⟨rfl, rfl⟩ := hz h
    rw [h]
    unfold Yf; simp
  · intro j q1 q2
    have hj : (0 : ℝ) < (j : ℝ) + 1 := by
      have : 0 < j + 1 := by omega
      exact_mod_cast this
    obtain ⟨c1, c2⟩ := (hm' j).1 q1
    exact mul_pos hj (aCoef_pos c1 c2 q2)
  · simp only [aCoef_jMin, mul_zero]
  · simp only [aCoef_max, mul_zero]
  · exact w3_top_ne h2 h3
  · rintro rfl rfl j
    unfold Yf; simp
  · rintro rfl rfl h
    obtain ⟨p1, p2⟩ := hpair h
    rw [h, zero_add]
    simp only [Int.cast_zero, mul_zero, zero_mul] at p1
    exact (mul_eq_zero.1 p1).resolve_left p2.ne'
  · intro h
    obtain ⟨rfl, -⟩ := hz h
    omega
  · intro h hg
    obtain ⟨p1, p2⟩ := hpair h
    rw [h] at hg ⊢
    rw [zero_add]
    rw [hg, mul_zero] at p1
    exact (mul_eq_zero.1 p1).resolve_left p2.ne'
  · intro s hs i q1 q2 e1 e2
    exact one_sign_no_plateau h2 h3 s (fun j hj => hs j (coupled_iff.1 hj).1 (coupled_iff.1 hj).2) i
      (coupled_iff.2 ⟨by omega, by omega⟩) q2 e1 e2

/-! ### finish -/

theorem norm_loop (f : Arr) {a b : ℤ} (h : a ≤ b) :
    (rangeUp a (b + 1)).foldl (fun (norm : ℝ) (j : ℤ) => norm + (2 * j + 1) * f j ^ 2) 0 = ∑ j ∈ Finset.Icc a b, (2 * (j : ℝ) + 1) * f j ^ 2 := by
  have key : ∀ a, a ≤ b + 1 → ∀ c : ℝ, (rangeUp a (b + 1)).foldl (fun (norm : ℝ) (j : ℤ) => norm + (2 * j + 1) * f j ^ 2) c =
      c + ∑ j ∈ Finset.Icc a b, (2 * (j : ℝ) + 1) * f j ^ 2 := by
    intro a ha
    induction a, ha using Int.leInductionDown with
    | base =>
      intro c
      rw [rangeUp_nil le_rfl, Finset.Icc_eq_empty (by omega)]
      simp
    | pred n hn ih =>
      intro c
      rw [rangeUp_cons (by omega), sub_add_cancel, List.foldl_cons, ih]
      have : Finset.Icc (n - 1) b = insert (n - 1) (Finset.Icc n b) := by
        ext x; simp only [Finset.mem_Icc, Finset.mem_insert]; omega
      rw [this, Finset.sum_insert (by simp)]
      ring
  rw [key a (by omega), zero_add]

theorem phase_cases (j2 j3 m2 m3 : ℤ) : phase j2 j3 m2 m3 = 1 ∨ phase j2 j3 m2 m3 = -1 := by
  unfold phase
  rcases Int.even_or_odd (j2 - j3 + m2 + m3) with h | h
  · left; exact h.neg_one_zpow
  · right; exact h.neg_one_zpow

/-- normalisation and sign give the symbols -/
theorem finish_ok {j2 j3 m2 m3 : ℤ} (h2 : |m2| ≤ j2) (h3 : |m3| ≤ j3) (hab : jMin j2 j3 (m2 + m3) ≤ j2 + j3) (f : Arr)
    (hf : Prop' (w3 j2 j3 m2 m3) f (jMin j2 j3 (m2 + m3)) (j2 + j3))
    (hout : ∀ i, ¬ (jMin j2 j3 (m2 + m3) ≤ i ∧ i ≤ j2 + j3) → f i = 0) :
    ∃ f', normalize f (jMin j2 j3 (m2 + m3)) (j2 + j3) = .ok f' ∧
      ∀ j, determineSigns f' (jMin j2 j3 (m2 + m3)) (j2 + j3) j2 j3 m2 m3 j = w3 j2 j3 m2 m3 j := by
  obtain ⟨c, hc, hf⟩ := hf
  set a := jMin j2 j3 (m2 + m3) with ha
  have hn : ∑ j ∈ Finset.Icc a (j2 + j3), (2 * (j : ℝ) + 1) * f j ^ 2 = c ^ 2 := by
    have : ∀ j ∈ Finset.Icc a (j2 + j3), (2 * (j : ℝ) + 1) * f j ^ 2 = c ^ 2 * ((2 * j + 1) * w3 j2 j3 m2 m3 j ^ 2) := by
      intro j hj
      rw [Finset.mem_Icc] at hj
      rw [hf j hj.1 hj.2]
      ring
    rw [Finset.sum_congr rfl this, ← Finset.mul_sum, ha, w3_norm h2 h3, mul_one]
  have hcpos : 0 < |c| := abs_pos.2 hc
  unfold normalize
  simp only [norm_loop f hab, hn, sqrt_ok (sq_nonneg c), Real.sqrt_sq_eq_abs, bind, Except.bind, div_ok hcpos.ne']
  refine ⟨_, rfl, ?_⟩
  set f' : Arr := setRange f a (j2 + j3) fun k => f k / |c| with hf'
  have f1 : ∀ j, a ≤ j → j ≤ j2 + j3 → f' j = c / |c| * w3 j2 j3 m2 m3 j := by
    intro j q1 q2
    rw [hf']
    unfold setRange
    rw [if_pos ⟨q1, q2⟩]
    beta_reduce
    rw [hf j q1 q2]
    ring
  have f0 : ∀ j, ¬ (a ≤ j ∧ j ≤ j2 + j3) → f' j = 0 := by
    intro j q
    rw [hf']
    unfold setRange
    rw [if_neg q]
    exact hout j q
  have w0 : ∀ j, ¬ (a ≤ j ∧ j ≤ j2 + j3) → w3 j2 j3 m2 m3 j = 0 := fun j q =>
    w3_of_not fun hq => q (coupled_iff.1 hq.2.2)
  have hs := w3_top_sign h2 h3
  change 0 < phase j2 j3 m2 m3 * _ at hs
  have ht := f1 (j2 + j3) hab le_rfl
  have hsg : c / |c| = 1 ∨ c / |c| = -1 := by
    rcases lt_or_gt_of_ne hc with h | h
    · right; rw [abs_of_neg h]; field_simp
    · left; rw [abs_of_pos h]; field_simp
  intro j
  unfold determineSigns
  by_cases hj : a ≤ j ∧ j ≤ j2 + j3
  · have fj := f1 j hj.1 hj.2
    rw [ht]
    split_ifs with hcond
    · unfold setRange
      rw [if_pos hj]
      beta_reduce
      rw [fj]
      rcases hsg with e | e <;> rcases phase_cases j2 j3 m2 m3 with p | p <;> rw [e, p] at hcond <;> rw [p] at hs <;> rw [e]
      · rcases hcond with h | h <;> linarith [h.1, h.2]
      · rcases hcond with h | h <;> linarith [h.1, h.2]
      · ring
      · ring
    · rw [fj]
      rcases hsg with e | e <;> rcases phase_cases j2 j3 m2 m3 with p | p <;> rw [e, p] at hcond <;> rw [p] at hs <;> rw [e]
      · ring
      · ring
      · exact absurd (Or.inl ⟨by linarith, by norm_num⟩) hcond
      · exact absurd (Or.inr ⟨by linarith, by norm_num⟩) hcond
  · rw [w0 j hj]
    split_ifs
    · unfold setRange
      rw [if_neg hj, f0 j hj]
    · exact f0 j hj

/-- **the calculator**: for all arguments it succeeds, and the array contains, for every index `j1`, the 3j symbol of
Racah's formula (zero where the selection rules fail) -/
theorem calculate_eq (j2 j3 m2 m3 : ℤ) :
    ∃ f, calculate j2 j3 m2 m3 = .ok f ∧ ∀ j1, f j1 = wigner3j j1 j2 j3 (-(m2 + m3)) m2 m3 := by
  change ∃ f, calculate j2 j3 m2 m3 = .ok f ∧ ∀ j1, f j1 = w3 j2 j3 m2 m3 j1
  unfold calculate
  by_cases hm : |m2| > j2 ∨ |m3| > j3
  · rw [if_pos hm]
    refine ⟨_, rfl, fun j => ?_⟩
    rw [w3_of_not]
    rintro ⟨q1, q2, -⟩
    omega
  rw [if_neg hm]
  push Not at hm
  obtain ⟨h2, h3⟩ := hm
  have hjm : jMin j2 j3 (m2 + m3) ≤ j2 + j3 := by
    rw [abs_le] at h2 h3
    unfold jMin
    rw [max_le_iff, abs_le, abs_le]
    omega
  change ∃ f, (if j2 + j3 < jMin j2 j3 (m2 + m3) then _ else if j2 + j3 = jMin j2 j3 (m2 + m3) then _ else _) = _ ∧ _
  rw [if_neg (not_lt.2 hjm)]
  by_cases he : j2 + j3 = jMin j2 j3 (m2 + m3)
  · rw [if_pos he]
    have hj0 : (0 : ℝ) ≤ (jMin j2 j3 (m2 + m3) : ℝ) := by exact_mod_cast jMin_nonneg _ _ _
    have hr : (0 : ℝ) < 2 * (jMin j2 j3 (m2 + m3) : ℝ) + 1 := by linarith
    have hq := Real.sqrt_pos.2 hr
    have hn := w3_norm h2 h3
    have hs := w3_top_sign h2 h3
    change 0 < phase j2 j3 m2 m3 * _ at hs
    rw [he, Finset.Icc_self, Finset.sum_singleton] at hn
    rw [he] at hs
    set a := jMin j2 j3 (m2 + m3) with ha
    have w0 : ∀ j, j ≠ a → w3 j2 j3 m2 m3 j = 0 := fun j q =>
      w3_of_not fun hq => q (by have := coupled_iff.1 hq.2.2; omega)
    have hv : (w3 j2 j3 m2 m3 a) ^ 2 = (1 / √(2 * (a : ℝ) + 1)) ^ 2 := by
      rw [div_pow, Real.sq_sqrt hr.le]
      field_simp
      linarith
    have hvpos : 0 < 1 / √(2 * (a : ℝ) + 1) := by positivity
    change ∃ f, (do
      let r ← sqrt (2 * (a : ℝ) + 1)
      let v ← div 1 r
      let f := set (fun _ => 0) a v
      if (f a < 0 ∧ phase j2 j3 m2 m3 > 0) ∨ (f a > 0 ∧ phase j2 j3 m2 m3 < 0) then .ok (set f a (f a * -1)) else .ok f) = .ok f ∧ _
    simp only [sqrt_ok hr.le, div_ok hq.ne', bind, Except.bind, set_same]
    set v := 1 / √(2 * (a : ℝ) + 1) with hv'
    rcases phase_cases j2 j3 m2 m3 with p | p
    · rw [p, one_mul] at hs
      rw [if_neg (by rw [p]; rintro (h | h) <;> linarith [h.1, h.2])]
      refine ⟨_, rfl, fun j => ?_⟩
      by_cases hj : j = a
      · rw [hj, set_same]
        exact ((sq_eq_sq₀ hs.le hvpos.le).1 hv).symm
      · rw [set_ne _ _ hj, w0 j hj]
    · rw [p] at hs
      rw [if_pos (by rw [p]; exact Or.inr ⟨hvpos, by norm_num⟩)]
      refine ⟨_, rfl, fun j => ?_⟩
      by_cases hj : j = a
      · rw [hj, set_same]
        have : (-w3 j2 j3 m2 m3 a) ^ 2 = v ^ 2 := by rw [neg_sq, hv]
        have := (sq_eq_sq₀ (by linarith) hvpos.le).1 this
        linarith
      · rw [set_ne _ _ hj, set_ne _ _ hj, w0 j hj]
  rw [if_neg he]
  have hlt : jMin j2 j3 (m2 + m3) < j2 + j3 := by omega
  have hctx := ctx h2 h3 hlt
  set a := jMin j2 j3 (m2 + m3) with ha
  obtain ⟨fw, hfw, hF⟩ := forward_ok hctx rfl
  change ∃ f, (do
      let fw ← forward j2 j3 m2 m3 (-(m2 + m3)) a (j2 + j3)
      if fw.j_minus = j2 + j3 then
        let f ← normalize (setRange (fun _ => 0) a (j2 + j3) fw.F_minus) a (j2 + j3)
        .ok (determineSigns f a (j2 + j3) j2 j3 m2 m3)
      else
        let rv ← reverse j2 j3 m2 m3 (-(m2 + m3)) a (j2 + j3) fw.j_minus fw.sf
        let f ← middle j2 j3 m2 m3 (-(m2 + m3)) a (j2 + j3) fw rv
        let f ← normalize f a (j2 + j3)
        .ok (determineSigns f a (j2 + j3) j2 j3 m2 m3)) = .ok f ∧ _
  simp only [hfw, bind, Except.bind]
  by_cases hjm' : fw.j_minus = j2 + j3
  · rw [if_pos hjm']
    have hu : fw.undefined_min = false := by
      cases hu : fw.undefined_min with
      | true => have := (hF.undef hu).2.1; omega
      | false => rfl
    obtain ⟨c, hc, hE⟩ := hF.eq hu
    obtain ⟨f', hn, hfin⟩ := finish_ok h2 h3 hjm (setRange (fun _ => 0) a (j2 + j3) fw.F_minus)
      ⟨c, hc, fun i q1 q2 => by unfold setRange; rw [if_pos ⟨q1, q2⟩, hE i q1 (by omega)]⟩ (fun i hi => if_neg hi)
    rw [← ha] at hn hfin
    simp only [hn]
    exact ⟨_, rfl, hfin⟩
  · rw [if_neg hjm']
    have hlt' : fw.j_minus < j2 + j3 := by
      cases hu : fw.undefined_min with
      | true => have := (hF.undef hu).2.1; omega
      | false => have := (hF.le hu).2; omega
    obtain ⟨rv, hrv, hR⟩ := reverse_ok hctx hF hlt'
    obtain ⟨f, hmid, hP, hout⟩ := middle_ok hctx hF hlt' hR
    obtain ⟨f', hn, hfin⟩ := finish_ok h2 h3 hjm f hP hout
    rw [← ha] at hn hfin
    simp only [hrv, hmid, hn]
    exact ⟨_, rfl, hfin⟩

/-- the symbol is invariant under cyclic permutations of its columns -/
theorem wigner3j_cyclic (j1 j2 j3 m1 m2 m3 : ℤ) : wigner3j j2 j3 j1 m2 m3 m1 = wigner3j j1 j2 j3 m1 m2 m3 := by
  unfold wigner3j
  have hsel : Selected j2 j3 j1 m2 m3 m1 ↔ Selected j1 j2 j3 m1 m2 m3 := by
    unfold Selected
    simp only [abs_le]
    constructor
    · rintro ⟨a1, a2, a3, a4, a5, a6⟩; omega
    · rintro ⟨a1, a2, a3, a4, a5, a6⟩; omega
  by_cases h : Selected j1 j2 j3 m1 m2 m3
  · rw [if_pos h, if_pos (hsel.2 h), racahSum_cyclic h.1]
    have hN : racahNorm j2 j3 j1 m2 m3 m1 = racahNorm j1 j2 j3 m1 m2 m3 := by
      unfold racahNorm
      rw [show j2 + j3 - j1 = -j1 + j2 + j3 by ring, show j2 - j3 + j1 = j1 + j2 - j3 by ring, show -j2 + j3 + j1 = j1 - j2 + j3 by ring,
        show j2 + j3 + j1 + 1 = j1 + j2 + j3 + 1 by ring]
      ring
    rw [hN]
    have hs : ((-1 : ℝ)) ^ (j2 - j3 - m1) * (-1) ^ (j3 - j1 - m2) = (-1) ^ (j1 - j2 - m3) := by
      have := h.1
      rw [← zpow_add₀ (by norm_num), show j2 - j3 - m1 + (j3 - j1 - m2) = (j1 - j2 - m3) + 2 * (j2 - j1 + m3) by omega,
        zpow_add₀ (by norm_num) (j1 - j2 - m3) (2 * (j2 - j1 + m3)), zpow_mul]
      norm_num
    linear_combination (√(racahNorm j1 j2 j3 m1 m2 m3) * racahSum j1 j2 j3 m1 m2) * hs
  · rw [if_neg h, if_neg (fun hc => h (hsel.1 hc))]

theorem calculate_at (j1 j2 j3 m1 m2 m3 : ℤ) (h : m1 + m2 + m3 = 0) :
    (do let w3j ← calculate j2 j3 m2 m3; .ok (w3j j1)) = (.ok (wigner3j j1 j2 j3 m1 m2 m3) : Except WErr ℝ) := by
  obtain ⟨f, hf, he⟩ := calculate_eq j2 j3 m2 m3
  simp only [hf, bind, Except.bind]
  rw [he, show m1 = -(m2 + m3) by omega]

/-- **`Wigner3j` is Racah's formula**, for all integers -/
theorem wigner3j_eq (j1 j2 j3 m1 m2 m3 : ℤ) : wigner3jCall j1 j2 j3 m1 m2 m3 = .ok (wigner3j j1 j2 j3 m1 m2 m3) := by
  have hzero : ¬ Selected j1 j2 j3 m1 m2 m3 → wigner3j j1 j2 j3 m1 m2 m3 = 0 := fun h => if_neg h
  unfold wigner3jCall
  by_cases hm : m1 + m2 + m3 ≠ 0
  · rw [if_pos hm, hzero fun h => hm h.1]
  rw [if_neg hm]
  by_cases hb : |m1| > j1 ∨ |m2| > j2 ∨ |m3| > j3
  · rw [if_pos hb, hzero fun h => by obtain ⟨_, q1, q2, q3, _⟩ := h; omega]
  rw [if_neg hb]
  push Not at hm
  split_ifs with c1 c2
  · simp only
    split_ifs with d
    · rw [hzero fun h => by obtain ⟨_, _, _, _, _, q⟩ := h; omega]
    · exact calculate_at j1 j2 j3 m1 m2 m3 hm
  · simp only
    split_ifs with d
    · rw [hzero fun h => by
        obtain ⟨_, _, _, _, q, _⟩ := h
        rw [abs_le] at q
        omega]
    · rw [← wigner3j_cyclic]
      exact calculate_at j2 j3 j1 m2 m3 m1 (by omega)
  · simp only
    split_ifs with d
    · rw [hzero fun h => by
        obtain ⟨_, _, _, _, q, _⟩ := h
        rw [abs_le] at q
        omega]
    · rw [← wigner3j_cyclic, ← wigner3j_cyclic]
      exact calculate_at j3 j1 j2 m3 m1 m2 (by omega)

/-- the squares over the projections add up to one -/
theorem w3_norm_m {j2 j3 M j : ℤ} (hne : (mRange j2 j3 M).Nonempty) (hj : Coupled j2 j3 M j) :
    (2 * (j : ℝ) + 1) * ∑ m ∈ mRange j2 j3 M, w3 j2 j3 m (M - m) j ^ 2 = 1 := by
  obtain ⟨n, hn⟩ := hne
  obtain ⟨n2, n3⟩ := mem_mRange.1 hn
  have a2 := abs_le.1 n2
  have a3 := abs_le.1 n3
  set U : ℤ → ℤ → ℝ := fun j m => w3 j2 j3 m (M - m) j with hU
  -- a projection with a symbol that does not vanish
  set k := min j2 (M + j3) with hk
  have k2 : |k| ≤ j2 := by rw [abs_le]; omega
  have k3 : |M - k| ≤ j3 := by rw [abs_le]; omega
  have hkm : k ∈ mRange j2 j3 M := mem_mRange.2 ⟨k2, k3⟩
  have hUk : U j k ≠ 0 := by
    obtain ⟨sg, -, hpos, -⟩ := stretched k2 k3 (by omega)
    have := hpos j (by rw [show k + (M - k) = M by ring]; exact hj)
    intro h
    simp only [hU] at h
    rw [h, mul_zero] at this
    exact this.false
  have hswap : ∑ m ∈ mRange j2 j3 M, U j m * ∑ i ∈ Finset.Icc (jMin j2 j3 M) (j2 + j3), (2 * (i : ℝ) + 1) * (U i m * U i k) =
      ∑ i ∈ Finset.Icc (jMin j2 j3 M) (j2 + j3), (2 * (i : ℝ) + 1) * U i k * ∑ m ∈ mRange j2 j3 M, U j m * U i m := by
    simp only [Finset.mul_sum]
    rw [Finset.sum_comm]
    refine Finset.sum_congr rfl fun j _ => Finset.sum_congr rfl fun m _ => by ring
  have hM : ∀ m, m + (M - m) = M := fun m => by ring
  rw [Finset.sum_eq_single_of_mem k hkm fun m hm hne => ?_,
    Finset.sum_eq_single_of_mem (f := fun i : ℤ => (2 * (i : ℝ) + 1) * U i k * ∑ m ∈ mRange j2 j3 M, U j m * U i m)
      j (Finset.mem_Icc.2 (coupled_iff.1 hj)) fun i hi hne => ?_] at hswap
  · have hs := w3_norm k2 k3
    rw [hM] at hs
    have e1 : ∑ i ∈ Finset.Icc (jMin j2 j3 M) (j2 + j3), (2 * (i : ℝ) + 1) * (U i k * U i k) = 1 := by
      refine Eq.trans (Finset.sum_congr rfl fun i _ => ?_) hs
      simp only [hU]; ring
    have e2 : ∑ m ∈ mRange j2 j3 M, U j m * U j m = ∑ m ∈ mRange j2 j3 M, w3 j2 j3 m (M - m) j ^ 2 :=
      Finset.sum_congr rfl fun m _ => by simp only [hU]; ring
    rw [e1, e2] at hswap
    refine mul_left_cancel₀ hUk ?_
    linarith
  · have c2 : Coupled j2 j3 M i := coupled_iff.2 (Finset.mem_Icc.1 hi)
    have := w3_orth_m hj c2 (Ne.symm hne) ⟨k, hkm⟩
    simp only [hU]
    rw [this, mul_zero]
  · obtain ⟨b2, b3⟩ := mem_mRange.1 hm
    have := w3_orth_j b2 b3 k2 k3 (by omega) (Ne.symm hne)
    rw [hM] at this
    simp only [hU]
    rw [this, mul_zero]

/-- the value that `clebsch_gordan` returns -/
noncomputable def cgValue (j1 m1 j2 m2 J M : ℤ) : ℝ := (-1) ^ (j1 - j2 + M) * √(2 * (J : ℝ) + 1) * wigner3j j1 j2 J m1 m2 (-M)

theorem clebsch_value (j1 m1 j2 m2 J M : ℤ) (hJ : 0 ≤ J) : clebschGordan j1 m1 j2 m2 J M = .ok (cgValue j1 m1 j2 m2 J M) := by
  unfold clebschGordan
  have : (0 : ℝ) ≤ J := by exact_mod_cast hJ
  rw [sqrt_ok (by linarith), wigner3j_eq]
  rfl

theorem cgValue_w3 (j1 j2 m M J : ℤ) : cgValue j1 m j2 (M - m) J M = (-1) ^ (j1 - j2 + M) * √(2 * (J : ℝ) + 1) * w3 j1 j2 m (M - m) J := by
  unfold cgValue w3
  rw [← wigner3j_cyclic, ← wigner3j_cyclic, show m + (M - m) = M by ring]

theorem sign_sq (n : ℤ) : ((-1 : ℝ) ^ n) * (-1) ^ n = 1 := by
  rw [← zpow_add₀ (by norm_num), ← two_mul, zpow_mul]; norm_num

/-- **`clebsch_gordan` is an orthogonal change of basis**: for `j1`, `j2 ≥ 0` and a projection `M`, the coefficients
`⟨j1 m j2 M-m | J M⟩` that the function returns are orthonormal in `J` when summed over `m`, and in `m` when summed
over `J` -/
theorem clebsch_gordan_orthonormal (j1 j2 M : ℤ) (h1 : 0 ≤ j1) (h2 : 0 ≤ j2) (hM : |M| ≤ j1 + j2) :
    ∃ C : ℤ → ℤ → ℝ, (∀ J m, 0 ≤ J → clebschGordan j1 m j2 (M - m) J M = .ok (C J m)) ∧
      (∀ J J', max |j1 - j2| |M| ≤ J → J ≤ j1 + j2 → max |j1 - j2| |M| ≤ J' → J' ≤ j1 + j2 →
        ∑ m ∈ Finset.Icc (-j1) j1, C J m * C J' m = if J = J' then 1 else 0) ∧
      (∀ m m', |m| ≤ j1 → |M - m| ≤ j2 → |m'| ≤ j1 → |M - m'| ≤ j2 →
        ∑ J ∈ Finset.Icc (max |j1 - j2| |M|) (j1 + j2), C J m * C J m' = if m = m' then 1 else 0) := by
  rw [abs_le] at hM
  have hne : (mRange j1 j2 M).Nonempty := ⟨max (-j1) (M - j2), by rw [mem_mRange, abs_le, abs_le]; omega⟩
  refine ⟨fun J m => cgValue j1 m j2 (M - m) J M, fun J m hJ => clebsch_value j1 m j2 (M - m) J M hJ, ?_, ?_⟩
  · intro J J' q1 q2 q3 q4
    have cJ : Coupled j1 j2 M J := coupled_iff.2 ⟨q1, q2⟩
    have cJ' : Coupled j1 j2 M J' := coupled_iff.2 ⟨q3, q4⟩
    have hsub : ∑ m ∈ Finset.Icc (-j1) j1, cgValue j1 m j2 (M - m) J M * cgValue j1 m j2 (M - m) J' M =
        ∑ m ∈ mRange j1 j2 M, √(2 * (J : ℝ) + 1) * √(2 * (J' : ℝ) + 1) * (w3 j1 j2 m (M - m) J * w3 j1 j2 m (M - m) J') := by
      symm
      refine Finset.sum_subset_zero_on_sdiff (fun m hm => ?_) (fun m hm => ?_) (fun m hm => ?_)
      · have := (mem_mRange.1 hm).1
        rw [abs_le] at this
        exact Finset.mem_Icc.2 this
      · rw [Finset.mem_sdiff, mem_mRange] at hm
        rw [cgValue_w3, w3_of_not (fun hc => hm.2 ⟨hc.1, hc.2.1⟩)]
        ring
      · rw [cgValue_w3, cgValue_w3]
        linear_combination -(√(2 * (J : ℝ) + 1) * √(2 * (J' : ℝ) + 1) * (w3 j1 j2 m (M - m) J * w3 j1 j2 m (M - m) J')) * sign_sq (j1 - j2 + M)
    beta_reduce
    rw [hsub, ← Finset.mul_sum]
    split_ifs with he
    · subst he
      have hJ0 : (0 : ℝ) ≤ J := by
        have : 0 ≤ J := (abs_nonneg _).trans cJ.1
        exact_mod_cast this
      rw [Real.mul_self_sqrt (by linarith)]
      refine Eq.trans ?_ (w3_norm_m hne cJ)
      congr 1
      exact Finset.sum_congr rfl fun m _ => by ring
    · rw [w3_orth_m cJ cJ' he hne, mul_zero]
  · intro m m' b1 b2 b1' b2'
    have hMm : ∀ m, m + (M - m) = M := fun m => by ring
    have hsum : ∑ J ∈ Finset.Icc (max |j1 - j2| |M|) (j1 + j2), cgValue j1 m j2 (M - m) J M * cgValue j1 m' j2 (M - m') J M =
        ∑ J ∈ Finset.Icc (jMin j1 j2 M) (j1 + j2), (2 * (J : ℝ) + 1) * (w3 j1 j2 m (M - m) J * w3 j1 j2 m' (M - m') J) := by
      refine Finset.sum_congr rfl fun J hJ => ?_
      have hJ0 : (0 : ℝ) ≤ J := by
        have : 0 ≤ J := ((abs_nonneg _).trans (le_max_left _ _)).trans (Finset.mem_Icc.1 hJ).1
        exact_mod_cast this
      have hs := Real.mul_self_sqrt (show (0 : ℝ) ≤ 2 * J + 1 by linarith)
      rw [cgValue_w3, cgValue_w3]
      linear_combination (√(2 * (J : ℝ) + 1) * √(2 * (J : ℝ) + 1) * (w3 j1 j2 m (M - m) J * w3 j1 j2 m' (M - m') J)) * sign_sq (j1 - j2 + M)
        + (w3 j1 j2 m (M - m) J * w3 j1 j2 m' (M - m') J) * hs
    beta_reduce
    rw [hsum]
    split_ifs with he
    · subst he
      have := w3_norm b1 b2
      rw [hMm] at this
      refine Eq.trans (Finset.sum_congr rfl fun J _ => ?_) this
      ring
    · have := w3_orth_j b1 b2 b1' b2' (by omega) (Ne.symm he)
      rwa [hMm] at this

/-- … with the sign of Condon and Shortley: `⟨j1 j1 j2 J-j1 | J J⟩ > 0` -/
theorem clebsch_gordan_sign (j1 j2 J : ℤ) (h : |j1 - j2| ≤ J) (h' : J ≤ j1 + j2) :
    ∃ v, clebschGordan j1 j1 j2 (J - j1) J J = .ok v ∧ 0 < v := by
  have hJ : 0 ≤ J := (abs_nonneg _).trans h
  refine ⟨_, clebsch_value j1 j1 j2 (J - j1) J J hJ, ?_⟩
  rw [abs_le] at h
  have hJ0 : (0 : ℝ) ≤ J := by exact_mod_cast hJ
  have hc : Coupled j1 j2 (j1 + (J - j1)) J := by
    unfold Coupled; rw [abs_le, abs_le]; omega
  rw [cgValue_w3, w3_of_coupled (by rw [abs_le]; omega) (by rw [abs_le]; omega) hc,
    racahSum_single (J + j1 - j2) (fun k _ _ _ _ _ _ => by omega)]
  unfold racahTerm
  have hN := Real.sqrt_pos.2 (racahNorm_pos J j1 j2 (-(j1 + (J - j1))) j1 (J - j1))
  have hR := Real.sqrt_pos.2 (show (0 : ℝ) < 2 * J + 1 by linarith)
  have p : ∀ n : ℤ, 0 ≤ n → 0 < invFact n := fun n hn => invFact_pos hn
  have p1 := p (J + j1 - j2) (by omega)
  have p2 := p (J + j1 - j2 - (J + j1 - j2)) (by omega)
  have p3 := p (J - -(j1 + (J - j1)) - (J + j1 - j2)) (by omega)
  have p4 := p (j1 + j1 - (J + j1 - j2)) (by omega)
  have p5 := p (j2 - j1 + -(j1 + (J - j1)) + (J + j1 - j2)) (by omega)
  have p6 := p (j2 - J - j1 + (J + j1 - j2)) (by omega)
  have hs : ((-1 : ℝ)) ^ (j1 - j2 + J) * (-1) ^ (J - j1 - (J - j1)) * (-1) ^ (J + j1 - j2) = 1 := by
    rw [← zpow_add₀ (by norm_num), ← zpow_add₀ (by norm_num), show j1 - j2 + J + (J - j1 - (J - j1)) + (J + j1 - j2) = 2 * (J + j1 - j2) by ring, zpow_mul]
    norm_num
  have hpos : 0 < √(2 * (J : ℝ) + 1) * √(racahNorm J j1 j2 (-(j1 + (J - j1))) j1 (J - j1)) * (invFact (J + j1 - j2) *
    invFact (J + j1 - j2 - (J + j1 - j2)) * invFact (J - -(j1 + (J - j1)) - (J + j1 - j2)) * invFact (j1 + j1 - (J + j1 - j2)) *
      invFact (j2 - j1 + -(j1 + (J - j1)) + (J + j1 - j2)) * invFact (j2 - J - j1 + (J + j1 - j2))) := by positivity
  refine lt_of_lt_of_eq hpos ?_
  linear_combination -(√(2 * (J : ℝ) + 1) * √(racahNorm J j1 j2 (-(j1 + (J - j1))) j1 (J - j1)) * (invFact (J + j1 - j2) *
    invFact (J + j1 - j2 - (J + j1 - j2)) * invFact (J - -(j1 + (J - j1)) - (J + j1 - j2)) * invFact (j1 + j1 - (J + j1 - j2)) *
      invFact (j2 - j1 + -(j1 + (J - j1)) + (J + j1 - j2)) * invFact (j2 - J - j1 + (J + j1 - j2)))) * hs

/-! ### examples -/

/-- the formula is not void: `(2 1 1; 0 0 0) = √(2/15)` -/
theorem racah_two_one_one : wigner3j 2 1 1 0 0 0 = √(2 / 15) := by
  have hsel : Selected 2 1 1 0 0 0 := by unfold Selected; norm_num
  have f0 : fact 0 = 1 := fact_zero
  have f1 : fact 1 = 1 := by simp [fact]
  have f2 : fact 2 = 2 := by simp [fact]
  have f5 : fact 5 = 120 := by simp [fact, Nat.factorial]
  unfold wigner3j
  rw [if_pos hsel, racahSum_single 1 (fun k _ _ _ _ _ _ => by omega)]
  unfold racahTerm racahNorm
  norm_num [invFact, f0, f1, f2, f5]

/-- … and the code returns it, after a cyclic permutation -/
example : wigner3jCall 1 2 1 0 0 0 = .ok (√(2 / 15)) := by
  rw [wigner3j_eq, ← wigner3j_cyclic, racah_two_one_one]

end Jaxoplanet.Starry.Wig
