import Mathlib.Analysis.SpecialFunctions.Trigonometric.InverseDeriv
import Mathlib.Analysis.SpecialFunctions.Complex.LogDeriv
import Mathlib.MeasureTheory.Measure.Lebesgue.Integral
import Mathlib.Analysis.SpecialFunctions.Integrals.Basic
import Verif.Model.LimbDark
import Verif.Proofs.Green

/-! # Helper lemmas about `core/limb_dark.py`: geometry of the overlap and the Green's basis -/

namespace Jaxoplanet.LimbDark

open Real MeasureTheory Set Spec intervalIntegral Green

/-! ## Green's basis -/

/-- the Green's basis functions of Agol et al. (2020) -/
noncomputable def gtil : ℕ → ℝ → ℝ
  | 0, _ => 1
  | 1, z => z
  | (n + 2), z => (n + 4) * z ^ (n + 2) - (n + 2) * z ^ n

theorem gHigh_of_ge {p : ℕ → ℝ} {size n : ℕ} (h : size ≤ n) : gHigh p size n = 0 := by
  rw [gHigh, if_neg (by omega)]

theorem gHigh_of_lt {p : ℕ → ℝ} {size n : ℕ} (h : n < size) :
    gHigh p size n = p n / (n + 2) + gHigh p size (n + 2) := by
  rw [gHigh, if_pos h]

theorem sum_greens_aux (p : ℕ → ℝ) (M : ℕ) (z : ℝ) :
    (p 0 + 2 * gHigh p (M + 2) 2) + (p 1 + 3 * gHigh p (M + 2) 3) * z +
      ∑ n ∈ Finset.range M, gHigh p (M + 2) (n + 2) * ((n + 4) * z ^ (n + 2) - (n + 2) * z ^ n) =
    ∑ n ∈ Finset.range (M + 2), p n * z ^ n := by
  set G := gHigh p (M + 2) with hG
  have h1 : ∑ n ∈ Finset.range M, G (n + 2) * ((n + 4) * z ^ (n + 2) - (n + 2) * z ^ n) =
      ∑ n ∈ Finset.range M, (n + 4) * G (n + 2) * z ^ (n + 2) -
        ∑ n ∈ Finset.range M, (n + 2) * G (n + 2) * z ^ n := by
    rw [← Finset.sum_sub_distrib]; exact Finset.sum_congr rfl fun n _ => by ring
  have h2 : ∑ n ∈ Finset.range M, (n + 2 : ℝ) * G (n + 2) * z ^ n =
      ∑ n ∈ Finset.range (M + 2), (n + 2 : ℝ) * G (n + 2) * z ^ n := by
    rw [Finset.sum_range_succ, Finset.sum_range_succ, hG, gHigh_of_ge (n := M + 2) le_rfl,
      gHigh_of_ge (n := M + 1 + 2) (by omega)]
    simp
  have h3 : ∑ n ∈ Finset.range (M + 2), (n + 2 : ℝ) * G (n + 2) * z ^ n =
      ∑ n ∈ Finset.range M, (n + 4) * G (n + 4) * z ^ (n + 2) + 3 * G 3 * z + 2 * G 2 := by
    rw [Finset.sum_range_succ', Finset.sum_range_succ']
    push_cast
    simp only [pow_zero, zero_add, pow_one, mul_one]
    congr 1
    · congr 1
      · exact Finset.sum_congr rfl fun n _ => by ring_nf
      · ring_nf
  have h4 : ∑ n ∈ Finset.range (M + 2), p n * z ^ n =
      ∑ n ∈ Finset.range M, p (n + 2) * z ^ (n + 2) + p 1 * z + p 0 := by
    rw [Finset.sum_range_succ', Finset.sum_range_succ']
    simp
  have h5 : ∑ n ∈ Finset.range M, (n + 4) * G (n + 2) * z ^ (n + 2) =
      ∑ n ∈ Finset.range M, p (n + 2) * z ^ (n + 2) +
        ∑ n ∈ Finset.range M, (n + 4) * G (n + 4) * z ^ (n + 2) := by
    rw [← Finset.sum_add_distrib]
    refine Finset.sum_congr rfl fun n hn => ?_
    have hn := Finset.mem_range.1 hn
    have hG2 : G (n + 2) = p (n + 2) / ((n + 2 : ℕ) + 2) + G (n + 2 + 2) :=
      gHigh_of_lt (by omega)
    have : (n : ℝ) + 4 ≠ 0 := by positivity
    rw [hG2]
    push_cast
    have e : (n : ℝ) + 2 + 2 = n + 4 := by ring
    rw [e]
    field_simp
  rw [h1, h2, h3, h4, h5]
  ring

theorem sum_pCoeff (u : List ℝ) (z : ℝ) :
    ∑ n ∈ Finset.range (u.length + 1), pCoeff u n * z ^ n = profile u z := by
  have hlen : (uAug u).length = u.length + 1 := by simp [uAug]
  unfold pCoeff
  simp only [hlen]
  have h1 : ∀ n ∈ Finset.range (u.length + 1),
      (-1 : ℝ) ^ (n + 1) * (∑ j ∈ Finset.range (u.length + 1),
        (Nat.choose j n : ℝ) * (uAug u).getD j 0) * z ^ n =
      ∑ j ∈ Finset.range (u.length + 1), -((uAug u).getD j 0) * ((-z) ^ n * (Nat.choose j n : ℝ)) := by
    intro n _
    rw [Finset.mul_sum, Finset.sum_mul]
    refine Finset.sum_congr rfl fun j _ => ?_
    rw [neg_pow z n, pow_succ]
    ring
  rw [Finset.sum_congr rfl h1, Finset.sum_comm]
  have h2 : ∀ j ∈ Finset.range (u.length + 1),
      ∑ n ∈ Finset.range (u.length + 1),
        -((uAug u).getD j 0) * ((-z) ^ n * (Nat.choose j n : ℝ)) =
      -((uAug u).getD j 0) * (1 - z) ^ j := by
    intro j hj
    have hj := Finset.mem_range.1 hj
    rw [← Finset.mul_sum]
    congr 1
    have : (1 - z) ^ j = (-z + 1) ^ j := by ring_nf
    rw [this, add_pow]
    symm
    refine Finset.sum_subset_zero_on_sdiff (Finset.range_mono (by omega)) (fun n hn => ?_)
      fun n _ => by simp
    simp only [Finset.mem_sdiff, Finset.mem_range] at hn
    rw [Nat.choose_eq_zero_of_lt (by omega)]; simp
  rw [Finset.sum_congr rfl h2, Finset.sum_range_succ', profile]
  have h3 : ∑ i : Fin u.length, u[i] * (1 - z) ^ (i.val + 1) =
      ∑ i ∈ Finset.range u.length, u.getD i 0 * (1 - z) ^ (i + 1) := by
    rw [Finset.sum_range]
    exact Finset.sum_congr rfl fun i _ => by simp
  rw [h3]
  simp [uAug, Finset.sum_neg_distrib]
  ring

theorem sum_greens {u : List ℝ} (hu : u ≠ []) (z : ℝ) :
    ∑ n ∈ Finset.range (u.length + 1), greens u n * gtil n z = profile u z := by
  obtain ⟨M, hM⟩ : ∃ M, u.length = M + 1 :=
    Nat.exists_eq_succ_of_ne_zero (by simpa using hu)
  have hlen : (uAug u).length = M + 2 := by simp [uAug, hM]
  rw [← sum_pCoeff, hM, Finset.sum_range_succ', Finset.sum_range_succ',
    ← sum_greens_aux (pCoeff u) M z]
  simp only [greens, gtil, hlen, mul_one]
  ring

/-! ## Areas by slicing -/

theorem area_slices {h : ℝ → ℝ} (hc : Continuous h)
    (hi : Integrable fun x => 2 * √(h x)) :
    (volume {p : ℝ × ℝ | p.2 ^ 2 ≤ h p.1}).toReal = ∫ x, 2 * √(h x) := by
  have hm : MeasurableSet {p : ℝ × ℝ | p.2 ^ 2 ≤ h p.1} :=
    (isClosed_le (by fun_prop) (by fun_prop)).measurableSet
  rw [Measure.volume_eq_prod, Measure.prod_apply hm]
  have hs : ∀ x, volume (Prod.mk x ⁻¹' {p : ℝ × ℝ | p.2 ^ 2 ≤ h p.1}) = ENNReal.ofReal (2 * √(h x)) := by
    intro x
    by_cases hx : 0 ≤ h x
    · have : Prod.mk x ⁻¹' {p : ℝ × ℝ | p.2 ^ 2 ≤ h p.1} = Icc (-√(h x)) (√(h x)) := by
        ext y
        simp only [mem_preimage, mem_ofPred_eq, mem_Icc]
        rw [← abs_le, ← sq_abs]
        exact (le_sqrt (abs_nonneg y) hx).symm
      rw [this, Real.volume_Icc]; congr 1; ring
    · have : Prod.mk x ⁻¹' {p : ℝ × ℝ | p.2 ^ 2 ≤ h p.1} = ∅ := by
        ext y
        simp only [mem_preimage, mem_ofPred_eq, mem_empty_iff_false, iff_false]
        nlinarith [sq_nonneg y]
      rw [this, sqrt_eq_zero_of_nonpos (by linarith)]; simp
  simp only [hs]
  rw [← ofReal_integral_eq_lintegral_ofReal hi (Filter.Eventually.of_forall fun x => by positivity),
    ENNReal.toReal_ofReal (integral_nonneg fun x => by positivity)]

/-- area of a circular segment -/
theorem segment_area {R c : ℝ} (hR : 0 < R) (h1 : -R ≤ c) (h2 : c ≤ R) :
    ∫ x in c..R, 2 * √(R ^ 2 - x ^ 2) = R ^ 2 * arccos (c / R) - c * √(R ^ 2 - c ^ 2) := by
  have hc : Continuous fun x : ℝ => 2 * √(R ^ 2 - x ^ 2) := by fun_prop
  have key := integral_eq_sub_of_hasDerivAt_of_le (f := fun x => x * √(R ^ 2 - x ^ 2)
    - R ^ 2 * arccos (x / R)) (f' := fun x => 2 * √(R ^ 2 - x ^ 2)) h2
    (by have := continuous_arccos; fun_prop) (fun x hx => ?_) (hc.intervalIntegrable _ _)
  · rw [key]; simp [hR.ne']
  · have hx1 : -R < x := by linarith [hx.1]
    have hx2 : x < R := hx.2
    have hpos : 0 < R ^ 2 - x ^ 2 := by nlinarith
    have hs := sqrt_pos.2 hpos
    have d1 : HasDerivAt (fun x : ℝ => √(R ^ 2 - x ^ 2)) (-(2 * x) / (2 * √(R ^ 2 - x ^ 2))) x := by
      refine (HasDerivAt.sqrt (f := fun x : ℝ => R ^ 2 - x ^ 2) ?_ hpos.ne')
      simpa using ((hasDerivAt_id x).pow 2).const_sub (R ^ 2)
    have hxa : x / R ≠ -1 := by
      rw [Ne, div_eq_iff hR.ne']; linarith
    have hxb : x / R ≠ 1 := by
      rw [Ne, div_eq_iff hR.ne']; linarith
    have d2 : HasDerivAt (fun x : ℝ => arccos (x / R)) (-(1 / √(1 - (x / R) ^ 2)) * (1 / R)) x :=
      HasDerivAt.comp (h₂ := arccos) x (hasDerivAt_arccos hxa hxb) ((hasDerivAt_id x).div_const R)
    have e : √(1 - (x / R) ^ 2) = √(R ^ 2 - x ^ 2) / R := by
      have : 1 - (x / R) ^ 2 = (R ^ 2 - x ^ 2) / R ^ 2 := by field_simp
      rw [this, sqrt_div hpos.le, sqrt_sq hR.le]
    refine (((hasDerivAt_id x).mul d1).sub (d2.const_mul (R ^ 2))).congr_deriv ?_
    rw [e]
    have hsq : √(R ^ 2 - x ^ 2) ^ 2 = R ^ 2 - x ^ 2 := sq_sqrt hpos.le
    simp only [id]
    field_simp
    rw [hsq]; ring

theorem segment_area_Ioi {R c : ℝ} (hR : 0 < R) (h1 : -R ≤ c) (h2 : c ≤ R) :
    ∫ x in Ioi c, 2 * √(R ^ 2 - x ^ 2) = R ^ 2 * arccos (c / R) - c * √(R ^ 2 - c ^ 2) := by
  rw [← segment_area hR h1 h2, integral_of_le h2]
  refine setIntegral_eq_of_subset_of_forall_sdiff_eq_zero measurableSet_Ioi Ioc_subset_Ioi_self
    fun x hx => ?_
  have hx1 : c < x := hx.1
  have hx2 : R < x := by
    by_contra h
    exact hx.2 ⟨hx1, not_lt.1 h⟩
  rw [sqrt_eq_zero_of_nonpos (by nlinarith)]; simp

theorem segment_area_Iic {R b c : ℝ} (hR : 0 < R) (h1 : -R ≤ b - c) (h2 : b - c ≤ R) :
    ∫ x in Iic c, 2 * √(R ^ 2 - (x - b) ^ 2) =
      R ^ 2 * arccos ((b - c) / R) - (b - c) * √(R ^ 2 - (b - c) ^ 2) := by
  rw [← segment_area_Ioi hR h1 h2, ← integral_Ici_eq_integral_Ioi]
  have hp : MeasurePreserving (fun x : ℝ => b - x) volume volume :=
    Measure.measurePreserving_sub_left volume b
  have hpre : (fun x : ℝ => b - x) ⁻¹' (Iic c) = Ici (b - c) := by
    ext x; simp
  rw [← hp.setIntegral_preimage_emb (MeasurableEquiv.subLeft b).measurableEmbedding, hpre]
  refine setIntegral_congr_fun measurableSet_Ici fun x _ => ?_
  have e : b - x - b = -x := by ring
  rw [e, neg_sq]

/-! ## The geometry of the overlap -/

theorem kiteArea_eq (a b c : ℝ) :
    kiteArea a b c = √(max 0 ((a + b + c) * (-a + b + c) * (a - b + c) * (a + b - c))) := by
  have key : ∀ a b c : ℝ, (a + (b + c)) * (c - (a - b)) * (c + (a - b)) * (a + (b - c)) =
      (a + b + c) * (-a + b + c) * (a - b + c) * (a + b - c) := fun a b c => by ring
  unfold kiteArea sort2 Kepler.zeroSafeSqrt
  simp only [key]
  have mm : ∀ a b : ℝ, (min a b, max a b) = (a, b) ∨ (min a b, max a b) = (b, a) := fun a b => by
    rcases le_total a b with h | h
    · left; simp [h]
    · right; simp [h]
  congr 2
  rcases le_total a b with h | h <;> simp only [min_eq_left h, min_eq_right h, max_eq_left h, max_eq_right h]
  · rcases le_total b c with h' | h' <;>
      simp only [min_eq_left h', min_eq_right h', max_eq_left h', max_eq_right h']
    · simp only [min_eq_left h, max_eq_right h]
    · rcases le_total a c with h'' | h'' <;>
        simp only [min_eq_left h'', min_eq_right h'', max_eq_left h'', max_eq_right h''] <;> ring
  · rcases le_total a c with h' | h' <;>
      simp only [min_eq_left h', min_eq_right h', max_eq_left h', max_eq_right h']
    · simp only [min_eq_left h, max_eq_right h]; ring
    · rcases le_total b c with h'' | h'' <;>
        simp only [min_eq_left h'', min_eq_right h'', max_eq_left h'', max_eq_right h''] <;> ring

/-- the occultor's disc crosses the limb -/
def Lens (b r : ℝ) : Prop := |1 - r| < b ∧ b < 1 + r

theorem Lens.ineqs {b r : ℝ} (h : Lens b r) : 0 < b ∧ 0 < r ∧ 1 < b + r ∧ b < 1 + r ∧ r < 1 + b := by
  have h1 := abs_lt.1 h.1
  have h2 := h.2
  have : 0 < b := lt_of_le_of_lt (abs_nonneg _) h.1
  refine ⟨this, ?_, ?_, h2, ?_⟩ <;> linarith

/-- everything about the kite in the partially overlapping case -/
theorem lens_kappas {b r : ℝ} (h : Lens b r) :
    let k := kappas b r
    0 < k.1 ∧ k.1 ^ 2 = (2 * b * r) ^ 2 - (b ^ 2 + r ^ 2 - 1) ^ 2 ∧
    k.1 ^ 2 = (2 * b) ^ 2 - (b ^ 2 + 1 - r ^ 2) ^ 2 ∧
    k.2.1 = arccos ((b ^ 2 + r ^ 2 - 1) / (2 * b * r)) ∧
    k.2.2 = arccos ((b ^ 2 + 1 - r ^ 2) / (2 * b)) ∧
    cos k.2.1 = (b ^ 2 + r ^ 2 - 1) / (2 * b * r) ∧ sin k.2.1 = k.1 / (2 * b * r) ∧
    cos k.2.2 = (b ^ 2 + 1 - r ^ 2) / (2 * b) ∧ sin k.2.2 = k.1 / (2 * b) ∧
    0 < k.2.1 ∧ k.2.1 < π := by
  obtain ⟨hb, hr, h1, h2, h3⟩ := h.ineqs
  have hcond : b > |1 - r| ∧ b < 1 + r := h
  set A := (r + b + 1) * (-r + b + 1) * (r - b + 1) * (r + b - 1) with hA
  have hApos : 0 < A := by
    have : 0 < r + b + 1 := by linarith
    have : 0 < -r + b + 1 := by linarith
    have : 0 < r - b + 1 := by linarith
    have : 0 < r + b - 1 := by linarith
    positivity
  have harea : (kappas b r).1 = √A := by
    simp only [kappas, if_pos hcond, kiteArea_eq, ← hA, max_eq_right hApos.le]
  have hk0 : (kappas b r).2.1 = arctan2 (kappas b r).1 (b ^ 2 + (r - 1) * (r + 1)) := rfl
  have hk1 : (kappas b r).2.2 = arctan2 (kappas b r).1 (b ^ 2 - (r - 1) * (r + 1)) := rfl
  simp only
  rw [hk0, hk1, harea]
  have hs := sqrt_pos.2 hApos
  have hsq := sq_sqrt hApos.le
  set a := √A
  have e1 : a ^ 2 = (2 * b * r) ^ 2 - (b ^ 2 + r ^ 2 - 1) ^ 2 := by rw [hsq, hA]; ring
  have e2 : a ^ 2 = (2 * b) ^ 2 - (b ^ 2 + 1 - r ^ 2) ^ 2 := by rw [hsq, hA]; ring
  have f1 : b ^ 2 + (r - 1) * (r + 1) = b ^ 2 + r ^ 2 - 1 := by ring
  have f2 : b ^ 2 - (r - 1) * (r + 1) = b ^ 2 + 1 - r ^ 2 := by ring
  rw [f1, f2]
  have n1 : ‖(⟨b ^ 2 + r ^ 2 - 1, a⟩ : ℂ)‖ = 2 * b * r := by
    rw [Complex.norm_def, Complex.normSq_mk]
    rw [show (b ^ 2 + r ^ 2 - 1) * (b ^ 2 + r ^ 2 - 1) + a * a = (2 * b * r) ^ 2 by linear_combination e1]
    exact sqrt_sq (by positivity)
  have n2 : ‖(⟨b ^ 2 + 1 - r ^ 2, a⟩ : ℂ)‖ = 2 * b := by
    rw [Complex.norm_def, Complex.normSq_mk]
    rw [show (b ^ 2 + 1 - r ^ 2) * (b ^ 2 + 1 - r ^ 2) + a * a = (2 * b) ^ 2 by linear_combination e2]
    exact sqrt_sq (by positivity)
  have z1 : (⟨b ^ 2 + r ^ 2 - 1, a⟩ : ℂ) ≠ 0 := fun h => hs.ne' (congrArg Complex.im h)
  have z2 : (⟨b ^ 2 + 1 - r ^ 2, a⟩ : ℂ) ≠ 0 := fun h => hs.ne' (congrArg Complex.im h)
  have c1 : cos (arctan2 a (b ^ 2 + r ^ 2 - 1)) = (b ^ 2 + r ^ 2 - 1) / (2 * b * r) := by
    rw [arctan2, Complex.cos_arg z1, n1]
  have s1 : sin (arctan2 a (b ^ 2 + r ^ 2 - 1)) = a / (2 * b * r) := by
    rw [arctan2, Complex.sin_arg, n1]
  have c2 : cos (arctan2 a (b ^ 2 + 1 - r ^ 2)) = (b ^ 2 + 1 - r ^ 2) / (2 * b) := by
    rw [arctan2, Complex.cos_arg z2, n2]
  have s2 : sin (arctan2 a (b ^ 2 + 1 - r ^ 2)) = a / (2 * b) := by
    rw [arctan2, Complex.sin_arg, n2]
  have p1 : 0 ≤ arctan2 a (b ^ 2 + r ^ 2 - 1) := Complex.arg_nonneg_iff.2 hs.le
  have p2 : 0 ≤ arctan2 a (b ^ 2 + 1 - r ^ 2) := Complex.arg_nonneg_iff.2 hs.le
  have q1 : arctan2 a (b ^ 2 + r ^ 2 - 1) ≤ π := Complex.arg_le_pi _
  have q2 : arctan2 a (b ^ 2 + 1 - r ^ 2) ≤ π := Complex.arg_le_pi _
  have t1 : 0 < sin (arctan2 a (b ^ 2 + r ^ 2 - 1)) := by rw [s1]; positivity
  refine ⟨hs, e1, e2, ?_, ?_, c1, s1, c2, s2, ?_, ?_⟩
  · rw [← c1, arccos_cos p1 q1]
  · rw [← c2, arccos_cos p2 q2]
  · refine lt_of_le_of_ne p1 fun h => ?_
    rw [← h, sin_zero] at t1; exact lt_irrefl _ t1
  · refine lt_of_le_of_ne q1 fun h => ?_
    rw [h, sin_pi] at t1; exact lt_irrefl _ t1

/-- the occultor's disc lies inside the star -/
theorem inside_kappas {b r : ℝ} (hb : 0 ≤ b) (hr : 0 ≤ r) (h : b + r ≤ 1)
    (h1 : b < 1 + r) (h2 : r < 1 + b) : kappas b r = (0, π, 0) := by
  have hcond : ¬ (b > |1 - r| ∧ b < 1 + r) := by
    rintro ⟨h', -⟩
    rw [abs_of_nonneg (by linarith)] at h'
    linarith
  have hneg : b ^ 2 + (r - 1) * (r + 1) < 0 := by
    rcases hb.eq_or_lt with rfl | hb'
    · nlinarith
    · rcases hr.eq_or_lt with rfl | hr'
      · nlinarith
      · nlinarith [mul_pos hb' hr']
  have hpos : 0 ≤ b ^ 2 - (r - 1) * (r + 1) := by nlinarith [sq_nonneg b]
  have e0 : arctan2 0 (b ^ 2 + (r - 1) * (r + 1)) = π :=
    Complex.arg_ofReal_of_neg hneg
  have e1 : arctan2 0 (b ^ 2 - (r - 1) * (r + 1)) = 0 := Complex.arg_ofReal_of_nonneg hpos
  simp only [kappas, if_neg hcond, e0, e1]

theorem lens_or_inside {b r : ℝ} (h1 : b < 1 + r) (h2 : r < 1 + b) : Lens b r ∨ b + r ≤ 1 := by
  by_cases h : b + r ≤ 1
  · exact Or.inr h
  · left
    refine ⟨abs_lt.2 ⟨?_, ?_⟩, h1⟩ <;> linarith

theorem integral_one_occultor (b : ℝ) {r : ℝ} (hr : 0 ≤ r) :
    ∫ _p in occultor b r, (1 : ℝ) = π * r ^ 2 := by
  have h := green (H := fun _ => 1 / 2) (H' := fun _ => 0) (fun x => hasDerivAt_const x _)
    continuous_const b hr
  simp only [mul_zero, sub_zero] at h
  norm_num at h
  simp only [setIntegral_const, smul_eq_mul, mul_one]
  rw [h]
  ring

theorem lens_area {b r : ℝ} (h : Lens b r) :
    ∫ _p in stellarDisc ∩ occultor b r, (1 : ℝ) =
      (kappas b r).2.2 + r ^ 2 * (kappas b r).2.1 - (kappas b r).1 * 0.5 := by
  obtain ⟨hb, hr, h1, h2, h3⟩ := h.ineqs
  obtain ⟨ha, hs0, hs1, hk0, hk1, hc0, hsn0, hc1, hsn1, hp0, hp1⟩ := lens_kappas h
  set a := (kappas b r).1
  set κ0 := (kappas b r).2.1
  set κ1 := (kappas b r).2.2
  set x0 := (b ^ 2 + 1 - r ^ 2) / (2 * b) with hx0
  have hbx : b - x0 = (b ^ 2 + r ^ 2 - 1) / (2 * b) := by rw [hx0]; field_simp; ring
  have hcos1 := neg_one_le_cos κ1
  have hcos1' := cos_le_one κ1
  have hcos0 := neg_one_le_cos κ0
  have hcos0' := cos_le_one κ0
  have hr0 : (b - x0) = r * cos κ0 := by rw [hbx, hc0]; field_simp
  let f : ℝ → ℝ := fun x => min (1 - x ^ 2) (r ^ 2 - (x - b) ^ 2)
  have hfc : Continuous f := by simp only [f]; fun_prop
  have hset : stellarDisc ∩ occultor b r = {p : ℝ × ℝ | p.2 ^ 2 ≤ f p.1} := by
    ext p
    simp only [stellarDisc, occultor, mem_inter_iff, mem_ofPred_eq, f, le_min_iff]
    constructor <;> rintro ⟨h, h'⟩ <;> constructor <;> linarith
  have hint : Integrable fun x => 2 * √(f x) := by
    have hc : Continuous fun x => 2 * √(f x) := by fun_prop
    refine hc.integrable_of_hasCompactSupport ?_
    refine HasCompactSupport.intro (isCompact_Icc (a := (-1 : ℝ)) (b := 1)) fun x hx => ?_
    have : f x ≤ 0 := by
      refine (min_le_left _ _).trans ?_
      rw [mem_Icc, ← abs_le, not_le] at hx
      nlinarith [sq_abs x]
    rw [sqrt_eq_zero_of_nonpos this, mul_zero]
  rw [setIntegral_const, smul_eq_mul, mul_one, Measure.real, hset, area_slices hfc hint,
    ← intervalIntegral.integral_Iic_add_Ioi hint.integrableOn hint.integrableOn (b := x0)]
  have e1 : ∫ x in Iic x0, 2 * √(f x) = ∫ x in Iic x0, 2 * √(r ^ 2 - (x - b) ^ 2) := by
    refine setIntegral_congr_fun measurableSet_Iic fun x hx => ?_
    have hx : x ≤ x0 := hx
    rw [hx0, le_div_iff₀ (by positivity)] at hx
    simp only [f]
    rw [min_eq_right (by nlinarith)]
  have e2 : ∫ x in Ioi x0, 2 * √(f x) = ∫ x in Ioi x0, 2 * √((1 : ℝ) ^ 2 - x ^ 2) := by
    refine setIntegral_congr_fun measurableSet_Ioi fun x hx => ?_
    have hx : x0 < x := hx
    rw [hx0, div_lt_iff₀ (by positivity)] at hx
    simp only [f]
    rw [min_eq_left (by nlinarith), one_pow]
  rw [e1, e2, segment_area_Iic hr (by nlinarith) (by nlinarith),
    segment_area_Ioi one_pos (by linarith) (by linarith)]
  have g1 : √(r ^ 2 - (b - x0) ^ 2) = a / (2 * b) := by
    rw [show r ^ 2 - (b - x0) ^ 2 = (a / (2 * b)) ^ 2 by
      rw [hbx, div_pow, div_pow, hs0]; field_simp]
    exact sqrt_sq (by positivity)
  have g2 : √((1 : ℝ) ^ 2 - x0 ^ 2) = a / (2 * b) := by
    rw [show (1 : ℝ) ^ 2 - x0 ^ 2 = (a / (2 * b)) ^ 2 by
      rw [hx0, div_pow, div_pow, hs1]; field_simp]
    exact sqrt_sq (by positivity)
  have g3 : (b - x0) / r = (b ^ 2 + r ^ 2 - 1) / (2 * b * r) := by rw [hbx]; field_simp
  rw [g1, g2, g3, ← hk0, div_one, ← hk1]
  field_simp
  ring

theorem occultor_subset {b r : ℝ} (hb : 0 ≤ b) (hr : 0 ≤ r) (h : b + r ≤ 1) :
    occultor b r ⊆ stellarDisc := by
  intro p hp
  simp only [occultor, stellarDisc, mem_ofPred_eq] at *
  have hx : p.1 ≤ b + r := by nlinarith [sq_nonneg p.2]
  nlinarith [mul_le_mul_of_nonneg_left hx hb]

theorem inside_area {b r : ℝ} (hb : 0 ≤ b) (hr : 0 ≤ r) (h : b + r ≤ 1) :
    ∫ _p in stellarDisc ∩ occultor b r, (1 : ℝ) = π * r ^ 2 := by
  rw [inter_eq_right.2 (occultor_subset hb hr h), integral_one_occultor b hr]

/-! ## The boundary integrals over the occulting arc -/

theorem w_sign {b r : ℝ} (hb : 0 ≤ b) (hr : 0 ≤ r) (h1 : b < 1 + r) (h2 : r < 1 + b) :
    0 ≤ (kappas b r).2.1 ∧ (kappas b r).2.1 ≤ π ∧
    (∀ φ, 0 ≤ φ → φ ≤ (kappas b r).2.1 → 0 ≤ w b r φ) ∧
    ∀ φ, (kappas b r).2.1 < φ → φ ≤ π → w b r φ ≤ 0 := by
  rcases lens_or_inside h1 h2 with h | h
  · obtain ⟨hb', hr', -⟩ := h.ineqs
    obtain ⟨ha, hs0, hs1, hk0, hk1, hc0, hsn0, hc1, hsn1, hp0, hp1⟩ := lens_kappas h
    have hw : ∀ φ, w b r φ = 2 * b * r * (cos φ - cos (kappas b r).2.1) := fun φ => by
      rw [hc0, w]; field_simp; ring
    refine ⟨hp0.le, hp1.le, fun φ h0 hφ => ?_, fun φ hφ hπ => ?_⟩
    · rw [hw]
      have := cos_le_cos_of_nonneg_of_le_pi h0 hp1.le hφ
      exact mul_nonneg (by positivity) (by linarith)
    · rw [hw]
      have := cos_le_cos_of_nonneg_of_le_pi hp0.le hπ hφ.le
      exact mul_nonpos_of_nonneg_of_nonpos (by positivity) (by linarith)
  · rw [inside_kappas hb hr h h1 h2]
    refine ⟨pi_pos.le, le_rfl, fun φ _ _ => ?_, fun φ h3 h4 => absurd h3 (not_lt.2 h4)⟩
    have := neg_one_le_cos φ
    have : 0 ≤ b * r := mul_nonneg hb hr
    rw [w]
    nlinarith

theorem integral_even {F : ℝ → ℝ} (hF : Continuous F) (he : ∀ φ, F (-φ) = F φ) :
    ∫ φ in (-π)..π, F φ = 2 * ∫ φ in (0 : ℝ)..π, F φ := by
  rw [← intervalIntegral.integral_add_adjacent_intervals (b := 0) (hF.intervalIntegrable _ _)
    (hF.intervalIntegrable _ _)]
  have : ∫ φ in (-π)..0, F φ = ∫ φ in (0 : ℝ)..π, F φ := by
    have := intervalIntegral.integral_comp_neg (a := 0) (b := π) F
    simp only [he, neg_zero] at this
    exact this.symm
  rw [this]; ring

/-- splitting a boundary integral at the end of the occulting arc -/
theorem arc_split {b r : ℝ} {G : ℝ → ℝ} (hG : Continuous G) (κ : ℝ) :
    ∫ φ in (-π)..π, G (w b r φ) * (r ^ 2 - b * r * cos φ) =
      (∫ φ in (0 : ℝ)..κ, 2 * r * (r - b * cos φ) * G (w b r φ)) +
      2 * ∫ φ in κ..π, G (w b r φ) * (r ^ 2 - b * r * cos φ) := by
  have hc : Continuous fun φ => G (w b r φ) * (r ^ 2 - b * r * cos φ) :=
    (hG.comp (continuous_w b r)).mul (by fun_prop)
  rw [integral_even hc (fun φ => by simp [w]),
    ← intervalIntegral.integral_add_adjacent_intervals (b := κ) (hc.intervalIntegrable _ _)
    (hc.intervalIntegrable _ _), mul_add, ← intervalIntegral.integral_const_mul]
  congr 1
  exact intervalIntegral.integral_congr fun φ _ => by ring

theorem arc_pow {b r : ℝ} (hb : 0 ≤ b) (hr : 0 ≤ r) (h1 : b < 1 + r) (h2 : r < 1 + b) {n : ℕ}
    (hn : 2 ≤ n) :
    ∫ φ in (-π)..π, (max (w b r φ) 0) ^ ((n : ℝ) / 2) * (r ^ 2 - b * r * cos φ) =
      ∫ φ in (0 : ℝ)..(kappas b r).2.1, 2 * r * (r - b * cos φ) * √(w b r φ) ^ n := by
  have hn' : (0 : ℝ) < (n : ℝ) / 2 := by positivity
  obtain ⟨k0, kπ, hpos, hneg⟩ := w_sign hb hr h1 h2
  rw [arc_split (continuous_pospow hn') (kappas b r).2.1]
  have e2 : ∫ φ in (kappas b r).2.1..π, (max (w b r φ) 0) ^ ((n : ℝ) / 2) * (r ^ 2 - b * r * cos φ) = 0 := by
    rw [intervalIntegral.integral_of_le kπ]
    refine setIntegral_eq_zero_of_forall_eq_zero fun φ hφ => ?_
    rw [max_eq_right (hneg φ hφ.1 hφ.2), zero_rpow hn'.ne', zero_mul]
  rw [e2, mul_zero, add_zero]
  refine intervalIntegral.integral_congr fun φ hφ => ?_
  rw [uIcc_of_le k0] at hφ
  have hw := hpos φ hφ.1 hφ.2
  rw [max_eq_left hw, sqrt_eq_rpow, ← rpow_natCast, ← rpow_mul hw]
  ring_nf

theorem K_of_nonneg {x : ℝ} (hx : 0 ≤ x) : K x = (1 + √x + √x ^ 2) / (3 * (1 + √x)) := by
  rw [K, max_eq_left hx, max_eq_right (by linarith)]
  have hs := sqrt_nonneg x
  have h2 := sq_sqrt hx
  generalize √x = z at *
  subst h2
  field_simp
  ring

theorem K_of_nonpos {x : ℝ} (hx : x ≤ 0) : K x = 1 / (3 * (1 - x)) := by
  rw [K, max_eq_right hx, max_eq_left (by linarith), sqrt_zero]
  have : 1 - x ≠ 0 := by linarith
  have : 1 + 0 + -x ≠ 0 := by linarith
  field_simp
  ring

/-- the angle subtended at the star's centre by the outer arc of the occultor -/
theorem outer_angle {b r : ℝ} (h : Lens b r) :
    ∫ φ in (kappas b r).2.1..π, (r ^ 2 - b * r * cos φ) / (1 - w b r φ) = (kappas b r).2.2 := by
  obtain ⟨hb, hr, h1, h2, h3⟩ := h.ineqs
  obtain ⟨ha, hs0, hs1, hk0, hk1, hc0, hsn0, hc1, hsn1, hp0, hp1⟩ := lens_kappas h
  set κ0 := (kappas b r).2.1
  obtain ⟨-, -, -, hneg⟩ := w_sign hb.le hr.le h2 h3
  let γ : ℝ → ℂ := fun φ => (b - r * cos φ : ℝ) + (r * sin φ : ℝ) * Complex.I
  have kre : ∀ x y : ℝ, ((x : ℂ) + (y : ℂ) * Complex.I).re = x := fun x y => by simp
  have kim : ∀ x y : ℝ, ((x : ℂ) + (y : ℂ) * Complex.I).im = y := fun x y => by simp
  have hre : ∀ φ, (γ φ).re = b - r * cos φ := fun φ => kre _ _
  have him : ∀ φ, (γ φ).im = r * sin φ := fun φ => kim _ _
  have hslit : ∀ φ ∈ Icc κ0 π, γ φ ∈ Complex.slitPlane := by
    intro φ hφ
    rcases hφ.2.eq_or_lt with h' | h'
    · left; rw [hre, h', cos_pi]; linarith
    · right
      rw [him]
      exact (mul_pos hr (sin_pos_of_pos_of_lt_pi (by linarith [hφ.1]) h')).ne'
  have hγ : ∀ φ, HasDerivAt γ ((r * sin φ : ℝ) + (r * cos φ : ℝ) * Complex.I) φ := by
    intro φ
    have d1 : HasDerivAt (fun φ : ℝ => b - r * cos φ) (r * sin φ) φ := by
      refine (((hasDerivAt_cos φ).const_mul r).const_sub b).congr_deriv (by ring)
    have d2 : HasDerivAt (fun φ : ℝ => r * sin φ) (r * cos φ) φ := (hasDerivAt_sin φ).const_mul r
    exact d1.ofReal_comp.add (d2.ofReal_comp.mul_const Complex.I)
  have hd : ∀ φ ∈ uIcc κ0 π, HasDerivAt (fun φ => -(Complex.log (γ φ)).im)
      ((r ^ 2 - b * r * cos φ) / (1 - w b r φ)) φ := by
    intro φ hφ
    rw [uIcc_of_le hp1.le] at hφ
    have hl := (hγ φ).clog_real (hslit φ hφ)
    have hl2 := (Complex.imCLM.hasFDerivAt.comp_hasDerivAt φ hl).neg
    refine hl2.congr_deriv ?_
    have hns : Complex.normSq (γ φ) = 1 - w b r φ := by
      rw [Complex.normSq_apply, hre, him, w]
      linear_combination r ^ 2 * sin_sq_add_cos_sq φ
    simp only [Complex.imCLM_apply, Complex.div_im, hns, hre, him, kre, kim]
    rw [← sub_div, ← neg_div]
    congr 1
    linear_combination r ^ 2 * sin_sq_add_cos_sq φ
  rw [intervalIntegral.integral_eq_sub_of_hasDerivAt hd]
  · rw [Complex.log_im, Complex.log_im]
    have e1 : γ π = ((b + r : ℝ) : ℂ) := by
      apply Complex.ext
      · rw [hre, cos_pi, Complex.ofReal_re]; ring
      · rw [him, sin_pi, Complex.ofReal_im]; ring
    have e2 : γ κ0 = (((2 * b)⁻¹ : ℝ) : ℂ) * ⟨b ^ 2 - (r - 1) * (r + 1), (kappas b r).1⟩ := by
      apply Complex.ext
      · rw [hre, hc0, Complex.re_ofReal_mul]; field_simp; ring
      · rw [him, hsn0, Complex.im_ofReal_mul]; field_simp
    rw [e1, Complex.arg_ofReal_of_nonneg (by linarith), e2, Complex.arg_real_mul _ (by positivity)]
    simp only [neg_zero, zero_sub, neg_neg]
    rfl
  · refine ContinuousOn.intervalIntegrable ?_
    have hwc := continuous_w b r
    refine ContinuousOn.div (by fun_prop) (by fun_prop) fun φ hφ => ?_
    rw [uIcc_of_le hp1.le] at hφ
    rcases hφ.1.eq_or_lt with h' | h'
    · rw [← h']
      have : w b r κ0 = 0 := by rw [w, hc0]; field_simp; ring
      rw [this]; norm_num
    · have := hneg φ h' hφ.2
      linarith

theorem continuous_K : Continuous K :=
  continuous_iff_continuousAt.2 fun x => (hasDerivAt_K x).continuousAt

theorem arc_one {b r : ℝ} (hb : 0 ≤ b) (hr : 0 ≤ r) (h1 : b < 1 + r) (h2 : r < 1 + b) :
    ∫ φ in (-π)..π, K (w b r φ) * (r ^ 2 - b * r * cos φ) =
      (∫ φ in (0 : ℝ)..(kappas b r).2.1, 2 * r * (r - b * cos φ) *
        ((1 + √(w b r φ) + √(w b r φ) ^ 2) / (3 * (1 + √(w b r φ))))) + 2 * (kappas b r).2.2 / 3 := by
  obtain ⟨k0, kπ, hpos, hneg⟩ := w_sign hb hr h1 h2
  rw [arc_split continuous_K (kappas b r).2.1]
  congr 1
  · refine intervalIntegral.integral_congr fun φ hφ => ?_
    rw [uIcc_of_le k0] at hφ
    rw [K_of_nonneg (hpos φ hφ.1 hφ.2)]
  · have e : ∫ φ in (kappas b r).2.1..π, K (w b r φ) * (r ^ 2 - b * r * cos φ) =
        ∫ φ in (kappas b r).2.1..π, 1 / 3 * ((r ^ 2 - b * r * cos φ) / (1 - w b r φ)) := by
      rw [intervalIntegral.integral_of_le kπ, intervalIntegral.integral_of_le kπ]
      refine setIntegral_congr_fun measurableSet_Ioc fun φ hφ => ?_
      have hw := hneg φ hφ.1 hφ.2
      rw [K_of_nonpos hw]
      have : 1 - w b r φ ≠ 0 := by linarith
      field_simp
    rw [e, intervalIntegral.integral_const_mul]
    rcases lens_or_inside h1 h2 with h | h
    · rw [outer_angle h]; ring
    · rw [inside_kappas hb hr h h1 h2]; simp

theorem arc_two (b r κ : ℝ) (hw : ∀ φ ∈ uIcc 0 κ, 0 ≤ w b r φ) :
    ∫ φ in (0 : ℝ)..κ, 2 * r * (r - b * cos φ) * √(w b r φ) ^ 2 =
      2 * r ^ 2 * (1 - 2 * b ^ 2 - r ^ 2) * κ + 2 * b * r * (3 * r ^ 2 + b ^ 2 - 1) * sin κ
        - 2 * b ^ 2 * r ^ 2 * (sin κ * cos κ) := by
  have e : ∫ φ in (0 : ℝ)..κ, 2 * r * (r - b * cos φ) * √(w b r φ) ^ 2 =
      ∫ φ in (0 : ℝ)..κ, 2 * r * (r - b * cos φ) * w b r φ :=
    intervalIntegral.integral_congr fun φ hφ => by rw [sq_sqrt (hw φ hφ)]
  rw [e]
  have hc : Continuous fun φ => 2 * r * (r - b * cos φ) * w b r φ := by
    have := continuous_w b r
    fun_prop
  rw [intervalIntegral.integral_eq_sub_of_hasDerivAt (f := fun κ =>
    2 * r ^ 2 * (1 - 2 * b ^ 2 - r ^ 2) * κ + 2 * b * r * (3 * r ^ 2 + b ^ 2 - 1) * sin κ
        - 2 * b ^ 2 * r ^ 2 * (sin κ * cos κ)) (fun φ _ => ?_) (hc.intervalIntegrable _ _)]
  · simp
  · have d := (((hasDerivAt_id φ).const_mul (2 * r ^ 2 * (1 - 2 * b ^ 2 - r ^ 2))).add
      ((hasDerivAt_sin φ).const_mul (2 * b * r * (3 * r ^ 2 + b ^ 2 - 1)))).sub
      (((hasDerivAt_sin φ).mul (hasDerivAt_cos φ)).const_mul (2 * b ^ 2 * r ^ 2))
    refine d.congr_deriv ?_
    rw [w]
    linear_combination (2 * b ^ 2 * r ^ 2) * sin_sq_add_cos_sq φ

/-! ## The integrals of the Green's basis functions over the hidden region -/

theorem continuous_gtil_mu (n : ℕ) : Continuous fun p => gtil n (mu p) := by
  have := continuous_mu
  match n with
  | 0 => exact continuous_const
  | 1 => exact this
  | n + 2 => simp only [gtil]; fun_prop

theorem isCompact_stellarDisc : IsCompact stellarDisc := by
  refine Metric.isCompact_of_isClosed_isBounded (isClosed_le (by fun_prop) (by fun_prop)) ?_
  refine (Metric.isBounded_Icc (-1 : ℝ) 1).prod (Metric.isBounded_Icc (-1 : ℝ) 1) |>.subset ?_
  intro p hp
  simp only [stellarDisc, mem_ofPred_eq] at hp
  refine ⟨abs_le.1 ?_, abs_le.1 ?_⟩ <;> refine abs_le_one_iff_mul_self_le_one.2 ?_ <;>
    nlinarith [sq_nonneg p.1, sq_nonneg p.2]

theorem integrableOn_of_continuous {f : ℝ × ℝ → ℝ} (hf : Continuous f) (b r : ℝ) :
    IntegrableOn f (stellarDisc ∩ occultor b r) :=
  (hf.continuousOn.integrableOn_compact isCompact_stellarDisc).mono_set inter_subset_left

/-- blocked flux in the Green's basis -/
theorem blockedFlux_eq {u : List ℝ} (hu : u ≠ []) (b r : ℝ) :
    blockedFlux u b r = ∑ n ∈ Finset.range (u.length + 1),
      greens u n * ∫ p in stellarDisc ∩ occultor b r, gtil n (mu p) := by
  unfold blockedFlux
  simp only [← sum_greens hu]
  rw [MeasureTheory.integral_finsetSum]
  · exact Finset.sum_congr rfl fun n _ => MeasureTheory.integral_const_mul _ _
  · intro n _
    exact (integrableOn_of_continuous (continuous_gtil_mu n) b r).const_mul _

theorem gtil_rpow (n : ℕ) (p : ℝ × ℝ) : gtil (n + 2) (mu p) =
    (((n + 2 : ℕ) : ℝ) + 2) * mu p ^ ((n + 2 : ℕ) : ℝ) - ((n + 2 : ℕ) : ℝ) * mu p ^ (((n + 2 : ℕ) : ℝ) - 2) := by
  have : ((n + 2 : ℕ) : ℝ) - 2 = (n : ℝ) := by push_cast; ring
  rw [this, rpow_natCast, rpow_natCast, gtil]
  push_cast
  ring

theorem hidden_high {b r : ℝ} (hr : 0 ≤ r) (n : ℕ) :
    ∫ p in stellarDisc ∩ occultor b r, gtil (n + 2) (mu p) =
      ∫ φ in (-π)..π, (max (w b r φ) 0) ^ (((n + 2 : ℕ) : ℝ) / 2) * (r ^ 2 - b * r * cos φ) := by
  rcases n.eq_zero_or_pos with rfl | hn
  · have : ∀ p, gtil (0 + 2) (mu p) = 4 * mu p ^ 2 - 2 := fun p => by simp [gtil]
    simp only [this]
    rw [term_two b hr]
    norm_num
  · simp only [gtil_rpow]
    exact term_high (by push_cast; have : (1 : ℝ) ≤ n := by exact_mod_cast hn
                        linarith) b hr

theorem whole_star (n : ℕ) : ∫ p in stellarDisc, gtil n (mu p) =
    match n with | 0 => π | 1 => 2 * π / 3 | _ => 0 := by
  have hs : stellarDisc = stellarDisc ∩ occultor 0 1 := by rw [← star_eq, inter_self]
  match n with
  | 0 =>
    have := integral_one_occultor 0 zero_le_one
    rw [← star_eq] at this
    simpa [gtil] using this
  | 1 =>
    rw [hs]
    have := term_one 0 zero_le_one
    simp only [gtil]
    rw [this]
    simp [w, K]
    ring
  | n + 2 =>
    rw [hs, hidden_high zero_le_one]
    have h0 : ((n : ℝ) + 2) / 2 ≠ 0 := by positivity
    simp [w, zero_rpow h0]

theorem totalFlux_eq {u : List ℝ} (hu : u ≠ []) :
    totalFlux u = π * (greens u 0 + greens u 1 / 1.5) := by
  have h : totalFlux u = blockedFlux u 0 1 := by
    unfold totalFlux blockedFlux; rw [← star_eq, inter_self]
  rw [h, blockedFlux_eq hu, ← star_eq, inter_self]
  obtain ⟨M, hM⟩ : ∃ M, u.length = M + 1 :=
    Nat.exists_eq_succ_of_ne_zero (by simpa using hu)
  rw [hM, Finset.sum_range_succ', Finset.sum_range_succ']
  simp only [whole_star, mul_zero, Finset.sum_const_zero]
  ring

end Jaxoplanet.LimbDark
