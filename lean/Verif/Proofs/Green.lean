import Mathlib.Tactic
import Mathlib.Analysis.SpecialFunctions.Pow.Deriv
import Mathlib.Analysis.SpecialFunctions.Pow.Continuity
import Mathlib.Analysis.SpecialFunctions.Sqrt
import Mathlib.Analysis.SpecialFunctions.PolarCoord
import Mathlib.MeasureTheory.Integral.IntervalIntegral.FundThmCalculus
import Mathlib.MeasureTheory.Integral.DominatedConvergence
import Mathlib.MeasureTheory.Integral.Prod
import Mathlib.MeasureTheory.Group.Integral
import Mathlib.MeasureTheory.Measure.Haar.OfBasis
import Mathlib.MeasureTheory.Measure.Haar.Unique
import Verif.Spec.LimbDark

/-! # Green's theorem for radial functions of the stellar disc over the occultor's disc -/

namespace Jaxoplanet.Green

open Real MeasureTheory Set Spec intervalIntegral

theorem measurableSet_occultor (b r : ℝ) : MeasurableSet (occultor b r) :=
  (isClosed_le (by fun_prop) (by fun_prop)).measurableSet

theorem measurableSet_stellarDisc : MeasurableSet stellarDisc :=
  (isClosed_le (by fun_prop) (by fun_prop)).measurableSet

/-- polar coordinates centred on the occultor -/
theorem integral_occultor_polar {f : ℝ × ℝ → ℝ} (hf : Continuous f) (b : ℝ) {r : ℝ} (hr : 0 ≤ r) :
    ∫ p in occultor b r, f p =
      ∫ s in (0 : ℝ)..r, ∫ φ in (-π)..π, s * f (b - s * cos φ, -(s * sin φ)) := by
  have hc : Continuous (fun q : ℝ × ℝ => q.1 * f (b - q.1 * cos q.2, -(q.1 * sin q.2))) := by
    fun_prop
  rw [← MeasureTheory.integral_indicator (measurableSet_occultor b r),
    ← integral_sub_left_eq_self _ _ ((b, 0) : ℝ × ℝ), ← integral_comp_polarCoord_symm]
  have h1 : ∀ q ∈ polarCoord.target,
      q.1 • (occultor b r).indicator f ((b, 0) - polarCoord.symm q) =
      (Iic r ×ˢ univ).indicator (fun q : ℝ × ℝ => q.1 * f (b - q.1 * cos q.2, -(q.1 * sin q.2))) q := by
    intro q hq
    have hq0 : 0 < q.1 := hq.1
    have he : ((b, 0) : ℝ × ℝ) - polarCoord.symm q = (b - q.1 * cos q.2, -(q.1 * sin q.2)) := by
      simp [polarCoord]
    rw [he]
    have hmem : (b - q.1 * cos q.2, -(q.1 * sin q.2)) ∈ occultor b r ↔ q ∈ Iic r ×ˢ (univ : Set ℝ) := by
      have hsq : (b - q.1 * cos q.2 - b) ^ 2 + (-(q.1 * sin q.2)) ^ 2 = q.1 ^ 2 := by
        linear_combination q.1 ^ 2 * sin_sq_add_cos_sq q.2
      simp only [occultor, mem_ofPred_eq, hsq, mem_prod, mem_Iic, mem_univ, and_true]
      exact pow_le_pow_iff_left₀ hq0.le hr two_ne_zero
    by_cases h : q ∈ Iic r ×ˢ (univ : Set ℝ)
    · rw [indicator_of_mem h, indicator_of_mem (hmem.2 h), smul_eq_mul]
    · rw [indicator_of_notMem h, indicator_of_notMem (mt hmem.1 h), smul_zero]
  rw [setIntegral_congr_fun polarCoord.open_target.measurableSet h1,
    setIntegral_indicator (measurableSet_Iic.prod MeasurableSet.univ)]
  have hset : polarCoord.target ∩ Iic r ×ˢ (univ : Set ℝ) = Ioc 0 r ×ˢ Ioo (-π) π := by
    rw [polarCoord_target, prod_inter_prod, inter_univ, Ioi_inter_Iic]
  rw [hset, Measure.volume_eq_prod, setIntegral_prod]
  · rw [integral_of_le hr]
    refine setIntegral_congr_fun measurableSet_Ioc fun s _ => ?_
    rw [integral_of_le (by linarith [pi_pos]), integral_Ioc_eq_integral_Ioo]
  · refine (hc.continuousOn.integrableOn_compact (isCompact_Icc.prod isCompact_Icc)
      (μ := volume.prod volume) : IntegrableOn _ (Icc 0 r ×ˢ Icc (-π) π) _).mono_set ?_
    exact prod_mono Ioc_subset_Icc_self Ioo_subset_Icc_self

/-- Fubini for continuous functions on a rectangle -/
theorem swap {f : ℝ → ℝ → ℝ} (hf : Continuous (Function.uncurry f)) {a b c d : ℝ} (hab : a ≤ b)
    (hcd : c ≤ d) :
    ∫ s in a..b, ∫ φ in c..d, f s φ = ∫ φ in c..d, ∫ s in a..b, f s φ := by
  simp only [integral_of_le hab, integral_of_le hcd]
  refine MeasureTheory.integral_integral_swap ?_
  rw [Measure.prod_restrict]
  exact (hf.continuousOn.integrableOn_compact (isCompact_Icc.prod isCompact_Icc)).mono_set
    (prod_mono Ioc_subset_Icc_self Ioc_subset_Icc_self)

/-- `1 - ρ²` at polar coordinates `(s, φ)` about the occultor -/
noncomputable def w (b s φ : ℝ) : ℝ := 1 - b ^ 2 - s ^ 2 + 2 * b * s * cos φ

theorem w_eq (b s φ : ℝ) : 1 - (b - s * cos φ) ^ 2 - (-(s * sin φ)) ^ 2 = w b s φ := by
  unfold w; linear_combination (-s ^ 2) * sin_sq_add_cos_sq φ

/-- Green's theorem on the occultor's disc for the field `H(1 - ρ²) (-y, x)`. -/
theorem green {H H' : ℝ → ℝ} (hH : ∀ x, HasDerivAt H (H' x) x) (hH' : Continuous H') (b : ℝ)
    {r : ℝ} (hr : 0 ≤ r) :
    ∫ p in occultor b r, 2 * (H (1 - p.1 ^ 2 - p.2 ^ 2)
        - (p.1 ^ 2 + p.2 ^ 2) * H' (1 - p.1 ^ 2 - p.2 ^ 2)) =
      ∫ φ in (-π)..π, H (w b r φ) * (r ^ 2 - b * r * cos φ) := by
  have hHc : Continuous H := continuous_iff_continuousAt.2 fun x => (hH x).continuousAt
  rw [integral_occultor_polar (by fun_prop) b hr]
  simp only [w_eq]
  have hle : -π ≤ π := by linarith [pi_pos]
  have hwc : Continuous (fun q : ℝ × ℝ => w b q.1 q.2) := by unfold w; fun_prop
  have hws : ∀ s φ, HasDerivAt (fun s => w b s φ) (-2 * s + 2 * b * cos φ) s := fun s φ => by
    unfold w
    have := ((hasDerivAt_id s).pow 2).const_sub (1 - b ^ 2)
    have h2 := ((hasDerivAt_id s).const_mul (2 * b)).mul_const (cos φ)
    refine (this.add h2).congr_deriv ?_
    simp
  have hwφ : ∀ s φ, HasDerivAt (fun φ => w b s φ) (-(2 * b * s * sin φ)) φ := fun s φ => by
    unfold w
    have := ((hasDerivAt_cos φ).const_mul (2 * b * s)).const_add (1 - b ^ 2 - s ^ 2)
    refine this.congr_deriv ?_
    ring
  -- the two partial derivatives
  let As : ℝ → ℝ → ℝ := fun s φ => H' (w b s φ) * (-2 * s + 2 * b * cos φ) * (s ^ 2 - b * s * cos φ)
    + H (w b s φ) * (2 * s - b * cos φ)
  let Bφ : ℝ → ℝ → ℝ := fun s φ => H' (w b s φ) * (-(2 * b * s * sin φ)) * (b * sin φ)
    + H (w b s φ) * (b * cos φ)
  have hA : ∀ s φ, HasDerivAt (fun s => H (w b s φ) * (s ^ 2 - b * s * cos φ)) (As s φ) s := by
    intro s φ
    have h1 : HasDerivAt (fun s => H (w b s φ)) (H' (w b s φ) * (-2 * s + 2 * b * cos φ)) s :=
      (hH _).comp s (hws s φ)
    have h2 : HasDerivAt (fun s : ℝ => s ^ 2 - b * s * cos φ) (2 * s - b * cos φ) s := by
      refine (((hasDerivAt_id s).pow 2).sub
        (((hasDerivAt_id s).const_mul b).mul_const (cos φ))).congr_deriv ?_
      simp
    exact (h1.mul h2).congr_deriv (by simp only [As])
  have hB : ∀ s φ, HasDerivAt (fun φ => H (w b s φ) * (b * sin φ)) (Bφ s φ) φ := by
    intro s φ
    have h1 : HasDerivAt (fun φ => H (w b s φ)) (H' (w b s φ) * (-(2 * b * s * sin φ))) φ :=
      (hH _).comp φ (hwφ s φ)
    exact (h1.mul ((hasDerivAt_sin φ).const_mul b)).congr_deriv (by simp only [Bφ])
  have hAc : Continuous (Function.uncurry As) := by
    have : Continuous fun q : ℝ × ℝ => As q.1 q.2 := by simp only [As]; fun_prop
    exact this
  have hBc : Continuous (Function.uncurry Bφ) := by
    have : Continuous fun q : ℝ × ℝ => Bφ q.1 q.2 := by simp only [Bφ]; fun_prop
    exact this
  have hsum : ∀ s φ, s * (2 * (H (w b s φ)
      - ((b - s * cos φ) ^ 2 + (-(s * sin φ)) ^ 2) * H' (w b s φ))) = As s φ + Bφ s φ := by
    intro s φ
    simp only [As, Bφ]
    linear_combination (2 * s * H' (w b s φ) * (b ^ 2 - s ^ 2)) * sin_sq_add_cos_sq φ
  simp only [hsum]
  have hA1 : ∀ s, Continuous (As s) := fun s => hAc.comp (Continuous.prodMk_right s)
  have hB1 : ∀ s, Continuous (Bφ s) := fun s => hBc.comp (Continuous.prodMk_right s)
  have hA2 : ∀ φ, Continuous fun s => As s φ := fun φ => hAc.comp (Continuous.prodMk_left φ)
  have e1 : ∀ s, ∫ φ in (-π)..π, (As s φ + Bφ s φ) = ∫ φ in (-π)..π, As s φ := by
    intro s
    rw [integral_add ((hA1 s).intervalIntegrable _ _) ((hB1 s).intervalIntegrable _ _),
      integral_eq_sub_of_hasDerivAt (fun φ _ => hB s φ) ((hB1 s).intervalIntegrable _ _)]
    simp
  simp only [e1]
  rw [swap hAc hr hle]
  refine integral_congr fun φ _ => ?_
  rw [integral_eq_sub_of_hasDerivAt (fun s _ => hA s φ) ((hA2 φ).intervalIntegrable _ _)]
  simp

/-! ## The boundary terms of the individual orders -/

theorem hasDerivAt_pospow {a : ℝ} (ha : 1 < a) (x : ℝ) :
    HasDerivAt (fun x : ℝ => (max x 0) ^ a) (a * (max x 0) ^ (a - 1)) x := by
  rcases lt_trichotomy x 0 with hx | hx | hx
  · have h : (fun _ : ℝ => (0 : ℝ)) =ᶠ[nhds x] fun x : ℝ => (max x 0) ^ a := by
      filter_upwards [Iio_mem_nhds hx] with y hy
      rw [max_eq_right (le_of_lt hy), zero_rpow (by linarith)]
    refine ((hasDerivAt_const x (0 : ℝ)).congr_of_eventuallyEq h.symm).congr_deriv ?_
    rw [max_eq_right hx.le, zero_rpow (by linarith), mul_zero]
  · subst hx
    rw [max_self, zero_rpow (by linarith), mul_zero]
    have h1 : HasDerivWithinAt (fun x : ℝ => (max x 0) ^ a) 0 (Ici 0) 0 := by
      have := (Real.hasDerivAt_rpow_const (x := 0) (p := a) (Or.inr ha.le)).hasDerivWithinAt (s := Ici 0)
      rw [zero_rpow (by linarith), mul_zero] at this
      exact this.congr (fun y hy => by rw [max_eq_left hy]) (by rw [max_self])
    have h2 : HasDerivWithinAt (fun x : ℝ => (max x 0) ^ a) 0 (Iic 0) 0 := by
      refine (hasDerivWithinAt_const (0 : ℝ) (Iic 0) (0 : ℝ)).congr (fun y hy => ?_) ?_
      · rw [max_eq_right hy, zero_rpow (by linarith)]
      · rw [max_self, zero_rpow (by linarith)]
    have := h1.union h2
    rwa [Ici_union_Iic, hasDerivWithinAt_univ] at this
  · have h : (fun x : ℝ => x ^ a) =ᶠ[nhds x] fun x : ℝ => (max x 0) ^ a := by
      filter_upwards [Ioi_mem_nhds hx] with y hy
      rw [max_eq_left (le_of_lt hy)]
    refine ((Real.hasDerivAt_rpow_const (Or.inl hx.ne')).congr_of_eventuallyEq h.symm).congr_deriv ?_
    rw [max_eq_left hx.le]

theorem continuous_pospow {a : ℝ} (ha : 0 < a) : Continuous fun x : ℝ => (max x 0) ^ a :=
  (continuous_id.max continuous_const).rpow_const fun _ => Or.inr ha.le

theorem star_eq : stellarDisc = occultor 0 1 := by ext p; simp [stellarDisc, occultor]

theorem mem_star (p : ℝ × ℝ) : p ∈ stellarDisc ↔ 0 ≤ 1 - p.1 ^ 2 - p.2 ^ 2 := by
  simp only [stellarDisc, mem_ofPred_eq]; constructor <;> intro h <;> linarith

/-- An integrand vanishing outside the stellarDisc may be integrated over the visible part only. -/
theorem integral_inter_star {f g : ℝ × ℝ → ℝ} (b r : ℝ) (hfg : ∀ p ∈ stellarDisc, f p = g p)
    (h0 : ∀ p, p ∉ stellarDisc → f p = 0) :
    ∫ p in stellarDisc ∩ occultor b r, g p = ∫ p in occultor b r, f p := by
  rw [← setIntegral_congr_fun (measurableSet_stellarDisc.inter (measurableSet_occultor b r))
    (fun p hp => hfg p hp.1)]
  exact (setIntegral_eq_of_subset_of_forall_sdiff_eq_zero (measurableSet_occultor b r)
    inter_subset_right fun p hp => h0 p fun h => hp.2 ⟨h, hp.1⟩).symm

/-- orders above two -/
theorem term_high {ν : ℝ} (hν : 2 < ν) (b : ℝ) {r : ℝ} (hr : 0 ≤ r) :
    ∫ p in stellarDisc ∩ occultor b r, ((ν + 2) * mu p ^ ν - ν * mu p ^ (ν - 2)) =
      ∫ φ in (-π)..π, (max (w b r φ) 0) ^ (ν / 2) * (r ^ 2 - b * r * cos φ) := by
  have hc : Continuous fun x : ℝ => ν / 2 * (max x 0) ^ (ν / 2 - 1) :=
    continuous_const.mul (continuous_pospow (by linarith))
  rw [← green (fun x => hasDerivAt_pospow (a := ν / 2) (by linarith) x) hc b hr]
  refine integral_inter_star b r (fun p hp => ?_) fun p hp => ?_
  · rw [mem_star] at hp
    rw [max_eq_left hp]
    have e1 : mu p ^ ν = (1 - p.1 ^ 2 - p.2 ^ 2) ^ (ν / 2) := by
      rw [mu, sqrt_eq_rpow, ← rpow_mul hp]; ring_nf
    have e2 : mu p ^ (ν - 2) = (1 - p.1 ^ 2 - p.2 ^ 2) ^ (ν / 2 - 1) := by
      rw [mu, sqrt_eq_rpow, ← rpow_mul hp]; ring_nf
    have e3 : (1 - p.1 ^ 2 - p.2 ^ 2) ^ (ν / 2) =
        (1 - p.1 ^ 2 - p.2 ^ 2) * (1 - p.1 ^ 2 - p.2 ^ 2) ^ (ν / 2 - 1) := by
      rcases hp.eq_or_lt with h | h
      · rw [← h, zero_rpow (by linarith), zero_mul]
      · rw [rpow_sub_one h.ne']; field_simp
    rw [e1, e2, e3]
    ring
  · rw [mem_star, not_le] at hp
    rw [max_eq_right hp.le, zero_rpow (by linarith), zero_rpow (by linarith)]
    ring

/-- The limb has area zero. -/
theorem ae_mu_pos : ∀ᵐ p : ℝ × ℝ, p ∈ stellarDisc → 0 < mu p := by
  have h : volume {p : ℝ × ℝ | 1 - p.1 ^ 2 - p.2 ^ 2 = 0} = 0 := by
    have hm : MeasurableSet {p : ℝ × ℝ | 1 - p.1 ^ 2 - p.2 ^ 2 = 0} :=
      (isClosed_eq (by fun_prop) (by fun_prop)).measurableSet
    rw [Measure.volume_eq_prod, Measure.measure_prod_null hm]
    refine Filter.Eventually.of_forall fun x => ?_
    have : Prod.mk x ⁻¹' {p : ℝ × ℝ | 1 - p.1 ^ 2 - p.2 ^ 2 = 0} ⊆ {√(1 - x ^ 2), -√(1 - x ^ 2)} := by
      intro y hy
      simp only [mem_preimage, mem_ofPred_eq] at hy
      have hy2 : y ^ 2 = √(1 - x ^ 2) ^ 2 := by
        rw [sq_sqrt (by nlinarith [sq_nonneg y])]; linarith
      simpa using sq_eq_sq_iff_eq_or_eq_neg.1 hy2
    exact measure_mono_null this ((Set.toFinite _).measure_zero volume)
  have h2 : ∀ᵐ p : ℝ × ℝ, ¬ (1 - p.1 ^ 2 - p.2 ^ 2 = 0) := by
    rw [ae_iff]; simpa using h
  filter_upwards [h2] with p hp hs
  rw [mem_star] at hs
  exact sqrt_pos.2 (lt_of_le_of_ne hs (Ne.symm hp))

theorem star_volume_lt_top : volume stellarDisc < ⊤ := by
  refine lt_of_le_of_lt (measure_mono (t := Icc (-1) 1 ×ˢ Icc (-1) 1) fun p hp => ?_)
    (isCompact_Icc.prod isCompact_Icc).measure_lt_top
  simp only [stellarDisc, mem_ofPred_eq] at hp
  refine ⟨abs_le.1 ?_, abs_le.1 ?_⟩ <;> refine abs_le_one_iff_mul_self_le_one.2 ?_ <;>
    nlinarith [sq_nonneg p.1, sq_nonneg p.2]

theorem mu_nonneg (p : ℝ × ℝ) : 0 ≤ mu p := sqrt_nonneg _

theorem mu_le_one (p : ℝ × ℝ) : mu p ≤ 1 := by
  unfold mu; exact sqrt_le_one.2 (by nlinarith [sq_nonneg p.1, sq_nonneg p.2])

theorem continuous_mu : Continuous mu := by unfold mu; fun_prop

theorem w_le_one (b r φ : ℝ) : w b r φ ≤ 1 := by
  rw [← w_eq]; nlinarith [sq_nonneg (b - r * cos φ), sq_nonneg (-(r * sin φ))]

theorem continuous_w (b r : ℝ) : Continuous (w b r) := by unfold w; fun_prop

/-- order two, as the limit of orders above two -/
theorem term_two (b : ℝ) {r : ℝ} (hr : 0 ≤ r) :
    ∫ p in stellarDisc ∩ occultor b r, (4 * mu p ^ 2 - 2) =
      ∫ φ in (-π)..π, max (w b r φ) 0 * (r ^ 2 - b * r * cos φ) := by
  let ν : ℕ → ℝ := fun k => 2 + 1 / ((k : ℝ) + 1)
  have hν0 : ∀ k : ℕ, 0 < 1 / ((k : ℝ) + 1) := fun k => by positivity
  have hν1 : ∀ k : ℕ, 1 / ((k : ℝ) + 1) ≤ 1 := fun k => by
    rw [div_le_one (by positivity)]; linarith [Nat.cast_nonneg (α := ℝ) k]
  have hν : ∀ k, 2 < ν k := fun k => by simp only [ν]; linarith [hν0 k]
  have hνle : ∀ k, ν k ≤ 3 := fun k => by simp only [ν]; linarith [hν1 k]
  have hlim : Filter.Tendsto ν Filter.atTop (nhds 2) := by
    have := (tendsto_one_div_add_atTop_nhds_zero_nat (𝕜 := ℝ)).const_add 2
    rwa [add_zero] at this
  have hL : Filter.Tendsto (fun k => ∫ p in stellarDisc ∩ occultor b r,
      ((ν k + 2) * mu p ^ (ν k) - ν k * mu p ^ (ν k - 2))) Filter.atTop
      (nhds (∫ p in stellarDisc ∩ occultor b r, (4 * mu p ^ 2 - 2))) := by
    refine tendsto_integral_of_dominated_convergence (fun _ => 8) (fun k => ?_) ?_ (fun k => ?_) ?_
    · have : Continuous fun p => (ν k + 2) * mu p ^ (ν k) - ν k * mu p ^ (ν k - 2) := by
        refine (continuous_const.mul (continuous_mu.rpow_const fun _ => Or.inr ?_)).sub
          (continuous_const.mul (continuous_mu.rpow_const fun _ => Or.inr ?_)) <;> linarith [hν k]
      exact this.aestronglyMeasurable
    · refine integrableOn_const ?_ (by simp)
      exact ((measure_mono inter_subset_left).trans_lt star_volume_lt_top).ne
    · refine Filter.Eventually.of_forall fun p => ?_
      have h1 := rpow_le_one (mu_nonneg p) (mu_le_one p) (z := ν k) (by linarith [hν k])
      have h2 := rpow_le_one (mu_nonneg p) (mu_le_one p) (z := ν k - 2) (by linarith [hν k])
      have h3 := rpow_nonneg (mu_nonneg p) (ν k)
      have h4 := rpow_nonneg (mu_nonneg p) (ν k - 2)
      have := hν k
      have := hνle k
      rw [norm_eq_abs, abs_le]
      constructor <;> nlinarith
    · rw [ae_restrict_iff' (measurableSet_stellarDisc.inter (measurableSet_occultor b r))]
      filter_upwards [ae_mu_pos] with p hp hps
      have hm := hp hps.1
      have t1 : Filter.Tendsto (fun k => mu p ^ (ν k)) Filter.atTop (nhds (mu p ^ (2 : ℝ))) :=
        tendsto_const_nhds.rpow hlim (Or.inl hm.ne')
      have t2 : Filter.Tendsto (fun k => mu p ^ (ν k - 2)) Filter.atTop (nhds (mu p ^ (0 : ℝ))) := by
        refine Filter.Tendsto.rpow tendsto_const_nhds ?_ (Or.inl hm.ne')
        simpa using hlim.sub_const 2
      have := ((hlim.add_const 2).mul t1).sub (hlim.mul t2)
      rw [rpow_zero, mul_one, rpow_two] at this
      convert this using 2
      norm_num
  have hR : Filter.Tendsto (fun k => ∫ φ in (-π)..π,
      (max (w b r φ) 0) ^ (ν k / 2) * (r ^ 2 - b * r * cos φ)) Filter.atTop
      (nhds (∫ φ in (-π)..π, max (w b r φ) 0 * (r ^ 2 - b * r * cos φ))) := by
    refine intervalIntegral.tendsto_integral_filter_of_dominated_convergence
      (fun φ => |r ^ 2 - b * r * cos φ|) ?_ ?_ ?_ ?_
    · refine Filter.Eventually.of_forall fun k => ?_
      have : Continuous fun φ => (max (w b r φ) 0) ^ (ν k / 2) * (r ^ 2 - b * r * cos φ) :=
        ((continuous_pospow (by linarith [hν k])).comp (continuous_w b r)).mul (by fun_prop)
      exact this.aestronglyMeasurable
    · refine Filter.Eventually.of_forall fun k => Filter.Eventually.of_forall fun φ _ => ?_
      rw [norm_mul, norm_eq_abs, norm_eq_abs]
      have h0 : 0 ≤ max (w b r φ) 0 := le_max_right _ _
      have h1 := rpow_le_one h0 (max_le (w_le_one b r φ) zero_le_one) (z := ν k / 2)
        (by linarith [hν k])
      rw [abs_of_nonneg (rpow_nonneg h0 _)]
      exact mul_le_of_le_one_left (abs_nonneg _) h1
    · exact (by fun_prop : Continuous fun φ => |r ^ 2 - b * r * cos φ|).intervalIntegrable _ _
    · refine Filter.Eventually.of_forall fun φ _ => ?_
      refine Filter.Tendsto.mul_const _ ?_
      have h2 : Filter.Tendsto (fun k => ν k / 2) Filter.atTop (nhds 1) := by
        simpa using hlim.div_const 2
      have h0 : 0 ≤ max (w b r φ) 0 := le_max_right _ _
      have := Filter.Tendsto.rpow (tendsto_const_nhds (x := max (w b r φ) 0)) h2
        (Or.inr zero_lt_one)
      rwa [rpow_one] at this
  have heq : ∀ k, ∫ p in stellarDisc ∩ occultor b r,
      ((ν k + 2) * mu p ^ (ν k) - ν k * mu p ^ (ν k - 2)) =
      ∫ φ in (-π)..π, (max (w b r φ) 0) ^ (ν k / 2) * (r ^ 2 - b * r * cos φ) :=
    fun k => term_high (hν k) b hr
  simp only [heq] at hL
  exact tendsto_nhds_unique hL hR

/-- primitive for the order one -/
noncomputable def K (x : ℝ) : ℝ := 1 / 3 + x / (3 * (1 + √(max x 0) + max (-x) 0))

noncomputable def K' (x : ℝ) : ℝ :=
  (√(max x 0) + 2) / (6 * (1 + √(max x 0)) ^ 2) + 1 / (3 * (1 + max (-x) 0) ^ 2) - 1 / 3

theorem hasDerivAt_K (x : ℝ) : HasDerivAt K (K' x) x := by
  rcases lt_trichotomy x 0 with hx | hx | hx
  · have h : (fun x : ℝ => 1 / 3 + x / (3 * (1 - x))) =ᶠ[nhds x] K := by
      filter_upwards [Iio_mem_nhds hx] with y hy
      have hy : y < 0 := hy
      rw [K, max_eq_right hy.le, max_eq_left (by linarith), sqrt_zero]; ring_nf
    have hne : 1 - x ≠ 0 := by linarith
    have h1 : HasDerivAt (fun x : ℝ => 3 * (1 - x)) (-3) x := by
      refine (((hasDerivAt_id x).const_sub 1).const_mul 3).congr_deriv (by norm_num)
    have := ((hasDerivAt_id x).div h1 (by positivity)).const_add (1 / 3)
    refine (this.congr_of_eventuallyEq h.symm).congr_deriv ?_
    rw [K', max_eq_right hx.le, max_eq_left (by linarith), sqrt_zero]
    have : 1 + -x ≠ 0 := by linarith
    simp only [id]
    field_simp
    ring
  · subst hx
    have hk : Filter.Tendsto (fun x : ℝ => 1 / (3 * (1 + √(max x 0) + max (-x) 0))) (nhds 0)
        (nhds (1 / 3)) := by
      have : ContinuousAt (fun x : ℝ => 1 / (3 * (1 + √(max x 0) + max (-x) 0))) 0 := by
        refine ContinuousAt.div (by fun_prop) (by fun_prop) ?_
        simp
      simpa using this.tendsto
    rw [hasDerivAt_iff_tendsto_slope]
    have e : K' 0 = 1 / 3 := by simp [K']; norm_num
    rw [e]
    refine (hk.mono_left nhdsWithin_le_nhds).congr' ?_
    filter_upwards [self_mem_nhdsWithin] with y hy
    have hy : y ≠ 0 := hy
    simp only [slope, vsub_eq_sub, smul_eq_mul, K]
    field_simp
    simp
  · have h : (fun x : ℝ => 1 / 3 + x / (3 * (1 + √x))) =ᶠ[nhds x] K := by
      filter_upwards [Ioi_mem_nhds hx] with y hy
      have hy : 0 < y := hy
      rw [K, max_eq_left hy.le, max_eq_right (by linarith), add_zero]
    have hs : 0 < √x := sqrt_pos.2 hx
    have h1 : HasDerivAt (fun x : ℝ => 3 * (1 + √x)) (3 * (1 / (2 * √x))) x :=
      ((Real.hasDerivAt_sqrt hx.ne').const_add 1).const_mul 3
    have := ((hasDerivAt_id x).div h1 (by positivity)).const_add (1 / 3)
    refine (this.congr_of_eventuallyEq h.symm).congr_deriv ?_
    rw [K', max_eq_left hx.le, max_eq_right (by linarith)]
    simp only [id]
    have hx2 : x = √x ^ 2 := (sq_sqrt hx.le).symm
    generalize √x = z at *
    subst hx2
    field_simp
    ring

theorem continuous_K' : Continuous K' := by
  unfold K'
  refine ((Continuous.div (by fun_prop) (by fun_prop) fun x => ?_).add
    (Continuous.div (by fun_prop) (by fun_prop) fun x => ?_)).sub continuous_const
  · positivity
  · have : 0 ≤ max (-x) 0 := le_max_right _ _
    positivity

/-- order one -/
theorem term_one (b : ℝ) {r : ℝ} (hr : 0 ≤ r) :
    ∫ p in stellarDisc ∩ occultor b r, mu p =
      ∫ φ in (-π)..π, K (w b r φ) * (r ^ 2 - b * r * cos φ) := by
  rw [← green hasDerivAt_K continuous_K' b hr]
  refine integral_inter_star b r (fun p hp => ?_) fun p hp => ?_
  · rw [mem_star] at hp
    have : p.1 ^ 2 + p.2 ^ 2 = 1 - (1 - p.1 ^ 2 - p.2 ^ 2) := by ring
    rw [this, mu]
    generalize 1 - p.1 ^ 2 - p.2 ^ 2 = x at *
    rw [K, K', max_eq_left hp, max_eq_right (by linarith)]
    have hs : 0 ≤ √x := sqrt_nonneg x
    have hx2 : x = √x ^ 2 := (sq_sqrt hp).symm
    generalize √x = z at *
    subst hx2
    field_simp
    ring
  · rw [mem_star, not_le] at hp
    have : p.1 ^ 2 + p.2 ^ 2 = 1 - (1 - p.1 ^ 2 - p.2 ^ 2) := by ring
    rw [this]
    generalize 1 - p.1 ^ 2 - p.2 ^ 2 = x at *
    rw [K, K', max_eq_right hp.le, max_eq_left (by linarith), sqrt_zero]
    have : 1 - x ≠ 0 := by linarith
    have : 1 + -x ≠ 0 := by linarith
    have : 1 + 0 + -x ≠ 0 := by linarith
    field_simp
    ring

end Jaxoplanet.Green
