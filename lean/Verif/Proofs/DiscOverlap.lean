import Verif.Props.LimbDark
import Verif.Proofs.ArcTan2

/-! The overlap of the two discs near the contacts, and its formula in terms of `arctan2`. -/

namespace Jaxoplanet.LimbDarkFloat

open Real MeasureTheory Set LimbDark Spec Green

/-- area of the part of the star behind the occultor -/
noncomputable def overlap (b r : ℝ) : ℝ := (volume (stellarDisc ∩ occultor b r)).toReal

theorem overlap_eq (b r : ℝ) : overlap b r = ∫ _p in stellarDisc ∩ occultor b r, (1 : ℝ) := by
  simp [overlap, Measure.real]

theorem disc_eq : stellarDisc = occultor 0 1 := by
  ext p; simp [stellarDisc, occultor]

theorem volume_disc (b : ℝ) {r : ℝ} (hr : 0 ≤ r) : (volume (occultor b r)).toReal = π * r ^ 2 := by
  rw [← integral_one_occultor b hr]
  simp [Measure.real]

theorem disc_subset {c R : ℝ} (hR : 0 ≤ R) {b r : ℝ} (h : |c - b| + R ≤ r) : occultor c R ⊆ occultor b r := by
  intro p hp
  simp only [occultor, mem_ofPred_eq] at *
  have h1 : |p.1 - c| ≤ R := by
    refine abs_le_of_sq_le_sq ?_ hR
    nlinarith [sq_nonneg p.2]
  have h2 : (p.1 - c) * (c - b) ≤ R * |c - b| := by
    refine (le_abs_self _).trans ?_
    rw [abs_mul]
    exact mul_le_mul_of_nonneg_right h1 (abs_nonneg _)
  have h3 : (|c - b| + R) ^ 2 ≤ r ^ 2 := pow_le_pow_left₀ (by positivity) h 2
  have h4 := sq_abs (c - b)
  nlinarith

theorem overlap_nonneg (b r : ℝ) : 0 ≤ overlap b r := ENNReal.toReal_nonneg

theorem overlap_lt_top (b r : ℝ) : volume (stellarDisc ∩ occultor b r) < ⊤ :=
  lt_of_le_of_lt (measure_mono inter_subset_left) star_volume_lt_top

theorem overlap_le_pi (b r : ℝ) : overlap b r ≤ π := by
  have h := ENNReal.toReal_mono star_volume_lt_top.ne
      (measure_mono (μ := volume) (inter_subset_left (s := stellarDisc) (t := occultor b r)))
  have h2 := volume_disc 0 (r := 1) zero_le_one
  rw [← disc_eq] at h2
  unfold overlap
  linarith

theorem occultor_lt_top (b : ℝ) {r : ℝ} (hr : 0 ≤ r) : volume (occultor b r) ≠ ⊤ := by
  intro h
  have h1 := volume_disc b hr
  rw [h] at h1
  have h2 : r = 0 := by
    simp only [ENNReal.toReal_top] at h1
    have := pi_pos
    by_contra hne
    have : 0 < π * r ^ 2 := by positivity
    linarith
  rw [h2] at h
  have : volume (occultor b 0) = 0 := by
    refine measure_mono_null (t := {(b, (0 : ℝ))}) (fun p hp => ?_) (by simp)
    simp only [occultor, mem_ofPred_eq] at hp
    have e1 : p.1 - b = 0 := by nlinarith [sq_nonneg p.2, sq_nonneg (p.1 - b)]
    have e2 : p.2 = 0 := by nlinarith [sq_nonneg p.2, sq_nonneg (p.1 - b)]
    simp only [mem_singleton_iff]
    exact Prod.ext (by linarith) e2
  rw [this] at h
  exact ENNReal.zero_ne_top h

theorem overlap_le_occultor (b : ℝ) {r : ℝ} (hr : 0 ≤ r) : overlap b r ≤ π * r ^ 2 := by
  rw [← volume_disc b hr]
  exact ENNReal.toReal_mono (occultor_lt_top b hr) (measure_mono inter_subset_right)

/-- a disc inside both is inside the overlap -/
theorem disc_le_overlap {c ρ b r : ℝ} (hρ : 0 ≤ ρ) (h1 : |c| + ρ ≤ 1) (h2 : |c - b| + ρ ≤ r) :
    π * ρ ^ 2 ≤ overlap b r := by
  rw [← volume_disc c hρ]
  refine ENNReal.toReal_mono (overlap_lt_top b r).ne (measure_mono (subset_inter ?_ (disc_subset hρ h2)))
  rw [disc_eq]
  exact disc_subset hρ (by simpa using h1)

/-- shortly before the first contact the overlap is thin -/
theorem overlap_le_thin {b r δ : ℝ} (hr : 0 ≤ r) (hδ : 0 ≤ δ) (h : 1 + r - δ ≤ b) : overlap b r ≤ 2 * δ := by
  have hs : stellarDisc ∩ occultor b r ⊆ Icc (1 - δ) 1 ×ˢ Icc (-1 : ℝ) 1 := by
    rintro p ⟨h1, h2⟩
    simp only [stellarDisc, occultor, mem_ofPred_eq] at h1 h2
    have k1 : |p.1| ≤ 1 := abs_le_of_sq_le_sq (by nlinarith [sq_nonneg p.2]) zero_le_one
    have k2 : |p.2| ≤ 1 := abs_le_of_sq_le_sq (by nlinarith [sq_nonneg p.1]) zero_le_one
    have k3 : |p.1 - b| ≤ r := abs_le_of_sq_le_sq (by nlinarith [sq_nonneg p.2]) hr
    rw [abs_le] at k1 k2 k3
    exact ⟨⟨by linarith, k1.2⟩, k2⟩
  have h1 := ENNReal.toReal_mono (b := volume (Icc (1 - δ) 1 ×ˢ Icc (-1 : ℝ) 1)) ?_ (measure_mono hs)
  · refine h1.trans (le_of_eq ?_)
    rw [Measure.volume_eq_prod, Measure.prod_prod, Real.volume_Icc, Real.volume_Icc, ENNReal.toReal_mul,
      ENNReal.toReal_ofReal (by linarith), ENNReal.toReal_ofReal (by norm_num)]
    ring
  · rw [Measure.volume_eq_prod, Measure.prod_prod, Real.volume_Icc, Real.volume_Icc]
    exact ENNReal.mul_ne_top ENNReal.ofReal_ne_top ENNReal.ofReal_ne_top

/-- the product of the four sums of the sides of the triangle with sides `1`, `r`, `b` (sixteen times the squared area) -/
def heron (b r : ℝ) : ℝ := (r + b + 1) * (-r + b + 1) * (r - b + 1) * (r + b - 1)

theorem heron_x1 (b r : ℝ) : heron b r + (b ^ 2 + 1 - r ^ 2) ^ 2 = 4 * b ^ 2 := by unfold heron; ring

theorem heron_x0 (b r : ℝ) : heron b r + (b ^ 2 + r ^ 2 - 1) ^ 2 = 4 * b ^ 2 * r ^ 2 := by unfold heron; ring

/-- the lens area as a function of the kite area and of the cosines -/
noncomputable def lens (r A x1 x0 : ℝ) : ℝ := arctan2 A x1 + r ^ 2 * arctan2 A x0 - A / 2

theorem arctan2_zero_pos {x : ℝ} (h : 0 ≤ x) : arctan2 0 x = 0 := Complex.arg_ofReal_of_nonneg h

theorem arctan2_zero_neg {x : ℝ} (h : x < 0) : arctan2 0 x = π := Complex.arg_ofReal_of_neg h

/-- one formula for the overlap in every regime -/
theorem overlap_lens {b r : ℝ} (hb : 0 ≤ b) (hr : 0 ≤ r) (hne : b ≠ 0 ∨ r ≠ 1) :
    overlap b r = lens r (√(max 0 (heron b r))) (b ^ 2 + 1 - r ^ 2) (b ^ 2 + r ^ 2 - 1) := by
  rcases le_or_gt (1 + r) b with h1 | h1
  · have hz : heron b r ≤ 0 := by
      unfold heron
      have a1 : 0 ≤ r + b + 1 := by linarith
      have a2 : 0 ≤ -r + b + 1 := by linarith
      have a3 : 0 ≤ b - r - 1 := by linarith
      have a4 : 0 ≤ r + b - 1 := by linarith
      have := mul_nonneg (mul_nonneg (mul_nonneg a1 a2) a3) a4
      linarith
    have hx0 : 0 ≤ b ^ 2 + r ^ 2 - 1 := by nlinarith
    have hx1 : 0 ≤ b ^ 2 + 1 - r ^ 2 := by nlinarith
    rw [max_eq_left hz, sqrt_zero]
    unfold lens overlap
    rw [touching_null hr h1, arctan2_zero_pos hx0, arctan2_zero_pos hx1]
    simp
  · rcases le_or_gt (1 + b) r with h2 | h2
    · have hz : heron b r ≤ 0 := by
        unfold heron
        have a1 : 0 ≤ r + b + 1 := by linarith
        have a2 : 0 ≤ r - b - 1 := by linarith
        have a3 : 0 ≤ r - b + 1 := by linarith
        have a4 : 0 ≤ r + b - 1 := by linarith
        have := mul_nonneg (mul_nonneg (mul_nonneg a1 a2) a3) a4
        linarith
      have hx0 : 0 ≤ b ^ 2 + r ^ 2 - 1 := by nlinarith
      have hx1 : b ^ 2 + 1 - r ^ 2 < 0 := by
        rcases hb.eq_or_lt with h0 | h0
        · rw [← h0] at hne h2 ⊢
          have : r ≠ 1 := by simpa using hne
          have : 1 < r := lt_of_le_of_ne (by linarith) this.symm
          nlinarith
        · nlinarith
      rw [max_eq_left hz, sqrt_zero]
      unfold lens overlap
      rw [inter_eq_left.2 (covered hb h2), arctan2_zero_pos hx0, arctan2_zero_neg hx1, disc_eq,
        volume_disc 0 zero_le_one]
      ring
    · rw [overlap_eq]
      rcases lens_or_inside h1 h2 with h | h
      · rw [lens_area h]
        have hcond : b > |1 - r| ∧ b < 1 + r := h
        simp only [kappas, if_pos hcond, kiteArea_eq]
        unfold lens heron
        rw [show b ^ 2 + (r - 1) * (r + 1) = b ^ 2 + r ^ 2 - 1 by ring,
          show b ^ 2 - (r - 1) * (r + 1) = b ^ 2 + 1 - r ^ 2 by ring]
        ring
      · rw [inside_area hb hr h]
        have hz : heron b r ≤ 0 := by
          unfold heron
          have a1 : 0 ≤ r + b + 1 := by linarith
          have a2 : 0 ≤ -r + b + 1 := by linarith
          have a3 : 0 ≤ r - b + 1 := by linarith
          have a4 : 0 ≤ 1 - r - b := by linarith
          have := mul_nonneg (mul_nonneg (mul_nonneg a1 a2) a3) a4
          linarith
        have hneg : b ^ 2 + r ^ 2 - 1 < 0 := by
          rcases hb.eq_or_lt with rfl | hb'
          · have : r ≠ 1 := by simpa using hne
            have : r < 1 := lt_of_le_of_ne (by linarith) this
            nlinarith
          · rcases hr.eq_or_lt with rfl | hr'
            · nlinarith
            · nlinarith [mul_pos hb' hr']
        have hpos : 0 ≤ b ^ 2 + 1 - r ^ 2 := by nlinarith [sq_nonneg b]
        rw [max_eq_left hz, sqrt_zero]
        unfold lens
        rw [arctan2_zero_pos hpos, arctan2_zero_neg hneg]
        ring

end Jaxoplanet.LimbDarkFloat
