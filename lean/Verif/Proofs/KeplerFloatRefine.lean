import Verif.Proofs.KeplerFloatStart

/-! The refinement step of the Kepler solver in floating-point arithmetic. -/

namespace Jaxoplanet.KeplerFloat

open Real Kepler

/-- `stages` for a slightly less accurate starting value -/
theorem stagesF {x y z u3 u4 u5 : ℝ} (hx : |x| ≤ 0.00176) (hy : |y| ≤ 0.00000104) (hz : |z| ≤ 0.000000002)
    (h3 : u3 = 1 / (1 + x)) (h4 : u4 = 1 / (1 + x * u3 + y * u3 ^ 2))
    (h5 : u5 = 1 / (1 + x * u4 + y * u4 ^ 2 - z * u4 ^ 3)) :
    0 < 1 + x ∧ 0 < 1 + x * u3 + y * u3 ^ 2 ∧ 0 < 1 + x * u4 + y * u4 ^ 2 - z * u4 ^ 3 ∧ |x * u3 + y * u3 ^ 2| ≤ 0.002 ∧ |x * u4 + y * u4 ^ 2 - z * u4 ^ 3| ≤ 0.002 ∧
      |u3| ≤ 1.002 ∧ |u4| ≤ 1.002 ∧
      0.998 ≤ u5 ∧ u5 ≤ 1.002 ∧ |u5 + x * u5 ^ 2 + y * u5 ^ 3 - z * u5 ^ 4 - 1| ≤ 1.72e-11 := by
  obtain ⟨x1, x2⟩ := abs_le.1 hx
  have d3 : 0 < 1 + x := by norm_num at x1; linarith
  have e3 : u3 * (1 + x) = 1 := by rw [h3, one_div, inv_mul_cancel₀ d3.ne']
  have b3 : |u3| ≤ 1.00177 := by
    rw [h3, abs_of_pos (by positivity), div_le_iff₀ d3]
    norm_num at x1 ⊢
    linarith
  have s3 : |u3 ^ 2| ≤ 1.00177 * 1.00177 := by rw [sq]; exact abm b3 b3
  have w4 := abs_add_le (x * u3) (y * u3 ^ 2)
  have w4' : |x * u3 + y * u3 ^ 2| ≤ 0.001766 := by
    have h1 := abm hx b3
    have h2 := abm hy s3
    norm_num at h1 h2 w4 ⊢
    linarith
  obtain ⟨x3, x4⟩ := abs_le.1 w4'
  have d4 : 0 < 1 + x * u3 + y * u3 ^ 2 := by norm_num at x3; linarith
  have e4 : u4 * (1 + x * u3 + y * u3 ^ 2) = 1 := by rw [h4, one_div, inv_mul_cancel₀ d4.ne']
  have b4 : |u4| ≤ 1.0018 := by
    rw [h4, abs_of_pos (by positivity), div_le_iff₀ d4]
    norm_num at x3 ⊢
    linarith
  have s4 : |u4 ^ 2| ≤ 1.0018 * 1.0018 := by rw [sq]; exact abm b4 b4
  have c4 : |u4 ^ 3| ≤ 1.0018 * 1.0018 * 1.0018 := by rw [pow_succ]; exact abm s4 b4
  have w5 : |x * u4 + y * u4 ^ 2 - z * u4 ^ 3| ≤ 0.00177 := by
    have h1 := abm hx b4
    have h2 := abm hy s4
    have h3 := abm hz c4
    have h4 := abs_add_le (x * u4) (y * u4 ^ 2)
    have h5 := abs_sub (x * u4 + y * u4 ^ 2) (z * u4 ^ 3)
    norm_num at h1 h2 h3 h4 h5 ⊢
    linarith
  obtain ⟨x5, x6⟩ := abs_le.1 w5
  have d5 : 0 < 1 + x * u4 + y * u4 ^ 2 - z * u4 ^ 3 := by norm_num at x5; linarith
  have e5 : u5 * (1 + x * u4 + y * u4 ^ 2 - z * u4 ^ 3) = 1 := by rw [h5, one_div, inv_mul_cancel₀ d5.ne']
  have b5 : |u5| ≤ 1.0018 := by
    rw [h5, abs_of_pos (by positivity), div_le_iff₀ d5]
    norm_num at x5 ⊢
    linarith
  have l5 : 0.998 ≤ u5 := by
    rw [h5, le_div_iff₀ d5]
    norm_num at x6 ⊢
    linarith
  refine ⟨d3, d4, d5, w4'.trans (by norm_num), w5.trans (by norm_num), b3.trans (by norm_num), b4.trans (by norm_num), l5, (le_abs_self _).trans (b5.trans (by norm_num)), ?_⟩
  -- differences
  have k3 : |1 - u3| ≤ 0.00176 * 1.00177 := by
    have : 1 - u3 = x * u3 := by linear_combination -e3
    rw [this]
    exact abm hx b3
  have k4 : |u4 - u3| ≤ 0.000004255 := by
    have : u4 - u3 = u4 * u3 * (x * (1 - u3) - y * u3 ^ 2) := by linear_combination (-u4) * e3 + u3 * e4
    rw [this]
    have h1 := abm hx k3
    have h2 := abm hy s3
    have h3 := abs_sub (x * (1 - u3)) (y * u3 ^ 2)
    have h4 : |x * (1 - u3) - y * u3 ^ 2| ≤ 0.00000416 := by
      norm_num at h1 h2 h3 ⊢
      linarith
    refine (abm (abm b4 b3) h4).trans (by norm_num)
  have q3 : |u3 + u4| ≤ 2.004 := (abs_add_le _ _).trans (by norm_num at b3 b4 ⊢; linarith)
  have k5 : |u5 - u4| ≤ 0.0000000096 := by
    have : u5 - u4 = u5 * u4 * (x * (-(u4 - u3)) + y * (-(u4 - u3) * (u3 + u4)) + z * u4 ^ 3) := by
      linear_combination u4 * e5 - u5 * e4
    rw [this]
    have h0 : |-(u4 - u3)| ≤ 0.000004255 := by rw [abs_neg]; exact k4
    have h1 := abm hx h0
    have h2 := abm hy (abm h0 q3)
    have h3 := abm hz c4
    have h4 := abs_add_le (x * (-(u4 - u3)) + y * (-(u4 - u3) * (u3 + u4))) (z * u4 ^ 3)
    have h5 := abs_add_le (x * (-(u4 - u3))) (y * (-(u4 - u3) * (u3 + u4)))
    have h6 : |x * (-(u4 - u3)) + y * (-(u4 - u3) * (u3 + u4)) + z * u4 ^ 3| ≤ 0.00000000952 := by
      generalize |x * (-(u4 - u3)) + y * (-(u4 - u3) * (u3 + u4)) + z * u4 ^ 3| = A1 at *
      generalize |x * (-(u4 - u3)) + y * (-(u4 - u3) * (u3 + u4))| = A2 at *
      generalize |x * (-(u4 - u3))| = A3 at *
      generalize |y * (-(u4 - u3) * (u3 + u4))| = A4 at *
      generalize |z * u4 ^ 3| = A5 at *
      norm_num at h1 h2 h3 ⊢
      linarith
    exact (abm (abm b5 b4) h6).trans (by norm_num)
  have q5 : |u5 + u4| ≤ 2.004 := (abs_add_le _ _).trans (by norm_num at b5 b4 ⊢; linarith)
  have q6 : |u5 ^ 2 + u5 * u4 + u4 ^ 2| ≤ 3.02 := by
    have h1 : |u5 ^ 2| ≤ 1.0018 * 1.0018 := by rw [sq]; exact abm b5 b5
    have h2 := abm b5 b4
    refine (abs_add_le _ _).trans ?_
    have := abs_add_le (u5 ^ 2) (u5 * u4)
    norm_num at h1 h2 s4 this ⊢
    linarith
  have key : u5 + x * u5 ^ 2 + y * u5 ^ 3 - z * u5 ^ 4 - 1 =
      u5 * (x * (u5 - u4) + y * ((u5 - u4) * (u5 + u4)) - z * ((u5 - u4) * (u5 ^ 2 + u5 * u4 + u4 ^ 2))) := by
    linear_combination e5
  rw [key]
  have h1 := abm hx k5
  have h2 := abm hy (abm k5 q5)
  have h3 := abm hz (abm k5 q6)
  have h4 := abs_sub (x * (u5 - u4) + y * ((u5 - u4) * (u5 + u4))) (z * ((u5 - u4) * (u5 ^ 2 + u5 * u4 + u4 ^ 2)))
  have h5 := abs_add_le (x * (u5 - u4)) (y * ((u5 - u4) * (u5 + u4)))
  have h6 : |x * (u5 - u4) + y * ((u5 - u4) * (u5 + u4)) - z * ((u5 - u4) * (u5 ^ 2 + u5 * u4 + u4 ^ 2))| ≤ 1.7e-11 := by
    refine h4.trans ((add_le_add (h5.trans (add_le_add h1 h2)) h3).trans (by norm_num))
  exact (abm b5 h6).trans (by norm_num)

/-- `refine_core` for any starting value whose residual is small -/
theorem refine_coreF {M e E : ℝ} (he0 : 0 ≤ e) (he : e < 1) (hE0 : 0 ≤ E) (hE : E ≤ 3.2)
    (hf : |E - e * sin E - M| ≤ 0.00352 * sin (E / 2) * (1 - e * cos E)) :
    let f0 := E - e * sin E - M
    let f1 := 1 - e * cos E
    let f2 := e * sin E
    let f3 := e * cos E
    let D3 := f1 - 0.5 * f0 * f2 / f1
    let d3 := -f0 / D3
    let D4 := f1 + 0.5 * d3 * f2 + (d3 * d3) * f3 / 6
    let d4 := -f0 / D4
    let D5 := f1 + 0.5 * d4 * f2 + d4 * d4 * f3 / 6 - d4 * d4 * d4 * f2 / 24
    0 < f1 ∧ |D3 - f1| ≤ 0.003 * f1 ∧ |D4 - f1| ≤ 0.003 * f1 ∧ |D5 - f1| ≤ 0.003 * f1 ∧
      |d3| ≤ 0.0036 * sin (E / 2) ∧ |d4| ≤ 0.0036 * sin (E / 2) ∧ |-f0 / D5| ≤ 0.0036 * sin (E / 2) ∧
      |E + -f0 / D5 - e * sin (E + -f0 / D5) - M| ≤ 1.82e-11 * |f0| := by
  intro f0 f1 f2 f3 D3 d3 D4 d4 D5
  obtain ⟨a, hadef⟩ : ∃ a, a = -f0 / f1 := ⟨_, rfl⟩
  set σ := sin (E / 2) with hσ
  have hσ0 : 0 ≤ σ := sin_nonneg_of_nonneg_of_le_pi (by linarith) (by norm_num at hE; linarith [pi_gt_three])
  have hσ1 : σ ≤ 1 := sin_le_one _
  have hcos : cos E = 1 - 2 * σ ^ 2 := by
    rw [show E = 2 * (E / 2) by ring, cos_two_mul, cos_sq', hσ]
    ring
  have hf1' : f1 = 1 - e + 2 * (e * σ ^ 2) := by simp only [f1, hcos]; ring
  have hq0 : 0 ≤ e * σ ^ 2 := by positivity
  have hf1 : 0 < f1 := by rw [hf1']; linarith
  have hqf : 2 * (e * σ ^ 2) ≤ f1 := by rw [hf1']; linarith
  have hf2 : |f2| ≤ 2 * (e * σ) := by
    have : f2 = 2 * (e * σ) * cos (E / 2) := by
      simp only [f2]
      rw [show E = 2 * (E / 2) by ring, sin_two_mul, hσ]
      ring_nf
    rw [this, abs_mul, abs_of_nonneg (by positivity : 0 ≤ 2 * (e * σ))]
    exact mul_le_of_le_one_right (by positivity) (abs_cos_le_one _)
  have hf3 : |f3| ≤ e := by
    simp only [f3, abs_mul, abs_of_nonneg he0]
    exact mul_le_of_le_one_right he0 (abs_cos_le_one _)
  have hf0 : f0 = -(a * f1) := by
    rw [hadef, div_mul_cancel₀ _ hf1.ne', neg_neg]
  have haf : |a| * f1 = |f0| := by
    rw [hf0, abs_neg, abs_mul, abs_of_pos hf1]
  have ha : |a| ≤ 0.00352 * σ := by
    refine le_of_mul_le_mul_right ?_ hf1
    rw [haf]
    exact hf
  have ha0 := abs_nonneg a
  have ha' : |a| ≤ 0.00352 := ha.trans (mul_le_of_le_one_right (by norm_num) hσ1)
  -- `e |a|² / f1`
  have hae : e * a ^ 2 ≤ 0.00352 ^ 2 / 2 * f1 := by
    have h1 : a ^ 2 ≤ (0.00352 * σ) ^ 2 := by
      rw [← sq_abs a]
      gcongr
    calc e * a ^ 2 ≤ e * (0.00352 * σ) ^ 2 := by gcongr
      _ = 0.00352 ^ 2 / 2 * (2 * (e * σ ^ 2)) := by ring
      _ ≤ 0.00352 ^ 2 / 2 * f1 := by gcongr
  have hf2a : |f2| * |a| ≤ 0.00352 * f1 := by
    calc |f2| * |a| ≤ 2 * (e * σ) * (0.00352 * σ) := mul_le_mul hf2 ha ha0 (by positivity)
      _ = 0.00352 * (2 * (e * σ ^ 2)) := by ring
      _ ≤ 0.00352 * f1 := by gcongr
  -- the relative quantities
  obtain ⟨x, hx⟩ : ∃ x, x = f2 * a / (2 * f1) := ⟨_, rfl⟩
  obtain ⟨y, hy⟩ : ∃ y, y = a ^ 2 * f3 / (6 * f1) := ⟨_, rfl⟩
  obtain ⟨z, hz⟩ : ∃ z, z = a ^ 2 * x / 12 := ⟨_, rfl⟩
  have hxb : |x| ≤ 0.00176 := by
    rw [hx, abs_div, abs_mul, abs_of_pos (by positivity : 0 < 2 * f1), div_le_iff₀ (by positivity)]
    norm_num at hf2a ⊢
    linarith
  have hyb : |y| ≤ 0.00000104 := by
    rw [hy, abs_div, abs_mul, abs_of_pos (by positivity : 0 < 6 * f1), abs_of_nonneg (sq_nonneg a), div_le_iff₀ (by positivity)]
    have : a ^ 2 * |f3| ≤ a ^ 2 * e := by gcongr
    norm_num at hae ⊢
    linarith
  have hzb : |z| ≤ 0.000000002 := by
    have h1 : a ^ 2 ≤ 0.00352 ^ 2 := by
      rw [← sq_abs a]
      have := ha'
      gcongr
    have h2 := abm (a := a ^ 2) ((abs_of_nonneg (sq_nonneg a)).le.trans h1) hxb
    rw [hz, abs_div, abs_of_pos (by norm_num : (0 : ℝ) < 12)]
    norm_num at h2 ⊢
    linarith
  have hd3d : D3 = f1 * (1 + x) := by
    simp only [D3]
    rw [hf0, hx]
    field_simp
    ring
  obtain ⟨u3, h3⟩ : ∃ u, u = 1 / (1 + x) := ⟨_, rfl⟩
  obtain ⟨u4, h4⟩ : ∃ u, u = 1 / (1 + x * u3 + y * u3 ^ 2) := ⟨_, rfl⟩
  obtain ⟨u5, h5⟩ : ∃ u, u = 1 / (1 + x * u4 + y * u4 ^ 2 - z * u4 ^ 3) := ⟨_, rfl⟩
  obtain ⟨p3, p4, p5, w4, w5, b3, b4, l5, b5, hr⟩ := stagesF hxb hyb hzb h3 h4 h5
  have hf0' : -f0 = a * f1 := by rw [hf0]; ring
  have hd3 : d3 = a * u3 := by
    simp only [d3]
    rw [hd3d, hf0', h3]
    field_simp
  have hD4 : D4 = f1 * (1 + x * u3 + y * u3 ^ 2) := by
    simp only [D4]
    rw [hd3, hx, hy]
    field_simp
    ring
  have hd4 : d4 = a * u4 := by
    simp only [d4]
    rw [hD4, hf0', h4]
    rw [mul_comm f1, mul_div_mul_right _ _ hf1.ne', div_eq_mul_one_div]
  have hD5 : D5 = f1 * (1 + x * u4 + y * u4 ^ 2 - z * u4 ^ 3) := by
    simp only [D5]
    rw [hd4, hz, hx, hy]
    field_simp
    ring
  have hdE : -f0 / D5 = a * u5 := by
    rw [hD5, hf0', h5]
    rw [mul_comm f1, mul_div_mul_right _ _ hf1.ne', div_eq_mul_one_div]
  have hu5 : |u5| ≤ 1.002 := by rw [abs_of_nonneg (by norm_num at l5; linarith)]; exact b5
  have hdb : |a * u5| ≤ 1.002 * |a| := by
    rw [abs_mul, mul_comm]
    exact mul_le_mul_of_nonneg_right hu5 ha0
  have hrel : ∀ t : ℝ, |t| ≤ 0.002 → |f1 * (1 + t) - f1| ≤ 0.003 * f1 := by
    intro t ht
    rw [show f1 * (1 + t) - f1 = t * f1 by ring, abs_mul, abs_of_pos hf1]
    refine mul_le_mul_of_nonneg_right (ht.trans (by norm_num)) hf1.le
  have hsm : ∀ t : ℝ, |t| ≤ 1.002 → |a * t| ≤ 0.0036 * σ := by
    intro t ht
    refine (abm ha ht).trans ?_
    norm_num
    linarith
  refine ⟨hf1, by rw [hd3d]; exact hrel _ (hxb.trans (by norm_num)), ?_, ?_, by rw [hd3]; exact hsm _ b3, by rw [hd4]; exact hsm _ b4,
    by rw [hdE]; exact hsm _ hu5, ?_⟩
  · rw [hD4, add_assoc]
    exact hrel _ w4
  · rw [hD5, show 1 + x * u4 + y * u4 ^ 2 - z * u4 ^ 3 = 1 + (x * u4 + y * u4 ^ 2 - z * u4 ^ 3) by ring]
    exact hrel _ w5
  · rw [hdE]
    have hd1 : |a * u5| ≤ 1 := by
      refine hdb.trans ((mul_le_mul_of_nonneg_left ha' (by norm_num)).trans (by norm_num))
    have ht := kepler_taylor (E := E) he0 hd1
    have hmain : E - e * sin E + (1 - e * cos E) * (a * u5) + e * sin E * (a * u5) ^ 2 / 2 + e * cos E * (a * u5) ^ 3 / 6 -
        e * sin E * (a * u5) ^ 4 / 24 - M = a * f1 * (u5 + x * u5 ^ 2 + y * u5 ^ 3 - z * u5 ^ 4 - 1) := by
      have h0 : E - e * sin E - M = -(a * f1) := hf0
      have hx' : e * sin E * a = 2 * (f1 * x) := by
        rw [hx]
        field_simp
        simp only [f2]
        ring
      have hy' : a ^ 2 * (e * cos E) = 6 * (f1 * y) := by
        rw [hy]
        field_simp
        simp only [f3]
        ring
      have hf : 1 - e * cos E = f1 := rfl
      rw [hz, hf]
      linear_combination h0 + (a * u5 ^ 2 / 2 - a ^ 3 * u5 ^ 4 / 24) * hx' + a * u5 ^ 3 / 6 * hy'
    have h5 : e * |a * u5| ^ 5 / 100 ≤ 7.9e-13 * |a| * f1 := by
      have h1 : |a * u5| ^ 5 ≤ (1.002 * |a|) ^ 5 := by gcongr
      have h2 : |a| ^ 2 ≤ 0.00352 ^ 2 := by
        have := ha'
        gcongr
      have h3 : e * |a| ^ 2 ≤ 0.00352 ^ 2 / 2 * f1 := by rw [sq_abs]; exact hae
      calc e * |a * u5| ^ 5 / 100 ≤ e * (1.002 * |a|) ^ 5 / 100 := by gcongr
        _ = 1.002 ^ 5 / 100 * |a| * ((e * |a| ^ 2) * |a| ^ 2) := by ring
        _ ≤ 1.002 ^ 5 / 100 * |a| * ((0.00352 ^ 2 / 2 * f1) * 0.00352 ^ 2) := by gcongr
        _ = (1.002 ^ 5 / 100 * 0.00352 ^ 4 / 2) * (|a| * f1) := by ring
        _ ≤ 7.9e-13 * (|a| * f1) := by gcongr; norm_num
        _ = 7.9e-13 * |a| * f1 := by ring
    have h6 : |a * f1 * (u5 + x * u5 ^ 2 + y * u5 ^ 3 - z * u5 ^ 4 - 1)| ≤ 1.72e-11 * |a| * f1 := by
      have := abm (a := a * f1) (by rw [abs_mul, abs_of_pos hf1]) hr
      linarith
    have h7 : E + a * u5 - e * sin (E + a * u5) - M = (E + a * u5 - e * sin (E + a * u5) -
        (E - e * sin E + (1 - e * cos E) * (a * u5) + e * sin E * (a * u5) ^ 2 / 2 + e * cos E * (a * u5) ^ 3 / 6 -
        e * sin E * (a * u5) ^ 4 / 24)) + a * f1 * (u5 + x * u5 ^ 2 + y * u5 ^ 3 - z * u5 ^ 4 - 1) := by
      linear_combination hmain
    rw [h7]
    refine (abs_add_le _ _).trans ((add_le_add (ht.trans h5) h6).trans ?_)
    have : 0 ≤ |a| * f1 := by positivity
    rw [← haf]
    norm_num
    linarith

/-- the half-angle quantities of the refinement step -/
theorem half_facts {e E : ℝ} (he0 : 0 ≤ e) (he : e < 1) (hE0 : 0 ≤ E) (hE : E ≤ 3.2) :
    0 ≤ sin (E / 2) ∧ sin (E / 2) ≤ 1 ∧ sin (E / 2) ≤ E / 2 ∧ E ≤ 3.49 * sin (E / 2) ∧
      1 - e * cos E = (1 - e) + 2 * (e * sin (E / 2) ^ 2) ∧ |e * sin E| ≤ 2 * (e * sin (E / 2)) ∧ |e * sin E| ≤ 1 := by
  have hσ0 : 0 ≤ sin (E / 2) := sin_nonneg_of_nonneg_of_le_pi (by linarith) (by norm_num at hE; linarith [pi_gt_three])
  have hcos : cos E = 1 - 2 * sin (E / 2) ^ 2 := by
    conv_lhs => rw [show E = 2 * (E / 2) by ring]
    rw [cos_two_mul, cos_sq']
    ring
  have hs : |e * sin E| ≤ 2 * (e * sin (E / 2)) := by
    have : e * sin E = 2 * (e * sin (E / 2)) * cos (E / 2) := by
      conv_lhs => rw [show E = 2 * (E / 2) by ring, sin_two_mul]
      ring
    rw [this, abs_mul, abs_of_nonneg (by positivity : 0 ≤ 2 * (e * sin (E / 2)))]
    exact mul_le_of_le_one_right (by positivity) (abs_cos_le_one _)
  have hs1 : |e * sin E| ≤ 1 := by
    rw [abs_mul, abs_of_nonneg he0]
    exact (mul_le_mul he.le (abs_sin_le_one _) (abs_nonneg _) (by norm_num)).trans (by norm_num)
  refine ⟨hσ0, sin_le_one _, sin_le (by linarith), ?_, by rw [hcos]; ring, hs, hs1⟩
  have h := le_sin_3 (x := E / 2) (by linarith)
  have h2 : E ^ 2 ≤ 3.2 ^ 2 := by gcongr
  have h3 : E * E ^ 2 ≤ E * 3.2 ^ 2 := by gcongr
  norm_num at h3 ⊢
  nlinarith

/-- the slope of Kepler's function near a point -/
theorem slope_near {e E d ρ c : ℝ} (he0 : 0 ≤ e) (he : e < 1) (hE0 : 0 ≤ E) (hE : E ≤ 3.2) (hρ : 0 ≤ ρ) (hc : 0 ≤ c)
    (hd : |d| ≤ ρ * sin (E / 2) + c) :
    |(1 - e * cos (E + d)) - (1 - e * cos E)| ≤ (ρ + ρ ^ 2 / 2) * (1 - e * cos E) + c + c ^ 2 := by
  obtain ⟨hσ0, hσ1, -, -, hf1, hs, hs1⟩ := half_facts he0 he hE0 hE
  refine (kepler_deriv_near (E := E) (d := d) he0).trans ?_
  rw [hf1]
  generalize sin (E / 2) = σ at *
  have h1 : d ^ 2 ≤ (ρ * σ + c) ^ 2 := by rw [← sq_abs d]; gcongr
  have h2 : e * d ^ 2 / 2 ≤ e * ρ ^ 2 * σ ^ 2 + c ^ 2 := by
    have h3 : e * d ^ 2 ≤ e * (ρ * σ + c) ^ 2 := by gcongr
    have h4 : (ρ * σ + c) ^ 2 ≤ 2 * (ρ * σ) ^ 2 + 2 * c ^ 2 := by nlinarith [sq_nonneg (ρ * σ - c)]
    have h5 : e * (ρ * σ + c) ^ 2 ≤ e * (2 * (ρ * σ) ^ 2 + 2 * c ^ 2) := by gcongr
    have h6 : e * c ^ 2 ≤ 1 * c ^ 2 := by gcongr
    nlinarith
  have h7 : |e * sin E| * |d| ≤ 2 * (e * σ) * (ρ * σ) + 1 * c := by
    calc |e * sin E| * |d| ≤ |e * sin E| * (ρ * σ + c) := by gcongr
      _ = |e * sin E| * (ρ * σ) + |e * sin E| * c := by ring
      _ ≤ _ := by gcongr
  have h8 : 0 ≤ ρ * (1 - e) := mul_nonneg hρ (by linarith)
  have h9 : 0 ≤ ρ ^ 2 * (1 - e) := mul_nonneg (sq_nonneg ρ) (by linarith)
  nlinarith

theorem kepler_slope_le {e C a b : ℝ} (hC : ∀ y, a ≤ y → y ≤ b → 1 - e * cos y ≤ C) (hab : a ≤ b) :
    (b - e * sin b) - (a - e * sin a) ≤ C * (b - a) := by
  have hd : ∀ y : ℝ, HasDerivAt (fun y => y - e * sin y) (1 - e * cos y) y := fun y =>
    (hasDerivAt_id y).sub ((hasDerivAt_sin y).const_mul e)
  refine (convex_Icc a b).image_sub_le_mul_sub_of_deriv_le (f := fun y => y - e * sin y)
    (fun y _ => (hd y).continuousAt.continuousWithinAt) (fun y _ => (hd y).differentiableAt.differentiableWithinAt)
    (fun y hy => ?_) a (Set.left_mem_Icc.2 hab) b (Set.right_mem_Icc.2 hab) hab
  rw [(hd y).deriv]
  rw [interior_Icc] at hy
  exact hC y hy.1.le hy.2.le

/-- the residual at a starting value that is accurate to `η` -/
theorem residualF {M e E η : ℝ} (he0 : 0 ≤ e) (he : e < 1) (hM0 : 0 ≤ M) (hM : M ≤ π) (hη0 : 0 ≤ η) (hη : η ≤ 2.4e-6)
    (hE : Rnd η (starter M e (1 - e)) E) :
    0 ≤ E ∧ E ≤ 3.2 ∧
      |E - e * sin E - M| ≤ 0.0070007 * e * sin (E / 2) ^ 3 + 3.5 * η * sin (E / 2) * (1 - e * cos E) ∧
      |E - e * sin E - M| ≤ 0.00352 * sin (E / 2) * (1 - e * cos E) := by
  obtain ⟨g, hg, hgb⟩ := starter_residual he0 he hM0 hM
  have h0 := starter_nonneg he0 he hM0 hM
  have h1 := starter_le_pi he0 he hM0 hM
  generalize starter M e (1 - e) = S at *
  have hE0 : 0 ≤ E := hE.nonneg (by norm_num at hη; linarith) h0
  have p2 := pi_lt_d2
  norm_num at hη p2
  have hd : |E - S| ≤ η * S := by
    unfold Rnd at hE
    rwa [abs_of_nonneg h0] at hE
  obtain ⟨d1, d2⟩ := abs_le.1 hd
  have hES : η * S ≤ 0.0001 * S := by gcongr; norm_num; linarith
  norm_num at hES
  have hE32 : E ≤ 3.2 := by norm_num; linarith
  obtain ⟨hσ0, hσ1, hσ2, hσE, hf1, hs, hs1⟩ := half_facts he0 he hE0 hE32
  have hSE : S ≤ 1.0002 * E := by norm_num; linarith
  have hdσ : |E - S| ≤ 3.491 * η * sin (E / 2) := by
    refine hd.trans ?_
    have : S ≤ 3.491 * sin (E / 2) := by norm_num at *; linarith
    calc η * S ≤ η * (3.491 * sin (E / 2)) := by gcongr
      _ = _ := by ring
  have hρ : 3.491 * η * sin (E / 2) ≤ 0.00001 * sin (E / 2) := by gcongr; norm_num; linarith
  have hslope : ∀ y, |y - E| ≤ |E - S| → 1 - e * cos y ≤ 1.0001 * (1 - e * cos E) := by
    intro y hy
    have h := slope_near (d := y - E) (ρ := 0.00001) (c := 0) he0 he hE0 hE32 (by norm_num) le_rfl (by linarith)
    rw [show E + (y - E) = y by ring] at h
    have h2 := (abs_le.1 h).2
    have h3 : 0 ≤ 1 - e * cos E := by rw [hf1]; have : 0 ≤ e * sin (E / 2) ^ 2 := by positivity
                                      linarith
    norm_num at h2 ⊢
    linarith
  have hf1p : 0 < 1 - e * cos E := by
    rw [hf1]
    have : 0 ≤ e * sin (E / 2) ^ 2 := by positivity
    linarith
  have hdiff : |(E - e * sin E) - (S - e * sin S)| ≤ 1.0001 * (1 - e * cos E) * |E - S| := by
    rcases le_total S E with h | h
    · have a1 := kepler_slope_le (e := e) (C := 1.0001 * (1 - e * cos E)) (a := S) (b := E) (fun y y1 y2 => hslope y (by
        rw [abs_of_nonpos (by linarith), abs_of_nonneg (by linarith)]; linarith)) h
      have a2 := kepler_slope (e := e) (C := 0) (a := S) (b := E) (fun y _ _ => (one_sub_ecos_pos he0 he y).le) h
      rw [abs_of_nonneg (by linarith), abs_of_nonneg (by linarith)]
      linarith
    · have a1 := kepler_slope_le (e := e) (C := 1.0001 * (1 - e * cos E)) (a := E) (b := S) (fun y y1 y2 => hslope y (by
        rw [abs_of_nonneg (by linarith), abs_of_nonpos (by linarith)]; linarith)) h
      have a2 := kepler_slope (e := e) (C := 0) (a := E) (b := S) (fun y _ _ => (one_sub_ecos_pos he0 he y).le) h
      rw [abs_of_nonpos (by linarith), abs_of_nonpos (by linarith)]
      linarith
  have hσS : sin (S / 2) ≤ 1.00001 * sin (E / 2) := by
    have h := (abs_le.1 (Kepler.abs_sin_sub_sin_le (S / 2) (E / 2))).2
    have h2 : |S / 2 - E / 2| = |E - S| / 2 := by
      rw [show S / 2 - E / 2 = -((E - S) / 2) by ring, abs_neg, abs_div, abs_of_pos (by norm_num : (0 : ℝ) < 2)]
    rw [h2] at h
    norm_num at *
    linarith
  have hσS0 : 0 ≤ sin (S / 2) := sin_nonneg_of_nonneg_of_le_pi (by linarith) (by linarith)
  have hσ3 : sin (S / 2) ^ 3 ≤ 1.00004 * sin (E / 2) ^ 3 := by
    calc sin (S / 2) ^ 3 ≤ (1.00001 * sin (E / 2)) ^ 3 := by gcongr
      _ = 1.00001 ^ 3 * sin (E / 2) ^ 3 := by ring
      _ ≤ 1.00004 * sin (E / 2) ^ 3 := by gcongr; norm_num
  generalize sin (E / 2) = σ at *
  generalize 1 - e * cos E = f1 at *
  have hmain : |E - e * sin E - M| ≤ 0.0070007 * e * σ ^ 3 + 3.5 * η * σ * f1 := by
    have h2 : |e * g| ≤ e * (0.007 * (1.00004 * σ ^ 3)) := by
      rw [abs_mul, abs_of_nonneg he0]
      exact mul_le_mul_of_nonneg_left (hgb.trans (by gcongr)) he0
    have h3 := abs_sub ((E - e * sin E) - (S - e * sin S)) (e * g)
    rw [show (E - e * sin E) - (S - e * sin S) - e * g = E - e * sin E - M by linarith] at h3
    have h4 : 1.0001 * f1 * |E - S| ≤ 1.0001 * f1 * (3.491 * η * σ) := by gcongr
    have h5 : 0 ≤ η * σ * f1 := by positivity
    have h6 : 0 ≤ e * σ ^ 3 := by positivity
    norm_num at *
    linarith
  refine ⟨hE0, hE32, hmain, hmain.trans ?_⟩
  have h5 : 2 * (e * σ ^ 2) * σ ≤ f1 * σ := by
    refine mul_le_mul_of_nonneg_right ?_ hσ0
    rw [hf1]
    linarith
  have h6 : η * (σ * f1) ≤ 0.0000024 * (σ * f1) := by gcongr; norm_num; linarith
  norm_num at h6 ⊢
  nlinarith

end Jaxoplanet.KeplerFloat
