import Verif.Proofs.KeplerStarter

/-! The refinement step of the Kepler solver. -/

namespace Jaxoplanet.Kepler

open Real Spec

theorem abm {a b A B : ℝ} (ha : |a| ≤ A) (hb : |b| ≤ B) : |a * b| ≤ A * B := by
  rw [abs_mul]
  exact mul_le_mul ha hb (abs_nonneg _) ((abs_nonneg _).trans ha)

/-- the three stages of the refinement relative to the Newton step -/
theorem stages {x y z u3 u4 u5 : ℝ} (hx : |x| ≤ 0.00175) (hy : |y| ≤ 0.00000103) (hz : |z| ≤ 0.000000002)
    (h3 : u3 = 1 / (1 + x)) (h4 : u4 = 1 / (1 + x * u3 + y * u3 ^ 2))
    (h5 : u5 = 1 / (1 + x * u4 + y * u4 ^ 2 - z * u4 ^ 3)) :
    0 < 1 + x ∧ 0 < 1 + x * u3 + y * u3 ^ 2 ∧ 0 < 1 + x * u4 + y * u4 ^ 2 - z * u4 ^ 3 ∧
      0.998 ≤ u5 ∧ u5 ≤ 1.002 ∧ |u5 + x * u5 ^ 2 + y * u5 ^ 3 - z * u5 ^ 4 - 1| ≤ 1.68e-11 := by
  obtain ⟨x1, x2⟩ := abs_le.1 hx
  have d3 : 0 < 1 + x := by norm_num at x1; linarith
  have e3 : u3 * (1 + x) = 1 := by rw [h3, one_div, inv_mul_cancel₀ d3.ne']
  have b3 : |u3| ≤ 1.00176 := by
    rw [h3, abs_of_pos (by positivity), div_le_iff₀ d3]
    norm_num at x1 ⊢
    linarith
  have s3 : |u3 ^ 2| ≤ 1.00176 * 1.00176 := by rw [sq]; exact abm b3 b3
  have w4 := abs_add_le (x * u3) (y * u3 ^ 2)
  have w4' : |x * u3 + y * u3 ^ 2| ≤ 0.001756 := by
    have h1 := abm hx b3
    have h2 := abm hy s3
    norm_num at h1 h2 w4 ⊢
    linarith
  obtain ⟨x3, x4⟩ := abs_le.1 w4'
  have d4 : 0 < 1 + x * u3 + y * u3 ^ 2 := by norm_num at x3; linarith
  have e4 : u4 * (1 + x * u3 + y * u3 ^ 2) = 1 := by rw [h4, one_div, inv_mul_cancel₀ d4.ne']
  have b4 : |u4| ≤ 1.0018 := by
    rw [h4, abs_of_pos (by positivity), div_le_iff₀ d4]
    norm_num at x3 ⊢
    linarith
  have s4 : |u4 ^ 2| ≤ 1.0018 * 1.0018 := by rw [sq]; exact abm b4 b4
  have c4 : |u4 ^ 3| ≤ 1.0018 * 1.0018 * 1.0018 := by rw [pow_succ]; exact abm s4 b4
  have w5 : |x * u4 + y * u4 ^ 2 - z * u4 ^ 3| ≤ 0.00176 := by
    have h1 := abm hx b4
    have h2 := abm hy s4
    have h3 := abm hz c4
    have h4 := abs_add_le (x * u4) (y * u4 ^ 2)
    have h5 := abs_sub (x * u4 + y * u4 ^ 2) (z * u4 ^ 3)
    norm_num at h1 h2 h3 h4 h5 ⊢
    linarith
  obtain ⟨x5, x6⟩ := abs_le.1 w5
  have d5 : 0 < 1 + x * u4 + y * u4 ^ 2 - z * u4 ^ 3 := by norm_num at x5; linarith
  have e5 : u5 * (1 + x * u4 + y * u4 ^ 2 - z * u4 ^ 3) = 1 := by rw [h5, one_div, inv_mul_cancel₀ d5.ne']
  have b5 : |u5| ≤ 1.0018 := by
    rw [h5, abs_of_pos (by positivity), div_le_iff₀ d5]
    norm_num at x5 ⊢
    linarith
  have l5 : 0.998 ≤ u5 := by
    rw [h5, le_div_iff₀ d5]
    norm_num at x6 ⊢
    linarith
  refine ⟨d3, d4, d5, l5, (le_abs_self _).trans (b5.trans (by norm_num)), ?_⟩
  -- differences
  have k3 : |1 - u3| ≤ 0.00175 * 1.00176 := by
    have : 1 - u3 = x * u3 := by linear_combination -e3
    rw [this]
    exact abm hx b3
  have k4 : |u4 - u3| ≤ 0.0000042 := by
    have : u4 - u3 = u4 * u3 * (x * (1 - u3) - y * u3 ^ 2) := by linear_combination (-u4) * e3 + u3 * e4
    rw [this]
    have h1 := abm hx k3
    have h2 := abm hy s3
    have h3 := abs_sub (x * (1 - u3)) (y * u3 ^ 2)
    have h4 : |x * (1 - u3) - y * u3 ^ 2| ≤ 0.00000411 := by
      norm_num at h1 h2 h3 ⊢
      linarith
    refine (abm (abm b4 b3) h4).trans (by norm_num)
  have q3 : |u3 + u4| ≤ 2.004 := (abs_add_le _ _).trans (by norm_num at b3 b4 ⊢; linarith)
  have k5 : |u5 - u4| ≤ 0.0000000095 := by
    have : u5 - u4 = u5 * u4 * (x * (-(u4 - u3)) + y * (-(u4 - u3) * (u3 + u4)) + z * u4 ^ 3) := by
      linear_combination u4 * e5 - u5 * e4
    rw [this]
    have h0 : |-(u4 - u3)| ≤ 0.0000042 := by rw [abs_neg]; exact k4
    have h1 := abm hx h0
    have h2 := abm hy (abm h0 q3)
    have h3 := abm hz c4
    have h4 := abs_add_le (x * (-(u4 - u3)) + y * (-(u4 - u3) * (u3 + u4))) (z * u4 ^ 3)
    have h5 := abs_add_le (x * (-(u4 - u3))) (y * (-(u4 - u3) * (u3 + u4)))
    have h6 : |x * (-(u4 - u3)) + y * (-(u4 - u3) * (u3 + u4)) + z * u4 ^ 3| ≤ 0.00000000938 := by
      generalize |x * (-(u4 - u3)) + y * (-(u4 - u3) * (u3 + u4)) + z * u4 ^ 3| = A1 at *
      generalize |x * (-(u4 - u3)) + y * (-(u4 - u3) * (u3 + u4))| = A2 at *
      generalize |x * (-(u4 - u3))| = A3 at *
      generalize |y * (-(u4 - u3) * (u3 + u4))| = A4 at *
      generalize |z * u4 ^ 3| = A5 at *
      norm_num at h1 h2 h3 ⊢
      linarith
    exact (abm (abm b5 b4) h6).trans (by norm_num)
  have q5 : |u5 + u4| ≤ 2.004 := (abs_add_le _ _).trans (by norm_num at b5 b4 ⊢; linarith)
  have q6 : |u5 ^ 2 + u5 * u4 + u4 ^ 2| ≤ 3.02 := by
    have h1 : |u5 ^ 2| ≤ 1.0018 * 1.0018 := by rw [sq]; exact abm b5 b5
    have h2 := abm b5 b4
    refine (abs_add_le _ _).trans ?_
    have := abs_add_le (u5 ^ 2) (u5 * u4)
    norm_num at h1 h2 s4 this ⊢
    linarith
  have key : u5 + x * u5 ^ 2 + y * u5 ^ 3 - z * u5 ^ 4 - 1 =
      u5 * (x * (u5 - u4) + y * ((u5 - u4) * (u5 + u4)) - z * ((u5 - u4) * (u5 ^ 2 + u5 * u4 + u4 ^ 2))) := by
    linear_combination e5
  rw [key]
  have h1 := abm hx k5
  have h2 := abm hy (abm k5 q5)
  have h3 := abm hz (abm k5 q6)
  have h4 := abs_sub (x * (u5 - u4) + y * ((u5 - u4) * (u5 + u4))) (z * ((u5 - u4) * (u5 ^ 2 + u5 * u4 + u4 ^ 2)))
  have h5 := abs_add_le (x * (u5 - u4)) (y * ((u5 - u4) * (u5 + u4)))
  have h6 : |x * (u5 - u4) + y * ((u5 - u4) * (u5 + u4)) - z * ((u5 - u4) * (u5 ^ 2 + u5 * u4 + u4 ^ 2))| ≤ 1.665e-11 := by
    refine h4.trans ((add_le_add (h5.trans (add_le_add h1 h2)) h3).trans (by norm_num))
  exact (abm b5 h6).trans (by norm_num)

/-- Kepler's function at `E + d` -/
theorem kepler_taylor {e E d : ℝ} (he0 : 0 ≤ e) (hd : |d| ≤ 1) :
    |(E + d - e * sin (E + d)) - (E - e * sin E + (1 - e * cos E) * d + e * sin E * d ^ 2 / 2 + e * cos E * d ^ 3 / 6 -
      e * sin E * d ^ 4 / 24)| ≤ e * |d| ^ 5 / 100 := by
  have hs : |sin d - (d - d ^ 3 / 6)| ≤ |d| ^ 5 / 120 := by
    have pos : ∀ d : ℝ, 0 ≤ d → |sin d - (d - d ^ 3 / 6)| ≤ |d| ^ 5 / 120 := by
      intro d hd
      have h1 := (taylor_alternates 1 hd).2
      have h2 := (taylor_alternates 2 hd).2
      simp only [sinP, Finset.sum_range_succ, Finset.sum_range_zero, Nat.factorial] at h1 h2
      norm_num at h1 h2
      rw [abs_of_nonneg hd, abs_le]
      constructor <;> [have := pow_nonneg hd 5; skip] <;> linarith
    rcases le_total 0 d with h | h
    · exact pos d h
    · have := pos (-d) (by linarith)
      rw [sin_neg, abs_neg] at this
      rw [← abs_neg]
      refine le_trans (le_of_eq ?_) this
      congr 1
      ring
  have hc : |cos d - (1 - d ^ 2 / 2 + d ^ 4 / 24)| ≤ |d| ^ 6 / 720 := by
    have pos : ∀ d : ℝ, 0 ≤ d → |cos d - (1 - d ^ 2 / 2 + d ^ 4 / 24)| ≤ |d| ^ 6 / 720 := by
      intro d hd
      have h1 := (taylor_alternates 2 hd).1
      have h2 := (taylor_alternates 3 hd).1
      simp only [cosP, Finset.sum_range_succ, Finset.sum_range_zero, Nat.factorial] at h1 h2
      norm_num at h1 h2
      rw [abs_of_nonneg hd, abs_le]
      constructor <;> [skip; have := pow_nonneg hd 6] <;> linarith
    rcases le_total 0 d with h | h
    · exact pos d h
    · have := pos (-d) (by linarith)
      rw [cos_neg, abs_neg] at this
      refine le_trans (le_of_eq ?_) this
      congr 1
      ring
  have key : (E + d - e * sin (E + d)) - (E - e * sin E + (1 - e * cos E) * d + e * sin E * d ^ 2 / 2 + e * cos E * d ^ 3 / 6 -
      e * sin E * d ^ 4 / 24) = -(e * (sin E * (cos d - (1 - d ^ 2 / 2 + d ^ 4 / 24)) + cos E * (sin d - (d - d ^ 3 / 6)))) := by
    rw [sin_add]
    ring
  rw [key, abs_neg, abs_mul, abs_of_nonneg he0, mul_div_assoc]
  refine mul_le_mul_of_nonneg_left ?_ he0
  have h1 := abm (abs_sin_le_one E) hc
  have h2 := abm (abs_cos_le_one E) hs
  refine (abs_add_le _ _).trans ((add_le_add h1 h2).trans ?_)
  have h5 : 0 ≤ |d| ^ 5 := by positivity
  have h6 : |d| ^ 6 ≤ |d| ^ 5 := by
    rw [pow_succ]
    exact mul_le_of_le_one_right h5 hd
  linarith

/-- Kepler's function increases at least as fast as its derivative is bounded below -/
theorem kepler_slope {e C a b : ℝ} (hC : ∀ y, a ≤ y → y ≤ b → C ≤ 1 - e * cos y) (hab : a ≤ b) :
    C * (b - a) ≤ (b - e * sin b) - (a - e * sin a) := by
  have hd : ∀ y : ℝ, HasDerivAt (fun y => y - e * sin y) (1 - e * cos y) y := fun y =>
    (hasDerivAt_id y).sub ((hasDerivAt_sin y).const_mul e)
  refine (convex_Icc a b).mul_sub_le_image_sub_of_le_deriv (f := fun y => y - e * sin y)
    (fun y _ => (hd y).continuousAt.continuousWithinAt) (fun y _ => (hd y).differentiableAt.differentiableWithinAt)
    (fun y hy => ?_) a (Set.left_mem_Icc.2 hab) b (Set.right_mem_Icc.2 hab) hab
  rw [(hd y).deriv]
  rw [interior_Icc] at hy
  exact hC y hy.1.le hy.2.le

/-- the derivative of Kepler's function near `E` -/
theorem kepler_deriv_near {e E d : ℝ} (he0 : 0 ≤ e) :
    |(1 - e * cos (E + d)) - (1 - e * cos E)| ≤ e * d ^ 2 / 2 + |e * sin E| * |d| := by
  have h1 : (1 - e * cos (E + d)) - (1 - e * cos E) = e * cos E * (1 - cos d) + e * sin E * sin d := by
    rw [cos_add]
    ring
  rw [h1]
  refine (abs_add_le _ _).trans (add_le_add ?_ ?_)
  · have h2 : |1 - cos d| ≤ d ^ 2 / 2 := by
      rw [abs_of_nonneg (by linarith [cos_le_one d])]
      linarith [one_sub_sq_div_two_le_cos (x := d)]
    have := abm (abm (abs_of_nonneg he0).le (abs_cos_le_one E)) h2
    linarith
  · rw [abs_mul]
    exact mul_le_mul_of_nonneg_left abs_sin_le_abs (abs_nonneg _)

/-- everything that is needed of the quantities of the refinement step -/
theorem refine_core {M e E g : ℝ} (he0 : 0 ≤ e) (he : e < 1) (hE0 : 0 ≤ E) (hE : E ≤ π)
    (hg : E - e * sin E - M = -(e * g)) (hgb : |g| ≤ 0.007 * sin (E / 2) ^ 3) :
    let f0 := E - e * sin E - M
    let f1 := 1 - e * cos E
    let f2 := e * sin E
    let f3 := e * cos E
    let d3 := -f0 / (f1 - 0.5 * f0 * f2 / f1)
    let d4 := -f0 / (f1 + 0.5 * d3 * f2 + (d3 * d3) * f3 / 6)
    let D5 := f1 + 0.5 * d4 * f2 + d4 * d4 * f3 / 6 - d4 * d4 * d4 * f2 / 24
    let a := -f0 / f1
    0 < f1 ∧ 0 < f1 - 0.5 * f0 * f2 / f1 ∧ 0 < f1 + 0.5 * d3 * f2 + (d3 * d3) * f3 / 6 ∧ 0 < D5 ∧
      |a| ≤ 0.0035 * sin (E / 2) ∧ |a| * f1 ≤ e * (0.007 * sin (E / 2) ^ 3) ∧ |-f0 / D5| ≤ 1.002 * |a| ∧
      |E + -f0 / D5 - e * sin (E + -f0 / D5) - M| ≤ 1.76e-11 * |a| * f1 ∧
      (∀ d, |d| ≤ 1.01 * |a| → 0.99 * f1 ≤ 1 - e * cos (E + d)) := by
  intro f0 f1 f2 f3 d3 d4 D5 a
  set σ := sin (E / 2) with hσ
  have hσ0 : 0 ≤ σ := sin_nonneg_of_nonneg_of_le_pi (by linarith) (by linarith)
  have hσ1 : σ ≤ 1 := sin_le_one _
  have hcos : cos E = 1 - 2 * σ ^ 2 := by
    rw [show E = 2 * (E / 2) by ring, cos_two_mul, cos_sq', hσ]
    ring
  have hf1' : f1 = 1 - e + 2 * (e * σ ^ 2) := by simp only [f1, hcos]; ring
  have hq0 : 0 ≤ e * σ ^ 2 := by positivity
  have hf1 : 0 < f1 := by rw [hf1']; linarith
  have hqf : 2 * (e * σ ^ 2) ≤ f1 := by rw [hf1']; linarith
  have hf2 : |f2| ≤ 2 * (e * σ) := by
    have : f2 = 2 * (e * σ) * cos (E / 2) := by
      simp only [f2]
      rw [show E = 2 * (E / 2) by ring, sin_two_mul, hσ]
      ring_nf
    rw [this, abs_mul, abs_of_nonneg (by positivity : 0 ≤ 2 * (e * σ))]
    exact mul_le_of_le_one_right (by positivity) (abs_cos_le_one _)
  have hf3 : |f3| ≤ e := by
    simp only [f3, abs_mul, abs_of_nonneg he0]
    exact mul_le_of_le_one_right he0 (abs_cos_le_one _)
  have haf : a * f1 = e * g := by
    simp only [a]
    rw [div_mul_cancel₀ _ hf1.ne']
    simp only [f0]
    rw [hg, neg_neg]
  have hf0 : f0 = -(a * f1) := by rw [haf]; exact hg
  have haf' : |a| * f1 ≤ e * (0.007 * σ ^ 3) := by
    rw [← abs_of_pos hf1, ← abs_mul, haf, abs_mul, abs_of_nonneg he0]
    exact mul_le_mul_of_nonneg_left hgb he0
  have ha : |a| ≤ 0.0035 * σ := by
    have h1 : 2 * (e * σ ^ 2) * (0.0035 * σ) ≤ f1 * (0.0035 * σ) := mul_le_mul_of_nonneg_right hqf (by positivity)
    have h2 : |a| * f1 ≤ (0.0035 * σ) * f1 := by
      refine haf'.trans (le_trans (le_of_eq ?_) (h1.trans (le_of_eq ?_))) <;> ring
    exact le_of_mul_le_mul_right h2 hf1
  have ha0 := abs_nonneg a
  have ha' : |a| ≤ 0.0035 := ha.trans (mul_le_of_le_one_right (by norm_num) hσ1)
  -- `e |a|² / f1`
  have hae : e * a ^ 2 ≤ 0.0035 ^ 2 / 2 * f1 := by
    have h1 : a ^ 2 ≤ (0.0035 * σ) ^ 2 := by
      rw [← sq_abs a]
      gcongr
    calc e * a ^ 2 ≤ e * (0.0035 * σ) ^ 2 := by gcongr
      _ = 0.0035 ^ 2 / 2 * (2 * (e * σ ^ 2)) := by ring
      _ ≤ 0.0035 ^ 2 / 2 * f1 := by gcongr
  have hf2a : |f2| * |a| ≤ 0.0035 * f1 := by
    calc |f2| * |a| ≤ 2 * (e * σ) * (0.0035 * σ) := mul_le_mul hf2 ha ha0 (by positivity)
      _ = 0.0035 * (2 * (e * σ ^ 2)) := by ring
      _ ≤ 0.0035 * f1 := by gcongr
  -- the relative quantities
  obtain ⟨x, hx⟩ : ∃ x, x = f2 * a / (2 * f1) := ⟨_, rfl⟩
  obtain ⟨y, hy⟩ : ∃ y, y = a ^ 2 * f3 / (6 * f1) := ⟨_, rfl⟩
  obtain ⟨z, hz⟩ : ∃ z, z = a ^ 2 * x / 12 := ⟨_, rfl⟩
  have hxb : |x| ≤ 0.00175 := by
    rw [hx, abs_div, abs_mul, abs_of_pos (by positivity : 0 < 2 * f1), div_le_iff₀ (by positivity)]
    norm_num at hf2a ⊢
    linarith
  have hyb : |y| ≤ 0.00000103 := by
    rw [hy, abs_div, abs_mul, abs_of_pos (by positivity : 0 < 6 * f1), abs_of_nonneg (sq_nonneg a), div_le_iff₀ (by positivity)]
    have : a ^ 2 * |f3| ≤ a ^ 2 * e := by gcongr
    norm_num at hae ⊢
    linarith
  have hzb : |z| ≤ 0.000000002 := by
    have h1 : a ^ 2 ≤ 0.0035 ^ 2 := by
      rw [← sq_abs a]
      have := ha'
      gcongr
    have h2 := abm (a := a ^ 2) ((abs_of_nonneg (sq_nonneg a)).le.trans h1) hxb
    rw [hz, abs_div, abs_of_pos (by norm_num : (0 : ℝ) < 12)]
    norm_num at h2 ⊢
    linarith
  have hd3d : f1 - 0.5 * f0 * f2 / f1 = f1 * (1 + x) := by
    rw [hf0, hx]
    field_simp
    ring
  obtain ⟨u3, h3⟩ : ∃ u, u = 1 / (1 + x) := ⟨_, rfl⟩
  obtain ⟨u4, h4⟩ : ∃ u, u = 1 / (1 + x * u3 + y * u3 ^ 2) := ⟨_, rfl⟩
  obtain ⟨u5, h5⟩ : ∃ u, u = 1 / (1 + x * u4 + y * u4 ^ 2 - z * u4 ^ 3) := ⟨_, rfl⟩
  obtain ⟨p3, p4, p5, l5, b5, hr⟩ := stages hxb hyb hzb h3 h4 h5
  have hf0' : -f0 = a * f1 := by rw [hf0]; ring
  have hd3 : d3 = a * u3 := by
    simp only [d3]
    rw [hd3d, hf0', h3]
    field_simp
  have hD4 : f1 + 0.5 * d3 * f2 + (d3 * d3) * f3 / 6 = f1 * (1 + x * u3 + y * u3 ^ 2) := by
    rw [hd3, hx, hy]
    field_simp
    ring
  have hd4 : d4 = a * u4 := by
    simp only [d4]
    rw [hD4, hf0', h4]
    rw [mul_comm f1, mul_div_mul_right _ _ hf1.ne', div_eq_mul_one_div]
  have hD5 : D5 = f1 * (1 + x * u4 + y * u4 ^ 2 - z * u4 ^ 3) := by
    simp only [D5]
    rw [hd4, hz, hx, hy]
    field_simp
    ring
  have hdE : -f0 / D5 = a * u5 := by
    rw [hD5, hf0', h5]
    rw [mul_comm f1, mul_div_mul_right _ _ hf1.ne', div_eq_mul_one_div]
  have hu5 : |u5| ≤ 1.002 := by rw [abs_of_nonneg (by norm_num at l5; linarith)]; exact b5
  have hdb : |a * u5| ≤ 1.002 * |a| := by
    rw [abs_mul, mul_comm]
    exact mul_le_mul_of_nonneg_right hu5 ha0
  refine ⟨hf1, by rw [hd3d]; positivity, by rw [hD4]; positivity, by rw [hD5]; positivity, ha, haf', by rw [hdE]; exact hdb, ?_, ?_⟩
  · rw [hdE]
    have hd1 : |a * u5| ≤ 1 := by
      refine hdb.trans ((mul_le_mul_of_nonneg_left ha' (by norm_num)).trans (by norm_num))
    have ht := kepler_taylor (E := E) he0 hd1
    have hmain : E - e * sin E + (1 - e * cos E) * (a * u5) + e * sin E * (a * u5) ^ 2 / 2 + e * cos E * (a * u5) ^ 3 / 6 -
        e * sin E * (a * u5) ^ 4 / 24 - M = a * f1 * (u5 + x * u5 ^ 2 + y * u5 ^ 3 - z * u5 ^ 4 - 1) := by
      have h0 : E - e * sin E - M = -(a * f1) := hf0
      have hx' : e * sin E * a = 2 * (f1 * x) := by
        rw [hx]
        field_simp
        simp only [f2]
        ring
      have hy' : a ^ 2 * (e * cos E) = 6 * (f1 * y) := by
        rw [hy]
        field_simp
        simp only [f3]
        ring
      have hf : 1 - e * cos E = f1 := rfl
      rw [hz, hf]
      linear_combination h0 + (a * u5 ^ 2 / 2 - a ^ 3 * u5 ^ 4 / 24) * hx' + a * u5 ^ 3 / 6 * hy'
    have h5 : e * |a * u5| ^ 5 / 100 ≤ 7.9e-13 * |a| * f1 := by
      have h1 : |a * u5| ^ 5 ≤ (1.002 * |a|) ^ 5 := by gcongr
      have h2 : |a| ^ 2 ≤ 0.0035 ^ 2 := by
        have := ha'
        gcongr
      have h3 : e * |a| ^ 2 ≤ 0.0035 ^ 2 / 2 * f1 := by rw [sq_abs]; exact hae
      calc e * |a * u5| ^ 5 / 100 ≤ e * (1.002 * |a|) ^ 5 / 100 := by gcongr
        _ = 1.002 ^ 5 / 100 * |a| * ((e * |a| ^ 2) * |a| ^ 2) := by ring
        _ ≤ 1.002 ^ 5 / 100 * |a| * ((0.0035 ^ 2 / 2 * f1) * 0.0035 ^ 2) := by gcongr
        _ = (1.002 ^ 5 / 100 * 0.0035 ^ 4 / 2) * (|a| * f1) := by ring
        _ ≤ 7.9e-13 * (|a| * f1) := by gcongr; norm_num
        _ = 7.9e-13 * |a| * f1 := by ring
    have h6 : |a * f1 * (u5 + x * u5 ^ 2 + y * u5 ^ 3 - z * u5 ^ 4 - 1)| ≤ 1.68e-11 * |a| * f1 := by
      have := abm (a := a * f1) (by rw [abs_mul, abs_of_pos hf1]) hr
      linarith
    have h7 : E + a * u5 - e * sin (E + a * u5) - M = (E + a * u5 - e * sin (E + a * u5) -
        (E - e * sin E + (1 - e * cos E) * (a * u5) + e * sin E * (a * u5) ^ 2 / 2 + e * cos E * (a * u5) ^ 3 / 6 -
        e * sin E * (a * u5) ^ 4 / 24)) + a * f1 * (u5 + x * u5 ^ 2 + y * u5 ^ 3 - z * u5 ^ 4 - 1) := by
      linear_combination hmain
    rw [h7]
    refine (abs_add_le _ _).trans ((add_le_add (ht.trans h5) h6).trans ?_)
    have : 0 ≤ |a| * f1 := by positivity
    norm_num
    linarith
  · intro d hd
    have h := kepler_deriv_near (E := E) (d := d) he0
    have h1 := (abs_le.1 h).1
    have h2 : d ^ 2 ≤ (1.01 * |a|) ^ 2 := by
      rw [← sq_abs d]
      gcongr
    have h3 : e * d ^ 2 ≤ 1.01 ^ 2 * (e * a ^ 2) := by
      calc e * d ^ 2 ≤ e * (1.01 * |a|) ^ 2 := by gcongr
        _ = 1.01 ^ 2 * (e * a ^ 2) := by rw [mul_pow, sq_abs]; ring
    have h4 : |e * sin E| * |d| ≤ 1.01 * (|f2| * |a|) := by
      calc |e * sin E| * |d| ≤ |e * sin E| * (1.01 * |a|) := by gcongr
        _ = 1.01 * (|f2| * |a|) := by simp only [f2]; ring
    have h5 : 1 - e * cos E = f1 := rfl
    rw [h5] at h1
    norm_num at *
    linarith

end Jaxoplanet.Kepler
