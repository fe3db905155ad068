import Verif.Proofs.Rotation
import Mathlib.Analysis.Real.Pi.Bounds

/-!
# C46: the axis-angle representations of the projections
-/

namespace Jaxoplanet.Starry

open Spec Real

/-- C46: for every inclination and obliquity, the axis returned by `sky_projection_axis_angle` is a unit vector
and the rotation about it by the returned angle is the rotation by `-obl` about z followed by the rotation by
`inc` about x -/
theorem skyProjection_spec (inc obl : ℝ) : ∃ (n : V3) (t : ℝ),
    skyProjection (some inc) (some obl) = (some n.1, some n.2.1, some n.2.2, some t) ∧ normSq n = 1 ∧
    ∀ p, rotAxis n t p = rotX inc (rotZ (-obl) p) := by
  have hi := sin_sq_add_cos_sq (inc / 2)
  have ho := sin_sq_add_cos_sq (obl / 2)
  have hq : ∀ p, rotX inc (rotZ (-obl) p) = quatRot (cos (inc / 2) * cos (obl / 2)) (sin (inc / 2) * cos (obl / 2))
      (sin (inc / 2) * sin (obl / 2)) (-sin (obl / 2) * cos (inc / 2)) p := by
    intro p
    rw [rotX_eq_quat, rotZ_eq_quat, quatRot_mul, show -obl / 2 = -(obl / 2) by ring, cos_neg, sin_neg]
    congr 1 <;> ring
  unfold skyProjection
  simp only
  generalize sin (inc / 2) = si at *
  generalize cos (inc / 2) = ci at *
  generalize sin (obl / 2) = so at *
  generalize cos (obl / 2) = co at *
  have hsum : (si * co) ^ 2 + (si * so) ^ 2 + (-so * ci) ^ 2 = 1 - ci ^ 2 * co ^ 2 := by
    linear_combination (si ^ 2 + ci ^ 2) * ho + hi
  have hunit : (ci * co) ^ 2 + (si * co) ^ 2 + (si * so) ^ 2 + (-so * ci) ^ 2 = 1 := by linear_combination hsum
  rw [hsum]
  by_cases h0 : 1 - ci ^ 2 * co ^ 2 = 0
  · rw [h0] at hsum ⊢
    refine ⟨(1, 0, 0), 2 * arccos (ci * co), by simp, by simp [normSq], fun p => ?_⟩
    rw [hq]
    have a1 : si * co = 0 := pow_eq_zero_iff (by norm_num) |>.1 (by nlinarith [sq_nonneg (si * co), sq_nonneg (si * so), sq_nonneg (-so * ci)] : (si * co) ^ 2 = 0)
    have a2 : si * so = 0 := pow_eq_zero_iff (by norm_num) |>.1 (by nlinarith [sq_nonneg (si * co), sq_nonneg (si * so), sq_nonneg (-so * ci)] : (si * so) ^ 2 = 0)
    have a3 : -so * ci = 0 := pow_eq_zero_iff (by norm_num) |>.1 (by nlinarith [sq_nonneg (si * co), sq_nonneg (si * so), sq_nonneg (-so * ci)] : (-so * ci) ^ 2 = 0)
    have h1 : √(1 - (ci * co) ^ 2) = 0 := by rw [mul_pow, h0, sqrt_zero]
    exact rotAxis_of_quat hunit _ (by simp [normSq]) (by rw [h1, a1]; simp) (by rw [h1, a2]; simp) (by rw [h1, a3]; simp) p
  · have hpos : 0 < 1 - ci ^ 2 * co ^ 2 := lt_of_le_of_ne (by rw [← hsum]; positivity) (Ne.symm h0)
    have hs := Real.sqrt_pos.2 hpos
    have hsq : √(1 - ci ^ 2 * co ^ 2) ^ 2 = 1 - ci ^ 2 * co ^ 2 := sq_sqrt hpos.le
    rw [if_neg hs.ne', if_pos hs, if_pos hs, if_pos hs]
    generalize hD : √(1 - ci ^ 2 * co ^ 2) = D at *
    have hn : normSq (si * co / D, si * so / D, -so * ci / D) = 1 := by
      unfold normSq
      simp only [div_pow]
      rw [← add_div, ← add_div, hsum, ← hsq, div_self (by positivity)]
    refine ⟨(si * co / D, si * so / D, -so * ci / D), 2 * arccos (ci * co), rfl, hn, fun p => ?_⟩
    rw [hq]
    have h1 : √(1 - (ci * co) ^ 2) = D := by rw [mul_pow, hD]
    refine rotAxis_of_quat hunit _ hn ?_ ?_ ?_ p <;> rw [h1] <;> simp only <;> field_simp

/-- C46: with only the inclination, the rotation is that about x by the inclination; with neither, there is
no rotation -/
theorem skyProjection_single (inc : ℝ) :
    skyProjection (some inc) none = (some 1, none, none, some inc) ∧ skyProjection none none = (some 1, none, none, none) ∧
    ∀ p, rotAxis (1, 0, 0) inc p = rotX inc p := by
  refine ⟨rfl, rfl, fun p => ?_⟩
  unfold rotAxis rotX
  refine Prod.ext ?_ (Prod.ext ?_ ?_) <;> simp only <;> ring

/-- F19: leaving out the inclination is not the same as inclination zero: `sky_projection_axis_angle(None, obl)`
is the rotation by `+obl` about z, `sky_projection_axis_angle(0, obl)` the rotation by `-obl` -/
theorem skyProjection_none_inc (obl : ℝ) :
    skyProjection none (some obl) = (none, none, some 1, some obl) ∧
    (∀ p, rotAxis (0, 0, 1) obl p = rotZ obl p) ∧
    ∃ (n : V3) (t : ℝ), skyProjection (some 0) (some obl) = (some n.1, some n.2.1, some n.2.2, some t) ∧
      ∀ p, rotAxis n t p = rotZ (-obl) p := by
  refine ⟨rfl, fun p => ?_, ?_⟩
  · unfold rotAxis rotZ
    refine Prod.ext ?_ (Prod.ext ?_ ?_) <;> simp only <;> ring
  · obtain ⟨n, t, h1, _, h3⟩ := skyProjection_spec 0 obl
    exact ⟨n, t, h1, fun p => by rw [h3, rotX_zero]⟩

/-- F19, witness: a quarter turn -/
theorem skyProjection_none_inc_differs : ∃ p, rotZ (π / 2) p ≠ rotZ (-(π / 2)) p := by
  refine ⟨(1, 0, 0), ?_⟩
  unfold rotZ
  simp
  norm_num

/-- the quaternion of `full_rotation_axis_angle` -/
theorem full_quat (inc obl theta theta_z : ℝ) (p : V3) :
    rotZ (obl + theta_z) (rotX (-inc) (rotZ theta (rotX (π / 2) p))) =
      quatRot (0.5 * √2 * (sin (inc / 2) * cos (0.5 * (obl - theta + theta_z)) + cos (inc / 2) * cos (0.5 * (obl + theta + theta_z))))
        (0.5 * √2 * (-sin (inc / 2) * cos (0.5 * (obl - theta + theta_z)) + cos (inc / 2) * cos (0.5 * (obl + theta + theta_z))))
        (0.5 * √2 * (-sin (inc / 2) * sin (0.5 * (obl - theta + theta_z)) + sin (0.5 * (obl + theta + theta_z)) * cos (inc / 2)))
        (0.5 * √2 * (sin (inc / 2) * sin (0.5 * (obl - theta + theta_z)) + sin (0.5 * (obl + theta + theta_z)) * cos (inc / 2))) p := by
  rw [rotZ_eq_quat, rotX_eq_quat, rotZ_eq_quat, rotX_eq_quat, quatRot_mul, quatRot_mul, quatRot_mul]
  have e1 : 0.5 * (obl - theta + theta_z) = (obl + theta_z) / 2 - theta / 2 := by ring
  have e2 : 0.5 * (obl + theta + theta_z) = (obl + theta_z) / 2 + theta / 2 := by ring
  have e3 : π / 2 / 2 = π / 4 := by ring
  rw [e1, e2, e3, cos_sub, sin_sub, cos_add, sin_add, cos_pi_div_four, sin_pi_div_four, neg_div, cos_neg, sin_neg]
  congr 1 <;> ring

/-- C46: whenever the composed rotation is not snapped to zero by the `allclose` test, the axis returned by
`full_rotation_axis_angle` is a unit vector and the axis-angle encodes the rotation of the map: by `π/2` about x,
by `theta` about z, by `-inc` about x and by `obl + theta_z` about z -/
theorem fullRotation_spec_partial (eps : ℝ) (inc obl theta theta_z : ℝ)
    (hz : ¬ |0.5 * √2 * (sin (inc / 2) * cos (0.5 * (obl - theta + theta_z)) +
      cos (inc / 2) * cos (0.5 * (obl + theta + theta_z))) - 1| ≤ eps + 1e-5 * |(1 : ℝ)|) :
    ∃ (n : V3) (t : ℝ),
      fullRotation eps (some inc) (some obl) (some theta) (some theta_z) = (n.1, n.2.1, n.2.2, t) ∧ normSq n = 1 ∧
      ∀ p, rotAxis n t p = rotZ (obl + theta_z) (rotX (-inc) (rotZ theta (rotX (π / 2) p))) := by
  have hq := full_quat inc obl theta theta_z
  have hi := sin_sq_add_cos_sq (inc / 2)
  have hm := sin_sq_add_cos_sq (0.5 * (obl - theta + theta_z))
  have hp := sin_sq_add_cos_sq (0.5 * (obl + theta + theta_z))
  have h2 : (√2 : ℝ) ^ 2 = 2 := sq_sqrt (by norm_num)
  unfold fullRotation
  simp only [Option.getD_some]
  generalize sin (inc / 2) = si at *
  generalize cos (inc / 2) = ci at *
  generalize sin (0.5 * (obl - theta + theta_z)) = sm at *
  generalize cos (0.5 * (obl - theta + theta_z)) = cm at *
  generalize sin (0.5 * (obl + theta + theta_z)) = sp at *
  generalize cos (0.5 * (obl + theta + theta_z)) = cp at *
  simp only [hz, if_false, not_false_eq_true, and_true]
  have hunit : (0.5 * √2 * (si * cm + ci * cp)) ^ 2 + (0.5 * √2 * (-si * cm + ci * cp)) ^ 2 +
      (0.5 * √2 * (-si * sm + sp * ci)) ^ 2 + (0.5 * √2 * (si * sm + sp * ci)) ^ 2 = 1 := by
    have : (0.5 * √2 * (si * cm + ci * cp)) ^ 2 + (0.5 * √2 * (-si * cm + ci * cp)) ^ 2 +
      (0.5 * √2 * (-si * sm + sp * ci)) ^ 2 + (0.5 * √2 * (si * sm + sp * ci)) ^ 2 =
      0.25 * √2 ^ 2 * (2 * (si ^ 2 * (sm ^ 2 + cm ^ 2) + ci ^ 2 * (sp ^ 2 + cp ^ 2))) := by ring
    rw [this, h2, hm, hp]
    linear_combination hi
  have hw2 : (0.5 * √2 * (si * cm + ci * cp)) ^ 2 = 0.5 * (si * cm + ci * cp) ^ 2 := by
    have : (0.5 * √2 * (si * cm + ci * cp)) ^ 2 = 0.25 * √2 ^ 2 * (si * cm + ci * cp) ^ 2 := by ring
    rw [this, h2]; ring
  by_cases h : (si * cm + ci * cp) ^ 2 < 2
  · simp only [h, if_true]
    have hpos : 0 < 1 - 0.5 * (si * cm + ci * cp) ^ 2 := by linarith
    have hs := Real.sqrt_pos.2 hpos
    have hsq : √(1 - 0.5 * (si * cm + ci * cp) ^ 2) ^ 2 = 1 - 0.5 * (si * cm + ci * cp) ^ 2 := sq_sqrt hpos.le
    have h1 : √(1 - (0.5 * √2 * (si * cm + ci * cp)) ^ 2) = √(1 - 0.5 * (si * cm + ci * cp) ^ 2) := by rw [hw2]
    generalize hD : √(1 - 0.5 * (si * cm + ci * cp) ^ 2) = D at *
    have hn : normSq (0.5 * √2 * (-si * cm + ci * cp) / D, 0.5 * √2 * (-si * sm + sp * ci) / D,
        0.5 * √2 * (si * sm + sp * ci) / D) = 1 := by
      unfold normSq
      simp only [div_pow]
      rw [← add_div, ← add_div, div_eq_one_iff_eq (by positivity), hsq, ← hw2]
      linarith
    refine ⟨(0.5 * √2 * (-si * cm + ci * cp) / D, 0.5 * √2 * (-si * sm + sp * ci) / D,
        0.5 * √2 * (si * sm + sp * ci) / D), _, rfl, hn, fun p => ?_⟩
    rw [hq]
    refine rotAxis_of_quat hunit _ hn ?_ ?_ ?_ p <;> rw [h1] <;> simp only <;> field_simp
  · simp only [h, if_false]
    refine ⟨(1, 0, 0), _, rfl, by simp [normSq], fun p => ?_⟩
    rw [hq]
    have hge : 1 ≤ (0.5 * √2 * (si * cm + ci * cp)) ^ 2 := by rw [hw2]; linarith
    have a1 : (0.5 * √2 * (-si * cm + ci * cp)) ^ 2 = 0 := by nlinarith [sq_nonneg (0.5 * √2 * (-si * cm + ci * cp)), sq_nonneg (0.5 * √2 * (-si * sm + sp * ci)), sq_nonneg (0.5 * √2 * (si * sm + sp * ci))]
    have a2 : (0.5 * √2 * (-si * sm + sp * ci)) ^ 2 = 0 := by nlinarith [sq_nonneg (0.5 * √2 * (-si * cm + ci * cp)), sq_nonneg (0.5 * √2 * (-si * sm + sp * ci)), sq_nonneg (0.5 * √2 * (si * sm + sp * ci))]
    have a3 : (0.5 * √2 * (si * sm + sp * ci)) ^ 2 = 0 := by nlinarith [sq_nonneg (0.5 * √2 * (-si * cm + ci * cp)), sq_nonneg (0.5 * √2 * (-si * sm + sp * ci)), sq_nonneg (0.5 * √2 * (si * sm + sp * ci))]
    have b1 := pow_eq_zero_iff (by norm_num) |>.1 a1
    have b2 := pow_eq_zero_iff (by norm_num) |>.1 a2
    have b3 := pow_eq_zero_iff (by norm_num) |>.1 a3
    have hs0 : √(1 - (0.5 * √2 * (si * cm + ci * cp)) ^ 2) = 0 := Real.sqrt_eq_zero_of_nonpos (by linarith)
    exact rotAxis_of_quat hunit _ (by simp [normSq]) (by rw [hs0, b1]; simp) (by rw [hs0, b2]; simp)
      (by rw [hs0, b3]; simp) p

/-- F13: a rotation close to (but not equal to) the identity is snapped to the identity: with inclination
`π/2 + 0.004` and everything else zero the map is tilted, but the returned angle is zero -/
theorem fullRotation_snaps (eps : ℝ) (heps : 0 ≤ eps) :
    (fullRotation eps (some (π / 2 + 0.004)) (some 0) (some 0) (some 0)).2.2.2 = 0 ∧
    ∃ p, rotZ (0 + 0) (rotX (-(π / 2 + 0.004)) (rotZ 0 (rotX (π / 2) p))) ≠ p := by
  constructor
  · unfold fullRotation
    simp only [Option.getD_some]
    rw [if_pos]
    have h1 : (0.5 : ℝ) * (0 - 0 + 0) = 0 := by norm_num
    have h2 : (0.5 : ℝ) * (0 + 0 + 0) = 0 := by norm_num
    rw [h1, h2, cos_zero, mul_one, mul_one]
    have h3 : 0.5 * √2 * (sin ((π / 2 + 0.004) / 2) + cos ((π / 2 + 0.004) / 2)) = cos 0.002 := by
      have : (0.002 : ℝ) = (π / 2 + 0.004) / 2 - π / 4 := by ring
      rw [this, cos_sub, cos_pi_div_four, sin_pi_div_four]
      ring
    rw [h3]
    have h4 := cos_le_one (0.002 : ℝ)
    have h5 := one_sub_sq_div_two_le_cos (x := 0.002)
    rw [abs_le, abs_one]
    constructor
    · norm_num at h5 ⊢; linarith
    · norm_num at h5 ⊢; linarith
  · refine ⟨(0, 1, 0), fun h => ?_⟩
    have h1 := congrArg (fun v : V3 => v.2.2) h
    simp only [rotZ, rotX, cos_zero, sin_zero, cos_pi_div_two, sin_pi_div_two] at h1
    have h2 : sin (-(π / 2 + 0.004)) = -cos 0.004 := by rw [sin_neg, add_comm, sin_add_pi_div_two]
    have h3 : cos (-(π / 2 + 0.004)) = -sin 0.004 := by rw [cos_neg, add_comm, cos_add_pi_div_two]
    rw [h2, h3] at h1
    have h4 : 0 < sin (0.004 : ℝ) := sin_pos_of_pos_of_lt_pi (by norm_num) (by linarith [pi_gt_three])
    norm_num at h1
    linarith

/-- an inclined and tilted map: the hypothesis of `fullRotation_spec_partial` holds for `inc = 0`, all else zero -/
example : ¬ |0.5 * √2 * (sin ((0 : ℝ) / 2) * cos (0.5 * ((0 : ℝ) - 0 + 0)) +
      cos ((0 : ℝ) / 2) * cos (0.5 * ((0 : ℝ) + 0 + 0))) - 1| ≤ (2e-16 : ℝ) + 1e-5 * |(1 : ℝ)| := by
  have h : √2 < 1.5 := by rw [Real.sqrt_lt' (by norm_num)]; norm_num
  simp only [zero_div, sin_zero, cos_zero, sub_zero, add_zero, mul_zero, zero_add, mul_one, abs_one]
  rw [not_le, lt_abs]
  right
  norm_num
  linarith

end Jaxoplanet.Starry
