import Verif.Model.Rotation
import Verif.Spec.Rotation
import Mathlib.Analysis.SpecialFunctions.Complex.Arg

/-!
# Rotations and quaternions
-/

namespace Jaxoplanet.Starry

open Spec Real

/-- rotation by the quaternion `w + x i + y j + z k` -/
def quatRot (w x y z : ℝ) (v : V3) : V3 :=
  let d := x * v.1 + y * v.2.1 + z * v.2.2
  let e := w ^ 2 - x ^ 2 - y ^ 2 - z ^ 2
  (e * v.1 + 2 * w * (y * v.2.2 - z * v.2.1) + 2 * x * d,
   e * v.2.1 + 2 * w * (z * v.1 - x * v.2.2) + 2 * y * d,
   e * v.2.2 + 2 * w * (x * v.2.1 - y * v.1) + 2 * z * d)

theorem rotAxis_eq_quat (n : V3) (t : ℝ) (hn : normSq n = 1) (v : V3) :
    rotAxis n t v = quatRot (cos (t / 2)) (n.1 * sin (t / 2)) (n.2.1 * sin (t / 2)) (n.2.2 * sin (t / 2)) v := by
  have h1 : cos t = 2 * cos (t / 2) ^ 2 - 1 := by rw [← cos_two_mul]; congr 1; ring
  have h2 : sin t = 2 * sin (t / 2) * cos (t / 2) := by rw [← sin_two_mul]; congr 1; ring
  have h3 := sin_sq_add_cos_sq (t / 2)
  unfold normSq at hn
  unfold rotAxis quatRot
  simp only [h1, h2]
  generalize cos (t / 2) = w at *
  generalize sin (t / 2) = S at *
  obtain ⟨a, b, c⟩ := n
  obtain ⟨x, y, z⟩ := v
  simp only at hn ⊢
  refine Prod.ext ?_ (Prod.ext ?_ ?_) <;> simp only
  · linear_combination (x * S ^ 2) * hn + (x - 2 * a * (a * x + b * y + c * z)) * h3
  · linear_combination (y * S ^ 2) * hn + (y - 2 * b * (a * x + b * y + c * z)) * h3
  · linear_combination (z * S ^ 2) * hn + (z - 2 * c * (a * x + b * y + c * z)) * h3

theorem rotX_eq_quat (t : ℝ) (v : V3) : rotX t v = quatRot (cos (t / 2)) (sin (t / 2)) 0 0 v := by
  have h1 : cos t = 2 * cos (t / 2) ^ 2 - 1 := by rw [← cos_two_mul]; congr 1; ring
  have h2 : sin t = 2 * sin (t / 2) * cos (t / 2) := by rw [← sin_two_mul]; congr 1; ring
  have h3 := sin_sq_add_cos_sq (t / 2)
  unfold rotX quatRot
  simp only [h1, h2]
  refine Prod.ext ?_ (Prod.ext ?_ ?_) <;> simp only
  · linear_combination (-v.1) * h3
  · linear_combination v.2.1 * h3
  · linear_combination v.2.2 * h3

theorem rotY_eq_quat (t : ℝ) (v : V3) : rotY t v = quatRot (cos (t / 2)) 0 (sin (t / 2)) 0 v := by
  have h1 : cos t = 2 * cos (t / 2) ^ 2 - 1 := by rw [← cos_two_mul]; congr 1; ring
  have h2 : sin t = 2 * sin (t / 2) * cos (t / 2) := by rw [← sin_two_mul]; congr 1; ring
  have h3 := sin_sq_add_cos_sq (t / 2)
  unfold rotY quatRot
  simp only [h1, h2]
  refine Prod.ext ?_ (Prod.ext ?_ ?_) <;> simp only
  · linear_combination v.1 * h3
  · linear_combination (-v.2.1) * h3
  · linear_combination v.2.2 * h3

theorem rotZ_eq_quat (t : ℝ) (v : V3) : rotZ t v = quatRot (cos (t / 2)) 0 0 (sin (t / 2)) v := by
  have h1 : cos t = 2 * cos (t / 2) ^ 2 - 1 := by rw [← cos_two_mul]; congr 1; ring
  have h2 : sin t = 2 * sin (t / 2) * cos (t / 2) := by rw [← sin_two_mul]; congr 1; ring
  have h3 := sin_sq_add_cos_sq (t / 2)
  unfold rotZ quatRot
  simp only [h1, h2]
  refine Prod.ext ?_ (Prod.ext ?_ ?_) <;> simp only
  · linear_combination v.1 * h3
  · linear_combination v.2.1 * h3
  · linear_combination (-v.2.2) * h3

/-- composition of rotations is the product of quaternions -/
theorem quatRot_mul (w x y z w' x' y' z' : ℝ) (v : V3) :
    quatRot w x y z (quatRot w' x' y' z' v) =
      quatRot (w * w' - x * x' - y * y' - z * z') (w * x' + x * w' + y * z' - z * y')
        (w * y' - x * z' + y * w' + z * x') (w * z' + x * y' - y * x' + z * w') v := by
  unfold quatRot
  refine Prod.ext ?_ (Prod.ext ?_ ?_) <;> simp only <;> ring

theorem quatRot_neg (w x y z : ℝ) (v : V3) : quatRot (-w) (-x) (-y) (-z) v = quatRot w x y z v := by
  unfold quatRot
  refine Prod.ext ?_ (Prod.ext ?_ ?_) <;> simp only <;> ring

theorem normSq_quatRot (w x y z : ℝ) (h : w ^ 2 + x ^ 2 + y ^ 2 + z ^ 2 = 1) (v : V3) :
    normSq (quatRot w x y z v) = normSq v := by
  have : normSq (quatRot w x y z v) = (w ^ 2 + x ^ 2 + y ^ 2 + z ^ 2) ^ 2 * normSq v := by
    unfold quatRot normSq; simp only; ring
  rw [this, h]; ring

theorem rotZ_sphere (t : ℝ) {p : V3} (h : OnSphere p) : OnSphere (rotZ t p) := by
  unfold OnSphere at *
  rw [rotZ_eq_quat, normSq_quatRot _ _ _ _ (by nlinarith [sin_sq_add_cos_sq (t / 2)]), h]

theorem rotX_sphere (t : ℝ) {p : V3} (h : OnSphere p) : OnSphere (rotX t p) := by
  unfold OnSphere at *
  rw [rotX_eq_quat, normSq_quatRot _ _ _ _ (by nlinarith [sin_sq_add_cos_sq (t / 2)]), h]

theorem rotY_sphere (t : ℝ) {p : V3} (h : OnSphere p) : OnSphere (rotY t p) := by
  unfold OnSphere at *
  rw [rotY_eq_quat, normSq_quatRot _ _ _ _ (by nlinarith [sin_sq_add_cos_sq (t / 2)]), h]

theorem rotAxis_sphere (n : V3) (hn : normSq n = 1) (t : ℝ) {p : V3} (h : OnSphere p) : OnSphere (rotAxis n t p) := by
  unfold OnSphere at *
  rw [rotAxis_eq_quat n t hn, normSq_quatRot, h]
  unfold normSq at hn
  linear_combination (sin (t / 2) ^ 2) * hn + sin_sq_add_cos_sq (t / 2)

theorem rotAxis_zero (n : V3) (v : V3) : rotAxis n 0 v = v := by
  unfold rotAxis
  refine Prod.ext ?_ (Prod.ext ?_ ?_) <;> simp

theorem rotZ_zero (v : V3) : rotZ 0 v = v := by
  unfold rotZ
  refine Prod.ext ?_ (Prod.ext ?_ ?_) <;> simp

theorem rotX_zero (v : V3) : rotX 0 v = v := by
  unfold rotX
  refine Prod.ext ?_ (Prod.ext ?_ ?_) <;> simp

theorem rotY_zero (v : V3) : rotY 0 v = v := by
  unfold rotY
  refine Prod.ext ?_ (Prod.ext ?_ ?_) <;> simp

/-- rotation by an axis and angle that encode the unit quaternion `(w, x, y, z)` -/
theorem rotAxis_of_quat {w x y z : ℝ} (h : w ^ 2 + x ^ 2 + y ^ 2 + z ^ 2 = 1) (n : V3) (hn : normSq n = 1)
    (hx : n.1 * √(1 - w ^ 2) = x) (hy : n.2.1 * √(1 - w ^ 2) = y) (hz : n.2.2 * √(1 - w ^ 2) = z) (v : V3) :
    rotAxis n (2 * arccos w) v = quatRot w x y z v := by
  have hw : w ^ 2 ≤ 1 := by nlinarith
  have h1 : -1 ≤ w := by nlinarith
  have h2 : w ≤ 1 := by nlinarith
  rw [rotAxis_eq_quat n _ hn, show 2 * arccos w / 2 = arccos w by ring, cos_arccos h1 h2, sin_arccos, hx, hy, hz]

theorem polar_form (a b : ℝ) : ∃ r t : ℝ, 0 ≤ r ∧ r ^ 2 = a ^ 2 + b ^ 2 ∧ a = r * cos t ∧ b = r * sin t := by
  refine ⟨‖(⟨a, b⟩ : ℂ)‖, Complex.arg ⟨a, b⟩, norm_nonneg _, ?_, ?_, ?_⟩
  · rw [Complex.sq_norm, Complex.normSq_mk]; ring
  · exact (Complex.norm_mul_cos_arg (⟨a, b⟩ : ℂ)).symm
  · exact (Complex.norm_mul_sin_arg (⟨a, b⟩ : ℂ)).symm

/-- every rotation has zyz Euler angles -/
theorem exists_euler (w x y z : ℝ) (h : w ^ 2 + x ^ 2 + y ^ 2 + z ^ 2 = 1) :
    ∃ e : V3, ∀ v, rotZ e.2.2 (rotY e.2.1 (rotZ e.1 v)) = quatRot w x y z v := by
  obtain ⟨C, s, hC0, hC, hw, hz⟩ := polar_form w z
  obtain ⟨S, d, hS0, hS, hy, hx⟩ := polar_form y (-x)
  have hCS : C ^ 2 + S ^ 2 = 1 := by rw [hC, hS]; linarith
  refine ⟨(s - d, 2 * arccos C, s + d), fun v => ?_⟩
  have c1 : cos (2 * arccos C / 2) = C := by
    rw [show 2 * arccos C / 2 = arccos C by ring]
    exact cos_arccos (by linarith) (by nlinarith)
  have s1 : sin (2 * arccos C / 2) = S := by
    rw [show 2 * arccos C / 2 = arccos C by ring, sin_arccos, show 1 - C ^ 2 = S ^ 2 by linarith, sqrt_sq hS0]
  rw [rotZ_eq_quat, rotY_eq_quat, rotZ_eq_quat]
  simp only
  rw [quatRot_mul, quatRot_mul, c1, s1]
  have hs : s = (s + d) / 2 + (s - d) / 2 := by ring
  have hd : d = (s + d) / 2 - (s - d) / 2 := by ring
  have cs : cos s = cos ((s + d) / 2) * cos ((s - d) / 2) - sin ((s + d) / 2) * sin ((s - d) / 2) := by
    rw [← cos_add]; congr 1
  have ss : sin s = sin ((s + d) / 2) * cos ((s - d) / 2) + cos ((s + d) / 2) * sin ((s - d) / 2) := by
    rw [← sin_add]; congr 1
  have cd : cos d = cos ((s + d) / 2) * cos ((s - d) / 2) + sin ((s + d) / 2) * sin ((s - d) / 2) := by
    rw [← cos_sub]; congr 1
  have sd : sin d = sin ((s + d) / 2) * cos ((s - d) / 2) - cos ((s + d) / 2) * sin ((s - d) / 2) := by
    rw [← sin_sub]; congr 1
  congr 1
  · rw [hw, cs]; ring
  · rw [show x = -(S * sin d) by linarith, sd]; ring
  · rw [hy, cd]; ring
  · rw [hz, ss]; ring

/-- Euler angles as required by `IsEulerZYZ` exist -/
theorem exists_isEulerZYZ : ∃ f : V3 → V3, IsEulerZYZ f := by
  classical
  have key : ∀ r : V3, ∃ e : V3, ∀ (n : V3) (t : ℝ), normSq n = 1 → r = (n.1 * t, n.2.1 * t, n.2.2 * t) →
      ∀ p, rotZ e.2.2 (rotY e.2.1 (rotZ e.1 p)) = rotAxis n t p := by
    intro r
    by_cases hr : ∃ (n : V3) (t : ℝ), normSq n = 1 ∧ r = (n.1 * t, n.2.1 * t, n.2.2 * t)
    · obtain ⟨n, t, hn, rfl⟩ := hr
      obtain ⟨e, he⟩ := exists_euler (cos (t / 2)) (n.1 * sin (t / 2)) (n.2.1 * sin (t / 2)) (n.2.2 * sin (t / 2)) (by
        unfold normSq at hn
        linear_combination (sin (t / 2) ^ 2) * hn + sin_sq_add_cos_sq (t / 2))
      refine ⟨e, fun n' t' hn' heq p => ?_⟩
      rw [he, ← rotAxis_eq_quat n t hn]
      obtain ⟨a, b, c⟩ := n
      obtain ⟨a', b', c'⟩ := n'
      simp only [Prod.mk.injEq] at heq
      unfold normSq at hn hn'
      simp only at hn hn'
      obtain ⟨h1, h2, h3⟩ := heq
      have ht : t ^ 2 = t' ^ 2 := by
        have : (a * t) ^ 2 + (b * t) ^ 2 + (c * t) ^ 2 = (a' * t') ^ 2 + (b' * t') ^ 2 + (c' * t') ^ 2 := by rw [h1, h2, h3]
        linear_combination this - t ^ 2 * hn + t' ^ 2 * hn'
      by_cases t0 : t = 0
      · have : t' = 0 := by
          rw [t0] at ht
          have : t' ^ 2 = 0 := by linarith
          exact pow_eq_zero_iff (by norm_num) |>.1 this
        rw [t0, this, rotAxis_zero, rotAxis_zero]
      · rcases sq_eq_sq_iff_eq_or_eq_neg.1 ht with h | h
        · rw [← h] at h1 h2 h3
          have ea := mul_right_cancel₀ t0 h1
          have eb := mul_right_cancel₀ t0 h2
          have ec := mul_right_cancel₀ t0 h3
          rw [ea, eb, ec, h]
        · have h' : t' = -t := by linarith
          rw [h'] at h1 h2 h3
          have ea : a = -a' := mul_right_cancel₀ t0 (by linarith)
          have eb : b = -b' := mul_right_cancel₀ t0 (by linarith)
          have ec : c = -c' := mul_right_cancel₀ t0 (by linarith)
          rw [ea, eb, ec, h']
          unfold rotAxis
          simp only [cos_neg, sin_neg]
          refine Prod.ext ?_ (Prod.ext ?_ ?_) <;> simp only <;> ring
    · refine ⟨0, fun n t hn heq => absurd ⟨n, t, hn, heq⟩ hr⟩
  choose f hf using key
  exact ⟨f, fun n t hn p => hf _ n t hn rfl p⟩

end Jaxoplanet.Starry
