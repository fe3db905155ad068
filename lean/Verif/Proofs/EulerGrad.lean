import Verif.Spec.EulerGrad
import Verif.Proofs.InclGrad

/-!
# Euler angles with their derivatives exist

The formulas of `jax.scipy.spatial.transform.Rotation.as_euler`, with exact real numbers: the half angles of the quaternion.
-/

namespace Jaxoplanet.Starry
open _root_.Jaxoplanet.Starry.Spec
open Real AD Filter Topology
open AD.Dual hiding cos sin sqrt abs

variable {t : ℝ}

/-- zyz Euler angles from the polar forms of two pairs of components of the quaternion -/
theorem euler_of_polar {w x y z C S s d : ℝ} (hC0 : 0 ≤ C) (hS0 : 0 ≤ S) (hCS : C ^ 2 + S ^ 2 = 1) (hw : w = C * cos s) (hz : z = C * sin s) (hy : y = S * cos d) (hx : -x = S * sin d) (v : V3) :
    rotZ (s + d) (rotY (2 * arccos C) (rotZ (s - d) v)) = quatRot w x y z v := by
  have c1 : cos (2 * arccos C / 2) = C := by
    rw [show 2 * arccos C / 2 = arccos C by ring]
    exact cos_arccos (by linarith) (by nlinarith)
  have s1 : sin (2 * arccos C / 2) = S := by
    rw [show 2 * arccos C / 2 = arccos C by ring, sin_arccos, show 1 - C ^ 2 = S ^ 2 by linarith, sqrt_sq hS0]
  rw [rotZ_eq_quat, rotY_eq_quat, rotZ_eq_quat]
  rw [quatRot_mul, quatRot_mul, c1, s1]
  have cs : cos s = cos ((s + d) / 2) * cos ((s - d) / 2) - sin ((s + d) / 2) * sin ((s - d) / 2) := by
    rw [← cos_add]; congr 1; ring
  have ss : sin s = sin ((s + d) / 2) * cos ((s - d) / 2) + cos ((s + d) / 2) * sin ((s - d) / 2) := by
    rw [← sin_add]; congr 1; ring
  have cd : cos d = cos ((s + d) / 2) * cos ((s - d) / 2) + sin ((s + d) / 2) * sin ((s - d) / 2) := by
    rw [← cos_sub]; congr 1; ring
  have sd : sin d = sin ((s + d) / 2) * cos ((s - d) / 2) - cos ((s + d) / 2) * sin ((s - d) / 2) := by
    rw [← sin_sub]; congr 1; ring
  congr 1
  · rw [hw, cs]; ring
  · rw [show x = -(S * sin d) by linarith, sd]; ring
  · rw [hy, cd]; ring
  · rw [hz, ss]; ring

/-- the angles from the quaternion -/
noncomputable def quatEuler (w x y z : ℝ) : V3 :=
  (arctan2 z w - arctan2 (-x) y, 2 * arccos √(z ^ 2 + w ^ 2), arctan2 z w + arctan2 (-x) y)

theorem quatEuler_spec {w x y z : ℝ} (h : w ^ 2 + x ^ 2 + y ^ 2 + z ^ 2 = 1) (v : V3) :
    rotZ (quatEuler w x y z).2.2 (rotY (quatEuler w x y z).2.1 (rotZ (quatEuler w x y z).1 v)) = quatRot w x y z v := by
  obtain ⟨h1, h2⟩ := arctan2_norm z w
  obtain ⟨h3, h4⟩ := arctan2_norm (-x) y
  exact euler_of_polar (S := √((-x) ^ 2 + y ^ 2)) (sqrt_nonneg _) (sqrt_nonneg _) (by rw [sq_sqrt (by positivity), sq_sqrt (by positivity)]; linarith) h2.symm h1.symm h4.symm h3.symm v

/-- the Euler angles of a rotation vector -/
noncomputable def eulerOf (v : V3) : V3 :=
  let a := √(v.1 ^ 2 + v.2.1 ^ 2 + v.2.2 ^ 2)
  quatEuler (cos (a / 2)) (v.1 * (sin (a / 2) / a)) (v.2.1 * (sin (a / 2) / a)) (v.2.2 * (sin (a / 2) / a))

/-- the same with derivatives -/
noncomputable def eulerOfD (v : Dual × Dual × Dual) : Dual × Dual × Dual :=
  let a := (v.1.square + v.2.1.square + v.2.2.square).sqrt
  let k := (a / const 2).sin / a
  let w := (a / const 2).cos
  let x := v.1 * k
  let y := v.2.1 * k
  let z := v.2.2 * k
  (Dual.atan2 z w - Dual.atan2 (-x) y, const 2 * arccosD (z.square + w.square).sqrt, Dual.atan2 z w + Dual.atan2 (-x) y)

theorem euler_half_angle (th : ℝ) : cos (|th| / 2) = cos (th / 2) ∧ th * (sin (|th| / 2) / |th|) = sin (th / 2) := by
  constructor
  · rcases abs_choice th with h | h <;> rw [h]
    rw [neg_div, cos_neg]
  · rcases eq_or_ne th 0 with rfl | h0
    · simp
    · rcases abs_choice th with h | h <;> rw [h]
      · field_simp
      · rw [neg_div, sin_neg]
        field_simp

theorem norm_rotvec {n : V3} (hn : normSq n = 1) (th : ℝ) : √((n.1 * th) ^ 2 + (n.2.1 * th) ^ 2 + (n.2.2 * th) ^ 2) = |th| := by
  unfold normSq at hn
  rw [show (n.1 * th) ^ 2 + (n.2.1 * th) ^ 2 + (n.2.2 * th) ^ 2 = (n.1 ^ 2 + n.2.1 ^ 2 + n.2.2 ^ 2) * th ^ 2 by ring, hn, one_mul, sqrt_sq_eq_abs]

theorem eulerOf_quat {n : V3} (hn : normSq n = 1) (th : ℝ) : eulerOf (n.1 * th, n.2.1 * th, n.2.2 * th) =
    quatEuler (cos (th / 2)) (n.1 * sin (th / 2)) (n.2.1 * sin (th / 2)) (n.2.2 * sin (th / 2)) := by
  unfold eulerOf
  simp only [norm_rotvec hn]
  rw [(euler_half_angle th).1, mul_assoc, mul_assoc, mul_assoc, (euler_half_angle th).2]

theorem eulerOf_isEuler : IsEulerZYZ eulerOf := by
  intro n th hn p
  rw [eulerOf_quat hn, quatEuler_spec, rotAxis_eq_quat n th hn]
  unfold normSq at hn
  linear_combination (sin (th / 2) ^ 2) * hn + sin_sq_add_cos_sq (th / 2)

/-- `arctan2` up to a multiple of 2π -/
theorem track_atan2_lift {f g : ℝ → ℝ} {a b : Dual} (hf : Tracks f t a) (hg : Tracks g t b) (h : ¬ (a.v = 0 ∧ b.v = 0)) :
    ∃ F : ℝ → ℝ, Tracks F t (Dual.atan2 a b) ∧ ∀ s, ¬ (f s = 0 ∧ g s = 0) → ∃ k : ℤ, arctan2 (f s) (g s) = F s + k * (2 * π) := by
  by_cases h1 : 0 < b.v ∨ a.v ≠ 0
  · exact ⟨_, track_atan2 hf hg h1, fun s _ => ⟨0, by simp⟩⟩
  push Not at h1
  have hb : b.v < 0 := lt_of_le_of_ne h1.1 fun hb => h ⟨h1.2, hb⟩
  have hn := track_atan2 (track_neg hf) (track_neg hg) (Or.inl (by simpa using hb))
  have hneg : ∀ x y : ℝ, ¬ (x = 0 ∧ y = 0) → ∃ k : ℤ, arctan2 x y = arctan2 (-x) (-y) + π + k * (2 * π) := by
    intro x y hxy
    have hz : (⟨y, x⟩ : ℂ) ≠ 0 := by
      intro h0
      exact hxy ⟨congrArg Complex.im h0, congrArg Complex.re h0⟩
    have e := Complex.arg_neg_coe_angle hz
    have e' : ((Complex.arg ⟨y, x⟩ : ℝ) : Real.Angle) = ((arctan2 (-x) (-y) + π : ℝ) : Real.Angle) := by
      have : (-(⟨y, x⟩ : ℂ)) = ⟨-y, -x⟩ := by apply Complex.ext <;> simp
      rw [this] at e
      unfold arctan2
      rw [Real.Angle.coe_add, e, add_assoc, Real.Angle.coe_pi_add_coe_pi, add_zero]
    obtain ⟨k, hk⟩ := Real.Angle.angle_eq_iff_two_pi_dvd_sub.1 e'
    exact ⟨k, by unfold arctan2 at hk ⊢; linarith⟩
  obtain ⟨k0, hk0⟩ := hneg a.v b.v h
  refine ⟨fun s => arctan2 (-f s) (-g s) + (π + k0 * (2 * π)), ?_, fun s hs => ?_⟩
  · obtain ⟨v, d, e, g'⟩ := track_add hn (track_const (π + k0 * (2 * π)) t)
    refine ⟨?_, d, ?_, g'⟩
    · rw [v]
      simp only [add_v, atan2_v, neg_v, const_v]
      linarith
    · rw [← e]
      obtain ⟨-, da, ea, -⟩ := hf
      obtain ⟨-, db, eb, -⟩ := hg
      change (Dual.atan2 a b).d = plus (Dual.atan2 (-a) (-b)).d (some 0)
      unfold Dual.atan2
      simp only
      rw [if_neg h, if_neg (by simpa using h)]
      have n1 : (-a).d = lin (some (-1)) a.d := rfl
      have n2 : (-b).d = lin (some (-1)) b.d := rfl
      rw [n1, n2, ea, eb]
      simp only [lin, plus, Option.map₂_some_some, neg_v, neg_sq]
      congr 1
      ring
  · obtain ⟨k, hk⟩ := hneg (f s) (g s) hs
    exact ⟨k - k0, by rw [hk]; push_cast; ring⟩

/-- the Euler angles of a family of quaternions -/
theorem track_quatEuler {fw fx fy fz : ℝ → ℝ} {w x y z : Dual} (hw : Tracks fw t w) (hx : Tracks fx t x) (hy : Tracks fy t y) (hz : Tracks fz t z)
    (hu : w.v ^ 2 + x.v ^ 2 + y.v ^ 2 + z.v ^ 2 = 1) (h0 : w.v ^ 2 + z.v ^ 2 ≠ 0) (h1 : w.v ^ 2 + z.v ^ 2 ≠ 1) :
    ∃ α β γ : ℝ → ℝ, Tracks α t (Dual.atan2 z w - Dual.atan2 (-x) y) ∧ Tracks β t (const 2 * arccosD (z.square + w.square).sqrt) ∧
      Tracks γ t (Dual.atan2 z w + Dual.atan2 (-x) y) ∧
      ∀ᶠ s in 𝓝 t, ∃ k l : ℤ, quatEuler (fw s) (fx s) (fy s) (fz s) = (α s + k * (2 * π), β s, γ s + l * (2 * π)) := by
  have hzw : ¬ (z.v = 0 ∧ w.v = 0) := by
    rintro ⟨h, h'⟩
    exact h0 (by rw [h, h']; ring)
  have hxy : ¬ ((-x).v = 0 ∧ y.v = 0) := by
    rintro ⟨h, h'⟩
    have : x.v = 0 := by simpa using h
    rw [this, h'] at hu
    exact h1 (by linarith)
  obtain ⟨F, hF, hF'⟩ := track_atan2_lift hz hw hzw
  obtain ⟨G, hG, hG'⟩ := track_atan2_lift (track_neg hx) hy hxy
  have hsq := track_add (track_square hz) (track_square hw)
  have hpos : 0 < (z.square + w.square).v := by
    simp only [add_v, square_v]
    exact lt_of_le_of_ne (by positivity) fun h => h0 (by rw [add_comm]; exact h.symm)
  have hC := track_sqrt hsq hpos
  have hlt : (z.square + w.square).v < 1 := by
    simp only [add_v, square_v]
    refine lt_of_le_of_ne ?_ fun h => h1 (by rw [add_comm]; exact h)
    nlinarith [sq_nonneg x.v, sq_nonneg y.v]
  have hβ := track_mul (track_const 2 t) (track_arccos hC (lt_of_lt_of_le (by norm_num) (Real.sqrt_nonneg _)) (by
    simp only [sqrt_v]
    rw [Real.sqrt_lt' one_pos]
    simpa using hlt))
  refine ⟨_, _, _, track_sub hF hG, hβ, track_add hF hG, ?_⟩
  have e1 : ∀ᶠ s in 𝓝 t, ¬ (fz s = 0 ∧ fw s = 0) := by
    have : ∀ᶠ s in 𝓝 t, fz s ^ 2 + fw s ^ 2 ≠ 0 := by
      refine hsq.cont.eventually_ne ?_
      have := hsq.1
      beta_reduce at this
      rw [this]
      exact hpos.ne'
    refine this.mono fun s hs => ?_
    rintro ⟨h, h'⟩
    exact hs (by rw [h, h']; ring)
  have hsq' := track_add (track_square (track_neg hx)) (track_square hy)
  have e2 : ∀ᶠ s in 𝓝 t, ¬ (-fx s = 0 ∧ fy s = 0) := by
    have : ∀ᶠ s in 𝓝 t, (-fx s) ^ 2 + fy s ^ 2 ≠ 0 := by
      refine hsq'.cont.eventually_ne ?_
      have := hsq'.1
      beta_reduce at this
      rw [this]
      simp only [add_v, square_v, neg_v, neg_sq]
      intro h
      exact h1 (by linarith)
    refine this.mono fun s hs => ?_
    rintro ⟨h, h'⟩
    exact hs (by rw [h, h']; ring)
  filter_upwards [e1, e2] with s hs1 hs2
  obtain ⟨k, hk⟩ := hF' s hs1
  obtain ⟨l, hl⟩ := hG' s hs2
  refine ⟨k - l, k + l, ?_⟩
  unfold quatEuler
  rw [hk, hl]
  refine Prod.ext ?_ (Prod.ext rfl ?_)
  · push_cast; ring
  · push_cast; ring

theorem quat_pole {w x y z : ℝ} (hu : w ^ 2 + x ^ 2 + y ^ 2 + z ^ 2 = 1) (hg : (quatRot w x y z zAxis).2.2 ^ 2 ≠ 1) : w ^ 2 + z ^ 2 ≠ 0 ∧ w ^ 2 + z ^ 2 ≠ 1 := by
  have e : (quatRot w x y z zAxis).2.2 = 2 * (w ^ 2 + z ^ 2) - 1 := by
    unfold quatRot zAxis
    simp only
    linear_combination -hu
  rw [e] at hg
  constructor
  · intro h
    exact hg (by rw [h]; norm_num)
  · intro h
    exact hg (by rw [h]; norm_num)

theorem eulerOf_differentiates : DifferentiatesEuler eulerOf eulerOfD where
  value := by
    intro v
    unfold eulerOfD eulerOf quatEuler arccosD
    simp
  deriv := by
    intro x y z t dx dy dz hx hy hz n theta hn hv hg
    obtain ⟨hv1, hv2, hv3⟩ : x t = n.1 * theta ∧ y t = n.2.1 * theta ∧ z t = n.2.2 * theta := by simpa using hv
    have hn' := hn
    unfold normSq at hn'
    have h0 : theta ≠ 0 := by
      rintro rfl
      rw [rotAxis_zero] at hg
      exact hg (by simp [zAxis])
    have tx : Tracks x t ⟨x t, some dx⟩ := ⟨rfl, dx, rfl, hx⟩
    have ty : Tracks y t ⟨y t, some dy⟩ := ⟨rfl, dy, rfl, hy⟩
    have tz : Tracks z t ⟨z t, some dz⟩ := ⟨rfl, dz, rfl, hz⟩
    have hsum : x t ^ 2 + y t ^ 2 + z t ^ 2 = theta ^ 2 := by
      rw [hv1, hv2, hv3]
      linear_combination theta ^ 2 * hn'
    generalize hX : (⟨x t, some dx⟩ : Dual) = X at tx
    generalize hY : (⟨y t, some dy⟩ : Dual) = Y at ty
    generalize hZ : (⟨z t, some dz⟩ : Dual) = Z at tz
    have hpos : 0 < (X.square + Y.square + Z.square).v := by
      simp only [add_v, square_v]
      rw [← tx.1, ← ty.1, ← tz.1, hsum]
      positivity
    have ta := track_sqrt (track_add (track_add (track_square tx) (track_square ty)) (track_square tz)) hpos
    have hav : 0 < ((X.square + Y.square + Z.square).sqrt).v := Real.sqrt_pos.2 hpos
    have th := track_div ta (track_const 2 t) (by simp)
    have tk := track_div (track_sin th) ta hav.ne'
    have tw := track_cos th
    have qx := track_mul tx tk
    have qy := track_mul ty tk
    have qz := track_mul tz tk
    have ha : √(x t ^ 2 + y t ^ 2 + z t ^ 2) = |theta| := by rw [hv1, hv2, hv3]; exact norm_rotvec hn theta
    have ew : cos (√(x t ^ 2 + y t ^ 2 + z t ^ 2) / 2) = cos (theta / 2) := by rw [ha, (euler_half_angle theta).1]
    have ek : ∀ c : ℝ, c * theta * (sin (√(x t ^ 2 + y t ^ 2 + z t ^ 2) / 2) / √(x t ^ 2 + y t ^ 2 + z t ^ 2)) = c * sin (theta / 2) := by
      intro c
      rw [ha, mul_assoc, (euler_half_angle theta).2]
    have ex : x t * (sin (√(x t ^ 2 + y t ^ 2 + z t ^ 2) / 2) / √(x t ^ 2 + y t ^ 2 + z t ^ 2)) = n.1 * sin (theta / 2) := by rw [← ek, ← hv1]
    have ey : y t * (sin (√(x t ^ 2 + y t ^ 2 + z t ^ 2) / 2) / √(x t ^ 2 + y t ^ 2 + z t ^ 2)) = n.2.1 * sin (theta / 2) := by rw [← ek, ← hv2]
    have ez : z t * (sin (√(x t ^ 2 + y t ^ 2 + z t ^ 2) / 2) / √(x t ^ 2 + y t ^ 2 + z t ^ 2)) = n.2.2 * sin (theta / 2) := by rw [← ek, ← hv3]
    rw [rotAxis_eq_quat n theta hn] at hg
    have hunit : cos (theta / 2) ^ 2 + (n.1 * sin (theta / 2)) ^ 2 + (n.2.1 * sin (theta / 2)) ^ 2 + (n.2.2 * sin (theta / 2)) ^ 2 = 1 := by
      linear_combination (sin (theta / 2) ^ 2) * hn' + sin_sq_add_cos_sq (theta / 2)
    rw [← ew, ← ex, ← ey, ← ez] at hg hunit
    have vx := qx.1
    have vy := qy.1
    have vz := qz.1
    have vw := tw.1
    simp only at vx vy vz vw
    rw [vx, vy, vz, vw] at hg hunit
    obtain ⟨p0, p1⟩ := quat_pole hunit hg
    obtain ⟨α, β, γ, hα, hβ, hγ, hev⟩ := track_quatEuler tw qx qy qz hunit p0 p1
    obtain ⟨v1, a, e1, g1⟩ := hα
    obtain ⟨v2, b, e2, g2⟩ := hβ
    obtain ⟨v3, c, e3, g3⟩ := hγ
    refine ⟨α, β, γ, a, b, c, g1, g2, g3, ?_, hev⟩
    unfold eulerOfD
    simp only
    refine Prod.ext (Dual.ext v1.symm e1) (Prod.ext (Dual.ext v2.symm e2) (Dual.ext v3.symm e3))

end Jaxoplanet.Starry
