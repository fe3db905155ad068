import Verif.Proofs.LegacyRotation
import Verif.Props.MpRotation
import Verif.Props.Intensity

/-!
# C82: `jaxoplanet.starry.core.rotation.compute_rotation_matrices`

The recursive matrices of `starry/core/rotation.py` (compared with the symbolic ones in the tests) are the matrices of the rotation
by `theta` about the axis, in every degree, unless the rotation moves the pole by a small angle or to a point near the opposite pole.
-/

namespace Jaxoplanet.Starry.Legacy

open _root_.Jaxoplanet.Starry.Spec Real Wig

/-- the cosine of the angle between the pole `(0, 0, 1)` and its image -/
noncomputable def poleCos (x y z theta : ℝ) : ℝ :=
  let n := √(x * x + y * y + z * z)
  (rotAxis (x / n, y / n, z / n) theta (0, 0, 1)).2.2

theorem norm_ne {x y z : ℝ} (h : (x, y, z) ≠ (0, 0, 0)) : 0 < x * x + y * y + z * z := by
  by_contra hc
  have h1 := mul_self_nonneg x
  have h2 := mul_self_nonneg y
  have h3 := mul_self_nonneg z
  exact h (by rw [mul_self_eq_zero.1 (by linarith : x * x = 0), mul_self_eq_zero.1 (by linarith : y * y = 0),
    mul_self_eq_zero.1 (by linarith : z * z = 0)])

theorem harmonic_of_block {l : ℕ} {α β γ : ℝ} {A : Mat} (h : AgreeOn (Vmat l α β γ) (Block l) A) {g : V3 → V3}
    (hg : ∀ p, rotZ α (rotY β (rotZ γ p)) = g p) : Mp.IsRotMatrix l g (fun i j => A ((i : ℤ) - l) ((j : ℤ) - l)) := by
  intro i hi p hp
  have := Mp.fooMat_harmonic l α β γ i hi p hp
  rw [hg] at this
  refine this.trans ?_
  refine Finset.sum_congr rfl fun j hj => ?_
  have hj' := Finset.mem_range.1 hj
  dsimp only
  rw [h _ _ ⟨by rw [abs_le]; omega, by rw [abs_le]; omega⟩]
  unfold Vmat
  rw [show ((i : ℤ) - l + l).toNat = i by omega, show ((j : ℤ) - l + l).toNat = j by omega]

/-- for an axis that is not the zero vector, and a rotation that leaves the pole where it is, moves it to the opposite pole, or moves it
away from both by more than the tolerance: there is one matrix for each degree `l ≤ ydeg`, and it is the matrix of the rotation by
`theta` about the normalised axis -/
theorem computeRotationMatrices_rotates (eps : ℝ) (h0 : 0 < eps) (h01 : 10 * eps ≤ 1) (ydeg : ℕ) (x y z theta : ℝ) (hax : (x, y, z) ≠ (0, 0, 0))
    (h : poleCos x y z theta = 1 ∨ poleCos x y z theta = -1 ∨
      (10 * eps ≤ |poleCos x y z theta - 1| ∧ 10 * eps ≤ |poleCos x y z theta + 1|)) :
    ∃ R, computeRotationMatrices eps ydeg x y z theta = some R ∧ R.length = ydeg + 1 ∧
      ∀ l ≤ ydeg, Mp.IsRotMatrix l
        (rotAxis (x / √(x ^ 2 + y ^ 2 + z ^ 2), y / √(x ^ 2 + y ^ 2 + z ^ 2), z / √(x ^ 2 + y ^ 2 + z ^ 2)) theta)
        (fun i j => R.getD l (fun _ _ => 0) ((i : ℤ) - l) ((j : ℤ) - l)) := by
  have hpos := norm_ne hax
  have hne : √(x * x + y * y + z * z) ≠ 0 := (sqrt_pos.2 hpos).ne'
  have h2 : √(x * x + y * y + z * z) ^ 2 = x * x + y * y + z * z := sq_sqrt hpos.le
  have hsc := euler_scale (eps := eps) (theta := theta) hne
  simp only [show x ^ 2 + y ^ 2 + z ^ 2 = x * x + y * y + z * z by ring]
  unfold poleCos at h
  simp only at h
  generalize √(x * x + y * y + z * z) = n at *
  obtain ⟨α, β, γ, e1, e2, e3⟩ := euler_unit (u1 := x / n) (u2 := y / n) (u3 := z / n) (theta := theta) h0 h01 (by field_simp; linarith)
    _ rfl (by
      have : (rotAxis (x / n, y / n, z / n) theta (0, 0, 1)).2.2 = cos theta + z / n * (z / n) * (1 - cos theta) := by
        rw [Mp.axis_matrix]; ring
      rwa [this] at h)
  have key := (rotar_ok (α := α) (γ := γ) h0 e2 ydeg).2
  unfold computeRotationMatrices
  split_ifs with hy
  · subst hy
    refine ⟨_, rfl, by simp [rotar], fun l hl => ?_⟩
    obtain rfl : l = 0 := by omega
    have := harmonic_of_block (key.2 0 (by omega)) e3
    simpa [rotar] using this
  · rw [hsc, e1]
    exact ⟨_, rfl, key.1, fun l hl => harmonic_of_block (key.2 l (by omega)) e3⟩

/-- the axis `(0, 0, 0)`, "handled" by the code: no matrix at all, unless the angle is nearly a multiple of `π` -/
theorem computeRotationMatrices_zero_axis (eps : ℝ) (ydeg : ℕ) (hy : ydeg ≠ 0) (theta : ℝ) (h1 : 10 * eps ≤ |cos theta - 1|)
    (h2 : 10 * eps ≤ |cos theta + 1|) : computeRotationMatrices eps ydeg 0 0 0 theta = none := by
  unfold computeRotationMatrices
  rw [if_neg hy]
  have : eulerCS eps 0 0 0 theta = none := by
    unfold eulerCS
    simp [not_lt.2 h1, not_lt.2 h2]
  rw [this]

/-- inside the band the tilt is lost: the rotation by a small `theta` about the `y` axis should move the pole by `sin theta` in the
direction of `x`, and the matrix of degree 1 moves it by `(1 - cos theta) * cos theta` -/
theorem computeRotationMatrices_band (eps : ℝ) (h01 : 10 * eps ≤ 0.1) (theta : ℝ) (hs : 0 < sin theta) (hb : 1 - cos theta < 10 * eps) :
    ∃ R, computeRotationMatrices eps 1 0 1 0 theta = some R ∧
      R.getD 1 (fun _ _ => 0) 1 0 = (1 - cos theta) * cos theta ∧
      R.getD 1 (fun _ _ => 0) 1 0 < sin theta / 2 ∧
      ¬ Mp.IsRotMatrix 1 (rotAxis (0, 1, 0) theta) (fun i j => R.getD 1 (fun _ _ => 0) ((i : ℤ) - 1) ((j : ℤ) - 1)) := by
  have hcs := sin_sq_add_cos_sq theta
  have hc1 := cos_le_one theta
  have hpos : |cos theta - 1| < 10 * eps := by rw [abs_of_nonpos (by linarith)]; linarith
  have hneg : ¬ |cos theta + 1| < 10 * eps := by rw [abs_of_pos (by linarith)]; linarith
  have hE : eulerCS eps 0 1 0 theta = some (cos theta, 1 - cos theta, cos theta, 1 - cos theta, 1, 0) := by
    unfold eulerCS
    simp [hpos, hneg]
    ring
  have q2 : √2 * √2 = (2 : ℝ) := mul_self_sqrt (by norm_num)
  have qn : √2 ≠ (0 : ℝ) := by positivity
  have hv : (rotar eps 1 (cos theta) (1 - cos theta) (cos theta) (1 - cos theta) 1 0).2.getD 1 (fun _ _ => 0) 1 0 =
      (1 - cos theta) * cos theta := by
    simp [rotar, mat3]
    field_simp
    ring
  have hlt : (1 - cos theta) * cos theta < sin theta / 2 := by
    have h9 : 0.9 < cos theta := by linarith
    have h3 : sin theta ^ 2 < 0.2 := by nlinarith
    have h4 : sin theta < 0.45 := by nlinarith
    have h5 : 1 - cos theta ≤ sin theta ^ 2 := by nlinarith
    nlinarith
  refine ⟨(rotar eps 1 (cos theta) (1 - cos theta) (cos theta) (1 - cos theta) 1 0).2, ?_, hv, by rw [hv]; exact hlt, fun hr => ?_⟩
  · unfold computeRotationMatrices
    rw [if_neg one_ne_zero, hE]
  · have := hr 2 (by norm_num) (0, 0, 1) (by simp [OnSphere, Spec.normSq])
    obtain ⟨k1, k2, k3⟩ := realHarmonic_one 0 0 1
    obtain ⟨-, -, j3⟩ := realHarmonic_one (rotAxis (0, 1, 0) theta (0, 0, 1)).1 (rotAxis (0, 1, 0) theta (0, 0, 1)).2.1
      (rotAxis (0, 1, 0) theta (0, 0, 1)).2.2
    norm_num [Finset.sum_range_succ] at this
    rw [← List.getD_eq_getElem?_getD, k1, k2, k3, j3, hv, Mp.axis_matrix] at this
    have hk : √3 / (2 * √π) ≠ 0 := by positivity
    have : sin theta = (1 - cos theta) * cos theta := by
      apply mul_left_cancel₀ hk
      linear_combination this
    linarith

/-- non-vacuity: the quarter turn about `(1, 2, 2)` satisfies the hypotheses with the machine epsilon of float64, as do a rotation
about the `z` axis and a half turn about the `x` axis -/
example : (10 * (2 : ℝ) ^ (-52 : ℤ) ≤ |poleCos 1 2 2 (π / 2) - 1| ∧ 10 * (2 : ℝ) ^ (-52 : ℤ) ≤ |poleCos 1 2 2 (π / 2) + 1|) ∧
    poleCos 0 0 3 0.7 = 1 ∧ poleCos 1 0 0 π = -1 := by
  have h9 : √(9 : ℝ) = 3 := by rw [show (9 : ℝ) = 3 ^ 2 by norm_num, sqrt_sq (by norm_num)]
  unfold poleCos
  simp only [Mp.axis_matrix]
  norm_num [h9]

/-- non-vacuity of the band: with the machine epsilon of float32, a rotation by `0.001` (3.4 arc minutes) is in it -/
example : 10 * (2 : ℝ) ^ (-23 : ℤ) ≤ 0.1 ∧ 0 < sin 0.001 ∧ 1 - cos 0.001 < 10 * (2 : ℝ) ^ (-23 : ℤ) := by
  refine ⟨by norm_num, sin_pos_of_pos_of_lt_pi (by norm_num) (by linarith [pi_gt_three]), ?_⟩
  have := one_sub_sq_div_two_le_cos (x := 0.001)
  norm_num at this ⊢
  linarith

/-- non-vacuity of the zero axis: a quarter turn -/
example : 10 * (2 : ℝ) ^ (-52 : ℤ) ≤ |cos (π / 2) - 1| ∧ 10 * (2 : ℝ) ^ (-52 : ℤ) ≤ |cos (π / 2) + 1| := by
  rw [cos_pi_div_two]; norm_num

end Jaxoplanet.Starry.Legacy
