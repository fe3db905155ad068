import Verif.Proofs.Rounding
import Verif.Props.KeplerAccuracy
import Mathlib.Analysis.Complex.Norm

/-! Floating-point conversion to the true anomaly. -/

namespace Jaxoplanet.KeplerFloat

open Real Kepler

/-- Euclidean distance of two points of the plane -/
noncomputable def gap (p q : ℝ × ℝ) : ℝ := √((p.1 - q.1) ^ 2 + (p.2 - q.2) ^ 2)

theorem gap_eq (p q : ℝ × ℝ) : gap p q = ‖(⟨p.1 - q.1, p.2 - q.2⟩ : ℂ)‖ := by
  rw [gap, Complex.norm_def, Complex.normSq_mk]
  ring_nf

theorem gap_triangle (p q r : ℝ × ℝ) : gap p r ≤ gap p q + gap q r := by
  rw [gap_eq, gap_eq, gap_eq]
  refine le_trans (le_of_eq ?_) (norm_add_le _ _)
  congr 1
  apply Complex.ext <;> simp

theorem gap_nonneg (p q : ℝ × ℝ) : 0 ≤ gap p q := sqrt_nonneg _

theorem gap_comm (p q : ℝ × ℝ) : gap p q = gap q p := by
  unfold gap
  congr 1
  ring

theorem gap_sq (p q : ℝ × ℝ) : gap p q ^ 2 = (p.1 - q.1) ^ 2 + (p.2 - q.2) ^ 2 := sq_sqrt (by positivity)

theorem gap_le {p q : ℝ × ℝ} {A : ℝ} (hA : 0 ≤ A) : gap p q ≤ A ↔ (p.1 - q.1) ^ 2 + (p.2 - q.2) ^ 2 ≤ A ^ 2 := by
  rw [gap, sqrt_le_left hA]

/-- the point of the unit circle with half-angle tangent `t` -/
noncomputable def pt (t : ℝ) : ℝ × ℝ := (2 * t * (1 / (1 + t ^ 2)), (1 - t ^ 2) * (1 / (1 + t ^ 2)))

theorem pt_sq (t : ℝ) : (pt t).1 ^ 2 + (pt t).2 ^ 2 = 1 := by
  unfold pt
  have : 1 + t ^ 2 ≠ 0 := by positivity
  simp only
  field_simp
  ring

theorem pt_dist (s t : ℝ) : ((pt s).1 - (pt t).1) ^ 2 + ((pt s).2 - (pt t).2) ^ 2 =
    4 * (s - t) ^ 2 / ((1 + s ^ 2) * (1 + t ^ 2)) := by
  unfold pt
  have : 1 + t ^ 2 ≠ 0 := by positivity
  have : 1 + s ^ 2 ≠ 0 := by positivity
  simp only
  field_simp
  ring

/-- a relative perturbation of the half-angle tangent -/
theorem pt_rel {ε t t' : ℝ} (hε : 0 ≤ ε) (hε1 : ε ≤ 0.01) (h : Rnd ε t t') : gap (pt t') (pt t) ≤ 1.02 * ε := by
  obtain ⟨δ, hδ, rfl⟩ := h.factor hε
  rw [gap_le (by positivity), pt_dist, div_le_iff₀ (by positivity)]
  obtain ⟨l, r⟩ := abs_le.1 hδ
  have h1 : δ ^ 2 ≤ ε ^ 2 := by rw [← sq_abs δ]; gcongr
  have h2 : (t * (1 + δ) - t) ^ 2 = t ^ 2 * δ ^ 2 := by ring
  rw [h2]
  have hd : 0.99 ≤ 1 + δ := by norm_num at *; linarith
  have h3 : 0.98 * (4 * t ^ 2) ≤ (1 + (t * (1 + δ)) ^ 2) * (1 + t ^ 2) := by
    have h4 : (1 + (t * (1 + δ)) ^ 2) * (1 + t ^ 2) = (1 - t ^ 2 * (1 + δ)) ^ 2 + 2 * t ^ 2 * (1 + δ) +
        (t ^ 2 * (1 + δ) ^ 2 + t ^ 2) := by ring
    have h5 : 0 ≤ (1 - t ^ 2 * (1 + δ)) ^ 2 := sq_nonneg _
    have h6 : 0.99 * t ^ 2 ≤ (1 + δ) * t ^ 2 := by gcongr
    have h7 : 0.98 * t ^ 2 ≤ (1 + δ) ^ 2 * t ^ 2 := by
      refine mul_le_mul_of_nonneg_right ?_ (sq_nonneg t)
      have : (0.99 : ℝ) ^ 2 ≤ (1 + δ) ^ 2 := by gcongr
      norm_num at this ⊢
      linarith
    rw [h4]
    have := sq_nonneg t
    norm_num at h6 h7 ⊢
    linarith
  have h8 : (1.02 * ε) ^ 2 * (0.98 * (4 * t ^ 2)) ≤ (1.02 * ε) ^ 2 * ((1 + (t * (1 + δ)) ^ 2) * (1 + t ^ 2)) := by
    gcongr
  refine le_trans ?_ h8
  have h9 : 4 * (t ^ 2 * δ ^ 2) ≤ 4 * (t ^ 2 * ε ^ 2) := by gcongr
  have h10 : 0 ≤ t ^ 2 * ε ^ 2 := by positivity
  have h11 : (1.02 * ε) ^ 2 * (0.98 * (4 * t ^ 2)) = (1.02 ^ 2 * 0.98 * 4) * (t ^ 2 * ε ^ 2) := by ring
  rw [h11]
  norm_num
  linarith

/-- the last roundings: what is returned is within `17 u` of the unit circle point with half-angle tangent `t` -/
theorem conv_point {u ecc E : ℝ} (hu0 : 0 ≤ u) (hu : u ≤ 1e-10) (R : ConvRun u ecc E) :
    gap (R.sinf, R.cosf) (pt R.t) ≤ 17 * u := by
  have r0 : ∀ x : ℝ, Rnd (0 * u) x x := fun x => Rnd.refl (by simp) x
  have h2 : Rnd (2 * u) (R.t * R.t) R.t2 := rnd_mul hu0 hu (r0 _) (r0 _) R.ht2 le_rfl (by norm_num) le_rfl (by norm_num) (by norm_num)
  have h7 : Rnd (4 * u) (1 + R.t * R.t) R.k7 :=
    rnd_add hu0 hu (k0 := 2) ((r0 1).mono (by linarith)) h2 R.hk7 (by norm_num) (mul_self_nonneg _) (by norm_num) (by norm_num) (by norm_num)
  have hd : Rnd (7 * u) (1 / (1 + R.t * R.t)) R.denom :=
    rnd_div hu0 hu (r0 1) h7 R.hdenom le_rfl (by norm_num) (by norm_num) (by norm_num) (by norm_num)
  have h8 : Rnd (1 * u) (2 * R.t) R.k8 := by rw [one_mul]; exact R.hk8
  have hs : Rnd (10 * u) (2 * R.t * (1 / (1 + R.t * R.t))) R.sinf :=
    rnd_mul hu0 hu h8 hd R.hsinf (by norm_num) (by norm_num) (by norm_num) (by norm_num) (by norm_num)
  have hc0 : Rnd (9 * u) (R.k9 * (1 / (1 + R.t * R.t))) R.cosf :=
    rnd_mul hu0 hu (r0 _) hd R.hcosf le_rfl (by norm_num) (by norm_num) (by norm_num) (by norm_num)
  have h9 := R.hk9
  generalize R.sinf = S at *
  generalize R.cosf = C at *
  generalize R.k9 = k9 at *
  generalize R.t2 = t2 at *
  generalize R.t = t at *
  have hp : 0 < 1 + t * t := by nlinarith [mul_self_nonneg t]
  have e1 : |S - (pt t).1| ≤ 10 * u := by
    have h1 := pt_sq t
    have h3 : |(pt t).1| ≤ 1 := abs_le_one_iff_mul_self_le_one.2 (by nlinarith [sq_nonneg (pt t).2])
    unfold Rnd at hs
    rw [← sq] at hs
    change |S - (pt t).1| ≤ 10 * u * |(pt t).1| at hs
    exact hs.trans (mul_le_of_le_one_right (by positivity) h3)
  have e2 : |C - (pt t).2| ≤ 13 * u := by
    have hcc : |(pt t).2| ≤ 1 := abs_le_one_iff_mul_self_le_one.2 (by nlinarith [pt_sq t, sq_nonneg (pt t).1])
    unfold Rnd at h2 h9 hc0
    rw [abs_of_nonneg (mul_self_nonneg t)] at h2
    have a1 : |1 - t2 - (1 - t * t)| ≤ 2 * u * (t * t) := by
      rw [show 1 - t2 - (1 - t * t) = -(t2 - t * t) by ring, abs_neg]; exact h2
    have a2 : |1 - t * t| ≤ 1 + t * t := by
      rw [abs_le]; constructor <;> nlinarith [mul_self_nonneg t]
    have tt := mul_self_nonneg t
    have a3 : |1 - t2| ≤ 1.1 * (1 + t * t) := by
      have := abs_sub_abs_le_abs_sub (1 - t2) (1 - t * t)
      have : 2 * u * (t * t) ≤ 0.1 * (t * t) := by gcongr; norm_num at hu ⊢; linarith
      norm_num at *
      linarith
    have a4 : |k9 - (1 - t * t)| ≤ 3.1 * u * (1 + t * t) := by
      have b1 := abs_add_le (k9 - (1 - t2)) (1 - t2 - (1 - t * t))
      rw [show k9 - (1 - t2) + (1 - t2 - (1 - t * t)) = k9 - (1 - t * t) by ring] at b1
      have b2 : u * |1 - t2| ≤ u * (1.1 * (1 + t * t)) := by gcongr
      have : 0 ≤ u * (t * t) := by positivity
      norm_num at *
      linarith
    have a5 : |k9 * (1 / (1 + t * t)) - (pt t).2| ≤ 3.1 * u := by
      have : k9 * (1 / (1 + t * t)) - (pt t).2 = (k9 - (1 - t * t)) / (1 + t * t) := by
        unfold pt
        simp only [sq]
        field_simp
      rw [this, abs_div, abs_of_pos hp, div_le_iff₀ hp]
      exact a4
    have a6 : |k9 * (1 / (1 + t * t))| ≤ 1.01 := by
      have := abs_sub_abs_le_abs_sub (k9 * (1 / (1 + t * t))) (pt t).2
      norm_num at *
      linarith
    have b1 := abs_add_le (C - k9 * (1 / (1 + t * t))) (k9 * (1 / (1 + t * t)) - (pt t).2)
    rw [sub_add_sub_cancel] at b1
    have b2 : 9 * u * |k9 * (1 / (1 + t * t))| ≤ 9 * u * 1.01 := by gcongr
    norm_num at *
    linarith
  rw [gap_le (by positivity)]
  have e3 : (S - (pt t).1) ^ 2 ≤ (10 * u) ^ 2 := by rw [← sq_abs]; gcongr
  have e4 : (C - (pt t).2) ^ 2 ≤ (13 * u) ^ 2 := by rw [← sq_abs]; gcongr
  simp only
  nlinarith [sq_nonneg u]

/-- the floating-point conversion, relative to the exact conversion at a neighbouring eccentric anomaly -/
theorem conv_accurate {u ecc E : ℝ} (hu0 : 0 ≤ u) (hu : u ≤ 1e-10) (he0 : 0 ≤ ecc) (he : ecc < 1) (R : ConvRun u ecc E) :
    ∃ E', |E' - E| ≤ u * |E| ∧ gap (R.sinf, R.cosf) (toTrueAnomaly ecc E') ≤ 32 * u := by
  have r1 : ∀ {x y : ℝ}, Rnd u x y → Rnd (1 * u) x y := fun h => by rw [one_mul]; exact h
  have hpos : 0 ≤ (1 + ecc) / (1 - ecc) := div_nonneg (by linarith) (by linarith)
  have h3 : Rnd (5 * u) ((1 + ecc) / (1 - ecc)) R.k3 :=
    rnd_div hu0 hu (r1 R.hk1) (r1 R.hk2) R.hk3 (by norm_num) (by norm_num) (by norm_num) (by norm_num) (by norm_num)
  have h4 : Rnd (7 * u) (√((1 + ecc) / (1 - ecc))) R.k4 :=
    rnd_comp hu0 hu (rnd_sqrt0 h3 (by positivity) (by norm_num at hu; linarith) hpos) R.hk4 (by norm_num) (by norm_num) (by norm_num)
  have ht : Rnd (10 * u) (√((1 + ecc) / (1 - ecc)) * tan R.k5) R.t :=
    rnd_mul hu0 hu h4 (r1 R.hk6) R.ht (by norm_num) (by norm_num) (by norm_num) (by norm_num) (by norm_num)
  refine ⟨2 * R.k5, ?_, ?_⟩
  · have h := R.hk5
    unfold Rnd at h
    rw [abs_mul, abs_of_pos (by norm_num : (0 : ℝ) < 0.5)] at h
    rw [show 2 * R.k5 - E = 2 * (R.k5 - 0.5 * E) by ring, abs_mul, abs_of_pos (by norm_num : (0 : ℝ) < 2)]
    norm_num at h ⊢
    linarith
  · have hp : toTrueAnomaly ecc (2 * R.k5) = pt (√((1 + ecc) / (1 - ecc)) * tan R.k5) := by
      have : 0.5 * (2 * R.k5) = R.k5 := by ring
      unfold toTrueAnomaly pt
      rw [this, if_neg R.hk5']
    rw [hp]
    refine (gap_triangle _ (pt R.t) _).trans ?_
    have g1 := conv_point hu0 hu R
    have g2 := pt_rel (by positivity) (by norm_num at hu ⊢; linarith) ht
    norm_num at g2 ⊢
    linarith

/-- every run returns a point within `17 u` of the unit circle -/
theorem conv_unit {u ecc E : ℝ} (hu0 : 0 ≤ u) (hu : u ≤ 1e-10) (R : ConvRun u ecc E) :
    |√(R.sinf ^ 2 + R.cosf ^ 2) - 1| ≤ 17 * u := by
  have h := conv_point hu0 hu R
  have h1 : √(R.sinf ^ 2 + R.cosf ^ 2) = gap (R.sinf, R.cosf) (0, 0) := by unfold gap; simp
  have h2 : gap (pt R.t) (0, 0) = 1 := by
    unfold gap
    simp only [sub_zero]
    rw [pt_sq, sqrt_one]
  have h3 := gap_triangle (R.sinf, R.cosf) (pt R.t) (0, 0)
  have h4 := gap_triangle (pt R.t) (R.sinf, R.cosf) (0, 0)
  rw [gap_comm (pt R.t) (R.sinf, R.cosf)] at h4
  rw [h1, abs_le]
  constructor <;> linarith

end Jaxoplanet.KeplerFloat
