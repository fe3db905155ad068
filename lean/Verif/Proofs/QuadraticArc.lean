import Verif.Proofs.QuadraticP

/-! The guards near the limb, the arc, and the fluxes of the three terms. -/

namespace Jaxoplanet.LimbDarkFloat

open Real KeplerFloat LimbDark Spec MeasureTheory Green
open _root_.Jaxoplanet.Starry.Spec (quadSum IsGaussLegendre)
open Gauss

theorem angles_outside {b r : ℝ} (hr : 0 ≤ r) (h : 1 + r ≤ b) : area0 b r = 0 ∧ angle0 b r = 0 ∧ angle1 b r = 0 := by
  have h0 := area0_of_nonpos (heron_outside hr h)
  unfold angle0 angle1
  rw [h0]
  refine ⟨rfl, ?_, ?_⟩ <;> exact Complex.arg_ofReal_of_nonneg (by nlinarith)

theorem angle0_range {b r : ℝ} : 0 ≤ angle0 b r ∧ angle0 b r ≤ π :=
  ⟨Complex.arg_nonneg_iff.2 (area0_nonneg b r), Complex.arg_le_pi _⟩

theorem angle1_range {b r : ℝ} : 0 ≤ angle1 b r ∧ angle1 b r ≤ π :=
  ⟨Complex.arg_nonneg_iff.2 (area0_nonneg b r), Complex.arg_le_pi _⟩

/-- the part of the arc in which the guards act -/
theorem bump_total {η b r : ℝ} (hη : 0 < η) (hη1 : η ≤ 0.02) (hb : 0 ≤ b) (hr : 0 ≤ r) (hr1 : r ≤ 1 / 2) :
    r * (b + r) * (∫ φ in (0 : ℝ)..(angle0 b r), bump η b r φ) ≤ 21 * √η := by
  norm_num at hη1
  have hs := sqrt_nonneg η
  rcases le_or_gt (1 + r) b with h1 | h1
  · rw [(angles_outside hr h1).2.1]
    simp
  rcases le_or_gt b (1 / 4) with h2 | h2
  · have hz : ∀ φ, bump η b r φ = 0 := fun φ => by
      apply bump_eq_zero hη
      unfold w
      have h3 : b * r * -1 ≤ b * r * cos φ := mul_le_mul_of_nonneg_left (neg_one_le_cos φ) (by positivity)
      have h4 : (b + r) * (b + r) ≤ 3 / 4 * (3 / 4) := mul_self_le_mul_self (by positivity) (by linarith)
      linarith
    simp only [hz, intervalIntegral.integral_zero, mul_zero]
    positivity
  rcases hr.eq_or_lt with h3 | h3
  · subst h3; simp
  have hk := kappas_closed hb hr hr1
  obtain ⟨k0, kπ, hpos, -⟩ := w_sign hb hr h1 (by linarith)
  rw [hk] at k0 kπ hpos
  have h4 := bump_integral hη (by linarith) h3 k0 kπ (hpos _ k0 le_rfl)
  have hrb0 : 0 ≤ r * (b + r) := by positivity
  refine (mul_le_mul_of_nonneg_left h4 hrb0).trans ?_
  have hb0 : 0 < b := by linarith
  have h5 : r * (b + r) * √(5 * η / (b * r)) ≤ 6.4 * √η := by
    rw [← sqrt_sq hrb0, ← sqrt_mul (sq_nonneg _), ← sqrt_sq (show (0 : ℝ) ≤ 6.4 by norm_num), ← sqrt_mul (sq_nonneg _)]
    apply sqrt_le_sqrt
    rw [show (r * (b + r)) ^ 2 * (5 * η / (b * r)) = (5 * r * (b + r) ^ 2) / b * η by field_simp]
    refine mul_le_mul_of_nonneg_right ?_ hη.le
    rw [div_le_iff₀ hb0]
    have h6 : (b + r) * (b + r) ≤ 2 * 2 := mul_self_le_mul_self (by positivity) (by linarith)
    have h7 := mul_le_mul_of_nonneg_left h6 (show 0 ≤ 5 * r by positivity)
    norm_num
    linarith
  have h8 : π * (r * (b + r) * √(5 * η / (b * r))) ≤ 3.15 * (6.4 * √η) := mul_le_mul pi_lt_d2.le h5 (by positivity) (by norm_num)
  norm_num at h8
  linarith

theorem integral_move {f : ℝ → ℝ} (hf : Continuous f) {M a c : ℝ} (hM : ∀ φ, |f φ| ≤ M) :
    |(∫ φ in (0 : ℝ)..a, f φ) - ∫ φ in (0 : ℝ)..c, f φ| ≤ M * |a - c| := by
  have i1 : IntervalIntegrable f volume 0 a := hf.intervalIntegrable _ _
  have i2 : IntervalIntegrable f volume 0 c := hf.intervalIntegrable _ _
  have h := intervalIntegral.integral_interval_sub_left i1 i2
  rw [h, ← norm_eq_abs]
  have := intervalIntegral.norm_integral_le_of_norm_le_const (a := c) (b := a) (f := f) (C := M) fun φ _ => hM φ
  simpa using this

theorem P_total {u eps τ η b r b2 r2 κ kappa : ℝ} {order : ℕ} {rule table : List (ℝ × ℝ)} (hu0 : 0 ≤ u) (heps : 0 < eps) (heps1 : eps ≤ 1e-6)
    (hτ0 : 0 ≤ τ) (hτ1 : τ ≤ 1e-3) (hτ : τ ^ 2 = eps) (hue : u ≤ eps) (hη : 6 * eps ≤ η) (hη1 : η ≤ 0.02) (hb : 0 ≤ b) (hb1 : b ≤ 1.51) (hr : 0 ≤ r) (hr1 : r ≤ 1 / 2)
    (e1 : |b2 - b * b| ≤ 2.3 * u) (e2 : |r2 - r * r| ≤ 0.25 * u) (hκ0 : 0 ≤ κ) (hκ : κ ≤ π) (hk : Rnd u κ kappa) (ha : r * |κ - angle0 b r| ≤ 225 * τ)
    (hq : IsGaussLegendre order rule) (ho : 0 < order) (ht : List.Forall₂ (fun p q => Rnd u p.1 q.1 ∧ Rnd u p.2 q.2) rule table)
    (hou : (order + 1) * u ≤ 1 / 2) (N : PRun u eps b r b2 r2 kappa table) :
    |N.P - ∫ φ in (0 : ℝ)..(angle0 b r), arcIntegrand b r 1 φ| ≤ 21 * √η + 1050 * τ + 47 * ((order + 1) * u) +
      48 / η / √((2 * order - 1 : ℕ) : ℝ) := by
  have h1 := P_near hu0 heps heps1 hτ0 hτ1 hτ hue hη (hη1.trans (by norm_num)) hb hb1 hr hr1 e1 e2 hκ0 hκ hk hq ho ht hou N
  have h2 := bump_total (by linarith) hη1 hb hr hr1
  have h3 := integral_move (continuous_arcIntegrand b r 1) (a := κ) (c := angle0 b r) (fun φ => arc_abs_le (φ := φ) hb hb1 hr hr1)
  have h4 := integral_move (continuous_bump η b r) (a := κ) (c := angle0 b r) (M := 1) (fun φ => by
    rw [abs_of_nonneg (bump_nonneg _ _ _ _)]; exact bump_le_one _ _ _ _)
  have hrb : r * (b + r) ≤ 2.01 * r := by
    rw [mul_comm]
    exact mul_le_mul_of_nonneg_right (by norm_num at hb1 ⊢; linarith) hr
  have h5 := mul_le_mul_of_nonneg_left (_root_.abs_le.1 h4).2 (show 0 ≤ r * (b + r) by positivity)
  have h6 := mul_le_mul_of_nonneg_right hrb (show 0 ≤ 1 * |κ - angle0 b r| by positivity)
  have h7 := abs_sub_le N.P (∫ φ in (0 : ℝ)..κ, arcIntegrand b r 1 φ) (∫ φ in (0 : ℝ)..(angle0 b r), arcIntegrand b r 1 φ)
  norm_num at h3 h6 ⊢
  linarith

end Jaxoplanet.LimbDarkFloat
