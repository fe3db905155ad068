import Verif.Proofs.LimbConverge
import Mathlib.RingTheory.Polynomial.Bernstein
import Mathlib.Analysis.SpecialFunctions.Trigonometric.Bounds

/-!
# Rate of convergence of Gauss-Legendre quadrature for Lipschitz integrands, and of the line integrals of limb darkening
-/

namespace Jaxoplanet.Gauss

open Polynomial MeasureTheory
open _root_.Jaxoplanet.Starry.Spec (quadSum IsGaussLegendre)

/-- the Bernstein polynomial of a function on `[-1, 1]` -/
noncomputable def bern (m : ℕ) (g : ℝ → ℝ) : ℝ[X] :=
  ∑ k ∈ Finset.range (m + 1), C (g (2 * k / m - 1)) * (bernsteinPolynomial ℝ m k).comp (C (1 / 2) * X + C (1 / 2))

theorem bern_natDegree (m : ℕ) (g : ℝ → ℝ) : (bern m g).natDegree ≤ m := by
  unfold bern
  refine natDegree_sum_le_of_forall_le _ _ fun k hk => ?_
  refine (natDegree_C_mul_le _ _).trans ?_
  refine natDegree_comp_le.trans ?_
  have h1 : (bernsteinPolynomial ℝ m k).natDegree ≤ m := by
    have hk' : k ≤ m := by simpa [Nat.lt_succ_iff] using hk
    unfold bernsteinPolynomial
    refine natDegree_mul_le.trans ?_
    have a1 : ((m.choose k : ℝ[X]) * X ^ k).natDegree ≤ k := by
      refine natDegree_mul_le.trans ?_
      rw [natDegree_natCast, natDegree_X_pow, zero_add]
    have a2 : ((1 - X : ℝ[X]) ^ (m - k)).natDegree ≤ m - k := by
      refine natDegree_pow_le.trans ?_
      have : (1 - X : ℝ[X]).natDegree ≤ 1 := by
        refine (natDegree_sub_le _ _).trans ?_
        simp
      nlinarith
    omega
  have h2 : (C (1 / 2) * X + C (1 / 2) : ℝ[X]).natDegree ≤ 1 := by
    refine (natDegree_add_le _ _).trans ?_
    simp only [natDegree_C, Nat.zero_le, sup_of_le_left]
    exact (natDegree_C_mul_le _ _).trans (by simp)
  nlinarith

theorem bern_error {m : ℕ} (hm : 0 < m) {g : ℝ → ℝ} {L : ℝ} (hL : ∀ x ∈ Set.Icc (-1 : ℝ) 1, ∀ y ∈ Set.Icc (-1 : ℝ) 1, |g x - g y| ≤ L * |x - y|)
    {x : ℝ} (hx : x ∈ Set.Icc (-1 : ℝ) 1) : |g x - (bern m g).eval x| ≤ L / √m := by
  have hL0 : 0 ≤ L := by
    have := hL 1 (by norm_num) 0 (by norm_num)
    simp at this
    exact (abs_nonneg _).trans this
  set y := 1 / 2 * x + 1 / 2 with hy
  have hy0 : 0 ≤ y := by rw [hy]; linarith [hx.1]
  have hy1 : y ≤ 1 := by rw [hy]; linarith [hx.2]
  have hm' : (0 : ℝ) < m := by exact_mod_cast hm
  set B : ℕ → ℝ := fun k => (bernsteinPolynomial ℝ m k).eval y with hB
  have hB0 : ∀ k, 0 ≤ B k := by
    intro k
    simp only [hB, bernsteinPolynomial, eval_mul, eval_natCast, eval_pow, eval_X, eval_sub, eval_one]
    have : 0 ≤ 1 - y := by linarith
    positivity
  have hB1 : ∑ k ∈ Finset.range (m + 1), B k = 1 := by
    have := congrArg (eval y) (bernsteinPolynomial.sum ℝ m)
    rwa [eval_finsetSum, eval_one] at this
  have hB2 : ∑ k ∈ Finset.range (m + 1), (m * y - k) ^ 2 * B k = m * y * (1 - y) := by
    have := congrArg (eval y) (bernsteinPolynomial.variance ℝ m)
    rw [eval_finsetSum] at this
    simpa [hB] using this
  have e1 : (bern m g).eval x = ∑ k ∈ Finset.range (m + 1), g (2 * k / m - 1) * B k := by
    unfold bern
    rw [eval_finsetSum]
    refine Finset.sum_congr rfl fun k _ => ?_
    simp [hB, hy]
  have e2 : g x - (bern m g).eval x = ∑ k ∈ Finset.range (m + 1), (g x - g (2 * k / m - 1)) * B k := by
    rw [e1]
    simp only [sub_mul]
    rw [Finset.sum_sub_distrib, ← Finset.mul_sum, hB1, mul_one]
  have hs : 0 < √(m : ℝ) := Real.sqrt_pos.2 hm'
  have hss : √(m : ℝ) ^ 2 = m := Real.sq_sqrt hm'.le
  rw [e2]
  refine (Finset.abs_sum_le_sum_abs _ _).trans ?_
  have e3 : ∀ k ∈ Finset.range (m + 1), |(g x - g (2 * k / m - 1)) * B k| ≤ L * ((1 / (2 * √m) + 2 * √m * ((m * y - k) / m) ^ 2) * B k) := by
    intro k hk
    have hk' : (k : ℝ) ≤ m := by
      have : k ≤ m := by simpa [Nat.lt_succ_iff] using hk
      exact_mod_cast this
    rw [abs_mul, abs_of_nonneg (hB0 k), ← mul_assoc]
    refine mul_le_mul_of_nonneg_right ?_ (hB0 k)
    have hz : 2 * (k : ℝ) / m - 1 ∈ Set.Icc (-1 : ℝ) 1 := by
      constructor
      · have : 0 ≤ 2 * (k : ℝ) / m := by positivity
        linarith
      · have : 2 * (k : ℝ) / m ≤ 2 := by rw [div_le_iff₀ hm']; linarith
        linarith
    refine (hL x hx _ hz).trans (mul_le_mul_of_nonneg_left ?_ hL0)
    have e : x - (2 * k / m - 1) = 2 * ((m * y - k) / m) := by rw [hy]; field_simp; ring
    rw [e, abs_mul, abs_two]
    set d := (m * y - k) / (m : ℝ) with hd
    have hsq : |d| ^ 2 = d ^ 2 := sq_abs d
    have : 1 / (2 * √m) + 2 * √m * d ^ 2 - 2 * |d| = 1 / (2 * √m) * (1 - 2 * √m * |d|) ^ 2 := by
      rw [← hsq]
      field_simp
      ring
    have : 0 ≤ 1 / (2 * √m) * (1 - 2 * √m * |d|) ^ 2 := by positivity
    linarith
  refine (Finset.sum_le_sum e3).trans ?_
  rw [← Finset.mul_sum, show L / √(m : ℝ) = L * (√(m : ℝ))⁻¹ from div_eq_mul_inv _ _]
  refine mul_le_mul_of_nonneg_left ?_ hL0
  have e4 : ∑ k ∈ Finset.range (m + 1), (1 / (2 * √m) + 2 * √m * ((m * y - k) / m) ^ 2) * B k =
      1 / (2 * √m) * ∑ k ∈ Finset.range (m + 1), B k + 2 * √m / m ^ 2 * ∑ k ∈ Finset.range (m + 1), (m * y - k) ^ 2 * B k := by
    rw [Finset.mul_sum, Finset.mul_sum, ← Finset.sum_add_distrib]
    refine Finset.sum_congr rfl fun k _ => ?_
    field_simp
  rw [e4, hB1, hB2]
  have h4 : y * (1 - y) ≤ 1 / 4 := by nlinarith [sq_nonneg (2 * y - 1)]
  have e5 : 2 * √(m : ℝ) / m ^ 2 * (m * y * (1 - y)) = 2 * (y * (1 - y)) * (√m)⁻¹ := by
    have : (m : ℝ) = √m * √m := by rw [← sq, hss]
    field_simp
    rw [hss]
  rw [e5]
  have e6 : 1 / (2 * √(m : ℝ)) * 1 = 1 / 2 * (√m)⁻¹ := by field_simp
  rw [e6]
  have : 0 < (√(m : ℝ))⁻¹ := by positivity
  nlinarith

/-- the error of a Gauss-Legendre rule for a Lipschitz function -/
theorem lipschitz_rate {n : ℕ} {rule : List (ℝ × ℝ)} (h : IsGaussLegendre n rule) (hn : 0 < n) {g : ℝ → ℝ} {L : ℝ}
    (hL : ∀ x ∈ Set.Icc (-1 : ℝ) 1, ∀ y ∈ Set.Icc (-1 : ℝ) 1, |g x - g y| ≤ L * |x - y|) :
    |quadSum rule g - ∫ x in (-1 : ℝ)..1, g x| ≤ 4 * (L / √((2 * n - 1 : ℕ) : ℝ)) := by
  have hL0 : 0 ≤ L := by
    have := hL 1 (by norm_num) 0 (by norm_num)
    simp at this
    exact (abs_nonneg _).trans this
  have hc : ContinuousOn g (Set.Icc (-1) 1) := by
    have : LipschitzOnWith ⟨L, hL0⟩ g (Set.Icc (-1) 1) := LipschitzOnWith.of_dist_le_mul fun x hx y hy => by
      rw [Real.dist_eq, Real.dist_eq]
      exact hL x hx y hy
    exact this.continuousOn
  have hgi : IntervalIntegrable g volume (-1) 1 := by
    refine ContinuousOn.intervalIntegrable ?_
    rwa [Set.uIcc_of_le (by norm_num)]
  have hd := bern_natDegree (2 * n - 1) g
  exact error_le h hgi (bern (2 * n - 1) g) (by omega) fun x hx => bern_error (by omega) hL hx

end Jaxoplanet.Gauss

namespace Jaxoplanet.LimbDark
open Real MeasureTheory Set Spec Green Gauss
open _root_.Jaxoplanet.Starry.Spec (quadSum IsGaussLegendre)

/-- products of bounded Lipschitz functions -/
theorem lip_mul {f g f' g' F G L K : ℝ} (hf : |f| ≤ F) (hg : |g'| ≤ G) (h1 : |f - f'| ≤ L) (h2 : |g - g'| ≤ K) :
    |f * g - f' * g'| ≤ F * K + L * G := by
  rw [show f * g - f' * g' = f * (g - g') + (f - f') * g' by ring]
  refine (abs_add_le _ _).trans ?_
  rw [abs_mul, abs_mul]
  exact add_le_add (mul_le_mul hf h2 (abs_nonneg _) ((abs_nonneg _).trans hf)) (mul_le_mul h1 hg (abs_nonneg _) ((abs_nonneg _).trans h1))

theorem frac_lip {z z' : ℝ} (hz : 0 ≤ z) (hz' : 0 ≤ z') :
    |(1 + z + z ^ 2) / (3 * (1 + z)) - (1 + z' + z' ^ 2) / (3 * (1 + z'))| ≤ |z ^ 2 - z' ^ 2| := by
  have e : (1 + z + z ^ 2) / (3 * (1 + z)) - (1 + z' + z' ^ 2) / (3 * (1 + z')) =
      (z ^ 2 - z' ^ 2) * ((z + z' + z * z') / (3 * (1 + z) * (1 + z') * (z + z'))) ∨ z + z' = 0 := by
    by_cases h : z + z' = 0
    · exact Or.inr h
    · left
      field_simp
      ring
  rcases e with e | e
  · rw [e, abs_mul]
    refine mul_le_of_le_one_right (abs_nonneg _) ?_
    rw [abs_of_nonneg (by positivity)]
    rcases (add_nonneg hz hz').eq_or_lt with h | h
    · rw [← h]; simp
    · rw [div_le_one (by positivity)]
      have : 0 ≤ z * z' := mul_nonneg hz hz'
      nlinarith [mul_nonneg this hz, mul_nonneg this hz']
  · have h1 : z = 0 := by linarith
    have h2 : z' = 0 := by linarith
    rw [h1, h2]; simp

theorem cos_lip (x y : ℝ) : |cos x - cos y| ≤ |x - y| := Real.abs_cos_sub_cos_le x y

/-- the line integrand is a Lipschitz function of the angle -/
theorem arcIntegrand_lip {b r : ℝ} (hb : 0 ≤ b) (hr : 0 ≤ r) {n : ℕ} (hn : n = 1 ∨ 3 ≤ n) (φ φ' : ℝ) :
    |arcIntegrand b r n φ - arcIntegrand b r n φ'| ≤ (2 * (b * r) + 4 * n * (b * r) * (r * (b + r))) * |φ - φ'| := by
  have hn1 : (1 : ℝ) ≤ n := by
    have : 1 ≤ n := by omega
    exact_mod_cast this
  have hbr : 0 ≤ b * r := mul_nonneg hb hr
  have hsq : ∀ φ, √(1 - b ^ 2 - r ^ 2 + 2 * b * r * cos φ) ^ 2 = max (w b r φ) 0 := by
    intro φ
    rcases le_total 0 (w b r φ) with h | h
    · rw [max_eq_left h]; exact sq_sqrt h
    · rw [max_eq_right h]
      have : √(1 - b ^ 2 - r ^ 2 + 2 * b * r * cos φ) = 0 := sqrt_eq_zero_of_nonpos h
      rw [this]; simp
  have hw1 : ∀ φ, max (w b r φ) 0 ≤ 1 := by
    intro φ
    refine max_le ?_ zero_le_one
    unfold w
    nlinarith [cos_le_one φ, sq_nonneg (b - r)]
  have hwl : |max (w b r φ) 0 - max (w b r φ') 0| ≤ 2 * (b * r) * |φ - φ'| := by
    refine (abs_max_sub_max_le_abs _ _ _).trans ?_
    have : w b r φ - w b r φ' = 2 * (b * r) * (cos φ - cos φ') := by unfold w; ring
    rw [this, abs_mul, abs_of_nonneg (by positivity)]
    exact mul_le_mul_of_nonneg_left (cos_lip _ _) (by positivity)
  have hp : |2 * r * (r - b * cos φ)| ≤ 2 * r * (b + r) := by
    rw [abs_mul, abs_of_nonneg (by positivity)]
    refine mul_le_mul_of_nonneg_left ?_ (by positivity)
    rw [abs_le]
    constructor <;> nlinarith [cos_le_one φ, neg_one_le_cos φ]
  have hpl : |2 * r * (r - b * cos φ) - 2 * r * (r - b * cos φ')| ≤ 2 * (b * r) * |φ - φ'| := by
    rw [show 2 * r * (r - b * cos φ) - 2 * r * (r - b * cos φ') = -(2 * (b * r) * (cos φ - cos φ')) by ring, abs_neg, abs_mul,
      abs_of_nonneg (by positivity : 0 ≤ 2 * (b * r))]
    exact mul_le_mul_of_nonneg_left (cos_lip _ _) (by positivity)
  have key : ∀ q q' : ℝ, |q'| ≤ 1 → |q - q'| ≤ n * (2 * (b * r) * |φ - φ'|) →
      |2 * r * (r - b * cos φ) * q - 2 * r * (r - b * cos φ') * q'| ≤ (2 * (b * r) + 4 * n * (b * r) * (r * (b + r))) * |φ - φ'| := by
    intro q q' h1 h2
    refine (lip_mul hp h1 hpl h2).trans (le_of_eq ?_)
    ring
  unfold arcIntegrand
  refine key _ _ ?_ ?_
  · have h0 := sqrt_nonneg (1 - b ^ 2 - r ^ 2 + 2 * b * r * cos φ')
    have h1 : √(1 - b ^ 2 - r ^ 2 + 2 * b * r * cos φ') ≤ 1 := by
      refine abs_le_of_sq_le_sq' ?_ zero_le_one |>.2
      rw [hsq, one_pow]
      exact hw1 _
    simp only
    split_ifs
    · rw [abs_of_nonneg (by positivity)]
      exact (slope_bound h0 h1).trans (by norm_num)
    · rw [abs_of_nonneg (by positivity)]
      exact pow_le_one₀ h0 h1
  · simp only
    by_cases h : n = 1
    · simp only [h, if_true, Nat.cast_one, one_mul]
      refine (frac_lip (sqrt_nonneg _) (sqrt_nonneg _)).trans ?_
      rw [hsq, hsq]
      exact hwl
    · simp only [h, if_false]
      have e : ∀ φ, √(1 - b ^ 2 - r ^ 2 + 2 * b * r * cos φ) = √(max (w b r φ) 0) := by
        intro φ
        rw [← hsq, sqrt_sq (sqrt_nonneg _)]
      rw [e, e]
      refine (sqrt_pow_lipschitz (le_max_right _ _) (hw1 _) (le_max_right _ _) (hw1 _) n (by omega)).trans ?_
      exact mul_le_mul_of_nonneg_left hwl (by positivity)

theorem bump_lip {eps b r : ℝ} (he : 0 < eps) (hb : 0 ≤ b) (hr : 0 ≤ r) (φ φ' : ℝ) :
    |bump eps b r φ - bump eps b r φ'| ≤ b * r / (5 * eps) * |φ - φ'| := by
  unfold bump
  rw [max_comm, max_comm 0]
  refine (abs_max_sub_max_le_abs _ _ _).trans ?_
  rw [min_comm, min_comm 1]
  refine (abs_min_sub_min_le_max _ _ _ _).trans ?_
  rw [sub_self, abs_zero, max_eq_left (abs_nonneg _)]
  have : 2 - w b r φ / (10 * eps) - (2 - w b r φ' / (10 * eps)) = -(b * r / (5 * eps) * (cos φ - cos φ')) := by
    unfold w
    field_simp
    ring
  rw [this, abs_neg, abs_mul, abs_of_nonneg (by positivity)]
  exact mul_le_mul_of_nonneg_left (cos_lip _ _) (by positivity)

theorem bump_mono {eps η b r : ℝ} (he : 0 < eps) (h : eps ≤ η) {φ : ℝ} (hw : 0 ≤ w b r φ) : bump eps b r φ ≤ bump η b r φ := by
  unfold bump
  have : w b r φ / (10 * η) ≤ w b r φ / (10 * eps) := div_le_div_of_nonneg_left hw (by positivity) (by linarith)
  exact max_le_max le_rfl (min_le_min le_rfl (by linarith))

/-- Bound on the error of the line integral of order `n` computed with a Gauss-Legendre rule of order `order`: the error of
the rule for the Lipschitz integrand, and what the guards change. `η` is any number from `eps` on. -/
noncomputable def rateBound (eps η b r : ℝ) (n order : ℕ) : ℝ :=
  if n = 0 ∨ n = 2 then 0
  else π ^ 2 * (2 * (b * r) + 4 * n * (b * r) * (r * (b + r))) / √((2 * order - 1 : ℕ) : ℝ) +
    if n = 1 then
      π * (r * √(10 * eps)) + (if 20 * eps ≤ 1 - (b + r) ^ 2 then 0 else
        π * (r * (b + r)) * √(5 * η / (b * r)) + π ^ 2 * (r * (b + r) * (b * r / (5 * η))) / √((2 * order - 1 : ℕ) : ℝ))
    else if 4 * b * r < 10 * eps then π * (10 * eps * (1 + 2 * n * r * (b + r))) else 0

theorem rateBound_nonneg {eps η b r : ℝ} (he : 0 ≤ eps) (hη : 0 ≤ η) (hb : 0 ≤ b) (hr : 0 ≤ r) (n order : ℕ) : 0 ≤ rateBound eps η b r n order := by
  unfold rateBound
  split_ifs <;> positivity

/-- a quadrature rule with a Lipschitz integrand over an arc -/
theorem arc_rate {order : ℕ} {rule : List (ℝ × ℝ)} (h : IsGaussLegendre order rule) (ho : 0 < order) {κ : ℝ} (h0 : 0 ≤ κ) (hκ : κ ≤ π)
    {g : ℝ → ℝ} {L : ℝ} (hL0 : 0 ≤ L) (hL : ∀ φ φ', |g φ - g φ'| ≤ L * |φ - φ'|) :
    |κ / 2 * quadSum rule (fun x => g (κ / 2 * (x + 1))) - ∫ φ in (0 : ℝ)..κ, g φ| ≤ π ^ 2 * L / √((2 * order - 1 : ℕ) : ℝ) := by
  rw [← scaled_integral, ← mul_sub, abs_mul, abs_of_nonneg (by linarith : 0 ≤ κ / 2)]
  have := lipschitz_rate h ho (g := fun x => g (κ / 2 * (x + 1))) (L := L * (κ / 2)) (fun x _ y _ => by
    refine (hL _ _).trans (le_of_eq ?_)
    rw [show κ / 2 * (x + 1) - κ / 2 * (y + 1) = κ / 2 * (x - y) by ring, abs_mul, abs_of_nonneg (by linarith : 0 ≤ κ / 2)]
    ring)
  have h2 := mul_le_mul_of_nonneg_left this (by linarith : 0 ≤ κ / 2)
  refine h2.trans ?_
  rw [show κ / 2 * (4 * (L * (κ / 2) / √((2 * order - 1 : ℕ) : ℝ))) = κ ^ 2 * L / √((2 * order - 1 : ℕ) : ℝ) by ring]
  refine div_le_div_of_nonneg_right (mul_le_mul_of_nonneg_right (pow_le_pow_left₀ h0 hκ 2) hL0) (sqrt_nonneg _)

/-- the error of the line integrals at any order -/
theorem quadError_rate {order : ℕ} {rule : List (ℝ × ℝ)} (hq : IsGaussLegendre order rule) (ho : 0 < order) {b r : ℝ} (hb : 0 ≤ b)
    (hr : 0 ≤ r) (h1 : b < 1 + r) (h2 : r < 1 + b) {eps η : ℝ} (he : 0 < eps) (hη : eps ≤ η) (hg : 0 < b ∨ r = 0 ∨ 20 * eps ≤ 1 - r ^ 2) (n : ℕ)
    (hn : n = 1 ∨ 3 ≤ n) : |quadError eps rule b r n| ≤ rateBound eps η b r n order := by
  obtain ⟨k0, kπ, hpos, -⟩ := w_sign hb hr h1 h2
  have hη0 : 0 < η := he.trans_le hη
  set κ := (kappas b r).2.1 with hκ
  set M := √((2 * order - 1 : ℕ) : ℝ) with hM
  -- a Lipschitz bound for the pointwise error
  obtain ⟨G, hGb, hGi⟩ : ∃ G : ℝ → ℝ,
      (∀ x ∈ Icc (-1 : ℝ) 1, |pIntegrand eps b r (b ^ 2) (r ^ 2) κ n x - arcIntegrand b r n (κ / 2 * (x + 1))| ≤ G (κ / 2 * (x + 1))) ∧
      κ / 2 * quadSum rule (fun x => G (κ / 2 * (x + 1))) ≤ rateBound eps η b r n order - π ^ 2 * (2 * (b * r) + 4 * n * (b * r) * (r * (b + r))) / M := by
    have hwx : ∀ x ∈ Icc (-1 : ℝ) 1, 0 ≤ κ / 2 * (x + 1) ∧ κ / 2 * (x + 1) ≤ κ := fun x hx =>
      ⟨mul_nonneg (by linarith) (by linarith [hx.1]), by nlinarith [hx.2]⟩
    have hconst : ∀ c : ℝ, 0 ≤ c → κ / 2 * quadSum rule (fun _ => c) ≤ π * c := by
      intro c hc
      have := arc_rate hq ho k0 kπ (g := fun _ => c) (L := 0) le_rfl (fun _ _ => by simp)
      have h3 := (abs_le.1 this).2
      simp only [mul_zero, zero_div, intervalIntegral.integral_const, sub_zero, smul_eq_mul] at h3
      have := mul_le_mul_of_nonneg_right kπ hc
      linarith
    rcases hn with rfl | hn
    · by_cases h : 20 * eps ≤ 1 - (b + r) ^ 2
      · refine ⟨fun φ => r * √(10 * eps), fun x hx => ?_, ?_⟩
        · refine (integrand_one_error he hb hr κ x (hpos _ (hwx x hx).1 (hwx x hx).2)).trans ?_
          rw [if_neg, add_zero]
          have h3 := neg_one_le_cos (κ / 2 * (x + 1))
          have h5 : 0 ≤ b * r := by positivity
          unfold w
          nlinarith
        · simp only [rateBound, one_ne_zero, OfNat.one_ne_ofNat, or_self, if_false, if_true, h, add_zero, ← hM, add_sub_cancel_left]
          exact hconst _ (by positivity)
      · have hlip : ∀ φ φ', |r * (b + r) * bump η b r φ - r * (b + r) * bump η b r φ'| ≤ (r * (b + r) * (b * r / (5 * η))) * |φ - φ'| := by
          intro φ φ'
          rw [← mul_sub, abs_mul, abs_of_nonneg (by positivity : 0 ≤ r * (b + r)), mul_assoc (r * (b + r))]
          exact mul_le_mul_of_nonneg_left (bump_lip hη0 hb hr φ φ') (by positivity)
        refine ⟨fun φ => r * √(10 * eps) + r * (b + r) * bump η b r φ, fun x hx => ?_, ?_⟩
        · have hw0 := hpos _ (hwx x hx).1 (hwx x hx).2
          refine (integrand_one_error he hb hr κ x hw0).trans ?_
          simp only
          split_ifs with h'
          · have h3 := bump_eq_one he h'
            have h4 := bump_mono he hη hw0
            rw [h3] at h4
            have := mul_le_mul_of_nonneg_left h4 (by positivity : 0 ≤ r * (b + r))
            linarith
          · have := mul_nonneg (by positivity : 0 ≤ r * (b + r)) (bump_nonneg η b r (κ / 2 * (x + 1)))
            linarith
        · have hsplit : quadSum rule (fun x => r * √(10 * eps) + r * (b + r) * bump η b r (κ / 2 * (x + 1))) =
              quadSum rule (fun _ => r * √(10 * eps)) + quadSum rule (fun x => r * (b + r) * bump η b r (κ / 2 * (x + 1))) := by
            unfold quadSum
            simp only [mul_add]
            exact List.sum_map_add
          beta_reduce
          rw [hsplit, mul_add]
          simp only [rateBound, one_ne_zero, OfNat.one_ne_ofNat, or_self, if_false, if_true, h, ← hM, add_sub_cancel_left]
          refine add_le_add (hconst _ (by positivity)) ?_
          have h3 := (abs_le.1 (arc_rate hq ho k0 kπ (by positivity) hlip)).2
          have h4 : ∫ φ in (0 : ℝ)..κ, r * (b + r) * bump η b r φ ≤ π * (r * (b + r)) * √(5 * η / (b * r)) := by
            rw [intervalIntegral.integral_const_mul]
            rcases hr.eq_or_lt with rfl | hr'
            · simp
            have hb' : 0 < b := by
              rcases hg with hg | hg | hg
              · exact hg
              · exact absurd hg hr'.ne'
              · refine hb.lt_of_ne fun h0 => h ?_
                rw [← h0, zero_add]; exact hg
            have := mul_le_mul_of_nonneg_left (bump_integral hη0 hb' hr' k0 kπ (hpos κ k0 le_rfl)) (by positivity : 0 ≤ r * (b + r))
            linarith
          linarith
    · refine ⟨fun _ => if 4 * b * r < 10 * eps then 10 * eps * (1 + 2 * n * r * (b + r)) else 0, fun x hx => ?_, ?_⟩
      · exact integrand_high_error he hb hr κ x hn (hpos _ (hwx x hx).1 (hwx x hx).2)
      · simp only [rateBound]
        rw [if_neg (show ¬ (n = 0 ∨ n = 2) by omega), if_neg (show ¬ n = 1 by omega), ← hM, add_sub_cancel_left]
        split_ifs with h
        · exact hconst _ (by positivity)
        · exact (hconst 0 le_rfl).trans (by simp)
  have harc := arc_rate hq ho k0 kπ (by positivity) (arcIntegrand_lip hb hr hn)
  have hp : pIntegral eps rule b r (b ^ 2) (r ^ 2) κ n = κ / 2 * quadSum rule (pIntegrand eps b r (b ^ 2) (r ^ 2) κ n) := by
    unfold pIntegral quadSum
    rw [show 0.5 * κ = κ / 2 by ring]
    congr 2
    exact List.map_congr_left fun xw _ => mul_comm _ _
  have hd : |quadSum rule (pIntegrand eps b r (b ^ 2) (r ^ 2) κ n) -
      quadSum rule (fun x => arcIntegrand b r n (κ / 2 * (x + 1)))| ≤ quadSum rule (fun x => G (κ / 2 * (x + 1))) := by
    rw [← quadSum_sub, abs_le]
    have hx : ∀ xw ∈ rule, 0 ≤ xw.2 ∧ |pIntegrand eps b r (b ^ 2) (r ^ 2) κ n xw.1 - arcIntegrand b r n (κ / 2 * (xw.1 + 1))| ≤
        G (κ / 2 * (xw.1 + 1)) := fun xw hxw =>
      ⟨(node_facts hq hxw).1.le, hGb _ ⟨(node_facts hq hxw).2.1.le, (node_facts hq hxw).2.2.le⟩⟩
    constructor
    · have := quadSum_mul rule (-1) (fun x => G (κ / 2 * (x + 1)))
      rw [neg_one_mul] at this
      rw [← this]
      refine quadSum_mono fun xw hxw => ⟨(hx xw hxw).1, ?_⟩
      have := (abs_le.1 (hx xw hxw).2).1
      linarith
    · exact quadSum_mono fun xw hxw => ⟨(hx xw hxw).1, (abs_le.1 (hx xw hxw).2).2⟩
  have hd2 : |κ / 2 * quadSum rule (pIntegrand eps b r (b ^ 2) (r ^ 2) κ n) -
      κ / 2 * quadSum rule (fun x => arcIntegrand b r n (κ / 2 * (x + 1)))| ≤ κ / 2 * quadSum rule (fun x => G (κ / 2 * (x + 1))) := by
    rw [← mul_sub, abs_mul, abs_of_nonneg (by linarith : 0 ≤ κ / 2)]
    exact mul_le_mul_of_nonneg_left hd (by linarith)
  unfold quadError
  rw [← hκ, hp]
  have := abs_sub_le (κ / 2 * quadSum rule (pIntegrand eps b r (b ^ 2) (r ^ 2) κ n))
    (κ / 2 * quadSum rule (fun x => arcIntegrand b r n (κ / 2 * (x + 1)))) (∫ φ in (0 : ℝ)..κ, arcIntegrand b r n φ)
  rw [← hM] at harc
  linarith

end Jaxoplanet.LimbDark
