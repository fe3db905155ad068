import Verif.Props.LimbDark
import Verif.Proofs.Gauss

/-!
# Convergence of the line integrals of `core/limb_dark.py` with the order of the quadrature
-/

namespace Jaxoplanet.LimbDark
open Real MeasureTheory Set Spec Green Gauss
open _root_.Jaxoplanet.Starry.Spec (quadSum IsGaussLegendre)

theorem slope_bound {z : ℝ} (h0 : 0 ≤ z) (h1 : z ≤ 1) : (1 + z + z ^ 2) / (3 * (1 + z)) ≤ 1 / 2 := by
  rw [div_le_div_iff₀ (by linarith) (by norm_num)]
  nlinarith

/-- order 1: what the guards of the code change -/
theorem integrand_one_error {eps b r : ℝ} (he : 0 < eps) (hb : 0 ≤ b) (hr : 0 ≤ r) (κ x : ℝ)
    (hw : 0 ≤ w b r (κ / 2 * (x + 1))) :
    |pIntegrand eps b r (b ^ 2) (r ^ 2) κ 1 x - arcIntegrand b r 1 (κ / 2 * (x + 1))| ≤
      r * √(10 * eps) + if w b r (κ / 2 * (x + 1)) < 10 * eps then r * (b + r) else 0 := by
  have hang : 0.5 * κ * x + 0.5 * κ = κ / 2 * (x + 1) := by ring
  set φ := κ / 2 * (x + 1) with hφ
  have hw1 := w_le_one b r φ
  have hR : 0 ≤ r * √(10 * eps) := by positivity
  have hI : 0 ≤ if w b r φ < 10 * eps then r * (b + r) else 0 := by split_ifs <;> positivity
  have hs0 := sqrt_nonneg (w b r φ)
  have hs1 : √(w b r φ) ≤ 1 := sqrt_le_one.2 hw1
  have harc : |arcIntegrand b r 1 φ| ≤ r * |r - b * cos φ| := by
    have e : arcIntegrand b r 1 φ = 2 * r * (r - b * cos φ) * ((1 + √(w b r φ) + √(w b r φ) ^ 2) / (3 * (1 + √(w b r φ)))) := by
      simp [arcIntegrand, w]
    rw [e, abs_mul, abs_mul, abs_of_nonneg (by positivity : 0 ≤ 2 * r),
      abs_of_nonneg (by positivity : 0 ≤ (1 + √(w b r φ) + √(w b r φ) ^ 2) / (3 * (1 + √(w b r φ))))]
    have := mul_le_mul_of_nonneg_left (slope_bound hs0 hs1) (by positivity : 0 ≤ 2 * r * |r - b * cos φ|)
    linarith
  have hzero : ∀ v : ℝ, |0 - v| = |v| := fun v => by rw [zero_sub, abs_neg]
  have earg : r ^ 2 + b ^ 2 - 2 * b * r * cos φ = 1 - w b r φ := by rw [w]; ring
  by_cases h1 : 1 - w b r φ < 10 * eps
  · have e : pIntegrand eps b r (b ^ 2) (r ^ 2) κ 1 x = 0 := by
      simp only [pIntegrand, if_true, hang, earg]
      rw [max_eq_right (by linarith), if_pos h1]
    rw [e, hzero]
    have hle : |r - b * cos φ| ≤ √(10 * eps) := by
      refine abs_le_sqrt (le_trans ?_ h1.le)
      rw [← earg]
      nlinarith [mul_nonneg (sq_nonneg b) (sq_nonneg (sin φ)), sin_sq_add_cos_sq φ]
    linarith [mul_le_mul_of_nonneg_left hle hr]
  by_cases h2 : w b r φ < 10 * eps
  · have e : pIntegrand eps b r (b ^ 2) (r ^ 2) κ 1 x = 0 := by
      simp only [pIntegrand, if_true, hang, earg]
      rw [max_eq_right (by linarith), sub_sub_cancel, if_pos h2, if_neg h1]
      simp [Kepler.zeroSafeSqrt]
    rw [e, hzero, if_pos h2]
    have hle : |r - b * cos φ| ≤ b + r := by
      have h3 := neg_one_le_cos φ
      have h4 := cos_le_one φ
      rw [abs_le]
      constructor <;> nlinarith
    linarith [mul_le_mul_of_nonneg_left hle hr]
  · rw [integrand_exact eps κ x (Or.inl rfl) hw (fun _ => ⟨not_lt.1 h2, not_lt.1 h1, by intro h; rw [← hφ] at h; linarith⟩) (fun h => by omega)]
    rw [sub_self, abs_zero]
    linarith

/-- `x ↦ x^n` with `n ≥ 2` in terms of the square: Lipschitz -/
theorem sqrt_pow_lipschitz {x y : ℝ} (hx : 0 ≤ x) (hx1 : x ≤ 1) (hy : 0 ≤ y) (hy1 : y ≤ 1) (n : ℕ) (hn : 2 ≤ n) :
    |√x ^ n - √y ^ n| ≤ n * |x - y| := by
  obtain ⟨m, rfl⟩ : ∃ m, n = m + 2 := ⟨n - 2, by omega⟩
  clear hn
  have hsx0 := sqrt_nonneg x
  have hsy0 := sqrt_nonneg y
  have hsx : √x ≤ 1 := sqrt_le_one.2 hx1
  have hsy : √y ≤ 1 := sqrt_le_one.2 hy1
  have e : |x - y| = |√x ^ 2 - √y ^ 2| := by rw [sq_sqrt hx, sq_sqrt hy]
  rw [e]
  clear e
  generalize √x = p at *
  generalize √y = q at *
  have hpq : |p ^ 2 - q ^ 2| = |p - q| * (p + q) := by
    rw [show p ^ 2 - q ^ 2 = (p - q) * (p + q) by ring, abs_mul, abs_of_nonneg (by linarith : 0 ≤ p + q)]
  induction m with
  | zero =>
    push_cast
    nlinarith [abs_nonneg (p ^ 2 - q ^ 2)]
  | succ m ih =>
    have e : p ^ (m + 1 + 2) - q ^ (m + 1 + 2) = p * (p ^ (m + 2) - q ^ (m + 2)) + q ^ (m + 2) * (p - q) := by ring
    rw [e]
    refine (abs_add_le _ _).trans ?_
    rw [abs_mul, abs_mul, abs_of_nonneg hsx0, abs_of_nonneg (pow_nonneg hsy0 _)]
    have h1 : p * |p ^ (m + 2) - q ^ (m + 2)| ≤ |p ^ (m + 2) - q ^ (m + 2)| := mul_le_of_le_one_left (abs_nonneg _) hsx
    have h2 : q ^ (m + 2) ≤ p + q := by
      have : q ^ (m + 2) ≤ q := pow_le_of_le_one hsy0 hsy (by omega)
      linarith
    have h3 := mul_le_mul_of_nonneg_right h2 (abs_nonneg (p - q))
    have e2 : ((m + 1 + 2 : ℕ) : ℝ) * |p ^ 2 - q ^ 2| = ((m + 2 : ℕ) : ℝ) * |p ^ 2 - q ^ 2| + |p ^ 2 - q ^ 2| := by push_cast; ring
    rw [e2]
    nlinarith

/-- orders above 2: what the guard on `4 b r` changes -/
theorem integrand_high_error {eps b r : ℝ} (he : 0 < eps) (hb : 0 ≤ b) (hr : 0 ≤ r) (κ x : ℝ) {n : ℕ} (hn : 3 ≤ n)
    (hw : 0 ≤ w b r (κ / 2 * (x + 1))) :
    |pIntegrand eps b r (b ^ 2) (r ^ 2) κ n x - arcIntegrand b r n (κ / 2 * (x + 1))| ≤
      if 4 * b * r < 10 * eps then 10 * eps * (1 + 2 * n * r * (b + r)) else 0 := by
  split_ifs with hk
  swap
  · have h := not_lt.1 hk
    rw [integrand_exact eps κ x (Or.inr hn) hw (fun h => by omega) (fun _ => Or.inl ⟨h, by linarith⟩), sub_self, abs_zero]
  have hang : 0.5 * κ * x + 0.5 * κ = κ / 2 * (x + 1) := by ring
  have hs2 : sin ((0.5 * κ * x + 0.5 * κ) / 2) ^ 2 = (1 - cos (κ / 2 * (x + 1))) / 2 := by
    rw [hang, sin_sq, cos_sq]; ring_nf
  set φ := κ / 2 * (x + 1) with hφ
  have hw1 := w_le_one b r φ
  have hn1 : n ≠ 1 := by omega
  have hF0 : 0 ≤ max 0 (1 - r ^ 2) := le_max_left _ _
  have hF1 : max 0 (1 - r ^ 2) ≤ 1 := max_le zero_le_one (by nlinarith)
  have e1 : pIntegrand eps b r (b ^ 2) (r ^ 2) κ n x = √(max 0 (1 - r ^ 2)) ^ n * (2 * r * (r - b * cos φ)) := by
    have hs : √(max 0 (1 - r ^ 2)) ^ n = (max 0 (1 - r ^ 2)) ^ (0.5 * (n : ℝ)) := by
      rw [sqrt_eq_rpow, ← rpow_natCast (_ ^ ((1 : ℝ) / 2)), ← rpow_mul hF0]; norm_num
    simp only [pIntegrand, if_neg hn1, hs2, if_pos hk]
    rw [hs]
    ring
  have e2 : arcIntegrand b r n φ = √(w b r φ) ^ n * (2 * r * (r - b * cos φ)) := by
    simp only [arcIntegrand, if_neg hn1, w]; ring
  have hc : |r - b * cos φ| ≤ b + r := by
    have h3 := neg_one_le_cos φ
    have h4 := cos_le_one φ
    rw [abs_le]
    constructor <;> nlinarith
  rw [e1, e2, ← sub_mul, abs_mul, abs_mul, abs_of_nonneg (by positivity : 0 ≤ 2 * r)]
  have hD1 := sqrt_pow_lipschitz hF0 hF1 hw hw1 n (by omega)
  have hD2 : |√(max 0 (1 - r ^ 2)) ^ n - √(w b r φ) ^ n| ≤ 1 := by
    have p1 : √(max 0 (1 - r ^ 2)) ^ n ≤ 1 := pow_le_one₀ (sqrt_nonneg _) (sqrt_le_one.2 hF1)
    have p2 : √(w b r φ) ^ n ≤ 1 := pow_le_one₀ (sqrt_nonneg _) (sqrt_le_one.2 hw1)
    have p3 : 0 ≤ √(max 0 (1 - r ^ 2)) ^ n := by positivity
    have p4 : 0 ≤ √(w b r φ) ^ n := by positivity
    rw [abs_le]; constructor <;> linarith
  have hD3 : |max 0 (1 - r ^ 2) - w b r φ| ≤ b ^ 2 + 2 * b * r := by
    have h1 : w b r φ = max 0 (w b r φ) := (max_eq_right hw).symm
    rw [h1, max_comm 0, max_comm 0]
    refine (abs_max_sub_max_le_abs _ _ _).trans ?_
    rw [show 1 - r ^ 2 - w b r φ = b ^ 2 - 2 * b * r * cos φ by rw [w]; ring]
    have h3 := neg_one_le_cos φ
    have h4 := cos_le_one φ
    have h5 : 0 ≤ b * r := by positivity
    rw [abs_le]; constructor <;> nlinarith
  have hN : (0 : ℝ) ≤ n := n.cast_nonneg
  have hdc : 0 ≤ |√(max 0 (1 - r ^ 2)) ^ n - √(w b r φ) ^ n| := abs_nonneg _
  have hbr : 0 ≤ r * (b + r) := by positivity
  have hmul : 2 * r * |r - b * cos φ| ≤ 2 * (r * (b + r)) := by nlinarith
  rcases le_total b r with h | h
  · have h6 : b ^ 2 + 2 * b * r ≤ 10 * eps := by nlinarith
    have h7 : |√(max 0 (1 - r ^ 2)) ^ n - √(w b r φ) ^ n| ≤ n * (10 * eps) :=
      hD1.trans (mul_le_mul_of_nonneg_left (hD3.trans h6) hN)
    have h8 := mul_le_mul h7 hmul (by positivity) (by positivity)
    nlinarith
  · have h6 : 2 * (r * (b + r)) ≤ 10 * eps := by nlinarith
    have h8 := mul_le_mul hD2 (hmul.trans h6) (by positivity) zero_le_one
    have : 0 ≤ 10 * eps * (2 * n * (r * (b + r))) := by positivity
    nlinarith

/-- a continuous bump that is 1 where the limb guard of order 1 fires -/
noncomputable def bump (eps b r φ : ℝ) : ℝ := max 0 (min 1 (2 - w b r φ / (10 * eps)))

theorem continuous_bump (eps b r : ℝ) : Continuous (bump eps b r) := by
  have := continuous_w b r
  unfold bump
  fun_prop

theorem bump_nonneg (eps b r φ : ℝ) : 0 ≤ bump eps b r φ := le_max_left _ _

theorem bump_le_one (eps b r φ : ℝ) : bump eps b r φ ≤ 1 := max_le zero_le_one (min_le_left _ _)

theorem bump_eq_one {eps b r φ : ℝ} (he : 0 < eps) (h : w b r φ < 10 * eps) : bump eps b r φ = 1 := by
  have : w b r φ / (10 * eps) ≤ 1 := by rw [div_le_one (by positivity)]; exact h.le
  unfold bump
  rw [min_eq_left (by linarith), max_eq_right zero_le_one]

theorem bump_eq_zero {eps b r φ : ℝ} (he : 0 < eps) (h : 20 * eps ≤ w b r φ) : bump eps b r φ = 0 := by
  have : 2 ≤ w b r φ / (10 * eps) := by rw [le_div_iff₀ (by positivity)]; linarith
  unfold bump
  exact max_eq_left ((min_le_right _ _).trans (by linarith))

/-- the arc on which the limb guard can fire is short -/
theorem near_limb {κ φ : ℝ} (h0 : 0 ≤ φ) (h1 : φ ≤ κ) (hκ : κ ≤ π) : 2 * ((κ - φ) / π) ^ 2 ≤ cos φ - cos κ := by
  have e : cos φ - cos κ = 2 * sin ((κ + φ) / 2) * sin ((κ - φ) / 2) := by
    rw [cos_sub_cos]
    rw [show -2 * sin ((φ + κ) / 2) * sin ((φ - κ) / 2) = 2 * sin ((φ + κ) / 2) * -sin ((φ - κ) / 2) by ring, ← sin_neg]
    ring_nf
  have hp := pi_pos
  have hj : 2 / π * ((κ - φ) / 2) ≤ sin ((κ - φ) / 2) := mul_le_sin (by linarith) (by linarith)
  have hj' : (κ - φ) / π ≤ sin ((κ - φ) / 2) := by
    refine le_trans (le_of_eq ?_) hj
    field_simp
  have hs : sin ((κ - φ) / 2) ≤ sin ((κ + φ) / 2) := by
    rcases le_total ((κ + φ) / 2) (π / 2) with h | h
    · exact sin_le_sin_of_le_of_le_pi_div_two (by linarith) h (by linarith)
    · rw [← sin_pi_sub ((κ + φ) / 2)]
      exact sin_le_sin_of_le_of_le_pi_div_two (by linarith) (by linarith) (by linarith)
  have h2 : 0 ≤ (κ - φ) / π := div_nonneg (by linarith) hp.le
  rw [e]
  nlinarith [mul_le_mul hj' hj' h2 (h2.trans hj'), mul_le_mul_of_nonneg_right hs (h2.trans hj')]

theorem bump_integral {eps b r κ : ℝ} (he : 0 < eps) (hb : 0 < b) (hr : 0 < r) (h0 : 0 ≤ κ) (hκ : κ ≤ π) (hw : 0 ≤ w b r κ) :
    ∫ φ in (0 : ℝ)..κ, bump eps b r φ ≤ π * √(5 * eps / (b * r)) := by
  set T := π * √(5 * eps / (b * r)) with hT
  have hT0 : 0 ≤ T := by positivity
  have hi : ∀ a c, IntervalIntegrable (bump eps b r) volume a c := fun a c => (continuous_bump eps b r).intervalIntegrable a c
  have hone : ∀ a c : ℝ, a ≤ c → ∫ φ in a..c, bump eps b r φ ≤ c - a := by
    intro a c hac
    have := intervalIntegral.integral_mono_on hac (hi a c) (intervalIntegrable_const (c := (1 : ℝ))) fun φ _ => bump_le_one eps b r φ
    simpa using this
  rcases le_total κ T with h | h
  · exact (hone 0 κ h0).trans (by linarith)
  · rw [← intervalIntegral.integral_add_adjacent_intervals (hi 0 (κ - T)) (hi (κ - T) κ)]
    have hz : ∫ φ in (0 : ℝ)..(κ - T), bump eps b r φ = 0 := by
      rw [intervalIntegral.integral_congr (g := fun _ => (0 : ℝ))]
      · simp
      intro φ hφ
      rw [uIcc_of_le (by linarith)] at hφ
      refine bump_eq_zero he ?_
      have h1 := near_limb hφ.1 (by linarith [hφ.2]) hκ
      have h2 : T / π ≤ (κ - φ) / π := div_le_div_of_nonneg_right (by linarith [hφ.2]) pi_pos.le
      have h3 : T / π = √(5 * eps / (b * r)) := by rw [hT]; field_simp
      rw [h3] at h2
      have h4 : 5 * eps / (b * r) ≤ ((κ - φ) / π) ^ 2 := by
        rw [← sq_sqrt (by positivity : 0 ≤ 5 * eps / (b * r))]
        exact pow_le_pow_left₀ (sqrt_nonneg _) h2 2
      have h5 : w b r φ = w b r κ + 2 * b * r * (cos φ - cos κ) := by unfold w; ring
      have hbr : 0 < b * r := by positivity
      have h6 : 5 * eps ≤ ((κ - φ) / π) ^ 2 * (b * r) := by rwa [div_le_iff₀ hbr] at h4
      rw [h5]
      nlinarith
    rw [hz, zero_add]
    exact (hone _ _ (by linarith)).trans (by linarith)

/-- Bound on what the `10 eps` guards of the code take away from (or add to) the line integral of order `n`.
Order 1 drops the integrand within `10 eps` of the centre of the star and, if the occultor comes near the limb, within
`10 eps` of the limb; orders above 2 ignore a separation that is too small. -/
noncomputable def guardLoss (eps b r : ℝ) (n : ℕ) : ℝ :=
  if n = 0 ∨ n = 2 then 0
  else if n = 1 then
    π * (r * √(10 * eps)) + (if 20 * eps ≤ 1 - (b + r) ^ 2 then 0 else π * (r * (b + r)) * √(5 * eps / (b * r)))
  else if 4 * b * r < 10 * eps then π * (10 * eps * (1 + 2 * n * r * (b + r))) else 0

theorem scaled_integral (κ : ℝ) (g : ℝ → ℝ) : κ / 2 * ∫ x in (-1 : ℝ)..1, g (κ / 2 * (x + 1)) = ∫ φ in (0 : ℝ)..κ, g φ := by
  have h := intervalIntegral.mul_integral_comp_mul_add (a := (-1 : ℝ)) (b := 1) (f := g) (κ / 2) (κ / 2)
  rw [show κ / 2 * -1 + κ / 2 = 0 by ring, show κ / 2 * 1 + κ / 2 = κ by ring] at h
  simp only [← h, mul_add, mul_one]

theorem continuous_arcIntegrand (b r : ℝ) (n : ℕ) : Continuous (arcIntegrand b r n) := by
  unfold arcIntegrand
  by_cases hn : n = 1
  · simp only [hn, if_true]
    refine Continuous.mul (by fun_prop) (Continuous.div (by fun_prop) (by fun_prop) fun φ => ?_)
    have := sqrt_nonneg (1 - b ^ 2 - r ^ 2 + 2 * b * r * cos φ)
    positivity
  · simp only [hn, if_false]
    fun_prop

open Filter in
/-- the quadrature error is, in the limit of high order, at most what the guards change -/
theorem quadError_eventually {quad : ℕ → List (ℝ × ℝ)} (hq : ∀ n, IsGaussLegendre n (quad n)) {b r : ℝ} (hb : 0 ≤ b)
    (hr : 0 ≤ r) (h1 : b < 1 + r) (h2 : r < 1 + b) {eps : ℝ} (he : 0 < eps) (hg : 0 < b ∨ r = 0 ∨ 20 * eps ≤ 1 - r ^ 2) (n : ℕ)
    (hn : n = 1 ∨ 3 ≤ n) {δ : ℝ} (hδ : 0 < δ) :
    ∀ᶠ order in atTop, |quadError eps (quad order) b r n| ≤ guardLoss eps b r n + δ := by
  obtain ⟨k0, kπ, hpos, -⟩ := w_sign hb hr h1 h2
  set κ := (kappas b r).2.1 with hκ
  -- a continuous bound for the pointwise error
  obtain ⟨G, hG, hGb, hGi⟩ : ∃ G : ℝ → ℝ, Continuous G ∧
      (∀ x ∈ Icc (-1 : ℝ) 1, |pIntegrand eps b r (b ^ 2) (r ^ 2) κ n x - arcIntegrand b r n (κ / 2 * (x + 1))| ≤ G (κ / 2 * (x + 1))) ∧
      ∫ φ in (0 : ℝ)..κ, G φ ≤ guardLoss eps b r n := by
    have hwx : ∀ x ∈ Icc (-1 : ℝ) 1, 0 ≤ κ / 2 * (x + 1) ∧ κ / 2 * (x + 1) ≤ κ := fun x hx =>
      ⟨mul_nonneg (by linarith) (by linarith [hx.1]), by nlinarith [hx.2]⟩
    rcases hn with rfl | hn
    · have hint : IntervalIntegrable (bump eps b r) volume 0 κ := (continuous_bump eps b r).intervalIntegrable _ _
      refine ⟨fun φ => r * √(10 * eps) + r * (b + r) * bump eps b r φ, ?_, fun x hx => ?_, ?_⟩
      · have := continuous_bump eps b r
        fun_prop
      · refine (integrand_one_error he hb hr κ x (hpos _ (hwx x hx).1 (hwx x hx).2)).trans ?_
        simp only
        split_ifs with h
        · rw [bump_eq_one he h, mul_one]
        · have := mul_nonneg (by positivity : 0 ≤ r * (b + r)) (bump_nonneg eps b r (κ / 2 * (x + 1)))
          linarith
      · rw [intervalIntegral.integral_add (by simp) (hint.const_mul _), intervalIntegral.integral_const_mul (r * (b + r))]
        simp only [intervalIntegral.integral_const, sub_zero, smul_eq_mul, guardLoss, one_ne_zero, OfNat.one_ne_ofNat, or_self, if_false, if_true]
        have hR : 0 ≤ r * √(10 * eps) := by positivity
        refine add_le_add (mul_le_mul_of_nonneg_right kπ hR) ?_
        split_ifs with h
        · rw [intervalIntegral.integral_congr (g := fun _ => (0 : ℝ))]
          · simp
          intro φ _
          refine bump_eq_zero he (h.trans ?_)
          have h3 := neg_one_le_cos φ
          have h5 : 0 ≤ b * r := by positivity
          unfold w
          nlinarith
        · rcases hr.eq_or_lt with rfl | hr'
          · simp
          have hb' : 0 < b := by
            rcases hg with hg | hg | hg
            · exact hg
            · exact absurd hg hr'.ne'
            · refine hb.lt_of_ne fun h0 => h ?_
              rw [← h0, zero_add]; exact hg
          have := mul_le_mul_of_nonneg_left (bump_integral he hb' hr' k0 kπ (hpos κ k0 le_rfl)) (by positivity : 0 ≤ r * (b + r))
          linarith
    · refine ⟨fun _ => if 4 * b * r < 10 * eps then 10 * eps * (1 + 2 * n * r * (b + r)) else 0, continuous_const, fun x hx => ?_, ?_⟩
      · exact integrand_high_error he hb hr κ x hn (hpos _ (hwx x hx).1 (hwx x hx).2)
      · simp only [guardLoss, intervalIntegral.integral_const, sub_zero, smul_eq_mul]
        rw [if_neg (show ¬ (n = 0 ∨ n = 2) by omega), if_neg (show ¬ n = 1 by omega)]
        split_ifs with h
        · exact mul_le_mul_of_nonneg_right kπ (by positivity)
        · simp
  have harc : Continuous fun x => arcIntegrand b r n (κ / 2 * (x + 1)) := (continuous_arcIntegrand b r n).comp (by fun_prop)
  have hGc : Continuous fun x => G (κ / 2 * (x + 1)) := hG.comp (by fun_prop)
  have t1 := (tendsto_quadSum hq harc.continuousOn).const_mul (κ / 2)
  have t2 := (tendsto_quadSum hq hGc.continuousOn).const_mul (κ / 2)
  rw [scaled_integral] at t1
  rw [scaled_integral] at t2
  have e1 := (Metric.tendsto_nhds.1 t1 (δ / 2) (by positivity))
  have e2 := (Metric.tendsto_nhds.1 t2 (δ / 2) (by positivity))
  filter_upwards [e1, e2] with order h1 h2
  rw [Real.dist_eq] at h1 h2
  have hp : pIntegral eps (quad order) b r (b ^ 2) (r ^ 2) κ n =
      κ / 2 * quadSum (quad order) (pIntegrand eps b r (b ^ 2) (r ^ 2) κ n) := by
    unfold pIntegral quadSum
    rw [show 0.5 * κ = κ / 2 by ring]
    congr 2
    exact List.map_congr_left fun xw _ => mul_comm _ _
  have hd : |quadSum (quad order) (pIntegrand eps b r (b ^ 2) (r ^ 2) κ n) -
      quadSum (quad order) (fun x => arcIntegrand b r n (κ / 2 * (x + 1)))| ≤ quadSum (quad order) (fun x => G (κ / 2 * (x + 1))) := by
    rw [← quadSum_sub, abs_le]
    have hx : ∀ xw ∈ quad order, 0 ≤ xw.2 ∧ |pIntegrand eps b r (b ^ 2) (r ^ 2) κ n xw.1 - arcIntegrand b r n (κ / 2 * (xw.1 + 1))| ≤
        G (κ / 2 * (xw.1 + 1)) := fun xw hxw =>
      ⟨(node_facts (hq order) hxw).1.le, hGb _ ⟨(node_facts (hq order) hxw).2.1.le, (node_facts (hq order) hxw).2.2.le⟩⟩
    constructor
    · have := quadSum_mul (quad order) (-1) (fun x => G (κ / 2 * (x + 1)))
      rw [neg_one_mul] at this
      rw [← this]
      refine quadSum_mono fun xw hxw => ⟨(hx xw hxw).1, ?_⟩
      have := (abs_le.1 (hx xw hxw).2).1
      linarith
    · exact quadSum_mono fun xw hxw => ⟨(hx xw hxw).1, (abs_le.1 (hx xw hxw).2).2⟩
  have hd2 : |κ / 2 * quadSum (quad order) (pIntegrand eps b r (b ^ 2) (r ^ 2) κ n) -
      κ / 2 * quadSum (quad order) (fun x => arcIntegrand b r n (κ / 2 * (x + 1)))| ≤ κ / 2 * quadSum (quad order) (fun x => G (κ / 2 * (x + 1))) := by
    rw [← mul_sub, abs_mul, abs_of_nonneg (by linarith : 0 ≤ κ / 2)]
    exact mul_le_mul_of_nonneg_left hd (by linarith)
  unfold quadError
  rw [← hκ, hp]
  have := abs_sub_le (κ / 2 * quadSum (quad order) (pIntegrand eps b r (b ^ 2) (r ^ 2) κ n))
    (κ / 2 * quadSum (quad order) (fun x => arcIntegrand b r n (κ / 2 * (x + 1)))) (∫ φ in (0 : ℝ)..κ, arcIntegrand b r n φ)
  have h3 := (abs_le.1 h2.le).2
  linarith

theorem guardLoss_nonneg {eps b r : ℝ} (he : 0 ≤ eps) (hb : 0 ≤ b) (hr : 0 ≤ r) (n : ℕ) : 0 ≤ guardLoss eps b r n := by
  unfold guardLoss
  split_ifs <;> positivity

end Jaxoplanet.LimbDark
