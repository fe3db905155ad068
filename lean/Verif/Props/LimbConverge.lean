import Verif.Proofs.LimbConverge

/-!
# C84: the limb-darkened light curve converges with the order of the Gauss-Legendre quadrature

`quad order` is any family of rules with the documented property of `scipy.special.roots_legendre(order)`
(`IsGaussLegendre`); such a family exists and is unique (`Gauss.exists_gauss`, `Gauss.gauss_unique`).
-/

namespace Jaxoplanet.LimbDark
open Real MeasureTheory Set Spec Green Gauss
open _root_.Jaxoplanet.Starry.Spec (quadSum IsGaussLegendre)

open Filter in
/-- C84: with Gauss-Legendre rules of high enough order, the light curve is minus the hidden fraction of the flux, up to
what the guards of the code change. -/
theorem light_curve_converges {quad : ℕ → List (ℝ × ℝ)} (hq : ∀ n, IsGaussLegendre n (quad n)) {u : List ℝ} (hu : u ≠ [])
    (htot : totalFlux u ≠ 0) (b r : ℝ) (hne : ¬ (|b| = 0 ∧ |r| = 1)) {eps : ℝ} (he : 0 < eps)
    (hg : b ≠ 0 ∨ r = 0 ∨ 1 ≤ |r| ∨ 20 * eps ≤ 1 - r ^ 2) {δ : ℝ} (hδ : 0 < δ) :
    ∃ N, ∀ order ≥ N, |lightCurve eps (quad order) u b r - -blockedFlux u b r / totalFlux u| ≤
      ∑ n ∈ Finset.range (u.length + 1), |greens u n / totalFlux u| * guardLoss eps |b| |r| n + δ := by
  set c : ℕ → ℝ := fun n => |greens u n / totalFlux u| with hc
  set A := ∑ n ∈ Finset.range (u.length + 1), c n with hA
  have hA0 : 0 ≤ A := Finset.sum_nonneg fun n _ => abs_nonneg _
  have hev : ∀ n ∈ Finset.range (u.length + 1), ∀ᶠ order in atTop,
      |if n = 0 ∨ n = 2 ∨ 1 + |r| ≤ |b| ∨ 1 + |b| ≤ |r| then 0 else quadError eps (quad order) |b| |r| n| ≤
        guardLoss eps |b| |r| n + δ / (A + 1) := by
    intro n _
    have hgl := guardLoss_nonneg he.le (abs_nonneg b) (abs_nonneg r) n
    have hd : 0 < δ / (A + 1) := by positivity
    by_cases h : n = 0 ∨ n = 2 ∨ 1 + |r| ≤ |b| ∨ 1 + |b| ≤ |r|
    · simp only [h, if_true, abs_zero]
      exact Eventually.of_forall fun _ => by linarith
    · simp only [h, if_false]
      push Not at h
      refine quadError_eventually hq (abs_nonneg b) (abs_nonneg r) h.2.2.1 h.2.2.2 he ?_ n (by omega) hd
      rcases hg with hg | hg | hg | hg
      · exact Or.inl (abs_pos.2 hg)
      · exact Or.inr (Or.inl (by rw [hg, abs_zero]))
      · left
        by_contra h0
        have : |b| = 0 := le_antisymm (not_lt.1 h0) (abs_nonneg b)
        rw [this] at h
        exact absurd h.2.2.2 (by linarith)
      · exact Or.inr (Or.inr (by rwa [sq_abs]))
  obtain ⟨N, hN⟩ := eventually_atTop.1 ((Finset.eventually_all _).2 hev)
  refine ⟨N, fun order ho => ?_⟩
  have h := hN order ho
  rw [light_curve_flux_all_regimes hu htot b r hne, sub_sub_cancel_left, abs_neg]
  refine (Finset.abs_sum_le_sum_abs _ _).trans ?_
  have hle : ∑ n ∈ Finset.range (u.length + 1), |greens u n / totalFlux u *
      if n = 0 ∨ n = 2 ∨ 1 + |r| ≤ |b| ∨ 1 + |b| ≤ |r| then 0 else quadError eps (quad order) |b| |r| n| ≤
      ∑ n ∈ Finset.range (u.length + 1), (c n * guardLoss eps |b| |r| n + c n * (δ / (A + 1))) := by
    refine Finset.sum_le_sum fun n hn => ?_
    rw [abs_mul, ← mul_add]
    exact mul_le_mul_of_nonneg_left (h n hn) (abs_nonneg _)
  refine hle.trans ?_
  rw [Finset.sum_add_distrib, ← Finset.sum_mul]
  have : A * (δ / (A + 1)) ≤ δ := by
    rw [← mul_div_assoc, div_le_iff₀ (by linarith)]
    nlinarith
  linarith

open Filter Topology in
/-- C84: what the guards change vanishes with the machine epsilon -/
theorem guardLoss_tendsto {b r : ℝ} (hb : 0 ≤ b) (hr : 0 ≤ r) (n : ℕ) :
    Tendsto (fun eps => guardLoss eps b r n) (𝓝[>] 0) (𝓝 0) := by
  have hu : Tendsto (fun eps : ℝ => π * (r * √(10 * eps)) + π * (r * (b + r)) * √(5 * eps / (b * r)) +
      π * (10 * eps * (1 + 2 * n * r * (b + r)))) (𝓝[>] 0) (𝓝 0) := by
    have hc : Continuous (fun eps : ℝ => π * (r * √(10 * eps)) + π * (r * (b + r)) * √(5 * eps / (b * r)) +
      π * (10 * eps * (1 + 2 * n * r * (b + r)))) := by fun_prop
    have := hc.tendsto 0
    simp only [mul_zero, zero_div, sqrt_zero, zero_mul, add_zero] at this
    exact this.mono_left nhdsWithin_le_nhds
  refine squeeze_zero' ?_ ?_ hu
  · filter_upwards [self_mem_nhdsWithin] with eps he
    exact guardLoss_nonneg (le_of_lt he) hb hr n
  · filter_upwards [self_mem_nhdsWithin] with eps he
    have he : 0 < eps := he
    have a1 : 0 ≤ π * (r * √(10 * eps)) := by positivity
    have a2 : 0 ≤ π * (r * (b + r)) * √(5 * eps / (b * r)) := by positivity
    have a3 : 0 ≤ π * (10 * eps * (1 + 2 * n * r * (b + r))) := by positivity
    unfold guardLoss
    split_ifs <;> linarith

open Filter Topology in
/-- C84: for every geometry (but for the exactly concentric occultor of the size of the star) and every limb-darkening law,
any accuracy is reached with a small enough machine epsilon and all orders from some order on. -/
theorem light_curve_limit {quad : ℕ → List (ℝ × ℝ)} (hq : ∀ n, IsGaussLegendre n (quad n)) {u : List ℝ} (hu : u ≠ [])
    (htot : totalFlux u ≠ 0) (b r : ℝ) (hne : ¬ (|b| = 0 ∧ |r| = 1)) {δ : ℝ} (hδ : 0 < δ) :
    ∃ eps₀ > 0, ∀ eps, 0 < eps → eps < eps₀ → ∃ N, ∀ order ≥ N,
      |lightCurve eps (quad order) u b r - -blockedFlux u b r / totalFlux u| < δ := by
  have ht : Tendsto (fun eps => ∑ n ∈ Finset.range (u.length + 1), |greens u n / totalFlux u| * guardLoss eps |b| |r| n)
      (𝓝[>] 0) (𝓝 0) := by
    have := tendsto_finsetSum (Finset.range (u.length + 1)) fun n _ =>
      (guardLoss_tendsto (abs_nonneg b) (abs_nonneg r) n).const_mul |greens u n / totalFlux u|
    simpa using this
  have h1 : ∀ᶠ eps in 𝓝[>] (0 : ℝ), ∑ n ∈ Finset.range (u.length + 1), |greens u n / totalFlux u| * guardLoss eps |b| |r| n < δ / 2 :=
    ht.eventually (gt_mem_nhds (by positivity))
  have h2 : ∀ᶠ eps in 𝓝[>] (0 : ℝ), b ≠ 0 ∨ r = 0 ∨ 1 ≤ |r| ∨ 20 * eps ≤ 1 - r ^ 2 := by
    by_cases hr : |r| < 1
    · have : 0 < (1 - r ^ 2) / 20 := by
        have : r ^ 2 < 1 := by rw [← sq_abs]; nlinarith [abs_nonneg r]
        linarith
      filter_upwards [nhdsWithin_le_nhds (gt_mem_nhds this)] with eps h
      exact Or.inr (Or.inr (Or.inr (by linarith)))
    · exact Eventually.of_forall fun _ => Or.inr (Or.inr (Or.inl (not_lt.1 hr)))
  obtain ⟨e₀, he₀, h⟩ := mem_nhdsGT_iff_exists_Ioo_subset.1 (h1.and h2)
  refine ⟨e₀, he₀, fun eps h0 h3 => ?_⟩
  obtain ⟨p1, p2⟩ := h ⟨h0, h3⟩
  obtain ⟨N, hN⟩ := light_curve_converges hq hu htot b r hne h0 p2 (half_pos hδ)
  exact ⟨N, fun order ho => by have := hN order ho; linarith⟩

/-- F36: next to the exactly concentric occultor of the size of the star. If the occultor is concentric and smaller than
the star by less than about `5 eps`, the linear term keeps the value of the star without occultor. -/
theorem solution_one_annulus (eps : ℝ) (quad : List (ℝ × ℝ)) {r : ℝ} (h0 : 0 ≤ r) (h1 : r < 1) (h : 1 - r ^ 2 < 10 * eps)
    (h2 : 10 * eps ≤ r ^ 2) : solution eps quad 0 r 1 = (∫ p in stellarDisc, mu p) ∧
      (∫ p in stellarDisc, mu p) - (∫ p in stellarDisc ∩ occultor 0 r, mu p) = 2 * π / 3 * √(1 - r ^ 2) ^ 3 := by
  have hk := inside_kappas le_rfl h0 (by linarith : 0 + r ≤ 1) (by linarith) (by linarith : r < 1 + 0)
  have hw := whole_star 1
  simp only [gtil] at hw
  have hocc := solution_occ le_rfl h0 (by linarith : (0 : ℝ) < 1 + r) (by linarith : r < 1 + 0)
  constructor
  · rw [hocc]
    simp only [hk]
    have hp : pIntegral eps quad 0 r (0 ^ 2) (r ^ 2) π 1 = 0 := by
      unfold pIntegral
      have : (quad.map fun xw => pIntegrand eps 0 r (0 ^ 2) (r ^ 2) π 1 xw.1 * xw.2) = quad.map fun _ => 0 := by
        refine List.map_congr_left fun xw _ => ?_
        have e : pIntegrand eps 0 r (0 ^ 2) (r ^ 2) π 1 xw.1 = 0 := by
          simp only [pIntegrand, if_true]
          have e1 : r ^ 2 + 0 ^ 2 - 2 * 0 * r * cos (0.5 * π * xw.1 + 0.5 * π) = r ^ 2 := by ring
          rw [e1, max_eq_right (by positivity), if_pos h, if_neg (by linarith)]
          simp [Kepler.zeroSafeSqrt]
        rw [e, zero_mul]
      rw [this]
      simp
    rw [hp, hw]
    simp
    ring
  · have hs := solution_hidden le_rfl h0 (by linarith : (0 : ℝ) < 1 + r) (by linarith : r < 1 + 0) eps quad 1
    rw [hocc] at hs
    simp only [hk, one_ne_zero, OfNat.one_ne_ofNat, or_self, if_false, quadError, gtil] at hs
    have hz : √(1 - r ^ 2) ^ 2 = 1 - r ^ 2 := sq_sqrt (by nlinarith)
    have hz0 := sqrt_nonneg (1 - r ^ 2)
    have ha : ∫ φ in (0 : ℝ)..π, arcIntegrand 0 r 1 φ = 2 * π / 3 * (1 - √(1 - r ^ 2) ^ 3) := by
      simp only [arcIntegrand, if_true]
      have e1 : ∀ φ : ℝ, 1 - 0 ^ 2 - r ^ 2 + 2 * 0 * r * cos φ = 1 - r ^ 2 := fun φ => by ring
      simp only [e1, zero_mul, sub_zero, intervalIntegral.integral_const, smul_eq_mul]
      generalize √(1 - r ^ 2) = z at *
      have : 1 + z ≠ 0 := by linarith
      field_simp
      have : r ^ 2 = 1 - z ^ 2 := by linarith
      rw [this]
      ring
    rw [ha] at hs
    linarith

/-- there is a family of Gauss-Legendre rules, and a quadratic law, a transit and the epsilon of double precision that meet
the hypotheses -/
example : (∃ quad : ℕ → List (ℝ × ℝ), ∀ n, IsGaussLegendre n (quad n)) ∧ totalFlux [0.1, 0.3] ≠ 0 ∧
    ¬ (|(1 : ℝ) / 2| = 0 ∧ |(1 : ℝ) / 10| = 1) ∧ (0 : ℝ) < 2 ^ (-52 : ℤ) := by
  refine ⟨⟨fun n => (exists_gauss n).choose, fun n => (exists_gauss n).choose_spec⟩, ?_, by norm_num, by positivity⟩
  rw [totalFlux_eq (by simp)]
  have h0 : greens [0.1, 0.3] 0 = 0.6 - 2 * (0.3 / 4) := by
    simp [greens, uAug, gHigh_of_lt, gHigh_of_ge, pCoeff, Finset.sum_range_succ]; norm_num
  have h1 : greens [0.1, 0.3] 1 = 0.7 := by
    simp [greens, uAug, gHigh_of_ge, pCoeff, Finset.sum_range_succ]; norm_num
  rw [h0, h1]
  have := pi_pos
  norm_num

/-- for this transit the guards change less than `10⁻⁷` -/
example : guardLoss (2 ^ (-52 : ℤ)) (1 / 2) (1 / 10) 1 < 1e-7 := by
  have h1 : √(10 * (2 : ℝ) ^ (-52 : ℤ)) < 1e-7 := by
    rw [sqrt_lt' (by norm_num)]
    norm_num
  have h2 := pi_le_four
  have h3 := pi_pos
  have h4 := sqrt_nonneg (10 * (2 : ℝ) ^ (-52 : ℤ))
  unfold guardLoss
  rw [if_neg (by norm_num), if_pos rfl, if_pos (by norm_num), add_zero]
  nlinarith

/-- an occultor that meets the hypotheses of `solution_one_annulus` -/
example : (1 : ℝ) - (1 - 2 ^ (-53 : ℤ)) ^ 2 < 10 * 2 ^ (-52 : ℤ) ∧ 10 * (2 : ℝ) ^ (-52 : ℤ) ≤ (1 - 2 ^ (-53 : ℤ)) ^ 2 := by
  constructor <;> norm_num

end Jaxoplanet.LimbDark
