import Verif.Props.Kepler
import Verif.Props.KeplerAccuracy

/-!
# C96: accuracy of the derivatives of `kepler()`

The derivative rule is evaluated at the numerical solution. The derivatives are within `1.3e-13 (8 |dM| / (1 - e²)^(3/2) + 7 |de| / (1 - e²))` of the
exact derivatives of the true anomaly's sine and cosine.
-/

namespace Jaxoplanet.Kepler
open Real Spec Filter Topology

/-- the derivative rule at two nearby points of the unit circle -/
theorem jvpTangent_stable {s c s' c' e M_dot e_dot δ : ℝ} (he0 : 0 ≤ e) (he : e < 1) (h : s ^ 2 + c ^ 2 = 1) (h' : s' ^ 2 + c' ^ 2 = 1)
    (hs : |s - s'| ≤ δ) (hc : |c - c'| ≤ δ) :
    |(jvpTangent s c e M_dot e_dot).1 - (jvpTangent s' c' e M_dot e_dot).1| ≤ δ * (8 * (|M_dot| / (1 - e ^ 2) ^ (1.5 : ℝ)) + 7 * (|e_dot| / (1 - e ^ 2))) ∧
    |(jvpTangent s c e M_dot e_dot).2 - (jvpTangent s' c' e M_dot e_dot).2| ≤ δ * (8 * (|M_dot| / (1 - e ^ 2) ^ (1.5 : ℝ)) + 7 * (|e_dot| / (1 - e ^ 2))) := by
  have hee : 0 < 1 - e ^ 2 := by nlinarith
  have hpw : 0 < (1 - e ^ 2) ^ (1.5 : ℝ) := Real.rpow_pos_of_pos hee _
  set A := M_dot / (1 - e ^ 2) ^ (1.5 : ℝ) with hA
  set B := e_dot / (1 - e ^ 2) with hB
  have hA' : |M_dot| / (1 - e ^ 2) ^ (1.5 : ℝ) = |A| := by rw [hA, abs_div, abs_of_pos hpw]
  have hB' : |e_dot| / (1 - e ^ 2) = |B| := by rw [hB, abs_div, abs_of_pos hee]
  have hδ : 0 ≤ δ := (abs_nonneg _).trans hs
  have bc : |c| ≤ 1 := abs_le_of_sq_le_sq (by nlinarith [sq_nonneg s]) zero_le_one
  have bs : |s| ≤ 1 := abs_le_of_sq_le_sq (by nlinarith [sq_nonneg c]) zero_le_one
  have bc' : |c'| ≤ 1 := abs_le_of_sq_le_sq (by nlinarith [sq_nonneg s']) zero_le_one
  have bs' : |s'| ≤ 1 := abs_le_of_sq_le_sq (by nlinarith [sq_nonneg c']) zero_le_one
  have bec : ∀ x : ℝ, |x| ≤ 1 → |e * x| ≤ 1 := by
    intro x hx
    rw [abs_mul, abs_of_nonneg he0]
    nlinarith [abs_nonneg x]
  have hF : ∀ x y : ℝ, M_dot * (1 + e * y) ^ 2 / (1 - e ^ 2) ^ (1.5 : ℝ) + e_dot * (2 + e * y) * x / (1 - e ^ 2) = A * (1 + e * y) ^ 2 + B * ((2 + e * y) * x) := by
    intro x y
    rw [hA, hB]
    ring
  -- size of the derivative of the true anomaly
  have hh : |A * (1 + e * c) ^ 2 + B * ((2 + e * c) * s)| ≤ 4 * |A| + 3 * |B| := by
    have b1 := abs_le.1 (bec c bc)
    have t1 : |A * (1 + e * c) ^ 2| ≤ 4 * |A| := by
      rw [abs_mul, abs_of_nonneg (sq_nonneg (1 + e * c))]
      have : (1 + e * c) ^ 2 ≤ 4 := by nlinarith
      exact (mul_le_mul_of_nonneg_left this (abs_nonneg A)).trans_eq (by ring)
    have t2 : |B * ((2 + e * c) * s)| ≤ 3 * |B| := by
      rw [abs_mul, abs_mul, abs_of_nonneg (by linarith : 0 ≤ 2 + e * c)]
      have : (2 + e * c) * |s| ≤ 3 * 1 := mul_le_mul (by linarith) bs (abs_nonneg _) (by norm_num)
      exact (mul_le_mul_of_nonneg_left this (abs_nonneg B)).trans_eq (by ring)
    exact (abs_add_le _ _).trans (add_le_add t1 t2)
  have hd : |(A * (1 + e * c) ^ 2 + B * ((2 + e * c) * s)) - (A * (1 + e * c') ^ 2 + B * ((2 + e * c') * s'))| ≤ δ * (4 * |A| + 4 * |B|) := by
    have b1 := abs_le.1 (bec c bc)
    have b2 := abs_le.1 (bec c' bc')
    have ec : |e * (c - c')| ≤ δ := by
      rw [abs_mul, abs_of_nonneg he0]
      nlinarith [abs_nonneg (c - c')]
    have t1 : |A * ((e * (c - c')) * (2 + e * c + e * c'))| ≤ δ * (4 * |A|) := by
      rw [abs_mul, abs_mul]
      have : |2 + e * c + e * c'| ≤ 4 := abs_le.2 ⟨by linarith, by linarith⟩
      have : |e * (c - c')| * |2 + e * c + e * c'| ≤ δ * 4 := mul_le_mul ec this (abs_nonneg _) hδ
      exact (mul_le_mul_of_nonneg_left this (abs_nonneg A)).trans_eq (by ring)
    have t2 : |B * ((2 + e * c) * (s - s') + (e * (c - c')) * s')| ≤ δ * (4 * |B|) := by
      rw [abs_mul]
      have u1 : |(2 + e * c) * (s - s')| ≤ 3 * δ := by
        rw [abs_mul, abs_of_nonneg (by linarith : 0 ≤ 2 + e * c)]
        exact mul_le_mul (by linarith) hs (abs_nonneg _) (by norm_num)
      have u2 : |(e * (c - c')) * s'| ≤ δ := by
        rw [abs_mul]
        exact (mul_le_mul ec bs' (abs_nonneg _) hδ).trans_eq (mul_one _)
      have := (abs_add_le ((2 + e * c) * (s - s')) ((e * (c - c')) * s')).trans (add_le_add u1 u2)
      exact (mul_le_mul_of_nonneg_left this (abs_nonneg B)).trans_eq (by ring)
    have e1 : (A * (1 + e * c) ^ 2 + B * ((2 + e * c) * s)) - (A * (1 + e * c') ^ 2 + B * ((2 + e * c') * s')) =
        A * ((e * (c - c')) * (2 + e * c + e * c')) + B * ((2 + e * c) * (s - s') + (e * (c - c')) * s') := by ring
    rw [e1]
    refine (abs_add_le _ _).trans ((add_le_add t1 t2).trans (le_of_eq (by ring)))
  have key : ∀ x x' : ℝ, |x - x'| ≤ δ → |x'| ≤ 1 →
      |x * (A * (1 + e * c) ^ 2 + B * ((2 + e * c) * s)) - x' * (A * (1 + e * c') ^ 2 + B * ((2 + e * c') * s'))| ≤ δ * (8 * |A| + 7 * |B|) := by
    intro x x' hx hx'
    generalize A * (1 + e * c) ^ 2 + B * ((2 + e * c) * s) = H at hh hd ⊢
    generalize A * (1 + e * c') ^ 2 + B * ((2 + e * c') * s') = H' at hd ⊢
    have e1 : x * H - x' * H' = (x - x') * H + x' * (H - H') := by ring
    rw [e1]
    refine (abs_add_le _ _).trans ?_
    rw [abs_mul, abs_mul]
    have t1 : |x - x'| * |H| ≤ δ * (4 * |A| + 3 * |B|) := mul_le_mul hx hh (abs_nonneg _) hδ
    have t2 : |x'| * |H - H'| ≤ δ * (4 * |A| + 4 * |B|) := (mul_le_mul hx' hd (abs_nonneg _) zero_le_one).trans_eq (one_mul _)
    linarith
  rw [hA', hB']
  constructor
  · simp only [jvpTangent, hF]
    exact key c c' hc bc'
  · simp only [jvpTangent, hF]
    have := key (-s) (-s') (by rw [neg_sub_neg, abs_sub_comm]; exact hs) (by rw [abs_neg]; exact bs')
    exact this

/-- **C96.** The derivative that `kepler()` reports along `M(t), e(t)` is close to the derivative of the exact solution -/
theorem kepler_derivative_accurate {M e : ℝ → ℝ} {M_dot e_dot t : ℝ} (he0 : 0 ≤ e t) (he : e t < 1) (hM : HasDerivAt M M_dot t) (hE : HasDerivAt e e_dot t)
    {f : ℝ → ℝ} (hf : ∀ᶠ s in 𝓝 t, TrueAnomalyAt (M s) (e s) (f s)) :
    ∃ ds dc, HasDerivAt (fun s => sin (f s)) ds t ∧ HasDerivAt (fun s => cos (f s)) dc t ∧
      |(keplerJvp (M t) (e t) M_dot e_dot).2.1 - ds| ≤ 1.3e-13 * (8 * (|M_dot| / (1 - e t ^ 2) ^ (1.5 : ℝ)) + 7 * (|e_dot| / (1 - e t ^ 2))) ∧
      |(keplerJvp (M t) (e t) M_dot e_dot).2.2 - dc| ≤ 1.3e-13 * (8 * (|M_dot| / (1 - e t ^ 2) ^ (1.5 : ℝ)) + 7 * (|e_dot| / (1 - e t ^ 2))) := by
  obtain ⟨j1, j2⟩ := jvp_correct he0 he hM hE hf
  obtain ⟨a1, a2⟩ := kepler_accurate_each he0 he (M t) (f t) hf.self_of_nhds
  have hu : (kepler (M t) (e t)).1 ^ 2 + (kepler (M t) (e t)).2 ^ 2 = 1 := (kepler_on_unit_circle (M t) (e t)).1
  have := jvpTangent_stable (M_dot := M_dot) (e_dot := e_dot) he0 he hu (sin_sq_add_cos_sq (f t)) a1 a2
  exact ⟨_, _, j1, j2, this.1, this.2⟩

/-- the hypotheses are met: a nearly parabolic orbit, derivative along a curve of mean anomalies and eccentricities -/
example : ∃ f : ℝ → ℝ, (∀ᶠ s in 𝓝 (1 : ℝ), TrueAnomalyAt s (s - 0.01) (f s)) := by
  have h : ∀ s : ℝ, ∃ f, 0 ≤ s - 0.01 → s - 0.01 < 1 → TrueAnomalyAt s (s - 0.01) f := by
    intro s
    by_cases hs : 0 ≤ s - 0.01 ∧ s - 0.01 < 1
    · obtain ⟨E, hE⟩ := keplerEq_exists hs.1 hs.2 s
      obtain ⟨f, hf⟩ := exists_isTrueAnomaly hs.1 hs.2 E
      exact ⟨f, fun _ _ => ⟨E, hE, hf⟩⟩
    · exact ⟨0, fun h1 h2 => absurd ⟨h1, h2⟩ hs⟩
  choose f hf using h
  refine ⟨f, ?_⟩
  filter_upwards [eventually_gt_nhds (show (0.5 : ℝ) < 1 by norm_num), eventually_lt_nhds (show (1 : ℝ) < 1.005 by norm_num)] with s h1 h2
  exact hf s (by linarith) (by linarith)

end Jaxoplanet.Kepler
