import Verif.Proofs.KeplerRefine

/-!
# C05, C76: the refinement of the Kepler solver and the accuracy of `kepler()`
-/

namespace Jaxoplanet.Kepler

open Real Spec

theorem refine_eq (M e E : ℝ) : refine M e (1 - e) E =
    (let f0 := E - e * sin E - M
     let f1 := 1 - e * cos E
     let f2 := e * sin E
     let f3 := e * cos E
     let d3 := -f0 / (f1 - 0.5 * f0 * f2 / f1)
     let d4 := -f0 / (f1 + 0.5 * d3 * f2 + (d3 * d3) * f3 / 6)
     E + -f0 / (f1 + 0.5 * d4 * f2 + d4 * d4 * f3 / 6 - d4 * d4 * d4 * f2 / 24)) := by
  have h0 : e * (E - sin E) + E * (1 - e) - M = E - e * sin E - M := by ring
  have h1 : e * (1 - cos E) + (1 - e) = 1 - e * cos E := by ring
  have h2 : e * (E - (E - sin E)) = e * sin E := by ring
  have h3 : 1 - (1 - e * cos E) = e * cos E := by ring
  simp only [refine, h0, h1, h2, h3]

/-- the distance of the points of the orbit with two eccentric anomalies -/
theorem toTrueAnomaly_dist {e : ℝ} (he0 : 0 ≤ e) (he : e < 1) (E E' : ℝ) :
    ((toTrueAnomaly e E).1 - (toTrueAnomaly e E').1) ^ 2 + ((toTrueAnomaly e E).2 - (toTrueAnomaly e E').2) ^ 2 =
      2 * (1 - e ^ 2) * (1 - cos (E - E')) / ((1 - e * cos E) * (1 - e * cos E')) := by
  have h1 := one_sub_ecos_pos he0 he E
  have h2 := one_sub_ecos_pos he0 he E'
  have hq : √(1 - e ^ 2) ^ 2 = 1 - e ^ 2 := sq_sqrt (by nlinarith)
  have s1 := sin_sq_add_cos_sq E
  have s2 := sin_sq_add_cos_sq E'
  rw [toTrueAnomaly_eq he0 he, toTrueAnomaly_eq he0 he, cos_sub]
  simp only
  have e1 : (√(1 - e ^ 2) * sin E / (1 - e * cos E)) ^ 2 + ((cos E - e) / (1 - e * cos E)) ^ 2 = 1 := by
    rw [div_pow, div_pow, mul_pow, hq, ← add_div, div_eq_one_iff_eq (by positivity)]
    linear_combination (1 - e ^ 2) * s1
  have e2 : (√(1 - e ^ 2) * sin E' / (1 - e * cos E')) ^ 2 + ((cos E' - e) / (1 - e * cos E')) ^ 2 = 1 := by
    rw [div_pow, div_pow, mul_pow, hq, ← add_div, div_eq_one_iff_eq (by positivity)]
    linear_combination (1 - e ^ 2) * s2
  have e3 : (√(1 - e ^ 2) * sin E / (1 - e * cos E)) * (√(1 - e ^ 2) * sin E' / (1 - e * cos E')) +
      ((cos E - e) / (1 - e * cos E)) * ((cos E' - e) / (1 - e * cos E')) =
      1 - (1 - e ^ 2) * (1 - (cos E * cos E' + sin E * sin E')) / ((1 - e * cos E) * (1 - e * cos E')) := by
    rw [div_mul_div_comm, div_mul_div_comm, ← add_div, eq_sub_iff_add_eq, ← add_div, div_eq_one_iff_eq (by positivity)]
    linear_combination sin E * sin E' * hq
  have e4 : 2 * (1 - e ^ 2) * (1 - (cos E * cos E' + sin E * sin E')) / ((1 - e * cos E) * (1 - e * cos E')) =
      2 * ((1 - e ^ 2) * (1 - (cos E * cos E' + sin E * sin E')) / ((1 - e * cos E) * (1 - e * cos E'))) := by ring
  rw [e4]
  linear_combination e1 + e2 - 2 * e3

theorem refine_exists {M e : ℝ} (he0 : 0 ≤ e) (he : e < 1) (hM0 : 0 ≤ M) (hM : M ≤ π) :
    ∃ a dE, refine M e (1 - e) (starter M e (1 - e)) = starter M e (1 - e) + dE ∧
      0 < 1 - e * cos (starter M e (1 - e)) ∧
      |a| ≤ 0.0035 * sin (starter M e (1 - e) / 2) ∧
      |a| * (1 - e * cos (starter M e (1 - e))) ≤ e * (0.007 * sin (starter M e (1 - e) / 2) ^ 3) ∧ |dE| ≤ 1.002 * |a| ∧
      |starter M e (1 - e) + dE - e * sin (starter M e (1 - e) + dE) - M| ≤ 1.76e-11 * |a| * (1 - e * cos (starter M e (1 - e))) ∧
      (∀ d, |d| ≤ 1.01 * |a| → 0.99 * (1 - e * cos (starter M e (1 - e))) ≤ 1 - e * cos (starter M e (1 - e) + d)) := by
  obtain ⟨g, hg, hgb⟩ := starter_residual he0 he hM0 hM
  have h0 := starter_nonneg he0 he hM0 hM
  have h1 := starter_le_pi he0 he hM0 hM
  obtain ⟨c1, -, -, -, ha, haf, hd, hres, hder⟩ := refine_core he0 he h0 h1 hg hgb
  exact ⟨_, _, refine_eq M e (starter M e (1 - e)), c1, ha, haf, hd, hres, hder⟩

/-- the accuracy of the solver on the folded range -/
theorem refine_accurate {M e : ℝ} (he0 : 0 ≤ e) (he : e < 1) (hM0 : 0 ≤ M) (hM : M ≤ π) {E : ℝ} (hE : KeplerEq M e E) :
    |refine M e (1 - e) (starter M e (1 - e)) - E| ≤ 6.3e-14 ∧
      (1 - e ^ 2) * (refine M e (1 - e) (starter M e (1 - e)) - E) ^ 2 ≤
        (1.3e-13) ^ 2 * ((1 - e * cos (refine M e (1 - e) (starter M e (1 - e)))) * (1 - e * cos E)) := by
  obtain ⟨a, dE, hE1, c1, ha, haf, hd, hres, hder⟩ := refine_exists he0 he hM0 hM
  have h0 := starter_nonneg he0 he hM0 hM
  have h1 := starter_le_pi he0 he hM0 hM
  rw [hE1]
  generalize starter M e (1 - e) = E0 at *
  clear hE1
  have ha0 := abs_nonneg a
  have hσ0 : 0 ≤ sin (E0 / 2) := sin_nonneg_of_nonneg_of_le_pi (by linarith) (by linarith)
  have hσ1 : sin (E0 / 2) ≤ 1 := sin_le_one _
  have hcos : cos E0 = 1 - 2 * sin (E0 / 2) ^ 2 := by
    conv_lhs => rw [show E0 = 2 * (E0 / 2) by ring]
    rw [cos_two_mul, cos_sq']
    ring
  have hf1' : 1 - e * cos E0 = (1 - e) + 2 * e * sin (E0 / 2) ^ 2 := by rw [hcos]; ring
  generalize sin (E0 / 2) = σ at *
  obtain ⟨f1, hf1⟩ : ∃ f1, f1 = 1 - e * cos E0 := ⟨_, rfl⟩
  rw [← hf1] at c1 haf hres hder hf1'
  unfold KeplerEq at hE
  -- the root is between `E1 - Δ` and `E1 + Δ`
  obtain ⟨Δ, hΔ⟩ : ∃ Δ, Δ = 1.79e-11 * |a| := ⟨_, rfl⟩
  have hΔ0 : 0 ≤ Δ := by rw [hΔ]; positivity
  have hΔa : |dE| + Δ ≤ 1.01 * |a| := by rw [hΔ]; norm_num at hd ⊢; linarith
  have hslope : ∀ y, E0 + dE - Δ ≤ y → y ≤ E0 + dE + Δ → 0.99 * f1 ≤ 1 - e * cos y := by
    intro y hy1 hy2
    have : y = E0 + (y - E0) := by ring
    rw [this]
    refine hder _ (le_trans ?_ hΔa)
    have hb := abs_le.1 (le_refl |dE|)
    rw [abs_le]
    constructor <;> linarith
  have hmono : ∀ x y : ℝ, x < y → x - e * sin x < y - e * sin y := by
    intro x y hxy
    have := kepler_slope (e := e) (C := 1 - e) (a := x) (b := y) (fun z _ _ => by nlinarith [cos_le_one z]) hxy.le
    have h2 : 0 < (1 - e) * (y - x) := mul_pos (by linarith) (by linarith)
    linarith
  have hresb := abs_le.1 hres
  have hgap : 1.76e-11 * |a| * f1 ≤ 0.99 * f1 * Δ := by
    rw [hΔ]
    have : 0 ≤ |a| * f1 := by positivity
    norm_num
    linarith
  have hup : E ≤ E0 + dE + Δ := by
    by_contra hc
    push Not at hc
    have h2 := kepler_slope (e := e) (C := 0.99 * f1) (a := E0 + dE) (b := E0 + dE + Δ)
      (fun y h1 h2 => hslope y (by linarith) h2) (by linarith)
    have h3 := hmono _ _ hc
    rw [hE] at h3
    have h4 : 0.99 * f1 * (E0 + dE + Δ - (E0 + dE)) = 0.99 * f1 * Δ := by ring
    rw [h4] at h2
    linarith [hresb.1]
  have hlo : E0 + dE - Δ ≤ E := by
    by_contra hc
    push Not at hc
    have h2 := kepler_slope (e := e) (C := 0.99 * f1) (a := E0 + dE - Δ) (b := E0 + dE)
      (fun y h1 h2 => hslope y h1 (by linarith)) (by linarith)
    have h3 := hmono _ _ hc
    rw [hE] at h3
    have h4 : 0.99 * f1 * (E0 + dE - (E0 + dE - Δ)) = 0.99 * f1 * Δ := by ring
    rw [h4] at h2
    linarith [hresb.2]
  have hdist : |E0 + dE - E| ≤ Δ := by
    rw [abs_le]
    constructor <;> linarith
  have ha' : |a| ≤ 0.0035 := ha.trans (mul_le_of_le_one_right (by norm_num) hσ1)
  refine ⟨hdist.trans ?_, ?_⟩
  · rw [hΔ]
    norm_num at ha' ⊢
    linarith
  · have r1 := hslope (E0 + dE) (by linarith) (by linarith)
    have r2 := hslope E hlo hup
    have h2 : (E0 + dE - E) ^ 2 ≤ Δ ^ 2 := by
      rw [← sq_abs]
      gcongr
    -- `(1 - e²) e² σ⁶ ≤ f1⁴`
    have hw : 0 ≤ 2 * e * σ ^ 2 := by positivity
    have h1e : 0 < 1 - e := by linarith
    have h6 : σ ^ 6 ≤ 1 := pow_le_one₀ hσ0 hσ1
    have key : (1 - e ^ 2) * (e ^ 2 * σ ^ 6) ≤ f1 ^ 4 := by
      have hb : (1 - e ^ 2) * (e ^ 2 * σ ^ 6) ≤ 2 * (1 - e) * (e ^ 2 * σ ^ 6) := by
        have : 1 - e ^ 2 ≤ 2 * (1 - e) := by nlinarith
        gcongr
      refine hb.trans ?_
      rcases le_total e (1 / 16) with hs | hs
      · have h3 : (15 / 16 : ℝ) ^ 4 ≤ f1 ^ 4 := by
          have : 15 / 16 ≤ f1 := by rw [hf1']; linarith
          gcongr
        have h4 : e ^ 2 * σ ^ 6 ≤ (1 / 16) ^ 2 * 1 := by gcongr
        have h5 : 2 * (1 - e) * (e ^ 2 * σ ^ 6) ≤ 2 * 1 * ((1 / 16) ^ 2 * 1) := by
          gcongr
          linarith
        norm_num at h3 h5 ⊢
        linarith
      · have h3 : 4 * (1 - e) * (2 * e * σ ^ 2) ^ 3 ≤ f1 ^ 4 := by
          rw [hf1']
          have : ((1 - e) + 2 * e * σ ^ 2) ^ 4 - 4 * (1 - e) * (2 * e * σ ^ 2) ^ 3 =
              (1 - e) ^ 4 + 4 * (1 - e) ^ 3 * (2 * e * σ ^ 2) + 6 * (1 - e) ^ 2 * (2 * e * σ ^ 2) ^ 2 + (2 * e * σ ^ 2) ^ 4 := by ring
          have : 0 ≤ (1 - e) ^ 4 + 4 * (1 - e) ^ 3 * (2 * e * σ ^ 2) + 6 * (1 - e) ^ 2 * (2 * e * σ ^ 2) ^ 2 + (2 * e * σ ^ 2) ^ 4 := by
            positivity
          linarith
        refine le_trans ?_ h3
        have : 2 * (1 - e) * (e ^ 2 * σ ^ 6) * 1 ≤ 2 * (1 - e) * (e ^ 2 * σ ^ 6) * (16 * e) := by
          gcongr
          linarith
        calc 2 * (1 - e) * (e ^ 2 * σ ^ 6) = 2 * (1 - e) * (e ^ 2 * σ ^ 6) * 1 := by ring
          _ ≤ _ := this
          _ = 4 * (1 - e) * (2 * e * σ ^ 2) ^ 3 := by ring
    have hee : 0 ≤ 1 - e ^ 2 := by nlinarith
    have haf2 : (|a| * f1) ^ 2 ≤ (e * (0.007 * σ ^ 3)) ^ 2 := by gcongr
    have hfin : (1 - e ^ 2) * |a| ^ 2 ≤ 0.007 ^ 2 * f1 ^ 2 := by
      have h3 : (1 - e ^ 2) * |a| ^ 2 * f1 ^ 2 ≤ 0.007 ^ 2 * f1 ^ 2 * f1 ^ 2 := by
        calc (1 - e ^ 2) * |a| ^ 2 * f1 ^ 2 = (1 - e ^ 2) * (|a| * f1) ^ 2 := by ring
          _ ≤ (1 - e ^ 2) * (e * (0.007 * σ ^ 3)) ^ 2 := by gcongr
          _ = 0.007 ^ 2 * ((1 - e ^ 2) * (e ^ 2 * σ ^ 6)) := by ring
          _ ≤ 0.007 ^ 2 * f1 ^ 4 := by gcongr
          _ = 0.007 ^ 2 * f1 ^ 2 * f1 ^ 2 := by ring
      exact le_of_mul_le_mul_right h3 (by positivity)
    have hrr : (0.99 * f1) * (0.99 * f1) ≤ (1 - e * cos (E0 + dE)) * (1 - e * cos E) :=
      mul_le_mul r1 r2 (by positivity) (le_trans (by positivity) r1)
    calc (1 - e ^ 2) * (E0 + dE - E) ^ 2 ≤ (1 - e ^ 2) * Δ ^ 2 := by gcongr
      _ = (1.79e-11) ^ 2 * ((1 - e ^ 2) * |a| ^ 2) := by rw [hΔ]; ring
      _ ≤ (1.79e-11) ^ 2 * (0.007 ^ 2 * f1 ^ 2) := by gcongr
      _ = ((1.79e-11) ^ 2 * 0.007 ^ 2 / 0.99 ^ 2) * ((0.99 * f1) * (0.99 * f1)) := by ring
      _ ≤ (1.3e-13) ^ 2 * ((0.99 * f1) * (0.99 * f1)) := by gcongr; norm_num
      _ ≤ _ := by gcongr

/-- the solver on the whole line: the eccentric anomaly that `kepler()` ends up with differs from an exact solution of
Kepler's equation (for the mean anomaly in the same revolution) by at most `6.3e-14` -/
theorem solveE_accurate_aux {e : ℝ} (he0 : 0 ≤ e) (he : e < 1) (M : ℝ) : ∃ (n : ℤ) (E : ℝ),
    KeplerEq (M + n * (2 * π)) e E ∧ |solveE M e - E| ≤ 6.3e-14 ∧
      (1 - e ^ 2) * (solveE M e - E) ^ 2 ≤ (1.3e-13) ^ 2 * ((1 - e * cos (solveE M e)) * (1 - e * cos E)) := by
  obtain ⟨n, hn⟩ := fmod_eq_sub M (2 * π)
  have h0 := fmod_nonneg M two_pi_pos
  have h1 := fmod_lt M two_pi_pos
  refine ⟨-n, ?_⟩
  have hM : M + ((-n : ℤ) : ℝ) * (2 * π) = fmod M (2 * π) := by rw [hn]; push_cast; ring
  rw [hM]
  unfold solveE
  simp only
  generalize fmod M (2 * π) = r at *
  split_ifs with hh
  · obtain ⟨E, hE⟩ := keplerEq_exists he0 he (2 * π - r)
    obtain ⟨b1, b2⟩ := refine_accurate he0 he (by linarith) (by linarith) hE
    refine ⟨2 * π - E, ?_, ?_, ?_⟩
    · unfold KeplerEq at *
      rw [sin_two_pi_sub]
      linarith
    · rw [show 2 * π - refine (2 * π - r) e (1 - e) (starter (2 * π - r) e (1 - e)) - (2 * π - E) =
        -(refine (2 * π - r) e (1 - e) (starter (2 * π - r) e (1 - e)) - E) by ring, abs_neg]
      exact b1
    · rw [cos_two_pi_sub, cos_two_pi_sub]
      refine le_trans (le_of_eq ?_) b2
      ring
  · obtain ⟨E, hE⟩ := keplerEq_exists he0 he r
    obtain ⟨b1, b2⟩ := refine_accurate he0 he h0 (not_lt.1 hh) hE
    exact ⟨E, hE, b1, b2⟩

/-- **C76 (a).** The eccentric anomaly: for every mean anomaly and eccentricity, the eccentric anomaly that `kepler()`
computes differs from the exact solution of Kepler's equation, for the mean anomaly in the same revolution, by at most
`6.3e-14` -/
theorem solveE_accurate {e : ℝ} (he0 : 0 ≤ e) (he : e < 1) (M : ℝ) : ∃ (n : ℤ) (E : ℝ),
    KeplerEq (M + n * (2 * π)) e E ∧ |solveE M e - E| ≤ 6.3e-14 := by
  obtain ⟨n, E, h1, h2, _⟩ := solveE_accurate_aux he0 he M
  exact ⟨n, E, h1, h2⟩

/-- **C76 (b).** The true anomaly: for every mean anomaly and every eccentricity, the point `(sin f, cos f)` that
`kepler()` returns is within `1.3e-13` of the exact one, uniformly, also for eccentricities close to one. -/
theorem kepler_accurate {e : ℝ} (he0 : 0 ≤ e) (he : e < 1) (M f : ℝ) (hf : TrueAnomalyAt M e f) :
    ((kepler M e).1 - sin f) ^ 2 + ((kepler M e).2 - cos f) ^ 2 ≤ (1.3e-13) ^ 2 := by
  obtain ⟨E', hE', hfE'⟩ := hf
  obtain ⟨n, E, h1, -, h3⟩ := solveE_accurate_aux he0 he M
  have hEE := keplerEq_unique he0 he h1 (keplerEq_add_two_pi n hE')
  have hd := toTrueAnomaly_dist he0 he (solveE M e) E
  have hT : toTrueAnomaly e E = (sin f, cos f) := by
    rw [hEE, toTrueAnomaly_add_two_pi he0 he, toTrueAnomaly_of_isTrueAnomaly he0 he hfE']
  rw [hT] at hd
  unfold kepler
  rw [hd]
  have p1 := one_sub_ecos_pos he0 he (solveE M e)
  have p2 := one_sub_ecos_pos he0 he E
  rw [div_le_iff₀ (by positivity)]
  refine le_trans ?_ h3
  have h4 := one_sub_sq_div_two_le_cos (x := solveE M e - E)
  have hee : 0 ≤ 1 - e ^ 2 := by nlinarith
  calc 2 * (1 - e ^ 2) * (1 - cos (solveE M e - E)) ≤ 2 * (1 - e ^ 2) * ((solveE M e - E) ^ 2 / 2) := by
        gcongr
        linarith
    _ = (1 - e ^ 2) * (solveE M e - E) ^ 2 := by ring

/-- each of the two values separately -/
theorem kepler_accurate_each {e : ℝ} (he0 : 0 ≤ e) (he : e < 1) (M f : ℝ) (hf : TrueAnomalyAt M e f) :
    |(kepler M e).1 - sin f| ≤ 1.3e-13 ∧ |(kepler M e).2 - cos f| ≤ 1.3e-13 := by
  have h := kepler_accurate he0 he M f hf
  constructor <;> refine abs_le_of_sq_le_sq ?_ (by norm_num)
  · linarith [sq_nonneg ((kepler M e).2 - cos f)]
  · linarith [sq_nonneg ((kepler M e).1 - sin f)]

/-- the hypothesis is met: every mean anomaly has a true anomaly; here a nearly parabolic orbit -/
example : ∃ f, TrueAnomalyAt 0.1 0.999 f ∧ |(kepler 0.1 0.999).1 - sin f| ≤ 1.3e-13 := by
  obtain ⟨E, hE⟩ := keplerEq_exists (e := 0.999) (by norm_num) (by norm_num) 0.1
  obtain ⟨f, hf⟩ := exists_isTrueAnomaly (e := 0.999) (by norm_num) (by norm_num) E
  exact ⟨f, ⟨E, hE, hf⟩, (kepler_accurate_each (by norm_num) (by norm_num) _ f ⟨E, hE, hf⟩).1⟩

/-- **C05 (b).** No divisor of the starter vanishes. -/
theorem starter_divisors {M e : ℝ} (he0 : 0 ≤ e) (he : e < 1) (hM0 : 0 ≤ M) (hM : M ≤ π) :
    let alpha := 3 * π / (π - 6 / π) + 1.6 / (π - 6 / π) * (π - M) / (1 + e)
    let d := 3 * (1 - e) + alpha * e
    let r := (3 * (alpha * d) * (d - (1 - e)) + M ^ 2) * M
    let q := 2 * (alpha * d) * (1 - e) - M ^ 2
    let w := (cbrt (|r| + √(q ^ 2 * q + r * r))) ^ 2
    0 < π ∧ 0 < π - 6 / π ∧ 0 < 1 + e ∧ 0 < d ∧ 0 ≤ q ^ 2 * q + r * r ∧ 0 < w ^ 2 + w * q + q ^ 2 := by
  intro alpha d r q w
  have hα : 0 < alpha := alphaP_pos he0 hM
  have ho : 0 < 1 - e := by linarith
  have hαe : 0 ≤ alpha * e := by positivity
  have hd : 0 < d := by simp only [d]; linarith
  have hdo : 0 < d - (1 - e) := by simp only [d]; linarith
  have hr0 : 0 ≤ r := by simp only [r]; positivity
  have hqM : -(M ^ 2) ≤ q := by
    have : 0 ≤ 2 * (alpha * d) * (1 - e) := by positivity
    simp only [q]
    linarith
  have hrM : M ^ 3 ≤ r := by
    have : 0 ≤ 3 * (alpha * d) * (d - (1 - e)) * M := by positivity
    simp only [r]
    nlinarith
  have hdisc := disc_nonneg hM0 hqM hrM
  refine ⟨pi_pos, pi_sub_pos, by linarith, hd, hdisc, ?_⟩
  have hS0 : 0 ≤ √(q ^ 2 * q + r * r) := sqrt_nonneg _
  have hsum : 0 < |r| + √(q ^ 2 * q + r * r) := by
    rcases hM0.eq_or_lt with h | h
    · have hq' : 0 < q := by simp only [q]; rw [← h]; simp; positivity
      have : 0 < √(q ^ 2 * q + r * r) := sqrt_pos.2 (by positivity)
      have := abs_nonneg r
      linarith
    · have : 0 < r := by simp only [r]; positivity
      rw [abs_of_pos this]
      linarith
  have hw : 0 < w := by
    have := cbrt_pos hsum
    simp only [w]
    positivity
  clear_value w q
  nlinarith [sq_nonneg (w + 2 * q), sq_nonneg q, mul_pos hw hw]

/-- **C05 (c).** At the value of the starter no divisor of the refinement vanishes; all are positive. -/
theorem refine_divisors {M e : ℝ} (he0 : 0 ≤ e) (he : e < 1) (hM0 : 0 ≤ M) (hM : M ≤ π) :
    let E := starter M e (1 - e)
    let f_0 := e * (E - sin E) + E * (1 - e) - M
    let f_1 := e * (1 - cos E) + (1 - e)
    let f_2 := e * (E - (E - sin E))
    let f_3 := 1 - f_1
    let d_3 := -f_0 / (f_1 - 0.5 * f_0 * f_2 / f_1)
    let d_4 := -f_0 / (f_1 + 0.5 * d_3 * f_2 + (d_3 * d_3) * f_3 / 6)
    0 < f_1 ∧ 0 < f_1 - 0.5 * f_0 * f_2 / f_1 ∧ 0 < f_1 + 0.5 * d_3 * f_2 + (d_3 * d_3) * f_3 / 6 ∧
      0 < f_1 + 0.5 * d_4 * f_2 + d_4 * d_4 * f_3 / 6 - d_4 * d_4 * d_4 * f_2 / 24 := by
  intro E
  obtain ⟨g, hg, hgb⟩ := starter_residual he0 he hM0 hM
  have h0 := starter_nonneg he0 he hM0 hM
  have h1 := starter_le_pi he0 he hM0 hM
  obtain ⟨c1, c2, c3, c4, -⟩ := refine_core he0 he h0 h1 hg hgb
  have e0 : e * (E - sin E) + E * (1 - e) - M = E - e * sin E - M := by ring
  have e1 : e * (1 - cos E) + (1 - e) = 1 - e * cos E := by ring
  have e2 : e * (E - (E - sin E)) = e * sin E := by ring
  have e3 : 1 - (1 - e * cos E) = e * cos E := by ring
  simp only [e0, e1, e2, e3]
  exact ⟨c1, c2, c3, c4⟩

/-- **C05 (d).** The refinement leaves the value of the starter unchanged if and only if it solves Kepler's equation. -/
theorem refine_fixed_iff {M e : ℝ} (he0 : 0 ≤ e) (he : e < 1) (hM0 : 0 ≤ M) (hM : M ≤ π) :
    refine M e (1 - e) (starter M e (1 - e)) = starter M e (1 - e) ↔ KeplerEq M e (starter M e (1 - e)) := by
  obtain ⟨-, -, -, c4⟩ := refine_divisors he0 he hM0 hM
  unfold refine KeplerEq
  simp only at c4 ⊢
  rw [add_eq_left, div_eq_zero_iff, or_iff_left c4.ne', neg_eq_zero]
  constructor <;> intro h <;> linarith

/-- **C05 (e).** Wherever the refinement is applied, not only at the starter's value, a solution of Kepler's equation is
left unchanged. -/
theorem refine_fixed_of_solution {M e E : ℝ} (hE : KeplerEq M e E) : refine M e (1 - e) E = E := by
  unfold KeplerEq at hE
  rw [refine_eq]
  simp only
  rw [hE, sub_self]
  simp

end Jaxoplanet.Kepler
