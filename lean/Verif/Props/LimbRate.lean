import Verif.Proofs.LimbRate
import Verif.Props.TransitAccuracy

/-!
# C110: one quadrature order is good for all positions, radii, times and orbits

C84 and C86 give, for each position, an order from which on the light curve is accurate. Here the error is bounded explicitly in terms
of the order (`rateBound`), so that one order serves all positions, all radii that stay away from the radius of the star, all times, all
orbits and all small machine epsilons.
-/

namespace Jaxoplanet.LimbDark
open Real MeasureTheory Set Spec Green Gauss
open _root_.Jaxoplanet.Starry.Spec (quadSum IsGaussLegendre)

/-- C110 (a): the error of the light curve at any order, explicitly. -/
theorem light_curve_rate {order : ℕ} {rule : List (ℝ × ℝ)} (hq : IsGaussLegendre order rule) (ho : 0 < order) {u : List ℝ} (hu : u ≠ [])
    (htot : totalFlux u ≠ 0) (b r : ℝ) (hne : ¬ (|b| = 0 ∧ |r| = 1)) {eps η : ℝ} (he : 0 < eps) (hη : eps ≤ η)
    (hg : b ≠ 0 ∨ r = 0 ∨ 1 ≤ |r| ∨ 20 * eps ≤ 1 - r ^ 2) :
    |lightCurve eps rule u b r - -blockedFlux u b r / totalFlux u| ≤
      ∑ n ∈ Finset.range (u.length + 1), |greens u n / totalFlux u| *
        if 1 + |r| ≤ |b| ∨ 1 + |b| ≤ |r| then 0 else rateBound eps η |b| |r| n order := by
  rw [light_curve_flux_all_regimes hu htot b r hne, sub_sub_cancel_left, abs_neg]
  refine (Finset.abs_sum_le_sum_abs _ _).trans (Finset.sum_le_sum fun n _ => ?_)
  rw [abs_mul]
  refine mul_le_mul_of_nonneg_left ?_ (abs_nonneg _)
  have h0 := rateBound_nonneg he.le (he.le.trans hη) (abs_nonneg b) (abs_nonneg r) n order
  by_cases h : n = 0 ∨ n = 2 ∨ 1 + |r| ≤ |b| ∨ 1 + |b| ≤ |r|
  · rw [if_pos h, abs_zero]
    split_ifs
    · exact le_rfl
    · exact h0
  · rw [if_neg h]
    push Not at h
    rw [if_neg (by push Not; exact h.2.2)]
    refine quadError_rate hq ho (abs_nonneg b) (abs_nonneg r) h.2.2.1 h.2.2.2 he hη ?_ n (by omega)
    rcases hg with hg | hg | hg | hg
    · exact Or.inl (abs_pos.2 hg)
    · exact Or.inr (Or.inl (by rw [hg, abs_zero]))
    · left
      by_contra h0
      have : |b| = 0 := le_antisymm (not_lt.1 h0) (abs_nonneg b)
      rw [this] at h
      exact absurd h.2.2.2 (by linarith)
    · exact Or.inr (Or.inr (by rwa [sq_abs]))

/-- the bound, for all separations at which there is an occultation and all radii up to `ρ` that are not within `σ` of the radius of
the star -/
noncomputable def uniformRate (eps η σ ρ : ℝ) (n order : ℕ) : ℝ :=
  π ^ 2 * ((1 + 2 * ρ) ^ 2 * (2 + 4 * n * (1 + 2 * ρ) ^ 2)) / √((2 * order - 1 : ℕ) : ℝ) +
    (π * ((1 + 2 * ρ) * √(10 * eps)) + π * ((1 + 2 * ρ) * √(10 * η * (1 + 2 * ρ) / σ)) +
      π ^ 2 * ((1 + 2 * ρ) ^ 4 / (5 * η)) / √((2 * order - 1 : ℕ) : ℝ) + π * (10 * eps * (1 + 2 * n * (1 + 2 * ρ) ^ 2)))

theorem rateBound_le_uniform {eps η σ ρ b r : ℝ} (he : 0 < eps) (hη : eps ≤ η) (hσ : 0 < σ) (hb : 0 ≤ b) (hr : 0 ≤ r) (hrρ : r ≤ ρ)
    (h1 : b < 1 + r) (h2 : r < 1 + b) (hrσ : σ ≤ |1 - r|) (heσ : 40 * eps ≤ σ) (n order : ℕ) :
    rateBound eps η b r n order ≤ uniformRate eps η σ ρ n order := by
  have hη0 : 0 < η := he.trans_le hη
  have hρ : 0 ≤ ρ := hr.trans hrρ
  have hM := sqrt_nonneg ((2 * order - 1 : ℕ) : ℝ)
  unfold rateBound uniformRate
  set M := √((2 * order - 1 : ℕ) : ℝ) with hMd
  set D := 1 + 2 * ρ with hD
  have hD1 : 1 ≤ D := by linarith
  have hbD : b ≤ D := by linarith
  have hrD : r ≤ D := by linarith
  have hbrD : b + r ≤ D := by linarith
  have hbr : b * r ≤ D ^ 2 := by rw [sq]; exact mul_le_mul hbD hrD hr (by linarith)
  have hrb : r * (b + r) ≤ D ^ 2 := by rw [sq]; exact mul_le_mul hrD hbrD (by linarith) (by linarith)
  have hbr0 : 0 ≤ b * r := by positivity
  have hrb0 : 0 ≤ r * (b + r) := by positivity
  have t1 : π ^ 2 * (2 * (b * r) + 4 * n * (b * r) * (r * (b + r))) / M ≤ π ^ 2 * (D ^ 2 * (2 + 4 * n * D ^ 2)) / M := by
    refine div_le_div_of_nonneg_right (mul_le_mul_of_nonneg_left ?_ (by positivity)) hM
    have : b * r * (r * (b + r)) ≤ D ^ 2 * D ^ 2 := mul_le_mul hbr hrb hrb0 (by positivity)
    have : (n : ℝ) * (b * r * (r * (b + r))) ≤ n * (D ^ 2 * D ^ 2) := mul_le_mul_of_nonneg_left this (by positivity)
    nlinarith
  have t2 : π * (r * √(10 * eps)) ≤ π * (D * √(10 * eps)) := by gcongr
  have t4 : π ^ 2 * (r * (b + r) * (b * r / (5 * η))) / M ≤ π ^ 2 * (D ^ 4 / (5 * η)) / M := by
    refine div_le_div_of_nonneg_right (mul_le_mul_of_nonneg_left ?_ (by positivity)) hM
    rw [← mul_div_assoc]
    refine div_le_div_of_nonneg_right ?_ (by positivity)
    rw [show D ^ 4 = D ^ 2 * D ^ 2 by ring]
    exact mul_le_mul hrb hbr hbr0 (by positivity)
  have t5 : π * (10 * eps * (1 + 2 * n * r * (b + r))) ≤ π * (10 * eps * (1 + 2 * n * D ^ 2)) := by
    refine mul_le_mul_of_nonneg_left (mul_le_mul_of_nonneg_left ?_ (by positivity)) pi_pos.le
    have : (n : ℝ) * (r * (b + r)) ≤ n * D ^ 2 := mul_le_mul_of_nonneg_left hrb (by positivity)
    nlinarith
  have p1 : 0 ≤ π ^ 2 * (D ^ 2 * (2 + 4 * n * D ^ 2)) / M := by positivity
  have p2 : 0 ≤ π * (D * √(10 * eps)) := by positivity
  have p3 : 0 ≤ π * (D * √(10 * η * D / σ)) := by positivity
  have p4 : 0 ≤ π ^ 2 * (D ^ 4 / (5 * η)) / M := by positivity
  have p5 : 0 ≤ π * (10 * eps * (1 + 2 * n * D ^ 2)) := by positivity
  have t3 : ¬ 20 * eps ≤ 1 - (b + r) ^ 2 → π * (r * (b + r)) * √(5 * η / (b * r)) ≤ π * (D * √(10 * η * D / σ)) := by
    intro h
    rcases hr.eq_or_lt with h0 | hr'
    · rw [← h0]
      simpa using p3
    have hbσ : σ / 2 ≤ b := by
      rcases le_total r 1 with h' | h'
      · rw [abs_of_nonneg (by linarith)] at hrσ
        by_contra hlt
        push Not at hlt h
        nlinarith
      · rw [abs_of_nonpos (by linarith)] at hrσ
        linarith
    have hb0 : 0 < b := by linarith
    have e : π * (r * (b + r)) * √(5 * η / (b * r)) = π * ((b + r) * √(5 * η * r / b)) := by
      have : √(5 * η * r / b) = r * √(5 * η / (b * r)) := by
        rw [← sqrt_sq hr, ← sqrt_mul (sq_nonneg _), sqrt_sq hr]
        congr 1
        field_simp
      rw [this]
      ring
    rw [e]
    refine mul_le_mul_of_nonneg_left (mul_le_mul hbrD (sqrt_le_sqrt ?_) (sqrt_nonneg _) (by linarith)) pi_pos.le
    rw [div_le_div_iff₀ hb0 hσ]
    have : r * σ ≤ D * (2 * b) := mul_le_mul hrD (by linarith) hσ.le (by linarith)
    nlinarith
  by_cases hn0 : n = 0 ∨ n = 2
  · rw [if_pos hn0]; linarith
  rw [if_neg hn0]
  refine add_le_add t1 ?_
  by_cases hn1 : n = 1
  · rw [if_pos hn1]
    by_cases hin : 20 * eps ≤ 1 - (b + r) ^ 2
    · rw [if_pos hin]; linarith
    · rw [if_neg hin]
      have := t3 hin
      linarith
  · rw [if_neg hn1]
    split_ifs <;> linarith

/-- C110 (b): the bound of (a) holds with one expression for all separations and radii. -/
theorem light_curve_rate_uniform {order : ℕ} {rule : List (ℝ × ℝ)} (hq : IsGaussLegendre order rule) (ho : 0 < order) {u : List ℝ}
    (hu : u ≠ []) (htot : totalFlux u ≠ 0) {σ ρ : ℝ} (hσ : 0 < σ) {eps η : ℝ} (he : 0 < eps) (hη : eps ≤ η) (heσ : 40 * eps ≤ σ)
    (b r : ℝ) (hr : |r| ≤ ρ) (hrσ : σ ≤ |1 - abs r|) :
    |lightCurve eps rule u b r - -blockedFlux u b r / totalFlux u| ≤
      ∑ n ∈ Finset.range (u.length + 1), |greens u n / totalFlux u| * uniformRate eps η σ ρ n order := by
  have hρ : 0 ≤ ρ := (abs_nonneg r).trans hr
  have hη0 : 0 < η := he.trans_le hη
  refine (light_curve_rate hq ho hu htot b r ?_ he hη ?_).trans (Finset.sum_le_sum fun n _ => mul_le_mul_of_nonneg_left ?_ (abs_nonneg _))
  · rintro ⟨-, h⟩
    rw [h] at hrσ
    simp at hrσ
    linarith
  · rcases le_total 1 |r| with h | h
    · exact Or.inr (Or.inr (Or.inl h))
    · refine Or.inr (Or.inr (Or.inr ?_))
      rw [abs_of_nonneg (by linarith : 0 ≤ 1 - |r|)] at hrσ
      rw [← sq_abs]
      nlinarith [abs_nonneg r]
  · split_ifs with h
    · unfold uniformRate
      positivity
    · push Not at h
      exact rateBound_le_uniform he hη hσ (abs_nonneg b) (abs_nonneg r) hr h.1 h.2 hrσ heσ n order

open Filter Topology in
/-- C110 (c): uniform convergence. For each limb-darkening law and each accuracy there are an order and a machine epsilon such that at all
higher orders, with all smaller epsilons, at all separations and for all radii up to `ρ` that differ from the radius of the star by
at least `σ`, the light curve is minus the hidden fraction of the flux. -/
theorem light_curve_uniform {u : List ℝ} (hu : u ≠ []) (htot : totalFlux u ≠ 0) {σ : ℝ} (hσ : 0 < σ) {ρ : ℝ} (hρ : 0 ≤ ρ) {δ : ℝ} (hδ : 0 < δ) :
    ∃ eps₀ > 0, ∃ N, ∀ eps, 0 < eps → eps ≤ eps₀ → ∀ order ≥ N, ∀ rule, IsGaussLegendre order rule →
      ∀ b r, |r| ≤ ρ → σ ≤ |1 - abs r| → |lightCurve eps rule u b r - -blockedFlux u b r / totalFlux u| < δ := by
  set c : ℕ → ℝ := fun n => |greens u n / totalFlux u| with hc
  set S := Finset.range (u.length + 1) with hS
  -- first the width of the bump
  have h1 : Tendsto (fun η : ℝ => ∑ n ∈ S, c n * (π * ((1 + 2 * ρ) * √(10 * η)) + π * ((1 + 2 * ρ) * √(10 * η * (1 + 2 * ρ) / σ)) +
      π * (10 * η * (1 + 2 * n * (1 + 2 * ρ) ^ 2)))) (𝓝[>] 0) (𝓝 0) := by
    have hcont : Continuous (fun η : ℝ => ∑ n ∈ S, c n * (π * ((1 + 2 * ρ) * √(10 * η)) + π * ((1 + 2 * ρ) * √(10 * η * (1 + 2 * ρ) / σ)) +
      π * (10 * η * (1 + 2 * n * (1 + 2 * ρ) ^ 2)))) := by fun_prop
    have := hcont.tendsto 0
    simp only [mul_zero, zero_mul, zero_div, sqrt_zero, add_zero, Finset.sum_const_zero] at this
    exact this.mono_left nhdsWithin_le_nhds
  have h40 : ∀ᶠ η in 𝓝[>] (0 : ℝ), η < σ / 40 := nhdsWithin_le_nhds (gt_mem_nhds (by positivity))
  have hpos : ∀ᶠ η in 𝓝[>] (0 : ℝ), 0 < η := self_mem_nhdsWithin
  obtain ⟨η, hη1, hη2, hη3⟩ := ((h1.eventually (gt_mem_nhds (half_pos hδ))).and (h40.and hpos)).exists
  have hη0 : 0 < η := hη3
  -- then the order
  have h2 : Tendsto (fun order : ℕ => ∑ n ∈ S, c n * (π ^ 2 * ((1 + 2 * ρ) ^ 2 * (2 + 4 * n * (1 + 2 * ρ) ^ 2)) / √((2 * order - 1 : ℕ) : ℝ) +
      π ^ 2 * ((1 + 2 * ρ) ^ 4 / (5 * η)) / √((2 * order - 1 : ℕ) : ℝ))) atTop (𝓝 0) := by
    have hM : Tendsto (fun order : ℕ => √((2 * order - 1 : ℕ) : ℝ)) atTop atTop := by
      refine tendsto_sqrt_atTop.comp (tendsto_natCast_atTop_atTop.comp ?_)
      exact tendsto_atTop_mono (fun n => by omega : ∀ n : ℕ, n - 1 ≤ 2 * n - 1) (tendsto_sub_atTop_nat 1)
    have hz : ∀ a : ℝ, Tendsto (fun order : ℕ => a / √((2 * order - 1 : ℕ) : ℝ)) atTop (𝓝 0) := fun a => hM.const_div_atTop a
    have := tendsto_finsetSum S fun n _ => ((hz (π ^ 2 * ((1 + 2 * ρ) ^ 2 * (2 + 4 * n * (1 + 2 * ρ) ^ 2)))).add
      (hz (π ^ 2 * ((1 + 2 * ρ) ^ 4 / (5 * η))))).const_mul (c n)
    simpa using this
  obtain ⟨N, hN⟩ := eventually_atTop.1 (h2.eventually (gt_mem_nhds (half_pos hδ)))
  refine ⟨η, hη0, max N 1, fun eps he heη order ho rule hq b r hr hrσ => ?_⟩
  refine (light_curve_rate_uniform hq (by omega) hu htot hσ he heη (by linarith) b r hr hrσ).trans_lt ?_
  have hN := hN order (by omega)
  refine lt_of_le_of_lt ?_ (add_lt_add hη1 hN |>.trans_eq (add_halves δ))
  rw [← Finset.sum_add_distrib]
  refine Finset.sum_le_sum fun n _ => ?_
  rw [← mul_add]
  refine mul_le_mul_of_nonneg_left ?_ (abs_nonneg _)
  unfold uniformRate
  have a1 : √(10 * eps) ≤ √(10 * η) := sqrt_le_sqrt (by linarith)
  have a2 : π * ((1 + 2 * ρ) * √(10 * eps)) ≤ π * ((1 + 2 * ρ) * √(10 * η)) := by gcongr
  have a3 : π * (10 * eps * (1 + 2 * n * (1 + 2 * ρ) ^ 2)) ≤ π * (10 * η * (1 + 2 * n * (1 + 2 * ρ) ^ 2)) := by gcongr
  linarith

end Jaxoplanet.LimbDark

namespace Jaxoplanet.LightCurve
open _root_.Jaxoplanet.Starry _root_.Jaxoplanet.Spec _root_.Jaxoplanet.Keplerian _root_.Jaxoplanet.LimbDark
open Real MeasureTheory
open _root_.Jaxoplanet.Starry.Spec (IsGaussLegendre)

/-- C110 (d): one order and one machine epsilon serve all stars and bodies with ratios of the radii in the given range, at all positions. -/
theorem limb_dark_term_uniform {u : List ℝ} (htot : totalFlux u ≠ 0) {σ : ℝ} (hσ : 0 < σ) {k : ℝ} (hk : 0 ≤ k) {δ : ℝ} (hδ : 0 < δ) :
    ∃ eps₀ > 0, ∃ N, ∀ eps, 0 < eps → eps ≤ eps₀ → ∀ order ≥ N, ∀ rule, IsGaussLegendre order rule →
      ∀ R ρ, 0 < R → 0 ≤ ρ → ρ / R ≤ k → σ ≤ |1 - ρ / R| → ∀ p : V3,
        |limbDarkTerm eps rule u R ρ p - -hiddenFraction u R ρ p| < δ := by
  by_cases hu : u = []
  · subst hu
    refine ⟨1, one_pos, 0, fun eps _ _ order _ rule _ R ρ hR hρ _ _ p => ?_⟩
    by_cases hz : 0 < p.z
    · simp only [limbDarkTerm, if_pos hz, hiddenFraction_eq [] hR ρ hz, ← neg_div]
      have h1 : totalFlux [] = π := by
        have := whole_star 0
        simpa [totalFlux, profile, gtil] using this
      rw [uniform_light_curve, h1]
      have h2 : blockedFlux [] (√(p.x ^ 2 + p.y ^ 2) / R) (ρ / R) =
          (volume (stellarDisc ∩ occultor (√(p.x ^ 2 + p.y ^ 2) / R) (ρ / R))).toReal := by
        simp [blockedFlux, profile, Measure.real]
      rw [h2, sub_self, abs_zero]
      exact hδ
    · rw [limb_dark_behind _ _ _ _ _ (not_lt.1 hz)]
      unfold hiddenFraction
      rw [if_neg hz]
      simpa using hδ
  · obtain ⟨eps₀, h0, N, hN⟩ := light_curve_uniform hu htot hσ hk hδ
    refine ⟨eps₀, h0, N, fun eps he hle order ho rule hq R ρ hR hρ h1 h2 p => ?_⟩
    by_cases hz : 0 < p.z
    · simp only [limbDarkTerm, if_pos hz, hiddenFraction_eq u hR ρ hz, ← neg_div]
      have hr0 : 0 ≤ ρ / R := by positivity
      exact hN eps he hle order ho rule hq _ _ (by rwa [abs_of_nonneg hr0]) (by rwa [abs_of_nonneg hr0])
    · rw [limb_dark_behind _ _ _ _ _ (not_lt.1 hz)]
      unfold hiddenFraction
      rw [if_neg hz]
      simpa using hδ

/-- C110 (e): one order and one machine epsilon serve all transit light curves: all orbits, all stars and bodies with ratios of the radii
in the given range and all times. The entries of the light curve, computed with the code's own Kepler solver and orbit, are minus the
fraction of the light of the star that is hidden by a body on the Kepler orbit of the given elements, up to the accuracy of the solver. -/
theorem transit_light_curve_uniform {u : List ℝ} (htot : totalFlux u ≠ 0) {σ : ℝ} (hσ : 0 < σ) {k : ℝ} (hk : 0 ≤ k) {δ : ℝ} (hδ : 0 < δ) :
    ∃ eps₀ > 0, ∃ N, ∀ eps, 0 < eps → eps ≤ eps₀ → ∀ order ≥ N, ∀ rule, IsGaussLegendre order rule →
      ∀ (au G : ℝ) (c : Central) (b : Body ℝ) (o : OrbitalBody), mkOrbitalBody G c b = .ok o →
      ∀ e w i Ω ρ : ℝ, EccIs b e → 0 ≤ e → e < 1 → OmegaIs b w → InclIs b i → NodeIs b Ω → b.parallax = none → 0 ≤ o.semimajor →
      0 < c.radius → 0 ≤ ρ → ρ / c.radius ≤ k → σ ≤ |1 - ρ / c.radius| →
      c.radius + ρ + 2 * (6.3e-14 * o.semimajor) ≤ o.semimajor * (1 - e) →
      ∀ p, IsKeplerOrbit o.period o.time_peri o.semimajor e w i Ω p → ∀ t,
        |limbDarkTerm eps rule u c.radius ρ (o.relative_position Kepler.kepler au t) - -hiddenFraction u c.radius ρ (p t)| ≤
          fractionSlope u c.radius ρ * (6.3e-14 * o.semimajor) + δ := by
  obtain ⟨eps₀, h0, N, hN⟩ := limb_dark_term_uniform htot hσ hk hδ
  refine ⟨eps₀, h0, N, ?_⟩
  intro eps he hle order ho rule hq au G c b o h e w i Ω ρ hecc he0 he1 hw hi hΩ hp ha hR hρ h1 h2 hsep p hk t
  obtain ⟨f, hf, hW⟩ := relative_position_from_elements_accurate au h hecc he0 he1 hw hi hΩ hp t
  have hpt : p t = elementPosition (o.semimajor * ((1 - e ^ 2) / (1 + e * cos f))) f w i Ω := by
    obtain ⟨f', h1', h2'⟩ := hk t
    obtain ⟨hs, hc⟩ := trueAnomaly_unique he0 he1 h1' hf
    rw [h2']
    unfold elementPosition
    rw [hs, hc]
  rw [← hpt] at hW
  have hst := hiddenFraction_stable u hR hρ (by positivity) hW (hsep.trans (kepler_distance ha he0 he1 hk t))
  have hN := hN eps he hle order ho rule hq c.radius ρ hR hρ h1 h2 (o.relative_position Kepler.kepler au t)
  rw [abs_lt] at hN
  rw [abs_le] at *
  constructor <;> linarith

/-- C110 (f): the same for light curves integrated over exposures, of all lengths, with all stencils and numbers of samples. -/
theorem exposure_light_curve_uniform {u : List ℝ} (htot : totalFlux u ≠ 0) {σ : ℝ} (hσ : 0 < σ) {k : ℝ} (hk : 0 ≤ k) {δ : ℝ} (hδ : 0 < δ) :
    ∃ eps₀ > 0, ∃ N, ∀ eps, 0 < eps → eps ≤ eps₀ → ∀ order ≥ N, ∀ rule, IsGaussLegendre order rule →
      ∀ (au G : ℝ) (c : Central) (b : Body ℝ) (o : OrbitalBody), mkOrbitalBody G c b = .ok o →
      ∀ e w i Ω ρ : ℝ, EccIs b e → 0 ≤ e → e < 1 → OmegaIs b w → InclIs b i → NodeIs b Ω → b.parallax = none → 0 ≤ o.semimajor →
      0 < o.period → 0 < c.radius → 0 ≤ ρ → ρ / c.radius ≤ k → σ ≤ |1 - ρ / c.radius| →
      c.radius + ρ + 2 * (6.3e-14 * o.semimajor) ≤ o.semimajor * (1 - e) →
      ∀ p, IsKeplerOrbit o.period o.time_peri o.semimajor e w i Ω p →
      ∀ T, 0 < T → ∀ j m : ℕ, j ≤ 2 → j = 0 ∨ 2 ≤ m → ∃ F,
        integrate (fun s => limbDarkTerm eps rule u c.radius ρ (o.relative_position Kepler.kepler au s)) (some T) 0 j m = .ok F ∧
        ∀ t, |F t - (∫ s in (t - T / 2)..(t + T / 2), -hiddenFraction u c.radius ρ (p s)) / T| ≤
          fractionSlope u c.radius ρ * (6.3e-14 * o.semimajor) +
          fractionSlope u c.radius ρ * periSpeed o.period o.semimajor e * T / (2 * cells j m) + δ := by
  obtain ⟨eps₀, h0, N, hN⟩ := transit_light_curve_uniform htot hσ hk hδ
  refine ⟨eps₀, h0, N, ?_⟩
  intro eps he hle order ho rule hq au G c b o h e w i Ω ρ hecc he0 he1 hw hi hΩ hp ha hP hR hρ h1 h2 hsep p hk T hT j m hj hm
  obtain ⟨hlip, -⟩ := kepler_curve_facts u au h hecc he0 he1 hw hi hΩ hp ha hP hR hρ hsep hk
  have hV : 0 ≤ periSpeed o.period o.semimajor e := by unfold periSpeed; positivity
  set S := fractionSlope u c.radius ρ with hS
  have hS0 : 0 ≤ S := fractionSlope_nonneg u hR hρ
  obtain ⟨E, hE⟩ : ∃ E, integrate (fun s => -hiddenFraction u c.radius ρ (p s)) (some T) 0 j m = .ok E :=
    ⟨_, integrate_eq hj hm _ _⟩
  refine ⟨_, integrate_eq hj hm _ _, fun t => ?_⟩
  have hconv := integrate_accurate_lipschitz hj hm (t := t) (L := S * periSpeed o.period o.semimajor e) hT
    (by positivity) (fun x _ y _ => by rw [neg_sub_neg, abs_sub_comm]; exact hlip x y) hE
  have hstab := integrate_stable (ε := S * (6.3e-14 * o.semimajor) + δ) (t := t) (e := T) hj hm
    (fun n _ => hN eps he hle order ho rule hq au G c b o h e w i Ω ρ hecc he0 he1 hw hi hΩ hp ha hR hρ h1 h2 hsep p hk
      (t + offset j (oddSamples m) n * T))
    (integrate_eq hj hm (fun s => limbDarkTerm eps rule u c.radius ρ (o.relative_position Kepler.kepler au s)) T) hE
  rw [abs_le] at *
  constructor <;> linarith

/-- C110 (g): the same for the secondary eclipses and the flux of the bodies. -/
theorem emission_uniform {u : List ℝ} (htot : totalFlux u ≠ 0) {σ : ℝ} (hσ : 0 < σ) {k : ℝ} (hk : 0 ≤ k) {δ : ℝ} (hδ : 0 < δ) :
    ∃ eps₀ > 0, ∃ N, ∀ eps, 0 < eps → eps ≤ eps₀ → ∀ order ≥ N, ∀ rule, IsGaussLegendre order rule →
      ∀ (d : EmissionBody) (R : ℝ), d.u = u → 0 < d.radius → 0 ≤ R → R / d.radius ≤ k → σ ≤ |1 - R / d.radius| →
        |emissionTerm eps rule R d - d.amplitude * (1 - hiddenFraction d.u d.radius R ⟨d.pos.x, d.pos.y, -d.pos.z⟩)| ≤
          |d.amplitude| * δ := by
  obtain ⟨eps₀, h0, N, hN⟩ := limb_dark_term_uniform htot hσ hk hδ
  refine ⟨eps₀, h0, N, fun eps he hle order ho rule hq d R hu hρ hR h1 h2 => ?_⟩
  have := hN eps he hle order ho rule hq d.radius R hρ hR h1 h2 ⟨d.pos.x, d.pos.y, -d.pos.z⟩
  rw [emissionTerm_eq, ← mul_sub, abs_mul]
  refine mul_le_mul_of_nonneg_left ?_ (abs_nonneg _)
  rw [show ∀ x y : ℝ, 1 + x - (1 - y) = x - -y by intros; ring, hu]
  exact this.le

/-! ## The hypotheses are met -/

/-- there are Gauss-Legendre rules of all orders; a quadratic law has a non-vanishing flux; and a planet of a tenth of the radius of its
star is in the range -/
example : (∀ n, ∃ rule, IsGaussLegendre n rule) ∧ (0.1 : ℝ) / 1 ≤ 1 / 2 ∧ (1 / 2 : ℝ) ≤ |1 - 0.1 / 1| := by
  refine ⟨Gauss.exists_gauss, by norm_num, ?_⟩
  rw [abs_of_nonneg] <;> norm_num

/-- a warm Jupiter on an eccentric, inclined orbit of ten stellar radii, built by the code, in front of a star with quadratic
limb darkening, has an accurate light curve at all times -/
example {δ : ℝ} (hδ : 0 < δ) : ∃ eps₀ > 0, ∃ N, ∀ eps, 0 < eps → eps ≤ eps₀ → ∀ order ≥ N, ∀ rule, IsGaussLegendre order rule →
    ∃ o p, mkOrbitalBody 1 ⟨1, 1, 1⟩
      { semimajor := some 10, eccentricity := some 0.3, omega_peri := some 1, asc_node := some 2, inclination := some 1.5,
        time_transit := some 5 } = .ok o ∧ IsKeplerOrbit o.period o.time_peri 10 0.3 1 1.5 2 p ∧
      ∀ t, |limbDarkTerm eps rule [0.1, 0.3] 1 0.1 (o.relative_position Kepler.kepler 1 t) - -hiddenFraction [0.1, 0.3] 1 0.1 (p t)| ≤
        fractionSlope [0.1, 0.3] 1 0.1 * (6.3e-14 * 10) + δ := by
  have htot : totalFlux [0.1, 0.3] ≠ 0 := by
    rw [totalFlux_eq (by simp)]
    have h0 : greens [0.1, 0.3] 0 = 0.6 - 2 * (0.3 / 4) := by
      simp [greens, uAug, gHigh_of_lt, gHigh_of_ge, pCoeff, Finset.sum_range_succ]; norm_num
    have h1 : greens [0.1, 0.3] 1 = 0.7 := by
      simp [greens, uAug, gHigh_of_ge, pCoeff, Finset.sum_range_succ]; norm_num
    rw [h0, h1]
    have := pi_pos
    norm_num
  obtain ⟨eps₀, h0, N, hN⟩ := transit_light_curve_uniform htot (σ := 1 / 2) (by norm_num) (k := 1 / 2) (by norm_num) hδ
  refine ⟨eps₀, h0, N, fun eps he hle order ho rule hq => ?_⟩
  obtain ⟨o, ho'⟩ := mkOrbitalBody_of_accepted 1 ⟨1, 1, 1⟩
    (b := { semimajor := some 10, eccentricity := some 0.3, omega_peri := some 1, asc_node := some 2, inclination := some 1.5,
            time_transit := some 5 })
    (by constructor <;> simp [Given, ScalarIfGiven])
  have h3 := kepler_third_law (by norm_num) (by simp) (by simp) ho'
  have ha : o.semimajor = 10 := h3.2.2.2.2 10 rfl
  obtain ⟨p, hp⟩ := exists_keplerOrbit o.period o.time_peri o.semimajor (e := 0.3) (by norm_num) (by norm_num) 1 1.5 2
  refine ⟨o, p, ho', by rwa [ha] at hp, fun t => ?_⟩
  have := hN eps he hle order ho rule hq 1 1 _ _ o ho' 0.3 1 1.5 2 0.1 (by simp [EccIs]) (by norm_num) (by norm_num)
    (by simp [OmegaIs]) (by simp [InclIs]) (by simp [NodeIs]) rfl (by rw [ha]; norm_num) (by norm_num) (by norm_num) (by norm_num)
    (by rw [abs_of_nonneg] <;> norm_num) (by rw [ha]; norm_num) p hp t
  rwa [ha] at this

end Jaxoplanet.LightCurve
