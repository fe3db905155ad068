import Verif.Proofs.TransitFlux
import Verif.Props.LimbConverge
import Verif.Props.LightCurveAccuracy
import Verif.Props.OrbitAccuracy

/-!
# C86: transit light curves, end to end: Kepler solver, orbit, limb darkening, exposure time
-/

namespace Jaxoplanet.LightCurve
open _root_.Jaxoplanet.Starry _root_.Jaxoplanet.Spec _root_.Jaxoplanet.Keplerian _root_.Jaxoplanet.LimbDark
open Real MeasureTheory
open Filter (Tendsto atTop Eventually)
open _root_.Jaxoplanet.Starry.Spec (IsGaussLegendre)

/-- what the guards of the code change, for a body of radius `r` at the separation `b` (in stellar radii) -/
noncomputable def guardTerm (eps : ℝ) (u : List ℝ) (b r : ℝ) : ℝ :=
  ∑ n ∈ Finset.range (u.length + 1), |greens u n / totalFlux u| * guardLoss eps b r n

theorem guardTerm_nonneg {eps : ℝ} (he : 0 ≤ eps) (u : List ℝ) {b r : ℝ} (hb : 0 ≤ b) (hr : 0 ≤ r) : 0 ≤ guardTerm eps u b r :=
  Finset.sum_nonneg fun n _ => mul_nonneg (abs_nonneg _) (guardLoss_nonneg he hb hr n)

open Filter Topology in
theorem guardTerm_tendsto (u : List ℝ) {b r : ℝ} (hb : 0 ≤ b) (hr : 0 ≤ r) :
    Tendsto (fun eps => guardTerm eps u b r) (𝓝[>] 0) (𝓝 0) := by
  have := tendsto_finsetSum (Finset.range (u.length + 1)) fun n _ =>
    (guardLoss_tendsto hb hr n).const_mul |greens u n / totalFlux u|
  simpa [guardTerm] using this

/-- a body that is not (nearly) as large as the star -/
def NotStarSized (eps R ρ : ℝ) : Prop := ρ = 0 ∨ R < ρ ∨ 20 * eps ≤ 1 - (ρ / R) ^ 2

/-- C86 (a): the light that `light_curve` says is lost to one body at a given position is, for high enough orders, the fraction of
the light of the star that is hidden, up to what the guards of the code change. -/
theorem limb_dark_converges {quad : ℕ → List (ℝ × ℝ)} (hq : ∀ n, IsGaussLegendre n (quad n)) {u : List ℝ}
    (htot : totalFlux u ≠ 0) {eps R ρ : ℝ} (he : 0 < eps) (hR : 0 < R) (hρ : 0 ≤ ρ) (hs : NotStarSized eps R ρ) (p : V3)
    {δ : ℝ} (hδ : 0 < δ) :
    ∃ N, ∀ order ≥ N, |limbDarkTerm eps (quad order) u R ρ p - -hiddenFraction u R ρ p| ≤
      guardTerm eps u (√(p.x ^ 2 + p.y ^ 2) / R) (ρ / R) + δ := by
  have hb0 : 0 ≤ √(p.x ^ 2 + p.y ^ 2) / R := by positivity
  have hr0 : 0 ≤ ρ / R := by positivity
  have hg0 := guardTerm_nonneg he.le u hb0 hr0
  by_cases hz : 0 < p.z
  · simp only [limbDarkTerm, if_pos hz, hiddenFraction_eq u hR ρ hz, ← neg_div]
    by_cases hu : u = []
    · subst hu
      refine ⟨0, fun order _ => ?_⟩
      have h1 : totalFlux [] = π := by
        have := whole_star 0
        simpa [totalFlux, profile, gtil] using this
      rw [uniform_light_curve, h1]
      have h2 : blockedFlux [] (√(p.x ^ 2 + p.y ^ 2) / R) (ρ / R) =
          (volume (stellarDisc ∩ occultor (√(p.x ^ 2 + p.y ^ 2) / R) (ρ / R))).toReal := by
        simp [blockedFlux, profile, Measure.real]
      rw [h2, sub_self, abs_zero]
      positivity
    · have h := light_curve_converges hq hu htot (√(p.x ^ 2 + p.y ^ 2) / R) (ρ / R) (eps := eps) ?_ he ?_ hδ
      · rwa [abs_of_nonneg hb0, abs_of_nonneg hr0] at h
      · rw [abs_of_nonneg hb0, abs_of_nonneg hr0]
        rintro ⟨-, h1⟩
        rw [div_eq_one_iff_eq hR.ne'] at h1
        subst h1
        rcases hs with h | h | h
        · exact hR.ne' h
        · exact lt_irrefl _ h
        · rw [div_self hR.ne'] at h; linarith
      · rcases hs with h | h | h
        · exact Or.inr (Or.inl (by rw [h, zero_div]))
        · exact Or.inr (Or.inr (Or.inl (by rw [abs_of_nonneg hr0, le_div_iff₀ hR]; linarith)))
        · exact Or.inr (Or.inr (Or.inr h))
  · refine ⟨0, fun order _ => ?_⟩
    rw [limb_dark_behind _ _ _ _ _ (not_lt.1 hz)]
    unfold hiddenFraction
    rw [if_neg hz]
    simp only [neg_zero, sub_zero, abs_zero]
    positivity

open Filter Topology in
/-- C86 (a), the limit: any accuracy is reached by a small enough machine epsilon and all orders from some order on. -/
theorem limb_dark_limit {quad : ℕ → List (ℝ × ℝ)} (hq : ∀ n, IsGaussLegendre n (quad n)) {u : List ℝ}
    (htot : totalFlux u ≠ 0) {R ρ : ℝ} (hR : 0 < R) (hρ : 0 ≤ ρ) (hs : ρ ≠ R) (p : V3) {δ : ℝ} (hδ : 0 < δ) :
    ∀ᶠ eps in 𝓝[>] (0 : ℝ), ∃ N, ∀ order ≥ N, |limbDarkTerm eps (quad order) u R ρ p - -hiddenFraction u R ρ p| < δ := by
  have h1 := (guardTerm_tendsto u (b := √(p.x ^ 2 + p.y ^ 2) / R) (r := ρ / R) (by positivity) (by positivity)).eventually
    (gt_mem_nhds (half_pos hδ))
  have h2 : ∀ᶠ eps in 𝓝[>] (0 : ℝ), NotStarSized eps R ρ := by
    rcases lt_or_gt_of_ne hs with h | h
    · have hlt : ρ / R < 1 := (div_lt_one hR).2 h
      have : 0 < (1 - (ρ / R) ^ 2) / 20 := by
        have : (ρ / R) ^ 2 < 1 := by nlinarith [div_nonneg hρ hR.le]
        linarith
      filter_upwards [nhdsWithin_le_nhds (gt_mem_nhds this)] with eps h
      exact Or.inr (Or.inr (by linarith))
    · exact Eventually.of_forall fun _ => Or.inr (Or.inl h)
  filter_upwards [h1, h2, self_mem_nhdsWithin] with eps a1 a2 a3
  obtain ⟨N, hN⟩ := limb_dark_converges hq htot a3 hR hρ a2 p (half_pos hδ)
  exact ⟨N, fun order ho => by have := hN order ho; linarith⟩

/-- an occultor beside the star hides nothing -/
theorem blockedFlux_outside (u : List ℝ) {b r : ℝ} (hr : 0 ≤ r) (h : 1 + r ≤ b) : blockedFlux u b r = 0 := by
  have hsub : stellarDisc ∩ occultor b r ⊆ {((1 : ℝ), (0 : ℝ))} := by
    rintro ⟨x, y⟩ ⟨h1, h2⟩
    simp only [stellarDisc, occultor, Set.mem_ofPred_eq] at h1 h2
    have a1 := (abs_le.1 (abs_le_of_sq_le_sq (show (x - b) ^ 2 ≤ r ^ 2 by nlinarith [sq_nonneg y]) hr)).1
    have a2 : x = 1 := by nlinarith [sq_nonneg y]
    subst a2
    have : y = 0 := by nlinarith [sq_nonneg y]
    simp [this]
  unfold blockedFlux
  rw [setIntegral_measure_zero]
  exact measure_mono_null hsub (measure_singleton _)

/-- the hidden fraction of a body that is beside the star vanishes -/
theorem hiddenFraction_beside (u : List ℝ) {R ρ : ℝ} (hR : 0 < R) (hρ : 0 ≤ ρ) {p : V3} (h : R + ρ ≤ √(p.x ^ 2 + p.y ^ 2)) :
    hiddenFraction u R ρ p = 0 := by
  by_cases hz : 0 < p.z
  · rw [hiddenFraction_eq u hR ρ hz, blockedFlux_outside u (by positivity), zero_div]
    rw [le_div_iff₀ hR, add_mul, div_mul_cancel₀ _ hR.ne', one_mul]
    exact h
  · unfold hiddenFraction
    rw [if_neg hz]

/-- the slope of the hidden fraction as a function of the separation -/
noncomputable def fractionSlope (u : List ℝ) (R ρ : ℝ) : ℝ := profileBound u * (4 * (ρ / R)) / (|totalFlux u| * R)

theorem fractionSlope_nonneg (u : List ℝ) {R ρ : ℝ} (hR : 0 < R) (hρ : 0 ≤ ρ) : 0 ≤ fractionSlope u R ρ := by
  have hp : 0 ≤ profileBound u := (abs_nonneg _).trans (profile_le u (p := (0, 0)))
  unfold fractionSlope
  positivity

/-- C86 (b): the hidden fraction of bodies in front of the star is a Lipschitz function of the separation. -/
theorem hiddenFraction_lipschitz (u : List ℝ) {R ρ : ℝ} (hR : 0 < R) (hρ : 0 ≤ ρ) {p p' : V3} (hz : 0 < p.z) (hz' : 0 < p'.z) :
    |hiddenFraction u R ρ p - hiddenFraction u R ρ p'| ≤
      fractionSlope u R ρ * |√(p.x ^ 2 + p.y ^ 2) - √(p'.x ^ 2 + p'.y ^ 2)| := by
  rw [hiddenFraction_eq u hR ρ hz, hiddenFraction_eq u hR ρ hz', ← sub_div, abs_div]
  have h := blockedFlux_lipschitz u (√(p.x ^ 2 + p.y ^ 2) / R) (√(p'.x ^ 2 + p'.y ^ 2) / R) (r := ρ / R) (by positivity)
  rw [← sub_div, abs_div, abs_of_pos hR] at h
  refine (div_le_div_of_nonneg_right h (abs_nonneg _)).trans (le_of_eq ?_)
  unfold fractionSlope
  rw [div_mul_eq_mul_div, div_mul_eq_div_div]
  ring

/-- C86 (b): a small error of the position changes the hidden fraction little, if the bodies do not touch. -/
theorem hiddenFraction_stable (u : List ℝ) {R ρ d : ℝ} (hR : 0 < R) (hρ : 0 ≤ ρ) (hd : 0 ≤ d) {p p' : V3} (h : Within d p p')
    (hsep : R + ρ + 2 * d ≤ √(Spec.normSq p')) :
    |hiddenFraction u R ρ p - hiddenFraction u R ρ p'| ≤ fractionSlope u R ρ * d := by
  have h0 := fractionSlope_nonneg u hR hρ
  have hxy : |√(p.x ^ 2 + p.y ^ 2) - √(p'.x ^ 2 + p'.y ^ 2)| ≤ d := by
    refine (sqrt_sub_sqrt_le _ _ _ _).trans ?_
    rw [sqrt_le_left hd]
    unfold Within Spec.normSq at h
    simp only at h
    nlinarith [sq_nonneg (p.z - p'.z)]
  have hpp : 0 ≤ fractionSlope u R ρ * d := by positivity
  have main : ¬ (0 < p.z ↔ 0 < p'.z) → |hiddenFraction u R ρ p - hiddenFraction u R ρ p'| ≤ fractionSlope u R ρ * d := by
    intro hne
    have hc := abs_le.1 (h.coord hd).2.2
    have hzz : p'.z ^ 2 ≤ d ^ 2 := by
      by_cases hz : 0 < p.z <;> by_cases hz' : 0 < p'.z
      · exact absurd (by simp [hz, hz']) hne
      · refine sq_le_sq' ?_ ?_ <;> linarith
      · refine sq_le_sq' ?_ ?_ <;> linarith
      · exact absurd (by simp [hz, hz']) hne
    have hb' : R + ρ + d ≤ √(p'.x ^ 2 + p'.y ^ 2) := by
      apply le_sqrt_of_sq_le
      have h1 := (le_sqrt' (by positivity)).1 hsep
      unfold Spec.normSq at h1
      nlinarith
    have hb : R + ρ ≤ √(p.x ^ 2 + p.y ^ 2) := by
      have := (abs_le.1 hxy).1
      linarith
    rw [hiddenFraction_beside u hR hρ hb, hiddenFraction_beside u hR hρ (by linarith), sub_self, abs_zero]
    exact hpp
  by_cases hz : 0 < p.z <;> by_cases hz' : 0 < p'.z
  · exact (hiddenFraction_lipschitz u hR hρ hz hz').trans (by gcongr)
  · exact main (by simp [hz, hz'])
  · exact main (by simp [hz, hz'])
  · simp only [hiddenFraction, if_neg hz, if_neg hz', sub_self, abs_zero]
    exact hpp

/-! ## Orbits -/

/-- the true anomaly is determined up to full turns -/
theorem trueAnomaly_unique {M e f f' : ℝ} (he0 : 0 ≤ e) (he : e < 1) (h : TrueAnomalyAt M e f) (h' : TrueAnomalyAt M e f') :
    sin f = sin f' ∧ cos f = cos f' := by
  obtain ⟨E, h1, h2⟩ := h
  obtain ⟨E', h1', h2'⟩ := h'
  have hE := Kepler.keplerEq_unique he0 he h1 h1'
  subst hE
  have a := Kepler.toTrueAnomaly_of_isTrueAnomaly he0 he h2
  have a' := Kepler.toTrueAnomaly_of_isTrueAnomaly he0 he h2'
  rw [a] at a'
  exact ⟨(Prod.ext_iff.1 a').1, (Prod.ext_iff.1 a').2⟩

/-- given the elements there is only one Kepler orbit -/
theorem keplerOrbit_unique {P tp a e w i Ω : ℝ} (he0 : 0 ≤ e) (he : e < 1) {p p' : ℝ → V3} (h : IsKeplerOrbit P tp a e w i Ω p)
    (h' : IsKeplerOrbit P tp a e w i Ω p') : p = p' := by
  funext t
  obtain ⟨f, h1, h2⟩ := h t
  obtain ⟨f', h1', h2'⟩ := h' t
  obtain ⟨hs, hc⟩ := trueAnomaly_unique he0 he h1 h1'
  rw [h2, h2']
  unfold elementPosition
  rw [hs, hc]

/-- the motion of an `OrbitalBody`, with an exact solver of Kepler's equation, is the Kepler orbit of the given elements -/
theorem orbit_exact {kep : ℝ → ℝ → ℝ × ℝ} (hkep : ExactSolver kep) (au : ℝ)
    {G : ℝ} {c : Central} {b : Body ℝ} {o : OrbitalBody} (h : mkOrbitalBody G c b = .ok o)
    {e w i Ω : ℝ} (he : EccIs b e) (he0 : 0 ≤ e) (he1 : e < 1) (hw : OmegaIs b w) (hi : InclIs b i)
    (hΩ : NodeIs b Ω) (hp : b.parallax = none) {p : ℝ → V3}
    (hk : IsKeplerOrbit o.period o.time_peri o.semimajor e w i Ω p) : p = fun t => o.relative_position kep au t :=
  keplerOrbit_unique he0 he1 hk fun t => relative_position_from_elements hkep au h he he0 he1 hw hi hΩ hp t

/-- on a Kepler orbit the distance is at least `a (1 - e)` -/
theorem kepler_distance {P tp a e w i Ω : ℝ} (ha : 0 ≤ a) (he0 : 0 ≤ e) (he : e < 1) {p : ℝ → V3}
    (h : IsKeplerOrbit P tp a e w i Ω p) (t : ℝ) : a * (1 - e) ≤ √(Spec.normSq (p t)) := by
  obtain ⟨f, -, h2⟩ := h t
  have hn : Spec.normSq (p t) = (a * ((1 - e ^ 2) / (1 + e * cos f))) ^ 2 := by
    rw [h2]
    unfold elementPosition Spec.normSq Spec.rotZ Spec.rotX
    simp only
    generalize a * ((1 - e ^ 2) / (1 + e * cos f)) = r
    have s1 := sin_sq_add_cos_sq f
    have s2 := sin_sq_add_cos_sq w
    have s3 := sin_sq_add_cos_sq i
    have s4 := sin_sq_add_cos_sq Ω
    generalize sin f = sf at *
    generalize cos f = cf at *
    generalize sin w = sw at *
    generalize cos w = cw at *
    generalize sin i = si at *
    generalize cos i = ci at *
    generalize sin Ω = so at *
    generalize cos Ω = co at *
    generalize hX : cw * (r * cf) - sw * (r * sf) = X
    generalize hY : sw * (r * cf) + cw * (r * sf) = Y
    have hXY : X ^ 2 + Y ^ 2 = r ^ 2 := by
      rw [← hX, ← hY]
      linear_combination (r ^ 2 * (cf ^ 2 + sf ^ 2)) * s2 + r ^ 2 * s1
    linear_combination (X ^ 2 + (ci * Y) ^ 2) * s4 + Y ^ 2 * s3 + hXY
  have hden : 0 < 1 + e * cos f := by nlinarith [neg_one_le_cos f]
  rw [hn, sqrt_sq (by have : 0 < 1 - e ^ 2 := by nlinarith
                      positivity)]
  refine mul_le_mul_of_nonneg_left ?_ ha
  rw [le_div_iff₀ hden]
  have : 0 ≤ e * (1 - e) * (1 - cos f) := by
    have := cos_le_one f
    have : 0 ≤ 1 - e := by linarith
    have : 0 ≤ 1 - cos f := by linarith [cos_le_one f]
    positivity
  nlinarith

/-- C86 (c): one entry of the light curve of a Keplerian body, with the code's own Kepler solver and orbit: for high enough orders it
is minus the fraction of the light of the star that is hidden by a body on the Kepler orbit of the given elements, up to what the
guards change and the accuracy of the solver. -/
theorem transit_light_curve_accurate {quad : ℕ → List (ℝ × ℝ)} (hq : ∀ n, IsGaussLegendre n (quad n)) {u : List ℝ}
    (htot : totalFlux u ≠ 0) {eps : ℝ} (he : 0 < eps) (au : ℝ)
    {G : ℝ} {c : Central} {b : Body ℝ} {o : OrbitalBody} (h : mkOrbitalBody G c b = .ok o)
    {e w i Ω : ℝ} (hecc : EccIs b e) (he0 : 0 ≤ e) (he1 : e < 1) (hw : OmegaIs b w) (hi : InclIs b i)
    (hΩ : NodeIs b Ω) (hp : b.parallax = none) (ha : 0 ≤ o.semimajor) {ρ : ℝ} (hR : 0 < c.radius) (hρ : 0 ≤ ρ)
    (hs : NotStarSized eps c.radius ρ) (hsep : c.radius + ρ + 2 * (6.3e-14 * o.semimajor) ≤ o.semimajor * (1 - e))
    {p : ℝ → V3} (hk : IsKeplerOrbit o.period o.time_peri o.semimajor e w i Ω p) (t : ℝ) {δ : ℝ} (hδ : 0 < δ) :
    ∃ N, ∀ order ≥ N,
      |limbDarkTerm eps (quad order) u c.radius ρ (o.relative_position Kepler.kepler au t) - -hiddenFraction u c.radius ρ (p t)| ≤
        guardTerm eps u ((o.relative_angles Kepler.kepler au t).1 / c.radius) (ρ / c.radius) +
          fractionSlope u c.radius ρ * (6.3e-14 * o.semimajor) + δ := by
  obtain ⟨f, hf, hW⟩ := relative_position_from_elements_accurate au h hecc he0 he1 hw hi hΩ hp t
  have hpt : p t = elementPosition (o.semimajor * ((1 - e ^ 2) / (1 + e * cos f))) f w i Ω := by
    obtain ⟨f', h1', h2'⟩ := hk t
    obtain ⟨hs, hc⟩ := trueAnomaly_unique he0 he1 h1' hf
    rw [h2']
    unfold elementPosition
    rw [hs, hc]
  rw [← hpt] at hW
  have hst := hiddenFraction_stable u hR hρ (by positivity) hW (hsep.trans (kepler_distance ha he0 he1 hk t))
  obtain ⟨N, hN⟩ := limb_dark_converges hq htot he hR hρ hs (o.relative_position Kepler.kepler au t) hδ
  refine ⟨N, fun order ho => ?_⟩
  have hN := hN order ho
  have : (o.relative_angles Kepler.kepler au t).1 =
    √((o.relative_position Kepler.kepler au t).x ^ 2 + (o.relative_position Kepler.kepler au t).y ^ 2) := rfl
  rw [this]
  rw [abs_le] at *
  constructor <;> linarith

/-! ## Exposure time -/

/-- a moving point with bounded velocity -/
theorem separation_lipschitz {p v : ℝ → V3} (hv : ∀ t, HasVelocityAt p (v t) t) {V : ℝ} (hV : 0 ≤ V)
    (hb : ∀ t, Spec.normSq (v t) ≤ V ^ 2) (s t : ℝ) :
    |√((p s).x ^ 2 + (p s).y ^ 2) - √((p t).x ^ 2 + (p t).y ^ 2)| ≤ V * |s - t| := by
  have hd : ∀ t, HasDerivAt (fun s => ((p s).x : ℂ) + (p s).y * Complex.I) ((v t).x + (v t).y * Complex.I) t := fun t =>
    (hv t).1.ofReal_comp.add ((hv t).2.1.ofReal_comp.mul_const Complex.I)
  have hn : ∀ a b : ℝ, ‖(a : ℂ) + b * Complex.I‖ = √(a ^ 2 + b ^ 2) := fun a b => Complex.norm_add_mul_I a b
  have key := Convex.norm_image_sub_le_of_norm_hasDerivWithin_le (s := Set.univ) (C := V)
    (f := fun s => ((p s).x : ℂ) + (p s).y * Complex.I) (f' := fun t => (v t).x + (v t).y * Complex.I)
    (fun x _ => (hd x).hasDerivWithinAt) (fun x _ => by
      rw [hn, sqrt_le_left hV]
      have := hb x
      unfold Spec.normSq at this
      nlinarith [sq_nonneg (v x).z]) convex_univ (Set.mem_univ t) (Set.mem_univ s)
  rw [Real.norm_eq_abs] at key
  refine le_trans ?_ key
  have := abs_norm_sub_norm_le (((p s).x : ℂ) + (p s).y * Complex.I) (((p t).x : ℂ) + (p t).y * Complex.I)
  rwa [hn, hn] at this

/-- the hidden fraction of a moving body that never touches the star is a Lipschitz function of time -/
theorem hiddenFraction_time_lipschitz (u : List ℝ) {R ρ : ℝ} (hR : 0 < R) (hρ : 0 ≤ ρ) {p v : ℝ → V3}
    (hv : ∀ t, HasVelocityAt p (v t) t) {V : ℝ} (hV : 0 ≤ V) (hb : ∀ t, Spec.normSq (v t) ≤ V ^ 2)
    (hsep : ∀ t, R + ρ ≤ √(Spec.normSq (p t))) (s t : ℝ) :
    |hiddenFraction u R ρ (p s) - hiddenFraction u R ρ (p t)| ≤ fractionSlope u R ρ * V * |s - t| := by
  have h0 := fractionSlope_nonneg u hR hρ
  have hl := separation_lipschitz hv hV hb
  have hcont : Continuous fun t => (p t).z := continuous_iff_continuousAt.2 fun t => (hv t).2.2.continuousAt
  have main : ∀ s t, 0 < (p s).z → ¬ 0 < (p t).z →
      |hiddenFraction u R ρ (p s)| ≤ fractionSlope u R ρ * V * |s - t| := by
    intro s t hs ht
    -- the last moment (seen from `s`) with `z = 0`
    have hz0 : (0 : ℝ) ∈ (fun t => (p t).z) '' Set.uIcc t s := by
      refine intermediate_value_uIcc hcont.continuousOn ?_
      rw [Set.mem_uIcc]
      exact Or.inl ⟨not_lt.1 ht, hs.le⟩
    obtain ⟨τ, hτ, hzτ⟩ := hz0
    simp only at hzτ
    have hbτ : R + ρ ≤ √((p τ).x ^ 2 + (p τ).y ^ 2) := by
      have := hsep τ
      unfold Spec.normSq at this
      rw [hzτ] at this
      simpa using this
    -- a point in front of the star at the same place on the sky
    have hq : hiddenFraction u R ρ ⟨(p τ).x, (p τ).y, 1⟩ = 0 := hiddenFraction_beside u hR hρ hbτ
    have := hiddenFraction_lipschitz u hR hρ hs (p' := ⟨(p τ).x, (p τ).y, 1⟩) one_pos
    rw [hq, sub_zero] at this
    refine this.trans ?_
    rw [mul_assoc]
    refine mul_le_mul_of_nonneg_left ((hl s τ).trans (mul_le_mul_of_nonneg_left ?_ hV)) h0
    rw [Set.uIcc_comm] at hτ
    have := Set.abs_sub_left_of_mem_uIcc hτ
    rw [abs_sub_comm s τ, abs_sub_comm s t]
    exact this
  by_cases hz : 0 < (p s).z <;> by_cases hz' : 0 < (p t).z
  · refine (hiddenFraction_lipschitz u hR hρ hz hz').trans ?_
    rw [mul_assoc]
    exact mul_le_mul_of_nonneg_left (hl s t) h0
  · have : hiddenFraction u R ρ (p t) = 0 := by unfold hiddenFraction; rw [if_neg hz']
    rw [this, sub_zero]
    exact main s t hz hz'
  · have : hiddenFraction u R ρ (p s) = 0 := by unfold hiddenFraction; rw [if_neg hz]
    rw [this, zero_sub, abs_neg, abs_sub_comm]
    exact main t s hz' hz
  · simp only [hiddenFraction, if_neg hz, if_neg hz', sub_self, abs_zero]
    positivity

/-- the largest speed on a Kepler orbit -/
noncomputable def periSpeed (P a e : ℝ) : ℝ := 2 * π * a / P / √(1 - e ^ 2) * (1 + e)

/-- the velocity of an `OrbitalBody` with an exact solver -/
theorem orbit_velocity {kep : ℝ → ℝ → ℝ × ℝ} (hkep : ExactSolver kep) (au : ℝ) {o : OrbitalBody} (hk : ValidEcc o.ecc)
    (hn : ValidNode o.node) (hi : o.sin_inclination ^ 2 + o.cos_inclination ^ 2 = 1) (hpar : o.parallax = none) :
    ∃ v : ℝ → V3, ∀ t, HasVelocityAt (fun s => o.relative_position kep au s) (v t) t ∧
      Spec.normSq (v t) ≤ (periSpeed o.period o.semimajor o.eVal) ^ 2 := by
  obtain ⟨he0, he1⟩ := eVal_mem hk
  set A := -o.semimajor * (2 * π / o.period) / √(1 - o.eVal ^ 2) with hA
  refine ⟨fun t => o.rotateVector (-A * (o.trueAnomaly kep t).1) (A * ((o.trueAnomaly kep t).2 + o.eVal)), fun t => ?_⟩
  have hd := trueAnomaly_hasDerivAt hkep hk t
  have hu : (o.trueAnomaly kep t).1 ^ 2 + (o.trueAnomaly kep t).2 ^ 2 = 1 := by
    cases ho : o.ecc with
    | none => simp only [OrbitalBody.trueAnomaly, ho]; exact sin_sq_add_cos_sq _
    | some k =>
      obtain ⟨he0, he1, -⟩ := hk k ho
      obtain ⟨f, -, hf⟩ := hkep (o.meanAnomaly t) k.e he0 he1
      simp only [OrbitalBody.trueAnomaly, ho, hf]
      exact sin_sq_add_cos_sq _
  constructor
  · have h1 := hasVelocity_of_jvp (o := o) (s := fun s => (o.trueAnomaly kep s).1) (c := fun s => (o.trueAnomaly kep s).2) (τ := t)
      (n := 2 * π / o.period) (a := -o.semimajor) he0 he1 hu hd.1 hd.2 hA
    have e1 : (fun s => o.relative_position kep au s) = fun x => o.rotateVector
        (-o.semimajor * (o.rho (o.trueAnomaly kep x).2 * (o.trueAnomaly kep x).2))
        (-o.semimajor * (o.rho (o.trueAnomaly kep x).2 * (o.trueAnomaly kep x).1)) := by
      funext x
      unfold OrbitalBody.relative_position
      rw [posVel_fst_scaled]
      simp [posScale, hpar]
    rw [e1]
    exact h1
  · simp only
    rw [rotateVector_normSq o hk hn hi]
    have e1 : periSpeed o.period o.semimajor o.eVal = -A * (1 + o.eVal) := by
      rw [hA]; unfold periSpeed; ring
    rw [e1]
    have hc : (o.trueAnomaly kep t).2 ≤ 1 := by nlinarith [sq_nonneg (o.trueAnomaly kep t).1]
    have e2 : (-A * (o.trueAnomaly kep t).1) ^ 2 + (A * ((o.trueAnomaly kep t).2 + o.eVal)) ^ 2 =
        A ^ 2 * (1 + 2 * o.eVal * (o.trueAnomaly kep t).2 + o.eVal ^ 2) := by linear_combination A ^ 2 * hu
    rw [e2, mul_pow, neg_sq]
    refine mul_le_mul_of_nonneg_left ?_ (sq_nonneg A)
    nlinarith

/-- an average with positive weights -/
theorem integrate_stable {order N : ℕ} (ho : order ≤ 2) (hN : order = 0 ∨ 2 ≤ N) {f g : ℝ → ℝ} {e t ε : ℝ}
    (h : ∀ i ∈ Finset.range (oddSamples N), |f (t + offset order (oddSamples N) i * e) - g (t + offset order (oddSamples N) i * e)| ≤ ε)
    {F G : ℝ → ℝ} (hF : integrate f (some e) 0 order N = .ok F) (hG : integrate g (some e) 0 order N = .ok G) :
    |F t - G t| ≤ ε := by
  rw [integrate_eq ho hN, Except.ok.injEq] at hF hG
  subst hF hG
  simp only
  have hw : ∀ i, 0 < rawWeight order (oddSamples N) i := by
    intro i
    unfold rawWeight
    split <;> (try split_ifs) <;> norm_num
  have hn : 0 < oddSamples N := by
    obtain ⟨m, hm, -⟩ := oddSamples_spec N
    omega
  have hW : 0 < ∑ i ∈ Finset.range (oddSamples N), rawWeight order (oddSamples N) i :=
    Finset.sum_pos (fun i _ => hw i) ⟨0, Finset.mem_range.2 hn⟩
  rw [← sub_div, abs_div, abs_of_pos hW, div_le_iff₀ hW, ← Finset.sum_sub_distrib]
  refine (Finset.abs_sum_le_sum_abs _ _).trans ?_
  rw [Finset.mul_sum]
  refine Finset.sum_le_sum fun i hi => ?_
  rw [← mul_sub, abs_mul, abs_of_pos (hw i), mul_comm]
  exact mul_le_mul_of_nonneg_right (h i hi) (hw i).le

/-- the exact light curve of a Kepler orbit changes by at most `fractionSlope × periSpeed` per day, and the one of the program's
orbit differs from it by at most `fractionSlope` times the accuracy of the positions -/
theorem kepler_curve_facts (u : List ℝ) (au : ℝ)
    {G : ℝ} {c : Central} {b : Body ℝ} {o : OrbitalBody} (h : mkOrbitalBody G c b = .ok o)
    {e w i Ω : ℝ} (hecc : EccIs b e) (he0 : 0 ≤ e) (he1 : e < 1) (hw : OmegaIs b w) (hi : InclIs b i)
    (hΩ : NodeIs b Ω) (hp : b.parallax = none) (ha : 0 ≤ o.semimajor) (hP : 0 < o.period) {ρ : ℝ} (hR : 0 < c.radius) (hρ : 0 ≤ ρ)
    (hsep : c.radius + ρ + 2 * (6.3e-14 * o.semimajor) ≤ o.semimajor * (1 - e))
    {p : ℝ → V3} (hk : IsKeplerOrbit o.period o.time_peri o.semimajor e w i Ω p) :
    (∀ x y, |hiddenFraction u c.radius ρ (p x) - hiddenFraction u c.radius ρ (p y)| ≤
      fractionSlope u c.radius ρ * periSpeed o.period o.semimajor e * |x - y|) ∧
    ∀ s, |hiddenFraction u c.radius ρ (o.relative_position Kepler.kepler au s) - hiddenFraction u c.radius ρ (p s)| ≤
      fractionSlope u c.radius ρ * (6.3e-14 * o.semimajor) := by
  obtain ⟨kep, hkep⟩ := exists_exactSolver
  have hpo := orbit_exact hkep au h hecc he0 he1 hw hi hΩ hp hk
  -- the orbit is valid
  have hkv : ValidEcc o.ecc := by
    intro k hk
    rcases ecc_resolved h hecc hw with ⟨hec, _, _⟩ | hec
    · rw [hec] at hk; cases hk
    · rw [hec] at hk; cases hk
      exact ⟨he0, he1, sin_sq_add_cos_sq w⟩
  have hev : o.eVal = e := by
    unfold OrbitalBody.eVal
    rcases ecc_resolved h hecc hw with ⟨hec, h1, _⟩ | hec
    · rw [hec, h1]
    · rw [hec]
  have hn : ValidNode o.node := by
    intro s c hs
    rcases node_resolved h hΩ with ⟨hec, _⟩ | hec
    · rw [hec] at hs; cases hs
    · rw [hec] at hs; cases hs
      exact sin_sq_add_cos_sq Ω
  obtain ⟨his, hic⟩ := incl_resolved h hi
  have hpar : o.parallax = none := by
    obtain ⟨_, P, a, ecc, _, _, rfl⟩ := mkOrbitalBody_ok h
    exact hp
  obtain ⟨v, hv⟩ := orbit_velocity hkep au hkv hn (by rw [his, hic]; exact sin_sq_add_cos_sq i) hpar
  rw [hev] at hv
  have hV : 0 ≤ periSpeed o.period o.semimajor e := by unfold periSpeed; positivity
  have hlip := hiddenFraction_time_lipschitz u hR hρ (p := p) (v := v) (fun t => by rw [hpo]; exact (hv t).1) hV
    (fun t => (hv t).2) (fun t => le_trans (by nlinarith) (hsep.trans (kepler_distance ha he0 he1 hk t)))
  refine ⟨hlip, ?_⟩
  have hW : ∀ s, Within (6.3e-14 * o.semimajor) (o.relative_position Kepler.kepler au s) (p s) := by
    intro s
    have := (positions_accurate hkep au hkv hn (by rw [his, hic]; exact sin_sq_add_cos_sq i) s none).1
    rw [hpo]
    simpa [posScale, hpar] using this
  exact fun s =>
    hiddenFraction_stable u hR hρ (by positivity) (hW s) (hsep.trans (kepler_distance ha he0 he1 hk s))

open Filter Topology in
/-- C86 (d): the light curve of a Keplerian body integrated over exposures of length `T`, with the code's own Kepler solver, orbit,
limb darkening and stencil, of any of the three orders: it is the mean over the exposure of minus the hidden fraction of the light of the
star, up to the
accuracy of the solver and an error that decreases with the number of samples. -/
theorem exposure_light_curve_accurate {quad : ℕ → List (ℝ × ℝ)} (hq : ∀ n, IsGaussLegendre n (quad n)) {u : List ℝ}
    (htot : totalFlux u ≠ 0) (au : ℝ)
    {G : ℝ} {c : Central} {b : Body ℝ} {o : OrbitalBody} (h : mkOrbitalBody G c b = .ok o)
    {e w i Ω : ℝ} (hecc : EccIs b e) (he0 : 0 ≤ e) (he1 : e < 1) (hw : OmegaIs b w) (hi : InclIs b i)
    (hΩ : NodeIs b Ω) (hp : b.parallax = none) (ha : 0 ≤ o.semimajor) (hP : 0 < o.period) {ρ : ℝ} (hR : 0 < c.radius) (hρ : 0 ≤ ρ)
    (hs : ρ ≠ c.radius) (hsep : c.radius + ρ + 2 * (6.3e-14 * o.semimajor) ≤ o.semimajor * (1 - e))
    {p : ℝ → V3} (hk : IsKeplerOrbit o.period o.time_peri o.semimajor e w i Ω p) {T : ℝ} (hT : 0 < T) {k N : ℕ}
    (hk2 : k ≤ 2) (hN : k = 0 ∨ 2 ≤ N) (t : ℝ) {δ : ℝ} (hδ : 0 < δ) :
    ∀ᶠ eps in 𝓝[>] (0 : ℝ), ∃ M, ∀ order ≥ M, ∃ F,
      integrate (fun s => limbDarkTerm eps (quad order) u c.radius ρ (o.relative_position Kepler.kepler au s)) (some T) 0 k N = .ok F ∧
      |F t - (∫ s in (t - T / 2)..(t + T / 2), -hiddenFraction u c.radius ρ (p s)) / T| ≤
        fractionSlope u c.radius ρ * (6.3e-14 * o.semimajor) +
        fractionSlope u c.radius ρ * periSpeed o.period o.semimajor e * T / (2 * cells k N) + δ := by
  obtain ⟨hlip, hst⟩ := kepler_curve_facts u au h hecc he0 he1 hw hi hΩ hp ha hP hR hρ hsep hk
  have hV : 0 ≤ periSpeed o.period o.semimajor e := by unfold periSpeed; positivity
  set S := fractionSlope u c.radius ρ with hS
  have hS0 : 0 ≤ S := fractionSlope_nonneg u hR hρ
  -- the exact light curve, sampled
  obtain ⟨E, hE⟩ : ∃ E, integrate (fun s => -hiddenFraction u c.radius ρ (p s)) (some T) 0 k N = .ok E :=
    ⟨_, integrate_eq hk2 hN _ _⟩
  have hconv := integrate_accurate_lipschitz hk2 hN (t := t) (L := S * periSpeed o.period o.semimajor e) hT
    (by positivity) (fun x _ y _ => by rw [neg_sub_neg, abs_sub_comm]; exact hlip x y) hE
  have hall : ∀ᶠ eps in 𝓝[>] (0 : ℝ), ∀ i ∈ Finset.range (oddSamples N), ∃ M, ∀ order ≥ M,
      |limbDarkTerm eps (quad order) u c.radius ρ (o.relative_position Kepler.kepler au (t + offset k (oddSamples N) i * T)) -
        -hiddenFraction u c.radius ρ (o.relative_position Kepler.kepler au (t + offset k (oddSamples N) i * T))| < δ :=
    (Filter.eventually_all_finset _).2 fun i _ => limb_dark_limit hq htot hR hρ hs _ hδ
  filter_upwards [hall] with eps hall
  choose! M hM using hall
  refine ⟨(Finset.range (oddSamples N)).sup M, fun order ho => ⟨_, integrate_eq hk2 hN _ _, ?_⟩⟩
  have hstab := integrate_stable (ε := S * (6.3e-14 * o.semimajor) + δ) (t := t) (e := T) hk2 hN (fun i hi => ?_)
    (integrate_eq hk2 hN
      (fun s => limbDarkTerm eps (quad order) u c.radius ρ (o.relative_position Kepler.kepler au s)) T) hE
  · rw [abs_le] at *
    constructor <;> linarith
  · have h1 := hM i hi order (le_trans (Finset.le_sup (f := M) hi) ho)
    have h2 := hst (t + offset k (oddSamples N) i * T)
    rw [abs_lt] at h1
    rw [abs_le] at *
    constructor <;> linarith

open Filter Topology in
/-- C98 (e): the light curve of a Keplerian body interpolated from a grid of `n` times over a window of length `d`, with the code's
own Kepler solver, orbit and limb darkening: at every time of the window and at every time a whole number of periods away it is minus the
hidden fraction of the light of the star, up to the accuracy of the solver and an error proportional to the spacing of the grid. -/
theorem interpolated_light_curve_accurate {quad : ℕ → List (ℝ × ℝ)} (hq : ∀ n, IsGaussLegendre n (quad n)) {u : List ℝ}
    (htot : totalFlux u ≠ 0) (au : ℝ)
    {G : ℝ} {c : Central} {b : Body ℝ} {o : OrbitalBody} (h : mkOrbitalBody G c b = .ok o)
    {e w i Ω : ℝ} (hecc : EccIs b e) (he0 : 0 ≤ e) (he1 : e < 1) (hw : OmegaIs b w) (hi : InclIs b i)
    (hΩ : NodeIs b Ω) (hp : b.parallax = none) (ha : 0 ≤ o.semimajor) (hP : 0 < o.period) {ρ : ℝ} (hR : 0 < c.radius) (hρ : 0 ≤ ρ)
    (hs : ρ ≠ c.radius) (hsep : c.radius + ρ + 2 * (6.3e-14 * o.semimajor) ≤ o.semimajor * (1 - e))
    {p : ℝ → V3} (hk : IsKeplerOrbit o.period o.time_peri o.semimajor e w i Ω p) {P t0 d tiny : ℝ} {n : ℕ} (hn : 2 ≤ n)
    (hPd : 0 < d ∧ d < P) (htiny : tiny < d / (n - 1)) {t : ℝ} (ht : |t - t0| ≤ d / 2) (m : ℤ) {δ : ℝ} (hδ : 0 < δ) :
    ∀ᶠ eps in 𝓝[>] (0 : ℝ), ∃ M, ∀ order ≥ M,
      |interpolate tiny (fun s => limbDarkTerm eps (quad order) u c.radius ρ (o.relative_position Kepler.kepler au s)) P t0 n (some d)
          (t + m * P) - -hiddenFraction u c.radius ρ (p t)| ≤
        fractionSlope u c.radius ρ * (6.3e-14 * o.semimajor) +
        fractionSlope u c.radius ρ * periSpeed o.period o.semimajor e * (d / (n - 1)) / 2 + δ := by
  obtain ⟨hlip, hst⟩ := kepler_curve_facts u au h hecc he0 he1 hw hi hΩ hp ha hP hR hρ hsep hk
  have hV : 0 ≤ periSpeed o.period o.semimajor e := by unfold periSpeed; positivity
  set S := fractionSlope u c.radius ρ with hS
  have hS0 : 0 ≤ S := fractionSlope_nonneg u hR hρ
  have hPP : 0 < P := hPd.1.trans hPd.2
  have hlin := interpolate_error hPP tiny hn (f := fun s => -hiddenFraction u c.radius ρ (p s)) (t0 := t0) (dur := some d) hPd htiny
    (L := S * periSpeed o.period o.semimajor e) (by positivity) (fun x y => by rw [neg_sub_neg, abs_sub_comm]; exact hlip x y) ht
  rw [← interpolate_periodic hPP _ _ _ _ _ _ m] at hlin
  have hall : ∀ᶠ eps in 𝓝[>] (0 : ℝ), ∀ i ∈ Finset.range n, ∃ M, ∀ order ≥ M,
      |limbDarkTerm eps (quad order) u c.radius ρ (o.relative_position Kepler.kepler au (t0 - d / 2 + i * (d / (n - 1)))) -
        -hiddenFraction u c.radius ρ (o.relative_position Kepler.kepler au (t0 - d / 2 + i * (d / (n - 1))))| < δ :=
    (Filter.eventually_all_finset _).2 fun i _ => limb_dark_limit hq htot hR hρ hs _ hδ
  filter_upwards [hall] with eps hall
  choose! M hM using hall
  refine ⟨(Finset.range n).sup M, fun order ho => ?_⟩
  have hstab := interpolate_stable hPP tiny hn (ε := S * (6.3e-14 * o.semimajor) + δ) hPd htiny ht m
    (f := fun s => limbDarkTerm eps (quad order) u c.radius ρ (o.relative_position Kepler.kepler au s))
    (g := fun s => -hiddenFraction u c.radius ρ (p s)) (fun i hi => ?_)
  · simp only [Option.getD_some] at hlin
    rw [abs_le] at *
    constructor <;> linarith
  · have h1 := hM i (Finset.mem_range.2 hi) order (le_trans (Finset.le_sup (f := M) (Finset.mem_range.2 hi)) ho)
    have h2 := hst (t0 - d / 2 + i * (d / (n - 1)))
    rw [abs_lt] at h1
    rw [abs_le] at *
    constructor <;> linarith

/-- for all elements there is a Kepler orbit -/
theorem exists_keplerOrbit (P tp a : ℝ) {e : ℝ} (he0 : 0 ≤ e) (he : e < 1) (w i Ω : ℝ) : ∃ p, IsKeplerOrbit P tp a e w i Ω p := by
  obtain ⟨kep, hkep⟩ := exists_exactSolver
  have h : ∀ t, ∃ f, TrueAnomalyAt (2 * π * (t - tp) / P) e f := fun t => by
    obtain ⟨f, hf, -⟩ := hkep (2 * π * (t - tp) / P) e he0 he
    exact ⟨f, hf⟩
  choose f hf using h
  exact ⟨fun t => elementPosition (a * ((1 - e ^ 2) / (1 + e * cos (f t)))) (f t) w i Ω, fun t => ⟨f t, hf t, rfl⟩⟩

/-! ## Emission of the bodies -/

/-- the emission of a body is that of a star transited by the central star, seen from the other side -/
theorem emissionTerm_eq (eps : ℝ) (quad : List (ℝ × ℝ)) (r_star : ℝ) (d : EmissionBody) :
    emissionTerm eps quad r_star d =
      d.amplitude * (1 + limbDarkTerm eps quad d.u d.radius r_star ⟨d.pos.x, d.pos.y, -d.pos.z⟩) := by
  simp only [emissionTerm, limbDarkTerm, gt_iff_lt, neg_pos]

/-- C86 (e): the flux of an emitting body is its amplitude times the fraction of its light that the star does not hide: the star
hides it while it is behind the star. -/
theorem emission_converges {quad : ℕ → List (ℝ × ℝ)} (hq : ∀ n, IsGaussLegendre n (quad n)) (d : EmissionBody)
    (htot : totalFlux d.u ≠ 0) {eps R : ℝ} (he : 0 < eps) (hR : 0 ≤ R) (hρ : 0 < d.radius) (hs : NotStarSized eps d.radius R)
    {δ : ℝ} (hδ : 0 < δ) :
    ∃ N, ∀ order ≥ N,
      |emissionTerm eps (quad order) R d - d.amplitude * (1 - hiddenFraction d.u d.radius R ⟨d.pos.x, d.pos.y, -d.pos.z⟩)| ≤
        |d.amplitude| * (guardTerm eps d.u (√(d.pos.x ^ 2 + d.pos.y ^ 2) / d.radius) (R / d.radius) + δ) := by
  obtain ⟨N, hN⟩ := limb_dark_converges hq htot he hρ hR hs ⟨d.pos.x, d.pos.y, -d.pos.z⟩ hδ
  refine ⟨N, fun order ho => ?_⟩
  rw [emissionTerm_eq, ← mul_sub, abs_mul]
  refine mul_le_mul_of_nonneg_left ?_ (abs_nonneg _)
  have := hN order ho
  rwa [show ∀ x y : ℝ, 1 + x - (1 - y) = x - -y by intros; ring]

/-- C86 (e): the first row of the emission light curve, the flux of the star: one minus the sum of the hidden fractions. -/
theorem emission_star_converges {quad : ℕ → List (ℝ × ℝ)} (hq : ∀ n, IsGaussLegendre n (quad n)) {u : List ℝ}
    (htot : totalFlux u ≠ 0) {eps R : ℝ} (he : 0 < eps) (hR : 0 < R) (bodies : List EmissionBody)
    (hb : ∀ d ∈ bodies, 0 ≤ d.radius ∧ NotStarSized eps R d.radius) {δ : ℝ} (hδ : 0 < δ) :
    ∃ N, ∀ order ≥ N, ∃ f0, (emissionLightCurve eps (quad order) u R bodies)[0]? = some f0 ∧
      |f0 - (1 - (bodies.map fun d => hiddenFraction u R d.radius d.pos).sum)| ≤
        (bodies.map fun d => guardTerm eps u (√(d.pos.x ^ 2 + d.pos.y ^ 2) / R) (d.radius / R) + δ).sum := by
  have key : ∃ N, ∀ order ≥ N, |((bodies.map fun d => limbDarkTerm eps (quad order) u R d.radius d.pos).sum) -
      -(bodies.map fun d => hiddenFraction u R d.radius d.pos).sum| ≤
        (bodies.map fun d => guardTerm eps u (√(d.pos.x ^ 2 + d.pos.y ^ 2) / R) (d.radius / R) + δ).sum := by
    induction bodies with
    | nil => exact ⟨0, fun _ _ => by simp⟩
    | cons d l ih =>
      obtain ⟨N, hN⟩ := ih fun d hd => hb d (List.mem_cons_of_mem _ hd)
      obtain ⟨h1, h2⟩ := hb d List.mem_cons_self
      obtain ⟨N', hN'⟩ := limb_dark_converges hq htot he hR h1 h2 d.pos hδ
      refine ⟨max N N', fun order ho => ?_⟩
      have a := hN order (le_trans (le_max_left _ _) ho)
      have b := hN' order (le_trans (le_max_right _ _) ho)
      simp only [List.map_cons, List.sum_cons]
      rw [abs_le] at *
      constructor <;> linarith
  obtain ⟨N, hN⟩ := key
  refine ⟨N, fun order ho => ⟨_, rfl, ?_⟩⟩
  have := hN order ho
  simp only [limbDarkLightCurve, List.map_map, Function.comp_def]
  rwa [show ∀ x y : ℝ, x + 1 - (1 - y) = x - -y by intros; ring]

/-! ## The hypotheses are met -/

/-- a warm Jupiter on an eccentric, inclined orbit of ten stellar radii, built by the code -/
example : ∃ o p, mkOrbitalBody 1 ⟨1, 1, 1⟩
    { semimajor := some 10, eccentricity := some 0.3, omega_peri := some 1, asc_node := some 2, inclination := some 1.5,
      time_transit := some 5 } = .ok o ∧ o.semimajor = 10 ∧ 0 < o.period ∧
    IsKeplerOrbit o.period o.time_peri o.semimajor 0.3 1 1.5 2 p ∧ NotStarSized (2 ^ (-52 : ℤ)) 1 0.1 ∧
    (1 : ℝ) + 0.1 + 2 * (6.3e-14 * o.semimajor) ≤ o.semimajor * (1 - 0.3) := by
  obtain ⟨o, ho⟩ := mkOrbitalBody_of_accepted 1 ⟨1, 1, 1⟩
    (b := { semimajor := some 10, eccentricity := some 0.3, omega_peri := some 1, asc_node := some 2, inclination := some 1.5,
            time_transit := some 5 })
    (by constructor <;> simp [Given, ScalarIfGiven])
  have h3 := kepler_third_law (by norm_num) (by simp) (by simp) ho
  have ha : o.semimajor = 10 := h3.2.2.2.2 10 rfl
  obtain ⟨p, hp⟩ := exists_keplerOrbit o.period o.time_peri o.semimajor (e := 0.3) (by norm_num) (by norm_num) 1 1.5 2
  refine ⟨o, p, ho, ha, h3.2.1, hp, Or.inr (Or.inr ?_), ?_⟩
  · norm_num
  · rw [ha]; norm_num

/-- for this body and a uniform star the accuracy of the solver contributes less than `10⁻¹²` to the light curve -/
example : fractionSlope [] 1 0.1 * (6.3e-14 * 10) < 1e-12 := by
  have h1 : totalFlux [] = π := by
    have := whole_star 0
    simpa [totalFlux, profile, gtil] using this
  unfold fractionSlope
  rw [h1, abs_of_pos pi_pos]
  simp only [profileBound, List.map_nil, List.sum_nil]
  have := pi_gt_three
  rw [div_mul_eq_mul_div, div_lt_iff₀ (by positivity)]
  norm_num
  linarith

end Jaxoplanet.LightCurve
