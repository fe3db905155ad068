import Verif.Proofs.OrbitFloat
import Verif.Props.LimbDarkFloat
import Verif.Props.TransitAccuracy

/-!
# C109: positions of bodies and transit light curves of uniform stars in floating-point arithmetic, end to end
-/

namespace Jaxoplanet.OrbitFloat

open Real KeplerFloat Keplerian Spec MeasureTheory
open _root_.Jaxoplanet.LightCurve (trueAnomaly_unique kepler_distance hiddenFraction_stable hiddenFraction_eq fractionSlope fractionSlope_nonneg blockedFlux_lipschitz blockedFlux_outside keplerOrbit_unique profileBound)

/-- **C109 (a).** Circular orbits: in floating-point arithmetic `relative_position(t)` is within `51 u a` of the place where the body
is on its Kepler orbit at a time that differs from `t` only by the rounding of the times. -/
theorem position_float_circular {u : ℝ} (hu0 : 0 ≤ u) (hu : u ≤ 1e-4) {o : OrbitalBody} {i Ω : ℝ}
    (ho : RoundedElements u o 0 0 i Ω) (hec : o.ecc = none) (hP : 0 < o.period) (ha : 0 ≤ o.semimajor) {p : ℝ → V3}
    (hk : IsKeplerOrbit o.period o.time_peri o.semimajor 0 0 i Ω p) {t : ℝ} (R : PositionRun u o t) :
    ∃ t', |t' - t| ≤ 7 * u * (|t - o.time_transit| + |o.time_ref|) ∧ Within (51 * u * o.semimajor) R.result (p t') := by
  have hM := mean_near hu0 hu hP R.anom
  have hpp : 0 < 2 * π / o.period := by have := pi_pos; positivity
  refine ⟨o.time_peri + R.anom.M / (2 * π / o.period), ?_, ?_⟩
  · have e1 : R.anom.M - 2 * π * (t - (o.time_transit + o.time_ref)) / o.period =
        2 * π / o.period * (o.time_peri + R.anom.M / (2 * π / o.period) - t) := by
      have : o.time_peri = o.time_transit + o.time_ref := rfl
      rw [this]
      have := pi_pos
      field_simp
      ring
    rw [e1, abs_mul, abs_of_pos hpp] at hM
    exact le_of_mul_le_mul_left hM hpp
  · obtain ⟨f, hf, hpt⟩ := hk (o.time_peri + R.anom.M / (2 * π / o.period))
    have e2 : 2 * π * (o.time_peri + R.anom.M / (2 * π / o.period) - o.time_peri) / o.period = R.anom.M := by
      have := pi_pos
      field_simp
      ring
    rw [e2] at hf
    have hM0 : TrueAnomalyAt R.anom.M 0 R.anom.M := by
      refine ⟨R.anom.M, by unfold KeplerEq; ring, ?_⟩
      unfold IsTrueAnomaly
      simp
    obtain ⟨hs, hc⟩ := trueAnomaly_unique le_rfl one_pos hf hM0
    have : p (o.time_peri + R.anom.M / (2 * π / o.period)) = elementPosition o.semimajor R.anom.M 0 i Ω := by
      rw [hpt]
      unfold elementPosition
      rw [hs, hc]
      simp
    rw [this]
    exact circular_near hu0 hu ho hec ha R

theorem abs_le_gap (p q : ℝ × ℝ) : |p.1 - q.1| ≤ gap p q ∧ |p.2 - q.2| ≤ gap p q := by
  unfold gap
  constructor <;> apply abs_le_sqrt <;> nlinarith [sq_nonneg (p.1 - q.1), sq_nonneg (p.2 - q.2)]

/-- **C109 (b).** Eccentric orbits: in floating-point arithmetic `relative_position(t)` is within
`43 a (1.5e-13 + 108 u / (1 - e)) / (1 - e)` of the place where the body is on its Kepler orbit at a time that differs from `t` only
by the rounding of the times. -/
theorem position_float_eccentric {u : ℝ} (hu0 : 0 ≤ u) (hu : u ≤ 1e-10) {o : OrbitalBody} {k : Ecc} {e w i Ω : ℝ}
    (ho : RoundedElements u o e w i Ω) (hec : o.ecc = some k) (he0 : 0 ≤ e) (he1 : e < 1) (heu : 400 * u ≤ 1 - e)
    (heg : 16 * anomalyError u e ≤ 1 - e) (hP : 0 < o.period) (ha : 0 ≤ o.semimajor) {p : ℝ → V3}
    (hk : IsKeplerOrbit o.period o.time_peri o.semimajor e w i Ω p) {t : ℝ} (R : PositionRun u o t) :
    ∃ t', |t' - t| ≤ 11 * u * (|t - o.time_transit| + |o.time_ref|) + 10 * u * o.period ∧
      Within (43 * o.semimajor * (anomalyError u e / (1 - e))) R.result (p t') := by
  have hu4 : u ≤ 1e-4 := hu.trans (by norm_num)
  have hM := mean_near hu0 hu4 hP R.anom
  have hπ := pi_pos
  have hpp : 0 < 2 * π / o.period := by positivity
  set S := |t - o.time_transit| + |o.time_ref| with hS
  have hS0 : 0 ≤ S := by positivity
  obtain ⟨k', hk', hke, -, -⟩ := ho.ecc.resolve_left (by rw [hec]; simp)
  obtain rfl : k = k' := Option.some.inj (hec.symm.trans hk')
  have hf := R.anom.hf
  rw [hec] at hf
  simp only at hf
  obtain ⟨K, hK⟩ := hf
  obtain ⟨M', f, h1, h2, h3⟩ := float_accurate hu0 hu (by rw [hke]; exact he0) (by rw [hke]; exact heu) (by rw [hke]; exact he1) K
  rw [hK] at h3
  rw [hke] at h2 h3
  have hg := abs_le_gap (R.anom.sinf, R.anom.cosf) (sin f, cos f)
  refine ⟨o.time_peri + (M' + K.n * (2 * π)) / (2 * π / o.period), ?_, ?_⟩
  · set M0 := 2 * π * (t - (o.time_transit + o.time_ref)) / o.period with hM0
    have e1 : M' + K.n * (2 * π) - M0 = 2 * π / o.period * (o.time_peri + (M' + K.n * (2 * π)) / (2 * π / o.period) - t) := by
      have : o.time_peri = o.time_transit + o.time_ref := rfl
      rw [this, hM0]
      field_simp
      ring
    have hMM : |M0| ≤ 2 * π / o.period * S := by
      have : M0 = 2 * π / o.period * (t - o.time_transit - o.time_ref) := by rw [hM0]; field_simp; ring
      rw [this, abs_mul, abs_of_pos hpp]
      exact mul_le_mul_of_nonneg_left (abs_sub _ _) hpp.le
    have hMa : |R.anom.M| ≤ 2 * π / o.period * (1.1 * S) := by
      have a1 := abs_sub_abs_le_abs_sub R.anom.M M0
      have a2 : 2 * π / o.period * (7 * u * S) ≤ 2 * π / o.period * (0.1 * S) := by
        refine mul_le_mul_of_nonneg_left (mul_le_mul_of_nonneg_right ?_ hS0) hpp.le
        norm_num at hu ⊢
        linarith
      have : 2 * π / o.period * (1.1 * S) = 2 * π / o.period * S + 2 * π / o.period * (0.1 * S) := by ring
      linarith
    have h4 : |M' + K.n * (2 * π) - M0| ≤ 2 * π / o.period * (11 * u * S + 10 * u * o.period) := by
      have b1 : M' + K.n * (2 * π) - M0 = (M' - (R.anom.M - K.n * (2 * π))) + (R.anom.M - M0) := by ring
      rw [b1]
      refine (abs_add_le _ _).trans ?_
      have b2 : u * (3 * |R.anom.M| + 60) ≤ 2 * π / o.period * (3.3 * u * S) + 60 * u := by
        have := mul_le_mul_of_nonneg_left hMa hu0
        have e : 2 * π / o.period * (3.3 * u * S) = 3 * (u * (2 * π / o.period * (1.1 * S))) := by ring
        rw [e]
        linarith
      have b3 : 60 * u ≤ 2 * π / o.period * (10 * u * o.period) := by
        have : 2 * π / o.period * (10 * u * o.period) = 20 * π * u := by field_simp; ring
        rw [this]
        have := pi_gt_d2
        norm_num at this
        nlinarith
      have b4 : 2 * π / o.period * (11 * u * S + 10 * u * o.period) = 2 * π / o.period * (7 * u * S) + 2 * π / o.period * (3.3 * u * S) +
          2 * π / o.period * (10 * u * o.period) + 0.7 * (2 * π / o.period * (u * S)) := by ring
      have b5 : 0 ≤ 2 * π / o.period * (u * S) := by positivity
      linarith
    rw [e1, abs_mul, abs_of_pos hpp] at h4
    exact le_of_mul_le_mul_left h4 hpp
  · obtain ⟨f', hf', hpt⟩ := hk (o.time_peri + (M' + K.n * (2 * π)) / (2 * π / o.period))
    have e2 : 2 * π * (o.time_peri + (M' + K.n * (2 * π)) / (2 * π / o.period) - o.time_peri) / o.period = M' + K.n * (2 * π) := by
      field_simp
      ring
    rw [e2] at hf'
    have hsc : sin f' = sin f ∧ cos f' = cos f := by
      obtain ⟨E', hE', hfE'⟩ := hf'
      obtain ⟨E, hE, hfE⟩ := h2
      have hEE := Kepler.keplerEq_unique he0 he1 hE' (Kepler.keplerEq_add_two_pi K.n hE)
      have a1 := Kepler.toTrueAnomaly_of_isTrueAnomaly he0 he1 hfE'
      have a2 := Kepler.toTrueAnomaly_of_isTrueAnomaly he0 he1 hfE
      rw [hEE, Kepler.toTrueAnomaly_add_two_pi he0 he1, a2] at a1
      exact ⟨(Prod.ext_iff.1 a1).1.symm, (Prod.ext_iff.1 a1).2.symm⟩
    have : p (o.time_peri + (M' + K.n * (2 * π)) / (2 * π / o.period)) =
        elementPosition (o.semimajor * ((1 - e ^ 2) / (1 + e * cos f))) f w i Ω := by
      rw [hpt]
      unfold elementPosition
      rw [hsc.1, hsc.2]
    rw [this]
    exact eccentric_near hu0 hu4 ho hec ha he0 he1 R (hg.1.trans h3) (hg.2.trans h3) (anomalyError_ge hu0 he0 he1) heg heu

/-! ## Light curves -/

/-- the area of the star that is covered depends little on the radius of the occultor -/
theorem area_radius {b r r' : ℝ} (hr : 0 ≤ r) (hrr : r ≤ r') :
    |(volume (stellarDisc ∩ occultor b r)).toReal - (volume (stellarDisc ∩ occultor b r')).toReal| ≤ π * (r' ^ 2 - r ^ 2) := by
  have hsub : occultor b r ⊆ occultor b r' := fun q hq => le_trans hq (pow_le_pow_left₀ hr hrr 2)
  have hm : MeasurableSet (occultor b r) := (isClosed_le (by fun_prop) continuous_const).measurableSet
  have hf' := LimbDarkFloat.occultor_lt_top b (hr.trans hrr)
  have hf := LimbDarkFloat.occultor_lt_top b hr
  have hfi : ∀ s, volume (s ∩ occultor b r') ≠ ⊤ := fun s => ne_top_of_le_ne_top hf' (measure_mono Set.inter_subset_right)
  have h1 : (volume (stellarDisc ∩ occultor b r)).toReal ≤ (volume (stellarDisc ∩ occultor b r')).toReal :=
    ENNReal.toReal_mono (hfi _) (measure_mono (Set.inter_subset_inter_right _ hsub))
  have h2 : (volume (stellarDisc ∩ occultor b r')).toReal ≤ (volume (stellarDisc ∩ occultor b r)).toReal +
      (volume (occultor b r' \ occultor b r)).toReal := by
    rw [← ENNReal.toReal_add (ne_top_of_le_ne_top hf (measure_mono Set.inter_subset_right))
      (ne_top_of_le_ne_top hf' (measure_mono Set.sdiff_subset))]
    refine ENNReal.toReal_mono (ENNReal.add_ne_top.2 ⟨ne_top_of_le_ne_top hf (measure_mono Set.inter_subset_right),
      ne_top_of_le_ne_top hf' (measure_mono Set.sdiff_subset)⟩) ?_
    refine (measure_mono ?_).trans (measure_union_le _ _)
    rintro q ⟨q1, q2⟩
    by_cases hq : q ∈ occultor b r
    · exact Or.inl ⟨q1, hq⟩
    · exact Or.inr ⟨q2, hq⟩
  have h3 : (volume (occultor b r' \ occultor b r)).toReal = π * (r' ^ 2 - r ^ 2) := by
    rw [measure_sdiff hsub hm.nullMeasurableSet hf, ENNReal.toReal_sub_of_le (measure_mono hsub) hf',
      LimbDarkFloat.volume_disc b hr, LimbDarkFloat.volume_disc b (hr.trans hrr)]
    ring
  rw [abs_le]
  constructor <;> linarith

theorem area_radius' {b r r' : ℝ} (hr : 0 ≤ r) (hr' : 0 ≤ r') :
    |(volume (stellarDisc ∩ occultor b r)).toReal - (volume (stellarDisc ∩ occultor b r')).toReal| ≤ π * |r' ^ 2 - r ^ 2| := by
  rcases le_total r r' with h | h
  · refine (area_radius hr h).trans ?_
    exact mul_le_mul_of_nonneg_left (le_abs_self _) pi_pos.le
  · rw [abs_sub_comm, abs_sub_comm (r' ^ 2)]
    refine (area_radius hr' h).trans ?_
    exact mul_le_mul_of_nonneg_left (le_abs_self _) pi_pos.le

theorem blockedFlux_nil (b r : ℝ) : blockedFlux [] b r = (volume (stellarDisc ∩ occultor b r)).toReal := by
  simp [blockedFlux, profile, Measure.real]

theorem totalFlux_nil : totalFlux [] = π := by
  have := LimbDark.whole_star 0
  simpa [totalFlux, profile, LimbDark.gtil] using this

/-- rounding the separation and the radius ratio changes the covered area little -/
theorem area_near {u b b0 r r0 : ℝ} (hu0 : 0 ≤ u) (hu : u ≤ 1e-10) (hb0 : 0 ≤ b0) (hr0 : 0 ≤ r0) (hr1 : r0 ≤ 0.49)
    (hb : Rnd (20 * u) b0 b) (hr : Rnd u r0 r) :
    |(volume (stellarDisc ∩ occultor b r)).toReal - (volume (stellarDisc ∩ occultor b0 r0)).toReal| ≤ π * (40 * u) := by
  norm_num at hu hr1
  have hπ := pi_gt_three
  have hr' : 0 ≤ r := Rnd.nonneg (by linarith) hr hr0
  have hrr : |r - r0| ≤ u := by
    refine le_trans hr ?_
    rw [abs_of_nonneg hr0]
    nlinarith
  have hrh : r ≤ 0.5 := by
    have := (abs_le.1 hrr).2
    norm_num
    linarith
  have hA : |(volume (stellarDisc ∩ occultor b r)).toReal - (volume (stellarDisc ∩ occultor b r0)).toReal| ≤ π * u := by
    refine (area_radius' hr' hr0).trans (mul_le_mul_of_nonneg_left ?_ pi_pos.le)
    rw [show r0 ^ 2 - r ^ 2 = -((r - r0) * (r + r0)) by ring, abs_neg, abs_mul, abs_of_nonneg (by linarith : 0 ≤ r + r0)]
    norm_num at hrh
    nlinarith [abs_nonneg (r - r0)]
  have hB : |(volume (stellarDisc ∩ occultor b r0)).toReal - (volume (stellarDisc ∩ occultor b0 r0)).toReal| ≤ π * (39 * u) := by
    rw [← blockedFlux_nil, ← blockedFlux_nil]
    rcases le_total b0 2 with h | h
    · refine (blockedFlux_lipschitz [] b b0 hr0).trans ?_
      have h1 : |b - b0| ≤ 40 * u := by
        refine le_trans hb ?_
        rw [abs_of_nonneg hb0]
        nlinarith
      have h2 : profileBound [] = 1 := by simp [profileBound]
      rw [h2, one_mul]
      have h3 : 4 * r0 * |b - b0| ≤ 4 * 0.49 * (40 * u) := mul_le_mul (by norm_num; linarith) h1 (abs_nonneg _) (by norm_num)
      norm_num at h3
      nlinarith
    · have h1 : 1.9 ≤ b := by
        have := Rnd.ge hb hb0
        norm_num
        nlinarith
      norm_num at h1
      rw [blockedFlux_outside [] hr0 (by linarith), blockedFlux_outside [] hr0 (by linarith), sub_self, abs_zero]
      positivity
  have := abs_sub_le (volume (stellarDisc ∩ occultor b r)).toReal (volume (stellarDisc ∩ occultor b r0)).toReal
    (volume (stellarDisc ∩ occultor b0 r0)).toReal
  linarith

/-- the separation that the program computes from the position that it computed -/
theorem separation_near {u : ℝ} (hu0 : 0 ≤ u) (hu : u ≤ 1e-10) {o : OrbitalBody} {radius t : ℝ} (T : TransitRun u o radius t) :
    Rnd (20 * u) (√(T.pos.X ^ 2 + T.pos.Y ^ 2) / o.central.radius) T.b := by
  have z : ∀ x : ℝ, Rnd (0 * u) x x := fun x => Rnd.refl (by simp) x
  have h1 : Rnd (2 * u) (T.pos.X ^ 2) T.xx := by
    rw [sq]
    exact rnd_mul hu0 hu (z _) (z _) T.hxx le_rfl (by norm_num) le_rfl (by norm_num) (by norm_num)
  have h2 : Rnd (2 * u) (T.pos.Y ^ 2) T.yy := by
    rw [sq]
    exact rnd_mul hu0 hu (z _) (z _) T.hyy le_rfl (by norm_num) le_rfl (by norm_num) (by norm_num)
  have h3 : Rnd (4 * u) (T.pos.X ^ 2 + T.pos.Y ^ 2) T.sum :=
    rnd_add hu0 hu h1 h2 T.hsum (sq_nonneg _) (sq_nonneg _) (by norm_num) (by norm_num) (by norm_num)
  have h4 := rnd_sqrt0 h3 (by positivity) (by norm_num at hu; linarith) (by positivity)
  have h5 : Rnd (6 * u) √(T.pos.X ^ 2 + T.pos.Y ^ 2) T.root := rnd_comp hu0 hu h4 T.hroot (by norm_num) (by norm_num) (by norm_num)
  exact rnd_div hu0 hu h5 (z _) T.hb (by norm_num) (by norm_num) le_rfl (by norm_num) (by norm_num)

/-- **C109 (c).** Whatever position was computed: the light that is reported as lost is, up to `5040 u`, the fraction of the light of
a uniform star that is hidden by a body at that position. -/
theorem light_near {u : ℝ} (hu0 : 0 ≤ u) (hu : u ≤ 1e-10) {o : OrbitalBody} {radius t : ℝ} (hR : 0 < o.central.radius) (hρ : 0 ≤ radius)
    (hρ1 : radius ≤ 0.49 * o.central.radius) (T : TransitRun u o radius t) :
    |T.out - -hiddenFraction [] o.central.radius radius T.pos.result| ≤ 5040 * u := by
  have hout := T.hout
  by_cases hz : 0 < T.pos.Z
  · rw [if_pos hz] at hout
    have hr0 : 0 ≤ radius / o.central.radius := by positivity
    have hr1 : radius / o.central.radius ≤ 0.49 := by rw [div_le_iff₀ hR]; exact hρ1
    have hrh : |T.r| ≤ 1 / 2 := by
      refine T.hr.abs_le.trans ?_
      rw [abs_of_nonneg hr0]
      norm_num at hu hr1 ⊢
      nlinarith
    have h1 := LimbDarkFloat.uniform_light_curve_float_planet hu0 (hu.trans (by norm_num)) hrh T.lc
    have h2 := area_near hu0 hu (b0 := √(T.pos.X ^ 2 + T.pos.Y ^ 2) / o.central.radius) (by positivity) hr0 hr1 (separation_near hu0 hu T) T.hr
    have hz' : 0 < T.pos.result.z := hz
    have e1 : T.pos.result.x = T.pos.X := rfl
    have e2 : T.pos.result.y = T.pos.Y := rfl
    rw [hout, hiddenFraction_eq [] hR radius hz', totalFlux_nil, blockedFlux_nil, e1, e2]
    generalize (volume (stellarDisc ∩ occultor T.b T.r)).toReal = A at *
    generalize (volume (stellarDisc ∩ occultor (√(T.pos.X ^ 2 + T.pos.Y ^ 2) / o.central.radius) (radius / o.central.radius))).toReal = B at *
    have h3 : |-A / π - -(B / π)| ≤ 40 * u := by
      rw [show -A / π - -(B / π) = -((A - B) / π) by ring, abs_neg, abs_div, abs_of_pos pi_pos, div_le_iff₀ pi_pos]
      linarith
    have := abs_sub_le T.lc.out (-A / π) (-(B / π))
    linarith
  · rw [if_neg hz] at hout
    have hz' : ¬ 0 < T.pos.result.z := hz
    unfold hiddenFraction
    rw [hout, if_neg hz']
    simp only [neg_zero, sub_zero, abs_zero]
    positivity

/-- from the position to the light curve -/
theorem transit_near {u : ℝ} (hu0 : 0 ≤ u) (hu : u ≤ 1e-10) {o : OrbitalBody} {radius t d : ℝ} (hR : 0 < o.central.radius)
    (hρ : 0 ≤ radius) (hρ1 : radius ≤ 0.49 * o.central.radius) (T : TransitRun u o radius t) (hd : 0 ≤ d) {q : V3}
    (hW : Within d T.pos.result q) (hsep : o.central.radius + radius + 2 * d ≤ √(normSq q)) :
    |T.out - -hiddenFraction [] o.central.radius radius q| ≤
      5040 * u + fractionSlope [] o.central.radius radius * d := by
  have h1 := light_near hu0 hu hR hρ hρ1 T
  have h2 := hiddenFraction_stable [] hR hρ hd hW hsep
  have := abs_sub_le T.out (-hiddenFraction [] o.central.radius radius T.pos.result) (-hiddenFraction [] o.central.radius radius q)
  rw [neg_sub_neg, abs_sub_comm (hiddenFraction [] o.central.radius radius q)] at this
  linarith

/-- **C109 (d).** Transits of circular orbits, end to end: in floating-point arithmetic `light_curve(orbit)(t)` is minus the fraction of
the light of a uniform star that is hidden by a body on the Kepler orbit at a time that differs from `t` only by the rounding of the
times, up to `5040 u` and the light that a displacement by `51 u a` can make a difference of. -/
theorem transit_float_circular {u : ℝ} (hu0 : 0 ≤ u) (hu : u ≤ 1e-10) {o : OrbitalBody} {i Ω : ℝ}
    (ho : RoundedElements u o 0 0 i Ω) (hec : o.ecc = none) (hP : 0 < o.period) (ha : 0 ≤ o.semimajor) {p : ℝ → V3}
    (hk : IsKeplerOrbit o.period o.time_peri o.semimajor 0 0 i Ω p) {radius t : ℝ} (hR : 0 < o.central.radius) (hρ : 0 ≤ radius)
    (hρ1 : radius ≤ 0.49 * o.central.radius)
    (hsep : o.central.radius + radius + 2 * (51 * u * o.semimajor) ≤ o.semimajor) (T : TransitRun u o radius t) :
    ∃ t', |t' - t| ≤ 7 * u * (|t - o.time_transit| + |o.time_ref|) ∧
      |T.out - -hiddenFraction [] o.central.radius radius (p t')| ≤
        5040 * u + fractionSlope [] o.central.radius radius * (51 * u * o.semimajor) := by
  obtain ⟨t', h1, h2⟩ := position_float_circular hu0 (hu.trans (by norm_num)) ho hec hP ha hk T.pos
  refine ⟨t', h1, transit_near hu0 hu hR hρ hρ1 T (by positivity) h2 ?_⟩
  have := kepler_distance ha le_rfl one_pos hk t'
  rw [sub_zero, mul_one] at this
  exact hsep.trans this

/-- **C109 (e).** Transits of eccentric orbits, end to end. -/
theorem transit_float_eccentric {u : ℝ} (hu0 : 0 ≤ u) (hu : u ≤ 1e-10) {o : OrbitalBody} {k : Ecc} {e w i Ω : ℝ}
    (ho : RoundedElements u o e w i Ω) (hec : o.ecc = some k) (he0 : 0 ≤ e) (he1 : e < 1) (heu : 400 * u ≤ 1 - e)
    (heg : 16 * anomalyError u e ≤ 1 - e) (hP : 0 < o.period) (ha : 0 ≤ o.semimajor) {p : ℝ → V3}
    (hk : IsKeplerOrbit o.period o.time_peri o.semimajor e w i Ω p) {radius t : ℝ} (hR : 0 < o.central.radius) (hρ : 0 ≤ radius)
    (hρ1 : radius ≤ 0.49 * o.central.radius)
    (hsep : o.central.radius + radius + 2 * (43 * o.semimajor * (anomalyError u e / (1 - e))) ≤ o.semimajor * (1 - e))
    (T : TransitRun u o radius t) :
    ∃ t', |t' - t| ≤ 11 * u * (|t - o.time_transit| + |o.time_ref|) + 10 * u * o.period ∧
      |T.out - -hiddenFraction [] o.central.radius radius (p t')| ≤
        5040 * u + fractionSlope [] o.central.radius radius * (43 * o.semimajor * (anomalyError u e / (1 - e))) := by
  obtain ⟨t', h1, h2⟩ := position_float_eccentric hu0 hu ho hec he0 he1 heu heg hP ha hk T.pos
  have hg : 0 ≤ anomalyError u e := (by positivity : 0 ≤ 108 * u).trans (anomalyError_ge hu0 he0 he1)
  have hε : 0 < 1 - e := by linarith
  exact ⟨t', h1, transit_near hu0 hu hR hρ hρ1 T (by positivity) h2 (hsep.trans (kepler_distance ha he0 he1 hk t'))⟩

/-- **C109 (f).** The runs with no rounding error are the exact models of `relative_position` and of `light_curve` that the other
properties are about. -/
theorem position_run_exact (au : ℝ) {o : OrbitalBody} {t : ℝ} (hpar : o.parallax = none)
    (hM : o.ecc = none ∨ fmod (o.meanAnomaly t) (2 * π) ≠ 0) (R : PositionRun 0 o t) :
    R.result = o.relative_position Kepler.kepler au t := by
  unfold OrbitalBody.relative_position
  rw [posVel_fst_scaled]
  simp only [posScale, hpar, mul_one]
  have hMe : R.anom.M = o.meanAnomaly t := by
    rw [rnd_zero.1 R.anom.hM, rnd_zero.1 R.anom.hprod, rnd_zero.1 R.anom.hdt, rnd_zero.1 R.anom.hwarp, rnd_zero.1 R.anom.htwo_pi,
      rnd_zero.1 R.anom.hpi]
    rfl
  have hsc : o.trueAnomaly Kepler.kepler t = (R.anom.sinf, R.anom.cosf) := by
    have hf := R.anom.hf
    unfold OrbitalBody.trueAnomaly
    rcases hec : o.ecc with _ | k
    · rw [hec] at hf
      simp only [rnd_zero] at hf
      rw [hf.1, hf.2, hMe]
    · rw [hec] at hf
      obtain ⟨K, hK⟩ := hf
      have hne := hM.resolve_left (by rw [hec]; simp)
      have htp : K.two_pi = 2 * π := by rw [rnd_zero.1 K.htwo_pi, rnd_zero.1 K.hpi]
      have hlt : K.Mr < K.two_pi := by
        refine lt_of_le_of_ne K.hMr1 fun h => hne ?_
        have a := rnd_zero.1 K.hMr
        rw [h, htp] at a
        have : R.anom.M = (K.n + 1 : ℤ) * (2 * π) := by push_cast; linarith
        rw [← hMe]
        exact fmod_unique two_pi_pos (K.n + 1) (sub_eq_zero.2 this).symm le_rfl two_pi_pos
      simp only
      rw [← hMe, ← float_exact K hlt, hK]
  rw [hsc]
  have hr : R.r0 = -o.semimajor * o.rho R.anom.cosf := by
    have hr0 := R.hr0
    unfold OrbitalBody.rho OrbitalBody.eVal
    rcases hec : o.ecc with _ | k
    · rw [hec] at hr0
      rw [hr0]
      simp
    · rw [hec] at hr0
      obtain ⟨Q, hr0⟩ := hr0
      rw [rnd_zero.1 hr0, rnd_zero.1 Q.hq, rnd_zero.1 Q.hden, rnd_zero.1 Q.hec, rnd_zero.1 Q.hnum, rnd_zero.1 Q.he2, sq]
  have hx := rnd_zero.1 R.hx
  have hy := rnd_zero.1 R.hy
  rw [hr] at hx hy
  have h1 := R.h1
  have h2 := R.hXY
  rw [rnd_zero.1 R.hy2] at h2
  unfold PositionRun.result OrbitalBody.rotateVector
  rw [rnd_zero.1 R.hZ]
  simp only
  rw [← mul_assoc, ← mul_assoc, ← hx, ← hy]
  have rot : ∀ {c s x y : ℝ} (Q : RotRun 0 c s x y), Q.X = c * x - s * y ∧ Q.Y = s * x + c * y := fun Q =>
    ⟨by rw [rnd_zero.1 Q.hX, rnd_zero.1 Q.hcx, rnd_zero.1 Q.hsy], by rw [rnd_zero.1 Q.hY, rnd_zero.1 Q.hsx, rnd_zero.1 Q.hcy]⟩
  rcases hec : o.ecc with _ | k <;> rcases hn : o.node with _ | ⟨sn, cn⟩ <;> rw [hec] at h1 <;> rw [hn] at h2 <;> simp only at h1 h2 ⊢
  · rw [h2.1, h2.2, h1.1, h1.2]; rfl
  · obtain ⟨Q, a, b⟩ := h2
    rw [a, b, (rot Q).1, (rot Q).2, h1.1, h1.2]; rfl
  · obtain ⟨Q, a, b⟩ := h1
    rw [h2.1, h2.2, a, b, (rot Q).1, (rot Q).2]; rfl
  · obtain ⟨Q, a, b⟩ := h1
    obtain ⟨Q', a', b'⟩ := h2
    rw [a', b', (rot Q').1, (rot Q').2, a, b, (rot Q).1, (rot Q).2]; rfl

/-- **C109 (f)**, light curves -/
theorem transit_run_exact (au eps : ℝ) (quad : List (ℝ × ℝ)) {o : OrbitalBody} {radius t : ℝ} (hpar : o.parallax = none)
    (hM : o.ecc = none ∨ fmod (o.meanAnomaly t) (2 * π) ≠ 0) (T : TransitRun 0 o radius t) :
    T.out = LightCurve.limbDarkTerm eps quad [] o.central.radius radius (o.relative_position Kepler.kepler au t) := by
  have hp := position_run_exact au hpar hM T.pos
  rw [← hp]
  rw [T.hout]
  simp only [LightCurve.limbDarkTerm, PositionRun.result, gt_iff_lt]
  rw [LimbDarkFloat.uniform_run_exact eps quad _ _ T.lc, rnd_zero.1 T.hb, rnd_zero.1 T.hr, rnd_zero.1 T.hroot, rnd_zero.1 T.hsum,
    rnd_zero.1 T.hxx, rnd_zero.1 T.hyy, sq, sq]

/-- what the constructor stores: the elements that were given -/
theorem roundedElements_of_body {u : ℝ} (hu0 : 0 ≤ u) {G : ℝ} {c : Central} {b : Body ℝ} {o : OrbitalBody} (h : mkOrbitalBody G c b = .ok o)
    {e w i Ω : ℝ} (he : EccIs b e) (hw : OmegaIs b w) (hi : InclIs b i) (hΩ : NodeIs b Ω) : RoundedElements u o e w i Ω := by
  obtain ⟨his, hic⟩ := incl_resolved h hi
  refine ⟨?_, by rw [his]; exact Rnd.refl hu0 _, by rw [hic]; exact Rnd.refl hu0 _, ?_⟩
  · rcases ecc_resolved h he hw with h | h
    · exact Or.inl h
    · exact Or.inr ⟨_, h, rfl, Rnd.refl hu0 _, Rnd.refl hu0 _⟩
  · rcases node_resolved h hΩ with h | h
    · exact Or.inl h
    · exact Or.inr ⟨_, _, h, Rnd.refl hu0 _, Rnd.refl hu0 _⟩

noncomputable def RotRun.ofRounding {u : ℝ} (fl : ℝ → ℚ) (h : ∀ x, Rnd u x (fl x)) (c s x y : ℝ) : RotRun u c s x y :=
  ⟨_, h _, _, h _, _, h _, _, h _, _, h _, _, h _⟩

/-- every rounding function gives a run -/
theorem exists_transitRun {u : ℝ} (hu0 : 0 ≤ u) (hu1 : u < 1) (fl : ℝ → ℚ) (h : ∀ x, Rnd u x (fl x)) (o : OrbitalBody) (radius t : ℝ) :
    Nonempty (TransitRun u o radius t) := by
  have hA : Nonempty (AnomalyRun u o t) := by
    set M : ℝ := ((fl ((fl ((fl (2 * (fl π : ℝ)) : ℝ) * (fl ((fl (t - o.time_transit) : ℝ) - o.time_ref) : ℝ)) : ℝ) / o.period) : ℚ) : ℝ) with hM
    rcases hec : o.ecc with _ | k
    · exact ⟨⟨_, h _, _, h _, _, h _, _, h _, _, h _, M, h _, fl (sin M), fl (cos M), by rw [hec]; exact ⟨h _, h _⟩⟩⟩
    · exact ⟨⟨_, h _, _, h _, _, h _, _, h _, _, h _, M, h _, (KeplerRun.ofRounding hu0 hu1 fl h M k.e).result.1,
        (KeplerRun.ofRounding hu0 hu1 fl h M k.e).result.2, by rw [hec]; exact ⟨KeplerRun.ofRounding hu0 hu1 fl h M k.e, rfl⟩⟩⟩
  obtain ⟨A⟩ := hA
  have hr : ∃ r0, match o.ecc with
      | none => r0 = -o.semimajor
      | some k => ∃ R : RadiusRun u k.e A.cosf, Rnd u (-o.semimajor * R.q) r0 := by
    rcases o.ecc with _ | k
    · exact ⟨_, rfl⟩
    · exact ⟨_, ⟨_, h _, _, h _, _, h _, _, h _, _, h _⟩, h _⟩
  obtain ⟨r0, hr0⟩ := hr
  have h1 : ∃ x1 y1 : ℝ, match o.ecc with
      | none => x1 = (fl (r0 * A.cosf) : ℝ) ∧ y1 = (fl (r0 * A.sinf) : ℝ)
      | some k => ∃ R : RotRun u k.cosw k.sinw (fl (r0 * A.cosf)) (fl (r0 * A.sinf)), x1 = R.X ∧ y1 = R.Y := by
    rcases o.ecc with _ | k
    · exact ⟨_, _, rfl, rfl⟩
    · exact ⟨_, _, RotRun.ofRounding fl h _ _ _ _, rfl, rfl⟩
  obtain ⟨x1, y1, h1⟩ := h1
  have h2 : ∃ X Y : ℝ, match o.node with
      | none => X = x1 ∧ Y = (fl (o.cos_inclination * y1) : ℝ)
      | some (s, c) => ∃ R : RotRun u c s x1 (fl (o.cos_inclination * y1)), X = R.X ∧ Y = R.Y := by
    rcases o.node with _ | ⟨s, c⟩
    · exact ⟨_, _, rfl, rfl⟩
    · exact ⟨_, _, RotRun.ofRounding fl h _ _ _ _, rfl, rfl⟩
  obtain ⟨X, Y, h2⟩ := h2
  let P : PositionRun u o t := ⟨A, r0, hr0, _, h _, _, h _, x1, y1, h1, _, h _, _, h _, X, Y, h2⟩
  exact ⟨⟨P, _, h _, _, h _, _, h _, _, h _, _, h _, _, h _, LimbDarkFloat.UniformRun.ofRounding (fun x => (fl x : ℝ)) h _ _, _, rfl⟩⟩

/-- **C109 (g).** Double precision: an eccentric orbit built by the code (`e = 0.3`, the semimajor axis `20` stellar radii); every
rounding function with unit roundoff `2⁻⁵²` gives a run, and every run of the light curve of a body of a tenth of the radius of the
star is right up to `1e-10`, at a time that is right up to the rounding of the times. -/
theorem transit_float_double (fl : ℝ → ℚ) (hfl : ∀ x, Rnd (2 ^ (-52 : ℤ)) x (fl x)) {G : ℝ} {c : Central} {b : Body ℝ} {o : OrbitalBody}
    (h : mkOrbitalBody G c b = .ok o) (hcR : c.radius = 1) {w i Ω : ℝ} (he : EccIs b 0.3) (hw : OmegaIs b w) (hi : InclIs b i)
    (hΩ : NodeIs b Ω) (hP : 0 < o.period) (ha : o.semimajor = 20) {p : ℝ → V3}
    (hk : IsKeplerOrbit o.period o.time_peri o.semimajor 0.3 w i Ω p) (t : ℝ) :
    Nonempty (TransitRun (2 ^ (-52 : ℤ)) o 0.1 t) ∧ ∀ T : TransitRun (2 ^ (-52 : ℤ)) o 0.1 t,
      ∃ t', |t' - t| ≤ 1e-14 * (|t - o.time_transit| + |o.time_ref| + o.period) ∧
        |T.out - -hiddenFraction [] 1 0.1 (p t')| ≤ 1e-10 := by
  have u0 : (0 : ℝ) ≤ 2 ^ (-52 : ℤ) := by positivity
  have u1 : (2 : ℝ) ^ (-52 : ℤ) ≤ 2.3e-16 := by norm_num
  refine ⟨exists_transitRun u0 (by norm_num) fl hfl o _ t, fun T => ?_⟩
  have hcen : o.central = c := by
    obtain ⟨_, P, a, ecc, _, _, rfl⟩ := mkOrbitalBody_ok h
    rfl
  have hcr : o.central.radius = 1 := by rw [hcen, hcR]
  have hec := (ecc_resolved h he hw).resolve_left (by norm_num)
  have hg : anomalyError (2 ^ (-52 : ℤ)) 0.3 ≤ 2e-13 := by
    unfold anomalyError
    norm_num
  have hS : fractionSlope [] 1 0.1 ≤ 0.14 := by
    unfold fractionSlope
    rw [totalFlux_nil, abs_of_pos pi_pos]
    simp only [profileBound, List.map_nil, List.sum_nil, add_zero]
    rw [div_le_iff₀ (by have := pi_pos; positivity)]
    have := pi_gt_three
    norm_num
    linarith
  have hS0 := fractionSlope_nonneg [] (R := 1) (ρ := 0.1) one_pos (by norm_num)
  generalize hue : (2 : ℝ) ^ (-52 : ℤ) = u at *
  have hu10 : u ≤ 1e-10 := u1.trans (by norm_num)
  have hg0 : 0 ≤ anomalyError u 0.3 := (by positivity : 0 ≤ 108 * u).trans (anomalyError_ge u0 (by norm_num) (by norm_num))
  generalize hge : anomalyError u 0.3 = g at *
  obtain ⟨t', h1, h2⟩ := transit_float_eccentric u0 hu10 (roundedElements_of_body u0 h he hw hi hΩ) hec (by norm_num) (by norm_num)
    (by norm_num at u1 ⊢; linarith) (by rw [hge]; norm_num at hg ⊢; linarith) hP (by rw [ha]; norm_num) hk (radius := 0.1) (t := t)
    (by rw [hcr]; exact one_pos) (by norm_num) (by rw [hcr]; norm_num) (by rw [hcr, ha, hge]; norm_num at hg ⊢; linarith) T
  rw [hcr, ha, hge] at h2
  refine ⟨t', h1.trans ?_, h2.trans ?_⟩
  · have hS : 0 ≤ |t - o.time_transit| + |o.time_ref| := by positivity
    generalize |t - o.time_transit| + |o.time_ref| = S at *
    have a1 : u * S ≤ 2.3e-16 * S := mul_le_mul_of_nonneg_right u1 hS
    have a2 : u * o.period ≤ 2.3e-16 * o.period := mul_le_mul_of_nonneg_right u1 hP.le
    norm_num at a1 a2 ⊢
    linarith
  · have a1 : fractionSlope [] 1 0.1 * (43 * 20 * (g / (1 - 0.3))) ≤ 0.14 * (43 * 20 * (2e-13 / (1 - 0.3))) :=
      mul_le_mul hS (by gcongr) (by norm_num at hg0 ⊢; positivity) (by norm_num)
    norm_num at a1 u1 ⊢
    linarith

/-- non-vacuity: the code builds such an orbit, a Kepler orbit with these elements exists and so does a rounding function -/
example : ∃ (o : OrbitalBody) (p : ℝ → V3) (fl : ℝ → ℚ), (∀ x, Rnd (2 ^ (-52 : ℤ)) x (fl x)) ∧ mkOrbitalBody 1 ⟨1, 1, 1⟩
    { semimajor := some 20, eccentricity := some 0.3, omega_peri := some 1, asc_node := some 2, inclination := some 1.5,
      time_transit := some 5 } = .ok o ∧ IsKeplerOrbit o.period o.time_peri o.semimajor 0.3 1 1.5 2 p ∧ ∀ t,
    Nonempty (TransitRun (2 ^ (-52 : ℤ)) o 0.1 t) ∧ ∀ T : TransitRun (2 ^ (-52 : ℤ)) o 0.1 t,
      ∃ t', |t' - t| ≤ 1e-14 * (|t - o.time_transit| + |o.time_ref| + o.period) ∧
        |T.out - -hiddenFraction [] 1 0.1 (p t')| ≤ 1e-10 := by
  obtain ⟨o, ho⟩ := mkOrbitalBody_of_accepted 1 ⟨1, 1, 1⟩
    (b := { semimajor := some 20, eccentricity := some 0.3, omega_peri := some 1, asc_node := some 2, inclination := some 1.5,
            time_transit := some 5 })
    (by constructor <;> simp [Given, ScalarIfGiven])
  obtain ⟨fl, hfl⟩ := exists_rounding (u := 2 ^ (-52 : ℤ)) (by positivity)
  obtain ⟨p, hp⟩ := LightCurve.exists_keplerOrbit o.period o.time_peri o.semimajor (e := 0.3) (by norm_num) (by norm_num) 1 1.5 2
  have h3 := kepler_third_law (by norm_num) (by simp) (by simp) ho
  have ha : o.semimajor = 20 := h3.2.2.2.2 20 rfl
  exact ⟨o, p, fl, hfl, ho, hp, fun t => transit_float_double fl hfl ho rfl (Or.inl rfl) (Or.inl rfl) (Or.inl ⟨rfl, rfl⟩) (Or.inl rfl)
    h3.2.1 ha hp t⟩

end Jaxoplanet.OrbitFloat
