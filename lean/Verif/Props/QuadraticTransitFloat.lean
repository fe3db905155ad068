import Verif.Model.QuadraticTransitFloat
import Verif.Props.OrbitFloat
import Verif.Props.QuadraticFloat

/-!
# C118: transits of quadratically limb-darkened stars in floating-point arithmetic, end to end
-/

namespace Jaxoplanet.OrbitFloat

open Real KeplerFloat Keplerian Spec MeasureTheory
open _root_.Jaxoplanet.Starry.Spec (IsGaussLegendre)
open _root_.Jaxoplanet.LightCurve (hiddenFraction_stable hiddenFraction_eq fractionSlope fractionSlope_nonneg blockedFlux_lipschitz blockedFlux_outside keplerOrbit_unique profileBound profile_le kepler_distance)

/-- the hidden flux depends little on the radius of the occultor -/
theorem flux_radius (us : List ℝ) {b r r' : ℝ} (hr : 0 ≤ r) (hrr : r ≤ r') :
    |blockedFlux us b r - blockedFlux us b r'| ≤ profileBound us * (π * (r' ^ 2 - r ^ 2)) := by
  have hp : 0 ≤ profileBound us := (abs_nonneg _).trans (profile_le us (p := (0, 0)))
  have hsub : occultor b r ⊆ occultor b r' := fun q hq => le_trans hq (pow_le_pow_left₀ hr hrr 2)
  have mS : MeasurableSet stellarDisc := (isClosed_le (by fun_prop) continuous_const).measurableSet
  have mo : ∀ c, MeasurableSet (occultor b c) := fun c => (isClosed_le (by fun_prop) continuous_const).measurableSet
  have hf' := LimbDarkFloat.occultor_lt_top b (hr.trans hrr)
  have hf := LimbDarkFloat.occultor_lt_top b hr
  have hi : IntegrableOn (fun q : ℝ × ℝ => profile us (mu q)) stellarDisc := Starry.integrableOn_disc_cont (Starry.Mp.continuous_profile us)
  have e : blockedFlux us b r' - blockedFlux us b r = ∫ q in (stellarDisc ∩ occultor b r') \ (stellarDisc ∩ occultor b r), profile us (mu q) := by
    unfold blockedFlux
    rw [setIntegral_sdiff (mS.inter (mo r)) (hi.mono_set Set.inter_subset_left) (Set.inter_subset_inter_right _ hsub)]
  have hd : (stellarDisc ∩ occultor b r') \ (stellarDisc ∩ occultor b r) ⊆ occultor b r' \ occultor b r :=
    fun q hq => ⟨hq.1.2, fun h => hq.2 ⟨hq.1.1, h⟩⟩
  have hfd : volume (occultor b r' \ occultor b r) ≠ ⊤ := ne_top_of_le_ne_top hf' (measure_mono Set.sdiff_subset)
  have h3 : (volume (occultor b r' \ occultor b r)).toReal = π * (r' ^ 2 - r ^ 2) := by
    rw [measure_sdiff hsub (mo r).nullMeasurableSet hf, ENNReal.toReal_sub_of_le (measure_mono hsub) hf',
      LimbDarkFloat.volume_disc b hr, LimbDarkFloat.volume_disc b (hr.trans hrr)]
    ring
  rw [abs_sub_comm, e, ← h3]
  have h4 := norm_setIntegral_le_of_norm_le_const (μ := volume) (s := (stellarDisc ∩ occultor b r') \ (stellarDisc ∩ occultor b r))
    (f := fun q : ℝ × ℝ => profile us (mu q)) (C := profileBound us)
    (lt_of_le_of_lt (measure_mono hd) (lt_top_iff_ne_top.2 hfd)) (fun q _ => by rw [norm_eq_abs]; exact profile_le us)
  rw [norm_eq_abs] at h4
  refine h4.trans (mul_le_mul_of_nonneg_left ?_ hp)
  exact ENNReal.toReal_mono hfd (measure_mono hd)

theorem flux_radius' (us : List ℝ) {b r r' : ℝ} (hr : 0 ≤ r) (hr' : 0 ≤ r') :
    |blockedFlux us b r - blockedFlux us b r'| ≤ profileBound us * (π * |r' ^ 2 - r ^ 2|) := by
  have hp : 0 ≤ profileBound us := (abs_nonneg _).trans (profile_le us (p := (0, 0)))
  rcases le_total r r' with h | h
  · refine (flux_radius us hr h).trans ?_
    exact mul_le_mul_of_nonneg_left (mul_le_mul_of_nonneg_left (le_abs_self _) pi_pos.le) hp
  · rw [abs_sub_comm, abs_sub_comm (r' ^ 2)]
    refine (flux_radius us hr' h).trans ?_
    exact mul_le_mul_of_nonneg_left (mul_le_mul_of_nonneg_left (le_abs_self _) pi_pos.le) hp

/-- rounding the separation and the radius ratio changes the hidden flux little -/
theorem flux_near (us : List ℝ) {u b b0 r r0 : ℝ} (hu0 : 0 ≤ u) (hu : u ≤ 1e-10) (hb0 : 0 ≤ b0) (hr0 : 0 ≤ r0) (hr1 : r0 ≤ 0.49)
    (hb : Rnd (20 * u) b0 b) (hr : Rnd u r0 r) :
    |blockedFlux us b r - blockedFlux us b0 r0| ≤ profileBound us * (100 * u) := by
  norm_num at hu hr1
  have hp : 0 ≤ profileBound us := (abs_nonneg _).trans (profile_le us (p := (0, 0)))
  have hπ := pi_gt_three
  have hπ4 := pi_lt_four
  have hr' : 0 ≤ r := Rnd.nonneg (by linarith) hr hr0
  have hrr : |r - r0| ≤ u := by
    refine le_trans hr ?_
    rw [abs_of_nonneg hr0]
    nlinarith
  have hrh : r ≤ 0.5 := by
    have := (abs_le.1 hrr).2
    norm_num
    linarith
  have hA : |blockedFlux us b r - blockedFlux us b r0| ≤ profileBound us * (4 * u) := by
    refine (flux_radius' us hr' hr0).trans (mul_le_mul_of_nonneg_left ?_ hp)
    have : |r0 ^ 2 - r ^ 2| ≤ u := by
      rw [show r0 ^ 2 - r ^ 2 = -((r - r0) * (r + r0)) by ring, abs_neg, abs_mul, abs_of_nonneg (by linarith : 0 ≤ r + r0)]
      norm_num at hrh
      nlinarith [abs_nonneg (r - r0)]
    exact mul_le_mul hπ4.le this (abs_nonneg _) (by norm_num)
  have hB : |blockedFlux us b r0 - blockedFlux us b0 r0| ≤ profileBound us * (90 * u) := by
    rcases le_total b0 2 with h | h
    · refine (blockedFlux_lipschitz us b b0 hr0).trans (mul_le_mul_of_nonneg_left ?_ hp)
      have h1 : |b - b0| ≤ 40 * u := by
        refine le_trans hb ?_
        rw [abs_of_nonneg hb0]
        nlinarith
      have h3 : 4 * r0 * |b - b0| ≤ 4 * 0.49 * (40 * u) := mul_le_mul (by norm_num; linarith) h1 (abs_nonneg _) (by norm_num)
      norm_num at h3
      linarith
    · have h1 : 1.9 ≤ b := by
        have := Rnd.ge hb hb0
        norm_num
        nlinarith
      norm_num at h1
      rw [blockedFlux_outside us hr0 (by linarith), blockedFlux_outside us hr0 (by linarith), sub_self, abs_zero]
      positivity
  have := abs_sub_le (blockedFlux us b r) (blockedFlux us b r0) (blockedFlux us b0 r0)
  have hpu : 0 ≤ profileBound us * u := by positivity
  linarith

/-- the separation that the program computes from the position that it computed -/
theorem separation_near2 {u eps u1 u2 : ℝ} {table : List (ℝ × ℝ)} (hu0 : 0 ≤ u) (hu : u ≤ 1e-10) {o : OrbitalBody} {radius t : ℝ}
    (T : QuadraticTransitRun u eps u1 u2 table o radius t) : Rnd (20 * u) (√(T.pos.X ^ 2 + T.pos.Y ^ 2) / o.central.radius) T.b := by
  have z : ∀ x : ℝ, Rnd (0 * u) x x := fun x => Rnd.refl (by simp) x
  have h1 : Rnd (2 * u) (T.pos.X ^ 2) T.xx := by
    rw [sq]
    exact rnd_mul hu0 hu (z _) (z _) T.hxx le_rfl (by norm_num) le_rfl (by norm_num) (by norm_num)
  have h2 : Rnd (2 * u) (T.pos.Y ^ 2) T.yy := by
    rw [sq]
    exact rnd_mul hu0 hu (z _) (z _) T.hyy le_rfl (by norm_num) le_rfl (by norm_num) (by norm_num)
  have h3 : Rnd (4 * u) (T.pos.X ^ 2 + T.pos.Y ^ 2) T.sum :=
    rnd_add hu0 hu h1 h2 T.hsum (sq_nonneg _) (sq_nonneg _) (by norm_num) (by norm_num) (by norm_num)
  have h4 := rnd_sqrt0 h3 (by positivity) (by norm_num at hu; linarith) (by positivity)
  have h5 : Rnd (6 * u) √(T.pos.X ^ 2 + T.pos.Y ^ 2) T.root := rnd_comp hu0 hu h4 T.hroot (by norm_num) (by norm_num) (by norm_num)
  exact rnd_div hu0 hu h5 (z _) T.hb (by norm_num) (by norm_num) le_rfl (by norm_num) (by norm_num)

/-- the bound of C116 on the error of the light curve of a quadratically limb-darkened star -/
noncomputable def quadraticBound (u eps η : ℝ) (order : ℕ) : ℝ :=
  9710 * √eps + 75 * √η + 160 * ((order + 1) * u) + 165 / η / √((2 * order - 1 : ℕ) : ℝ)

/-- **C118 (a).** Whatever position was computed: the light that is reported as lost is, up to the bound of C116 and `300 u`, the fraction
of the light of the limb-darkened star that is hidden by a body at that position. -/
theorem quadratic_light_near {u eps η u1 u2 : ℝ} {order : ℕ} {rule table : List (ℝ × ℝ)} (hu0 : 0 ≤ u) (hu : u ≤ 1e-10) (hue : u ≤ eps)
    (heps : 0 < eps) (heps1 : eps ≤ 1e-6) (hη : 6 * eps ≤ η) (hη1 : η ≤ 0.02) (h1 : |u1| ≤ 2) (h2 : |u2| ≤ 1) (hq : 1 / 2 ≤ 1 - u1 / 3 - u2 / 6)
    (hrule : IsGaussLegendre order rule) (ho : 0 < order) (ht : List.Forall₂ (fun p q => Rnd u p.1 q.1 ∧ Rnd u p.2 q.2) rule table)
    (hou : (order + 1) * u ≤ 1 / 2) {o : OrbitalBody} {radius t : ℝ} (hR : 0 < o.central.radius) (hρ : 0 ≤ radius)
    (hρ1 : radius ≤ 0.49 * o.central.radius) (T : QuadraticTransitRun u eps u1 u2 table o radius t) :
    |T.out - -hiddenFraction [u1, u2] o.central.radius radius T.pos.result| ≤ quadraticBound u eps η order + 300 * u := by
  have hout := T.hout
  have hη0 : 0 < η := by linarith
  have hB : 0 ≤ quadraticBound u eps η order := by unfold quadraticBound; positivity
  by_cases hz : 0 < T.pos.Z
  · rw [if_pos hz] at hout
    have hr0 : 0 ≤ radius / o.central.radius := by positivity
    have hr1 : radius / o.central.radius ≤ 0.49 := by rw [div_le_iff₀ hR]; exact hρ1
    have hrh : |T.r| ≤ 1 / 2 := by
      refine T.hr.abs_le.trans ?_
      rw [abs_of_nonneg hr0]
      norm_num at hu hr1 ⊢
      nlinarith
    have k1 : |T.lc.out - -blockedFlux [u1, u2] T.b T.r / totalFlux [u1, u2]| ≤ quadraticBound u eps η order :=
      LimbDarkFloat.quadratic_flux_accurate hu0 hue heps heps1 hη hη1 hrh h1 h2 hq hrule ho ht hou T.lc
    have k2 := flux_near [u1, u2] hu0 hu (b0 := √(T.pos.X ^ 2 + T.pos.Y ^ 2) / o.central.radius) (by positivity) hr0 hr1 (separation_near2 hu0 hu T) T.hr
    have hz' : 0 < T.pos.result.z := hz
    have e1 : T.pos.result.x = T.pos.X := rfl
    have e2 : T.pos.result.y = T.pos.Y := rfl
    have hpb : profileBound [u1, u2] ≤ 4 := by
      simp only [profileBound, List.map_cons, List.map_nil, List.sum_cons, List.sum_nil]
      linarith
    have htot : 3 / 2 ≤ totalFlux [u1, u2] := by
      rw [LimbDarkFloat.total_two]
      have := pi_gt_three
      nlinarith
    rw [hout, hiddenFraction_eq _ hR radius hz', e1, e2]
    generalize blockedFlux [u1, u2] T.b T.r = A at *
    generalize blockedFlux [u1, u2] (√(T.pos.X ^ 2 + T.pos.Y ^ 2) / o.central.radius) (radius / o.central.radius) = B at *
    generalize totalFlux [u1, u2] = F at *
    have hF : 0 < F := by linarith
    have k3 : |-A / F - -(B / F)| ≤ 300 * u := by
      rw [show -A / F - -(B / F) = -((A - B) / F) by ring, abs_neg, abs_div, abs_of_pos hF, div_le_iff₀ hF]
      have : profileBound [u1, u2] * (100 * u) ≤ 4 * (100 * u) := mul_le_mul_of_nonneg_right hpb (by positivity)
      have : 300 * u * (3 / 2) ≤ 300 * u * F := mul_le_mul_of_nonneg_left htot (by positivity)
      linarith
    have := abs_sub_le T.lc.out (-A / F) (-(B / F))
    linarith
  · rw [if_neg hz] at hout
    have hz' : ¬ 0 < T.pos.result.z := hz
    unfold hiddenFraction
    rw [hout, if_neg hz']
    simp only [neg_zero, sub_zero, abs_zero]
    positivity

/-- **C118 (b).** Transits of circular orbits over a quadratically limb-darkened star, end to end: in floating-point arithmetic
`light_curve(orbit, u1, u2)(t)` is minus the fraction of the light that is hidden by a body on the Kepler orbit at a time that differs from
`t` only by the rounding of the times. -/
theorem quadratic_transit_circular {u eps η u1 u2 : ℝ} {order : ℕ} {rule table : List (ℝ × ℝ)} (hu0 : 0 ≤ u) (hu : u ≤ 1e-10) (hue : u ≤ eps)
    (heps : 0 < eps) (heps1 : eps ≤ 1e-6) (hη : 6 * eps ≤ η) (hη1 : η ≤ 0.02) (h1 : |u1| ≤ 2) (h2 : |u2| ≤ 1) (hq : 1 / 2 ≤ 1 - u1 / 3 - u2 / 6)
    (hrule : IsGaussLegendre order rule) (hor : 0 < order) (ht : List.Forall₂ (fun p q => Rnd u p.1 q.1 ∧ Rnd u p.2 q.2) rule table)
    (hou : (order + 1) * u ≤ 1 / 2) {o : OrbitalBody} {i Ω : ℝ}
    (ho : RoundedElements u o 0 0 i Ω) (hec : o.ecc = none) (hP : 0 < o.period) (ha : 0 ≤ o.semimajor) {p : ℝ → V3}
    (hk : IsKeplerOrbit o.period o.time_peri o.semimajor 0 0 i Ω p) {radius t : ℝ} (hR : 0 < o.central.radius) (hρ : 0 ≤ radius)
    (hρ1 : radius ≤ 0.49 * o.central.radius)
    (hsep : o.central.radius + radius + 2 * (51 * u * o.semimajor) ≤ o.semimajor) (T : QuadraticTransitRun u eps u1 u2 table o radius t) :
    ∃ t', |t' - t| ≤ 7 * u * (|t - o.time_transit| + |o.time_ref|) ∧
      |T.out - -hiddenFraction [u1, u2] o.central.radius radius (p t')| ≤
        quadraticBound u eps η order + 300 * u + fractionSlope [u1, u2] o.central.radius radius * (51 * u * o.semimajor) := by
  obtain ⟨t', k1, k2⟩ := position_float_circular hu0 (hu.trans (by norm_num)) ho hec hP ha hk T.pos
  refine ⟨t', k1, ?_⟩
  have k3 := quadratic_light_near hu0 hu hue heps heps1 hη hη1 h1 h2 hq hrule hor ht hou hR hρ hρ1 T
  have hd := kepler_distance ha le_rfl one_pos hk t'
  rw [sub_zero, mul_one] at hd
  have k4 := hiddenFraction_stable [u1, u2] hR hρ (by positivity) k2 (hsep.trans hd)
  have := abs_sub_le T.out (-hiddenFraction [u1, u2] o.central.radius radius T.pos.result) (-hiddenFraction [u1, u2] o.central.radius radius (p t'))
  rw [neg_sub_neg, abs_sub_comm (hiddenFraction [u1, u2] o.central.radius radius (p t'))] at this
  linarith

/-- **C118 (c).** The same for eccentric orbits. -/
theorem quadratic_transit_eccentric {u eps η u1 u2 : ℝ} {order : ℕ} {rule table : List (ℝ × ℝ)} (hu0 : 0 ≤ u) (hu : u ≤ 1e-10) (hue : u ≤ eps)
    (heps : 0 < eps) (heps1 : eps ≤ 1e-6) (hη : 6 * eps ≤ η) (hη1 : η ≤ 0.02) (h1 : |u1| ≤ 2) (h2 : |u2| ≤ 1) (hq : 1 / 2 ≤ 1 - u1 / 3 - u2 / 6)
    (hrule : IsGaussLegendre order rule) (hor : 0 < order) (ht : List.Forall₂ (fun p q => Rnd u p.1 q.1 ∧ Rnd u p.2 q.2) rule table)
    (hou : (order + 1) * u ≤ 1 / 2) {o : OrbitalBody} {k : Ecc} {e w i Ω : ℝ}
    (ho : RoundedElements u o e w i Ω) (hec : o.ecc = some k) (he0 : 0 ≤ e) (he1 : e < 1) (heu : 400 * u ≤ 1 - e)
    (heg : 16 * anomalyError u e ≤ 1 - e) (hP : 0 < o.period) (ha : 0 ≤ o.semimajor) {p : ℝ → V3}
    (hk : IsKeplerOrbit o.period o.time_peri o.semimajor e w i Ω p) {radius t : ℝ} (hR : 0 < o.central.radius) (hρ : 0 ≤ radius)
    (hρ1 : radius ≤ 0.49 * o.central.radius)
    (hsep : o.central.radius + radius + 2 * (43 * o.semimajor * (anomalyError u e / (1 - e))) ≤ o.semimajor * (1 - e))
    (T : QuadraticTransitRun u eps u1 u2 table o radius t) :
    ∃ t', |t' - t| ≤ 11 * u * (|t - o.time_transit| + |o.time_ref|) + 10 * u * o.period ∧
      |T.out - -hiddenFraction [u1, u2] o.central.radius radius (p t')| ≤
        quadraticBound u eps η order + 300 * u + fractionSlope [u1, u2] o.central.radius radius * (43 * o.semimajor * (anomalyError u e / (1 - e))) := by
  obtain ⟨t', k1, k2⟩ := position_float_eccentric hu0 hu ho hec he0 he1 heu heg hP ha hk T.pos
  have hg : 0 ≤ anomalyError u e := (by positivity : 0 ≤ 108 * u).trans (anomalyError_ge hu0 he0 he1)
  have hε : 0 < 1 - e := by linarith
  refine ⟨t', k1, ?_⟩
  have k3 := quadratic_light_near hu0 hu hue heps heps1 hη hη1 h1 h2 hq hrule hor ht hou hR hρ hρ1 T
  have k4 := hiddenFraction_stable [u1, u2] hR hρ (by positivity) k2 (hsep.trans (kepler_distance ha he0 he1 hk t'))
  have := abs_sub_le T.out (-hiddenFraction [u1, u2] o.central.radius radius T.pos.result) (-hiddenFraction [u1, u2] o.central.radius radius (p t'))
  rw [neg_sub_neg, abs_sub_comm (hiddenFraction [u1, u2] o.central.radius radius (p t'))] at this
  linarith

/-- **C118 (d).** Without rounding a run is the program of C10 and C31. -/
theorem quadratic_transit_exact (au eps : ℝ) {u1 u2 : ℝ} {table : List (ℝ × ℝ)} {o : OrbitalBody} {radius t : ℝ} (hpar : o.parallax = none)
    (hM : o.ecc = none ∨ fmod (o.meanAnomaly t) (2 * π) ≠ 0) (T : QuadraticTransitRun 0 eps u1 u2 table o radius t) :
    T.out = LightCurve.limbDarkTerm eps table [u1, u2] o.central.radius radius (o.relative_position Kepler.kepler au t) := by
  have hp := position_run_exact au hpar hM T.pos
  rw [← hp]
  rw [T.hout]
  simp only [LightCurve.limbDarkTerm, PositionRun.result, gt_iff_lt]
  rw [LimbDarkFloat.quadratic_run_exact T.lc, rnd_zero.1 T.hb, rnd_zero.1 T.hr, rnd_zero.1 T.hroot, rnd_zero.1 T.hsum,
    rnd_zero.1 T.hxx, rnd_zero.1 T.hyy, sq, sq]

/-- every rounding function gives a run -/
theorem exists_quadraticTransitRun {u : ℝ} (hu0 : 0 ≤ u) (hu1 : u < 1) (fl : ℝ → ℚ) (h : ∀ x, Rnd u x (fl x)) (eps u1 u2 : ℝ)
    {table : List (ℝ × ℝ)} (ht : table ≠ []) (o : OrbitalBody) (radius t : ℝ) :
    Nonempty (QuadraticTransitRun u eps u1 u2 table o radius t) := by
  obtain ⟨T⟩ := exists_transitRun hu0 hu1 fl h o radius t
  obtain ⟨Q⟩ := LimbDarkFloat.quadraticRun_exists (fun x => (fl x : ℝ)) h eps u1 u2 T.b T.r ht
  exact ⟨⟨T.pos, T.xx, T.hxx, T.yy, T.hyy, T.sum, T.hsum, T.root, T.hroot, T.b, T.hb, T.r, T.hr, Q, _, rfl⟩⟩

/-- non-vacuity: a circular orbit that the code builds, 40 digits, `order = 10 ^ 30`: runs exist, and every run is accurate to `0.003` -/
example : ∃ (o : OrbitalBody) (p : ℝ → V3) (rule table : List (ℝ × ℝ)), IsGaussLegendre (10 ^ 30) rule ∧ mkOrbitalBody 1 ⟨1, 1, 1⟩
    { semimajor := some 20, asc_node := some 2, inclination := some 1.55, time_transit := some 5 } = .ok o ∧
    IsKeplerOrbit o.period o.time_peri o.semimajor 0 0 1.55 2 p ∧ ∀ t,
    Nonempty (QuadraticTransitRun 1e-40 2e-40 0.4 0.2 table o 0.1 t) ∧ ∀ T : QuadraticTransitRun 1e-40 2e-40 0.4 0.2 table o 0.1 t,
      ∃ t', |t' - t| ≤ 7e-40 * (|t - o.time_transit| + |o.time_ref|) ∧
        |T.out - -hiddenFraction [0.4, 0.2] 1 0.1 (p t')| ≤ 0.003 := by
  obtain ⟨o, ho⟩ := mkOrbitalBody_of_accepted 1 ⟨1, 1, 1⟩
    (b := { semimajor := some 20, asc_node := some 2, inclination := some 1.55, time_transit := some 5 })
    (by constructor <;> simp [Given, ScalarIfGiven])
  obtain ⟨fl, h⟩ := exists_rounding (u := 1e-40) (by norm_num)
  obtain ⟨p, hp⟩ := LightCurve.exists_keplerOrbit o.period o.time_peri o.semimajor (e := 0) (by norm_num) (by norm_num) 0 1.55 2
  have h3 := kepler_third_law (by norm_num) (by simp) (by simp) ho
  have ha : o.semimajor = 20 := h3.2.2.2.2 20 rfl
  have hre := roundedElements_of_body (u := 1e-40) (by norm_num) ho (e := 0) (w := 0) (i := 1.55) (Ω := 2) (Or.inr ⟨rfl, rfl⟩)
    (Or.inr (Or.inr ⟨rfl, rfl, rfl, rfl⟩)) (Or.inl ⟨rfl, rfl⟩) (Or.inl rfl)
  have hec : o.ecc = none ∧ o.central.radius = 1 := by
    obtain ⟨_, P, a, ecc, _, h, rfl⟩ := mkOrbitalBody_ok ho
    cases h
    exact ⟨rfl, rfl⟩
  obtain ⟨order, hor⟩ : ∃ n : ℕ, n = 10 ^ 30 := ⟨_, rfl⟩
  rw [← hor]
  have hoR : (order : ℝ) = 1e30 := by rw [hor]; norm_num
  have ho0 : 0 < order := by rw [hor]; positivity
  obtain ⟨rule, hq⟩ := Gauss.exists_gauss order
  have ht : List.Forall₂ (fun p q => Rnd 1e-40 p.1 q.1 ∧ Rnd 1e-40 p.2 q.2) rule (rule.map fun p => ((fl p.1 : ℝ), (fl p.2 : ℝ))) := by
    rw [List.forall₂_map_right_iff]
    exact List.forall₂_same.2 fun p _ => ⟨h _, h _⟩
  have hB : quadraticBound 1e-40 2e-40 1e-10 order ≤ 0.0025 := by
    unfold quadraticBound
    rw [hoR, Nat.cast_sub (by omega)]
    push_cast
    rw [hoR]
    have a1 : √(2e-40) ≤ 1e-10 := by rw [sqrt_le_left] <;> norm_num
    have a2 : √(1e-10) ≤ 1.1e-5 := by rw [sqrt_le_left] <;> norm_num
    have a3 : 165 / 1e-10 / √(2 * 1e30 - 1) ≤ 1.3e-3 := by
      have a4 : (1.3e15 : ℝ) ≤ √(2 * 1e30 - 1) := by rw [le_sqrt] <;> norm_num
      rw [div_le_iff₀ (by linarith)]
      norm_num at a4 ⊢
      linarith
    norm_num at a1 a2 a3 ⊢
    linarith
  have hS : fractionSlope [0.4, 0.2] 1 0.1 ≤ 1 := by
    have hF : 3 / 2 ≤ totalFlux [0.4, 0.2] := by
      rw [LimbDarkFloat.total_two]
      have := pi_gt_three
      norm_num
      linarith
    unfold fractionSlope
    simp only [profileBound, List.map_cons, List.map_nil, List.sum_cons, List.sum_nil]
    generalize totalFlux [0.4, 0.2] = F at *
    have e : |F| = F := abs_of_pos (by linarith)
    have e1 : |(0.4 : ℝ)| = 0.4 := abs_of_pos (by norm_num)
    have e2 : |(0.2 : ℝ)| = 0.2 := abs_of_pos (by norm_num)
    rw [e, e1, e2, div_le_iff₀ (by linarith)]
    norm_num at hF ⊢
    linarith
  refine ⟨o, p, rule, rule.map fun p => ((fl p.1 : ℝ), (fl p.2 : ℝ)), hq, ho, hp, fun t => ⟨?_, fun T => ?_⟩⟩
  · refine exists_quadraticTransitRun (by norm_num) (by norm_num) fl h _ _ _ ?_ o _ t
    intro h0
    have := congrArg List.length h0
    rw [List.length_map, hq.length] at this
    simp only [List.length_nil] at this
    omega
  · obtain ⟨t', k1, k2⟩ := quadratic_transit_circular (η := 1e-10) (by norm_num) (by norm_num) (by norm_num) (by norm_num) (by norm_num) (by norm_num) (by norm_num)
      (by rw [abs_of_pos] <;> norm_num) (by rw [abs_of_pos] <;> norm_num) (by norm_num) hq ho0 ht (by rw [hoR]; norm_num) hre hec.1 h3.2.1
      (by rw [ha]; norm_num) hp (radius := 0.1) (by rw [hec.2]; norm_num) (by norm_num) (by rw [hec.2]; norm_num) (by rw [hec.2, ha]; norm_num) T
    rw [hec.2, ha] at k2
    refine ⟨t', k1.trans (le_of_eq (by norm_num)), k2.trans ?_⟩
    have : fractionSlope [0.4, 0.2] 1 0.1 * (51 * 1e-40 * 20) ≤ 1 * (51 * 1e-40 * 20) := mul_le_mul_of_nonneg_right hS (by norm_num)
    norm_num at this hB ⊢
    linarith

end Jaxoplanet.OrbitFloat
