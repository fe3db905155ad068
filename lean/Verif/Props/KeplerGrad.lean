import Verif.Model.KeplerGrad
import Verif.Props.OrbitGrad
import Verif.Props.TransitAccuracy

/-!
# C95: the derivatives of transit and emission light curves of Keplerian orbits
-/

namespace Jaxoplanet.LightCurve
open Real Spec AD AD.Dual Filter Topology Keplerian MeasureTheory

theorem emissionTermD_eq (kep : ℝ → ℝ → ℝ × ℝ) (au eps : ℝ) (strict : Bool) (quad : List (ℝ × ℝ)) (u : List Dual) (amplitude : Dual) (o : OrbitalBodyD)
    (radius time : Dual) :
    emissionTermD kep au eps strict quad u amplitude o radius time =
      amplitude * (const 1 + LimbDark.orbitFluxD eps strict quad u (o.relative_position kep au time).x (o.relative_position kep au time).y
        (-(o.relative_position kep au time).z) o.central.radius radius) := by
  have h : ((-(o.relative_position kep au time).z).v > 0) = ((o.relative_position kep au time).z.v < 0) := by
    rw [neg_v]
    exact propext neg_pos
  unfold emissionTermD LimbDark.orbitFluxD
  simp only [h]

theorem orbitFluxD_v (eps : ℝ) (strict : Bool) (quad : List (ℝ × ℝ)) (u : List Dual) (x y z radius r_star : Dual) :
    (LimbDark.orbitFluxD eps strict quad u x y z radius r_star).v = limbDarkTerm eps quad (u.map (·.v)) r_star.v radius.v ⟨x.v, y.v, z.v⟩ := by
  classical
  unfold LimbDark.orbitFluxD limbDarkTerm
  simp only [where_v, LimbDark.lightCurveD_v, div_v, sqrt_v, add_v, square_v, const_v]

/-- a number that tracks a function is what differentiating it gives -/
theorem tracks_eq_input {f : ℝ → ℝ} {t : ℝ} {a : Dual} (h : Tracks f t a) : a = LimbDark.input t f ∧ DifferentiableAt ℝ f t := by
  obtain ⟨hv, d, hd, hD⟩ := h
  refine ⟨?_, hD.differentiableAt⟩
  ext1
  · exact hv.symm
  · rw [hd, LimbDark.input, hD.deriv]

/-- C95: the derivatives of the transit light curve and of the emission of the body are finite, in both modes -/
theorem kepler_gradient_finite {kep : ℝ → ℝ → ℝ × ℝ} (hkep : UnitSolver kep) (G au : ℝ) (central : CentralD) (body : Body Dual)
    (hc : ∃ d, central.mass.d = some d) (hr : ∃ d, central.radius.d = some d) (hb : ∀ a, some a ∈ body.args → ∃ d, a.d = some d)
    {density : ℝ} {o : OrbitalBody} (h : mkOrbitalBody G ⟨central.mass.v, central.radius.v, density⟩ (body.map (·.v)) = .ok o)
    (hreg : RegularOrbit ⟨central.mass.v, central.radius.v, density⟩ o body.impact_param.isSome) (time : Dual) (ht : ∃ d, time.d = some d)
    {radius : Dual} (hrad : body.radius = some radius) (hrad0 : radius.v ≠ 0)
    (hxy : ¬ ((o.relative_position kep au time.v).x = 0 ∧ (o.relative_position kep au time.v).y = 0))
    {eps : ℝ} (he : 0 < eps) (strict : Bool) (quad : List (ℝ × ℝ)) (u v : List Dual) (hu : ∀ a ∈ u, ∃ d, a.d = some d) (hv : ∀ a ∈ v, ∃ d, a.d = some d)
    (hU : totalFlux (u.map (·.v)) ≠ 0) (hV : totalFlux (v.map (·.v)) ≠ 0) (amplitude : Dual) (hA : ∃ d, amplitude.d = some d) :
    ∃ oD, mkOrbitalBodyD G central body = .ok oD ∧
      (transitTermD kep au eps strict quad u oD radius time).v =
        limbDarkTerm eps quad (u.map (·.v)) central.radius.v radius.v (o.relative_position kep au time.v) ∧
      (∃ d, (transitTermD kep au eps strict quad u oD radius time).d = some d) ∧
      (emissionTermD kep au eps strict quad v amplitude oD radius time).v =
        emissionTerm eps quad central.radius.v ⟨radius.v, o.relative_position kep au time.v, v.map (·.v), amplitude.v⟩ ∧
      ∃ d, (emissionTermD kep au eps strict quad v amplitude oD radius time).d = some d := by
  obtain ⟨oD, h1, h2⟩ := orbit_derivatives_finite hkep G au central body hc hr hb h hreg time ht none none (by simp) (by simp)
  have hradD : ∃ d, radius.d = some d := hb radius (by simp [Body.args, hrad])
  obtain ⟨ox, oy, oz⟩ := h2.relative_position
  have hcr := h2.central_radius
  simp only [Option.map_none] at ox oy oz
  have hoc : o.central.radius = central.radius.v := by
    obtain ⟨-, p0, a0, k0, hps, hec, rfl⟩ := mkOrbitalBody_ok h
    rfl
  rw [hoc] at hcr
  have hR0 : central.radius.v ≠ 0 := hreg.radius.ne'
  have hp : (⟨(oD.relative_position kep au time).x.v, (oD.relative_position kep au time).y.v, (oD.relative_position kep au time).z.v⟩ : V3) =
      o.relative_position kep au time.v := by
    rw [← ox.1, ← oy.1, ← oz.1]
  have hxy' : ¬ ((oD.relative_position kep au time).x.v = 0 ∧ (oD.relative_position kep au time).y.v = 0) := by
    rw [← ox.1, ← oy.1]
    exact hxy
  refine ⟨oD, h1, ?_, ?_, ?_, ?_⟩
  · unfold transitTermD
    rw [orbitFluxD_v, hp, ← hcr.1]
  · exact LimbDark.orbit_gradient_finite he strict quad u _ _ _ _ _ hu ox.2 oy.2 hradD hcr.2 hU hxy' (by rw [← hcr.1]; exact hR0) hrad0
  · rw [emissionTermD_eq, emissionTerm_eq, mul_v, add_v, orbitFluxD_v, ← hcr.1, ← hp]
    rfl
  · rw [emissionTermD_eq]
    exact fin_mul hA (fin_add (fin_const 1) (LimbDark.orbit_gradient_finite he strict quad v _ _ _ _ _ hv ox.2 oy.2 hcr.2 hradD hV hxy' hrad0
      (by rw [← hcr.1]; exact hR0)))

/-- C95: these derivatives are the derivatives of the light curves that are computed -/
theorem kepler_gradient_correct {kep : ℝ → ℝ → ℝ × ℝ} (hkep : ExactNear kep) (G au : ℝ) {t : ℝ} (mass radius density : ℝ → ℝ) (body : Body (ℝ → ℝ))
    (hc : DifferentiableAt ℝ mass t) (hr : DifferentiableAt ℝ radius t) (hb : ∀ a, some a ∈ body.args → DifferentiableAt ℝ a t)
    {o : OrbitalBody} (h : mkOrbitalBody G ⟨mass t, radius t, density t⟩ (body.map (· t)) = .ok o)
    (hreg : RegularOrbit ⟨mass t, radius t, density t⟩ o body.impact_param.isSome) {time : ℝ → ℝ} (ht : DifferentiableAt ℝ time t)
    {size : ℝ → ℝ} (hsize : body.radius = some size)
    (hxy : ¬ ((o.relative_position kep au (time t)).x = 0 ∧ (o.relative_position kep au (time t)).y = 0))
    (hz : (o.relative_position kep au (time t)).z ≠ 0)
    {eps : ℝ} (he : 0 < eps) (he1 : 10 * eps ≤ 1) (strict : Bool) (quad : List (ℝ × ℝ)) (u v : List (ℝ → ℝ)) (hu : ∀ f ∈ u, DifferentiableAt ℝ f t)
    (hv : ∀ f ∈ v, DifferentiableAt ℝ f t) (hU : totalFlux (u.map (· t)) ≠ 0) (hV : totalFlux (v.map (· t)) ≠ 0) {amplitude : ℝ → ℝ}
    (hA : DifferentiableAt ℝ amplitude t) :
    ∃ (O : ℝ → OrbitalBody) (oD : OrbitalBodyD), (∀ s, mkOrbitalBody G ⟨mass s, radius s, density s⟩ (body.map (· s)) = .ok (O s)) ∧ O t = o ∧
      mkOrbitalBodyD G ⟨LimbDark.input t mass, LimbDark.input t radius⟩ (body.map (LimbDark.input t)) = .ok oD ∧
      (LimbDark.Regular eps quad (√((o.relative_position kep au (time t)).x ^ 2 + (o.relative_position kep au (time t)).y ^ 2) / radius t) (size t / radius t) →
        ∃ d, (transitTermD kep au eps strict quad (u.map (LimbDark.input t)) oD (LimbDark.input t size) (LimbDark.input t time)).d = some d ∧
          HasDerivAt (fun s => limbDarkTerm eps quad (u.map (· s)) (radius s) (size s) ((O s).relative_position kep au (time s))) d t ∧
          ((o.relative_position kep au (time t)).z < 0 → d = 0)) ∧
      (LimbDark.Regular eps quad (√((o.relative_position kep au (time t)).x ^ 2 + (o.relative_position kep au (time t)).y ^ 2) / size t) (radius t / size t) →
        size t ≠ 0 →
        ∃ d, (emissionTermD kep au eps strict quad (v.map (LimbDark.input t)) (LimbDark.input t amplitude) oD (LimbDark.input t size)
            (LimbDark.input t time)).d = some d ∧
          HasDerivAt (fun s => emissionTerm eps quad (radius s) ⟨size s, (O s).relative_position kep au (time s), v.map (· s), amplitude s⟩) d t) := by
  obtain ⟨O, oD, h1, rfl, h3, h4⟩ := orbit_derivatives_correct hkep G au mass radius density body hc hr hb h hreg ht none none (by simp) (by simp)
  have hD : DifferentiableAt ℝ size t := hb size (by simp [Body.args, hsize])
  obtain ⟨ox, oy, oz⟩ := h4.relative_position
  simp only [Option.map_none] at ox oy oz
  have hOr : ∀ s, (O s).central.radius = radius s := by
    intro s
    obtain ⟨-, p0, a0, k0, hps, hec, hO⟩ := mkOrbitalBody_ok (h1 s)
    rw [hO]
    rfl
  have hcr : Tracks radius t oD.central.radius := by
    have := h4.central_radius
    simpa only [hOr] using this
  obtain ⟨ex, dx⟩ := tracks_eq_input ox
  obtain ⟨ey, dy⟩ := tracks_eq_input oy
  obtain ⟨ez, dz⟩ := tracks_eq_input oz
  obtain ⟨en, dn⟩ := tracks_eq_input (track_neg oz)
  obtain ⟨er, dr⟩ := tracks_eq_input hcr
  have hR0 : radius t ≠ 0 := hreg.radius.ne'
  refine ⟨O, oD, h1, rfl, h3, fun hR => ?_, fun hR hs0 => ?_⟩
  · unfold transitTermD
    simp only [ex, ey, ez, er]
    exact LimbDark.orbit_gradient_is_derivative he he1 strict quad u _ _ _ size radius hu dx dy dz hD hr hU hxy hR0 hz hR
  · obtain ⟨d, hd, hd', -⟩ := LimbDark.orbit_gradient_is_derivative he he1 strict quad v (fun s => ((O s).relative_position kep au (time s)).x)
      (fun s => ((O s).relative_position kep au (time s)).y) (fun s => -((O s).relative_position kep au (time s)).z) radius size hv dx dy dn hr hD hV hxy hs0
      (neg_ne_zero.2 hz) hR
    have hT : Tracks (fun s => limbDarkTerm eps quad (v.map (· s)) (size s) (radius s) ⟨((O s).relative_position kep au (time s)).x,
        ((O s).relative_position kep au (time s)).y, -((O s).relative_position kep au (time s)).z⟩) t
        (LimbDark.orbitFluxD eps strict quad (v.map (LimbDark.input t)) (oD.relative_position kep au (LimbDark.input t time)).x
          (oD.relative_position kep au (LimbDark.input t time)).y (-(oD.relative_position kep au (LimbDark.input t time)).z) oD.central.radius (LimbDark.input t size)) := by
      refine ⟨?_, d, ?_, hd'⟩
      · rw [orbitFluxD_v, ex, ey, en, er, List.map_map]
        rfl
      · rw [ex, ey, en, er]
        exact hd
    have := track_mul (LimbDark.track_input hA) (track_add (track_const 1 t) hT)
    obtain ⟨-, d', hd1, hd2⟩ := this
    refine ⟨d', ?_, ?_⟩
    · rw [emissionTermD_eq]
      exact hd1
    · simp only [emissionTerm_eq]
      exact hd2

/-- C95, uniform star: the derivative is the exact one, of the fraction of the disc that the body covers -/
theorem kepler_gradient_uniform {kep : ℝ → ℝ → ℝ × ℝ} (hkep : ExactNear kep) (G au : ℝ) {t : ℝ} (mass radius density : ℝ → ℝ) (body : Body (ℝ → ℝ))
    (hc : DifferentiableAt ℝ mass t) (hr : DifferentiableAt ℝ radius t) (hb : ∀ a, some a ∈ body.args → DifferentiableAt ℝ a t)
    {o : OrbitalBody} (h : mkOrbitalBody G ⟨mass t, radius t, density t⟩ (body.map (· t)) = .ok o)
    (hreg : RegularOrbit ⟨mass t, radius t, density t⟩ o body.impact_param.isSome) {time : ℝ → ℝ} (ht : DifferentiableAt ℝ time t)
    {size : ℝ → ℝ} (hsize : body.radius = some size)
    (hxy : ¬ ((o.relative_position kep au (time t)).x = 0 ∧ (o.relative_position kep au (time t)).y = 0))
    (hz : 0 < (o.relative_position kep au (time t)).z)
    {eps : ℝ} (he : 0 < eps) (he1 : 10 * eps ≤ 1) (strict : Bool)
    (hR : LimbDark.Regular eps [] (√((o.relative_position kep au (time t)).x ^ 2 + (o.relative_position kep au (time t)).y ^ 2) / radius t) (size t / radius t)) :
    ∃ (O : ℝ → OrbitalBody) (oD : OrbitalBodyD) (d : ℝ), (∀ s, mkOrbitalBody G ⟨mass s, radius s, density s⟩ (body.map (· s)) = .ok (O s)) ∧
      mkOrbitalBodyD G ⟨LimbDark.input t mass, LimbDark.input t radius⟩ (body.map (LimbDark.input t)) = .ok oD ∧
      (transitTermD kep au eps strict [] [] oD (LimbDark.input t size) (LimbDark.input t time)).d = some d ∧
      HasDerivAt (fun s => -(volume (stellarDisc ∩ occultor
        (√(((O s).relative_position kep au (time s)).x ^ 2 + ((O s).relative_position kep au (time s)).y ^ 2) / radius s) (size s / radius s))).toReal / π) d t := by
  obtain ⟨O, oD, h1, rfl, h3, h4, -⟩ := kepler_gradient_correct hkep G au mass radius density body hc hr hb h hreg ht hsize hxy hz.ne' he he1 strict [] [] []
    (by simp) (by simp) LimbDark.totalFlux_nil_ne LimbDark.totalFlux_nil_ne (differentiableAt_const (0 : ℝ)) (amplitude := fun _ => 0)
  obtain ⟨d, hd, hd', -⟩ := h4 hR
  refine ⟨O, oD, d, h1, h3, hd, ?_⟩
  obtain ⟨O', oD', h1', -, -, h4'⟩ := orbit_derivatives_correct hkep G au mass radius density body hc hr hb h hreg ht none none (by simp) (by simp)
  have hOO : O' = O := funext fun s => Except.ok.inj ((h1' s).symm.trans (h1 s))
  subst hOO
  have oz := h4'.relative_position.z
  obtain ⟨-, d', -, hD⟩ := oz
  have hcont : ContinuousAt (fun s => ((O' s).relative_position kep au (time s)).z) t := hD.continuousAt
  refine hd'.congr_of_eventuallyEq ((hcont.eventually (lt_mem_nhds hz)).mono fun s hs => ?_)
  have hs' : ((O' s).relative_position kep au (time s)).z > 0 := hs
  simp only [limbDarkTerm, if_pos hs', List.map_nil]
  exact (LimbDark.uniform_light_curve eps [] _ _).symm

/-- an eccentric orbit at the time of transit -/
theorem example_transit {kep : ℝ → ℝ → ℝ × ℝ} (hkep : ExactSolver kep) : ∃ o, mkOrbitalBody 1 ⟨1, 1, 1⟩
      { semimajor := some 10, eccentricity := some 0.5, sin_omega_peri := some 0.6, cos_omega_peri := some 0.8, impact_param := some 0.5, mass := some 0.1,
        radius := some 0.1 } = .ok o ∧ RegularOrbit ⟨1, 1, 1⟩ o true ∧ o.relative_position kep 1 0 = ⟨0, -0.5, (o.relative_position kep 1 0).z⟩ ∧
      0 < (o.relative_position kep 1 0).z := by
  obtain ⟨o, ho⟩ := mkOrbitalBody_of_accepted 1 ⟨1, 1, 1⟩
    (b := { semimajor := some 10, eccentricity := some 0.5, sin_omega_peri := some 0.6, cos_omega_peri := some 0.8, impact_param := some 0.5, mass := some 0.1,
            radius := some 0.1 }) (by constructor <;> simp [Given, ScalarIfGiven])
  have ho' := ho
  obtain ⟨-, p0, a0, k0, hps, hec, rfl⟩ := mkOrbitalBody_ok ho
  simp only [periodSemimajor, totalMass, Except.ok.injEq, Prod.mk.injEq] at hps
  simp only [eccOf, Except.ok.injEq] at hec
  obtain ⟨rfl, rfl⟩ := hps
  subst hec
  have hreg : RegularOrbit ⟨1, 1, 1⟩ (buildOrbit ⟨1, 1, 1⟩ { semimajor := some 10, eccentricity := some 0.5, sin_omega_peri := some 0.6, cos_omega_peri := some 0.8, impact_param := some 0.5, mass := some 0.1, radius := some 0.1 } (2 * π * 10 * √(10 / (1 * (0.1 + 1)))) 10 (some ⟨0.5, 0.6, 0.8⟩)) true := by
    refine ⟨?_, ?_, ?_, ?_, ?_, fun _ => ?_⟩
    · change 0 < 2 * π * 10 * √(10 / (1 * (0.1 + 1)))
      positivity
    · change (0 : ℝ) < 10
      norm_num
    · norm_num
    · intro k hk
      obtain rfl : (⟨0.5, 0.6, 0.8⟩ : Ecc) = k := Option.some.inj hk
      norm_num
    · intro k hk
      obtain rfl : (⟨0.5, 0.6, 0.8⟩ : Ecc) = k := Option.some.inj hk
      norm_num
    · change ((1 + 0.5 * 0.6) / (1 - 0.5 ^ 2) * 1 / 10 * 0.5 : ℝ) ^ 2 < 1
      norm_num
  have htr := transit_is_transit_partial hkep 1 ho' hreg.period hreg.semimajor (by norm_num) hreg.ecc hreg.transit rfl 0
  refine ⟨_, ho', hreg, ?_⟩
  generalize hO : buildOrbit ⟨1, 1, 1⟩ { semimajor := some 10, eccentricity := some 0.5, sin_omega_peri := some 0.6, cos_omega_peri := some 0.8, impact_param := some 0.5, mass := some 0.1, radius := some 0.1 } (2 * π * 10 * √(10 / (1 * (0.1 + 1)))) 10 (some ⟨0.5, 0.6, 0.8⟩) = o at *
  have e1 : o.node = none := by rw [← hO]; rfl
  have e2 : o.impact_param = 0.5 := by rw [← hO]; rfl
  have e3 : o.time_transit = 0 := by rw [← hO]; rfl
  have e4 : 0 < o.sin_inclination := by
    rw [← hO]
    change 0 < √(1 - ((1 + 0.5 * 0.6) / (1 - 0.5 ^ 2) * 1 / 10 * 0.5 : ℝ) ^ 2)
    exact Real.sqrt_pos.2 (by norm_num)
  simp only [e1, e2, e3, Int.cast_zero, zero_mul, add_zero, mul_one] at htr
  obtain ⟨⟨hx, hy⟩, -, -, hz⟩ := htr
  refine ⟨?_, hz e4⟩
  ext
  · exact hx
  · exact hy
  · rfl

/-- non-vacuity of C95: the derivative in the impact parameter, the eccentricity and time at the same time -/
example (quad : List (ℝ × ℝ)) (d : ℝ) : ∃ kep, ExactNear kep ∧ ∃ O : ℝ → OrbitalBody, (∀ s, mkOrbitalBody 1 ⟨1, 1, 1⟩
      { semimajor := some 10, eccentricity := some (0.5 + s * d), sin_omega_peri := some 0.6, cos_omega_peri := some 0.8, impact_param := some (0.5 + s),
        mass := some 0.1, radius := some 0.1 } = .ok (O s)) ∧
      DifferentiableAt ℝ (fun s => limbDarkTerm (2 ^ (-52 : ℤ)) quad [] 1 0.1 ((O s).relative_position kep 1 s)) 0 := by
  obtain ⟨kep, hkep⟩ := exists_exactNear
  obtain ⟨o, h, hreg, hp, hz⟩ := example_transit hkep.exact
  have hbody : ({ semimajor := some 10, eccentricity := some (0.5 + 0 * d), sin_omega_peri := some 0.6, cos_omega_peri := some 0.8, impact_param := some (0.5 + 0), mass := some 0.1, radius := some 0.1 } : Body ℝ) = { semimajor := some 10, eccentricity := some 0.5, sin_omega_peri := some 0.6, cos_omega_peri := some 0.8, impact_param := some 0.5, mass := some 0.1, radius := some 0.1 } := by
    simp
  obtain ⟨O, oD, h1, -, -, h4, -⟩ := kepler_gradient_correct hkep 1 1 (t := 0) (fun _ => 1) (fun _ => 1) (fun _ => 1)
    { semimajor := some (fun _ => 10), eccentricity := some (fun s => 0.5 + s * d), sin_omega_peri := some (fun _ => 0.6), cos_omega_peri := some (fun _ => 0.8),
      impact_param := some (fun s => 0.5 + s), mass := some (fun _ => 0.1), radius := some (fun _ => 0.1) } (differentiableAt_const _) (differentiableAt_const _)
    (by intro a ha; simp [Body.args] at ha; rcases ha with rfl | rfl | rfl | rfl | rfl | rfl | rfl <;> fun_prop)
    (by
      change mkOrbitalBody 1 ⟨1, 1, 1⟩ { semimajor := some 10, eccentricity := some (0.5 + 0 * d), sin_omega_peri := some 0.6, cos_omega_peri := some 0.8, impact_param := some (0.5 + 0), mass := some 0.1, radius := some 0.1 } = _
      rw [hbody]
      exact h) hreg (time := fun s => s) differentiableAt_id rfl (by rw [hp]; norm_num) hz.ne' (eps := 2 ^ (-52 : ℤ)) (by positivity) (by norm_num) true quad [] []
    (by simp) (by simp) LimbDark.totalFlux_nil_ne LimbDark.totalFlux_nil_ne (differentiableAt_const (0 : ℝ)) (amplitude := fun _ => 0)
  obtain ⟨d', -, hd, -⟩ := h4 (by
    have e1 : √((o.relative_position kep 1 0).x ^ 2 + (o.relative_position kep 1 0).y ^ 2) / 1 = 1 / 2 := by
      rw [hp, div_one, show ((0 : ℝ) ^ 2 + (-0.5) ^ 2) = (1 / 2) ^ 2 by norm_num]
      exact Real.sqrt_sq (by norm_num)
    rw [e1, show ((0.1 : ℝ) / 1) = 1 / 10 by norm_num]
    exact LimbDark.regular_inside quad)
  exact ⟨kep, hkep, O, h1, hd.differentiableAt⟩

/-- non-vacuity of the first part of C95, with the solver of the program: a circular orbit at the time of transit -/
example (quad : List (ℝ × ℝ)) : ∃ oD, mkOrbitalBodyD 1 ⟨⟨1, some 1⟩, ⟨1, some 2⟩⟩
      { semimajor := some ⟨10, some 1⟩, impact_param := some ⟨0.5, some 3⟩, radius := some ⟨0.1, some 1⟩ } = .ok oD ∧
    (∃ d, (transitTermD Kepler.kepler 1 (2 ^ (-52 : ℤ)) true quad [] oD ⟨0.1, some 1⟩ ⟨0, some 1⟩).d = some d) ∧
    ∃ d, (emissionTermD Kepler.kepler 1 (2 ^ (-52 : ℤ)) true quad [] ⟨3, some 1⟩ oD ⟨0.1, some 1⟩ ⟨0, some 1⟩).d = some d := by
  obtain ⟨o, ho⟩ := mkOrbitalBody_of_accepted 1 ⟨1, 1, 1⟩ (b := { semimajor := some 10, impact_param := some 0.5, radius := some 0.1 })
    (by constructor <;> simp [Given, ScalarIfGiven])
  have ho' := ho
  obtain ⟨-, p0, a0, k0, hps, hec, rfl⟩ := mkOrbitalBody_ok ho
  simp only [periodSemimajor, totalMass, Except.ok.injEq, Prod.mk.injEq] at hps
  simp only [eccOf, Except.ok.injEq] at hec
  obtain ⟨rfl, rfl⟩ := hps
  subst hec
  have hreg : RegularOrbit ⟨1, 1, 1⟩ (buildOrbit ⟨1, 1, 1⟩ { semimajor := some 10, impact_param := some 0.5, radius := some 0.1 } (2 * π * 10 * √(10 / (1 * 1))) 10 none) true := by
    refine ⟨?_, ?_, ?_, ?_, ?_, fun _ => ?_⟩
    · change 0 < 2 * π * 10 * √(10 / (1 * 1))
      positivity
    · change (0 : ℝ) < 10
      norm_num
    · norm_num
    · intro k hk
      cases hk
    · intro k hk
      cases hk
    · change (1 * 1 / 10 * 0.5 : ℝ) ^ 2 < 1
      norm_num
  have htr := transit_is_transit_circular 1 ho' hreg.period hreg.semimajor (by norm_num) rfl rfl 0
  obtain ⟨oD, h1, -, h3, -, h5⟩ := kepler_gradient_finite kepler_unitSolver 1 1 ⟨⟨1, some 1⟩, ⟨1, some 2⟩⟩
    { semimajor := some ⟨10, some 1⟩, impact_param := some ⟨0.5, some 3⟩, radius := some ⟨0.1, some 1⟩ } ⟨_, rfl⟩ ⟨_, rfl⟩
    (by intro a ha; simp [Body.args] at ha; rcases ha with rfl | rfl | rfl <;> exact ⟨_, rfl⟩) (density := 1) ho' hreg ⟨0, some 1⟩ ⟨_, rfl⟩ rfl (by norm_num)
    (by
      generalize hO : buildOrbit ⟨1, 1, 1⟩ { semimajor := some 10, impact_param := some 0.5, radius := some 0.1 } (2 * π * 10 * √(10 / (1 * 1))) 10 none = o at htr ⊢
      have e1 : o.node = none := by rw [← hO]; rfl
      have e2 : o.impact_param = 0.5 := by rw [← hO]; rfl
      have e3 : o.time_transit = 0 := by rw [← hO]; rfl
      simp only [e1, e2, e3, Int.cast_zero, zero_mul, add_zero, mul_one] at htr
      rintro ⟨-, h⟩
      have := htr.1.2.symm.trans h
      norm_num at this) (eps := 2 ^ (-52 : ℤ)) (by positivity) true quad [] [] (by simp) (by simp) LimbDark.totalFlux_nil_ne LimbDark.totalFlux_nil_ne ⟨3, some 1⟩ ⟨_, rfl⟩
  exact ⟨oD, h1, h3, h5⟩

end Jaxoplanet.LightCurve
