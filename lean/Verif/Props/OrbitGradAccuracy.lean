import Verif.Props.OrbitGrad
import Verif.Proofs.OrbitGradAccuracy

/-!
# C111: derivatives of Keplerian orbits with the program's own solver are accurate

C94 shows that the derivatives are those of the functions for an exact solution of Kepler's equation. The program differentiates `kepler` with a
rule that is evaluated at its own numerical solution (C96). Here the error is followed to the derivatives of positions along any direction.
-/

namespace Jaxoplanet.Keplerian
open Real AD AD.Dual _root_.Jaxoplanet.Spec

/-- The derivative `a` that the program reports for a moving point differs from its velocity by at most `B` in each coordinate -/
def DerivWithin (B : ℝ) (p : ℝ → V3) (t : ℝ) (a : V3D) : Prop :=
  ∃ v w : V3, HasVelocityAt p v t ∧ a.x.d = some w.x ∧ a.y.d = some w.y ∧ a.z.d = some w.z ∧ |w.x - v.x| ≤ B ∧ |w.y - v.y| ≤ B ∧ |w.z - v.z| ≤ B

/-- sines and cosines of the angles of the orbit are at most one and change at most at the rate `τ` -/
structure TurnsAtMost (O : ℝ → OrbitalBody) (sw cw : ℝ → ℝ) (t τ : ℝ) : Prop where
  cosi : |(O t).cos_inclination| ≤ 1 ∧ |deriv (fun s => (O s).cos_inclination) t| ≤ τ
  sini : |(O t).sin_inclination| ≤ 1 ∧ |deriv (fun s => (O s).sin_inclination) t| ≤ τ
  sinw : |deriv sw t| ≤ τ
  cosw : |deriv cw t| ≤ τ
  node : ∀ n : ℝ → ℝ × ℝ, (∀ s, (O s).node = some (n s)) →
    (|(n t).1| ≤ 1 ∧ |deriv (fun s => (n s).1) t| ≤ τ) ∧ (|(n t).2| ≤ 1 ∧ |deriv (fun s => (n s).2) t| ≤ τ)

theorem turn_of_tracks {f : ℝ → ℝ} {t τ : ℝ} {a : Dual} (h : Tracks f t a) (h' : |f t| ≤ 1 ∧ |deriv f t| ≤ τ) : Turn τ a := by
  obtain ⟨hv, d, hd, hD⟩ := h
  rw [hv, hD.deriv] at h'
  exact ⟨h'.1, d, hd, h'.2⟩

theorem derivWithin_of_near {V U t : ℝ} {p : ℝ → V3} {a b : V3D} (h : NearV V U a b) (hb : TrV (Starry.Tk t) p b) : DerivWithin U p t a := by
  obtain ⟨⟨-, x1, x2, hx1, hx2, hx⟩, ⟨-, y1, y2, hy1, hy2, hy⟩, ⟨-, z1, z2, hz1, hz2, hz⟩⟩ := h
  obtain ⟨⟨-, dx, ex, hdx⟩, ⟨-, dy, ey, hdy⟩, ⟨-, dz, ez, hdz⟩⟩ := hb
  rw [hx2] at ex; rw [hy2] at ey; rw [hz2] at ez
  obtain rfl := Option.some.inj ex
  obtain rfl := Option.some.inj ey
  obtain rfl := Option.some.inj ez
  exact ⟨⟨x2, y2, z2⟩, ⟨x1, y1, z1⟩, ⟨hdx, hdy, hdz⟩, hx1, hy1, hz1, hx, hy, hz⟩

/-- an orbit whose arguments are differentiable functions, with its derivatives -/
theorem exists_trOrbit (G : ℝ) {t : ℝ} (mass radius density : ℝ → ℝ) (body : Body (ℝ → ℝ))
    (hc : DifferentiableAt ℝ mass t) (hr : DifferentiableAt ℝ radius t) (hb : ∀ a, some a ∈ body.args → DifferentiableAt ℝ a t)
    {O : ℝ → OrbitalBody} (hO : ∀ s, mkOrbitalBody G ⟨mass s, radius s, density s⟩ (body.map (· s)) = .ok (O s))
    (hreg : RegularOrbit ⟨mass t, radius t, density t⟩ (O t) body.impact_param.isSome) :
    ∃ oD, mkOrbitalBodyD G ⟨LimbDark.input t mass, LimbDark.input t radius⟩ (body.map (LimbDark.input t)) = .ok oD ∧ TrOrbit (Starry.Tk t) O oD := by
  let P : Body ((ℝ → ℝ) × Dual) := body.map fun a => (a, LimbDark.input t a)
  have hP : ∀ q, some q ∈ P.args → Starry.Tk t q.1 q.2 := by
    intro q hq
    have : ∃ a, some a ∈ body.args ∧ q = (a, LimbDark.input t a) := by
      simp only [P, Body.map, Body.args, List.mem_cons, List.not_mem_nil, or_false] at hq ⊢
      rcases hq with hq | hq | hq | hq | hq | hq | hq | hq | hq | hq | hq | hq | hq | hq | hq | hq | hq <;>
        (obtain ⟨a, ha, he⟩ := Option.map_eq_some_iff.1 hq.symm; exact ⟨a, by simp [ha], he.symm⟩)
    obtain ⟨a, ha, rfl⟩ := this
    exact LimbDark.track_input (hb a ha)
  have e1 : ∀ s : ℝ, (P.map fun q => q.1 s) = body.map (· s) := fun s => by simp [P, Body.map, Function.comp_def]
  have e2 : P.map Prod.snd = body.map (LimbDark.input t) := by simp [P, Body.map, Function.comp_def]
  obtain ⟨O', oD, h1, h2, -, h4⟩ := trInit (R := Starry.Tk t) (G := G) (c := fun s => ⟨mass s, radius s, density s⟩)
    (cD := ⟨LimbDark.input t mass, LimbDark.input t radius⟩) (P := P) hP
    (LimbDark.track_input hc) (LimbDark.track_input hr) (by rw [e1]; exact hO t) (by simpa [P, Body.map] using hreg)
  rw [e2] at h1
  have : O' = O := by
    funext s
    have := h2 s
    rw [e1, hO s] at this
    exact (Except.ok.inj this).symm
  subst this
  exact ⟨oD, h1, h4⟩

/-- what `TurnsAtMost` says about the derivatives -/
theorem turns_of_orbit {t τ : ℝ} {O : ℝ → OrbitalBody} {oD : OrbitalBodyD} (h4 : TrOrbit (Starry.Tk t) O oD) {e sw cw : ℝ → ℝ}
    (hecc : ∀ s, (O s).ecc = some ⟨e s, sw s, cw s⟩) (hw1 : sw t ^ 2 + cw t ^ 2 = 1) (hτ : TurnsAtMost O sw cw t τ) :
    ∃ k, oD.ecc = some k ∧ Starry.Tk t e k.e ∧ Turns τ oD := by
  have hE := h4.ecc
  cases hk : oD.ecc with
  | none =>
    rw [hk] at hE
    have h : (O t).ecc = none := hE t
    rw [hecc t] at h
    exact absurd h (by simp)
  | some k =>
    rw [hk] at hE
    obtain ⟨f, g, h, hF, h5, h6, h7⟩ := hE
    have hF : ∀ s, (⟨e s, sw s, cw s⟩ : Ecc) = ⟨f s, g s, h s⟩ := fun s => Option.some.inj ((hecc s).symm.trans (hF s))
    have hf : f = e := funext fun s => (congrArg Ecc.e (hF s)).symm
    have hg : g = sw := funext fun s => (congrArg Ecc.sinw (hF s)).symm
    have hh : h = cw := funext fun s => (congrArg Ecc.cosw (hF s)).symm
    subst hf hg hh
    refine ⟨k, rfl, h5, turn_of_tracks h4.cos_inclination hτ.cosi, turn_of_tracks h4.sin_inclination hτ.sini, ?_, ?_⟩
    · intro k' hk'
      rw [hk] at hk'
      obtain rfl := Option.some.inj hk'
      exact ⟨turn_of_tracks h6 ⟨abs_le_of_sq_le_sq (by nlinarith [sq_nonneg (h t)]) zero_le_one, hτ.sinw⟩,
        turn_of_tracks h7 ⟨abs_le_of_sq_le_sq (by nlinarith [sq_nonneg (g t)]) zero_le_one, hτ.cosw⟩⟩
    · intro n hn
      have hN := h4.node
      rw [hn] at hN
      obtain ⟨n1, n2, hN, t1, t2⟩ := hN
      obtain ⟨b1, b2⟩ := hτ.node (fun s => (n1 s, n2 s)) hN
      exact ⟨turn_of_tracks t1 b1, turn_of_tracks t2 b2⟩

/-- C111: the derivatives of the position of a body on an eccentric orbit, relative to the star, that the program computes with its own
solver of Kepler's equation, along any differentiable curve of parameters and times. They differ from the derivatives of the exact
position by at most `1.3e-13` times an explicit factor. -/
theorem position_gradient_accurate (G au : ℝ) {t : ℝ} (mass radius density : ℝ → ℝ) (body : Body (ℝ → ℝ))
    (hc : DifferentiableAt ℝ mass t) (hr : DifferentiableAt ℝ radius t) (hb : ∀ a, some a ∈ body.args → DifferentiableAt ℝ a t)
    {O : ℝ → OrbitalBody} (hO : ∀ s, mkOrbitalBody G ⟨mass s, radius s, density s⟩ (body.map (· s)) = .ok (O s))
    (hreg : RegularOrbit ⟨mass t, radius t, density t⟩ (O t) body.impact_param.isSome) (hp : body.parallax = none)
    {time : ℝ → ℝ} (ht : DifferentiableAt ℝ time t) {e sw cw : ℝ → ℝ} (hecc : ∀ s, (O s).ecc = some ⟨e s, sw s, cw s⟩) {τ : ℝ}
    (hτ : TurnsAtMost O sw cw t τ) {kep : ℝ → ℝ → ℝ × ℝ} (hkep : ExactNear kep) :
    ∃ oD, mkOrbitalBodyD G ⟨LimbDark.input t mass, LimbDark.input t radius⟩ (body.map (LimbDark.input t)) = .ok oD ∧
      DerivWithin (1.3e-13 * ((O t).semimajor * (4 * planeRate (e t) (deriv (fun s => (O s).meanAnomaly (time s)) t) (deriv e t) + 48 * τ / (1 - e t)) +
          16 * |deriv (fun s => (O s).semimajor) t| / (1 - e t)))
        (fun s => (O s).relative_position kep au (time s)) t (oD.relative_position Kepler.kepler au (LimbDark.input t time)) := by
  obtain ⟨oD, h1, h4⟩ := exists_trOrbit G mass radius density body hc hr hb hO hreg
  refine ⟨oD, h1, ?_⟩
  have htk := LimbDark.track_input ht
  have hv := hreg.ecc
  obtain ⟨he0, he1, hw1⟩ := hv _ (hecc t)
  simp only at he0 he1 hw1
  obtain ⟨k, hk, hE, hT⟩ := turns_of_orbit h4 hecc hw1 hτ
  obtain ⟨hev, ε, heD, heH⟩ := hE
  obtain ⟨-, μ, hMd, hMH⟩ := h4.meanAnomaly hreg.period.ne' htk
  obtain ⟨hav, α, haD, haH⟩ := h4.semimajor
  have hτ0 : 0 ≤ τ := (abs_nonneg _).trans hτ.cosi.2
  have hpx : oD.parallax = none := by
    have h := h4.parallax
    cases hq : oD.parallax with
    | none => rfl
    | some q =>
      rw [hq] at h
      obtain ⟨w, hw, -⟩ := h
      have hw : (O t).parallax = some (w t) := hw t
      obtain ⟨-, p0, a0, k0, hps, hec, hoo⟩ := mkOrbitalBody_ok (hO t)
      have : (O t).parallax = none := by
        rw [hoo]
        change Option.map _ body.parallax = none
        rw [hp]; rfl
      rw [hw] at this
      simp at this
  have hA0 := hreg.semimajor
  rw [heH.deriv, hMH.deriv, haH.deriv]
  have hrd : (-oD.semimajor).d = some (-1 * α) := by
    change lin (some (-1)) oD.semimajor.d = _
    rw [haD]; rfl
  have hev' : e t = k.e.v := hev
  rw [hev'] at he0 he1 ⊢
  obtain ⟨n1, n2⟩ := plane_near hkep hMd heD he0 he1 hrd (A := (O t).semimajor) (B := |α|)
    (by rw [neg_v, abs_neg, ← hav, abs_of_pos hA0]) (by rw [neg_one_mul, abs_neg])
  have hpos : ∀ q, oD.relative_position q au (LimbDark.input t time) =
      oD.rotateVector (distanceD (some k) (-oD.semimajor) (keplerD q (oD.meanAnomaly (LimbDark.input t time)) k.e).2 * (keplerD q (oD.meanAnomaly (LimbDark.input t time)) k.e).2)
        (distanceD (some k) (-oD.semimajor) (keplerD q (oD.meanAnomaly (LimbDark.input t time)) k.e).2 * (keplerD q (oD.meanAnomaly (LimbDark.input t time)) k.e).1) := by
    intro q
    simp only [OrbitalBodyD.relative_position, OrbitalBodyD.posVel, OrbitalBodyD.trueAnomaly, hk, OrbitalBodyD.r0, hpx, Option.orElse_none]
  have h1e : 0 < 1 - k.e.v := by linarith
  have hpr := planeRate_nonneg he0 he1 μ ε
  have hnear := rotate_near (by positivity) (by positivity) hτ0 hT n1 n2 true
  rw [← hpos, ← hpos] at hnear
  have hout := (h4.outputs (kepRel_tracks t hkep) hkep.unit hreg.period.ne' (total_mass_ne (hO t) hreg.period hreg.semimajor) hv au htk
    (trOpt_none _) (trOpt_none _)).relative_position
  have := derivWithin_of_near hnear hout
  refine cast ?_ this
  congr 1
  field_simp
  ring

/-- C111: the derivative of the position with respect to time that the program computes with its own solver of Kepler's equation, against the
exact velocity relative to the star. The bound is in units of the semimajor axis times the mean motion. -/
theorem time_derivative_accurate {kep : ℝ → ℝ → ℝ × ℝ} (hkep : ExactNear kep) (G au : ℝ) (c : Central) (body : Body ℝ) {o : OrbitalBody}
    (h : mkOrbitalBody G c body = .ok o) (hreg : RegularOrbit c o body.impact_param.isSome) (hp : body.parallax = none)
    (hK : body.radial_velocity_semiamplitude = none) {k : Ecc} (hecc : o.ecc = some k) (hcos : |o.cos_inclination| ≤ 1) (hsin : |o.sin_inclination| ≤ 1)
    (hnode : ∀ n, o.node = some n → |n.1| ≤ 1 ∧ |n.2| ≤ 1) (time : ℝ) :
    ∃ oD v, mkOrbitalBodyD G ⟨const c.mass, const c.radius⟩ (body.map const) = .ok oD ∧ o.relative_velocity kep au time = .ok v ∧
      ∃ w : V3, (oD.relative_position Kepler.kepler au ⟨time, some 1⟩).x.d = some w.x ∧ (oD.relative_position Kepler.kepler au ⟨time, some 1⟩).y.d = some w.y ∧
        (oD.relative_position Kepler.kepler au ⟨time, some 1⟩).z.d = some w.z ∧
        ∀ r ∈ [w.x - v.x, w.y - v.y, w.z - v.z], |r| ≤ 3.4e-11 * (o.semimajor * (2 * π / o.period)) / ((1 - k.e ^ 2) ^ (1.5 : ℝ) * (1 - k.e) ^ 2) := by
  have hin : ∀ a : ℝ, LimbDark.input time (fun _ => a) = const a := by
    intro a
    simp [LimbDark.input, const]
  have hid : LimbDark.input time (fun s => s) = ⟨time, some 1⟩ := by
    simp [LimbDark.input]
  have e1 : ∀ s : ℝ, (body.map fun a => fun _ : ℝ => a).map (· s) = body := fun s => by simp [Body.map, Function.comp_def]
  have e2 : (body.map fun a => fun _ : ℝ => a).map (LimbDark.input time) = body.map const := by simp [Body.map, Function.comp_def, hin]
  have hd0 : ∀ a : ℝ, deriv (fun _ : ℝ => a) time = 0 := fun a => deriv_const time a
  obtain ⟨he0, he1, -⟩ := hreg.ecc _ hecc
  obtain ⟨oD, hoD, hD⟩ := position_gradient_accurate G au (t := time) (fun _ => c.mass) (fun _ => c.radius) (fun _ => c.density)
    (body.map fun a => fun _ => a) (differentiableAt_const _) (differentiableAt_const _) (by
      intro a ha
      have : ∃ x : ℝ, a = fun _ => x := by
        simp only [Body.map, Body.args, List.mem_cons, List.not_mem_nil, or_false] at ha
        rcases ha with hq | hq | hq | hq | hq | hq | hq | hq | hq | hq | hq | hq | hq | hq | hq | hq | hq <;>
          (obtain ⟨x, -, he⟩ := Option.map_eq_some_iff.1 hq.symm; exact ⟨x, he.symm⟩)
      obtain ⟨x, rfl⟩ := this
      exact differentiableAt_const _)
    (O := fun _ => o) (by intro s; rw [e1]; exact h) (by simpa [Body.map] using hreg) (by simp [Body.map, hp]) (time := fun s => s) differentiableAt_id
    (e := fun _ => k.e) (sw := fun _ => k.sinw) (cw := fun _ => k.cosw) (fun s => by rw [hecc]) (τ := 0)
    ⟨⟨hcos, by rw [hd0, abs_zero]⟩, ⟨hsin, by rw [hd0, abs_zero]⟩, by rw [hd0, abs_zero], by rw [hd0, abs_zero], by
      intro n hn
      have := hnode _ (hn time)
      have hc : ∀ s, n s = n time := fun s => Option.some.inj ((hn s).symm.trans (hn time))
      have h1 : (fun s => (n s).1) = fun _ => (n time).1 := funext fun s => by rw [hc s]
      have h2 : (fun s => (n s).2) = fun _ => (n time).2 := funext fun s => by rw [hc s]
      rw [h1, h2, hd0, hd0, abs_zero]
      exact ⟨⟨this.1, le_rfl⟩, this.2, le_rfl⟩⟩ hkep
  rw [e2, hin, hin] at hoD
  rw [hid] at hD
  have hKo : o.radial_velocity_semiamplitude = none := by
    obtain ⟨-, p0, a0, k0, hps, hec, rfl⟩ := mkOrbitalBody_ok h
    exact hK
  obtain ⟨-, ⟨v, hv, hv'⟩, -⟩ := velocity_is_derivative hkep.exact au hreg.ecc hKo (total_mass_ne h hreg.period hreg.semimajor) time
  obtain ⟨v0, w, hv0, wx, wy, wz, bx, bY, bz⟩ := hD
  have ex : v0.x = v.x := hv0.1.unique hv'.1
  have ey : v0.y = v.y := hv0.2.1.unique hv'.2.1
  have ez : v0.z = v.z := hv0.2.2.unique hv'.2.2
  rw [ex] at bx; rw [ey] at bY; rw [ez] at bz
  have hM : deriv (fun s => o.meanAnomaly s) time = 2 * π / o.period := by
    have : HasDerivAt (fun s => o.meanAnomaly s) (2 * π / o.period) time := by
      have := ((((hasDerivAt_id time).sub_const o.time_transit).sub_const o.time_ref).const_mul (2 * π)).div_const o.period
      simpa [OrbitalBody.meanAnomaly, OrbitalBody.warpTimes] using this
    exact this.deriv
  have hn : 0 < 2 * π / o.period := div_pos (by positivity) hreg.period
  have h1e : 0 < 1 - k.e := by linarith
  have hpw : 0 < (1 - k.e ^ 2) ^ (1.5 : ℝ) := Real.rpow_pos_of_pos (by nlinarith) _
  have hB : (1.3e-13 : ℝ) * (o.semimajor * (4 * planeRate k.e (deriv (fun s => o.meanAnomaly s) time) (deriv (fun _ : ℝ => k.e) time) + 48 * 0 / (1 - k.e)) +
      16 * |deriv (fun _ : ℝ => o.semimajor) time| / (1 - k.e)) ≤
      3.4e-11 * (o.semimajor * (2 * π / o.period)) / ((1 - k.e ^ 2) ^ (1.5 : ℝ) * (1 - k.e) ^ 2) := by
    rw [hM, hd0, hd0]
    simp only [planeRate, abs_zero, abs_of_pos hn]
    have hx : 0 ≤ o.semimajor * (2 * π / o.period) / ((1 - k.e ^ 2) ^ (1.5 : ℝ) * (1 - k.e) ^ 2) := by
      have := hreg.semimajor
      positivity
    calc _ = 3.328e-11 * (o.semimajor * (2 * π / o.period) / ((1 - k.e ^ 2) ^ (1.5 : ℝ) * (1 - k.e) ^ 2)) := by
          field_simp
          ring
      _ ≤ 3.4e-11 * (o.semimajor * (2 * π / o.period) / ((1 - k.e ^ 2) ^ (1.5 : ℝ) * (1 - k.e) ^ 2)) := by gcongr; norm_num
      _ = _ := by ring
  refine ⟨oD, v, hoD, hv, w, wx, wy, wz, ?_⟩
  intro r hr
  simp only [List.mem_cons, List.not_mem_nil, or_false] at hr
  rcases hr with rfl | rfl | rfl
  · exact bx.trans hB
  · exact bY.trans hB
  · exact bz.trans hB
/-- an orbit with an impact parameter has sines and cosines of the inclination of at most one -/
theorem example_angles {o : OrbitalBody} {e : ℝ} (he0 : 0.4 < e) (he1 : e < 0.6) (h : mkOrbitalBody 1 ⟨1, 1, 1⟩
      { semimajor := some 10, eccentricity := some e, sin_omega_peri := some 0.6, cos_omega_peri := some 0.8, impact_param := some 0.5, mass := some 0.1,
        asc_node := some 1 } = .ok o) :
    RegularOrbit ⟨1, 1, 1⟩ o true ∧ o.ecc = some ⟨e, 0.6, 0.8⟩ ∧ |o.cos_inclination| ≤ 1 ∧ |o.sin_inclination| ≤ 1 ∧ o.node = some (sin 1, cos 1) := by
  obtain ⟨-, p0, a0, k0, hps, hec, rfl⟩ := mkOrbitalBody_ok h
  simp only [periodSemimajor, totalMass, Except.ok.injEq, Prod.mk.injEq] at hps
  simp only [eccOf, Except.ok.injEq] at hec
  obtain ⟨rfl, rfl⟩ := hps
  subst hec
  have h1 : 0 < 1 - e ^ 2 := by nlinarith
  have hc : |(1 + e * 0.6) / (1 - e ^ 2) * 1 / 10 * 0.5| < 1 := by
    have : (1 + e * 0.6) / (1 - e ^ 2) ≤ 1.36 / 0.64 := by gcongr <;> nlinarith
    have h0 : 0 ≤ (1 + e * 0.6) / (1 - e ^ 2) := by positivity
    rw [abs_of_nonneg (by positivity)]
    linarith
  have hc2 : ((1 + e * 0.6) / (1 - e ^ 2) * 1 / 10 * 0.5) ^ 2 < 1 := by rw [sq_lt_one_iff_abs_lt_one]; exact hc
  refine ⟨⟨?_, ?_, by norm_num, ?_, ?_, fun _ => hc2⟩, rfl, hc.le, ?_, rfl⟩
  · change 0 < 2 * π * 10 * √(10 / (1 * (0.1 + 1)))
    positivity
  · change (0 : ℝ) < 10
    norm_num
  · intro k hk
    obtain rfl : (⟨e, 0.6, 0.8⟩ : Ecc) = k := Option.some.inj hk
    exact ⟨by linarith, by linarith, by norm_num⟩
  · intro k hk
    obtain rfl : (⟨e, 0.6, 0.8⟩ : Ecc) = k := Option.some.inj hk
    norm_num
  · change |√(1 - ((1 + e * 0.6) / (1 - e ^ 2) * 1 / 10 * 0.5) ^ 2)| ≤ 1
    rw [abs_of_nonneg (sqrt_nonneg _), sqrt_le_left (by norm_num)]
    linarith [sq_nonneg ((1 + e * 0.6) / (1 - e ^ 2) * 1 / 10 * 0.5)]

/-- non-vacuity of C111: the derivative with respect to the time of a planet with eccentricity one half -/
example (time : ℝ) : ∃ kep o, ExactNear kep ∧ mkOrbitalBody 1 ⟨1, 1, 1⟩
      { semimajor := some 10, eccentricity := some 0.5, sin_omega_peri := some 0.6, cos_omega_peri := some 0.8, impact_param := some 0.5, mass := some 0.1,
        asc_node := some 1 } = .ok o ∧ ∃ (oD : OrbitalBodyD) (v : V3), o.relative_velocity kep 1 time = .ok v ∧ ∃ d, (oD.relative_position Kepler.kepler 1 ⟨time, some 1⟩).x.d = some d ∧
      |d - v.x| ≤ 3.4e-11 * (o.semimajor * (2 * π / o.period)) / ((1 - 0.5 ^ 2) ^ (1.5 : ℝ) * (1 - 0.5) ^ 2) := by
  obtain ⟨kep, hkep⟩ := exists_exactNear
  obtain ⟨o, h, -⟩ := example_orbit
  obtain ⟨hreg, he, hc, hs, hn⟩ := example_angles (by norm_num) (by norm_num) h
  obtain ⟨oD, v, -, h2, w, hw, -, -, hb⟩ := time_derivative_accurate hkep 1 1 ⟨1, 1, 1⟩ _ h hreg rfl rfl he hc hs
    (fun n hn' => by rw [hn] at hn'; obtain rfl := Option.some.inj hn'; exact ⟨abs_sin_le_one _, abs_cos_le_one _⟩) time
  exact ⟨kep, o, hkep, h, oD, v, h2, w.x, hw, hb _ (by simp)⟩

/-- non-vacuity of C111: the derivative with respect to the eccentricity, on which the inclination depends -/
example (time : ℝ) : ∃ kep, ExactNear kep ∧ ∃ (O : ℝ → OrbitalBody) (oD : OrbitalBodyD) (B : ℝ),
    DerivWithin B (fun s => (O s).relative_position kep 1 time) 0.5 (oD.relative_position Kepler.kepler 1 (LimbDark.input 0.5 fun _ => time)) := by
  obtain ⟨kep, hkep⟩ := exists_exactNear
  obtain ⟨o, h, -⟩ := example_orbit
  obtain ⟨hreg, -, hc, hs, hn⟩ := example_angles (by norm_num) (by norm_num) h
  let body : Body (ℝ → ℝ) :=
    { semimajor := some (fun _ => 10), eccentricity := some (fun s => s), sin_omega_peri := some (fun _ => 0.6), cos_omega_peri := some (fun _ => 0.8),
      impact_param := some (fun _ => 0.5), mass := some (fun _ => 0.1), asc_node := some (fun _ => 1) }
  have hex : ∀ s, ∃ o, mkOrbitalBody 1 ⟨1, 1, 1⟩ (body.map (· s)) = .ok o := fun s =>
    mkOrbitalBody_of_accepted 1 ⟨1, 1, 1⟩ (by constructor <;> simp [Given, ScalarIfGiven, body, Body.map])
  choose O hO using hex
  have hOt : O 0.5 = o := Except.ok.inj ((hO 0.5).symm.trans h)
  have hecc : ∀ s, (O s).ecc = some ⟨s, 0.6, 0.8⟩ := by
    intro s
    obtain ⟨-, p0, a0, k0, hps, hec, hh⟩ := mkOrbitalBody_ok (hO s)
    rw [hh]
    exact (Except.ok.inj hec).symm
  have hnode : ∀ s, (O s).node = some (sin 1, cos 1) := by
    intro s
    obtain ⟨-, p0, a0, k0, hps, hec, hh⟩ := mkOrbitalBody_ok (hO s)
    rw [hh]
    rfl
  obtain ⟨oD, -, hD⟩ := position_gradient_accurate 1 1 (t := 0.5) (fun _ => 1) (fun _ => 1) (fun _ => 1) body (differentiableAt_const _) (differentiableAt_const _)
    (by intro a ha; simp [Body.args, body] at ha; rcases ha with rfl | rfl | rfl | rfl | rfl | rfl | rfl <;> first | exact differentiableAt_id | exact differentiableAt_const _)
    hO (by rw [hOt]; exact hreg) rfl (time := fun _ => time) (differentiableAt_const _) (e := fun s => s) (sw := fun _ => 0.6) (cw := fun _ => 0.8) hecc
    (τ := max |deriv (fun s => (O s).cos_inclination) 0.5| |deriv (fun s => (O s).sin_inclination) 0.5|)
    ⟨⟨by rw [hOt]; exact hc, le_max_left _ _⟩, ⟨by rw [hOt]; exact hs, le_max_right _ _⟩, by simp, by simp, by
      intro n hn
      have hc : n = fun _ => (sin 1, cos 1) := funext fun s => Option.some.inj ((hn s).symm.trans (hnode s))
      subst hc
      simp [abs_sin_le_one, abs_cos_le_one]⟩ hkep
  exact ⟨kep, hkep, O, oD, _, hD⟩

/-- the radial velocity of the star is near in value and derivative -/
theorem radial_near {kep : ℝ → ℝ → ℝ × ℝ} (hkep : ExactNear kep) (au : ℝ) {oD : OrbitalBodyD} {k : EccD} (hk : oD.ecc = some k) {τ : ℝ} (hτ0 : 0 ≤ τ) (hT : Turns τ oD)
    {T : Dual} {μ ε : ℝ} (hM : (oD.meanAnomaly T).d = some μ) (he : k.e.d = some ε) (he0 : 0 ≤ k.e.v) (he1 : k.e.v < 1) {A B α : ℝ}
    (ha : (oD.k0 au oD.mass none none).d = some α) (hA : |(oD.k0 au oD.mass none none).v| ≤ A) (hB : |α| ≤ B) :
    NearD (4 * (A * 1.3e-13)) (4 * (A * (1.3e-13 * (8 * (|μ| / (1 - k.e.v ^ 2) ^ (1.5 : ℝ)) + 7 * (|ε| / (1 - k.e.v ^ 2)))) + B * 1.3e-13) + 12 * τ * (A * 1.3e-13))
      (oD.radial_velocity Kepler.kepler au T) (oD.radial_velocity kep au T) := by
  obtain ⟨s, c, ds, dc, s', c', ds', dc', e1, e2, bs, bc, bs', bc', hs, hc, Hs, Hc, Ts, Tc⟩ := anomaly_near hkep hM he he0 he1
  have hA0 : 0 ≤ A := (abs_nonneg _).trans hA
  have hB0 : 0 ≤ B := (abs_nonneg _).trans hB
  have h0 : 0 ≤ |μ| / (1 - k.e.v ^ 2) ^ (1.5 : ℝ) := div_nonneg (abs_nonneg _) (Real.rpow_nonneg (by nlinarith) _)
  have h1 : 0 ≤ |ε| / (1 - k.e.v ^ 2) := div_nonneg (abs_nonneg _) (by nlinarith)
  have hxs : NearD 1.3e-13 (1.3e-13 * (8 * (|μ| / (1 - k.e.v ^ 2) ^ (1.5 : ℝ)) + 7 * (|ε| / (1 - k.e.v ^ 2)))) ⟨s, some ds⟩ ⟨s', some ds'⟩ :=
    ⟨hs, _, _, rfl, rfl, Ts⟩
  have hxc : NearD 1.3e-13 (1.3e-13 * (8 * (|μ| / (1 - k.e.v ^ 2) ^ (1.5 : ℝ)) + 7 * (|ε| / (1 - k.e.v ^ 2)))) (⟨c, some dc⟩ + k.e) (⟨c', some dc'⟩ + k.e) := by
    have : NearD 0 0 k.e k.e := ⟨by simp, ε, ε, he, he, by simp⟩
    have h := nearD_add (a := ⟨c, some dc⟩) (b := ⟨c', some dc'⟩) ⟨hc, _, _, rfl, rfl, Tc⟩ this
    rwa [add_zero, add_zero] at h
  have hna : (-(oD.k0 au oD.mass none none)).d = some (-1 * α) := by
    change lin (some (-1)) (oD.k0 au oD.mass none none).d = _
    rw [ha]; rfl
  have hx := nearD_scale hna (A := A) (B := B) (by rwa [neg_v, abs_neg]) (by rwa [neg_one_mul, abs_neg]) hxs
  have hy := nearD_scale ha hA hB hxc
  have key : ∀ i, _ := rotate_near (by positivity) (by positivity) hτ0 hT hx hy
  have hrv : ∀ q, oD.radial_velocity q au T =
      -(oD.rotateVector (-(oD.k0 au oD.mass none none) * (keplerD q (oD.meanAnomaly T) k.e).1)
        (oD.k0 au oD.mass none none * ((keplerD q (oD.meanAnomaly T) k.e).2 + k.e)) oD.radial_velocity_semiamplitude.isNone).z := by
    intro q
    simp only [OrbitalBodyD.radial_velocity, OrbitalBodyD.central_velocity, OrbitalBodyD.posVel, OrbitalBodyD.trueAnomaly, hk, v2D, Option.orElse_none]
  rw [hrv, hrv, e1, e2]
  exact nearD_neg (key _).z

/-- C111: the derivatives of the radial velocity of the star, for the same orbits. The semi-amplitude is given or follows from the mass of the body. -/
theorem radial_velocity_gradient_accurate (G au : ℝ) {t : ℝ} (mass radius density : ℝ → ℝ) (body : Body (ℝ → ℝ))
    (hc : DifferentiableAt ℝ mass t) (hr : DifferentiableAt ℝ radius t) (hb : ∀ a, some a ∈ body.args → DifferentiableAt ℝ a t)
    {O : ℝ → OrbitalBody} (hO : ∀ s, mkOrbitalBody G ⟨mass s, radius s, density s⟩ (body.map (· s)) = .ok (O s))
    (hreg : RegularOrbit ⟨mass t, radius t, density t⟩ (O t) body.impact_param.isSome)
    {time : ℝ → ℝ} (ht : DifferentiableAt ℝ time t) {e sw cw : ℝ → ℝ} (hecc : ∀ s, (O s).ecc = some ⟨e s, sw s, cw s⟩) {τ : ℝ}
    (hτ : TurnsAtMost O sw cw t τ) {kep : ℝ → ℝ → ℝ × ℝ} (hkep : ExactNear kep) :
    ∃ oD, mkOrbitalBodyD G ⟨LimbDark.input t mass, LimbDark.input t radius⟩ (body.map (LimbDark.input t)) = .ok oD ∧
      ∃ v w, HasDerivAt (fun s => (O s).radial_velocity kep au (time s)) v t ∧ (oD.radial_velocity Kepler.kepler au (LimbDark.input t time)).d = some w ∧
        |w - v| ≤ 1.3e-13 * (|amplitude au (O t) (O t).mass none none| *
            (32 * (|deriv (fun s => (O s).meanAnomaly (time s)) t| / (1 - e t ^ 2) ^ (1.5 : ℝ)) + 28 * (|deriv e t| / (1 - e t ^ 2)) + 12 * τ) +
          4 * |deriv (fun s => amplitude au (O s) (O s).mass none none) t|) := by
  obtain ⟨oD, h1, h4⟩ := exists_trOrbit G mass radius density body hc hr hb hO hreg
  refine ⟨oD, h1, ?_⟩
  have htk := LimbDark.track_input ht
  have hv := hreg.ecc
  have hMt := total_mass_ne (hO t) hreg.period hreg.semimajor
  obtain ⟨he0, he1, hw1⟩ := hv _ (hecc t)
  simp only at he0 he1 hw1
  obtain ⟨k, hk, hE, hT⟩ := turns_of_orbit h4 hecc hw1 hτ
  obtain ⟨hev, ε, heD, heH⟩ := hE
  obtain ⟨-, μ, hMd, hMH⟩ := h4.meanAnomaly hreg.period.ne' htk
  obtain ⟨hav, α, haD, haH⟩ := h4.amplitude (R := Starry.Tk t) hreg.period.ne' hMt hv au h4.mass (trOpt_none _) (trOpt_none _) 
  have hτ0 : 0 ≤ τ := (abs_nonneg _).trans hτ.cosi.2
  rw [heH.deriv, hMH.deriv, haH.deriv]
  have hev' : e t = k.e.v := hev
  have hav' : amplitude au (O t) (O t).mass none none = (oD.k0 au oD.mass none none).v := hav
  rw [hev'] at he0 he1 ⊢
  rw [hav']
  have hnear := radial_near hkep au hk hτ0 hT hMd heD he0 he1 haD le_rfl le_rfl
  have hout := (h4.outputs (kepRel_tracks t hkep) hkep.unit hreg.period.ne' hMt hv au htk (trOpt_none _) (trOpt_none _)).radial_velocity
  obtain ⟨-, v, hvd, hvD⟩ := hout
  obtain ⟨-, w, v', hw, hv', hB⟩ := hnear
  rw [hvd] at hv'
  obtain rfl := Option.some.inj hv'
  refine ⟨v, w, hvD, hw, hB.trans (le_of_eq ?_)⟩
  ring

end Jaxoplanet.Keplerian
