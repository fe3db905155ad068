import Verif.Proofs.OrbitGrad
import Verif.Props.LimbDarkDeriv

/-!
# C94: the derivatives of Keplerian orbits

`jax.grad` / `jax.jvp` / `jax.vjp` through `Body`, `OrbitalBody`, `relative_position`, `position`, `central_position`, `relative_angles`, `velocity`,
`central_velocity`, `relative_velocity` and `radial_velocity`: the derivatives with respect to all parameters and to time are finite and are the
derivatives of those functions, also for zero eccentricity, except if the argument of periastron is exactly `-π/2`.
-/

namespace Jaxoplanet.Keplerian
open Real Spec AD AD.Dual Filter Topology

/-- a function that returns a vector or raises an exception: it returns a vector for every value of the parameter if it does at `t`, also on numbers
with derivatives, and these are related by `R` -/
def TrRes (R : (ℝ → ℝ) → Dual → Prop) (t : ℝ) (F : ℝ → Except PyErr V3) (v : Except PyErr V3D) : Prop :=
  ∀ w, F t = .ok w → ∃ G vD, (∀ s, F s = .ok (G s)) ∧ v = .ok vD ∧ TrV R G vD

/-- all outputs of an orbit `O s` at the time `f s` with the optional arguments `parallax = p s` and `semiamplitude = K s`, and the outputs on numbers
with derivatives, are related by `R` -/
structure OrbitOutputs (R : (ℝ → ℝ) → Dual → Prop) (t : ℝ) (kep : ℝ → ℝ → ℝ × ℝ) (au : ℝ) (O : ℝ → OrbitalBody) (o : OrbitalBodyD) (f : ℝ → ℝ) (tD : Dual)
    (p : ℝ → Option ℝ) (pD : Option Dual) (K : ℝ → Option ℝ) (KD : Option Dual) : Prop where
  central_radius : R (fun s => (O s).central.radius) o.central.radius
  relative_position : TrV R (fun s => (O s).relative_position kep au (f s) (p s)) (o.relative_position kep au tD pD)
  position : TrV R (fun s => (O s).position kep au (f s) (p s)) (o.position kep au tD pD)
  central_position : TrRes R t (fun s => (O s).central_position kep au (f s) (p s)) (o.central_position kep au tD pD)
  separation : (((O t).relative_position kep au (f t) (p t)).x ≠ 0 ∨ ((O t).relative_position kep au (f t) (p t)).y ≠ 0) →
    R (fun s => ((O s).relative_angles kep au (f s) (p s)).1) (o.relative_angles kep au tD pD).1
  position_angle : (0 < ((O t).relative_position kep au (f t) (p t)).x ∨ ((O t).relative_position kep au (f t) (p t)).y ≠ 0) →
    R (fun s => ((O s).relative_angles kep au (f s) (p s)).2) (o.relative_angles kep au tD pD).2
  central_velocity : TrV R (fun s => (O s).central_velocity kep au (f s) (K s)) (o.central_velocity kep au tD KD)
  radial_velocity : R (fun s => (O s).radial_velocity kep au (f s) (K s)) (o.radial_velocity kep au tD KD)
  velocity : ((K t).isNone ∨ (O t).mass ≠ some 0) → TrRes R t (fun s => (O s).velocity kep au (f s) (K s)) (o.velocity kep au tD KD)
  relative_velocity : ((K t).isNone ∨ (O t).mass ≠ some 0) →
    TrRes R t (fun s => (O s).relative_velocity kep au (f s) (K s)) (o.relative_velocity kep au tD KD)

theorem trOpt_some {R : (ℝ → ℝ) → Dual → Prop} {f : ℝ → ℝ} {a : Dual} (h : R f a) : TrOpt R (fun s => some (f s)) (some a) := ⟨f, fun _ => rfl, h⟩

theorem trOpt_none (R : (ℝ → ℝ) → Dual → Prop) : TrOpt R (fun _ => none) none := fun _ => rfl

theorem TrOrbit.outputs {t : ℝ} {R : (ℝ → ℝ) → Dual → Prop} [hR : OrbitRel t R] {O : ℝ → OrbitalBody} {o : OrbitalBodyD} (h : TrOrbit R O o)
    {kep : ℝ → ℝ → ℝ × ℝ} (hkep : KepRel kep R) (hu : UnitInRange kep)
    (hp : (O t).period ≠ 0) (hm : (O t).total_mass ≠ 0) (hv : ValidEcc (O t).ecc) (au : ℝ) {f : ℝ → ℝ} {tD : Dual} (hf : R f tD)
    {p K : ℝ → Option ℝ} {pD KD : Option Dual} (hpr : TrOpt R p pD) (hK : TrOpt R K KD) : OrbitOutputs R t kep au O o f tD p pD K KD := by
  have ht : R (fun s => (O s).total_mass) o.total_mass := trTotalMass h.cmass h.mass
  have htv : o.total_mass.v ≠ 0 := by rw [← hR.val ht]; exact hm
  have hn := trOpt_none R
  have hrel : TrV R (fun s => (O s).relative_position kep au (f s) (p s)) (o.relative_position kep au tD pD) := (h.posVel hkep hu hp hm hv au hf (trOpt_some (hR.neg h.semimajor)) hn hn hpr).1
  have hcv : TrV R (fun s => (O s).central_velocity kep au (f s) (K s)) (o.central_velocity kep au tD KD) := by
    unfold OrbitalBody.central_velocity OrbitalBodyD.central_velocity
    cases KD with
    | none =>
      simp only [show ∀ s, K s = none from hK]
      exact (h.posVel hkep hu hp hm hv au hf hn h.mass hn hn).2
    | some k =>
      obtain ⟨g, hg, hgr⟩ := hK
      simp only [hg]
      exact (h.posVel hkep hu hp hm hv au hf hn hn (trOpt_some hgr) hn).2
  have hmass := h.mass
  refine ⟨h.cradius, hrel, (h.posVel hkep hu hp hm hv au hf (trOpt_some (hR.div (hR.mul (hR.neg h.semimajor) h.cmass) ht htv)) hn hn hpr).1, ?_, ?_, ?_, hcv,
    hR.neg hcv.z, ?_, ?_⟩
  · intro w hw
    unfold OrbitalBody.central_position at hw ⊢
    unfold OrbitalBodyD.central_position
    cases hm' : o.mass with
    | none =>
      rw [hm'] at hmass
      simp only [show ∀ s, (O s).mass = none from hmass, reduceCtorEq] at hw
    | some m =>
      rw [hm'] at hmass
      obtain ⟨g, hg, hgr⟩ := hmass
      simp only [hg]
      exact ⟨_, _, fun _ => rfl, rfl, (h.posVel hkep hu hp hm hv au hf (trOpt_some (hR.div (hR.mul h.semimajor hgr) ht htv)) hn hn hpr).1⟩
  · intro h0
    have hs := hR.add (hR.square hrel.x) (hR.square hrel.y)
    refine hR.sqrt hs ?_
    rw [← hR.val hs]
    rcases h0 with h0 | h0
    · exact add_pos_of_pos_of_nonneg (pow_pos (abs_pos.2 h0) 2 |>.trans_eq (sq_abs _)) (sq_nonneg _)
    · exact add_pos_of_nonneg_of_pos (sq_nonneg _) (pow_pos (abs_pos.2 h0) 2 |>.trans_eq (sq_abs _))
  · intro h0
    refine hR.atan2 hrel.y hrel.x ?_
    rw [← hR.val hrel.y, ← hR.val hrel.x]
    exact h0
  all_goals
    intro h0 w hw
    first | unfold OrbitalBody.velocity at hw ⊢ | unfold OrbitalBody.relative_velocity at hw ⊢
    first | unfold OrbitalBodyD.velocity | unfold OrbitalBodyD.relative_velocity
    cases KD with
    | none =>
      simp only [show ∀ s, K s = none from hK]
      first
        | exact ⟨_, _, fun _ => rfl, rfl, (h.posVel hkep hu hp hm hv au hf hn (trOpt_some (hR.neg h.cmass)) hn hn).2⟩
        | exact ⟨_, _, fun _ => rfl, rfl, (h.posVel hkep hu hp hm hv au hf hn (trOpt_some (hR.neg ht)) hn hn).2⟩
    | some k =>
      obtain ⟨g, hg, hgr⟩ := hK
      simp only [hg] at hw h0 ⊢
      cases hm' : o.mass with
      | none =>
        rw [hm'] at hmass
        simp only [show ∀ s, (O s).mass = none from hmass, reduceCtorEq] at hw
      | some m =>
        rw [hm'] at hmass
        obtain ⟨q, hq, hqr⟩ := hmass
        have hq' : ∀ s, (O s).mass = some (q s) := hq
        simp only [hq'] at h0 ⊢
        have hm0 : m.v ≠ 0 := by
          rw [← hR.val hqr]
          intro hz
          rcases h0 with h0 | h0
          · simp at h0
          · exact h0 (by rw [hz])
        first
          | exact ⟨_, _, fun _ => rfl, rfl, (h.posVel hkep hu hp hm hv au hf hn hn (trOpt_some (hR.div (hR.mul (hR.neg hgr) h.cmass) hqr hm0)) hn).2⟩
          | exact ⟨_, _, fun _ => rfl, rfl, (h.posVel hkep hu hp hm hv au hf hn hn (trOpt_some (hR.div (hR.mul (hR.neg hgr) ht) hqr hm0)) hn).2⟩

/-- a positive period and semimajor axis need a mass -/
theorem total_mass_ne {G : ℝ} {c : Central} {b : Body ℝ} {o : OrbitalBody} (h : mkOrbitalBody G c b = .ok o) (hp : 0 < o.period) (ha : 0 < o.semimajor) :
    o.total_mass ≠ 0 := by
  obtain ⟨-, p0, a0, k0, hps, hec, rfl⟩ := mkOrbitalBody_ok h
  change totalMass c b.mass ≠ 0
  replace hp : 0 < p0 := hp
  replace ha : 0 < a0 := ha
  intro h0
  unfold periodSemimajor at hps
  rw [h0, mul_zero] at hps
  cases hs : b.semimajor <;> cases hq : b.period <;> simp [hs, hq] at hps
  · obtain ⟨-, h2⟩ := hps
    rw [cbrt, if_pos le_rfl, Real.zero_rpow (by norm_num)] at h2
    linarith
  · linarith [hps.1]

/-- C94: the derivatives of an orbit are finite. The values of the arguments of `Body` are `a.v` for the numbers with derivatives `a`. -/
theorem orbit_derivatives_finite {kep : ℝ → ℝ → ℝ × ℝ} (hkep : UnitSolver kep) (G au : ℝ) (central : CentralD) (body : Body Dual)
    (hc : ∃ d, central.mass.d = some d) (hr : ∃ d, central.radius.d = some d) (hb : ∀ a, some a ∈ body.args → ∃ d, a.d = some d)
    {density : ℝ} {o : OrbitalBody} (h : mkOrbitalBody G ⟨central.mass.v, central.radius.v, density⟩ (body.map (·.v)) = .ok o)
    (hreg : RegularOrbit ⟨central.mass.v, central.radius.v, density⟩ o body.impact_param.isSome) (time : Dual) (ht : ∃ d, time.d = some d)
    (parallax semiamplitude : Option Dual) (hpar : ∀ a, parallax = some a → ∃ d, a.d = some d) (hK : ∀ a, semiamplitude = some a → ∃ d, a.d = some d) :
    ∃ oD, mkOrbitalBodyD G central body = .ok oD ∧
      OrbitOutputs (fun f a => f 0 = a.v ∧ ∃ d, a.d = some d) 0 kep au (fun _ => o) oD (fun _ => time.v) time (fun _ => parallax.map (·.v)) parallax
        (fun _ => semiamplitude.map (·.v)) semiamplitude := by
  let P : Body ((ℝ → ℝ) × Dual) := body.map fun a => (fun _ => a.v, a)
  have hP : ∀ q, some q ∈ P.args → FinV 0 q.1 q.2 := by
    intro q hq
    have : ∃ a, some a ∈ body.args ∧ q = (fun _ => a.v, a) := by
      simp only [P, Body.map, Body.args, List.mem_cons, List.not_mem_nil, or_false] at hq ⊢
      rcases hq with hq | hq | hq | hq | hq | hq | hq | hq | hq | hq | hq | hq | hq | hq | hq | hq | hq <;>
        (obtain ⟨a, ha, he⟩ := Option.map_eq_some_iff.1 hq.symm; exact ⟨a, by simp [ha], he.symm⟩)
    obtain ⟨a, ha, rfl⟩ := this
    exact ⟨rfl, hb a ha⟩
  have e1 : ∀ s : ℝ, (P.map fun q => q.1 s) = body.map (·.v) := fun s => by simp [P, Body.map, Function.comp_def]
  have e2 : P.map Prod.snd = body := by simp [P, Body.map, Function.comp_def]
  obtain ⟨O, oD, h1, h2, h3, h4⟩ := trInit (R := FinV 0) (G := G) (c := fun _ => ⟨central.mass.v, central.radius.v, density⟩) (cD := central) (P := P) hP
    ⟨rfl, hc⟩ ⟨rfl, hr⟩ (by rw [e1]; exact h) (by simpa [P, Body.map] using hreg)
  rw [e2] at h1
  have hO : O = fun _ => o := by
    funext s
    have := h2 s
    rw [e1, h] at this
    exact (Except.ok.inj this).symm
  rw [hO] at h4
  refine ⟨oD, h1, h4.outputs (kepRel_fin 0 kep) (fun M e _ _ => hkep M e) hreg.period.ne' (total_mass_ne h hreg.period hreg.semimajor) hreg.ecc au ⟨rfl, ht⟩ ?_ ?_⟩
  · cases parallax with
    | none => exact fun _ => rfl
    | some a => exact ⟨fun _ => a.v, fun _ => rfl, rfl, hpar a rfl⟩
  · cases semiamplitude with
    | none => exact fun _ => rfl
    | some a => exact ⟨fun _ => a.v, fun _ => rfl, rfl, hK a rfl⟩

/-- C94: the derivatives of an orbit are its derivatives. The arguments are differentiable functions of a parameter. -/
theorem orbit_derivatives_correct {kep : ℝ → ℝ → ℝ × ℝ} (hkep : ExactNear kep) (G au : ℝ) {t : ℝ} (mass radius density : ℝ → ℝ) (body : Body (ℝ → ℝ))
    (hc : DifferentiableAt ℝ mass t) (hr : DifferentiableAt ℝ radius t) (hb : ∀ a, some a ∈ body.args → DifferentiableAt ℝ a t)
    {o : OrbitalBody} (h : mkOrbitalBody G ⟨mass t, radius t, density t⟩ (body.map (· t)) = .ok o)
    (hreg : RegularOrbit ⟨mass t, radius t, density t⟩ o body.impact_param.isSome) {time : ℝ → ℝ} (ht : DifferentiableAt ℝ time t)
    (parallax semiamplitude : Option (ℝ → ℝ)) (hpar : ∀ a, parallax = some a → DifferentiableAt ℝ a t)
    (hK : ∀ a, semiamplitude = some a → DifferentiableAt ℝ a t) :
    ∃ O oD, (∀ s, mkOrbitalBody G ⟨mass s, radius s, density s⟩ (body.map (· s)) = .ok (O s)) ∧ O t = o ∧
      mkOrbitalBodyD G ⟨LimbDark.input t mass, LimbDark.input t radius⟩ (body.map (LimbDark.input t)) = .ok oD ∧
      OrbitOutputs (fun f a => Tracks f t a) t kep au O oD time (LimbDark.input t time) (fun s => parallax.map (· s)) (parallax.map (LimbDark.input t))
        (fun s => semiamplitude.map (· s)) (semiamplitude.map (LimbDark.input t)) := by
  let P : Body ((ℝ → ℝ) × Dual) := body.map fun a => (a, LimbDark.input t a)
  have hP : ∀ q, some q ∈ P.args → Starry.Tk t q.1 q.2 := by
    intro q hq
    have : ∃ a, some a ∈ body.args ∧ q = (a, LimbDark.input t a) := by
      simp only [P, Body.map, Body.args, List.mem_cons, List.not_mem_nil, or_false] at hq ⊢
      rcases hq with hq | hq | hq | hq | hq | hq | hq | hq | hq | hq | hq | hq | hq | hq | hq | hq | hq <;>
        (obtain ⟨a, ha, he⟩ := Option.map_eq_some_iff.1 hq.symm; exact ⟨a, by simp [ha], he.symm⟩)
    obtain ⟨a, ha, rfl⟩ := this
    exact LimbDark.track_input (hb a ha)
  have e1 : ∀ s : ℝ, (P.map fun q => q.1 s) = body.map (· s) := fun s => by simp [P, Body.map, Function.comp_def]
  have e2 : P.map Prod.snd = body.map (LimbDark.input t) := by simp [P, Body.map, Function.comp_def]
  obtain ⟨O, oD, h1, h2, h3, h4⟩ := trInit (R := Starry.Tk t) (G := G) (c := fun s => ⟨mass s, radius s, density s⟩)
    (cD := ⟨LimbDark.input t mass, LimbDark.input t radius⟩) (P := P) hP
    (LimbDark.track_input hc) (LimbDark.track_input hr) (by rw [e1]; exact h) (by simpa [P, Body.map] using hreg)
  rw [e2] at h1
  subst h3
  refine ⟨O, oD, fun s => by rw [← e1]; exact h2 s, rfl, h1, h4.outputs (kepRel_tracks t hkep) hkep.unit hreg.period.ne'
    (total_mass_ne h hreg.period hreg.semimajor) hreg.ecc au (LimbDark.track_input ht) ?_ ?_⟩
  · cases parallax with
    | none => exact fun _ => rfl
    | some a => exact ⟨a, fun _ => rfl, LimbDark.track_input (hpar a rfl)⟩
  · cases semiamplitude with
    | none => exact fun _ => rfl
    | some a => exact ⟨a, fun _ => rfl, LimbDark.track_input (hK a rfl)⟩

/-- The derivative of `relative_position` with respect to time is what `relative_velocity` returns, and that of `position` what `velocity` returns -/
theorem orbit_time_derivative {kep : ℝ → ℝ → ℝ × ℝ} (hkep : ExactNear kep) (G au : ℝ) (c : Central) (body : Body ℝ) {o : OrbitalBody}
    (h : mkOrbitalBody G c body = .ok o) (hreg : RegularOrbit c o body.impact_param.isSome) (hK : body.radial_velocity_semiamplitude = none) (time : ℝ) :
    ∃ oD v w, mkOrbitalBodyD G ⟨const c.mass, const c.radius⟩ (body.map const) = .ok oD ∧
      o.relative_velocity kep au time = .ok v ∧ o.velocity kep au time = .ok w ∧
      ((oD.relative_position kep au ⟨time, some 1⟩).x.d = some v.x ∧ (oD.relative_position kep au ⟨time, some 1⟩).y.d = some v.y ∧
        (oD.relative_position kep au ⟨time, some 1⟩).z.d = some v.z) ∧
      ((oD.position kep au ⟨time, some 1⟩).x.d = some w.x ∧ (oD.position kep au ⟨time, some 1⟩).y.d = some w.y ∧
        (oD.position kep au ⟨time, some 1⟩).z.d = some w.z) := by
  have hin : ∀ a : ℝ, LimbDark.input time (fun _ => a) = const a := by
    intro a
    simp [LimbDark.input, const]
  have hid : LimbDark.input time (fun s => s) = ⟨time, some 1⟩ := by
    simp [LimbDark.input]
  have e1 : ∀ s : ℝ, (body.map fun a => fun _ : ℝ => a).map (· s) = body := fun s => by simp [Body.map, Function.comp_def]
  have e2 : (body.map fun a => fun _ : ℝ => a).map (LimbDark.input time) = body.map const := by simp [Body.map, Function.comp_def, hin]
  obtain ⟨O, oD, h1, h2, h3, h4⟩ := orbit_derivatives_correct hkep G au (t := time) (fun _ => c.mass) (fun _ => c.radius) (fun _ => c.density)
    (body.map fun a => fun _ => a) (differentiableAt_const _) (differentiableAt_const _) (by
      intro a ha
      have : ∃ x : ℝ, a = fun _ => x := by
        simp only [Body.map, Body.args, List.mem_cons, List.not_mem_nil, or_false] at ha
        rcases ha with hq | hq | hq | hq | hq | hq | hq | hq | hq | hq | hq | hq | hq | hq | hq | hq | hq <;>
          (obtain ⟨x, -, he⟩ := Option.map_eq_some_iff.1 hq.symm; exact ⟨x, he.symm⟩)
      obtain ⟨x, rfl⟩ := this
      exact differentiableAt_const _) (by rw [e1]; exact h) (by simpa [Body.map] using hreg) (time := fun s => s) differentiableAt_id none none (by simp) (by simp)
  have hO : O = fun _ => o := by
    funext s
    have := h1 s
    rw [e1, h] at this
    exact (Except.ok.inj this).symm
  subst hO
  rw [e2, hin, hin] at h3
  rw [hid] at h4
  have hKo : o.radial_velocity_semiamplitude = none := by
    obtain ⟨-, p0, a0, k0, hps, hec, rfl⟩ := mkOrbitalBody_ok h
    exact hK
  obtain ⟨⟨w, hw, hw'⟩, ⟨v, hv, hv'⟩, -⟩ := velocity_is_derivative hkep.exact au hreg.ecc hKo (total_mass_ne h hreg.period hreg.semimajor) time
  have uniq : ∀ {f : ℝ → ℝ} {a : Dual} {d : ℝ}, Tracks f time a → HasDerivAt f d time → a.d = some d := by
    rintro f a d ⟨-, d', hd', hD⟩ hd
    rw [hd', hD.unique hd]
  have hp := h4.relative_position
  have hq := h4.position
  exact ⟨oD, v, w, h3, hv, hw, ⟨uniq hp.x hv'.1, uniq hp.y hv'.2.1, uniq hp.z hv'.2.2⟩, ⟨uniq hq.x hw'.1, uniq hq.y hw'.2.1, uniq hq.z hw'.2.2⟩⟩

theorem none_neg {a : Dual} (h : a.d = none) : (-a).d = none := by
  change lin (some (-1)) a.d = none
  simp [lin, h]

/-- Finding F43: with `sin_omega_peri = -1` and `cos_omega_peri = 0` (an allowed argument of periastron) all derivatives are lost: positions and
velocities have no finite derivative with respect to any parameter of the orbit, not even if the time of periastron is given and the time of transit, of
which `arctan2(0, 0)` is a part, plays no role -/
theorem orbit_derivatives_lost (kep : ℝ → ℝ → ℝ × ℝ) (G au : ℝ) (central : CentralD) (body : Body Dual) {s c : Dual} {oD : OrbitalBodyD}
    (h : mkOrbitalBodyD G central body = .ok oD) (he : body.eccentricity ≠ none) (hs : body.sin_omega_peri = some s) (hc : body.cos_omega_peri = some c)
    (hw : body.omega_peri = none) (hs1 : s.v = -1) (hc0 : c.v = 0) (time : Dual) (parallax semiamplitude : Option Dual) :
    oD.time_ref.d = none ∧
    ((oD.relative_position kep au time parallax).x.d = none ∧ (oD.relative_position kep au time parallax).y.d = none ∧
      (oD.relative_position kep au time parallax).z.d = none) ∧
    (oD.radial_velocity kep au time semiamplitude).d = none := by
  obtain ⟨e, he⟩ := Option.ne_none_iff_exists'.1 he
  unfold mkOrbitalBodyD Body.create at h
  cases hh : body.checkInit (fun _ => 0) with
  | error e => rw [hh] at h; simp [Except.map, Bind.bind, Except.bind] at h
  | ok u =>
    rw [hh] at h
    simp only [Except.map, Bind.bind, Except.bind, OrbitalBodyD.init] at h
    cases hps : periodSemimajorD G central body with
    | error e => rw [hps] at h; simp at h
    | ok pa =>
      have hec : eccOfD body = .ok (some ⟨e, s, c⟩) := by simp [eccOfD, hw, hs, hc, he]
      simp only [hps, hec, Pure.pure, Except.pure, Except.ok.injEq] at h
      have hk : oD.ecc = some ⟨e, s, c⟩ := by rw [← h]
      have hr : oD.time_ref = -M0ofD (some ⟨e, s, c⟩) * pa.1 / const (2 * π) := by rw [← h]
      have hE : (E0ofD ⟨e, s, c⟩).d = none := by
        refine LimbDark.none_mul_right (LimbDark.none_atan2 ⟨?_, ?_⟩)
        · simp [hc0]
        · simp [hs1]
      have hM0 : (M0ofD (some ⟨e, s, c⟩)).d = none := LimbDark.none_sub_left hE
      have href : oD.time_ref.d = none := by
        rw [hr]
        exact LimbDark.none_div_left (LimbDark.none_mul_left (none_neg hM0))
      have hM : (oD.meanAnomaly time).d = none := LimbDark.none_div_left (LimbDark.none_mul_right (LimbDark.none_sub_right href))
      have hf : (oD.trueAnomaly kep time).1.d = none ∧ (oD.trueAnomaly kep time).2.d = none := by
        unfold OrbitalBodyD.trueAnomaly
        rw [hk]
        simp [keplerD, hM]
      have hrot : ∀ {x y : Dual} (i : Bool), x.d = none → y.d = none →
          (oD.rotateVector x y i).x.d = none ∧ (oD.rotateVector x y i).y.d = none ∧ (oD.rotateVector x y i).z.d = none := by
        intro x y i hx hy
        have h1 : (rotateOmegaD oD.ecc x y).1.d = none := by
          rw [hk]
          exact LimbDark.none_sub_left (LimbDark.none_mul_right hx)
        have h2 : (rotateOmegaD oD.ecc x y).2.d = none := by
          rw [hk]
          exact LimbDark.none_add_left (LimbDark.none_mul_right hx)
        have h3 : ∀ {x y z : Dual}, x.d = none → y.d = none → z.d = none →
            (rotateNodeD oD.node x y z).x.d = none ∧ (rotateNodeD oD.node x y z).y.d = none ∧ (rotateNodeD oD.node x y z).z.d = none := by
          intro x y z hx hy hz
          unfold rotateNodeD
          cases oD.node with
          | none => exact ⟨hx, hy, hz⟩
          | some n => exact ⟨LimbDark.none_sub_left (LimbDark.none_mul_right hx), LimbDark.none_add_left (LimbDark.none_mul_right hx), hz⟩
        unfold OrbitalBodyD.rotateVector
        cases i <;> simp only [if_true, Bool.false_eq_true, if_false]
        · exact h3 h1 h2 (none_neg h2)
        · exact h3 h1 (LimbDark.none_mul_right h2) (LimbDark.none_mul_right h2)
      refine ⟨href, hrot true (LimbDark.none_mul_right hf.2) (LimbDark.none_mul_right hf.1), none_neg ?_⟩
      have hv : ∀ (m K : Option Dual), (oD.posVel kep au time none m K none).2.z.d = none := by
        intro m K
        refine (hrot _ (LimbDark.none_mul_right hf.1) ?_).2.2
        rw [hk]
        exact LimbDark.none_mul_right (LimbDark.none_add_left hf.2)
      unfold OrbitalBodyD.central_velocity
      cases semiamplitude <;> exact hv _ _

/-- an eccentric, tilted orbit -/
theorem example_orbit : ∃ o, mkOrbitalBody 1 ⟨1, 1, 1⟩
      { semimajor := some 10, eccentricity := some 0.5, sin_omega_peri := some 0.6, cos_omega_peri := some 0.8, impact_param := some 0.5, mass := some 0.1,
        asc_node := some 1 } = .ok o ∧ RegularOrbit ⟨1, 1, 1⟩ o true := by
  obtain ⟨o, ho⟩ := mkOrbitalBody_of_accepted 1 ⟨1, 1, 1⟩
    (b := { semimajor := some 10, eccentricity := some 0.5, sin_omega_peri := some 0.6, cos_omega_peri := some 0.8, impact_param := some 0.5, mass := some 0.1,
            asc_node := some 1 }) (by constructor <;> simp [Given, ScalarIfGiven])
  refine ⟨o, ho, ?_⟩
  obtain ⟨-, p0, a0, k0, hps, hec, rfl⟩ := mkOrbitalBody_ok ho
  simp only [periodSemimajor, totalMass, Except.ok.injEq, Prod.mk.injEq] at hps
  simp only [eccOf, Except.ok.injEq] at hec
  obtain ⟨rfl, rfl⟩ := hps
  subst hec
  refine ⟨?_, ?_, ?_, ?_, ?_, fun _ => ?_⟩
  · change 0 < 2 * π * 10 * √(10 / (1 * (0.1 + 1)))
    positivity
  · change (0 : ℝ) < 10
    norm_num
  · norm_num
  · intro k hk
    obtain rfl : (⟨0.5, 0.6, 0.8⟩ : Ecc) = k := Option.some.inj hk
    norm_num
  · intro k hk
    obtain rfl : (⟨0.5, 0.6, 0.8⟩ : Ecc) = k := Option.some.inj hk
    norm_num
  · change ((1 + 0.5 * 0.6) / (1 - 0.5 ^ 2) * 1 / 10 * 0.5 : ℝ) ^ 2 < 1
    norm_num

/-- non-vacuity of C94: the derivatives along one direction of the parameters, with the program's solver -/
example (time : ℝ) : ∃ oD, mkOrbitalBodyD 1 ⟨⟨1, some 1⟩, ⟨1, some 0⟩⟩
      { semimajor := some ⟨10, some 1⟩, eccentricity := some ⟨0.5, some 2⟩, sin_omega_peri := some ⟨0.6, some 0.8⟩, cos_omega_peri := some ⟨0.8, some (-0.6)⟩,
        impact_param := some ⟨0.5, some 3⟩, mass := some ⟨0.1, some 1⟩, asc_node := some ⟨1, some 0⟩ } = .ok oD ∧
      (∃ d, (oD.relative_position Kepler.kepler 1 ⟨time, some 1⟩).x.d = some d) ∧ ∃ d, (oD.radial_velocity Kepler.kepler 1 ⟨time, some 1⟩).d = some d := by
  obtain ⟨o, h, hreg⟩ := example_orbit
  obtain ⟨oD, h1, h2⟩ := orbit_derivatives_finite kepler_unitSolver 1 1 ⟨⟨1, some 1⟩, ⟨1, some 0⟩⟩
    { semimajor := some ⟨10, some 1⟩, eccentricity := some ⟨0.5, some 2⟩, sin_omega_peri := some ⟨0.6, some 0.8⟩, cos_omega_peri := some ⟨0.8, some (-0.6)⟩,
      impact_param := some ⟨0.5, some 3⟩, mass := some ⟨0.1, some 1⟩, asc_node := some ⟨1, some 0⟩ } ⟨_, rfl⟩ ⟨_, rfl⟩
    (by intro a ha; simp [Body.args] at ha; rcases ha with rfl | rfl | rfl | rfl | rfl | rfl | rfl <;> exact ⟨_, rfl⟩) (density := 1) h hreg ⟨time, some 1⟩ ⟨_, rfl⟩ none none
    (by simp) (by simp)
  exact ⟨oD, h1, h2.relative_position.x.2, h2.radial_velocity.2⟩

/-- non-vacuity of the second part of C94: the derivative with respect to the eccentricity -/
example (time : ℝ) : ∃ kep, ExactNear kep ∧ ∃ O : ℝ → OrbitalBody, (∀ s, mkOrbitalBody 1 ⟨1, 1, 1⟩
      { semimajor := some 10, eccentricity := some s, sin_omega_peri := some 0.6, cos_omega_peri := some 0.8, impact_param := some 0.5, mass := some 0.1,
        asc_node := some 1 } = .ok (O s)) ∧ DifferentiableAt ℝ (fun s => ((O s).relative_position kep 1 time).x) 0.5 := by
  obtain ⟨kep, hkep⟩ := exists_exactNear
  obtain ⟨o, h, hreg⟩ := example_orbit
  obtain ⟨O, oD, h1, -, -, h4⟩ := orbit_derivatives_correct hkep 1 1 (t := 0.5) (fun _ => 1) (fun _ => 1) (fun _ => 1)
    { semimajor := some (fun _ => 10), eccentricity := some (fun s => s), sin_omega_peri := some (fun _ => 0.6), cos_omega_peri := some (fun _ => 0.8),
      impact_param := some (fun _ => 0.5), mass := some (fun _ => 0.1), asc_node := some (fun _ => 1) } (differentiableAt_const _) (differentiableAt_const _)
    (by intro a ha; simp [Body.args] at ha; rcases ha with rfl | rfl | rfl | rfl | rfl | rfl | rfl <;> first | exact differentiableAt_id | exact differentiableAt_const _)
    h hreg (time := fun _ => time) (differentiableAt_const _) none none (by simp) (by simp)
  obtain ⟨-, d, -, hd⟩ := h4.relative_position.x
  exact ⟨kep, hkep, O, h1, hd.differentiableAt⟩

/-- the finding is reached -/
example : ∃ oD, mkOrbitalBodyD 1 ⟨const 1, const 1⟩
    { semimajor := some (const 10), eccentricity := some ⟨0.5, some 1⟩, sin_omega_peri := some (const (-1)),
      cos_omega_peri := some (const 0), time_peri := some (const 0) } = .ok oD := ⟨_, rfl⟩

end Jaxoplanet.Keplerian
