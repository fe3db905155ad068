import Verif.Props.Central
import Verif.Proofs.Kepler

/-! Helper lemmas about the construction and evaluation of orbits. -/

namespace Jaxoplanet.Keplerian

open Real Spec

/-- the record built by `OrbitalBody.init` -/
noncomputable def buildOrbit (c : Central) (b : Body ℝ) (P a : ℝ) (ecc : Option Ecc) :
    OrbitalBody :=
  { central := c
    time_ref := -M0of ecc * P / (2 * π)
    time_transit := match b.time_transit, b.time_peri with
      | some t, _ => t
      | none, some tp => tp - (-M0of ecc * P / (2 * π))
      | none, none => 0
    period := P
    semimajor := a
    sin_inclination := (inclOf (inclFactor ecc * c.radius / a) b).2.2
    cos_inclination := (inclOf (inclFactor ecc * c.radius / a) b).2.1
    impact_param := (inclOf (inclFactor ecc * c.radius / a) b).1
    mass := b.mass
    radius := b.radius
    ecc := ecc
    node := nodeOf b
    radial_velocity_semiamplitude := b.radial_velocity_semiamplitude
    parallax := b.parallax }

theorem mkOrbitalBody_ok {G : ℝ} {c : Central} {b : Body ℝ} {o : OrbitalBody}
    (h : mkOrbitalBody G c b = .ok o) :
    AcceptedBody (fun _ => 0) b ∧ ∃ P a ecc, periodSemimajor G c b = .ok (P, a) ∧
      eccOf b = .ok ecc ∧ o = buildOrbit c b P a ecc := by
  unfold mkOrbitalBody at h
  have hacc := body_accepted_iff (fun _ : ℝ => 0) b
  cases hb : Body.create (fun _ : ℝ => 0) b with
  | error e => rw [hb] at h; simp [bind, Except.bind] at h
  | ok b' =>
    have hbb := hacc.2.1 b' hb
    subst hbb
    refine ⟨hacc.1.1 ⟨_, hb⟩, ?_⟩
    rw [hb] at h
    simp only [bind, Except.bind, OrbitalBody.init] at h
    cases hps : periodSemimajor G c b' with
    | error e => rw [hps] at h; simp at h
    | ok pa =>
      rw [hps] at h
      simp only at h
      cases hec : eccOf b' with
      | error e => rw [hec] at h; simp at h
      | ok ecc =>
        rw [hec] at h
        simp only [pure, Except.pure, Except.ok.injEq] at h
        exact ⟨pa.1, pa.2, ecc, rfl, rfl, h.symm⟩

/-- an accepted body always yields an orbit -/
theorem mkOrbitalBody_of_accepted (G : ℝ) (c : Central) {b : Body ℝ}
    (h : AcceptedBody (fun _ => 0) b) : ∃ o, mkOrbitalBody G c b = .ok o := by
  obtain ⟨b', hb⟩ := (body_accepted_iff (fun _ : ℝ => 0) b).1.2 h
  have hbb := (body_accepted_iff (fun _ : ℝ => 0) b).2.1 b' hb
  subst hbb
  unfold mkOrbitalBody
  rw [hb]
  simp only [bind, Except.bind, OrbitalBody.init]
  have hps : ∃ pa, periodSemimajor G c b' = .ok pa := by
    unfold periodSemimajor
    rcases h.exactly_one_period with ⟨⟨P, hP⟩, hs⟩ | ⟨hP, ⟨a, ha⟩⟩
    · have hs' : b'.semimajor = none := by
        cases hq : b'.semimajor with
        | none => rfl
        | some a => exact absurd ⟨a, hq⟩ hs
      rw [hs', hP]; exact ⟨_, rfl⟩
    · have hs' : b'.period = none := by
        cases hq : b'.period with
        | none => rfl
        | some a => exact absurd ⟨a, hq⟩ hP
      rw [hs', ha]; exact ⟨_, rfl⟩
  obtain ⟨pa, hpa⟩ := hps
  have hec : ∃ ecc, eccOf b' = .ok ecc := by
    unfold eccOf
    cases he : b'.eccentricity with
    | none => exact ⟨_, rfl⟩
    | some e =>
      cases hw : b'.omega_peri with
      | some w => exact ⟨_, rfl⟩
      | none =>
        have := h.ecc_iff_omega
        have hpair := h.omega_pair
        rw [he, hw] at this
        have h1 : Given b'.sin_omega_peri ∨ Given b'.cos_omega_peri := by
          have := this.1 ⟨e, rfl⟩
          simpa [Given] using this
        have hs : Given b'.sin_omega_peri := by
          rcases h1 with h | h
          · exact h
          · exact hpair.2 h
        obtain ⟨s, hs'⟩ := hs
        obtain ⟨c', hc'⟩ := hpair.1 ⟨s, hs'⟩
        rw [hs', hc']
        exact ⟨_, rfl⟩
  obtain ⟨ecc, hecc⟩ := hec
  rw [hpa, hecc]
  exact ⟨_, rfl⟩

/-! ### period and semimajor axis -/

theorem cbrt_cube_of_nonneg {x : ℝ} (hx : 0 ≤ x) : cbrt x ^ 3 = x := cbrt_pow hx

theorem kepler3 {G : ℝ} {c : Central} {b : Body ℝ} {P a : ℝ}
    (hGM : 0 < G * totalMass c b.mass) (hP : ∀ P, b.period = some P → 0 < P)
    (ha : ∀ a, b.semimajor = some a → 0 < a) (h : periodSemimajor G c b = .ok (P, a)) :
    4 * π ^ 2 * a ^ 3 = G * totalMass c b.mass * P ^ 2 ∧ 0 < P ∧ 0 < a ∧
    (∀ P', b.period = some P' → P = P') ∧ (∀ a', b.semimajor = some a' → a = a') := by
  unfold periodSemimajor at h
  have hpi := pi_pos
  cases hp : b.period with
  | none =>
    cases hs : b.semimajor with
    | none => rw [hp, hs] at h; simp at h
    | some a0 =>
      rw [hp, hs] at h
      simp only [Except.ok.injEq, Prod.mk.injEq] at h
      obtain ⟨hP', ha'⟩ := h
      have ha0 := ha a0 hs
      subst ha'
      have hsq : 0 < √(a0 / (G * totalMass c b.mass)) := sqrt_pos.2 (by positivity)
      refine ⟨?_, by rw [← hP']; positivity, ha0, by simp, by simp⟩
      have h2 : √(a0 / (G * totalMass c b.mass)) ^ 2 = a0 / (G * totalMass c b.mass) :=
        sq_sqrt (by positivity)
      rw [← hP', mul_pow, h2]
      generalize G * totalMass c b.mass = μ at hGM
      field_simp
      ring
  | some P0 =>
    cases hs : b.semimajor with
    | some a0 => rw [hp, hs] at h; simp at h
    | none =>
      rw [hp, hs] at h
      simp only [Except.ok.injEq, Prod.mk.injEq] at h
      obtain ⟨hP', ha'⟩ := h
      have hP0 := hP P0 hp
      subst hP'
      have hx : 0 < G * totalMass c b.mass * P0 ^ 2 / (4 * π ^ 2) := by positivity
      refine ⟨?_, hP0, by rw [← ha']; exact cbrt_pos hx, by simp, by simp⟩
      rw [← ha', cbrt_pow hx.le]
      field_simp

/-! ### rotation -/

theorem rotateVector_normSq (o : OrbitalBody) (hk : ValidEcc o.ecc) (hn : ValidNode o.node)
    (hi : o.sin_inclination ^ 2 + o.cos_inclination ^ 2 = 1) (x y : ℝ) :
    normSq (o.rotateVector x y) = x ^ 2 + y ^ 2 := by
  unfold OrbitalBody.rotateVector normSq
  cases he : o.ecc with
  | none =>
    cases hnode : o.node with
    | none => simp; linear_combination y ^ 2 * hi
    | some sc =>
      obtain ⟨s, c⟩ := sc
      have := hn s c hnode
      simp
      linear_combination y ^ 2 * hi + (x ^ 2 + (o.cos_inclination * y) ^ 2) * this
  | some k =>
    have hkk := (hk k he).2.2
    cases hnode : o.node with
    | none =>
      simp
      linear_combination (k.sinw * x + k.cosw * y) ^ 2 * hi + (x ^ 2 + y ^ 2) * hkk
    | some sc =>
      obtain ⟨s, c⟩ := sc
      have := hn s c hnode
      simp
      linear_combination (k.sinw * x + k.cosw * y) ^ 2 * hi + (x ^ 2 + y ^ 2) * hkk
        + ((k.cosw * x - k.sinw * y) ^ 2
          + (o.cos_inclination * (k.sinw * x + k.cosw * y)) ^ 2) * this

/-- the rotation is linear: it commutes with scaling -/
theorem rotateVector_smul (o : OrbitalBody) (inc : Bool) (r x y : ℝ) :
    o.rotateVector (r * x) (r * y) inc =
      ⟨r * (o.rotateVector x y inc).x, r * (o.rotateVector x y inc).y,
       r * (o.rotateVector x y inc).z⟩ := by
  unfold OrbitalBody.rotateVector
  cases o.ecc <;> cases o.node <;> cases inc <;> ext <;> simp <;> ring

/-- the rotation as a linear map with constant coefficients -/
theorem rotateVector_linear (o : OrbitalBody) (inc : Bool) (x y : ℝ) :
    o.rotateVector x y inc =
      ⟨(o.rotateVector 1 0 inc).x * x + (o.rotateVector 0 1 inc).x * y,
       (o.rotateVector 1 0 inc).y * x + (o.rotateVector 0 1 inc).y * y,
       (o.rotateVector 1 0 inc).z * x + (o.rotateVector 0 1 inc).z * y⟩ := by
  unfold OrbitalBody.rotateVector
  cases o.ecc <;> cases o.node <;> cases inc <;> ext <;> simp <;> ring

/-! ### evaluation -/

/-- eccentricity as a number -/
def OrbitalBody.eVal (o : OrbitalBody) : ℝ :=
  match o.ecc with
  | none => 0
  | some k => k.e

/-- distance in units of the semimajor axis -/
noncomputable def OrbitalBody.rho (o : OrbitalBody) (cosf : ℝ) : ℝ :=
  (1 - o.eVal ^ 2) / (1 + o.eVal * cosf)

theorem posVel_fst (kep : ℝ → ℝ → ℝ × ℝ) (au : ℝ) (o : OrbitalBody) (t a : ℝ)
    (m K p : Option ℝ) :
    (o.posVel kep au t (some a) m K p).1 =
      o.rotateVector
        ((match p.or o.parallax with | none => a | some p => a * au * p)
          * (o.rho (o.trueAnomaly kep t).2 * (o.trueAnomaly kep t).2))
        ((match p.or o.parallax with | none => a | some p => a * au * p)
          * (o.rho (o.trueAnomaly kep t).2 * (o.trueAnomaly kep t).1)) := by
  unfold OrbitalBody.posVel OrbitalBody.rho OrbitalBody.eVal
  cases he : o.ecc with
  | none =>
    cases p <;> cases o.parallax <;> simp
  | some k =>
    cases p <;> cases o.parallax <;> simp [mul_assoc]

theorem trueAnomaly_unit {kep : ℝ → ℝ → ℝ × ℝ} (hkep : UnitSolver kep) (o : OrbitalBody) (t : ℝ) :
    (o.trueAnomaly kep t).1 ^ 2 + (o.trueAnomaly kep t).2 ^ 2 = 1 := by
  unfold OrbitalBody.trueAnomaly
  cases o.ecc with
  | none => exact sin_sq_add_cos_sq _
  | some k => exact hkep _ _

theorem meanAnomaly_add_period (o : OrbitalBody) (hP : o.period ≠ 0) (t : ℝ) (n : ℤ) :
    o.meanAnomaly (t + n * o.period) = o.meanAnomaly t + n * (2 * π) := by
  unfold OrbitalBody.meanAnomaly OrbitalBody.warpTimes
  field_simp
  ring

/-- `E0`: cosine and sine of the eccentric anomaly at transit -/
theorem E0_cos_sin {k : Ecc} (he0 : 0 ≤ k.e) (he : k.e < 1) (hw : k.sinw ^ 2 + k.cosw ^ 2 = 1)
    (hs : k.sinw ≠ -1) :
    cos (E0of k) = (k.sinw + k.e) / (1 + k.e * k.sinw) ∧
    sin (E0of k) = √(1 - k.e ^ 2) * k.cosw / (1 + k.e * k.sinw) := by
  have hs1 : -1 < k.sinw := by
    refine lt_of_le_of_ne ?_ (Ne.symm hs)
    nlinarith [sq_nonneg k.cosw]
  have hs2 : k.sinw ≤ 1 := by nlinarith [sq_nonneg k.cosw]
  have hes : 0 < 1 + k.e * k.sinw := by nlinarith
  have h1m : 0 < 1 - k.e := by linarith
  have h1p : 0 < 1 + k.e := by linarith
  have hop : 0 < 1 + k.sinw := by linarith
  set X := √(1 + k.e) * (1 + k.sinw) with hX
  set Y := √(1 - k.e) * k.cosw with hY
  have hXpos : 0 < X := mul_pos (sqrt_pos.2 h1p) hop
  have hX2 : X ^ 2 = (1 + k.e) * (1 + k.sinw) ^ 2 := by rw [hX, mul_pow, sq_sqrt h1p.le]
  have hY2 : Y ^ 2 = (1 - k.e) * ((1 - k.sinw) * (1 + k.sinw)) := by
    rw [hY, mul_pow, sq_sqrt h1m.le]; congr 1; linarith
  have hXY : X * Y = √(1 - k.e ^ 2) * (1 + k.sinw) * k.cosw := by
    rw [hX, hY, show 1 - k.e ^ 2 = (1 + k.e) * (1 - k.e) by ring, sqrt_mul h1p.le]; ring
  set N := ‖(⟨X, Y⟩ : ℂ)‖ with hN
  have hN2 : N ^ 2 = X ^ 2 + Y ^ 2 := by
    rw [hN, Complex.sq_norm, Complex.normSq_apply]; ring
  have hne : (⟨X, Y⟩ : ℂ) ≠ 0 := by
    intro h0
    have := congrArg Complex.re h0
    simp at this
    exact hXpos.ne' this
  have hNpos : 0 < N := norm_pos_iff.2 hne
  have hc : cos (arctan2 Y X) = X / N := Complex.cos_arg hne
  have hsn : sin (arctan2 Y X) = Y / N := Complex.sin_arg _
  have hsum : X ^ 2 + Y ^ 2 = (1 + k.sinw) * (2 * (1 + k.e * k.sinw)) := by
    rw [hX2, hY2]; ring
  have hE : E0of k = 2 * arctan2 Y X := rfl
  constructor
  · rw [hE, cos_two_mul, hc, div_pow, hN2, hsum, hX2]
    field_simp
    ring
  · rw [hE, sin_two_mul, hc, hsn]
    have : 2 * (Y / N) * (X / N) = 2 * (X * Y) / N ^ 2 := by field_simp
    rw [this, hXY, hN2, hsum]
    field_simp

/-- at the reference transit, the true anomaly is `π/2 - ω` -/
theorem trueAnomaly_at_transit {k : Ecc} (he0 : 0 ≤ k.e) (he : k.e < 1)
    (hw : k.sinw ^ 2 + k.cosw ^ 2 = 1) (hs : k.sinw ≠ -1) {f : ℝ}
    (hf : TrueAnomalyAt (M0of (some k)) k.e f) : sin f = k.cosw ∧ cos f = k.sinw := by
  obtain ⟨hc0, hs0⟩ := E0_cos_sin he0 he hw hs
  obtain ⟨E, hE, hfc, hfs⟩ := hf
  have hEE : E = E0of k := Kepler.keplerEq_unique he0 he hE (by unfold KeplerEq M0of; rfl)
  rw [hEE] at hfc hfs
  have hs1 : -1 ≤ k.sinw := by nlinarith [sq_nonneg k.cosw]
  have hes : 0 < 1 + k.e * k.sinw := by nlinarith
  have hpos := Kepler.one_sub_ecos_pos he0 he (E0of k)
  have h1e : 0 < 1 - k.e ^ 2 := by nlinarith
  have hq2 : √(1 - k.e ^ 2) ^ 2 = 1 - k.e ^ 2 := sq_sqrt h1e.le
  have hD : 1 - k.e * cos (E0of k) = (1 - k.e ^ 2) / (1 + k.e * k.sinw) := by
    rw [hc0]; field_simp; ring
  rw [hD, hc0] at hfc
  rw [hD, hs0] at hfs
  have hcancel : ∀ {u v : ℝ}, (1 - k.e ^ 2) / (1 + k.e * k.sinw) * u
      = (1 - k.e ^ 2) / (1 + k.e * k.sinw) * v → u = v := by
    intro u v h
    exact mul_left_cancel₀ (div_pos h1e hes).ne' h
  constructor
  · apply hcancel
    rw [hfs]
    have : √(1 - k.e ^ 2) * (√(1 - k.e ^ 2) * k.cosw / (1 + k.e * k.sinw))
        = √(1 - k.e ^ 2) ^ 2 * k.cosw / (1 + k.e * k.sinw) := by ring
    rw [this, hq2]; ring
  · apply hcancel
    rw [hfc]
    have hne := hes.ne'
    rw [div_mul_eq_mul_div, sub_eq_iff_eq_add, ← sub_eq_iff_eq_add', ← sub_div]
    rw [eq_comm, eq_div_iff hne]
    ring

end Jaxoplanet.Keplerian
