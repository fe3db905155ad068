import Verif.Proofs.Orbit
import Verif.Props.Kepler

/-!
# Properties C09, C11–C19: orbits
-/

namespace Jaxoplanet.Keplerian

open Real Spec

/-- the code's own Kepler solver returns points of the unit circle -/
theorem kepler_unitSolver : UnitSolver Kepler.kepler := fun M e =>
  (Kepler.kepler_on_unit_circle M e).1

/-- an exact solver exists (non-vacuity of `ExactSolver`) -/
theorem exists_exactSolver : ∃ kep, ExactSolver kep := by
  have h : ∀ M e : ℝ, ∃ p : ℝ × ℝ, 0 ≤ e → e < 1 →
      ∃ f, TrueAnomalyAt M e f ∧ p = (sin f, cos f) := by
    intro M e
    by_cases he : 0 ≤ e ∧ e < 1
    · obtain ⟨E, hE⟩ := Kepler.keplerEq_exists he.1 he.2 M
      obtain ⟨f, hf⟩ := Kepler.exists_isTrueAnomaly he.1 he.2 E
      exact ⟨(sin f, cos f), fun _ _ => ⟨f, ⟨E, hE, hf⟩, rfl⟩⟩
    · exact ⟨(0, 1), fun h0 h1 => absurd ⟨h0, h1⟩ he⟩
  choose kep hkep using h
  exact ⟨kep, fun M e h0 h1 => hkep M e h0 h1⟩

/-! ## C11 Kepler's third law -/

/-- **C11.** `4 π² a³ = G (M_central + m) P²` for every accepted body, whichever of period and
semimajor axis was supplied; the supplied one is kept. -/
theorem kepler_third_law {G : ℝ} {c : Central} {b : Body ℝ} {o : OrbitalBody}
    (hGM : 0 < G * (c.mass + b.mass.getD 0)) (hP : ∀ P, b.period = some P → 0 < P)
    (ha : ∀ a, b.semimajor = some a → 0 < a) (h : mkOrbitalBody G c b = .ok o) :
    4 * π ^ 2 * o.semimajor ^ 3 = G * (c.mass + b.mass.getD 0) * o.period ^ 2 ∧
    0 < o.period ∧ 0 < o.semimajor ∧
    (∀ P, b.period = some P → o.period = P) ∧
    (∀ a, b.semimajor = some a → o.semimajor = a) := by
  have htm : totalMass c b.mass = c.mass + b.mass.getD 0 := by
    unfold totalMass; cases b.mass <;> simp [add_comm]
  obtain ⟨_, P, a, ecc, hpa, _, rfl⟩ := mkOrbitalBody_ok h
  rw [← htm] at hGM ⊢
  exact kepler3 hGM hP ha hpa

/-- non-vacuity of C11 -/
example : ∃ o, mkOrbitalBody 2 ⟨1, 1, 1⟩ { period := some 3, mass := some 0.5 } = .ok o ∧
    4 * π ^ 2 * o.semimajor ^ 3 = 2 * (1 + 0.5) * 3 ^ 2 := by
  obtain ⟨o, ho⟩ := mkOrbitalBody_of_accepted 2 ⟨1, 1, 1⟩
    (b := { period := some 3, mass := some 0.5 }) (by constructor <;> simp [Given, ScalarIfGiven])
  have := kepler_third_law (by norm_num) (by simp) (by simp) ho
  refine ⟨o, ho, ?_⟩
  rw [this.1, this.2.2.2.1 3 rfl]
  norm_num

/-! ## C09 round trip through `Central.from_orbital_properties` -/

/-- **C09.** A central built from `(P, a, radius, body_mass)` has the given radius (1 by default),
and any accepted body of that mass given the period gets semimajor axis `a`; given the semimajor
axis it gets period `P`. -/
theorem from_orbital_properties_roundtrip {G P a : ℝ} (hG : 0 < G) (hP : 0 < P) (ha : 0 < a)
    (radius bm : Option ℝ) :
    ∃ c, Central.fromOrbitalProperties G P a radius bm = .ok c ∧ c.radius = radius.getD 1 ∧
      (∀ b o, b.mass = bm → b.period = some P → mkOrbitalBody G c b = .ok o → o.semimajor = a) ∧
      (∀ b o, b.mass = bm → b.semimajor = some a → mkOrbitalBody G c b = .ok o → o.period = P) := by
  have hpi := pi_pos
  have hM : 0 < 4 * π ^ 2 * a ^ 3 / (G * P ^ 2) := by positivity
  obtain ⟨c, hc, hcr, hcm⟩ : ∃ c, Central.fromOrbitalProperties G P a radius bm = .ok c ∧
      c.radius = radius.getD 1 ∧ c.mass + bm.getD 0 = 4 * π ^ 2 * a ^ 3 / (G * P ^ 2) := by
    unfold Central.fromOrbitalProperties Central.init
    cases bm <;> simp
  refine ⟨c, hc, hcr, ?_, ?_⟩
  · intro b o hb hper ho
    obtain ⟨hacc, -⟩ := mkOrbitalBody_ok ho
    have hs : ∀ a, b.semimajor = some a → 0 < a := by
      intro a' ha'
      rcases hacc.exactly_one_period with ⟨_, h⟩ | ⟨h, _⟩
      · exact absurd ⟨a', ha'⟩ h
      · exact absurd ⟨P, hper⟩ h
    have h := kepler_third_law (by rw [hb, hcm]; positivity)
      (by intro P' hP'; rw [hper] at hP'; cases hP'; exact hP) hs ho
    obtain ⟨h3, _, hapos, hPP, _⟩ := h
    rw [hb, hcm, hPP P hper] at h3
    have h4 : o.semimajor ^ 3 = a ^ 3 := by
      have : G * (4 * π ^ 2 * a ^ 3 / (G * P ^ 2)) * P ^ 2 = 4 * π ^ 2 * a ^ 3 := by field_simp
      rw [this] at h3
      exact mul_left_cancel₀ (by positivity) h3
    exact (pow_left_inj₀ hapos.le ha.le (by norm_num)).1 h4
  · intro b o hb hsm ho
    obtain ⟨hacc, -⟩ := mkOrbitalBody_ok ho
    have hs : ∀ P, b.period = some P → 0 < P := by
      intro P' hP'
      rcases hacc.exactly_one_period with ⟨_, h⟩ | ⟨h, _⟩
      · exact absurd ⟨a, hsm⟩ h
      · exact absurd ⟨P', hP'⟩ h
    have h := kepler_third_law (by rw [hb, hcm]; positivity) hs
      (by intro a' ha'; rw [hsm] at ha'; cases ha'; exact ha) ho
    obtain ⟨h3, hPpos, _, _, haa⟩ := h
    rw [hb, hcm, haa a hsm] at h3
    have h4 : o.period ^ 2 = P ^ 2 := by
      field_simp at h3
      linarith
    exact (pow_left_inj₀ hPpos.le hP.le (by norm_num)).1 h4

/-! ## C12 time_transit is a transit -/

/-- orbital radius at conjunction -/
noncomputable def conjRadius (o : OrbitalBody) : ℝ :=
  match o.ecc with
  | none => o.semimajor
  | some k => o.semimajor * (1 - k.e ^ 2) / (1 + k.e * k.sinw)

/-- the mean anomaly at the `n`-th transit is `M0 + 2πn` -/
theorem meanAnomaly_transit {G : ℝ} {c : Central} {b : Body ℝ} {o : OrbitalBody}
    (h : mkOrbitalBody G c b = .ok o) (hP : o.period ≠ 0) (n : ℤ) :
    o.meanAnomaly (o.time_transit + n * o.period) = M0of o.ecc + n * (2 * π) := by
  obtain ⟨_, P, a, ecc, _, _, rfl⟩ := mkOrbitalBody_ok h
  rw [meanAnomaly_add_period _ hP]
  congr 1
  unfold OrbitalBody.meanAnomaly OrbitalBody.warpTimes buildOrbit
  simp only [buildOrbit] at hP ⊢
  have := pi_ne_zero
  field_simp
  ring

/-- **C12.** At `time_transit + n * period`, for every accepted body with `0 ≤ e < 1` and
`ω ≠ -π/2`, and an exact Kepler solver: the sky-projected separation is `|impact_param| * R_star`,
the offset is along the node-rotated `y` axis only (`x = 0` when no node is given), and the body is
in front of the star (`z > 0`) whenever `sin i > 0`. -/
theorem transit_is_transit_partial {kep : ℝ → ℝ → ℝ × ℝ} (hkep : ExactSolver kep) (au : ℝ)
    {G : ℝ} {c : Central} {b : Body ℝ} {o : OrbitalBody}
    (h : mkOrbitalBody G c b = .ok o) (hP : 0 < o.period) (ha : 0 < o.semimajor)
    (hR : 0 < c.radius) (hk : ValidEcc o.ecc) (hs : ∀ k, o.ecc = some k → k.sinw ≠ -1)
    (hpar : o.parallax = none) (n : ℤ) :
    let r := o.relative_position kep au (o.time_transit + n * o.period)
    (match o.node with
      | none => r.x = 0 ∧ r.y = -(o.impact_param * c.radius)
      | some (sΩ, cΩ) => r.x = sΩ * (o.impact_param * c.radius) ∧
          r.y = -(cΩ * (o.impact_param * c.radius))) ∧
    r.z = o.sin_inclination * conjRadius o ∧ 0 < conjRadius o ∧
    (0 < o.sin_inclination → 0 < r.z) := by
  intro r
  have hM := meanAnomaly_transit h hP.ne' n
  -- true anomaly at transit
  have hta : match o.ecc with
      | none => o.trueAnomaly kep (o.time_transit + n * o.period) = (1, 0)
      | some k => o.trueAnomaly kep (o.time_transit + n * o.period) = (k.cosw, k.sinw) := by
    unfold OrbitalBody.trueAnomaly
    rw [hM]
    cases he : o.ecc with
    | none =>
      simp only [M0of]
      rw [sin_add_int_mul_two_pi, cos_add_int_mul_two_pi]
      rw [show (0.5 : ℝ) * π = π / 2 by ring]
      simp
    | some k =>
      obtain ⟨h0, h1, hw⟩ := hk k he
      obtain ⟨f, ⟨E, hE, hf⟩, hkf⟩ := hkep (M0of (some k) + n * (2 * π)) k.e h0 h1
      have hta0 : TrueAnomalyAt (M0of (some k)) k.e f := by
        refine ⟨E + ((-n : ℤ) : ℝ) * (2 * π), ?_, ?_⟩
        · have := Kepler.keplerEq_add_two_pi (-n) hE
          convert this using 1
          push_cast; ring
        · unfold IsTrueAnomaly at *
          rw [sin_add_int_mul_two_pi, cos_add_int_mul_two_pi]
          exact hf
      obtain ⟨hsf, hcf⟩ := trueAnomaly_at_transit h0 h1 hw (hs k he) hta0
      simp only [hkf, hsf, hcf]
  obtain ⟨_, P, a, ecc, _, _, ho⟩ := mkOrbitalBody_ok h
  have hcr : 0 < conjRadius o := by
    unfold conjRadius
    cases he : o.ecc with
    | none => exact ha
    | some k =>
      obtain ⟨h0, h1, hw⟩ := hk k he
      have hs1 : -1 ≤ k.sinw := by nlinarith [sq_nonneg k.cosw]
      have : 0 < 1 + k.e * k.sinw := by nlinarith
      have : 0 < 1 - k.e ^ 2 := by nlinarith
      simp only
      positivity
  -- impact parameter
  have hb : o.cos_inclination * conjRadius o = o.impact_param * c.radius := by
    have hd : inclFactor o.ecc * c.radius / o.semimajor * conjRadius o = c.radius := by
      unfold conjRadius inclFactor
      cases he : o.ecc with
      | none => simp only; field_simp
      | some k =>
        obtain ⟨h0, h1, hw⟩ := hk k he
        have hs1 : -1 ≤ k.sinw := by nlinarith [sq_nonneg k.cosw]
        have h2 : (1 + k.e * k.sinw) ≠ 0 := by nlinarith
        have h3 : 1 - k.e ^ 2 ≠ 0 := by nlinarith
        simp only
        field_simp
    have hd0 : inclFactor o.ecc * c.radius / o.semimajor ≠ 0 := by
      intro h0; rw [h0] at hd; linarith
    have e1 : o.cos_inclination = (inclOf (inclFactor o.ecc * c.radius / o.semimajor) b).2.1 := by
      rw [ho]; rfl
    have e2 : o.impact_param = (inclOf (inclFactor o.ecc * c.radius / o.semimajor) b).1 := by
      rw [ho]; rfl
    rw [e1, e2]
    generalize inclFactor o.ecc * c.radius / o.semimajor = d at hd hd0
    unfold inclOf
    cases b.impact_param with
    | some bb => simp only; rw [← hd]; ring
    | none =>
      cases b.inclination with
      | some i => simp only; rw [← hd]; field_simp
      | none => simp
  have hpos : r = o.rotateVector
      (-o.semimajor * (o.rho (o.trueAnomaly kep (o.time_transit + n * o.period)).2 *
        (o.trueAnomaly kep (o.time_transit + n * o.period)).2))
      (-o.semimajor * (o.rho (o.trueAnomaly kep (o.time_transit + n * o.period)).2 *
        (o.trueAnomaly kep (o.time_transit + n * o.period)).1)) := by
    have := posVel_fst kep au o (o.time_transit + n * o.period) (-o.semimajor) none none none
    rw [hpar] at this
    exact this
  have hz : r.z = o.sin_inclination * conjRadius o ∧ (match o.node with
      | none => r.x = 0 ∧ r.y = -(o.cos_inclination * conjRadius o)
      | some (sΩ, cΩ) => r.x = sΩ * (o.cos_inclination * conjRadius o) ∧
          r.y = -(cΩ * (o.cos_inclination * conjRadius o))) := by
    rw [hpos]
    unfold OrbitalBody.rotateVector OrbitalBody.rho OrbitalBody.eVal conjRadius
    cases he : o.ecc with
    | none =>
      rw [he] at hta
      simp only at hta
      rw [hta]
      cases o.node with
      | none => simp
      | some sc => simp
    | some k =>
      rw [he] at hta
      simp only at hta
      rw [hta]
      obtain ⟨h0, h1, hw⟩ := hk k he
      have hc2 : k.cosw ^ 2 = 1 - k.sinw ^ 2 := by linarith
      simp only
      set ρ := (1 - k.e ^ 2) / (1 + k.e * k.sinw) with hρ
      have hρ' : o.semimajor * (1 - k.e ^ 2) / (1 + k.e * k.sinw) = o.semimajor * ρ := by
        rw [hρ]; ring
      rw [hρ']
      cases o.node with
      | none =>
        simp only [if_true]
        refine ⟨?_, ?_, ?_⟩
        · linear_combination (o.sin_inclination * o.semimajor * ρ) * hw
        · ring
        · linear_combination (-o.cos_inclination * o.semimajor * ρ) * hw
      | some sc =>
        simp only [if_true]
        refine ⟨?_, ?_, ?_⟩
        · linear_combination (o.sin_inclination * o.semimajor * ρ) * hw
        · linear_combination (o.cos_inclination * o.semimajor * ρ * sc.1) * hw
        · linear_combination (-o.cos_inclination * o.semimajor * ρ * sc.2) * hw
  refine ⟨?_, hz.1, hcr, fun hsi => by rw [hz.1]; positivity⟩
  rw [← hb]
  exact hz.2

/-- Without eccentricity the Kepler solver is not used at all. -/
theorem posVel_circular (kep kep' : ℝ → ℝ → ℝ × ℝ) (au : ℝ) (o : OrbitalBody) (t : ℝ)
    (a m K p : Option ℝ) (he : o.ecc = none) :
    o.posVel kep au t a m K p = o.posVel kep' au t a m K p := by
  unfold OrbitalBody.posVel OrbitalBody.trueAnomaly
  simp only [he]

/-- **C12, circular orbits, the code's own solver:** exact, no hypothesis on the solver. -/
theorem transit_is_transit_circular (au : ℝ)
    {G : ℝ} {c : Central} {b : Body ℝ} {o : OrbitalBody}
    (h : mkOrbitalBody G c b = .ok o) (hP : 0 < o.period) (ha : 0 < o.semimajor)
    (hR : 0 < c.radius) (hk : o.ecc = none) (hpar : o.parallax = none) (n : ℤ) :
    let r := o.relative_position Kepler.kepler au (o.time_transit + n * o.period)
    (match o.node with
      | none => r.x = 0 ∧ r.y = -(o.impact_param * c.radius)
      | some (sΩ, cΩ) => r.x = sΩ * (o.impact_param * c.radius) ∧
          r.y = -(cΩ * (o.impact_param * c.radius))) ∧
    (0 < o.sin_inclination → 0 < r.z) := by
  obtain ⟨kep, hkep⟩ := exists_exactSolver
  have := transit_is_transit_partial hkep au h hP ha hR (by intro k hk'; rw [hk] at hk'; cases hk')
    (by intro k hk'; rw [hk] at hk'; cases hk') hpar n
  unfold OrbitalBody.relative_position at *
  rw [posVel_circular Kepler.kepler kep au o _ _ _ _ _ hk]
  exact ⟨this.1, this.2.2.2⟩

/-- non-vacuity of C12: an eccentric, inclined orbit with a node, built by the code, meets every
hypothesis. -/
example : ∃ o, mkOrbitalBody 1 ⟨1, 1, 1⟩
    { period := some 100, eccentricity := some 0.3, omega_peri := some 0, asc_node := some 1,
      impact_param := some 0.1, time_transit := some 5 } = .ok o ∧
    0 < o.period ∧ 0 < o.semimajor ∧ ValidEcc o.ecc ∧ (∀ k, o.ecc = some k → k.sinw ≠ -1) ∧
    o.parallax = none ∧ o.time_transit = 5 ∧ o.impact_param = 0.1 := by
  obtain ⟨o, ho⟩ := mkOrbitalBody_of_accepted 1 ⟨1, 1, 1⟩
    (b := { period := some 100, eccentricity := some 0.3, omega_peri := some 0,
            asc_node := some 1, impact_param := some 0.1, time_transit := some 5 })
    (by constructor <;> simp [Given, ScalarIfGiven])
  have h3 := kepler_third_law (by norm_num) (by simp) (by simp) ho
  obtain ⟨_, P, a, ecc, _, hecc, heq⟩ := mkOrbitalBody_ok ho
  have he : ecc = some ⟨0.3, sin 0, cos 0⟩ := by
    simp only [eccOf, Except.ok.injEq] at hecc
    exact hecc.symm
  refine ⟨o, ho, h3.2.1, h3.2.2.1, ?_, ?_, by rw [heq]; rfl, by rw [heq]; rfl, by rw [heq]; rfl⟩
  · intro k hk
    have : k = ⟨0.3, sin 0, cos 0⟩ := by
      rw [heq] at hk; simp only [buildOrbit, he, Option.some.injEq] at hk; exact hk.symm
    subst this
    norm_num
  · intro k hk
    have : k = ⟨0.3, sin 0, cos 0⟩ := by
      rw [heq] at hk; simp only [buildOrbit, he, Option.some.injEq] at hk; exact hk.symm
    subst this
    norm_num

/-- **Finding F2 (negation of C12 at the excluded point).** With `sin_omega_peri = -1`,
`cos_omega_peri = 0` (periastron exactly away from the observer) every accepted eccentric orbit
with `sin i > 0` has the body *behind* the star at its `time_transit` — even with the code's own
solver. -/
theorem transit_behind_star_at_omega_minus_half_pi (au : ℝ)
    {G : ℝ} {c : Central} {b : Body ℝ} {o : OrbitalBody} {e : ℝ}
    (h : mkOrbitalBody G c b = .ok o) (hP : 0 < o.period) (ha : 0 < o.semimajor)
    (hk : o.ecc = some ⟨e, -1, 0⟩) (he0 : 0 ≤ e) (he : e < 1) (hpar : o.parallax = none)
    (hsi : 0 < o.sin_inclination) :
    (o.relative_position Kepler.kepler au o.time_transit).z < 0 := by
  have hM := meanAnomaly_transit h hP.ne' 0
  have hM0 : M0of o.ecc = 0 := by
    rw [hk]; unfold M0of E0of arctan2
    simp only [mul_zero, add_neg_cancel]
    have : (⟨0, 0⟩ : ℂ) = 0 := rfl
    rw [this]; simp
  rw [hM0] at hM
  simp only [Int.cast_zero, zero_mul, add_zero] at hM
  have hta : o.trueAnomaly Kepler.kepler o.time_transit = (0, 1) := by
    unfold OrbitalBody.trueAnomaly
    rw [hk, hM]
    exact Kepler.kepler_periastron he0 he
  have := posVel_fst Kepler.kepler au o o.time_transit (-o.semimajor) none none none
  rw [hpar, hta] at this
  unfold OrbitalBody.relative_position
  rw [this]
  unfold OrbitalBody.rotateVector OrbitalBody.rho OrbitalBody.eVal
  rw [hk]
  have h1 : 0 < 1 - e ^ 2 := by nlinarith
  have h2 : 0 < 1 + e := by linarith
  have : 0 < (1 - e ^ 2) / (1 + e) := by positivity
  have h4 : 0 < o.sin_inclination * (o.semimajor * ((1 - e ^ 2) / (1 + e))) := by positivity
  cases o.node <;> simp <;> linarith

/-! ## C13 impact parameter and inclination -/

/-- **C13 (a).** If the impact parameter is given, it is kept, and the derived inclination
reproduces it geometrically: `cos i * a(1-e²)/(1+e sin ω) = b * R_star`; `sin² i + cos² i = 1` in
the physical range `|cos i| ≤ 1`. -/
theorem impact_param_kept {G : ℝ} {c : Central} {b : Body ℝ} {o : OrbitalBody} {b0 : ℝ}
    (h : mkOrbitalBody G c b = .ok o) (hb : b.impact_param = some b0) (ha : o.semimajor ≠ 0)
    (hk : ValidEcc o.ecc) :
    o.impact_param = b0 ∧ o.cos_inclination * conjRadius o = b0 * c.radius ∧
    (|b0 * c.radius| ≤ |conjRadius o| →
      o.sin_inclination ^ 2 + o.cos_inclination ^ 2 = 1 ∧ 0 ≤ o.sin_inclination) := by
  obtain ⟨_, P, a, ecc, _, _, ho⟩ := mkOrbitalBody_ok h
  have hd : inclFactor o.ecc * c.radius / o.semimajor * conjRadius o = c.radius ∧
      conjRadius o ≠ 0 := by
    unfold conjRadius inclFactor
    cases he : o.ecc with
    | none => simp only; exact ⟨by field_simp, ha⟩
    | some k =>
      obtain ⟨h0, h1, hw⟩ := hk k he
      have hs1 : -1 ≤ k.sinw := by nlinarith [sq_nonneg k.cosw]
      have h2 : (1 + k.e * k.sinw) ≠ 0 := by nlinarith
      have h3 : 1 - k.e ^ 2 ≠ 0 := by nlinarith
      simp only
      exact ⟨by field_simp, by positivity⟩
  have e1 : o.cos_inclination = inclFactor o.ecc * c.radius / o.semimajor * b0 := by
    rw [ho]; simp [buildOrbit, inclOf, hb]
  have e2 : o.impact_param = b0 := by
    rw [ho]; simp [buildOrbit, inclOf, hb]
  have e3 : o.sin_inclination = √(1 - o.cos_inclination ^ 2) := by
    rw [ho]; simp [buildOrbit, inclOf, hb]
  have e4 : o.cos_inclination * conjRadius o = b0 * c.radius := by
    calc o.cos_inclination * conjRadius o
        = b0 * (inclFactor o.ecc * c.radius / o.semimajor * conjRadius o) := by rw [e1]; ring
      _ = b0 * c.radius := by rw [hd.1]
  refine ⟨e2, e4, fun hle => ?_⟩
  have hle' : |o.cos_inclination| ≤ 1 := by
    rw [← e4, abs_mul] at hle
    have : 0 < |conjRadius o| := abs_pos.2 hd.2
    by_contra hc
    push Not at hc
    nlinarith
  have h1 : 0 ≤ 1 - o.cos_inclination ^ 2 := by
    have := abs_le.1 hle'
    nlinarith
  rw [e3, sq_sqrt h1]
  exact ⟨by ring, sqrt_nonneg _⟩

/-- **C13 (b).** Rebuilding the body from the inclination reported by the first one gives the same
impact parameter and the same inclination. -/
theorem inclination_roundtrip {G : ℝ} {c : Central} {b : Body ℝ} {o o' : OrbitalBody} {b0 : ℝ}
    (h : mkOrbitalBody G c b = .ok o) (hb : b.impact_param = some b0) (ha : o.semimajor ≠ 0)
    (hR : c.radius ≠ 0) (hk : ValidEcc o.ecc) (hle : |b0 * c.radius| ≤ |conjRadius o|)
    (h' : mkOrbitalBody G c { b with impact_param := none, inclination := some o.inclination }
      = .ok o') :
    o'.impact_param = b0 ∧ o'.cos_inclination = o.cos_inclination ∧
    o'.sin_inclination = o.sin_inclination := by
  obtain ⟨e2, e4, e5⟩ := impact_param_kept h hb ha hk
  obtain ⟨hsq, hsn⟩ := e5 hle
  have hsq' : o.cos_inclination ^ 2 + o.sin_inclination ^ 2 = 1 := by linarith
  have hn : ‖(⟨o.cos_inclination, o.sin_inclination⟩ : ℂ)‖ = 1 := by
    rw [Complex.norm_eq_sqrt_sq_add_sq]; simp only; rw [hsq', sqrt_one]
  have hc : cos o.inclination = o.cos_inclination := by
    unfold OrbitalBody.inclination arctan2
    rw [Complex.cos_arg (by intro h0; rw [h0] at hn; simp at hn), hn]; simp
  have hs : sin o.inclination = o.sin_inclination := by
    unfold OrbitalBody.inclination arctan2
    rw [Complex.sin_arg, hn]; simp
  obtain ⟨_, P, a, ecc, hpa, hecc, ho⟩ := mkOrbitalBody_ok h
  obtain ⟨_, P', a', ecc', hpa', hecc', ho'⟩ := mkOrbitalBody_ok h'
  have hpp : periodSemimajor G c { b with impact_param := none, inclination := some o.inclination }
      = periodSemimajor G c b := rfl
  have hee : eccOf { b with impact_param := none, inclination := some o.inclination }
      = eccOf b := rfl
  rw [hpp, hpa] at hpa'
  rw [hee, hecc] at hecc'
  cases hpa'
  cases hecc'
  have g1 : o'.cos_inclination = o.cos_inclination := by
    rw [ho']; simp [buildOrbit, inclOf, hc]
  have g2 : o'.sin_inclination = o.sin_inclination := by
    rw [ho']; simp [buildOrbit, inclOf, hs]
  refine ⟨?_, g1, g2⟩
  have e6 : o.ecc = ecc := by rw [ho]; rfl
  have e7 : o.semimajor = a := by rw [ho]; rfl
  have g3 : o'.impact_param = o.cos_inclination / (inclFactor o.ecc * c.radius / o.semimajor) := by
    rw [ho', e6, e7]; simp [buildOrbit, inclOf, hc]
  have e1 : o.cos_inclination = inclFactor o.ecc * c.radius / o.semimajor * b0 := by
    rw [e6, e7, ho]; simp [buildOrbit, inclOf, hb]
  have hf0 : inclFactor o.ecc ≠ 0 := by
    unfold inclFactor
    cases he : o.ecc with
    | none => simp
    | some k =>
      obtain ⟨h0, h1, hw⟩ := hk k he
      have hs1 : -1 ≤ k.sinw := by nlinarith [sq_nonneg k.cosw]
      have h2 : (1 + k.e * k.sinw) ≠ 0 := by nlinarith
      have h3 : 1 - k.e ^ 2 ≠ 0 := by nlinarith
      exact div_ne_zero h2 h3
  rw [g3, e1]
  field_simp

/-! ## C14 periastron -/

/-- **C14 (a).** A body built from `time_peri` reports it back; rebuilding from the reported
`time_transit` gives the same `time_peri` and `time_transit`. -/
theorem time_peri_roundtrip {G : ℝ} {c : Central} {b : Body ℝ} {o : OrbitalBody} {tp : ℝ}
    (h : mkOrbitalBody G c b = .ok o) (hb : b.time_peri = some tp) :
    o.time_peri = tp ∧
    ∀ o', mkOrbitalBody G c { b with time_peri := none, time_transit := some o.time_transit }
      = .ok o' → o'.time_peri = tp ∧ o'.time_transit = o.time_transit := by
  obtain ⟨hacc, P, a, ecc, hpa, hecc, ho⟩ := mkOrbitalBody_ok h
  have htt : b.time_transit = none := by
    cases hq : b.time_transit with
    | none => rfl
    | some t => exact absurd ⟨⟨t, hq⟩, ⟨tp, hb⟩⟩ hacc.one_time
  have h1 : o.time_peri = tp := by
    rw [ho]; simp [OrbitalBody.time_peri, buildOrbit, htt, hb]
  refine ⟨h1, fun o' h' => ?_⟩
  obtain ⟨_, P', a', ecc', hpa', hecc', ho'⟩ := mkOrbitalBody_ok h'
  have hpp : periodSemimajor G c { b with time_peri := none, time_transit := some o.time_transit }
      = periodSemimajor G c b := rfl
  have hee : eccOf { b with time_peri := none, time_transit := some o.time_transit }
      = eccOf b := rfl
  rw [hpp, hpa] at hpa'
  rw [hee, hecc] at hecc'
  cases hpa'
  cases hecc'
  have g1 : o'.time_transit = o.time_transit := by rw [ho']; rfl
  have g2 : o'.time_ref = o.time_ref := by rw [ho', ho]; rfl
  refine ⟨?_, g1⟩
  unfold OrbitalBody.time_peri at *
  rw [g1, g2, h1]

/-- **C14 (b).** `time_transit` given is kept; given neither it is 0. -/
theorem time_transit_kept {G : ℝ} {c : Central} {b : Body ℝ} {o : OrbitalBody}
    (h : mkOrbitalBody G c b = .ok o) :
    (∀ t, b.time_transit = some t → o.time_transit = t) ∧
    (b.time_transit = none → b.time_peri = none → o.time_transit = 0) := by
  obtain ⟨_, P, a, ecc, _, _, rfl⟩ := mkOrbitalBody_ok h
  refine ⟨fun t ht => by simp [buildOrbit, ht], fun h1 h2 => by simp [buildOrbit, h1, h2]⟩

/-- **C14 (c).** Periastron passage happens at `time_peri + n * period` (with the code's own
solver): the true anomaly is 0 and the separation is `a (1 - e)`. -/
theorem periastron_at_time_peri (au : ℝ) (o : OrbitalBody) (hP : o.period ≠ 0)
    (hk : ValidEcc o.ecc) (hn : ValidNode o.node)
    (hi : o.sin_inclination ^ 2 + o.cos_inclination ^ 2 = 1) (hpar : o.parallax = none) (n : ℤ) :
    o.trueAnomaly Kepler.kepler (o.time_peri + n * o.period) = (0, 1) ∧
    normSq (o.relative_position Kepler.kepler au (o.time_peri + n * o.period))
      = (o.semimajor * (1 - o.eVal)) ^ 2 := by
  have hM : o.meanAnomaly (o.time_peri + n * o.period) = 0 + n * (2 * π) := by
    rw [meanAnomaly_add_period _ hP]
    congr 1
    unfold OrbitalBody.meanAnomaly OrbitalBody.warpTimes OrbitalBody.time_peri
    ring
  have hta : o.trueAnomaly Kepler.kepler (o.time_peri + n * o.period) = (0, 1) := by
    unfold OrbitalBody.trueAnomaly
    rw [hM]
    cases he : o.ecc with
    | none =>
      simp only
      rw [sin_add_int_mul_two_pi, cos_add_int_mul_two_pi]
      simp
    | some k =>
      obtain ⟨h0, h1, _⟩ := hk k he
      simp only
      rw [Kepler.kepler_periodic]
      exact Kepler.kepler_periastron h0 h1
  refine ⟨hta, ?_⟩
  have := posVel_fst Kepler.kepler au o (o.time_peri + n * o.period) (-o.semimajor) none none none
  rw [hpar, hta] at this
  unfold OrbitalBody.relative_position
  rw [this, rotateVector_normSq o hk hn hi]
  unfold OrbitalBody.rho
  have he : 0 ≤ o.eVal ∧ o.eVal < 1 := by
    unfold OrbitalBody.eVal
    cases he : o.ecc with
    | none => simp
    | some k => exact ⟨(hk k he).1, (hk k he).2.1⟩
  have h1 : 1 + o.eVal ≠ 0 := by linarith
  simp only [Option.or]
  have : (1 - o.eVal ^ 2) / (1 + o.eVal * 1) = 1 - o.eVal := by
    rw [mul_one]; field_simp; ring
  rw [this]
  ring

/-! ## C15 periodicity -/

theorem trueAnomaly_periodic (o : OrbitalBody) (hP : o.period ≠ 0) (t : ℝ) (n : ℤ) :
    o.trueAnomaly Kepler.kepler (t + n * o.period) = o.trueAnomaly Kepler.kepler t := by
  unfold OrbitalBody.trueAnomaly
  rw [meanAnomaly_add_period _ hP]
  cases o.ecc with
  | none => simp only; rw [sin_add_int_mul_two_pi, cos_add_int_mul_two_pi]
  | some k => simp only; rw [Kepler.kepler_periodic]

theorem posVel_periodic (au : ℝ) (o : OrbitalBody) (hP : o.period ≠ 0) (t : ℝ) (n : ℤ)
    (a m K p : Option ℝ) :
    o.posVel Kepler.kepler au (t + n * o.period) a m K p = o.posVel Kepler.kepler au t a m K p := by
  unfold OrbitalBody.posVel
  rw [trueAnomaly_periodic o hP]

/-- **C15.** Every observable of an orbit (with the code's own solver) repeats after any whole
number of periods. -/
theorem orbit_periodic (au : ℝ) (o : OrbitalBody) (hP : o.period ≠ 0) (t : ℝ) (n : ℤ)
    (K p : Option ℝ) :
    o.position Kepler.kepler au (t + n * o.period) p = o.position Kepler.kepler au t p ∧
    o.central_position Kepler.kepler au (t + n * o.period) p
      = o.central_position Kepler.kepler au t p ∧
    o.relative_position Kepler.kepler au (t + n * o.period) p
      = o.relative_position Kepler.kepler au t p ∧
    o.relative_angles Kepler.kepler au (t + n * o.period) p
      = o.relative_angles Kepler.kepler au t p ∧
    o.velocity Kepler.kepler au (t + n * o.period) K = o.velocity Kepler.kepler au t K ∧
    o.central_velocity Kepler.kepler au (t + n * o.period) K
      = o.central_velocity Kepler.kepler au t K ∧
    o.relative_velocity Kepler.kepler au (t + n * o.period) K
      = o.relative_velocity Kepler.kepler au t K ∧
    o.radial_velocity Kepler.kepler au (t + n * o.period) K
      = o.radial_velocity Kepler.kepler au t K := by
  refine ⟨?_, ?_, ?_, ?_, ?_, ?_, ?_, ?_⟩ <;>
    simp only [OrbitalBody.position, OrbitalBody.central_position, OrbitalBody.relative_position,
      OrbitalBody.relative_angles, OrbitalBody.velocity, OrbitalBody.central_velocity,
      OrbitalBody.relative_velocity, OrbitalBody.radial_velocity, posVel_periodic au o hP]

/-! ## C16 distance law -/

/-- **C16.** At every time, with the code's own solver, the separation is
`a (1-e²)/(1 + e cos f)` and lies between `a (1-e)` and `a (1+e)`, whatever the orientation. -/
theorem distance_law (au : ℝ) (o : OrbitalBody) (ha : 0 ≤ o.semimajor)
    (hk : ValidEcc o.ecc) (hn : ValidNode o.node)
    (hi : o.sin_inclination ^ 2 + o.cos_inclination ^ 2 = 1) (hpar : o.parallax = none) (t : ℝ) :
    let d := √(normSq (o.relative_position Kepler.kepler au t))
    d = o.semimajor * (1 - o.eVal ^ 2) / (1 + o.eVal * (o.trueAnomaly Kepler.kepler t).2) ∧
    o.semimajor * (1 - o.eVal) ≤ d ∧ d ≤ o.semimajor * (1 + o.eVal) := by
  intro d
  have hu := trueAnomaly_unit kepler_unitSolver o t
  have he : 0 ≤ o.eVal ∧ o.eVal < 1 := by
    unfold OrbitalBody.eVal
    cases he : o.ecc with
    | none => simp
    | some k => exact ⟨(hk k he).1, (hk k he).2.1⟩
  set S := (o.trueAnomaly Kepler.kepler t).1
  set C := (o.trueAnomaly Kepler.kepler t).2
  have hC1 : -1 ≤ C := by nlinarith [sq_nonneg S]
  have hC2 : C ≤ 1 := by nlinarith [sq_nonneg S]
  have hden : 0 < 1 + o.eVal * C := by nlinarith [he.1, he.2]
  have h1e : 0 ≤ 1 - o.eVal ^ 2 := by nlinarith [he.1, he.2]
  have hd : d = o.semimajor * (1 - o.eVal ^ 2) / (1 + o.eVal * C) := by
    have := posVel_fst Kepler.kepler au o t (-o.semimajor) none none none
    rw [hpar] at this
    change √(normSq (o.posVel Kepler.kepler au t (some (-o.semimajor)) none none none).1) = _
    rw [this, rotateVector_normSq o hk hn hi]
    simp only [Option.or]
    have h2 : (-o.semimajor * (o.rho C * C)) ^ 2 + (-o.semimajor * (o.rho C * S)) ^ 2
        = (o.semimajor * o.rho C) ^ 2 := by
      linear_combination (o.semimajor * o.rho C) ^ 2 * hu
    change √((-o.semimajor * (o.rho C * C)) ^ 2 + (-o.semimajor * (o.rho C * S)) ^ 2) = _
    have hrho : 0 ≤ o.rho C := div_nonneg h1e hden.le
    rw [h2, sqrt_sq (mul_nonneg ha hrho)]
    unfold OrbitalBody.rho
    ring
  refine ⟨hd, ?_, ?_⟩
  · rw [hd, le_div_iff₀ hden]
    have h0 : 0 ≤ o.semimajor * ((1 - o.eVal) * (o.eVal * (1 - C))) :=
      mul_nonneg ha (mul_nonneg (by linarith [he.2]) (mul_nonneg he.1 (by linarith)))
    linarith [h0]
  · rw [hd, div_le_iff₀ hden]
    have h0 : 0 ≤ o.semimajor * ((1 + o.eVal) * (o.eVal * (1 + C))) :=
      mul_nonneg ha (mul_nonneg (by linarith [he.1]) (mul_nonneg he.1 (by linarith)))
    linarith [h0]

/-- non-vacuity of C14 (c), C16 -/
example : ∃ o : OrbitalBody, 0 < o.semimajor ∧ ValidEcc o.ecc ∧ ValidNode o.node ∧
    o.sin_inclination ^ 2 + o.cos_inclination ^ 2 = 1 ∧ o.parallax = none ∧ o.eVal = 0.5 := by
  refine ⟨⟨⟨1, 1, 1⟩, 0, 0, 1, 10, 0.6, 0.8, 0, none, none, some ⟨0.5, 0.6, 0.8⟩,
    some (0.8, 0.6), none, none⟩, by norm_num, ?_, ?_, by norm_num, rfl, rfl⟩
  · intro k hk; cases hk; norm_num
  · intro s c hk; cases hk; norm_num

/-! ## C17 frames -/

/-- **C17 (a).** With a body mass, the relative position is the difference of the two barycentric
positions, and the barycentre is at the origin — at every time, for any solver and parallax. -/
theorem barycentre (kep : ℝ → ℝ → ℝ × ℝ) (au : ℝ) (o : OrbitalBody) (t : ℝ) (p : Option ℝ) {m : ℝ}
    (hm : o.mass = some m) (hM : m + o.central.mass ≠ 0) :
    ∃ q, o.central_position kep au t p = .ok q ∧
      let r := o.position kep au t p
      let d := o.relative_position kep au t p
      (d.x = r.x - q.x ∧ d.y = r.y - q.y ∧ d.z = r.z - q.z) ∧
      (o.central.mass * q.x + m * r.x = 0 ∧ o.central.mass * q.y + m * r.y = 0 ∧
       o.central.mass * q.z + m * r.z = 0) := by
  have htm : o.total_mass = m + o.central.mass := by
    unfold OrbitalBody.total_mass totalMass; rw [hm]
  unfold OrbitalBody.central_position OrbitalBody.position OrbitalBody.relative_position
  rw [hm]
  refine ⟨_, rfl, ?_⟩
  simp only [posVel_fst, htm]
  set S := o.rho (o.trueAnomaly kep t).2 * (o.trueAnomaly kep t).1
  set C := o.rho (o.trueAnomaly kep t).2 * (o.trueAnomaly kep t).2
  cases p.or o.parallax with
  | none =>
    simp only [rotateVector_smul]
    refine ⟨⟨?_, ?_, ?_⟩, ?_, ?_, ?_⟩ <;> field_simp <;> ring
  | some q =>
    simp only [rotateVector_smul]
    refine ⟨⟨?_, ?_, ?_⟩, ?_, ?_, ?_⟩ <;> field_simp <;> ring

/-- **C17 (b).** Without a body mass, the central does not move: relative and barycentric positions
coincide, and asking for the central's position raises a `TypeError`. -/
theorem barycentre_massless (kep : ℝ → ℝ → ℝ × ℝ) (au : ℝ) (o : OrbitalBody) (t : ℝ)
    (p : Option ℝ) (hm : o.mass = none) (hM : o.central.mass ≠ 0) :
    o.position kep au t p = o.relative_position kep au t p ∧
    ∃ msg, o.central_position kep au t p = .error (.typeError msg) := by
  have htm : o.total_mass = o.central.mass := by
    unfold OrbitalBody.total_mass totalMass; rw [hm]
  constructor
  · unfold OrbitalBody.position OrbitalBody.relative_position
    rw [htm, mul_div_assoc, div_self hM, mul_one]
  · unfold OrbitalBody.central_position
    rw [hm]
    exact ⟨_, rfl⟩

/-- **C17 (c).** A parallax only rescales positions: from R_sun to arcsec by `au * parallax`. -/
theorem parallax_scaling (kep : ℝ → ℝ → ℝ × ℝ) (au : ℝ) (o : OrbitalBody) (t p : ℝ)
    (hp : o.parallax = none) :
    let r := o.relative_position kep au t
    let r' := o.relative_position kep au t (some p)
    r'.x = au * p * r.x ∧ r'.y = au * p * r.y ∧ r'.z = au * p * r.z := by
  simp only [OrbitalBody.relative_position, posVel_fst, hp, Option.or, rotateVector_smul]
  refine ⟨?_, ?_, ?_⟩ <;> ring

/-! ## C18 velocity -/

/-- mass entering the velocity amplitude of a frame whose position amplitude is `A` -/
theorem velocity_amplitude (o : OrbitalBody) (mu : ℝ) (au : ℝ) (kep : ℝ → ℝ → ℝ × ℝ) (t : ℝ)
    (hK : o.radial_velocity_semiamplitude = none) :
    (o.posVel kep au t none (some mu) none none).2 =
      let s := match o.parallax with | none => 1 | some p => au * p
      let k0 := s * (mu / o.total_mass) * (2 * π * o.semimajor / o.period / √(1 - o.eVal ^ 2))
      o.rotateVector (-k0 * (o.trueAnomaly kep t).1)
        (k0 * ((o.trueAnomaly kep t).2 + o.eVal)) := by
  unfold OrbitalBody.posVel OrbitalBody.eVal
  rw [hK]
  cases o.ecc <;> cases o.parallax <;> simp <;> ring_nf

/-- The position/velocity pair differentiates correctly for any moving point
`(sin f, cos f) = (s τ, c τ)` whose derivative is the one prescribed by the custom JVP rule. -/
theorem hasVelocity_of_jvp {o : OrbitalBody} {s c : ℝ → ℝ} {τ n A : ℝ} {a : ℝ}
    (he0 : 0 ≤ o.eVal) (he : o.eVal < 1) (hu : s τ ^ 2 + c τ ^ 2 = 1)
    (hs : HasDerivAt s (Kepler.jvpTangent (s τ) (c τ) o.eVal n 0).1 τ)
    (hc : HasDerivAt c (Kepler.jvpTangent (s τ) (c τ) o.eVal n 0).2 τ)
    (hA : A = a * n / √(1 - o.eVal ^ 2)) :
    HasVelocityAt (fun x => o.rotateVector (a * (o.rho (c x) * c x)) (a * (o.rho (c x) * s x)))
      (o.rotateVector (-A * s τ) (A * (c τ + o.eVal))) τ := by
  set e := o.eVal with hedef
  have h1e : 0 < 1 - e ^ 2 := by nlinarith
  have hq : 0 < √(1 - e ^ 2) := sqrt_pos.2 h1e
  have hq2 : √(1 - e ^ 2) ^ 2 = 1 - e ^ 2 := sq_sqrt h1e.le
  have hpow : (1 - e ^ 2) ^ (1.5 : ℝ) = √(1 - e ^ 2) ^ 3 := by
    rw [sqrt_eq_rpow, ← rpow_natCast _ 3, ← rpow_mul h1e.le]; norm_num
  have hC1 : -1 ≤ c τ := by nlinarith [sq_nonneg (s τ)]
  have hden : 0 < 1 + e * c τ := by nlinarith
  have hfd : Kepler.jvpTangent (s τ) (c τ) e n 0 =
      (c τ * (n * (1 + e * c τ) ^ 2 / √(1 - e ^ 2) ^ 3),
       -s τ * (n * (1 + e * c τ) ^ 2 / √(1 - e ^ 2) ^ 3)) := by
    unfold Kepler.jvpTangent; simp only [hpow]; simp
  rw [hfd] at hs hc
  simp only at hs hc
  set q := √(1 - e ^ 2) with hqdef
  have hrho : HasDerivAt (fun x => o.rho (c x)) _ τ :=
    (hasDerivAt_const τ (1 - e ^ 2)).div ((hc.const_mul e).const_add 1) hden.ne'
  have hX : HasDerivAt (fun x => a * (o.rho (c x) * c x)) (-A * s τ) τ := by
    refine ((hrho.mul hc).const_mul a).congr_deriv ?_
    simp only [OrbitalBody.rho, ← hedef]
    rw [hA, ← hq2]
    have := hden.ne'
    field_simp
    ring
  have hY : HasDerivAt (fun x => a * (o.rho (c x) * s x)) (A * (c τ + e)) τ := by
    refine ((hrho.mul hs).const_mul a).congr_deriv ?_
    simp only [OrbitalBody.rho, ← hedef]
    rw [hA, ← hq2]
    have := hden.ne'
    field_simp
    linear_combination (a * e * n + a * e ^ 2 * n * c τ) * hu
  have hlin : (fun x => o.rotateVector (a * (o.rho (c x) * c x)) (a * (o.rho (c x) * s x)))
      = fun x => (⟨(o.rotateVector 1 0).x * (a * (o.rho (c x) * c x))
          + (o.rotateVector 0 1).x * (a * (o.rho (c x) * s x)),
        (o.rotateVector 1 0).y * (a * (o.rho (c x) * c x))
          + (o.rotateVector 0 1).y * (a * (o.rho (c x) * s x)),
        (o.rotateVector 1 0).z * (a * (o.rho (c x) * c x))
          + (o.rotateVector 0 1).z * (a * (o.rho (c x) * s x))⟩ : V3) := by
    funext x
    exact rotateVector_linear o true _ _
  rw [hlin, rotateVector_linear o true (-A * s τ)]
  refine ⟨?_, ?_, ?_⟩
  · exact (hX.const_mul _).add (hY.const_mul _)
  · exact (hX.const_mul _).add (hY.const_mul _)
  · exact (hX.const_mul _).add (hY.const_mul _)

/-- derivative of the orbit's true anomaly with an exact solver -/
theorem trueAnomaly_hasDerivAt {kep : ℝ → ℝ → ℝ × ℝ} (hkep : ExactSolver kep) {o : OrbitalBody}
    (hk : ValidEcc o.ecc) (t : ℝ) :
    let J := Kepler.jvpTangent (o.trueAnomaly kep t).1 (o.trueAnomaly kep t).2 o.eVal
      (2 * π / o.period) 0
    HasDerivAt (fun s => (o.trueAnomaly kep s).1) J.1 t ∧
    HasDerivAt (fun s => (o.trueAnomaly kep s).2) J.2 t := by
  have hM : HasDerivAt o.meanAnomaly (2 * π / o.period) t := by
    unfold OrbitalBody.meanAnomaly OrbitalBody.warpTimes
    have := ((((hasDerivAt_id t).sub_const o.time_transit).sub_const o.time_ref).const_mul
      (2 * π)).div_const o.period
    simpa using this
  intro J
  cases ho : o.ecc with
  | none =>
    have hJ : J = (cos (o.meanAnomaly t) * (2 * π / o.period),
        -sin (o.meanAnomaly t) * (2 * π / o.period)) := by
      simp only [J, OrbitalBody.trueAnomaly, ho, OrbitalBody.eVal, Kepler.jvpTangent]
      simp
    rw [hJ]
    simp only [OrbitalBody.trueAnomaly, ho]
    exact ⟨hM.sin, hM.cos⟩
  | some k =>
    obtain ⟨he0, he1, -⟩ := hk k ho
    choose f hf using fun s => hkep (o.meanAnomaly s) k.e he0 he1
    have hval : ∀ s, o.trueAnomaly kep s = (sin (f s), cos (f s)) := fun s => by
      simp only [OrbitalBody.trueAnomaly, ho, (hf s).2]
    have h := Kepler.jvp_correct (M := o.meanAnomaly) (e := fun _ => k.e) (f := f) (t := t)
      he0 he1 hM (hasDerivAt_const t k.e) (Filter.Eventually.of_forall fun s => (hf s).1)
    have heV : o.eVal = k.e := by unfold OrbitalBody.eVal; rw [ho]
    simp only [J, hval, heV]
    exact h

theorem posVel_hasVelocity {o : OrbitalBody} (hk : ValidEcc o.ecc)
    (hK : o.radial_velocity_semiamplitude = none)
    (au mu a t : ℝ) (kept : ℝ → ℝ → ℝ → ℝ × ℝ) (ha : a = o.semimajor * mu / o.total_mass)
    (hu : (o.trueAnomaly (kept t) t).1 ^ 2 + (o.trueAnomaly (kept t) t).2 ^ 2 = 1)
    (hs : HasDerivAt (fun s => (o.trueAnomaly (kept s) s).1)
      (Kepler.jvpTangent (o.trueAnomaly (kept t) t).1 (o.trueAnomaly (kept t) t).2 o.eVal
        (2 * π / o.period) 0).1 t)
    (hc : HasDerivAt (fun s => (o.trueAnomaly (kept s) s).2)
      (Kepler.jvpTangent (o.trueAnomaly (kept t) t).1 (o.trueAnomaly (kept t) t).2 o.eVal
        (2 * π / o.period) 0).2 t) :
    HasVelocityAt (fun s => (o.posVel (kept s) au s (some a) none none none).1)
      (o.posVel (kept t) au t none (some mu) none none).2 t := by
  have he : 0 ≤ o.eVal ∧ o.eVal < 1 := by
    unfold OrbitalBody.eVal
    cases ho : o.ecc with
    | none => norm_num
    | some k => exact ⟨(hk k ho).1, (hk k ho).2.1⟩
  rw [velocity_amplitude o mu au _ t hK]
  simp only [posVel_fst]
  have := hasVelocity_of_jvp (o := o) (s := fun s => (o.trueAnomaly (kept s) s).1)
    (c := fun s => (o.trueAnomaly (kept s) s).2) (τ := t) (n := 2 * π / o.period)
    (a := match o.parallax with | none => a | some p => a * au * p) he.1 he.2 hu hs hc rfl
  simp only [Option.or]
  cases hp : o.parallax with
  | none =>
    simp only [hp] at this ⊢
    refine cast ?_ this
    congr 2 <;> rw [ha] <;> ring
  | some p =>
    simp only [hp] at this ⊢
    refine cast ?_ this
    congr 2 <;> rw [ha] <;> ring

/-- **C18.** With an exact Kepler solver, `velocity`, `relative_velocity` and (when the body has a
mass) `central_velocity` are the time derivatives of `position`, `relative_position` and
`central_position`, at every time, for every orientation and eccentricity and with or without a
parallax.  The body must not carry a prescribed RV semi-amplitude (see
`prescribed_amplitude_breaks_velocity`). -/
theorem velocity_is_derivative {kep : ℝ → ℝ → ℝ × ℝ} (hkep : ExactSolver kep) (au : ℝ)
    {o : OrbitalBody} (hk : ValidEcc o.ecc)
    (hK : o.radial_velocity_semiamplitude = none) (hMt : o.total_mass ≠ 0) (t : ℝ) :
    (∃ v, o.velocity kep au t = .ok v ∧ HasVelocityAt (fun s => o.position kep au s) v t) ∧
    (∃ v, o.relative_velocity kep au t = .ok v ∧
      HasVelocityAt (fun s => o.relative_position kep au s) v t) ∧
    (∀ m, o.mass = some m → ∃ p : ℝ → V3, (∀ s, o.central_position kep au s = .ok (p s)) ∧
      HasVelocityAt p (o.central_velocity kep au t) t) := by
  have hd := trueAnomaly_hasDerivAt hkep hk t
  have hu : (o.trueAnomaly kep t).1 ^ 2 + (o.trueAnomaly kep t).2 ^ 2 = 1 := by
    cases ho : o.ecc with
    | none => simp only [OrbitalBody.trueAnomaly, ho]; exact sin_sq_add_cos_sq _
    | some k =>
      obtain ⟨he0, he1, -⟩ := hk k ho
      obtain ⟨f, -, hf⟩ := hkep (o.meanAnomaly t) k.e he0 he1
      simp only [OrbitalBody.trueAnomaly, ho, hf]
      exact sin_sq_add_cos_sq _
  refine ⟨⟨_, rfl, ?_⟩, ⟨_, rfl, ?_⟩, ?_⟩
  · exact posVel_hasVelocity hk hK au (-o.central.mass) _ t (fun _ => kep) (by ring) hu
      hd.1 hd.2
  · exact posVel_hasVelocity hk hK au (-o.total_mass) _ t (fun _ => kep) (by field_simp) hu
      hd.1 hd.2
  · intro m hm
    refine ⟨fun s => (o.posVel kep au s (some (o.semimajor * m / o.total_mass)) none none none).1,
      fun s => by unfold OrbitalBody.central_position; rw [hm], ?_⟩
    unfold OrbitalBody.central_velocity
    simp only [hm]
    exact posVel_hasVelocity hk hK au m _ t (fun _ => kep) rfl hu hd.1 hd.2

/-- **C18, automatic differentiation.** With the code's *own* solver: let `(s, c)` be any curve
through the solver's output at time `t` that moves as the solver's registered derivative rule says.
Then differentiating `relative_position` along it gives exactly what `relative_velocity` returns
(and likewise in the other two frames), so finite-precision of the iteration plays no role. -/
theorem velocity_is_autodiff_derivative (au : ℝ) {o : OrbitalBody} (hk : ValidEcc o.ecc)
    (hK : o.radial_velocity_semiamplitude = none) (hMt : o.total_mass ≠ 0)
    (t : ℝ) {k : Ecc} (ho : o.ecc = some k) {s c : ℝ → ℝ}
    (h0 : Kepler.kepler (o.meanAnomaly t) k.e = (s t, c t))
    (hs : HasDerivAt s (Kepler.keplerJvp (o.meanAnomaly t) k.e (2 * π / o.period) 0).2.1 t)
    (hc : HasDerivAt c (Kepler.keplerJvp (o.meanAnomaly t) k.e (2 * π / o.period) 0).2.2 t) :
    (∃ v, o.velocity Kepler.kepler au t = .ok v ∧
      HasVelocityAt (fun x => o.position (fun _ _ => (s x, c x)) au x) v t) ∧
    (∃ v, o.relative_velocity Kepler.kepler au t = .ok v ∧
      HasVelocityAt (fun x => o.relative_position (fun _ _ => (s x, c x)) au x) v t) ∧
    (∀ m, o.mass = some m → ∃ p : ℝ → V3,
      (∀ x, o.central_position (fun _ _ => (s x, c x)) au x = .ok (p x)) ∧
      HasVelocityAt p (o.central_velocity Kepler.kepler au t) t) := by
  have htr : o.trueAnomaly Kepler.kepler t = (s t, c t) := by
    simp only [OrbitalBody.trueAnomaly, ho, h0]
  have htr' : ∀ x, o.trueAnomaly (fun _ _ => (s x, c x)) x = (s x, c x) := fun x => by
    simp only [OrbitalBody.trueAnomaly, ho]
  have heV : o.eVal = k.e := by unfold OrbitalBody.eVal; rw [ho]
  have hu : s t ^ 2 + c t ^ 2 = 1 := by
    have := kepler_unitSolver (o.meanAnomaly t) k.e
    rwa [h0] at this
  have hJ : (Kepler.keplerJvp (o.meanAnomaly t) k.e (2 * π / o.period) 0).2 =
      Kepler.jvpTangent (s t) (c t) k.e (2 * π / o.period) 0 := by
    simp only [Kepler.keplerJvp, h0]
  rw [hJ] at hs hc
  have hval : ∀ mu, (o.posVel Kepler.kepler au t none (some mu) none none).2 =
      (o.posVel (fun _ _ => (s t, c t)) au t none (some mu) none none).2 := fun mu => by
    rw [velocity_amplitude o mu au _ t hK, velocity_amplitude o mu au _ t hK, htr, htr' t]
  have key : ∀ mu a, a = o.semimajor * mu / o.total_mass →
      HasVelocityAt (fun x => (o.posVel (fun _ _ => (s x, c x)) au x (some a) none none none).1)
        (o.posVel Kepler.kepler au t none (some mu) none none).2 t := by
    intro mu a ha
    rw [hval]
    refine posVel_hasVelocity hk hK au mu a t (fun x _ _ => (s x, c x)) ha ?_ ?_ ?_
    · rw [htr' t]; exact hu
    · simp only [htr', heV]; exact hs
    · simp only [htr', heV]; exact hc
  refine ⟨⟨_, rfl, key _ _ (by ring)⟩, ⟨_, rfl, key _ _ (by field_simp)⟩, ?_⟩
  intro m hm
  refine ⟨fun x => (o.posVel (fun _ _ => (s x, c x)) au x
      (some (o.semimajor * m / o.total_mass)) none none none).1,
    fun x => by unfold OrbitalBody.central_position; rw [hm], ?_⟩
  unfold OrbitalBody.central_velocity
  simp only [hm]
  exact key _ _ rfl

/-- **F3 (finding).** A body that carries a prescribed semi-amplitude `K` returns the same
vector from `velocity`, `central_velocity` and `relative_velocity`; so velocities do not balance
momentum, and the body's velocity is not the derivative of its position. -/
theorem prescribed_amplitude_breaks_velocity (kep : ℝ → ℝ → ℝ × ℝ) (au : ℝ) (o : OrbitalBody)
    {K : ℝ} (hK : o.radial_velocity_semiamplitude = some K) (t : ℝ) :
    o.velocity kep au t = .ok (o.central_velocity kep au t) ∧
    o.relative_velocity kep au t = .ok (o.central_velocity kep au t) := by
  simp only [OrbitalBody.velocity, OrbitalBody.central_velocity, OrbitalBody.relative_velocity,
    OrbitalBody.posVel, hK]
  exact ⟨trivial, trivial⟩

/-- **C18 (momentum).** Without a prescribed amplitude, and with a mass, momenta balance and the
relative velocity is the difference of the barycentric ones — for any solver. -/
theorem momentum_balance (kep : ℝ → ℝ → ℝ × ℝ) (au : ℝ) (o : OrbitalBody) {m : ℝ}
    (hK : o.radial_velocity_semiamplitude = none) (hm : o.mass = some m)
    (hMt : m + o.central.mass ≠ 0) (t : ℝ) :
    ∃ v w, o.velocity kep au t = .ok v ∧ o.relative_velocity kep au t = .ok w ∧
      let q := o.central_velocity kep au t
      (m * v.x + o.central.mass * q.x = 0 ∧ m * v.y + o.central.mass * q.y = 0 ∧
       m * v.z + o.central.mass * q.z = 0) ∧
      (w.x = v.x - q.x ∧ w.y = v.y - q.y ∧ w.z = v.z - q.z) := by
  have htm : o.total_mass = m + o.central.mass := by
    unfold OrbitalBody.total_mass totalMass; rw [hm]
  refine ⟨_, _, rfl, rfl, ?_⟩
  simp only [OrbitalBody.central_velocity, hm]
  simp only [velocity_amplitude o _ au kep t hK]
  simp only [rotateVector_linear o true (_ * _) (_ * _), htm]
  constructor <;> refine ⟨?_, ?_, ?_⟩ <;> (field_simp; ring)

/-! ## C19 radial velocity -/

/-- sine of the inclination-independent projection: the line-of-sight velocity curve -/
theorem rv_curve (o : OrbitalBody) (A S C : ℝ) (inc : Bool) :
    -(o.rotateVector (-A * S) (A * (C + o.eVal)) inc).z =
      (if inc then o.sin_inclination else 1) * A *
        (match o.ecc with
         | none => C
         | some k => (k.cosw * C - k.sinw * S) + k.e * k.cosw) := by
  unfold OrbitalBody.rotateVector OrbitalBody.eVal
  cases o.ecc <;> cases inc <;> rcases o.node with _ | ⟨_, _⟩ <;> simp <;> ring

/-- **C19 (a).** With a semi-amplitude `K` — given to the method or carried by the body — the
radial velocity of the star is `K (cos(ω+f) + e cos ω)`, irrespective of the inclination, the node,
the masses and the parallax.  (`cos(ω+f)` is written out with the body's `sin ω`, `cos ω`.) -/
theorem radial_velocity_prescribed (kep : ℝ → ℝ → ℝ × ℝ) (au : ℝ) (o : OrbitalBody) (t K : ℝ)
    (arg : Option ℝ) (h : arg = some K ∨ (arg = none ∧ o.radial_velocity_semiamplitude = some K)) :
    o.radial_velocity kep au t arg =
      let S := (o.trueAnomaly kep t).1
      let C := (o.trueAnomaly kep t).2
      K * (match o.ecc with
         | none => C
         | some k => (k.cosw * C - k.sinw * S) + k.e * k.cosw) := by
  have hv : o.central_velocity kep au t arg =
      o.rotateVector (-K * (o.trueAnomaly kep t).1) (K * ((o.trueAnomaly kep t).2 + o.eVal))
        false := by
    rcases h with rfl | ⟨rfl, h⟩
    · unfold OrbitalBody.central_velocity OrbitalBody.posVel OrbitalBody.eVal
      cases o.ecc <;> simp
    · unfold OrbitalBody.central_velocity OrbitalBody.posVel OrbitalBody.eVal
      rw [h]
      cases o.ecc <;> simp
  unfold OrbitalBody.radial_velocity
  rw [hv, rv_curve]
  simp

/-- **C19 (b).** Without a prescribed amplitude, the amplitude is the physical one:
`K = 2π a m sin i / ((m + M) P √(1-e²))`. -/
theorem radial_velocity_physical (kep : ℝ → ℝ → ℝ × ℝ) (au : ℝ) (o : OrbitalBody) (t : ℝ) {m : ℝ}
    (hK : o.radial_velocity_semiamplitude = none) (hm : o.mass = some m) (hp : o.parallax = none) :
    o.radial_velocity kep au t =
      let S := (o.trueAnomaly kep t).1
      let C := (o.trueAnomaly kep t).2
      2 * π * o.semimajor * m * o.sin_inclination /
          ((m + o.central.mass) * o.period * √(1 - o.eVal ^ 2)) *
        (match o.ecc with
         | none => C
         | some k => (k.cosw * C - k.sinw * S) + k.e * k.cosw) := by
  have htm : o.total_mass = m + o.central.mass := by
    unfold OrbitalBody.total_mass totalMass; rw [hm]
  unfold OrbitalBody.radial_velocity OrbitalBody.central_velocity
  simp only [hm]
  rw [velocity_amplitude o m au kep t hK]
  simp only [hp, rv_curve, htm]
  simp only [if_true]
  congr 1
  generalize √(1 - o.eVal ^ 2) = q
  simp only [one_mul, div_eq_mul_inv, mul_inv]
  ring

/-- **C19 (c)**: the trigonometric form used above is `cos(ω+f)`. -/
theorem radial_velocity_angle_form (w f e : ℝ) :
    (cos w * cos f - sin w * sin f) + e * cos w = cos (w + f) + e * cos w := by
  rw [cos_add]

/-- **F4 (finding).** Without a mass and without an amplitude the code silently uses 1 M_sun for the
body: the star's radial velocity is that of a solar-mass companion on the same orbit whose own mass
is not counted in the total mass. -/
theorem massless_radial_velocity_uses_one_solar_mass (kep : ℝ → ℝ → ℝ × ℝ) (au : ℝ)
    (o : OrbitalBody) (t : ℝ) (hK : o.radial_velocity_semiamplitude = none) (hm : o.mass = none) :
    o.central_velocity kep au t = (o.posVel kep au t none (some 1) none none).2 := by
  unfold OrbitalBody.central_velocity
  simp only [hm, OrbitalBody.posVel, hK]

/-- non-vacuity of C18, C19: an eccentric, inclined, massive body -/
example : ∃ o : OrbitalBody, ∃ k, o.ecc = some k ∧ ValidEcc o.ecc ∧ o.period ≠ 0 ∧
    o.radial_velocity_semiamplitude = none ∧ o.total_mass ≠ 0 ∧ o.mass = some 0.5 ∧
    o.parallax = none ∧ k.e = 0.5 := by
  refine ⟨⟨⟨1, 1, 1⟩, 0, 0, 1, 10, 0.6, 0.8, 0, some 0.5, none, some ⟨0.5, 0.6, 0.8⟩,
    some (0.8, 0.6), none, none⟩, _, rfl, ?_, ?_, rfl, ?_, rfl, rfl, rfl⟩
  · intro k hk; cases hk; norm_num
  · norm_num
  · norm_num [OrbitalBody.total_mass, totalMass]

end Jaxoplanet.Keplerian
