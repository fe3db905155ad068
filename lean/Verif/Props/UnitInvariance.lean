import Verif.Proofs.Orbit

/-!
# C58: results do not depend on the unit system

Multiplying all lengths by `L`, all masses by `m` and all times by `T` (i.e. measuring in other units)
multiplies every result by the factor its dimension demands.
-/

namespace Jaxoplanet.Keplerian

open Real Spec

/-- factors between two unit systems -/
structure Scale where
  /-- lengths -/
  L : ℝ
  /-- masses -/
  m : ℝ
  /-- times -/
  T : ℝ
  L_pos : 0 < L
  m_pos : 0 < m
  T_pos : 0 < T

namespace Scale
variable (s : Scale)

/-- Newton's constant in the other units -/
noncomputable def G (G : ℝ) : ℝ := G * s.L ^ 3 / (s.m * s.T ^ 2)

/-- the star in the other units -/
noncomputable def central (c : Central) : Central := ⟨s.m * c.mass, s.L * c.radius, s.m / s.L ^ 3 * c.density⟩

/-- the body in the other units (angles and eccentricity are numbers) -/
noncomputable def body (b : Body ℝ) : Body ℝ :=
  { b with
    time_transit := b.time_transit.map (s.T * ·)
    time_peri := b.time_peri.map (s.T * ·)
    period := b.period.map (s.T * ·)
    semimajor := b.semimajor.map (s.L * ·)
    mass := b.mass.map (s.m * ·)
    radius := b.radius.map (s.L * ·)
    radial_velocity_semiamplitude := b.radial_velocity_semiamplitude.map (s.L / s.T * ·) }

/-- the orbit in the other units -/
noncomputable def orbit (o : OrbitalBody) : OrbitalBody :=
  { o with
    central := s.central o.central
    time_ref := s.T * o.time_ref
    time_transit := s.T * o.time_transit
    period := s.T * o.period
    semimajor := s.L * o.semimajor
    mass := o.mass.map (s.m * ·)
    radius := o.radius.map (s.L * ·)
    radial_velocity_semiamplitude := o.radial_velocity_semiamplitude.map (s.L / s.T * ·) }

/-- a vector in other units -/
noncomputable def vec (k : ℝ) (v : V3) : V3 := ⟨k * v.x, k * v.y, k * v.z⟩

theorem totalMass_eq (c : Central) (m : Option ℝ) :
    totalMass (s.central c) (m.map (s.m * ·)) = s.m * totalMass c m := by
  cases m <;> simp [totalMass, central, mul_add]

theorem cbrt_scale {k x : ℝ} (hk : 0 ≤ k) : cbrt (k ^ 3 * x) = k * cbrt x := by
  rcases eq_or_lt_of_le hk with rfl | hk
  · simp [cbrt]
  · have h3 : 0 < k ^ 3 := by positivity
    unfold cbrt
    by_cases hx : 0 ≤ x
    · rw [if_pos hx, if_pos (by positivity), mul_rpow h3.le hx, ← rpow_natCast, ← rpow_mul hk.le]
      norm_num
    · have hx' : x < 0 := not_le.1 hx
      rw [if_neg hx, if_neg (by nlinarith), ← mul_neg, mul_rpow h3.le (by linarith), ← rpow_natCast,
        ← rpow_mul hk.le]
      norm_num

theorem periodSemimajor_scale (G : ℝ) (c : Central) (b : Body ℝ) :
    periodSemimajor (s.G G) (s.central c) (s.body b) =
      (periodSemimajor G c b).map fun pa => (s.T * pa.1, s.L * pa.2) := by
  have hL := s.L_pos
  have hm := s.m_pos
  have hT := s.T_pos
  unfold periodSemimajor
  have hmass : (s.body b).mass = b.mass.map (s.m * ·) := rfl
  have hs : (s.body b).semimajor = b.semimajor.map (s.L * ·) := rfl
  have hp : (s.body b).period = b.period.map (s.T * ·) := rfl
  rw [hmass, hs, hp, totalMass_eq]
  have hmf : s.G G * (s.m * totalMass c b.mass) = s.L ^ 3 / s.T ^ 2 * (G * totalMass c b.mass) := by
    unfold Scale.G; field_simp
  rw [hmf]
  generalize G * totalMass c b.mass = mf
  cases b.semimajor with
  | none =>
    cases b.period with
    | none => rfl
    | some P =>
      simp only [Option.map_none, Option.map_some, Except.map, Except.ok.injEq, Prod.mk.injEq, true_and]
      rw [← cbrt_scale hL.le]
      congr 1
      field_simp
  | some a =>
    cases b.period with
    | none =>
      simp only [Option.map_none, Option.map_some, Except.map, Except.ok.injEq, Prod.mk.injEq, and_true]
      have : s.L * a / (s.L ^ 3 / s.T ^ 2 * mf) = (s.T / s.L) ^ 2 * (a / mf) := by
        field_simp
      rw [this, Real.sqrt_mul (by positivity), Real.sqrt_sq (by positivity)]
      field_simp
    | some P => rfl

/-- C58: building an orbit commutes with the change of units (and with errors). -/
theorem mkOrbitalBody_scale (G : ℝ) (c : Central) (b : Body ℝ) :
    mkOrbitalBody (s.G G) (s.central c) (s.body b) = (mkOrbitalBody G c b).map s.orbit := by
  have hL := s.L_pos
  have hT := s.T_pos
  have hcreate : Body.create (fun _ : ℝ => 0) (s.body b) =
      (Body.create (fun _ : ℝ => 0) b).map s.body := by
    have h1 : ∀ b : Body ℝ, (b.args.filterMap id).any (fun _ : ℝ => (0 : ℕ) != 0) = false := by
      intro b; simp; intro x _; cases x <;> rfl
    unfold Body.create
    have : Body.checkInit (fun _ : ℝ => 0) (s.body b) = Body.checkInit (fun _ : ℝ => 0) b := by
      unfold Body.checkInit
      rw [h1, h1]
      simp only [Scale.body, Option.isNone_map, Option.isSome_map]
    rw [this]
    cases Body.checkInit (fun _ : ℝ => 0) b <;> rfl
  unfold mkOrbitalBody
  rw [hcreate]
  cases hc : Body.create (fun _ : ℝ => 0) b with
  | error e => rfl
  | ok b' =>
    have hb' : b' = b := (body_accepted_iff (fun _ : ℝ => 0) b).2.1 b' hc
    subst hb'
    simp only [Except.map, bind, Except.bind, OrbitalBody.init]
    rw [periodSemimajor_scale]
    cases periodSemimajor G c b' with
    | error e => rfl
    | ok pa =>
      simp only [Except.map]
      have hecc : eccOf (s.body b') = eccOf b' := rfl
      rw [hecc]
      cases eccOf b' with
      | error e => rfl
      | ok ecc =>
        simp only [pure, Except.pure, Except.ok.injEq]
        have hd : inclFactor ecc * (s.central c).radius / (s.L * pa.2) =
            inclFactor ecc * c.radius / pa.2 := by
          simp only [Scale.central]
          by_cases h : pa.2 = 0
          · simp [h]
          · field_simp
        have hi : inclOf (inclFactor ecc * c.radius / pa.2) (s.body b') =
            inclOf (inclFactor ecc * c.radius / pa.2) b' := rfl
        have htt : (s.body b').time_transit = b'.time_transit.map (s.T * ·) := rfl
        have htp : (s.body b').time_peri = b'.time_peri.map (s.T * ·) := rfl
        have hr : -M0of ecc * (s.T * pa.1) / (2 * π) = s.T * (-M0of ecc * pa.1 / (2 * π)) := by ring
        rw [hd, hi, htt, htp, hr]
        simp only [Scale.orbit, Scale.body]
        congr 1
        cases b'.time_transit with
        | some t => rfl
        | none =>
          cases b'.time_peri with
          | some tp => simp only [Option.map_none, Option.map_some]; ring
          | none => simp

variable (kep : ℝ → ℝ → ℝ × ℝ) (au : ℝ) (o : OrbitalBody) (t : ℝ)

theorem trueAnomaly_scale : (s.orbit o).trueAnomaly kep (s.T * t) = o.trueAnomaly kep t := by
  have hT := s.T_pos
  have : (s.orbit o).meanAnomaly (s.T * t) = o.meanAnomaly t := by
    simp only [OrbitalBody.meanAnomaly, OrbitalBody.warpTimes, Scale.orbit]
    by_cases h : o.period = 0
    · simp [h]
    · field_simp
  unfold OrbitalBody.trueAnomaly
  rw [this]
  rfl

theorem rotateVector_scale (k x y : ℝ) (inc : Bool) :
    (s.orbit o).rotateVector (k * x) (k * y) inc = vec k (o.rotateVector x y inc) := by
  unfold OrbitalBody.rotateVector vec
  simp only [Scale.orbit]
  cases o.ecc <;> cases inc <;> cases o.node <;> simp only [Bool.false_eq_true, if_false, if_true] <;>
    (ext <;> simp only <;> ring)

/-- positions: a length, unless a parallax turns it into an angle -/
theorem posVel_fst_scale (a : ℝ) (m m' K K' p : Option ℝ) :
    ((s.orbit o).posVel kep (au / s.L) (s.T * t) (some (s.L * a)) m' K' p).1 =
      vec (if p.isNone && o.parallax.isNone then s.L else 1)
        (o.posVel kep au t (some a) m K p).1 := by
  have hL := s.L_pos.ne'
  unfold OrbitalBody.posVel
  simp only [trueAnomaly_scale]
  have hecc : (s.orbit o).ecc = o.ecc := rfl
  have hpar : (s.orbit o).parallax = o.parallax := rfl
  rw [hecc, hpar]
  cases p with
  | some p =>
    cases h : o.ecc <;> simp only [Option.isNone_some, Bool.false_and, Bool.false_eq_true, if_false] <;>
      rw [← rotateVector_scale] <;> (congr 1 <;> field_simp)
  | none =>
    cases hp : o.parallax with
    | some p =>
      cases h : o.ecc <;> simp only [Option.isNone_none, Option.isNone_some, Bool.and_false,
        Bool.false_eq_true, if_false] <;>
        rw [← rotateVector_scale] <;> (congr 1 <;> field_simp)
    | none =>
      cases h : o.ecc <;> simp only [Option.isNone_none, Bool.and_self, if_true] <;>
        rw [← rotateVector_scale] <;> (congr 1 <;> ring)

/-- C58: positions are lengths (angles when a parallax is given). -/
theorem position_scale (p : Option ℝ) :
    let k := if p.isNone && o.parallax.isNone then s.L else 1
    (s.orbit o).relative_position kep (au / s.L) (s.T * t) p = vec k (o.relative_position kep au t p) ∧
    (s.orbit o).position kep (au / s.L) (s.T * t) p = vec k (o.position kep au t p) ∧
    (s.orbit o).central_position kep (au / s.L) (s.T * t) p =
      (o.central_position kep au t p).map (vec k) := by
  have hm := s.m_pos.ne'
  have htot : (s.orbit o).total_mass = s.m * o.total_mass := totalMass_eq s o.central o.mass
  refine ⟨?_, ?_, ?_⟩
  · unfold OrbitalBody.relative_position
    rw [← posVel_fst_scale (m' := none) (K' := none)]
    congr 4
    simp [Scale.orbit]
  · unfold OrbitalBody.position
    rw [← posVel_fst_scale (m' := none) (K' := none), htot]
    congr 4
    simp only [Scale.orbit, Scale.central]
    by_cases h : o.total_mass = 0
    · simp [h]
    · field_simp
  · unfold OrbitalBody.central_position
    have hmass : (s.orbit o).mass = o.mass.map (s.m * ·) := rfl
    rw [hmass]
    cases o.mass with
    | none => rfl
    | some m =>
      simp only [Option.map_some, Except.map, Except.ok.injEq]
      rw [← posVel_fst_scale (m' := none) (K' := none), htot]
      congr 4
      simp only [Scale.orbit]
      by_cases h : o.total_mass = 0
      · simp [h]
      · field_simp

/-- velocities without a parallax -/
theorem posVel_snd_scale (hpar : o.parallax = none) (M : Option ℝ) (K : Option ℝ)
    (hM : M.isSome ∨ o.radial_velocity_semiamplitude.isSome ∨ K.isSome) :
    ((s.orbit o).posVel kep (au / s.L) (s.T * t) none (M.map (s.m * ·)) (K.map (s.L / s.T * ·)) none).2 =
      vec (s.L / s.T) (o.posVel kep au t none M K none).2 := by
  have hm := s.m_pos.ne'
  have hT := s.T_pos.ne'
  have htot : (s.orbit o).total_mass = s.m * o.total_mass := totalMass_eq s o.central o.mass
  unfold OrbitalBody.posVel
  simp only [trueAnomaly_scale, htot]
  have hecc : (s.orbit o).ecc = o.ecc := rfl
  have hpar' : (s.orbit o).parallax = o.parallax := rfl
  have hrv : (s.orbit o).radial_velocity_semiamplitude =
    o.radial_velocity_semiamplitude.map (s.L / s.T * ·) := rfl
  have hsm : (s.orbit o).semimajor = s.L * o.semimajor := rfl
  have hP : (s.orbit o).period = s.T * o.period := rfl
  rw [hecc, hpar', hpar, hrv, hsm, hP]
  cases K with
  | some K =>
    cases o.ecc <;> simp only [Option.map_some] <;> rw [← rotateVector_scale] <;> (congr 1 <;> ring)
  | none =>
    cases hr : o.radial_velocity_semiamplitude with
    | some K =>
      cases o.ecc <;> simp only [Option.map_some, Option.map_none] <;> rw [← rotateVector_scale] <;>
        (congr 1 <;> ring)
    | none =>
      cases M with
      | none => simp [hr] at hM
      | some M =>
        simp only [Option.map_some, Option.map_none]
        have e1 : 2 * π * (s.L * o.semimajor) * (s.m * M) / (s.m * o.total_mass * (s.T * o.period)) =
            s.L / s.T * (2 * π * o.semimajor * M / (o.total_mass * o.period)) := by
          by_cases h1 : o.total_mass = 0
          · simp [h1]
          by_cases h2 : o.period = 0
          · simp [h2]
          field_simp
        rw [e1]
        cases o.ecc <;> simp only [] <;> rw [← rotateVector_scale] <;> (congr 1 <;> ring)

/-- C58: velocities are lengths over times. (The reflex velocity of the star due to a body without a mass
is not covered: the code takes one solar mass there, finding F4.) -/
theorem velocity_scale (hpar : o.parallax = none) :
    (s.orbit o).velocity kep (au / s.L) (s.T * t) = (o.velocity kep au t).map (vec (s.L / s.T)) ∧
    (s.orbit o).relative_velocity kep (au / s.L) (s.T * t) =
      (o.relative_velocity kep au t).map (vec (s.L / s.T)) ∧
    ((o.mass.isSome ∨ o.radial_velocity_semiamplitude.isSome) →
      (s.orbit o).central_velocity kep (au / s.L) (s.T * t) =
        vec (s.L / s.T) (o.central_velocity kep au t) ∧
      (s.orbit o).radial_velocity kep (au / s.L) (s.T * t) = s.L / s.T * o.radial_velocity kep au t) := by
  have htot : (s.orbit o).total_mass = s.m * o.total_mass := totalMass_eq s o.central o.mass
  have hc : (s.orbit o).central.mass = s.m * o.central.mass := rfl
  refine ⟨?_, ?_, fun h => ?_⟩
  · simp only [OrbitalBody.velocity, Except.map, Except.ok.injEq, hc]
    have := posVel_snd_scale s kep au o t hpar (some (-o.central.mass)) none (.inl rfl)
    simpa using this
  · simp only [OrbitalBody.relative_velocity, Except.map, Except.ok.injEq, htot]
    have := posVel_snd_scale s kep au o t hpar (some (-o.total_mass)) none (.inl rfl)
    simpa using this
  · have key : (s.orbit o).central_velocity kep (au / s.L) (s.T * t) =
        vec (s.L / s.T) (o.central_velocity kep au t) := by
      simp only [OrbitalBody.central_velocity]
      exact posVel_snd_scale s kep au o t hpar o.mass none (by tauto)
    refine ⟨key, ?_⟩
    simp only [OrbitalBody.radial_velocity, key, vec]
    ring

/-- metres, kilograms and seconds instead of solar radii, solar masses and days -/
example : ∃ s : Scale, s.L = 6.957e8 ∧ s.T = 86400 :=
  ⟨⟨6.957e8, 1.98840987e30, 86400, by norm_num, by norm_num, by norm_num⟩, rfl, rfl⟩

end Scale

end Jaxoplanet.Keplerian
