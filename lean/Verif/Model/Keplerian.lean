import Verif.Model.Kepler

/-!
# Model of `src/jaxoplanet/orbits/keplerian.py`

Quantities are real numbers in the fixed unit system of the code (day, R_sun, M_sun, radian);
the unit layer itself is modelled in `Verif/Model/Units.lean`.  The gravitational constant in these
units is a parameter `G`, and the length of one R_sun in au a parameter `au`.
-/

namespace Jaxoplanet

/-- Python exceptions as values. the `raise` statements and failing asserts, e.g. `orbits/keplerian.py:44-54, 186-253` -/
inductive PyErr where
  | valueError (msg : String)
  | typeError (msg : String)
  | keyError
  | assertionError
  /-- raised by `equinox` when `__init__` returns without setting every field -/
  | uninitialised
  deriving DecidableEq, Repr

namespace Keplerian

open Real

/-- Fields of `Central`, `orbits/keplerian.py:29-31`. -/
structure Central where
  mass : ℝ
  radius : ℝ
  density : ℝ

/-- `Central.__init__`, `orbits/keplerian.py:36-76`, generic over the argument type only through
its dimension check: `ndim` gives `jnp.ndim` of the three arguments (0 for scalars).
All branches are kept, including the fall-through when all three values are given (no branch of
l.58-76 assigns the fields; `equinox` then raises). -/
noncomputable def Central.init (mass radius density : Option ℝ)
    (ndimM ndimR ndimD : ℕ := 0) : Except PyErr Central :=
  -- l.44-47
  let radius' := if radius.isNone && mass.isNone then some 1 else radius
  let mass' := if radius.isNone && mass.isNone && density.isNone then some 1 else mass
  let nM := if mass.isSome then ndimM else 0
  let nR := if radius.isSome then ndimR else 0
  let nD := if density.isSome then ndimD else 0
  -- l.51-54
  if nM ≠ 0 ∨ nR ≠ 0 ∨ nD ≠ 0 then
    .error (.valueError "All parameters of a KeplerianCentral must be scalars")
  else
    -- l.57-76
    let error_msg := "Values must be provided for exactly two of mass, radius, and density"
    match density with
    | none =>
      match mass', radius' with
      | some m, some r => .ok ⟨m, r, 3 * m / (4 * π * r ^ 3)⟩
      | _, _ => .error (.valueError error_msg)
    | some ρ =>
      match radius' with
      | none =>
        match mass' with
        | none => .error (.valueError error_msg)
        | some m => .ok ⟨m, (3 * m / (4 * π * ρ)) ^ (1 / 3 : ℝ), ρ⟩
      | some r =>
        match mass' with
        | none => .ok ⟨4 * π * r ^ 3 * ρ / 3, r, ρ⟩
        | some _ => .error .uninitialised

/-- `Central.from_orbital_properties`, `orbits/keplerian.py:78-119` (scalar arguments). -/
noncomputable def Central.fromOrbitalProperties (G : ℝ) (period semimajor : ℝ)
    (radius body_mass : Option ℝ) : Except PyErr Central :=
  let radius := radius.getD 1
  let mass := 4 * π ^ 2 * semimajor ^ 3 / (G * period ^ 2)
  let mass := match body_mass with
    | some m => mass - m
    | none => mass
  Central.init (some mass) (some radius) none

/-- Arguments of `Body`, `orbits/keplerian.py:161-183`; `α` is the type of a supplied value. -/
structure Body (α : Type) where
  time_transit : Option α := none
  time_peri : Option α := none
  period : Option α := none
  semimajor : Option α := none
  inclination : Option α := none
  impact_param : Option α := none
  eccentricity : Option α := none
  omega_peri : Option α := none
  sin_omega_peri : Option α := none
  cos_omega_peri : Option α := none
  asc_node : Option α := none
  sin_asc_node : Option α := none
  cos_asc_node : Option α := none
  mass : Option α := none
  radius : Option α := none
  radial_velocity_semiamplitude : Option α := none
  parallax : Option α := none

/-- the list of `orbits/keplerian.py:190-210`, before filtering out `None` -/
def Body.args {α : Type} (b : Body α) : List (Option α) :=
  [b.time_transit, b.time_peri, b.period, b.semimajor, b.inclination, b.impact_param,
   b.eccentricity, b.omega_peri, b.sin_omega_peri, b.cos_omega_peri, b.asc_node, b.sin_asc_node,
   b.cos_asc_node, b.mass, b.radius, b.radial_velocity_semiamplitude, b.parallax]

/-- `Body.__check_init__`, `orbits/keplerian.py:185-253`, in order. -/
def Body.checkInit {α : Type} (ndim : α → ℕ) (b : Body α) : Except PyErr Unit := do
  -- l.186-187
  if !(b.period.isNone ^^ b.semimajor.isNone) then
    throw (.valueError "Exactly one of period or semimajor must be specified")
  -- l.190-216
  if (b.args.filterMap id).any (fun a => ndim a != 0) then
    throw (.valueError "All input arguments to 'Body' must be scalars")
  -- l.218-225
  if b.omega_peri.isSome && (b.sin_omega_peri.isSome || b.cos_omega_peri.isSome) then
    throw (.valueError "Cannot specify both omega_peri and sin_omega_peri or cos_omega_peri")
  if b.sin_omega_peri.isSome ^^ b.cos_omega_peri.isSome then
    throw (.valueError "Both sin_omega_peri and cos_omega_peri must be specified")
  -- l.227-234
  if b.asc_node.isSome && (b.sin_asc_node.isSome || b.cos_asc_node.isSome) then
    throw (.valueError "Cannot specify both asc_node and sin_asc_node or cos_asc_node")
  if b.sin_asc_node.isSome ^^ b.cos_asc_node.isSome then
    throw (.valueError "Both sin_asc_node and cos_asc_node must be specified")
  -- l.236-244
  let has_omega_peri := b.omega_peri.isSome || b.sin_omega_peri.isSome || b.cos_omega_peri.isSome
  if b.eccentricity.isSome ^^ has_omega_peri then
    throw (.valueError "Both or neither of eccentricity and omega_peri must be specified")
  -- l.246-253
  if b.impact_param.isSome && b.inclination.isSome then
    throw (.valueError "Only one of impact_param and inclination can be specified")
  if b.time_transit.isSome && b.time_peri.isSome then
    throw (.valueError "Only one of time_transit or time_peri can be specified")

/-- Constructing a `Body`: the checked record. `orbits/keplerian.py:122-253` -/
def Body.create {α : Type} (ndim : α → ℕ) (b : Body α) : Except PyErr (Body α) :=
  (b.checkInit ndim).map fun _ => b

/-- eccentricity with sine and cosine of the argument of periastron; `orbits/keplerian.py:262-267, 317-323` -/
structure Ecc where
  e : ℝ
  sinw : ℝ
  cosw : ℝ

/-- Fields of `OrbitalBody`, `orbits/keplerian.py:259-277`.
Simplification: `eccentricity`, `sin_omega_peri`, `cos_omega_peri` are `None` together or given
together (`Body.__check_init__` l.218-244), so they are one optional triple; likewise
`sin_asc_node`, `cos_asc_node` (l.227-234). -/
structure OrbitalBody where
  central : Central
  time_ref : ℝ
  time_transit : ℝ
  period : ℝ
  semimajor : ℝ
  sin_inclination : ℝ
  cos_inclination : ℝ
  impact_param : ℝ
  mass : Option ℝ
  radius : Option ℝ
  ecc : Option Ecc
  node : Option (ℝ × ℝ)
  radial_velocity_semiamplitude : Option ℝ
  parallax : Option ℝ

/-- `total_mass`, `orbits/keplerian.py:385-387`. -/
noncomputable def totalMass (central : Central) (mass : Option ℝ) : ℝ :=
  match mass with
  | none => central.mass
  | some m => m + central.mass

/-- `orbits/keplerian.py:288-299`: period and semimajor axis (in that order in the result). -/
noncomputable def periodSemimajor (G : ℝ) (central : Central) (body : Body ℝ) :
    Except PyErr (ℝ × ℝ) :=
  let mass_factor := G * totalMass central body.mass
  match body.semimajor, body.period with
  | none, none => .error .assertionError
  | none, some P => .ok (P, cbrt (mass_factor * P ^ 2 / (4 * π ^ 2)))
  | some a, none => .ok (2 * π * a * √(a / mass_factor), a)
  | some _, some _ => .error .uninitialised

/-- `orbits/keplerian.py:301-307` and the asserts of l.322-323. -/
noncomputable def eccOf (body : Body ℝ) : Except PyErr (Option Ecc) :=
  let sc : Option ℝ × Option ℝ := match body.omega_peri with
    | some w => (some (sin w), some (cos w))
    | none => (body.sin_omega_peri, body.cos_omega_peri)
  match body.eccentricity with
  | none => .ok none
  | some e =>
    match sc with
    | (some s, some c) => .ok (some ⟨e, s, c⟩)
    | _ => .error .assertionError

/-- `orbits/keplerian.py:309-314`. -/
noncomputable def nodeOf (body : Body ℝ) : Option (ℝ × ℝ) :=
  match body.asc_node with
  | some Ω => some (sin Ω, cos Ω)
  | none =>
    match body.sin_asc_node, body.cos_asc_node with
    | some s, some c => some (s, c)
    | _, _ => none

/-- `E0`, `orbits/keplerian.py:324-328`: eccentric anomaly at the reference transit. -/
noncomputable def E0of (k : Ecc) : ℝ :=
  let opsw := 1 + k.sinw
  2 * arctan2 (√(1 - k.e) * k.cosw) (√(1 + k.e) * opsw)

/-- `M0`, `orbits/keplerian.py:318-329`: mean anomaly at the reference transit. -/
noncomputable def M0of (ecc : Option Ecc) : ℝ :=
  match ecc with
  | none => 0.5 * π
  | some k => E0of k - k.e * sin (E0of k)

/-- `incl_factor`, `orbits/keplerian.py:320, 331-332, 331-332`. -/
noncomputable def inclFactor (ecc : Option Ecc) : ℝ :=
  match ecc with
  | none => 1
  | some k => (1 + k.e * k.sinw) / (1 - k.e ^ 2)

/-- `orbits/keplerian.py:334-350`: `(impact_param, cos_inclination, sin_inclination)`. -/
noncomputable def inclOf (dcosidb : ℝ) (body : Body ℝ) : ℝ × ℝ × ℝ :=
  match body.impact_param, body.inclination with
  | some b, _ => (b, dcosidb * b, √(1 - (dcosidb * b) ^ 2))
  | none, some i => (cos i / dcosidb, cos i, sin i)
  | none, none => (0, 0, 1)

/-- `OrbitalBody.__init__`, `orbits/keplerian.py:279-359`. -/
noncomputable def OrbitalBody.init (G : ℝ) (central : Central) (body : Body ℝ) :
    Except PyErr OrbitalBody := do
  let (period, semimajor) ← periodSemimajor G central body
  let ecc ← eccOf body
  let M0 := M0of ecc
  let dcosidb := inclFactor ecc * central.radius / semimajor
  let (b, ci, si) := inclOf dcosidb body
  let time_ref := -M0 * period / (2 * π)
  let time_transit := match body.time_transit, body.time_peri with
    | some t, _ => t
    | none, some tp => tp - time_ref
    | none, none => 0
  return { central, time_ref, time_transit, period, semimajor, sin_inclination := si,
           cos_inclination := ci, impact_param := b, mass := body.mass, radius := body.radius,
           ecc, node := nodeOf body,
           radial_velocity_semiamplitude := body.radial_velocity_semiamplitude,
           parallax := body.parallax }

/-- `Body(...)` followed by `OrbitalBody(central, body)`: what `System` does with user input. `orbits/keplerian.py:279-359` -/
noncomputable def mkOrbitalBody (G : ℝ) (central : Central) (body : Body ℝ) :
    Except PyErr OrbitalBody := do
  let body ← Body.create (fun _ => 0) body
  OrbitalBody.init G central body

namespace OrbitalBody

/-- `total_mass`, `orbits/keplerian.py:385-387`. -/
noncomputable def total_mass (o : OrbitalBody) : ℝ := totalMass o.central o.mass

/-- `time_peri`, `orbits/keplerian.py:369-371`. -/
noncomputable def time_peri (o : OrbitalBody) : ℝ := o.time_transit + o.time_ref

/-- `inclination`, `orbits/keplerian.py:373-375`. -/
noncomputable def inclination (o : OrbitalBody) : ℝ := arctan2 o.sin_inclination o.cos_inclination

/-- `omega_peri`, `orbits/keplerian.py:377-383`. -/
noncomputable def omega_peri (o : OrbitalBody) : Option ℝ :=
  o.ecc.map fun k => arctan2 k.sinw k.cosw

/-- `_warp_times`, `orbits/keplerian.py:546-547`. -/
noncomputable def warpTimes (o : OrbitalBody) (t : ℝ) : ℝ := t - o.time_transit

/-- the mean anomaly of `orbits/keplerian.py:551` -/
noncomputable def meanAnomaly (o : OrbitalBody) (t : ℝ) : ℝ :=
  2 * π * (o.warpTimes t - o.time_ref) / o.period

/-- `_get_true_anomaly`, `orbits/keplerian.py:549-554`: `(sin f, cos f)`.
`kep` is the Kepler solver; the code uses `Kepler.kepler`. -/
noncomputable def trueAnomaly (kep : ℝ → ℝ → ℝ × ℝ) (o : OrbitalBody) (t : ℝ) : ℝ × ℝ :=
  match o.ecc with
  | none => (sin (o.meanAnomaly t), cos (o.meanAnomaly t))
  | some k => kep (o.meanAnomaly t) k.e

end OrbitalBody

/-- a vector in the observer's frame -/
@[ext] structure V3 where
  x : ℝ
  y : ℝ
  z : ℝ

/-- `_rotate_vector`, `orbits/keplerian.py:556-599`. -/
noncomputable def OrbitalBody.rotateVector (o : OrbitalBody) (x y : ℝ)
    (include_inclination : Bool := true) : V3 :=
  -- l.576-582
  let (x1, y1) := match o.ecc with
    | none => (x, y)
    | some k => (k.cosw * x - k.sinw * y, k.sinw * x + k.cosw * y)
  -- l.584-593
  let (x2, y2, Z) :=
    if include_inclination then (x1, o.cos_inclination * y1, -o.sin_inclination * y1)
    else (x1, y1, -y1)
  -- l.595-601
  match o.node with
  | none => ⟨x2, y2, Z⟩
  | some (sΩ, cΩ) => ⟨cΩ * x2 - sΩ * y2, sΩ * x2 + cΩ * y2, Z⟩

/-- `_get_position_and_velocity`, `orbits/keplerian.py:603-673`.  `au` is 1 R_sun in au.
Simplification: the shape check (l.621-625) is vacuous for scalar bodies and unit stripping
(l.664-671) does not change the number. -/
noncomputable def OrbitalBody.posVel (kep : ℝ → ℝ → ℝ × ℝ) (au : ℝ) (o : OrbitalBody) (t : ℝ)
    (semimajor mass semiamplitude parallax : Option ℝ) : V3 × V3 :=
  -- l.627-628
  let semiamplitude := match semiamplitude with
    | none => o.radial_velocity_semiamplitude
    | some k => some k
  -- l.630-631
  let parallax := match parallax with
    | none => o.parallax
    | some p => some p
  -- l.633-646
  let k0 := match semiamplitude with
    | none =>
      let k0 := match o.radial_velocity_semiamplitude with
        | none =>
          let m := match mass with
            | none => 1
            | some m => m
          let k0 := 2 * π * o.semimajor * m / (o.total_mass * o.period)
          match o.ecc with
          | none => k0
          | some k => k0 / √(1 - k.e ^ 2)
        | some K => K
      match parallax with
      | none => k0
      | some p => k0 * au * p
    | some K => K
  -- l.648-653
  let r0 := match semimajor with
    | none => 1
    | some a =>
      match parallax with
      | none => a
      | some p => a * au * p
  -- l.655-661
  let (sinf, cosf) := o.trueAnomaly kep t
  let (v1, v2, r0) := match o.ecc with
    | none => (-k0 * sinf, k0 * cosf, r0)
    | some k => (-k0 * sinf, k0 * (cosf + k.e), r0 * ((1 - k.e ^ 2) / (1 + k.e * cosf)))
  (o.rotateVector (r0 * cosf) (r0 * sinf), o.rotateVector v1 v2 semiamplitude.isNone)

namespace OrbitalBody

variable (kep : ℝ → ℝ → ℝ × ℝ) (au : ℝ) (o : OrbitalBody) (t : ℝ)

/-- `position`, `orbits/keplerian.py:389-404`. -/
noncomputable def position (parallax : Option ℝ := none) : V3 :=
  (o.posVel kep au t (some (-o.semimajor * o.central.mass / o.total_mass)) none none parallax).1

/-- `central_position`, `orbits/keplerian.py:406-421`; multiplying a quantity by a missing mass
(`None`) raises a `TypeError`. -/
noncomputable def central_position (parallax : Option ℝ := none) : Except PyErr V3 :=
  match o.mass with
  | none => .error (.typeError "unsupported operand type(s) for *: 'Quantity' and 'NoneType'")
  | some m =>
    .ok (o.posVel kep au t (some (o.semimajor * m / o.total_mass)) none none parallax).1

/-- `relative_position`, `orbits/keplerian.py:423-439`. -/
noncomputable def relative_position (parallax : Option ℝ := none) : V3 :=
  (o.posVel kep au t (some (-o.semimajor)) none none parallax).1

/-- `relative_angles`, `orbits/keplerian.py:441-457`: separation and position angle. -/
noncomputable def relative_angles (parallax : Option ℝ := none) : ℝ × ℝ :=
  let p := o.relative_position kep au t parallax
  (√(p.x ^ 2 + p.y ^ 2), arctan2 p.y p.x)

/-- `velocity`, `orbits/keplerian.py:459-479`. -/
noncomputable def velocity (semiamplitude : Option ℝ := none) : Except PyErr V3 :=
  match semiamplitude with
  | none => .ok (o.posVel kep au t none (some (-o.central.mass)) none none).2
  | some K =>
    match o.mass with
    | none => .error (.typeError "unsupported operand type(s) for /: 'Quantity' and 'NoneType'")
    | some m => .ok (o.posVel kep au t none none (some (-K * o.central.mass / m)) none).2

/-- `central_velocity`, `orbits/keplerian.py:481-500`. -/
noncomputable def central_velocity (semiamplitude : Option ℝ := none) : V3 :=
  match semiamplitude with
  | none => (o.posVel kep au t none o.mass none none).2
  | some K => (o.posVel kep au t none none (some K) none).2

/-- `relative_velocity`, `orbits/keplerian.py:502-523`. -/
noncomputable def relative_velocity (semiamplitude : Option ℝ := none) : Except PyErr V3 :=
  match semiamplitude with
  | none => .ok (o.posVel kep au t none (some (-o.total_mass)) none none).2
  | some K =>
    match o.mass with
    | none => .error (.typeError "unsupported operand type(s) for /: 'Quantity' and 'NoneType'")
    | some m => .ok (o.posVel kep au t none none (some (-K * o.total_mass / m)) none).2

/-- `radial_velocity`, `orbits/keplerian.py:525-544`. -/
noncomputable def radial_velocity (semiamplitude : Option ℝ := none) : ℝ :=
  -(o.central_velocity kep au t semiamplitude).z

end OrbitalBody

end Keplerian
end Jaxoplanet
