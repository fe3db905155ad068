import Verif.Model.Autodiff
import Verif.Model.Keplerian

/-!
# Model of the automatic differentiation of `src/jaxoplanet/orbits/keplerian.py`

The same program as `Model/Keplerian.lean`, on numbers with derivatives, see `Model/Autodiff.lean`. There is no `jnp.where` in it, so that both modes
of automatic differentiation give the same derivatives. `kepler` has its own derivative rule, `core/kepler.py:59-79`.
-/

namespace Jaxoplanet.Keplerian
open Real AD AD.Dual

open Classical in
/-- `jnp.cbrt(x)` (`cbrt_p`): the local derivative `1 / (3 cbrt(x)²)` is not finite at zero; `orbits/keplerian.py:292` -/
noncomputable def cbrtD (a : Dual) : Dual := ⟨cbrt a.v, lin (if a.v = 0 then none else some (1 / 3 * (1 / cbrt a.v ^ 2))) a.d⟩

open Classical in
/-- `kepler(M, ecc)` with its derivative rule, `core/kepler.py:12-79`; `kep` is the solver. The rule divides by `1 - e**2` and its power 1.5, which
is not a finite number unless `1 - e**2` is positive. -/
noncomputable def keplerD (kep : ℝ → ℝ → ℝ × ℝ) (M e : Dual) : Dual × Dual :=
  let s := kep M.v e.v
  let tangent : Option (ℝ × ℝ) := if 1 - e.v ^ 2 ≤ 0 then none else Option.map₂ (Kepler.jvpTangent s.1 s.2 e.v) M.d e.d
  (⟨s.1, tangent.map Prod.fst⟩, ⟨s.2, tangent.map Prod.snd⟩)

/-- the fields of `Central` that an orbit uses, `orbits/keplerian.py:29-30` -/
structure CentralD where
  mass : Dual
  radius : Dual

/-- eccentricity with sine and cosine of the argument of periastron; `orbits/keplerian.py:262-267, 317-323` -/
structure EccD where
  e : Dual
  sinw : Dual
  cosw : Dual

/-- Fields of `OrbitalBody`, `orbits/keplerian.py:259-277`, with the simplifications of `Keplerian.OrbitalBody` -/
structure OrbitalBodyD where
  central : CentralD
  time_ref : Dual
  time_transit : Dual
  period : Dual
  semimajor : Dual
  sin_inclination : Dual
  cos_inclination : Dual
  impact_param : Dual
  mass : Option Dual
  ecc : Option EccD
  node : Option (Dual × Dual)
  radial_velocity_semiamplitude : Option Dual
  parallax : Option Dual

/-- `total_mass`, `orbits/keplerian.py:385-387`. -/
noncomputable def totalMassD (central : CentralD) (mass : Option Dual) : Dual :=
  match mass with
  | none => central.mass
  | some m => m + central.mass

/-- `orbits/keplerian.py:288-299`: period and semimajor axis -/
noncomputable def periodSemimajorD (G : ℝ) (central : CentralD) (body : Body Dual) : Except PyErr (Dual × Dual) :=
  let mass_factor := const G * totalMassD central body.mass
  match body.semimajor, body.period with
  | none, none => .error .assertionError
  | none, some P => .ok (P, cbrtD (mass_factor * P.square / const (4 * π ^ 2)))
  | some a, none => .ok (const (2 * π) * a * (a / mass_factor).sqrt, a)
  | some _, some _ => .error .uninitialised

/-- `orbits/keplerian.py:301-307` and the asserts of l.322-323. -/
noncomputable def eccOfD (body : Body Dual) : Except PyErr (Option EccD) :=
  let sc : Option Dual × Option Dual := match body.omega_peri with
    | some w => (some w.sin, some w.cos)
    | none => (body.sin_omega_peri, body.cos_omega_peri)
  match body.eccentricity with
  | none => .ok none
  | some e =>
    match sc with
    | (some s, some c) => .ok (some ⟨e, s, c⟩)
    | _ => .error .assertionError

/-- `orbits/keplerian.py:309-314`. -/
noncomputable def nodeOfD (body : Body Dual) : Option (Dual × Dual) :=
  match body.asc_node with
  | some Ω => some (Ω.sin, Ω.cos)
  | none =>
    match body.sin_asc_node, body.cos_asc_node with
    | some s, some c => some (s, c)
    | _, _ => none

/-- `E0`, `orbits/keplerian.py:324-328` -/
noncomputable def E0ofD (k : EccD) : Dual :=
  let opsw := const 1 + k.sinw
  const 2 * Dual.atan2 ((const 1 - k.e).sqrt * k.cosw) ((const 1 + k.e).sqrt * opsw)

/-- `M0`, `orbits/keplerian.py:318-329` -/
noncomputable def M0ofD (ecc : Option EccD) : Dual :=
  match ecc with
  | none => const (0.5 * π)
  | some k => E0ofD k - k.e * (E0ofD k).sin

/-- `incl_factor`, `orbits/keplerian.py:320, 331-332` -/
noncomputable def inclFactorD (ecc : Option EccD) : Dual :=
  match ecc with
  | none => const 1
  | some k => (const 1 + k.e * k.sinw) / (const 1 - k.e.square)

/-- `orbits/keplerian.py:334-350`: `(impact_param, cos_inclination, sin_inclination)`. -/
noncomputable def inclOfD (dcosidb : Dual) (body : Body Dual) : Dual × Dual × Dual :=
  match body.impact_param, body.inclination with
  | some b, _ => (b, dcosidb * b, (const 1 - (dcosidb * b).square).sqrt)
  | none, some i => (i.cos / dcosidb, i.cos, i.sin)
  | none, none => (const 0, const 0, const 1)

/-- `time_transit`, `orbits/keplerian.py:353-359` -/
noncomputable def timeTransitD (time_ref : Dual) (body : Body Dual) : Dual :=
  match body.time_transit, body.time_peri with
  | some t, _ => t
  | none, some tp => tp - time_ref
  | none, none => const 0

/-- `OrbitalBody.__init__`, `orbits/keplerian.py:279-359`. -/
noncomputable def OrbitalBodyD.init (G : ℝ) (central : CentralD) (body : Body Dual) : Except PyErr OrbitalBodyD := do
  let (period, semimajor) ← periodSemimajorD G central body
  let ecc ← eccOfD body
  let M0 := M0ofD ecc
  let dcosidb := inclFactorD ecc * central.radius / semimajor
  let i := inclOfD dcosidb body
  let time_ref := -M0 * period / const (2 * π)
  return { central, time_ref, time_transit := timeTransitD time_ref body, period, semimajor, sin_inclination := i.2.2,
           cos_inclination := i.2.1, impact_param := i.1, mass := body.mass, ecc, node := nodeOfD body,
           radial_velocity_semiamplitude := body.radial_velocity_semiamplitude, parallax := body.parallax }

/-- `Body(...)` followed by `OrbitalBody(central, body)`, `orbits/keplerian.py:279-359`; the checks only see which arguments are given -/
noncomputable def mkOrbitalBodyD (G : ℝ) (central : CentralD) (body : Body Dual) : Except PyErr OrbitalBodyD := do
  let body ← Body.create (fun _ => 0) body
  OrbitalBodyD.init G central body

namespace OrbitalBodyD

/-- `total_mass`, `orbits/keplerian.py:385-387`. -/
noncomputable def total_mass (o : OrbitalBodyD) : Dual := totalMassD o.central o.mass

/-- the mean anomaly of `orbits/keplerian.py:546-551` -/
noncomputable def meanAnomaly (o : OrbitalBodyD) (t : Dual) : Dual := const (2 * π) * ((t - o.time_transit) - o.time_ref) / o.period

/-- `_get_true_anomaly`, `orbits/keplerian.py:549-554` -/
noncomputable def trueAnomaly (kep : ℝ → ℝ → ℝ × ℝ) (o : OrbitalBodyD) (t : Dual) : Dual × Dual :=
  match o.ecc with
  | none => ((o.meanAnomaly t).sin, (o.meanAnomaly t).cos)
  | some k => keplerD kep (o.meanAnomaly t) k.e

end OrbitalBodyD

/-- a vector in the observer's frame; the result of `orbits/keplerian.py:556-599` -/
structure V3D where
  x : Dual
  y : Dual
  z : Dual

/-- step 1 of `_rotate_vector`, `orbits/keplerian.py:576-582` -/
noncomputable def rotateOmegaD (ecc : Option EccD) (x y : Dual) : Dual × Dual :=
  match ecc with
  | none => (x, y)
  | some k => (k.cosw * x - k.sinw * y, k.sinw * x + k.cosw * y)

/-- step 3 of `_rotate_vector`, `orbits/keplerian.py:595-601` -/
noncomputable def rotateNodeD (node : Option (Dual × Dual)) (x2 y2 Z : Dual) : V3D :=
  match node with
  | none => ⟨x2, y2, Z⟩
  | some n => ⟨n.2 * x2 - n.1 * y2, n.1 * x2 + n.2 * y2, Z⟩

/-- `_rotate_vector`, `orbits/keplerian.py:556-601`. -/
noncomputable def OrbitalBodyD.rotateVector (o : OrbitalBodyD) (x y : Dual) (include_inclination : Bool := true) : V3D :=
  let p := rotateOmegaD o.ecc x y
  if include_inclination then rotateNodeD o.node p.1 (o.cos_inclination * p.2) (-o.sin_inclination * p.2)
  else rotateNodeD o.node p.1 p.2 (-p.2)

/-- `k0` for a body with the mass `mass`, `orbits/keplerian.py:633-640` -/
noncomputable def OrbitalBodyD.amplitudeOfMass (o : OrbitalBodyD) (mass : Option Dual) : Dual :=
  let m := mass.getD (const 1)
  let k0 := const (2 * π) * o.semimajor * m / (o.total_mass * o.period)
  match o.ecc with
  | none => k0
  | some k => k0 / (const 1 - k.e.square).sqrt

/-- `k0`, `orbits/keplerian.py:627-646` -/
noncomputable def OrbitalBodyD.k0 (au : ℝ) (o : OrbitalBodyD) (mass semiamplitude parallax : Option Dual) : Dual :=
  match semiamplitude.orElse fun _ => o.radial_velocity_semiamplitude with
  | some K => K
  | none =>
    match parallax.orElse fun _ => o.parallax with
    | none => o.amplitudeOfMass mass
    | some p => o.amplitudeOfMass mass * const au * p

/-- `r0`, `orbits/keplerian.py:630-631, 648-653` -/
noncomputable def OrbitalBodyD.r0 (au : ℝ) (o : OrbitalBodyD) (semimajor parallax : Option Dual) : Dual :=
  match semimajor with
  | none => const 1
  | some a =>
    match parallax.orElse fun _ => o.parallax with
    | none => a
    | some p => a * const au * p

/-- the factor of the distance, `orbits/keplerian.py:660` -/
noncomputable def distanceD (ecc : Option EccD) (r0 cosf : Dual) : Dual :=
  match ecc with
  | none => r0
  | some k => r0 * ((const 1 - k.e.square) / (const 1 + k.e * cosf))

/-- `v2`, `orbits/keplerian.py:656-659` -/
noncomputable def v2D (ecc : Option EccD) (k0 cosf : Dual) : Dual :=
  match ecc with
  | none => k0 * cosf
  | some k => k0 * (cosf + k.e)

/-- `_get_position_and_velocity`, `orbits/keplerian.py:603-673`, with the simplifications of `OrbitalBody.posVel` -/
noncomputable def OrbitalBodyD.posVel (kep : ℝ → ℝ → ℝ × ℝ) (au : ℝ) (o : OrbitalBodyD) (t : Dual)
    (semimajor mass semiamplitude parallax : Option Dual) : V3D × V3D :=
  let k0 := o.k0 au mass semiamplitude parallax
  let f := o.trueAnomaly kep t
  let r0 := distanceD o.ecc (o.r0 au semimajor parallax) f.2
  (o.rotateVector (r0 * f.2) (r0 * f.1),
    o.rotateVector (-k0 * f.1) (v2D o.ecc k0 f.2) (semiamplitude.orElse fun _ => o.radial_velocity_semiamplitude).isNone)

namespace OrbitalBodyD

variable (kep : ℝ → ℝ → ℝ × ℝ) (au : ℝ) (o : OrbitalBodyD) (t : Dual)

/-- `relative_position`, `orbits/keplerian.py:423-439`. -/
noncomputable def relative_position (parallax : Option Dual := none) : V3D :=
  (o.posVel kep au t (some (-o.semimajor)) none none parallax).1

/-- `position`, `orbits/keplerian.py:389-404`. -/
noncomputable def position (parallax : Option Dual := none) : V3D :=
  (o.posVel kep au t (some (-o.semimajor * o.central.mass / o.total_mass)) none none parallax).1

/-- `central_position`, `orbits/keplerian.py:406-421` -/
noncomputable def central_position (parallax : Option Dual := none) : Except PyErr V3D :=
  match o.mass with
  | none => .error (.typeError "unsupported operand type(s) for *: 'Quantity' and 'NoneType'")
  | some m => .ok (o.posVel kep au t (some (o.semimajor * m / o.total_mass)) none none parallax).1

/-- `relative_angles`, `orbits/keplerian.py:441-457`: separation and position angle -/
noncomputable def relative_angles (parallax : Option Dual := none) : Dual × Dual :=
  let p := o.relative_position kep au t parallax
  ((p.x.square + p.y.square).sqrt, Dual.atan2 p.y p.x)

/-- `velocity`, `orbits/keplerian.py:459-479` -/
noncomputable def velocity (semiamplitude : Option Dual := none) : Except PyErr V3D :=
  match semiamplitude with
  | none => .ok (o.posVel kep au t none (some (-o.central.mass)) none none).2
  | some K =>
    match o.mass with
    | none => .error (.typeError "unsupported operand type(s) for /: 'Quantity' and 'NoneType'")
    | some m => .ok (o.posVel kep au t none none (some (-K * o.central.mass / m)) none).2

/-- `relative_velocity`, `orbits/keplerian.py:502-523` -/
noncomputable def relative_velocity (semiamplitude : Option Dual := none) : Except PyErr V3D :=
  match semiamplitude with
  | none => .ok (o.posVel kep au t none (some (-o.total_mass)) none none).2
  | some K =>
    match o.mass with
    | none => .error (.typeError "unsupported operand type(s) for /: 'Quantity' and 'NoneType'")
    | some m => .ok (o.posVel kep au t none none (some (-K * o.total_mass / m)) none).2

/-- `central_velocity`, `orbits/keplerian.py:481-500`. -/
noncomputable def central_velocity (semiamplitude : Option Dual := none) : V3D :=
  match semiamplitude with
  | none => (o.posVel kep au t none o.mass none none).2
  | some K => (o.posVel kep au t none none (some K) none).2

/-- `radial_velocity`, `orbits/keplerian.py:525-544`. -/
noncomputable def radial_velocity (semiamplitude : Option Dual := none) : Dual :=
  -(o.central_velocity kep au t semiamplitude).z

end OrbitalBodyD

end Jaxoplanet.Keplerian
