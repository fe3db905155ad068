import Verif.Model.OrbitFloat

/-!
# Radial velocities in floating-point arithmetic

The program `OrbitalBody.radial_velocity` (`src/jaxoplanet/orbits/keplerian.py`) with a rounding error of relative size at most `u` in
every operation, as in `Model/OrbitFloat.lean`.  Same simplifications: underflow and overflow are not represented; no parallax; the
units are the default ones.  The negations are exact.
-/

namespace Jaxoplanet.VelocityFloat

open Real KeplerFloat Keplerian OrbitFloat

/-- A floating-point run of the amplitude of the velocity without semi-amplitude, `orbits/keplerian.py:635-638`:
`2 * pi * semimajor * m / (total_mass * period)`, divided by `sqrt(1 - eccentricity**2)` for an eccentric orbit, where `m` is the mass
of the body, or one if it has none, and `total_mass`, l.385-387, the sum of the masses -/
structure AmplitudeRun (u pi : ℝ) (o : OrbitalBody) where
  two_pi : ℝ
  htwo_pi : Rnd u (2 * pi) two_pi
  a1 : ℝ
  ha1 : Rnd u (two_pi * o.semimajor) a1
  a2 : ℝ
  ha2 : Rnd u (a1 * o.mass.getD 1) a2
  total : ℝ
  htotal : match o.mass with
    | none => total = o.central.mass
    | some m => Rnd u (m + o.central.mass) total
  den : ℝ
  hden : Rnd u (total * o.period) den
  q : ℝ
  hq : Rnd u (a2 / den) q
  k0 : ℝ
  hk0 : match o.ecc with
    | none => k0 = q
    | some k => ∃ e2 d s, Rnd u (k.e * k.e) e2 ∧ Rnd u (1 - e2) d ∧ Rnd u (√d) s ∧ Rnd u (q / s) k0

/-- the semi-amplitude that is used: the argument or the one of the body, `orbits/keplerian.py:627-628` -/
def amplitude (o : OrbitalBody) (arg : Option ℝ) : Option ℝ := arg.orElse fun _ => o.radial_velocity_semiamplitude

/-- A floating-point run of `radial_velocity(t, semiamplitude=arg)`, `orbits/keplerian.py:525-544` through `central_velocity`, l.497-500,
`_get_position_and_velocity`, l.627-661, and `_rotate_vector`, l.576-593 (the third coordinate) -/
structure VelocityRun (u : ℝ) (o : OrbitalBody) (t : ℝ) (arg : Option ℝ) where
  anom : AnomalyRun u o t
  k0 : ℝ
  hk0 : match amplitude o arg with
    | some K => k0 = K
    | none => ∃ R : AmplitudeRun u anom.pi o, k0 = R.k0
  v1 : ℝ
  hv1 : Rnd u (-k0 * anom.sinf) v1
  v2 : ℝ
  hv2 : match o.ecc with
    | none => Rnd u (k0 * anom.cosf) v2
    | some k => ∃ c, Rnd u (anom.cosf + k.e) c ∧ Rnd u (k0 * c) v2
  y1 : ℝ
  hy1 : match o.ecc with
    | none => y1 = v2
    | some k => ∃ R : RotRun u k.cosw k.sinw v1 v2, y1 = R.Y
  Z : ℝ
  hZ : match amplitude o arg with
    | some _ => Z = -y1
    | none => Rnd u (-o.sin_inclination * y1) Z
  out : ℝ
  hout : out = -Z

end Jaxoplanet.VelocityFloat
