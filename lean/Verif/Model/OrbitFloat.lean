import Verif.Model.KeplerFloat
import Verif.Model.LimbDarkFloat
import Verif.Model.Keplerian

/-!
# Relative positions of bodies and transit light curves of uniform stars in floating-point arithmetic

The programs `OrbitalBody.relative_position` (`src/jaxoplanet/orbits/keplerian.py`) and `light_curve(orbit)(time)`
(`src/jaxoplanet/light_curves/limb_dark.py`, without limb darkening), with a rounding error of relative size at most `u` in every
operation (`Jaxoplanet.KeplerFloat.Rnd`, see `Model/KeplerFloat.lean`).  A run records the value of every intermediate result.

The body `o` holds floating-point numbers: its fields are what the constructor stored.  Simplifications: underflow and overflow are
not represented; no parallax; the units are the default ones (days, solar radii), for which the conversions do nothing.
-/

namespace Jaxoplanet.OrbitFloat

open Real KeplerFloat Keplerian

/-- A floating-point run of `_get_true_anomaly(t)`, `orbits/keplerian.py:545-554`: `(sinf, cosf)` is the result -/
structure AnomalyRun (u : ℝ) (o : OrbitalBody) (t : ℝ) where
  pi : ℝ
  hpi : Rnd u π pi
  two_pi : ℝ
  htwo_pi : Rnd u (2 * pi) two_pi
  /-- `_warp_times(t)`, l.546-547 -/
  warp : ℝ
  hwarp : Rnd u (t - o.time_transit) warp
  dt : ℝ
  hdt : Rnd u (warp - o.time_ref) dt
  prod : ℝ
  hprod : Rnd u (two_pi * dt) prod
  M : ℝ
  hM : Rnd u (prod / o.period) M
  sinf : ℝ
  cosf : ℝ
  hf : match o.ecc with
    | none => Rnd u (sin M) sinf ∧ Rnd u (cos M) cosf
    | some k => ∃ R : KeplerRun u M k.e, R.result = (sinf, cosf)

/-- A floating-point run of the factor of `r0` of an eccentric orbit, `orbits/keplerian.py:657`:
`(1 - eccentricity**2) / (1 + eccentricity * cosf)` -/
structure RadiusRun (u e cosf : ℝ) where
  e2 : ℝ
  he2 : Rnd u (e * e) e2
  num : ℝ
  hnum : Rnd u (1 - e2) num
  ec : ℝ
  hec : Rnd u (e * cosf) ec
  den : ℝ
  hden : Rnd u (1 + ec) den
  q : ℝ
  hq : Rnd u (num / den) q

/-- A floating-point run of a rotation, `orbits/keplerian.py:581-582` and `599-600`: `c * x - s * y` and `s * x + c * y` -/
structure RotRun (u c s x y : ℝ) where
  cx : ℝ
  hcx : Rnd u (c * x) cx
  sy : ℝ
  hsy : Rnd u (s * y) sy
  X : ℝ
  hX : Rnd u (cx - sy) X
  sx : ℝ
  hsx : Rnd u (s * x) sx
  cy : ℝ
  hcy : Rnd u (c * y) cy
  Y : ℝ
  hY : Rnd u (sx + cy) Y

/-- A floating-point run of `relative_position(t)`, `orbits/keplerian.py:423-439` through `_get_position_and_velocity`,
l.645-659, and `_rotate_vector`, l.576-601: `(X, Y, Z)` is the result -/
structure PositionRun (u : ℝ) (o : OrbitalBody) (t : ℝ) where
  anom : AnomalyRun u o t
  r0 : ℝ
  hr0 : match o.ecc with
    | none => r0 = -o.semimajor
    | some k => ∃ R : RadiusRun u k.e anom.cosf, Rnd u (-o.semimajor * R.q) r0
  x : ℝ
  hx : Rnd u (r0 * anom.cosf) x
  y : ℝ
  hy : Rnd u (r0 * anom.sinf) y
  x1 : ℝ
  y1 : ℝ
  h1 : match o.ecc with
    | none => x1 = x ∧ y1 = y
    | some k => ∃ R : RotRun u k.cosw k.sinw x y, x1 = R.X ∧ y1 = R.Y
  y2 : ℝ
  hy2 : Rnd u (o.cos_inclination * y1) y2
  Z : ℝ
  hZ : Rnd u (-o.sin_inclination * y1) Z
  X : ℝ
  Y : ℝ
  hXY : match o.node with
    | none => X = x1 ∧ Y = y2
    | some (s, c) => ∃ R : RotRun u c s x1 y2, X = R.X ∧ Y = R.Y

/-- what the run returns, `orbits/keplerian.py:601` -/
def PositionRun.result {u : ℝ} {o : OrbitalBody} {t : ℝ} (R : PositionRun u o t) : V3 := ⟨R.X, R.Y, R.Z⟩

open Classical in
/-- A floating-point run of `light_curve(orbit)(time)` without limb darkening for one body, `light_curves/limb_dark.py:52-65`;
`radius` is the radius of the body, `o.central.radius` that of the star -/
structure TransitRun (u : ℝ) (o : OrbitalBody) (radius t : ℝ) where
  pos : PositionRun u o t
  xx : ℝ
  hxx : Rnd u (pos.X * pos.X) xx
  yy : ℝ
  hyy : Rnd u (pos.Y * pos.Y) yy
  sum : ℝ
  hsum : Rnd u (xx + yy) sum
  root : ℝ
  hroot : Rnd u √sum root
  b : ℝ
  hb : Rnd u (root / o.central.radius) b
  r : ℝ
  hr : Rnd u (radius / o.central.radius) r
  lc : LimbDarkFloat.UniformRun u b r
  out : ℝ
  hout : out = if 0 < pos.Z then lc.out else 0

end Jaxoplanet.OrbitFloat
