import Verif.Spec.SurfaceFlux

/-!
# Specification: brightness of a point of a surface, and velocities of a rotating surface

The observer is on the positive `z` axis. A surface is the unit sphere; its map has its pole on the `y` axis and the point of
latitude and longitude zero on the `z` axis.
-/

namespace Jaxoplanet.Starry.Spec

open Real MeasureTheory
open _root_.Jaxoplanet.Spec

/-- where the point `q` of a map is on the sky: the inverse of `observerView` -/
noncomputable def toSky (inc obl theta : ℝ) (q : V3) : V3 :=
  rotZ obl (rotX (-inc) (rotZ theta (rotX (π / 2) q)))

/-- the point of the map with the given latitude and longitude; the longitude increases towards the `x` axis -/
noncomputable def mapPoint (lat lon : ℝ) : V3 := (cos lat * sin lon, sin lat, cos lat * cos lon)

/-- the brightness of the point `p` of the sphere (in the frame of the sky) of a map `y` with limb darkening `u`,
in units in which the map `y_{00} = 1` without limb darkening has the total flux 1 (brightness `1/π`) -/
noncomputable def brightness (y : Ylm) (u : List ℝ) (inc obl theta : ℝ) (p : V3) : ℝ :=
  2 / √π * mapAt y (observerView inc obl theta p) * profile u p.2.2

/-- the velocity away from the observer, in units of the equatorial velocity, of the point `p` of the disc of a star that
rotates rigidly (it is the derivative of the distance with respect to the rotation angle, see `losSpeed_is_derivative`) -/
noncomputable def losSpeed (inc obl : ℝ) (p : ℝ × ℝ) : ℝ := sin inc * (cos obl * p.1 + sin obl * p.2)

/-- the inclination that the velocity map assumes: with no inclination given, `π/2`, while the brightness is that of
inclination zero (finding F26) -/
noncomputable def velInc (inc : Option ℝ) : ℝ := inc.getD (π / 2)

/-- the brightness of a surface on its disc, at the rotation angle `theta` (zero if not given) -/
noncomputable def skyOf (s : Surface) (theta : Option ℝ) : ℝ × ℝ → ℝ :=
  skyIntensity s.y s.u (s.inc.getD 0) (usedObl s.inc s.obl) (theta.getD 0)

/-- the velocity away from the observer of the point `p` of the disc of a surface with the rotation period `P` -/
noncomputable def velocityOf (s : Surface) (P : ℝ) (p : ℝ × ℝ) : ℝ :=
  2 * π * s.radius / P * losSpeed (velInc s.inc) (s.obl.getD 0) p

/-- the mean of the velocity over the part `V` of the disc, weighted with the brightness `I` -/
noncomputable def meanVelocity (I v : ℝ × ℝ → ℝ) (V : Set (ℝ × ℝ)) : ℝ :=
  (∫ p in V, v p * I p) / ∫ p in V, I p

/-- documented meaning of `Rotation.from_rotvec(v).apply(p)`: the rotation by `t` about the unit vector `n`, for `v = t n` -/
def IsRotvec (applyRotvec : V3 → V3 → V3) : Prop :=
  ∀ (n : V3) (t : ℝ), normSq n = 1 → ∀ p : V3, applyRotvec (n.1 * t, n.2.1 * t, n.2.2 * t) p = rotAxis n t p

end Jaxoplanet.Starry.Spec
