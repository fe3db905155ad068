import Verif.Spec.SphHarm

/-!
# Specification: rotations of space and of functions on the sphere

`rotZ`, `rotY`, `rotX` are the right-handed rotations about the axes, `rotAxis n θ` is Rodrigues' rotation
formula (right-handed rotation by `θ` about the unit vector `n`). `mapVal lmax y p` is the value at the point `p`
of the map with coefficients `y`: the coefficient of `Y_{l m}` is entry `l² + l + m`.
-/

namespace Jaxoplanet.Starry.Spec

open Real

/-- points and vectors of space -/
abbrev V3 := ℝ × ℝ × ℝ

noncomputable def rotZ (t : ℝ) (p : V3) : V3 :=
  (cos t * p.1 - sin t * p.2.1, sin t * p.1 + cos t * p.2.1, p.2.2)

noncomputable def rotY (t : ℝ) (p : V3) : V3 :=
  (cos t * p.1 + sin t * p.2.2, p.2.1, -(sin t * p.1) + cos t * p.2.2)

noncomputable def rotX (t : ℝ) (p : V3) : V3 :=
  (p.1, cos t * p.2.1 - sin t * p.2.2, sin t * p.2.1 + cos t * p.2.2)

/-- Rodrigues' formula: `v cos θ + (n × v) sin θ + n (n · v) (1 - cos θ)` -/
noncomputable def rotAxis (n : V3) (t : ℝ) (v : V3) : V3 :=
  let d := n.1 * v.1 + n.2.1 * v.2.1 + n.2.2 * v.2.2
  (v.1 * cos t + (n.2.1 * v.2.2 - n.2.2 * v.2.1) * sin t + n.1 * d * (1 - cos t),
   v.2.1 * cos t + (n.2.2 * v.1 - n.1 * v.2.2) * sin t + n.2.1 * d * (1 - cos t),
   v.2.2 * cos t + (n.1 * v.2.1 - n.2.1 * v.1) * sin t + n.2.2 * d * (1 - cos t))

/-- squared length -/
def normSq (p : V3) : ℝ := p.1 ^ 2 + p.2.1 ^ 2 + p.2.2 ^ 2

/-- the unit sphere -/
def OnSphere (p : V3) : Prop := normSq p = 1

/-- value at `p` of the map with coefficient vector `y` (degrees up to `lmax`) -/
noncomputable def mapVal (lmax : ℕ) (y : List ℝ) (p : V3) : ℝ :=
  ∑ l ∈ Finset.range (lmax + 1), ∑ q ∈ Finset.range (2 * l + 1),
    y.getD (l ^ 2 + q) 0 * realHarmonic l ((q : ℤ) - l) p.1 p.2.1 p.2.2

/-- documented meaning of `Rotation.from_rotvec(v).as_euler("zyz")`: extrinsic rotations about z, y, z by the
three returned angles, in this order, compose to the rotation by `|v|` about `v` (here `v = t n` with `n` a unit
vector) -/
def IsEulerZYZ (asEuler : V3 → V3) : Prop :=
  ∀ (n : V3) (t : ℝ), normSq n = 1 → ∀ p : V3,
    rotZ (asEuler (n.1 * t, n.2.1 * t, n.2.2 * t)).2.2
      (rotY (asEuler (n.1 * t, n.2.1 * t, n.2.2 * t)).2.1
        (rotZ (asEuler (n.1 * t, n.2.1 * t, n.2.2 * t)).1 p)) = rotAxis n t p

end Jaxoplanet.Starry.Spec
