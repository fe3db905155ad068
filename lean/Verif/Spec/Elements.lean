import Verif.Spec.Orbit

/-!
# Specification: orbital elements

What the arguments of a body mean, and the textbook position of a body on its orbit: the point
`(r cos f, r sin f, 0)` of the orbital plane turned by the argument of periastron about `z`, by the
inclination about `x` and by the longitude of the ascending node about `z`.
-/

namespace Jaxoplanet.Spec

open Real Keplerian

/-- rotation about the `z` axis -/
noncomputable def rotZ (α : ℝ) (v : V3) : V3 := ⟨cos α * v.x - sin α * v.y, sin α * v.x + cos α * v.y, v.z⟩

/-- rotation about the `x` axis -/
noncomputable def rotX (α : ℝ) (v : V3) : V3 := ⟨v.x, cos α * v.y - sin α * v.z, sin α * v.y + cos α * v.z⟩

/-- the elements describe the orbit: eccentricity (none: circular) -/
def EccIs (b : Body ℝ) (e : ℝ) : Prop := b.eccentricity = some e ∨ (b.eccentricity = none ∧ e = 0)

/-- argument of periastron, as an angle or as sine and cosine (none: 0) -/
def OmegaIs (b : Body ℝ) (w : ℝ) : Prop :=
  b.omega_peri = some w ∨
  (b.omega_peri = none ∧ b.sin_omega_peri = some (sin w) ∧ b.cos_omega_peri = some (cos w)) ∨
  (b.omega_peri = none ∧ b.sin_omega_peri = none ∧ b.cos_omega_peri = none ∧ w = 0)

/-- longitude of the ascending node, as an angle or as sine and cosine (none: 0) -/
def NodeIs (b : Body ℝ) (Ω : ℝ) : Prop :=
  b.asc_node = some Ω ∨
  (b.asc_node = none ∧ b.sin_asc_node = some (sin Ω) ∧ b.cos_asc_node = some (cos Ω)) ∨
  (b.asc_node = none ∧ b.sin_asc_node = none ∧ b.cos_asc_node = none ∧ Ω = 0)

/-- inclination, given as an angle (neither inclination nor impact parameter: edge on) -/
def InclIs (b : Body ℝ) (i : ℝ) : Prop :=
  (b.inclination = some i ∧ b.impact_param = none) ∨
  (b.inclination = none ∧ b.impact_param = none ∧ i = π / 2)

/-- the textbook position: radius `r`, true anomaly `f`. jaxoplanet's frame looks along the third axis, so
that the first two coordinates are reversed. -/
noncomputable def elementPosition (r f w i Ω : ℝ) : V3 :=
  let v := rotZ Ω (rotX i (rotZ w ⟨r * cos f, r * sin f, 0⟩))
  ⟨-v.x, -v.y, v.z⟩

end Jaxoplanet.Spec
