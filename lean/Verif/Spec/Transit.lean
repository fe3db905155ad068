import Verif.Spec.LimbDark
import Verif.Spec.Elements

/-!
# Specification: a body in front of a spherical, limb-darkened star

The observer looks from the positive `z` direction; the star is a sphere of radius `R` at the origin, the body a sphere of radius
`ρ` at the position `p`. Nothing here refers to the code (only the type of points in space is shared).
-/

namespace Jaxoplanet.Spec

open MeasureTheory Keplerian

/-- the disc of a sphere of radius `R` seen at `(x, y)` on the sky -/
def skyDisc (x y R : ℝ) : Set (ℝ × ℝ) := {q | (q.1 - x) ^ 2 + (q.2 - y) ^ 2 ≤ R ^ 2}

/-- the surface brightness, at the point `q` of the sky, of a star of radius `R` at the origin: the limb-darkening law of the
cosine of the angle between the line of sight and the normal of the surface -/
noncomputable def brightness (u : List ℝ) (R : ℝ) (q : ℝ × ℝ) : ℝ := profile u √(1 - (q.1 ^ 2 + q.2 ^ 2) / R ^ 2)

open Classical in
/-- the fraction of the light of the star that the body hides: nothing unless it is in front of the star -/
noncomputable def hiddenFraction (u : List ℝ) (R ρ : ℝ) (p : V3) : ℝ :=
  if 0 < p.z then (∫ q in skyDisc 0 0 R ∩ skyDisc p.x p.y ρ, brightness u R q) / ∫ q in skyDisc 0 0 R, brightness u R q
  else 0

/-- the motion `p` of a body relative to its star follows a Kepler orbit with period `P`, time of periastron `tp`, semimajor axis
`a`, eccentricity `e`, argument of periastron `w`, inclination `i` and longitude of the node `Ω` -/
def IsKeplerOrbit (P tp a e w i Ω : ℝ) (p : ℝ → V3) : Prop :=
  ∀ t, ∃ f, TrueAnomalyAt (2 * Real.pi * (t - tp) / P) e f ∧
    p t = elementPosition (a * ((1 - e ^ 2) / (1 + e * Real.cos f))) f w i Ω

end Jaxoplanet.Spec
