import Mathlib.Analysis.SpecialFunctions.Trigonometric.Basic

/-!
# Specification: the Kepler problem

Independent of the code: Kepler's equation and the relation between eccentric and true anomaly of
an ellipse of eccentricity `e` (focus at the origin, periastron on the positive `x` axis).
-/

namespace Jaxoplanet.Spec

open Real

/-- `E` is the eccentric anomaly for mean anomaly `M`: Kepler's equation. -/
def KeplerEq (M e E : ℝ) : Prop := E - e * sin E = M

/-- `f` is a true anomaly of the point of the ellipse with eccentric anomaly `E`.  In units of the
semimajor axis, that point is `(cos E - e, √(1-e²) sin E)` and its distance from the focus is
`1 - e cos E`. -/
def IsTrueAnomaly (e E f : ℝ) : Prop :=
  (1 - e * cos E) * cos f = cos E - e ∧ (1 - e * cos E) * sin f = √(1 - e ^ 2) * sin E

/-- `f` is a true anomaly at mean anomaly `M`. -/
def TrueAnomalyAt (M e f : ℝ) : Prop := ∃ E, KeplerEq M e E ∧ IsTrueAnomaly e E f

end Jaxoplanet.Spec
