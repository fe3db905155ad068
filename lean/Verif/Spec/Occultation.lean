import Verif.Spec.Green
import Verif.Spec.LimbDark
import Mathlib.MeasureTheory.Integral.IntervalIntegral.Basic

/-!
# Specification: line integrals along circular arcs, the occultor on the `y` axis
-/

namespace Jaxoplanet.Starry.Spec

open Real

/-- line integral of the plane field `G` along the circle with centre `(cx, cy)` and radius `R`, counterclockwise
from the angle `a` to the angle `b` -/
noncomputable def arcIntegral (G : ℝ → ℝ → ℝ × ℝ) (cx cy R a b : ℝ) : ℝ :=
  ∫ φ in a..b, (G (cx + R * cos φ) (cy + R * sin φ)).1 * (-(R * sin φ)) + (G (cx + R * cos φ) (cy + R * sin φ)).2 * (R * cos φ)

/-- the occultor's disc, centred at `(0, b)` -/
def occultorY (b r : ℝ) : Set (ℝ × ℝ) := {p | p.1 ^ 2 + (p.2 - b) ^ 2 ≤ r ^ 2}

/-- the line elements of `G` along the edge of the occultor at the two points `(± r sin φ, b - r cos φ)`, added -/
noncomputable def edgePair (G : ℝ → ℝ → ℝ × ℝ) (b r φ : ℝ) : ℝ :=
  (G (r * sin φ) (b - r * cos φ)).1 * (r * cos φ) + (G (r * sin φ) (b - r * cos φ)).2 * (r * sin φ) +
    ((G (r * sin (-φ)) (b - r * cos (-φ))).1 * (r * cos (-φ)) + (G (r * sin (-φ)) (b - r * cos (-φ))).2 * (r * sin (-φ)))

/-- the sum `Σ w g(x)` of a quadrature rule, given by its pairs of nodes and weights -/
noncomputable def quadSum (rule : List (ℝ × ℝ)) (g : ℝ → ℝ) : ℝ := (rule.map fun xw => xw.2 * g xw.1).sum

/-- the error of the quadrature rule for the line integral of the `q`-th Green field of degree `l` along the edge of the
occultor, from `-κ` to `κ` -/
noncomputable def edgeError (rule : List (ℝ × ℝ)) (b r κ : ℝ) (l q : ℕ) : ℝ :=
  let g := fun x => edgePair (greenField (2 * l - q) q) b r (κ / 2 * (x + 1))
  κ / 2 * (quadSum rule g - ∫ x in (-1 : ℝ)..1, g x)

end Jaxoplanet.Starry.Spec
