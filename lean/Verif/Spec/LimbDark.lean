import Mathlib.Analysis.SpecialFunctions.Trigonometric.Basic
import Mathlib.MeasureTheory.Measure.Lebesgue.Basic
import Mathlib.MeasureTheory.Integral.Bochner.Set

/-!
# Specification of a limb-darkened transit: the sky plane, the star, the occultor, the flux

The star is the closed unit disc, the occultor the closed disc of radius `r` centred at `(b, 0)`.
All areas and fluxes are Lebesgue integrals over the plane.  Nothing here refers to the code.
-/

namespace Jaxoplanet.Spec

open MeasureTheory

/-- the stellar disc -/
def stellarDisc : Set (ℝ × ℝ) := {p | p.1 ^ 2 + p.2 ^ 2 ≤ 1}

/-- the occultor's disc -/
def occultor (b r : ℝ) : Set (ℝ × ℝ) := {p | (p.1 - b) ^ 2 + p.2 ^ 2 ≤ r ^ 2}

/-- the cosine of the angle between the line of sight and the surface normal at `p` -/
noncomputable def mu (p : ℝ × ℝ) : ℝ := √(1 - p.1 ^ 2 - p.2 ^ 2)

/-- the polynomial limb-darkening law `1 - Σ u_i (1 - μ)^i`, `i = 1, 2, ...` -/
noncomputable def profile (u : List ℝ) (μ : ℝ) : ℝ :=
  1 - ∑ i : Fin u.length, u[i] * (1 - μ) ^ (i.val + 1)

/-- the flux emitted by the part of the star hidden by the occultor -/
noncomputable def blockedFlux (u : List ℝ) (b r : ℝ) : ℝ :=
  ∫ p in stellarDisc ∩ occultor b r, profile u (mu p)

/-- the flux emitted by the whole star -/
noncomputable def totalFlux (u : List ℝ) : ℝ := ∫ p in stellarDisc, profile u (mu p)

/-- The line integrand of order `n` along the occulting arc of Agol et al. (2020), at the angle `φ` seen
from the occultor's centre: `(1 - z³)/(3 (1 - z²))` (written without the removable singularity) for
`n = 1` and `z^n` otherwise, times the arc element. -/
noncomputable def arcIntegrand (b r : ℝ) (n : ℕ) (φ : ℝ) : ℝ :=
  2 * r * (r - b * Real.cos φ) *
    let z := √(1 - b ^ 2 - r ^ 2 + 2 * b * r * Real.cos φ)
    if n = 1 then (1 + z + z ^ 2) / (3 * (1 + z)) else z ^ n

end Jaxoplanet.Spec
