import Mathlib.Analysis.SpecialFunctions.Pow.Real
import Mathlib.Analysis.Calculus.Deriv.Basic

/-!
# Specification: the vector fields of Luger et al. (2019), eq. (34)

For the index `n = l² + l + m` put `μ = l - m`, `ν = l + m`. The occultation integrals are line integrals of
the field below; the Green basis is its exterior derivative `∂G_y/∂x - ∂G_x/∂y`.
-/

namespace Jaxoplanet.Starry.Spec

/-- the field `G_n` at a point of the disc; `z = √(1 - x² - y²)`. For `l = 1, m = 0` it is
`(1 - z³) / (3 (1 - z²)) (-y, x)`, written without the removable singularity. -/
noncomputable def greenField (μ ν : ℕ) (x y : ℝ) : ℝ × ℝ :=
  let z := √(1 - x ^ 2 - y ^ 2)
  let l := (μ + ν) / 2
  if ν % 2 = 0 then (0, x ^ ((μ + 2) / 2) * y ^ (ν / 2))
  else if μ = 1 ∧ ν = 1 then
    (-(1 + z + z ^ 2) / (3 * (1 + z)) * y, (1 + z + z ^ 2) / (3 * (1 + z)) * x)
  else if μ = 1 ∧ l % 2 = 0 then (x ^ (l - 2) * z ^ 3, 0)
  else if μ = 1 then (x ^ (l - 3) * y * z ^ 3, 0)
  else (0, x ^ ((μ - 3) / 2) * y ^ ((ν - 1) / 2) * z ^ 3)

/-- `c` is the exterior derivative (the `z` component of the curl) of the plane field `G` at `(x, y)` -/
def HasCurlAt (G : ℝ → ℝ → ℝ × ℝ) (c x y : ℝ) : Prop :=
  ∃ a b, HasDerivAt (fun s => (G s y).2) a x ∧ HasDerivAt (fun s => (G x s).1) b y ∧ c = a - b

end Jaxoplanet.Starry.Spec
