import Verif.Spec.SurfaceFlux
import Verif.Spec.Doppler

/-!
# Specification: a round spot on a map

A spot is a function of the angular distance from its centre. Its radial profile is expanded in Legendre polynomials by
ridge-regularised least squares on a grid of angles and smoothed.
-/

namespace Jaxoplanet.Starry.Spec

open Real

/-- the Legendre polynomial of degree `l` -/
noncomputable def legendre (l : ℕ) (x : ℝ) : ℝ := rodrigues l 0 x

/-- the function of the angle with the coefficients `β`: `Σ_l β_l √(2l+1) P_l(x)`, where `x` is the cosine of the angle -/
noncomputable def zonal (ydeg : ℕ) (β : ℕ → ℝ) (x : ℝ) : ℝ :=
  ∑ l ∈ Finset.range (ydeg + 1), β l * (√(2 * l + 1) * legendre l x)

/-- the cost of the coefficients `β`: squared residuals at the angles `θ_i`, `i < n`, plus `eps |β|²` -/
noncomputable def ridgeCost (ydeg n : ℕ) (eps : ℝ) (θ f : ℕ → ℝ) (β : ℕ → ℝ) : ℝ :=
  ∑ i ∈ Finset.range n, (zonal ydeg β (cos (θ i)) - f i) ^ 2 + eps * ∑ l ∈ Finset.range (ydeg + 1), β l ^ 2

/-- `β` is the only minimiser of the cost -/
def IsRidgeFit (ydeg n : ℕ) (eps : ℝ) (θ f : ℕ → ℝ) (β : ℕ → ℝ) : Prop :=
  ∀ β' : ℕ → ℝ, (∃ l ≤ ydeg, β' l ≠ β l) → ridgeCost ydeg n eps θ f β < ridgeCost ydeg n eps θ f β'

/-- `n` equally spaced angles from 0 to `π` -/
noncomputable def gridAngle (n i : ℕ) : ℝ := π * (i / (n - 1))

/-- the profile of a spot of angular radius `r`: −1 inside, 0 outside, with a logistic transition of width `1/k` -/
noncomputable def dip (k r θ : ℝ) : ℝ := 1 / (1 + exp (-(k * (θ - r)))) - 1

/-- the angular width of the smoothing -/
noncomputable def smoothWidth (ydeg : ℕ) : ℝ := if ydeg < 4 then 1 / 2 else 2 / ydeg

/-- inner product -/
def dot (p q : V3) : ℝ := p.1 * q.1 + p.2.1 * q.2.1 + p.2.2 * q.2.2

end Jaxoplanet.Starry.Spec
