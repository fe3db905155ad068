import Mathlib.Analysis.SpecialFunctions.Trigonometric.Basic
import Mathlib.Algebra.Polynomial.Derivative

/-!
# Specification: real spherical harmonics

Textbook definition, with Rodrigues' formula and without the Condon-Shortley phase: at a point `(x, y, z)` of
the unit sphere, with `x + i y = sin θ e^{i φ}` and `z = cos θ`, and `P_l^μ(z) = (1 - z²)^{μ/2} Q_{l μ}(z)`,
`Q_{l μ}(z) = (d/dz)^{l + μ} (z² - 1)^l / (2^l l!)`,

    Y_{l m} = N_{l |m|} P_l^{|m|}(cos θ) cos(m φ)    (m ≥ 0),
    Y_{l m} = N_{l |m|} P_l^{|m|}(cos θ) sin(|m| φ)  (m < 0).
-/

namespace Jaxoplanet.Starry.Spec

open Polynomial

/-- Rodrigues' formula: `(d/dz)^{l + μ} (z² - 1)^l / (2^l l!)` -/
noncomputable def rodrigues (l μ : ℕ) (z : ℝ) : ℝ :=
  ((derivative^[l + μ]) ((X ^ 2 - 1 : ℝ[X]) ^ l)).eval z / (2 ^ l * (l.factorial : ℝ))

/-- normalisation of the real spherical harmonics -/
noncomputable def harmNorm (l μ : ℕ) : ℝ :=
  √((if μ = 0 then 1 else 2) * (2 * l + 1) / (4 * Real.pi) * (((l - μ).factorial : ℝ) / ((l + μ).factorial : ℝ)))

/-- real spherical harmonic of degree `l` and order `m` at the point `(x, y, z)` of the unit sphere -/
noncomputable def realHarmonic (l : ℕ) (m : ℤ) (x y z : ℝ) : ℝ :=
  harmNorm l m.natAbs * rodrigues l m.natAbs z *
    (if 0 ≤ m then (((x : ℂ) + y * Complex.I) ^ m.natAbs).re else (((x : ℂ) + y * Complex.I) ^ m.natAbs).im)

end Jaxoplanet.Starry.Spec
