import Verif.Spec.Occultation
import Mathlib.Algebra.Polynomial.Eval.Defs

/-!
# Specification: Gauss-Legendre quadrature

What `scipy.special.roots_legendre(n)` documents: `n` sample points and weights that integrate every polynomial of degree
`2 n - 1` or less exactly over `[-1, 1]`.
-/

namespace Jaxoplanet.Starry.Spec

/-- `rule` is the list of pairs (node, weight) of a Gauss-Legendre rule with `n` nodes -/
structure IsGaussLegendre (n : ℕ) (rule : List (ℝ × ℝ)) : Prop where
  length : rule.length = n
  exact : ∀ p : Polynomial ℝ, p.natDegree < 2 * n → quadSum rule (fun x => p.eval x) = ∫ x in (-1 : ℝ)..1, p.eval x

end Jaxoplanet.Starry.Spec
