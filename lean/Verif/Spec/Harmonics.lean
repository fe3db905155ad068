import Mathlib.Analysis.SpecialFunctions.Pow.Real
import Verif.Model.Harmonics

/-!
# Specification vocabulary for spherical-harmonic maps and polynomials on the sphere

* the coefficient of a map at `(l, m)`;
* the value of a polynomial `Σ c_{ijk} x^i y^j z^k` at a point.
-/

namespace Jaxoplanet.Starry.Spec

/-- the coefficient of degree `l` and order `m` of a map; absent entries are zero -/
def coef (y : Ylm) (l : ℕ) (m : ℤ) : ℝ := Dict.getD0 y.data (l, m)

/-- a sensible map: a non-empty dictionary with orders `|m| ≤ l` -/
structure ValidMap (y : Ylm) : Prop where
  wf : Dict.WF y.data
  nonempty : y.data ≠ []
  order : ∀ e ∈ y.data, |e.1.2| ≤ (e.1.1 : ℤ)

/-- value of `Σ c x^i y^j z^k` -/
def polyVal (d : Dict Ijk) (x y z : ℝ) : ℝ :=
  (d.map fun e => e.2 * (x ^ e.1.1 * y ^ e.1.2.1 * z ^ e.1.2.2)).sum

/-- a dictionary of polynomial coefficients as the class documents it: distinct keys, powers of `z` at
most one, not empty -/
structure ValidPoly (d : Dict Ijk) : Prop where
  wf : Dict.WF d
  nonempty : d ≠ []
  zle : ∀ e ∈ d, e.1.2.2 ≤ 1

/-- `x^i y^j z^k` -/
def mono (x y z : ℝ) (e : Ijk) : ℝ := x ^ e.1 * y ^ e.2.1 * z ^ e.2.2

/-- value of a dense coefficient vector in the basis of monomials `1, x, z, y, x², xz, xy, yz, y², …`:
entry `l² + l + m` belongs to `x^((l-m)/2) y^((l+m)/2)` if `l + m` is even and to
`x^((l-m-1)/2) y^((l+m-1)/2) z` if it is odd. -/
noncomputable def denseVal (c : List ℝ) (x y z : ℝ) : ℝ :=
  ∑ n ∈ Finset.range c.length,
    let l := Nat.sqrt n
    let mu := 2 * l - (n - l ^ 2)
    let nu := n - l ^ 2
    c.getD n 0 * (x ^ (mu / 2) * y ^ (nu / 2) * z ^ (nu % 2))

end Jaxoplanet.Starry.Spec
