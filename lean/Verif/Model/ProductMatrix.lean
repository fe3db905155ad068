import Verif.Model.Harmonics

/-!
# Model of `polynomial_product_matrix`, `src/jaxoplanet/starry/core/polynomials.py:167-206`

A matrix is a function of the row and the column; the shape is `prodRows` times `(degree + 1) ** 2`.
-/

namespace Jaxoplanet.Starry

/-- `p[n]` of a JAX array: an index beyond the end reads the last element (index clamping);
`starry/core/polynomials.py:197-202` -/
def clampGet (p : List ℝ) (n : ℕ) : ℝ := p.getD (min n (p.length - 1)) 0

/-- `M = M.at[r, c].set(M[r, c] + v)`, `starry/core/polynomials.py:197-202`; the row is never negative -/
def addAt (M : ℕ → ℕ → ℝ) (r : ℤ) (c : ℕ) (v : ℝ) : ℕ → ℕ → ℝ :=
  fun i j => if i = r.toNat ∧ j = c then M i j + v else M i j

/-- `range(-l, l + 1)`, `starry/core/polynomials.py:190, 194` -/
def orders (l : ℕ) : List ℤ := (List.range (2 * l + 1)).map fun (q : ℕ) => (q : ℤ) - l

/-- `deg_p`, `starry/core/polynomials.py:182` -/
def prodDeg (p : List ℝ) : ℕ := Nat.sqrt p.length

/-- the number of rows of the result, `starry/core/polynomials.py:183-185` -/
def prodRows (p : List ℝ) (degree : ℕ) : ℕ := (prodDeg p + degree + 1) * (prodDeg p + degree + 1)

/-- the body of the innermost loop, `starry/core/polynomials.py:195-203`; the state is `(M, n2)` -/
def prodStep (p : List ℝ) (l1 : ℕ) (m1 : ℤ) (n1 : ℕ) (l2 : ℕ) (st : (ℕ → ℕ → ℝ) × ℕ) (m2 : ℤ) : (ℕ → ℕ → ℝ) × ℕ :=
  let odd1 := ((l1 : ℤ) + m1) % 2 ≠ 0
  let l : ℤ := l1 + l2
  let n : ℤ := l * l + l + m1 + m2
  let M := st.1
  let n2 := st.2
  let M := if odd1 ∧ ((l2 : ℤ) + m2) % 2 ≠ 0 then
      let M := addAt M (n - 4 * l + 2) n1 (clampGet p n2)
      let M := addAt M (n - 2) n1 (-clampGet p n2)
      addAt M (n + 2) n1 (-clampGet p n2)
    else addAt M n n1 (clampGet p n2)
  (M, n2 + 1)

/-- one column, `starry/core/polynomials.py:192-203` -/
def prodColumn (p : List ℝ) (l1 : ℕ) (m1 : ℤ) (n1 : ℕ) (M : ℕ → ℕ → ℝ) : ℕ → ℕ → ℝ :=
  ((List.range (prodDeg p + 1)).foldl (fun (st : (ℕ → ℕ → ℝ) × ℕ) (l2 : ℕ) =>
    (orders l2).foldl (prodStep p l1 m1 n1 l2) st) (M, 0)).1

/-- `polynomial_product_matrix(p, degree)`, `starry/core/polynomials.py:167-206` -/
def polynomialProductMatrix (p : List ℝ) (degree : ℕ) : ℕ → ℕ → ℝ :=
  ((List.range (degree + 1)).foldl (fun (st : (ℕ → ℕ → ℝ) × ℕ) (l1 : ℕ) =>
    (orders l1).foldl (fun (st : (ℕ → ℕ → ℝ) × ℕ) (m1 : ℤ) => (prodColumn p l1 m1 st.2 st.1, st.2 + 1)) st) (fun _ _ => 0, 0)).1

/-- `M @ p2` for a matrix with `rows` rows, the use documented in `starry/core/polynomials.py:168-169` -/
noncomputable def prodApply (rows : ℕ) (M : ℕ → ℕ → ℝ) (p2 : List ℝ) : List ℝ :=
  (List.range rows).map fun i => ∑ j ∈ Finset.range p2.length, M i j * p2.getD j 0

end Jaxoplanet.Starry
