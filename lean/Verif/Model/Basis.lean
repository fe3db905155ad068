import Verif.Model.Harmonics
import Mathlib.Analysis.SpecialFunctions.Gamma.Basic

/-!
# Model of `src/jaxoplanet/starry/core/basis.py`

Matrices are lists of columns (`A1`, `A2_inv`) or of rows (`U`); a sparse matrix is identified with its
dense form. The values are reals.
-/

namespace Jaxoplanet.Starry

open Real

/-- `for l in range(lmax + 1): for m in range(-l, l + 1)`, `starry/core/basis.py:77-78, 359-360` -/
def loopLM (lmax : ℕ) : List (ℕ × ℤ) :=
  (List.range (lmax + 1)).flatMap fun l : ℕ => (List.range (2 * l + 1)).map fun k : ℕ => (l, (k : ℤ) - l)

/-- Python's `range(a, b, 2)` for natural `a`; loop ranges of `starry/core/basis.py:175-193, 259-275` -/
def range2 (a b : ℕ) : List ℕ := (List.range ((b + 1 - a) / 2)).map fun i => a + 2 * i

/-- `ptilde`, `starry/core/basis.py:87-117` (`math.floor(math.sqrt(n))` is exact for array sizes) -/
def ptilde (n : ℕ) : Ijk :=
  let l : ℤ := (Nat.sqrt n : ℤ)
  let m : ℤ := n - l * l - l
  let mu := l - m
  let nu := l + m
  if nu % 2 = 0 then ((mu / 2).toNat, (nu / 2).toNat, 0)
  else (((mu - 1) / 2).toNat, ((nu - 1) / 2).toNat, 1)

/-- `p = {ptilde(m): m for m in range(n)}` and `p[k]` / `k not in p`, `starry/core/basis.py:75, 222-224` -/
def pLookup (N : ℕ) (k : Ijk) : Option ℕ := (List.range N).find? fun m => ptilde m = k

/-- the `(index, value)` pairs of `p_Y`, `p_G` and `u_p`, `starry/core/basis.py:222-233, 303-315, 398-411`
(sorting by index does not change the matrix) -/
def polyEntries (N : ℕ) (d : Dict Ijk) : List (ℤ × ℝ) :=
  d.filterMap fun e => (pLookup N e.1).map fun i => ((i : ℤ), e.2)

/-- `_A_impl(lmax, func)`, `starry/core/basis.py:56-84`: the columns of the matrix. `csc_array` adds
duplicate entries up. `func` maps `(l, m, n)` to a dictionary. -/
noncomputable def AImpl (lmax : ℕ) (func : ℕ → ℤ → ℕ → Dict Ijk) : List (List ℝ) :=
  (loopLM lmax).zipIdx.map fun e =>
    bcooDense (polyEntries ((lmax + 1) ^ 2) (func e.1.1 e.1.2 e.2)) ((lmax + 1) ^ 2)

/-- matrix (list of columns, `N` rows) times vector; the products `A1 @ y` of `starry/light_curves.py:136`, `starry/surface.py:172` -/
noncomputable def matVec (N : ℕ) (cols : List (List ℝ)) (v : List ℝ) : List ℝ :=
  (List.range N).map fun r : ℕ => ((cols.zip v).map fun e => e.1.getD r 0 * e.2).sum

/-- `Alm`, `starry/core/basis.py:120-126` -/
noncomputable def Alm (l m : ℕ) : ℝ :=
  √((2 - if m = 0 then 1 else 0) * (2 * l + 1) * ((l - m).factorial : ℝ) / (4 * π * ((l + m).factorial : ℝ)))

/-- `Blmjk`, `starry/core/basis.py:129-146` -/
noncomputable def Blmjk (l m j k : ℕ) : ℝ :=
  let a : ℤ := l + m + k - 1
  let b : ℤ := -l + m + k - 1
  if b < 0 ∧ b % 2 = 0 then 0
  else
    let ratio := Gamma (0.5 * a + 1) / Gamma (0.5 * b + 1)
    2 ^ l * (m.factorial : ℝ) /
      ((j.factorial : ℝ) * (k.factorial : ℝ) * ((m - j).factorial : ℝ) * ((l - m - k).factorial : ℝ)) * ratio

/-- `Cpqk`, `starry/core/basis.py:149-154` -/
noncomputable def Cpqk (p q k : ℕ) : ℝ :=
  ((k / 2).factorial : ℝ) /
    (((q / 2).factorial : ℝ) * (((k - p) / 2).factorial : ℝ) * (((p - q) / 2).factorial : ℝ))

/-- the terms added up by `Ylm(l, m)`, `starry/core/basis.py:173-197`, in loop order; terms with
`Blmjk = 0` are skipped -/
noncomputable def ylmTerms (l : ℕ) (m : ℤ) : List (Ijk × ℝ) :=
  let am := m.natAbs
  let neg := if m < 0 then 1 else 0
  let A := Alm l am
  (range2 neg (am + 1)).flatMap fun j =>
    ((range2 0 (l - am + 1)).flatMap fun k =>
      if Blmjk l am j k = 0 then []
      else (range2 0 (k + 1)).flatMap fun p => (range2 0 (p + 1)).map fun q =>
        ((am - j + p - q, j + q, 0), (-1) ^ ((j + p - neg) / 2) * (A * Blmjk l am j k) * Cpqk p q k)) ++
    ((range2 1 (l - am + 1)).flatMap fun k =>
      if Blmjk l am j k = 0 then []
      else (range2 0 k).flatMap fun p => (range2 0 (p + 1)).map fun q =>
        ((am - j + p - q, j + q, 1), (-1) ^ ((j + p - neg) / 2) * (A * Blmjk l am j k) * Cpqk p q (k - 1)))

/-- `Ylm(l, m)`, `starry/core/basis.py:157-199`: `res[ind] += …` for every term -/
noncomputable def ylmDict (l : ℕ) (m : ℤ) : Dict Ijk :=
  (ylmTerms l m).foldl (fun d e => Dict.accum d e.1 e.2) []

/-- `A1(lmax)`, `starry/core/basis.py:32-41`, columns -/
noncomputable def A1 (lmax : ℕ) : List (List ℝ) :=
  (AImpl lmax fun l m _ => ylmDict l m).map fun c => c.map fun v => v * 2 / √π

/-- the `(i, j, k, c)` of `gtilde`, `starry/core/basis.py:248-277` -/
def gTerms (n : ℕ) : List (ℤ × ℤ × ℤ × ℤ) :=
  let l : ℤ := (Nat.sqrt n : ℤ)
  let m : ℤ := n - l * l - l
  let mu := l - m
  let nu := l + m
  if nu % 2 = 0 then [(mu / 2, nu / 2, 0, (mu + 2) / 2)]
  else if l = 1 ∧ m = 0 then [(0, 0, 1, 1)]
  else if mu = 1 ∧ l % 2 = 0 then [(l - 2, 1, 1, 3)]
  else if mu = 1 then [(l - 3, 0, 1, -1), (l - 1, 0, 1, 1), (l - 3, 2, 1, 4)]
  else [((mu - 5) / 2, (nu - 1) / 2, 1, (mu - 3) / 2), ((mu - 5) / 2, (nu + 3) / 2, 1, -(mu - 3) / 2),
        ((mu - 1) / 2, (nu - 1) / 2, 1, -(mu + 3) / 2)]

/-- `gtilde`, `starry/core/basis.py:236-282`: zero coefficients are dropped. (The exponents that remain are
natural numbers and distinct, so the dictionary assignment is a list.) -/
def gtilde (n : ℕ) : Dict Ijk :=
  ((gTerms n).filter fun t => t.2.2.2 ≠ 0).map fun t =>
    ((t.1.toNat, t.2.1.toNat, t.2.2.1.toNat), (t.2.2.2 : ℝ))

/-- `A2_inv(lmax)`, `starry/core/basis.py:44-53`, columns -/
noncomputable def A2inv (lmax : ℕ) : List (List ℝ) := AImpl lmax fun _ _ n => gtilde n

/-! ### `poly_basis` -/

/-- an array of optional entries: `[None for _ in range(N)]` and assignments; the row of values built in `starry/core/basis.py:321-374` -/
abbrev Arr := ℕ → Option ℝ

/-- `while i + 1 < N:` of `poly_basis`, `starry/core/basis.py:341-350`. An assignment outside the list would
be an `IndexError` (here: `none`). -/
def polyWhile (N : ℕ) (xterm yterm : ℝ) (xarr yarr : Arr) (i di j dj : ℕ) : Option (Arr × Arr) :=
  if i + 1 < N then
    if j + 1 < N then
      polyWhile N xterm yterm
        (Function.update (Function.update xarr i (some xterm)) (i + 1) (some xterm))
        (Function.update (Function.update yarr j (some yterm)) (j + 1) (some yterm))
        (i + (di + 2)) (di + 2) (j + (dj + 2) - 1) (dj + 2)
    else none
  else some (xarr, yarr)
termination_by N - i

/-- state of the `for n in range(deg + 1)` loop; the local variables of the loop in `starry/core/basis.py:321-374` -/
structure PolyState where
  xarr : Arr
  yarr : Arr
  xterm : ℝ
  yterm : ℝ
  i0 : ℕ
  di0 : ℕ
  j0 : ℕ
  dj0 : ℕ

/-- one round of the loop, `starry/core/basis.py:331-356` -/
def polyStep (N : ℕ) (x y : ℝ) (s : PolyState) (n : ℕ) : Option PolyState :=
  if s.i0 < N ∧ s.j0 < N then
    (polyWhile N s.xterm s.yterm (Function.update s.xarr s.i0 (some s.xterm))
      (Function.update s.yarr s.j0 (some s.yterm)) (s.i0 + s.di0 - 1) s.di0 (s.j0 + s.dj0 - 1) s.dj0).map
    fun a => { xarr := a.1, yarr := a.2, xterm := s.xterm * x, yterm := s.yterm * y,
               i0 := s.i0 + (2 * n + 1), di0 := s.di0 + 2, j0 := s.j0 + (2 * (n + 1) + 1), dj0 := s.dj0 + 2 }
  else none

/-- `poly_basis(deg)(x, y, z)`, `starry/core/basis.py:318-376`; `none` stands for an `IndexError` or a failed
`assert` -/
noncomputable def polyBasis (deg : ℕ) (x y z : ℝ) : Option (List ℝ) := do
  let N := (deg + 1) * (deg + 1)
  let s ← (List.range (deg + 1)).foldlM (polyStep N x y)
    { xarr := fun _ => none, yarr := fun _ => none, xterm := 1 + 0 * z, yterm := 1 + 0 * z,
      i0 := 0, di0 := 3, j0 := 0, dj0 := 2 }
  -- `assert all(v is not None ...)` and reading the arrays
  let xs ← (List.range N).mapM s.xarr
  let ys ← (List.range N).mapM s.yarr
  let inds := ((loopLM deg).zipIdx.filter fun e => ((e.1.1 : ℤ) + e.1.2) % 2 ≠ 0).map Prod.snd
  return (List.zipWith (· * ·) xs ys).mapIdx fun i v => if i ∈ inds then v * z else v

/-! ### limb darkening -/

/-- the terms of `utilde(n)` for `n > 0`, `starry/core/basis.py:385-392` -/
def uTerms (n : ℕ) : List (Ijk × ℝ) :=
  (List.range (n + 1)).flatMap fun k : ℕ =>
    let c1 : ℝ := (n.choose k : ℝ) * (-1) ^ k
    (List.range (k / 2 + 1)).flatMap fun j : ℕ =>
      let c2 : ℝ := ((k / 2).choose j : ℝ) * (-1) ^ j
      (List.range (j + 1)).map fun l : ℕ =>
        let c3 : ℝ := (j.choose l : ℝ)
        ((2 * (j - l), 2 * l, k % 2), -c1 * c2 * c3)

/-- `utilde`, `starry/core/basis.py:379-394` -/
noncomputable def utilde (n : ℕ) : Dict Ijk :=
  if n = 0 then [((0, 0, 0), 1)] else (uTerms n).foldl (fun d e => Dict.accum d e.1 e.2) []

/-- `U(udeg)`, `starry/core/basis.py:414-431`, rows -/
noncomputable def Umat (udeg : ℕ) : List (List ℝ) :=
  (List.range (udeg + 1)).map fun i => bcooDense (polyEntries ((udeg + 1) ^ 2) (utilde i)) ((udeg + 1) ^ 2)

/-- `jnp.array([1, *u]) @ U(udeg)`, e.g. `starry/surface.py:174-175`, `starry/light_curves.py:127-128` -/
noncomputable def limbDarkPoly (u : List ℝ) : List ℝ :=
  matVec ((u.length + 1) ^ 2) (Umat u.length) (1 :: u)

end Jaxoplanet.Starry
