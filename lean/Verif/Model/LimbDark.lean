import Verif.Model.Kepler
import Verif.Model.Keplerian

/-!
# Model of `src/jaxoplanet/core/limb_dark.py`

`eps` is `jnp.finfo(dtype).eps`; `quad` is the list of (root, weight) pairs returned by
`scipy.special.roots_legendre(order)`.  Vectors are functions of the index.
-/

namespace Jaxoplanet.LimbDark

open Real

/-- the augmented coefficients `(-1, u...)`, `core/limb_dark.py:89` -/
def uAug (u : List ℝ) : List ℝ := -1 :: u

/-- `p = (-1) ** (i + 1) * (binom(i[None, :], i[:, None]) @ u)`, `core/limb_dark.py:90-93`. -/
noncomputable def pCoeff (u : List ℝ) (n : ℕ) : ℝ :=
  (-1) ^ (n + 1) * ∑ j ∈ Finset.range (uAug u).length, (Nat.choose j n : ℝ) * (uAug u).getD j 0

/-- the entries `g[n]`, `n ≥ 2`, of the downward loop `core/limb_dark.py:94-96`; entries at or beyond
`size` are the initial zeros. -/
noncomputable def gHigh (p : ℕ → ℝ) (size n : ℕ) : ℝ :=
  if n < size then p n / (n + 2) + gHigh p size (n + 2) else 0
termination_by size - n

/-- `greens_basis_transform`, `core/limb_dark.py:87-99`: entry `n`, `n < size = len(u) + 1`. -/
noncomputable def greens (u : List ℝ) (n : ℕ) : ℝ :=
  let size := (uAug u).length
  let p := pCoeff u
  match n with
  | 0 => p 0 + 2 * gHigh p size 2
  | 1 => p 1 + 3 * gHigh p size 3
  | n => gHigh p size n

/-- `sort2`, `core/limb_dark.py:188-189`. -/
noncomputable def sort2 (a b : ℝ) : ℝ × ℝ := (min a b, max a b)

/-- `kite_area`, `core/limb_dark.py:187-196`. -/
noncomputable def kiteArea (a b c : ℝ) : ℝ :=
  let (a, b) := sort2 a b
  let (b, c) := sort2 b c
  let (a, b) := sort2 a b
  let square_area := (a + (b + c)) * (c - (a - b)) * (c + (a - b)) * (a + (b - c))
  Kepler.zeroSafeSqrt (max 0 square_area)

open Classical in
/-- `kappas`, `core/limb_dark.py:102-108`: `(area, kappa0, kappa1)`. -/
noncomputable def kappas (b r : ℝ) : ℝ × ℝ × ℝ :=
  let b2 := b ^ 2
  let factor := (r - 1) * (r + 1)
  let cond := b > |1 - r| ∧ b < 1 + r
  let b_ := if cond then b else 1
  let area := if cond then kiteArea r b_ 1 else 0
  (area, arctan2 area (b2 + factor), arctan2 area (b2 - factor))

open Classical in
/-- `s0s2`, `core/limb_dark.py:111-137`. -/
noncomputable def s0s2 (b r b2 r2 area kappa0 kappa1 : ℝ) : ℝ × ℝ :=
  let bpr := b + r
  let onembpr2 := (1 + bpr) * (1 - bpr)
  let eta2 := 0.5 * r2 * (r2 + 2 * b2)
  let s0_lrg := π * (1 - r2)
  let s2_lrg := 2 * s0_lrg + 4 * π * (eta2 - 0.5)
  let Alens := kappa1 + r2 * kappa0 - area * 0.5
  let s0_sml := π - Alens
  let s2_sml := 2 * s0_sml + 2 * (-(π - kappa1) + 2 * eta2 * kappa0
    - 0.25 * area * (1 + 5 * r2 + b2))
  let delta := 4 * b * r
  if onembpr2 + delta > delta then (s0_lrg, s2_lrg) else (s0_sml, s2_sml)

open Classical in
/-- One integrand value of `p_integral` for the term of order `n` (`n = 1` or `n ≥ 3`) at the
quadrature root `x`, `core/limb_dark.py:149-182`. -/
noncomputable def pIntegrand (eps b r b2 r2 kappa0 : ℝ) (n : ℕ) (x : ℝ) : ℝ :=
  let factor := 4 * b * r
  let k2_cond := factor < 10 * eps
  let factor := if k2_cond then 1 else factor
  let k2 := max 0 ((1 - r2 - b2 + 2 * b * r) / factor)
  let rng := 0.5 * kappa0
  let phi := rng * x
  let c := cos (phi + 0.5 * kappa0)
  let s := sin ((phi + rng) / 2)
  let s2 := s ^ 2
  if n = 1 then
    let omz2 := max 0 (r2 + b2 - 2 * b * r * c)
    let z2 := 1 - omz2
    let z2 := if z2 < 10 * eps then 1 else z2
    let z3 := z2 * Kepler.zeroSafeSqrt z2
    let cond := omz2 < 10 * eps
    let omz2 := if cond then 1 else omz2
    let result := 2 * r * (r - b * c) * (1 - z3) / (3 * omz2)
    if cond then 0 else result
  else
    let f0 := max 0 (if k2_cond then 1 - r2 else factor * (k2 - s2))
    f0 ^ (0.5 * (n : ℝ)) * (2 * r * (r - b + 2 * b * s2))

/-- `p_integral`, `core/limb_dark.py:140-184`: the row of order `n`. -/
noncomputable def pIntegral (eps : ℝ) (quad : List (ℝ × ℝ)) (b r b2 r2 kappa0 : ℝ) (n : ℕ) : ℝ :=
  0.5 * kappa0 *
    (quad.map fun xw => pIntegrand eps b r b2 r2 kappa0 n xw.1 * xw.2).sum

open Classical in
/-- `solution_vector(l_max)(b, r)`, `core/limb_dark.py:50-84`: entry `n ≤ l_max`. -/
noncomputable def solution (eps : ℝ) (quad : List (ℝ × ℝ)) (b r : ℝ) (n : ℕ) : ℝ :=
  let b := |b|
  let r := |r|
  let (area, kappa0, kappa1) := kappas b r
  let no_occ := b ≥ 1 + r
  let full_occ := 1 + b ≤ r
  let cond := no_occ ∨ full_occ
  let b_ := if cond then 1 else b
  let b2 := b_ ^ 2
  let r2 := r ^ 2
  let (s0, s2) := s0s2 b_ r b2 r2 area kappa0 kappa1
  let s0 := if no_occ then π else s0
  let s0 := if full_occ then 0 else s0
  let s2 := if cond then 0 else s2
  let P := fun n => if cond then 0 else pIntegral eps quad b_ r b2 r2 kappa0 n
  match n with
  | 0 => s0
  | 1 => -P 1 - 2 * (kappa1 - π) / 3
  | 2 => s2
  | n => -P n

/-- `light_curve`, `core/limb_dark.py:19-47`. -/
noncomputable def lightCurve (eps : ℝ) (quad : List (ℝ × ℝ)) (u : List ℝ) (b r : ℝ) : ℝ :=
  match u with
  | [] => solution eps quad b r 0 * (1 / π) - 1
  | u =>
    let norm := π * (greens u 0 + greens u 1 / 1.5)
    ∑ n ∈ Finset.range (u.length + 1), solution eps quad b r n * (greens u n / norm) - 1

end Jaxoplanet.LimbDark
