import Verif.Model.Autodiff
import Verif.Model.LimbDark

/-!
# Model of the automatic differentiation of `src/jaxoplanet/core/limb_dark.py`

The same program as `Model/LimbDark.lean`, on numbers with derivatives: `strict` chooses the mode, see `Model/Autodiff.lean`.
`eps` is `jnp.finfo(dtype).eps`, `quad` are the roots and weights of `scipy.special.roots_legendre(order)`.
-/

namespace Jaxoplanet.LimbDark
open Real AD AD.Dual

/-- the augmented coefficients, `core/limb_dark.py:89` -/
noncomputable def uAugD (u : List Dual) : List Dual := const (-1) :: u

/-- `p`, `core/limb_dark.py:90-93` -/
noncomputable def pCoeffD (u : List Dual) (n : ℕ) : Dual :=
  const ((-1) ^ (n + 1)) * Dual.sum ((List.range (uAugD u).length).map fun (j : ℕ) => const (Nat.choose j n : ℝ) * (uAugD u).getD j (const 0))

/-- the downward loop, `core/limb_dark.py:94-96` -/
noncomputable def gHighD (p : ℕ → Dual) (size n : ℕ) : Dual :=
  if n < size then p n / const ((n : ℝ) + 2) + gHighD p size (n + 2) else const 0
termination_by size - n

/-- `greens_basis_transform`, `core/limb_dark.py:87-99` -/
noncomputable def greensD (u : List Dual) (n : ℕ) : Dual :=
  let size := (uAugD u).length
  let p := pCoeffD u
  match n with
  | 0 => p 0 + const 2 * gHighD p size 2
  | 1 => p 1 + const 3 * gHighD p size 3
  | n => gHighD p size n

/-- `kite_area`, `core/limb_dark.py:187-196` -/
noncomputable def kiteAreaD (eps : ℝ) (a b c : Dual) : Dual :=
  let (a, b) := (Dual.min a b, Dual.max a b)
  let (b, c) := (Dual.min b c, Dual.max b c)
  let (a, b) := (Dual.min a b, Dual.max a b)
  let square_area := (a + (b + c)) * (c - (a - b)) * (c + (a - b)) * (a + (b - c))
  Dual.zeroSafeSqrt eps (Dual.max (const 0) square_area)

/-- `kappas`, `core/limb_dark.py:102-108` -/
noncomputable def kappasD (eps : ℝ) (strict : Bool) (b r : Dual) : Dual × Dual × Dual :=
  let b2 := b.square
  let factor := (r - const 1) * (r + const 1)
  let cond := b.v > |1 - r.v| ∧ b.v < 1 + r.v
  let b_ := Dual.where strict cond b (const 1)
  let area := Dual.where strict cond (kiteAreaD eps r b_ (const 1)) (const 0)
  (area, Dual.atan2 area (b2 + factor), Dual.atan2 area (b2 - factor))

/-- `s0s2`, `core/limb_dark.py:111-137` -/
noncomputable def s0s2D (strict : Bool) (b r b2 r2 area kappa0 kappa1 : Dual) : Dual × Dual :=
  let bpr := b + r
  let onembpr2 := (const 1 + bpr) * (const 1 - bpr)
  let eta2 := const 0.5 * r2 * (r2 + const 2 * b2)
  let s0_lrg := const π * (const 1 - r2)
  let s2_lrg := const 2 * s0_lrg + const (4 * π) * (eta2 - const 0.5)
  let Alens := kappa1 + r2 * kappa0 - area * const 0.5
  let s0_sml := const π - Alens
  let s2_sml := const 2 * s0_sml + const 2 * (-(const π - kappa1) + const 2 * eta2 * kappa0
    - const 0.25 * area * (const 1 + const 5 * r2 + b2))
  let delta := const 4 * b * r
  let cond := (onembpr2 + delta).v > delta.v
  (Dual.where strict cond s0_lrg s0_sml, Dual.where strict cond s2_lrg s2_sml)

/-- one value of the integrand of `p_integral`, `core/limb_dark.py:149-182` -/
noncomputable def pIntegrandD (eps : ℝ) (strict : Bool) (b r b2 r2 kappa0 : Dual) (n : ℕ) (x : ℝ) : Dual :=
  let factor := const 4 * b * r
  let k2_cond := factor.v < 10 * eps
  let factor := Dual.where strict k2_cond (const 1) factor
  let k2 := Dual.max (const 0) ((const 1 - r2 - b2 + const 2 * b * r) / factor)
  let rng := const 0.5 * kappa0
  let phi := rng * const x
  let c := Dual.cos (phi + const 0.5 * kappa0)
  let s := Dual.sin ((phi + rng) / const 2)
  let s2 := s.square
  if n = 1 then
    let omz2 := Dual.max (const 0) (r2 + b2 - const 2 * b * r * c)
    let z2 := const 1 - omz2
    let z2 := Dual.where strict (z2.v < 10 * eps) (const 1) z2
    let z3 := z2 * Dual.zeroSafeSqrt eps z2
    let cond := omz2.v < 10 * eps
    let omz2 := Dual.where strict cond (const 1) omz2
    let result := const 2 * r * (r - b * c) * (const 1 - z3) / (const 3 * omz2)
    Dual.where strict cond (const 0) result
  else
    let f0 := Dual.max (const 0) (Dual.where strict k2_cond (const 1 - r2) (factor * (k2 - s2)))
    Dual.pow f0 (0.5 * (n : ℝ)) * (const 2 * r * (r - b + const 2 * b * s2))

/-- `p_integral`, `core/limb_dark.py:140-184`: the row of order `n` -/
noncomputable def pIntegralD (eps : ℝ) (strict : Bool) (quad : List (ℝ × ℝ)) (b r b2 r2 kappa0 : Dual) (n : ℕ) : Dual :=
  const 0.5 * kappa0 * Dual.sum (quad.map fun xw => pIntegrandD eps strict b r b2 r2 kappa0 n xw.1 * const xw.2)

/-- `solution_vector(l_max)(b, r)`, `core/limb_dark.py:50-84`: entry `n ≤ l_max` -/
noncomputable def solutionD (eps : ℝ) (strict : Bool) (quad : List (ℝ × ℝ)) (b r : Dual) (n : ℕ) : Dual :=
  let b := b.abs
  let r := r.abs
  let (area, kappa0, kappa1) := kappasD eps strict b r
  let no_occ := b.v ≥ 1 + r.v
  let full_occ := 1 + b.v ≤ r.v
  let cond := no_occ ∨ full_occ
  let b_ := Dual.where strict cond (const 1) b
  let b2 := b_.square
  let r2 := r.square
  let (s0, s2) := s0s2D strict b_ r b2 r2 area kappa0 kappa1
  let s0 := Dual.where strict no_occ (const π) s0
  let s0 := Dual.where strict full_occ (const 0) s0
  let s2 := Dual.where strict cond (const 0) s2
  let P := fun n => Dual.where strict cond (const 0) (pIntegralD eps strict quad b_ r b2 r2 kappa0 n)
  match n with
  | 0 => s0
  | 1 => -P 1 - const 2 * (kappa1 - const π) / const 3
  | 2 => s2
  | n => -P n

/-- `light_curve`, `core/limb_dark.py:19-47` -/
noncomputable def lightCurveD (eps : ℝ) (strict : Bool) (quad : List (ℝ × ℝ)) (u : List Dual) (b r : Dual) : Dual :=
  match u with
  | [] => solutionD eps strict quad b r 0 * const (1 / π) - const 1
  | u =>
    let norm := const π * (greensD u 0 + greensD u 1 / const 1.5)
    Dual.sum ((List.range (u.length + 1)).map fun (n : ℕ) => solutionD eps strict quad b r n * (greensD u n / norm)) - const 1

/-- the last part of `light_curves.limb_dark.light_curve`, `light_curves/limb_dark.py:52-65`: from the position `(x, y, z)`
and the radius of the body and the radius of the star to the flux -/
noncomputable def orbitFluxD (eps : ℝ) (strict : Bool) (quad : List (ℝ × ℝ)) (u : List Dual) (x y z radius r_star : Dual) : Dual :=
  let b := Dual.sqrt (x.square + y.square) / r_star
  let r := radius / r_star
  Dual.where strict (z.v > 0) (lightCurveD eps strict quad u b r) (const 0)

end Jaxoplanet.LimbDark
