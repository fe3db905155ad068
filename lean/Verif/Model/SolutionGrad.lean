import Verif.Model.LimbDarkGrad
import Verif.Model.Solution

/-!
# Model of the automatic differentiation of `src/jaxoplanet/starry/core/solution.py`

The same program as `Model/Solution.lean`, on numbers with derivatives: `strict` chooses the mode, see `Model/Autodiff.lean`.
`eps` is `jnp.finfo(dtype).eps`, `quad n` are the roots and weights of `scipy.special.roots_legendre(n)`.
-/

namespace Jaxoplanet.Starry
open Real AD AD.Dual

/-- `kappas(b, r)`, `starry/core/solution.py:30-36` -/
noncomputable def kappasD (eps : ℝ) (strict : Bool) (b r : Dual) : Dual × Dual :=
  let b2 := b.square
  let factor := (r - const 1) * (r + const 1)
  let b_cond := b.v > |1 - r.v| ∧ b.v < 1 + r.v
  let b_ := Dual.where strict b_cond b (const 1)
  let area := Dual.where strict b_cond (LimbDark.kiteAreaD eps r b_ (const 1)) (const 0)
  (Dual.atan2 area (b2 + factor), Dual.atan2 area (b2 - factor))

/-- the memo dictionary `h` of `q_integral`, `starry/core/solution.py:43-46` -/
abbrev MemoD := List ((ℕ × ℕ) × Dual)

/-- `get(u, v)` of `q_integral`, `starry/core/solution.py:48-58` -/
noncomputable def qGetD (c s : Dual) (u v : ℕ) (h : MemoD) : Except PyErr (Dual × MemoD) :=
  match h.lookup (u, v) with
  | some x => .ok (x, h)
  | none =>
    if 2 ≤ u then
      match qGetD c s (u - 2) v h with
      | .error e => .error e
      | .ok (g, h) =>
        let comp := const 2 * c.ipow (u - 1) * s.ipow (v + 1) + const ((u : ℝ) - 1) * g
        let comp := comp / const ((u : ℝ) + v)
        .ok (comp, ((u, v), comp) :: h)
    else if 2 ≤ v then
      match qGetD c s u (v - 2) h with
      | .error e => .error e
      | .ok (g, h) =>
        let comp := const (-2) * c.ipow (u + 1) * s.ipow (v - 1) + const ((v : ℝ) - 1) * g
        let comp := comp / const ((u : ℝ) + v)
        .ok (comp, ((u, v), comp) :: h)
    else .error .assertionError
termination_by u + v

/-- the body of the double loop of `q_integral`, `starry/core/solution.py:61-73` -/
noncomputable def qStepD (lam : Dual) (st : List Dual × MemoD) (e : ℕ × ℤ) : Except PyErr (List Dual × MemoD) :=
  let c := lam.cos
  let s := lam.sin
  if e.1 = 1 ∧ e.2 = 0 then .ok (st.1 ++ [(const π + const 2 * lam) / const 3], st.2)
  else
    let mu := ((e.1 : ℤ) - e.2).toNat
    let nu := ((e.1 : ℤ) + e.2).toNat
    if mu % 2 = 0 ∧ (mu / 2) % 2 = 0 then
      let u := mu / 2 + 2
      let v := nu / 2
      if u % 2 = 0 then
        match qGetD c s u v st.2 with
        | .error e => .error e
        | .ok (g, h) => .ok (st.1 ++ [g], h)
      else .error .assertionError
    else .ok (st.1 ++ [const 0], st.2)

/-- `q_integral(l_max, lam)`, `starry/core/solution.py:39-76` -/
noncomputable def qIntegralD (l_max : ℕ) (lam : Dual) : Except PyErr (List Dual) :=
  match (loopLM l_max).foldlM (qStepD lam) ([], [((0, 0), const 2 * lam + const π), ((0, 1), const (-2) * lam.cos)]) with
  | .error e => .error e
  | .ok (U, _) => .ok U

/-- the integrand of `p_integral` for the index `(l, m)`, `starry/core/solution.py:108-200`. `(2 * r) ** (l - 1)` is only used
for `l ≥ 2`. -/
noncomputable def pTermD (eps : ℝ) (strict : Bool) (b r kappa0 : Dual) (l : ℕ) (m : ℤ) : Option (Bool × (ℝ → Dual)) :=
  let b2 := b.square
  let r2 := r.square
  let factor := const 4 * b * r
  let k2_cond := factor.v < 10 * eps
  let factor := Dual.where strict k2_cond (const 1) factor
  let k2 := Dual.max (const 0) ((const 1 - r2 - b2 + const 2 * b * r) / factor)
  let r_cond := r.v < 10 * eps
  let delta := (b - r) / (const 2 * Dual.where strict r_cond (const 1) r)
  let rng := const 0.25 * kappa0
  let s2 : ℝ → Dual := fun x => ((rng * const (x + 1)).sin).square
  let f0 : ℝ → Dual := fun x =>
    (Dual.max (const 0) (Dual.where strict k2_cond (const 1 - r2) (factor * (k2 - s2 x)))).pow 1.5
  let a1 : ℝ → Dual := fun x => s2 x - (s2 x).square
  let a2 : ℝ → Dual := fun x => Dual.where strict r_cond (const 0) (delta + s2 x)
  let a4 : ℝ → Dual := fun x => const 1 - const 2 * s2 x
  let fa3 : ℝ → Dual := fun x => (const 2 * r).ipow (l - 1) * f0 x
  let mu := ((l : ℤ) - m).toNat
  let nu := ((l : ℤ) + m).toNat
  if mu = 1 ∧ l = 1 then
    some (false, fun x =>
      let phi := const 2 * rng * const x
      let c := (phi + const 0.5 * kappa0).cos
      let omz2 := r2 + b2 - const 2 * b * r * c
      let cond := omz2.v < 10 * eps
      let omz2 := Dual.where strict cond (const 1) omz2
      let z2 := Dual.max (const 0) (const 1 - omz2)
      let result := const 2 * r * (r - b * c) * (const 1 - z2 * Dual.zeroSafeSqrt eps z2) / (const 3 * omz2)
      Dual.where strict cond (const 0) (const 2 * result))
  else if mu % 2 = 0 ∧ (mu / 2) % 2 = 0 then
    some (true, fun x => const 2 * (const 2 * (const 2 * r).ipow (l + 2) * (a1 x).pow (0.25 * ((mu : ℝ) + 4)) * (a2 x).pow (0.5 * (nu : ℝ))))
  else if mu = 1 ∧ l % 2 = 0 then
    some (false, fun x => const 2 * (fa3 x * (a1 x).ipow (l / 2 - 1) * a4 x))
  else if mu = 1 then
    some (false, fun x => const 2 * (fa3 x * (a1 x).ipow ((l - 3) / 2) * a2 x * a4 x))
  else if ((mu : ℤ) - 1) % 2 = 0 ∧ ((mu - 1) / 2) % 2 = 0 then
    some (false, fun x => const 2 * (const 2 * fa3 x * (a1 x).ipow ((mu - 1) / 4) * (a2 x).pow (0.5 * ((nu : ℝ) - 1))))
  else none

/-- `p_integral(order, l_max, b, r, kappa0)`, `starry/core/solution.py:79-213` -/
noncomputable def pIntegralD (eps : ℝ) (strict : Bool) (quad : ℕ → List (ℝ × ℝ)) (order l_max : ℕ) (b r kappa0 : Dual) :
    Except PyErr (List Dual) :=
  if l_max = 0 then .error (.valueError "need at least one array to stack")
  else
    let low_order := min order 20
    let rng := const 0.25 * kappa0
    .ok ((loopLM l_max).map fun e =>
      match pTermD eps strict b r kappa0 e.1 e.2 with
      | none => const 0
      | some (low, f) => rng * Dual.sum ((quad (if low then low_order else order)).map fun xw => f xw.1 * const xw.2))

/-- `solution_vector(l_max, order)(b, r)`, `starry/core/solution.py:14-27` -/
noncomputable def solutionVectorD (eps : ℝ) (strict : Bool) (quad : ℕ → List (ℝ × ℝ)) (l_max order : ℕ) (b r : Dual) :
    Except PyErr (List Dual) :=
  let b := b.abs
  let r := r.abs
  let k := kappasD eps strict b r
  match pIntegralD eps strict quad order l_max b r k.1, qIntegralD l_max (const (0.5 * π) - k.2) with
  | .ok P, .ok Q => .ok (List.zipWith (fun q p => q - p) Q P)
  | .error e, _ => .error e
  | _, .error e => .error e

end Jaxoplanet.Starry
