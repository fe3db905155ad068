import Verif.Model.Basis
import Verif.Model.LimbDark

/-!
# Model of `src/jaxoplanet/starry/core/solution.py`

Values are exact reals. `jnp.vectorize` and `jax.jit` are the identity on scalars `b`, `r`. The nodes and weights
of `roots_legendre(order)` are a parameter (`quad`), the machine epsilon of the dtype is a parameter (`eps`).
-/

namespace Jaxoplanet.Starry

open Real

/-! ### the Q integral -/

/-- the memo dictionary `h` of `q_integral`, `starry/core/solution.py:43-46` -/
abbrev Memo := List ((ℕ × ℕ) × ℝ)

/-- `get(u, v)` of `q_integral`, `starry/core/solution.py:48-58`, on the memo dictionary `h`: value and updated
dictionary. The failing `assert v >= 2` is `assertionError`. -/
noncomputable def qGet (c s : ℝ) (u v : ℕ) (h : Memo) : Except PyErr (ℝ × Memo) :=
  match h.lookup (u, v) with
  | some x => .ok (x, h)
  | none =>
    if 2 ≤ u then
      match qGet c s (u - 2) v h with
      | .error e => .error e
      | .ok (g, h) =>
        let comp := 2 * c ^ (u - 1) * s ^ (v + 1) + ((u : ℝ) - 1) * g
        let comp := comp / ((u : ℝ) + v)
        .ok (comp, ((u, v), comp) :: h)
    else if 2 ≤ v then
      match qGet c s u (v - 2) h with
      | .error e => .error e
      | .ok (g, h) =>
        let comp := -2 * c ^ (u + 1) * s ^ (v - 1) + ((v : ℝ) - 1) * g
        let comp := comp / ((u : ℝ) + v)
        .ok (comp, ((u, v), comp) :: h)
    else .error .assertionError
termination_by u + v

/-- the body of the double loop of `q_integral`, `starry/core/solution.py:61-73`: appends to `U` -/
noncomputable def qStep (lam : ℝ) (st : List ℝ × Memo) (e : ℕ × ℤ) : Except PyErr (List ℝ × Memo) :=
  let c := cos lam
  let s := sin lam
  if e.1 = 1 ∧ e.2 = 0 then .ok (st.1 ++ [(π + 2 * lam) / 3], st.2)
  else
    let mu := ((e.1 : ℤ) - e.2).toNat
    let nu := ((e.1 : ℤ) + e.2).toNat
    if mu % 2 = 0 ∧ (mu / 2) % 2 = 0 then
      let u := mu / 2 + 2
      let v := nu / 2
      if u % 2 = 0 then
        match qGet c s u v st.2 with
        | .error e => .error e
        | .ok (g, h) => .ok (st.1 ++ [g], h)
      else .error .assertionError
    else .ok (st.1 ++ [0], st.2)

/-- `q_integral(l_max, lam)`, `starry/core/solution.py:39-76` -/
noncomputable def qIntegral (l_max : ℕ) (lam : ℝ) : Except PyErr (List ℝ) :=
  match (loopLM l_max).foldlM (qStep lam) ([], [((0, 0), 2 * lam + π), ((0, 1), -2 * cos lam)]) with
  | .error e => .error e
  | .ok (U, _) => .ok U

/-! ### the P integral -/

open Classical in
/-- the integrand of `p_integral` for the index `(l, m)`, at the quadrature root `x`,
`starry/core/solution.py:108-200`; `none` where the loop continues without appending. The flag tells which
quadrature rule is used (`true`: `low_order`). -/
noncomputable def pTerm (eps b r kappa0 : ℝ) (l : ℕ) (m : ℤ) : Option (Bool × (ℝ → ℝ)) :=
  let b2 := b ^ 2
  let r2 := r ^ 2
  let factor := 4 * b * r
  let k2_cond := factor < 10 * eps
  let factor := if k2_cond then 1 else factor
  let k2 := max 0 ((1 - r2 - b2 + 2 * b * r) / factor)
  let r_cond := r < 10 * eps
  let delta := (b - r) / (2 * if r_cond then 1 else r)
  let rng := 0.25 * kappa0
  let s2 : ℝ → ℝ := fun x => (sin (rng * (x + 1))) ^ 2
  let f0 : ℝ → ℝ := fun x => (max 0 (if k2_cond then 1 - r2 else factor * (k2 - s2 x))) ^ (1.5 : ℝ)
  let a1 : ℝ → ℝ := fun x => s2 x - (s2 x) ^ 2
  let a2 : ℝ → ℝ := fun x => if r_cond then 0 else delta + s2 x
  let a4 : ℝ → ℝ := fun x => 1 - 2 * s2 x
  let fa3 : ℝ → ℝ := fun x => (2 * r) ^ ((l : ℤ) - 1) * f0 x
  let mu := ((l : ℤ) - m).toNat
  let nu := ((l : ℤ) + m).toNat
  if mu = 1 ∧ l = 1 then
    some (false, fun x =>
      let phi := 2 * rng * x
      let c := cos (phi + 0.5 * kappa0)
      let omz2 := r2 + b2 - 2 * b * r * c
      let cond := omz2 < 10 * eps
      let omz2 := if cond then 1 else omz2
      let z2 := max 0 (1 - omz2)
      let result := 2 * r * (r - b * c) * (1 - z2 * Kepler.zeroSafeSqrt z2) / (3 * omz2)
      if cond then 0 else 2 * result)
  else if mu % 2 = 0 ∧ (mu / 2) % 2 = 0 then
    some (true, fun x => 2 * (2 * (2 * r) ^ (l + 2) * (a1 x) ^ (0.25 * ((mu : ℝ) + 4)) * (a2 x) ^ (0.5 * (nu : ℝ))))
  else if mu = 1 ∧ l % 2 = 0 then
    some (false, fun x => 2 * (fa3 x * (a1 x) ^ (l / 2 - 1) * a4 x))
  else if mu = 1 then
    some (false, fun x => 2 * (fa3 x * (a1 x) ^ ((l - 3) / 2) * a2 x * a4 x))
  else if ((mu : ℤ) - 1) % 2 = 0 ∧ ((mu - 1) / 2) % 2 = 0 then
    some (false, fun x => 2 * (2 * fa3 x * (a1 x) ^ ((mu - 1) / 4) * (a2 x) ^ (0.5 * ((nu : ℝ) - 1))))
  else none

/-- `p_integral(order, l_max, b, r, kappa0)`, `starry/core/solution.py:79-213`. `quad n` are the pairs of nodes and
weights of `roots_legendre(n)`. `np.stack` of the empty list of indices raises for `l_max = 0`. -/
noncomputable def pIntegral (eps : ℝ) (quad : ℕ → List (ℝ × ℝ)) (order l_max : ℕ) (b r kappa0 : ℝ) :
    Except PyErr (List ℝ) :=
  if l_max = 0 then .error (.valueError "need at least one array to stack")
  else
    let low_order := min order 20
    let rng := 0.25 * kappa0
    .ok ((loopLM l_max).map fun e =>
      match pTerm eps b r kappa0 e.1 e.2 with
      | none => 0
      | some (low, f) => rng * ((quad (if low then low_order else order)).map fun xw => f xw.1 * xw.2).sum)

open Classical in
/-- `kappas(b, r)`, `starry/core/solution.py:30-36` -/
noncomputable def kappas (b r : ℝ) : ℝ × ℝ :=
  let b2 := b ^ 2
  let factor := (r - 1) * (r + 1)
  let b_cond := b > |1 - r| ∧ b < 1 + r
  let b_ := if b_cond then b else 1
  let area := if b_cond then LimbDark.kiteArea r b_ 1 else 0
  (arctan2 area (b2 + factor), arctan2 area (b2 - factor))

/-- `solution_vector(l_max, order)(b, r)`, `starry/core/solution.py:14-27` -/
noncomputable def solutionVector (eps : ℝ) (quad : ℕ → List (ℝ × ℝ)) (l_max order : ℕ) (b r : ℝ) :
    Except PyErr (List ℝ) :=
  let b := |b|
  let r := |r|
  let k := kappas b r
  match pIntegral eps quad order l_max b r k.1, qIntegral l_max (0.5 * π - k.2) with
  | .ok P, .ok Q => .ok (List.zipWith (fun q p => q - p) Q P)
  | .error e, _ => .error e
  | _, .error e => .error e

/-! ### the disc integrals -/

/-- `range(a, b, 4)`; loops of `starry/core/solution.py:216-253` -/
def range4 (a b : ℕ) : List ℕ := (List.range ((b + 3 - a) / 4)).map fun i => a + 4 * i

/-- the body of the inner loops of `rT`, `starry/core/solution.py:223-231, 241-249`: the list `rt` and `amp` -/
noncomputable def rtInner (lmax ell : ℕ) (lfac1 lfac2 : ℝ) (st : List ℝ × ℝ) (m : ℕ) : List ℝ × ℝ :=
  let amp := st.2
  let mu : ℝ := (ell : ℝ) - m
  let nu : ℝ := (ell : ℝ) + m
  let rt := st.1
  let rt := rt.set (ell * ell + ell + m) (amp * lfac1)
  let rt := rt.set (ell * ell + ell - m) (amp * lfac1)
  let rt := if ell < lmax then
      let rt := rt.set ((ell + 1) * (ell + 1) + ell + m + 1) (amp * lfac2)
      rt.set ((ell + 1) * (ell + 1) + ell - m + 1) (amp * lfac2)
    else rt
  (rt, amp * ((nu + 2) / (mu - 2)))

/-- the variables of the outer loops of `rT`; loops of `starry/core/solution.py:216-253` -/
structure RtState where
  rt : List ℝ
  amp0 : ℝ
  lfac1 : ℝ
  lfac2 : ℝ

/-- the body of the outer loops of `rT`, `starry/core/solution.py:221-234, 239-252`; `m0` is the start of the inner
loop and `upd` the factor of `amp0` -/
noncomputable def rtOuter (lmax m0 : ℕ) (upd : ℝ → ℝ) (st : RtState) (ell : ℕ) : RtState :=
  { rt := ((range4 m0 (ell + 1)).foldl (rtInner lmax ell st.lfac1 st.lfac2) (st.rt, st.amp0)).1
    amp0 := st.amp0 * upd ell
    lfac1 := st.lfac1 / (((ell : ℝ) / 2 + 2) * ((ell : ℝ) / 2 + 3))
    lfac2 := st.lfac2 / (((ell : ℝ) / 2 + 2.5) * ((ell : ℝ) / 2 + 3.5)) }

/-- `rT(lmax)`, `starry/core/solution.py:216-253` -/
noncomputable def rT (lmax : ℕ) : List ℝ :=
  let rt := List.replicate ((lmax + 1) * (lmax + 1)) (0 : ℝ)
  let st : RtState := { rt := rt, amp0 := π, lfac1 := 1, lfac2 := 2 / 3 }
  let st := (range4 0 (lmax + 1)).foldl (rtOuter lmax 0 fun ell => 0.0625 * (ell + 2) * (ell + 2)) st
  let st : RtState := { rt := st.rt, amp0 := 0.5 * π, lfac1 := 0.5, lfac2 := 4 / 15 }
  ((range4 2 (lmax + 1)).foldl (rtOuter lmax 2 fun ell => 0.0625 * ell * (ell + 4)) st).rt

end Jaxoplanet.Starry
