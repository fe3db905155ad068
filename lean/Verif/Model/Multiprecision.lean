import Verif.Model.MpCache
import Verif.Model.SurfaceLight
import Mathlib.MeasureTheory.Integral.IntervalIntegral.Basic

/-!
# Model of `src/jaxoplanet/starry/multiprecision` (the reference implementation)

`mpmath` numbers are exact reals, `mp.inf` is `none`; `mp.quad` is the integral. `_A2` (an LU solve for every column) is
the inverse of `A2_inv`. `R` (the rotation matrices) is a parameter of `flux`.
-/

namespace Jaxoplanet.Starry.Mp

open Real

/-! ### `basis.py` -/

open Classical in
/-- `utils.fac(n)`, `starry/multiprecision/utils.py:46-53`: `n!`, that is `Γ(n + 1)`; the poles give `mp.inf` -/
noncomputable def facFn (n : ℝ) : Option ℝ :=
  if n = 0 then some 1
  else if ∃ k : ℕ, n = -(k : ℝ) - 1 then none
  else some (Gamma (n + 1))

/-- `FAC_CACHE`, `starry/multiprecision/basis.py:15` -/
abbrev FacTbl := List (ℝ × Option ℝ)

open Classical in
/-- `fac(n)`, `starry/multiprecision/basis.py:30-34`, on the table -/
noncomputable def fac (n : ℝ) : StateT FacTbl Option (Option ℝ) := fun t =>
  let t := match t.lookup n with
    | none => setKey t n (facFn n)
    | some _ => t
  (t.lookup n).map fun v => (v, t)

/-- a value of `fac` used as a number; the model stops (`none`) at `mp.inf`, which is proved not to happen;
uses of `fac` in `starry/multiprecision/basis.py:37-53` -/
noncomputable def facNum (n : ℝ) : StateT FacTbl Option ℝ := do
  match ← fac n with
  | none => failure
  | some v => pure v

/-- `A(l, m)`, `starry/multiprecision/basis.py:37-41` -/
noncomputable def A (l m : ℕ) : StateT FacTbl Option ℝ := do
  let f1 ← facNum ((l : ℝ) - m)
  let f2 ← facNum ((l : ℝ) + m)
  return √((2 - if m = 0 then 1 else 0) * (2 * l + 1) * f1 / (4 * π * f2))

/-- `B(l, m, j, k)`, `starry/multiprecision/basis.py:44-49`; a division by `mp.inf` is zero -/
noncomputable def B (l m j k : ℕ) : StateT FacTbl Option ℝ := do
  let n1 ← facNum (((l : ℝ) + m + k - 1) / 2)
  let n2 ← fac ((-(l : ℝ) + m + k - 1) / 2)
  let ratio := match n2 with
    | none => 0
    | some v => n1 / v
  let fm ← facNum m
  let fj ← facNum j
  let fk ← facNum k
  let fmj ← facNum ((m : ℝ) - j)
  let flmk ← facNum ((l : ℝ) - m - k)
  return 2 ^ l * fm / (fj * fk * fmj * flmk) * ratio

/-- `C(p, q, k)`, `starry/multiprecision/basis.py:52-54` -/
noncomputable def C (p q k : ℕ) : StateT FacTbl Option ℝ := do
  let f1 ← facNum ((k : ℝ) / 2)
  let f2 ← facNum ((q : ℝ) / 2)
  let f3 ← facNum (((k : ℝ) - p) / 2)
  let f4 ← facNum (((p : ℝ) - q) / 2)
  return f1 / (f2 * f3 * f4)

/-- `FAC_CACHE` and the table `coeffs` of `Y`, `starry/multiprecision/basis.py:15, 59` -/
structure MemSt where
  facs : FacTbl
  coeffs : List ((String × List ℕ) × ℝ)

/-- `get(function, *indices)` of `Y`, `starry/multiprecision/basis.py:61-66` -/
noncomputable def get (name : String) (idx : List ℕ) (f : StateT FacTbl Option ℝ) : StateT MemSt Option ℝ := fun s =>
  match s.coeffs.lookup (name, idx) with
  | some v => some (v, s)
  | none => (f s.facs).map fun r => (r.1, ⟨r.2, setKey s.coeffs (name, idx) r.1⟩)

/-- the loop variables `(j, k, p, q)` of `Y` and the order of `z`, `starry/multiprecision/basis.py:70-122`; `am` is
`abs(m)` and `neg` is 1 for the branch `m < 0`, where `j` starts at 1 -/
def yLoop (l am neg : ℕ) : List (ℕ × ℕ × ℕ × ℕ × ℕ) :=
  (range2 neg (am + 1)).flatMap fun j =>
    ((range2 0 (l - am + 1)).flatMap fun k => (range2 0 (k + 1)).flatMap fun p =>
      (range2 0 (p + 1)).map fun q => (j, k, p, q, 0)) ++
    ((range2 1 (l - am + 1)).flatMap fun k => (range2 0 k).flatMap fun p =>
      (range2 0 (p + 1)).map fun q => (j, k, p, q, 1))

/-- the loop body of `Y`, `starry/multiprecision/basis.py:74-83, 87-96, 101-110, 114-123` -/
noncomputable def yStep (l am neg : ℕ) (d : Dict Ijk) (e : ℕ × ℕ × ℕ × ℕ × ℕ) : StateT MemSt Option (Dict Ijk) := do
  let (j, k, p, q, z) := e
  let a ← get "A" [l, am] (A l am)
  let b ← get "B" [l, am, j, k] (B l am j k)
  let c ← get "C" [p, q, k - z] (C p q (k - z))
  let coeff := (-1) ^ ((j + p - neg) / 2) * a * b * c
  return Dict.accum d (am - j + p - q, j + q, z) coeff

/-- `Y(l, m)`, `starry/multiprecision/basis.py:57-126`; the table `coeffs` is local -/
noncomputable def Y (l : ℕ) (m : ℤ) : StateT FacTbl Option (Dict Ijk) := fun t =>
  let am := m.natAbs
  let neg := if m < 0 then 1 else 0
  (((yLoop l am neg).foldlM (yStep l am neg) []) ⟨t, []⟩).map fun r => (r.1, r.2.facs)

/-- `p_coeffs(n)`, `starry/multiprecision/basis.py:129-142` -/
def pCoeffs (n : ℕ) : Ijk :=
  let l : ℤ := (Nat.sqrt n : ℤ)
  let m : ℤ := n - l * l - l
  let mu := l - m
  let nu := l + m
  if nu % 2 = 0 then ((mu / 2).toNat, (nu / 2).toNat, 0)
  else (((mu - 1) / 2).toNat, ((nu - 1) / 2).toNat, 1)

/-- `_A1(l_max)`, `starry/multiprecision/basis.py:145-158`, columns -/
noncomputable def A1mp (lmax : ℕ) : StateT FacTbl Option (List (List ℝ)) :=
  (loopLM lmax).mapM fun e => do
    let y ← Y e.1 e.2
    return (List.range ((lmax + 1) ^ 2)).map fun i => Dict.getD0 y (pCoeffs i) * 2 / √π

/-- the lists `I`, `J`, `K`, `C` of `gtilde(n)`, `starry/multiprecision/basis.py:168-196` (`mp.floor` of halves of
integers) -/
def gLists (n : ℕ) : List ((ℤ × ℤ × ℤ) × ℤ) :=
  let l : ℤ := (Nat.sqrt n : ℤ)
  let m : ℤ := n - l * l - l
  let mu := l - m
  let nu := l + m
  if nu % 2 = 0 then [((mu / 2, nu / 2, 0), (mu + 2) / 2)]
  else if l = 1 ∧ m = 0 then [((0, 0, 1), 1)]
  else if mu = 1 ∧ l % 2 = 0 then [((l - 2, 1, 1), 3)]
  else if mu = 1 then [((l - 3, 0, 1), -1), ((l - 1, 0, 1), 1), ((l - 3, 2, 1), 4)]
  else [(((mu - 5) / 2, (nu - 1) / 2, 1), (mu - 3) / 2), (((mu - 5) / 2, (nu + 3) / 2, 1), -((mu - 3) / 2)),
        (((mu - 1) / 2, (nu - 1) / 2, 1), -((mu + 3) / 2))]

/-- `gtilde(n)`, `starry/multiprecision/basis.py:167-200`: `res[(i, j, k)] = c` -/
def gtildeMp (n : ℕ) : List ((ℤ × ℤ × ℤ) × ℤ) := (gLists n).foldl (fun d e => setKey d e.1 e.2) []

/-- `A2_inv(l_max)`, `starry/multiprecision/basis.py:203-215`, columns -/
def A2invMp (lmax : ℕ) : List (List ℝ) :=
  (List.range ((lmax + 1) ^ 2)).map fun n => (List.range ((lmax + 1) ^ 2)).map fun i =>
    match (gtildeMp n).lookup (((pCoeffs i).1 : ℤ), ((pCoeffs i).2.1 : ℤ), ((pCoeffs i).2.2 : ℤ)) with
    | some c => (c : ℝ)
    | none => 0

/-- `A2(l_max)`, `starry/multiprecision/basis.py:218-270`: the inverse of `A2_inv` (documented; the LU solves for the
columns are trusted) -/
noncomputable def A2mp (lmax : ℕ) : Matrix (Fin ((lmax + 1) ^ 2)) (Fin ((lmax + 1) ^ 2)) ℝ :=
  (matOf ((lmax + 1) ^ 2) (A2invMp lmax))⁻¹

/-! ### `solution.py` -/

/-- `kite_area(a, b, c)`, `starry/multiprecision/solution.py:37-46` -/
noncomputable def kiteArea (a b c : ℝ) : ℝ :=
  let (a, b) := LimbDark.sort2 a b
  let (b, c) := LimbDark.sort2 b c
  let (a, b) := LimbDark.sort2 a b
  let square_area := (a + (b + c)) * (c - (a - b)) * (c + (a - b)) * (a + (b - c))
  √(max 0 square_area)

/-- `kappas(b, r)`, `starry/multiprecision/solution.py:30-34` -/
noncomputable def kappasMp (b r : ℝ) : ℝ × ℝ :=
  let b2 := b ^ 2
  let factor := (r - 1) * (r + 1)
  let area := kiteArea r b 1
  (arctan2 area (b2 + factor), arctan2 area (b2 - factor))

open Classical in
/-- the angle `kappa` of `P`, `starry/multiprecision/solution.py:54-61` -/
noncomputable def kappaP (b r : ℝ) : ℝ :=
  let phi := if |1 - r| < b ∧ b < 1 + r then (kappasMp b r).1 - π / 2 else π / 2
  phi + π / 2

open Classical in
/-- the integrand of `P(l, m, b, r)`, `starry/multiprecision/solution.py:51-126`; `none` where `P` returns 0.
`mu / 2` is a float division: `(mu / 2) % 2 == 0` means that 4 divides `mu`. -/
noncomputable def pFunc (b r kappa : ℝ) (l : ℕ) (m : ℤ) : Option (ℝ → ℝ) :=
  let mu := ((l : ℤ) - m).toNat
  let nu := ((l : ℤ) + m).toNat
  let delta := (b - r) / (2 * r)
  let k2 := (1 - r ^ 2 - b ^ 2 + 2 * b * r) / (4 * b * r)
  if mu % 4 = 0 then
    some fun x =>
      let s := sin x
      2 * (2 * r) ^ (l + 2) * (s ^ 2 - s ^ 4) ^ (0.25 * ((mu : ℝ) + 4)) * (delta + s ^ 2) ^ (0.5 * (nu : ℝ))
  else if mu = 1 ∧ l % 2 = 0 then
    some fun x =>
      let s := sin x
      (2 * r) ^ (l - 1) * (4 * b * r) ^ (3 / 2 : ℝ) * (s ^ 2 - s ^ 4) ^ (0.5 * ((l : ℝ) - 2)) *
        (k2 - s ^ 2) ^ (3 / 2 : ℝ) * (1 - 2 * s ^ 2)
  else if mu = 1 ∧ l ≠ 1 ∧ l % 2 ≠ 0 then
    some fun x =>
      let s := sin x
      (2 * r) ^ (l - 1) * (4 * b * r) ^ (3 / 2 : ℝ) * (s ^ 2 - s ^ 4) ^ (0.5 * ((l : ℝ) - 3)) * (delta + s ^ 2) *
        (k2 - s ^ 2) ^ (3 / 2 : ℝ) * (1 - 2 * s ^ 2)
  else if ((mu : ℤ) - 1) % 2 = 0 ∧ ((mu : ℤ) - 1) / 2 % 2 = 0 ∧ l ≠ 1 then
    some fun x =>
      let s := sin x
      2 * (2 * r) ^ (l - 1) * (4 * b * r) ^ (3 / 2 : ℝ) * (s ^ 2 - s ^ 4) ^ (0.25 * ((mu : ℝ) - 1)) *
        (delta + s ^ 2) ^ (0.5 * ((nu : ℝ) - 1)) * (k2 - s ^ 2) ^ (3 / 2 : ℝ)
  else if mu = 1 ∧ l = 1 then
    some fun x =>
      let c := cos (x + 0.5 * kappa)
      let omz2 := r ^ 2 + b ^ 2 - 2 * b * r * c
      if omz2 ≤ 0 then 0
      else
        let z2 := max 0 (1 - omz2)
        2 * r * (r - b * c) * (1 - z2 * √z2) / (3 * omz2)
  else none

/-- `P(l, m, b, r)`, `starry/multiprecision/solution.py:49-128`. `k2` divides by `4 b r` and `delta` by `2 r` -/
noncomputable def P (l : ℕ) (m : ℤ) (b r : ℝ) : Except PyErr ℝ :=
  if 4 * b * r = 0 then .error (.valueError "ZeroDivisionError")
  else .ok <| match pFunc b r (kappaP b r) l m with
    | none => 0
    | some f => ∫ x in (-(kappaP b r) / 2)..(kappaP b r / 2), f x

/-- `p_numerical(l_max, b, r)`, `starry/multiprecision/solution.py:131-139` -/
noncomputable def pNumerical (l_max : ℕ) (b r : ℝ) : Except PyErr (List ℝ) := (loopLM l_max).mapM fun e => P e.1 e.2 b r

open Classical in
/-- `q_numerical(l_max, b, r)`, `starry/multiprecision/solution.py:142-185`: the body after the definition of `lam` is,
line by line, that of `core/solution.py:39-76` -/
noncomputable def qNumerical (l_max : ℕ) (b r : ℝ) : Except PyErr (List ℝ) :=
  let lam := if |1 - r| < b ∧ b < 1 + r then 0.5 * π - (kappasMp b r).2 else π / 2
  qIntegral l_max lam

/-- `sT(l_max, b, r)`, `starry/multiprecision/solution.py:188-191` -/
noncomputable def sT (l_max : ℕ) (b r : ℝ) : Except PyErr (List ℝ) := do
  let r := |r|
  let b := |b|
  let q ← qNumerical l_max b r
  let p ← pNumerical l_max b r
  return List.zipWith (fun q p => q - p) q p

/-! ### `rotation.py` -/

/-- `dot_rotation_matrix(ydeg, None, None, R)(M)`, `starry/multiprecision/rotation.py:174-197`: every block of `M` times
its matrix; the block of degree zero is replaced by 1 -/
noncomputable def dotR (ydeg : ℕ) (R : ℕ → ℕ → ℕ → ℝ) (M : List ℝ) : List ℝ :=
  (List.range (ydeg + 1)).flatMap fun l : ℕ =>
    if l = 0 then [1]
    else (List.range (2 * l + 1)).map fun j : ℕ =>
      ∑ i ∈ Finset.range (2 * l + 1), M.getD (l * l + i) 0 * R l i j

/-- `dot_rz(deg, theta)(M)`, `starry/multiprecision/rotation.py:218-252` -/
noncomputable def dotRzMp (deg : ℕ) (theta : ℝ) (M : List ℝ) : List ℝ :=
  let c := cos (-theta)
  let s := sin (-theta)
  let cosnt := chebList deg 1 c c
  let sinnt := chebList deg 0 s c
  let cosmt := mtList deg cosnt 1
  let sinmt := mtList deg sinnt (-1)
  let n_max := deg ^ 2 + 2 * deg + 1
  (loopLJ deg).foldl (fun result e =>
    result.set (e.1 * e.1 + e.2)
      (M.getD (e.1 * e.1 + e.2) 0 * cosmt.getD (e.1 * e.1 + e.2) 0 +
        M.getD (e.1 * e.1 + 2 * e.1 - e.2) 0 * sinmt.getD (e.1 * e.1 + e.2) 0)) (List.replicate n_max 0)

/-! ### `flux.py` -/

/-- the four rotations of `flux`, `starry/multiprecision/flux.py:34-37` -/
structure Rots where
  px : ℕ → ℕ → ℕ → ℝ
  mx : ℕ → ℕ → ℕ → ℝ
  obl : ℕ → ℕ → ℕ → ℝ
  inc : ℕ → ℕ → ℕ → ℝ

/-- the matrices requested by `flux` from `R(lmax, u, theta)`, `starry/multiprecision/flux.py:34-37` with
`starry/multiprecision/rotation.py:14-40` -/
noncomputable def fluxRots (R : ℝ × ℝ × ℝ → ℝ → ℕ → ℕ → ℕ → ℝ) (inc obl : ℝ) : Rots where
  px := R (1, 0, 0) (-0.5 * π)
  mx := R (1, 0, 0) (0.5 * π)
  obl := R (0, 0, 1) (-obl)
  inc := R (-cos obl, -sin obl, 0) (0.5 * π - inc)

/-- `rotate_y(y, phi)`, `starry/multiprecision/flux.py:44-50` -/
noncomputable def rotateY (ydeg : ℕ) (R : Rots) (y : List ℝ) (phi : ℝ) : List ℝ :=
  dotR ydeg R.inc (dotR ydeg R.obl (dotR ydeg R.mx (dotRzMp ydeg phi (dotR ydeg R.px y))))

/-- `rot_flux(y, phi)`, `starry/multiprecision/flux.py:52-55`. With `ydeg = 0` the rotations are not defined (a
`NameError`; with the default `y = ()` the `AttributeError` of `y.tolist()`); `@` of matrices whose dimensions do not
match is a `ValueError` -/
noncomputable def rotFlux (ydeg udeg : ℕ) (R : Rots) (A1 : List (List ℝ)) (y : List ℝ) (phi : ℝ) : Except PyErr ℝ :=
  if ydeg = 0 then .error (.valueError "AttributeError: tolist")
  else if udeg ≠ 0 then .error (.valueError "dimensions not compatible for multiplication")
  else .ok (List.zipWith (· * ·) (matVec ((ydeg + 1) ^ 2) A1 (rotateY ydeg R y phi)) (rT ydeg)).sum

/-- the coefficients of the map in the frame of the occultor, `starry/multiprecision/flux.py:58-70`; with
`rotate = False` and `ydeg > 0` the name `y_rotated` is not defined -/
noncomputable def yOcc (ydeg : ℕ) (R : Rots) (y : List ℝ) (b phi : ℝ) (rotate : Bool) : Except PyErr (List ℝ) :=
  if 0 < ydeg then
    if rotate then .ok (dotRzMp ydeg (arctan2 0 b) (rotateY ydeg R y phi))
    else .error (.valueError "UnboundLocalError: y_rotated")
  else .ok [1]

/-- the polynomial of the brightness and the norm, `starry/multiprecision/flux.py:72-84` -/
noncomputable def pOcc (ydeg udeg : ℕ) (A1 : List (List ℝ)) (y_rotated u : List ℝ) : Except PyErr (List ℝ × ℝ) := do
  let py := matVec ((ydeg + 1) ^ 2) A1 y_rotated
  if 0 < udeg then
    let pu := limbDarkPoly u
    let norm := π / (List.zipWith (· * ·) pu (rT udeg)).sum
    let p1 ← Pijk.fromDense pu none
    let p2 ← Pijk.fromDense py none
    let p ← p1.mul p2
    return ((List.range ((p.degree + 1) ^ 2)).map fun i => Dict.getD0 p.data (n2ijk i), norm)
  else return (py, 1)

/-- `occ_flux(y, b, r, phi, u, rotate)`, `starry/multiprecision/flux.py:57-85` -/
noncomputable def occFlux (ydeg udeg : ℕ) (R : Rots) (A1 : List (List ℝ)) (y : List ℝ) (b r phi : ℝ) (u : List ℝ)
    (rotate : Bool) : Except PyErr ℝ := do
  let s ← sT (ydeg + udeg) b r
  let x := vecMat s (A2mp (ydeg + udeg))
  let y_rotated ← yOcc ydeg R y b phi rotate
  let pn ← pOcc ydeg udeg A1 y_rotated u
  return pn.2 * (List.zipWith (· * ·) pn.1 x).sum

open Classical in
/-- `flux(ydeg, udeg, inc, obl)(b, r, y, phi, u, rotate)`, `starry/multiprecision/flux.py:23-99`. `A1` is the value of
`A1(ydeg)` (see `A1mp`), `R` the rotation matrices. -/
noncomputable def flux (R : ℝ × ℝ × ℝ → ℝ → ℕ → ℕ → ℕ → ℝ) (A1 : List (List ℝ)) (ydeg udeg : ℕ) (inc obl : ℝ)
    (b r : ℝ) (y : List ℝ) (phi : ℝ) (u : List ℝ) (rotate : Bool) : Except PyErr ℝ :=
  if u.length ≠ udeg then .error .assertionError
  else if 0 < ydeg ∧ y.length ≠ (ydeg + 1) ^ 2 then .error .assertionError
  else if r + 1 ≤ |b| then rotFlux ydeg udeg (fluxRots R inc obl) A1 y phi
  else if 1 < r ∧ |b| ≤ r - 1 then .ok 0
  else occFlux ydeg udeg (fluxRots R inc obl) A1 y b r phi u rotate

end Jaxoplanet.Starry.Mp
