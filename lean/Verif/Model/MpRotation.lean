import Verif.Model.Multiprecision
import Verif.Model.Rotation
import Mathlib.LinearAlgebra.Matrix.NonsingularInverse

/-!
# Model of `R`, `dot_rotation_matrix` and `left_project` of `src/jaxoplanet/starry/multiprecision/rotation.py`

Values are exact real and complex numbers: the arithmetic of `mpmath` with `mp.dps` digits is not modelled, but the number
`mp.dps` is a parameter, because the code compares with `10 ** (-mp.dps)`. The literal `1e-20` is the real number.
`Umn` (`rotation.py:75-89`) is the same text as in `s2fft_rotation.py` and is defined in `Model/Rotation.lean`.
-/

namespace Jaxoplanet.Starry.Mp

open Real

/-- `fac(n)` for an integer, `starry/multiprecision/utils.py:46-53`; `none` is `mp.inf` (`mp.fac` raises `ValueError` at its
poles) -/
def facZ (n : ℤ) : Option ℝ := if n < 0 then none else some (n.toNat.factorial : ℝ)

/-- a product of two values of `fac`: infinite if one of them is -/
def mulInf (a b : Option ℝ) : Option ℝ :=
  match a, b with
  | some a, some b => some (a * b)
  | _, _ => none

/-- `x / d`, where `d` may be `mp.inf`: then the quotient is `0` -/
noncomputable def divInf (x : ℝ) (d : Option ℝ) : ℝ :=
  match d with
  | some d => x / d
  | none => 0

/-- the angle `beta` used in `Dmn`, `starry/multiprecision/rotation.py:48-50` -/
noncomputable def dmnBeta (dps : ℕ) (beta : ℝ) : ℝ := if beta = 0 then (10 : ℝ) ^ (-(dps : ℤ)) else beta

/-- the loop of `Dmn`, `starry/multiprecision/rotation.py:47, 51-57` (`k` runs over `range(l + m + 1)`) -/
noncomputable def dmnSum (l : ℕ) (m n : ℤ) (beta : ℝ) : ℝ :=
  (List.range ((l : ℤ) + m + 1).toNat).foldl (fun (sumterm : ℝ) (k : ℕ) =>
    sumterm + divInf ((-1) ^ k * cos (beta / 2) ^ (2 * (l : ℤ) + m - n - 2 * k) * sin (beta / 2) ^ (-m + n + 2 * (k : ℤ)))
      (mulInf (mulInf (mulInf (facZ k) (facZ (l + m - k))) (facZ (l - n - k))) (facZ (n - m + k)))) 0

/-- `Dmn(l, m, n, alpha, beta, gamma)`, `starry/multiprecision/rotation.py:45-66` (for `|m|, |n| ≤ l` the factorials under the
root are finite; an infinite one is not modelled and counts as `0`) -/
noncomputable def Dmn (dps l : ℕ) (m n : ℤ) (alpha beta gamma : ℝ) : ℂ :=
  (dmnSum l m n (dmnBeta dps beta) : ℂ) * Complex.exp (-Complex.I * ((alpha * n + gamma * m : ℝ) : ℂ)) *
    (-1) ^ (n + m) * ((√((facZ (l - m)).getD 0 * (facZ (l + m)).getD 0 * (facZ (l - n)).getD 0 * (facZ (l + n)).getD 0) : ℝ) : ℂ)

/-- `D(l, alpha, beta, gamma)`, `starry/multiprecision/rotation.py:68-73`: row `m + l`, column `n + l` -/
noncomputable def D (dps l : ℕ) (alpha beta gamma : ℝ) : Matrix (Fin (2 * l + 1)) (Fin (2 * l + 1)) ℂ :=
  Matrix.of fun r c => Dmn dps l (((c : ℕ) : ℤ) - l) (((r : ℕ) : ℤ) - l) alpha beta gamma

/-- `U(l)`, `starry/multiprecision/rotation.py:91-97` -/
noncomputable def U (l : ℕ) : Matrix (Fin (2 * l + 1)) (Fin (2 * l + 1)) ℂ :=
  Matrix.of fun r c => Umn (((r : ℕ) : ℤ) - l) (((c : ℕ) : ℤ) - l)

/-- `rot_matrix(l, alpha, beta, gamma)`, `starry/multiprecision/rotation.py:99-112` (`0` outside the block) -/
noncomputable def rotMatrix (dps l : ℕ) (alpha beta gamma : ℝ) (m n : ℕ) : ℝ :=
  if l = 0 then (if m = 0 ∧ n = 0 then 1 else 0) else
    if h : m < 2 * l + 1 ∧ n < 2 * l + 1 then
      let foo := (((U l)⁻¹ * D dps l alpha beta gamma * U l) ⟨m, h.1⟩ ⟨n, h.2⟩).re
      if |foo| < (10 : ℝ) ^ (-(dps : ℤ)) then 0 else foo
    else 0

/-- division by zero of `mpmath` numbers -/
noncomputable def divZ (x y : ℝ) : Except PyErr ℝ := if y = 0 then .error (.valueError "ZeroDivisionError") else .ok (x / y)

/-- `axis_angle_to_euler(u1, u2, u3, theta)`, `starry/multiprecision/rotation.py:114-164` -/
noncomputable def axisAngleToEuler (u1 u2 u3 theta : ℝ) : Except PyErr (ℝ × ℝ × ℝ) := do
  let tol : ℝ := 1e-20
  let theta := if theta = 0 then tol else theta
  let v1 := if u1 = 0 ∧ u2 = 0 then tol else u1
  let v2 := if u1 = 0 ∧ u2 = 0 then tol else u2
  let costheta := cos theta
  let sintheta := sin theta
  let RA01 := v1 * v2 * (1 - costheta) - u3 * sintheta
  let RA02 := v1 * u3 * (1 - costheta) + v2 * sintheta
  let RA11 := costheta + v2 * v2 * (1 - costheta)
  let RA12 := v2 * u3 * (1 - costheta) - v1 * sintheta
  let RA20 := u3 * v1 * (1 - costheta) - v2 * sintheta
  let RA21 := u3 * v2 * (1 - costheta) + v1 * sintheta
  let RA22 := costheta + u3 * u3 * (1 - costheta)
  if RA22 < -1 ∧ RA22 > -1 then
    return (arctan2 0 1, arctan2 0 (-1), arctan2 RA01 RA11)
  else if RA22 < 1 ∧ RA22 > 1 then
    return (arctan2 0 1, arctan2 0 1, arctan2 (-RA01) RA11)
  else
    let cosbeta := RA22
    let sinbeta := √(1 - cosbeta ^ 2)
    let norm1 := √(RA20 * RA20 + RA21 * RA21)
    let norm2 := √(RA02 * RA02 + RA12 * RA12)
    let cosgamma ← divZ (-RA20) norm1
    let singamma ← divZ RA21 norm1
    let cosalpha ← divZ RA02 norm2
    let sinalpha ← divZ RA12 norm2
    return (arctan2 sinalpha cosalpha, arctan2 sinbeta cosbeta, arctan2 singamma cosgamma)

/-- `R(lmax, u, theta)`, `starry/multiprecision/rotation.py:43, 166-171`: block `l`, row `m`, column `n` -/
noncomputable def R (dps lmax : ℕ) (u : ℝ × ℝ × ℝ) (theta : ℝ) : Except PyErr (List (ℕ → ℕ → ℝ)) := do
  let norm := √(u.1 ^ 2 + u.2.1 ^ 2 + u.2.2 ^ 2)
  let u1 ← divZ u.1 norm
  let u2 ← divZ u.2.1 norm
  let u3 ← divZ u.2.2 norm
  let e ← axisAngleToEuler u1 u2 u3 theta
  return (List.range (lmax + 1)).map fun l => rotMatrix dps l e.1 e.2.1 e.2.2

/-- `dot_rotation_matrix(ydeg, u, theta)(M)`, `starry/multiprecision/rotation.py:174-197` with `rotation_matrices=None`: the
matrices are computed even if `theta` is `0` -/
noncomputable def dotRotationMatrixMp (dps ydeg : ℕ) (u : ℝ × ℝ × ℝ) (theta : ℝ) (M : List ℝ) : Except PyErr (List ℝ) := do
  let rotation_matrices ← R dps ydeg u theta
  if theta = 0 then return M
  else return dotR ydeg (fun l => rotation_matrices.getD l (fun _ _ => 0)) M

/-- `left_project(deg, inc, obl, theta, theta_z, x)`, `starry/multiprecision/rotation.py:200-215` (the transposition of the result
is not modelled). The call in lines 213-214 passes five positional arguments to a function of four and raises `TypeError`. -/
noncomputable def leftProjectMp (dps deg : ℕ) (inc obl theta theta_z : ℝ) (x : List ℝ) : Except PyErr (List ℝ) := do
  let x ← if theta ≠ 0 then do
      let x ← dotRotationMatrixMp dps deg (1, 0, 0) (-0.5 * π) x
      let x ← dotRotationMatrixMp dps deg (0, 0, 1) (-theta) x
      dotRotationMatrixMp dps deg (1, 0, 0) (0.5 * π) x
    else pure x
  let x ← if obl ≠ 0 then dotRotationMatrixMp dps deg (0, 0, 1) (-obl) x else pure x
  let x ← dotRotationMatrixMp dps deg (-cos obl, -sin obl, 0) (0.5 * π - inc) x
  if theta_z ≠ 0 then throw (.typeError "dot_rotation_matrix() takes from 3 to 4 positional arguments but 5 were given")
  else return x

end Jaxoplanet.Starry.Mp
