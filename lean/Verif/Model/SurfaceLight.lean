import Verif.Model.Rotation
import Verif.Model.Solution
import Verif.Model.LimbDark
import Mathlib.LinearAlgebra.Matrix.NonsingularInverse

/-!
# Model of `src/jaxoplanet/starry/light_curves.py` (`surface_light_curve`)

One surface, one occultor, one time; values are exact reals. The path `higher_precision=True` (used by the tests
only) computes the same matrices with `mpmath` and is not distinguished. `scipy.sparse.linalg.inv` is the inverse of the
matrix, and raises for a singular matrix.
-/

namespace Jaxoplanet.Starry

open Real

/-- the square matrix with the given columns (`csc_array` of shape `(N, N)`); `starry/light_curves.py:104-109` -/
noncomputable def matOf (N : ℕ) (cols : List (List ℝ)) : Matrix (Fin N) (Fin N) ℝ :=
  Matrix.of fun r c => (cols.getD c []).getD r 0

open Classical in
/-- `scipy.sparse.linalg.inv(M)` (`starry/light_curves.py:104`): documented behaviour -/
noncomputable def scipyInv {N : ℕ} (M : Matrix (Fin N) (Fin N) ℝ) : Except PyErr (Matrix (Fin N) (Fin N) ℝ) :=
  if M.det = 0 then .error (.valueError "Factor is exactly singular") else .ok M⁻¹

/-- `v @ M`; `starry/light_curves.py:104-109` -/
noncomputable def vecMat {N : ℕ} (v : List ℝ) (M : Matrix (Fin N) (Fin N) ℝ) : List ℝ :=
  List.ofFn fun j : Fin N => ∑ i : Fin N, v.getD i 0 * M i j

/-- `p.tosparse() @ v`, `starry/core/polynomials.py:103-106` with `starry/light_curves.py:138-140`: the sum over the
stored entries of the coefficient times `v` at its index; vectors of different lengths raise a `TypeError` -/
noncomputable def Pijk.dot (p : Pijk) (v : List ℝ) : Except PyErr ℝ :=
  if v.length = p.shape then .ok (List.zipWith (· * ·) v p.todense).sum
  else .error (.typeError "dot_general requires contracting dimensions to have the same shape")

/-- the limb-darkening polynomial `p_u` of `surface_light_curve`, `starry/light_curves.py:123-128` -/
noncomputable def uPoly (u : List ℝ) : Except PyErr Pijk :=
  if u.length = 0 then Pijk.fromDense [1] none else Pijk.fromDense (limbDarkPoly u) (some u.length)

open Classical in
/-- the design vector of an occultation by a body of radius `r` at `(x, y, z)`, `starry/light_curves.py:76-109` (not
reached with `ydeg = 0`, so `total_deg > 0`): `jnp.where(b_occ, sT @ A2, rT_deg)` -/
noncomputable def designVector (eps : ℝ) (quad : ℕ → List (ℝ × ℝ)) (order total_deg : ℕ) (r x y z : ℝ) :
    Except PyErr (List ℝ) := do
  let b := √(x ^ 2 + y ^ 2)
  let b_rot := b ≥ 1 + r ∨ z ≤ 0
  let r := if b_rot then 1 else r
  let b := if b_rot then 1 else b
  let sT ← solutionVector eps quad total_deg order b r
  let A2 ← scipyInv (matOf ((total_deg + 1) ^ 2) (A2inv total_deg))
  return if b_rot then rT total_deg else vecMat sT A2

/-- the map coefficients in the frame of the sky, `starry/light_curves.py:111-121` -/
noncomputable def rotatedY (asEuler : ℝ × ℝ × ℝ → ℝ × ℝ × ℝ) (s : Surface) (theta : Option ℝ) (theta_z : ℝ) :
    Except PyErr (List ℝ) :=
  if s.ydeg = 0 then .ok s.y.todense
  else leftProject asEuler s.ydeg s.inc s.obl theta (some theta_z) s.y.todense

/-- the last part of `surface_light_curve`, `starry/light_curves.py:111-140`, from `design_matrix_p` and `theta_z` -/
noncomputable def projectFlux (asEuler : ℝ × ℝ × ℝ → ℝ × ℝ × ℝ) (s : Surface) (theta : Option ℝ) (theta_z : ℝ) (design : List ℝ) :
    Except PyErr ℝ := do
  let rotated_y ← rotatedY asEuler s theta theta_z
  let p_u ← uPoly s.u
  let p_y ← Pijk.fromDense (matVec ((s.ydeg + 1) ^ 2) (A1 s.ydeg) rotated_y) (some s.ydeg)
  let p_yu ← p_y.mul p_u
  let flux_u ← p_u.dot (rT s.udeg)
  let flux ← p_yu.dot design
  let norm := π / flux_u
  return s.amplitude * flux * norm

open Classical in
/-- `surface_light_curve(surface, r, x, y, z, theta, order)`, `starry/light_curves.py:17-140` -/
noncomputable def surfaceLightCurve (eps : ℝ) (quad : ℕ → List (ℝ × ℝ)) (asEuler : ℝ × ℝ × ℝ → ℝ × ℝ × ℝ) (order : ℕ)
    (s : Surface) (r x y z theta : Option ℝ) : Except PyErr ℝ :=
  let total_deg := s.deg
  let x := x.getD 0
  let y := y.getD 0
  let z := z.getD 0
  match r with
  | none => projectFlux asEuler s theta 0 (rT total_deg)
  | some r =>
    if s.ydeg = 0 then
      let b := √(x ^ 2 + y ^ 2)
      let b_rot := b ≥ 1 + r ∨ z ≤ 0
      let r := if b_rot then 1 else r
      let b := if b_rot then 1 else b
      .ok (1 + if b_rot then 0 else LimbDark.lightCurve eps (quad order) s.u b r)
    else do
      let theta_z := arctan2 x y
      let design ← designVector eps quad order total_deg r x y z
      projectFlux asEuler s theta theta_z design

end Jaxoplanet.Starry
