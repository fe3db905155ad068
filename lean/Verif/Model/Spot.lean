import Verif.Model.SurfaceLight
import Mathlib.Analysis.SpecialFunctions.ExpDeriv
import Mathlib.Algebra.Polynomial.Derivative
import Mathlib.LinearAlgebra.Matrix.NonsingularInverse

/-!
# Model of the spot expansion and of the limb-darkening map of `src/jaxoplanet/starry/ylm.py`
-/

namespace Jaxoplanet.Starry

open Real

/-- `scipy.special.legendre(l)(x)` (documented: the Legendre polynomial; Rodrigues' formula), used at
`starry/ylm.py:239` -/
noncomputable def legendreP (l : ℕ) (x : ℝ) : ℝ :=
  ((Polynomial.derivative^[l]) ((Polynomial.X ^ 2 - 1 : Polynomial ℝ) ^ l)).eval x / (2 ^ l * (l.factorial : ℝ))

/-- `jnp.linspace(0, jnp.pi, npts)[i]`, `starry/ylm.py:235` -/
noncomputable def thetaGrid (npts i : ℕ) : ℝ := i * π / ((npts : ℝ) - 1)

/-- the design matrix `B` of `Bp`, `starry/ylm.py:235-242` -/
noncomputable def spotB (ydeg npts : ℕ) : Matrix (Fin npts) (Fin (ydeg + 1)) ℝ :=
  fun i l => √(2 * (l : ℕ) + 1) * legendreP l (cos (thetaGrid npts i))

/-- the default of `smoothing`, `starry/ylm.py:229-233` -/
noncomputable def defaultSmoothing (ydeg : ℕ) : ℝ := if ydeg < 4 then 0.5 else 2 / ydeg

/-- the matrix that `Bp(ydeg, npts, eps, smoothing)` returns, `starry/ylm.py:222-247`; `jnp.linalg.solve` is
multiplication with the inverse (a singular matrix gives NaN in JAX; proved not to happen for `eps > 0`) -/
noncomputable def Bp (ydeg npts : ℕ) (eps : ℝ) (smoothing : Option ℝ) : Matrix (Fin (ydeg + 1)) (Fin npts) ℝ :=
  let smoothing := smoothing.getD (defaultSmoothing ydeg)
  let B := spotB ydeg npts
  let _Bp := (B.transpose * B + eps • 1)⁻¹ * B.transpose
  fun l i => exp (-0.5 * ((l : ℕ) * ((l : ℕ) + 1)) * smoothing ^ 2) * _Bp l i

/-- `spot_profile(theta, radius, spot_fac)`, `starry/ylm.py:250-256` -/
noncomputable def spotProfile (theta radius spot_fac : ℝ) : ℝ :=
  let z := spot_fac * (theta - radius)
  1 / (1 + exp (-z)) - 1

/-- the coefficient vector of the spot at the pole of the `z` axis, `starry/ylm.py:288-291`:
`y.at[indices].set(B @ b * contrast)`, then `y.at[0].set(y[0] + 1)` -/
noncomputable def spotPole (ydeg npts : ℕ) (spot_fac contrast r : ℝ) : List ℝ :=
  let B := Bp ydeg npts 1e-9 none
  let b := fun i : Fin npts => spotProfile (thetaGrid npts i) r spot_fac
  let v := B.mulVec b
  let y := (List.finRange (ydeg + 1)).foldl (fun (y : List ℝ) (l : Fin (ydeg + 1)) => y.set ((l : ℕ) * ((l : ℕ) + 1)) (v l * contrast))
    (List.replicate ((ydeg + 1) * (ydeg + 1)) 0)
  y.set 0 (y.getD 0 0 + 1)

/-- `ylm_spot(ydeg, npts, spot_fac)(contrast, r, lat, lon)`, `starry/ylm.py:259-297` -/
noncomputable def ylmSpot (asEuler : ℝ × ℝ × ℝ → ℝ × ℝ × ℝ) (ydeg npts : ℕ) (spot_fac contrast r lat lon : ℝ) :
    Except PyErr Ylm := do
  let y := spotPole ydeg npts spot_fac contrast r
  let y ← dotRotationMatrix asEuler ydeg (some 1) (some 0) (some 0) (some lat) y
  let y ← dotRotationMatrix asEuler ydeg (some 0) (some 1) (some 0) (some (-lon)) y
  Ylm.fromDense y false

/-- `Ylm.from_limb_darkening(u)`, `starry/ylm.py:162-173`; `np.linalg.inv` raises for a singular matrix; columns of `A1`
as in `Model/Basis.lean` -/
noncomputable def Ylm.fromLimbDarkening (u : List ℝ) : Except PyErr Ylm := do
  let deg := u.length
  let pu := limbDarkPoly u
  let inv ← scipyInv (matOf ((deg + 1) ^ 2) (A1 deg))
  let yu := (List.finRange ((deg + 1) ^ 2)).map fun i => inv.mulVec (fun j => pu.getD j 0) i
  let yu ← Ylm.fromDense yu false
  let p ← Pijk.fromDense pu (some deg)
  let f ← p.dot (rT deg)
  let norm := 1 / f
  return yu.smul norm

end Jaxoplanet.Starry
