import Verif.Model.Doppler
import Verif.Model.SystemGrad

/-!
# Model of the automatic differentiation of the radial velocity, `src/jaxoplanet/starry/doppler.py`

The program of `Model/Doppler.lean` on numbers with derivatives, see `Model/Autodiff.lean`; the parts that are shared with `surface_light_curve` are those of
`Model/SurfaceGrad.lean` and `Model/InclGrad.lean`.
-/

namespace Jaxoplanet.Starry
open Real AD AD.Dual

/-- `rv_map_expansion(veq, inc, obl, None)`, `starry/doppler.py:15-30`, as it is called at l.148-150 -/
noncomputable def rvMapD (veq : Dual) (inc obl : Option Dual) : List Dual :=
  let sini := match inc with | some i => i.sin | none => const 1
  let cosl := match obl with | some o => o.cos | none => const 1
  let sinl := match obl with | some o => o.sin | none => const 0
  let A := sini * cosl
  let B := sini * sinl
  let sq3 := const √3
  [const 0, veq * sq3 * B / const 3, const 0, veq * sq3 * A / const 3].map (· * const π)

/-- `Surface.veq`, `starry/surface.py:137-140`; division by `None` raises -/
noncomputable def SurfaceI.veq (s : SurfaceI) : Except PyErr Dual :=
  match s.period with
  | some p => .ok (const (2 * π) * s.radius / p)
  | none => .error (.typeError "unsupported operand type(s) for /: 'float' and 'NoneType'")

/-- `Pijk.from_dense(A1(vdeg) @ y_rv)` with `y_rv` rotated by `dot_rz(vdeg, -theta_z)`, `starry/doppler.py:147-158` -/
noncomputable def rvPolyD (s : SurfaceI) (theta_z : Dual) : Except PyErr PijkD := do
  let veq ← s.veq
  let rotated := dotRzD 1 (-theta_z) (rvMapD veq s.inc s.obl)
  PijkD.fromDense (matVecD ((1 + 1) ^ 2) (A1 1) rotated) none

/-- the last part of `surface_radial_velocity`, `starry/doppler.py:116-168`, from `rotated_y`, `design_matrix_p` and `theta_z` -/
noncomputable def projectVelocityD (s : SurfaceI) (rotated : Except PyErr (List Dual)) (theta_z : Dual) (design : List Dual) : Except PyErr Dual := do
  let rotated_y ← rotated
  let p_u ← uPolyD s.u
  let p_y ← PijkD.fromDense (matVecD ((ylmDeg s.y + 1) ^ 2) (A1 (ylmDeg s.y)) rotated_y) (some (ylmDeg s.y))
  let flux_u ← p_u.dot ((rT s.u.length).map const)
  let norm := const π / flux_u
  let p_rv ← rvPolyD s theta_z
  let p1 ← p_y.mul p_rv
  let p_yvu ← p1.mul p_u
  let rv ← p_yvu.dot design
  let p_yu ← p_y.mul p_u
  let flux ← p_yu.dot (design.take ((ylmDeg s.y + s.u.length + 1) ^ 2))
  let intensity := flux * norm
  return s.amplitude * rv * norm / intensity

/-- `surface_radial_velocity(surface, r, x, y, z, theta, order)`, `starry/doppler.py:60-168`; `x`, `y`, `z` that are not given are the constant zero -/
noncomputable def SurfaceI.radialVelocity (eps : ℝ) (strict : Bool) (quad : ℕ → List (ℝ × ℝ)) (asEuler : ℝ × ℝ × ℝ → ℝ × ℝ × ℝ)
    (asEulerD : Dual × Dual × Dual → Dual × Dual × Dual) (order : ℕ) : SurfaceObservableD := fun s r x y z theta =>
  let total_deg := ylmDeg s.y + s.u.length + 1
  match r with
  | none => projectVelocityD s (rotatedYI strict asEuler asEulerD s.y s.inc s.obl theta (const 0)) (const 0) ((rT total_deg).map const)
  | some r => do
    let theta_z := Dual.atan2 x y
    let design ← designVectorD eps strict quad order total_deg r x y z
    projectVelocityD s (rotatedYI strict asEuler asEulerD s.y s.inc s.obl theta theta_z) theta_z design

/-- `rvs.at[:, 0].set(rvs[:, 0] + system.radial_velocity(time)[0].magnitude)`, `starry/doppler.py:176`, at one time; the system without bodies raises -/
noncomputable def addReflexD (kep : ℝ → ℝ → ℝ × ℝ) (au : ℝ) (bodies : List SurfaceBodyD) (time : Dual) (rvs : List Dual) : Except PyErr (List Dual) :=
  match bodies with
  | [] => .error (.typeError "'NoneType' object has no attribute 'at'")
  | b :: _ => .ok (rvs.set 0 (rvs.getD 0 (const 0) + b.orbit.radial_velocity kep au time))

/-- `radial_velocity(SurfaceSystem(central, cs, bodies), order)(time)`, `starry/doppler.py:171-179`; the default order is 20, l.67 -/
noncomputable def systemRadialVelocityD (eps : ℝ) (strict : Bool) (quad : ℕ → List (ℝ × ℝ)) (asEuler : ℝ × ℝ × ℝ → ℝ × ℝ × ℝ)
    (asEulerD : Dual × Dual × Dual → Dual × Dual × Dual) (order : ℕ) (G : ℝ) (kep : ℝ → ℝ → ℝ × ℝ) (au : ℝ) (central : Keplerian.CentralD) (cs : SurfaceI)
    (bodies : List (Keplerian.Body Dual × Option SurfaceI)) (time : Dual) : Except PyErr (List Dual) := do
  let bs ← bodies.mapM (bindSurfaceBodyD G central)
  let rvs ← systemObservableD (SurfaceI.radialVelocity eps strict quad asEuler asEulerD 20) (SurfaceI.radialVelocity eps strict quad asEuler asEulerD order) kep au
    central.radius cs bs time
  addReflexD kep au bs time rvs

end Jaxoplanet.Starry
