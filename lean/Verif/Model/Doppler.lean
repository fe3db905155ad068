import Verif.Model.SurfaceSystem

/-!
# Model of `src/jaxoplanet/starry/doppler.py` and of the intensity functions of `src/jaxoplanet/starry/surface.py`

One point (or one time) at a time; values are exact reals. Without a `shear` (finding F14), so that `vdeg = 1`.
-/

namespace Jaxoplanet.Starry

open Real Stack Keplerian

/-- `rv_map_expansion(veq, inc, obl, alpha)`, `starry/doppler.py:15-57` -/
noncomputable def rvMapExpansion (veq inc obl alpha : Option ℝ) : List ℝ :=
  let cosi := match inc with | some i => cos i | none => 0
  let sini := match inc with | some i => sin i | none => 1
  let cosl := match obl with | some o => cos o | none => 1
  let sinl := match obl with | some o => sin o | none => 0
  let A := sini * cosl
  let B := sini * sinl
  let C := cosi
  let A2 := A ^ 2
  let B2 := B ^ 2
  let C2 := C ^ 2
  let sq3 := √3
  match veq, alpha with
  | none, _ => [0, 0, 0, 0]
  | some veq, none => [0, veq * sq3 * B / 3, 0, veq * sq3 * A / 3].map (· * π)
  | some veq, some alpha =>
    [0, veq * sq3 * B * (-A2 * alpha - B2 * alpha - C2 * alpha + 5) / 15, 0,
      veq * sq3 * A * (-A2 * alpha - B2 * alpha - C2 * alpha + 5) / 15, 0, 0, 0, 0, 0,
      veq * alpha * √70 * B * (3 * A2 - B2) / 70, veq * alpha * 2 * √105 * C * (-A2 + B2) / 105,
      veq * alpha * √42 * B * (A2 + B2 - 4 * C2) / 210, 0, veq * alpha * √42 * A * (A2 + B2 - 4 * C2) / 210,
      veq * alpha * 4 * √105 * A * B * C / 105, veq * alpha * √70 * A * (A2 - 3 * B2) / 70].map (· * π)

/-- `Surface.veq`, `starry/surface.py:137-140`; division by `None` raises -/
noncomputable def Surface.veq (s : Surface) : Except PyErr ℝ :=
  match s.period with
  | some p => .ok (2 * π * s.radius / p)
  | none => .error (.typeError "unsupported operand type(s) for /: 'float' and 'NoneType'")

/-- `Surface.vdeg`, `starry/surface.py:157-162`, without shear -/
def Surface.vdeg (_s : Surface) : ℕ := 1

/-- `Pijk.from_dense(A1(vdeg) @ y_rv)` with `y_rv` rotated by `dot_rz(vdeg, -theta_z)`, `starry/doppler.py:150-160` -/
noncomputable def rvPoly (s : Surface) (theta_z : ℝ) : Except PyErr Pijk := do
  let veq ← s.veq
  let y_rv := rvMapExpansion (some veq) s.inc s.obl none
  let rotated := dotRz s.vdeg (-theta_z) y_rv
  Pijk.fromDense (matVec ((s.vdeg + 1) ^ 2) (A1 s.vdeg) rotated) none

/-- the polynomial basis at a point, `starry/surface.py:142-146, 170` (`polyBasis` does not fail, `polyBasis_spec`) -/
noncomputable def polyBasisE (deg : ℕ) (x y z : ℝ) : Except PyErr (List ℝ) :=
  match polyBasis deg x y z with
  | some p => .ok p
  | none => .error .assertionError

/-- `_intensity` with `rv=True`, the product with the velocity map, `starry/surface.py:179-188`: here `y_rv` is not rotated -/
noncomputable def intensityPoly (s : Surface) (p_y p_u : Pijk) (rv : Bool) : Except PyErr Pijk := do
  let p ← p_y.mul p_u
  if rv then do
    let veq ← s.veq
    let p_rv ← Pijk.fromDense (matVec ((s.vdeg + 1) ^ 2) (A1 s.vdeg) (rvMapExpansion (some veq) s.inc s.obl none)) none
    p.mul p_rv
  else return p

/-- `Surface._intensity(x, y, z, theta, rv)`, `starry/surface.py:169-190` -/
noncomputable def Surface.intensityXYZ (asEuler : ℝ × ℝ × ℝ → ℝ × ℝ × ℝ) (s : Surface) (x y z : ℝ) (theta : Option ℝ) (rv : Bool := false) :
    Except PyErr ℝ := do
  let pT ← polyBasisE (if rv then s.deg + s.vdeg else s.deg) x y z
  let Ry ← leftProject asEuler s.ydeg (some s.incVal) (some s.oblVal) theta (some 0) s.y.todense
  let p_y ← Pijk.fromDense (matVec ((s.ydeg + 1) ^ 2) (A1 s.ydeg) Ry) (some s.ydeg)
  let p_u ← Pijk.fromDense (limbDarkPoly s.u) (some s.udeg)
  let p ← intensityPoly s p_y p_u rv
  let v ← p.dot pT
  return v * s.amplitude

/-- the `i`-th value of `jnp.linspace(-1, 1, res)`, `starry/utils.py:15` (`res = 1` gives `-1`) -/
noncomputable def gridValue (res i : ℕ) : ℝ := -1 + i * (2 / ((res : ℝ) - 1))

/-- the point of `ortho_grid(res)` in row `i` and column `j`: `starry/utils.py:13-23`. `none` stands for the `nan` that the
square root of a negative number propagates to `z` and `y`. -/
noncomputable def orthoPoint (res i j : ℕ) : Option (ℝ × ℝ × ℝ) :=
  let x := gridValue res j
  let y := gridValue res i
  if 0 ≤ 1 - x ^ 2 - y ^ 2 then some (x, y, √(1 - x ^ 2 - y ^ 2)) else none

/-- `lat, lon` of `ortho_grid(res)` for a point, `starry/utils.py:21-22` -/
noncomputable def orthoLatLon (p : ℝ × ℝ × ℝ) : ℝ × ℝ := (0.5 * π - arccos p.2.1, arctan2 p.1 p.2.2)

/-- the pixel in row `i` and column `j` of `Surface.render(theta, res, rv)`, `starry/surface.py:193-205` (`none` is `nan`;
`jnp.reshape` of the raveled grid restores row and column) -/
noncomputable def Surface.render (asEuler : ℝ × ℝ × ℝ → ℝ × ℝ × ℝ) (s : Surface) (theta : Option ℝ) (res : ℕ) (rv : Bool) (i j : ℕ) :
    Except PyErr (Option ℝ) :=
  match orthoPoint res i j with
  | none => .ok none
  | some p => (s.intensityXYZ asEuler p.1 p.2.1 p.2.2 theta rv).map some

/-- `Surface.intensity(lat, lon)`, `starry/surface.py:207-227`. `applyRotvec v p` stands for `Rotation.from_rotvec(v).apply(p)`
of `jax.scipy`; `eps` is the machine epsilon. -/
noncomputable def Surface.intensity (eps : ℝ) (applyRotvec : ℝ × ℝ × ℝ → ℝ × ℝ × ℝ → ℝ × ℝ × ℝ) (asEuler : ℝ × ℝ × ℝ → ℝ × ℝ × ℝ)
    (s : Surface) (lat lon : ℝ) : Except PyErr ℝ :=
  let lon := lon + π / 2
  let lat := π / 2 - lat
  let x := sin lat * cos lon
  let y := sin lat * sin lon
  let z := cos lat
  let axis := fullRotation eps (some (s.incVal - π / 2)) (some s.oblVal) (some 0) (some 0)
  let v := (axis.1 * axis.2.2.2, axis.2.1 * axis.2.2.2, axis.2.2.1 * axis.2.2.2)
  let p := applyRotvec v (x, y, z)
  s.intensityXYZ asEuler p.1 p.2.1 p.2.2 none

/-- the last part of `surface_radial_velocity`, `starry/doppler.py:116-168`, from `design_matrix_p` and `theta_z` -/
noncomputable def projectVelocity (asEuler : ℝ × ℝ × ℝ → ℝ × ℝ × ℝ) (s : Surface) (theta : Option ℝ) (theta_z : ℝ) (design : List ℝ) :
    Except PyErr ℝ := do
  let rotated_y ← rotatedY asEuler s theta theta_z
  let p_u ← uPoly s.u
  let p_y ← Pijk.fromDense (matVec ((s.ydeg + 1) ^ 2) (A1 s.ydeg) rotated_y) (some s.ydeg)
  let flux_u ← p_u.dot (rT s.udeg)
  let norm := π / flux_u
  let p_rv ← rvPoly s theta_z
  let p1 ← p_y.mul p_rv
  let p_yvu ← p1.mul p_u
  let rv ← p_yvu.dot design
  let p_yu ← p_y.mul p_u
  let flux ← p_yu.dot (design.take ((s.deg + 1) ^ 2))
  let intensity := flux * norm
  return s.amplitude * rv * norm / intensity

/-- `surface_radial_velocity(surface, r, x, y, z, theta, order)`, `starry/doppler.py:60-168`. Numbers are real; where the
flux is zero the code returns `nan` or `inf`, the model `x / 0 = 0`. -/
noncomputable def surfaceRadialVelocity (eps : ℝ) (quad : ℕ → List (ℝ × ℝ)) (asEuler : ℝ × ℝ × ℝ → ℝ × ℝ × ℝ) (order : ℕ)
    (s : Surface) (r x y z theta : Option ℝ) : Except PyErr ℝ :=
  let total_deg := s.deg + s.vdeg
  let x := x.getD 0
  let y := y.getD 0
  let z := z.getD 0
  match r with
  | none => projectVelocity asEuler s theta 0 (rT total_deg)
  | some r => do
    let theta_z := arctan2 x y
    let design ← designVector eps quad order total_deg r x y z
    projectVelocity asEuler s theta theta_z design

/-- the error of an observable that is `None` or an array without columns; plumbing of `starry/doppler.py:171-179` -/
def radialVelocityError : VErr := .user (.typeError "'NoneType' object has no attribute 'at'")

/-- `rvs.at[:, 0].set(rvs[:, 0] + system.radial_velocity(time)[0].magnitude)`, `starry/doppler.py:176`, at one time -/
noncomputable def addReflex (kep : ℝ → ℝ → ℝ × ℝ) (au : ℝ) (sys : SurfaceSystem) (time : ℝ) (rvs : List ℝ) : Except VErr (List ℝ) := do
  let r ← sys.toSystem.radial_velocity kep au time
  let l ← vecOf r.leaves[0]?
  return rvs.set 0 (rvs.getD 0 0 + l.getD 0 0)

/-- `radial_velocity(system, order)(time)`, `starry/doppler.py:171-179`; the default order is 20, l.67. Velocities in solar
radii per day. -/
noncomputable def radialVelocity (eps : ℝ) (quad : ℕ → List (ℝ × ℝ)) (asEuler : ℝ × ℝ × ℝ → ℝ × ℝ × ℝ) (order : ℕ)
    (kep : ℝ → ℝ → ℝ × ℝ) (au : ℝ) (sys : SurfaceSystem) (time : ℝ) : Except VErr (List ℝ) := do
  let rvs ← systemObservable (surfaceRadialVelocity eps quad asEuler 20) (surfaceRadialVelocity eps quad asEuler order) kep au sys time
  match rvs with
  | none => .error radialVelocityError
  | some rvs => addReflex kep au sys time rvs

end Jaxoplanet.Starry
