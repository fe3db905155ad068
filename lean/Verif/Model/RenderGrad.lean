import Verif.Model.DopplerGrad

/-!
# Model of the automatic differentiation of the intensity functions of `src/jaxoplanet/starry/surface.py`

The programs of `Model/Basis.lean` (`poly_basis`), `Model/Rotation.lean` (`full_rotation_axis_angle`) and `Model/Doppler.lean` (`_intensity`, `render`, `intensity`) on
numbers with derivatives, see `Model/Autodiff.lean`.
-/

namespace Jaxoplanet.Starry
open Real AD AD.Dual

/-! ### `poly_basis` -/

/-- an array of optional entries, `starry/core/basis.py:323-324` -/
abbrev ArrD := ℕ → Option Dual

/-- `while i + 1 < N:` of `poly_basis`, `starry/core/basis.py:343-351` -/
def polyWhileD (N : ℕ) (xterm yterm : Dual) (xarr yarr : ArrD) (i di j dj : ℕ) : Option (ArrD × ArrD) :=
  if i + 1 < N then
    if j + 1 < N then
      polyWhileD N xterm yterm
        (Function.update (Function.update xarr i (some xterm)) (i + 1) (some xterm))
        (Function.update (Function.update yarr j (some yterm)) (j + 1) (some yterm))
        (i + (di + 2)) (di + 2) (j + (dj + 2) - 1) (dj + 2)
    else none
  else some (xarr, yarr)
termination_by N - i

/-- the local variables of the loop of `poly_basis`, `starry/core/basis.py:323-357` -/
structure PolyStateD where
  xarr : ArrD
  yarr : ArrD
  xterm : Dual
  yterm : Dual
  i0 : ℕ
  di0 : ℕ
  j0 : ℕ
  dj0 : ℕ

/-- one round of the loop, `starry/core/basis.py:335-357` -/
noncomputable def polyStepD (N : ℕ) (x y : Dual) (s : PolyStateD) (n : ℕ) : Option PolyStateD :=
  if s.i0 < N ∧ s.j0 < N then
    (polyWhileD N s.xterm s.yterm (Function.update s.xarr s.i0 (some s.xterm))
      (Function.update s.yarr s.j0 (some s.yterm)) (s.i0 + s.di0 - 1) s.di0 (s.j0 + s.dj0 - 1) s.dj0).map
    fun a => { xarr := a.1, yarr := a.2, xterm := s.xterm * x, yterm := s.yterm * y,
               i0 := s.i0 + (2 * n + 1), di0 := s.di0 + 2, j0 := s.j0 + (2 * (n + 1) + 1), dj0 := s.dj0 + 2 }
  else none

/-- `poly_basis(deg)(x, y, z)`, `starry/core/basis.py:318-376` -/
noncomputable def polyBasisD (deg : ℕ) (x y z : Dual) : Option (List Dual) := do
  let N := (deg + 1) * (deg + 1)
  let s ← (List.range (deg + 1)).foldlM (polyStepD N x y)
    { xarr := fun _ => none, yarr := fun _ => none, xterm := const 1 + const 0 * z, yterm := const 1 + const 0 * z,
      i0 := 0, di0 := 3, j0 := 0, dj0 := 2 }
  let xs ← (List.range N).mapM s.xarr
  let ys ← (List.range N).mapM s.yarr
  let inds := ((loopLM deg).zipIdx.filter fun e => ((e.1.1 : ℤ) + e.1.2) % 2 ≠ 0).map Prod.snd
  return (List.zipWith (· * ·) xs ys).mapIdx fun i v => if i ∈ inds then v * z else v

/-- the polynomial basis at a point, `starry/surface.py:142-146, 170` -/
noncomputable def polyBasisED (deg : ℕ) (x y z : Dual) : Except PyErr (List Dual) :=
  match polyBasisD deg x y z with
  | some p => .ok p
  | none => .error .assertionError

/-! ### the intensity -/

/-- the second part of `_intensity`, `starry/surface.py:172-190`, from the rotated map; `withRv` multiplies with the velocity map (l.179-188) or does nothing -/
noncomputable def intensityFromD (ydeg : ℕ) (u : List Dual) (amplitude : Dual) (rotated : Except PyErr (List Dual)) (withRv : PijkD → Except PyErr PijkD) (pT : List Dual) :
    Except PyErr Dual := do
  let Ry ← rotated
  let p_y ← PijkD.fromDense (matVecD ((ydeg + 1) ^ 2) (A1 ydeg) Ry) (some ydeg)
  let p_u ← PijkD.fromDense (matVecD ((u.length + 1) ^ 2) (Umat u.length) (const 1 :: u)) (some u.length)
  let p ← p_y.mul p_u
  let p ← withRv p
  let v ← p.dot pT
  return v * amplitude

/-- the product with the velocity map, `starry/surface.py:179-188` -/
noncomputable def SurfaceI.withRv (s : SurfaceI) (rv : Bool) (p : PijkD) : Except PyErr PijkD :=
  if rv then do
    let veq ← s.veq
    let p_rv ← PijkD.fromDense (matVecD ((1 + 1) ^ 2) (A1 1) (rvMapD veq s.inc s.obl)) none
    p.mul p_rv
  else .ok p

/-- `Surface._intensity(x, y, z, theta, rv)`, `starry/surface.py:169-190`; `self.inc` and `self.obl` are `0.0` if they are not given (l.118-131) -/
noncomputable def SurfaceI.intensityXYZ (strict : Bool) (asEuler : ℝ × ℝ × ℝ → ℝ × ℝ × ℝ) (asEulerD : Dual × Dual × Dual → Dual × Dual × Dual) (s : SurfaceI) (x y z : Dual)
    (theta : Option Dual) (rv : Bool := false) : Except PyErr Dual := do
  let pT ← polyBasisED (if rv then ylmDeg s.y + s.u.length + 1 else ylmDeg s.y + s.u.length) x y z
  intensityFromD (ylmDeg s.y) s.u s.amplitude
    (leftProjectI strict asEuler asEulerD (ylmDeg s.y) (some (s.inc.getD (const 0))) (some (s.obl.getD (const 0))) theta (const 0) (ylmTodense s.y)) (s.withRv rv) pT

/-- `Surface._intensity(x, y, z, theta)`, `starry/surface.py:169-190`, where the orientation is not differentiated -/
noncomputable def SurfaceD.intensityXYZ (asEuler : ℝ × ℝ × ℝ → ℝ × ℝ × ℝ) (s : SurfaceD) (x y z : Dual) (theta : Option Dual) : Except PyErr Dual := do
  let pT ← polyBasisED (ylmDeg s.y + s.u.length) x y z
  intensityFromD (ylmDeg s.y) s.u s.amplitude
    (leftProjectD asEuler (ylmDeg s.y) (some (s.inc.getD 0)) (some (s.obl.getD 0)) theta (const 0) (ylmTodense s.y)) .ok pT

/-- the pixel in row `i` and column `j` of `Surface.render(theta, res, rv)`, `starry/surface.py:193-205`; the grid is constant, `none` is `nan` -/
noncomputable def SurfaceI.render (strict : Bool) (asEuler : ℝ × ℝ × ℝ → ℝ × ℝ × ℝ) (asEulerD : Dual × Dual × Dual → Dual × Dual × Dual) (s : SurfaceI) (theta : Option Dual)
    (res : ℕ) (rv : Bool) (i j : ℕ) : Except PyErr (Option Dual) :=
  match orthoPoint res i j with
  | none => .ok none
  | some p => (s.intensityXYZ strict asEuler asEulerD (const p.1) (const p.2.1) (const p.2.2) theta rv).map some

/-- the same pixel, where the orientation is not differentiated, `starry/surface.py:193-205` -/
noncomputable def SurfaceD.render (asEuler : ℝ × ℝ × ℝ → ℝ × ℝ × ℝ) (s : SurfaceD) (theta : Option Dual) (res i j : ℕ) : Except PyErr (Option Dual) :=
  match orthoPoint res i j with
  | none => .ok none
  | some p => (s.intensityXYZ asEuler (const p.1) (const p.2.1) (const p.2.2) theta).map some

/-! ### latitude and longitude -/

/-- the point of the sphere at a latitude and longitude, `starry/surface.py:217-221` -/
noncomputable def latLonD (lat lon : Dual) : Dual × Dual × Dual :=
  let lon := lon + const (π / 2)
  let lat := const (π / 2) - lat
  (lat.sin * lon.cos, lat.sin * lon.sin, lat.cos)

/-- `full_rotation_axis_angle(inc, obl, 0.0, 0.0)`, `starry/core/rotation.py:84-138`, as it is called at `starry/surface.py:223`; the sums with the constant `0.0` are left
out, they change neither value nor derivative -/
noncomputable def fullRotationD (eps : ℝ) (strict : Bool) (inc obl : Dual) : Dual × Dual × Dual × Dual :=
  let f := const (0.5 * √2)
  let si := (inc / const 2).sin
  let ci := (inc / const 2).cos
  let sp := (const 0.5 * obl).sin
  let cp := (const 0.5 * obl).cos
  let sm := (const 0.5 * obl).sin
  let cm := (const 0.5 * obl).cos
  let numerator1 := f * (-si * cm + ci * cp)
  let numerator2 := f * (-si * sm + sp * ci)
  let numerator3 := f * (si * sm + sp * ci)
  let arg := si * cm + ci * cp
  let denominator := (const 1 - const 0.5 * arg.square).sqrt
  let farg := f * arg
  let zero_angle := |farg.v - 1| ≤ eps + 1e-5 * |(1 : ℝ)|
  let angle := Dual.where strict zero_angle (const 0) (const 2 * arccosD farg)
  let ok := arg.v ^ 2 < 2 ∧ ¬ zero_angle
  (Dual.where strict ok (numerator1 / denominator) (const 1), Dual.where strict ok (numerator2 / denominator) (const 0),
    Dual.where strict ok (numerator3 / denominator) (const 0), angle)

/-- `Surface.intensity(lat, lon)`, `starry/surface.py:207-227`; `applyRotvecD v p` stands for the differentiated `Rotation.from_rotvec(v).apply(p)` -/
noncomputable def SurfaceI.intensity (eps : ℝ) (strict : Bool) (applyRotvecD : Dual × Dual × Dual → Dual × Dual × Dual → Dual × Dual × Dual)
    (asEuler : ℝ × ℝ × ℝ → ℝ × ℝ × ℝ) (asEulerD : Dual × Dual × Dual → Dual × Dual × Dual) (s : SurfaceI) (lat lon : Dual) : Except PyErr Dual :=
  let axis := fullRotationD eps strict (s.inc.getD (const 0) - const (π / 2)) (s.obl.getD (const 0))
  let v := (axis.1 * axis.2.2.2, axis.2.1 * axis.2.2.2, axis.2.2.1 * axis.2.2.2)
  let p := applyRotvecD v (latLonD lat lon)
  s.intensityXYZ strict asEuler asEulerD p.1 p.2.1 p.2.2 none

/-- `Rotation.apply(p)` of `jax.scipy`, the matrix of a constant rotation times a vector, called at `starry/surface.py:225-226`; `e1`, `e2`, `e3` are the columns -/
noncomputable def rotApplyD (e1 e2 e3 : ℝ × ℝ × ℝ) (p : Dual × Dual × Dual) : Dual × Dual × Dual :=
  (const e1.1 * p.1 + const e2.1 * p.2.1 + const e3.1 * p.2.2, const e1.2.1 * p.1 + const e2.2.1 * p.2.1 + const e3.2.1 * p.2.2,
    const e1.2.2 * p.1 + const e2.2.2 * p.2.1 + const e3.2.2 * p.2.2)

/-- `Surface.intensity(lat, lon)`, `starry/surface.py:207-227`, where the orientation is not differentiated: the rotation is constant -/
noncomputable def SurfaceD.intensity (eps : ℝ) (applyRotvec : ℝ × ℝ × ℝ → ℝ × ℝ × ℝ → ℝ × ℝ × ℝ) (asEuler : ℝ × ℝ × ℝ → ℝ × ℝ × ℝ) (s : SurfaceD) (lat lon : Dual) :
    Except PyErr Dual :=
  let axis := fullRotation eps (some (s.inc.getD 0 - π / 2)) (some (s.obl.getD 0)) (some 0) (some 0)
  let v := (axis.1 * axis.2.2.2, axis.2.1 * axis.2.2.2, axis.2.2.1 * axis.2.2.2)
  let p := rotApplyD (applyRotvec v (1, 0, 0)) (applyRotvec v (0, 1, 0)) (applyRotvec v (0, 0, 1)) (latLonD lat lon)
  s.intensityXYZ asEuler p.1 p.2.1 p.2.2 none

end Jaxoplanet.Starry
