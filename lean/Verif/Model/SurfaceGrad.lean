import Verif.Model.SolutionGrad
import Verif.Model.SurfaceLight

/-!
# Model of the automatic differentiation of `surface_light_curve`, `src/jaxoplanet/starry/light_curves.py`

The same program as `Model/SurfaceLight.lean`, on numbers with derivatives: `strict` chooses the mode, see `Model/Autodiff.lean`. The derivatives are
those with respect to the position and the radius of the occultor, the rotation angle, the coefficients of the map, the limb-darkening coefficients and the
amplitude; the inclination and the obliquity are constants.
-/

namespace Jaxoplanet.Starry
open Real AD AD.Dual

/-! ### vectors -/

/-- `A @ v` for a constant matrix, given by its columns; `starry/light_curves.py:128, 136` -/
noncomputable def matVecD (N : ℕ) (cols : List (List ℝ)) (v : List Dual) : List Dual :=
  (List.range N).map fun r : ℕ => Dual.sum ((cols.zip v).map fun e => const (e.1.getD r 0) * e.2)

/-- `v @ M` for a constant matrix; `starry/light_curves.py:104-109` -/
noncomputable def vecMatD {N : ℕ} (v : List Dual) (M : Matrix (Fin N) (Fin N) ℝ) : List Dual :=
  List.ofFn fun j : Fin N => Dual.sum ((List.finRange N).map fun i : Fin N => v.getD i (const 0) * const (M i j))

/-- `jnp.where(cond, v, w)` of two vectors; `starry/light_curves.py:109` -/
noncomputable def whereVec (strict : Bool) (cond : Prop) (v w : List Dual) : List Dual := List.zipWith (Dual.where strict cond) v w

/-! ### rotations -/

/-- the lists `cosnt` / `sinnt` of `dot_rz`, `starry/core/rotation.py:476-480` -/
noncomputable def chebListD (deg : ℕ) (a b c : Dual) : List Dual :=
  (List.range (deg - 1)).foldl
    (fun L i => let n := i + 2
      L ++ [const 2 * L.getD (n - 1) (const 0) * c - L.getD (n - 2) (const 0)]) [a, b]

/-- the lists `cosmt` (`sgn = 1`) and `sinmt` (`sgn = -1`) of `dot_rz`, `starry/core/rotation.py:482-491` -/
noncomputable def mtListD (deg : ℕ) (nt : List Dual) (sgn : ℝ) : List Dual :=
  (List.range (deg + 1)).flatMap fun ell : ℕ =>
    ((List.range ell).map fun i : ℕ => const sgn * nt.getD (ell - i) (const 0)) ++
    ((List.range (ell + 1)).map fun m : ℕ => nt.getD m (const 0))

/-- `dot_rz(deg, theta)(M)`, `starry/core/rotation.py:472-508` -/
noncomputable def dotRzD (deg : ℕ) (theta : Dual) (M : List Dual) : List Dual :=
  let c := theta.cos
  let s := theta.sin
  let cosnt := chebListD deg (const 1) c c
  let sinnt := chebListD deg (const 0) s c
  let cosmt := mtListD deg cosnt 1
  let sinmt := mtListD deg sinnt (-1)
  let n_max := deg ^ 2 + 2 * deg + 1
  (loopLJ deg).foldl (fun result e =>
    result.set (e.1 * e.1 + e.2)
      (M.getD (e.1 * e.1 + e.2) (const 0) * cosmt.getD (e.1 * e.1 + e.2) (const 0) +
        M.getD (e.1 * e.1 + 2 * e.1 - e.2) (const 0) * sinmt.getD (e.1 * e.1 + e.2) (const 0))) (List.replicate n_max (const 0))

/-- the body of `do_dot`, `starry/core/rotation.py:74-79`, for constant rotation matrices -/
noncomputable def applyBlocksD (ydeg : ℕ) (R : ℕ → ℕ → ℕ → ℝ) (M : List Dual) : List Dual :=
  (List.range (ydeg + 1)).flatMap fun ell : ℕ => (List.range (2 * ell + 1)).map fun c : ℕ =>
    Dual.sum ((List.range (2 * ell + 1)).map fun r : ℕ => M.getD (ell * ell + r) (const 0) * const (R ell r c))

/-- `dot_rotation_matrix(ydeg, x, y, z, theta)(M)`, `starry/core/rotation.py:17-81`, for a constant axis and angle -/
noncomputable def dotRotationMatrixD (asEuler : ℝ × ℝ × ℝ → ℝ × ℝ × ℝ) (ydeg : ℕ) (x y z theta : Option ℝ)
    (M : List Dual) : Except PyErr (List Dual) :=
  match theta with
  | none => .ok M
  | some theta =>
    if x = none ∧ y = none then
      if z = none then .error (.valueError "Either x, y, or z must be specified") else .ok (dotRzD ydeg (const theta) M)
    else
      let e := euler asEuler (x.getD 0) (y.getD 0) (z.getD 0) theta
      .ok (applyBlocksD ydeg (rotMatrices ydeg e.1 e.2.1 e.2.2) M)

/-- `left_project(ydeg, inc, obl, theta, theta_z, y)`, `starry/core/rotation.py:187-216`, for constant `inc`, `obl`. The two rotations about the axis
`(None, None, 1.0)` are `dot_rz`, or the identity if the angle is `None`. -/
noncomputable def leftProjectD (asEuler : ℝ × ℝ × ℝ → ℝ × ℝ × ℝ) (ydeg : ℕ) (inc obl : Option ℝ) (theta : Option Dual) (theta_z : Dual)
    (y : List Dual) : Except PyErr (List Dual) := do
  let a := skyProjection inc obl
  let y ← dotRotationMatrixD asEuler ydeg (some 1) none none (some (-0.5 * π)) y
  let y := match theta with
    | none => y
    | some theta => dotRzD ydeg (-theta) y
  let y ← dotRotationMatrixD asEuler ydeg a.1 a.2.1 a.2.2.1 a.2.2.2 y
  return dotRzD ydeg (-theta_z) y

/-! ### maps and polynomials -/

/-- a dictionary of numbers with derivatives; keys of `starry/ylm.py:57-85`, `starry/core/polynomials.py:36-42` -/
abbrev DictD (κ : Type) := List (κ × Dual)

/-- `d[k] += v` for a `defaultdict(float)`; `starry/core/polynomials.py:152-164` -/
noncomputable def DictD.accum {κ : Type} [DecidableEq κ] : DictD κ → κ → Dual → DictD κ
  | [], k, v => [(k, const 0 + v)]
  | (k', v') :: d, k, v => if k' = k then (k', v' + v) :: d else (k', v') :: DictD.accum d k v

/-- `BCOO((values, indices), shape=(n,)).todense()`; `starry/ylm.py:116-129`, `starry/core/polynomials.py:103-109` -/
noncomputable def bcooDenseD (entries : List (ℤ × Dual)) (n : ℕ) : List Dual :=
  (List.range n).map fun i : ℕ => Dual.sum ((entries.filter fun e => e.1 = (i : ℤ)).map Prod.snd)

/-- `Ylm.deg`, `starry/ylm.py:84` -/
def ylmDeg (y : DictD (ℕ × ℤ)) : ℕ := (y.map fun e => e.1.1).foldr max 0

/-- `Ylm.todense`, `starry/ylm.py:116-129` -/
noncomputable def ylmTodense (y : DictD (ℕ × ℤ)) : List Dual :=
  bcooDenseD (y.map fun e => (Ylm.index e.1.1 e.1.2, e.2)) (ylmDeg y ^ 2 + 2 * ylmDeg y + 1)

/-- `Pijk`, `starry/core/polynomials.py:14-49` -/
structure PijkD where
  data : DictD Ijk
  degree : ℕ

/-- `Pijk(data, degree)`, `starry/core/polynomials.py:42-49` -/
def PijkD.make (data : DictD Ijk) (degree : Option ℕ) : Except PyErr PijkD :=
  if data.any fun e => e.1.2.2 > 1 then .error .assertionError
  else match degree with
    | some d => .ok ⟨data, d⟩
    | none =>
      if data.isEmpty then .error (.valueError "max() arg is an empty sequence")
      else .ok ⟨data, (data.map fun e => (ijk2lm e.1).1.toNat).foldr max 0⟩

/-- `todense`, `starry/core/polynomials.py:103-109` -/
noncomputable def PijkD.todense (p : PijkD) : List Dual :=
  bcooDenseD (p.data.map fun e => (pIndex e.1, e.2)) ((p.degree + 1) ^ 2)

/-- `from_dense(x, degree)`, `starry/core/polynomials.py:111-117` -/
def PijkD.fromDense (x : List Dual) (degree : Option ℕ) : Except PyErr PijkD :=
  PijkD.make (x.mapIdx fun i v => (n2ijk i, v)) degree

/-- one pair of terms of `_mul`, `starry/core/polynomials.py:155-163` -/
noncomputable def mulTermD (d : DictD Ijk) (e1 e2 : Ijk × Dual) : DictD Ijk :=
  let (i1, j1, k1) := e1.1
  let (i2, j2, k2) := e2.1
  let v1v2 := e1.2 * e2.2
  if k1 + k2 = 2 then
    DictD.accum (DictD.accum (DictD.accum d (i1 + i2, j1 + j2, 0) v1v2) (i1 + i2 + 2, j1 + j2, 0) (-v1v2))
      (i1 + i2, j1 + j2 + 2, 0) (-v1v2)
  else DictD.accum d (i1 + i2, j1 + j2, k1 + k2) v1v2

/-- `_mul`, `starry/core/polynomials.py:152-164` -/
noncomputable def PijkD.mul (u v : PijkD) : Except PyErr PijkD :=
  PijkD.make (u.data.foldl (fun d e1 => v.data.foldl (fun d e2 => mulTermD d e1 e2) d) []) none

/-- `p.tosparse() @ v`, `starry/core/polynomials.py:103-106` with `starry/light_curves.py:138-140` -/
noncomputable def PijkD.dot (p : PijkD) (v : List Dual) : Except PyErr Dual :=
  if v.length = (p.degree + 1) ^ 2 then .ok (Dual.sum (List.zipWith (· * ·) v p.todense))
  else .error (.typeError "dot_general requires contracting dimensions to have the same shape")

/-! ### the light curve -/

/-- the parts of a `Surface` (`starry/surface.py:57-87`) that `surface_light_curve` uses, with derivatives -/
structure SurfaceD where
  y : DictD (ℕ × ℤ)
  inc : Option ℝ
  obl : Option ℝ
  u : List Dual
  amplitude : Dual

/-- the limb-darkening polynomial `p_u` of `surface_light_curve`, `starry/light_curves.py:123-128` -/
noncomputable def uPolyD (u : List Dual) : Except PyErr PijkD :=
  if u.length = 0 then PijkD.fromDense [const 1] none
  else PijkD.fromDense (matVecD ((u.length + 1) ^ 2) (Umat u.length) (const 1 :: u)) (some u.length)

/-- the design vector of an occultation, `starry/light_curves.py:76-109`: `jnp.where(b_occ, sT @ A2, rT_deg)` -/
noncomputable def designVectorD (eps : ℝ) (strict : Bool) (quad : ℕ → List (ℝ × ℝ)) (order total_deg : ℕ) (r x y z : Dual) :
    Except PyErr (List Dual) := do
  let b := (x.square + y.square).sqrt
  let b_rot := b.v ≥ 1 + r.v ∨ z.v ≤ 0
  let r := Dual.where strict b_rot (const 1) r
  let b := Dual.where strict b_rot (const 1) b
  let sT ← solutionVectorD eps strict quad total_deg order b r
  let A2 ← scipyInv (matOf ((total_deg + 1) ^ 2) (A2inv total_deg))
  return whereVec strict (¬ b_rot) (vecMatD sT A2) ((rT total_deg).map const)

/-- the map coefficients in the frame of the sky, `starry/light_curves.py:111-121` -/
noncomputable def rotatedYD (asEuler : ℝ × ℝ × ℝ → ℝ × ℝ × ℝ) (s : SurfaceD) (theta : Option Dual) (theta_z : Dual) : Except PyErr (List Dual) :=
  if ylmDeg s.y = 0 then .ok (ylmTodense s.y) else leftProjectD asEuler (ylmDeg s.y) s.inc s.obl theta theta_z (ylmTodense s.y)

/-- the last part of `surface_light_curve`, `starry/light_curves.py:123-140`, from `rotated_y` and `design_matrix_p` -/
noncomputable def fluxFromD (ydeg : ℕ) (u : List Dual) (amplitude : Dual) (rotated : Except PyErr (List Dual)) (design : List Dual) : Except PyErr Dual := do
  let rotated_y ← rotated
  let p_u ← uPolyD u
  let p_y ← PijkD.fromDense (matVecD ((ydeg + 1) ^ 2) (A1 ydeg) rotated_y) (some ydeg)
  let p_yu ← p_y.mul p_u
  let flux_u ← p_u.dot ((rT u.length).map const)
  let flux ← p_yu.dot design
  let norm := const π / flux_u
  return amplitude * flux * norm

/-- the last part of `surface_light_curve`, `starry/light_curves.py:111-140`, from `design_matrix_p` and `theta_z` -/
noncomputable def projectFluxD (asEuler : ℝ × ℝ × ℝ → ℝ × ℝ × ℝ) (s : SurfaceD) (theta : Option Dual) (theta_z : Dual) (design : List Dual) :
    Except PyErr Dual :=
  fluxFromD (ylmDeg s.y) s.u s.amplitude (rotatedYD asEuler s theta theta_z) design

/-- `surface_light_curve`, `starry/light_curves.py:17-140`, with `rotated theta_z` for the map in the frame of the sky (l.111-121); `x`, `y`, `z` that are
not given are the constant zero -/
noncomputable def lightCurveFromD (eps : ℝ) (strict : Bool) (quad : ℕ → List (ℝ × ℝ)) (order ydeg : ℕ) (u : List Dual) (amplitude : Dual)
    (rotated : Dual → Except PyErr (List Dual)) (r : Option Dual) (x y z : Dual) : Except PyErr Dual :=
  let total_deg := ydeg + u.length
  match r with
  | none => fluxFromD ydeg u amplitude (rotated (const 0)) ((rT total_deg).map const)
  | some r =>
    if ydeg = 0 then
      let b := (x.square + y.square).sqrt
      let b_rot := b.v ≥ 1 + r.v ∨ z.v ≤ 0
      let r := Dual.where strict b_rot (const 1) r
      let b := Dual.where strict b_rot (const 1) b
      .ok (const 1 + Dual.where strict (¬ b_rot) (LimbDark.lightCurveD eps strict (quad order) u b r) (const 0))
    else do
      let theta_z := Dual.atan2 x y
      let design ← designVectorD eps strict quad order total_deg r x y z
      fluxFromD ydeg u amplitude (rotated theta_z) design

/-- `surface_light_curve(surface, r, x, y, z, theta, order)`, `starry/light_curves.py:17-140`, for constant inclination and obliquity -/
noncomputable def surfaceLightCurveD (eps : ℝ) (strict : Bool) (quad : ℕ → List (ℝ × ℝ)) (asEuler : ℝ × ℝ × ℝ → ℝ × ℝ × ℝ) (order : ℕ)
    (s : SurfaceD) (r : Option Dual) (x y z : Dual) (theta : Option Dual) : Except PyErr Dual :=
  lightCurveFromD eps strict quad order (ylmDeg s.y) s.u s.amplitude (rotatedYD asEuler s theta) r x y z

end Jaxoplanet.Starry
