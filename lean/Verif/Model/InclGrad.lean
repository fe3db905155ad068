import Verif.Model.SurfaceGrad

/-!
# Model of the automatic differentiation of `surface_light_curve` with respect to the inclination and the obliquity

The functions of `starry/core/rotation.py` and `starry/core/s2fft_rotation.py` (`Model/Rotation.lean`) on numbers with derivatives, see `Model/Autodiff.lean`.
`asEulerD` stands for the derivative of `Rotation.from_rotvec(v).as_euler("zyz")` of `jax.scipy`, as `asEuler` stands for its value.
-/

namespace Jaxoplanet.Starry
open Real AD AD.Dual

/-- `jnp.arccos(x)` (`acos_p`, used at `starry/core/rotation.py:176`): the local derivative `-1 / sqrt(1 - x²)` is not finite at `±1` -/
noncomputable def arccosD (a : Dual) : Dual := ⟨arccos a.v, lin (if a.v ≤ -1 ∨ 1 ≤ a.v then none else some (-(1 / √(1 - a.v ^ 2)))) a.d⟩

/-- `sky_projection_axis_angle(inc, obl)`, `starry/core/rotation.py:141-184` -/
noncomputable def skyProjectionD (strict : Bool) (inc obl : Option Dual) : Option Dual × Option Dual × Option Dual × Option Dual :=
  match inc, obl with
  | none, none => (some (const 1), none, none, none)
  | some inc, none => (some (const 1), none, none, some inc)
  | none, some obl => (none, none, some (const 1), some obl)
  | some inc, some obl =>
    let co := (obl / const 2).cos
    let so := (obl / const 2).sin
    let ci := (inc / const 2).cos
    let si := (inc / const 2).sin
    let denominator := (const 1 - ci.square * co.square).sqrt
    let denominator := Dual.where strict (denominator.v = 0) (const 1) denominator
    let axis_x := si * co
    let axis_y := si * so
    let axis_z := -so * ci
    let angle := const 2 * arccosD (ci * co)
    let arg := √(axis_x.v ^ 2 + axis_y.v ^ 2 + axis_z.v ^ 2)
    (some (Dual.where strict (arg > 0) (axis_x / denominator) (const 1)), some (Dual.where strict (arg > 0) (axis_y / denominator) (const 0)),
      some (Dual.where strict (arg > 0) (axis_z / denominator) (const 0)), some angle)

/-- `euler(x, y, z, theta)`, `starry/core/s2fft_rotation.py:166-173` -/
noncomputable def eulerD (strict : Bool) (asEulerD : Dual × Dual × Dual → Dual × Dual × Dual) (x y z theta : Dual) : Dual × Dual × Dual :=
  let ax := Dual.where strict (theta.v = 0) (const 1) x
  let th := Dual.where strict (theta.v = 0) (const 1) theta
  let n := (ax.square + y.square + z.square).sqrt
  let e := asEulerD (ax / n * th, y / n * th, z / n * th)
  (Dual.where strict (theta.v = 0) (const 0) e.1, Dual.where strict (theta.v = 0) (const 0) e.2.1, Dual.where strict (theta.v = 0) (const 0) e.2.2)

/-! ### Wigner matrices -/

/-- `A.at[r0:r0+n, c0:c0+n].add(v)`; the updates of `starry/core/s2fft_rotation.py:75-118` -/
noncomputable def addBlockD (A : ℕ → ℕ → Dual) (r0 c0 n : ℕ) (v : ℕ → ℕ → Dual) : ℕ → ℕ → Dual := fun r c =>
  if (r0 ≤ r ∧ r < r0 + n) ∧ (c0 ≤ c ∧ c < c0 + n) then A r c + v (r - r0) (c - c0) else A r c

/-- `A.at[r, c].set(v)`; the updates of `starry/core/s2fft_rotation.py:36-58` -/
def setAtD (A : ℕ → ℕ → Dual) (r0 c0 : ℕ) (v : Dual) : ℕ → ℕ → Dual := fun r c => if r = r0 ∧ c = c0 then v else A r c

/-- the four additions of one pass of `_compute_full`, `starry/core/s2fft_rotation.py:75-86, 102-121` -/
noncomputable def risboPassD (A : ℕ → ℕ → Dual) (s j : ℕ) (d : ℕ → ℕ → Dual) (coshb sinhb : Dual) : ℕ → ℕ → Dual :=
  let A := addBlockD A s s j fun k i => const (√((j : ℝ) - i) * √((j : ℝ) - k)) * d k i * coshb
  let A := addBlockD A s (s + 1) j fun k i => const (-√((i : ℝ) + 1) * √((j : ℝ) - k)) * d k i * sinhb
  let A := addBlockD A (s + 1) s j fun k i => const (√((j : ℝ) - i) * √((k : ℝ) + 1)) * d k i * sinhb
  addBlockD A (s + 1) (s + 1) j fun k i => const (√((i : ℝ) + 1) * √((k : ℝ) + 1)) * d k i * coshb

/-- `_compute_full(dl, beta, L, el)`, `starry/core/s2fft_rotation.py:32-122` -/
noncomputable def computeFullD (dl : ℕ → ℕ → Dual) (beta : Dual) (L el : ℕ) : ℕ → ℕ → Dual :=
  if el = 0 then setAtD dl (el + L - 1) (el + L - 1) (const 1)
  else if el = 1 then
    let cosb := beta.cos
    let sinb := beta.sin
    let coshb := (beta / const 2).cos
    let sinhb := (beta / const 2).sin
    let sqrt2 := const √2
    let dl := setAtD dl (L - 2) (L - 2) coshb.square
    let dl := setAtD dl (L - 2) (L - 1) (sinb / sqrt2)
    let dl := setAtD dl (L - 2) L sinhb.square
    let dl := setAtD dl (L - 1) (L - 2) (-sinb / sqrt2)
    let dl := setAtD dl (L - 1) (L - 1) cosb
    let dl := setAtD dl (L - 1) L (sinb / sqrt2)
    let dl := setAtD dl L (L - 2) sinhb.square
    let dl := setAtD dl L (L - 1) (-sinb / sqrt2)
    setAtD dl L L coshb.square
  else
    let coshb := -(beta / const 2).cos
    let sinhb := (beta / const 2).sin
    let dlj : ℕ → ℕ → Dual := fun k i => dl (k + (L - 1) - (el - 1)) (i + (L - 1) - (el - 1))
    let dd := risboPassD (fun _ _ => const 0) 0 (2 * el - 1) dlj coshb sinhb
    let s := L - 1 - el
    let dl : ℕ → ℕ → Dual := fun r c =>
      if (s ≤ r ∧ r < el + L) ∧ (s ≤ c ∧ c < el + L) then dl r c * const 0 else dl r c
    let dl := risboPassD dl s (2 * el) dd coshb sinhb
    fun r c => dl r c / const ((2 * el : ℝ) * (2 * el - 1))

/-- `_generate_rotate_dls(L, beta)`, `starry/core/s2fft_rotation.py:125-132` -/
noncomputable def rotateDlsD (L : ℕ) (beta : Dual) : ℕ → ℕ → ℕ → Dual
  | 0 => computeFullD (fun _ _ => const 0) beta L 0
  | el + 1 => computeFullD (rotateDlsD L beta el) beta L (el + 1)

/-- a complex number with derivative; the arrays `Dlm`, `u`, `u_inv` of `starry/core/s2fft_rotation.py:175-186` -/
structure CDual where
  re : Dual
  im : Dual

/-- a complex constant; `u`, `u_inv` of `starry/core/s2fft_rotation.py:181-182` -/
def CDual.ofComplex (c : ℂ) : CDual := ⟨const c.re, const c.im⟩

/-- complex product; `@` of `starry/core/s2fft_rotation.py:185` -/
noncomputable def CDual.mul (a b : CDual) : CDual := ⟨a.re * b.re - a.im * b.im, a.re * b.im + a.im * b.re⟩

/-- `jnp.exp(-1j * phi)`, `starry/core/s2fft_rotation.py:179`; its derivative is `-1j * phi' * exp(-1j * phi)` -/
noncomputable def CDual.expNegI (phi : Dual) : CDual := ⟨phi.cos, -phi.sin⟩

/-- complex sum; `@` of `starry/core/s2fft_rotation.py:185` -/
noncomputable def CDual.sum (n : ℕ) (f : ℕ → CDual) : CDual :=
  ⟨Dual.sum ((List.range n).map fun a => (f a).re), Dual.sum ((List.range n).map fun a => (f a).im)⟩

/-- `compute_rotation_matrices(deg, x, y, z, theta)` from the Euler angles, `starry/core/s2fft_rotation.py:175-197` -/
noncomputable def rotMatricesD (deg : ℕ) (alpha beta gamma : Dual) (i : ℕ) : ℕ → ℕ → Dual :=
  let dls := rotateDlsD (deg + 1) beta
  let Dlm : ℕ → ℕ → CDual := fun r c =>
    CDual.mul (CDual.expNegI (const ((c : ℝ) - deg) * alpha + const ((r : ℝ) - deg) * gamma)) ⟨dls i r c, const 0⟩
  let u := Uc deg
  let u_inv : ℕ → ℕ → ℂ := fun r c => (starRingEnd ℂ) (u c r)
  let full : ℕ → ℕ → Dual := fun r c =>
    (CDual.sum (2 * deg + 1) fun b => CDual.mul (CDual.sum (2 * deg + 1) fun a => CDual.mul (CDual.ofComplex (u_inv r a)) (Dlm a b)) (CDual.ofComplex (u b c))).re
  fun r c => full (r + (deg - i)) (c + (deg - i))

/-! ### rotations -/

/-- the body of `do_dot`, `starry/core/rotation.py:74-79` -/
noncomputable def applyBlocksI (ydeg : ℕ) (R : ℕ → ℕ → ℕ → Dual) (M : List Dual) : List Dual :=
  (List.range (ydeg + 1)).flatMap fun ell : ℕ => (List.range (2 * ell + 1)).map fun c : ℕ =>
    Dual.sum ((List.range (2 * ell + 1)).map fun r : ℕ => M.getD (ell * ell + r) (const 0) * R ell r c)

/-- `dot_rotation_matrix(ydeg, x, y, z, theta)(M)`, `starry/core/rotation.py:17-81` -/
noncomputable def dotRotationMatrixI (strict : Bool) (asEulerD : Dual × Dual × Dual → Dual × Dual × Dual) (ydeg : ℕ) (x y z theta : Option Dual)
    (M : List Dual) : Except PyErr (List Dual) :=
  match theta with
  | none => .ok M
  | some theta =>
    if x.isNone ∧ y.isNone then
      if z.isNone then .error (.valueError "Either x, y, or z must be specified") else .ok (dotRzD ydeg theta M)
    else
      let e := eulerD strict asEulerD (x.getD (const 0)) (y.getD (const 0)) (z.getD (const 0)) theta
      .ok (applyBlocksI ydeg (rotMatricesD ydeg e.1 e.2.1 e.2.2) M)

/-- `left_project(ydeg, inc, obl, theta, theta_z, y)`, `starry/core/rotation.py:187-216`. The first rotation (l.212) has a constant axis and angle. -/
noncomputable def leftProjectI (strict : Bool) (asEuler : ℝ × ℝ × ℝ → ℝ × ℝ × ℝ) (asEulerD : Dual × Dual × Dual → Dual × Dual × Dual) (ydeg : ℕ) (inc obl : Option Dual)
    (theta : Option Dual) (theta_z : Dual) (y : List Dual) : Except PyErr (List Dual) := do
  let a := skyProjectionD strict inc obl
  let y ← dotRotationMatrixD asEuler ydeg (some 1) none none (some (-0.5 * π)) y
  let y := match theta with
    | none => y
    | some theta => dotRzD ydeg (-theta) y
  let y ← dotRotationMatrixI strict asEulerD ydeg a.1 a.2.1 a.2.2.1 a.2.2.2 y
  return dotRzD ydeg (-theta_z) y

/-- the map coefficients in the frame of the sky, `starry/light_curves.py:111-121` -/
noncomputable def rotatedYI (strict : Bool) (asEuler : ℝ × ℝ × ℝ → ℝ × ℝ × ℝ) (asEulerD : Dual × Dual × Dual → Dual × Dual × Dual) (y : DictD (ℕ × ℤ)) (inc obl : Option Dual)
    (theta : Option Dual) (theta_z : Dual) : Except PyErr (List Dual) :=
  if ylmDeg y = 0 then .ok (ylmTodense y) else leftProjectI strict asEuler asEulerD (ylmDeg y) inc obl theta theta_z (ylmTodense y)

/-- `surface_light_curve(surface, r, x, y, z, theta, order)`, `starry/light_curves.py:17-140`, for the surface with the coefficients `y`, the inclination
`inc`, the obliquity `obl`, the limb darkening `u` and the amplitude `amplitude` -/
noncomputable def surfaceLightCurveI (eps : ℝ) (strict : Bool) (quad : ℕ → List (ℝ × ℝ)) (asEuler : ℝ × ℝ × ℝ → ℝ × ℝ × ℝ)
    (asEulerD : Dual × Dual × Dual → Dual × Dual × Dual) (order : ℕ) (y : DictD (ℕ × ℤ)) (inc obl : Option Dual) (u : List Dual) (amplitude : Dual)
    (r : Option Dual) (x yo z : Dual) (theta : Option Dual) : Except PyErr Dual :=
  lightCurveFromD eps strict quad order (ylmDeg y) u amplitude (rotatedYI strict asEuler asEulerD y inc obl theta) r x yo z

end Jaxoplanet.Starry
