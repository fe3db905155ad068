import Verif.Model.Basis

/-!
# Model of `src/jaxoplanet/starry/core/rotation.py`, `src/jaxoplanet/starry/core/s2fft_rotation.py` and the
coefficient reshaping of `src/jaxoplanet/starry/utils.py`

Two-dimensional arrays are functions of the row and column index (the entries outside the shape are not
used). The values are exact reals and complex numbers. `jnp.vectorize` and `jax.jit` are the identity on one
coefficient vector.
-/

namespace Jaxoplanet.Starry

open Real

/-! ### rotation about the z axis -/

/-- the lists `cosnt` / `sinnt` of `dot_rz`, `starry/core/rotation.py:476-480`, from the first two entries -/
noncomputable def chebList (deg : ℕ) (a b c : ℝ) : List ℝ :=
  (List.range (deg - 1)).foldl
    (fun L i => let n := i + 2
      L ++ [2 * L.getD (n - 1) 0 * c - L.getD (n - 2) 0]) [a, b]

/-- the lists `cosmt` (`sgn = 1`) and `sinmt` (`sgn = -1`) of `dot_rz`, `starry/core/rotation.py:482-491`;
`range(-ell, 0)` is `m = i - ell` for `i < ell` -/
noncomputable def mtList (deg : ℕ) (nt : List ℝ) (sgn : ℝ) : List ℝ :=
  (List.range (deg + 1)).flatMap fun ell : ℕ =>
    ((List.range ell).map fun i : ℕ => sgn * nt.getD (ell - i) 0) ++
    ((List.range (ell + 1)).map fun m : ℕ => nt.getD m 0)

/-- the `(ell, j)` loop of `impl`, `starry/core/rotation.py:499-500` -/
def loopLJ (deg : ℕ) : List (ℕ × ℕ) :=
  (List.range (deg + 1)).flatMap fun ell : ℕ => (List.range (2 * ell + 1)).map fun j : ℕ => (ell, j)

/-- `dot_rz(deg, theta)(M)`, `starry/core/rotation.py:472-508` -/
noncomputable def dotRz (deg : ℕ) (theta : ℝ) (M : List ℝ) : List ℝ :=
  let c := cos theta
  let s := sin theta
  let cosnt := chebList deg 1 c c
  let sinnt := chebList deg 0 s c
  let cosmt := mtList deg cosnt 1
  let sinmt := mtList deg sinnt (-1)
  let n_max := deg ^ 2 + 2 * deg + 1
  (loopLJ deg).foldl (fun result e =>
    result.set (e.1 * e.1 + e.2)
      (M.getD (e.1 * e.1 + e.2) 0 * cosmt.getD (e.1 * e.1 + e.2) 0 +
        M.getD (e.1 * e.1 + 2 * e.1 - e.2) 0 * sinmt.getD (e.1 * e.1 + e.2) 0)) (List.replicate n_max 0)

/-! ### axis and angle of the projections -/

/-- `sky_projection_axis_angle(inc, obl)`, `starry/core/rotation.py:141-184` -/
noncomputable def skyProjection (inc obl : Option ℝ) : Option ℝ × Option ℝ × Option ℝ × Option ℝ :=
  match inc, obl with
  | none, none => (some 1, none, none, none)
  | some inc, none => (some 1, none, none, some inc)
  | none, some obl => (none, none, some 1, some obl)
  | some inc, some obl =>
    let co := cos (obl / 2)
    let so := sin (obl / 2)
    let ci := cos (inc / 2)
    let si := sin (inc / 2)
    let denominator := √(1 - ci ^ 2 * co ^ 2)
    let denominator := if denominator = 0 then 1 else denominator
    let axis_x := si * co
    let axis_y := si * so
    let axis_z := -so * ci
    let angle := 2 * arccos (ci * co)
    let arg := √(axis_x ^ 2 + axis_y ^ 2 + axis_z ^ 2)
    (some (if arg > 0 then axis_x / denominator else 1), some (if arg > 0 then axis_y / denominator else 0),
      some (if arg > 0 then axis_z / denominator else 0), some angle)

/-- `full_rotation_axis_angle(inc, obl, theta, theta_z)`, `starry/core/rotation.py:84-138`; `eps` is the
machine epsilon of the dtype. `jnp.allclose(farg, 1.0, atol=eps)` is `|farg - 1| ≤ eps + 1e-5 · 1`
(`rtol` has its default). -/
noncomputable def fullRotation (eps : ℝ) (inc obl theta theta_z : Option ℝ) : ℝ × ℝ × ℝ × ℝ :=
  let inc := inc.getD 0
  let obl := obl.getD 0
  let theta := theta.getD 0
  let theta_z := theta_z.getD 0
  let f := 0.5 * √2
  let si := sin (inc / 2)
  let ci := cos (inc / 2)
  let sp := sin (0.5 * (obl + theta + theta_z))
  let cp := cos (0.5 * (obl + theta + theta_z))
  let sm := sin (0.5 * (obl - theta + theta_z))
  let cm := cos (0.5 * (obl - theta + theta_z))
  let numerator1 := f * (-si * cm + ci * cp)
  let numerator2 := f * (-si * sm + sp * ci)
  let numerator3 := f * (si * sm + sp * ci)
  let arg := si * cm + ci * cp
  let denominator := √(1 - 0.5 * arg ^ 2)
  let farg := f * arg
  let zero_angle := |farg - 1| ≤ eps + 1e-5 * |(1 : ℝ)|
  let angle := if zero_angle then 0 else 2 * arccos farg
  let ok := arg ^ 2 < 2 ∧ ¬ zero_angle
  (if ok then numerator1 / denominator else 1, if ok then numerator2 / denominator else 0,
    if ok then numerator3 / denominator else 0, angle)

/-! ### Wigner matrices (`s2fft_rotation.py`) -/

/-- `A.at[r0:r0+n, c0:c0+n].add(v)`; the `.at[...].add/.set` updates of `starry/core/s2fft_rotation.py:75-118` -/
def addBlock (A : ℕ → ℕ → ℝ) (r0 c0 n : ℕ) (v : ℕ → ℕ → ℝ) : ℕ → ℕ → ℝ := fun r c =>
  if (r0 ≤ r ∧ r < r0 + n) ∧ (c0 ≤ c ∧ c < c0 + n) then A r c + v (r - r0) (c - c0) else A r c

/-- `A.at[r, c].set(v)`; the `.at[...].add/.set` updates of `starry/core/s2fft_rotation.py:75-118` -/
def setAt (A : ℕ → ℕ → ℝ) (r0 c0 : ℕ) (v : ℝ) : ℕ → ℕ → ℝ := fun r c => if r = r0 ∧ c = c0 then v else A r c

/-- the four additions of one pass of `_compute_full`, `starry/core/s2fft_rotation.py:75-86, 102-121`, to the
array `A`, in the block that starts at index `s`, from the array `d` (`j` rows and columns, `[k, i]`) -/
noncomputable def risboPass (A : ℕ → ℕ → ℝ) (s j : ℕ) (d : ℕ → ℕ → ℝ) (coshb sinhb : ℝ) : ℕ → ℕ → ℝ :=
  let A := addBlock A s s j fun k i => √((j : ℝ) - i) * √((j : ℝ) - k) * d k i * coshb
  let A := addBlock A s (s + 1) j fun k i => -√((i : ℝ) + 1) * √((j : ℝ) - k) * d k i * sinhb
  let A := addBlock A (s + 1) s j fun k i => √((j : ℝ) - i) * √((k : ℝ) + 1) * d k i * sinhb
  addBlock A (s + 1) (s + 1) j fun k i => √((i : ℝ) + 1) * √((k : ℝ) + 1) * d k i * coshb

/-- `_compute_full(dl, beta, L, el)`, `starry/core/s2fft_rotation.py:32-122` -/
noncomputable def computeFull (dl : ℕ → ℕ → ℝ) (beta : ℝ) (L el : ℕ) : ℕ → ℕ → ℝ :=
  if el = 0 then setAt dl (el + L - 1) (el + L - 1) 1
  else if el = 1 then
    let cosb := cos beta
    let sinb := sin beta
    let coshb := cos (beta / 2)
    let sinhb := sin (beta / 2)
    let sqrt2 := √2
    let dl := setAt dl (L - 2) (L - 2) (coshb ^ 2)
    let dl := setAt dl (L - 2) (L - 1) (sinb / sqrt2)
    let dl := setAt dl (L - 2) L (sinhb ^ 2)
    let dl := setAt dl (L - 1) (L - 2) (-sinb / sqrt2)
    let dl := setAt dl (L - 1) (L - 1) cosb
    let dl := setAt dl (L - 1) L (sinb / sqrt2)
    let dl := setAt dl L (L - 2) (sinhb ^ 2)
    let dl := setAt dl L (L - 1) (-sinb / sqrt2)
    setAt dl L L (coshb ^ 2)
  else
    let coshb := -cos (beta / 2)
    let sinhb := sin (beta / 2)
    -- first pass: `dlj = dl[k - (el - 1) + L - 1][:, i - (el - 1) + L - 1]`
    let dlj : ℕ → ℕ → ℝ := fun k i => dl (k + (L - 1) - (el - 1)) (i + (L - 1) - (el - 1))
    let dd := risboPass (fun _ _ => 0) 0 (2 * el - 1) dlj coshb sinhb
    -- `dl.at[-el + L - 1 : el + 1 + L - 1, ...].multiply(0.0)`
    let s := L - 1 - el
    let dl : ℕ → ℕ → ℝ := fun r c =>
      if (s ≤ r ∧ r < el + L) ∧ (s ≤ c ∧ c < el + L) then dl r c * 0 else dl r c
    -- second pass
    let dl := risboPass dl s (2 * el) dd coshb sinhb
    fun r c => dl r c / ((2 * el : ℝ) * (2 * el - 1))

/-- `_generate_rotate_dls(L, beta)`, `starry/core/s2fft_rotation.py:125-132`: entry `el` of the list -/
noncomputable def rotateDls (L : ℕ) (beta : ℝ) : ℕ → ℕ → ℕ → ℝ
  | 0 => computeFull (fun _ _ => 0) beta L 0
  | el + 1 => computeFull (rotateDls L beta el) beta L (el + 1)

/-- `Umn(m, n)`, `starry/core/s2fft_rotation.py:137-156` -/
noncomputable def Umn (m n : ℤ) : ℂ :=
  let term1 : ℂ := if n < 0 then Complex.I else if n = 0 then ((√2 / 2 : ℝ) : ℂ) else 1
  let term2 : ℂ :=
    if 0 < m ∧ n < 0 ∧ n % 2 = 0 then -1
    else if 0 < m ∧ 0 < n ∧ n % 2 ≠ 0 then -1
    else 1
  term1 * term2 * 1 / ((√2 : ℝ) : ℂ) * ((if m = n then 1 else 0) + (if m = -n then 1 else 0))

/-- `U(l)`, `starry/core/s2fft_rotation.py:158-164`: entry `[m + l, n + l]` -/
noncomputable def Uc (l : ℕ) : ℕ → ℕ → ℂ := fun r c => Umn ((r : ℤ) - l) ((c : ℤ) - l)

/-- `compute_rotation_matrices(deg, x, y, z, theta)` from the Euler angles,
`starry/core/s2fft_rotation.py:175-197`: entry `[r, c]` of the matrix of degree `i` -/
noncomputable def rotMatrices (deg : ℕ) (alpha beta gamma : ℝ) (i : ℕ) : ℕ → ℕ → ℝ :=
  let dls := rotateDls (deg + 1) beta
  -- `m, mp = jnp.meshgrid(N, N)`: `m` varies along the columns
  let Dlm : ℕ → ℕ → ℂ := fun r c =>
    Complex.exp (-1 * Complex.I * ((((c : ℝ) - deg) * alpha + ((r : ℝ) - deg) * gamma : ℝ) : ℂ)) * (dls i r c : ℂ)
  let u := Uc deg
  let u_inv : ℕ → ℕ → ℂ := fun r c => (starRingEnd ℂ) (u c r)
  let full : ℕ → ℕ → ℝ := fun r c =>
    (∑ b ∈ Finset.range (2 * deg + 1), (∑ a ∈ Finset.range (2 * deg + 1), u_inv r a * Dlm a b) * u b c).re
  fun r c => full (r + (deg - i)) (c + (deg - i))

/-- `euler(x, y, z, theta)`, `starry/core/s2fft_rotation.py:166-173`. `asEuler v` stands for
`Rotation.from_rotvec(v).as_euler("zyz")` of `jax.scipy`. -/
noncomputable def euler (asEuler : ℝ × ℝ × ℝ → ℝ × ℝ × ℝ) (x y z theta : ℝ) : ℝ × ℝ × ℝ :=
  let ax := if theta = 0 then 1 else x
  let th := if theta = 0 then 1 else theta
  let n := √(ax ^ 2 + y ^ 2 + z ^ 2)
  if theta = 0 then (0, 0, 0) else asEuler (ax / n * th, y / n * th, z / n * th)

/-- the body of `do_dot`, `starry/core/rotation.py:74-79`: `M[block] @ rotation_matrices[ell]`, concatenated -/
noncomputable def applyBlocks (ydeg : ℕ) (R : ℕ → ℕ → ℕ → ℝ) (M : List ℝ) : List ℝ :=
  (List.range (ydeg + 1)).flatMap fun ell : ℕ => (List.range (2 * ell + 1)).map fun c : ℕ =>
    ∑ r ∈ Finset.range (2 * ell + 1), M.getD (ell * ell + r) 0 * R ell r c

/-- `dot_rotation_matrix(ydeg, x, y, z, theta)(M)`, `starry/core/rotation.py:17-81`, scalar arguments;
`valueError` when no axis component is given -/
noncomputable def dotRotationMatrix (asEuler : ℝ × ℝ × ℝ → ℝ × ℝ × ℝ) (ydeg : ℕ) (x y z theta : Option ℝ)
    (M : List ℝ) : Except PyErr (List ℝ) :=
  match theta with
  | none => .ok M
  | some theta =>
    if x = none ∧ y = none then
      if z = none then .error (.valueError "Either x, y, or z must be specified") else .ok (dotRz ydeg theta M)
    else
      let e := euler asEuler (x.getD 0) (y.getD 0) (z.getD 0) theta
      .ok (applyBlocks ydeg (rotMatrices ydeg e.1 e.2.1 e.2.2) M)

/-- `left_project(ydeg, inc, obl, theta, theta_z, y)`, `starry/core/rotation.py:187-216` -/
noncomputable def leftProject (asEuler : ℝ × ℝ × ℝ → ℝ × ℝ × ℝ) (ydeg : ℕ) (inc obl theta theta_z : Option ℝ)
    (y : List ℝ) : Except PyErr (List ℝ) := do
  let m_theta := theta.map (- ·)
  let m_theta_z := theta_z.map (- ·)
  let a := skyProjection inc obl
  let y ← dotRotationMatrix asEuler ydeg (some 1) none none (some (-0.5 * π)) y
  let y ← dotRotationMatrix asEuler ydeg none none (some 1) m_theta y
  let y ← dotRotationMatrix asEuler ydeg a.1 a.2.1 a.2.2.1 a.2.2.2 y
  dotRotationMatrix asEuler ydeg none none (some 1) m_theta_z y

/-- `right_project(ydeg, inc, obl, theta, theta_z, y)`, `starry/core/rotation.py:219-249` -/
noncomputable def rightProject (asEuler : ℝ × ℝ × ℝ → ℝ × ℝ × ℝ) (ydeg : ℕ) (inc obl theta theta_z : Option ℝ)
    (y : List ℝ) : Except PyErr (List ℝ) := do
  let a := skyProjection inc obl
  let y ← dotRotationMatrix asEuler ydeg none none (some 1) theta_z y
  let y ← dotRotationMatrix asEuler ydeg (a.1.map (- ·)) (a.2.1.map (- ·)) (a.2.2.1.map (- ·)) a.2.2.2 y
  let y ← dotRotationMatrix asEuler ydeg none none (some 1) theta y
  dotRotationMatrix asEuler ydeg (some 1) none none (some (0.5 * π)) y

/-! ### `starry/utils.py` -/

/-- `y1d_to_2d(ydeg, flm)`, `starry/utils.py:139-149`; entry `[l, c]` of the result -/
def y1dTo2d (ydeg : ℕ) (flm : List ℂ) : ℕ → ℕ → ℂ :=
  ((loopLM ydeg).zipIdx.foldl (fun A e =>
    fun r c => if r = e.1.1 ∧ (c : ℤ) = e.1.2 + ydeg then flm.getD e.2 0 else A r c) fun _ _ => 0)

/-- `y2d_to_1d(ydeg, flm)`, `starry/utils.py:152-162` -/
def y2dTo1d (ydeg : ℕ) (flm : ℕ → ℕ → ℂ) : List ℂ :=
  (loopLM ydeg).zipIdx.foldl (fun A e => A.set e.2 (flm e.1.1 (e.1.2 + (ydeg : ℤ)).toNat)) (List.replicate ((ydeg + 1) ^ 2) 0)

/-- `C(l)`, `starry/utils.py:165-177`: rows -/
noncomputable def Cmat (l : ℕ) : List (List ℂ) :=
  -- `np.eye(l, l)[:, ::-1]`, `np.zeros(l)[:, None]`, `np.diag((-1) ** np.arange(1, l + 1))`
  let A : List (List ℂ) := (List.range l).map fun r : ℕ => ((List.range l).map fun c : ℕ => if c = r then (1 : ℂ) else 0).reverse
  let B : List (List ℂ) := (List.range l).map fun _ => [0]
  let C : List (List ℂ) := (List.range l).map fun r : ℕ => (List.range l).map fun c : ℕ => if c = r then (-1 : ℂ) ^ (r + 1) else 0
  let hstack := fun (a b c : List (List ℂ)) => List.zipWith (· ++ ·) (List.zipWith (· ++ ·) a b) c
  let scale := fun (k : ℂ) (a : List (List ℂ)) => a.map fun row => row.map fun v => k * v
  let ABC := hstack A B C
  let jABC := (hstack (scale Complex.I A) B (scale (-1 * Complex.I) C)).reverse
  let one : List ℂ := (List.replicate (2 * l + 1) (0 : ℂ)).set l ((√2 : ℝ) : ℂ)
  (jABC ++ [one] ++ ABC).map fun row => row.map fun v => v / ((√2 : ℝ) : ℂ)

end Jaxoplanet.Starry
