import Verif.Model.Wigner
import Verif.Model.Rotation

/-!
# Model of `compute_rotation_matrices`, `rotar` and `dlmn` of `src/jaxoplanet/starry/core/rotation.py:252-469`

(The package uses the function of the same name of `s2fft_rotation.py`, which is in `Model/Rotation.lean`.) Values are exact reals;
`eps` is the machine epsilon of the dtype. A matrix of degree `l` is a function of `(m', m)`: the entry `[m' + l, m + l]` of the
code.
-/

namespace Jaxoplanet.Starry.Legacy

open Real Wig

/-- a matrix of degree `l`: `(m', m)` stands for the index `[m' + l, m + l]` of `starry/core/rotation.py:363-469` -/
abbrev Mat := ℤ → ℤ → ℝ

/-- `A[r + ell][c + ell] = v`, the assignments of `starry/core/rotation.py:368-464` -/
def put (A : Mat) (r c : ℤ) (v : ℝ) : Mat := fun r' c' => if r' = r ∧ c' = c then v else A r' c'

/-- `D[-k]`, in `starry/core/rotation.py:369-401` -/
def fromEnd (D : List Mat) (k : ℕ) : Mat := D.getD (D.length - k) fun _ _ => 0

/-- the last row, `starry/core/rotation.py:363-374` -/
noncomputable def lastRow (ell : ℕ) (c2 tgbet2 : ℝ) (D : List Mat) : Mat :=
  let iinf : ℤ := 1 - ell
  let isup : ℤ := -iinf
  let D_ : Mat := fun _ _ => 0
  let D_ := put D_ ell ell (0.5 * fromEnd D 1 isup isup * (1 + c2))
  let D_ := (rangeDown isup (iinf - 1)).foldl (fun (D_ : Mat) (m : ℤ) =>
    put D_ ell m (-tgbet2 * √(((ell : ℝ) + m + 1) / (ell - m)) * D_ ell (m + 1))) D_
  put D_ ell (-ell) (0.5 * D.getD (ell - 1) (fun _ _ => 0) isup (-isup) * (1 - c2))

/-- one entry of the upper triangle, `starry/core/rotation.py:385-388, 391-402` -/
noncomputable def triEntry (ell : ℕ) (c2 : ℝ) (D : List Mat) (mp m : ℤ) : ℝ :=
  let al : ℝ := ell
  let al1 : ℝ := al - 1
  let tal1 := al + al1
  let ali := 1 / al1
  let cosaux := c2 * al * al1
  let laux : ℤ := ell + mp
  let lbux : ℤ := ell - mp
  let aux := ali / √((laux * lbux : ℤ) : ℝ)
  let cux := √(((laux - 1) * (lbux - 1) : ℤ) : ℝ) * al
  let lauz : ℤ := ell + m
  let lbuz : ℤ := ell - m
  let auz := 1 / √((lauz * lbuz : ℤ) : ℝ)
  let fact := aux * auz
  let term := tal1 * (cosaux - m * mp) * fromEnd D 1 mp m
  let term := if lbuz ≠ 1 ∧ lbux ≠ 1 then
      let cuz := √(((lauz - 1) * (lbuz - 1) : ℤ) : ℝ)
      term - fromEnd D 2 mp m * cux * cuz
    else term
  fact * term

/-- the rows of the upper triangle, `starry/core/rotation.py:376-405` (`iinf`, `isup` have the values of lines 364-365) -/
noncomputable def triangle (ell : ℕ) (c2 : ℝ) (D : List Mat) (D_ : Mat) : Mat :=
  ((rangeDown ((ell : ℤ) - 1) (-1)).foldl (fun (st : Mat × ℤ × ℤ) (mp : ℤ) =>
    ((rangeDown st.2.2 (st.2.1 - 1)).foldl (fun (D_ : Mat) (m : ℤ) => put D_ mp m (triEntry ell c2 D mp m)) st.1,
      st.2.1 + 1, st.2.2 - 1)) (D_, 1 - (ell : ℤ), -(1 - (ell : ℤ)))).1

/-- reflection, `starry/core/rotation.py:411-419` -/
noncomputable def reflect (ell : ℕ) (D_ : Mat) : Mat :=
  ((rangeDown (ell : ℤ) 0).foldl (fun (st : Mat × ℝ × ℤ × ℤ) (m : ℤ) =>
    let inner := (rangeUp st.2.2.1 (st.2.2.2 + 1)).foldl (fun (s : Mat × ℝ) (mp : ℤ) =>
      (put s.1 mp m (s.2 * s.1 m mp), s.2 * (-1))) (st.1, st.2.1)
    (inner.1, inner.2, st.2.2.1 + 1, st.2.2.2 - 1)) (D_, 1, -(ell : ℤ), (ell : ℤ) - 1)).1

/-- inversion, `starry/core/rotation.py:421-430` -/
noncomputable def invert (ell : ℕ) (D_ : Mat) : Mat :=
  let iinf : ℤ := -ell
  ((rangeDown ((ell : ℤ) - 1) (-((ell : ℤ) + 1))).foldl (fun (st : Mat × ℤ) (m : ℤ) =>
    let inner := (rangeDown st.2 (iinf - 1)).foldl (fun (s : Mat × ℝ) (mp : ℤ) =>
      (put s.1 mp m (s.2 * s.1 (-mp) (-m)), s.2 * (-1))) (st.1, (-1 : ℝ))
    (inner.1, st.2 + 1)) (D_, iinf)).1

/-- the body of the inner loop of the real matrix, `starry/core/rotation.py:445-462`; the state is `R_, cosmga, sinmga` -/
noncomputable def realInner (D_ : Mat) (c3 s3 cosmal sinmal sign : ℝ) (mp : ℤ) (st : Mat × ℝ × ℝ) (m : ℤ) : Mat × ℝ × ℝ :=
  let cosmga := st.2.1
  let sinmga := st.2.2
  let aux := √2 * D_ m 0
  let R_ := put st.1 0 m (aux * cosmga)
  let R_ := put R_ 0 (-m) (-aux * sinmga)
  let d1 := D_ (-mp) (-m)
  let d2 := sign * D_ mp (-m)
  let cosag := cosmal * cosmga - sinmal * sinmga
  let cosagm := cosmal * cosmga + sinmal * sinmga
  let sinag := sinmal * cosmga + cosmal * sinmga
  let sinagm := sinmal * cosmga - cosmal * sinmga
  let R_ := put R_ mp m (d1 * cosag + d2 * cosagm)
  let R_ := put R_ mp (-m) (-d1 * sinag + d2 * sinagm)
  let R_ := put R_ (-mp) m (d1 * sinag + d2 * sinagm)
  let R_ := put R_ (-mp) (-m) (d1 * cosag - d2 * cosagm)
  (R_, cosmga * c3 - sinmga * s3, sinmga * c3 + cosmga * s3)

/-- the real rotation matrix, `starry/core/rotation.py:432-467`; the state is `R_, cosmal, sinmal, sign` -/
noncomputable def realMatrix (ell : ℕ) (s1 c1 s3 c3 : ℝ) (D_ : Mat) : Mat :=
  let R_ : Mat := put (fun _ _ => 0) 0 0 (D_ 0 0)
  ((rangeUp 1 ((ell : ℤ) + 1)).foldl (fun (st : Mat × ℝ × ℝ × ℝ) (mp : ℤ) =>
    let cosmal := st.2.1
    let sinmal := st.2.2.1
    let sign := st.2.2.2
    let aux := √2 * D_ 0 mp
    let R_ := put st.1 mp 0 (aux * cosmal)
    let R_ := put R_ (-mp) 0 (aux * sinmal)
    let inner := (rangeUp 1 ((ell : ℤ) + 1)).foldl (realInner D_ c3 s3 cosmal sinmal sign mp) (R_, c3, s3)
    (inner.1, cosmal * c1 - sinmal * s1, sinmal * c1 + cosmal * s1, sign * (-1))) (R_, c1, s1, (-1 : ℝ))).1

/-- `dlmn(ell, s1, c1, c2, tgbet2, s3, c3, D)`, `starry/core/rotation.py:362-469` -/
noncomputable def dlmn (ell : ℕ) (s1 c1 c2 tgbet2 s3 c3 : ℝ) (D : List Mat) : Mat × Mat :=
  let D_ := invert ell (reflect ell (triangle ell c2 D (lastRow ell c2 tgbet2 D)))
  (D_, realMatrix ell s1 c1 s3 c3 D_)

/-- a `3 × 3` array, `starry/core/rotation.py:320-328, 343-351`: entry `[i, j]` is `(i - 1, j - 1)` -/
def mat3 (a00 a01 a02 a10 a11 a12 a20 a21 a22 : ℝ) : Mat := fun r c =>
  if r = -1 then (if c = -1 then a00 else if c = 0 then a01 else a02)
  else if r = 0 then (if c = -1 then a10 else if c = 0 then a11 else a12)
  else (if c = -1 then a20 else if c = 0 then a21 else a22)

/-- `rotar(ydeg, c1, s1, c2, s2, c3, s3)`, `starry/core/rotation.py:298-360` -/
noncomputable def rotar (eps : ℝ) (ydeg : ℕ) (c1 s1 c2 s2 c3 s3 : ℝ) : List Mat × List Mat :=
  if ydeg = 0 then ([fun _ _ => 1], [fun _ _ => 1]) else
    let D1_22 := 0.5 * (1 + c2)
    let D1_21 := -s2 / √2
    let D1_20 := 0.5 * (1 - c2)
    let D1_12 := -D1_21
    let D1_11 := D1_22 - D1_20
    let D1_10 := D1_21
    let D1_02 := D1_20
    let D1_01 := D1_12
    let D1_00 := D1_22
    let D := [fun _ _ => 1, mat3 D1_00 D1_01 D1_02 D1_10 D1_11 D1_12 D1_20 D1_21 D1_22]
    let cosag := c1 * c3 - s1 * s3
    let cosamg := c1 * c3 + s1 * s3
    let sinag := s1 * c3 + c1 * s3
    let sinamg := s1 * c3 - c1 * s3
    let R1_11 := D1_11
    let R1_21 := √2 * D1_12 * c1
    let R1_01 := √2 * D1_12 * s1
    let R1_12 := √2 * D1_21 * c3
    let R1_10 := -√2 * D1_21 * s3
    let R1_22 := D1_22 * cosag - D1_20 * cosamg
    let R1_20 := -D1_22 * sinag - D1_20 * sinamg
    let R1_02 := D1_22 * sinag - D1_20 * sinamg
    let R1_00 := D1_22 * cosag + D1_20 * cosamg
    let R := [fun _ _ => 1, mat3 R1_00 R1_01 R1_02 R1_10 R1_11 R1_12 R1_20 R1_21 R1_22]
    let tol := 10 * eps
    let tgbet2 := if |s2| < tol then s2 else (1 - c2) / s2
    (List.range (ydeg - 1)).foldl (fun (st : List Mat × List Mat) (i : ℕ) =>
      let new := dlmn (i + 2) s1 c1 c2 tgbet2 s3 c3 st.1
      (st.1 ++ [new.1], st.2 ++ [new.2])) (D, R)

/-- the Euler angles of `compute_rotation_matrices`, `starry/core/rotation.py:254-288`:
`(cos_alpha, sin_alpha, cos_beta, sin_beta, cos_gamma, sin_gamma)`, `none` if there is a division by zero, i.e. NaN -/
noncomputable def eulerCS (eps x y z theta : ℝ) : Option (ℝ × ℝ × ℝ × ℝ × ℝ × ℝ) :=
  let norm := √(x * x + y * y + z * z)
  let x := if norm = 0 then 0 else x / norm
  let y := if norm = 0 then 0 else y / norm
  let z := if norm = 0 then 0 else z / norm
  let s := sin theta
  let c := cos theta
  let ra01 := x * y * (1 - c) - z * s
  let ra02 := x * z * (1 - c) + y * s
  let ra11 := c + y * y * (1 - c)
  let ra12 := y * z * (1 - c) - x * s
  let ra20 := z * x * (1 - c) - y * s
  let ra21 := z * y * (1 - c) + x * s
  let ra22 := c + z * z * (1 - c)
  let tol := 10 * eps
  let cond_neg := |ra22 + 1| < tol
  let cond_pos := |ra22 - 1| < tol
  let cond_full := cond_pos ∨ cond_neg
  let sign : ℝ := (if cond_neg then 1 else 0) - (if cond_pos then 1 else 0)
  let norm1 := √(if cond_full then 1 else ra20 * ra20 + ra21 * ra21)
  let norm2 := √(if cond_full then 1 else ra02 * ra02 + ra12 * ra12)
  let cos_beta := ra22
  let ra22_ := if cond_full then 0 else ra22
  let sin_beta := if cond_full then 1 + sign * ra22 else √(1 - ra22_ * ra22_)
  if ¬ cond_full ∧ (norm1 = 0 ∨ norm2 = 0) then none else
    let cos_gamma := if cond_full then ra11 else -ra20 / norm1
    let sin_gamma := if cond_full then sign * ra01 else ra21 / norm1
    let cos_alpha := if cond_full then -sign * ra22 else ra02 / norm2
    let sin_alpha := if cond_full then 1 + sign * ra22 else ra12 / norm2
    some (cos_alpha, sin_alpha, cos_beta, sin_beta, cos_gamma, sin_gamma)

/-- `compute_rotation_matrices(ydeg, x, y, z, theta)`, `starry/core/rotation.py:252-296`: the list of the real matrices; `none` if the
matrices of degree 1 and higher contain NaN -/
noncomputable def computeRotationMatrices (eps : ℝ) (ydeg : ℕ) (x y z theta : ℝ) : Option (List Mat) :=
  if ydeg = 0 then some (rotar eps 0 0 0 0 0 0 0).2 else
    match eulerCS eps x y z theta with
    | none => none
    | some (ca, sa, cb, sb, cg, sg) => some (rotar eps ydeg ca sa cb sb cg sg).2

end Jaxoplanet.Starry.Legacy
