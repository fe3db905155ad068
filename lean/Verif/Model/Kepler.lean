import Verif.Model.Basic
import Mathlib.Analysis.SpecialFunctions.Trigonometric.Basic
import Mathlib.Analysis.SpecialFunctions.Sqrt

/-!
# Model of `src/jaxoplanet/core/kepler.py` (and `src/jaxoplanet/utils.py`)
-/

namespace Jaxoplanet.Kepler

open Real

/-- `starter`, `core/kepler.py:82-92`, line by line. -/
noncomputable def starter (M ecc ome : ℝ) : ℝ :=
  let M2 := M ^ 2
  let alpha := 3 * π / (π - 6 / π)
  let alpha := alpha + 1.6 / (π - 6 / π) * (π - M) / (1 + ecc)
  let d := 3 * ome + alpha * ecc
  let alphad := alpha * d
  let r := (3 * alphad * (d - ome) + M2) * M
  let q := 2 * alphad * ome - M2
  let q2 := q ^ 2
  let w := (cbrt (|r| + √(q2 * q + r * r))) ^ 2
  (2 * r * w / (w ^ 2 + w * q + q2) + M) / d

/-- `refine`, `core/kepler.py:95-108`, line by line. -/
noncomputable def refine (M ecc ome E : ℝ) : ℝ :=
  let sE := E - sin E
  let cE := 1 - cos E
  let f_0 := ecc * sE + E * ome - M
  let f_1 := ecc * cE + ome
  let f_2 := ecc * (E - sE)
  let f_3 := 1 - f_1
  let d_3 := -f_0 / (f_1 - 0.5 * f_0 * f_2 / f_1)
  let d_4 := -f_0 / (f_1 + 0.5 * d_3 * f_2 + (d_3 * d_3) * f_3 / 6)
  let d_42 := d_4 * d_4
  let dE := -f_0 / (f_1 + 0.5 * d_4 * f_2 + d_4 * d_4 * f_3 / 6 - d_42 * d_4 * f_2 / 24)
  E + dE

/-- `core/kepler.py:30-43`: wrap `M` into `[0, 2π)`, fold into `[0, π]`, solve, unfold.
This is the eccentric anomaly the code ends up with. -/
noncomputable def solveE (M ecc : ℝ) : ℝ :=
  let M := fmod M (2 * π)
  let high := π < M
  let M := if high then 2 * π - M else M
  let ome := 1 - ecc
  let E := starter M ecc ome
  let E := refine M ecc ome E
  if high then 2 * π - E else E

/-- `core/kepler.py:45-56`: eccentric anomaly → (sin f, cos f) by the half-angle tangent.
Simplification: at the pole of `tan (E/2)` the exact-arithmetic expression is undefined; the
floating point code evaluates `tan` at the rounded `π/2`, gets `≈ 1.6e16`, and returns `(≈ 0, -1)`.
The model returns the limit `(0, -1)` there, which `toTrueAnomaly_continuous` in
`Verif/Props/Kepler.lean` proves to be the limit of the formula. -/
noncomputable def toTrueAnomaly (ecc E : ℝ) : ℝ × ℝ :=
  if cos (0.5 * E) = 0 then (0, -1)
  else
    let tan_half_f := √((1 + ecc) / (1 - ecc)) * tan (0.5 * E)
    let tan2_half_f := tan_half_f ^ 2
    let denom := 1 / (1 + tan2_half_f)
    (2 * tan_half_f * denom, (1 - tan2_half_f) * denom)

/-- `kepler`, `core/kepler.py:14-56`: (sin f, cos f) of the true anomaly. -/
noncomputable def kepler (M ecc : ℝ) : ℝ × ℝ := toTrueAnomaly ecc (solveE M ecc)

/-- The tangent part of the custom JVP rule, `core/kepler.py:65-79`, as a function of the primal
outputs `(sinf, cosf)`, the eccentricity, and the input tangents.  `make_zero` (l.69-73) turns a
symbolic zero tangent into a numerical `0`; here tangents are already numbers. -/
noncomputable def jvpTangent (sinf cosf e M_dot e_dot : ℝ) : ℝ × ℝ :=
  let ecosf := e * cosf
  let ome2 := 1 - e ^ 2
  let f_dot := M_dot * (1 + ecosf) ^ 2 / ome2 ^ (1.5 : ℝ)
  let f_dot := f_dot + e_dot * (2 + ecosf) * sinf / ome2
  (cosf * f_dot, -sinf * f_dot)

/-- The whole JVP rule of `kepler`, `core/kepler.py:59-79`. -/
noncomputable def keplerJvp (M e M_dot e_dot : ℝ) : (ℝ × ℝ) × (ℝ × ℝ) :=
  let s := kepler M e
  (s, jvpTangent s.1 s.2 e M_dot e_dot)

/-- `zero_safe_sqrt`, primal, `utils.py:11-13`. -/
noncomputable def zeroSafeSqrt (x : ℝ) : ℝ := √x

/-- `zero_safe_sqrt_jvp`, tangent, `utils.py:16-24`; `eps` is the dtype's machine epsilon. -/
noncomputable def zeroSafeSqrtTangent (eps x x_dot : ℝ) : ℝ :=
  let primal_out := √x
  let denom := if x < 10 * eps then 1 else x
  0.5 * x_dot * primal_out / denom

end Jaxoplanet.Kepler
