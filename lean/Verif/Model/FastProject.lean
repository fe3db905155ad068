import Verif.Model.Rotation

/-!
# Model of `rotate_flms` (`src/jaxoplanet/starry/core/s2fft_rotation.py`) and of `fast_direct_left_project`
(`src/jaxoplanet/starry/core/rotation.py`)

Arrays of complex coefficients are functions of the row (the degree) and the column (the order plus `L - 1`); entries outside the
shape `(L, 2 L - 1)` are not used. Values are exact.
-/

namespace Jaxoplanet.Starry

open Real

/-- entry `k` of `__exp_array(L, x)`, `starry/core/s2fft_rotation.py:200-202` -/
noncomputable def expArray (L : ℕ) (x : ℝ) (k : ℕ) : ℂ :=
  Complex.exp (-1 * Complex.I * ((-(L : ℂ) + 1 + k) * x))

/-- the state of the loop over `el` in `rotate_flms`: the Wigner array and the rotated coefficients,
`starry/core/s2fft_rotation.py:228-238` -/
structure FlmState where
  /-- the array `dl` -/
  dl : ℕ → ℕ → ℝ
  /-- the array `flm_rotated` -/
  flm : ℕ → ℕ → ℂ

/-- the array used for degree `el`, `starry/core/s2fft_rotation.py:242-243, 250-256`: computed from the previous one, or taken
from the argument -/
noncomputable def flmDl (dlArray : Option (ℕ → ℕ → ℕ → ℝ)) (dl : ℕ → ℕ → ℝ) (beta : ℝ) (L el : ℕ) : ℕ → ℕ → ℝ :=
  match dlArray with
  | none => computeFull dl beta L el
  | some d => d el

/-- the body of the loop over `el`, `starry/core/s2fft_rotation.py:241-264`: `m` and `n` run over `-el, …, el` (entry `k` of the
ranges is `k - el`, its column is `L - 1 - el + k`) -/
noncomputable def flmStep (flm : ℕ → ℕ → ℂ) (L : ℕ) (alpha gamma : ℕ → ℂ) (beta : ℝ) (dlArray : Option (ℕ → ℕ → ℕ → ℝ))
    (st : FlmState) (el : ℕ) : FlmState :=
  let dl := flmDl dlArray st.dl beta L el
  let col : ℕ → ℕ := fun k => L - 1 - el + k
  let n_max := min el (L - 1)
  let coln : ℕ → ℕ := fun k => L - 1 - n_max + k
  let add : ℕ → ℂ := fun m => ∑ n ∈ Finset.range (2 * n_max + 1),
    ((dl (col m) (coln n) : ℂ) * alpha (col m)) * (gamma (coln n) * flm el (coln n))
  ⟨dl, fun r c => if r = el ∧ L - 1 - el ≤ c ∧ c ≤ L - 1 + el then st.flm r c + add (c - (L - 1 - el)) else st.flm r c⟩

/-- `rotate_flms(flm, L, rotation, dl_array)`, `starry/core/s2fft_rotation.py:205-265` -/
noncomputable def rotateFlms (flm : ℕ → ℕ → ℂ) (L : ℕ) (rotation : ℝ × ℝ × ℝ) (dlArray : Option (ℕ → ℕ → ℕ → ℝ)) : ℕ → ℕ → ℂ :=
  let alpha := expArray L rotation.1
  let gamma := expArray L rotation.2.2
  ((List.range L).foldl (flmStep flm L alpha gamma rotation.2.1 dlArray) ⟨fun _ _ => 0, fun _ _ => 0⟩).flm

/-- `fast_direct_left_project(ydeg, inc, obl, theta, theta_z, y)`, `starry/core/rotation.py:511-537`; its local function `euler`
is that of `s2fft_rotation.py`. A matrix product sums over the `2 ydeg + 1` columns. -/
noncomputable def fastLeftProject (eps : ℝ) (asEuler : ℝ × ℝ × ℝ → ℝ × ℝ × ℝ) (ydeg : ℕ) (inc obl theta theta_z : Option ℝ)
    (y : List ℝ) : List ℝ :=
  let a := fullRotation eps inc obl theta theta_z
  let e := euler asEuler (-a.1) (-a.2.1) a.2.2.1 (-a.2.2.2)
  let u : ℕ → ℕ → ℂ := fun r c => ((Cmat ydeg).getD r []).getD c 0
  let u_dag : ℕ → ℕ → ℂ := fun r c => (starRingEnd ℂ) (u c r)
  let y_d2 := y1dTo2d ydeg (y.map Complex.ofReal)
  let y_2d_complex : ℕ → ℕ → ℂ := fun l r => ∑ c ∈ Finset.range (2 * ydeg + 1), u_dag r c * y_d2 l c
  let rotated := rotateFlms y_2d_complex (ydeg + 1) e none
  let rotated_real : ℕ → ℕ → ℂ := fun l r => ∑ c ∈ Finset.range (2 * ydeg + 1), u r c * rotated l c
  (y2dTo1d ydeg rotated_real).map fun v => v.re

end Jaxoplanet.Starry
