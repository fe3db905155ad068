import Verif.Model.TransitGrad

/-!
# Model of the automatic differentiation of `src/jaxoplanet/orbits/ttv.py`

The same program as the second part of `Model/Transit.lean`, for one planet, on numbers with derivatives (`Model/Autodiff.lean`). The transit numbers are integers, without derivatives.
`jnp.searchsorted` returns an integer, so the bin edges only matter through their values.
-/

namespace Jaxoplanet.Transit
open Real AD AD.Dual

/-- `jnp.exp(x)` (`exp_p`), used at `orbits/ttv.py:167` -/
noncomputable def expD (a : Dual) : Dual := ⟨Real.exp a.v, lin (some (Real.exp a.v)) a.d⟩

open Classical in
/-- `jnp.log(x)` (`log_p`): the local derivative is `1 / x`, used at `orbits/ttv.py:167` -/
noncomputable def logD (a : Dual) : Dual := ⟨Real.log a.v, if a.v = 0 then none else lin (some (1 / a.v)) a.d⟩

open Classical in
/-- `_compute_linear_ephemeris_single`, `orbits/ttv.py:18-27`: `(intercept, slope)`; `jnp.linalg.solve` by Cramer's rule, as in `Model/Transit.lean` -/
noncomputable def linearEphemerisD (tt : List Dual) (inds : List ℝ) : Option (Dual × Dual) :=
  let n : ℝ := tt.length
  let s1 := inds.sum
  let s2 := (inds.map (· ^ 2)).sum
  let r1 := Dual.sum tt
  let r2 := Dual.sum (List.zipWith (fun i t => const i * t) inds tt)
  let det := n * s2 - s1 * s1
  if inds.length ≠ tt.length ∨ det = 0 then none
  else some ((r1 * const s2 - const s1 * r2) / const det, (const n * r2 - const s1 * r1) / const det)

/-- `bin_values`, `orbits/ttv.py:41` -/
def binValuesD (tt : List Dual) : List Dual := [tt.headD (const 0)] ++ tt ++ [tt.getLastD (const 0)]

/-- A `TTVOrbit` of one planet: the base `TransitOrbit` and the fields used for the times, `orbits/ttv.py:89-100` -/
structure TTVOrbitD where
  base : TransitOrbitD
  t0 : Dual
  bin_edges : List ℝ
  bin_values : List Dual

/-- the period of the base orbit, `orbits/ttv.py:159-170` -/
noncomputable def shapePeriodD (period delta_log_period : Option Dual) (ttv_period : Dual) : Dual :=
  match period, delta_log_period with
  | some p, _ => p
  | none, some d => expD (logD ttv_period + d)
  | none, none => ttv_period

/-- `TTVOrbit.__init__` with `transit_times`, `orbits/ttv.py:134-170, 216-236` -/
noncomputable def TTVOrbitD.ofTimes (period time_transit : Option Dual) (tt : List Dual) (transit_inds : Option (List ℝ)) (delta_log_period : Option Dual)
    (duration speed impact_param radius_ratio : Option Dual) : Except PyErr TTVOrbitD :=
  match linearEphemerisD tt (transit_inds.getD (arange tt.length)) with
  | none => .error .uninitialised
  | some (t0, ttv_period) => do
    let base ← TransitOrbitD.init (shapePeriodD period delta_log_period ttv_period) duration speed (some (time_transit.getD t0)) impact_param radius_ratio
    return { base, t0, bin_edges := binEdges (tt.map (·.v)) ttv_period.v, bin_values := binValuesD tt }

/-- `x.item()` at `orbits/ttv.py:206-210`: a Python number. Of a number that is being differentiated, the method (`jax/_src/numpy/array_methods.py`,
`concrete_or_error`) returns the value without its derivative, and under `jax.jit` it raises `ConcretizationTypeError`. -/
noncomputable def item (jit : Bool) (a : Dual) : Except PyErr Dual :=
  if jit then .error (.valueError "ConcretizationTypeError") else .ok (const a.v)

/-- `TTVOrbit.__init__` with `ttvs`, `orbits/ttv.py:171-236`, for one planet. `traced`: `period` or `time_transit` is being differentiated or is an argument of a
function under `jax.jit`. -/
noncomputable def TTVOrbitD.ofTtvs (traced jit : Bool) (period : Dual) (time_transit : Option Dual) (ttvs : List Dual) (transit_inds : Option (List ℝ))
    (duration speed impact_param radius_ratio : Option Dual) : Except PyErr TTVOrbitD := do
  let t0 := time_transit.getD (const 0)
  -- l.182-188
  let m := Dual.sum ttvs / const ttvs.length
  let ttvs := ttvs.map (· - m)
  let inds := transit_inds.getD (arange ttvs.length)
  -- l.206-212
  let t0_i ← item (traced && jit) t0
  let period_i ← item (traced && jit) period
  let tt := List.zipWith (fun i x => t0_i + period_i * const i + x) inds ttvs
  let base ← TransitOrbitD.init period duration speed (some t0) impact_param radius_ratio
  return { base, t0, bin_edges := binEdges (tt.map (·.v)) period.v, bin_values := binValuesD tt }

/-- `light_curve(orbit, *u)(t)` with `TTVOrbit.relative_position`, `orbits/ttv.py:238-272`: the base light curve at the warped time -/
noncomputable def TTVOrbitD.flux (eps : ℝ) (strict : Bool) (quad : List (ℝ × ℝ)) (u : List Dual) (o : TTVOrbitD) (t : Dual) : Dual :=
  o.base.flux eps strict quad u (t - (o.bin_values.getD (searchsorted o.bin_edges t.v) (const 0) - o.t0))

end Jaxoplanet.Transit
