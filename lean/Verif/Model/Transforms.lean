import Verif.Model.LightCurve

/-!
# Model of `light_curves/transforms.py` for array-valued light curves with extra arguments

`Model/LightCurve.lean` has `integrate` and `interpolate` for a light curve with one value and no arguments besides the time. Here the light
curve returns an array for each (scalar) time, and has positional and keyword arguments; these are arrays (a pytree argument such as an orbit
is the list of its leaves).
-/

namespace Jaxoplanet.LightCurve

open Stack

/-- a light curve function at a scalar time, with its positional and keyword arguments, `light_curves/transforms.py:27-32` (`LightCurveFunc`) -/
abbrev LcFun := ℝ → List Arr → List (String × Arr) → Except VErr Arr

/-- the keyword arguments of the `i`-th of the mapped calls: `jax.vmap` maps every keyword argument along its first axis
(trusted JAX function, called at `light_curves/transforms.py:109`) -/
def kwEntry (i : ℕ) (kwargs : List (String × Arr)) : Option (List (String × Arr)) :=
  kwargs.mapM fun k => (k.2.entries.bind (·[i]?)).map fun a => (k.1, a)

/-- `jax.vmap(func, in_axes=(0,) + (None,) * len(args))(times, *args, **kwargs)`, `light_curves/transforms.py:109`: positional arguments are
not mapped; a keyword argument is, and it is an error if it does not have a first axis with one entry per time. -/
def vmapFunc (f : LcFun) (times : List ℝ) (args : List Arr) (kwargs : List (String × Arr)) : Except VErr Arr :=
  if kwargs.all fun k => k.2.size 0 == some times.length then do
    let rs ← times.zipIdx.mapM fun t => do
      let kw ← orErr .value (kwEntry t.2 kwargs)
      f t.1 args kw
    return .vec rs
  else .error .value

/-- number of axes of an array; `light_curves/transforms.py:119` (`jnpu.dot`), l. 186 (`jnp.interp`) -/
def Arr.ndim : Arr → ℕ
  | .scalar _ => 0
  | .vec [] => 1
  | .vec (a :: _) => Arr.ndim a + 1

/-- a number; `light_curves/transforms.py:119, 186` -/
def Arr.toReal : Arr → Option ℝ
  | .scalar x => some x
  | .vec _ => none

/-- `jnp.dot(s, b)` for a vector `s` and a vector `b`; part of `light_curves/transforms.py:119` -/
noncomputable def dotVec (s : List ℝ) (b : List Arr) : Option Arr := do
  let x ← b.mapM Arr.toReal
  if x.length = s.length then some (.scalar (dot s x)) else none

/-- `jnp.dot(s, b)` for a vector `s` and a matrix `b`, given by its rows; part of `light_curves/transforms.py:119` -/
noncomputable def dotMat (s : List ℝ) (rows : List Arr) : Option Arr := do
  let ls ← rows.mapM Arr.entries
  let cols ← (List.range (ls.headD []).length).mapM fun j => do
    let col ← ls.mapM (·[j]?)
    dotVec s col
  return .vec cols

/-- `jnp.dot(s, b)` for a vector `s` and an array `b` with `ndim` axes: the sum runs over the last axis of a vector, but over the *second to last* axis of an
array with several axes (trusted JAX function, called at `light_curves/transforms.py:119`). `none`: `TypeError`, the sizes differ. -/
noncomputable def dotArr (s : List ℝ) : ℕ → Arr → Option Arr
  | _, .scalar _ => none
  | 0, .vec _ => none
  | 1, .vec l => dotVec s l
  | 2, .vec l => dotMat s l
  | n + 3, .vec l => (l.mapM (dotArr s (n + 2))).map .vec

/-- `integrate(func, exposure_time, order, num_samples)(time, *args, **kwargs)` at a scalar time, `light_curves/transforms.py:26-119`.
Without an exposure time `func` itself is returned (l.62-63). -/
noncomputable def integrateArr (f : LcFun) (exposure : Option ℝ) (ndim order num_samples : ℕ) : Except IErr LcFun :=
  match exposure with
  | none => .ok f
  | some e =>
    if ndim ≠ 0 then .error .nonScalar
    else do
      let (dt, s) ← stencil order num_samples
      let dt := dt.map (· * e)
      let s := s.map (· / s.sum)
      return fun time args kwargs => do
        let result ← vmapFunc f (dt.map (time + ·)) args kwargs
        orErr .other (dotArr s (Arr.ndim result) result)

/-- `interpolate(func, period=, time_transit=, num_samples=, duration=, args=, kwargs=)`, `light_curves/transforms.py:122-199`, with at least one
sample: the light curve is evaluated on the grid with the arguments given to the transform (l.166-167); those given to the call are dropped (l.180).
`jnp.interp` needs one number per grid time, otherwise it raises `ValueError` when the interpolated light curve is called. -/
noncomputable def interpolateArr (tiny : ℝ) (f : LcFun) (period time_transit : ℝ) (num_samples : ℕ) (duration : Option ℝ) (args : List Arr)
    (kwargs : List (String × Arr)) : Except VErr LcFun := do
  let time_grid := timeGrid time_transit period duration num_samples
  let flux_grid ← time_grid.mapM fun t => f t args kwargs
  return fun time _ _ => do
    let time_wrapped := fmod (time - time_transit + 0.5 * period) period + 0.5 * period + time_transit
    let fp ← orErr .value (flux_grid.mapM Arr.toReal)
    return .scalar (interpPeriodic tiny period (time_grid.zip fp) time_wrapped)

/-- `light_curve(orbit, *u)` as a function given to the transforms: one value per body; it has no arguments besides the time,
`light_curves/limb_dark.py:43-65` -/
noncomputable def orbitLcFun (eps : ℝ) (quad : List (ℝ × ℝ)) (u : List ℝ) (r_star : ℝ) (bodies : List (ℝ × (ℝ → Keplerian.V3))) : LcFun :=
  fun time _ _ => .ok (.vec ((limbDarkLightCurve eps quad u r_star (bodies.map fun b => (b.1, b.2 time))).map .scalar))

end Jaxoplanet.LightCurve
