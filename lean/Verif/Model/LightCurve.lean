import Verif.Model.LimbDark
import Verif.Model.Stack

/-!
# Model of `src/jaxoplanet/light_curves/`: transforms, `vectorize`, limb-darkened and emission light curves

Units are not represented here (times in days, lengths in one common unit); see `Model/Units.lean` for
`quantity_input`.
-/

namespace Jaxoplanet.LightCurve

open Stack

/-! ## `transforms.integrate` -/

/-- `jnp.linspace(a, b, n)` as used at `light_curves/transforms.py:80, 82, 87, 166`. -/
noncomputable def linspace (a b : ℝ) (n : ℕ) : List ℝ :=
  if n ≤ 1 then List.replicate n a
  else (List.range n).map fun i : ℕ => a + (i : ℝ) * ((b - a) / (n - 1))

/-- The indices selected by the slice `[start:-1:2]` on a sequence of length `len`:
Python's `range(start, len - 1, 2)`. Used at `light_curves/transforms.py:80, 88, 89`. -/
def sliceIdx (start len : ℕ) : List ℕ :=
  (List.range ((len - 1 - start + 1) / 2)).map fun i => start + 2 * i

/-- `x[start:-1:2]`; `light_curves/transforms.py:80` -/
def slice (l : List ℝ) (start : ℕ) : List ℝ := (sliceIdx start l.length).filterMap fun i => l[i]?

/-- `x.at[idx].set(v)` for the listed positions; `light_curves/transforms.py:84-89` -/
def setAt (l : List ℝ) (idx : List ℕ) (v : ℝ) : List ℝ :=
  l.mapIdx fun i x => if i ∈ idx then v else x

/-- errors of `integrate`; `light_curves/transforms.py:65-71, 91-93` -/
inductive IErr where
  /-- the exposure time is not a scalar -/
  | nonScalar
  /-- `order` is not 0, 1 or 2 -/
  | order

/-- `num_samples += 1 - num_samples % 2`, `light_curves/transforms.py:74-75` -/
def oddSamples (n : ℕ) : ℕ := n + (1 - n % 2)

/-- The offsets `dt` (before multiplication by the exposure time) and the unnormalised stencil,
`light_curves/transforms.py:76-95`. -/
noncomputable def stencil (order num_samples : ℕ) : Except IErr (List ℝ × List ℝ) :=
  let n := oddSamples num_samples
  let ones := List.replicate n (1 : ℝ)
  match order with
  | 0 => .ok (slice (linspace (-0.5) 0.5 (2 * n + 1)) 1, ones)
  | 1 =>
    let s := ones.map (2 * ·)
    let s := setAt s [0] 1
    let s := setAt s [n - 1] 1
    .ok (linspace (-0.5) 0.5 n, s)
  | 2 =>
    let s := setAt ones (sliceIdx 1 n) 4
    let s := setAt s (sliceIdx 2 n) 2
    .ok (linspace (-0.5) 0.5 n, s)
  | _ => .error .order

/-- `jnpu.dot(stencil, result)`, `light_curves/transforms.py:119` -/
noncomputable def dot (a b : List ℝ) : ℝ := (List.zipWith (· * ·) a b).sum

/-- `integrate(func, exposure_time, order, num_samples)`, `light_curves/transforms.py:26-119`, applied to
a scalar-valued light curve; a light curve with one value per body is integrated componentwise.
`ndim` is `jnpu.ndim(exposure_time)`. -/
noncomputable def integrate (f : ℝ → ℝ) (exposure : Option ℝ) (ndim order num_samples : ℕ) :
    Except IErr (ℝ → ℝ) :=
  match exposure with
  | none => .ok f
  | some e =>
    if ndim ≠ 0 then .error .nonScalar
    else do
      let (dt, s) ← stencil order num_samples
      let dt := dt.map (· * e)
      let s := s.map (· / s.sum)
      return fun time => dot s (dt.map fun d => f (time + d))

/-! ## `transforms.interpolate` -/

/-- `jnp.searchsorted(xp, x, side="right")` on a sorted table: the number of nodes `≤ x`. part of `jnp.interp(..., period=)` as called at `light_curves/transforms.py:186-193` -/
noncomputable def countLe (l : List (ℝ × ℝ)) (x : ℝ) : ℕ :=
  (l.filter fun p => decide (p.1 ≤ x)).length

/-- Linear interpolation in a table sorted by abscissa, as `jnp.interp` computes it; `tiny` is its
threshold for a degenerate cell. part of `jnp.interp(..., period=)` as called at `light_curves/transforms.py:186-193` -/
noncomputable def interpSorted (tiny : ℝ) (l : List (ℝ × ℝ)) (x : ℝ) : ℝ :=
  let i := max 1 (min (countLe l x) (l.length - 1))
  let p0 := l.getD (i - 1) 0
  let p1 := l.getD i 0
  let dx := p1.1 - p0.1
  if |dx| ≤ tiny then p0.2 else p0.2 + (x - p0.1) / dx * (p1.2 - p0.2)

/-- order of the table; part of `jnp.interp(..., period=)` as called at `light_curves/transforms.py:186-193` -/
noncomputable def leFst (p q : ℝ × ℝ) : Bool := decide (p.1 ≤ q.1)

/-- the table reduced modulo the period and sorted; part of `jnp.interp(..., period=)` as called at `light_curves/transforms.py:186-193` -/
noncomputable def wrapped (period : ℝ) (table : List (ℝ × ℝ)) : List (ℝ × ℝ) :=
  (table.map fun p => (fmod p.1 period, p.2)).mergeSort leFst

/-- the wrapped table with the last node repeated one period earlier and the first one period later; part of `jnp.interp(..., period=)` as called at `light_curves/transforms.py:186-193` -/
noncomputable def padded (period : ℝ) (table : List (ℝ × ℝ)) : List (ℝ × ℝ) :=
  let t := wrapped period table
  let first := t.head?.getD 0
  let last := t.getLast?.getD 0
  (last.1 - period, last.2) :: t ++ [(first.1 + period, first.2)]

/-- `jnp.interp(x, xp, fp, period=period)` (the trusted JAX function used at
`light_curves/transforms.py:186-193`; `left`/`right` are ignored when a period is given). -/
noncomputable def interpPeriodic (tiny period : ℝ) (table : List (ℝ × ℝ)) (x : ℝ) : ℝ :=
  interpSorted tiny (padded period table) (fmod x period)

/-- the node times, `light_curves/transforms.py:164-166` -/
noncomputable def timeGrid (time_transit period : ℝ) (duration : Option ℝ) (n : ℕ) : List ℝ :=
  (linspace (-0.5) 0.5 n).map fun s => time_transit + duration.getD period * s

/-- `interpolate(func, period=, time_transit=, num_samples=, duration=)`,
`light_curves/transforms.py:122-199`. -/
noncomputable def interpolate (tiny : ℝ) (f : ℝ → ℝ) (period time_transit : ℝ) (n : ℕ)
    (duration : Option ℝ) (time : ℝ) : ℝ :=
  let grid := timeGrid time_transit period duration n
  let time_wrapped := fmod (time - time_transit + 0.5 * period) period + 0.5 * period + time_transit
  interpPeriodic tiny period (grid.map fun t => (t, f t)) time_wrapped

/-! ## `utils.vectorize` -/

/-- `jax.vmap(inner)` of a function of one array, mapped over the leading axis (trusted JAX function;
`none`: no leading axis). `light_curves/utils.py:42-43` -/
def vmap1 (inner : Arr → Option Arr) : Arr → Option Arr
  | .scalar _ => none
  | .vec l => (l.mapM inner).map .vec

/-- `vectorize(func)(time)`, `light_curves/utils.py:13-47`: one `vmap` for each axis of `time`. -/
def vectorize (f : Arr → Option Arr) (shape : List ℕ) (time : Arr) : Option Arr :=
  (shape.foldl (fun inner _ => vmap1 inner) f) time

/-! ## Light curves of orbits -/

open Classical in
/-- One entry of the flux returned by `light_curves/limb_dark.py:52-65`: `lc` at
`b = sqrt(x² + y²) / r_star`, `r = radius / r_star`, zero unless `z > 0`. -/
noncomputable def limbDarkTerm (eps : ℝ) (quad : List (ℝ × ℝ)) (u : List ℝ) (r_star radius : ℝ)
    (p : Keplerian.V3) : ℝ :=
  let b := √(p.x ^ 2 + p.y ^ 2) / r_star
  let r := radius / r_star
  if p.z > 0 then LimbDark.lightCurve eps quad u b r else 0

/-- `light_curve(orbit, *u)(time)` for scalar time, `light_curves/limb_dark.py:17-67`: one entry per
body, each given by its radius and its relative position at that time. -/
noncomputable def limbDarkLightCurve (eps : ℝ) (quad : List (ℝ × ℝ)) (u : List ℝ) (r_star : ℝ)
    (bodies : List (ℝ × Keplerian.V3)) : List ℝ :=
  bodies.map fun b => limbDarkTerm eps quad u r_star b.1 b.2

/-- a body of the emission light curve: radius, relative position, limb darkening and amplitude of its
surface; `light_curves/emission.py:21-55` -/
structure EmissionBody where
  radius : ℝ
  pos : Keplerian.V3
  u : List ℝ
  amplitude : ℝ

open Classical in
/-- `light_curves/emission.py:45-55`: flux of one body, hidden while behind the star. -/
noncomputable def emissionTerm (eps : ℝ) (quad : List (ℝ × ℝ)) (r_star : ℝ) (e : EmissionBody) : ℝ :=
  let b := √(e.pos.x ^ 2 + e.pos.y ^ 2) / e.radius
  let r := r_star / e.radius
  e.amplitude * (1 + if e.pos.z < 0 then LimbDark.lightCurve eps quad e.u b r else 0)

/-- `light_curves/emission.py:15-59`: the star's flux followed by that of each body. -/
noncomputable def emissionLightCurve (eps : ℝ) (quad : List (ℝ × ℝ)) (u_star : List ℝ) (r_star : ℝ)
    (bodies : List EmissionBody) : List ℝ :=
  ((limbDarkLightCurve eps quad u_star r_star (bodies.map fun e => (e.radius, e.pos))).sum + 1) ::
    bodies.map (emissionTerm eps quad r_star)

end Jaxoplanet.LightCurve
