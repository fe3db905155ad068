import Verif.Model.Keplerian

/-!
# Model of `src/jaxoplanet/orbits/transit.py` and `src/jaxoplanet/orbits/ttv.py`

Scalar (one planet) orbits in days and stellar radii; several planets are lists.
-/

namespace Jaxoplanet.Transit

open Real Keplerian

/-- Fields of `TransitOrbit`, `orbits/transit.py:37-42`. -/
structure TransitOrbit where
  period : ℝ
  speed : ℝ
  duration : ℝ
  time_transit : ℝ
  impact_param : ℝ
  radius_ratio : ℝ

/-- `TransitOrbit.__init__`, `orbits/transit.py:44-90`. -/
noncomputable def TransitOrbit.init (period : ℝ)
    (duration speed time_transit impact_param radius_ratio : Option ℝ) :
    Except PyErr TransitOrbit :=
  let time_transit := time_transit.getD 0
  let impact_param := impact_param.getD 0
  let radius_ratio := radius_ratio.getD 0
  -- l.86
  let x2 := (1 + radius_ratio) ^ 2 - impact_param ^ 2
  match duration, speed with
  | none, none => .error (.valueError "Either 'speed' or 'duration' must be provided")
  | none, some v =>
    .ok { period, speed := v, duration := 2 * √(max 0 x2) / v, time_transit, impact_param,
          radius_ratio }
  | some d, _ =>
    .ok { period, speed := 2 * √(max 0 x2) / d, duration := d, time_transit, impact_param,
          radius_ratio }

/-- the folded time `dt` of `orbits/transit.py:110-112` -/
noncomputable def TransitOrbit.fold (o : TransitOrbit) (t : ℝ) : ℝ :=
  let half_period := 0.5 * o.period
  let ref_time := o.time_transit - half_period
  fmod (t - ref_time) o.period - half_period

open Classical in
/-- `TransitOrbit.relative_position`, `orbits/transit.py:104-119`; the parallax is ignored (l.108). -/
noncomputable def TransitOrbit.relative_position (o : TransitOrbit) (t : ℝ) : V3 :=
  let dt := o.fold t
  let m := |dt| < 0.5 * o.duration
  ⟨o.speed * dt, o.impact_param, if m then 1 else -1⟩

/-! ## Transit timing variations -/

open Classical in
/-- `_compute_linear_ephemeris_single`, `orbits/ttv.py:18-27`: `(intercept, slope, ttvs)`.
`jnp.linalg.solve` of the 2×2 normal equations is modelled by Cramer's rule; a singular matrix
(where JAX returns NaN/inf) and arrays of different lengths (a shape error) give `none`. -/
noncomputable def linearEphemeris (tt inds : List ℝ) : Option (ℝ × ℝ × List ℝ) :=
  let n : ℝ := tt.length
  let s1 := inds.sum
  let s2 := (inds.map (· ^ 2)).sum
  let r1 := tt.sum
  let r2 := (List.zipWith (· * ·) inds tt).sum
  let det := n * s2 - s1 * s1
  if inds.length ≠ tt.length ∨ det = 0 then none
  else
    let intercept := (r1 * s2 - s1 * r2) / det
    let slope := (n * r2 - s1 * r1) / det
    some (intercept, slope, List.zipWith (fun t i => t - (intercept + slope * i)) tt inds)

/-- `midpoints`, `orbits/ttv.py:33`: `0.5 * (tt[1:] + tt[:-1])`. -/
noncomputable def midpoints (tt : List ℝ) : List ℝ :=
  List.zipWith (fun b a => 0.5 * (b + a)) tt.tail tt.dropLast

/-- `bin_edges` of `_compute_bin_edges_values_single`, `orbits/ttv.py:30-40`, for a non-empty list
(`head`/`last` are `tt[0]`/`tt[-1]`). -/
noncomputable def binEdges (tt : List ℝ) (period : ℝ) : List ℝ :=
  [tt.headD 0 - 0.5 * period] ++ midpoints tt ++ [tt.getLastD 0 + 0.5 * period]

/-- `bin_values`, `orbits/ttv.py:41`. -/
def binValues (tt : List ℝ) : List ℝ := [tt.headD 0] ++ tt ++ [tt.getLastD 0]

open Classical in
/-- `jnp.searchsorted(edges, t)` (side "left") for sorted edges: the number of edges below `t`. trusted `jnp.searchsorted`, called at `orbits/ttv.py:50` -/
noncomputable def searchsorted (edges : List ℝ) (t : ℝ) : ℕ := edges.countP (fun e => e < t)

/-- `_process_planet_dt_single`, `orbits/ttv.py:45-51` (out-of-range indices cannot occur). -/
noncomputable def processDt (edges values : List ℝ) (t : ℝ) : ℝ :=
  values.getD (searchsorted edges t) 0

/-- NumPy broadcasting of a per-planet parameter: a single value is shared. `orbits/ttv.py:51` -/
def bget (l : List ℝ) (i : ℕ) : Option ℝ :=
  match l with
  | [x] => some x
  | l => l[i]?

/-- Fields of `TTVOrbit`, `orbits/ttv.py:89-100`, plus the per-planet base parameters `period` and
`time_transit`. -/
structure TTVOrbit where
  transit_times : List (List ℝ)
  transit_inds : List (List ℝ)
  ttvs : List (List ℝ)
  t0 : List ℝ
  ttv_period : List ℝ
  period : List ℝ
  time_transit : List ℝ
  bins : List (List ℝ × List ℝ)

/-- `jnp.arange(n)` as reals; `orbits/ttv.py:141, 193` -/
def arange (n : ℕ) : List ℝ := (List.range n).map (fun k => (k : ℝ))

/-- mean of an array; `orbits/ttv.py:185` -/
noncomputable def mean (l : List ℝ) : ℝ := l.sum / l.length

/-- Case "transit_times", `orbits/ttv.py:146-156`.  Errors: arrays whose fit is undefined are
reported as `uninitialised` here (JAX would continue with NaN). -/
noncomputable def fitAll (tts inds : List (List ℝ)) :
    Except PyErr (List (ℝ × ℝ × List ℝ)) :=
  (tts.zip inds).mapM fun x => match linearEphemeris x.1 x.2 with
    | none => .error .uninitialised
    | some r => .ok r

/-- One planet's transit times in the "ttvs" case, `orbits/ttv.py:199-215`; `k` is the planet's
number.  `.item()` on an array of several elements is a `ValueError`. -/
noncomputable def ttvTimes (t0 period : List ℝ) (k : ℕ) (ttv inds : List ℝ) :
    Except PyErr (List ℝ) :=
  if t0.length > 1 then
    -- JAX clamps an out-of-range static index
    match t0[min k (t0.length - 1)]?, period[min k (period.length - 1)]? with
    | some a, some p => .ok (List.zipWith (fun i x => a + p * i + x) inds ttv)
    | _, _ => .error (.valueError "index out of range")
  else
    match t0, period with
    | [a], [p] => .ok (List.zipWith (fun i x => a + p * i + x) inds ttv)
    | _, _ => .error (.valueError "can only convert an array of size 1 to a Python scalar")

/-- bins of all planets, `orbits/ttv.py:226-236` (`zip(..., strict=False)` truncates). -/
noncomputable def allBins (tts : List (List ℝ)) (period : List ℝ) : List (List ℝ × List ℝ) :=
  (tts.zip period).map fun x => (binEdges x.1 x.2, binValues x.1)

/-- `TTVOrbit.__init__`, `orbits/ttv.py:102-236`, without the base-class shape parameters
(duration, speed, impact parameter, radius ratio), which are handed to `TransitOrbit.init`
unchanged (l.217-224).  `period` and `time_transit` are `atleast_1d` arrays. -/
noncomputable def TTVOrbit.init (period time_transit : Option (List ℝ))
    (transit_times transit_inds ttvs : Option (List (List ℝ))) (delta_log_period : Option ℝ) :
    Except PyErr TTVOrbit :=
  match ttvs, transit_times with
  | some _, some _ => .error (.valueError "Supply either ttvs or transit_times, not both.")
  | none, none => .error (.valueError "You must supply either transit_times or ttvs.")
  | none, some tts => do
    let inds := transit_inds.getD (tts.map fun tt => arange tt.length)
    let fits ← fitAll tts inds
    let t0 := fits.map (·.1)
    let ttv_period := fits.map (·.2.1)
    -- l.157-170
    let period := match period, delta_log_period with
      | some p, _ => p
      | none, some d => ttv_period.map fun p => exp (log p + d)
      | none, none => ttv_period
    return { transit_times := tts, transit_inds := inds, ttvs := fits.map (·.2.2), t0, ttv_period,
             period, time_transit := time_transit.getD t0, bins := allBins tts ttv_period }
  | some ttvs, none => do
    match period with
    | none => .error (.valueError "When supplying ttvs, period must be provided.")
    | some period =>
      let t0 := time_transit.getD [0]
      -- l.182-188
      let ttvs := ttvs.map fun ttv => ttv.map (· - mean ttv)
      let inds := transit_inds.getD (ttvs.map fun ttv => arange ttv.length)
      let tts ← (ttvs.zip inds).zipIdx.mapM fun x => ttvTimes t0 period x.2 x.1.1 x.1.2
      return { transit_times := tts, transit_inds := inds, ttvs, t0, ttv_period := period,
               period, time_transit := t0, bins := allBins tts period }

/-- `_warp_times`, `orbits/ttv.py:238-259`, planet `k`, scalar time: `t - (dt - t0)`, where the
arrays `dt` and `t0` over the planets are broadcast against each other. -/
noncomputable def TTVOrbit.warpTimes (o : TTVOrbit) (k : ℕ) (t : ℝ) : Option ℝ :=
  match bget (o.bins.map fun b => processDt b.1 b.2 t) k, bget o.t0 k with
  | some dt, some t0 => some (t - (dt - t0))
  | _, _ => none

/-- `TTVOrbit.relative_position`, `orbits/ttv.py:261-272`: the base position at the warped time.
`base` is planet `k`'s base orbit, built from the shape parameters. -/
noncomputable def TTVOrbit.relative_position (o : TTVOrbit) (k : ℕ) (base : TransitOrbit) (t : ℝ) :
    Option V3 :=
  (o.warpTimes k t).map base.relative_position

/-- Planet `k`'s base orbit (`super().__init__`, `orbits/ttv.py:217-224`). -/
noncomputable def TTVOrbit.base (o : TTVOrbit) (k : ℕ)
    (duration speed impact_param radius_ratio : Option ℝ) : Except PyErr TransitOrbit :=
  match bget o.period k, bget o.time_transit k with
  | some p, some tt => TransitOrbit.init p duration speed (some tt) impact_param radius_ratio
  | _, _ => .error (.valueError "Incompatible shapes for broadcasting")

open Classical in
/-- `compute_expected_transit_times`, `orbits/ttv.py:291-319`, one planet. -/
noncomputable def expectedTransitTimes (min_time max_time p t0 : ℝ) : List ℝ :=
  let i_min : ℤ := ⌈(min_time - t0) / p⌉
  let i_max : ℤ := ⌊(max_time - t0) / p⌋
  -- `jnp.arange(i_min, i_max + 1)`
  let indices : List ℤ := (List.range (i_max + 1 - i_min).toNat).map fun k : ℕ => i_min + k
  let times := indices.map fun i : ℤ => t0 + p * (i : ℝ)
  times.filter fun t => min_time ≤ t ∧ t ≤ max_time

end Jaxoplanet.Transit
