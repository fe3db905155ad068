import Verif.Model.LightCurve
import Verif.Model.Autodiff

/-!
# Model of the automatic differentiation of `light_curves/transforms.py`

The same programs as in `Model/LightCurve.lean`, on numbers with derivatives (`Model/Autodiff.lean`), for a light curve with one value: `f` is the
differentiated light curve function. Integers (`jnp.searchsorted`, the order in which a table is sorted) carry no derivative.
-/

namespace Jaxoplanet.LightCurve
open Real AD AD.Dual

/-- `integrate(func, exposure_time, order, num_samples)`, `light_curves/transforms.py:27-118`; the stencil is constant -/
noncomputable def integrateD (f : Dual → Dual) (exposure : Option Dual) (ndim order num_samples : ℕ) : Except IErr (Dual → Dual) :=
  match exposure with
  | none => .ok f
  | some e =>
    if ndim ≠ 0 then .error .nonScalar
    else do
      let (dt, s) ← stencil order num_samples
      let dt := dt.map fun x => const x * e
      let s := s.map (· / s.sum)
      return fun time => Dual.sum (List.zipWith (fun w r => const w * r) s (dt.map fun d => f (time + d)))

/-- `jnp.searchsorted(xp, x, side="right")`; part of `jnp.interp`, called at `light_curves/transforms.py:186-193` -/
noncomputable def countLeD (l : List (Dual × Dual)) (x : Dual) : ℕ := (l.filter fun p => decide (p.1.v ≤ x.v)).length

/-- `jnp.interp` in a sorted table: both branches of its guard for short cells are differentiated, and the divisor is guarded as well
(`where(dx0, fp[i - 1], fp[i - 1] + (delta / where(dx0, 1, dx)) * df)`); called at `light_curves/transforms.py:186-193` -/
noncomputable def interpSortedD (tiny : ℝ) (strict : Bool) (l : List (Dual × Dual)) (x : Dual) : Dual :=
  let i := max 1 (min (countLeD l x) (l.length - 1))
  let p0 := l.getD (i - 1) (const 0, const 0)
  let p1 := l.getD i (const 0, const 0)
  let dx := p1.1 - p0.1
  Dual.where strict (|dx.v| ≤ tiny) p0.2 (p0.2 + (x - p0.1) / Dual.where strict (|dx.v| ≤ tiny) (const 1) dx * (p1.2 - p0.2))

/-- the table reduced modulo the period and sorted (`lax.sort_key_val`: the derivatives move with the numbers); part of `jnp.interp(..., period=)`, called at
`light_curves/transforms.py:186-193` -/
noncomputable def wrappedD (period : Dual) (table : List (Dual × Dual)) : List (Dual × Dual) :=
  (table.map fun p => (Dual.mod p.1 period, p.2)).mergeSort fun p q => decide (p.1.v ≤ q.1.v)

/-- the wrapped table with the last node repeated one period earlier and the first one period later; part of `jnp.interp(..., period=)`, called at
`light_curves/transforms.py:186-193` -/
noncomputable def paddedD (period : Dual) (table : List (Dual × Dual)) : List (Dual × Dual) :=
  let t := wrappedD period table
  let first := t.head?.getD (const 0, const 0)
  let last := t.getLast?.getD (const 0, const 0)
  (last.1 - period, last.2) :: t ++ [(first.1 + period, first.2)]

/-- `jnp.interp(x, xp, fp, period=period)`, called at `light_curves/transforms.py:186-193` -/
noncomputable def interpPeriodicD (tiny : ℝ) (strict : Bool) (period : Dual) (table : List (Dual × Dual)) (x : Dual) : Dual :=
  interpSortedD tiny strict (paddedD period.abs table) (Dual.mod x period.abs)

/-- the node times, `light_curves/transforms.py:164-166` -/
noncomputable def timeGridD (time_transit period : Dual) (duration : Option Dual) (n : ℕ) : List Dual :=
  (linspace (-0.5) 0.5 n).map fun s => time_transit + duration.getD period * const s

/-- `interpolate(func, period=, time_transit=, num_samples=, duration=)`, `light_curves/transforms.py:122-199` -/
noncomputable def interpolateD (tiny : ℝ) (strict : Bool) (f : Dual → Dual) (period time_transit : Dual) (n : ℕ) (duration : Option Dual) (time : Dual) : Dual :=
  let grid := timeGridD time_transit period duration n
  let time_wrapped := Dual.mod (time - time_transit + const 0.5 * period) period + const 0.5 * period + time_transit
  interpPeriodicD tiny strict period (grid.map fun t => (t, f t)) time_wrapped

end Jaxoplanet.LightCurve
