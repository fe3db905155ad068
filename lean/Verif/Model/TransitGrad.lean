import Verif.Model.LimbDarkGrad
import Verif.Model.Transit

/-!
# Model of the automatic differentiation of `src/jaxoplanet/orbits/transit.py`

The same program as the first part of `Model/Transit.lean`, on numbers with derivatives (`Model/Autodiff.lean`).
-/

namespace Jaxoplanet.Transit
open Real AD AD.Dual

/-- Fields of `TransitOrbit`, `orbits/transit.py:37-42` -/
structure TransitOrbitD where
  period : Dual
  speed : Dual
  duration : Dual
  time_transit : Dual
  impact_param : Dual
  radius_ratio : Dual

/-- `TransitOrbit.__init__`, `orbits/transit.py:44-90` -/
noncomputable def TransitOrbitD.init (period : Dual) (duration speed time_transit impact_param radius_ratio : Option Dual) :
    Except PyErr TransitOrbitD :=
  let time_transit := time_transit.getD (const 0)
  let impact_param := impact_param.getD (const 0)
  let radius_ratio := radius_ratio.getD (const 0)
  let x2 := (const 1 + radius_ratio).square - impact_param.square
  match duration, speed with
  | none, none => .error (.valueError "Either 'speed' or 'duration' must be provided")
  | none, some v =>
    .ok { period, speed := v, duration := const 2 * (Dual.max (const 0) x2).sqrt / v, time_transit, impact_param, radius_ratio }
  | some d, _ =>
    .ok { period, speed := const 2 * (Dual.max (const 0) x2).sqrt / d, duration := d, time_transit, impact_param, radius_ratio }

/-- the folded time `dt`, `orbits/transit.py:110-112` -/
noncomputable def TransitOrbitD.fold (o : TransitOrbitD) (t : Dual) : Dual :=
  let half_period := const 0.5 * o.period
  let ref_time := o.time_transit - half_period
  Dual.mod (t - ref_time) o.period - half_period

open Classical in
/-- `light_curve(orbit, *u)(t)`, `light_curves/limb_dark.py:52-65`, with `TransitOrbit.relative_position`, `orbits/transit.py:104-119`
(`m` is a boolean, so `z` is a constant for the differentiation), `radius` and `central_radius`, `orbits/transit.py:96-102` -/
noncomputable def TransitOrbitD.flux (eps : ℝ) (strict : Bool) (quad : List (ℝ × ℝ)) (u : List Dual) (o : TransitOrbitD) (t : Dual) : Dual :=
  let dt := o.fold t
  let x := o.speed * dt
  let y := o.impact_param
  let m := |dt.v| < 0.5 * o.duration.v
  let z := const (if m then 1 else -1)
  LimbDark.orbitFluxD eps strict quad u x y z o.radius_ratio (const 1)

end Jaxoplanet.Transit
