import Verif.Model.InclGrad
import Verif.Model.OrbitGrad
import Verif.Model.SurfaceSystem

/-!
# Model of the automatic differentiation of the light curve of a system of surfaces

`light_curve(system, order)(time)` of `starry/light_curves.py` (`Model/SurfaceSystem.lean`) on numbers with derivatives, see `Model/Autodiff.lean`.
`SurfaceSystem.surface_vmap` and `System.body_vmap` apply a function to every body (`surfaceVmap_rows`, `bodyVmap_rows`); here the function is mapped over a list.
-/

namespace Jaxoplanet.Starry
open Real AD AD.Dual

/-- the fields of `Surface`, `starry/surface.py:57-87` -/
structure SurfaceI where
  y : DictD (ℕ × ℤ)
  inc : Option Dual
  obl : Option Dual
  u : List Dual
  period : Option Dual
  amplitude : Dual
  phase : Dual
  radius : Dual

/-- `Surface.rotational_phase(time)`, `starry/surface.py:229-241` -/
noncomputable def SurfaceI.rotationalPhase (s : SurfaceI) (time : Dual) : Option Dual :=
  match s.period with
  | none => none
  | some p => some (const (2 * π) * time / p + s.phase)

/-- an orbiting body with its radius and its surface: the elements of `SurfaceSystem.bodies` and `SurfaceSystem.body_surfaces`, `starry/orbit.py:13-45` -/
structure SurfaceBodyD where
  orbit : Keplerian.OrbitalBodyD
  radius : Option Dual
  surface : Option SurfaceI

/-- the binding of a `Body` to its central in `SurfaceSystem.__init__`, `starry/orbit.py:33-45` -/
noncomputable def bindSurfaceBodyD (G : ℝ) (c : Keplerian.CentralD) (b : Keplerian.Body Dual × Option SurfaceI) : Except PyErr SurfaceBodyD := do
  let o ← Keplerian.mkOrbitalBodyD G c b.1
  return ⟨o, b.1.radius, b.2⟩

/-- a light curve of one surface: `surface_light_curve(surface, r, x, y, z, theta)`; the `surface_observable` argument of `starry/system_observable.py:13` -/
abbrev SurfaceObservableD := SurfaceI → Option Dual → Dual → Dual → Dual → Option Dual → Except PyErr Dual

/-- one entry of `central_bodies_observable(...)`, `starry/system_observable.py:21-23, 55-65`: the central occulted by the body -/
noncomputable def centralRowD (obs : SurfaceObservableD) (kep : ℝ → ℝ → ℝ × ℝ) (au : ℝ) (central_radius : Dual) (cs : SurfaceI) (theta : Option Dual) (time : Dual)
    (b : SurfaceBodyD) : Except PyErr Dual :=
  let p := b.orbit.relative_position kep au time
  match b.radius with
  | none => .error (.typeError "unsupported operand type(s) for /: 'NoneType'")
  | some radius => obs cs (some (radius / central_radius)) (p.x / central_radius) (p.y / central_radius) (p.z / central_radius) theta

/-- `compute_body_observable(surface, radius, x, y, z, time)`, `starry/system_observable.py:27-40`, with its arguments of l.71-77: the body occulted by the central -/
noncomputable def bodyRowD (obs : SurfaceObservableD) (kep : ℝ → ℝ → ℝ × ℝ) (au : ℝ) (central_radius : Dual) (time : Dual) (b : SurfaceBodyD) : Except PyErr Dual :=
  let p := b.orbit.relative_position kep au time
  match b.surface, b.radius with
  | none, _ => .ok (const 0)
  | some _, none => .error (.typeError "unsupported operand type(s) for /: 'NoneType'")
  | some s, some radius => obs s (some (central_radius / radius)) (-p.x / radius) (-p.y / radius) (-p.z / radius) (s.rotationalPhase time)

/-- `system_observable(surface_observable, **kwargs)(system)(time)`, `starry/system_observable.py:13-83`, for a system with a central surface. `obs0` is
`surface_observable`, `obs` is `partial(surface_observable, **kwargs)`. -/
noncomputable def systemObservableD (obs0 obs : SurfaceObservableD) (kep : ℝ → ℝ → ℝ × ℝ) (au : ℝ) (central_radius : Dual) (cs : SurfaceI)
    (bodies : List SurfaceBodyD) (time : Dual) : Except PyErr (List Dual) := do
  let theta := cs.rotationalPhase time
  let phase ← obs0 cs none (const 0) (const 0) (const 0) theta
  if bodies.length > 0 then do
    let lc ← bodies.mapM (centralRowD obs kep au central_radius cs theta time)
    let central := if bodies.length > 1 then [Dual.sum lc - phase * const ((bodies.length : ℝ) - 1)] else lc
    let rows ← bodies.mapM (bodyRowD obs kep au central_radius time)
    return central ++ rows
  else return [phase]

/-- `surface_light_curve(surface, ..., order)` of a `Surface`, `starry/light_curves.py:17-140` -/
noncomputable def SurfaceI.lightCurve (eps : ℝ) (strict : Bool) (quad : ℕ → List (ℝ × ℝ)) (asEuler : ℝ × ℝ × ℝ → ℝ × ℝ × ℝ)
    (asEulerD : Dual × Dual × Dual → Dual × Dual × Dual) (order : ℕ) : SurfaceObservableD := fun s =>
  surfaceLightCurveI eps strict quad asEuler asEulerD order s.y s.inc s.obl s.u s.amplitude

/-- `light_curve(SurfaceSystem(central, cs, bodies), order)(time)`, `starry/light_curves.py:143-144`; the default order is 20, l.24 -/
noncomputable def systemLightCurveD (eps : ℝ) (strict : Bool) (quad : ℕ → List (ℝ × ℝ)) (asEuler : ℝ × ℝ × ℝ → ℝ × ℝ × ℝ)
    (asEulerD : Dual × Dual × Dual → Dual × Dual × Dual) (order : ℕ) (G : ℝ) (kep : ℝ → ℝ → ℝ × ℝ) (au : ℝ) (central : Keplerian.CentralD) (cs : SurfaceI)
    (bodies : List (Keplerian.Body Dual × Option SurfaceI)) (time : Dual) : Except PyErr (List Dual) := do
  let bs ← bodies.mapM (bindSurfaceBodyD G central)
  systemObservableD (SurfaceI.lightCurve eps strict quad asEuler asEulerD 20) (SurfaceI.lightCurve eps strict quad asEuler asEulerD order) kep au central.radius cs
    bs time

end Jaxoplanet.Starry
