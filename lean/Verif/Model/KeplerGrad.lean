import Verif.Model.OrbitGrad
import Verif.Model.LimbDarkGrad

/-!
# Model of the automatic differentiation of the light curves of Keplerian orbits

`light_curves/limb_dark.py` and `light_curves/emission.py` for an `OrbitalBody`, on numbers with derivatives, see `Model/Autodiff.lean`.
-/

namespace Jaxoplanet.LightCurve
open Real AD AD.Dual Keplerian

/-- the flux that a body takes from the star, `light_curves/limb_dark.py:52-65`; `kep` is the solver of Kepler's equation -/
noncomputable def transitTermD (kep : ℝ → ℝ → ℝ × ℝ) (au eps : ℝ) (strict : Bool) (quad : List (ℝ × ℝ)) (u : List Dual) (o : OrbitalBodyD) (radius time : Dual) : Dual :=
  let p := o.relative_position kep au time
  LimbDark.orbitFluxD eps strict quad u p.x p.y p.z radius o.central.radius

/-- the flux of the body, `light_curves/emission.py:45-55` -/
noncomputable def emissionTermD (kep : ℝ → ℝ → ℝ × ℝ) (au eps : ℝ) (strict : Bool) (quad : List (ℝ × ℝ)) (u : List Dual) (amplitude : Dual) (o : OrbitalBodyD)
    (radius time : Dual) : Dual :=
  let p := o.relative_position kep au time
  let b := Dual.sqrt (p.x.square + p.y.square) / radius
  let r := o.central.radius / radius
  let lc := LimbDark.lightCurveD eps strict quad u b r
  amplitude * (const 1 + Dual.where strict (p.z.v < 0) lc (const 0))

end Jaxoplanet.LightCurve
