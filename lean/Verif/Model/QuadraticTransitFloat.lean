import Verif.Model.OrbitFloat
import Verif.Model.QuadraticFloat

/-!
# Transit light curves of quadratically limb-darkened stars in floating-point arithmetic

`light_curve(orbit, u1, u2)(time)` (`src/jaxoplanet/light_curves/limb_dark.py`) for one body, with a rounding error of relative size at
most `u` in every operation: the position is a run of `Model/OrbitFloat.lean`, the light curve a run of `Model/QuadraticFloat.lean`.
The simplifications are those of these two files.
-/

namespace Jaxoplanet.OrbitFloat

open Real KeplerFloat Keplerian

open Classical in
/-- A floating-point run of `light_curve(orbit, u1, u2, order=order)(time)` for one body, `light_curves/limb_dark.py:42-65`; `radius` is the
radius of the body, `o.central.radius` that of the star, `table` the table of roots and weights of that order -/
structure QuadraticTransitRun (u eps u1 u2 : ℝ) (table : List (ℝ × ℝ)) (o : OrbitalBody) (radius t : ℝ) where
  pos : PositionRun u o t
  xx : ℝ
  hxx : Rnd u (pos.X * pos.X) xx
  yy : ℝ
  hyy : Rnd u (pos.Y * pos.Y) yy
  sum : ℝ
  hsum : Rnd u (xx + yy) sum
  root : ℝ
  hroot : Rnd u √sum root
  b : ℝ
  hb : Rnd u (root / o.central.radius) b
  r : ℝ
  hr : Rnd u (radius / o.central.radius) r
  lc : LimbDarkFloat.QuadraticRun u eps u1 u2 b r table
  out : ℝ
  hout : out = if 0 < pos.Z then lc.out else 0

end Jaxoplanet.OrbitFloat
