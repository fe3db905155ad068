import Verif.Model.KeplerFloat

/-!
# The derivative rule of `src/jaxoplanet/core/kepler.py` in floating-point arithmetic

`core/kepler.py:59-79`, with a rounding error in every operation, as in `Model/KeplerFloat.lean`.  Integer powers are products;
`x ** 1.5` is any library function accurate to `u`.
-/

namespace Jaxoplanet.KeplerFloat

open Real

/-- A floating-point run of the tangent part of the derivative rule, `core/kepler.py:65-79`. -/
structure TangentRun (u sinf cosf e M_dot e_dot : ℝ) where
  ecosf : ℝ
  hecosf : Rnd u (e * cosf) ecosf
  e2 : ℝ
  he2 : Rnd u (e * e) e2
  ome2 : ℝ
  home2 : Rnd u (1 - e2) ome2
  p1 : ℝ
  hp1 : Rnd u (1 + ecosf) p1
  p2 : ℝ
  hp2 : Rnd u (p1 * p1) p2
  x1 : ℝ
  hx1 : Rnd u (M_dot * p2) x1
  q : ℝ
  hq : Rnd u (ome2 ^ (1.5 : ℝ)) q
  x2 : ℝ
  hx2 : Rnd u (x1 / q) x2
  y1 : ℝ
  hy1 : Rnd u (2 + ecosf) y1
  y2 : ℝ
  hy2 : Rnd u (e_dot * y1) y2
  y3 : ℝ
  hy3 : Rnd u (y2 * sinf) y3
  y4 : ℝ
  hy4 : Rnd u (y3 / ome2) y4
  f_dot : ℝ
  hf_dot : Rnd u (x2 + y4) f_dot
  out1 : ℝ
  hout1 : Rnd u (cosf * f_dot) out1
  out2 : ℝ
  hout2 : Rnd u (-sinf * f_dot) out2

/-- A floating-point run of the whole rule, `core/kepler.py:59-79`: the primal outputs are those of a run of `kepler`. -/
structure JvpRun (u M e M_dot e_dot : ℝ) where
  primal : KeplerRun u M e
  tangent : TangentRun u primal.result.1 primal.result.2 e M_dot e_dot

/-- the tangents that a run returns, `core/kepler.py:79` -/
def JvpRun.tangents {u M e M_dot e_dot : ℝ} (R : JvpRun u M e M_dot e_dot) : ℝ × ℝ := (R.tangent.out1, R.tangent.out2)

end Jaxoplanet.KeplerFloat
