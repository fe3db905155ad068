import Verif.Model.LightCurve
import Verif.Model.QuadraticFloat

/-!
# Exposure time integration in floating-point arithmetic

The program `integrate` (`src/jaxoplanet/light_curves/transforms.py:26-119`) with a rounding error of relative size at most `u` in
every operation.  Simplifications: underflow and overflow are not represented; the offsets `jnp.linspace(-0.5, 0.5, ...)` are taken
to be within `2 u` of their values (its nodes are combinations `-0.5 (1 - s) + 0.5 s` with `s` a rounded quotient); the stencil before
its normalisation consists of the integers 1, 2 and 4, which are exact.
-/

namespace Jaxoplanet.ExposureFloat

open KeplerFloat LightCurve LimbDarkFloat

/-- A floating-point run of one sample, `light_curves/transforms.py:94-95, 116-119`: the offset `d` times the exposure time, the time of
the sample, its flux, and the weight `s / total`.  `eval x v` says that the light curve that is integrated can return `v` at the
time `x`. -/
structure SampleRun (u e t total : ℝ) (eval : ℝ → ℝ → Prop) (d s weight flux : ℝ) where
  dF : ℝ
  hdF : |dF - d| ≤ 2 * u
  de : ℝ
  hde : Rnd u (dF * e) de
  time : ℝ
  htime : Rnd u (t + de) time
  hflux : eval time flux
  hweight : Rnd u (s / total) weight

/-- A floating-point run of `integrate(func, exposure_time, order, num_samples)(time)` for the scalar exposure time `e`,
`light_curves/transforms.py:73-119`; `dt` and `s` are the offsets and the stencil of l.76-93, `samples` the weights and fluxes.  The
sum `jnp.sum(stencil)`, l.95, and the dot product of l.119 may be evaluated in any order. -/
structure ExposureRun (u e t : ℝ) (eval : ℝ → ℝ → Prop) (dt s : List ℝ) where
  total : ℝ
  htotal : FloatSum u s total
  samples : List (ℝ × ℝ)
  hsamples : List.Forall₂ (fun ds wv => Nonempty (SampleRun u e t total eval ds.1 ds.2 wv.1 wv.2)) (dt.zip s) samples
  out : ℝ
  hout : FloatDot u samples out

end Jaxoplanet.ExposureFloat
