import Mathlib.Analysis.SpecialFunctions.Complex.Arg
import Mathlib.Analysis.SpecialFunctions.Pow.Real

/-!
# Numerical primitives used by the Python code, over exact reals

The Python code calls NumPy/JAX functions on floating point arrays.  The model uses the
corresponding functions on `ℝ`.  Rounding, NaN and infinities are not modelled.
-/

namespace Jaxoplanet

/-- `jnp.arctan2 y x` (and `a % b`, `jnp.cbrt` below): principal value of the angle of the point
`(x, y)`, in `(-π, π]`, with `arctan2 0 0 = 0` as in NumPy for positive zeros.
Used e.g. at `core/limb_dark.py:108`, `orbits/keplerian.py:325-328, 373-383`.
Simplification: IEEE signed zeros are not distinguished. -/
noncomputable def arctan2 (y x : ℝ) : ℝ := Complex.arg ⟨x, y⟩

/-- `a % b` / `jnp.mod a b` on reals: floored remainder.
Used at `core/kepler.py:31`, `orbits/transit.py:112`, `light_curves/transforms.py:182`. -/
noncomputable def fmod (a b : ℝ) : ℝ := a - b * ⌊a / b⌋

/-- `jnp.cbrt`: real cube root, odd.  Used at `core/kepler.py:91`, `orbits/keplerian.py:292`. -/
noncomputable def cbrt (x : ℝ) : ℝ :=
  if 0 ≤ x then x ^ (1 / 3 : ℝ) else -((-x) ^ (1 / 3 : ℝ))

end Jaxoplanet
