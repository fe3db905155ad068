import Verif.Spec.Rotation
import Verif.Model.Autodiff

/-!
# Specification: the derivatives of the Euler angles

`Rotation.from_rotvec(v).as_euler("zyz")` is a differentiable function of `v`, up to multiples of 2π in the first and the third angle, except where the middle
angle is 0 or π (the rotation maps the z axis to itself or to its opposite, and only the sum or the difference of the other two angles is determined).
-/

namespace Jaxoplanet.Starry.Spec
open Real Filter Topology

/-- the z axis -/
def zAxis : V3 := (0, 0, 1)

/-- `asEulerD` computes the angles `asEuler` together with their derivatives, unless the rotation maps the z axis to itself or to its opposite -/
structure DifferentiatesEuler (asEuler : V3 → V3) (asEulerD : AD.Dual × AD.Dual × AD.Dual → AD.Dual × AD.Dual × AD.Dual) : Prop where
  /-- the values -/
  value : ∀ v : AD.Dual × AD.Dual × AD.Dual, ((asEulerD v).1.v, (asEulerD v).2.1.v, (asEulerD v).2.2.v) = asEuler (v.1.v, v.2.1.v, v.2.2.v)
  /-- the derivatives -/
  deriv : ∀ (x y z : ℝ → ℝ) (t dx dy dz : ℝ), HasDerivAt x dx t → HasDerivAt y dy t → HasDerivAt z dz t →
    ∀ (n : V3) (theta : ℝ), normSq n = 1 → (x t, y t, z t) = (n.1 * theta, n.2.1 * theta, n.2.2 * theta) → (rotAxis n theta zAxis).2.2 ^ 2 ≠ 1 →
    ∃ (alpha beta gamma : ℝ → ℝ) (a b c : ℝ), HasDerivAt alpha a t ∧ HasDerivAt beta b t ∧ HasDerivAt gamma c t ∧
      asEulerD (⟨x t, some dx⟩, ⟨y t, some dy⟩, ⟨z t, some dz⟩) = (⟨alpha t, some a⟩, ⟨beta t, some b⟩, ⟨gamma t, some c⟩) ∧
      ∀ᶠ s in 𝓝 t, ∃ k l : ℤ, asEuler (x s, y s, z s) = (alpha s + k * (2 * π), beta s, gamma s + l * (2 * π))

end Jaxoplanet.Starry.Spec
