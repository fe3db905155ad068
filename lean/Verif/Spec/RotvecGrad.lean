import Verif.Spec.Doppler
import Verif.Model.Autodiff

/-!
# Specification: the derivatives of a rotation given by a rotation vector

`Rotation.from_rotvec(v).apply(p)` is a differentiable function of `v` and `p`, except at `v = 0`, where the length of `v` is not differentiable.
-/

namespace Jaxoplanet.Starry.Spec

/-- `applyRotvecD` computes the rotated point `applyRotvec` together with its derivatives, unless the rotation vector is zero -/
structure DifferentiatesRotvec (applyRotvec : V3 → V3 → V3)
    (applyRotvecD : AD.Dual × AD.Dual × AD.Dual → AD.Dual × AD.Dual × AD.Dual → AD.Dual × AD.Dual × AD.Dual) : Prop where
  /-- the values -/
  value : ∀ v p : AD.Dual × AD.Dual × AD.Dual, ((applyRotvecD v p).1.v, (applyRotvecD v p).2.1.v, (applyRotvecD v p).2.2.v) =
    applyRotvec (v.1.v, v.2.1.v, v.2.2.v) (p.1.v, p.2.1.v, p.2.2.v)
  /-- the derivatives -/
  deriv : ∀ (u v w x y z : ℝ → ℝ) (t du dv dw dx dy dz : ℝ), HasDerivAt u du t → HasDerivAt v dv t → HasDerivAt w dw t → HasDerivAt x dx t → HasDerivAt y dy t →
    HasDerivAt z dz t → (u t, v t, w t) ≠ (0, 0, 0) →
    ∃ a b c : ℝ, HasDerivAt (fun s => (applyRotvec (u s, v s, w s) (x s, y s, z s)).1) a t ∧ HasDerivAt (fun s => (applyRotvec (u s, v s, w s) (x s, y s, z s)).2.1) b t ∧
      HasDerivAt (fun s => (applyRotvec (u s, v s, w s) (x s, y s, z s)).2.2) c t ∧
      ∀ q, q = applyRotvecD (⟨u t, some du⟩, ⟨v t, some dv⟩, ⟨w t, some dw⟩) (⟨x t, some dx⟩, ⟨y t, some dy⟩, ⟨z t, some dz⟩) →
        q.1.d = some a ∧ q.2.1.d = some b ∧ q.2.2.d = some c

end Jaxoplanet.Starry.Spec
