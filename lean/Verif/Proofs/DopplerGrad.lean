import Verif.Model.DopplerGrad
import Verif.Proofs.Doppler
import Verif.Proofs.InclGrad

/-!
# Proofs about the derivatives of the radial velocity of a surface
-/

namespace Jaxoplanet.Starry
open _root_.Jaxoplanet.Starry.Spec _root_.Jaxoplanet.Spec
open Real AD AD.Dual Filter Topology

set_option linter.unusedSectionVars false

variable {t : ℝ} {R : (ℝ → ℝ) → Dual → Prop} [hR : Closed R]

theorem TrL.take {F : ℝ → List ℝ} {L : List Dual} (h : TrL R F L) (n : ℕ) : TrL R (fun s => (F s).take n) (L.take n) := by
  induction h generalizing n with
  | nil => simpa using TrL.nil
  | cons h hs ih =>
    cases n with
    | zero => simpa using TrL.nil
    | succ n => simpa using TrL.cons h (ih n)

/-- what `surface_radial_velocity` divides by, `starry/doppler.py:116-166`: the flux that it computes for the visible part of the surface, relative to that of the
limb-darkened star -/
noncomputable def velocityWeight (asEuler : V3 → V3) (s : Surface) (theta : Option ℝ) (theta_z : ℝ) (design : List ℝ) : Except PyErr ℝ := do
  let rotated_y ← rotatedY asEuler s theta theta_z
  let p_u ← uPoly s.u
  let p_y ← Pijk.fromDense (matVec ((s.ydeg + 1) ^ 2) (A1 s.ydeg) rotated_y) (some s.ydeg)
  let flux_u ← p_u.dot (rT s.udeg)
  let p_yu ← p_y.mul p_u
  let flux ← p_yu.dot (design.take ((s.deg + 1) ^ 2))
  return flux * (π / flux_u)

/-- a rotating surface with its derivatives -/
structure TrRot (R : (ℝ → ℝ) → Dual → Prop) (S : ℝ → Surface) (SD : SurfaceI) (fi fo fp : Option (ℝ → ℝ)) : Prop where
  base : TrSurf0 R S SD.y SD.u SD.amplitude
  inc : TrO R fi SD.inc
  obl : TrO R fo SD.obl
  period : TrO R fp SD.period
  hinc : ∀ s, (S s).inc = fi.map (· s)
  hobl : ∀ s, (S s).obl = fo.map (· s)
  hperiod : ∀ s, (S s).period = fp.map (· s)
  radius : R (fun s => (S s).radius) SD.radius

theorem trL_rvMap {v : ℝ → ℝ} {vD : Dual} (hv : R v vD) {inc obl : Option (ℝ → ℝ)} {incD oblD : Option Dual} (hi : TrO R inc incD) (ho : TrO R obl oblD) :
    TrL R (fun s => rvMapExpansion (some (v s)) (inc.map (· s)) (obl.map (· s)) none) (rvMapD vD incD oblD) := by
  have h3 : (const 3).v ≠ 0 := by simp
  have key : ∀ {si cl sl : ℝ → ℝ} {siD clD slD : Dual}, R si siD → R cl clD → R sl slD →
      TrL R (fun s => [0, v s * √3 * (si s * sl s) / 3, 0, v s * √3 * (si s * cl s) / 3].map (· * π))
        ([const 0, vD * const √3 * (siD * slD) / const 3, const 0, vD * const √3 * (siD * clD) / const 3].map (· * const π)) := by
    intro si cl sl siD clD slD h1 h2 h4
    have c0 : R (fun _ => 0 * π) (const 0 * const π) := hR.mul (hR.const 0) (hR.const π)
    exact .cons c0 (.cons (hR.mul (hR.div (hR.mul (hR.mul hv (hR.const √3)) (hR.mul h1 h4)) (hR.const 3) h3) (hR.const π))
      (.cons c0 (.cons (hR.mul (hR.div (hR.mul (hR.mul hv (hR.const √3)) (hR.mul h1 h2)) (hR.const 3) h3) (hR.const π)) .nil)))
  unfold rvMapExpansion rvMapD
  cases hi with
  | none =>
    cases ho with
    | none => exact key (hR.const 1) (hR.const 1) (hR.const 0)
    | some ho => exact key (hR.const 1) (hR.cos ho) (hR.sin ho)
  | some hi =>
    cases ho with
    | none => exact key (hR.sin hi) (hR.const 1) (hR.const 0)
    | some ho => exact key (hR.sin hi) (hR.cos ho) (hR.sin ho)

theorem trE_rvPoly {S : ℝ → Surface} {SD : SurfaceI} {inc obl period : Option (ℝ → ℝ)} (h : TrRot R S SD inc obl period) (hp : ∀ p ∈ SD.period, p.v ≠ 0)
    {f : ℝ → ℝ} {a : Dual} (hc : R (fun s => Real.cos (-f s)) (-a).cos) (hs : R (fun s => Real.sin (-f s)) (-a).sin) :
    TrE (TrP R) (fun s => rvPoly (S s) (f s)) (rvPolyD SD a) := by
  unfold rvPoly rvPolyD Surface.veq SurfaceI.veq Surface.vdeg
  simp only [h.hinc, h.hobl, h.hperiod]
  have hper := h.period
  revert hp hper
  generalize SD.period = pD
  intro hp hper
  cases hper with
  | none => exact TrE.error _
  | @some p pD hpp =>
    refine TrE.bind (R := R) (TrE.pure (hR.div (hR.mul (hR.const (2 * π)) h.radius) hpp (hp _ rfl))) fun v vD hv => ?_
    exact trP_fromDense (trL_matVec _ _ (trL_dotRz 1 hc hs (trL_rvMap hv h.inc h.obl))) none

theorem trE_projectVelocity {S : ℝ → Surface} {SD : SurfaceI} {inc obl period : Option (ℝ → ℝ)} (h : TrRot R S SD inc obl period) (hval : ∀ {f a}, R f a → f t = a.v)
    (hp : ∀ p ∈ SD.period, p.v ≠ 0)
    (htot : totalFlux (S t).u ≠ 0) {asEuler : V3 → V3} {theta : ℝ → Option ℝ} {f : ℝ → ℝ} {a : Dual} {rotated : Except PyErr (List Dual)}
    (hrot : TrE (TrL R) (fun s => rotatedY asEuler (S s) (theta s) (f s)) rotated)
    (hc : R (fun s => Real.cos (-f s)) (-a).cos) (hs : R (fun s => Real.sin (-f s)) (-a).sin) {F : ℝ → List ℝ} {L : List Dual} (hF : TrL R F L)
    (hw : ∀ w, velocityWeight asEuler (S t) (theta t) (f t) (F t) = .ok w → w ≠ 0) :
    TrE (fun f a => R f a) (fun s => projectVelocity asEuler (S s) (theta s) (f s) (F s)) (projectVelocityD SD rotated a L) := by
  unfold projectVelocity projectVelocityD
  have hyd : ∀ s, (S s).ydeg = ylmDeg SD.y := h.base.ydeg
  have hud : ∀ s, (S s).udeg = SD.u.length := h.base.u.length
  have hdeg : ∀ s, (S s).deg = ylmDeg SD.y + SD.u.length := fun s => by unfold Surface.deg; rw [hyd, hud]
  simp only [hyd, hud, hdeg]
  unfold velocityWeight at hw
  simp only [hyd, hud, hdeg] at hw
  refine TrE.bind hrot.withVal fun M MD hM => ?_
  refine TrE.bind (trE_uPoly h.base.u).withVal fun P PD hP => ?_
  refine TrE.bind (trP_fromDense (trL_matVec _ _ hM.1) _).withVal fun Q QD hQ => ?_
  refine TrE.bind (trP_dot hP.1 (trL_const (rT SD.u.length))).withVal fun fu fuD hfu => ?_
  refine TrE.bind (trE_rvPoly h hp hc hs) fun V VD hV => ?_
  refine TrE.bind (trP_mul hQ.1 hV) fun W1 W1D hW1 => ?_
  refine TrE.bind (trP_mul hW1 hP.1) fun W2 W2D hW2 => ?_
  refine TrE.bind (trP_dot hW2 hF) fun rv rvD hrv => ?_
  refine TrE.bind (trP_mul hQ.1 hP.1).withVal fun W WD hW => ?_
  refine TrE.bind (trP_dot hW.1 (hF.take _)).withVal fun fl flD hfl => ?_
  have hfu0 : fuD.v ≠ 0 := by
    have h1 : (P t).dot (rT (S t).u.length) = .ok (fu t) := by
      rw [h.base.u.length t]
      exact hfu.2 t
    rw [← hval hfu.1, uPoly_flux (hP.2 t) h1]
    exact htot
  have hn : R (fun s => π / fu s) (const π / fuD) := hR.div (hR.const π) hfu.1 hfu0
  have hi : R (fun s => fl s * (π / fu s)) (flD * (const π / fuD)) := hR.mul hfl.1 hn
  refine TrE.pure (hR.div (hR.mul (hR.mul h.base.amplitude hrv) hn) hi ?_)
  rw [← hval hi]
  refine hw _ ?_
  have m1 := hM.2 t
  have m2 := hP.2 t
  have m3 := hQ.2 t
  have m4 := hfu.2 t
  have m5 := hW.2 t
  have m6 := hfl.2 t
  beta_reduce at m1 m2 m3 m4 m5 m6
  simp only [m1, m2, m3, m4, m5, m6, Bind.bind, Except.bind, Pure.pure, Except.pure]

end Jaxoplanet.Starry
