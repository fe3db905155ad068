import Verif.Model.RenderGrad
import Verif.Proofs.DopplerGrad
import Verif.Props.Intensity

/-!
# Automatic differentiation of `poly_basis` and of the intensity: the programs track their values and derivatives
-/

namespace Jaxoplanet.Starry
open Real AD AD.Dual Filter Topology Spec

set_option linter.unusedSectionVars false
variable {t : ℝ} {R : (ℝ → ℝ) → Dual → Prop} [hR : Closed R]

/-- a computation with an optional result -/
def TrQ {α β : Type} (R : (ℝ → α) → β → Prop) (X : ℝ → Option α) (XD : Option β) : Prop :=
  (XD = none ∧ ∀ s, X s = none) ∨ ∃ F a, XD = some a ∧ (∀ s, X s = some (F s)) ∧ R F a

theorem TrQ.bind {α β α' β' : Type} {R : (ℝ → α) → β → Prop} {R' : (ℝ → α') → β' → Prop} {X : ℝ → Option α} {XD : Option β}
    {k : ℝ → α → Option α'} {kD : β → Option β'} (h : TrQ R X XD) (hk : ∀ F a, R F a → TrQ R' (fun s => k s (F s)) (kD a)) :
    TrQ R' (fun s => X s >>= k s) (XD >>= kD) := by
  rcases h with ⟨h1, h2⟩ | ⟨F, a, h1, h2, h3⟩
  · exact Or.inl ⟨by rw [h1]; rfl, fun s => by simp only [h2]; rfl⟩
  · rcases hk F a h3 with ⟨k1, k2⟩ | ⟨F', a', k1, k2, k3⟩
    · exact Or.inl ⟨by rw [h1]; exact k1, fun s => by simp only [h2]; exact k2 s⟩
    · exact Or.inr ⟨F', a', by rw [h1]; exact k1, fun s => by simp only [h2]; exact k2 s, k3⟩

theorem TrQ.pure {α β : Type} {R : (ℝ → α) → β → Prop} {F : ℝ → α} {a : β} (h : R F a) : TrQ R (fun s => some (F s)) (some a) := Or.inr ⟨F, a, rfl, fun _ => rfl, h⟩

/-- the arrays of `poly_basis` -/
def TrA (R : (ℝ → ℝ) → Dual → Prop) (X : ℝ → Arr) (A : ArrD) : Prop := ∀ i, TrQ (fun f a => R f a) (fun s => X s i) (A i)

theorem TrA.update {X : ℝ → Arr} {A : ArrD} (h : TrA R X A) (i : ℕ) {f : ℝ → ℝ} {a : Dual} (hf : R f a) :
    TrA R (fun s => Function.update (X s) i (some (f s))) (Function.update A i (some a)) := by
  intro j
  by_cases hj : j = i
  · subst hj
    simp only [Function.update_self]
    exact TrQ.pure hf
  · simp only [Function.update_of_ne hj]
    exact h j

theorem trQ_while (N : ℕ) {xt yt : ℝ → ℝ} {xtD ytD : Dual} (hx : R xt xtD) (hy : R yt ytD) : ∀ (k i di j dj : ℕ), N - i ≤ k → ∀ {X Y : ℝ → Arr} {A B : ArrD}, TrA R X A → TrA R Y B →
    TrQ (fun (F : ℝ → Arr × Arr) a => TrA R (fun s => (F s).1) a.1 ∧ TrA R (fun s => (F s).2) a.2) (fun s => polyWhile N (xt s) (yt s) (X s) (Y s) i di j dj)
      (polyWhileD N xtD ytD A B i di j dj) := by
  intro k
  induction k with
  | zero =>
    intro i di j dj hk X Y A B hA hB
    have h : ∀ s, polyWhile N (xt s) (yt s) (X s) (Y s) i di j dj = some (X s, Y s) := fun s => by rw [polyWhile, if_neg (by omega)]
    have h' : polyWhileD N xtD ytD A B i di j dj = some (A, B) := by rw [polyWhileD, if_neg (by omega)]
    simp only [h, h']
    exact TrQ.pure ⟨hA, hB⟩
  | succ k ih =>
    intro i di j dj hk X Y A B hA hB
    by_cases h1 : i + 1 < N
    · by_cases h2 : j + 1 < N
      · have h : ∀ s, polyWhile N (xt s) (yt s) (X s) (Y s) i di j dj = polyWhile N (xt s) (yt s)
            (Function.update (Function.update (X s) i (some (xt s))) (i + 1) (some (xt s)))
            (Function.update (Function.update (Y s) j (some (yt s))) (j + 1) (some (yt s))) (i + (di + 2)) (di + 2) (j + (dj + 2) - 1) (dj + 2) := fun s => by
          rw [polyWhile, if_pos h1, if_pos h2]
        have h' : polyWhileD N xtD ytD A B i di j dj = polyWhileD N xtD ytD
            (Function.update (Function.update A i (some xtD)) (i + 1) (some xtD))
            (Function.update (Function.update B j (some ytD)) (j + 1) (some ytD)) (i + (di + 2)) (di + 2) (j + (dj + 2) - 1) (dj + 2) := by
          rw [polyWhileD, if_pos h1, if_pos h2]
        simp only [h, h']
        exact ih _ _ _ _ (by omega) ((hA.update i hx).update (i + 1) hx) ((hB.update j hy).update (j + 1) hy)
      · have h : ∀ s, polyWhile N (xt s) (yt s) (X s) (Y s) i di j dj = none := fun s => by rw [polyWhile, if_pos h1, if_neg h2]
        have h' : polyWhileD N xtD ytD A B i di j dj = none := by rw [polyWhileD, if_pos h1, if_neg h2]
        exact Or.inl ⟨h', h⟩
    · have h : ∀ s, polyWhile N (xt s) (yt s) (X s) (Y s) i di j dj = some (X s, Y s) := fun s => by rw [polyWhile, if_neg h1]
      have h' : polyWhileD N xtD ytD A B i di j dj = some (A, B) := by rw [polyWhileD, if_neg h1]
      simp only [h, h']
      exact TrQ.pure ⟨hA, hB⟩

structure TrState (R : (ℝ → ℝ) → Dual → Prop) (F : ℝ → PolyState) (a : PolyStateD) : Prop where
  xarr : TrA R (fun s => (F s).xarr) a.xarr
  yarr : TrA R (fun s => (F s).yarr) a.yarr
  xterm : R (fun s => (F s).xterm) a.xterm
  yterm : R (fun s => (F s).yterm) a.yterm
  i0 : ∀ s, (F s).i0 = a.i0
  di0 : ∀ s, (F s).di0 = a.di0
  j0 : ∀ s, (F s).j0 = a.j0
  dj0 : ∀ s, (F s).dj0 = a.dj0

theorem trQ_step (N : ℕ) {x y : ℝ → ℝ} {xD yD : Dual} (hx : R x xD) (hy : R y yD) {F : ℝ → PolyState} {a : PolyStateD} (h : TrState R F a) (n : ℕ) :
    TrQ (TrState R) (fun s => polyStep N (x s) (y s) (F s) n) (polyStepD N xD yD a n) := by
  unfold polyStep polyStepD
  simp only [h.i0, h.j0, h.di0, h.dj0]
  by_cases hc : a.i0 < N ∧ a.j0 < N
  · simp only [if_pos hc]
    have hw := trQ_while N h.xterm h.yterm _ (a.i0 + a.di0 - 1) a.di0 (a.j0 + a.dj0 - 1) a.dj0 le_rfl (h.xarr.update a.i0 h.xterm) (h.yarr.update a.j0 h.yterm)
    rcases hw with ⟨h1, h2⟩ | ⟨G, b, h1, h2, h3⟩
    · exact Or.inl ⟨by rw [h1]; rfl, fun s => by simp only [h2]; rfl⟩
    · refine Or.inr ⟨fun s => ⟨(G s).1, (G s).2, (F s).xterm * x s, (F s).yterm * y s, _, _, _, _⟩, _, by rw [h1]; rfl, fun s => by simp only [h2]; rfl, ?_⟩
      exact ⟨h3.1, h3.2, hR.mul h.xterm hx, hR.mul h.yterm hy, fun _ => rfl, fun _ => rfl, fun _ => rfl, fun _ => rfl⟩
  · simp only [if_neg hc]
    exact Or.inl ⟨rfl, fun _ => rfl⟩

theorem trQ_foldlM {ι α β : Type} {Q : (ℝ → α) → β → Prop} {k : ℝ → α → ι → Option α} {kD : β → ι → Option β} (l : List ι)
    (hk : ∀ i ∈ l, ∀ F a, Q F a → TrQ Q (fun s => k s (F s) i) (kD a i)) : ∀ {F : ℝ → α} {a : β}, Q F a → TrQ Q (fun s => l.foldlM (k s) (F s)) (l.foldlM kD a) := by
  induction l with
  | nil => intro F a h; exact TrQ.pure h
  | cons i l ih =>
    intro F a h
    simp only [List.foldlM_cons]
    exact TrQ.bind (hk i (by simp) F a h) fun G b hG => ih (fun j hj => hk j (by simp [hj])) hG

theorem trQ_mapM {X : ℝ → Arr} {A : ArrD} (h : TrA R X A) (l : List ℕ) : TrQ (TrL R) (fun s => l.mapM (X s)) (l.mapM A) := by
  induction l with
  | nil => exact TrQ.pure .nil
  | cons i l ih =>
    simp only [List.mapM_cons]
    exact TrQ.bind (h i) fun f a hf => TrQ.bind ih fun F L hF => TrQ.pure (.cons hf hF)

theorem TrL.mapIdxMul {F : ℝ → List ℝ} {L : List Dual} (h : TrL R F L) {z : ℝ → ℝ} {zD : Dual} (hz : R z zD) (p : ℕ → Prop) [DecidablePred p] :
    TrL R (fun s => (F s).mapIdx fun i v => if p i then v * z s else v) (L.mapIdx fun i v => if p i then v * zD else v) := by
  induction h generalizing p with
  | nil => simpa using TrL.nil
  | @cons f a F L h hs ih =>
    simp only [List.mapIdx_cons]
    refine .cons ?_ (ih fun i => p (i + 1))
    split_ifs
    · exact hR.mul h hz
    · exact h

theorem trQ_polyBasis (deg : ℕ) {x y z : ℝ → ℝ} {xD yD zD : Dual} (hx : R x xD) (hy : R y yD) (hz : R z zD) :
    TrQ (TrL R) (fun s => polyBasis deg (x s) (y s) (z s)) (polyBasisD deg xD yD zD) := by
  have h1 : R (fun s => 1 + 0 * z s) (const 1 + const 0 * zD) := hR.add (hR.const 1) (hR.mul (hR.const 0) hz)
  unfold polyBasis polyBasisD
  refine TrQ.bind (trQ_foldlM (Q := TrState R) (List.range (deg + 1)) (fun n _ F a h => trQ_step _ hx hy h n) ?_) fun F a h => ?_
  · exact ⟨fun _ => Or.inl ⟨rfl, fun _ => rfl⟩, fun _ => Or.inl ⟨rfl, fun _ => rfl⟩, h1, h1, fun _ => rfl, fun _ => rfl, fun _ => rfl, fun _ => rfl⟩
  · refine TrQ.bind (trQ_mapM h.xarr _) fun X A hX => ?_
    refine TrQ.bind (trQ_mapM h.yarr _) fun Y B hY => ?_
    exact TrQ.pure ((hX.zipMul hY).mapIdxMul hz _)

theorem trE_polyBasis (deg : ℕ) {x y z : ℝ → ℝ} {xD yD zD : Dual} (hx : R x xD) (hy : R y yD) (hz : R z zD) :
    TrE (TrL R) (fun s => polyBasisE deg (x s) (y s) (z s)) (polyBasisED deg xD yD zD) := by
  unfold polyBasisE polyBasisED
  rcases trQ_polyBasis deg hx hy hz with ⟨h1, h2⟩ | ⟨F, a, h1, h2, h3⟩
  · simp only [h1, h2]
    exact TrE.error _
  · simp only [h1, h2]
    exact TrE.pure h3

/-! ### the intensity -/

theorem trE_intensityFrom {S : ℝ → Surface} {y : DictD (ℕ × ℤ)} {u : List Dual} {amplitude : Dual} (h : TrSurf0 R S y u amplitude)
    {X : ℝ → Except PyErr (List ℝ)} {rotated : Except PyErr (List Dual)} (hrot : TrE (TrL R) X rotated)
    {k : ℝ → Pijk → Except PyErr Pijk} {kD : PijkD → Except PyErr PijkD} (hk : ∀ P PD, TrP R P PD → TrE (TrP R) (fun s => k s (P s)) (kD PD))
    {F : ℝ → List ℝ} {L : List Dual} (hF : TrL R F L) :
    TrE (fun f a => R f a) (fun s => do
      let Ry ← X s
      let p_y ← Pijk.fromDense (matVec (((S s).ydeg + 1) ^ 2) (A1 (S s).ydeg) Ry) (some (S s).ydeg)
      let p_u ← Pijk.fromDense (limbDarkPoly (S s).u) (some (S s).udeg)
      let p ← p_y.mul p_u
      let p ← k s p
      let v ← p.dot (F s)
      return v * (S s).amplitude) (intensityFromD (ylmDeg y) u amplitude rotated kD L) := by
  unfold intensityFromD limbDarkPoly
  have hud : ∀ s, (S s).udeg = u.length := h.u.length
  simp only [h.ydeg, hud, h.u.length]
  refine TrE.bind hrot fun M MD hM => ?_
  refine TrE.bind (trP_fromDense (trL_matVec _ _ hM) _) fun Q QD hQ => ?_
  refine TrE.bind (trP_fromDense (trL_matVec _ _ (.cons (hR.const 1) h.u)) _) fun P PD hP => ?_
  refine TrE.bind (trP_mul hQ hP) fun W WD hW => ?_
  refine TrE.bind (hk W WD hW) fun V VD hV => ?_
  refine TrE.bind (trP_dot hV hF) fun fl flD hfl => ?_
  exact TrE.pure (hR.mul hfl h.amplitude)

theorem trP_withRv {S : ℝ → Surface} {SD : SurfaceI} {inc obl period : Option (ℝ → ℝ)} (h : TrRot R S SD inc obl period) (hp : ∀ p ∈ SD.period, p.v ≠ 0) (rv : Bool)
    {P : ℝ → Pijk} {PD : PijkD} (hP : TrP R P PD) :
    TrE (TrP R) (fun s => (if rv then do
      let veq ← (S s).veq
      let p_rv ← Pijk.fromDense (matVec (((S s).vdeg + 1) ^ 2) (A1 (S s).vdeg) (rvMapExpansion (some veq) (S s).inc (S s).obl none)) none
      (P s).mul p_rv
    else Except.ok (P s) : Except PyErr Pijk)) (SD.withRv rv PD) := by
  unfold SurfaceI.withRv
  cases rv with
  | false => exact TrE.pure hP
  | true =>
    simp only [if_true]
    unfold Surface.veq SurfaceI.veq Surface.vdeg
    simp only [h.hinc, h.hobl, h.hperiod]
    have hper := h.period
    revert hp hper
    generalize SD.period = pD
    intro hp hper
    cases hper with
    | none => exact TrE.error _
    | @some f a hf =>
      refine TrE.bind (TrE.pure (hR.div (hR.mul (hR.const (2 * π)) h.radius) hf (hp a rfl))) fun v vD hv => ?_
      refine TrE.bind (trP_fromDense (trL_matVec _ _ (trL_rvMap hv h.inc h.obl)) none) fun V VD hV => ?_
      exact trP_mul hP hV

theorem trE_intensity {S : ℝ → Surface} {SD : SurfaceI} {inc obl period : Option (ℝ → ℝ)} (h : TrRot R S SD inc obl period) (rv : Bool) (hp : rv = true → ∀ p ∈ SD.period, p.v ≠ 0)
    {strict : Bool} {asEuler : V3 → V3} {asEulerD : Dual × Dual × Dual → Dual × Dual × Dual} {theta : ℝ → Option ℝ} {thetaD : Option Dual}
    (hrot : TrE (TrL R) (fun s => leftProject asEuler (ylmDeg SD.y) (some (S s).incVal) (some (S s).oblVal) (theta s) (some 0) (S s).y.todense)
      (leftProjectI strict asEuler asEulerD (ylmDeg SD.y) (some (SD.inc.getD (const 0))) (some (SD.obl.getD (const 0))) thetaD (const 0) (ylmTodense SD.y)))
    {x y z : ℝ → ℝ} {xD yD zD : Dual} (hx : R x xD) (hy : R y yD) (hz : R z zD) :
    TrE (fun f a => R f a) (fun s => (S s).intensityXYZ asEuler (x s) (y s) (z s) (theta s) rv) (SD.intensityXYZ strict asEuler asEulerD xD yD zD thetaD rv) := by
  unfold Surface.intensityXYZ SurfaceI.intensityXYZ
  have hud : ∀ s, (S s).udeg = SD.u.length := h.base.u.length
  have hdeg : ∀ s, (S s).deg = ylmDeg SD.y + SD.u.length := fun s => by unfold Surface.deg; rw [h.base.ydeg, hud]
  have hv : ∀ s, (S s).vdeg = 1 := fun _ => rfl
  simp only [hdeg, hv]
  refine TrE.bind (trE_polyBasis _ hx hy hz) fun F L hF => ?_
  have hrot' : TrE (TrL R) (fun s => leftProject asEuler (S s).ydeg (some (S s).incVal) (some (S s).oblVal) (theta s) (some 0) (S s).y.todense)
      (leftProjectI strict asEuler asEulerD (ylmDeg SD.y) (some (SD.inc.getD (const 0))) (some (SD.obl.getD (const 0))) thetaD (const 0) (ylmTodense SD.y)) := by
    simp only [h.base.ydeg]
    exact hrot
  have := trE_intensityFrom h.base hrot' (k := fun s P => (if rv then do
      let veq ← (S s).veq
      let p_rv ← Pijk.fromDense (matVec (((S s).vdeg + 1) ^ 2) (A1 (S s).vdeg) (rvMapExpansion (some veq) (S s).inc (S s).obl none)) none
      P.mul p_rv
    else Except.ok P : Except PyErr Pijk)) (kD := SD.withRv rv) (fun P PD hP => ?_) hF
  · refine (iff_of_eq (congrArg₂ _ (funext fun s => ?_) rfl)).1 this
    unfold intensityPoly
    simp only [bind_assoc]
    rfl
  · cases rv with
    | false => exact TrE.pure hP
    | true => exact trP_withRv h (hp rfl) true hP

theorem trE_intensity_fixed {S : ℝ → Surface} {SD : SurfaceD} (h : TrSurf R S SD)
    (asEuler : V3 → V3) {theta : Option (ℝ → ℝ)} {thetaD : Option Dual} (hth : TrO R theta thetaD)
    {x y z : ℝ → ℝ} {xD yD zD : Dual} (hx : R x xD) (hy : R y yD) (hz : R z zD) :
    TrE (fun f a => R f a) (fun s => (S s).intensityXYZ asEuler (x s) (y s) (z s) (theta.map (· s)) false) (SD.intensityXYZ asEuler xD yD zD thetaD) := by
  unfold Surface.intensityXYZ SurfaceD.intensityXYZ
  have hud : ∀ s, (S s).udeg = SD.u.length := h.base.u.length
  have hdeg : ∀ s, (S s).deg = ylmDeg SD.y + SD.u.length := fun s => by unfold Surface.deg; rw [h.base.ydeg, hud]
  simp only [hdeg]
  refine TrE.bind (trE_polyBasis _ hx hy hz) fun F L hF => ?_
  have h0 := hR.const 0
  have hrot' : TrE (TrL R) (fun s => leftProject asEuler (S s).ydeg (some (S s).incVal) (some (S s).oblVal) (theta.map (· s)) (some 0) (S s).y.todense)
      (leftProjectD asEuler (ylmDeg SD.y) (some (SD.inc.getD 0)) (some (SD.obl.getD 0)) thetaD (const 0) (ylmTodense SD.y)) := by
    simp only [h.base.ydeg, Surface.incVal, Surface.oblVal, h.inc, h.obl]
    exact trE_leftProject asEuler _ _ _ hth (f := fun _ => 0) (hR.cos (hR.neg h0)) (hR.sin (hR.neg h0)) h.base.todense
  have := trE_intensityFrom h.base hrot' (k := fun s P => (Except.ok P : Except PyErr Pijk)) (kD := .ok) (fun P PD hP => TrE.pure hP) hF
  refine (iff_of_eq (congrArg₂ _ (funext fun s => ?_) rfl)).1 this
  unfold intensityPoly
  simp only [bind_assoc]
  rfl

end Jaxoplanet.Starry
