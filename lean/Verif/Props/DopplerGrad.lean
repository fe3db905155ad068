import Verif.Props.SystemGrad
import Verif.Proofs.DopplerGrad
import Verif.Props.Doppler
import Verif.Props.SurfaceConverge
import Verif.Proofs.DiscOverlap

/-!
# C103: the derivatives of radial velocities

`surface_radial_velocity(surface, r, x, y, z, theta, order)` and `radial_velocity(system)(time)`: what automatic differentiation computes, in both modes, are the derivatives, away from the
thresholds of the guards of the program, and finite unless the flux that the program divides by is zero.
-/

namespace Jaxoplanet.Starry
open _root_.Jaxoplanet.Starry.Spec _root_.Jaxoplanet.Spec Keplerian
open Real AD AD.Dual Filter Topology
open _root_.Jaxoplanet.Green _root_.Jaxoplanet.Gauss MeasureTheory

/-- what `surface_radial_velocity` divides by: the flux that it computes for the visible part of the surface, `starry/doppler.py:84-166` -/
noncomputable def visibleWeight (eps : ℝ) (quad : ℕ → List (ℝ × ℝ)) (asEuler : Spec.V3 → Spec.V3) (order : ℕ) (s : Surface) (r : Option ℝ) (x y z : ℝ) (theta : Option ℝ) : Except PyErr ℝ :=
  match r with
  | none => velocityWeight asEuler s theta 0 (rT (s.deg + 1))
  | some r => do
    let design ← designVector eps quad order (s.deg + 1) r x y z
    velocityWeight asEuler s theta (arctan2 x y) design

theorem velocityWeight_spec {asEuler : Spec.V3 → Spec.V3} (hE : IsEulerZYZ asEuler) (s : Surface) (hy : ValidMap s.y) (theta : Option ℝ) (tz : ℝ) :
    ∃ c : List ℝ, c.length = (s.deg + 1 + 1) ^ 2 ∧ (∀ p ∈ stellarDisc, π * denseVal c p.1 p.2 (mu p) = skyOf s theta (rot2 (-tz) p)) ∧
      ∀ design : List ℝ, design.length = (s.deg + 1 + 1) ^ 2 → velocityWeight asEuler s theta tz design =
        .ok ((List.zipWith (· * ·) design c).sum * (π / totalFlux s.u)) := by
  have hrot : ∃ M', rotatedY asEuler s theta tz = .ok M' ∧ M'.length = (s.ydeg + 1) ^ 2 ∧
      ∀ p, OnSphere p → mapVal s.ydeg M' p =
        mapVal s.ydeg s.y.todense (observerView (s.inc.getD 0) (usedObl s.inc s.obl) (theta.getD 0) (rotZ (-tz) p)) := by
    unfold rotatedY
    by_cases h : s.ydeg = 0
    · refine ⟨s.y.todense, by rw [if_pos h], todense_length _, fun p _ => ?_⟩
      rw [h]
      exact mapVal_zero _ _ _
    · rw [if_neg h]
      exact leftProject_view hE _ _ _ _ _ _
  obtain ⟨M', hM1, hM2, hM3⟩ := hrot
  obtain ⟨cu, q, hcu, hq, hu, hval⟩ := uPoly_spec s.u
  have hcy := (A1_val s.ydeg M' hM2 0 0 1 (by norm_num)).1
  obtain ⟨py, hpy, hpye, hpyv⟩ := fromDense_exact hcy
  obtain ⟨q', hq', hqe, hqv⟩ := fromDense_exact hcu
  obtain rfl : q' = q := Except.ok.inj (hq'.symm.trans hq)
  obtain ⟨w3, hw3, hw3e, hw3v⟩ := mul_exact hpye hqe
  have hdeg : s.deg = s.ydeg + s.u.length := rfl
  have hqd : q'.todense = cu := pijk_todense_fromDense hcu (some s.u.length) (Or.inr rfl) hq
  have htot' : ∫ p in stellarDisc, denseVal cu p.1 p.2 (mu p) = totalFlux s.u := by
    unfold totalFlux
    exact MeasureTheory.setIntegral_congr_fun measurableSet_stellarDisc fun p hp => hval _ _ _ (disc_sphere hp)
  have hl3 : w3.todense.length = (s.deg + 1) ^ 2 := by rw [hw3e.length, hdeg]
  have hk : (s.deg + 1) ^ 2 ≤ (s.deg + 1 + 1) ^ 2 := Nat.pow_le_pow_left (by omega) 2
  have hsky : ∀ pt ∈ stellarDisc, π * (denseVal (matVec ((s.ydeg + 1) ^ 2) (A1 s.ydeg) M') pt.1 pt.2 (mu pt) * denseVal cu pt.1 pt.2 (mu pt)) =
      skyOf s theta (rot2 (-tz) pt) := by
    intro pt hpt
    have hs := disc_sphere hpt
    have hon : OnSphere (pt.1, pt.2, mu pt) := hs
    rw [hval _ _ _ hs, (A1_val s.ydeg M' hM2 _ _ _ hs).2]
    have h1 := hM3 _ hon
    rw [show s.ydeg = s.y.deg from rfl, mapVal_todense hy] at h1
    unfold mapVal at h1
    simp only at h1
    rw [show s.ydeg = s.y.deg from rfl, h1]
    unfold skyOf skyIntensity
    rw [mu_rot2]
    have h2 : rotZ (-tz) (pt.1, pt.2, mu pt) = ((rot2 (-tz) pt).1, (rot2 (-tz) pt).2, mu pt) := rfl
    rw [h2]
    have h3 : π * (2 / √π) = 2 * √π := by
      have := mul_self_sqrt pi_pos.le
      have h0 : √π ≠ 0 := (sqrt_pos.2 pi_pos).ne'
      field_simp
      linarith
    rw [← h3]
    ring
  refine ⟨w3.todense ++ List.replicate ((s.deg + 1 + 1) ^ 2 - (s.deg + 1) ^ 2) 0, ?_, fun pt hpt => ?_, fun design hd => ?_⟩
  · rw [List.length_append, List.length_replicate, hl3]
    omega
  · have hs := disc_sphere hpt
    rw [denseVal_pad, hw3e.val, hw3v _ _ _ hs, hpyv, hqv, hsky pt hpt]
  · unfold velocityWeight
    have hflux : q'.dot (rT s.udeg) = .ok (totalFlux s.u) := by
      rw [dot_ok _ _ (by rw [hqd, (rT_spec s.udeg).1, hcu]; rfl), hqd, show s.udeg = s.u.length from rfl, rT_dot _ _ hcu, htot']
    have hd2 : w3.dot (design.take ((s.deg + 1) ^ 2)) = .ok (List.zipWith (· * ·) (design.take ((s.deg + 1) ^ 2)) w3.todense).sum :=
      dot_ok _ _ (by rw [List.length_take, hd, hl3]; omega)
    simp only [hM1, hu, hpy, hflux, hw3, hd2, Bind.bind, Except.bind, Pure.pure, Except.pure]
    rw [← hl3, zipWith_take_pad _ _ ((s.deg + 1 + 1) ^ 2 - w3.todense.length) (by rw [hd, hl3]; omega)]

/-- without an occultor: the flux of the whole disc -/
theorem visibleWeight_rotation (eps : ℝ) (quad : ℕ → List (ℝ × ℝ)) {asEuler : Spec.V3 → Spec.V3} (hE : IsEulerZYZ asEuler) (order : ℕ) (s : Surface) (hy : ValidMap s.y) (x y z : ℝ)
    (theta : Option ℝ) : visibleWeight eps quad asEuler order s none x y z theta = .ok ((∫ p in stellarDisc, skyOf s theta p) / totalFlux s.u) := by
  obtain ⟨c, hc, hv, hf⟩ := velocityWeight_spec hE s hy theta 0
  unfold visibleWeight
  simp only
  rw [hf _ (rT_spec _).1, rT_dot _ _ hc, rotated_any 0 hv stellarDisc subset_rfl measurableSet_stellarDisc, rot2_disc]
  congr 1
  have := pi_pos.ne'
  field_simp

/-- with an occultor that is not in front of the star: the same -/
theorem visibleWeight_unocculted (eps : ℝ) (quad : ℕ → List (ℝ × ℝ)) {asEuler : Spec.V3 → Spec.V3} (hE : IsEulerZYZ asEuler) (order : ℕ) (s : Surface) (hy : ValidMap s.y) {r x y z : ℝ}
    (theta : Option ℝ) (h : √(x ^ 2 + y ^ 2) ≥ 1 + r ∨ z ≤ 0) :
    visibleWeight eps quad asEuler order s (some r) x y z theta = .ok ((∫ p in stellarDisc, skyOf s theta p) / totalFlux s.u) := by
  obtain ⟨c, hc, hv, hf⟩ := velocityWeight_spec hE s hy theta (arctan2 x y)
  unfold visibleWeight
  simp only
  rw [designVector_rot eps quad order (by omega) r x y z h]
  simp only [Bind.bind, Except.bind]
  rw [hf _ (rT_spec _).1, rT_dot _ _ hc, rotated_any _ hv stellarDisc subset_rfl measurableSet_stellarDisc, rot2_disc]
  congr 1
  have := pi_pos.ne'
  field_simp

/-- with an occultor in front of the star: the flux of its visible part, up to the errors of the quadrature -/
theorem visibleWeight_occulted {eps : ℝ} (he : 0 < eps) (quad : ℕ → List (ℝ × ℝ)) {asEuler : Spec.V3 → Spec.V3} (hE : IsEulerZYZ asEuler) (order : ℕ) (s : Surface) (hy : ValidMap s.y)
    {r x y z : ℝ} (theta : Option ℝ) (hr : 0 ≤ r) (hb : √(x ^ 2 + y ^ 2) < 1 + r) (hz : 0 < z) (hne : ¬ (x = 0 ∧ y = 0 ∧ r = 1))
    (hreg : Regular eps (quad order) √(x ^ 2 + y ^ 2) r (kappas √(x ^ 2 + y ^ 2) r).1)
    (hreg' : Regular eps (quad (min order 20)) √(x ^ 2 + y ^ 2) r (kappas √(x ^ 2 + y ^ 2) r).1) :
    ∃ g : List ℝ, (∀ p ∈ stellarDisc, skyOf s theta (rot2 (-(arctan2 x y)) p) =
        π * ∑ n ∈ Finset.range ((s.deg + 1 + 1) ^ 2), g.getD n 0 * polyVal (gtilde n) p.1 p.2 (mu p)) ∧
      visibleWeight eps quad asEuler order s (some r) x y z theta = .ok (((∫ p in stellarDisc \ occultorAt x y r, skyOf s theta p) - π *
            ∑ l ∈ Finset.range (s.deg + 1 + 1), ∑ q ∈ Finset.range (2 * l + 1), g.getD (l ^ 2 + q) 0 *
              edgeError (quad (pOrder order l q)) √(x ^ 2 + y ^ 2) r (kappas √(x ^ 2 + y ^ 2) r).1 l q) / totalFlux s.u) := by
  obtain ⟨c, hc, hv, hf⟩ := velocityWeight_spec hE s hy theta (arctan2 x y)
  obtain ⟨d, hd, hdl, hdot⟩ := designVector_dot he quad order (s.deg + 1) (by omega) hr hb hz hne hreg hreg'
  obtain ⟨g, -, hg2, hg3⟩ := hdot c hc
  refine ⟨g, fun p hp => by rw [← hv p hp, hg2], ?_⟩
  have hV : stellarDisc \ occultorY √(x ^ 2 + y ^ 2) r ⊆ stellarDisc := Set.sdiff_subset
  have hVm : MeasurableSet (stellarDisc \ occultorY √(x ^ 2 + y ^ 2) r) := measurableSet_stellarDisc.diff (measurableSet_occultorY _ _)
  unfold visibleWeight
  simp only [hd, Bind.bind, Except.bind]
  rw [hf _ hdl, hg3, rotated_any _ hv _ hV hVm, rot2_occultor]
  congr 1
  have := pi_pos.ne'
  field_simp

variable {t : ℝ}

theorem TrRot.period_ne {R : (ℝ → ℝ) → Dual → Prop} {S : ℝ → Surface} {SD : SurfaceI} {fi fo fp : Option (ℝ → ℝ)} (hS : TrRot R S SD fi fo fp)
    (hval : ∀ {f a}, R f a → f t = a.v) {P : ℝ} (hP : (S t).period = some P) (hP0 : P ≠ 0) : ∀ p ∈ SD.period, p.v ≠ 0 := by
  intro p hp
  have h1 := hS.hperiod t
  rw [hP] at h1
  have h2 := hS.period
  rw [Option.mem_def.1 hp] at h2
  cases h2 with
  | @some f _ h3 =>
    have h4 : P = f t := Option.some.inj h1
    rw [← hval h3, ← h4]
    exact hP0

/-- the radial velocity of an occulted surface, for any way of rotating the map -/
theorem rv_gradient_core {eps : ℝ} (he : 0 < eps) (strict : Bool) (quad : ℕ → List (ℝ × ℝ)) {asEuler : Spec.V3 → Spec.V3} (hE : IsEulerZYZ asEuler)
    (order : ℕ) {S : ℝ → Surface} {SD : SurfaceI} {fi fo fp : Option (ℝ → ℝ)} (hS : TrRot (Tk t) S SD fi fo fp) (hmap : ValidMap (S t).y)
    (htot : totalFlux (S t).u ≠ 0) {P : ℝ} (hP : (S t).period = some P) (hP0 : P ≠ 0) {r x y z : ℝ → ℝ} {rD xD yD zD : Dual} {theta : ℝ → Option ℝ}
    (tr : Tracks r t rD) (tx : Tracks x t xD) (ty : Tracks y t yD) (tz : Tracks z t zD) {rotated : Dual → Except PyErr (List Dual)}
    (hrotated : ∀ {f : ℝ → ℝ} {a : Dual}, Tracks (fun s => Real.cos (-f s)) t (-a).cos → Tracks (fun s => Real.sin (-f s)) t (-a).sin →
      TrE (TrL (Tk t)) (fun s => rotatedY asEuler (S s) (theta s) (f s)) (rotated a))
    (hreg : RegularSky eps (quad order) (x t) (y t) (z t) (r t))
    (hw : ∃ w, visibleWeight eps quad asEuler order (S t) (some (r t)) (x t) (y t) (z t) (theta t) = .ok w ∧ w ≠ 0) :
    ∃ (a : Dual) (f : ℝ → ℝ), (designVectorD eps strict quad order (ylmDeg SD.y + SD.u.length + 1) rD xD yD zD >>= fun design =>
        projectVelocityD SD (rotated (Dual.atan2 xD yD)) (Dual.atan2 xD yD) design) = .ok a ∧
      (∀ s, surfaceRadialVelocity eps quad asEuler order (S s) (some (r s)) (some (x s)) (some (y s)) (some (z s)) (theta s) = .ok (f s)) ∧ Tracks f t a := by
  have hydeg : ∀ s, (S s).ydeg = ylmDeg SD.y := hS.base.ydeg
  have hdeg : ∀ s, (S s).deg = ylmDeg SD.y + SD.u.length := by
    intro s
    unfold Surface.deg
    rw [hydeg, Surface.udeg, hS.base.u.length]
  have hp := hS.period_ne And.left hP hP0
  have hD := design_tracks he strict quad order (deg := ylmDeg SD.y + SD.u.length + 1) (by omega) tr tx ty tz hreg
  have ht := track_trig_neg (track_trig_atan2 tx ty (by rw [← tx.1, ← ty.1]; exact hreg.apart))
  obtain ⟨w, hw1, hw2⟩ := hw
  have hT : TrE (Tk t)
      (fun s => designVector eps quad order (ylmDeg SD.y + SD.u.length + 1) (r s) (x s) (y s) (z s) >>= fun design =>
        projectVelocity asEuler (S s) (theta s) (arctan2 (x s) (y s)) design)
      (designVectorD eps strict quad order (ylmDeg SD.y + SD.u.length + 1) rD xD yD zD >>= fun design =>
        projectVelocityD SD (rotated (Dual.atan2 xD yD)) (Dual.atan2 xD yD) design) := by
    refine TrE.bind hD.withVal fun F L hF => ?_
    refine trE_projectVelocity (R := Tk t) (t := t) hS And.left hp htot (hrotated ht.1 ht.2) ht.1 ht.2 hF.1 fun w' hw' => ?_
    have hd := hF.2 t
    beta_reduce at hd
    unfold visibleWeight at hw1
    rw [hdeg] at hw1
    simp only [hd, Bind.bind, Except.bind] at hw1
    rw [hw1] at hw'
    rw [← Except.ok.inj hw']
    exact hw2
  rcases hT with ⟨e, -, h2⟩ | ⟨f, a, h1, h2, h3⟩
  · exfalso
    obtain ⟨L, -, hl, -, hv⟩ := design_finite he strict quad order (deg := ylmDeg SD.y + SD.u.length + 1) (by omega) zD tr.fin tx.fin ty.fin
      (by rw [← tx.1, ← ty.1]; exact hreg.apart)
    rw [← tx.1, ← ty.1, ← tz.1, ← tr.1] at hv
    obtain ⟨c, cv, -, -, -, -, hc⟩ := projectVelocity_spec hE (S t) hmap hP htot (theta t) (arctan2 (x t) (y t))
    have h2 := h2 t
    beta_reduce at h2
    rw [hv] at h2
    have h2 : projectVelocity asEuler (S t) (theta t) (arctan2 (x t) (y t)) (L.map (·.v)) = .error e := h2
    rw [hc _ (by rw [List.length_map, hl, hdeg])] at h2
    cases h2
  · refine ⟨a, f, h1, fun s => ?_, h3⟩
    rw [← h2 s]
    unfold surfaceRadialVelocity
    simp only [hdeg, Option.getD_some, Surface.vdeg]

/-- the same for a surface without an occultor -/
theorem rv_rotation_core (eps : ℝ) (quad : ℕ → List (ℝ × ℝ)) {asEuler : Spec.V3 → Spec.V3} (hE : IsEulerZYZ asEuler)
    (order : ℕ) {S : ℝ → Surface} {SD : SurfaceI} {fi fo fp : Option (ℝ → ℝ)} (hS : TrRot (Tk t) S SD fi fo fp) (hmap : ValidMap (S t).y)
    (htot : totalFlux (S t).u ≠ 0) {P : ℝ} (hP : (S t).period = some P) (hP0 : P ≠ 0) {theta : ℝ → Option ℝ} {rotated : Except PyErr (List Dual)}
    (hrotated : TrE (TrL (Tk t)) (fun s => rotatedY asEuler (S s) (theta s) 0) rotated)
    (hw : ∫ p in stellarDisc, skyOf (S t) (theta t) p ≠ 0) :
    ∃ (a : Dual) (f : ℝ → ℝ), projectVelocityD SD rotated (const 0) ((rT (ylmDeg SD.y + SD.u.length + 1)).map const) = .ok a ∧
      (∀ s, surfaceRadialVelocity eps quad asEuler order (S s) none none none none (theta s) = .ok (f s)) ∧ Tracks f t a := by
  have hydeg : ∀ s, (S s).ydeg = ylmDeg SD.y := hS.base.ydeg
  have hdeg : ∀ s, (S s).deg = ylmDeg SD.y + SD.u.length := by
    intro s
    unfold Surface.deg
    rw [hydeg, Surface.udeg, hS.base.u.length]
  have hp := hS.period_ne And.left hP hP0
  have hw1 := visibleWeight_rotation eps quad hE order (S t) hmap 0 0 0 (theta t)
  have hT := trE_projectVelocity (R := Tk t) (t := t) hS And.left hp htot (f := fun _ => 0) (a := const 0) hrotated (track_cos (track_neg (track_const 0 t)))
    (track_sin (track_neg (track_const 0 t))) (trL_const (R := Tk t) (rT (ylmDeg SD.y + SD.u.length + 1))) fun w' hw' => by
      unfold visibleWeight at hw1
      rw [hdeg] at hw1
      simp only at hw1
      rw [hw1] at hw'
      rw [← Except.ok.inj hw']
      exact div_ne_zero hw htot
  rcases hT with ⟨e, -, h2⟩ | ⟨f, a, h1, h2, h3⟩
  · exfalso
    obtain ⟨c, cv, -, -, -, -, hc⟩ := projectVelocity_spec hE (S t) hmap hP htot (theta t) 0
    have h2 := h2 t
    beta_reduce at h2
    rw [hc _ (by rw [(rT_spec _).1, hdeg])] at h2
    cases h2
  · refine ⟨a, f, h1, fun s => ?_, h3⟩
    rw [← h2 s]
    unfold surfaceRadialVelocity
    simp only [hdeg, Surface.vdeg]

/-- the last part of the program, where its input has finite derivatives -/
theorem rv_finite_core {asEuler : Spec.V3 → Spec.V3} (hE : IsEulerZYZ asEuler)
    {S : ℝ → Surface} {SD : SurfaceI} {fi fo fp : Option (ℝ → ℝ)} (hS : TrRot (Tk 0) S SD fi fo fp) (hmap : ValidMap (S 0).y)
    (htot : totalFlux (S 0).u ≠ 0) {P : ℝ} (hP : (S 0).period = some P) (hP0 : P ≠ 0) {theta : ℝ → Option ℝ} {rotated : Dual → Except PyErr (List Dual)}
    (hrotated : ∀ {f : ℝ → ℝ} {a : Dual}, Tracks (fun s => Real.cos (-f s)) 0 (-a).cos → Tracks (fun s => Real.sin (-f s)) 0 (-a).sin →
      TrE (TrL (Tk 0)) (fun s => rotatedY asEuler (S s) (theta s) (f s)) (rotated a))
    {tz : Dual} {L : List Dual} (htz : Dual.Fin tz) (hL : ∀ a ∈ L, Dual.Fin a) (hl : L.length = (ylmDeg SD.y + SD.u.length + 1 + 1) ^ 2)
    (hw : ∀ w, velocityWeight asEuler (S 0) (theta 0) tz.v (L.map (·.v)) = .ok w → w ≠ 0) :
    ∃ a, projectVelocityD SD (rotated tz) tz L = .ok a ∧ (∃ d, a.d = some d) ∧ projectVelocity asEuler (S 0) (theta 0) tz.v (L.map (·.v)) = .ok a.v := by
  have hdeg : (S 0).deg = ylmDeg SD.y + SD.u.length := by
    unfold Surface.deg
    rw [hS.base.ydeg 0, Surface.udeg, hS.base.u.length 0]
  obtain ⟨f, hf⟩ := fin_tracks (t := 0) htz
  obtain ⟨F, hF⟩ := fin_trL (t := 0) hL
  obtain ⟨c, cv, -, -, -, -, hc⟩ := projectVelocity_spec hE (S 0) hmap hP htot (theta 0) tz.v
  have hok := hc (L.map (·.v)) (by rw [List.length_map, hl, hdeg])
  rcases trE_projectVelocity (R := Tk 0) (t := 0) hS And.left (hS.period_ne And.left hP hP0) htot (hrotated (track_cos (track_neg hf)) (track_sin (track_neg hf)))
      (track_cos (track_neg hf)) (track_sin (track_neg hf)) hF (by rw [hf.1, hF.val]; exact hw) with ⟨e, -, h2⟩ | ⟨g, a, h1, h2, h3⟩
  · have := h2 0
    beta_reduce at this
    rw [hf.1, hF.val, hok] at this
    cases this
  · have h2 := h2 0
    beta_reduce at h2
    rw [hf.1, hF.val, h3.1] at h2
    exact ⟨a, h1, h3.fin, h2⟩

/-! ### The radial velocity of a surface -/

theorem RotatingFamily.Regular.tracks {m : RotatingFamily} (h : m.Regular t) (hr : DifferentiableAt ℝ m.radius t) : TrRot (Tk t) m.eval (m.dual t) m.inc m.obl m.period where
  base := ⟨h.oriented.base.y, h.oriented.base.u, h.oriented.base.amplitude⟩
  inc := track_option h.inc
  obl := track_option h.obl
  period := track_option fun f hf => (h.period f hf).1
  hinc := fun _ => rfl
  hobl := fun _ => rfl
  hperiod := fun _ => rfl
  radius := LimbDark.track_input hr

/-- the conditions on an occultation: those of C93 (the occultor is not exactly centred, not in exact contact, no quantity is at the threshold of a guard), the surface has a rotation
period, and the flux that the program computes for its visible part is not zero -/
structure RegularVelocity (eps : ℝ) (quad : ℕ → List (ℝ × ℝ)) (asEuler : Spec.V3 → Spec.V3) (order : ℕ) (t time : ℝ) (m : RotatingFamily) (r x y z : ℝ) : Prop where
  period : m.period.isSome
  radius : DifferentiableAt ℝ m.radius t
  sky : RegularSky eps (quad order) x y z r
  flux : ∃ w, visibleWeight eps quad asEuler order (m.eval t) (some r) x y z ((m.eval t).rotationalPhase time) = .ok w ∧ w ≠ 0

theorem RotatingFamily.Regular.period_at {m : RotatingFamily} (h : m.Regular t) (hp : m.period.isSome) : ∃ P, (m.eval t).period = some P ∧ P ≠ 0 := by
  obtain ⟨p, hp⟩ := Option.isSome_iff_exists.1 hp
  exact ⟨p t, by simp [RotatingFamily.eval, hp], (h.period p hp).2⟩

/-- C103: the radial velocity of an occulted surface (the Rossiter-McLaughlin effect) has as derivative, with respect to the map, the orientation, the limb darkening, the period, the phase
and the radius of the surface, the position and radius of the occultor and time, what automatic differentiation (in both modes) computes -/
theorem rv_gradient_is_derivative {eps : ℝ} (he : 0 < eps) (strict : Bool) (quad : ℕ → List (ℝ × ℝ)) {asEuler : Spec.V3 → Spec.V3}
    {asEulerD : Dual × Dual × Dual → Dual × Dual × Dual} (hE : IsEulerZYZ asEuler) (hD : DifferentiatesEuler asEuler asEulerD) (order : ℕ) {m : RotatingFamily} (hm : m.Regular t)
    {time : ℝ → ℝ} (ht : DifferentiableAt ℝ time t) {r x y z : ℝ → ℝ} {rD xD yD zD : Dual} (hr : Tracks r t rD) (hx : Tracks x t xD) (hy : Tracks y t yD) (hz : Tracks z t zD)
    (hreg : RegularVelocity eps quad asEuler order t (time t) m (r t) (x t) (y t) (z t)) :
    ∃ (a : Dual) (f : ℝ → ℝ), SurfaceI.radialVelocity eps strict quad asEuler asEulerD order (m.dual t) (some rD) xD yD zD ((m.dual t).rotationalPhase (LimbDark.input t time)) = .ok a ∧
      (∀ s, surfaceRadialVelocity eps quad asEuler order (m.eval s) (some (r s)) (some (x s)) (some (y s)) (some (z s)) ((m.eval s).rotationalPhase (time s)) = .ok (f s)) ∧
      a.v = f t ∧ ∃ d, a.d = some d ∧ HasDerivAt f d t := by
  obtain ⟨hth, hthD⟩ := hm.turn ht
  obtain ⟨P, hP, hP0⟩ := hm.period_at hreg.period
  have hS := hm.tracks hreg.radius
  have hw := hreg.flux
  simp only [m.turn_eval] at hw ⊢
  obtain ⟨a, f, h1, h2, h3⟩ := rv_gradient_core he strict quad hE order hS hm.map hm.flux hP hP0 hr hx hy hz (theta := fun s => (m.turn time).map (· s))
    (fun hc hs => trE_rotatedYI hD strict hS.base hS.inc hS.obl hS.hinc hS.hobl (fun h f hf => hm.pole h _ (Option.mem_map_of_mem _ hf)) (track_option hth) hc hs) hreg.sky hw
  refine ⟨a, f, ?_, h2, h3.1.symm, h3.2⟩
  rw [hthD]
  exact h1

/-- C103: so does that of a rotating surface without an occultor -/
theorem rv_gradient_rotation (eps : ℝ) (strict : Bool) (quad : ℕ → List (ℝ × ℝ)) {asEuler : Spec.V3 → Spec.V3}
    {asEulerD : Dual × Dual × Dual → Dual × Dual × Dual} (hE : IsEulerZYZ asEuler) (hD : DifferentiatesEuler asEuler asEulerD) (order : ℕ) {m : RotatingFamily} (hm : m.Regular t)
    {time : ℝ → ℝ} (ht : DifferentiableAt ℝ time t) (hp : m.period.isSome) (hrad : DifferentiableAt ℝ m.radius t)
    (hw : ∫ p in stellarDisc, skyOf (m.eval t) ((m.eval t).rotationalPhase (time t)) p ≠ 0) (x y z : Dual) :
    ∃ (a : Dual) (f : ℝ → ℝ), SurfaceI.radialVelocity eps strict quad asEuler asEulerD order (m.dual t) none x y z ((m.dual t).rotationalPhase (LimbDark.input t time)) = .ok a ∧
      (∀ s, surfaceRadialVelocity eps quad asEuler order (m.eval s) none none none none ((m.eval s).rotationalPhase (time s)) = .ok (f s)) ∧
      a.v = f t ∧ ∃ d, a.d = some d ∧ HasDerivAt f d t := by
  obtain ⟨hth, hthD⟩ := hm.turn ht
  obtain ⟨P, hP, hP0⟩ := hm.period_at hp
  have hS := hm.tracks hrad
  simp only [m.turn_eval] at hw ⊢
  have hrot := trE_rotatedYI hD strict hS.base hS.inc hS.obl hS.hinc hS.hobl (fun h f hf => hm.pole h _ (Option.mem_map_of_mem _ hf)) (track_option hth) (f := fun _ => 0) (a := const 0)
      (track_cos (track_neg (track_const 0 t))) (track_sin (track_neg (track_const 0 t)))
  obtain ⟨a, f, h1, h2, h3⟩ := rv_rotation_core eps quad hE order hS hm.map hm.flux hP hP0 hrot hw
  refine ⟨a, f, ?_, h2, h3.1.symm, h3.2⟩
  rw [hthD]
  unfold SurfaceI.radialVelocity
  simp only
  exact h1

theorem SurfaceI.Regular.tracks {s : SurfaceI} (h : s.Regular) (hr : ∃ d, s.radius.d = some d) : ∃ (S : ℝ → Surface) (fi fo fp : Option (ℝ → ℝ)), TrRot (Tk 0) S s fi fo fp ∧ S 0 = s.val := by
  obtain ⟨S, hS, hS0⟩ := tracks_of_finite ⟨s.y, none, none, s.u, s.amplitude⟩ h.y h.u h.amplitude none s.phase.v 0
  obtain ⟨fi, hi', hi0⟩ := finite_option h.inc
  obtain ⟨fo, ho', ho0⟩ := finite_option h.obl
  obtain ⟨fp, hp', hp0⟩ := finite_option fun a ha => (h.period a ha).1
  obtain ⟨fr, hr'⟩ := fin_tracks (t := 0) hr
  refine ⟨fun p => { S p with inc := fi.map (· p), obl := fo.map (· p), period := fp.map (· p), radius := fr p }, fi, fo, fp,
    ⟨⟨hS.y, hS.u, hS.amplitude⟩, hi', ho', hp', fun _ => rfl, fun _ => rfl, fun _ => rfl, hr'⟩, ?_⟩
  simp only
  rw [hS0, hi0, ho0, hp0, hr'.1]
  rfl

/-- C103: the derivatives are finite in both modes, also where the radial velocity has a kink, unless the occultor is exactly centred, the surface is seen exactly along its rotation
axis or the flux that the program computes for its visible part is zero; and automatic differentiation does not change the value -/
theorem rv_gradient_finite {s : SurfaceI} (h : s.Regular) (hrad : ∃ d, s.radius.d = some d) (hper : s.period.isSome) {eps : ℝ} (he : 0 < eps) (strict : Bool) (quad : ℕ → List (ℝ × ℝ))
    {asEuler : Spec.V3 → Spec.V3} {asEulerD : Dual × Dual × Dual → Dual × Dual × Dual} (hE : IsEulerZYZ asEuler) (hD : DifferentiatesEuler asEuler asEulerD) (order : ℕ)
    {time : Dual} (ht : ∃ d, time.d = some d) (r : Option Dual) (x y z : Dual) (hr : ∀ a ∈ r, ∃ d, a.d = some d) (hx : ∃ d, x.d = some d) (hy : ∃ d, y.d = some d)
    (hxy : r = none ∨ ¬ (x.v = 0 ∧ y.v = 0))
    (hw : ∃ w, visibleWeight eps quad asEuler order s.val (r.map (·.v)) x.v y.v z.v (s.val.rotationalPhase time.v) = .ok w ∧ w ≠ 0) :
    ∃ a, SurfaceI.radialVelocity eps strict quad asEuler asEulerD order s r x y z (s.rotationalPhase time) = .ok a ∧ (∃ d, a.d = some d) ∧
      surfaceRadialVelocity eps quad asEuler order s.val (r.map (·.v)) (some x.v) (some y.v) (some z.v) (s.val.rotationalPhase time.v) = .ok a.v := by
  obtain ⟨S, fi, fo, fp, hS, hS0⟩ := h.tracks hrad
  obtain ⟨th, hth, hth0⟩ := finite_option (h.turn ht)
  rw [← s.rotationalPhase_v] at hw ⊢
  rw [← hth0] at hw ⊢
  obtain ⟨p, hp⟩ := Option.isSome_iff_exists.1 hper
  have hdeg : s.val.deg = ylmDeg s.y + s.u.length := by
    unfold Surface.deg Surface.udeg
    rw [s.val_ydeg]
    simp [SurfaceI.val]
  have core := @rv_finite_core asEuler hE S s fi fo fp hS (by rw [hS0]; exact h.map) (by rw [hS0]; exact h.flux) p.v (by rw [hS0]; simp [SurfaceI.val, hp]) (h.period p hp).2
    (fun s => th.map (· s)) (rotatedYI strict asEuler asEulerD s.y s.inc s.obl (s.rotationalPhase time))
    (fun hc hs => trE_rotatedYI hD strict hS.base hS.inc hS.obl hS.hinc hS.hobl (fun h0 f hf => by
      have e1 := hS.hinc 0
      rw [hS0, Option.mem_def.1 hf] at e1
      exact h.pole (by rw [← hS0]; exact h0) _ e1) hth hc hs)
  rw [hS0] at core
  obtain ⟨w, hw1, hw2⟩ := hw
  cases r with
  | none =>
    unfold SurfaceI.radialVelocity surfaceRadialVelocity
    simp only [Option.map_none, hdeg, Surface.vdeg]
    unfold visibleWeight at hw1
    simp only [Option.map_none, hdeg] at hw1
    have e : ((rT (ylmDeg s.y + s.u.length + 1)).map const).map (·.v) = rT (ylmDeg s.y + s.u.length + 1) := by
      rw [List.map_map, show ((fun d : Dual => d.v) ∘ const) = id from rfl, List.map_id]
    obtain ⟨a, h1, h2, h3⟩ := core (tz := const 0) (L := (rT (ylmDeg s.y + s.u.length + 1)).map const) (fin_const 0)
      (by intro a ha; obtain ⟨c, -, rfl⟩ := List.mem_map.1 ha; exact fin_const c) (by rw [List.length_map, (rT_spec _).1]) (fun w' hw' => by
        rw [e, const_v, hw1] at hw'
        rw [← Except.ok.inj hw']
        exact hw2)
    rw [e] at h3
    exact ⟨a, h1, h2, h3⟩
  | some r =>
    have hxy : ¬ (x.v = 0 ∧ y.v = 0) := by simpa using hxy
    unfold SurfaceI.radialVelocity surfaceRadialVelocity
    simp only [Option.map_some, hdeg, Surface.vdeg, Option.getD_some]
    unfold visibleWeight at hw1
    simp only [Option.map_some, hdeg] at hw1
    obtain ⟨L, hL, hl, hf, hv⟩ := design_finite he strict quad order (deg := ylmDeg s.y + s.u.length + 1) (by omega) z (hr r rfl) hx hy hxy
    rw [hv] at hw1
    obtain ⟨a, h1, h2, h3⟩ := core (tz := Dual.atan2 x y) (L := L) (fin_atan2 hx hy hxy) hf hl (fun w' hw' => by
        have e2 := hw1.symm.trans hw'
        rw [← Except.ok.inj e2]
        exact hw2)
    refine ⟨a, ?_, h2, ?_⟩
    · rw [hL]; exact h1
    · rw [hv]; exact h3

/-! ### The radial velocities of a system -/

/-- the radial velocities of a system with their derivatives at the parameter `t`, by automatic differentiation -/
noncomputable def SystemFamily.radialVelocityD (m : SystemFamily) (t eps : ℝ) (strict : Bool) (quad : ℕ → List (ℝ × ℝ)) (asEuler : Spec.V3 → Spec.V3)
    (asEulerD : Dual × Dual × Dual → Dual × Dual × Dual) (order : ℕ) (G : ℝ) (kep : ℝ → ℝ → ℝ × ℝ) (au : ℝ) (time : ℝ → ℝ) : Except PyErr (List Dual) :=
  systemRadialVelocityD eps strict quad asEuler asEulerD order G kep au ⟨LimbDark.input t m.mass, LimbDark.input t m.radius⟩ (m.surface.dual t)
    (m.bodies.map fun b => (b.1.map (LimbDark.input t), b.2.map (·.dual t))) (LimbDark.input t time)

theorem reflex_rows (eps : ℝ) (quad : ℕ → List (ℝ × ℝ)) (asEuler : Spec.V3 → Spec.V3) (order : ℕ) (kep : ℝ → ℝ → ℝ × ℝ) (au : ℝ) (sys : SurfaceSystem) (t : ℝ) {b : OrbitalBody}
    (hb : sys.bodies[0]? = some b) {rows : List ℝ} (hl : rows ≠ [])
    (h : systemObservable (surfaceRadialVelocity eps quad asEuler 20) (surfaceRadialVelocity eps quad asEuler order) kep au sys t = .ok (some rows)) :
    radialVelocity eps quad asEuler order kep au sys t = .ok (rows.set 0 (rows.getD 0 0 + b.radial_velocity kep au t)) := by
  cases hbs : sys.bodies with
  | nil => rw [hbs] at hb; cases hb
  | cons b' rest =>
    rw [hbs] at hb
    obtain rfl := Option.some.inj hb
    cases rows with
    | nil => exact absurd rfl hl
    | cons c rows =>
      rw [radial_velocity_rows eps quad asEuler order kep au sys t hbs h]
      simp

/-- C103: the radial velocities of a system - the star occulted by its bodies, the bodies occulted by the star, all of them rotating, and the reflex motion of the star - have as
derivatives, with respect to all parameters of the star, the bodies, their orbits and their surfaces and time, what automatic differentiation (in both modes) computes -/
theorem system_rv_gradient_is_derivative {eps : ℝ} (he : 0 < eps) (strict : Bool) (quad : ℕ → List (ℝ × ℝ)) {asEuler : Spec.V3 → Spec.V3}
    {asEulerD : Dual × Dual × Dual → Dual × Dual × Dual} (hE : IsEulerZYZ asEuler) (hD : DifferentiatesEuler asEuler asEulerD) (order : ℕ)
    {kep : ℝ → ℝ → ℝ × ℝ} (hkep : ExactNear kep) (G au : ℝ) (m : SystemFamily) (hmass : DifferentiableAt ℝ m.mass t) (hrad : DifferentiableAt ℝ m.radius t)
    (hrad0 : m.radius t ≠ 0) (hs : m.surface.Regular t) (hper : m.surface.period.isSome) (hsr : DifferentiableAt ℝ m.surface.radius t)
    {time : ℝ → ℝ} (ht : DifferentiableAt ℝ time t) (hflux : ∫ p in stellarDisc, skyOf (m.surface.eval t) ((m.surface.eval t).rotationalPhase (time t)) p ≠ 0)
    (hne : m.bodies ≠ []) {sys : SurfaceSystem} (h : m.build G t = .ok sys)
    (hb : List.Forall₂ (RegularBody (RegularVelocity eps quad asEuler order t (time t)) kep au m t (time t)) m.bodies sys.bodies) :
    ∃ (S : ℝ → SurfaceSystem) (rows : ℝ → List ℝ) (a : List Dual), (∀ s, m.build G s = .ok (S s)) ∧
      (∀ s, radialVelocity eps quad asEuler order kep au (S s) (time s) = .ok (rows s)) ∧
      m.radialVelocityD t eps strict quad asEuler asEulerD order G kep au time = .ok a ∧ a.length = m.bodies.length + 1 ∧ (∀ s, (rows s).length = m.bodies.length + 1) ∧
      ∀ i (hi : i < a.length), a[i].v = (rows t).getD i 0 ∧ ∃ d, a[i].d = some d ∧ HasDerivAt (fun s => (rows s).getD i 0) d t := by
  have ho : ObservableOk (RegularVelocity eps quad asEuler order t (time t)) (surfaceRadialVelocity eps quad asEuler order)
      (SurfaceI.radialVelocity eps strict quad asEuler asEulerD order) t time := by
    intro m' hm r x y z rD xD yD zD hr hx hy hz hreg
    obtain ⟨a, f, h1, h2, h3, h4⟩ := rv_gradient_is_derivative he strict quad hE hD order hm ht hr hx hy hz hreg
    exact ⟨a, f, h1, h2, h3.symm, h4⟩
  have ho0 := rv_gradient_rotation eps strict quad hE hD 20 hs ht hper hsr hflux (const 0) (const 0) (const 0)
  obtain ⟨S, rows, bs, a, h1, h2, h3, h4, h5, h6, h7, h8, h9, h10⟩ := system_gradient_core (obs0 := surfaceRadialVelocity eps quad asEuler 20)
    (obs0D := SurfaceI.radialVelocity eps strict quad asEuler asEulerD 20) ho hkep G au m hmass hrad hrad0 hs ht h hb
    (by obtain ⟨a, f, h1, h2, h3, h4⟩ := ho0; exact ⟨a, f, h1, h2, h3.symm, h4⟩)
  obtain ⟨O, b, k1, k2, k3⟩ := h10 0 (List.length_pos_iff.2 hne)
  have ha0 : 0 < a.length := by omega
  refine ⟨S, fun s => (rows s).set 0 ((rows s).getD 0 0 + (O s).radial_velocity kep au (time s)),
    a.set 0 (a.getD 0 (const 0) + b.orbit.radial_velocity kep au (LimbDark.input t time)), h1, fun s => ?_, ?_, by simpa using h5, fun s => by simpa using h6 s, fun i hi => ?_⟩
  · exact reflex_rows eps quad asEuler order kep au (S s) (time s) (k1 s) (List.ne_nil_of_length_pos (by rw [h6]; omega)) (h2 s)
  · unfold SystemFamily.radialVelocityD systemRadialVelocityD
    rw [h3]
    simp only [Bind.bind, Except.bind, h4]
    cases bs with
    | nil => cases k2
    | cons b' bs =>
      obtain rfl := Option.some.inj k2
      rfl
  · have hi' : i < a.length := by simpa using hi
    have key : Tracks (fun s => ((rows s).set 0 ((rows s).getD 0 0 + (O s).radial_velocity kep au (time s))).getD i 0) t
        (a.set 0 (a.getD 0 (const 0) + b.orbit.radial_velocity kep au (LimbDark.input t time)))[i] := by
      cases i with
      | zero =>
        have hl : ∀ s, 0 < (rows s).length := fun s => by rw [h6]; omega
        have := track_add (h7 0 ha0) k3
        simpa [hl, ha0, List.getD_eq_getElem?_getD] using this
      | succ i =>
        have := h7 (i + 1) hi'
        simpa [List.getD_eq_getElem?_getD] using this
    exact ⟨key.1.symm, key.2⟩

/-- C103: the derivatives of the radial velocities of a system are finite, also where they have a kink, unless a body is exactly aligned with the star, a surface is seen
exactly along its rotation axis or the flux of its visible part is computed as zero; and automatic differentiation does not change the values -/
theorem system_rv_gradient_finite {eps : ℝ} (he : 0 < eps) (strict : Bool) (quad : ℕ → List (ℝ × ℝ)) {asEuler : Spec.V3 → Spec.V3}
    {asEulerD : Dual × Dual × Dual → Dual × Dual × Dual} (hE : IsEulerZYZ asEuler) (hD : DifferentiatesEuler asEuler asEulerD) (order : ℕ)
    {kep : ℝ → ℝ → ℝ × ℝ} (hkep : UnitSolver kep) (G au : ℝ) (central : CentralD) (density : ℝ) (cs : SurfaceI) (bodies : List (Body Dual × Option SurfaceI)) (time : Dual)
    (hmass : ∃ d, central.mass.d = some d) (hrad : ∃ d, central.radius.d = some d) (hrad0 : central.radius.v ≠ 0) (hcs : cs.Regular) (hper : cs.period.isSome)
    (hsr : ∃ d, cs.radius.d = some d) (ht : ∃ d, time.d = some d) (hflux : ∫ p in stellarDisc, skyOf cs.val (cs.val.rotationalPhase time.v) p ≠ 0) (hne : bodies ≠ [])
    {sys : SurfaceSystem} (h : SurfaceSystem.init G (some ⟨central.mass.v, central.radius.v, density⟩) (some cs.val)
      (bodies.map fun b => (.body (b.1.map (·.v)) none, b.2.map (·.val))) = .ok sys)
    (hb : List.Forall₂ (fun (b : Body Dual × Option SurfaceI) o => (∀ a, some a ∈ b.1.args → ∃ d, a.d = some d) ∧
      RegularOrbit ⟨central.mass.v, central.radius.v, density⟩ o b.1.impact_param.isSome ∧
      ¬ ((o.relative_position kep au time.v).x = 0 ∧ (o.relative_position kep au time.v).y = 0) ∧ ∃ size, b.1.radius = some size ∧ size.v ≠ 0 ∧
      (∃ w, visibleWeight eps quad asEuler order cs.val (some (size.v / central.radius.v)) ((o.relative_position kep au time.v).x / central.radius.v)
        ((o.relative_position kep au time.v).y / central.radius.v) ((o.relative_position kep au time.v).z / central.radius.v) (cs.val.rotationalPhase time.v) = .ok w ∧ w ≠ 0) ∧
      ∀ surf ∈ b.2, surf.Regular ∧ surf.period.isSome ∧ (∃ d, surf.radius.d = some d) ∧
        ∃ w, visibleWeight eps quad asEuler order surf.val (some (central.radius.v / size.v)) (-(o.relative_position kep au time.v).x / size.v)
          (-(o.relative_position kep au time.v).y / size.v) (-(o.relative_position kep au time.v).z / size.v) (surf.val.rotationalPhase time.v) = .ok w ∧ w ≠ 0) bodies sys.bodies) :
    ∃ a : List Dual, systemRadialVelocityD eps strict quad asEuler asEulerD order G kep au central cs bodies time = .ok a ∧
      radialVelocity eps quad asEuler order kep au sys time.v = .ok (a.map (·.v)) ∧ ∀ x ∈ a, ∃ d, x.d = some d := by
  obtain ⟨bs, a, h1, h2, h3, h4, h5, h6, h7⟩ := system_finite_core (Reg := fun s r x y z => s.period.isSome ∧ (∃ d, s.radius.d = some d) ∧ ¬ (x = 0 ∧ y = 0) ∧
      ∃ w, visibleWeight eps quad asEuler order s.val (some r) x y z (s.val.rotationalPhase time.v) = .ok w ∧ w ≠ 0)
    (obs0 := surfaceRadialVelocity eps quad asEuler 20) (obs := surfaceRadialVelocity eps quad asEuler order)
    (obs0D := SurfaceI.radialVelocity eps strict quad asEuler asEulerD 20) (obsD := SurfaceI.radialVelocity eps strict quad asEuler asEulerD order)
    (fun s hs r x y z hr hx hy _ hreg => rv_gradient_finite hs hreg.2.1 hreg.1 he strict quad hE hD order ht (some r) x y z
      (by intro a ha; obtain rfl := Option.some.inj ha; exact hr) hx hy (Or.inr hreg.2.2.1) hreg.2.2.2) hkep G au central density cs bodies hmass hrad hrad0 hcs ht h
    (hb.imp fun b o hbo => by
      obtain ⟨g1, g2, g4, size, hsize, hsize0, g5, g6⟩ := hbo
      exact ⟨g1, g2, size, hsize, hsize0, ⟨hper, hsr, fun hh => g4 ⟨by simpa [hrad0] using hh.1, by simpa [hrad0] using hh.2⟩, g5⟩, fun surf hsurf => by
        obtain ⟨q1, q2, q3, q4⟩ := g6 surf hsurf
        exact ⟨q1, q2, q3, fun hh => g4 ⟨by simpa [hsize0] using hh.1, by simpa [hsize0] using hh.2⟩, q4⟩⟩)
    (rv_gradient_finite hcs hsr hper he strict quad hE hD 20 ht none (const 0) (const 0) (const 0) (by simp) ⟨0, rfl⟩ ⟨0, rfl⟩ (Or.inl rfl)
      ⟨_, visibleWeight_rotation eps quad hE 20 cs.val hcs.map _ _ _ _, div_ne_zero hflux hcs.flux⟩)
  have hbl : 0 < bodies.length := List.length_pos_iff.2 hne
  have hsl : 0 < sys.bodies.length := by rw [← hb.length_eq]; exact hbl
  obtain ⟨e1, e2⟩ := h7 0 (by omega) hsl
  have ha0 : 0 < a.length := by omega
  refine ⟨a.set 0 (a.getD 0 (const 0) + bs[0].orbit.radial_velocity kep au time), ?_, ?_, ?_⟩
  · unfold systemRadialVelocityD
    rw [h1]
    simp only [Bind.bind, Except.bind, h2]
    cases bs with
    | nil => simp at h6; omega
    | cons b' bs => rfl
  · rw [reflex_rows eps quad asEuler order kep au sys time.v (List.getElem?_eq_getElem hsl) (by simpa using List.ne_nil_of_length_pos ha0) h3, List.map_set]
    congr 2
    simp [List.getD_eq_getElem?_getD, ha0, e1]
  · intro x hx
    rcases List.mem_or_eq_of_mem_set hx with hx | rfl
    · exact h4 x hx
    · refine fin_add ?_ e2
      rw [List.getD_eq_getElem _ _ ha0]
      exact h4 _ (List.getElem_mem _)

/-! ### The hypotheses are met -/

theorem skyOf_uniform {s : Surface} (hy : s.y = ⟨[((0, 0), 1)]⟩) (hu : s.u = []) (theta : Option ℝ) (p : ℝ × ℝ) : skyOf s theta p = 1 := by
  unfold skyOf skyIntensity
  have hm : ∀ q, mapAt s.y q = 1 / (2 * √π) := by
    intro q
    have hd : s.y.deg = 0 := by rw [hy]; rfl
    unfold mapAt
    rw [hd]
    simp only [Finset.sum_range_succ, Finset.sum_range_zero, zero_add, mul_zero, Nat.cast_zero, sub_self]
    rw [realHarmonic_zero, show coef s.y 0 0 = 1 by rw [hy]; rfl, one_mul]
  rw [hm, hu]
  have hsp : √π ≠ 0 := (Real.sqrt_pos.2 Real.pi_pos).ne'
  simp [profile]
  field_simp

theorem totalFlux_nil : totalFlux [] = π := by
  have := LimbDark.whole_star 0
  simpa [totalFlux, profile, LimbDark.gtil] using this

theorem gtilde_four (x y z : ℝ) : polyVal (gtilde 0) x y z = 1 ∧ polyVal (gtilde 1) x y z = 2 * x ∧ polyVal (gtilde 2) x y z = z ∧ polyVal (gtilde 3) x y z = y := by
  refine ⟨?_, ?_, ?_, ?_⟩ <;> simp [polyVal, gtilde, gTerms, show Nat.sqrt 3 = 1 from Nat.eq_sqrt.2 (by norm_num) |>.symm]

/-- a planet in transit across a star of uniform brightness, with 20 Gauss-Legendre nodes: the flux computed for the visible part is not zero -/
theorem uniform_weight {quad : ℕ → List (ℝ × ℝ)} (hq : IsGaussLegendre 20 (quad 20)) {asEuler : Spec.V3 → Spec.V3} (hE : IsEulerZYZ asEuler) {s : Surface}
    (hy : s.y = ⟨[((0, 0), 1)]⟩) (hu : s.u = []) {z : ℝ} (hz : 0 < z) (theta : Option ℝ) :
    ∃ w, visibleWeight (2 ^ (-52 : ℤ)) quad asEuler 20 s (some (1 / 10)) 0 (-(1 / 2)) z theta = .ok w ∧ w ≠ 0 := by
  have hval : ValidMap s.y := by
    rw [hy]
    exact ⟨by simp [Dict.WF], by simp, by simp⟩
  have e1 : √((0 : ℝ) ^ 2 + (-(1 / 2)) ^ 2) = 1 / 2 := by
    rw [show ((0 : ℝ) ^ 2 + (-(1 / 2)) ^ 2) = (1 / 2) ^ 2 by norm_num]
    exact Real.sqrt_sq (by norm_num)
  have he : (10 : ℝ) * 2 ^ (-52 : ℤ) < 1 / 100 := by norm_num
  have hreg : Regular (2 ^ (-52 : ℤ)) (quad 20) √((0 : ℝ) ^ 2 + (-(1 / 2)) ^ 2) (1 / 10) (kappas √((0 : ℝ) ^ 2 + (-(1 / 2)) ^ 2) (1 / 10)).1 := by
    rw [e1]
    refine Or.inr ⟨by linarith, Or.inl (by linarith), fun xw hxw => ?_⟩
    obtain ⟨-, h1, h2⟩ := node_facts hq hxw
    have h3 := Real.cos_le_one ((kappas (1 / 2) (1 / 10)).1 / 2 * (xw.1 + 1))
    exact ⟨h1.le, h2.le, by linarith⟩
  obtain ⟨g, hg, hw⟩ := visibleWeight_occulted (eps := 2 ^ (-52 : ℤ)) (by positivity) quad hE 20 s hval (r := 1 / 10) (x := 0) (y := -(1 / 2)) (z := z) theta (by norm_num) (by rw [e1]; norm_num) hz (by norm_num)
    hreg hreg
  have hdeg : s.deg = 0 := by
    unfold Surface.deg Surface.ydeg Surface.udeg
    rw [hy, hu]
    rfl
  have hg' : ∀ p ∈ stellarDisc, π * (g.getD 0 0 + g.getD 1 0 * (2 * p.1) + g.getD 2 0 * mu p + g.getD 3 0 * p.2) = 1 := by
    intro p hp
    have := hg p hp
    rw [skyOf_uniform hy hu, hdeg] at this
    simp only [Finset.sum_range_succ, Finset.sum_range_zero, Nat.reduceAdd, Nat.reducePow] at this
    obtain ⟨g0, g1, g2, g3⟩ := gtilde_four p.1 p.2 (mu p)
    rw [g0, g1, g2, g3] at this
    linarith
  have hπ := Real.pi_pos
  have m0 : mu (0, 0) = 1 := by simp [mu]
  have m1 : mu (1, 0) = 0 := by simp [mu]
  have m2 : mu (-1, 0) = 0 := by simp [mu]
  have m3 : mu (0, 1) = 0 := by simp [mu]
  have p0 := hg' (0, 0) (by simp [stellarDisc])
  have p1 := hg' (1, 0) (by simp [stellarDisc])
  have p2 := hg' (-1, 0) (by simp [stellarDisc])
  have p3 := hg' (0, 1) (by simp [stellarDisc])
  rw [m0] at p0
  rw [m1] at p1
  rw [m2] at p2
  rw [m3] at p3
  simp only [mul_zero, mul_one, add_zero] at p0 p1 p2 p3
  have hp0 : π * g.getD 0 0 = 1 := by linarith
  have z1 : g.getD 1 0 = 0 := by
    have : π * g.getD 1 0 = 0 := by linarith
    exact (mul_eq_zero.1 this).resolve_left hπ.ne'
  have z2 : g.getD 2 0 = 0 := by
    have : π * g.getD 2 0 = 0 := by linarith
    exact (mul_eq_zero.1 this).resolve_left hπ.ne'
  have z3 : g.getD 3 0 = 0 := by
    have : π * g.getD 3 0 = 0 := by linarith
    exact (mul_eq_zero.1 this).resolve_left hπ.ne'
  refine ⟨_, hw, div_ne_zero ?_ (by rw [hu, totalFlux_nil]; exact hπ.ne')⟩
  rw [hdeg, e1]
  simp only [zero_add, Finset.sum_range_succ, Finset.sum_range_zero, Nat.reduceMul, Nat.reduceAdd, Nat.reducePow, z1, z2, z3, zero_mul, add_zero, mul_zero]
  have hb := edgeError_low (by norm_num : 0 < 20) hq (b := 1 / 2) (r := 1 / 10) (by norm_num) (by norm_num) (kappa_bounds (b := 1 / 2) (r := 1 / 10) (by norm_num) (by norm_num)).1 0 0 (by norm_num) (by norm_num)
  have hs := lowLoss_small (b := 1 / 2) (r := 1 / 10) (by norm_num) (by norm_num) (by norm_num) (kappa_bounds (b := 1 / 2) (r := 1 / 10) (by norm_num) (by norm_num)).1
    (kappa_bounds (b := 1 / 2) (r := 1 / 10) (by norm_num) (by norm_num)).2 (l := 0) (by norm_num) 0
  have hvis : π * (1 / 10) ^ 2 ≤ ∫ p in stellarDisc \ occultorAt 0 (-(1 / 2)) (1 / 10), skyOf s theta p := by
    simp only [skyOf_uniform hy hu, integral_const, smul_eq_mul, mul_one]
    rw [← LimbDarkFloat.volume_disc (1 / 2) (by norm_num : (0 : ℝ) ≤ 1 / 10), measureReal_restrict_apply_univ]
    refine ENNReal.toReal_mono ?_ (measure_mono fun p hp => ?_)
    · exact ((measure_mono Set.sdiff_subset).trans_lt star_volume_lt_top).ne
    · have hp : (p.1 - 1 / 2) ^ 2 + p.2 ^ 2 ≤ (1 / 10) ^ 2 := hp
      have h1 := abs_le.1 (abs_le_of_sq_le_sq (by linarith [sq_nonneg p.2] : (p.1 - 1 / 2) ^ 2 ≤ (1 / 10) ^ 2) (by norm_num))
      have h2 := abs_le.1 (abs_le_of_sq_le_sq (by linarith [sq_nonneg (p.1 - 1 / 2)] : p.2 ^ 2 ≤ (1 / 10 : ℝ) ^ 2) (by norm_num))
      refine ⟨?_, fun ho => ?_⟩
      · show p.1 ^ 2 + p.2 ^ 2 ≤ 1
        nlinarith
      · have ho : (p.1 - 0) ^ 2 + (p.2 - -(1 / 2)) ^ 2 ≤ (1 / 10) ^ 2 := ho
        nlinarith
  have hpo : pOrder 20 0 0 = 20 := by decide
  rw [hpo, ← mul_assoc, hp0, one_mul]
  have := Real.pi_gt_three
  have := (abs_le.1 (hb.trans hs)).2
  norm_num at hvis this ⊢
  intro h0
  linarith

/-- a rotating star of uniform brightness whose inclination, obliquity, period, amplitude, phase and radius depend on the parameter -/
noncomputable def spinFamily : RotatingFamily where
  y := [((0, 0), fun _ => 1)]
  inc := some fun s => 1 + s
  obl := some fun s => 2 * s
  u := []
  period := some fun s => 10 + s
  amplitude := fun s => 1 + 3 * s
  phase := fun s => s
  radius := fun s => 1 + s

theorem spinFamily_regular : spinFamily.Regular 0 := by
  refine ⟨?_, ?_, ?_, by simp [spinFamily], ?_, ?_, differentiableAt_id, ⟨by simp [Dict.WF, spinFamily, RotatingFamily.eval], by simp [spinFamily, RotatingFamily.eval],
    by simp [spinFamily, RotatingFamily.eval]⟩, dipole_ok.2.2, ?_⟩
  · intro e he
    simp only [spinFamily, List.mem_cons, List.not_mem_nil, or_false] at he
    subst he
    exact differentiableAt_const _
  · intro f hf
    obtain rfl := Option.some.inj hf
    fun_prop
  · intro f hf
    obtain rfl := Option.some.inj hf
    fun_prop
  · intro f hf
    obtain rfl := Option.some.inj hf
    exact ⟨by fun_prop, by norm_num⟩
  · change DifferentiableAt ℝ (fun s : ℝ => 1 + 3 * s) 0
    fun_prop
  · intro h
    exact absurd rfl h

theorem spinFamily_radius : DifferentiableAt ℝ spinFamily.radius 0 := by
  change DifferentiableAt ℝ (fun s : ℝ => 1 + s) 0
  fun_prop

theorem spinFamily_flux (s : ℝ) (theta : Option ℝ) : ∫ p in stellarDisc, skyOf (spinFamily.eval s) theta p ≠ 0 := by
  simp only [skyOf_uniform (s := spinFamily.eval s) rfl rfl]
  have i0 : ∫ _ in stellarDisc, (1 : ℝ) = π := by
    have := LimbDark.whole_star 0
    simpa [LimbDark.gtil] using this
  rw [i0]
  exact Real.pi_pos.ne'

/-- the planet in transit at `(0, -1/2)` meets the conditions, for the rotating star -/
theorem spinFamily_transit {quad : ℕ → List (ℝ × ℝ)} (hq : IsGaussLegendre 20 (quad 20)) {z : ℝ} (hz : 0 < z) (time : ℝ) :
    RegularVelocity (2 ^ (-52 : ℤ)) quad eulerOf 20 0 time spinFamily (1 / 10) 0 (-(1 / 2)) z := by
  have e1 : √((0 : ℝ) ^ 2 + (-(1 / 2)) ^ 2) = 1 / 2 := by
    rw [show ((0 : ℝ) ^ 2 + (-(1 / 2)) ^ 2) = (1 / 2) ^ 2 by norm_num]
    exact Real.sqrt_sq (by norm_num)
  refine ⟨rfl, spinFamily_radius, ⟨by norm_num, Or.inr (Or.inr ⟨hz, by rw [e1]; norm_num, ?_⟩)⟩, uniform_weight hq eulerOf_isEuler rfl rfl hz _⟩
  rw [e1]
  exact regularPoint_inside _

/-- `rv_gradient_is_derivative` for a moving planet in transit -/
example (quad : ℕ → List (ℝ × ℝ)) (hq : IsGaussLegendre 20 (quad 20)) : ∃ (a : Dual) (f : ℝ → ℝ),
    SurfaceI.radialVelocity (2 ^ (-52 : ℤ)) true quad eulerOf eulerOfD 20 (spinFamily.dual 0) (some (LimbDark.input 0 fun s => 1 / 10 + s)) (LimbDark.input 0 fun s => s)
      (LimbDark.input 0 fun s => -(1 / 2) + s) (LimbDark.input 0 fun _ => 10) ((spinFamily.dual 0).rotationalPhase (LimbDark.input 0 fun s => s)) = .ok a ∧
    (∀ s, surfaceRadialVelocity (2 ^ (-52 : ℤ)) quad eulerOf 20 (spinFamily.eval s) (some (1 / 10 + s)) (some s) (some (-(1 / 2) + s)) (some 10)
      ((spinFamily.eval s).rotationalPhase s) = .ok (f s)) ∧ a.v = f 0 ∧ ∃ d, a.d = some d ∧ HasDerivAt f d 0 :=
  rv_gradient_is_derivative (t := 0) (eps := 2 ^ (-52 : ℤ)) (by positivity) true quad eulerOf_isEuler eulerOf_differentiates 20 spinFamily_regular (time := fun s => s) differentiableAt_id
    (LimbDark.track_input (by fun_prop)) (LimbDark.track_input (by fun_prop)) (LimbDark.track_input (by fun_prop)) (LimbDark.track_input (by fun_prop))
    (by simpa using spinFamily_transit hq (z := 10) (by norm_num) 0)

/-- `rv_gradient_rotation` -/
example (quad : ℕ → List (ℝ × ℝ)) : ∃ (a : Dual) (f : ℝ → ℝ),
    SurfaceI.radialVelocity (2 ^ (-52 : ℤ)) true quad eulerOf eulerOfD 20 (spinFamily.dual 0) none (const 0) (const 0) (const 0) ((spinFamily.dual 0).rotationalPhase (LimbDark.input 0 fun s => s)) = .ok a ∧
    (∀ s, surfaceRadialVelocity (2 ^ (-52 : ℤ)) quad eulerOf 20 (spinFamily.eval s) none none none none ((spinFamily.eval s).rotationalPhase s) = .ok (f s)) ∧
    a.v = f 0 ∧ ∃ d, a.d = some d ∧ HasDerivAt f d 0 :=
  rv_gradient_rotation (t := 0) (2 ^ (-52 : ℤ)) true quad eulerOf_isEuler eulerOf_differentiates 20 spinFamily_regular (time := fun s => s) differentiableAt_id rfl spinFamily_radius
    (spinFamily_flux 0 _) (const 0) (const 0) (const 0)

/-- `rv_gradient_finite` for a planet in transit -/
example (quad : ℕ → List (ℝ × ℝ)) (hq : IsGaussLegendre 20 (quad 20)) : ∃ a,
    SurfaceI.radialVelocity (2 ^ (-52 : ℤ)) true quad eulerOf eulerOfD 20 ⟨[((0, 0), const 1)], some ⟨1, some 1⟩, none, [], some ⟨10, some 1⟩, ⟨1, some 1⟩, ⟨0, some 1⟩, ⟨1, some 1⟩⟩
      (some ⟨1 / 10, some 1⟩) ⟨0, some 2⟩ ⟨-(1 / 2), some 3⟩ ⟨10, some 4⟩
      (SurfaceI.rotationalPhase ⟨[((0, 0), const 1)], some ⟨1, some 1⟩, none, [], some ⟨10, some 1⟩, ⟨1, some 1⟩, ⟨0, some 1⟩, ⟨1, some 1⟩⟩ ⟨0, some 1⟩) = .ok a ∧ ∃ d, a.d = some d := by
  have hs : (⟨[((0, 0), const 1)], some ⟨1, some 1⟩, none, [], some ⟨10, some 1⟩, ⟨1, some 1⟩, ⟨0, some 1⟩, ⟨1, some 1⟩⟩ : SurfaceI).Regular := by
    refine ⟨by simp [const], by simp, by simp, by simp, by simp, ⟨_, rfl⟩, ⟨_, rfl⟩, ⟨by simp [Dict.WF, SurfaceI.val], by simp [SurfaceI.val], by simp [SurfaceI.val]⟩, dipole_ok.2.2, fun h => absurd rfl h⟩
  obtain ⟨a, h1, h2, -⟩ := rv_gradient_finite hs ⟨1, rfl⟩ rfl (eps := 2 ^ (-52 : ℤ)) (by positivity) true quad eulerOf_isEuler eulerOf_differentiates 20 (time := ⟨0, some 1⟩) ⟨1, rfl⟩
    (some ⟨1 / 10, some 1⟩) ⟨0, some 2⟩ ⟨-(1 / 2), some 3⟩ ⟨10, some 4⟩ (by intro a ha; obtain rfl := Option.some.inj ha; exact ⟨1, rfl⟩) ⟨2, rfl⟩ ⟨3, rfl⟩ (Or.inr (by norm_num))
    (uniform_weight hq eulerOf_isEuler rfl rfl (by norm_num) _)
  exact ⟨a, h1, h2⟩

/-- a system of a rotating star with two planets on eccentric orbits, one of them with a rotating surface -/
noncomputable def spinSystem : SystemFamily := ⟨fun _ => 1, fun _ => 1, fun _ => 1, spinFamily, [(planetFamily, some spinFamily), (planetFamily, none)]⟩

/-- `system_rv_gradient_is_derivative` at the time of transit -/
example (quad : ℕ → List (ℝ × ℝ)) (hq : IsGaussLegendre 20 (quad 20)) : ∃ kep, ExactNear kep ∧ ∃ (S : ℝ → SurfaceSystem) (rows : ℝ → List ℝ) (a : List Dual), (∀ s, spinSystem.build 1 s = .ok (S s)) ∧
    (∀ s, radialVelocity (2 ^ (-52 : ℤ)) quad eulerOf 20 kep 1 (S s) s = .ok (rows s)) ∧
    spinSystem.radialVelocityD 0 (2 ^ (-52 : ℤ)) true quad eulerOf eulerOfD 20 1 kep 1 (fun s => s) = .ok a ∧ a.length = 3 ∧
    ∀ i (hi : i < a.length), ∃ d, a[i].d = some d ∧ HasDerivAt (fun s => (rows s).getD i 0) d 0 := by
  obtain ⟨kep, hkep⟩ := exists_exactNear
  obtain ⟨o, h, hreg, hp, hz⟩ := LightCurve.example_transit hkep.exact
  have hbody : planetFamily.map (· 0) = { semimajor := some 10, eccentricity := some 0.5, sin_omega_peri := some 0.6, cos_omega_peri := some 0.8, impact_param := some 0.5, mass := some 0.1, radius := some 0.1 } := by
    simp [planetFamily, Body.map]
  have hsys : spinSystem.build 1 0 = .ok ⟨⟨1, 1, 1⟩, some (spinFamily.eval 0), [o, o], [some (spinFamily.eval 0), none]⟩ := by
    simp only [SystemFamily.build, spinSystem, SurfaceSystem.init, List.map_cons, List.map_nil, List.mapM_cons, List.mapM_nil, bindSurfaceBody, hbody, h, Bind.bind, Except.bind,
      pure, Except.pure]
    rfl
  have hargs : ∀ a, some a ∈ planetFamily.args → DifferentiableAt ℝ a 0 := by
    intro a ha
    simp [planetFamily, Body.args] at ha
    rcases ha with rfl | rfl | rfl | rfl | rfl | rfl | rfl <;> fun_prop
  have hc : RegularVelocity (2 ^ (-52 : ℤ)) quad eulerOf 20 0 0 spinFamily (0.1 / 1) ((o.relative_position kep 1 0).x / 1) ((o.relative_position kep 1 0).y / 1)
      ((o.relative_position kep 1 0).z / 1) := by
    have := spinFamily_transit hq (z := (o.relative_position kep 1 0).z / 1) (by simpa using hz) 0
    rw [show ((o.relative_position kep 1 0).x / 1) = 0 by rw [hp]; simp, show ((o.relative_position kep 1 0).y / 1) = -(1 / 2) by rw [hp]; norm_num, show (0.1 / 1 : ℝ) = 1 / 10 by norm_num]
    exact this
  have hzz : -(o.relative_position kep 1 0).z / 0.1 < 0 := div_neg_of_neg_of_pos (by linarith) (by norm_num)
  have ho : RegularVelocity (2 ^ (-52 : ℤ)) quad eulerOf 20 0 0 spinFamily (1 / 0.1) (-(o.relative_position kep 1 0).x / 0.1) (-(o.relative_position kep 1 0).y / 0.1)
      (-(o.relative_position kep 1 0).z / 0.1) := by
    refine ⟨rfl, spinFamily_radius, ⟨?_, Or.inr (Or.inl hzz)⟩, ?_⟩
    · rw [hp]
      norm_num
    · exact ⟨_, visibleWeight_unocculted _ quad eulerOf_isEuler 20 _ spinFamily_regular.map _ (Or.inr hzz.le), div_ne_zero (spinFamily_flux 0 _) spinFamily_regular.flux⟩
  have hb1 : RegularBody (RegularVelocity (2 ^ (-52 : ℤ)) quad eulerOf 20 0 0) kep 1 spinSystem 0 0 (planetFamily, some spinFamily) o := by
    refine ⟨hargs, hreg, _, rfl, by norm_num, hc, ?_⟩
    intro surf hs
    obtain rfl := Option.some.inj hs
    exact ⟨spinFamily_regular, ho⟩
  have hb2 : RegularBody (RegularVelocity (2 ^ (-52 : ℤ)) quad eulerOf 20 0 0) kep 1 spinSystem 0 0 (planetFamily, none) o := by
    refine ⟨hargs, hreg, _, rfl, by norm_num, hc, ?_⟩
    intro surf hs
    cases hs
  obtain ⟨S, rows, a, h1, h2, h3, h4, -, h6⟩ := system_rv_gradient_is_derivative (t := 0) (eps := 2 ^ (-52 : ℤ)) (by positivity) true quad eulerOf_isEuler eulerOf_differentiates 20
    hkep 1 1 spinSystem (differentiableAt_const _) (differentiableAt_const _) one_ne_zero spinFamily_regular rfl spinFamily_radius (time := fun s => s) differentiableAt_id (spinFamily_flux 0 _)
    (by simp [spinSystem]) hsys (.cons hb1 (.cons hb2 .nil))
  exact ⟨kep, hkep, S, rows, a, h1, h2, h3, h4, fun i hi => (h6 i hi).2⟩

/-- the rotating star with derivatives -/
noncomputable def spinStar : SurfaceI := ⟨[((0, 0), const 1)], some ⟨1, some 1⟩, none, [], some ⟨10, some 1⟩, ⟨1, some 1⟩, ⟨0, some 1⟩, ⟨1, some 1⟩⟩

/-- `system_rv_gradient_finite`, with the solver of the program: a circular orbit at the time of transit -/
example (quad : ℕ → List (ℝ × ℝ)) (hq : IsGaussLegendre 20 (quad 20)) : ∃ a, systemRadialVelocityD (2 ^ (-52 : ℤ)) true quad eulerOf eulerOfD 20 1 Kepler.kepler 1 ⟨⟨1, some 1⟩, ⟨1, some 2⟩⟩ spinStar
      [({ semimajor := some ⟨10, some 1⟩, impact_param := some ⟨0.5, some 3⟩, radius := some ⟨0.1, some 1⟩ }, some spinStar)] ⟨0, some 1⟩ = .ok a ∧
    ∀ x ∈ a, ∃ d, x.d = some d := by
  obtain ⟨o, ho⟩ := mkOrbitalBody_of_accepted 1 ⟨1, 1, 1⟩ (b := { semimajor := some 10, impact_param := some 0.5, radius := some 0.1 })
    (by constructor <;> simp [Given, ScalarIfGiven])
  have ho' := ho
  obtain ⟨-, p0, a0, k0, hps, hec, hO⟩ := mkOrbitalBody_ok ho
  simp only [periodSemimajor, totalMass, Except.ok.injEq, Prod.mk.injEq] at hps
  simp only [eccOf, Except.ok.injEq] at hec
  obtain ⟨rfl, rfl⟩ := hps
  subst hec
  have hreg : RegularOrbit ⟨1, 1, 1⟩ o true := by
    rw [hO]
    refine ⟨?_, ?_, ?_, ?_, ?_, fun _ => ?_⟩
    · change 0 < 2 * π * 10 * √(10 / (1 * 1))
      positivity
    · change (0 : ℝ) < 10
      norm_num
    · norm_num
    · intro k hk
      cases hk
    · intro k hk
      cases hk
    · change (1 * 1 / 10 * 0.5 : ℝ) ^ 2 < 1
      norm_num
  have htr := transit_is_transit_circular 1 ho' hreg.period hreg.semimajor (by norm_num) (by rw [hO]; rfl) (by rw [hO]; rfl) 0
  have e1 : o.node = none := by rw [hO]; rfl
  have e2 : o.impact_param = 0.5 := by rw [hO]; rfl
  have e3 : o.time_transit = 0 := by rw [hO]; rfl
  simp only [e1, e2, e3, Int.cast_zero, zero_mul, add_zero, mul_one] at htr
  obtain ⟨hpx, hpy⟩ := htr.1
  have hpz := htr.2 (by
    rw [hO]
    exact Real.sqrt_pos.2 (by change (0 : ℝ) < 1 - (1 * 1 / 10 * 0.5) ^ 2; norm_num))
  have hs : spinStar.Regular := by
    refine ⟨by simp [const, spinStar], by simp [spinStar], by simp [spinStar], by simp [spinStar], by simp [spinStar], ⟨_, rfl⟩, ⟨_, rfl⟩, ⟨by simp [Dict.WF, SurfaceI.val, spinStar], by simp [SurfaceI.val, spinStar], by simp [SurfaceI.val, spinStar]⟩, dipole_ok.2.2, fun h => absurd rfl h⟩
  have hf : ∀ theta, ∫ p in stellarDisc, skyOf spinStar.val theta p ≠ 0 := by
    intro theta
    simp only [skyOf_uniform (s := spinStar.val) rfl rfl]
    have i0 : ∫ _ in stellarDisc, (1 : ℝ) = π := by
      have := LimbDark.whole_star 0
      simpa [LimbDark.gtil] using this
    rw [i0]
    exact Real.pi_pos.ne'
  obtain ⟨a, h1, -, h3⟩ := system_rv_gradient_finite (eps := 2 ^ (-52 : ℤ)) (by positivity) true quad eulerOf_isEuler eulerOf_differentiates 20 kepler_unitSolver 1 1
    ⟨⟨1, some 1⟩, ⟨1, some 2⟩⟩ 1 spinStar [({ semimajor := some ⟨10, some 1⟩, impact_param := some ⟨0.5, some 3⟩, radius := some ⟨0.1, some 1⟩ }, some spinStar)] ⟨0, some 1⟩
    ⟨_, rfl⟩ ⟨_, rfl⟩ one_ne_zero hs rfl ⟨_, rfl⟩ ⟨_, rfl⟩ (hf _) (by simp) (sys := ⟨⟨1, 1, 1⟩, some _, [o], [some _]⟩)
    (by
      simp only [SurfaceSystem.init, List.map_cons, List.map_nil, List.mapM_cons, List.mapM_nil, bindSurfaceBody, Body.map, Option.map_some, Option.map_none, ho', Bind.bind, Except.bind,
        pure, Except.pure]
      rfl)
    (.cons ⟨by intro a ha; simp [Body.args] at ha; rcases ha with rfl | rfl | rfl <;> exact ⟨_, rfl⟩, hreg, by
      rintro ⟨-, h⟩
      have := hpy.symm.trans h
      norm_num at this, _, rfl, by norm_num, by
        have := uniform_weight hq eulerOf_isEuler (s := spinStar.val) rfl rfl hpz (spinStar.val.rotationalPhase 0)
        change ∃ w, visibleWeight _ quad eulerOf 20 spinStar.val (some (0.1 / 1)) ((OrbitalBody.relative_position Kepler.kepler 1 o 0).x / 1)
          ((OrbitalBody.relative_position Kepler.kepler 1 o 0).y / 1) ((OrbitalBody.relative_position Kepler.kepler 1 o 0).z / 1) (spinStar.val.rotationalPhase 0) = .ok w ∧ w ≠ 0
        rw [hpx, hpy, div_one, div_one, div_one, div_one, show (-0.5 : ℝ) = -(1 / 2) by norm_num, show (0.1 : ℝ) = 1 / 10 by norm_num]
        exact this, by
      intro surf hs'
      obtain rfl := Option.some.inj hs'
      refine ⟨hs, rfl, ⟨_, rfl⟩, _, visibleWeight_unocculted _ quad eulerOf_isEuler 20 _ hs.map _ (Or.inr ?_), div_ne_zero (hf _) hs.flux⟩
      exact (div_neg_of_neg_of_pos (neg_neg_of_pos hpz) (by norm_num)).le⟩ .nil)
  exact ⟨a, h1, h3⟩

end Jaxoplanet.Starry
