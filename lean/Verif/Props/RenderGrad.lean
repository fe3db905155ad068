import Verif.Spec.RotvecGrad
import Verif.Proofs.RenderGrad
import Verif.Props.DopplerGrad
import Verif.Proofs.EulerGrad

/-!
# C107: the derivatives of images and intensities

`Surface.render(theta, res, rv)` and `Surface.intensity(lat, lon)`: what automatic differentiation computes for every pixel of the disc and for every point of the surface, in both modes, are
the derivatives with respect to the map, the orientation, the limb darkening, the amplitude, the rotation period, the radius, the rotational phase, the latitude and the longitude.
-/

namespace Jaxoplanet.Starry
open _root_.Jaxoplanet.Starry.Spec _root_.Jaxoplanet.Spec _root_.Jaxoplanet.Green
open Real AD AD.Dual Filter Topology
variable {t : ℝ}

namespace RotatingFamily

/-- the conditions on a surface: all parameters are differentiable, a rotation period is not zero, the map is valid, the inclination is given and not that of a surface seen exactly along
its rotation axis -/
structure Renderable (m : RotatingFamily) (t : ℝ) : Prop where
  y : ∀ e ∈ m.y, DifferentiableAt ℝ e.2 t
  obl : ∀ f ∈ m.obl, DifferentiableAt ℝ f t
  u : ∀ f ∈ m.u, DifferentiableAt ℝ f t
  period : ∀ f ∈ m.period, DifferentiableAt ℝ f t ∧ f t ≠ 0
  amplitude : DifferentiableAt ℝ m.amplitude t
  radius : DifferentiableAt ℝ m.radius t
  map : ValidMap (m.eval t).y
  inc : ∃ f, m.inc = some f ∧ DifferentiableAt ℝ f t ∧ Real.sin (f t) ≠ 0

theorem Renderable.tracks {m : RotatingFamily} (h : m.Renderable t) : TrRot (Tk t) m.eval (m.dual t) m.inc m.obl m.period where
  base := by
    have := SurfaceFamily.Smooth.tracks (m := ⟨m.y, none, none, m.u, none, m.amplitude, 0, 0⟩) ⟨h.y, h.u, h.amplitude⟩
    exact ⟨this.y, this.u, this.amplitude⟩
  inc := by
    obtain ⟨f, hf, hd, -⟩ := h.inc
    exact track_option fun g hg => by
      rw [hf] at hg
      obtain rfl := Option.some.inj hg
      exact hd
  obl := track_option h.obl
  period := track_option fun f hf => (h.period f hf).1
  hinc := fun _ => rfl
  hobl := fun _ => rfl
  hperiod := fun _ => rfl
  radius := LimbDark.track_input h.radius

end RotatingFamily

theorem trE_view0 {asEuler : V3 → V3} {asEulerD : Dual × Dual × Dual → Dual × Dual × Dual} (hD : DifferentiatesEuler asEuler asEulerD) (strict : Bool) (ydeg : ℕ)
    {fi fo : ℝ → ℝ} {inc obl : Dual} (hi : Tracks fi t inc) (ho : Tracks fo t obl) (hs : Real.sin (fi t) ≠ 0) {theta : Option (ℝ → ℝ)} {thetaD : Option Dual}
    (hth : TrO (Tk t) theta thetaD) {F : ℝ → List ℝ} {L : List Dual} (hF : TrL (Tk t) F L) :
    TrE (TrL (Tk t)) (fun s => leftProject asEuler ydeg (some (fi s)) (some (fo s)) (theta.map (· s)) (some 0) (F s))
      (leftProjectI strict asEuler asEulerD ydeg (some inc) (some obl) thetaD (const 0) L) := by
  have h0 : Tracks (fun _ => (0 : ℝ)) t (const 0) := track_const 0 t
  have hc := track_cos (track_neg h0)
  have hn := track_sin (track_neg h0)
  have hs' : ∀ f ∈ some fi, Real.sin (f t) ≠ 0 := fun f hf => by
    obtain rfl := Option.some.inj hf
    exact hs
  have A : TrO (Tk t) (some fi) (some inc) := Option.Rel.some hi
  have B : TrO (Tk t) (some fo) (some obl) := Option.Rel.some ho
  have sky := fun (F : ℝ → List ℝ) (L : List Dual) (hF : TrL (Tk t) F L) => trE_sky hD strict ydeg A B hs' hF
  obtain ⟨I, hI⟩ : ∃ I : ℝ → Option ℝ, ∀ s, I s = some (fi s) := ⟨_, fun _ => rfl⟩
  obtain ⟨O, hO⟩ : ∃ O : ℝ → Option ℝ, ∀ s, O s = some (fo s) := ⟨_, fun _ => rfl⟩
  simp only [Option.map_some] at sky
  simp only [← hI, ← hO] at sky ⊢
  exact trE_leftProject_of strict ydeg (fun {F L} hF => sky F L hF) hth (f := fun _ => 0) hc hn hF

/-- the rotation of the map onto the sky -/
theorem trE_view {asEuler : V3 → V3} {asEulerD : Dual × Dual × Dual → Dual × Dual × Dual} (hD : DifferentiatesEuler asEuler asEulerD) (strict : Bool) {S : ℝ → Surface} {SD : SurfaceI}
    {fi : ℝ → ℝ} {fo fp : Option (ℝ → ℝ)} (h : TrRot (Tk t) S SD (some fi) fo fp) (hs : Real.sin (fi t) ≠ 0) {theta : Option (ℝ → ℝ)} {thetaD : Option Dual}
    (hth : TrO (Tk t) theta thetaD) :
    TrE (TrL (Tk t)) (fun s => leftProject asEuler (ylmDeg SD.y) (some (S s).incVal) (some (S s).oblVal) (theta.map (· s)) (some 0) (S s).y.todense)
      (leftProjectI strict asEuler asEulerD (ylmDeg SD.y) (some (SD.inc.getD (const 0))) (some (SD.obl.getD (const 0))) thetaD (const 0) (ylmTodense SD.y)) := by
  have hi : Tracks fi t (SD.inc.getD (const 0)) := by
    have := h.inc
    generalize SD.inc = a at this
    cases this with
    | some ha => exact ha
  have ho : Tracks (fun s => (fo.map (· s)).getD 0) t (SD.obl.getD (const 0)) := by
    have := h.obl
    generalize SD.obl = a at this
    cases this with
    | none => exact track_const 0 t
    | some ha => exact ha
  have e1 : ∀ s, (S s).incVal = fi s := fun s => by unfold Surface.incVal; rw [h.hinc]; rfl
  have e2 : ∀ s, (S s).oblVal = (fo.map (· s)).getD 0 := fun s => by unfold Surface.oblVal; rw [h.hobl]
  simp only [e1, e2]
  exact trE_view0 hD strict (ylmDeg SD.y) hi ho hs hth h.base.todense

theorem TrE.of_ok {α β : Type} {R : (ℝ → α) → β → Prop} {X : ℝ → Except PyErr α} {XD : Except PyErr β} (h : TrE R X XD) {s : ℝ} {v : α} (hv : X s = .ok v) :
    ∃ F a, XD = .ok a ∧ (∀ s, X s = .ok (F s)) ∧ R F a := by
  rcases h with ⟨e, -, h⟩ | h
  · rw [h s] at hv
    cases hv
  · exact h

theorem orthoPoint_disc {res i j : ℕ} (h : (gridValue res j, gridValue res i) ∈ stellarDisc) : ∃ p, orthoPoint res i j = some p := by
  have h' : gridValue res j ^ 2 + gridValue res i ^ 2 ≤ 1 := h
  unfold orthoPoint
  simp only
  rw [if_pos (by linarith)]
  exact ⟨_, rfl⟩

/-- C107: every pixel of the disc in an image of the surface (or in its velocity map, `rv=True`) has as derivative, with respect to all parameters of the surface and the rotational phase,
what automatic differentiation (in both modes) computes, if the surface is not seen exactly along its rotation axis -/
theorem render_gradient_is_derivative (strict : Bool) {asEuler : V3 → V3} {asEulerD : Dual × Dual × Dual → Dual × Dual × Dual} (hE : IsEulerZYZ asEuler)
    (hD : DifferentiatesEuler asEuler asEulerD) {m : RotatingFamily} (hm : m.Renderable t) {theta : Option (ℝ → ℝ)} (hth : ∀ f ∈ theta, DifferentiableAt ℝ f t) (res i j : ℕ) (rv : Bool)
    (hrv : rv = true → m.period.isSome) (hpix : (gridValue res j, gridValue res i) ∈ stellarDisc) :
    ∃ (a : Dual) (f : ℝ → ℝ), (m.dual t).render strict asEuler asEulerD (theta.map (LimbDark.input t)) res rv i j = .ok (some a) ∧
      (∀ s, (m.eval s).render asEuler (theta.map (· s)) res rv i j = .ok (some (f s))) ∧ a.v = f t ∧ ∃ d, a.d = some d ∧ HasDerivAt f d t := by
  obtain ⟨p, hp⟩ := orthoPoint_disc hpix
  obtain ⟨-, -, hsph⟩ := gridPoint_sphere hp
  have hS := hm.tracks
  obtain ⟨fi, hfi, -, hsin⟩ := hm.inc
  have hS' := hS
  rw [hfi] at hS'
  have hok : ∃ v, (m.eval t).intensityXYZ asEuler p.1 p.2.1 p.2.2 (theta.map (· t)) rv = .ok v := by
    cases rv with
    | false => exact ⟨_, intensity_xyz hE _ hm.map _ hsph⟩
    | true =>
      obtain ⟨f, hf⟩ := Option.isSome_iff_exists.1 (hrv rfl)
      exact ⟨_, intensity_xyz_rv hE _ hm.map (P := f t) (by simp [RotatingFamily.eval, hf]) _ hsph⟩
  obtain ⟨v, hv⟩ := hok
  have hper : rv = true → ∀ q ∈ (m.dual t).period, q.v ≠ 0 := fun _ q hq => by
    simp only [RotatingFamily.dual, Option.mem_def, Option.map_eq_some_iff] at hq
    obtain ⟨f, hf, rfl⟩ := hq
    exact (hm.period f hf).2
  have main := trE_intensity hS rv hper (theta := fun s => theta.map (· s)) (trE_view hD strict hS' hsin (track_option hth)) (track_const p.1 t) (track_const p.2.1 t) (track_const p.2.2 t)
  obtain ⟨f, a, h1, h2, h3⟩ := main.of_ok hv
  refine ⟨a, f, ?_, fun s => ?_, h3.1.symm, h3.2⟩
  · unfold SurfaceI.render
    rw [hp]
    simp only [h1]
    rfl
  · unfold Surface.render
    rw [hp]
    have := h2 s
    simp only at this ⊢
    rw [this]
    rfl

/-- C107: so it has with respect to the map, the limb darkening, the amplitude and the rotational phase if the orientation is not differentiated, for every orientation -/
theorem render_gradient_fixed {asEuler : V3 → V3} (hE : IsEulerZYZ asEuler) {m : SurfaceFamily} (hm : m.Smooth t) (hmap : ValidMap (m.eval t).y)
    {theta : Option (ℝ → ℝ)} (hth : ∀ f ∈ theta, DifferentiableAt ℝ f t) (res i j : ℕ) (hpix : (gridValue res j, gridValue res i) ∈ stellarDisc) :
    ∃ (a : Dual) (f : ℝ → ℝ), (m.input t).render asEuler (theta.map (LimbDark.input t)) res i j = .ok (some a) ∧
      (∀ s, (m.eval s).render asEuler (theta.map (· s)) res false i j = .ok (some (f s))) ∧ a.v = f t ∧ ∃ d, a.d = some d ∧ HasDerivAt f d t := by
  obtain ⟨p, hp⟩ := orthoPoint_disc hpix
  obtain ⟨-, -, hsph⟩ := gridPoint_sphere hp
  have main := trE_intensity_fixed hm.tracks asEuler (track_option hth) (track_const p.1 t) (track_const p.2.1 t) (track_const p.2.2 t)
  obtain ⟨f, a, h1, h2, h3⟩ := main.of_ok (intensity_xyz hE _ hmap _ hsph)
  refine ⟨a, f, ?_, fun s => ?_, h3.1.symm, h3.2⟩
  · unfold SurfaceD.render
    rw [hp]
    simp only [h1]
    rfl
  · unfold Surface.render
    rw [hp]
    have := h2 s
    simp only at this ⊢
    rw [this]
    rfl

/-- C107: the pixels outside the disc are `nan` here too -/
theorem render_gradient_outside (strict : Bool) (asEuler : V3 → V3) (asEulerD : Dual × Dual × Dual → Dual × Dual × Dual) (s : SurfaceI) (theta : Option Dual) (res i j : ℕ) (rv : Bool)
    (hpix : (gridValue res j, gridValue res i) ∉ stellarDisc) : s.render strict asEuler asEulerD theta res rv i j = .ok none := by
  have : orthoPoint res i j = none := by
    unfold orthoPoint
    simp only
    rw [if_neg]
    intro hc
    exact hpix (show gridValue res j ^ 2 + gridValue res i ^ 2 ≤ 1 by linarith)
  unfold SurfaceI.render
  rw [this]

/-! ### latitude and longitude -/

/-- every rotation vector is a multiple of a unit vector -/
theorem rotvec_unit (v : V3) : ∃ (n : V3) (a : ℝ), normSq n = 1 ∧ v = (n.1 * a, n.2.1 * a, n.2.2 * a) := by
  by_cases h : normSq v = 0
  · refine ⟨(1, 0, 0), 0, by simp [Spec.normSq], ?_⟩
    obtain ⟨x, y, z⟩ := v
    have h' : x ^ 2 + y ^ 2 + z ^ 2 = 0 := h
    have hx : x = 0 := by nlinarith [sq_nonneg x, sq_nonneg y, sq_nonneg z]
    have hy : y = 0 := by nlinarith [sq_nonneg x, sq_nonneg y, sq_nonneg z]
    have hz : z = 0 := by nlinarith [sq_nonneg x, sq_nonneg y, sq_nonneg z]
    simp [hx, hy, hz]
  · have hp : 0 < normSq v := lt_of_le_of_ne (by unfold Spec.normSq; positivity) (Ne.symm h)
    have hs := Real.sqrt_pos.2 hp
    have hsq := Real.sq_sqrt hp.le
    refine ⟨(v.1 / √(normSq v), v.2.1 / √(normSq v), v.2.2 / √(normSq v)), √(normSq v), ?_, ?_⟩
    · change (v.1 / √(normSq v)) ^ 2 + (v.2.1 / √(normSq v)) ^ 2 + (v.2.2 / √(normSq v)) ^ 2 = 1
      rw [div_pow, div_pow, div_pow, ← add_div, ← add_div, hsq]
      exact div_self h
    · simp only [div_mul_cancel₀ _ hs.ne']

/-- a rotation is determined by the images of the three axes -/
theorem rotvec_linear {applyRotvec : V3 → V3 → V3} (hR : IsRotvec applyRotvec) (v p : V3) :
    applyRotvec v p = ((applyRotvec v (1, 0, 0)).1 * p.1 + (applyRotvec v (0, 1, 0)).1 * p.2.1 + (applyRotvec v (0, 0, 1)).1 * p.2.2,
      (applyRotvec v (1, 0, 0)).2.1 * p.1 + (applyRotvec v (0, 1, 0)).2.1 * p.2.1 + (applyRotvec v (0, 0, 1)).2.1 * p.2.2,
      (applyRotvec v (1, 0, 0)).2.2 * p.1 + (applyRotvec v (0, 1, 0)).2.2 * p.2.1 + (applyRotvec v (0, 0, 1)).2.2 * p.2.2) := by
  obtain ⟨n, a, hn, rfl⟩ := rotvec_unit v
  rw [hR n a hn, hR n a hn, hR n a hn, hR n a hn]
  simp only [rotAxis]
  refine Prod.ext ?_ (Prod.ext ?_ ?_) <;> simp only <;> ring

theorem rotvec_sphere {applyRotvec : V3 → V3 → V3} (hR : IsRotvec applyRotvec) (v : V3) {p : V3} (hp : OnSphere p) : OnSphere (applyRotvec v p) := by
  obtain ⟨n, a, hn, rfl⟩ := rotvec_unit v
  rw [hR n a hn]
  exact rotAxis_sphere n hn a hp

theorem latLon_sphere (lat lon : ℝ) : OnSphere (Real.sin (π / 2 - lat) * Real.cos (lon + π / 2), Real.sin (π / 2 - lat) * Real.sin (lon + π / 2), Real.cos (π / 2 - lat)) := by
  have h1 := Real.sin_sq_add_cos_sq (π / 2 - lat)
  have h2 := Real.sin_sq_add_cos_sq (lon + π / 2)
  change (Real.sin (π / 2 - lat) * Real.cos (lon + π / 2)) ^ 2 + (Real.sin (π / 2 - lat) * Real.sin (lon + π / 2)) ^ 2 + Real.cos (π / 2 - lat) ^ 2 = 1
  linear_combination Real.sin (π / 2 - lat) ^ 2 * h2 + h1

theorem track_latLon {lat lon : ℝ → ℝ} {latD lonD : Dual} (h1 : Tracks lat t latD) (h2 : Tracks lon t lonD) :
    Tracks (fun s => Real.sin (π / 2 - lat s) * Real.cos (lon s + π / 2)) t (latLonD latD lonD).1 ∧
    Tracks (fun s => Real.sin (π / 2 - lat s) * Real.sin (lon s + π / 2)) t (latLonD latD lonD).2.1 ∧ Tracks (fun s => Real.cos (π / 2 - lat s)) t (latLonD latD lonD).2.2 := by
  have a := track_sub (track_const (π / 2) t) h1
  have b := track_add h2 (track_const (π / 2) t)
  exact ⟨track_mul (track_sin a) (track_cos b), track_mul (track_sin a) (track_sin b), track_cos a⟩

/-- C107: `intensity(lat, lon)` has as derivative, with respect to the latitude and longitude, the map, the limb darkening and the amplitude, what automatic differentiation computes, if
the orientation is not differentiated, for every orientation -/
theorem intensity_gradient_fixed (eps : ℝ) {applyRotvec : V3 → V3 → V3} (hR : IsRotvec applyRotvec) {asEuler : V3 → V3} (hE : IsEulerZYZ asEuler) {m : SurfaceFamily} (hm : m.Smooth t)
    (hmap : ValidMap (m.eval t).y) {lat lon : ℝ → ℝ} (hlat : DifferentiableAt ℝ lat t) (hlon : DifferentiableAt ℝ lon t) :
    ∃ (a : Dual) (f : ℝ → ℝ), (m.input t).intensity eps applyRotvec asEuler (LimbDark.input t lat) (LimbDark.input t lon) = .ok a ∧
      (∀ s, (m.eval s).intensity eps applyRotvec asEuler (lat s) (lon s) = .ok (f s)) ∧ a.v = f t ∧ ∃ d, a.d = some d ∧ HasDerivAt f d t := by
  obtain ⟨axis, haxis⟩ : ∃ axis, fullRotation eps (some (m.inc.getD 0 - π / 2)) (some (m.obl.getD 0)) (some 0) (some 0) = axis := ⟨_, rfl⟩
  obtain ⟨v, hv⟩ : ∃ v : V3, (axis.1 * axis.2.2.2, axis.2.1 * axis.2.2.2, axis.2.2.1 * axis.2.2.2) = v := ⟨_, rfl⟩
  obtain ⟨t1, t2, t3⟩ := track_latLon (LimbDark.track_input hlat) (LimbDark.track_input hlon)
  have comb : ∀ a b c : ℝ, Tracks (fun s => a * (Real.sin (π / 2 - lat s) * Real.cos (lon s + π / 2)) + b * (Real.sin (π / 2 - lat s) * Real.sin (lon s + π / 2)) +
      c * Real.cos (π / 2 - lat s)) t (const a * (latLonD (LimbDark.input t lat) (LimbDark.input t lon)).1 + const b * (latLonD (LimbDark.input t lat) (LimbDark.input t lon)).2.1 +
        const c * (latLonD (LimbDark.input t lat) (LimbDark.input t lon)).2.2) := fun a b c =>
    track_add (track_add (track_mul (track_const a t) t1) (track_mul (track_const b t) t2)) (track_mul (track_const c t) t3)
  have main := trE_intensity_fixed hm.tracks asEuler (theta := none) (thetaD := none) .none
    (comb (applyRotvec v (1, 0, 0)).1 (applyRotvec v (0, 1, 0)).1 (applyRotvec v (0, 0, 1)).1)
    (comb (applyRotvec v (1, 0, 0)).2.1 (applyRotvec v (0, 1, 0)).2.1 (applyRotvec v (0, 0, 1)).2.1)
    (comb (applyRotvec v (1, 0, 0)).2.2 (applyRotvec v (0, 1, 0)).2.2 (applyRotvec v (0, 0, 1)).2.2)
  have hlin := fun s => rotvec_linear hR v (Real.sin (π / 2 - lat s) * Real.cos (lon s + π / 2), Real.sin (π / 2 - lat s) * Real.sin (lon s + π / 2), Real.cos (π / 2 - lat s))
  have hsph := rotvec_sphere hR v (latLon_sphere (lat t) (lon t))
  rw [hlin t] at hsph
  obtain ⟨f, a, h1, h2, h3⟩ := main.of_ok (intensity_xyz hE (m.eval t) hmap none hsph)
  refine ⟨a, f, ?_, fun s => ?_, h3.1.symm, h3.2⟩
  · unfold SurfaceD.intensity
    have e : fullRotation eps (some ((m.input t).inc.getD 0 - π / 2)) (some ((m.input t).obl.getD 0)) (some 0) (some 0) = axis := haxis
    simp only [e, hv, rotApplyD]
    exact h1
  · have e : fullRotation eps (some ((m.eval s).incVal - π / 2)) (some (m.eval s).oblVal) (some 0) (some 0) = axis := haxis
    unfold Surface.intensity
    simp only [e, hv]
    rw [hlin s]
    exact h2 s

/-- the axis and the angle of the rotation of `intensity` -/
theorem track_fullRotation (eps : ℝ) (strict : Bool) {fi fo : ℝ → ℝ} {inc obl : Dual} (hi : Tracks fi t inc) (ho : Tracks fo t obl) (hs : Real.sin (fi t) ≠ 0)
    (hsnap : eps + 1e-5 < 1 - Real.sin (fi t / 2) * Real.cos (fo t / 2)) :
    ∃ (fx fy fz fth : ℝ → ℝ) (x y z theta : Dual), fullRotationD eps strict (inc - const (π / 2)) obl = (x, y, z, theta) ∧
      (∀ s, fullRotation eps (some (fi s - π / 2)) (some (fo s)) (some 0) (some 0) = (fx s, fy s, fz s, fth s)) ∧
      Tracks fx t x ∧ Tracks fy t y ∧ Tracks fz t z ∧ Tracks fth t theta ∧ fth t ≠ 0 := by
  have hi2 : Tracks (fun s => (fi s - π / 2) / 2) t ((inc - const (π / 2)) / const 2) := track_div (track_sub hi (track_const _ t)) (track_const 2 t) (by simp)
  have ho2 : Tracks (fun s => 0.5 * fo s) t (const 0.5 * obl) := track_mul (track_const _ t) ho
  have co := track_cos ho2
  have so := track_sin ho2
  have ci := track_cos hi2
  have si := track_sin hi2
  have arg := track_add (track_mul si co) (track_mul ci co)
  have f := track_const (0.5 * √2) t
  have farg := track_mul f arg
  have hfarg : 0.5 * √2 * (Real.sin ((fi t - π / 2) / 2) * Real.cos (0.5 * fo t) + Real.cos ((fi t - π / 2) / 2) * Real.cos (0.5 * fo t)) =
      Real.sin (fi t / 2) * Real.cos (fo t / 2) := by
    rw [show (fi t - π / 2) / 2 = fi t / 2 - π / 4 by ring, Real.sin_sub, Real.cos_sub, Real.sin_pi_div_four, Real.cos_pi_div_four, show 0.5 * fo t = fo t / 2 by ring]
    have : √2 ^ 2 = 2 := Real.sq_sqrt (by norm_num)
    linear_combination (1 / 2 : ℝ) * Real.sin (fi t / 2) * Real.cos (fo t / 2) * this
  have hprod : Real.sin (fi t / 2) * Real.cos (fi t / 2) ≠ 0 := by
    intro h
    apply hs
    rw [show fi t = 2 * (fi t / 2) by ring, Real.sin_two_mul, mul_assoc, h, mul_zero]
  have hq : (Real.sin (fi t / 2) * Real.cos (fo t / 2)) ^ 2 < 1 := by
    have p1 := Real.sin_sq_add_cos_sq (fi t / 2)
    have h1 : 0 < Real.cos (fi t / 2) ^ 2 := by
      have := right_ne_zero_of_mul hprod
      positivity
    have h2 : Real.cos (fo t / 2) ^ 2 ≤ 1 := Real.cos_sq_le_one _
    rw [mul_pow]
    have := mul_le_mul_of_nonneg_left h2 (sq_nonneg (Real.sin (fi t / 2)))
    linarith
  obtain ⟨hl1, hl2⟩ := abs_lt.1 (sq_lt_one_iff_abs_lt_one _ |>.1 hq)
  have vf := farg.1
  beta_reduce at vf
  rw [hfarg] at vf
  have hsq2 : (0.5 * √2) ^ 2 = 0.5 := by
    rw [mul_pow, Real.sq_sqrt (by norm_num)]
    norm_num
  have harg2 : (Real.sin ((fi t - π / 2) / 2) * Real.cos (0.5 * fo t) + Real.cos ((fi t - π / 2) / 2) * Real.cos (0.5 * fo t)) ^ 2 < 2 := by
    have h3 : (0.5 * √2 * (Real.sin ((fi t - π / 2) / 2) * Real.cos (0.5 * fo t) + Real.cos ((fi t - π / 2) / 2) * Real.cos (0.5 * fo t))) ^ 2 < 1 := by rw [hfarg]; exact hq
    rw [mul_pow, hsq2] at h3
    linarith
  have hnz : ¬ |0.5 * √2 * (Real.sin ((fi t - π / 2) / 2) * Real.cos (0.5 * fo t) + Real.cos ((fi t - π / 2) / 2) * Real.cos (0.5 * fo t)) - 1| ≤ eps + 1e-5 * |(1 : ℝ)| := by
    rw [hfarg, abs_sub_comm, abs_one, mul_one]
    have := le_abs_self (1 - Real.sin (fi t / 2) * Real.cos (fo t / 2))
    linarith
  have hev1 : ∀ᶠ s in 𝓝 t, ¬ |0.5 * √2 * (Real.sin ((fi s - π / 2) / 2) * Real.cos (0.5 * fo s) + Real.cos ((fi s - π / 2) / 2) * Real.cos (0.5 * fo s)) - 1| ≤ eps + 1e-5 * |(1 : ℝ)| := by
    have hc := (farg.cont.sub (continuousAt_const (y := (1 : ℝ)))).abs
    exact (hc.eventually (lt_mem_nhds (not_le.1 hnz))).mono fun s hs => not_le.2 hs
  have hev2 : ∀ᶠ s in 𝓝 t, (Real.sin ((fi s - π / 2) / 2) * Real.cos (0.5 * fo s) + Real.cos ((fi s - π / 2) / 2) * Real.cos (0.5 * fo s)) ^ 2 < 2 :=
    (track_square arg).cont.eventually (gt_mem_nhds harg2)
  have varg := arg.1
  beta_reduce at varg
  generalize hCO : (const 0.5 * obl).cos = CO at co so arg farg vf varg
  generalize hSO : (const 0.5 * obl).sin = SO at so
  generalize hCI : ((inc - const (π / 2)) / const 2).cos = CI at ci arg farg vf varg
  generalize hSI : ((inc - const (π / 2)) / const 2).sin = SI at si arg farg vf varg
  have hok : (SI * CO + CI * CO).v ^ 2 < 2 ∧ ¬ |(const (0.5 * √2) * (SI * CO + CI * CO)).v - 1| ≤ eps + 1e-5 * |(1 : ℝ)| := by
    constructor
    · rw [← varg]
      exact harg2
    · rw [← vf, ← hfarg]
      exact hnz
  have den := track_sqrt (track_sub (track_const 1 t) (track_mul (track_const 0.5 t) (track_square arg))) (by
    simp only [sub_v, const_v, mul_v, square_v]
    have := hok.1
    simp only [add_v, mul_v] at this ⊢
    linarith)
  have hden : (const 1 - const 0.5 * (SI * CO + CI * CO).square).sqrt.v ≠ 0 := by
    have : 0 < (const 1 - const 0.5 * (SI * CO + CI * CO).square).v := by
      simp only [sub_v, const_v, mul_v, square_v]
      have := hok.1
      simp only [add_v, mul_v] at this ⊢
      linarith
    rw [sqrt_v]
    exact (Real.sqrt_pos.2 this).ne'
  have n1 := track_mul f (track_add (track_mul (track_neg si) co) (track_mul ci co))
  have n2 := track_mul f (track_add (track_mul (track_neg si) so) (track_mul so ci))
  have n3 := track_mul f (track_add (track_mul si so) (track_mul so ci))
  have hev := hev2.and hev1
  have ang := track_mul (track_const 2 t) (track_arccos farg (by rw [← vf]; exact hl1) (by rw [← vf]; exact hl2))
  have ang' := track_where_neg (st := strict) (f := fun _ => (0 : ℝ)) (fin_const 0) ang hok.2 hev1
  have w : ∀ {g : ℝ → ℝ} {a : Dual} (c : ℝ), Tracks g t a → _ := fun {g a} c hg => track_where_pos (st := strict) (g := fun _ => c) hg (fin_const c) hok hev
  refine ⟨_, _, _, _, _, _, _, _, ?_, fun s => ?_, w 1 (track_div n1 den hden), w 0 (track_div n2 den hden), w 0 (track_div n3 den hden), ang', ?_⟩
  · unfold fullRotationD
    simp only [hCO, hSO, hCI, hSI]
  · unfold fullRotation
    simp only [Option.getD_some, add_zero, sub_zero]
  · rw [if_neg hnz]
    have := Real.arccos_pos.2 (hfarg.le.trans_lt hl2)
    positivity

theorem track_rotvec {applyRotvec : V3 → V3 → V3} {applyRotvecD : Dual × Dual × Dual → Dual × Dual × Dual → Dual × Dual × Dual} (hRD : DifferentiatesRotvec applyRotvec applyRotvecD)
    {u v w x y z : ℝ → ℝ} {U V W X Y Z : Dual} (hu : Tracks u t U) (hv : Tracks v t V) (hw : Tracks w t W) (hx : Tracks x t X) (hy : Tracks y t Y) (hz : Tracks z t Z)
    (hne : (u t, v t, w t) ≠ (0, 0, 0)) :
    Tracks (fun s => (applyRotvec (u s, v s, w s) (x s, y s, z s)).1) t (applyRotvecD (U, V, W) (X, Y, Z)).1 ∧
    Tracks (fun s => (applyRotvec (u s, v s, w s) (x s, y s, z s)).2.1) t (applyRotvecD (U, V, W) (X, Y, Z)).2.1 ∧
    Tracks (fun s => (applyRotvec (u s, v s, w s) (x s, y s, z s)).2.2) t (applyRotvecD (U, V, W) (X, Y, Z)).2.2 := by
  obtain ⟨U, U'⟩ := U
  obtain ⟨V, V'⟩ := V
  obtain ⟨W, W'⟩ := W
  obtain ⟨X, X'⟩ := X
  obtain ⟨Y, Y'⟩ := Y
  obtain ⟨Z, Z'⟩ := Z
  obtain ⟨rfl, du, rfl, hu⟩ := hu
  obtain ⟨rfl, dv, rfl, hv⟩ := hv
  obtain ⟨rfl, dw, rfl, hw⟩ := hw
  obtain ⟨rfl, dx, rfl, hx⟩ := hx
  obtain ⟨rfl, dy, rfl, hy⟩ := hy
  obtain ⟨rfl, dz, rfl, hz⟩ := hz
  obtain ⟨a, b, c, ha, hb, hc, hq⟩ := hRD.deriv u v w x y z t du dv dw dx dy dz hu hv hw hx hy hz hne
  obtain ⟨h1, h2, h3⟩ := hq _ rfl
  have hval := hRD.value (⟨u t, some du⟩, ⟨v t, some dv⟩, ⟨w t, some dw⟩) (⟨x t, some dx⟩, ⟨y t, some dy⟩, ⟨z t, some dz⟩)
  exact ⟨⟨(congrArg Prod.fst hval).symm, a, h1, ha⟩, ⟨(congrArg (fun q : ℝ × ℝ × ℝ => q.2.1) hval).symm, b, h2, hb⟩, ⟨(congrArg (fun q : ℝ × ℝ × ℝ => q.2.2) hval).symm, c, h3, hc⟩⟩

/-- the axis of the rotation of `intensity` is a unit vector -/
theorem fullRotation_unit (eps : ℝ) {inc obl : ℝ} (hsnap : eps + 1e-5 < 1 - Real.sin (inc / 2) * Real.cos (obl / 2)) :
    (let axis := fullRotation eps (some (inc - π / 2)) (some obl) (some 0) (some 0)
     Spec.normSq (axis.1, axis.2.1, axis.2.2.1)) = 1 := by
  have harg : 0.5 * √2 * (Real.sin ((inc - π / 2) / 2) * Real.cos (0.5 * (obl - 0 + 0)) + Real.cos ((inc - π / 2) / 2) * Real.cos (0.5 * (obl + 0 + 0))) =
      Real.sin (inc / 2) * Real.cos (obl / 2) := by
    rw [show (inc - π / 2) / 2 = inc / 2 - π / 4 by ring, Real.sin_sub, Real.cos_sub, Real.sin_pi_div_four, Real.cos_pi_div_four,
      show 0.5 * (obl - 0 + 0) = obl / 2 by ring, show 0.5 * (obl + 0 + 0) = obl / 2 by ring]
    have : √2 ^ 2 = 2 := Real.sq_sqrt (by norm_num)
    linear_combination (1 / 2 : ℝ) * Real.sin (inc / 2) * Real.cos (obl / 2) * this
  obtain ⟨n, a, h1, h2, -⟩ := fullRotation_spec_partial eps (inc - π / 2) obl 0 0 (by
    rw [harg, abs_sub_comm]
    have := le_abs_self (1 - Real.sin (inc / 2) * Real.cos (obl / 2))
    rw [abs_one, mul_one]
    linarith)
  simp only [h1]
  exact h2

/-- C107: `intensity(lat, lon)` has as derivative, also with respect to the orientation, what automatic differentiation (in both modes) computes, if the surface is not seen exactly along its
rotation axis and the rotation is not so small that it is snapped to zero (finding F13) -/
theorem intensity_gradient_is_derivative (eps : ℝ) (strict : Bool) {applyRotvec : V3 → V3 → V3}
    {applyRotvecD : Dual × Dual × Dual → Dual × Dual × Dual → Dual × Dual × Dual} (hR : IsRotvec applyRotvec) (hRD : DifferentiatesRotvec applyRotvec applyRotvecD)
    {asEuler : V3 → V3} {asEulerD : Dual × Dual × Dual → Dual × Dual × Dual} (hE : IsEulerZYZ asEuler)
    (hD : DifferentiatesEuler asEuler asEulerD) {m : RotatingFamily} (hm : m.Renderable t)
    (hsnap : eps + 1e-5 < 1 - Real.sin ((m.eval t).incVal / 2) * Real.cos ((m.eval t).oblVal / 2))
    {lat lon : ℝ → ℝ} (hlat : DifferentiableAt ℝ lat t) (hlon : DifferentiableAt ℝ lon t) :
    ∃ (a : Dual) (f : ℝ → ℝ), (m.dual t).intensity eps strict applyRotvecD asEuler asEulerD (LimbDark.input t lat) (LimbDark.input t lon) = .ok a ∧
      (∀ s, (m.eval s).intensity eps applyRotvec asEuler (lat s) (lon s) = .ok (f s)) ∧ a.v = f t ∧ ∃ d, a.d = some d ∧ HasDerivAt f d t := by
  have hS := hm.tracks
  obtain ⟨fi, hfi, hdi, hsin⟩ := hm.inc
  have hS' := hS
  rw [hfi] at hS'
  have ei : ∀ s, (m.eval s).incVal = fi s := fun s => by simp [Surface.incVal, RotatingFamily.eval, hfi]
  have eo : ∀ s, (m.eval s).oblVal = (m.obl.map (· s)).getD 0 := fun s => rfl
  have hi : Tracks fi t ((m.dual t).inc.getD (const 0)) := by
    simp only [RotatingFamily.dual, hfi, Option.map_some, Option.getD_some]
    exact LimbDark.track_input hdi
  have ho : Tracks (fun s => (m.eval s).oblVal) t ((m.dual t).obl.getD (const 0)) := by
    simp only [eo]
    have := hS.obl
    generalize (m.dual t).obl = a at this
    generalize m.obl = b at this
    cases this with
    | none => exact track_const 0 t
    | some ha => exact ha
  rw [ei] at hsnap
  obtain ⟨fx, fy, fz, fth, x, y, z, theta, e1, e2, tx, ty, tz, tth, h0⟩ := track_fullRotation eps strict hi ho hsin hsnap
  obtain ⟨t1, t2, t3⟩ := track_latLon (LimbDark.track_input hlat) (LimbDark.track_input hlon)
  have hne : (fx t * fth t, fy t * fth t, fz t * fth t) ≠ ((0 : ℝ), (0 : ℝ), (0 : ℝ)) := by
    intro h
    have hx : fx t = 0 := (mul_eq_zero.1 (congrArg Prod.fst h)).resolve_right h0
    have hy : fy t = 0 := (mul_eq_zero.1 (congrArg (fun q : ℝ × ℝ × ℝ => q.2.1) h)).resolve_right h0
    have hz : fz t = 0 := (mul_eq_zero.1 (congrArg (fun q : ℝ × ℝ × ℝ => q.2.2) h)).resolve_right h0
    have hu := fullRotation_unit eps hsnap
    rw [e2 t, hx, hy, hz] at hu
    norm_num [Spec.normSq] at hu
  obtain ⟨q1, q2, q3⟩ := track_rotvec hRD (track_mul tx tth) (track_mul ty tth) (track_mul tz tth) t1 t2 t3 hne
  have hrot := trE_view hD strict hS' hsin (theta := none) (thetaD := none) .none
  have main := trE_intensity hS false (fun h => by cases h) (theta := fun _ => none) hrot q1 q2 q3
  have hsph := rotvec_sphere hR (fx t * fth t, fy t * fth t, fz t * fth t) (latLon_sphere (lat t) (lon t))
  obtain ⟨f, a, h1, h2, h3⟩ := main.of_ok (intensity_xyz hE (m.eval t) hm.map none hsph)
  refine ⟨a, f, ?_, fun s => ?_, h3.1.symm, h3.2⟩
  · unfold SurfaceI.intensity
    simp only [e1]
    exact h1
  · unfold Surface.intensity
    have e := e2 s
    rw [← ei s] at e
    simp only [e]
    exact h2 s

/-! ### Instances -/

/-- the formula of Rodrigues -/
noncomputable def rotvecOf (v p : V3) : V3 := rotAxis (v.1 / √(v.1 ^ 2 + v.2.1 ^ 2 + v.2.2 ^ 2), v.2.1 / √(v.1 ^ 2 + v.2.1 ^ 2 + v.2.2 ^ 2), v.2.2 / √(v.1 ^ 2 + v.2.1 ^ 2 + v.2.2 ^ 2))
  √(v.1 ^ 2 + v.2.1 ^ 2 + v.2.2 ^ 2) p

/-- the same on numbers with derivatives -/
noncomputable def rotvecOfD (v p : Dual × Dual × Dual) : Dual × Dual × Dual :=
  let a := (v.1.square + v.2.1.square + v.2.2.square).sqrt
  let x := v.1 / a
  let y := v.2.1 / a
  let z := v.2.2 / a
  let d := x * p.1 + y * p.2.1 + z * p.2.2
  (p.1 * a.cos + (y * p.2.2 - z * p.2.1) * a.sin + x * d * (const 1 - a.cos),
   p.2.1 * a.cos + (z * p.1 - x * p.2.2) * a.sin + y * d * (const 1 - a.cos),
   p.2.2 * a.cos + (x * p.2.1 - y * p.1) * a.sin + z * d * (const 1 - a.cos))

theorem rotvecOf_isRotvec : IsRotvec rotvecOf := by
  intro n a hn p
  obtain ⟨n1, n2, n3⟩ := n
  have hn' : n1 ^ 2 + n2 ^ 2 + n3 ^ 2 = 1 := hn
  have hl : √((n1 * a) ^ 2 + (n2 * a) ^ 2 + (n3 * a) ^ 2) = |a| := by
    rw [show (n1 * a) ^ 2 + (n2 * a) ^ 2 + (n3 * a) ^ 2 = a ^ 2 by linear_combination a ^ 2 * hn']
    exact Real.sqrt_sq_eq_abs a
  unfold rotvecOf
  simp only [hl]
  rcases lt_trichotomy a 0 with h | rfl | h
  · rw [abs_of_neg h]
    have e : ∀ c : ℝ, c * a / -a = -c := fun c => by rw [mul_div_assoc, div_neg, div_self h.ne, mul_neg, mul_one]
    simp only [e, rotAxis, Real.cos_neg, Real.sin_neg]
    refine Prod.ext ?_ (Prod.ext ?_ ?_) <;> simp only <;> ring
  · rw [abs_zero, rotAxis_zero, rotAxis_zero]
  · rw [abs_of_pos h]
    simp only [mul_div_cancel_right₀ _ h.ne']

theorem rotvecOf_differentiates : DifferentiatesRotvec rotvecOf rotvecOfD where
  value := fun v p => rfl
  deriv := by
    intro u v w x y z t du dv dw dx dy dz hu hv hw hx hy hz hne
    have tu : Tracks u t ⟨u t, some du⟩ := ⟨rfl, du, rfl, hu⟩
    have tv : Tracks v t ⟨v t, some dv⟩ := ⟨rfl, dv, rfl, hv⟩
    have tw : Tracks w t ⟨w t, some dw⟩ := ⟨rfl, dw, rfl, hw⟩
    have tx : Tracks x t ⟨x t, some dx⟩ := ⟨rfl, dx, rfl, hx⟩
    have ty : Tracks y t ⟨y t, some dy⟩ := ⟨rfl, dy, rfl, hy⟩
    have tz : Tracks z t ⟨z t, some dz⟩ := ⟨rfl, dz, rfl, hz⟩
    have hpos : 0 < u t ^ 2 + v t ^ 2 + w t ^ 2 := by
      by_contra h
      have h' : u t ^ 2 + v t ^ 2 + w t ^ 2 ≤ 0 := not_lt.1 h
      refine hne (Prod.ext ?_ (Prod.ext ?_ ?_)) <;> simp only <;> nlinarith [sq_nonneg (u t), sq_nonneg (v t), sq_nonneg (w t)]
    have ta := track_sqrt (track_add (track_add (track_square tu) (track_square tv)) (track_square tw)) hpos
    have ha : ((Dual.square ⟨u t, some du⟩ + Dual.square ⟨v t, some dv⟩ + Dual.square ⟨w t, some dw⟩).sqrt).v ≠ 0 := (Real.sqrt_pos.2 hpos).ne'
    have kx := track_div tu ta ha
    have ky := track_div tv ta ha
    have kz := track_div tw ta ha
    have d := track_add (track_add (track_mul kx tx) (track_mul ky ty)) (track_mul kz tz)
    have c1 := track_sub (track_const 1 t) (track_cos ta)
    have r1 := track_add (track_add (track_mul tx (track_cos ta)) (track_mul (track_sub (track_mul ky tz) (track_mul kz ty)) (track_sin ta))) (track_mul (track_mul kx d) c1)
    have r2 := track_add (track_add (track_mul ty (track_cos ta)) (track_mul (track_sub (track_mul kz tx) (track_mul kx tz)) (track_sin ta))) (track_mul (track_mul ky d) c1)
    have r3 := track_add (track_add (track_mul tz (track_cos ta)) (track_mul (track_sub (track_mul kx ty) (track_mul ky tx)) (track_sin ta))) (track_mul (track_mul kz d) c1)
    obtain ⟨-, a, ha, hA⟩ := r1
    obtain ⟨-, b, hb, hB⟩ := r2
    obtain ⟨-, c, hc, hC⟩ := r3
    refine ⟨a, b, c, hA, hB, hC, fun q hq => ?_⟩
    rw [hq]
    exact ⟨ha, hb, hc⟩

/-- a spotted rotating star all of whose parameters depend on the parameter -/
noncomputable def spottedFamily : RotatingFamily where
  y := [((0, 0), fun _ => 1), ((1, 0), fun s => 1 + s)]
  inc := some fun s => 1 + s
  obl := some fun s => 2 * s
  u := [fun s => 0.1 + s, fun _ => 0.2]
  period := some fun s => 10 + s
  amplitude := fun s => 1 + 3 * s
  phase := fun s => s
  radius := fun s => 1 + s

theorem spottedFamily_ok : spottedFamily.Renderable 0 := by
  have hsin : Real.sin ((1 : ℝ) + 0) ≠ 0 := by
    rw [add_zero]
    exact (Real.sin_pos_of_pos_of_lt_pi one_pos (by linarith [Real.pi_gt_three])).ne'
  refine ⟨?_, ?_, ?_, ?_, ?_, ?_, ⟨by simp [Dict.WF, spottedFamily, RotatingFamily.eval], by simp [spottedFamily, RotatingFamily.eval],
    by simp [spottedFamily, RotatingFamily.eval]⟩, _, rfl, by fun_prop, hsin⟩
  · intro e he
    simp only [spottedFamily, List.mem_cons, List.not_mem_nil, or_false] at he
    rcases he with rfl | rfl
    · exact differentiableAt_const _
    · simp only
      fun_prop
  · intro f hf
    obtain rfl := Option.some.inj hf
    fun_prop
  · intro f hf
    simp only [spottedFamily, List.mem_cons, List.not_mem_nil, or_false] at hf
    rcases hf with rfl | rfl
    · fun_prop
    · exact differentiableAt_const _
  · intro f hf
    obtain rfl := Option.some.inj hf
    exact ⟨by fun_prop, by norm_num⟩
  · change DifferentiableAt ℝ (fun s : ℝ => 1 + 3 * s) 0
    fun_prop
  · change DifferentiableAt ℝ (fun s : ℝ => 1 + s) 0
    fun_prop

/-- the central pixel of an image with three rows -/
theorem centre_pixel : (gridValue 3 1, gridValue 3 1) ∈ stellarDisc := by
  change gridValue 3 1 ^ 2 + gridValue 3 1 ^ 2 ≤ 1
  norm_num [gridValue]

/-- `render_gradient_is_derivative`: the central pixel of the image of the spotted star, as a velocity map -/
example : ∃ (a : Dual) (f : ℝ → ℝ), (spottedFamily.dual 0).render true eulerOf eulerOfD (some (LimbDark.input 0 fun s => 3 * s)) 3 true 1 1 = .ok (some a) ∧
    (∀ s, (spottedFamily.eval s).render eulerOf (some (3 * s)) 3 true 1 1 = .ok (some (f s))) ∧ a.v = f 0 ∧ ∃ d, a.d = some d ∧ HasDerivAt f d 0 :=
  render_gradient_is_derivative true eulerOf_isEuler eulerOf_differentiates spottedFamily_ok (theta := some fun s => 3 * s)
    (fun f hf => by obtain rfl := Option.some.inj hf; fun_prop) 3 1 1 true (fun _ => rfl) centre_pixel

/-- `render_gradient_fixed`: the central pixel of the image of a growing dipole, at any parameter -/
example (t : ℝ) : ∃ (a : Dual) (f : ℝ → ℝ), (growingDipole.input t).render eulerOf none 3 1 1 = .ok (some a) ∧
    (∀ s, (growingDipole.eval s).render eulerOf none 3 false 1 1 = .ok (some (f s))) ∧ a.v = f t ∧ ∃ d, a.d = some d ∧ HasDerivAt f d t :=
  render_gradient_fixed eulerOf_isEuler (growingDipole_ok t).1 (growingDipole_ok t).2.1 (theta := none) (by simp) 3 1 1 centre_pixel

/-- `render_gradient_outside`: the corner of the image -/
example (strict : Bool) (s : SurfaceI) (rv : Bool) : s.render strict eulerOf eulerOfD none 3 rv 0 0 = .ok none :=
  render_gradient_outside strict _ _ s none 3 0 0 rv (by
    change ¬ gridValue 3 0 ^ 2 + gridValue 3 0 ^ 2 ≤ 1
    norm_num [gridValue])

/-- `intensity_gradient_fixed`: a point that moves over the growing dipole -/
example (t : ℝ) : ∃ (a : Dual) (f : ℝ → ℝ), (growingDipole.input t).intensity (2 ^ (-52 : ℤ)) rotvecOf eulerOf (LimbDark.input t fun s => s) (LimbDark.input t fun s => 2 * s) = .ok a ∧
    (∀ s, (growingDipole.eval s).intensity (2 ^ (-52 : ℤ)) rotvecOf eulerOf s (2 * s) = .ok (f s)) ∧ a.v = f t ∧ ∃ d, a.d = some d ∧ HasDerivAt f d t :=
  intensity_gradient_fixed _ rotvecOf_isRotvec eulerOf_isEuler (growingDipole_ok t).1 (growingDipole_ok t).2.1 (lat := fun s => s) (lon := fun s => 2 * s) differentiableAt_id
    (by fun_prop)

/-- `intensity_gradient_is_derivative`: a point that moves over the spotted star while it tilts -/
example : ∃ (a : Dual) (f : ℝ → ℝ), (spottedFamily.dual 0).intensity (2 ^ (-52 : ℤ)) true rotvecOfD eulerOf eulerOfD (LimbDark.input 0 fun s => s) (LimbDark.input 0 fun s => 2 * s) = .ok a ∧
    (∀ s, (spottedFamily.eval s).intensity (2 ^ (-52 : ℤ)) rotvecOf eulerOf s (2 * s) = .ok (f s)) ∧ a.v = f 0 ∧ ∃ d, a.d = some d ∧ HasDerivAt f d 0 := by
  refine intensity_gradient_is_derivative _ true rotvecOf_isRotvec rotvecOf_differentiates eulerOf_isEuler eulerOf_differentiates spottedFamily_ok ?_
    (lat := fun s => s) (lon := fun s => 2 * s) differentiableAt_id (by fun_prop)
  have h1 : (spottedFamily.eval 0).incVal = 1 := by simp [spottedFamily, RotatingFamily.eval, Surface.incVal]
  have h2 : (spottedFamily.eval 0).oblVal = 0 := by simp [spottedFamily, RotatingFamily.eval, Surface.oblVal]
  rw [h1, h2, zero_div, Real.cos_zero, mul_one]
  have := Real.sin_lt (x := 1 / 2) (by norm_num)
  norm_num at this ⊢
  linarith

end Jaxoplanet.Starry
