import Verif.Proofs.Doppler
import Verif.Props.SurfaceSystem

/-!
# C68, C69, C70: velocities of rotating surfaces
-/

namespace Jaxoplanet.Starry
open _root_.Jaxoplanet.Starry.Spec _root_.Jaxoplanet.Spec _root_.Jaxoplanet.Green _root_.Jaxoplanet.LimbDark
open Real MeasureTheory

/-! ## C68: the velocity map -/

/-- the specification `losSpeed` is the rate at which a point of the star recedes when the rotation angle increases -/
theorem losSpeed_is_derivative (inc obl theta : ℝ) (q : Spec.V3) :
    HasDerivAt (fun t => -(toSky inc obl t q).2.2)
      (losSpeed inc obl ((toSky inc obl theta q).1, (toSky inc obl theta q).2.1)) theta := by
  have hs := Real.hasDerivAt_sin theta
  have hc := Real.hasDerivAt_cos theta
  have h := (((hs.mul_const (rotX (π / 2) q).1).add (hc.mul_const (rotX (π / 2) q).2.1)).const_mul (sin inc)).sub_const
    (cos inc * (rotX (π / 2) q).2.2)
  refine (h.congr_deriv ?_).congr_of_eventuallyEq (Filter.Eventually.of_forall fun t => ?_)
  · have ho := sin_sq_add_cos_sq obl
    simp only [losSpeed, toSky, rotX, rotZ, sin_neg, cos_neg]
    generalize cos obl = c at *
    generalize sin obl = s at *
    linear_combination (-(sin inc) * (cos theta * q.1 - sin theta * (cos (π / 2) * q.2.1 - sin (π / 2) * q.2.2))) * ho
  · simp only [toSky, rotX, rotZ, sin_neg, cos_neg, Pi.add_apply]
    ring

/-- C68: the speed of recession of a point of a star of radius `R` with rotation period `P`, as a function of time -/
theorem velocity_is_derivative (s : Surface) {P : ℝ} (hP : s.period = some P) {inc : ℝ} (hi : s.inc = some inc) (q : Spec.V3) (t : ℝ) :
    HasDerivAt (fun t => -(s.radius * (toSky inc (s.obl.getD 0) ((s.rotationalPhase t).getD 0) q).2.2))
      (velocityOf s P ((toSky inc (s.obl.getD 0) ((s.rotationalPhase t).getD 0) q).1,
        (toSky inc (s.obl.getD 0) ((s.rotationalPhase t).getD 0) q).2.1)) t := by
  have hph : ∀ t, (s.rotationalPhase t).getD 0 = 2 * π * t / P + s.phase := by
    intro t
    simp [Surface.rotationalPhase, hP]
  simp only [hph]
  have h1 : HasDerivAt (fun t : ℝ => 2 * π * t / P + s.phase) (2 * π / P) t := by
    have := ((((hasDerivAt_id t).const_mul (2 * π)).div_const P).add_const s.phase)
    simpa using this
  have h2 := ((losSpeed_is_derivative inc (s.obl.getD 0) (2 * π * t / P + s.phase) q).comp t h1).const_mul s.radius
  refine (h2.congr_deriv ?_).congr_of_eventuallyEq (Filter.Eventually.of_forall fun t => ?_)
  · simp only [velocityOf, velInc, hi, Option.getD_some]
    ring
  · simp

/-- C68: the expansion in spherical harmonics that the code uses is, at every point of the visible hemisphere, the velocity of
the star: without differential rotation `veq` times the speed of rigid rotation. A surface without inclination is treated as
seen from its equator. -/
theorem rv_map_rigid (v : ℝ) (inc obl : Option ℝ) {p : ℝ × ℝ} {z : ℝ} (hs : p.1 ^ 2 + p.2 ^ 2 + z ^ 2 = 1) :
    denseVal (matVec ((1 + 1) ^ 2) (A1 1) (rvMapExpansion (some v) inc obl none)) p.1 p.2 z =
      v * losSpeed (velInc inc) (obl.getD 0) p := by
  have h := rvMap_rotated v inc obl 0 hs
  rw [neg_zero] at h
  have h0 : dotRz 1 0 (rvMapExpansion (some v) inc obl none) = rvMapExpansion (some v) inc obl none := by
    apply dotRz_zero
    rw [rvMap_coeffs]
    rfl
  rw [h0] at h
  rw [h]
  simp [rot2]

/-- C68: without equatorial velocity the map vanishes -/
theorem rv_map_none (inc obl alpha : Option ℝ) (x y z : ℝ) (hs : x ^ 2 + y ^ 2 + z ^ 2 = 1) :
    denseVal (matVec ((1 + 1) ^ 2) (A1 1) (rvMapExpansion none inc obl alpha)) x y z = 0 := by
  rw [show rvMapExpansion none inc obl alpha = [0, 0, 0, 0] by unfold rvMapExpansion; rfl, A1_one_val _ rfl _ _ _ hs]
  simp

theorem sqrt_of_sq_ratio {c a b : ℝ} (ha : 0 ≤ a) (hb : 0 < b) (h : c = a / b ^ 2) : √c = √a / b := by
  rw [h, sqrt_div ha, sqrt_sq hb.le]

/-- the harmonics of degree three that differential rotation needs -/
theorem realHarmonic_three (x y z : ℝ) :
    realHarmonic 3 (-3) x y z = √70 / 120 / √π * 15 * (3 * x ^ 2 * y - y ^ 3) ∧
    realHarmonic 3 (-2) x y z = √105 / 60 / √π * (15 * z) * (2 * x * y) ∧
    realHarmonic 3 (-1) x y z = √42 / 12 / √π * ((15 * z ^ 2 - 3) / 2) * y ∧
    realHarmonic 3 1 x y z = √42 / 12 / √π * ((15 * z ^ 2 - 3) / 2) * x ∧
    realHarmonic 3 2 x y z = √105 / 60 / √π * (15 * z) * (x ^ 2 - y ^ 2) ∧
    realHarmonic 3 3 x y z = √70 / 120 / √π * 15 * (x ^ 3 - 3 * x * y ^ 2) := by
  have n3 : harmNorm 3 3 = √70 / 120 / √π := by
    rw [← sqrt_of_sq_ratio (c := 7 / 1440) (by norm_num) (by norm_num) (by norm_num)]
    exact harmNorm_eq 3 3 _ (by norm_num [Nat.factorial])
  have n2 : harmNorm 3 2 = √105 / 60 / √π := by
    rw [← sqrt_of_sq_ratio (c := 7 / 240) (by norm_num) (by norm_num) (by norm_num)]
    exact harmNorm_eq 3 2 _ (by norm_num [Nat.factorial])
  have n1 : harmNorm 3 1 = √42 / 12 / √π := by
    rw [← sqrt_of_sq_ratio (c := 7 / 24) (by norm_num) (by norm_num) (by norm_num)]
    exact harmNorm_eq 3 1 _ (by norm_num [Nat.factorial])
  have r3 : rodrigues 3 3 z = 15 := by
    rw [rodrigues_eq 3 3 le_rfl]
    norm_num [Finset.sum_range_succ, Nat.factorial]
  have r2 : rodrigues 3 2 z = 15 * z := by
    rw [rodrigues_eq 3 2 (by omega)]
    norm_num [Finset.sum_range_succ, Nat.factorial]
  have r1 : rodrigues 3 1 z = (15 * z ^ 2 - 3) / 2 := by
    rw [rodrigues_eq 3 1 (by omega)]
    norm_num [Finset.sum_range_succ, Nat.factorial]
    ring
  have p2 : ((x : ℂ) + y * Complex.I) ^ 2 = ((x ^ 2 - y ^ 2 : ℝ) : ℂ) + ((2 * x * y : ℝ) : ℂ) * Complex.I := by
    push_cast
    linear_combination ((y : ℂ) ^ 2) * Complex.I_sq
  have p3 : ((x : ℂ) + y * Complex.I) ^ 3 = ((x ^ 3 - 3 * x * y ^ 2 : ℝ) : ℂ) + ((3 * x ^ 2 * y - y ^ 3 : ℝ) : ℂ) * Complex.I := by
    push_cast
    linear_combination (3 * (x : ℂ) * y ^ 2 + y ^ 3 * Complex.I) * Complex.I_sq
  unfold realHarmonic
  have a3 : (-3 : ℤ).natAbs = 3 := rfl
  have a2 : (-2 : ℤ).natAbs = 2 := rfl
  have a1 : (-1 : ℤ).natAbs = 1 := rfl
  have b3 : (3 : ℤ).natAbs = 3 := rfl
  have b2 : (2 : ℤ).natAbs = 2 := rfl
  have b1 : (1 : ℤ).natAbs = 1 := rfl
  rw [a3, a2, a1, b3, b2, b1, n3, n2, n1, r3, r2, r1, p3, p2, pow_one]
  have re : ∀ a b : ℝ, ((a : ℂ) + (b : ℂ) * Complex.I).re = a := by intro a b; simp
  have im : ∀ a b : ℝ, ((a : ℂ) + (b : ℂ) * Complex.I).im = b := by intro a b; simp
  rw [re, im, re, im, re, im]
  norm_num

/-- C68: with differential rotation of parameter `alpha` the velocity is that of rigid rotation times `1 - alpha sin²(lat)`,
where the sine of the latitude of a point is its component along the rotation axis (the pole `(0, 1, 0)` of the map) -/
theorem rv_map_differential (v alpha : ℝ) (inc obl : Option ℝ) {p : ℝ × ℝ} {z : ℝ} (hs : p.1 ^ 2 + p.2 ^ 2 + z ^ 2 = 1) :
    denseVal (matVec ((3 + 1) ^ 2) (A1 3) (rvMapExpansion (some v) inc obl (some alpha))) p.1 p.2 z =
      v * losSpeed (velInc inc) (obl.getD 0) p *
        (1 - alpha * (let pole := toSky (velInc inc) (obl.getD 0) 0 (0, 1, 0); pole.1 * p.1 + pole.2.1 * p.2 + pole.2.2 * z) ^ 2) := by
  have hco : rvMapExpansion (some v) inc obl (some alpha) = (
      let A := sin (velInc inc) * cos (obl.getD 0)
      let B := sin (velInc inc) * sin (obl.getD 0)
      let C := cos (velInc inc)
      [0, v * √3 * B * (-A ^ 2 * alpha - B ^ 2 * alpha - C ^ 2 * alpha + 5) / 15, 0,
      v * √3 * A * (-A ^ 2 * alpha - B ^ 2 * alpha - C ^ 2 * alpha + 5) / 15, 0, 0, 0, 0, 0,
      v * alpha * √70 * B * (3 * A ^ 2 - B ^ 2) / 70, v * alpha * 2 * √105 * C * (-A ^ 2 + B ^ 2) / 105,
      v * alpha * √42 * B * (A ^ 2 + B ^ 2 - 4 * C ^ 2) / 210, 0, v * alpha * √42 * A * (A ^ 2 + B ^ 2 - 4 * C ^ 2) / 210,
      v * alpha * 4 * √105 * A * B * C / 105, v * alpha * √70 * A * (A ^ 2 - 3 * B ^ 2) / 70].map (· * π)) := by
    unfold rvMapExpansion velInc
    cases inc <;> cases obl <;> simp
  have hpole : toSky (velInc inc) (obl.getD 0) 0 (0, 1, 0) =
      (-(sin (velInc inc) * sin (obl.getD 0)), sin (velInc inc) * cos (obl.getD 0), cos (velInc inc)) := by
    simp [toSky, rotX, rotZ, mul_comm]
  rw [hco, hpole]
  simp only
  rw [show v * losSpeed (velInc inc) (obl.getD 0) p =
    v * (sin (velInc inc) * cos (obl.getD 0) * p.1 + sin (velInc inc) * sin (obl.getD 0) * p.2) by unfold losSpeed; ring]
  generalize sin (velInc inc) * cos (obl.getD 0) = A
  generalize sin (velInc inc) * sin (obl.getD 0) = B
  generalize cos (velInc inc) = C
  obtain ⟨x, y⟩ := p
  simp only at hs ⊢
  rw [(A1_val 3 _ (by rfl) x y z hs).2]
  obtain ⟨h1, h2, h3, h4, h5, h6⟩ := realHarmonic_three x y z
  obtain ⟨o1, o2, o3⟩ := realHarmonic_one x y z
  simp only [Finset.sum_range_succ, Finset.sum_range_zero, zero_add, mul_zero, mul_one, Nat.cast_zero, Nat.cast_one, Nat.cast_ofNat,
    List.map_cons, List.map_nil]
  norm_num
  rw [h1, h2, h3, h4, h5, h6, o1, o3]
  have hp : √π * √π = π := mul_self_sqrt pi_pos.le
  have h0 : √π ≠ 0 := (sqrt_pos.2 pi_pos).ne'
  have e3 : √3 * √3 = 3 := mul_self_sqrt (by norm_num)
  have e70 : √70 * √70 = 70 := mul_self_sqrt (by norm_num)
  have e105 : √105 * √105 = 105 := mul_self_sqrt (by norm_num)
  have e42 : √42 * √42 = 42 := mul_self_sqrt (by norm_num)
  generalize √π = s at *
  generalize √3 = t3 at *
  generalize √70 = t70 at *
  generalize √105 = t105 at *
  generalize √42 = t42 at *
  rw [← hp]
  field_simp
  linear_combination (15 * 70 * 120 * 105 * 60 * 210 * 12) * (
    v * (5 - alpha * (A ^ 2 + B ^ 2 + C ^ 2)) * (A * x + B * y) / 15 * e3 +
    2 * v * alpha / 70 / 120 * 15 * (B * (3 * A ^ 2 - B ^ 2) * (3 * x ^ 2 * y - y ^ 3) + A * (A ^ 2 - 3 * B ^ 2) * (x ^ 3 - 3 * x * y ^ 2)) * e70 +
    2 * v * alpha / 105 / 60 * 15 * z * (2 * C * (B ^ 2 - A ^ 2) * (2 * x * y) + 4 * A * B * C * (x ^ 2 - y ^ 2)) * e105 +
    2 * v * alpha / 210 / 12 * ((15 * z ^ 2 - 3) / 2) * (A ^ 2 + B ^ 2 - 4 * C ^ 2) * (A * x + B * y) * e42 +
    alpha * v * (A * x + B * y) * (A ^ 2 + B ^ 2) / 4 * hs)

/-- the intensity with `rv=True` -/
theorem intensity_rv_factor (s : Surface) (P : ℝ) :
    ∃ pv, Pijk.fromDense (matVec ((s.vdeg + 1) ^ 2) (A1 s.vdeg) (rvMapExpansion (some (2 * π * s.radius / P)) s.inc s.obl none)) none = .ok pv ∧
      pv.Exact 1 ∧ ∀ p : ℝ × ℝ, ∀ z : ℝ, p.1 ^ 2 + p.2 ^ 2 + z ^ 2 = 1 → polyVal pv.data p.1 p.2 z = velocityOf s P p := by
  have hl : (rvMapExpansion (some (2 * π * s.radius / P)) s.inc s.obl none).length = (1 + 1) ^ 2 := by rw [rvMap_coeffs]; rfl
  have hrv : (matVec ((1 + 1) ^ 2) (A1 1) (rvMapExpansion (some (2 * π * s.radius / P)) s.inc s.obl none)).length = (1 + 1) ^ 2 :=
    (A1_val 1 _ hl 0 0 1 (by norm_num)).1
  obtain ⟨pv, hpv, hpve, hpvv⟩ := fromDense_exact hrv
  refine ⟨pv, by rw [show s.vdeg = 1 from rfl, fromDense_none hrv, hpv], hpve, fun p z hs => ?_⟩
  rw [hpvv, rv_map_rigid _ _ _ hs]
  rfl

/-- C68: the intensity with `rv=True` (`render(rv=True)`) is the brightness times the velocity -/
theorem intensity_xyz_rv {asEuler : Spec.V3 → Spec.V3} (hE : IsEulerZYZ asEuler) (s : Surface) (hy : ValidMap s.y) {P : ℝ}
    (hP : s.period = some P) (theta : Option ℝ) {x y z : ℝ} (hs : x ^ 2 + y ^ 2 + z ^ 2 = 1) :
    s.intensityXYZ asEuler x y z theta true =
      .ok (brightness s.y s.u s.incVal s.oblVal (theta.getD 0) (x, y, z) * velocityOf s P (x, y) * s.amplitude) := by
  obtain ⟨Ry, h1, h2, h3, h4⟩ := intensity_factors hE s hy theta
  obtain ⟨pv, hpv, hpve, hpvv⟩ := intensity_rv_factor s P
  obtain ⟨p, hp, hpe, hpval⟩ := fromDense_exact h2
  obtain ⟨q, hq, hqe, hqval⟩ := fromDense_exact h3
  obtain ⟨w, hw, hwe, hwv⟩ := mul_exact hpe hqe
  obtain ⟨w2, hw2, hwe2, hwv2⟩ := mul_exact hwe hpve
  have hl : w2.todense.length = (s.deg + s.vdeg + 1) ^ 2 := by
    rw [hwe2.length]
    rfl
  obtain ⟨v, hv, hd⟩ := polyBasisE_dot (s.deg + s.vdeg) w2 hl x y z
  unfold Surface.intensityXYZ
  simp only [if_true, hv, h1, hp, hq, intensityPoly, hw, Surface.veq, hP, hpv, hw2, hd, bind, Except.bind, pure, Except.pure]
  rw [hwe2.val, hwv2 _ _ _ hs, hwv _ _ _ hs, hpval, hqval, h4 _ _ _ hs, hpvv (x, y) z hs]

/-! ## C69: the radial velocity of a surface -/

/-- C69: without occultor, the velocity of a surface is its velocity averaged over the disc with the brightness as weight,
times the amplitude (finding F12: the amplitude should cancel) -/
theorem surface_rv_rotation (eps : ℝ) (quad : ℕ → List (ℝ × ℝ)) {asEuler : Spec.V3 → Spec.V3} (hE : IsEulerZYZ asEuler)
    (order : ℕ) (s : Surface) (hy : ValidMap s.y) {P : ℝ} (hP : s.period = some P) (htot : totalFlux s.u ≠ 0) (x y z theta : Option ℝ) :
    surfaceRadialVelocity eps quad asEuler order s none x y z theta =
      .ok (s.amplitude * meanVelocity (skyOf s theta) (velocityOf s P) stellarDisc) := by
  obtain ⟨c, cv, hc, hcv, hv, hvv, hf⟩ := projectVelocity_spec hE s hy hP htot theta 0
  unfold surfaceRadialVelocity
  simp only
  rw [show s.vdeg = 1 from rfl, hf _ (rT_spec _).1, rT_dot _ _ hc, rT_dot _ _ hcv,
    rotated_any 0 hv _ le_rfl measurableSet_stellarDisc,
    rotated_any (f := fun p => velocityOf s P p * skyOf s theta p) 0 hvv _ le_rfl measurableSet_stellarDisc, rot2_disc]
  unfold meanVelocity
  rw [mul_div_assoc, div_div_div_cancel_right₀ pi_pos.ne']

/-- C69: an occultor that is behind the star or does not overlap it changes nothing -/
theorem surface_rv_unocculted (eps : ℝ) (quad : ℕ → List (ℝ × ℝ)) {asEuler : Spec.V3 → Spec.V3} (hE : IsEulerZYZ asEuler)
    (order : ℕ) (s : Surface) (hy : ValidMap s.y) {P : ℝ} (hP : s.period = some P) (htot : totalFlux s.u ≠ 0) (r x y z : ℝ)
    (theta : Option ℝ) (h : 1 + r ≤ √(x ^ 2 + y ^ 2) ∨ z ≤ 0) :
    surfaceRadialVelocity eps quad asEuler order s (some r) (some x) (some y) (some z) theta =
      .ok (s.amplitude * meanVelocity (skyOf s theta) (velocityOf s P) stellarDisc) := by
  obtain ⟨c, cv, hc, hcv, hv, hvv, hf⟩ := projectVelocity_spec hE s hy hP htot theta (arctan2 x y)
  unfold surfaceRadialVelocity
  simp only [Option.getD_some]
  rw [show s.vdeg = 1 from rfl, designVector_rot eps quad order (by omega) r x y z h]
  simp only [bind, Except.bind]
  rw [hf _ (rT_spec _).1, rT_dot _ _ hc, rT_dot _ _ hcv,
    rotated_any _ hv _ le_rfl measurableSet_stellarDisc,
    rotated_any (f := fun p => velocityOf s P p * skyOf s theta p) _ hvv _ le_rfl measurableSet_stellarDisc, rot2_disc]
  unfold meanVelocity
  rw [mul_div_assoc, div_div_div_cancel_right₀ pi_pos.ne']

/-- C69: during an occultation (the Rossiter-McLaughlin effect) both integrals are those over the part of the disc outside the
occultor, up to the errors of the quadrature along its edge. `g` and `h` are the coefficients, in the Green basis, of the
brightness and of the velocity times the brightness, in the frame where the occultor is on the `y` axis. -/
theorem surface_rv_occulted {eps : ℝ} (he : 0 < eps) (quad : ℕ → List (ℝ × ℝ)) {asEuler : Spec.V3 → Spec.V3} (hE : IsEulerZYZ asEuler)
    (order : ℕ) (s : Surface) (hy : ValidMap s.y) {P : ℝ} (hP : s.period = some P) (htot : totalFlux s.u ≠ 0) {r x y z : ℝ} (theta : Option ℝ)
    (hr : 0 ≤ r) (hb : √(x ^ 2 + y ^ 2) < 1 + r) (hz : 0 < z) (hne : ¬ (x = 0 ∧ y = 0 ∧ r = 1))
    (hreg : Regular eps (quad order) √(x ^ 2 + y ^ 2) r (kappas √(x ^ 2 + y ^ 2) r).1)
    (hreg' : Regular eps (quad (min order 20)) √(x ^ 2 + y ^ 2) r (kappas √(x ^ 2 + y ^ 2) r).1) :
    ∃ g h : List ℝ,
      (∀ p ∈ stellarDisc, skyOf s theta (rot2 (-(arctan2 x y)) p) =
        π * ∑ n ∈ Finset.range ((s.deg + 1 + 1) ^ 2), g.getD n 0 * polyVal (gtilde n) p.1 p.2 (mu p)) ∧
      (∀ p ∈ stellarDisc, velocityOf s P (rot2 (-(arctan2 x y)) p) * skyOf s theta (rot2 (-(arctan2 x y)) p) =
        π * ∑ n ∈ Finset.range ((s.deg + 1 + 1) ^ 2), h.getD n 0 * polyVal (gtilde n) p.1 p.2 (mu p)) ∧
      surfaceRadialVelocity eps quad asEuler order s (some r) (some x) (some y) (some z) theta =
        .ok (s.amplitude *
          (((∫ p in stellarDisc \ occultorAt x y r, velocityOf s P p * skyOf s theta p) - π *
            ∑ l ∈ Finset.range (s.deg + 1 + 1), ∑ q ∈ Finset.range (2 * l + 1), h.getD (l ^ 2 + q) 0 *
              edgeError (quad (pOrder order l q)) √(x ^ 2 + y ^ 2) r (kappas √(x ^ 2 + y ^ 2) r).1 l q) /
          ((∫ p in stellarDisc \ occultorAt x y r, skyOf s theta p) - π *
            ∑ l ∈ Finset.range (s.deg + 1 + 1), ∑ q ∈ Finset.range (2 * l + 1), g.getD (l ^ 2 + q) 0 *
              edgeError (quad (pOrder order l q)) √(x ^ 2 + y ^ 2) r (kappas √(x ^ 2 + y ^ 2) r).1 l q))) := by
  obtain ⟨c, cv, hc, hcv, hv, hvv, hf⟩ := projectVelocity_spec hE s hy hP htot theta (arctan2 x y)
  obtain ⟨d, hd, hdl, hdot⟩ := designVector_dot he quad order (s.deg + 1) (by omega) hr hb hz hne hreg hreg'
  obtain ⟨g, -, hg2, hg3⟩ := hdot c hc
  obtain ⟨h, -, hh2, hh3⟩ := hdot cv hcv
  refine ⟨g, h, fun p hp => by rw [← hv p hp, hg2], fun p hp => by rw [← hvv p hp, hh2], ?_⟩
  have hV : stellarDisc \ occultorY √(x ^ 2 + y ^ 2) r ⊆ stellarDisc := Set.sdiff_subset
  have hVm : MeasurableSet (stellarDisc \ occultorY √(x ^ 2 + y ^ 2) r) := measurableSet_stellarDisc.diff (measurableSet_occultorY _ _)
  unfold surfaceRadialVelocity
  simp only [Option.getD_some]
  rw [show s.vdeg = 1 from rfl, hd]
  simp only [bind, Except.bind]
  rw [hf _ hdl, hg3, hh3, rotated_any _ hv _ hV hVm,
    rotated_any (f := fun p => velocityOf s P p * skyOf s theta p) _ hvv _ hV hVm, rot2_occultor]
  congr 1
  rw [mul_div_assoc]
  congr 1
  rw [← div_div_div_cancel_right₀ pi_pos.ne' (_ - π * _)]
  congr 1 <;> field_simp

/-- C69: with exact line integrals along the edge, the velocity is exactly the mean velocity of the visible part -/
theorem surface_rv_exact {eps : ℝ} (he : 0 < eps) (quad : ℕ → List (ℝ × ℝ)) {asEuler : Spec.V3 → Spec.V3} (hE : IsEulerZYZ asEuler)
    (order : ℕ) (s : Surface) (hy : ValidMap s.y) {P : ℝ} (hP : s.period = some P) (htot : totalFlux s.u ≠ 0) {r x y z : ℝ} (theta : Option ℝ)
    (hr : 0 ≤ r) (hb : √(x ^ 2 + y ^ 2) < 1 + r) (hz : 0 < z) (hne : ¬ (x = 0 ∧ y = 0 ∧ r = 1))
    (hreg : Regular eps (quad order) √(x ^ 2 + y ^ 2) r (kappas √(x ^ 2 + y ^ 2) r).1)
    (hreg' : Regular eps (quad (min order 20)) √(x ^ 2 + y ^ 2) r (kappas √(x ^ 2 + y ^ 2) r).1)
    (hq : ∀ l ≤ s.deg + 1, ∀ q ≤ 2 * l, edgeError (quad (pOrder order l q)) √(x ^ 2 + y ^ 2) r (kappas √(x ^ 2 + y ^ 2) r).1 l q = 0) :
    surfaceRadialVelocity eps quad asEuler order s (some r) (some x) (some y) (some z) theta =
      .ok (s.amplitude * meanVelocity (skyOf s theta) (velocityOf s P) (stellarDisc \ occultorAt x y r)) := by
  obtain ⟨g, h, -, -, hres⟩ := surface_rv_occulted he quad hE order s hy hP htot theta hr hb hz hne hreg hreg'
  have hz : ∀ g : List ℝ, ∑ l ∈ Finset.range (s.deg + 1 + 1), ∑ q ∈ Finset.range (2 * l + 1), g.getD (l ^ 2 + q) 0 *
      edgeError (quad (pOrder order l q)) √(x ^ 2 + y ^ 2) r (kappas √(x ^ 2 + y ^ 2) r).1 l q = 0 := by
    intro g
    refine Finset.sum_eq_zero fun l hl => Finset.sum_eq_zero fun q hq' => ?_
    rw [Finset.mem_range] at hl hq'
    rw [hq l (by omega) q (by omega), mul_zero]
  rw [hres, hz, hz, mul_zero, sub_zero, sub_zero]
  rfl

/-- C69: a surface without rotation period has no radial velocity: the function raises (finding F27) -/
theorem surface_rv_no_period (eps : ℝ) (quad : ℕ → List (ℝ × ℝ)) {asEuler : Spec.V3 → Spec.V3} (hE : IsEulerZYZ asEuler)
    (order : ℕ) (s : Surface) (hP : s.period = none) (x y z theta : Option ℝ) :
    ∃ m, surfaceRadialVelocity eps quad asEuler order s none x y z theta = .error (.typeError m) := by
  have hrot : ∃ M', rotatedY asEuler s theta 0 = .ok M' ∧ M'.length = (s.ydeg + 1) ^ 2 := by
    unfold rotatedY
    by_cases h : s.ydeg = 0
    · exact ⟨s.y.todense, by rw [if_pos h], todense_length _⟩
    · rw [if_neg h]
      obtain ⟨M, h1, h2, -⟩ := leftProject_view hE s.ydeg s.inc s.obl theta 0 s.y.todense
      exact ⟨M, h1, h2⟩
  obtain ⟨M', hM1, hM2⟩ := hrot
  obtain ⟨cu, q, hcu, hq, hu, hval⟩ := uPoly_spec s.u
  obtain ⟨py, hpy, -⟩ := fromDense_exact (A1_val s.ydeg M' hM2 0 0 1 (by norm_num)).1
  have hqd : q.todense = cu := pijk_todense_fromDense hcu (some s.u.length) (Or.inr rfl) hq
  have hflux : ∃ f, q.dot (rT s.udeg) = .ok f := ⟨_, dot_ok _ _ (by rw [hqd, (rT_spec s.udeg).1, hcu]; rfl)⟩
  obtain ⟨f, hf⟩ := hflux
  refine ⟨"unsupported operand type(s) for /: 'float' and 'NoneType'", ?_⟩
  unfold surfaceRadialVelocity projectVelocity rvPoly Surface.veq
  simp only [hM1, hu, hpy, hf, hP, bind, Except.bind]

/-- the mean velocity of a non-negative brightness does not exceed the fastest point -/
theorem meanVelocity_bound {I v : ℝ × ℝ → ℝ} {V : Set (ℝ × ℝ)} (hV : MeasurableSet V) (hI : ∀ p ∈ V, 0 ≤ I p)
    (hint : IntegrableOn I V) (hvi : IntegrableOn (fun p => v p * I p) V) {c : ℝ} (hc : 0 ≤ c) (hv : ∀ p ∈ V, |v p| ≤ c) :
    |meanVelocity I v V| ≤ c := by
  unfold meanVelocity
  have h0 : 0 ≤ ∫ p in V, I p := setIntegral_nonneg hV hI
  rw [abs_div, abs_of_nonneg h0]
  refine div_le_of_le_mul₀ h0 hc ?_
  calc |∫ p in V, v p * I p| ≤ ∫ p in V, |v p * I p| := abs_integral_le_integral_abs
    _ ≤ ∫ p in V, c * I p := by
        refine setIntegral_mono_on hvi.abs (hint.const_mul c) hV fun p hp => ?_
        rw [abs_mul, abs_of_nonneg (hI p hp)]
        exact mul_le_mul_of_nonneg_right (hv p hp) (hI p hp)
    _ = c * ∫ p in V, I p := MeasureTheory.integral_const_mul _ _

/-- the speed of a point of the disc is at most that of the equator seen edge-on -/
theorem losSpeed_bound (inc obl : ℝ) {p : ℝ × ℝ} (hp : p ∈ stellarDisc) : |losSpeed inc obl p| ≤ |sin inc| := by
  unfold losSpeed
  rw [abs_mul]
  refine mul_le_of_le_one_right (abs_nonneg _) ?_
  rw [← sq_le_one_iff_abs_le_one]
  have h : p.1 ^ 2 + p.2 ^ 2 ≤ 1 := hp
  nlinarith [sin_sq_add_cos_sq obl, sq_nonneg (cos obl * p.2 - sin obl * p.1)]

/-- C69: a star whose brightness depends on the distance from the centre only (a uniform map) has no net velocity -/
theorem surface_rv_uniform (eps : ℝ) (quad : ℕ → List (ℝ × ℝ)) {asEuler : Spec.V3 → Spec.V3} (hE : IsEulerZYZ asEuler)
    (order : ℕ) (s : Surface) (hy : ValidMap s.y) (hd : s.ydeg = 0) {P : ℝ} (hP : s.period = some P) (htot : totalFlux s.u ≠ 0)
    (x y z theta : Option ℝ) :
    surfaceRadialVelocity eps quad asEuler order s none x y z theta = .ok 0 := by
  rw [surface_rv_rotation eps quad hE order s hy hP htot]
  have hz : ∫ p in stellarDisc, velocityOf s P p * skyOf s theta p = 0 := by
    have h := integral_rot2 π stellarDisc measurableSet_stellarDisc (fun p => velocityOf s P p * skyOf s theta p)
    rw [rot2_disc] at h
    have h2 : ∀ p, velocityOf s P (rot2 π p) * skyOf s theta (rot2 π p) = -(velocityOf s P p * skyOf s theta p) := by
      intro p
      unfold skyOf
      rw [skyIntensity_uniform _ hd, skyIntensity_uniform _ hd, mu_rot2]
      simp only [velocityOf, losSpeed, rot2, cos_pi, sin_pi]
      ring
    simp only [h2] at h
    rw [MeasureTheory.integral_neg] at h
    linarith
  unfold meanVelocity
  rw [hz]
  simp

theorem skyOf_integrable {asEuler : Spec.V3 → Spec.V3} (hE : IsEulerZYZ asEuler) (s : Surface) (hy : ValidMap s.y) (theta : Option ℝ) :
    IntegrableOn (skyOf s theta) stellarDisc := sky_integrable hE s hy theta

theorem velocity_sky_integrable {asEuler : Spec.V3 → Spec.V3} (hE : IsEulerZYZ asEuler) (s : Surface) (hy : ValidMap s.y) (theta : Option ℝ)
    (P : ℝ) : IntegrableOn (fun p => velocityOf s P p * skyOf s theta p) stellarDisc := by
  refine (skyOf_integrable hE s hy theta).bdd_mul (c := |2 * π * s.radius / P * sin (velInc s.inc)|) ?_ ?_
  · have : Continuous (velocityOf s P) := by
      unfold velocityOf losSpeed
      fun_prop
    exact this.aestronglyMeasurable
  · refine (ae_restrict_iff' measurableSet_stellarDisc).2 (Filter.Eventually.of_forall fun p hp => ?_)
    unfold velocityOf
    rw [norm_eq_abs, abs_mul, abs_mul]
    exact mul_le_mul_of_nonneg_left (losSpeed_bound _ _ hp) (abs_nonneg _)

/-- C69: a surface that is nowhere dark has a velocity of at most the projected equatorial velocity (times the amplitude) -/
theorem surface_rv_bound (eps : ℝ) (quad : ℕ → List (ℝ × ℝ)) {asEuler : Spec.V3 → Spec.V3} (hE : IsEulerZYZ asEuler)
    (order : ℕ) (s : Surface) (hy : ValidMap s.y) {P : ℝ} (hP : s.period = some P) (htot : totalFlux s.u ≠ 0) (x y z theta : Option ℝ)
    (hpos : ∀ p ∈ stellarDisc, 0 ≤ skyOf s theta p) :
    ∃ v, surfaceRadialVelocity eps quad asEuler order s none x y z theta = .ok v ∧
      |v| ≤ |s.amplitude| * |2 * π * s.radius / P * sin (velInc s.inc)| := by
  refine ⟨_, surface_rv_rotation eps quad hE order s hy hP htot x y z theta, ?_⟩
  rw [abs_mul]
  refine mul_le_mul_of_nonneg_left ?_ (abs_nonneg _)
  refine meanVelocity_bound measurableSet_stellarDisc hpos (skyOf_integrable hE s hy theta) (velocity_sky_integrable hE s hy theta P)
    (abs_nonneg _) fun p hp => ?_
  unfold velocityOf
  rw [abs_mul, abs_mul]
  exact mul_le_mul_of_nonneg_left (losSpeed_bound _ _ hp) (abs_nonneg _)

/-- Finding F12: the velocity is proportional to the amplitude of the surface, although the amplitude is a factor of the brightness only -/
theorem surface_rv_amplitude (eps : ℝ) (quad : ℕ → List (ℝ × ℝ)) {asEuler : Spec.V3 → Spec.V3} (hE : IsEulerZYZ asEuler)
    (order : ℕ) (s : Surface) (hy : ValidMap s.y) {P : ℝ} (hP : s.period = some P) (htot : totalFlux s.u ≠ 0) (x y z theta : Option ℝ) (a : ℝ) :
    surfaceRadialVelocity eps quad asEuler order { s with amplitude := a * s.amplitude } none x y z theta =
      (surfaceRadialVelocity eps quad asEuler order s none x y z theta).map (a * ·) := by
  rw [surface_rv_rotation eps quad hE order s hy hP htot, surface_rv_rotation eps quad hE order { s with amplitude := a * s.amplitude } hy hP htot]
  simp only [Except.map, Except.ok.injEq]
  rw [← mul_assoc]
  rfl

/-- Finding F26: for a surface without inclination the brightness is that of a star seen from its pole (`observerView 0`), which
shows no velocity along the line of sight; the velocity map is that of a star seen from its equator -/
theorem velocity_without_inclination (s : Surface) (hi : s.inc = none) (P : ℝ) (p : ℝ × ℝ) :
    velocityOf s P p = 2 * π * s.radius / P * (cos (s.obl.getD 0) * p.1 + sin (s.obl.getD 0) * p.2) ∧ losSpeed 0 (s.obl.getD 0) p = 0 := by
  simp [velocityOf, velInc, hi, losSpeed]

/-! ## C70: the radial velocity of a system -/

/-- C70: the radial velocities of a system are the rows of `system_observable` for `surface_radial_velocity`; the row of the central
also has the reflex motion due to the **first** body (finding F12: the other bodies are ignored). -/
theorem radial_velocity_rows (eps : ℝ) (quad : ℕ → List (ℝ × ℝ)) (asEuler : Spec.V3 → Spec.V3) (order : ℕ)
    (kep : ℝ → ℝ → ℝ × ℝ) (au : ℝ) (sys : SurfaceSystem) (t : ℝ) {b : Keplerian.OrbitalBody} {rest : List Keplerian.OrbitalBody}
    (hb : sys.bodies = b :: rest) {c : ℝ} {rows : List ℝ}
    (h : systemObservable (surfaceRadialVelocity eps quad asEuler 20) (surfaceRadialVelocity eps quad asEuler order) kep au sys t =
      .ok (some (c :: rows))) :
    radialVelocity eps quad asEuler order kep au sys t = .ok ((c + b.radial_velocity kep au t) :: rows) := by
  unfold radialVelocity addReflex
  have hr := (Keplerian.system_quantities kep au sys.toSystem (by simp [SurfaceSystem.toSystem, hb]) t).2.2.2
  have hl := vecOf_scalars (sys.toSystem.bodies.map fun o => o.radial_velocity kep au t)
  rw [List.map_map] at hl
  simp only [h, hr, bind, Except.bind, List.getElem?_cons_zero]
  rw [show (fun o : Keplerian.OrbitalBody => Stack.Arr.scalar (o.radial_velocity kep au t)) =
    Stack.Arr.scalar ∘ fun o => o.radial_velocity kep au t from rfl, hl]
  simp [SurfaceSystem.toSystem, hb, pure, Except.pure]

/-- C70: a system without bodies raises -/
theorem radial_velocity_no_bodies (eps : ℝ) (quad : ℕ → List (ℝ × ℝ)) (asEuler : Spec.V3 → Spec.V3) (order : ℕ)
    (kep : ℝ → ℝ → ℝ × ℝ) (au : ℝ) (sys : SurfaceSystem) (t : ℝ) (hb : sys.bodies = []) :
    ∃ e, radialVelocity eps quad asEuler order kep au sys t = .error e := by
  unfold radialVelocity addReflex
  have hr : ∃ e, sys.toSystem.radial_velocity kep au t = .error e := by
    have hs : sys.toSystem.bodies = [] := hb
    unfold Keplerian.System.radial_velocity Keplerian.System.bodyVmap Keplerian.System.bodyStack
    rw [hs]
    exact ⟨_, rfl⟩
  obtain ⟨e, he⟩ := hr
  simp only [he, bind, Except.bind]
  cases systemObservable (surfaceRadialVelocity eps quad asEuler 20) (surfaceRadialVelocity eps quad asEuler order) kep au sys t with
  | error e => exact ⟨e, rfl⟩
  | ok r => cases r <;> exact ⟨_, rfl⟩

/-- C70: the radial velocities of a system in which no body is in front of the central or behind it: the velocity of each
surface averaged over its whole disc, plus, for the central, the reflex velocity due to the first body -/
theorem radial_velocity_out_of_transit (eps : ℝ) (quad : ℕ → List (ℝ × ℝ)) {asEuler : Spec.V3 → Spec.V3} (hE : IsEulerZYZ asEuler) (order : ℕ)
    (kep : ℝ → ℝ → ℝ × ℝ) (au : ℝ) (sys : SurfaceSystem) (t : ℝ)
    (hp : sys.bodies.length = sys.body_surfaces.length) {cs : Surface} (hcs : sys.central_surface = some cs)
    (hy : ValidMap cs.y) {P : ℝ} (hP : cs.period = some P) (htot : totalFlux cs.u ≠ 0)
    {b : Keplerian.OrbitalBody} {rest : List Keplerian.OrbitalBody} (hb : sys.bodies = b :: rest)
    {rad : ℕ → ℝ} (hrad : ∀ i (h : i < sys.bodies.length), sys.bodies[i].radius = some (rad i))
    {pos : ℕ → Keplerian.V3} (hpos : ∀ i (h : i < sys.bodies.length), sys.bodies[i].relative_position kep au t = pos i)
    {R : ℝ} (hR : sys.central.radius = R)
    (hout : ∀ i < sys.bodies.length, 1 + rad i / R ≤ √(((pos i).x / R) ^ 2 + ((pos i).y / R) ^ 2))
    (hdark : ∀ s ∈ sys.body_surfaces, s = none) :
    radialVelocity eps quad asEuler order kep au sys t =
      .ok ((cs.amplitude * meanVelocity (skyOf cs (cs.rotationalPhase t)) (velocityOf cs P) stellarDisc + b.radial_velocity kep au t) ::
        List.replicate sys.bodies.length 0) := by
  have h := system_observable_rows (surfaceRadialVelocity eps quad asEuler 20) (surfaceRadialVelocity eps quad asEuler order) kep au sys t
    hp hcs hrad hpos hR (surface_rv_rotation eps quad hE 20 cs hy hP htot none none none (cs.rotationalPhase t))
    (f := fun _ => cs.amplitude * meanVelocity (skyOf cs (cs.rotationalPhase t)) (velocityOf cs P) stellarDisc)
    (fun i hi => surface_rv_unocculted eps quad hE order cs hy hP htot _ _ _ _ _ (Or.inl (hout i hi)))
    (g := fun _ => 0) (fun _ _ _ => rfl) (fun i hi s hs => by
      rw [hdark _ (List.getElem_mem hi)] at hs
      exact absurd hs (by simp))
  simp only [sub_self, Finset.sum_const_zero, add_zero] at h
  rw [radial_velocity_rows eps quad asEuler order kep au sys t hb h]
  congr 2
  apply List.ext_getElem <;> simp

/-- the hypotheses of `surface_rv_rotation` and `surface_rv_bound` hold for a spotted star: the dipole map with a rotation period -/
example {asEuler : Spec.V3 → Spec.V3} (hE : IsEulerZYZ asEuler) (quad : ℕ → List (ℝ × ℝ)) :
    surfaceRadialVelocity 1e-16 quad asEuler 20 { dipole with period := some 27 } none none none none none =
      .ok (2 * meanVelocity (skyOf { dipole with period := some 27 } none) (velocityOf { dipole with period := some 27 } 27) stellarDisc) := by
  obtain ⟨h1, -, h3⟩ := dipole_ok
  rw [surface_rv_rotation 1e-16 quad hE 20 { dipole with period := some 27 } h1 rfl h3]
  rfl

/-- the hypotheses of `surface_rv_occulted` are met by a planet of radius 0.1 at `(0.3, 0.4)` in front of the dipole map -/
example {asEuler : Spec.V3 → Spec.V3} (hE : IsEulerZYZ asEuler) : ∃ f,
    surfaceRadialVelocity 1e-16 (fun _ => [(0, 2)]) asEuler 20 { dipole with period := some 27 } (some 0.1) (some 0.3) (some 0.4) (some 1) none =
      .ok f := by
  obtain ⟨h1, h2, h3⟩ := dipole_ok
  have hb : √((0.3 : ℝ) ^ 2 + 0.4 ^ 2) = 0.5 := by
    rw [show (0.3 : ℝ) ^ 2 + 0.4 ^ 2 = 0.5 ^ 2 by norm_num, Real.sqrt_sq (by norm_num)]
  have hreg : ∀ κ, Regular 1e-16 [(0, 2)] 0.5 0.1 κ := by
    intro κ
    refine Or.inr ⟨by norm_num, Or.inl (by norm_num), fun xw h => ?_⟩
    rw [List.mem_singleton] at h
    subst h
    refine ⟨by norm_num, by norm_num, ?_⟩
    have := cos_le_one (κ / 2 * ((0 : ℝ) + 1))
    norm_num at this ⊢
    linarith
  obtain ⟨g, h', -, -, h⟩ := surface_rv_occulted (eps := 1e-16) (by norm_num) (fun _ => [(0, 2)]) hE 20 { dipole with period := some 27 } h1 rfl h3
    (r := 0.1) (x := 0.3) (y := 0.4) (z := 1) none (by norm_num) (by rw [hb]; norm_num) (by norm_num) (by norm_num)
    (by rw [hb]; exact hreg _) (by rw [hb]; exact hreg _)
  exact ⟨_, h⟩

/-- a system for `radial_velocity_out_of_transit`: a dark planet of radius 0.1 on a circular orbit, at quadrature -/
example (kep : ℝ → ℝ → ℝ × ℝ) (b : Keplerian.OrbitalBody) (hr : b.radius = some 0.1)
    (hx : (b.relative_position kep 1 0).x = 5) {asEuler : Spec.V3 → Spec.V3} (hE : IsEulerZYZ asEuler) (quad : ℕ → List (ℝ × ℝ))
    (c : Keplerian.Central) (hc : c.radius = 1) :
    ∃ v, radialVelocity 1e-16 quad asEuler 20 kep 1 ⟨c, some { dipole with period := some 27 }, [b], [none]⟩ 0 = .ok [v, 0] := by
  obtain ⟨h1, h2, h3⟩ := dipole_ok
  refine ⟨_, radial_velocity_out_of_transit 1e-16 quad hE 20 kep 1 ⟨c, some { dipole with period := some 27 }, [b], [none]⟩ 0 rfl rfl h1 rfl h3
    rfl (rad := fun _ => 0.1) ?_ (pos := fun _ => b.relative_position kep 1 0) ?_ hc ?_ ?_⟩
  · intro i hi
    simp only [List.length_singleton, Nat.lt_one_iff] at hi
    subst hi
    exact hr
  · intro i hi
    simp only [List.length_singleton, Nat.lt_one_iff] at hi
    subst hi
    rfl
  · intro i _
    rw [hx]
    refine Real.le_sqrt_of_sq_le ?_
    nlinarith [sq_nonneg ((b.relative_position kep 1 0).y / 1)]
  · intro s hs
    simpa using hs

end Jaxoplanet.Starry
