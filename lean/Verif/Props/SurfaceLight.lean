import Verif.Proofs.SurfaceLight

/-!
# C52: the light curve of a surface

`surface_light_curve` of a surface with a map of spherical harmonics, limb darkening, inclination, obliquity and rotation
angle is the flux of the visible part of its disc: the integral over the disc without the occultor of the map seen
through the observer's rotation times the limb-darkening profile.
-/

namespace Jaxoplanet.Starry
open _root_.Jaxoplanet.Starry.Spec _root_.Jaxoplanet.Spec _root_.Jaxoplanet.Green _root_.Jaxoplanet.LimbDark
open Real MeasureTheory

/-- C52: without occultor the light curve of a surface is the flux of its visible hemisphere -/
theorem surface_light_curve_rotation (eps : ℝ) (quad : ℕ → List (ℝ × ℝ)) {asEuler : V3 → V3} (hE : IsEulerZYZ asEuler)
    (order : ℕ) (s : Surface) (hy : ValidMap s.y) (_htot : totalFlux s.u ≠ 0) (x y z theta : Option ℝ) :
    surfaceLightCurve eps quad asEuler order s none x y z theta = .ok (s.amplitude * fluxOf s theta stellarDisc) := by
  obtain ⟨c, hc, hv, hf⟩ := projectFlux_spec hE s hy theta 0
  unfold surfaceLightCurve
  simp only
  rw [hf _ (rT_spec _).1, rT_dot _ _ hc, mul_assoc, rotated_integral s theta 0 hv _ le_rfl measurableSet_stellarDisc, rot2_disc]

/-- C52: an occultor that is behind the star or does not overlap it changes nothing -/
theorem surface_light_curve_unocculted (eps : ℝ) (quad : ℕ → List (ℝ × ℝ)) {asEuler : V3 → V3} (hE : IsEulerZYZ asEuler)
    (order : ℕ) (s : Surface) (hy : ValidMap s.y) (hdeg : s.ydeg ≠ 0) (_htot : totalFlux s.u ≠ 0) (r x y z : ℝ) (theta : Option ℝ)
    (h : 1 + r ≤ √(x ^ 2 + y ^ 2) ∨ z ≤ 0) :
    surfaceLightCurve eps quad asEuler order s (some r) (some x) (some y) (some z) theta =
      .ok (s.amplitude * fluxOf s theta stellarDisc) := by
  obtain ⟨c, hc, hv, hf⟩ := projectFlux_spec hE s hy theta (arctan2 x y)
  unfold surfaceLightCurve
  simp only [Option.getD_some]
  rw [if_neg hdeg, designVector_rot eps quad order (by unfold Surface.deg; omega) r x y z h]
  simp only [bind, Except.bind]
  rw [hf _ (rT_spec _).1, rT_dot _ _ hc, mul_assoc,
    rotated_integral s theta _ hv _ le_rfl measurableSet_stellarDisc, rot2_disc]

/-- C52: the light curve during an occultation, for any solution vector: the flux of the visible part of the disc, minus the
errors of the entries -/
theorem surface_light_curve_vector (eps : ℝ) (quad : ℕ → List (ℝ × ℝ)) {asEuler : V3 → V3} (hE : IsEulerZYZ asEuler)
    (s : Surface) (hy : ValidMap s.y) (hdeg : s.ydeg ≠ 0) {r x y z : ℝ} (theta : Option ℝ) (hb : √(x ^ 2 + y ^ 2) < 1 + r) (hz : 0 < z) :
    ∃ g : List ℝ, g.length = (s.deg + 1) ^ 2 ∧
      (∀ p ∈ stellarDisc, s.sky theta (rot2 (-(arctan2 x y)) p) =
        π * ∑ n ∈ Finset.range ((s.deg + 1) ^ 2), g.getD n 0 * polyVal (gtilde n) p.1 p.2 (mu p)) ∧
      ∀ order S, solutionVector eps quad s.deg order √(x ^ 2 + y ^ 2) r = .ok S →
      surfaceLightCurve eps quad asEuler order s (some r) (some x) (some y) (some z) theta =
        .ok (s.amplitude * (fluxOf s theta (stellarDisc \ occultorAt x y r) - π / totalFlux s.u *
          ∑ l ∈ Finset.range (s.deg + 1), ∑ q ∈ Finset.range (2 * l + 1), g.getD (l ^ 2 + q) 0 *
            ((∫ p in stellarDisc \ occultorY √(x ^ 2 + y ^ 2) r, polyVal (gtilde (l ^ 2 + q)) p.1 p.2 (mu p)) - S.getD (l ^ 2 + q) 0))) := by
  set b := √(x ^ 2 + y ^ 2) with hbdef
  obtain ⟨c, hc, hv, hf⟩ := projectFlux_spec hE s hy theta (arctan2 x y)
  obtain ⟨A2, hA, hA2⟩ := A2_spec s.deg
  obtain ⟨g, hg, hgv, hgs⟩ := hA2 c hc
  have hocc : ¬ (1 + r ≤ √(x ^ 2 + y ^ 2) ∨ z ≤ 0) := by
    rintro (h | h)
    · rw [← hbdef] at h; linarith
    · linarith
  refine ⟨g, hg, fun p hp => by rw [← hv p hp, hgv], fun order S hS => ?_⟩
  unfold surfaceLightCurve
  simp only [Option.getD_some]
  rw [if_neg hdeg, designVector_occ hocc hS hA]
  simp only [bind, Except.bind]
  rw [hf _ (vecMat_length _ _), hgs]
  have hV : stellarDisc \ occultorY b r ⊆ stellarDisc := Set.sdiff_subset
  have hVm : MeasurableSet (stellarDisc \ occultorY b r) := measurableSet_stellarDisc.diff (measurableSet_occultorY b r)
  have hint : ∫ p in stellarDisc \ occultorY b r, denseVal c p.1 p.2 (mu p) =
      ∑ n ∈ Finset.range ((s.deg + 1) ^ 2), g.getD n 0 * ∫ p in stellarDisc \ occultorY b r, polyVal (gtilde n) p.1 p.2 (mu p) := by
    simp only [hgv]
    rw [integral_finsetSum]
    · exact Finset.sum_congr rfl fun n _ => MeasureTheory.integral_const_mul _ _
    · exact fun n _ => ((integrableOn_disc_cont (continuous_polyVal _)).mono_set hV).const_mul _
  have hsum : ∑ n ∈ Finset.range ((s.deg + 1) ^ 2), S.getD n 0 * g.getD n 0 =
      (∫ p in stellarDisc \ occultorY b r, denseVal c p.1 p.2 (mu p)) -
        ∑ l ∈ Finset.range (s.deg + 1), ∑ q ∈ Finset.range (2 * l + 1), g.getD (l ^ 2 + q) 0 *
            ((∫ p in stellarDisc \ occultorY b r, polyVal (gtilde (l ^ 2 + q)) p.1 p.2 (mu p)) - S.getD (l ^ 2 + q) 0) := by
    rw [hint, sum_blocks, sum_blocks, ← Finset.sum_sub_distrib]
    refine Finset.sum_congr rfl fun l hl => ?_
    rw [← Finset.sum_sub_distrib]
    exact Finset.sum_congr rfl fun q hq => by ring
  have hrot := rotated_integral s theta (arctan2 x y) hv _ hV hVm
  rw [hbdef, rot2_occultor, ← hbdef] at hrot
  rw [hsum, ← hrot]
  congr 1
  ring

/-- C52: during an occultation the light curve is the flux of the part of the disc outside the occultor, up to the errors
of the quadrature of the line integrals along the edge of the occultor. `g` are the coefficients, in the Green basis, of
the brightness of the star in the frame where the occultor is on the `y` axis; they do not depend on the order. -/
theorem surface_light_curve_occulted_orders {eps : ℝ} (he : 0 < eps) (quad : ℕ → List (ℝ × ℝ)) {asEuler : V3 → V3} (hE : IsEulerZYZ asEuler)
    (s : Surface) (hy : ValidMap s.y) (hdeg : s.ydeg ≠ 0) (_htot : totalFlux s.u ≠ 0) {r x y z : ℝ} (theta : Option ℝ)
    (hr : 0 ≤ r) (hb : √(x ^ 2 + y ^ 2) < 1 + r) (hz : 0 < z) (hne : ¬ (x = 0 ∧ y = 0 ∧ r = 1)) :
    ∃ g : List ℝ, g.length = (s.deg + 1) ^ 2 ∧
      (∀ p ∈ stellarDisc, s.sky theta (rot2 (-(arctan2 x y)) p) =
        π * ∑ n ∈ Finset.range ((s.deg + 1) ^ 2), g.getD n 0 * polyVal (gtilde n) p.1 p.2 (mu p)) ∧
      ∀ order, Regular eps (quad order) √(x ^ 2 + y ^ 2) r (kappas √(x ^ 2 + y ^ 2) r).1 →
        Regular eps (quad (min order 20)) √(x ^ 2 + y ^ 2) r (kappas √(x ^ 2 + y ^ 2) r).1 →
      surfaceLightCurve eps quad asEuler order s (some r) (some x) (some y) (some z) theta =
        .ok (s.amplitude * (fluxOf s theta (stellarDisc \ occultorAt x y r) - π / totalFlux s.u *
          ∑ l ∈ Finset.range (s.deg + 1), ∑ q ∈ Finset.range (2 * l + 1), g.getD (l ^ 2 + q) 0 *
            edgeError (quad (pOrder order l q)) √(x ^ 2 + y ^ 2) r (kappas √(x ^ 2 + y ^ 2) r).1 l q)) := by
  set b := √(x ^ 2 + y ^ 2) with hbdef
  have hb0 : 0 ≤ b := sqrt_nonneg _
  have hd1 : 1 ≤ s.deg := by unfold Surface.deg; omega
  have hne' : ¬ (|b| = 0 ∧ |r| = 1) := by
    rw [abs_of_nonneg hb0, abs_of_nonneg hr]
    rintro ⟨h1, h2⟩
    have h3 : x ^ 2 + y ^ 2 ≤ 0 := Real.sqrt_eq_zero'.1 h1
    have hx : x = 0 := by nlinarith [sq_nonneg x, sq_nonneg y]
    have hy : y = 0 := by nlinarith [sq_nonneg x, sq_nonneg y]
    exact hne ⟨hx, hy, h2⟩
  obtain ⟨g, hg, hgv, hall⟩ := surface_light_curve_vector eps quad hE s hy hdeg theta hb hz
  refine ⟨g, hg, hgv, fun order hreg hreg' => ?_⟩
  obtain ⟨S, hS, hSl, hSv⟩ := solutionVector_spec he quad order s.deg hd1 b r hne'
    (by rw [abs_of_nonneg hb0, abs_of_nonneg hr]; exact hreg) (by rw [abs_of_nonneg hb0, abs_of_nonneg hr]; exact hreg')
  rw [abs_of_nonneg hb0, abs_of_nonneg hr] at hSv
  rw [hall order S hS, ← hbdef]
  congr 4
  refine Finset.sum_congr rfl fun l hl => Finset.sum_congr rfl fun q hq => ?_
  rw [Finset.mem_range] at hl hq
  have := hSv l (by omega) q (by omega)
  simp only at this
  rw [this, sub_sub_cancel]
  rfl

/-- C52: during an occultation the light curve is the flux of the part of the disc outside the occultor, up to the errors
of the quadrature of the line integrals along the edge of the occultor. `g` are the coefficients, in the Green basis, of
the brightness of the star in the frame where the occultor is on the `y` axis. -/
theorem surface_light_curve_occulted {eps : ℝ} (he : 0 < eps) (quad : ℕ → List (ℝ × ℝ)) {asEuler : V3 → V3} (hE : IsEulerZYZ asEuler)
    (order : ℕ) (s : Surface) (hy : ValidMap s.y) (hdeg : s.ydeg ≠ 0) (_htot : totalFlux s.u ≠ 0) {r x y z : ℝ} (theta : Option ℝ)
    (hr : 0 ≤ r) (hb : √(x ^ 2 + y ^ 2) < 1 + r) (hz : 0 < z) (hne : ¬ (x = 0 ∧ y = 0 ∧ r = 1))
    (hreg : Regular eps (quad order) √(x ^ 2 + y ^ 2) r (kappas √(x ^ 2 + y ^ 2) r).1)
    (hreg' : Regular eps (quad (min order 20)) √(x ^ 2 + y ^ 2) r (kappas √(x ^ 2 + y ^ 2) r).1) :
    ∃ g : List ℝ, g.length = (s.deg + 1) ^ 2 ∧
      (∀ p ∈ stellarDisc, s.sky theta (rot2 (-(arctan2 x y)) p) =
        π * ∑ n ∈ Finset.range ((s.deg + 1) ^ 2), g.getD n 0 * polyVal (gtilde n) p.1 p.2 (mu p)) ∧
      surfaceLightCurve eps quad asEuler order s (some r) (some x) (some y) (some z) theta =
        .ok (s.amplitude * (fluxOf s theta (stellarDisc \ occultorAt x y r) - π / totalFlux s.u *
          ∑ l ∈ Finset.range (s.deg + 1), ∑ q ∈ Finset.range (2 * l + 1), g.getD (l ^ 2 + q) 0 *
            edgeError (quad (pOrder order l q)) √(x ^ 2 + y ^ 2) r (kappas √(x ^ 2 + y ^ 2) r).1 l q)) := by
  obtain ⟨g, h1, h2, h3⟩ := surface_light_curve_occulted_orders he quad hE s hy hdeg _htot theta hr hb hz hne
  exact ⟨g, h1, h2, h3 order hreg hreg'⟩

/-- C52: if the quadrature rules integrate the line elements along the edge exactly, the light curve is exactly the flux of
the visible part of the disc -/
theorem surface_light_curve_exact {eps : ℝ} (he : 0 < eps) (quad : ℕ → List (ℝ × ℝ)) {asEuler : V3 → V3} (hE : IsEulerZYZ asEuler)
    (order : ℕ) (s : Surface) (hy : ValidMap s.y) (hdeg : s.ydeg ≠ 0) (htot : totalFlux s.u ≠ 0) {r x y z : ℝ} (theta : Option ℝ)
    (hr : 0 ≤ r) (hb : √(x ^ 2 + y ^ 2) < 1 + r) (hz : 0 < z) (hne : ¬ (x = 0 ∧ y = 0 ∧ r = 1))
    (hreg : Regular eps (quad order) √(x ^ 2 + y ^ 2) r (kappas √(x ^ 2 + y ^ 2) r).1)
    (hreg' : Regular eps (quad (min order 20)) √(x ^ 2 + y ^ 2) r (kappas √(x ^ 2 + y ^ 2) r).1)
    (hq : ∀ l ≤ s.deg, ∀ q ≤ 2 * l, edgeError (quad (pOrder order l q)) √(x ^ 2 + y ^ 2) r (kappas √(x ^ 2 + y ^ 2) r).1 l q = 0) :
    surfaceLightCurve eps quad asEuler order s (some r) (some x) (some y) (some z) theta =
      .ok (s.amplitude * fluxOf s theta (stellarDisc \ occultorAt x y r)) := by
  obtain ⟨g, -, -, h⟩ := surface_light_curve_occulted he quad hE order s hy hdeg htot theta hr hb hz hne hreg hreg'
  rw [h, Finset.sum_eq_zero, mul_zero, sub_zero]
  intro l hl
  refine Finset.sum_eq_zero fun q hq' => ?_
  rw [Finset.mem_range] at hl hq'
  rw [hq l (by omega) q (by omega), mul_zero]

/-- C52: a star hidden entirely has no flux -/
theorem surface_light_curve_hidden {eps : ℝ} (he : 0 < eps) (quad : ℕ → List (ℝ × ℝ)) {asEuler : V3 → V3} (hE : IsEulerZYZ asEuler)
    (order : ℕ) (s : Surface) (hy : ValidMap s.y) (hdeg : s.ydeg ≠ 0) {r x y z : ℝ} (theta : Option ℝ)
    (hr : 1 + √(x ^ 2 + y ^ 2) ≤ r) (hz : 0 < z) (hne : ¬ (x = 0 ∧ y = 0 ∧ r = 1)) :
    surfaceLightCurve eps quad asEuler order s (some r) (some x) (some y) (some z) theta = .ok 0 := by
  set b := √(x ^ 2 + y ^ 2) with hbdef
  have hb0 : 0 ≤ b := sqrt_nonneg _
  have hr0 : 0 ≤ r := by linarith
  have hd1 : 1 ≤ s.deg := by unfold Surface.deg; omega
  obtain ⟨c, hc, hv, hf⟩ := projectFlux_spec hE s hy theta (arctan2 x y)
  obtain ⟨A2, hA, hA2⟩ := A2_spec s.deg
  obtain ⟨g, hg, hgv, hgs⟩ := hA2 c hc
  have hne' : ¬ (|b| = 0 ∧ |r| = 1) := by
    rw [abs_of_nonneg hb0, abs_of_nonneg hr0]
    rintro ⟨h1, h2⟩
    have h3 : x ^ 2 + y ^ 2 ≤ 0 := Real.sqrt_eq_zero'.1 h1
    have hx : x = 0 := by nlinarith [sq_nonneg x, sq_nonneg y]
    have hy : y = 0 := by nlinarith [sq_nonneg x, sq_nonneg y]
    exact hne ⟨hx, hy, h2⟩
  obtain ⟨S, hS, hSl, hSv⟩ := solutionVector_total he quad order s.deg hd1 b r
    (by rw [abs_of_nonneg hb0, abs_of_nonneg hr0]; exact hr) hne'
  have hocc : ¬ (1 + r ≤ √(x ^ 2 + y ^ 2) ∨ z ≤ 0) := by
    rintro (h | h)
    · rw [← hbdef] at h; linarith
    · linarith
  unfold surfaceLightCurve
  simp only [Option.getD_some]
  rw [if_neg hdeg, designVector_occ hocc hS hA]
  simp only [bind, Except.bind]
  rw [hf _ (vecMat_length _ _), hgs, Finset.sum_eq_zero]
  · simp
  · intro n hn
    rw [Finset.mem_range] at hn
    have h1 := sqrt_bounds n
    have := hSv (Nat.sqrt n) (sqrt_le_of_lt hn) (n - Nat.sqrt n ^ 2) (by omega)
    rw [show Nat.sqrt n ^ 2 + (n - Nat.sqrt n ^ 2) = n by omega] at this
    rw [this, zero_mul]

/-- Finding: a concentric occultor of exactly the radius of the star does not change the flux -/
theorem surface_light_curve_equal (eps : ℝ) (quad : ℕ → List (ℝ × ℝ)) {asEuler : V3 → V3} (hE : IsEulerZYZ asEuler)
    (order : ℕ) (s : Surface) (hy : ValidMap s.y) (hdeg : s.ydeg ≠ 0) (theta : Option ℝ) {z : ℝ} (hz : 0 < z) :
    surfaceLightCurve eps quad asEuler order s (some 1) (some 0) (some 0) (some z) theta =
      .ok (s.amplitude * fluxOf s theta stellarDisc) := by
  have hd1 : 1 ≤ s.deg := by unfold Surface.deg; omega
  obtain ⟨c, hc, hv, hf⟩ := projectFlux_spec hE s hy theta (arctan2 0 0)
  obtain ⟨A2, hA, hA2⟩ := A2_spec s.deg
  obtain ⟨g, hg, hgv, hgs⟩ := hA2 c hc
  obtain ⟨S, hS, hSl, hSv⟩ := solutionVector_equal eps quad order s.deg hd1
  have h0 : √((0 : ℝ) ^ 2 + 0 ^ 2) = 0 := by simp
  have hocc : ¬ (1 + (1 : ℝ) ≤ √((0 : ℝ) ^ 2 + 0 ^ 2) ∨ z ≤ 0) := by
    rw [h0]
    rintro (h | h) <;> linarith
  rw [← h0] at hS
  unfold surfaceLightCurve
  simp only [Option.getD_some]
  rw [if_neg hdeg, designVector_occ hocc hS hA]
  simp only [bind, Except.bind]
  rw [hf _ (vecMat_length _ _), hgs]
  have hsum : ∑ n ∈ Finset.range ((s.deg + 1) ^ 2), S.getD n 0 * g.getD n 0 = ∫ p in stellarDisc, denseVal c p.1 p.2 (mu p) := by
    simp only [hgv]
    rw [integral_finsetSum _ fun n _ => (integrableOn_disc_cont (continuous_polyVal _)).const_mul _, sum_blocks, sum_blocks]
    refine Finset.sum_congr rfl fun l hl => Finset.sum_congr rfl fun q hq => ?_
    rw [Finset.mem_range] at hl hq
    rw [hSv l (by omega) q (by omega), MeasureTheory.integral_const_mul, mul_comm]
  have hrot := rotated_integral s theta (arctan2 0 0) hv _ le_rfl measurableSet_stellarDisc
  rw [rot2_disc] at hrot
  rw [hsum, mul_assoc, hrot]

/-- C52: coordinates that are not given are zero -/
theorem surface_light_curve_defaults (eps : ℝ) (quad : ℕ → List (ℝ × ℝ)) (asEuler : V3 → V3) (order : ℕ) (s : Surface)
    (r x y z theta : Option ℝ) :
    surfaceLightCurve eps quad asEuler order s r x y z theta =
      surfaceLightCurve eps quad asEuler order s r (some (x.getD 0)) (some (y.getD 0)) (some (z.getD 0)) theta := rfl

/-- C52: a uniform map: the limb-darkened light curve of `C27` -/
theorem surface_light_curve_uniform (eps : ℝ) (quad : ℕ → List (ℝ × ℝ)) (asEuler : V3 → V3) (order : ℕ) (s : Surface)
    (hdeg : s.ydeg = 0) (r x y z : ℝ) (theta : Option ℝ) :
    surfaceLightCurve eps quad asEuler order s (some r) (some x) (some y) (some z) theta =
      .ok (if √(x ^ 2 + y ^ 2) ≥ 1 + r ∨ z ≤ 0 then 1 else 1 + LimbDark.lightCurve eps (quad order) s.u √(x ^ 2 + y ^ 2) r) := by
  unfold surfaceLightCurve
  simp only [Option.getD_some]
  rw [if_pos hdeg]
  split_ifs <;> simp

/-- the intensity of a constant map is its coefficient times the limb-darkening profile: the unit of `fluxOf` -/
theorem skyIntensity_uniform (y : Ylm) (hd : y.deg = 0) (u : List ℝ) (inc obl theta : ℝ) (p : ℝ × ℝ) :
    skyIntensity y u inc obl theta p = coef y 0 0 * profile u (mu p) := by
  unfold skyIntensity mapAt
  rw [hd]
  simp only [zero_add, Finset.range_one, Finset.sum_singleton, mul_zero]
  simp only [realHarmonic, rodrigues, harmNorm]
  have h0 : √π ≠ 0 := (Real.sqrt_pos.2 pi_pos).ne'
  norm_num
  left
  field_simp

/-- C52: the flux of a constant map is the amplitude times its coefficient -/
theorem surface_light_curve_constant (eps : ℝ) (quad : ℕ → List (ℝ × ℝ)) {asEuler : V3 → V3} (hE : IsEulerZYZ asEuler)
    (order : ℕ) (s : Surface) (hy : ValidMap s.y) (hdeg : s.ydeg = 0) (htot : totalFlux s.u ≠ 0) (x y z theta : Option ℝ) :
    surfaceLightCurve eps quad asEuler order s none x y z theta = .ok (s.amplitude * coef s.y 0 0) := by
  rw [surface_light_curve_rotation eps quad hE order s hy htot]
  unfold fluxOf relativeFlux
  simp only [skyIntensity_uniform s.y hdeg]
  rw [MeasureTheory.integral_const_mul]
  unfold totalFlux at *
  rw [mul_div_assoc, div_self htot, mul_one]

/-- the flux hidden by an occultor depends on its distance from the centre only -/
theorem blockedFlux_at (u : List ℝ) (x y r : ℝ) :
    ∫ p in stellarDisc ∩ occultorAt x y r, profile u (mu p) = blockedFlux u √(x ^ 2 + y ^ 2) r := by
  have himg : rot2 (arctan2 y x) '' (stellarDisc ∩ occultor √(x ^ 2 + y ^ 2) r) = stellarDisc ∩ occultorAt x y r := by
    have hc : ∀ q : ℝ × ℝ, q ∈ occultor √(x ^ 2 + y ^ 2) r ↔ rot2 (arctan2 y x) q ∈ occultorAt x y r := by
      intro q
      have hy : √(x ^ 2 + y ^ 2) * sin (arctan2 y x) = y := by
        have := Complex.norm_mul_sin_arg ⟨x, y⟩
        rw [Complex.norm_def, Complex.normSq_mk] at this
        simpa [arctan2, show x * x + y * y = x ^ 2 + y ^ 2 by ring] using this
      have hx : √(x ^ 2 + y ^ 2) * cos (arctan2 y x) = x := by
        have := Complex.norm_mul_cos_arg ⟨x, y⟩
        rw [Complex.norm_def, Complex.normSq_mk] at this
        simpa [arctan2, show x * x + y * y = x ^ 2 + y ^ 2 by ring] using this
      have h1 := sin_sq_add_cos_sq (arctan2 y x)
      generalize √(x ^ 2 + y ^ 2) = b at *
      simp only [occultor, occultorAt, rot2, Set.mem_ofPred_eq]
      have : (cos (arctan2 y x) * q.1 - sin (arctan2 y x) * q.2 - x) ^ 2 + (sin (arctan2 y x) * q.1 + cos (arctan2 y x) * q.2 - y) ^ 2 =
          (q.1 - b) ^ 2 + q.2 ^ 2 := by
        generalize cos (arctan2 y x) = c at *
        generalize sin (arctan2 y x) = s at *
        rw [← hx, ← hy]
        linear_combination ((q.1 - b) ^ 2 + q.2 ^ 2) * h1
      rw [this]
    ext p
    constructor
    · rintro ⟨q, ⟨h1, h2⟩, rfl⟩
      refine ⟨?_, (hc q).1 h2⟩
      rw [← rot2_disc (arctan2 y x)]
      exact ⟨q, h1, rfl⟩
    · rintro ⟨h1, h2⟩
      refine ⟨rot2 (-(arctan2 y x)) p, ⟨?_, ?_⟩, rot2_neg _ p⟩
      · rw [← rot2_disc (-(arctan2 y x))]
        exact ⟨p, h1, rfl⟩
      · rw [hc, rot2_neg]
        exact h2
  rw [← himg, integral_rot2 _ _ (measurableSet_stellarDisc.inter (measurableSet_occultor _ _))]
  simp only [mu_rot2]
  rfl

theorem measurableSet_occultorAt (x y r : ℝ) : MeasurableSet (occultorAt x y r) :=
  measurableSet_le (by fun_prop) (by fun_prop)

/-- C52: the light curve of a uniform map of unit brightness (amplitude times `y_00` equal to 1) during an occultation is
the flux of the visible part of the disc, if the quadrature is exact -/
theorem surface_light_curve_uniform_exact (eps : ℝ) (quad : ℕ → List (ℝ × ℝ)) (asEuler : V3 → V3) (order : ℕ) (s : Surface)
    (hdeg : s.ydeg = 0) (hA : s.amplitude * coef s.y 0 0 = 1) (htot : totalFlux s.u ≠ 0) {r x y z : ℝ} (theta : Option ℝ)
    (hr : 0 ≤ r) (hz : 0 < z) (hne : ¬ (x = 0 ∧ y = 0 ∧ r = 1))
    (hq : ∀ n, n = 1 ∨ 3 ≤ n → n ≤ s.u.length → quadError eps (quad order) √(x ^ 2 + y ^ 2) r n = 0) :
    surfaceLightCurve eps quad asEuler order s (some r) (some x) (some y) (some z) theta =
      .ok (s.amplitude * fluxOf s theta (stellarDisc \ occultorAt x y r)) := by
  set b := √(x ^ 2 + y ^ 2) with hbdef
  have hb0 : 0 ≤ b := sqrt_nonneg _
  have hmu := continuous_mu
  have hcont : Continuous fun p => profile s.u (mu p) := by unfold profile; fun_prop
  have hvis : ∫ p in stellarDisc \ occultorAt x y r, profile s.u (mu p) = totalFlux s.u - blockedFlux s.u b r := by
    have := integral_inter_add_sdiff (measurableSet_occultorAt x y r) (integrableOn_disc_cont hcont)
    rw [blockedFlux_at] at this
    unfold totalFlux
    rw [← hbdef] at this
    linarith
  have hflux : s.amplitude * fluxOf s theta (stellarDisc \ occultorAt x y r) = 1 - blockedFlux s.u b r / totalFlux s.u := by
    unfold fluxOf relativeFlux
    simp only [skyIntensity_uniform s.y hdeg]
    rw [MeasureTheory.integral_const_mul, hvis]
    field_simp
    linear_combination (totalFlux s.u - blockedFlux s.u b r) * hA
  have hne' : ¬ (|b| = 0 ∧ |r| = 1) := by
    rw [abs_of_nonneg hb0, abs_of_nonneg hr]
    rintro ⟨h1, h2⟩
    have h3 : x ^ 2 + y ^ 2 ≤ 0 := Real.sqrt_eq_zero'.1 h1
    have hx : x = 0 := by nlinarith [sq_nonneg x, sq_nonneg y]
    have hy : y = 0 := by nlinarith [sq_nonneg x, sq_nonneg y]
    exact hne ⟨hx, hy, h2⟩
  have hlc : LimbDark.lightCurve eps (quad order) s.u b r = -blockedFlux s.u b r / totalFlux s.u := by
    by_cases hu : s.u = []
    · have h1 := uniform_light_curve eps (quad order) b r
      have h2 : totalFlux [] = π := by
        have := LimbDark.whole_star 0
        simpa [totalFlux, profile, LimbDark.gtil] using this
      rw [hu, h1, h2]
      simp [blockedFlux, profile, Measure.real]
    · exact light_curve_exact_quadrature hu htot b r hne' eps (quad order) fun n h1 h2 => by
        rw [abs_of_nonneg hb0, abs_of_nonneg hr]; exact hq n h1 h2
  rw [surface_light_curve_uniform _ _ _ _ _ hdeg, hflux, ← hbdef]
  congr 1
  split_ifs with h
  · have h1 : 1 + r ≤ b := h.resolve_right (by linarith)
    rw [blockedFlux, setIntegral_measure_zero _ (touching_null hr h1)]
    simp
  · rw [hlc]
    ring

/-- Finding: with an occultor, the light curve of a uniform map ignores the amplitude (and so jumps from the amplitude to 1
when an occultor is added, even one that does not overlap the star) -/
theorem surface_light_curve_ignores_amplitude (eps : ℝ) (quad : ℕ → List (ℝ × ℝ)) {asEuler : V3 → V3} (hE : IsEulerZYZ asEuler)
    (order : ℕ) (A : ℝ) :
    ∃ s : Surface, s.amplitude = A ∧ ValidMap s.y ∧
      surfaceLightCurve eps quad asEuler order s none none none none none = .ok A ∧
      surfaceLightCurve eps quad asEuler order s (some 0.1) (some 10) (some 0) (some 1) none = .ok 1 := by
  refine ⟨⟨Ylm.default, none, none, [], none, A, 0, 1⟩, rfl, default_valid, ?_, ?_⟩
  · have htot : totalFlux [] = π := by
      have := LimbDark.whole_star 0
      simpa [totalFlux, profile, LimbDark.gtil] using this
    rw [surface_light_curve_constant eps quad hE order _ default_valid rfl (by rw [htot]; exact pi_pos.ne')]
    simp [default_coef]
  · rw [surface_light_curve_uniform _ _ _ _ _ rfl, if_pos]
    left
    rw [ge_iff_le, Real.le_sqrt (by norm_num) (by norm_num)]
    norm_num

theorem projectFlux_amplitude (asEuler : V3 → V3) (s : Surface) (a : ℝ) (theta : Option ℝ) (tz : ℝ) (design : List ℝ) :
    projectFlux asEuler { s with amplitude := a * s.amplitude } theta tz design =
      (projectFlux asEuler s theta tz design).map (a * ·) := by
  unfold projectFlux
  have h1 : rotatedY asEuler { s with amplitude := a * s.amplitude } theta tz = rotatedY asEuler s theta tz := rfl
  have h2 : Surface.ydeg { s with amplitude := a * s.amplitude } = s.ydeg := rfl
  have h3 : Surface.udeg { s with amplitude := a * s.amplitude } = s.udeg := rfl
  simp only [h1, h2, h3, bind, Except.bind, pure, Except.pure]
  cases rotatedY asEuler s theta tz with
  | error e => rfl
  | ok M =>
    cases uPoly s.u with
    | error e => rfl
    | ok pu =>
      simp only
      cases Pijk.fromDense (matVec ((s.ydeg + 1) ^ 2) (A1 s.ydeg) M) (some s.ydeg) with
      | error e => rfl
      | ok py =>
        simp only
        cases py.mul pu with
        | error e => rfl
        | ok w =>
          simp only
          cases pu.dot (rT s.udeg) with
          | error e => rfl
          | ok fu =>
            simp only
            cases w.dot design with
            | error e => rfl
            | ok f => simp only [Except.map, mul_assoc]

/-- C52: the amplitude multiplies the light curve (unless the map is uniform and there is an occultor, see
`surface_light_curve_ignores_amplitude`) -/
theorem surface_light_curve_amplitude (eps : ℝ) (quad : ℕ → List (ℝ × ℝ)) (asEuler : V3 → V3) (order : ℕ) (s : Surface) (a : ℝ)
    (r x y z theta : Option ℝ) (h : s.ydeg ≠ 0 ∨ r = none) :
    surfaceLightCurve eps quad asEuler order { s with amplitude := a * s.amplitude } r x y z theta =
      (surfaceLightCurve eps quad asEuler order s r x y z theta).map (a * ·) := by
  unfold surfaceLightCurve
  have h2 : Surface.ydeg { s with amplitude := a * s.amplitude } = s.ydeg := rfl
  have h3 : Surface.deg { s with amplitude := a * s.amplitude } = s.deg := rfl
  cases r with
  | none => exact projectFlux_amplitude _ _ _ _ _ _
  | some r =>
    have hd := h.resolve_right (by simp)
    simp only [h2, h3]
    rw [if_neg hd, if_neg hd]
    cases designVector eps quad order s.deg r (x.getD 0) (y.getD 0) (z.getD 0) with
    | error e => rfl
    | ok d => exact projectFlux_amplitude _ _ _ _ _ _
/-- a surface with a map of degree one -/
noncomputable def dipole : Surface := ⟨⟨[((0, 0), 1), ((1, 0), 0.5)]⟩, some 1.2, some 0.3, [], none, 2, 0, 1⟩

theorem dipole_ok : ValidMap dipole.y ∧ dipole.ydeg ≠ 0 ∧ totalFlux dipole.u ≠ 0 := by
  refine ⟨⟨by simp [Dict.WF, dipole], by simp [dipole], by simp [dipole]⟩, by simp [Surface.ydeg, Ylm.deg, dipole], ?_⟩
  have h2 : totalFlux [] = π := by
    have := LimbDark.whole_star 0
    simpa [totalFlux, profile, LimbDark.gtil] using this
  rw [show dipole.u = [] from rfl, h2]
  exact pi_pos.ne'

/-- the hypotheses of `surface_light_curve_occulted` are met by a planet of radius 0.1 at `(0.3, 0.4)` in front of the dipole
map, with the midpoint rule -/
example {asEuler : V3 → V3} (hE : IsEulerZYZ asEuler) : ∃ f,
    surfaceLightCurve 1e-16 (fun _ => [(0, 2)]) asEuler 20 dipole (some 0.1) (some 0.3) (some 0.4) (some 1) none = .ok f := by
  obtain ⟨h1, h2, h3⟩ := dipole_ok
  have hb : √((0.3 : ℝ) ^ 2 + 0.4 ^ 2) = 0.5 := by
    rw [show (0.3 : ℝ) ^ 2 + 0.4 ^ 2 = 0.5 ^ 2 by norm_num, Real.sqrt_sq (by norm_num)]
  have hreg : ∀ κ, Regular 1e-16 [(0, 2)] 0.5 0.1 κ := by
    intro κ
    refine Or.inr ⟨by norm_num, Or.inl (by norm_num), fun xw h => ?_⟩
    rw [List.mem_singleton] at h
    subst h
    refine ⟨by norm_num, by norm_num, ?_⟩
    have := cos_le_one (κ / 2 * ((0 : ℝ) + 1))
    norm_num at this ⊢
    linarith
  obtain ⟨g, -, -, h⟩ := surface_light_curve_occulted (eps := 1e-16) (by norm_num) (fun _ => [(0, 2)]) hE 20 dipole h1 h2 h3 (r := 0.1) (x := 0.3)
    (y := 0.4) (z := 1) none (by norm_num) (by rw [hb]; norm_num) (by norm_num) (by norm_num) (by rw [hb]; exact hreg _) (by rw [hb]; exact hreg _)
  exact ⟨_, h⟩

end Jaxoplanet.Starry
