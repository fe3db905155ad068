import Verif.Proofs.SurfaceBounded
import Verif.Props.DopplerConverge
import Verif.Props.SurfaceRate

/-!
# The polynomials of the brightness and of the velocity on the whole sphere, with bounds for all rotation angles
-/

namespace Jaxoplanet.Starry
open _root_.Jaxoplanet.Starry.Spec _root_.Jaxoplanet.Spec _root_.Jaxoplanet.Green _root_.Jaxoplanet.LimbDark _root_.Jaxoplanet.Gauss
open Real MeasureTheory

/-- the two polynomials of a radial velocity: brightness, and velocity times brightness, as functions on the whole sphere -/
theorem projectVelocity_sphere {asEuler : Spec.V3 → Spec.V3} (hE : IsEulerZYZ asEuler) (s : Surface) (hy : ValidMap s.y) {P : ℝ}
    (hP : s.period = some P) (htot : totalFlux s.u ≠ 0) (theta : Option ℝ) (tz : ℝ) :
    ∃ c cv : List ℝ, c.length = (s.deg + 1 + 1) ^ 2 ∧ cv.length = (s.deg + 1 + 1) ^ 2 ∧
      (∀ x y z : ℝ, x ^ 2 + y ^ 2 + z ^ 2 = 1 → denseVal c x y z =
        brightness s.y s.u (s.inc.getD 0) (usedObl s.inc s.obl) (theta.getD 0) (rotZ (-tz) (x, y, z))) ∧
      (∀ x y z : ℝ, x ^ 2 + y ^ 2 + z ^ 2 = 1 → denseVal cv x y z = velocityOf s P (rot2 (-tz) (x, y)) *
        brightness s.y s.u (s.inc.getD 0) (usedObl s.inc s.obl) (theta.getD 0) (rotZ (-tz) (x, y, z))) ∧
      ∀ design : List ℝ, design.length = (s.deg + 1 + 1) ^ 2 → projectVelocity asEuler s theta tz design =
        .ok (s.amplitude * (List.zipWith (· * ·) design cv).sum / (List.zipWith (· * ·) design c).sum) := by
  have hrot : ∃ M', rotatedY asEuler s theta tz = .ok M' ∧ M'.length = (s.ydeg + 1) ^ 2 ∧
      ∀ p, OnSphere p → mapVal s.ydeg M' p =
        mapVal s.ydeg s.y.todense (observerView (s.inc.getD 0) (usedObl s.inc s.obl) (theta.getD 0) (rotZ (-tz) p)) := by
    unfold rotatedY
    by_cases h : s.ydeg = 0
    · refine ⟨s.y.todense, by rw [if_pos h], todense_length _, fun p _ => ?_⟩
      rw [h]
      exact mapVal_zero _ _ _
    · rw [if_neg h]
      exact leftProject_view hE _ _ _ _ _ _
  obtain ⟨M', hM1, hM2, hM3⟩ := hrot
  obtain ⟨cu, q, hcu, hq, hu, hval⟩ := uPoly_spec s.u
  have hcy := (A1_val s.ydeg M' hM2 0 0 1 (by norm_num)).1
  obtain ⟨py, hpy, hpye, hpyv⟩ := fromDense_exact hcy
  obtain ⟨q', hq', hqe, hqv⟩ := fromDense_exact hcu
  obtain rfl : q' = q := Except.ok.inj (hq'.symm.trans hq)
  have hrv : (matVec ((1 + 1) ^ 2) (A1 1) (dotRz 1 (-tz) (rvMapExpansion (some (2 * π * s.radius / P)) s.inc s.obl none))).length = (1 + 1) ^ 2 :=
    (A1_val 1 _ (dotRz_length _ _ _) 0 0 1 (by norm_num)).1
  obtain ⟨pv, hpv, hpve, hpvv⟩ := fromDense_exact hrv
  have hrvp : rvPoly s tz = .ok pv := by
    unfold rvPoly Surface.veq
    rw [hP]
    simp only [bind, Except.bind]
    rw [show s.vdeg = 1 from rfl, fromDense_none hrv, hpv]
  obtain ⟨w1, hw1, hw1e, hw1v⟩ := mul_exact hpye hpve
  obtain ⟨w2, hw2, hw2e, hw2v⟩ := mul_exact hw1e hqe
  obtain ⟨w3, hw3, hw3e, hw3v⟩ := mul_exact hpye hqe
  have hdeg : s.deg = s.ydeg + s.u.length := rfl
  have hqd : q'.todense = cu := pijk_todense_fromDense hcu (some s.u.length) (Or.inr rfl) hq
  have htot' : ∫ p in stellarDisc, denseVal cu p.1 p.2 (mu p) = totalFlux s.u := by
    unfold totalFlux
    exact setIntegral_congr_fun measurableSet_stellarDisc fun p hp => hval _ _ _ (disc_sphere hp)
  have hl3 : w3.todense.length = (s.deg + 1) ^ 2 := by rw [hw3e.length, hdeg]
  have hl2 : w2.todense.length = (s.deg + 1 + 1) ^ 2 := by
    rw [hw2e.length, hdeg]
    congr 1
    omega
  have hk : (s.deg + 1) ^ 2 ≤ (s.deg + 1 + 1) ^ 2 := Nat.pow_le_pow_left (by omega) 2
  have hsky : ∀ x y z : ℝ, x ^ 2 + y ^ 2 + z ^ 2 = 1 → denseVal (matVec ((s.ydeg + 1) ^ 2) (A1 s.ydeg) M') x y z * denseVal cu x y z =
      brightness s.y s.u (s.inc.getD 0) (usedObl s.inc s.obl) (theta.getD 0) (rotZ (-tz) (x, y, z)) := by
    intro x y z hs
    have hon : OnSphere (x, y, z) := hs
    rw [hval _ _ _ hs, (A1_val s.ydeg M' hM2 _ _ _ hs).2]
    have h1 := hM3 _ hon
    rw [show s.ydeg = s.y.deg from rfl, mapVal_todense hy] at h1
    unfold mapVal at h1
    simp only at h1
    rw [show s.ydeg = s.y.deg from rfl, h1]
    unfold Spec.brightness
    have h2 : (rotZ (-tz) (x, y, z)).2.2 = z := rfl
    rw [h2]
  refine ⟨w3.todense ++ List.replicate ((s.deg + 1 + 1) ^ 2 - (s.deg + 1) ^ 2) 0, w2.todense, ?_, hl2, fun x y z hs => ?_, fun x y z hs => ?_,
    fun design hd => ?_⟩
  · rw [List.length_append, List.length_replicate, hl3]
    omega
  · rw [denseVal_pad, hw3e.val, hw3v _ _ _ hs, hpyv, hqv, hsky _ _ _ hs]
  · rw [hw2e.val, hw2v _ _ _ hs, hw1v _ _ _ hs, hpyv, hqv, hpvv, rvMap_rotated (p := (x, y)) _ _ _ _ hs]
    rw [← hsky _ _ _ hs]
    unfold velocityOf
    ring
  · unfold projectVelocity
    have hflux : q'.dot (rT s.udeg) = .ok (totalFlux s.u) := by
      rw [dot_ok _ _ (by rw [hqd, (rT_spec s.udeg).1, hcu]; rfl), hqd, show s.udeg = s.u.length from rfl, rT_dot _ _ hcu, htot']
    have hd1 : w2.dot design = .ok (List.zipWith (· * ·) design w2.todense).sum := dot_ok _ _ (by rw [hd, hl2])
    have hd2 : w3.dot (design.take ((s.deg + 1) ^ 2)) = .ok (List.zipWith (· * ·) (design.take ((s.deg + 1) ^ 2)) w3.todense).sum :=
      dot_ok _ _ (by rw [List.length_take, hd, hl3]; omega)
    simp only [hM1, hu, hpy, hflux, hrvp, hw1, hw2, hw3, hd1, hd2, bind, Except.bind, pure, Except.pure]
    rw [← hl3, zipWith_take_pad _ _ ((s.deg + 1 + 1) ^ 2 - w3.todense.length) (by rw [hd, hl3]; omega)]
    congr 1
    rw [mul_div_mul_right _ _ (div_ne_zero pi_pos.ne' htot)]

/-- contraction of the design vector of any occultation with the coefficients of a polynomial, for any solution vector -/
theorem designVector_green (D : ℕ) {c : List ℝ} (hc : c.length = (D + 1) ^ 2) : ∃ g : List ℝ,
      (∀ x y z : ℝ, denseVal c x y z = ∑ n ∈ Finset.range ((D + 1) ^ 2), g.getD n 0 * polyVal (gtilde n) x y z) ∧
      ∀ eps quad (r x y z : ℝ), √(x ^ 2 + y ^ 2) < 1 + r → 0 < z → ∀ order S, solutionVector eps quad D order √(x ^ 2 + y ^ 2) r = .ok S →
      ∃ d : List ℝ, designVector eps quad order D r x y z = .ok d ∧ d.length = (D + 1) ^ 2 ∧
        (List.zipWith (· * ·) d c).sum = (∫ p in stellarDisc \ occultorY √(x ^ 2 + y ^ 2) r, denseVal c p.1 p.2 (mu p)) -
          ∑ l ∈ Finset.range (D + 1), ∑ q ∈ Finset.range (2 * l + 1), g.getD (l ^ 2 + q) 0 *
            ((∫ p in stellarDisc \ occultorY √(x ^ 2 + y ^ 2) r, polyVal (gtilde (l ^ 2 + q)) p.1 p.2 (mu p)) - S.getD (l ^ 2 + q) 0) := by
  obtain ⟨A2, hA, hA2⟩ := A2_spec D
  obtain ⟨g, hg, hgv, hgs⟩ := hA2 c hc
  refine ⟨g, hgv, fun eps quad r x y z hb hz order S hS => ?_⟩
  have hocc : ¬ (1 + r ≤ √(x ^ 2 + y ^ 2) ∨ z ≤ 0) := by
    rintro (h | h) <;> linarith
  refine ⟨_, designVector_occ hocc hS hA, vecMat_length _ _, ?_⟩
  rw [hgs]
  set b := √(x ^ 2 + y ^ 2)
  have hV : stellarDisc \ occultorY b r ⊆ stellarDisc := Set.sdiff_subset
  have hint : ∫ p in stellarDisc \ occultorY b r, denseVal c p.1 p.2 (mu p) =
      ∑ n ∈ Finset.range ((D + 1) ^ 2), g.getD n 0 * ∫ p in stellarDisc \ occultorY b r, polyVal (gtilde n) p.1 p.2 (mu p) := by
    simp only [hgv]
    rw [integral_finsetSum]
    · exact Finset.sum_congr rfl fun n _ => MeasureTheory.integral_const_mul _ _
    · exact fun n _ => ((integrableOn_disc_cont (continuous_polyVal _)).mono_set hV).const_mul _
  rw [hint, sum_blocks, sum_blocks, ← Finset.sum_sub_distrib]
  refine Finset.sum_congr rfl fun l hl => ?_
  rw [← Finset.sum_sub_distrib]
  exact Finset.sum_congr rfl fun q hq => by ring

/-- the radial velocity during an occultation, for any solution vector, with coefficients that are bounded for all rotation angles and all positions
of the occultor -/
theorem surface_rv_bounded {asEuler : Spec.V3 → Spec.V3} (hE : IsEulerZYZ asEuler) (s : Surface) (hy : ValidMap s.y) {P : ℝ} (hP : s.period = some P)
    (htot : totalFlux s.u ≠ 0) : ∃ B : ℝ, 0 ≤ B ∧ ∀ (r x y z : ℝ) (theta : Option ℝ), √(x ^ 2 + y ^ 2) < 1 + r → 0 < z →
    ∃ g h : List ℝ, (∀ n < (s.deg + 1 + 1) ^ 2, |g.getD n 0| ≤ B) ∧ (∀ n < (s.deg + 1 + 1) ^ 2, |h.getD n 0| ≤ B) ∧
      (∀ p ∈ stellarDisc, skyOf s theta (rot2 (-(arctan2 x y)) p) =
        π * ∑ n ∈ Finset.range ((s.deg + 1 + 1) ^ 2), g.getD n 0 * polyVal (gtilde n) p.1 p.2 (mu p)) ∧
      (∀ p ∈ stellarDisc, velocityOf s P (rot2 (-(arctan2 x y)) p) * skyOf s theta (rot2 (-(arctan2 x y)) p) =
        π * ∑ n ∈ Finset.range ((s.deg + 1 + 1) ^ 2), h.getD n 0 * polyVal (gtilde n) p.1 p.2 (mu p)) ∧
      ∀ eps quad order S, solutionVector eps quad (s.deg + 1) order √(x ^ 2 + y ^ 2) r = .ok S →
      surfaceRadialVelocity eps quad asEuler order s (some r) (some x) (some y) (some z) theta =
        .ok (s.amplitude *
          (((∫ p in stellarDisc \ occultorAt x y r, velocityOf s P p * skyOf s theta p) - π *
            ∑ l ∈ Finset.range (s.deg + 1 + 1), ∑ q ∈ Finset.range (2 * l + 1), h.getD (l ^ 2 + q) 0 *
              ((∫ p in stellarDisc \ occultorY √(x ^ 2 + y ^ 2) r, polyVal (gtilde (l ^ 2 + q)) p.1 p.2 (mu p)) - S.getD (l ^ 2 + q) 0)) /
          ((∫ p in stellarDisc \ occultorAt x y r, skyOf s theta p) - π *
            ∑ l ∈ Finset.range (s.deg + 1 + 1), ∑ q ∈ Finset.range (2 * l + 1), g.getD (l ^ 2 + q) 0 *
              ((∫ p in stellarDisc \ occultorY √(x ^ 2 + y ^ 2) r, polyVal (gtilde (l ^ 2 + q)) p.1 p.2 (mu p)) - S.getD (l ^ 2 + q) 0)))) := by
  obtain ⟨K, hK0, hK⟩ := gtilde_bound (s.deg + 1)
  obtain ⟨B, hB0, hB⟩ := map_bounded s.ydeg s.y.todense s.u
  set W := |2 * π * s.radius / P| * 1 with hW
  have hW0 : 0 ≤ W := by positivity
  refine ⟨K * ((1 + W) * (2 / √π * B)), by positivity, fun r x y z theta hb hz => ?_⟩
  obtain ⟨c, cv, hc, hcv, hv, hvv, hf⟩ := projectVelocity_sphere hE s hy hP htot theta (arctan2 x y)
  -- on the disc
  have hsk : ∀ p ∈ stellarDisc, π * denseVal c p.1 p.2 (mu p) = skyOf s theta (rot2 (-(arctan2 x y)) p) := by
    intro pt hpt
    rw [hv _ _ _ (disc_sphere hpt)]
    unfold skyOf skyIntensity Spec.brightness
    rw [mu_rot2]
    have h2 : rotZ (-(arctan2 x y)) (pt.1, pt.2, mu pt) = ((rot2 (-(arctan2 x y)) pt).1, (rot2 (-(arctan2 x y)) pt).2, mu pt) := rfl
    rw [h2]
    have h3 : π * (2 / √π) = 2 * √π := by
      have := mul_self_sqrt pi_pos.le
      have h0 : √π ≠ 0 := (sqrt_pos.2 pi_pos).ne'
      field_simp
      linarith
    rw [← h3]
    ring
  have hskv : ∀ p ∈ stellarDisc, π * denseVal cv p.1 p.2 (mu p) = velocityOf s P (rot2 (-(arctan2 x y)) p) * skyOf s theta (rot2 (-(arctan2 x y)) p) := by
    intro pt hpt
    rw [← hsk pt hpt, hvv _ _ _ (disc_sphere hpt), hv _ _ _ (disc_sphere hpt)]
    ring
  -- bounds
  have hbr : ∀ x' y' z' : ℝ, x' ^ 2 + y' ^ 2 + z' ^ 2 = 1 →
      |Spec.brightness s.y s.u (s.inc.getD 0) (usedObl s.inc s.obl) (theta.getD 0) (rotZ (-(arctan2 x y)) (x', y', z'))| ≤ 2 / √π * B := by
    intro x' y' z' h
    unfold Spec.brightness
    rw [← mapVal_todense hy, mul_assoc, abs_mul, abs_of_nonneg (by positivity : (0 : ℝ) ≤ 2 / √π)]
    refine mul_le_mul_of_nonneg_left ?_ (by positivity)
    refine hB _ (x', y', z') (observerView_sphere _ _ _ (rotZ_sphere _ ?_)) ?_ <;> exact h
  have hb2 : 0 ≤ 2 / √π * B := by positivity
  have hvel : ∀ x' y' z' : ℝ, x' ^ 2 + y' ^ 2 + z' ^ 2 = 1 → |velocityOf s P (rot2 (-(arctan2 x y)) (x', y'))| ≤ W := by
    intro x' y' z' h
    unfold velocityOf
    rw [abs_mul, hW]
    refine mul_le_mul_of_nonneg_left ((losSpeed_bound _ _ ?_).trans (abs_sin_le_one _)) (abs_nonneg _)
    have h1 : mu (rot2 (-(arctan2 x y)) (x', y')) = mu (x', y') := mu_rot2 _ _
    have h2 : (rot2 (-(arctan2 x y)) (x', y')).1 ^ 2 + (rot2 (-(arctan2 x y)) (x', y')).2 ^ 2 = x' ^ 2 + y' ^ 2 := by
      have := sin_sq_add_cos_sq (-(arctan2 x y))
      simp only [rot2]
      linear_combination (x' ^ 2 + y' ^ 2) * this
    show (rot2 (-(arctan2 x y)) (x', y')).1 ^ 2 + (rot2 (-(arctan2 x y)) (x', y')).2 ^ 2 ≤ 1
    rw [h2]
    nlinarith [sq_nonneg z']
  obtain ⟨g, hgv, hg3⟩ := designVector_green (s.deg + 1) hc
  obtain ⟨h, hhv, hh3⟩ := designVector_green (s.deg + 1) hcv
  refine ⟨g, h, hK _ _ (by positivity) fun x' y' z' hs => ?_, hK _ _ (by positivity) fun x' y' z' hs => ?_, fun p hp => by rw [← hsk p hp, hgv],
    fun p hp => by rw [← hskv p hp, hhv], fun eps quad order S hS => ?_⟩
  · rw [← hgv, hv _ _ _ hs]
    have := hbr _ _ _ hs
    nlinarith
  · rw [← hhv, hvv _ _ _ hs, abs_mul]
    have := mul_le_mul (hvel _ _ _ hs) (hbr _ _ _ hs) (abs_nonneg _) hW0
    nlinarith
  obtain ⟨d, hd, hdl, hd3⟩ := hg3 eps quad r x y z hb hz order S hS
  obtain ⟨d', hd', -, hd3'⟩ := hh3 eps quad r x y z hb hz order S hS
  obtain rfl : d = d' := Except.ok.inj (hd.symm.trans hd')
  have hV : stellarDisc \ occultorY √(x ^ 2 + y ^ 2) r ⊆ stellarDisc := Set.sdiff_subset
  have hVm : MeasurableSet (stellarDisc \ occultorY √(x ^ 2 + y ^ 2) r) := measurableSet_stellarDisc.diff (measurableSet_occultorY _ _)
  unfold surfaceRadialVelocity
  simp only [Option.getD_some]
  rw [show s.vdeg = 1 from rfl, hd]
  simp only [bind, Except.bind]
  rw [hf _ hdl, hd3, hd3', rotated_any _ hsk _ hV hVm,
    rotated_any (f := fun p => velocityOf s P p * skyOf s theta p) _ hskv _ hV hVm, rot2_occultor]
  congr 1
  rw [mul_div_assoc]
  congr 1
  rw [← div_div_div_cancel_right₀ pi_pos.ne' (_ - π * _)]
  congr 1 <;> field_simp

end Jaxoplanet.Starry
