import Verif.Props.Doppler
import Verif.Props.Intensity
import Verif.Props.SurfaceConverge

/-!
# C87: the radial velocity of a surface during an occultation converges with the order of the quadrature

The Rossiter-McLaughlin effect: the velocity computed by `surface_radial_velocity` tends to the mean velocity of the part of
the star that is not hidden. `quad order` is any family of rules with the documented property of
`scipy.special.roots_legendre(order)` (`IsGaussLegendre`), see C84.
-/

namespace Jaxoplanet.Starry
open _root_.Jaxoplanet.Starry.Spec _root_.Jaxoplanet.Spec _root_.Jaxoplanet.Green _root_.Jaxoplanet.LimbDark _root_.Jaxoplanet.Gauss
open Real MeasureTheory

/-- contraction of the design vector of an occultation with the coefficients of a polynomial, for any solution vector -/
theorem designVector_any (eps : ℝ) (quad : ℕ → List (ℝ × ℝ)) (D : ℕ) {r x y z : ℝ} (hb : √(x ^ 2 + y ^ 2) < 1 + r) (hz : 0 < z)
    {c : List ℝ} (hc : c.length = (D + 1) ^ 2) : ∃ g : List ℝ,
      (∀ x y z : ℝ, denseVal c x y z = ∑ n ∈ Finset.range ((D + 1) ^ 2), g.getD n 0 * polyVal (gtilde n) x y z) ∧
      ∀ order S, solutionVector eps quad D order √(x ^ 2 + y ^ 2) r = .ok S →
      ∃ d : List ℝ, designVector eps quad order D r x y z = .ok d ∧ d.length = (D + 1) ^ 2 ∧
        (List.zipWith (· * ·) d c).sum = (∫ p in stellarDisc \ occultorY √(x ^ 2 + y ^ 2) r, denseVal c p.1 p.2 (mu p)) -
          ∑ l ∈ Finset.range (D + 1), ∑ q ∈ Finset.range (2 * l + 1), g.getD (l ^ 2 + q) 0 *
            ((∫ p in stellarDisc \ occultorY √(x ^ 2 + y ^ 2) r, polyVal (gtilde (l ^ 2 + q)) p.1 p.2 (mu p)) - S.getD (l ^ 2 + q) 0) := by
  obtain ⟨A2, hA, hA2⟩ := A2_spec D
  obtain ⟨g, hg, hgv, hgs⟩ := hA2 c hc
  refine ⟨g, hgv, fun order S hS => ?_⟩
  have hocc : ¬ (1 + r ≤ √(x ^ 2 + y ^ 2) ∨ z ≤ 0) := by
    rintro (h | h) <;> linarith
  refine ⟨_, designVector_occ hocc hS hA, vecMat_length _ _, ?_⟩
  rw [hgs]
  set b := √(x ^ 2 + y ^ 2)
  have hV : stellarDisc \ occultorY b r ⊆ stellarDisc := Set.sdiff_subset
  have hint : ∫ p in stellarDisc \ occultorY b r, denseVal c p.1 p.2 (mu p) =
      ∑ n ∈ Finset.range ((D + 1) ^ 2), g.getD n 0 * ∫ p in stellarDisc \ occultorY b r, polyVal (gtilde n) p.1 p.2 (mu p) := by
    simp only [hgv]
    rw [integral_finsetSum]
    · exact Finset.sum_congr rfl fun n _ => MeasureTheory.integral_const_mul _ _
    · exact fun n _ => ((integrableOn_disc_cont (continuous_polyVal _)).mono_set hV).const_mul _
  rw [hint, sum_blocks, sum_blocks, ← Finset.sum_sub_distrib]
  refine Finset.sum_congr rfl fun l hl => ?_
  rw [← Finset.sum_sub_distrib]
  exact Finset.sum_congr rfl fun q hq => by ring

/-- the radial velocity during an occultation, for any solution vector -/
theorem surface_rv_vector (eps : ℝ) (quad : ℕ → List (ℝ × ℝ)) {asEuler : Spec.V3 → Spec.V3} (hE : IsEulerZYZ asEuler)
    (s : Surface) (hy : ValidMap s.y) {P : ℝ} (hP : s.period = some P) (htot : totalFlux s.u ≠ 0) {r x y z : ℝ} (theta : Option ℝ)
    (hb : √(x ^ 2 + y ^ 2) < 1 + r) (hz : 0 < z) :
    ∃ g h : List ℝ,
      (∀ p ∈ stellarDisc, skyOf s theta (rot2 (-(arctan2 x y)) p) =
        π * ∑ n ∈ Finset.range ((s.deg + 1 + 1) ^ 2), g.getD n 0 * polyVal (gtilde n) p.1 p.2 (mu p)) ∧
      (∀ p ∈ stellarDisc, velocityOf s P (rot2 (-(arctan2 x y)) p) * skyOf s theta (rot2 (-(arctan2 x y)) p) =
        π * ∑ n ∈ Finset.range ((s.deg + 1 + 1) ^ 2), h.getD n 0 * polyVal (gtilde n) p.1 p.2 (mu p)) ∧
      ∀ order S, solutionVector eps quad (s.deg + 1) order √(x ^ 2 + y ^ 2) r = .ok S →
      surfaceRadialVelocity eps quad asEuler order s (some r) (some x) (some y) (some z) theta =
        .ok (s.amplitude *
          (((∫ p in stellarDisc \ occultorAt x y r, velocityOf s P p * skyOf s theta p) - π *
            ∑ l ∈ Finset.range (s.deg + 1 + 1), ∑ q ∈ Finset.range (2 * l + 1), h.getD (l ^ 2 + q) 0 *
              ((∫ p in stellarDisc \ occultorY √(x ^ 2 + y ^ 2) r, polyVal (gtilde (l ^ 2 + q)) p.1 p.2 (mu p)) - S.getD (l ^ 2 + q) 0)) /
          ((∫ p in stellarDisc \ occultorAt x y r, skyOf s theta p) - π *
            ∑ l ∈ Finset.range (s.deg + 1 + 1), ∑ q ∈ Finset.range (2 * l + 1), g.getD (l ^ 2 + q) 0 *
              ((∫ p in stellarDisc \ occultorY √(x ^ 2 + y ^ 2) r, polyVal (gtilde (l ^ 2 + q)) p.1 p.2 (mu p)) - S.getD (l ^ 2 + q) 0)))) := by
  obtain ⟨c, cv, hc, hcv, hv, hvv, hf⟩ := projectVelocity_spec hE s hy hP htot theta (arctan2 x y)
  obtain ⟨g, hg2, hg3⟩ := designVector_any eps quad (s.deg + 1) hb hz hc
  obtain ⟨h, hh2, hh3⟩ := designVector_any eps quad (s.deg + 1) hb hz hcv
  refine ⟨g, h, fun p hp => by rw [← hv p hp, hg2], fun p hp => by rw [← hvv p hp, hh2], fun order S hS => ?_⟩
  obtain ⟨d, hd, hdl, hd3⟩ := hg3 order S hS
  obtain ⟨d', hd', -, hd3'⟩ := hh3 order S hS
  obtain rfl : d = d' := Except.ok.inj (hd.symm.trans hd')
  have hV : stellarDisc \ occultorY √(x ^ 2 + y ^ 2) r ⊆ stellarDisc := Set.sdiff_subset
  have hVm : MeasurableSet (stellarDisc \ occultorY √(x ^ 2 + y ^ 2) r) := measurableSet_stellarDisc.diff (measurableSet_occultorY _ _)
  unfold surfaceRadialVelocity
  simp only [Option.getD_some]
  rw [show s.vdeg = 1 from rfl, hd]
  simp only [bind, Except.bind]
  rw [hf _ hdl, hd3, hd3', rotated_any _ hv _ hV hVm,
    rotated_any (f := fun p => velocityOf s P p * skyOf s theta p) _ hvv _ hV hVm, rot2_occultor]
  congr 1
  rw [mul_div_assoc]
  congr 1
  rw [← div_div_div_cancel_right₀ pi_pos.ne' (_ - π * _)]
  congr 1 <;> field_simp

/-- the error of a quotient -/
theorem quotient_error {N D a e A E : ℝ} (ha : |a| ≤ A) (he : |e| ≤ E) (hE : E < |D|) :
    |(N - a) / (D - e) - N / D| ≤ (A + |N / D| * E) / (|D| - E) := by
  have hE0 : 0 ≤ E := (abs_nonneg _).trans he
  have hD : D ≠ 0 := by
    rintro rfl
    rw [abs_zero] at hE
    linarith
  have h1 : |D| - E ≤ |D - e| := by
    have := abs_sub_abs_le_abs_sub D e
    linarith
  have hDe : D - e ≠ 0 := by
    intro h
    rw [h, abs_zero] at h1
    linarith
  have e1 : (N - a) / (D - e) - N / D = (-a + N / D * e) / (D - e) := by
    field_simp
    ring
  rw [e1, abs_div]
  have h2 : |-a + N / D * e| ≤ A + |N / D| * E := by
    refine (abs_add_le _ _).trans ?_
    rw [abs_neg, abs_mul]
    exact add_le_add ha (mul_le_mul_of_nonneg_left he (abs_nonneg _))
  exact div_le_div₀ ((abs_nonneg _).trans h2) h2 (by linarith) h1

/-- the error of the sums over the entries of the solution vector that remains at large orders, for the coefficients `g` in the
Green basis -/
noncomputable def edgeSum (eps b r : ℝ) (D : ℕ) (g : List ℝ) : ℝ :=
  ∑ l ∈ Finset.range (D + 1), ∑ q ∈ Finset.range (2 * l + 1), |g.getD (l ^ 2 + q) 0| * edgeLoss eps b r l q

open Filter in
/-- C87: the radial velocity of a surface during an occultation converges to the mean velocity of the visible part of the disc,
up to the error of the polynomial terms and of the guards. `g` and `h` are the coefficients, in the Green basis, of the
brightness and of the velocity times the brightness, in the frame where the occultor is on the `y` axis. -/
theorem surface_rv_converges {quad : ℕ → List (ℝ × ℝ)} (hq : ∀ n, IsGaussLegendre n (quad n)) {eps : ℝ} (he : 0 < eps)
    {asEuler : Spec.V3 → Spec.V3} (hE : IsEulerZYZ asEuler) (s : Surface) (hy : ValidMap s.y) {P : ℝ} (hP : s.period = some P)
    (htot : totalFlux s.u ≠ 0) {r x y z : ℝ} (theta : Option ℝ) (hr : 0 ≤ r) (hb : √(x ^ 2 + y ^ 2) < 1 + r) (hz : 0 < z)
    (hne : ¬ (x = 0 ∧ y = 0 ∧ r = 1)) :
    ∃ g h : List ℝ,
      (∀ p ∈ stellarDisc, skyOf s theta (rot2 (-(arctan2 x y)) p) =
        π * ∑ n ∈ Finset.range ((s.deg + 1 + 1) ^ 2), g.getD n 0 * polyVal (gtilde n) p.1 p.2 (mu p)) ∧
      (∀ p ∈ stellarDisc, velocityOf s P (rot2 (-(arctan2 x y)) p) * skyOf s theta (rot2 (-(arctan2 x y)) p) =
        π * ∑ n ∈ Finset.range ((s.deg + 1 + 1) ^ 2), h.getD n 0 * polyVal (gtilde n) p.1 p.2 (mu p)) ∧
      let b := √(x ^ 2 + y ^ 2)
      let V := stellarDisc \ occultorAt x y r
      let flux := ∫ p in V, skyOf s theta p
      let mean := meanVelocity (skyOf s theta) (velocityOf s P) V
      π * edgeSum eps b r (s.deg + 1) g < |flux| →
      ∀ δ > 0, ∃ N, ∀ order ≥ N, ∃ f, surfaceRadialVelocity eps quad asEuler order s (some r) (some x) (some y) (some z) theta = .ok f ∧
        |f - s.amplitude * mean| ≤ |s.amplitude| * ((π * edgeSum eps b r (s.deg + 1) h + |mean| * (π * edgeSum eps b r (s.deg + 1) g)) /
          (|flux| - π * edgeSum eps b r (s.deg + 1) g)) + δ := by
  obtain ⟨g, h, hg, hh, hall⟩ := surface_rv_vector eps quad hE s hy hP htot theta hb hz
  refine ⟨g, h, hg, hh, ?_⟩
  intro b V flux mean hflux δ hδ
  have hb0 : 0 ≤ b := sqrt_nonneg _
  have hne' : ¬ (b = 0 ∧ r = 1) := by
    rintro ⟨h1, h2⟩
    have h3 : x ^ 2 + y ^ 2 ≤ 0 := Real.sqrt_eq_zero'.1 h1
    have hx : x = 0 := by nlinarith [sq_nonneg x, sq_nonneg y]
    have hy : y = 0 := by nlinarith [sq_nonneg x, sq_nonneg y]
    exact hne ⟨hx, hy, h2⟩
  set G := π * edgeSum eps b r (s.deg + 1) g with hG
  set H := π * edgeSum eps b r (s.deg + 1) h with hH
  set Ag := ∑ l ∈ Finset.range (s.deg + 1 + 1), ∑ q ∈ Finset.range (2 * l + 1), |g.getD (l ^ 2 + q) 0| with hAg
  set Ah := ∑ l ∈ Finset.range (s.deg + 1 + 1), ∑ q ∈ Finset.range (2 * l + 1), |h.getD (l ^ 2 + q) 0| with hAh
  have hlim : Tendsto (fun d : ℝ => |s.amplitude| * (((H + π * (Ah * d)) + |mean| * (G + π * (Ag * d))) / (|flux| - (G + π * (Ag * d)))))
      (nhdsWithin 0 (Set.Ioi 0)) (nhds (|s.amplitude| * ((H + |mean| * G) / (|flux| - G)))) := by
    have : ContinuousAt (fun d : ℝ => |s.amplitude| * (((H + π * (Ah * d)) + |mean| * (G + π * (Ag * d))) / (|flux| - (G + π * (Ag * d))))) 0 := by
      refine ContinuousAt.mul continuousAt_const (ContinuousAt.div (by fun_prop) (by fun_prop) ?_)
      simp only [mul_zero, add_zero]
      linarith
    have h2 := this.tendsto
    simp only [mul_zero, add_zero] at h2
    exact h2.mono_left nhdsWithin_le_nhds
  have hlim2 : Tendsto (fun d : ℝ => G + π * (Ag * d)) (nhdsWithin 0 (Set.Ioi 0)) (nhds G) := by
    have : ContinuousAt (fun d : ℝ => G + π * (Ag * d)) 0 := by fun_prop
    have h2 := this.tendsto
    simp only [mul_zero, add_zero] at h2
    exact h2.mono_left nhdsWithin_le_nhds
  obtain ⟨d, hd1, hd2, hd3⟩ := ((hlim.eventually (gt_mem_nhds (lt_add_of_pos_right _ hδ))).and
    ((hlim2.eventually (gt_mem_nhds hflux)).and self_mem_nhdsWithin)).exists
  have hd0 : 0 < d := hd3
  obtain ⟨N, hN⟩ := eventually_atTop.1 (solutionVector_eventually hq he (s.deg + 1) (by omega) hb0 hr hne' hd0)
  refine ⟨N, fun order ho => ?_⟩
  obtain ⟨S, e1, e2, e3⟩ := hN order ho
  refine ⟨_, hall order S e1, ?_⟩
  have hs : ∀ k : List ℝ, |π * ∑ l ∈ Finset.range (s.deg + 1 + 1), ∑ q ∈ Finset.range (2 * l + 1), k.getD (l ^ 2 + q) 0 *
      ((∫ p in stellarDisc \ occultorY b r, polyVal (gtilde (l ^ 2 + q)) p.1 p.2 (mu p)) - S.getD (l ^ 2 + q) 0)| ≤
      π * edgeSum eps b r (s.deg + 1) k +
        π * ((∑ l ∈ Finset.range (s.deg + 1 + 1), ∑ q ∈ Finset.range (2 * l + 1), |k.getD (l ^ 2 + q) 0|) * d) := by
    intro k
    rw [abs_mul, abs_of_pos pi_pos, ← mul_add]
    exact mul_le_mul_of_nonneg_left (entries_sum k e3) pi_pos.le
  have hquot := quotient_error (N := ∫ p in V, velocityOf s P p * skyOf s theta p) (D := flux) (hs h) (hs g) hd2
  rw [← mul_sub, abs_mul]
  refine (mul_le_mul_of_nonneg_left hquot (abs_nonneg _)).trans ?_
  exact hd1.le

/-- a star of uniform brightness, rotating in 27 days -/
noncomputable def sunlike : Surface := ⟨⟨[((0, 0), 1)]⟩, some 1.2, some 0.3, [], some 27, 1, 0, 1⟩

theorem sunlike_ok : ValidMap sunlike.y ∧ totalFlux sunlike.u ≠ 0 ∧ sunlike.deg = 0 := by
  refine ⟨⟨by simp [Dict.WF, sunlike], by simp [sunlike], by simp [sunlike]⟩, dipole_ok.2.2, ?_⟩
  simp [Surface.deg, Surface.ydeg, Surface.udeg, Ylm.deg, sunlike]

theorem sunlike_sky (theta : Option ℝ) (p : ℝ × ℝ) : skyOf sunlike theta p = 1 := by
  unfold skyOf skyIntensity mapAt
  have hd : sunlike.y.deg = 0 := by simp [Ylm.deg, sunlike]
  rw [hd]
  have hc : coef sunlike.y 0 0 = 1 := by simp [coef, sunlike, Dict.getD0, Dict.get1]
  have hp : profile sunlike.u (mu p) = 1 := by
    rw [show sunlike.u = [] from rfl]; simp [profile]
  rw [hp]
  simp [hc, realHarmonic_zero]
  have := (sqrt_pos.2 pi_pos).ne'
  field_simp

theorem sunlike_green {g : List ℝ} (h : ∀ p ∈ stellarDisc, (1 : ℝ) =
    π * ∑ n ∈ Finset.range ((0 + 1 + 1) ^ 2), g.getD n 0 * polyVal (gtilde n) p.1 p.2 (mu p)) :
    π * g.getD 0 0 = 1 ∧ g.getD 1 0 = 0 ∧ g.getD 2 0 = 0 ∧ g.getD 3 0 = 0 := by
  have key : ∀ x y : ℝ, x ^ 2 + y ^ 2 ≤ 1 → 1 = π * (g.getD 0 0 + g.getD 1 0 * (2 * x) + g.getD 2 0 * √(1 - x ^ 2 - y ^ 2) + g.getD 3 0 * y) := by
    intro x y hxy
    have := h (x, y) (by simpa [stellarDisc] using hxy)
    have e0 : polyVal (gtilde 0) x y (mu (x, y)) = 1 := by
      simp [polyVal, gtilde, gTerms]
    have e1 : polyVal (gtilde 1) x y (mu (x, y)) = 2 * x := by
      simp [polyVal, gtilde, gTerms]
    have e2 : polyVal (gtilde 2) x y (mu (x, y)) = √(1 - x ^ 2 - y ^ 2) := by
      norm_num [polyVal, gtilde, gTerms, mu]
    have e3 : polyVal (gtilde 3) x y (mu (x, y)) = y := by
      norm_num [polyVal, gtilde, gTerms, mu]
    rw [show (0 + 1 + 1) ^ 2 = 4 by norm_num] at this
    simp only [Finset.sum_range_succ, Finset.sum_range_zero] at this
    rw [e0, e1, e2, e3] at this
    linarith
  generalize g.getD 0 0 = c0 at *
  generalize g.getD 1 0 = c1 at *
  generalize g.getD 2 0 = c2 at *
  generalize g.getD 3 0 = c3 at *
  have h0 := key 0 0 (by norm_num)
  have h1 := key 1 0 (by norm_num)
  have h2 := key (-1) 0 (by norm_num)
  have h3 := key 0 1 (by norm_num)
  have h4 := key 0 (-1) (by norm_num)
  norm_num at h0 h1 h2 h3 h4
  have hp := pi_pos.ne'
  have a1 : c1 = 0 := by
    have : π * c1 = 0 := by linarith
    simpa [hp] using this
  have a3 : c3 = 0 := by
    have : π * c3 = 0 := by linarith
    simpa [hp] using this
  have a2 : c2 = 0 := by
    have : π * c2 = 0 := by linarith
    simpa [hp] using this
  refine ⟨by rw [a1] at h1; linarith, a1, a2, a3⟩

/-- C87: the hypothesis on the flux is met by a planet of radius 0.1 at `(0.3, 0.4)` in front of a uniform star: the remaining
error is much smaller than the flux -/
theorem sunlike_rv {quad : ℕ → List (ℝ × ℝ)} (hq : ∀ n, IsGaussLegendre n (quad n)) {asEuler : Spec.V3 → Spec.V3} (hE : IsEulerZYZ asEuler) :
    ∃ g : List ℝ, (∀ p ∈ stellarDisc, skyOf sunlike none (rot2 (-(arctan2 0.3 0.4)) p) =
        π * ∑ n ∈ Finset.range ((sunlike.deg + 1 + 1) ^ 2), g.getD n 0 * polyVal (gtilde n) p.1 p.2 (mu p)) ∧
      π * edgeSum 1e-16 √(0.3 ^ 2 + 0.4 ^ 2) 0.1 (sunlike.deg + 1) g <
        |∫ p in stellarDisc \ occultorAt 0.3 0.4 0.1, skyOf sunlike none p| ∧
      ∃ N, ∀ order ≥ N, ∃ f, surfaceRadialVelocity 1e-16 quad asEuler order sunlike (some 0.1) (some 0.3) (some 0.4) (some 1) none = .ok f := by
  obtain ⟨h1, h2, h3⟩ := sunlike_ok
  have hb : √((0.3 : ℝ) ^ 2 + 0.4 ^ 2) = 0.5 := by
    rw [show (0.3 : ℝ) ^ 2 + 0.4 ^ 2 = 0.5 ^ 2 by norm_num, Real.sqrt_sq (by norm_num)]
  obtain ⟨g, h, hg, -, hN⟩ := surface_rv_converges hq (eps := 1e-16) (by norm_num) hE sunlike h1 (P := 27) rfl h2 (r := 0.1) (x := 0.3)
    (y := 0.4) (z := 1) none (by norm_num) (by rw [hb]; norm_num) (by norm_num) (by norm_num)
  have hlt : π * edgeSum 1e-16 √(0.3 ^ 2 + 0.4 ^ 2) 0.1 (sunlike.deg + 1) g < |∫ p in stellarDisc \ occultorAt 0.3 0.4 0.1, skyOf sunlike none p| := by
    simp only [sunlike_sky, h3] at hg
    obtain ⟨g0, g1, g2, g3⟩ := sunlike_green hg
    have hsum : edgeSum 1e-16 √(0.3 ^ 2 + 0.4 ^ 2) 0.1 (sunlike.deg + 1) g = |g.getD 0 0| * edgeLoss 1e-16 0.5 0.1 0 0 := by
      unfold edgeSum
      rw [hb, h3]
      simp only [Finset.sum_range_succ, Finset.sum_range_zero]
      norm_num
      rw [List.getD_eq_getElem?_getD] at g1 g2 g3
      rw [g1, g2, g3]
      simp
    have hl := edgeLoss_small (eps := 1e-16) (b := 0.5) (r := 0.1) (by norm_num) (by norm_num) (by norm_num) (by norm_num) (by norm_num)
      (l := 0) (by norm_num) 0
    have hg0 : 0 < g.getD 0 0 := by
      by_contra hc
      nlinarith [pi_pos]
    rw [hsum, ← mul_assoc, abs_of_pos hg0, g0, one_mul]
    simp only [sunlike_sky]
    have harea : 0.36 ≤ |∫ p in stellarDisc \ occultorAt 0.3 0.4 0.1, (1 : ℝ)| := by
      have hsub : Set.Icc (-0.6 : ℝ) 0 ×ˢ Set.Icc (-0.6 : ℝ) 0 ⊆ stellarDisc \ occultorAt 0.3 0.4 0.1 := by
        rintro ⟨u, v⟩ ⟨⟨u1, u2⟩, ⟨v1, v2⟩⟩
        simp only at u1 u2 v1 v2
        refine ⟨?_, ?_⟩
        · change u ^ 2 + v ^ 2 ≤ 1
          nlinarith
        · change ¬ ((u - 0.3) ^ 2 + (v - 0.4) ^ 2 ≤ 0.1 ^ 2)
          nlinarith
      have hi : IntegrableOn (fun _ : ℝ × ℝ => (1 : ℝ)) (stellarDisc \ occultorAt 0.3 0.4 0.1) :=
        (integrableOn_disc_cont continuous_const).mono_set Set.sdiff_subset
      have hm := setIntegral_mono_set hi (ae_of_all _ fun _ => zero_le_one) hsub.eventuallyLE
      refine le_trans (le_trans (le_of_eq ?_) hm) (le_abs_self _)
      rw [setIntegral_const, smul_eq_mul, mul_one, Measure.real, Measure.volume_eq_prod, Measure.prod_prod, Real.volume_Icc, ENNReal.toReal_mul]
      norm_num
    norm_num at hl harea ⊢
    linarith
  obtain ⟨N, hN⟩ := hN hlt 1 one_pos
  exact ⟨g, hg, hlt, N, fun order ho => ⟨_, (hN order ho).choose_spec.1⟩⟩

end Jaxoplanet.Starry
