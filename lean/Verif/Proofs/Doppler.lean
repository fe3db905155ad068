import Verif.Props.Intensity

/-!
# Helpers for radial velocities of surfaces: products of polynomials, the velocity map, the design vector
-/

namespace Jaxoplanet.Starry
open _root_.Jaxoplanet.Starry.Spec _root_.Jaxoplanet.Spec _root_.Jaxoplanet.Green _root_.Jaxoplanet.LimbDark
open Real MeasureTheory

/-! ### products of polynomials -/

/-- a polynomial whose degree is attained by one of its keys -/
structure Pijk.Exact (p : Pijk) (d : ℕ) : Prop where
  valid : ValidPoly p.data
  degree : p.degree = d
  le : ∀ e ∈ p.data, e.1.1 + e.1.2.1 + e.1.2.2 ≤ d
  attained : ∃ e ∈ p.data, e.1.1 + e.1.2.1 + e.1.2.2 = d

theorem fromDense_none {c : List ℝ} {d : ℕ} (hc : c.length = (d + 1) ^ 2) : Pijk.fromDense c none = Pijk.fromDense c (some d) := by
  have hne : c ≠ [] := by
    rintro rfl
    have : 0 < (d + 1) ^ 2 := by positivity
    simp only [List.length_nil] at hc
    omega
  obtain ⟨p, hp, -, -, -, h, -⟩ := pijk_fromDense c hne none
  obtain ⟨q, hq, -, -, hqd, -, -⟩ := pijk_fromDense c hne (some d)
  have h1 := (h d hc).2.2 rfl
  have h2 := hqd d rfl
  rw [hp, hq]
  unfold Pijk.fromDense Pijk.make at hp hq
  split_ifs at hp hq
  have e1 := Except.ok.inj hp
  have e2 := Except.ok.inj hq
  subst e1 e2
  simp only at h1 ⊢
  rw [h1]

theorem fromDense_exact {c : List ℝ} {d : ℕ} (hc : c.length = (d + 1) ^ 2) :
    ∃ p, Pijk.fromDense c (some d) = .ok p ∧ p.Exact d ∧ ∀ x y z, polyVal p.data x y z = denseVal c x y z := by
  have hne : c ≠ [] := by
    rintro rfl
    have : 0 < (d + 1) ^ 2 := by positivity
    simp only [List.length_nil] at hc
    omega
  obtain ⟨p, hp, hv, hpv, hdeg, h, -⟩ := pijk_fromDense c hne (some d)
  exact ⟨p, hp, ⟨hv, hdeg d rfl, (h d hc).1, (h d hc).2.1⟩, hpv⟩

theorem mul_exact {p q : Pijk} {a b : ℕ} (hp : p.Exact a) (hq : q.Exact b) :
    ∃ w, p.mul q = .ok w ∧ w.Exact (a + b) ∧ ∀ x y z, x ^ 2 + y ^ 2 + z ^ 2 = 1 →
      polyVal w.data x y z = polyVal p.data x y z * polyVal q.data x y z := by
  obtain ⟨w, hw, hv, hval, hle, hdeg⟩ := pijk_mul p q hp.valid hq.valid
  have hd := hdeg a b hp.le hp.attained hq.le hq.attained
  refine ⟨w, hw, ⟨hv, hd, hd ▸ hle, ?_⟩, hval⟩
  obtain ⟨w', hw', -, -, hatt⟩ := make_ok hv none
  have hmk : ∃ D, Pijk.make D none = .ok w := ⟨_, hw⟩
  obtain ⟨D, hD⟩ := hmk
  have hDw : w.data = D := by
    unfold Pijk.make at hD
    split_ifs at hD
    simp only at hD
    exact (congrArg Pijk.data (Except.ok.inj hD)).symm
  rw [hDw, hD] at hw'
  have hww := Except.ok.inj hw'
  rw [← hww, hd] at hatt
  exact (hatt rfl).2

theorem Pijk.Exact.length {p : Pijk} {d : ℕ} (hp : p.Exact d) : p.todense.length = (d + 1) ^ 2 := by
  rw [pijk_todense_length, hp.degree]

theorem Pijk.Exact.val {p : Pijk} {d : ℕ} (hp : p.Exact d) (x y z : ℝ) : denseVal p.todense x y z = polyVal p.data x y z :=
  pijk_denseVal p hp.valid (hp.degree ▸ hp.le) x y z

/-- a vector of coefficients, padded with zeros -/
theorem denseVal_pad (c : List ℝ) (k : ℕ) (x y z : ℝ) : denseVal (c ++ List.replicate k 0) x y z = denseVal c x y z := by
  rw [denseVal_eq, denseVal_eq, List.length_append, List.length_replicate, Finset.sum_range_add]
  have h2 : ∀ i ∈ Finset.range k, (c ++ List.replicate k 0).getD (c.length + i) 0 * basisMono (c.length + i) x y z = 0 := by
    intro i hi
    rw [List.getD_append_right _ _ _ _ (by omega), List.getD_replicate]
    · simp
    · rw [Finset.mem_range] at hi
      omega
  rw [Finset.sum_eq_zero h2, add_zero]
  refine Finset.sum_congr rfl fun i hi => ?_
  rw [Finset.mem_range] at hi
  rw [List.getD_append _ _ _ _ hi]

theorem zipWith_take_pad (d c : List ℝ) (k : ℕ) (h : d.length = c.length + k) :
    (List.zipWith (· * ·) (d.take c.length) c).sum = (List.zipWith (· * ·) d (c ++ List.replicate k 0)).sum := by
  conv_rhs => rw [← List.take_append_drop c.length d]
  rw [List.zipWith_append (by rw [List.length_take]; omega), List.sum_append]
  have : (List.zipWith (· * ·) (d.drop c.length) (List.replicate k (0 : ℝ))).sum = 0 := by
    apply List.sum_eq_zero
    intro v hv
    obtain ⟨i, h1, h2⟩ := List.mem_iff_getElem.1 hv
    rw [← h2]
    simp
  rw [this, add_zero]

/-! ### the velocity map -/

theorem A1_one_val (v : List ℝ) (hv : v.length = 4) (x y z : ℝ) (hs : x ^ 2 + y ^ 2 + z ^ 2 = 1) :
    denseVal (matVec ((1 + 1) ^ 2) (A1 1) v) x y z =
      1 / π * v.getD 0 0 + √3 / π * (v.getD 1 0 * y + v.getD 2 0 * z + v.getD 3 0 * x) := by
  rw [(A1_val 1 v (by rw [hv]; norm_num) x y z hs).2]
  simp only [Finset.sum_range_succ, Finset.sum_range_zero, zero_add, mul_zero, mul_one, Nat.cast_zero, Nat.cast_one, Nat.cast_ofNat]
  norm_num
  rw [realHarmonic_zero, (realHarmonic_one _ _ _).1, (realHarmonic_one _ _ _).2.1, (realHarmonic_one _ _ _).2.2]
  have h0 : √π ≠ 0 := (sqrt_pos.2 pi_pos).ne'
  have h1 : 1 / π = 1 / (√π * √π) := by rw [mul_self_sqrt pi_pos.le]
  rw [← one_div, div_eq_mul_one_div (√3) π, h1]
  field_simp

theorem rvMap_coeffs (v : ℝ) (inc obl : Option ℝ) :
    rvMapExpansion (some v) inc obl none =
      [0, v * √3 * (sin (velInc inc) * sin (obl.getD 0)) / 3 * π, 0, v * √3 * (sin (velInc inc) * cos (obl.getD 0)) / 3 * π] := by
  unfold rvMapExpansion velInc
  cases inc <;> cases obl <;> simp

/-- the velocity map rotated about the line of sight -/
theorem rvMap_rotated (v : ℝ) (inc obl : Option ℝ) (tz : ℝ) {p : ℝ × ℝ} {z : ℝ} (hs : p.1 ^ 2 + p.2 ^ 2 + z ^ 2 = 1) :
    denseVal (matVec ((1 + 1) ^ 2) (A1 1) (dotRz 1 (-tz) (rvMapExpansion (some v) inc obl none))) p.1 p.2 z =
      v * losSpeed (velInc inc) (obl.getD 0) (rot2 (-tz) p) := by
  rw [A1_one_val _ (by rw [dotRz_length]; norm_num) _ _ _ hs]
  have e1 := dotRz_getD 1 (-tz) (rvMapExpansion (some v) inc obl none) 1 0 le_rfl (by omega)
  have e2 := dotRz_getD 1 (-tz) (rvMapExpansion (some v) inc obl none) 1 1 le_rfl (by omega)
  have e3 := dotRz_getD 1 (-tz) (rvMapExpansion (some v) inc obl none) 1 2 le_rfl (by omega)
  have e0 := dotRz_getD 1 (-tz) (rvMapExpansion (some v) inc obl none) 0 0 (by omega) (by omega)
  rw [rvMap_coeffs] at e0 e1 e2 e3 ⊢
  norm_num at e0 e1 e2 e3
  norm_num
  rw [e0, e1, e2, e3]
  have h3 : √3 * √3 = 3 := mul_self_sqrt (by norm_num)
  have hp := pi_pos.ne'
  unfold losSpeed rot2
  simp only [cos_neg, sin_neg]
  field_simp
  linear_combination (π * v * sin (velInc inc) * (cos tz * sin (obl.getD 0) * p.2 + cos tz * cos (obl.getD 0) * p.1 -
    sin (obl.getD 0) * sin tz * p.1 + sin tz * cos (obl.getD 0) * p.2)) * h3

/-- contraction of the design vector of an occultation with the coefficients of a polynomial -/
theorem designVector_dot {eps : ℝ} (he : 0 < eps) (quad : ℕ → List (ℝ × ℝ)) (order D : ℕ) (hD : 1 ≤ D) {r x y z : ℝ}
    (hr : 0 ≤ r) (hb : √(x ^ 2 + y ^ 2) < 1 + r) (hz : 0 < z) (hne : ¬ (x = 0 ∧ y = 0 ∧ r = 1))
    (hreg : Regular eps (quad order) √(x ^ 2 + y ^ 2) r (kappas √(x ^ 2 + y ^ 2) r).1)
    (hreg' : Regular eps (quad (min order 20)) √(x ^ 2 + y ^ 2) r (kappas √(x ^ 2 + y ^ 2) r).1) :
    ∃ d : List ℝ, designVector eps quad order D r x y z = .ok d ∧ d.length = (D + 1) ^ 2 ∧
      ∀ c : List ℝ, c.length = (D + 1) ^ 2 → ∃ g : List ℝ, g.length = (D + 1) ^ 2 ∧
        (∀ x y z : ℝ, denseVal c x y z = ∑ n ∈ Finset.range ((D + 1) ^ 2), g.getD n 0 * polyVal (gtilde n) x y z) ∧
        (List.zipWith (· * ·) d c).sum = (∫ p in stellarDisc \ occultorY √(x ^ 2 + y ^ 2) r, denseVal c p.1 p.2 (mu p)) -
          ∑ l ∈ Finset.range (D + 1), ∑ q ∈ Finset.range (2 * l + 1), g.getD (l ^ 2 + q) 0 *
            edgeError (quad (pOrder order l q)) √(x ^ 2 + y ^ 2) r (kappas √(x ^ 2 + y ^ 2) r).1 l q := by
  set b := √(x ^ 2 + y ^ 2) with hbdef
  have hb0 : 0 ≤ b := sqrt_nonneg _
  obtain ⟨A2, hA, hA2⟩ := A2_spec D
  have hne' : ¬ (|b| = 0 ∧ |r| = 1) := by
    rw [abs_of_nonneg hb0, abs_of_nonneg hr]
    rintro ⟨h1, h2⟩
    have h3 : x ^ 2 + y ^ 2 ≤ 0 := Real.sqrt_eq_zero'.1 h1
    have hx : x = 0 := by nlinarith [sq_nonneg x, sq_nonneg y]
    have hy : y = 0 := by nlinarith [sq_nonneg x, sq_nonneg y]
    exact hne ⟨hx, hy, h2⟩
  obtain ⟨S, hS, hSl, hSv⟩ := solutionVector_spec he quad order D hD b r hne'
    (by rw [abs_of_nonneg hb0, abs_of_nonneg hr]; exact hreg) (by rw [abs_of_nonneg hb0, abs_of_nonneg hr]; exact hreg')
  rw [abs_of_nonneg hb0, abs_of_nonneg hr] at hSv
  have hocc : ¬ (1 + r ≤ √(x ^ 2 + y ^ 2) ∨ z ≤ 0) := by
    rintro (h | h)
    · rw [← hbdef] at h; linarith
    · linarith
  refine ⟨_, designVector_occ hocc hS hA, vecMat_length _ _, fun c hc => ?_⟩
  obtain ⟨g, hg, hgv, hgs⟩ := hA2 c hc
  refine ⟨g, hg, hgv, ?_⟩
  rw [hgs]
  have hV : stellarDisc \ occultorY b r ⊆ stellarDisc := Set.sdiff_subset
  have hint : ∫ p in stellarDisc \ occultorY b r, denseVal c p.1 p.2 (mu p) =
      ∑ n ∈ Finset.range ((D + 1) ^ 2), g.getD n 0 * ∫ p in stellarDisc \ occultorY b r, polyVal (gtilde n) p.1 p.2 (mu p) := by
    simp only [hgv]
    rw [integral_finsetSum]
    · exact Finset.sum_congr rfl fun n _ => MeasureTheory.integral_const_mul _ _
    · exact fun n _ => ((integrableOn_disc_cont (continuous_polyVal _)).mono_set hV).const_mul _
  rw [hint, sum_blocks, sum_blocks, ← Finset.sum_sub_distrib]
  refine Finset.sum_congr rfl fun l hl => ?_
  rw [← Finset.sum_sub_distrib]
  refine Finset.sum_congr rfl fun q hq => ?_
  rw [Finset.mem_range] at hl hq
  have := hSv l (by omega) q (by omega)
  simp only at this
  rw [this]
  unfold edgeError
  ring

theorem projectVelocity_spec {asEuler : Spec.V3 → Spec.V3} (hE : IsEulerZYZ asEuler) (s : Surface) (hy : ValidMap s.y) {P : ℝ}
    (hP : s.period = some P) (htot : totalFlux s.u ≠ 0) (theta : Option ℝ) (tz : ℝ) :
    ∃ c cv : List ℝ, c.length = (s.deg + 1 + 1) ^ 2 ∧ cv.length = (s.deg + 1 + 1) ^ 2 ∧
      (∀ p ∈ stellarDisc, π * denseVal c p.1 p.2 (mu p) = skyOf s theta (rot2 (-tz) p)) ∧
      (∀ p ∈ stellarDisc, π * denseVal cv p.1 p.2 (mu p) = velocityOf s P (rot2 (-tz) p) * skyOf s theta (rot2 (-tz) p)) ∧
      ∀ design : List ℝ, design.length = (s.deg + 1 + 1) ^ 2 → projectVelocity asEuler s theta tz design =
        .ok (s.amplitude * (List.zipWith (· * ·) design cv).sum / (List.zipWith (· * ·) design c).sum) := by
  have hrot : ∃ M', rotatedY asEuler s theta tz = .ok M' ∧ M'.length = (s.ydeg + 1) ^ 2 ∧
      ∀ p, OnSphere p → mapVal s.ydeg M' p =
        mapVal s.ydeg s.y.todense (observerView (s.inc.getD 0) (usedObl s.inc s.obl) (theta.getD 0) (rotZ (-tz) p)) := by
    unfold rotatedY
    by_cases h : s.ydeg = 0
    · refine ⟨s.y.todense, by rw [if_pos h], todense_length _, fun p _ => ?_⟩
      rw [h]
      exact mapVal_zero _ _ _
    · rw [if_neg h]
      exact leftProject_view hE _ _ _ _ _ _
  obtain ⟨M', hM1, hM2, hM3⟩ := hrot
  obtain ⟨cu, q, hcu, hq, hu, hval⟩ := uPoly_spec s.u
  have hcy := (A1_val s.ydeg M' hM2 0 0 1 (by norm_num)).1
  obtain ⟨py, hpy, hpye, hpyv⟩ := fromDense_exact hcy
  obtain ⟨q', hq', hqe, hqv⟩ := fromDense_exact hcu
  obtain rfl : q' = q := Except.ok.inj (hq'.symm.trans hq)
  have hrv : (matVec ((1 + 1) ^ 2) (A1 1) (dotRz 1 (-tz) (rvMapExpansion (some (2 * π * s.radius / P)) s.inc s.obl none))).length = (1 + 1) ^ 2 :=
    (A1_val 1 _ (dotRz_length _ _ _) 0 0 1 (by norm_num)).1
  obtain ⟨pv, hpv, hpve, hpvv⟩ := fromDense_exact hrv
  have hrvp : rvPoly s tz = .ok pv := by
    unfold rvPoly Surface.veq
    rw [hP]
    simp only [bind, Except.bind]
    rw [show s.vdeg = 1 from rfl, fromDense_none hrv, hpv]
  obtain ⟨w1, hw1, hw1e, hw1v⟩ := mul_exact hpye hpve
  obtain ⟨w2, hw2, hw2e, hw2v⟩ := mul_exact hw1e hqe
  obtain ⟨w3, hw3, hw3e, hw3v⟩ := mul_exact hpye hqe
  have hdeg : s.deg = s.ydeg + s.u.length := rfl
  have hqd : q'.todense = cu := pijk_todense_fromDense hcu (some s.u.length) (Or.inr rfl) hq
  have htot' : ∫ p in stellarDisc, denseVal cu p.1 p.2 (mu p) = totalFlux s.u := by
    unfold totalFlux
    exact setIntegral_congr_fun measurableSet_stellarDisc fun p hp => hval _ _ _ (disc_sphere hp)
  have hl3 : w3.todense.length = (s.deg + 1) ^ 2 := by rw [hw3e.length, hdeg]
  have hl2 : w2.todense.length = (s.deg + 1 + 1) ^ 2 := by
    rw [hw2e.length, hdeg]
    congr 1
    omega
  have hk : (s.deg + 1) ^ 2 ≤ (s.deg + 1 + 1) ^ 2 := Nat.pow_le_pow_left (by omega) 2
  have hsky : ∀ pt ∈ stellarDisc, π * (denseVal (matVec ((s.ydeg + 1) ^ 2) (A1 s.ydeg) M') pt.1 pt.2 (mu pt) * denseVal cu pt.1 pt.2 (mu pt)) =
      skyOf s theta (rot2 (-tz) pt) := by
    intro pt hpt
    have hs := disc_sphere hpt
    have hon : OnSphere (pt.1, pt.2, mu pt) := hs
    rw [hval _ _ _ hs, (A1_val s.ydeg M' hM2 _ _ _ hs).2]
    have h1 := hM3 _ hon
    rw [show s.ydeg = s.y.deg from rfl, mapVal_todense hy] at h1
    unfold mapVal at h1
    simp only at h1
    rw [show s.ydeg = s.y.deg from rfl, h1]
    unfold skyOf skyIntensity
    rw [mu_rot2]
    have h2 : rotZ (-tz) (pt.1, pt.2, mu pt) = ((rot2 (-tz) pt).1, (rot2 (-tz) pt).2, mu pt) := rfl
    rw [h2]
    have h3 : π * (2 / √π) = 2 * √π := by
      have := mul_self_sqrt pi_pos.le
      have h0 : √π ≠ 0 := (sqrt_pos.2 pi_pos).ne'
      field_simp
      linarith
    rw [← h3]
    ring
  refine ⟨w3.todense ++ List.replicate ((s.deg + 1 + 1) ^ 2 - (s.deg + 1) ^ 2) 0, w2.todense, ?_, hl2, fun pt hpt => ?_, fun pt hpt => ?_,
    fun design hd => ?_⟩
  · rw [List.length_append, List.length_replicate, hl3]
    omega
  · have hs := disc_sphere hpt
    rw [denseVal_pad, hw3e.val, hw3v _ _ _ hs, hpyv, hqv, hsky pt hpt]
  · have hs := disc_sphere hpt
    rw [hw2e.val, hw2v _ _ _ hs, hw1v _ _ _ hs, hpyv, hqv, hpvv, rvMap_rotated _ _ _ _ hs]
    have := hsky pt hpt
    rw [← this]
    unfold velocityOf
    ring
  · unfold projectVelocity
    have hflux : q'.dot (rT s.udeg) = .ok (totalFlux s.u) := by
      rw [dot_ok _ _ (by rw [hqd, (rT_spec s.udeg).1, hcu]; rfl), hqd, show s.udeg = s.u.length from rfl, rT_dot _ _ hcu, htot']
    have hd1 : w2.dot design = .ok (List.zipWith (· * ·) design w2.todense).sum := dot_ok _ _ (by rw [hd, hl2])
    have hd2 : w3.dot (design.take ((s.deg + 1) ^ 2)) = .ok (List.zipWith (· * ·) (design.take ((s.deg + 1) ^ 2)) w3.todense).sum :=
      dot_ok _ _ (by rw [List.length_take, hd, hl3]; omega)
    simp only [hM1, hu, hpy, hflux, hrvp, hw1, hw2, hw3, hd1, hd2, bind, Except.bind, pure, Except.pure]
    rw [← hl3, zipWith_take_pad _ _ ((s.deg + 1 + 1) ^ 2 - w3.todense.length) (by rw [hd, hl3]; omega)]
    congr 1
    rw [mul_div_mul_right _ _ (div_ne_zero pi_pos.ne' htot)]

/-- the integral, over a part of the disc in the frame of the occultor, of a function of the sky -/
theorem rotated_any (tz : ℝ) {c : List ℝ} {f : ℝ × ℝ → ℝ} (h : ∀ p ∈ stellarDisc, π * denseVal c p.1 p.2 (mu p) = f (rot2 (-tz) p))
    (V : Set (ℝ × ℝ)) (hV : V ⊆ stellarDisc) (hm : MeasurableSet V) :
    ∫ p in V, denseVal c p.1 p.2 (mu p) = (∫ p in rot2 (-tz) '' V, f p) / π := by
  rw [integral_rot2 _ _ hm]
  have : ∫ p in V, f (rot2 (-tz) p) = π * ∫ p in V, denseVal c p.1 p.2 (mu p) := by
    rw [← MeasureTheory.integral_const_mul]
    exact setIntegral_congr_fun hm fun p hp => (h p (hV hp)).symm
  rw [this]
  field_simp

end Jaxoplanet.Starry
