import Verif.Props.Occultation
import Verif.Props.MapRotation
import Verif.Props.LimbBasis
import Verif.Props.Harmonics
import Verif.Props.Polynomials
import Verif.Props.LimbDark
import Verif.Spec.SurfaceFlux
import Verif.Model.SurfaceLight
import Verif.Props.GreenBasis
import Mathlib.Analysis.SpecialFunctions.PolarCoord

/-!
# Helpers for the light curve of a surface: rotations of the sky plane, the brightness polynomial
-/

namespace Jaxoplanet.Starry
open _root_.Jaxoplanet.Starry.Spec _root_.Jaxoplanet.Spec _root_.Jaxoplanet.Green _root_.Jaxoplanet.LimbDark
open Real MeasureTheory

/-- rotation of the sky plane -/
noncomputable def rot2 (t : ℝ) (p : ℝ × ℝ) : ℝ × ℝ := (cos t * p.1 - sin t * p.2, sin t * p.1 + cos t * p.2)

theorem rot2_sq (t : ℝ) (p : ℝ × ℝ) : (rot2 t p).1 ^ 2 + (rot2 t p).2 ^ 2 = p.1 ^ 2 + p.2 ^ 2 := by
  have := sin_sq_add_cos_sq t
  simp only [rot2]
  linear_combination (p.1 ^ 2 + p.2 ^ 2) * this

theorem mu_rot2 (t : ℝ) (p : ℝ × ℝ) : mu (rot2 t p) = mu p := by
  have := rot2_sq t p
  unfold mu
  congr 1
  linarith

theorem rot2_neg (t : ℝ) (p : ℝ × ℝ) : rot2 t (rot2 (-t) p) = p := by
  have := sin_sq_add_cos_sq t
  ext <;> simp only [rot2, cos_neg, sin_neg]
  · linear_combination p.1 * this
  · linear_combination p.2 * this

theorem rot2_neg' (t : ℝ) (p : ℝ × ℝ) : rot2 (-t) (rot2 t p) = p := by
  have := rot2_neg (-t) p
  rwa [neg_neg] at this

noncomputable def rot2L (t : ℝ) : ℝ × ℝ →L[ℝ] ℝ × ℝ :=
  LinearMap.toContinuousLinearMap (Matrix.toLin (Module.Basis.finTwoProd ℝ) (Module.Basis.finTwoProd ℝ)
    !![cos t, -sin t; sin t, cos t])

theorem rot2L_apply (t : ℝ) (p : ℝ × ℝ) : rot2L t p = rot2 t p := by
  unfold rot2L rot2
  simp only [LinearMap.coe_toContinuousLinearMap']
  rw [Matrix.toLin_finTwoProd_apply]
  ext <;> simp
  ring

theorem rot2L_det (t : ℝ) : (rot2L t).det = 1 := by
  have := sin_sq_add_cos_sq t
  unfold rot2L
  rw [LinearMap.det_toContinuousLinearMap, LinearMap.det_toLin, Matrix.det_fin_two_of]
  linarith

/-- the integral over the plane is invariant under rotations -/
theorem integral_rot2 (t : ℝ) (S : Set (ℝ × ℝ)) (hS : MeasurableSet S) (f : ℝ × ℝ → ℝ) :
    ∫ p in rot2 t '' S, f p = ∫ p in S, f (rot2 t p) := by
  have e : rot2 t = fun p => rot2L t p := funext fun p => (rot2L_apply t p).symm
  have := integral_image_eq_integral_abs_det_fderiv_smul volume hS (f := rot2 t) (f' := fun _ => rot2L t)
    (fun p _ => by rw [e]; exact (rot2L t).hasFDerivAt.hasFDerivWithinAt) (fun p _ q _ h => by rw [← rot2_neg' t p, h, rot2_neg']) f
  rw [this]
  simp [rot2L_det]

theorem rot2_disc (t : ℝ) : rot2 t '' stellarDisc = stellarDisc := by
  ext p
  simp only [stellarDisc, Set.mem_image, Set.mem_ofPred_eq]
  constructor
  · rintro ⟨q, hq, rfl⟩
    rw [rot2_sq]; exact hq
  · intro hp
    exact ⟨rot2 (-t) p, by rw [rot2_sq]; exact hp, rot2_neg t p⟩

/-- the rotation that the light curve applies carries the occultor on the `y` axis to its position -/
theorem rot2_occultor (x y r : ℝ) :
    rot2 (-(arctan2 x y)) '' (stellarDisc \ occultorY √(x ^ 2 + y ^ 2) r) = stellarDisc \ occultorAt x y r := by
  have hc : ∀ q : ℝ × ℝ, q ∈ occultorY √(x ^ 2 + y ^ 2) r ↔ rot2 (-(arctan2 x y)) q ∈ occultorAt x y r := by
    intro q
    have hx : √(x ^ 2 + y ^ 2) * sin (arctan2 x y) = x := by
      have := Complex.norm_mul_sin_arg ⟨y, x⟩
      rw [Complex.norm_def, Complex.normSq_mk] at this
      simpa [arctan2, show y * y + x * x = x ^ 2 + y ^ 2 by ring] using this
    have hy : √(x ^ 2 + y ^ 2) * cos (arctan2 x y) = y := by
      have := Complex.norm_mul_cos_arg ⟨y, x⟩
      rw [Complex.norm_def, Complex.normSq_mk] at this
      simpa [arctan2, show y * y + x * x = x ^ 2 + y ^ 2 by ring] using this
    have h1 := sin_sq_add_cos_sq (arctan2 x y)
    generalize √(x ^ 2 + y ^ 2) = b at *
    simp only [occultorY, occultorAt, rot2, Set.mem_ofPred_eq, cos_neg, sin_neg]
    have : (cos (arctan2 x y) * q.1 - -sin (arctan2 x y) * q.2 - x) ^ 2 + (-sin (arctan2 x y) * q.1 + cos (arctan2 x y) * q.2 - y) ^ 2 =
        q.1 ^ 2 + (q.2 - b) ^ 2 := by
      generalize cos (arctan2 x y) = c at *
      generalize sin (arctan2 x y) = s at *
      rw [← hx, ← hy]
      linear_combination (q.1 ^ 2 + (q.2 - b) ^ 2) * h1
    rw [this]
  ext p
  constructor
  · rintro ⟨q, ⟨h1, h2⟩, rfl⟩
    refine ⟨?_, fun h => h2 ((hc q).2 h)⟩
    rw [← rot2_disc (-(arctan2 x y))]
    exact ⟨q, h1, rfl⟩
  · rintro ⟨h1, h2⟩
    refine ⟨rot2 (arctan2 x y) p, ⟨?_, fun h => h2 ?_⟩, rot2_neg' _ p⟩
    · rw [← rot2_disc (arctan2 x y)]
      exact ⟨p, h1, rfl⟩
    · have := (hc _).1 h
      rwa [rot2_neg'] at this


theorem mapVal_todense {y : Ylm} (hy : ValidMap y) (p : V3) : mapVal y.deg y.todense p = mapAt y p := by
  unfold mapVal mapAt
  refine Finset.sum_congr rfl fun l hl => Finset.sum_congr rfl fun q hq => ?_
  rw [Finset.mem_range] at hl hq
  have := todense_entry hy (l := l) (m := (q : ℤ) - l) (by rw [abs_le]; omega) (by omega)
  rw [← this]
  congr 2
  unfold Ylm.index
  have : ((l : ℤ) * (l + 1) + ((q : ℤ) - l)) = ((l ^ 2 + q : ℕ) : ℤ) := by push_cast; ring
  rw [this]
  rfl

theorem mapVal_zero (M : List ℝ) (p p' : V3) : mapVal 0 M p = mapVal 0 M p' := by
  simp [mapVal, realHarmonic, rodrigues]

theorem observerView_sphere (inc obl theta : ℝ) {p : V3} (hp : OnSphere p) : OnSphere (observerView inc obl theta p) :=
  rotX_sphere _ (rotZ_sphere _ (rotX_sphere _ (rotZ_sphere _ hp)))

/-- `left_project` in all cases of missing angles -/
theorem leftProject_view {asEuler : V3 → V3} (hE : IsEulerZYZ asEuler) (ydeg : ℕ) (inc obl theta : Option ℝ) (tz : ℝ) (M : List ℝ) :
    ∃ M', leftProject asEuler ydeg inc obl theta (some tz) M = .ok M' ∧ M'.length = (ydeg + 1) ^ 2 ∧
      ∀ p, OnSphere p → mapVal ydeg M' p =
        mapVal ydeg M (observerView (inc.getD 0) (usedObl inc obl) (theta.getD 0) (rotZ (-tz) p)) := by
  cases inc with
  | some inc =>
    cases obl with
    | some obl =>
      obtain ⟨M', h1, h2, h3⟩ := leftProject_spec hE ydeg inc obl theta (some tz) M
      exact ⟨M', h1, h2, fun p hp => by rw [h3 p hp]; simp [observerView, usedObl]⟩
    | none =>
      obtain ⟨M', h1, h2, h3⟩ := leftProject_no_obl hE ydeg inc theta (some tz) M
      exact ⟨M', h1, h2, fun p hp => by rw [h3 p hp]; simp [observerView, usedObl, rotZ_zero]⟩
  | none =>
    cases obl with
    | some obl =>
      obtain ⟨M', h1, h2, h3⟩ := leftProject_no_inc hE ydeg obl theta (some tz) M
      exact ⟨M', h1, h2, fun p hp => by rw [h3 p hp]; simp [observerView, usedObl, rotX_zero]⟩
    | none =>
      obtain ⟨M', h1, h2, h3⟩ := leftProject_none hE ydeg theta (some tz) M
      exact ⟨M', h1, h2, fun p hp => by rw [h3 p hp]; simp [observerView, usedObl, rotX_zero, rotZ_zero]⟩

/-- the limb-darkening polynomial of the light curve -/
theorem uPoly_spec (u : List ℝ) : ∃ c q, c.length = (u.length + 1) ^ 2 ∧ Pijk.fromDense c (some u.length) = .ok q ∧ uPoly u = .ok q ∧
    ∀ x y z : ℝ, x ^ 2 + y ^ 2 + z ^ 2 = 1 → denseVal c x y z = profile u z := by
  unfold uPoly
  by_cases h : u.length = 0
  · have hu : u = [] := List.length_eq_zero_iff.1 h
    subst hu
    refine ⟨[1], ⟨[((0, 0, 0), 1)], 0⟩, rfl, rfl, rfl, fun x y z _ => ?_⟩
    simp [denseVal, profile]
  · have h0 := limbDarkPoly_val u 0 0 1 (by norm_num)
    have hne : limbDarkPoly u ≠ [] := by
      intro hn
      rw [hn] at h0
      have := h0.1
      simp only [List.length_nil] at this
      have : 0 < (u.length + 1) ^ 2 := by positivity
      omega
    obtain ⟨q, hq, _⟩ := pijk_fromDense (limbDarkPoly u) hne (some u.length)
    exact ⟨limbDarkPoly u, q, h0.1, hq, by rw [if_neg h]; exact hq, fun x y z hs => (limbDarkPoly_val u x y z hs).2⟩

theorem disc_sphere {p : ℝ × ℝ} (hp : p ∈ stellarDisc) : p.1 ^ 2 + p.2 ^ 2 + mu p ^ 2 = 1 := by
  unfold mu
  rw [sq_sqrt]
  · ring
  · have : p.1 ^ 2 + p.2 ^ 2 ≤ 1 := hp
    linarith

theorem dot_ok (p : Pijk) (v : List ℝ) (h : v.length = p.todense.length) :
    p.dot v = .ok (List.zipWith (· * ·) v p.todense).sum := by
  unfold Pijk.dot
  rw [if_pos]
  rw [h, pijk_todense_length]
  rfl

/-- the intensity of a surface on its disc -/
noncomputable def Surface.sky (s : Surface) (theta : Option ℝ) : ℝ × ℝ → ℝ :=
  skyIntensity s.y s.u (s.inc.getD 0) (usedObl s.inc s.obl) (theta.getD 0)

theorem projectFlux_spec {asEuler : V3 → V3} (hE : IsEulerZYZ asEuler) (s : Surface) (hy : ValidMap s.y) (theta : Option ℝ) (tz : ℝ) :
    ∃ c : List ℝ, c.length = (s.deg + 1) ^ 2 ∧
      (∀ p ∈ stellarDisc, π * denseVal c p.1 p.2 (mu p) = s.sky theta (rot2 (-tz) p)) ∧
      ∀ design : List ℝ, design.length = (s.deg + 1) ^ 2 → projectFlux asEuler s theta tz design =
        .ok (s.amplitude * (List.zipWith (· * ·) design c).sum * (π / totalFlux s.u)) := by
  have hrot : ∃ M', rotatedY asEuler s theta tz = .ok M' ∧ M'.length = (s.ydeg + 1) ^ 2 ∧
      ∀ p, OnSphere p → mapVal s.ydeg M' p =
        mapVal s.ydeg s.y.todense (observerView (s.inc.getD 0) (usedObl s.inc s.obl) (theta.getD 0) (rotZ (-tz) p)) := by
    unfold rotatedY
    by_cases h : s.ydeg = 0
    · refine ⟨s.y.todense, by rw [if_pos h], todense_length _, fun p _ => ?_⟩
      rw [h]
      exact mapVal_zero _ _ _
    · rw [if_neg h]
      exact leftProject_view hE _ _ _ _ _ _
  obtain ⟨M', hM1, hM2, hM3⟩ := hrot
  obtain ⟨cu, q, hcu, hq, hu, hval⟩ := uPoly_spec s.u
  obtain ⟨p, q', w, hp, hq', hw, hwl, hwv⟩ := dense_product (d1 := s.ydeg) (d2 := s.udeg)
    (A1_val s.ydeg M' hM2 0 0 1 (by norm_num)).1 hcu
  obtain rfl : q' = q := by
    rw [show s.udeg = s.u.length from rfl, hq] at hq'
    exact (Except.ok.inj hq').symm
  have hqd : q'.todense = cu := pijk_todense_fromDense hcu (some s.u.length) (Or.inr rfl) hq
  have hmu := continuous_mu
  have htot : ∫ p in stellarDisc, denseVal cu p.1 p.2 (mu p) = totalFlux s.u := by
    unfold totalFlux
    exact setIntegral_congr_fun measurableSet_stellarDisc fun p hp => hval _ _ _ (disc_sphere hp)
  refine ⟨w.todense, hwl, fun pt hpt => ?_, fun design hd => ?_⟩
  · have hs := disc_sphere hpt
    have hon : OnSphere (pt.1, pt.2, mu pt) := by
      unfold OnSphere normSq
      exact hs
    rw [hwv _ _ _ hs, hval _ _ _ hs, (A1_val s.ydeg M' hM2 _ _ _ hs).2]
    have h1 := hM3 _ hon
    rw [show s.ydeg = s.y.deg from rfl, mapVal_todense hy] at h1
    unfold mapVal at h1
    simp only at h1
    rw [show s.ydeg = s.y.deg from rfl, h1]
    unfold Surface.sky skyIntensity
    rw [mu_rot2]
    have h2 : rotZ (-tz) (pt.1, pt.2, mu pt) = ((rot2 (-tz) pt).1, (rot2 (-tz) pt).2, mu pt) := rfl
    rw [h2]
    have h3 : π * (2 / √π) = 2 * √π := by
      have := mul_self_sqrt pi_pos.le
      have h0 : √π ≠ 0 := (sqrt_pos.2 pi_pos).ne'
      field_simp
      linarith
    rw [← h3]
    ring
  · unfold projectFlux
    simp only [hM1, hu, hp, hw, bind, Except.bind]
    rw [dot_ok _ _ (by rw [hqd, (rT_spec s.udeg).1, hcu]; rfl), dot_ok _ _ (by rw [hd, hwl]; rfl)]
    simp only
    rw [hqd, show s.udeg = s.u.length from rfl, rT_dot _ _ hcu, htot]
    rfl


theorem rotated_integral (s : Surface) (theta : Option ℝ) (tz : ℝ)
    {c : List ℝ} (h : ∀ p ∈ stellarDisc, π * denseVal c p.1 p.2 (mu p) = s.sky theta (rot2 (-tz) p)) (V : Set (ℝ × ℝ))
    (hV : V ⊆ stellarDisc) (hm : MeasurableSet V) :
    (∫ p in V, denseVal c p.1 p.2 (mu p)) * (π / totalFlux s.u) = fluxOf s theta (rot2 (-tz) '' V) := by
  unfold fluxOf relativeFlux
  rw [integral_rot2 _ _ hm]
  have : ∫ p in V, skyIntensity s.y s.u (s.inc.getD 0) (usedObl s.inc s.obl) (theta.getD 0) (rot2 (-tz) p) =
      π * ∫ p in V, denseVal c p.1 p.2 (mu p) := by
    rw [← MeasureTheory.integral_const_mul]
    exact setIntegral_congr_fun hm fun p hp => (h p (hV hp)).symm
  rw [this]
  ring

theorem solutionVector_ok (eps : ℝ) (quad : ℕ → List (ℝ × ℝ)) (order : ℕ) {l_max : ℕ} (hl : l_max ≠ 0) (b r : ℝ) :
    ∃ S, solutionVector eps quad l_max order b r = .ok S := by
  obtain ⟨Q, hQ, -⟩ := qIntegral_spec l_max (0.5 * π - (kappas |b| |r|).2)
  unfold solutionVector
  simp only [hQ]
  unfold pIntegral
  rw [if_neg hl]
  exact ⟨_, rfl⟩

theorem vecMat_length {N : ℕ} (v : List ℝ) (M : Matrix (Fin N) (Fin N) ℝ) : (vecMat v M).length = N := by
  simp [vecMat]

theorem designVector_rot (eps : ℝ) (quad : ℕ → List (ℝ × ℝ)) (order : ℕ) {deg : ℕ} (hl : deg ≠ 0) (r x y z : ℝ)
    (h : 1 + r ≤ √(x ^ 2 + y ^ 2) ∨ z ≤ 0) : designVector eps quad order deg r x y z = .ok (rT deg) := by
  obtain ⟨A2, hA, -⟩ := A2_spec deg
  obtain ⟨S, hS⟩ := solutionVector_ok eps quad order hl 1 1
  unfold designVector
  simp only [ge_iff_le]
  rw [if_pos h, if_pos h, hS]
  simp only [hA, bind, Except.bind]
  rw [if_pos h]
  rfl

theorem designVector_occ {eps : ℝ} {quad : ℕ → List (ℝ × ℝ)} {order deg : ℕ} {r x y z : ℝ} {S : List ℝ} {A2}
    (h : ¬ (1 + r ≤ √(x ^ 2 + y ^ 2) ∨ z ≤ 0)) (hS : solutionVector eps quad deg order √(x ^ 2 + y ^ 2) r = .ok S)
    (hA : scipyInv (matOf ((deg + 1) ^ 2) (A2inv deg)) = .ok A2) :
    designVector eps quad order deg r x y z = .ok (vecMat S A2) := by
  unfold designVector
  simp only [ge_iff_le]
  rw [if_neg h, if_neg h, hS]
  simp only [hA, bind, Except.bind]
  rw [if_neg h]
  rfl

end Jaxoplanet.Starry
