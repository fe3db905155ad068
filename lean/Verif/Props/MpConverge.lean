import Verif.Props.MpRotation

/-!
# C81: the reference flux with the package's own rotation matrices

C72 assumes exact rotation matrices. Here the matrices are those of the function `R` (C80): as the working precision grows, the flux
converges to the flux of the part of the disc that is not hidden, for a map rotated by a rotation that is the requested one or (if
the obliquity is `0` or the inclination `π/2`, because `R` replaces the angle `0` by `1e-20`) at most `2e-20` from it.
-/

namespace Jaxoplanet.Starry.Mp

open _root_.Jaxoplanet.Starry.Spec _root_.Jaxoplanet.Spec _root_.Jaxoplanet.Green _root_.Jaxoplanet.LimbDark
open Real MeasureTheory
open Filter (Tendsto atTop)
open scoped Topology

/-- the blocks of `R(ydeg, u, theta)`, `0` if it raises -/
noncomputable def rotBlocks (dps ydeg : ℕ) (u : V3) (theta : ℝ) (l i j : ℕ) : ℝ :=
  match R dps ydeg u theta with
  | .ok B => B.getD l (fun _ _ => 0) i j
  | .error _ => 0

theorem dotR_tendsto (ydeg : ℕ) (u : V3) (theta : ℝ)
    (h : ¬ (u = (0, 0, 0) ∨ (theta ≠ 0 ∧ cos theta = 1) ∨ (u.2.2 = 0 ∧ cos theta = -1)))
    (f : ℕ → List ℝ) (M : List ℝ) (hf : CoefTendsto ydeg f M) :
    ∃ M' : List ℝ, CoefTendsto ydeg (fun dps => dotR ydeg (rotBlocks dps ydeg u theta) (f dps)) M' ∧
      M'.getD 0 0 = 1 ∧ ∀ p, OnSphere p → mapVal ydeg M' p = mapVal ydeg (unitMean M) (rotAxis (unitOf u) (mpTheta theta) p) := by
  obtain ⟨α, β, γ, hr, hR⟩ := R_angles h
  refine ⟨dotR ydeg (fun l => fooMat l α β γ) M, ?_, dotR_head _ _ _, fun p hp => ?_⟩
  · intro l hl c hc
    by_cases h0 : l = 0
    · subst h0
      obtain rfl : c = 0 := by omega
      simp only [show (0 : ℕ) ^ 2 + 0 = 0 from rfl, dotR_head]
      exact tendsto_const_nhds
    · simp only [dotR_getD ydeg _ _ l c h0 hl hc]
      refine tendsto_finsetSum _ fun r hr => (hf l hl r (by have := Finset.mem_range.1 hr; omega)).mul ?_
      have e : ∀ dps : ℕ, rotBlocks dps ydeg u theta l r c = rotMatrix dps l α β γ r c := by
        intro dps
        unfold rotBlocks
        rw [hR]
        simp only
        rw [List.getD_eq_getElem?_getD, List.getElem?_map, List.getElem?_range (by omega)]
        rfl
      simp only [e]
      exact rotMatrix_tendsto l h0 α β γ r c
  · rw [dotR_mapVal_of ydeg (fun l => fooMat l α β γ) (fun p => rotZ α (rotY β (rotZ γ p)))
        (fun l _ i hi p hp => fooMat_harmonic l α β γ i hi p hp) M p hp, hr]

theorem dotRz_tendsto (ydeg : ℕ) (t : ℝ) (f : ℕ → List ℝ) (M : List ℝ) (hf : CoefTendsto ydeg f M) :
    CoefTendsto ydeg (fun dps => dotRz ydeg t (f dps)) (dotRz ydeg t M) := by
  intro l hl c hc
  simp only [dotRz_getD ydeg t _ l c hl hc]
  exact ((hf l hl c hc).const_mul _).add ((hf l hl (2 * l - c) (by omega)).const_mul _)

/-- the view of the observer with the angles that `R` uses -/
noncomputable def usedView (inc obl phi : ℝ) (p : V3) : V3 :=
  rotX (-(π / 2)) (rotZ (-phi) (rotX (0.5 * π) (rotAxis (0, 0, 1) (mpTheta (-obl))
    (rotAxis (-cos obl, -sin obl, 0) (mpTheta (0.5 * π - inc)) p))))

theorem usedView_sphere (inc obl phi : ℝ) {p : V3} (hp : OnSphere p) : OnSphere (usedView inc obl phi p) := by
  have nt : Spec.normSq ((-cos obl, -sin obl, 0) : V3) = 1 := by
    have := sin_sq_add_cos_sq obl
    simp only [Spec.normSq]
    linarith
  exact rotX_sphere _ (rotZ_sphere _ (rotX_sphere _ (rotAxis_sphere _ (by norm_num [Spec.normSq]) _ (rotAxis_sphere _ nt _ hp))))

theorem distSq_rotX (α : ℝ) (p q : V3) : distSq (rotX α p) (rotX α q) = distSq p q := by
  unfold distSq rotX
  simp only
  linear_combination ((p.2.1 - q.2.1) ^ 2 + (p.2.2 - q.2.2) ^ 2) * sin_sq_add_cos_sq α

/-- the view used is the requested one, up to `1e-20` for each angle that is zero -/
theorem usedView_near (inc obl phi : ℝ) (p : V3) (hp : OnSphere p) :
    distSq (usedView inc obl phi p) (observerView inc obl phi p) ≤
      ((if obl = 0 then 1e-20 else 0) + (if inc = π / 2 then 1e-20 else 0)) ^ 2 := by
  have nz : Spec.normSq ((0, 0, 1) : V3) = 1 := by norm_num [Spec.normSq]
  have nt : Spec.normSq ((-cos obl, -sin obl, 0) : V3) = 1 := by
    have := sin_sq_add_cos_sq obl
    simp only [Spec.normSq]
    linarith
  have e : observerView inc obl phi p = rotX (-(π / 2)) (rotZ (-phi) (rotX (0.5 * π) (rotAxis (0, 0, 1) (-obl)
      (rotAxis (-cos obl, -sin obl, 0) (0.5 * π - inc) p)))) := by
    rw [rotAxis_z, rotAxis_tilt]; rfl
  rw [e, usedView, distSq_rotX, distSq_rotZ, distSq_rotX]
  have i1 : (-obl = 0) ↔ obl = 0 := neg_eq_zero
  have i2 : (0.5 * π - inc = 0) ↔ inc = π / 2 := by constructor <;> intro h <;> linarith
  have h1 := rotAxis_tol (0, 0, 1) nz (-obl) _ (rotAxis_sphere (-cos obl, -sin obl, 0) nt (mpTheta (0.5 * π - inc)) hp)
  have h2 := rotAxis_tol (-cos obl, -sin obl, 0) nt (0.5 * π - inc) p hp
  simp only [i1] at h1
  simp only [i2] at h2
  refine distSq_triangle (by split_ifs <;> norm_num) (by split_ifs <;> norm_num) h1 ?_
  rw [rotAxis_z, rotAxis_z, distSq_rotZ]
  exact h2

/-- `rotate_y` with the matrices of `R` -/
theorem rotateY_converges (ydeg : ℕ) (inc obl phi : ℝ) (y : List ℝ) (h2 : obl ≠ 0 → cos obl ≠ 1) (h3 : inc ≠ π / 2 → sin inc ≠ 1)
    (h4 : sin inc ≠ -1) :
    ∃ M : List ℝ, CoefTendsto ydeg (fun dps => rotateY ydeg (fluxRots (rotBlocks dps ydeg) inc obl) y phi) M ∧
      ∀ p, OnSphere p → mapVal ydeg M p = mapVal ydeg (unitMean y) (usedView inc obl phi p) := by
  have nx : unitOf (1, 0, 0) = (1, 0, 0) := unitOf_unit _ (by norm_num [Spec.normSq])
  have nz : unitOf (0, 0, 1) = (0, 0, 1) := unitOf_unit _ (by norm_num [Spec.normSq])
  have hsq := sin_sq_add_cos_sq obl
  have nt0 : Spec.normSq ((-cos obl, -sin obl, 0) : V3) = 1 := by unfold Spec.normSq; simp only; linarith
  have nt : unitOf (-cos obl, -sin obl, 0) = (-cos obl, -sin obl, 0) := unitOf_unit _ nt0
  have ex : ∀ t : ℝ, t = -0.5 * π ∨ t = 0.5 * π → mpTheta t = t ∧
      ¬ (((1, 0, 0) : V3) = (0, 0, 0) ∨ (t ≠ 0 ∧ cos t = 1) ∨ ((((1, 0, 0) : V3)).2.2 = 0 ∧ cos t = -1)) := by
    intro t ht
    have hp := pi_pos
    have hc : cos t = 0 ∧ t ≠ 0 := by
      rcases ht with rfl | rfl
      · rw [show -0.5 * π = -(π / 2) by ring, cos_neg, cos_pi_div_two]; exact ⟨rfl, by linarith⟩
      · rw [show 0.5 * π = π / 2 by ring, cos_pi_div_two]; exact ⟨rfl, by linarith⟩
    rw [hc.1]
    exact ⟨if_neg hc.2, by norm_num⟩
  obtain ⟨M1, b1, c1, d1⟩ := dotR_tendsto ydeg (1, 0, 0) (-0.5 * π) (ex _ (Or.inl rfl)).2 (fun _ => y) y fun l _ c _ => tendsto_const_nhds
  have b2 := dotRz_tendsto ydeg (-phi) _ _ b1
  have c2 : (dotRz ydeg (-phi) M1).getD 0 0 = 1 := by rw [dotRz_head, c1]
  obtain ⟨M3, b3, c3, d3⟩ := dotR_tendsto ydeg (1, 0, 0) (0.5 * π) (ex _ (Or.inr rfl)).2 _ _ b2
  obtain ⟨M4, b4, c4, d4⟩ := dotR_tendsto ydeg (0, 0, 1) (-obl) (leftProject_cases h2 rfl) _ _ b3
  obtain ⟨M5, b5, -, d5⟩ := dotR_tendsto ydeg (-cos obl, -sin obl, 0) (0.5 * π - inc) (by
    rw [show (0.5 : ℝ) * π - inc = π / 2 - inc by ring, cos_pi_div_two_sub]
    simp only [Prod.mk.injEq, neg_eq_zero, true_and, not_or, not_and]
    refine ⟨fun hc hs => ?_, fun hne => h3 fun h => hne (by rw [h]; ring), h4⟩
    rw [hc, hs] at hsq
    norm_num at hsq) _ _ b4
  refine ⟨M5, b5, fun p hp => ?_⟩
  have s1 : OnSphere (rotAxis (-cos obl, -sin obl, 0) (mpTheta (0.5 * π - inc)) p) := rotAxis_sphere _ nt0 _ hp
  have s2 : OnSphere (rotAxis (0, 0, 1) (mpTheta (-obl)) (rotAxis (-cos obl, -sin obl, 0) (mpTheta (0.5 * π - inc)) p)) :=
    rotAxis_sphere _ (by norm_num [Spec.normSq]) _ s1
  have s3 := rotX_sphere (0.5 * π) s2
  have s4 := rotZ_sphere (-phi) s3
  rw [d5 p hp, nt, unitMean_one c4, d4 _ s1, nz, unitMean_one c3, d3 _ s2, nx, (ex _ (Or.inr rfl)).1, rotAxis_x, unitMean_one c2,
    dotRz_mapVal, d1 _ s4, nx, (ex _ (Or.inl rfl)).1, rotAxis_x, show -0.5 * π = -(π / 2) by ring]
  rfl

theorem continuous_realHarmonic (l : ℕ) (m : ℤ) : Continuous fun q : ℝ × ℝ => realHarmonic l m q.1 q.2 (mu q) := by
  have hmu := continuous_mu
  have h1 : Continuous fun q : ℝ × ℝ => rodrigues l m.natAbs (mu q) := by
    unfold rodrigues
    exact ((Polynomial.continuous _).comp hmu).div_const _
  have h2 : Continuous fun q : ℝ × ℝ => (((q.1 : ℂ) + q.2 * Complex.I) ^ m.natAbs) := by fun_prop
  unfold realHarmonic
  split_ifs
  · exact (continuous_const.mul h1).mul (Complex.continuous_re.comp h2)
  · exact (continuous_const.mul h1).mul (Complex.continuous_im.comp h2)

/-- the brightness of a map on the disc -/
noncomputable def discIntensity (ydeg : ℕ) (y u : List ℝ) (p : ℝ × ℝ) : ℝ :=
  2 * √π * mapVal ydeg y (p.1, p.2, mu p) * profile u (mu p)

theorem continuous_profile (u : List ℝ) : Continuous fun q : ℝ × ℝ => profile u (mu q) := by
  have hmu := continuous_mu
  unfold profile
  fun_prop

/-- the flux for any rotation matrices: the integral of the brightness of the rotated map -/
theorem flux_value (R : V3 → ℝ → ℕ → ℕ → ℕ → ℝ) (ydeg : ℕ) (hd : 0 < ydeg) (y u : List ℝ) (hy : y.length = (ydeg + 1) ^ 2)
    (inc obl phi : ℝ) {b r : ℝ} (hb : b ≠ 0) (hr : 0 < r) (hbr : |b| < 1 + r) (hrb : r < 1 + |b|) :
    flux R (A1 ydeg) ydeg u.length inc obl b r y phi u true =
      .ok ((∫ p in stellarDisc \ occultorY |b| r,
        discIntensity ydeg (dotRzMp ydeg (arctan2 0 b) (rotateY ydeg (fluxRots R inc obl) y phi)) u p) / totalFlux u) := by
  set y' := dotRzMp ydeg (arctan2 0 b) (rotateY ydeg (fluxRots R inc obl) y phi) with hy'
  have hy1 : yOcc ydeg (fluxRots R inc obl) y b phi true = .ok y' := by unfold yOcc; rw [if_pos hd, if_pos rfl]
  have hy2 : y'.length = (ydeg + 1) ^ 2 := by rw [hy', dotRzMp_eq, dotRz_length]
  obtain ⟨c, hc1, hc2, hc3⟩ := pOcc_spec ydeg y' u hy2
  obtain ⟨S, hS, hSl, hSv⟩ := sT_visible (ydeg + u.length) b r hb hr.ne' (by rwa [abs_of_pos hr]) (by rwa [abs_of_pos hr])
  rw [abs_of_pos hr] at hSv
  obtain ⟨A2, hA, hA2⟩ := A2_spec (ydeg + u.length)
  have hA2mp : A2 = A2mp (ydeg + u.length) := by
    unfold A2mp
    rw [A2invMp_eq]
    unfold scipyInv at hA
    split_ifs at hA
    exact (Except.ok.inj hA).symm
  obtain ⟨g, hg, hgv, hgs⟩ := hA2 c hc2
  have hV : stellarDisc \ occultorY |b| r ⊆ stellarDisc := Set.sdiff_subset
  have hVm : MeasurableSet (stellarDisc \ occultorY |b| r) := measurableSet_stellarDisc.diff (measurableSet_occultorY |b| r)
  have hint : ∑ n ∈ Finset.range ((ydeg + u.length + 1) ^ 2), S.getD n 0 * g.getD n 0 =
      ∫ p in stellarDisc \ occultorY |b| r, denseVal c p.1 p.2 (mu p) := by
    simp only [hgv]
    rw [integral_finsetSum]
    · refine Finset.sum_congr rfl fun n hn => ?_
      rw [Finset.mem_range] at hn
      have h1 := sqrt_bounds n
      have := hSv (Nat.sqrt n) (sqrt_le_of_lt hn) (n - Nat.sqrt n ^ 2) (by omega)
      rw [show Nat.sqrt n ^ 2 + (n - Nat.sqrt n ^ 2) = n by omega] at this
      rw [this, MeasureTheory.integral_const_mul, mul_comm]
    · exact fun n _ => ((integrableOn_disc_cont (continuous_polyVal _)).mono_set hV).const_mul _
  have hpi : ∫ p in stellarDisc \ occultorY |b| r, discIntensity ydeg y' u p =
      π * ∫ p in stellarDisc \ occultorY |b| r, denseVal c p.1 p.2 (mu p) := by
    rw [← MeasureTheory.integral_const_mul]
    exact setIntegral_congr_fun hVm fun p hp => (hc3 p (hV hp)).symm
  have hsum := hgs S
  unfold flux
  rw [if_neg (by simp), if_neg (by rw [hy]; simp), if_neg (by linarith), if_neg (by rintro ⟨-, h⟩; linarith)]
  unfold occFlux
  simp only [hS, hy1, hc1, ← hA2mp, bind, Except.bind, pure, Except.pure]
  rw [hpi, ← hint, List.zipWith_comm_of_comm (fun a b => mul_comm a b), hsum]
  congr 1
  ring

theorem integral_tendsto (ydeg : ℕ) (u : List ℝ) (V : Set (ℝ × ℝ)) (hV : V ⊆ stellarDisc) (f : ℕ → List ℝ) (M : List ℝ)
    (hf : CoefTendsto ydeg f M) :
    Tendsto (fun dps => ∫ p in V, discIntensity ydeg (f dps) u p) atTop (𝓝 (∫ p in V, discIntensity ydeg M u p)) := by
  have e : ∀ y : List ℝ, ∫ p in V, discIntensity ydeg y u p = ∑ l ∈ Finset.range (ydeg + 1), ∑ q ∈ Finset.range (2 * l + 1),
      y.getD (l ^ 2 + q) 0 * ∫ p in V, 2 * √π * realHarmonic l ((q : ℤ) - l) p.1 p.2 (mu p) * profile u (mu p) := by
    intro y
    have hi : ∀ (l q : ℕ), IntegrableOn (fun p : ℝ × ℝ => y.getD (l ^ 2 + q) 0 *
        (2 * √π * realHarmonic l ((q : ℤ) - l) p.1 p.2 (mu p) * profile u (mu p))) V := fun l q =>
      ((integrableOn_disc_cont ((continuous_const.mul (continuous_realHarmonic _ _)).mul (continuous_profile u))).mono_set hV).const_mul _
    have h1 : (fun p : ℝ × ℝ => discIntensity ydeg y u p) = fun p => ∑ l ∈ Finset.range (ydeg + 1), ∑ q ∈ Finset.range (2 * l + 1),
        y.getD (l ^ 2 + q) 0 * (2 * √π * realHarmonic l ((q : ℤ) - l) p.1 p.2 (mu p) * profile u (mu p)) := by
      funext p
      unfold discIntensity mapVal
      rw [Finset.mul_sum, Finset.sum_mul]
      refine Finset.sum_congr rfl fun l _ => ?_
      rw [Finset.mul_sum, Finset.sum_mul]
      refine Finset.sum_congr rfl fun q _ => ?_
      ring
    rw [h1, integral_finsetSum _ fun l _ => integrable_finsetSum _ fun q _ => hi l q]
    refine Finset.sum_congr rfl fun l _ => ?_
    rw [integral_finsetSum _ fun q _ => hi l q]
    exact Finset.sum_congr rfl fun q _ => MeasureTheory.integral_const_mul _ _
  simp only [e]
  refine tendsto_finsetSum _ fun l hl => tendsto_finsetSum _ fun q hq => (hf l ?_ q ?_).mul_const _
  · have := Finset.mem_range.1 hl; omega
  · have := Finset.mem_range.1 hq; omega

/-- **C81** with the package's own rotation matrices the flux during an occultation converges, as the working precision grows, to
the flux of the part of the disc that is not hidden, of the map seen under the angles that `R` uses -/
theorem flux_converges (ydeg : ℕ) (hd : 0 < ydeg) (y u : List ℝ) (hy : y.length = (ydeg + 1) ^ 2) (inc obl phi : ℝ)
    (h2 : obl ≠ 0 → cos obl ≠ 1) (h3 : inc ≠ π / 2 → sin inc ≠ 1) (h4 : sin inc ≠ -1) {b r : ℝ} (hb : b ≠ 0) (hr : 0 < r)
    (hbr : |b| < 1 + r) (hrb : r < 1 + |b|) :
    ∃ f : ℕ → ℝ, (∀ dps, flux (rotBlocks dps ydeg) (A1 ydeg) ydeg u.length inc obl b r y phi u true = .ok (f dps)) ∧
      Tendsto f atTop (𝓝 ((∫ p in stellarDisc \ occultorAt 0 b r,
        2 * √π * mapVal ydeg (unitMean y) (usedView inc obl phi (p.1, p.2, mu p)) * profile u (mu p)) / totalFlux u)) := by
  refine ⟨_, fun dps => flux_value (rotBlocks dps ydeg) ydeg hd y u hy inc obl phi hb hr hbr hrb, ?_⟩
  obtain ⟨M, hM, hMv⟩ := rotateY_converges ydeg inc obl phi y h2 h3 h4
  have hV : stellarDisc \ occultorY |b| r ⊆ stellarDisc := Set.sdiff_subset
  have hVm : MeasurableSet (stellarDisc \ occultorY |b| r) := measurableSet_stellarDisc.diff (measurableSet_occultorY |b| r)
  have hlim := integral_tendsto ydeg u _ hV _ _ (dotRz_tendsto ydeg (-(arctan2 0 b)) _ _ hM)
  have hb2 : √((0 : ℝ) ^ 2 + b ^ 2) = |b| := by rw [zero_pow two_ne_zero, zero_add, Real.sqrt_sq_eq_abs]
  have hset := rot2_occultor 0 b r
  rw [hb2] at hset
  rw [← hset, integral_rot2 _ _ hVm]
  refine Tendsto.div_const ?_ _
  refine Tendsto.congr' ?_ (hlim.trans ?_)
  · exact Filter.Eventually.of_forall fun dps => rfl
  · refine le_of_eq (congrArg _ (setIntegral_congr_fun hVm fun p hp => ?_))
    have hon : OnSphere (p.1, p.2, mu p) := disc_sphere (hV hp)
    simp only [discIntensity]
    rw [dotRz_mapVal, hMv _ (rotZ_sphere _ hon), mu_rot2]
    rfl

/-- **C81** if neither angle is the one that `R` replaces, the limit is the flux of the surface -/
theorem flux_converges_surface (s : Surface) (hy : ValidMap s.y) (h1 : coef s.y 0 0 = 1) (hd : 0 < s.ydeg)
    {inc obl : ℝ} (hi : s.inc = some inc) (ho : s.obl = some obl) (h2 : cos obl ≠ 1) (h3 : sin inc ≠ 1) (h4 : sin inc ≠ -1)
    {b r : ℝ} (phi : ℝ) (hb : b ≠ 0) (hr : 0 < r) (hbr : |b| < 1 + r) (hrb : r < 1 + |b|) :
    ∃ f : ℕ → ℝ, (∀ dps, flux (rotBlocks dps s.ydeg) (A1 s.ydeg) s.ydeg s.u.length inc obl b r s.y.todense phi s.u true = .ok (f dps)) ∧
      Tendsto f atTop (𝓝 (fluxOf s (some phi) (stellarDisc \ occultorAt 0 b r))) := by
  obtain ⟨f, hf, hl⟩ := flux_converges s.ydeg hd s.y.todense s.u (todense_length s.y) inc obl phi (fun _ => h2) (fun _ => h3) h4 hb hr
    hbr hrb
  refine ⟨f, hf, hl.trans (le_of_eq (congrArg _ ?_))⟩
  have hh := (todense_head s.y hy).trans h1
  have ho0 : obl ≠ 0 := by rintro rfl; exact h2 cos_zero
  have hi0 : (0.5 : ℝ) * π - inc ≠ 0 := by
    intro h
    exact h3 (by rw [show inc = π / 2 by linarith, sin_pi_div_two])
  have hview : ∀ p, usedView inc obl phi p = observerView inc obl phi p := by
    intro p
    unfold usedView mpTheta
    rw [if_neg (neg_ne_zero.2 ho0), if_neg hi0, rotAxis_z, rotAxis_tilt]
    rfl
  unfold fluxOf relativeFlux skyIntensity
  rw [unitMean_one hh, hi, ho]
  simp only [hview, show s.ydeg = s.y.deg from rfl, mapVal_todense hy]
  rfl

/-- **C81** the same without an occultation (and without limb darkening) -/
theorem flux_unocculted_converges (ydeg : ℕ) (hd : 0 < ydeg) (y : List ℝ) (hy : y.length = (ydeg + 1) ^ 2) (inc obl phi : ℝ)
    (h2 : obl ≠ 0 → cos obl ≠ 1) (h3 : inc ≠ π / 2 → sin inc ≠ 1) (h4 : sin inc ≠ -1) {b r : ℝ} (hbr : 1 + r ≤ |b|) :
    ∃ f : ℕ → ℝ, (∀ dps, flux (rotBlocks dps ydeg) (A1 ydeg) ydeg 0 inc obl b r y phi [] true = .ok (f dps)) ∧
      Tendsto f atTop (𝓝 ((∫ p in stellarDisc,
        2 * √π * mapVal ydeg (unitMean y) (usedView inc obl phi (p.1, p.2, mu p))) / π)) := by
  obtain ⟨M, hM, hMv⟩ := rotateY_converges ydeg inc obl phi y h2 h3 h4
  refine ⟨fun dps => (∫ p in stellarDisc, discIntensity ydeg (rotateY ydeg (fluxRots (rotBlocks dps ydeg) inc obl) y phi) [] p) / π,
    fun dps => ?_, Tendsto.div_const ((integral_tendsto ydeg [] _ le_rfl _ _ hM).trans (le_of_eq (congrArg _
      (setIntegral_congr_fun measurableSet_stellarDisc fun p hp => ?_)))) _⟩
  · set y' := rotateY ydeg (fluxRots (rotBlocks dps ydeg) inc obl) y phi with hy'
    obtain ⟨c, hc1, hc2, hc3⟩ := pOcc_spec ydeg y' [] (rotateY_length _ _ _ _)
    have hc : c = matVec ((ydeg + 1) ^ 2) (A1 ydeg) y' := by
      unfold pOcc at hc1
      simp only [List.length_nil, lt_irrefl, if_false, pure, Except.pure] at hc1
      exact (Prod.mk.inj (Except.ok.inj hc1)).1.symm
    have hpi : ∫ p in stellarDisc, discIntensity ydeg y' [] p = π * ∫ p in stellarDisc, denseVal c p.1 p.2 (mu p) := by
      rw [← MeasureTheory.integral_const_mul]
      exact setIntegral_congr_fun measurableSet_stellarDisc fun p hp => (hc3 p hp).symm
    unfold flux
    rw [if_neg (by simp), if_neg (by rw [hy]; simp), if_pos (by linarith)]
    unfold rotFlux
    rw [if_neg hd.ne', if_neg (by simp), ← hc, List.zipWith_comm_of_comm (fun a b => mul_comm a b), rT_dot _ _ (by simpa using hc2)]
    simp only [← hy', hpi, mul_div_cancel_left₀ _ pi_ne_zero]
  · have hon : OnSphere (p.1, p.2, mu p) := disc_sphere hp
    simp only [discIntensity]
    rw [hMv _ hon]
    simp [profile]

/-- the hypotheses are met by a planet of radius 0.1 at `b = -0.3` in front of the dipole map -/
example : ∃ f : ℕ → ℝ, (∀ dps, flux (rotBlocks dps dipole.ydeg) (A1 dipole.ydeg) dipole.ydeg dipole.u.length 1.2 0.3 (-0.3) 0.1
      dipole.y.todense 0.7 dipole.u true = .ok (f dps)) ∧
    Tendsto f atTop (𝓝 (fluxOf dipole (some 0.7) (stellarDisc \ occultorAt 0 (-0.3) 0.1))) := by
  have hp := pi_gt_three
  have hs : sin 1.2 < 1 := by
    rw [← sin_pi_div_two]
    exact sin_lt_sin_of_lt_of_le_pi_div_two (by linarith) le_rfl (by linarith)
  have hs0 : 0 < sin 1.2 := sin_pos_of_pos_of_lt_pi (by norm_num) (by linarith)
  have hc : cos 0.3 < 1 := by
    rw [← cos_zero]
    exact cos_lt_cos_of_nonneg_of_le_pi le_rfl (by linarith) (by norm_num)
  exact flux_converges_surface dipole dipole_ok.1 (by simp [coef, dipole, Dict.getD0, Dict.get1]) (Nat.pos_of_ne_zero dipole_ok.2.1) rfl rfl hc.ne hs.ne
    (by linarith) 0.7 (by norm_num) (by norm_num)
    (by rw [abs_of_neg (by norm_num)]; norm_num) (by rw [abs_of_neg (by norm_num)]; norm_num)

end Jaxoplanet.Starry.Mp
