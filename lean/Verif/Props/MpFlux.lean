import Verif.Props.MpOccultation

/-!
# C72: the flux of the multi-precision package

`flux(ydeg, udeg, inc, obl)(b, r, y, phi, u)` is the flux of the part of the disc that is not behind an occultor of radius
`r` at `(0, b)`, given the exact rotation matrices and exact quadrature.
-/

namespace Jaxoplanet.Starry.Mp
open _root_.Jaxoplanet.Starry.Spec _root_.Jaxoplanet.Spec _root_.Jaxoplanet.Green _root_.Jaxoplanet.LimbDark
open Real MeasureTheory

/-- `R n t l` are the matrices that rotate the harmonics of degree `l ≥ 1` by `t` about the unit vector `n`: what the
function `R` of `rotation.py` computes -/
def ExactRot (R : V3 → ℝ → ℕ → ℕ → ℕ → ℝ) : Prop :=
  ∀ (n : V3) (t : ℝ), Spec.normSq n = 1 → ∀ l : ℕ, 1 ≤ l → ∀ i : ℕ, i ≤ 2 * l → ∀ p : V3, OnSphere p →
    realHarmonic l ((i : ℤ) - l) (rotAxis n t p).1 (rotAxis n t p).2.1 (rotAxis n t p).2.2 =
      ∑ j ∈ Finset.range (2 * l + 1), R n t l i j * realHarmonic l ((j : ℤ) - l) p.1 p.2.1 p.2.2

theorem dotRzMp_eq (deg : ℕ) (t : ℝ) (M : List ℝ) : dotRzMp deg t M = dotRz deg (-t) M := rfl

theorem fromDense_none {c : List ℝ} {d : ℕ} (hc : c.length = (d + 1) ^ 2) :
    Pijk.fromDense c none = Pijk.fromDense c (some d) := by
  have hne : c ≠ [] := by
    rintro rfl
    have : 0 < (d + 1) ^ 2 := by positivity
    rw [← hc] at this
    simp at this
  obtain ⟨p, hp, -, -, -, h1, -⟩ := pijk_fromDense c hne none
  obtain ⟨q, hq, -, -, h2, -, -⟩ := pijk_fromDense c hne (some d)
  have e1 := (h1 d hc).2.2 rfl
  have e2 := h2 d rfl
  rw [hp, hq]
  have hd : p.data = q.data := by
    unfold Pijk.fromDense Pijk.make at hp hq
    grind
  cases p; cases q
  simp_all

theorem pOcc_spec (ydeg : ℕ) (y' u : List ℝ) (hy : y'.length = (ydeg + 1) ^ 2) :
    ∃ c, pOcc ydeg u.length (A1 ydeg) y' u = .ok (c, π / totalFlux u) ∧ c.length = (ydeg + u.length + 1) ^ 2 ∧
      ∀ p ∈ stellarDisc, π * denseVal c p.1 p.2 (mu p) = 2 * √π * mapVal ydeg y' (p.1, p.2, mu p) * profile u (mu p) := by
  have h3 : π * (2 / √π) = 2 * √π := by
    have := mul_self_sqrt pi_pos.le
    have h0 : √π ≠ 0 := (sqrt_pos.2 pi_pos).ne'
    field_simp
    linarith
  have hlen := (A1_val ydeg y' hy 0 0 1 (by norm_num)).1
  unfold pOcc
  by_cases hu : 0 < u.length
  · obtain ⟨hul, -⟩ := limbDarkPoly_val u 0 0 1 (by norm_num)
    obtain ⟨p, q, w, hp, hq, hw, hwl, hwv⟩ := dense_product hul hlen
    have hvw : ValidPoly w.data := by
      have ne : ∀ (c : List ℝ) (d : ℕ), c.length = (d + 1) ^ 2 → c ≠ [] := by
        rintro c d hc rfl
        have : 0 < (d + 1) ^ 2 := by positivity
        rw [← hc] at this
        simp at this
      obtain ⟨p', hp', vp, -⟩ := pijk_fromDense _ (ne _ _ hul) (some u.length)
      obtain ⟨q', hq', vq, -⟩ := pijk_fromDense _ (ne _ _ hlen) (some ydeg)
      rw [hp] at hp'; rw [hq] at hq'
      obtain ⟨w', hw', vw, -⟩ := pijk_mul p q (by rw [Except.ok.inj hp']; exact vp) (by rw [Except.ok.inj hq']; exact vq)
      rw [hw] at hw'
      rw [Except.ok.inj hw']; exact vw
    have hdense : ((List.range ((w.degree + 1) ^ 2)).map fun i => Dict.getD0 w.data (n2ijk i)) = w.todense := by
      apply List.ext_getElem
      · simp [pijk_todense_length]
      · intro n h1 h2
        rw [List.getElem_map, List.getElem_range, ← pijk_todense_entry w hvw (by rwa [pijk_todense_length] at h2),
          List.getD_eq_getElem _ _ h2]
    have hnorm : (List.zipWith (· * ·) (limbDarkPoly u) (rT u.length)).sum = totalFlux u := by
      rw [List.zipWith_comm_of_comm (fun a b => mul_comm a b), rT_dot _ _ hul]
      unfold totalFlux
      exact setIntegral_congr_fun measurableSet_stellarDisc fun p hp => (limbDarkPoly_val u _ _ _ (disc_sphere hp)).2
    refine ⟨w.todense, ?_, by rw [hwl]; ring, fun pt hpt => ?_⟩
    · simp only [if_pos hu, fromDense_none hul, fromDense_none hlen, hp, hq, hw, hnorm, hdense, bind, Except.bind, pure, Except.pure]
    · have hs := disc_sphere hpt
      rw [hwv _ _ _ hs, (limbDarkPoly_val u _ _ _ hs).2, (A1_val ydeg y' hy _ _ _ hs).2, ← h3]
      unfold mapVal
      ring
  · have hu0 : u = [] := List.length_eq_zero_iff.1 (by omega)
    subst hu0
    have htot : totalFlux [] = π := by
      have := LimbDark.whole_star 0
      simpa [totalFlux, profile, LimbDark.gtil] using this
    refine ⟨_, ?_, by rw [hlen]; rfl, fun pt hpt => ?_⟩
    · simp only [List.length_nil, lt_irrefl, if_false, htot, div_self pi_ne_zero, pure, Except.pure]
    · have hs := disc_sphere hpt
      rw [(A1_val ydeg y' hy _ _ _ hs).2, ← h3]
      simp only [profile, mapVal]
      simp
      ring


theorem dotR_length (ydeg : ℕ) (R : ℕ → ℕ → ℕ → ℝ) (M : List ℝ) : (dotR ydeg R M).length = (ydeg + 1) ^ 2 := by
  unfold dotR
  exact (blocks_getD ydeg _ (fun l => by split_ifs with h <;> simp [h]) 0 0 0 (by omega) (by omega)).2

theorem dotR_head (ydeg : ℕ) (R : ℕ → ℕ → ℕ → ℝ) (M : List ℝ) : (dotR ydeg R M).getD 0 0 = 1 := by
  have := (blocks_getD ydeg (fun l : ℕ => if l = 0 then [1] else (List.range (2 * l + 1)).map fun j : ℕ =>
      ∑ i ∈ Finset.range (2 * l + 1), M.getD (l * l + i) 0 * R l i j) (fun l => by split_ifs with h <;> simp [h]) 0 0 0 (by omega) (by omega)).1
  simpa [dotR] using this

theorem dotR_getD (ydeg : ℕ) (R : ℕ → ℕ → ℕ → ℝ) (M : List ℝ) (l c : ℕ) (h0 : l ≠ 0) (hl : l ≤ ydeg) (hc : c ≤ 2 * l) :
    (dotR ydeg R M).getD (l ^ 2 + c) 0 = ∑ r ∈ Finset.range (2 * l + 1), M.getD (l ^ 2 + r) 0 * R l r c := by
  have := (blocks_getD ydeg (fun l : ℕ => if l = 0 then [1] else (List.range (2 * l + 1)).map fun j : ℕ =>
      ∑ i ∈ Finset.range (2 * l + 1), M.getD (l * l + i) 0 * R l i j) (fun l => by split_ifs with h <;> simp [h]) 0 l c hl hc).1
  rw [if_neg h0] at this
  rw [dotR, this]
  simp [sq, List.getD_eq_getElem?_getD, show c < 2 * l + 1 by omega]

/-- a coefficient vector with the coefficient of degree zero replaced by 1 -/
def unitMean (M : List ℝ) : List ℝ := 1 :: M.tail

theorem mapVal_unitMean (ydeg : ℕ) (M : List ℝ) (p : V3) : mapVal ydeg (unitMean M) p =
    mapVal ydeg M p + (1 - M.getD 0 0) * realHarmonic 0 0 p.1 p.2.1 p.2.2 := by
  unfold mapVal
  rw [Finset.sum_range_succ' _ ydeg, Finset.sum_range_succ' _ ydeg]
  have : ∀ l : ℕ, ∀ q : ℕ, (unitMean M).getD ((l + 1) ^ 2 + q) 0 = M.getD ((l + 1) ^ 2 + q) 0 := by
    intro l q
    obtain ⟨n, hn⟩ : ∃ n, (l + 1) ^ 2 + q = n + 1 := ⟨l ^ 2 + 2 * l + q, by ring⟩
    rw [hn]
    cases M <;> simp [unitMean]
  simp only [this]
  simp [unitMean]
  ring

theorem dotR_mapVal {R : V3 → ℝ → ℕ → ℕ → ℕ → ℝ} (hR : ExactRot R) (ydeg : ℕ) (n : V3) (t : ℝ) (hn : Spec.normSq n = 1)
    (M : List ℝ) (p : V3) (hp : OnSphere p) :
    mapVal ydeg (dotR ydeg (R n t) M) p = mapVal ydeg (unitMean M) (rotAxis n t p) := by
  rw [mapVal_unitMean]
  unfold mapVal
  rw [Finset.sum_range_succ' _ ydeg, Finset.sum_range_succ' _ ydeg]
  have h0 : ∀ q : V3, realHarmonic 0 0 q.1 q.2.1 q.2.2 = realHarmonic 0 0 0 0 0 := by
    intro q
    simp [realHarmonic, rodrigues]
  have h1 : ∑ q ∈ Finset.range (2 * 0 + 1), (dotR ydeg (R n t) M).getD (0 ^ 2 + q) 0 *
      realHarmonic 0 ((q : ℤ) - (0 : ℕ)) p.1 p.2.1 p.2.2 = realHarmonic 0 0 0 0 0 := by
    simp only [mul_zero, zero_add, Finset.sum_range_one]
    rw [show (0 : ℕ) ^ 2 + 0 = 0 from rfl, dotR_head]
    simp [h0 p]
  have h2 : ∑ q ∈ Finset.range (2 * 0 + 1), M.getD (0 ^ 2 + q) 0 * realHarmonic 0 ((q : ℤ) - (0 : ℕ)) (rotAxis n t p).1
      (rotAxis n t p).2.1 (rotAxis n t p).2.2 = M.getD 0 0 * realHarmonic 0 0 0 0 0 := by
    simp only [mul_zero, zero_add, Finset.sum_range_one]
    rw [show (0 : ℕ) ^ 2 + 0 = 0 from rfl]
    simp [h0 (rotAxis n t p)]
  rw [h1, h2, h0 (rotAxis n t p), Finset.sum_congr rfl fun l hl => ?_]
  · rw [add_assoc]
    congr 1
    ring
  have hl' : l + 1 ≤ ydeg := by have := Finset.mem_range.1 hl; omega
  have h3 : ∀ c ∈ Finset.range (2 * (l + 1) + 1), (dotR ydeg (R n t) M).getD ((l + 1) ^ 2 + c) 0 *
      realHarmonic (l + 1) ((c : ℤ) - (l + 1 : ℕ)) p.1 p.2.1 p.2.2 = ∑ r ∈ Finset.range (2 * (l + 1) + 1), M.getD ((l + 1) ^ 2 + r) 0 *
        (R n t (l + 1) r c * realHarmonic (l + 1) ((c : ℤ) - (l + 1 : ℕ)) p.1 p.2.1 p.2.2) := by
    intro c hc
    rw [dotR_getD ydeg _ M (l + 1) c (by omega) hl' (by have := Finset.mem_range.1 hc; omega), Finset.sum_mul]
    refine Finset.sum_congr rfl fun r _ => ?_
    ring
  rw [Finset.sum_congr rfl h3, Finset.sum_comm]
  refine Finset.sum_congr rfl fun r hr => ?_
  rw [← Finset.mul_sum]
  congr 1
  exact (hR n t hn (l + 1) (by omega) r (by have := Finset.mem_range.1 hr; omega) p hp).symm

theorem rotAxis_z (t : ℝ) (p : V3) : rotAxis (0, 0, 1) t p = rotZ t p := by
  simp only [rotAxis, rotZ, Prod.mk.injEq]
  refine ⟨by ring, by ring, by ring⟩

theorem rotAxis_tilt (inc obl : ℝ) (p : V3) :
    rotX (0.5 * π) (rotZ (-obl) (rotAxis (-cos obl, -sin obl, 0) (0.5 * π - inc) p)) = rotX inc (rotZ (-obl) p) := by
  have h1 := sin_sq_add_cos_sq obl
  have e1 : (0.5 : ℝ) * π = π / 2 := by ring
  simp only [rotAxis, rotZ, rotX, e1, cos_pi_div_two, sin_pi_div_two, cos_pi_div_two_sub, sin_pi_div_two_sub, cos_neg, sin_neg,
    Prod.mk.injEq]
  refine ⟨?_, ?_, ?_⟩
  · linear_combination (p.1 * cos obl + p.2.1 * sin obl) * (1 - sin inc) * h1
  · linear_combination (0:ℝ) * h1
  · linear_combination (p.2.2 * cos inc) * h1

theorem unitMean_one {M : List ℝ} (h : M.getD 0 0 = 1) : unitMean M = M := by
  cases M with
  | nil => simp at h
  | cons a t => simp [unitMean] at h ⊢; exact h.symm

theorem dotRz_head (deg : ℕ) (t : ℝ) (M : List ℝ) : (dotRz deg t M).getD 0 0 = M.getD 0 0 := by
  have := dotRz_getD deg t M 0 0 (by omega) (by omega)
  simpa using this

/-- the map that `rotate_y` returns: the map seen by the observer, with the mean set to 1 -/
theorem rotateY_mapVal {R : V3 → ℝ → ℕ → ℕ → ℕ → ℝ} (hR : ExactRot R) (ydeg : ℕ) (inc obl phi : ℝ) (y : List ℝ) (p : V3) (hp : OnSphere p) :
    mapVal ydeg (rotateY ydeg (fluxRots R inc obl) y phi) p = mapVal ydeg (unitMean y) (observerView inc obl phi p) := by
  have nx : Spec.normSq ((1, 0, 0) : V3) = 1 := by norm_num [Spec.normSq]
  have nz : Spec.normSq ((0, 0, 1) : V3) = 1 := by norm_num [Spec.normSq]
  have nt : Spec.normSq ((-cos obl, -sin obl, 0) : V3) = 1 := by
    have := sin_sq_add_cos_sq obl
    simp only [Spec.normSq]
    linarith
  have s1 : OnSphere (rotAxis (-cos obl, -sin obl, 0) (0.5 * π - inc) p) := rotAxis_sphere _ nt _ hp
  have s2 := rotZ_sphere (-obl) s1
  have s3 := rotX_sphere (0.5 * π) s2
  have s4 := rotZ_sphere (-phi) s3
  unfold rotateY fluxRots
  simp only
  rw [dotR_mapVal hR ydeg _ _ nt _ p hp, unitMean_one (dotR_head _ _ _), dotR_mapVal hR ydeg _ _ nz _ _ s1,
    unitMean_one (dotR_head _ _ _), rotAxis_z, dotR_mapVal hR ydeg _ _ nx _ _ s2, rotAxis_x,
    unitMean_one (by rw [dotRzMp_eq, dotRz_head, dotR_head]), dotRzMp_eq, dotRz_mapVal,
    dotR_mapVal hR ydeg _ _ nx _ _ s4, rotAxis_x, rotAxis_tilt]
  unfold observerView
  rw [show -0.5 * π = -(π / 2) by ring]

theorem todense_head (y : Ylm) (hy : ValidMap y) : y.todense.getD 0 0 = coef y 0 0 := by
  have := todense_entry hy (l := 0) (m := 0) (by simp) (by omega)
  simpa [Ylm.index] using this

theorem rotateY_length (ydeg : ℕ) (R : Rots) (y : List ℝ) (phi : ℝ) : (rotateY ydeg R y phi).length = (ydeg + 1) ^ 2 := dotR_length _ _ _

theorem yOcc_spec {R : V3 → ℝ → ℕ → ℕ → ℕ → ℝ} (hR : ExactRot R) (s : Surface) (hy : ValidMap s.y) (h1 : coef s.y 0 0 = 1)
    (inc obl b phi : ℝ) : ∃ y', yOcc s.ydeg (fluxRots R inc obl) s.y.todense b phi true = .ok y' ∧ y'.length = (s.ydeg + 1) ^ 2 ∧
      ∀ p, OnSphere p → mapVal s.ydeg y' p =
        mapVal s.ydeg s.y.todense (observerView inc obl phi (rotZ (-(arctan2 0 b)) p)) := by
  have hh := (todense_head s.y hy).trans h1
  unfold yOcc
  by_cases h : 0 < s.ydeg
  · rw [if_pos h]
    refine ⟨_, rfl, by rw [dotRzMp_eq, dotRz_length], fun p hp => ?_⟩
    rw [dotRzMp_eq, dotRz_mapVal, rotateY_mapVal hR _ _ _ _ _ _ (rotZ_sphere _ hp), unitMean_one hh]
  · rw [if_neg h]
    have h0 : s.ydeg = 0 := by omega
    refine ⟨_, rfl, by rw [h0]; rfl, fun p hp => ?_⟩
    have hl := todense_length s.y
    rw [show s.y.deg = s.ydeg from rfl, h0] at hl
    have : s.y.todense = [1] := by
      rw [← unitMean_one hh, unitMean]
      congr 1
      apply List.length_eq_zero_iff.1
      rw [List.length_tail, hl]
      rfl
    rw [this, h0]
    exact mapVal_zero _ _ _

/-- **C72** the flux during an occultation -/
theorem flux_occulted {R : V3 → ℝ → ℕ → ℕ → ℕ → ℝ} (hR : ExactRot R) (s : Surface) (hy : ValidMap s.y) (h1 : coef s.y 0 0 = 1)
    {inc obl : ℝ} (hi : s.inc = some inc) (ho : s.obl = some obl) {b r : ℝ} (phi : ℝ) (hb : b ≠ 0) (hr : 0 < r) (hbr : |b| < 1 + r)
    (hrb : r < 1 + |b|) :
    flux R (A1 s.ydeg) s.ydeg s.u.length inc obl b r s.y.todense phi s.u true =
      .ok (fluxOf s (some phi) (stellarDisc \ occultorAt 0 b r)) := by
  obtain ⟨y', hy1, hy2, hy3⟩ := yOcc_spec hR s hy h1 inc obl b phi
  obtain ⟨c, hc1, hc2, hc3⟩ := pOcc_spec s.ydeg y' s.u hy2
  obtain ⟨S, hS, hSl, hSv⟩ := sT_visible (s.ydeg + s.u.length) b r hb hr.ne' (by rwa [abs_of_pos hr]) (by rwa [abs_of_pos hr])
  rw [abs_of_pos hr] at hSv
  obtain ⟨A2, hA, hA2⟩ := A2_spec (s.ydeg + s.u.length)
  have hA2mp : A2 = A2mp (s.ydeg + s.u.length) := by
    unfold A2mp
    rw [A2invMp_eq]
    unfold scipyInv at hA
    split_ifs at hA
    exact (Except.ok.inj hA).symm
  obtain ⟨g, hg, hgv, hgs⟩ := hA2 c hc2
  have hv : ∀ p ∈ stellarDisc, π * denseVal c p.1 p.2 (mu p) = s.sky (some phi) (rot2 (-(arctan2 0 b)) p) := by
    intro p hp
    have hon : OnSphere (p.1, p.2, mu p) := disc_sphere hp
    rw [hc3 p hp, hy3 _ hon, show s.ydeg = s.y.deg from rfl, mapVal_todense hy]
    unfold Surface.sky skyIntensity
    rw [mu_rot2, hi, ho]
    rfl
  have hV : stellarDisc \ occultorY |b| r ⊆ stellarDisc := Set.sdiff_subset
  have hVm : MeasurableSet (stellarDisc \ occultorY |b| r) := measurableSet_stellarDisc.diff (measurableSet_occultorY |b| r)
  have hint : ∑ n ∈ Finset.range ((s.ydeg + s.u.length + 1) ^ 2), S.getD n 0 * g.getD n 0 =
      ∫ p in stellarDisc \ occultorY |b| r, denseVal c p.1 p.2 (mu p) := by
    simp only [hgv]
    rw [integral_finsetSum]
    · refine Finset.sum_congr rfl fun n hn => ?_
      rw [Finset.mem_range] at hn
      have h1 := sqrt_bounds n
      have := hSv (Nat.sqrt n) (sqrt_le_of_lt hn) (n - Nat.sqrt n ^ 2) (by omega)
      rw [show Nat.sqrt n ^ 2 + (n - Nat.sqrt n ^ 2) = n by omega] at this
      rw [this, MeasureTheory.integral_const_mul, mul_comm]
    · exact fun n _ => ((integrableOn_disc_cont (continuous_polyVal _)).mono_set hV).const_mul _
  have hrot := rotated_integral s (some phi) (arctan2 0 b) hv _ hV hVm
  have hb2 : √((0 : ℝ) ^ 2 + b ^ 2) = |b| := by rw [zero_pow two_ne_zero, zero_add, Real.sqrt_sq_eq_abs]
  rw [← hb2, rot2_occultor, hb2] at hrot
  have hsum := hgs S
  unfold flux
  rw [if_neg (by simp), if_neg (by rw [todense_length]; simp [Surface.ydeg]), if_neg (by linarith), if_neg (by rintro ⟨-, h⟩; linarith)]
  unfold occFlux
  simp only [hS, hy1, hc1, ← hA2mp, bind, Except.bind, pure, Except.pure]
  rw [← hrot, ← hint, List.zipWith_comm_of_comm (fun a b => mul_comm a b), hsum]
  congr 1
  ring

/-- **C72** without an occultation (and without limb darkening) the flux is that of the whole disc -/
theorem flux_unocculted {R : V3 → ℝ → ℕ → ℕ → ℕ → ℝ} (hR : ExactRot R) (s : Surface) (hy : ValidMap s.y) (h1 : coef s.y 0 0 = 1)
    (hu : s.u = []) (hd : s.ydeg ≠ 0) {inc obl : ℝ} (hi : s.inc = some inc) (ho : s.obl = some obl) {b r : ℝ} (phi : ℝ) (rotate : Bool)
    (hbr : 1 + r ≤ |b|) :
    flux R (A1 s.ydeg) s.ydeg s.u.length inc obl b r s.y.todense phi s.u rotate = .ok (fluxOf s (some phi) stellarDisc) := by
  have hh := (todense_head s.y hy).trans h1
  set y' := rotateY s.ydeg (fluxRots R inc obl) s.y.todense phi with hy'
  obtain ⟨c, hc1, hc2, hc3⟩ := pOcc_spec s.ydeg y' s.u (rotateY_length _ _ _ _)
  have hc : c = matVec ((s.ydeg + 1) ^ 2) (A1 s.ydeg) y' := by
    rw [hu] at hc1
    unfold pOcc at hc1
    simp only [List.length_nil, lt_irrefl, if_false, pure, Except.pure] at hc1
    exact (Prod.mk.inj (Except.ok.inj hc1)).1.symm
  have htot : totalFlux s.u = π := by
    rw [hu]
    have := LimbDark.whole_star 0
    simpa [totalFlux, profile, LimbDark.gtil] using this
  have hv : ∀ p ∈ stellarDisc, π * denseVal c p.1 p.2 (mu p) = s.sky (some phi) (rot2 (-0) p) := by
    intro p hp
    have hon : OnSphere (p.1, p.2, mu p) := disc_sphere hp
    have e : rot2 (-0) p = p := by simp [rot2]
    rw [hc3 p hp, hy', rotateY_mapVal hR _ _ _ _ _ _ hon, unitMean_one hh, show s.ydeg = s.y.deg from rfl, mapVal_todense hy, e]
    unfold Surface.sky skyIntensity
    rw [hi, ho]
    rfl
  have hrot := rotated_integral s (some phi) 0 hv _ le_rfl measurableSet_stellarDisc
  rw [rot2_disc, htot, div_self pi_ne_zero, mul_one] at hrot
  have hc2' : c.length = (s.ydeg + 1) ^ 2 := by rw [hc2, hu]; rfl
  unfold flux
  rw [if_neg (by simp), if_neg (by rw [todense_length]; simp [Surface.ydeg]), if_pos (by linarith)]
  unfold rotFlux
  rw [if_neg hd, if_neg (by simp [hu]), ← hc, List.zipWith_comm_of_comm (fun a b => mul_comm a b), rT_dot _ _ hc2', hrot]

/-- **C72** a star that is hidden entirely has no flux -/
theorem flux_hidden (R : V3 → ℝ → ℕ → ℕ → ℕ → ℝ) (A1 : List (List ℝ)) (ydeg : ℕ) (inc obl : ℝ) {b r : ℝ} (y : List ℝ) (phi : ℝ)
    (u : List ℝ) (rotate : Bool) (hy : ydeg = 0 ∨ y.length = (ydeg + 1) ^ 2) (hr : 1 < r) (hb : |b| ≤ r - 1) :
    flux R A1 ydeg u.length inc obl b r y phi u rotate = .ok 0 := by
  unfold flux
  rw [if_neg (by simp), if_neg (by omega), if_neg (by linarith), if_pos ⟨hr, hb⟩]

/-- Finding F29: an occultor at the centre of the star (`b = 0`, not larger than the star) is an error -/
theorem flux_centred (R : V3 → ℝ → ℕ → ℕ → ℕ → ℝ) (A1 : List (List ℝ)) (ydeg : ℕ) (inc obl : ℝ) {r : ℝ} (y : List ℝ) (phi : ℝ)
    (u : List ℝ) (rotate : Bool) (hy : ydeg = 0 ∨ y.length = (ydeg + 1) ^ 2) (hr0 : 0 ≤ r) (hr : r ≤ 1) :
    flux R A1 ydeg u.length inc obl 0 r y phi u rotate = .error (.valueError "ZeroDivisionError") := by
  unfold flux
  rw [if_neg (by simp), if_neg (by omega), if_neg (by simp; linarith), if_neg (by rintro ⟨h, -⟩; linarith)]
  have hs : sT (ydeg + u.length) 0 r = .error (.valueError "ZeroDivisionError") := by
    obtain ⟨lam, hl⟩ : ∃ lam, qNumerical (ydeg + u.length) 0 |r| = qIntegral (ydeg + u.length) lam := ⟨_, rfl⟩
    obtain ⟨Q, hQ, -⟩ := qIntegral_spec (ydeg + u.length) lam
    have hp : pNumerical (ydeg + u.length) 0 |r| = .error (.valueError "ZeroDivisionError") := by
      unfold pNumerical
      have : loopLM (ydeg + u.length) = (0, 0) :: (loopLM (ydeg + u.length)).tail := by
        simp [loopLM, List.range_succ_eq_map]
      rw [this, List.mapM_cons]
      simp [P, bind, Except.bind]
    unfold sT
    simp only [abs_zero, hl, hQ, hp, bind, Except.bind]
  unfold occFlux
  simp only [hs, bind, Except.bind]

/-- Finding F29: a uniform map without occultation, or limb darkening without occultation, or `rotate=False` with a map,
are errors -/
theorem flux_errors (R : V3 → ℝ → ℕ → ℕ → ℕ → ℝ) (A1 : List (List ℝ)) (ydeg : ℕ) (inc obl : ℝ) {b r : ℝ} (y : List ℝ) (phi : ℝ)
    (u : List ℝ) (rotate : Bool) (hb : 1 + r ≤ |b|) (h : ydeg = 0 ∨ u ≠ []) :
    ∃ e, flux R A1 ydeg u.length inc obl b r y phi u rotate = .error e := by
  unfold flux
  rw [if_neg (by simp)]
  split_ifs with h1 h2
  · exact ⟨_, rfl⟩
  · unfold rotFlux
    rcases h with h | h
    · exact ⟨_, if_pos h⟩
    · split_ifs with h3 h4
      · exact ⟨_, rfl⟩
      · exact ⟨_, rfl⟩
      · exact absurd (List.length_eq_zero_iff.1 (not_not.1 h4)) h
  · linarith
  · linarith

/-- Finding F29 -/
theorem flux_no_rotate (R : V3 → ℝ → ℕ → ℕ → ℕ → ℝ) (A1 : List (List ℝ)) (ydeg : ℕ) (hd : 0 < ydeg) (inc obl : ℝ) {b r : ℝ} (y : List ℝ) (phi : ℝ)
    (u : List ℝ) (hbr : |b| < 1 + r) (hrb : r < 1 + |b|) : ∃ e, flux R A1 ydeg u.length inc obl b r y phi u false = .error e := by
  unfold flux
  rw [if_neg (by simp)]
  split_ifs with h1 h2 h3
  · exact ⟨_, rfl⟩
  · linarith
  · linarith [h3.2]
  · unfold occFlux
    cases sT (ydeg + u.length) b r with
    | error e => exact ⟨e, rfl⟩
    | ok S =>
      refine ⟨.valueError "UnboundLocalError: y_rotated", ?_⟩
      simp [yOcc, hd, bind, Except.bind]

/-- Finding F30: the flux does not depend on the coefficient of degree zero of the map -/
theorem flux_ignores_mean (R : V3 → ℝ → ℕ → ℕ → ℕ → ℝ) (A1 : List (List ℝ)) (ydeg udeg : ℕ) (inc obl b r a a' : ℝ) (y : List ℝ) (phi : ℝ)
    (u : List ℝ) (rotate : Bool) :
    flux R A1 ydeg udeg inc obl b r (a :: y) phi u rotate = flux R A1 ydeg udeg inc obl b r (a' :: y) phi u rotate := by
  have h : ∀ Rm, dotR ydeg Rm (a :: y) = dotR ydeg Rm (a' :: y) := by
    intro Rm
    unfold dotR
    refine List.flatMap_congr fun l _ => ?_
    split_ifs with hl
    · rfl
    · refine List.map_congr_left fun j _ => Finset.sum_congr rfl fun i _ => ?_
      obtain ⟨n, hn⟩ : ∃ n, l * l + i = n + 1 := ⟨l * l + i - 1, by have : 0 < l * l := by positivity
                                                                    omega⟩
      rw [hn]
      rfl
  have h' : ∀ Rs ph, rotateY ydeg Rs (a :: y) ph = rotateY ydeg Rs (a' :: y) ph := by
    intro Rs ph
    unfold rotateY
    rw [h]
  unfold flux rotFlux occFlux yOcc
  simp only [h', List.length_cons]

/-- there are such matrices: those of the core package -/
theorem exists_exactRot : ∃ R, ExactRot R := by
  obtain ⟨f, hf⟩ := exists_isEulerZYZ
  refine ⟨fun n t l => rotMatrices l (f (n.1 * t, n.2.1 * t, n.2.2 * t)).1 (f (n.1 * t, n.2.1 * t, n.2.2 * t)).2.1
    (f (n.1 * t, n.2.1 * t, n.2.2 * t)).2.2 l, fun n t hn l _ i hi p hp => ?_⟩
  rw [← rotMatrices_harmonic l l le_rfl _ _ _ i hi p hp, ← hf n t hn p]

/-- the hypotheses are met by a planet of radius 0.1 at `b = -0.3` in front of the dipole map -/
example : ∃ R f, ExactRot R ∧ flux R (A1 dipole.ydeg) dipole.ydeg dipole.u.length 1.2 0.3 (-0.3) 0.1 dipole.y.todense 0.7 dipole.u true = .ok f := by
  obtain ⟨R, hR⟩ := exists_exactRot
  exact ⟨R, _, hR, flux_occulted hR dipole dipole_ok.1 (by simp [coef, dipole, Dict.getD0, Dict.get1]) rfl rfl 0.7 (by norm_num) (by norm_num)
    (by rw [abs_of_neg (by norm_num)]; norm_num) (by rw [abs_of_neg (by norm_num)]; norm_num)⟩

end Jaxoplanet.Starry.Mp
