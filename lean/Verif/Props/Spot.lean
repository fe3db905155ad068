import Verif.Model.Spot
import Verif.Spec.Spot
import Verif.Props.Intensity

/-!
# C73: a spot at a given latitude and longitude

`ylm_spot` fits the radial profile of the spot by Legendre polynomials, puts it at the pole facing the observer and rotates
it into place. The map is that of a round spot with its centre where it was asked for.
-/

namespace Jaxoplanet.Starry
open _root_.Jaxoplanet.Starry.Spec _root_.Jaxoplanet.Spec
open Real

/-! ### the fit -/

theorem sum_fin_range' (n : ℕ) (f : ℕ → ℝ) : ∑ i : Fin n, f i = ∑ i ∈ Finset.range n, f i := Fin.sum_univ_eq_sum_range f n

theorem spotB_mulVec (ydeg npts : ℕ) (β : ℕ → ℝ) (i : Fin npts) :
    (spotB ydeg npts).mulVec (fun l => β l) i = zonal ydeg β (cos (thetaGrid npts i)) := by
  unfold Matrix.mulVec dotProduct zonal
  rw [← sum_fin_range' (ydeg + 1) fun l => β l * (√(2 * l + 1) * legendre l (cos (thetaGrid npts i)))]
  refine Finset.sum_congr rfl fun l _ => ?_
  rw [mul_comm]
  rfl

theorem ridge_det (ydeg npts : ℕ) {eps : ℝ} (he : 0 < eps) :
    ((spotB ydeg npts).transpose * spotB ydeg npts + eps • (1 : Matrix (Fin (ydeg + 1)) (Fin (ydeg + 1)) ℝ)).det ≠ 0 := by
  set B := spotB ydeg npts
  intro h
  obtain ⟨v, hv, h0⟩ := Matrix.exists_mulVec_eq_zero_iff.2 h
  have h1 : v ⬝ᵥ ((B.transpose * B + eps • (1 : Matrix (Fin (ydeg + 1)) (Fin (ydeg + 1)) ℝ)).mulVec v) = 0 := by rw [h0]; simp
  rw [Matrix.add_mulVec, dotProduct_add, ← Matrix.mulVec_mulVec, Matrix.dotProduct_mulVec, Matrix.vecMul_transpose,
    Matrix.smul_mulVec, Matrix.one_mulVec, dotProduct_smul] at h1
  have h2 : 0 ≤ B.mulVec v ⬝ᵥ B.mulVec v := by
    unfold dotProduct; exact Finset.sum_nonneg fun i _ => mul_self_nonneg _
  have h3 : 0 < v ⬝ᵥ v := by
    obtain ⟨l, hl⟩ := Function.ne_iff.1 hv
    unfold dotProduct
    exact Finset.sum_pos' (fun i _ => mul_self_nonneg _) ⟨l, Finset.mem_univ _, mul_self_pos.2 hl⟩
  rw [smul_eq_mul] at h1
  nlinarith [mul_pos he h3]

/-- **C73** the matrix that `Bp` returns smooths the coefficients of the ridge-regularised least squares fit -/
theorem Bp_spec (ydeg npts : ℕ) {eps : ℝ} (he : 0 < eps) (smoothing : Option ℝ) (f : ℕ → ℝ) :
    ∃ β : ℕ → ℝ, IsRidgeFit ydeg npts eps (thetaGrid npts) f β ∧ ∀ l : Fin (ydeg + 1),
      (Bp ydeg npts eps smoothing).mulVec (fun i => f i) l =
        exp (-((l : ℕ) * ((l : ℕ) + 1) * smoothing.getD (defaultSmoothing ydeg) ^ 2 / 2)) * β l := by
  set B := spotB ydeg npts with hB
  set A := B.transpose * B + eps • (1 : Matrix (Fin (ydeg + 1)) (Fin (ydeg + 1)) ℝ) with hA
  have hdet : IsUnit A.det := isUnit_iff_ne_zero.2 (ridge_det ydeg npts he)
  set b : Fin npts → ℝ := fun i => f i with hb
  set v := (A⁻¹ * B.transpose).mulVec b with hv
  have hAv : A.mulVec v = B.transpose.mulVec b := by
    rw [hv, Matrix.mulVec_mulVec, ← Matrix.mul_assoc, Matrix.mul_nonsing_inv _ hdet, Matrix.one_mul]
  let β : ℕ → ℝ := fun l => if h : l < ydeg + 1 then v ⟨l, h⟩ else 0
  have hβ : (fun l : Fin (ydeg + 1) => β l) = v := by
    funext l
    exact dif_pos l.2
  have hβ' : ∀ l : Fin (ydeg + 1), β l = v l := fun l => congrFun hβ l
  have cost : ∀ β' : ℕ → ℝ, ridgeCost ydeg npts eps (thetaGrid npts) f β' =
      (B.mulVec (fun l => β' l) - b) ⬝ᵥ (B.mulVec (fun l => β' l) - b) +
        eps * ((fun l : Fin (ydeg + 1) => β' l) ⬝ᵥ (fun l : Fin (ydeg + 1) => β' l)) := by
    intro β'
    unfold ridgeCost dotProduct
    rw [← sum_fin_range' npts fun i => (zonal ydeg β' (cos (thetaGrid npts i)) - f i) ^ 2, ← sum_fin_range' (ydeg + 1) fun l => β' l ^ 2]
    congr 1
    · refine Finset.sum_congr rfl fun i _ => ?_
      rw [Pi.sub_apply, spotB_mulVec, sq]
    · congr 1
      exact Finset.sum_congr rfl fun l _ => sq _
  refine ⟨β, fun β' ⟨l, hl, hne⟩ => ?_, fun l => ?_⟩
  · rw [cost, cost, hβ]
    set w : Fin (ydeg + 1) → ℝ := fun l => β' l with hw
    set d := w - v with hd
    have hwd : w = v + d := by rw [hd]; abel
    have h3 : 0 < d ⬝ᵥ d := by
      have : d ⟨l, by omega⟩ ≠ 0 := by
        rw [hd, Pi.sub_apply, hw, ← hβ' ⟨l, by omega⟩]
        exact sub_ne_zero.2 hne
      unfold dotProduct
      exact Finset.sum_pos' (fun i _ => mul_self_nonneg _) ⟨_, Finset.mem_univ _, mul_self_pos.2 this⟩
    have h2 : 0 ≤ B.mulVec d ⬝ᵥ B.mulVec d := by
      unfold dotProduct; exact Finset.sum_nonneg fun i _ => mul_self_nonneg _
    have h4 : d ⬝ᵥ A.mulVec v = d ⬝ᵥ B.transpose.mulVec b := by rw [hAv]
    have ht : ∀ x, d ⬝ᵥ B.transpose.mulVec x = B.mulVec d ⬝ᵥ x := fun x => by rw [Matrix.dotProduct_mulVec, Matrix.vecMul_transpose]
    rw [hA, Matrix.add_mulVec, dotProduct_add, ← Matrix.mulVec_mulVec, ht, ht, Matrix.smul_mulVec, Matrix.one_mulVec,
      dotProduct_smul, smul_eq_mul] at h4
    rw [hwd, Matrix.mulVec_add]
    simp only [sub_dotProduct, dotProduct_sub, add_dotProduct, dotProduct_add]
    have e1 := dotProduct_comm (B.mulVec d) (B.mulVec v)
    have e2 := dotProduct_comm (B.mulVec d) b
    have e3 := dotProduct_comm d v
    nlinarith [mul_pos he h3]
  · rw [hβ']
    have : (Bp ydeg npts eps smoothing).mulVec b l = exp (-0.5 * ((l : ℕ) * ((l : ℕ) + 1)) * smoothing.getD (defaultSmoothing ydeg) ^ 2) * v l := by
      unfold Matrix.mulVec dotProduct Bp
      rw [hv]
      unfold Matrix.mulVec dotProduct
      rw [Finset.mul_sum]
      refine Finset.sum_congr rfl fun i _ => ?_
      rw [mul_assoc]
    rw [this]
    congr 2
    ring

/-! ### the coefficient vector at the pole -/

theorem foldl_set_other {ι : Type} (idx : ι → ℕ) (val : ι → ℝ) (n : ℕ) : ∀ (es : List ι) (L : List ℝ), (∀ e ∈ es, idx e ≠ n) →
    (es.foldl (fun r e => r.set (idx e) (val e)) L).getD n 0 = L.getD n 0 := by
  intro es
  induction es with
  | nil => exact fun L _ => rfl
  | cons a es ih =>
    intro L h
    rw [List.foldl_cons, ih _ fun e he => h e (List.mem_cons_of_mem _ he)]
    have := h a List.mem_cons_self
    simp [List.getD_eq_getElem?_getD, this]

theorem spotPole_getD (ydeg npts : ℕ) (spot_fac contrast r : ℝ) :
    (spotPole ydeg npts spot_fac contrast r).length = (ydeg + 1) ^ 2 ∧ ∀ l, (hl : l ≤ ydeg) → ∀ q ≤ 2 * l,
      (spotPole ydeg npts spot_fac contrast r).getD (l ^ 2 + q) 0 = if q = l then
        (Bp ydeg npts 1e-9 none).mulVec (fun i => spotProfile (thetaGrid npts i) r spot_fac) ⟨l, by omega⟩ * contrast +
          (if l = 0 then 1 else 0) else 0 := by
  unfold spotPole
  simp only
  set v := (Bp ydeg npts 1e-9 none).mulVec (fun i => spotProfile (thetaGrid npts i) r spot_fac) with hv
  have hlt : ∀ e ∈ List.finRange (ydeg + 1), (e : ℕ) * ((e : ℕ) + 1) < (List.replicate ((ydeg + 1) * (ydeg + 1)) (0 : ℝ)).length := by
    intro e _
    rw [List.length_replicate]
    have := e.2
    nlinarith
  have hinj : ∀ a ∈ List.finRange (ydeg + 1), ∀ b ∈ List.finRange (ydeg + 1), (a : ℕ) * ((a : ℕ) + 1) = (b : ℕ) * ((b : ℕ) + 1) →
      v a * contrast = v b * contrast := by
    intro a _ b _ h
    have : (a : ℕ) = b := by
      rcases lt_trichotomy (a : ℕ) b with h' | h' | h'
      · nlinarith
      · exact h'
      · nlinarith
    rw [Fin.ext this]
  have key := foldl_set_getD (List.finRange (ydeg + 1)) (fun l : Fin (ydeg + 1) => (l : ℕ) * ((l : ℕ) + 1)) (fun l => v l * contrast)
    (List.replicate ((ydeg + 1) * (ydeg + 1)) 0) hinj hlt
  set Y := (List.finRange (ydeg + 1)).foldl (fun (y : List ℝ) (l : Fin (ydeg + 1)) => y.set ((l : ℕ) * ((l : ℕ) + 1)) (v l * contrast))
    (List.replicate ((ydeg + 1) * (ydeg + 1)) 0) with hY
  have hlen : Y.length = (ydeg + 1) ^ 2 := by rw [key.1, List.length_replicate]; ring
  refine ⟨by rw [List.length_set, hlen], fun l hl q hq => ?_⟩
  have h0 : (Y.set 0 (Y.getD 0 0 + 1)).getD (l ^ 2 + q) 0 = Y.getD (l ^ 2 + q) 0 + if l = 0 then 1 else 0 := by
    have hpos : 0 < Y.length := by rw [hlen]; positivity
    by_cases h : l = 0
    · subst h
      obtain rfl : q = 0 := by omega
      simp [List.getD_eq_getElem?_getD, hpos]
    · have : 0 < l ^ 2 := by positivity
      simp [List.getD_eq_getElem?_getD, h, show 0 ≠ l ^ 2 + q by omega]
  rw [h0]
  by_cases h : q = l
  · subst h
    rw [if_pos rfl, show q ^ 2 + q = q * (q + 1) by ring, key.2 ⟨q, by omega⟩ (List.mem_finRange _)]
  · rw [if_neg h, if_neg (by omega), add_zero, hY, foldl_set_other]
    · simp [List.getD_eq_getElem?_getD, List.getElem?_replicate]
      split_ifs <;> rfl
    · intro e _ he
      have h1 : Nat.sqrt ((e : ℕ) * ((e : ℕ) + 1)) = e := sqrt_eq_of_bounds (by nlinarith) (by nlinarith)
      have h2 : Nat.sqrt (l ^ 2 + q) = l := sqrt_eq_of_bounds (by omega) (by nlinarith)
      have : (e : ℕ) = l := by rw [← h1, he, h2]
      rw [this] at he
      apply h
      nlinarith

/-- the zonal harmonics -/
theorem realHarmonic_zonal (l : ℕ) (x y z : ℝ) : 2 * √π * realHarmonic l 0 x y z = √(2 * l + 1) * legendre l z := by
  have h0 : √π ≠ 0 := (sqrt_pos.2 pi_pos).ne'
  have h1 : harmNorm l 0 = √(2 * l + 1) / (2 * √π) := by
    unfold harmNorm
    have hf : ((l.factorial : ℝ)) ≠ 0 := by positivity
    rw [if_pos rfl, Nat.sub_zero, Nat.add_zero, div_self hf, one_mul, mul_one, Real.sqrt_div (by positivity), Real.sqrt_mul (by norm_num)]
    congr 2
    rw [show (4 : ℝ) = 2 ^ 2 by norm_num, Real.sqrt_sq (by norm_num)]
  unfold realHarmonic legendre
  simp only [Int.natAbs_zero, h1, pow_zero, le_refl, if_true, Complex.one_re]
  field_simp

/-- the map of a vector with zonal coefficients only -/
theorem mapVal_zonal (ydeg : ℕ) (M : List ℝ) (a : ℕ → ℝ) (h : ∀ l ≤ ydeg, ∀ q ≤ 2 * l, M.getD (l ^ 2 + q) 0 = if q = l then a l else 0)
    (p : V3) : 2 * √π * mapVal ydeg M p = zonal ydeg a p.2.2 := by
  unfold mapVal zonal
  rw [Finset.mul_sum]
  refine Finset.sum_congr rfl fun l hl => ?_
  rw [Finset.mem_range] at hl
  rw [Finset.sum_eq_single l]
  · rw [h l (by omega) l (by omega), if_pos rfl, ← realHarmonic_zonal l p.1 p.2.1, sub_self]
    ring
  · intro q hq hne
    rw [Finset.mem_range] at hq
    rw [h l (by omega) q (by omega), if_neg hne, zero_mul]
  · intro hn
    exact absurd (Finset.mem_range.2 (by omega)) hn

theorem rotAxis_y (t : ℝ) (p : V3) : rotAxis (0, 1, 0) t p = rotY t p := by
  simp only [rotAxis, rotY, Prod.mk.injEq]
  refine ⟨by ring, by ring, by ring⟩

/-- the third coordinate after the two rotations is the cosine of the angle to the point with the given latitude and
longitude -/
theorem spot_angle (lat lon : ℝ) (p : V3) : (rotX lat (rotY (-lon) p)).2.2 = dot (mapPoint lat lon) p := by
  simp only [rotX, rotY, dot, mapPoint, cos_neg, sin_neg]
  ring

theorem thetaGrid_eq (n : ℕ) : thetaGrid n = gridAngle n := by
  funext i; unfold thetaGrid gridAngle; ring

theorem smoothing_eq (ydeg : ℕ) : defaultSmoothing ydeg = smoothWidth ydeg := by
  unfold defaultSmoothing smoothWidth; norm_num

/-- **C73** `ylm_spot(ydeg, npts, spot_fac)(contrast, r, lat, lon)` is the map of a round spot at latitude `lat` and longitude
`lon`: at the point `p` of the sphere the intensity is 1 plus the contrast times a function of the angle between `p` and the
centre of the spot; this function is the smoothed ridge-regularised least squares expansion of the profile of the spot -/
theorem ylm_spot_map {asEuler : V3 → V3} (hE : IsEulerZYZ asEuler) (ydeg npts : ℕ) (spot_fac contrast r lat lon : ℝ) :
    ∃ y β, ylmSpot asEuler ydeg npts spot_fac contrast r lat lon = .ok y ∧ ValidMap y ∧ y.deg = ydeg ∧
      IsRidgeFit ydeg npts 1e-9 (gridAngle npts) (fun i => dip spot_fac r (gridAngle npts i)) β ∧
      ∀ p, OnSphere p → 2 * √π * mapAt y p = 1 + contrast *
        zonal ydeg (fun l => exp (-(l * (l + 1) * smoothWidth ydeg ^ 2 / 2)) * β l) (dot (mapPoint lat lon) p) := by
  rw [← thetaGrid_eq, ← smoothing_eq]
  change ∃ y β, ylmSpot asEuler ydeg npts spot_fac contrast r lat lon = .ok y ∧ ValidMap y ∧ y.deg = ydeg ∧
      IsRidgeFit ydeg npts 1e-9 (thetaGrid npts) (fun i => spotProfile (thetaGrid npts i) r spot_fac) β ∧ _
  obtain ⟨hlen, hval⟩ := spotPole_getD ydeg npts spot_fac contrast r
  obtain ⟨β, hfit, hβ⟩ := Bp_spec ydeg npts (eps := 1e-9) (by norm_num) none (fun i => spotProfile (thetaGrid npts i) r spot_fac)
  obtain ⟨M1, a1, b1, c1⟩ := dot_axis hE ydeg (some 1) (some 0) (some 0) lat (spotPole ydeg npts spot_fac contrast r) (by simp)
    (by simp [Spec.normSq])
  obtain ⟨M2, a2, b2, c2⟩ := dot_axis hE ydeg (some 0) (some 1) (some 0) (-lon) M1 (by simp) (by simp [Spec.normSq])
  have hne : M2 ≠ [] := by
    rintro rfl
    have : 0 < (ydeg + 1) ^ 2 := by positivity
    rw [← b2] at this
    simp at this
  obtain ⟨y, hy⟩ : ∃ y, Ylm.fromDense M2 false = .ok y := ⟨_, rfl⟩
  have hdeg := fromDense_deg b2 hy
  have hv := fromDense_valid hne hy
  refine ⟨y, β, ?_, hv, hdeg, hfit, fun p hp => ?_⟩
  · unfold ylmSpot
    simp only [a1, a2, hy, bind, Except.bind]
  · simp only [Option.getD_some, rotAxis_x] at c1
    simp only [Option.getD_some, rotAxis_y] at c2
    have hp1 : OnSphere (rotY (-lon) p) := rotY_sphere _ hp
    rw [← mapVal_todense hv, todense_fromDense b2 hy, hdeg, c2 p hp, c1 _ hp1, ← spot_angle,
      mapVal_zonal ydeg _ (fun l => contrast * (exp (-(l * (l + 1) * defaultSmoothing ydeg ^ 2 / 2)) * β l) + if l = 0 then 1 else 0)]
    · unfold zonal
      rw [Finset.mul_sum]
      simp only [add_mul, Finset.sum_add_distrib, ite_mul, zero_mul, one_mul]
      rw [Finset.sum_ite_eq' (Finset.range (ydeg + 1)) 0, if_pos (by simp), add_comm]
      congr 1
      · simp [legendre, rodrigues]
      · exact Finset.sum_congr rfl fun l _ => by ring
    · intro l hl q hq
      rw [hval l hl q hq]
      by_cases h : q = l
      · rw [if_pos h, if_pos h, hβ]
        simp only [Option.getD_none]
        ring
      · rw [if_neg h, if_neg h]

/-- **C73** the spot has no preferred direction: points at the same angle from its centre have the same intensity -/
theorem ylm_spot_round {asEuler : V3 → V3} (hE : IsEulerZYZ asEuler) (ydeg npts : ℕ) (spot_fac contrast r lat lon : ℝ) {y : Ylm}
    (h : ylmSpot asEuler ydeg npts spot_fac contrast r lat lon = .ok y) {p q : V3} (hp : OnSphere p) (hq : OnSphere q)
    (hpq : dot (mapPoint lat lon) p = dot (mapPoint lat lon) q) : mapAt y p = mapAt y q := by
  obtain ⟨y', β, h1, -, -, -, h2⟩ := ylm_spot_map hE ydeg npts spot_fac contrast r lat lon
  rw [h, Except.ok.injEq] at h1
  subst h1
  have h0 : 2 * √π ≠ 0 := by have := sqrt_pos.2 pi_pos; positivity
  exact mul_left_cancel₀ h0 (by rw [h2 p hp, h2 q hq, hpq])

/-- **C73** the position only moves the spot: the intensity at `p` of the spot at `(lat, lon)` is that of the spot at
`(lat', lon')` at any point as far from its centre -/
theorem ylm_spot_moved {asEuler : V3 → V3} (hE : IsEulerZYZ asEuler) (ydeg npts : ℕ) (spot_fac contrast r lat lon lat' lon' : ℝ) {y y' : Ylm}
    (h : ylmSpot asEuler ydeg npts spot_fac contrast r lat lon = .ok y)
    (h' : ylmSpot asEuler ydeg npts spot_fac contrast r lat' lon' = .ok y') {p q : V3} (hp : OnSphere p) (hq : OnSphere q)
    (hpq : dot (mapPoint lat lon) p = dot (mapPoint lat' lon') q) : mapAt y p = mapAt y' q := by
  obtain ⟨y1, β, h1, -, -, f1, h2⟩ := ylm_spot_map hE ydeg npts spot_fac contrast r lat lon
  obtain ⟨y2, β', h3, -, -, f2, h4⟩ := ylm_spot_map hE ydeg npts spot_fac contrast r lat' lon'
  rw [h, Except.ok.injEq] at h1
  rw [h', Except.ok.injEq] at h3
  subst h1 h3
  have hb : ∀ l ≤ ydeg, β' l = β l := by
    by_contra hn
    push Not at hn
    obtain ⟨l, hl, hne⟩ := hn
    have a := f1 β' ⟨l, hl, hne⟩
    have b := f2 β ⟨l, hl, hne.symm⟩
    linarith
  have h0 : 2 * √π ≠ 0 := by have := sqrt_pos.2 pi_pos; positivity
  refine mul_left_cancel₀ h0 ?_
  rw [h2 p hp, h4 q hq, hpq]
  congr 2
  unfold zonal
  refine Finset.sum_congr rfl fun l hl => ?_
  rw [Finset.mem_range] at hl
  simp only [hb l (by omega)]

/-- **C73** without contrast the map is uniform -/
theorem ylm_spot_no_contrast {asEuler : V3 → V3} (hE : IsEulerZYZ asEuler) (ydeg npts : ℕ) (spot_fac r lat lon : ℝ) {y : Ylm}
    (h : ylmSpot asEuler ydeg npts spot_fac 0 r lat lon = .ok y) {p : V3} (hp : OnSphere p) : 2 * √π * mapAt y p = 1 := by
  obtain ⟨y', β, h1, -, -, -, h2⟩ := ylm_spot_map hE ydeg npts spot_fac 0 r lat lon
  rw [h, Except.ok.injEq] at h1
  subst h1
  rw [h2 p hp, zero_mul, add_zero]

/-- **C73** where the spot is seen: on a star with inclination `π/2`, no obliquity and rotated by `theta`, the centre of the
spot is at latitude `lat` and longitude `lon + theta` of the visible hemisphere -/
theorem spot_seen (lat lon theta : ℝ) : observerView (π / 2) 0 theta (mapPoint lat (lon + theta)) = mapPoint lat lon := by
  simp only [observerView, mapPoint, rotX, rotZ, cos_neg, sin_neg, cos_zero, sin_zero, cos_pi_div_two, sin_pi_div_two, sin_add, cos_add,
    Prod.mk.injEq]
  have h := sin_sq_add_cos_sq theta
  refine ⟨?_, ?_, ?_⟩
  · linear_combination (cos lat * sin lon) * h
  · ring
  · linear_combination (cos lat * cos lon) * h

/-- **C73** the profile of the spot: between −1 (inside) and 0 (outside), −1/2 at the radius, increasing outwards -/
theorem spot_profile_shape (r : ℝ) {fac : ℝ} (hf : 0 < fac) :
    (∀ θ, -1 < spotProfile θ r fac ∧ spotProfile θ r fac < 0) ∧ spotProfile r r fac = -1 / 2 ∧
    StrictMono (fun θ => spotProfile θ r fac) := by
  unfold spotProfile
  refine ⟨fun θ => ?_, ?_, fun a b hab => ?_⟩
  · have h := exp_pos (-(fac * (θ - r)))
    refine ⟨?_, ?_⟩
    · have : 0 < 1 / (1 + exp (-(fac * (θ - r)))) := by positivity
      linarith
    · have : 1 / (1 + exp (-(fac * (θ - r)))) < 1 := by rw [div_lt_one (by positivity)]; linarith
      linarith
  · norm_num
  · simp only
    have h1 := exp_pos (-(fac * (b - r)))
    have h : exp (-(fac * (b - r))) < exp (-(fac * (a - r))) := by
      apply exp_lt_exp.2
      nlinarith
    have := one_div_lt_one_div_of_lt (by linarith : 0 < 1 + exp (-(fac * (b - r)))) (by linarith : 1 + exp (-(fac * (b - r))) < 1 + exp (-(fac * (a - r))))
    linarith

/-- a spot of radius 0.2 at latitude 0.3 and longitude -1 with the default resolution -/
example : ∃ asEuler y, IsEulerZYZ asEuler ∧ ylmSpot asEuler 10 300 300 0.8 0.2 0.3 (-1) = .ok y := by
  obtain ⟨f, hf⟩ := exists_isEulerZYZ
  obtain ⟨y, -, h, -⟩ := ylm_spot_map hf 10 300 300 0.8 0.2 0.3 (-1)
  exact ⟨f, y, hf, h⟩

end Jaxoplanet.Starry
