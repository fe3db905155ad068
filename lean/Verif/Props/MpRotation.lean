import Verif.Proofs.MpRotation

/-!
# C80: the rotation matrices of the multi-precision package

`R(lmax, u, theta)` returns, up to entries smaller than `10 ** (-mp.dps)`, the matrices of a rotation that is the rotation by
`theta` about `u`, or (for the z axis and for `theta = 0`) one at a distance of `10 ** (-mp.dps)` or `1e-20` from it.
-/

namespace Jaxoplanet.Starry.Mp

open Jaxoplanet.Starry.Spec Real

/-- squared distance of two points -/
def distSq (p q : V3) : ℝ := (p.1 - q.1) ^ 2 + (p.2.1 - q.2.1) ^ 2 + (p.2.2 - q.2.2) ^ 2

/-- `E` is the matrix of the rotation `g` on the harmonics of degree `l`: `Y_i(g p) = Σ_j E_ij Y_j(p)` -/
def IsRotMatrix (l : ℕ) (g : V3 → V3) (E : ℕ → ℕ → ℝ) : Prop :=
  ∀ i ≤ 2 * l, ∀ p : V3, OnSphere p → realHarmonic l ((i : ℤ) - l) (g p).1 (g p).2.1 (g p).2.2 =
    ∑ j ∈ Finset.range (2 * l + 1), E i j * realHarmonic l ((j : ℤ) - l) p.1 p.2.1 p.2.2

/-- `g` is a rotation of space, composed of rotations about the axes -/
def IsRotation (g : V3 → V3) : Prop := ∃ α β γ : ℝ, ∀ p, g p = rotZ α (rotY β (rotZ γ p))

/-- how far the rotation of the returned matrices is from the requested one -/
noncomputable def rotTol (dps : ℕ) (u : V3) (theta : ℝ) : ℝ :=
  (if u.1 = 0 ∧ u.2.1 = 0 then (10 : ℝ) ^ (-(dps : ℤ)) else 0) + (if theta = 0 then 1e-20 else 0)

theorem IsRotation.sphere {g : V3 → V3} (hg : IsRotation g) {p : V3} (hp : OnSphere p) : OnSphere (g p) := by
  obtain ⟨α, β, γ, h⟩ := hg
  rw [h]
  exact rotZ_sphere _ (rotY_sphere _ (rotZ_sphere _ hp))

theorem distSq_triangle {p q r : V3} {a b : ℝ} (ha : 0 ≤ a) (hb : 0 ≤ b) (h1 : distSq p q ≤ a ^ 2) (h2 : distSq q r ≤ b ^ 2) :
    distSq p r ≤ (a + b) ^ 2 := by
  unfold distSq at *
  have key : ∀ x y z x' y' z' : ℝ, x ^ 2 + y ^ 2 + z ^ 2 ≤ a ^ 2 → x' ^ 2 + y' ^ 2 + z' ^ 2 ≤ b ^ 2 → x * x' + y * y' + z * z' ≤ a * b := by
    intro x y z x' y' z' h1 h2
    refine abs_le_of_sq_le_sq' ?_ (mul_nonneg ha hb) |>.2
    calc (x * x' + y * y' + z * z') ^ 2 ≤ (x ^ 2 + y ^ 2 + z ^ 2) * (x' ^ 2 + y' ^ 2 + z' ^ 2) := by
          nlinarith [sq_nonneg (x * y' - y * x'), sq_nonneg (y * z' - z * y'), sq_nonneg (z * x' - x * z')]
      _ ≤ a ^ 2 * b ^ 2 := mul_le_mul h1 h2 (by positivity) (by positivity)
      _ = (a * b) ^ 2 := by ring
  have := key _ _ _ _ _ _ h1 h2
  nlinarith

theorem distSq_quat {w x y z d : ℝ} (h : w ^ 2 + x ^ 2 + y ^ 2 + z ^ 2 = 1) (p : V3) (hp : OnSphere p) (hd : 4 * (1 - w ^ 2) ≤ d ^ 2) :
    distSq (quatRot w x y z p) p ≤ d ^ 2 := by
  have := quatRot_displacement h p hp
  unfold distSq
  nlinarith

theorem half_bound (t : ℝ) : 4 * (1 - cos (t / 2) ^ 2) ≤ t ^ 2 := by
  have h1 := sin_sq_add_cos_sq (t / 2)
  have h2 : sin (t / 2) ^ 2 ≤ (t / 2) ^ 2 := sq_le_sq.2 (abs_sin_le_abs)
  nlinarith

theorem distSq_rotZ (α : ℝ) (p q : V3) : distSq (rotZ α p) (rotZ α q) = distSq p q := by
  unfold distSq rotZ
  simp only
  linear_combination ((p.1 - q.1) ^ 2 + (p.2.1 - q.2.1) ^ 2) * sin_sq_add_cos_sq α

theorem rotAxis_tol (n : V3) (hn : normSq n = 1) (theta : ℝ) (p : V3) (hp : OnSphere p) :
    distSq (rotAxis n (mpTheta theta) p) (rotAxis n theta p) ≤ (if theta = 0 then 1e-20 else 0) ^ 2 := by
  unfold mpTheta
  split_ifs with h
  · rw [h, rotAxis_zero, rotAxis_eq_quat n _ hn]
    refine distSq_quat ?_ p hp (half_bound _)
    unfold normSq at hn
    linear_combination sin (1e-20 / 2) ^ 2 * hn + sin_sq_add_cos_sq (1e-20 / 2 : ℝ)
  · simp [distSq]

/-- the Euler angles found for a unit axis -/
theorem axisAngle_spec (dps : ℕ) {n : V3} (hn : normSq n = 1) {theta : ℝ} {e : V3}
    (h : axisAngleToEuler n.1 n.2.1 n.2.2 theta = .ok e) :
    ∀ p, OnSphere p → distSq (rotZ e.1 (rotY (dmnBeta dps e.2.1) (rotZ e.2.2 p))) (rotAxis n theta p) ≤ rotTol dps n theta ^ 2 := by
  obtain ⟨n1, n2, n3⟩ := n
  simp only at h
  have hn' : n1 ^ 2 + n2 ^ 2 + n3 ^ 2 = 1 := hn
  by_cases h1 : cos (mpTheta theta) = 1
  · rw [axisAngle_error (Or.inl h1)] at h; simp at h
  by_cases h2 : n3 = 0 ∧ cos (mpTheta theta) = -1
  · rw [axisAngle_error (Or.inr h2)] at h; simp at h
  intro p hp
  by_cases hz : n1 = 0 ∧ n2 = 0
  · obtain ⟨rfl, rfl⟩ := hz
    obtain ⟨α, γ, he, hr⟩ := axisAngle_z (u3 := n3) (theta := theta) (by nlinarith) h1
    rw [he] at h
    injection h with h
    subst h
    simp only [dmnBeta, if_true, rotTol, and_self]
    refine distSq_triangle (q := rotAxis (0, 0, n3) (mpTheta theta) p) (by positivity) (by split_ifs <;> norm_num) ?_ (rotAxis_tol _ hn _ _ hp)
    rw [← hr, distSq_rotZ, rotY_eq_quat]
    refine distSq_quat ?_ _ (rotZ_sphere _ hp) (half_bound _)
    linear_combination sin_sq_add_cos_sq (10 ^ (-(dps : ℤ)) / 2 : ℝ)
  · obtain ⟨α, β, γ, he, hb0, hb1, hr⟩ := axisAngle_generic hn' hz h1 h2
    rw [he] at h
    injection h with h
    subst h
    simp only [dmnBeta, if_neg hb0.ne', rotTol, if_neg hz, zero_add]
    rw [hr]
    exact rotAxis_tol _ hn _ _ hp

/-- the steps of `R` -/
theorem R_unfold (dps lmax : ℕ) (u : V3) (theta : ℝ) : R dps lmax u theta =
    if normSq u = 0 then .error (.valueError "ZeroDivisionError") else
      (axisAngleToEuler (unitOf u).1 (unitOf u).2.1 (unitOf u).2.2 theta).bind fun e =>
        .ok ((List.range (lmax + 1)).map fun l => rotMatrix dps l e.1 e.2.1 e.2.2) := by
  have hnn : 0 ≤ normSq u := by unfold normSq; positivity
  unfold R divZ
  simp only
  rw [show u.1 ^ 2 + u.2.1 ^ 2 + u.2.2 ^ 2 = normSq u from rfl]
  by_cases h : normSq u = 0
  · rw [if_pos h, h, sqrt_zero, if_pos rfl]; rfl
  · have : √(normSq u) ≠ 0 := (sqrt_pos.2 (lt_of_le_of_ne hnn (Ne.symm h))).ne'
    rw [if_neg h, if_neg this, if_neg this, if_neg this]
    rfl

theorem normSq_pos {u : V3} (h : normSq u ≠ 0) : 0 < normSq u :=
  lt_of_le_of_ne (by unfold normSq; positivity) (Ne.symm h)

theorem unitOf_zero {u : V3} (h : normSq u ≠ 0) :
    ((unitOf u).1 = 0 ↔ u.1 = 0) ∧ ((unitOf u).2.1 = 0 ↔ u.2.1 = 0) ∧ ((unitOf u).2.2 = 0 ↔ u.2.2 = 0) := by
  have := (sqrt_pos.2 (normSq_pos h)).ne'
  unfold unitOf
  simp [this]

/-- C80: when `R` raises (`ZeroDivisionError`): for the zero vector, and in exact arithmetic for full turns and for half turns
about an axis in the plane of the sky (F32: the branches written for these cases are never taken) -/
theorem R_error_iff (dps lmax : ℕ) (u : V3) (theta : ℝ) :
    (∃ e, R dps lmax u theta = .error e) ↔ u = (0, 0, 0) ∨ (theta ≠ 0 ∧ cos theta = 1) ∨ (u.2.2 = 0 ∧ cos theta = -1) := by
  rw [R_unfold]
  have h0 : normSq u = 0 ↔ u = (0, 0, 0) := by
    obtain ⟨a, b, c⟩ := u
    unfold normSq
    simp only [Prod.mk.injEq]
    constructor
    · intro h
      have h1 : a ^ 2 = 0 := by nlinarith [sq_nonneg a, sq_nonneg b, sq_nonneg c]
      have h2 : b ^ 2 = 0 := by nlinarith [sq_nonneg a, sq_nonneg b, sq_nonneg c]
      have h3 : c ^ 2 = 0 := by nlinarith [sq_nonneg a, sq_nonneg b, sq_nonneg c]
      simp at h1 h2 h3
      exact ⟨h1, h2, h3⟩
    · rintro ⟨rfl, rfl, rfl⟩; simp
  by_cases hu : normSq u = 0
  · rw [if_pos hu]
    simp [h0.1 hu]
  · rw [if_neg hu]
    have hn := normSq_unitOf u (normSq_pos hu)
    have hz := unitOf_zero hu
    rw [show (u = (0, 0, 0)) = False by rw [eq_iff_iff, iff_false]; exact fun h => hu (h0.2 h), false_or, ← mpTheta_cos,
      ← mpTheta_cos_neg, ← hz.2.2]
    by_cases h1 : cos (mpTheta theta) = 1
    · rw [axisAngle_error (Or.inl h1)]; simp [h1, Except.bind]
    by_cases h2 : (unitOf u).2.2 = 0 ∧ cos (mpTheta theta) = -1
    · rw [axisAngle_error (Or.inr h2)]; simp [h2, Except.bind]
    simp only [h1, h2, or_self, iff_false, not_exists]
    intro e
    have hn' : (unitOf u).1 ^ 2 + (unitOf u).2.1 ^ 2 + (unitOf u).2.2 ^ 2 = 1 := hn
    by_cases hxy : (unitOf u).1 = 0 ∧ (unitOf u).2.1 = 0
    · rw [hxy.1, hxy.2] at hn' ⊢
      obtain ⟨α, γ, he, -⟩ := axisAngle_z (u3 := (unitOf u).2.2) (theta := theta) (by nlinarith) h1
      rw [he]; simp [Except.bind]
    · obtain ⟨α, β, γ, he, -⟩ := axisAngle_generic hn' hxy h1 h2
      rw [he]; simp [Except.bind]

/-- the block of degree zero -/
theorem fooMat_zero (α β γ : ℝ) : fooMat 0 α β γ 0 0 = 1 := by
  have h := fooMat_harmonic 0 α β γ 0 (by omega) (0, 0, 1) (by simp [OnSphere, normSq])
  have h0 : ∀ x y z : ℝ, realHarmonic 0 0 x y z = harmNorm 0 0 := by
    intro x y z
    simp [realHarmonic, rodrigues]
  simp only [mul_zero, zero_add, Finset.sum_range_one, Nat.cast_zero, sub_zero, h0] at h
  have := harmNorm_ne_zero 0 0
  field_simp at h
  linarith

/-- C80: the matrices returned by `R(lmax, u, theta)`: one for every degree up to `lmax`; they are the matrices, without the entries
smaller than `10 ** (-mp.dps)`, of a rotation that takes every point of the sphere to within `rotTol` of where the rotation by
`theta` about `u` takes it -/
theorem R_rotates (dps lmax : ℕ) (u : V3) (theta : ℝ) (B : List (ℕ → ℕ → ℝ)) (h : R dps lmax u theta = .ok B) :
    B.length = lmax + 1 ∧ ∃ g : V3 → V3, IsRotation g ∧
      (∀ p, OnSphere p → distSq (g p) (rotAxis (unitOf u) theta p) ≤ rotTol dps u theta ^ 2) ∧
      ∀ l ≤ lmax, ∃ E, IsRotMatrix l g E ∧ ∀ i ≤ 2 * l, ∀ j ≤ 2 * l,
        (B.getD l fun _ _ => 0) i j = if |E i j| < (10 : ℝ) ^ (-(dps : ℤ)) then 0 else E i j := by
  rw [R_unfold] at h
  split_ifs at h with hu
  have hn := normSq_unitOf u (normSq_pos hu)
  rcases he : axisAngleToEuler (unitOf u).1 (unitOf u).2.1 (unitOf u).2.2 theta with e | e
  · rw [he] at h; simp [Except.bind] at h
  · rw [he] at h
    simp only [Except.bind] at h
    injection h with h
    subst h
    refine ⟨by simp, fun p => rotZ e.1 (rotY (dmnBeta dps e.2.1) (rotZ e.2.2 p)), ⟨_, _, _, fun p => rfl⟩, ?_, ?_⟩
    · intro p hp
      have := axisAngle_spec dps hn he p hp
      have hz := unitOf_zero hu
      unfold rotTol at this ⊢
      simpa only [hz.1, hz.2.1] using this
    · intro l hl
      refine ⟨fooMat l e.1 (dmnBeta dps e.2.1) e.2.2, fun i hi p hp => fooMat_harmonic l _ _ _ i hi p hp, fun i hi j hj => ?_⟩
      rw [List.getD_eq_getElem?_getD, List.getElem?_map, List.getElem?_range (by omega)]
      simp only [Option.map_some, Option.getD_some]
      unfold rotMatrix
      by_cases hl0 : l = 0
      · subst hl0
        obtain rfl : i = 0 := by omega
        obtain rfl : j = 0 := by omega
        rw [fooMat_zero, abs_one, if_pos rfl, if_pos ⟨rfl, rfl⟩, if_neg]
        rw [not_lt, zpow_neg, zpow_natCast]
        exact inv_le_one_of_one_le₀ (one_le_pow₀ (by norm_num))
      · rw [if_neg hl0, dif_pos ⟨by omega, by omega⟩]
        rw [D_eq]
        simp only [fooMat, dif_pos (show i < 2 * l + 1 ∧ j < 2 * l + 1 from ⟨by omega, by omega⟩)]

/-- C80: for an axis other than the z axis and a nonzero angle the rotation is exact: the returned entries are those of the
matrices of the rotation by `theta` about `u`, or `0` where these are smaller than `10 ** (-mp.dps)` -/
theorem R_exact (dps lmax : ℕ) (u : V3) (theta : ℝ) (hu : ¬ (u.1 = 0 ∧ u.2.1 = 0)) (ht : theta ≠ 0) (B : List (ℕ → ℕ → ℝ))
    (h : R dps lmax u theta = .ok B) :
    ∀ l ≤ lmax, ∃ E, IsRotMatrix l (rotAxis (unitOf u) theta) E ∧ ∀ i ≤ 2 * l, ∀ j ≤ 2 * l,
      ((B.getD l fun _ _ => 0) i j = if |E i j| < (10 : ℝ) ^ (-(dps : ℤ)) then 0 else E i j) ∧
      |(B.getD l fun _ _ => 0) i j - E i j| < (10 : ℝ) ^ (-(dps : ℤ)) := by
  obtain ⟨-, g, -, hd, hB⟩ := R_rotates dps lmax u theta B h
  have hg : ∀ p, OnSphere p → g p = rotAxis (unitOf u) theta p := by
    intro p hp
    have := hd p hp
    rw [rotTol, if_neg hu, if_neg ht] at this
    unfold distSq at this
    norm_num at this
    have h1 : ((g p).1 - (rotAxis (unitOf u) theta p).1) ^ 2 = 0 := by
      nlinarith [sq_nonneg ((g p).1 - (rotAxis (unitOf u) theta p).1), sq_nonneg ((g p).2.1 - (rotAxis (unitOf u) theta p).2.1),
        sq_nonneg ((g p).2.2 - (rotAxis (unitOf u) theta p).2.2)]
    have h2 : ((g p).2.1 - (rotAxis (unitOf u) theta p).2.1) ^ 2 = 0 := by
      nlinarith [sq_nonneg ((g p).1 - (rotAxis (unitOf u) theta p).1), sq_nonneg ((g p).2.1 - (rotAxis (unitOf u) theta p).2.1),
        sq_nonneg ((g p).2.2 - (rotAxis (unitOf u) theta p).2.2)]
    have h3 : ((g p).2.2 - (rotAxis (unitOf u) theta p).2.2) ^ 2 = 0 := by
      nlinarith [sq_nonneg ((g p).1 - (rotAxis (unitOf u) theta p).1), sq_nonneg ((g p).2.1 - (rotAxis (unitOf u) theta p).2.1),
        sq_nonneg ((g p).2.2 - (rotAxis (unitOf u) theta p).2.2)]
    refine Prod.ext (by simpa [sub_eq_zero] using h1) (Prod.ext (by simpa [sub_eq_zero] using h2) (by simpa [sub_eq_zero] using h3))
  intro l hl
  obtain ⟨E, hE, hEB⟩ := hB l hl
  refine ⟨E, fun i hi p hp => by rw [← hg p hp]; exact hE i hi p hp, fun i hi j hj => ⟨hEB i hi j hj, ?_⟩⟩
  rw [hEB i hi j hj]
  split_ifs with hs
  · rwa [zero_sub, abs_neg]
  · rw [sub_self, abs_zero]; positivity

/-! ### `dot_rotation_matrix` -/

theorem dotR_mapVal_of (ydeg : ℕ) (E : ℕ → ℕ → ℕ → ℝ) (g : V3 → V3) (hE : ∀ l ≤ ydeg, IsRotMatrix l g (E l)) (M : List ℝ) (p : V3)
    (hp : OnSphere p) : mapVal ydeg (dotR ydeg E M) p = mapVal ydeg (unitMean M) (g p) := by
  rw [mapVal_unitMean]
  unfold mapVal
  rw [Finset.sum_range_succ' _ ydeg, Finset.sum_range_succ' _ ydeg]
  have h0 : ∀ q : V3, realHarmonic 0 0 q.1 q.2.1 q.2.2 = realHarmonic 0 0 0 0 0 := by
    intro q
    simp [realHarmonic, rodrigues]
  have h1 : ∑ q ∈ Finset.range (2 * 0 + 1), (dotR ydeg E M).getD (0 ^ 2 + q) 0 *
      realHarmonic 0 ((q : ℤ) - (0 : ℕ)) p.1 p.2.1 p.2.2 = realHarmonic 0 0 0 0 0 := by
    simp only [mul_zero, zero_add, Finset.sum_range_one]
    rw [show (0 : ℕ) ^ 2 + 0 = 0 from rfl, dotR_head]
    simp [h0 p]
  have h2 : ∑ q ∈ Finset.range (2 * 0 + 1), M.getD (0 ^ 2 + q) 0 * realHarmonic 0 ((q : ℤ) - (0 : ℕ)) (g p).1
      (g p).2.1 (g p).2.2 = M.getD 0 0 * realHarmonic 0 0 0 0 0 := by
    simp only [mul_zero, zero_add, Finset.sum_range_one]
    rw [show (0 : ℕ) ^ 2 + 0 = 0 from rfl]
    simp [h0 (g p)]
  rw [h1, h2, h0 (g p), Finset.sum_congr rfl fun l hl => ?_]
  · rw [add_assoc]
    congr 1
    ring
  have hl' : l + 1 ≤ ydeg := by have := Finset.mem_range.1 hl; omega
  have h3 : ∀ c ∈ Finset.range (2 * (l + 1) + 1), (dotR ydeg E M).getD ((l + 1) ^ 2 + c) 0 *
      realHarmonic (l + 1) ((c : ℤ) - (l + 1 : ℕ)) p.1 p.2.1 p.2.2 = ∑ r ∈ Finset.range (2 * (l + 1) + 1), M.getD ((l + 1) ^ 2 + r) 0 *
        (E (l + 1) r c * realHarmonic (l + 1) ((c : ℤ) - (l + 1 : ℕ)) p.1 p.2.1 p.2.2) := by
    intro c hc
    rw [dotR_getD ydeg _ M (l + 1) c (by omega) hl' (by have := Finset.mem_range.1 hc; omega), Finset.sum_mul]
    refine Finset.sum_congr rfl fun r _ => ?_
    ring
  rw [Finset.sum_congr rfl h3, Finset.sum_comm]
  refine Finset.sum_congr rfl fun r hr => ?_
  rw [← Finset.mul_sum]
  congr 1
  exact (hE (l + 1) hl' r (by have := Finset.mem_range.1 hr; omega) p hp).symm

theorem dotR_perturb (ydeg : ℕ) (B E : ℕ → ℕ → ℕ → ℝ) (ε : ℝ)
    (hBE : ∀ l ≤ ydeg, ∀ i ≤ 2 * l, ∀ j ≤ 2 * l, |B l i j - E l i j| ≤ ε) (M : List ℝ) (p : V3) :
    |mapVal ydeg (dotR ydeg B M) p - mapVal ydeg (dotR ydeg E M) p| ≤
      ε * ∑ l ∈ Finset.range (ydeg + 1), (∑ i ∈ Finset.range (2 * l + 1), |M.getD (l ^ 2 + i) 0|) *
        ∑ j ∈ Finset.range (2 * l + 1), |realHarmonic l ((j : ℤ) - l) p.1 p.2.1 p.2.2| := by
  unfold mapVal
  rw [← Finset.sum_sub_distrib, Finset.mul_sum]
  refine (Finset.abs_sum_le_sum_abs _ _).trans (Finset.sum_le_sum fun l hl => ?_)
  have hl' : l ≤ ydeg := by have := Finset.mem_range.1 hl; omega
  rw [← Finset.sum_sub_distrib]
  refine (Finset.abs_sum_le_sum_abs _ _).trans ?_
  rw [← mul_assoc, Finset.mul_sum]
  refine Finset.sum_le_sum fun j hj => ?_
  have hj' : j ≤ 2 * l := by have := Finset.mem_range.1 hj; omega
  rw [← sub_mul, abs_mul]
  refine mul_le_mul_of_nonneg_right ?_ (abs_nonneg _)
  have hε : 0 ≤ ε := (abs_nonneg _).trans (hBE l hl' j hj' j hj')
  by_cases h0 : l = 0
  · subst h0
    obtain rfl : j = 0 := by omega
    rw [show (0 : ℕ) ^ 2 + 0 = 0 from rfl, dotR_head, dotR_head, sub_self, abs_zero]
    exact mul_nonneg hε (Finset.sum_nonneg fun _ _ => abs_nonneg _)
  · rw [dotR_getD ydeg B M l j h0 hl' hj', dotR_getD ydeg E M l j h0 hl' hj', ← Finset.sum_sub_distrib, Finset.mul_sum]
    refine (Finset.abs_sum_le_sum_abs _ _).trans (Finset.sum_le_sum fun i hi => ?_)
    have hi' : i ≤ 2 * l := by have := Finset.mem_range.1 hi; omega
    rw [← mul_sub, abs_mul, mul_comm]
    exact mul_le_mul_of_nonneg_right (hBE l hl' i hi' j hj') (abs_nonneg _)

/-- C80: `dot_rotation_matrix(ydeg, u, theta)(M)`: with `theta = 0` the coefficients are returned as they are; otherwise the value
of the resulting map at any point is, up to an error of `10 ** (-mp.dps)` times the sizes of the coefficients and of the
harmonics, the value of the map (with the mean set to 1) at the rotated point -/
theorem dotRotationMatrixMp_rotates (dps ydeg : ℕ) (u : V3) (theta : ℝ) (M M' : List ℝ)
    (h : dotRotationMatrixMp dps ydeg u theta M = .ok M') :
    (theta = 0 → M' = M) ∧
    (theta ≠ 0 → M'.length = (ydeg + 1) ^ 2 ∧ ∃ g : V3 → V3, IsRotation g ∧
      (∀ p, OnSphere p → distSq (g p) (rotAxis (unitOf u) theta p) ≤ rotTol dps u theta ^ 2) ∧
      ∀ p, OnSphere p → |mapVal ydeg M' p - mapVal ydeg (unitMean M) (g p)| ≤
        (10 : ℝ) ^ (-(dps : ℤ)) * ∑ l ∈ Finset.range (ydeg + 1), (∑ i ∈ Finset.range (2 * l + 1), |M.getD (l ^ 2 + i) 0|) *
          ∑ j ∈ Finset.range (2 * l + 1), |realHarmonic l ((j : ℤ) - l) p.1 p.2.1 p.2.2|) := by
  unfold dotRotationMatrixMp at h
  rcases hR : R dps ydeg u theta with e | B
  · rw [hR] at h; simp [bind, Except.bind] at h
  · rw [hR] at h
    simp only [bind, Except.bind, pure, Except.pure] at h
    constructor
    · intro ht
      rw [if_pos ht] at h
      injection h with h
      exact h.symm
    · intro ht
      rw [if_neg ht] at h
      injection h with h
      subst h
      obtain ⟨-, g, hg, hd, hB⟩ := R_rotates dps ydeg u theta B hR
      refine ⟨dotR_length _ _ _, g, hg, hd, fun p hp => ?_⟩
      choose! E hE hEB using hB
      rw [← dotR_mapVal_of ydeg E g (fun l hl => hE l hl) M p hp]
      refine dotR_perturb ydeg _ E _ (fun l hl i hi j hj => ?_) M p
      rw [hEB l hl i hi j hj]
      split_ifs with hs
      · rw [zero_sub, abs_neg]; exact hs.le
      · rw [sub_self, abs_zero]; positivity

/-- C80: `dot_rotation_matrix` raises exactly when `R` does, even if it does not use the matrices -/
theorem dotRotationMatrixMp_error_iff (dps ydeg : ℕ) (u : V3) (theta : ℝ) (M : List ℝ) :
    (∃ e, dotRotationMatrixMp dps ydeg u theta M = .error e) ↔
      u = (0, 0, 0) ∨ (theta ≠ 0 ∧ cos theta = 1) ∨ (u.2.2 = 0 ∧ cos theta = -1) := by
  rw [← R_error_iff dps ydeg u theta]
  unfold dotRotationMatrixMp
  rcases R dps ydeg u theta with e | B
  · simp [bind, Except.bind]
  · simp only [bind, Except.bind, pure, Except.pure]
    split_ifs <;> simp

/-- F33 (finding): `left_project` raises for every `theta_z` other than zero -/
theorem leftProjectMp_theta_z (dps deg : ℕ) (inc obl theta theta_z : ℝ) (hz : theta_z ≠ 0) (x : List ℝ) :
    ∃ e, leftProjectMp dps deg inc obl theta theta_z x = .error e := by
  unfold leftProjectMp
  simp only [if_pos hz]
  have key : ∀ (α : Type) (a : Except PyErr α) (f : α → Except PyErr (List ℝ)), (∀ v, ∃ e, f v = .error e) → ∃ e, (a >>= f) = .error e := by
    intro α a f hf
    rcases a with e | v
    · exact ⟨e, rfl⟩
    · exact hf v
  by_cases h1 : theta = 0 <;> by_cases h2 : obl = 0 <;> simp only [h1, h2, ne_eq, not_true_eq_false, not_false_eq_true, if_true, if_false] <;>
    repeat first | exact ⟨_, rfl⟩ | refine key _ _ _ fun _ => ?_

/-- the identity view: nothing is changed -/
theorem leftProjectMp_identity (dps deg : ℕ) (x : List ℝ) : leftProjectMp dps deg (π / 2) 0 0 0 x = .ok x := by
  have h : ¬ ∃ e, dotRotationMatrixMp dps deg (-cos 0, -sin 0, 0) (0.5 * π - π / 2) x = .error e := by
    rw [dotRotationMatrixMp_error_iff, show (0.5 : ℝ) * π - π / 2 = 0 by ring]
    norm_num
  rcases h2 : dotRotationMatrixMp dps deg (-cos 0, -sin 0, 0) (0.5 * π - π / 2) x with e | v
  · exact absurd ⟨e, h2⟩ h
  · have := (dotRotationMatrixMp_rotates _ _ _ _ _ _ h2).1 (by ring)
    subst this
    unfold leftProjectMp
    simp only [ne_eq, not_true_eq_false, if_false, pure, Except.pure, bind, Except.bind, h2]

/-! ### convergence -/

open Filter (Tendsto atTop)
open scoped Topology

/-- the Euler angles do not depend on the working precision -/
theorem R_angles {u : V3} {theta : ℝ} (h : ¬ (u = (0, 0, 0) ∨ (theta ≠ 0 ∧ cos theta = 1) ∨ (u.2.2 = 0 ∧ cos theta = -1))) :
    ∃ α β γ : ℝ, (∀ p, rotZ α (rotY β (rotZ γ p)) = rotAxis (unitOf u) (mpTheta theta) p) ∧
      ∀ dps lmax : ℕ, R dps lmax u theta = .ok ((List.range (lmax + 1)).map fun l => rotMatrix dps l α β γ) := by
  have hR : ∀ dps lmax : ℕ, ¬ ∃ e, R dps lmax u theta = .error e := fun dps lmax => by rwa [R_error_iff]
  have hu : normSq u ≠ 0 := by
    intro h0
    exact hR 0 0 ⟨.valueError "ZeroDivisionError", by rw [R_unfold, if_pos h0]⟩
  have hn := normSq_unitOf u (normSq_pos hu)
  have hn' : (unitOf u).1 ^ 2 + (unitOf u).2.1 ^ 2 + (unitOf u).2.2 ^ 2 = 1 := hn
  have h1 : cos (mpTheta theta) ≠ 1 := by rw [ne_eq, mpTheta_cos]; tauto
  have h2 : ¬ ((unitOf u).2.2 = 0 ∧ cos (mpTheta theta) = -1) := by rw [mpTheta_cos_neg, (unitOf_zero hu).2.2]; tauto
  by_cases hxy : (unitOf u).1 = 0 ∧ (unitOf u).2.1 = 0
  · obtain ⟨α, γ, he, hr⟩ := axisAngle_z (u3 := (unitOf u).2.2) (theta := theta) (by rw [hxy.1, hxy.2] at hn'; nlinarith) h1
    rw [← hxy.1] at he
    have e0 : ((unitOf u).1, (unitOf u).1, (unitOf u).2.2) = unitOf u := by
      rw [show (unitOf u).1 = 0 from hxy.1]; exact Prod.ext hxy.1.symm (Prod.ext hxy.2.symm rfl)
    refine ⟨α, 0, γ, fun p => ?_, fun dps lmax => ?_⟩
    · rw [rotY_zero, hr, ← e0, hxy.1]
    · rw [R_unfold, if_neg hu]
      rw [hxy.1] at he ⊢
      rw [hxy.2, he]
      rfl
  · obtain ⟨α, β, γ, he, -, -, hr⟩ := axisAngle_generic hn' hxy h1 h2
    refine ⟨α, β, γ, hr, fun dps lmax => ?_⟩
    rw [R_unfold, if_neg hu, he]
    rfl

theorem ten_pow_tendsto : Tendsto (fun dps : ℕ => (10 : ℝ) ^ (-(dps : ℤ))) atTop (𝓝 0) := by
  simp only [zpow_neg, zpow_natCast]
  have : Tendsto (fun dps : ℕ => ((10 : ℝ)⁻¹) ^ dps) atTop (𝓝 0) := tendsto_pow_atTop_nhds_zero_of_lt_one (by norm_num) (by norm_num)
  simpa only [inv_pow] using this

theorem dmnBeta_tendsto (β : ℝ) : Tendsto (fun dps : ℕ => dmnBeta dps β) atTop (𝓝 β) := by
  unfold dmnBeta
  split_ifs with h
  · rw [h]; exact ten_pow_tendsto
  · exact tendsto_const_nhds

theorem rotMatrix_tendsto (l : ℕ) (hl : l ≠ 0) (α β γ : ℝ) (i j : ℕ) :
    Tendsto (fun dps : ℕ => rotMatrix dps l α β γ i j) atTop (𝓝 (fooMat l α β γ i j)) := by
  have h1 : Tendsto (fun dps : ℕ => fooMat l α (dmnBeta dps β) γ i j) atTop (𝓝 (fooMat l α β γ i j)) :=
    ((fooMat_continuous l α γ i j).tendsto β).comp (dmnBeta_tendsto β)
  have h2 : ∀ dps : ℕ, |rotMatrix dps l α β γ i j - fooMat l α (dmnBeta dps β) γ i j| ≤ (10 : ℝ) ^ (-(dps : ℤ)) := by
    intro dps
    unfold rotMatrix fooMat
    rw [if_neg hl, D_eq]
    by_cases h : i < 2 * l + 1 ∧ j < 2 * l + 1
    · simp only [dif_pos h]
      split_ifs with hs
      · rw [zero_sub, abs_neg]; exact hs.le
      · rw [sub_self, abs_zero]; positivity
    · simp only [dif_neg h, sub_self, abs_zero]; positivity
  have h3 : Tendsto (fun dps : ℕ => rotMatrix dps l α β γ i j - fooMat l α (dmnBeta dps β) γ i j) atTop (𝓝 0) :=
    squeeze_zero_norm (fun dps => by rw [Real.norm_eq_abs]; exact h2 dps) ten_pow_tendsto
  simpa using h3.add h1

/-- the coefficients of degree up to `ydeg` converge -/
def CoefTendsto (ydeg : ℕ) (f : ℕ → List ℝ) (M : List ℝ) : Prop :=
  ∀ l ≤ ydeg, ∀ c ≤ 2 * l, Tendsto (fun dps => (f dps).getD (l ^ 2 + c) 0) atTop (𝓝 (M.getD (l ^ 2 + c) 0))

theorem CoefTendsto.mapVal {ydeg : ℕ} {f : ℕ → List ℝ} {M : List ℝ} (h : CoefTendsto ydeg f M) (p : V3) :
    Tendsto (fun dps => mapVal ydeg (f dps) p) atTop (𝓝 (mapVal ydeg M p)) := by
  unfold Spec.mapVal
  refine tendsto_finsetSum _ fun l hl => tendsto_finsetSum _ fun c hc => ?_
  exact (h l (by have := Finset.mem_range.1 hl; omega) c (by have := Finset.mem_range.1 hc; omega)).mul_const _

/-- one rotation of `left_project` -/
theorem dotMp_tendsto (ydeg : ℕ) (u : V3) (theta : ℝ)
    (h : ¬ (u = (0, 0, 0) ∨ (theta ≠ 0 ∧ cos theta = 1) ∨ (u.2.2 = 0 ∧ cos theta = -1)))
    (f : ℕ → List ℝ) (M : List ℝ) (hf : CoefTendsto ydeg f M) (hM : M.getD 0 0 = 1) :
    ∃ (f' : ℕ → List ℝ) (M' : List ℝ), (∀ dps, dotRotationMatrixMp dps ydeg u theta (f dps) = .ok (f' dps)) ∧ CoefTendsto ydeg f' M' ∧
      M'.getD 0 0 = 1 ∧ ∀ p, OnSphere p → mapVal ydeg M' p = mapVal ydeg M (rotAxis (unitOf u) theta p) := by
  obtain ⟨α, β, γ, hr, hR⟩ := R_angles h
  by_cases ht : theta = 0
  · refine ⟨f, M, fun dps => ?_, hf, hM, fun p hp => by rw [ht, rotAxis_zero]⟩
    unfold dotRotationMatrixMp
    rw [hR]
    simp only [bind, Except.bind, pure, Except.pure, if_pos ht]
  · refine ⟨fun dps => dotR ydeg (fun l => ((List.range (ydeg + 1)).map fun l => rotMatrix dps l α β γ).getD l (fun _ _ => 0)) (f dps),
      dotR ydeg (fun l => fooMat l α β γ) M, fun dps => ?_, ?_, dotR_head _ _ _, fun p hp => ?_⟩
    · unfold dotRotationMatrixMp
      rw [hR]
      simp only [bind, Except.bind, pure, Except.pure, if_neg ht]
    · intro l hl c hc
      by_cases h0 : l = 0
      · subst h0
        obtain rfl : c = 0 := by omega
        simp only [show (0 : ℕ) ^ 2 + 0 = 0 from rfl, dotR_head]
        exact tendsto_const_nhds
      · simp only [dotR_getD ydeg _ _ l c h0 hl hc]
        refine tendsto_finsetSum _ fun r hr => (hf l hl r (by have := Finset.mem_range.1 hr; omega)).mul ?_
        have e : ∀ dps : ℕ, ((List.range (ydeg + 1)).map fun l => rotMatrix dps l α β γ).getD l (fun _ _ => 0) = rotMatrix dps l α β γ := by
          intro dps
          rw [List.getD_eq_getElem?_getD, List.getElem?_map, List.getElem?_range (by omega)]
          rfl
        simp only [e]
        exact rotMatrix_tendsto l h0 α β γ r c
    · rw [dotR_mapVal_of ydeg (fun l => fooMat l α β γ) (fun p => rotZ α (rotY β (rotZ γ p)))
        (fun l _ i hi p hp => fooMat_harmonic l α β γ i hi p hp) M p hp, unitMean_one hM, hr, mpTheta, if_neg ht]

theorem leftProject_cases {theta theta' : ℝ} (h : theta ≠ 0 → cos theta ≠ 1) (he : theta' = -theta) :
    ¬ (((0, 0, 1) : V3) = (0, 0, 0) ∨ (theta' ≠ 0 ∧ cos theta' = 1) ∨ ((((0, 0, 1) : V3)).2.2 = 0 ∧ cos theta' = -1)) := by
  rw [he, cos_neg, ne_eq, neg_eq_zero]
  simp only [Prod.mk.injEq, one_ne_zero, and_false, false_and, or_false, false_or]
  tauto

theorem leftProjectMp_unfold (dps deg : ℕ) (inc obl theta : ℝ) (x : List ℝ) : leftProjectMp dps deg inc obl theta 0 x =
    ((if theta ≠ 0 then (do
        let x ← dotRotationMatrixMp dps deg (1, 0, 0) (-0.5 * π) x
        let x ← dotRotationMatrixMp dps deg (0, 0, 1) (-theta) x
        dotRotationMatrixMp dps deg (1, 0, 0) (0.5 * π) x) else pure x : Except PyErr (List ℝ)) >>= fun x =>
      (if obl ≠ 0 then dotRotationMatrixMp dps deg (0, 0, 1) (-obl) x else pure x : Except PyErr (List ℝ)) >>= fun x =>
        dotRotationMatrixMp dps deg (-cos obl, -sin obl, 0) (0.5 * π - inc) x) := by
  unfold leftProjectMp
  by_cases h1 : theta = 0 <;> by_cases h2 : obl = 0 <;>
    simp [h1, h2]

/-- C80: `left_project` with `theta_z = 0`, as the working precision grows: for every map of mean 1 the returned coefficients converge to
those of the map seen by the observer. Excluded are the angles for which a rotation matrix cannot be computed (F32): full turns, and
`inc = -π/2`. -/
theorem leftProjectMp_converges (deg : ℕ) (inc obl theta : ℝ) (x : List ℝ) (hx : x.getD 0 0 = 1)
    (h1 : theta ≠ 0 → cos theta ≠ 1) (h2 : obl ≠ 0 → cos obl ≠ 1) (h3 : inc ≠ π / 2 → sin inc ≠ 1) (h4 : sin inc ≠ -1) :
    ∃ f : ℕ → List ℝ, (∀ dps, leftProjectMp dps deg inc obl theta 0 x = .ok (f dps)) ∧
      ∀ p, OnSphere p → Tendsto (fun dps => mapVal deg (f dps) p) atTop (𝓝 (mapVal deg x (observerView inc obl theta p))) := by
  have nx : unitOf (1, 0, 0) = (1, 0, 0) := unitOf_unit _ (by norm_num [normSq])
  have nz : unitOf (0, 0, 1) = (0, 0, 1) := unitOf_unit _ (by norm_num [normSq])
  have hsq := sin_sq_add_cos_sq obl
  have nt0 : normSq ((-cos obl, -sin obl, 0) : V3) = 1 := by unfold normSq; simp only; linarith
  have nt : unitOf (-cos obl, -sin obl, 0) = (-cos obl, -sin obl, 0) := unitOf_unit _ nt0
  have ex : ∀ t : ℝ, t = -0.5 * π ∨ t = 0.5 * π →
      ¬ (((1, 0, 0) : V3) = (0, 0, 0) ∨ (t ≠ 0 ∧ cos t = 1) ∨ ((((1, 0, 0) : V3)).2.2 = 0 ∧ cos t = -1)) := by
    intro t ht
    have hc : cos t = 0 := by
      rcases ht with rfl | rfl
      · rw [show -0.5 * π = -(π / 2) by ring, cos_neg, cos_pi_div_two]
      · rw [show 0.5 * π = π / 2 by ring, cos_pi_div_two]
    rw [hc]
    norm_num
  -- the rotation about the axis of the star
  have step1 : ∃ (f : ℕ → List ℝ) (M : List ℝ),
      (∀ dps, (if theta ≠ 0 then (do
        let x ← dotRotationMatrixMp dps deg (1, 0, 0) (-0.5 * π) x
        let x ← dotRotationMatrixMp dps deg (0, 0, 1) (-theta) x
        dotRotationMatrixMp dps deg (1, 0, 0) (0.5 * π) x) else pure x : Except PyErr (List ℝ)) = .ok (f dps)) ∧
      CoefTendsto deg f M ∧ M.getD 0 0 = 1 ∧
      ∀ p, OnSphere p → mapVal deg M p = mapVal deg x (rotX (-(π / 2)) (rotZ (-theta) (rotX (0.5 * π) p))) := by
    by_cases ht : theta = 0
    · refine ⟨fun _ => x, x, fun dps => by simp [ht, pure, Except.pure], fun l _ c _ => tendsto_const_nhds, hx, fun p _ => ?_⟩
      rw [ht, neg_zero, rotZ_zero]
      congr 1
      rw [show 0.5 * π = π / 2 by ring]
      simp [rotX]
    · obtain ⟨f1, M1, a1, b1, c1, d1⟩ := dotMp_tendsto deg (1, 0, 0) (-0.5 * π) (ex _ (Or.inl rfl)) (fun _ => x) x
        (fun l _ c _ => tendsto_const_nhds) hx
      obtain ⟨f2, M2, a2, b2, c2, d2⟩ := dotMp_tendsto deg (0, 0, 1) (-theta) (leftProject_cases h1 rfl) f1 M1 b1 c1
      obtain ⟨f3, M3, a3, b3, c3, d3⟩ := dotMp_tendsto deg (1, 0, 0) (0.5 * π) (ex _ (Or.inr rfl)) f2 M2 b2 c2
      refine ⟨f3, M3, fun dps => ?_, b3, c3, fun p hp => ?_⟩
      · rw [if_pos ht]
        simp only [bind, Except.bind, a1, a2, a3]
      · rw [nx] at d1 d3
        rw [nz] at d2
        have s1 : OnSphere (rotAxis (1, 0, 0) (0.5 * π) p) := by rw [rotAxis_x]; exact rotX_sphere _ hp
        have s2 : OnSphere (rotAxis (0, 0, 1) (-theta) (rotAxis (1, 0, 0) (0.5 * π) p)) := by rw [rotAxis_z]; exact rotZ_sphere _ s1
        rw [d3 p hp, d2 _ s1, d1 _ s2, rotAxis_x, rotAxis_x, rotAxis_z, show -0.5 * π = -(π / 2) by ring]
  obtain ⟨f1, M1, a1, b1, c1, d1⟩ := step1
  have step2 : ∃ (f : ℕ → List ℝ) (M : List ℝ),
      (∀ dps, (if obl ≠ 0 then dotRotationMatrixMp dps deg (0, 0, 1) (-obl) (f1 dps) else pure (f1 dps) : Except PyErr (List ℝ)) = .ok (f dps)) ∧
      CoefTendsto deg f M ∧ M.getD 0 0 = 1 ∧ ∀ p, OnSphere p → mapVal deg M p = mapVal deg M1 (rotZ (-obl) p) := by
    by_cases ht : obl = 0
    · exact ⟨f1, M1, fun dps => by simp [ht, pure, Except.pure], b1, c1, fun p _ => by rw [ht, neg_zero, rotZ_zero]⟩
    · obtain ⟨f2, M2, a2, b2, c2, d2⟩ := dotMp_tendsto deg (0, 0, 1) (-obl) (leftProject_cases h2 rfl) f1 M1 b1 c1
      exact ⟨f2, M2, fun dps => by rw [if_pos ht, a2], b2, c2, fun p hp => by rw [d2 p hp, nz, rotAxis_z]⟩
  obtain ⟨f2, M2, a2, b2, c2, d2⟩ := step2
  obtain ⟨f3, M3, a3, b3, -, d3⟩ := dotMp_tendsto deg (-cos obl, -sin obl, 0) (0.5 * π - inc) (by
    rw [show (0.5 : ℝ) * π - inc = π / 2 - inc by ring, cos_pi_div_two_sub]
    simp only [Prod.mk.injEq, neg_eq_zero, true_and, not_or, not_and]
    refine ⟨fun hc hs => ?_, fun hne => h3 fun h => hne (by rw [h]; ring), h4⟩
    rw [hc, hs] at hsq
    norm_num at hsq) f2 M2 b2 c2
  refine ⟨f3, fun dps => ?_, fun p hp => ?_⟩
  · have e := a1 dps
    have e2 := a2 dps
    have e3 := a3 dps
    rw [leftProjectMp_unfold, e]
    change (if obl ≠ 0 then dotRotationMatrixMp dps deg (0, 0, 1) (-obl) (f1 dps) else pure (f1 dps) : Except PyErr (List ℝ)) >>= _ = _
    rw [e2]
    exact e3
  · have s1 : OnSphere (rotAxis (-cos obl, -sin obl, 0) (0.5 * π - inc) p) := rotAxis_sphere _ nt0 _ hp
    have s2 := rotZ_sphere (-obl) s1
    have h := b3.mapVal p
    rw [d3 p hp, nt, d2 _ s1, d1 _ s2, rotAxis_tilt] at h
    exact h

/-- non-vacuity: a quarter turn about the x axis and a rotation about the z axis are not errors, so the theorems apply -/
example : (∃ B, R 30 5 (1, 0, 0) (π / 2) = .ok B) ∧ (∃ B, R 30 5 (0, 0, 1) 0.3 = .ok B) ∧ (∃ B, R 30 5 (0, 0, 2) 0 = .ok B) := by
  have key : ∀ (u : V3) (t : ℝ), ¬ (u = (0, 0, 0) ∨ (t ≠ 0 ∧ cos t = 1) ∨ (u.2.2 = 0 ∧ cos t = -1)) → ∃ B, R 30 5 u t = .ok B := by
    intro u t h
    rw [← R_error_iff 30 5] at h
    rcases hR : R 30 5 u t with e | B
    · exact absurd ⟨e, hR⟩ h
    · exact ⟨B, rfl⟩
  refine ⟨key _ _ (by norm_num), key _ _ ?_, key _ _ (by norm_num)⟩
  have : cos (0.3 : ℝ) < cos 0 := cos_lt_cos_of_nonneg_of_le_pi le_rfl (by linarith [pi_gt_three]) (by norm_num)
  rw [cos_zero] at this
  norm_num at this ⊢
  exact this.ne

/-- F32: in exact arithmetic a half turn about the x axis raises -/
example : ∃ e, R 30 5 (1, 0, 0) π = .error e := (R_error_iff 30 5 _ _).2 (by simp)

end Jaxoplanet.Starry.Mp
