import Verif.Proofs.HarmonicRot
import Verif.Props.SkyProjection

/-!
# C63: rotating the coefficients rotates the map

`dot_rotation_matrix`, `left_project` and `right_project` act on the coefficient vector of a map. The theorems
compare the values of the maps (`mapVal`, the expansion in real spherical harmonics) at the points of the sphere.
-/

namespace Jaxoplanet.Starry

open Spec Real

/-- rows of the rotation matrices of `compute_rotation_matrices`: the harmonics at the rotated point are
combinations of the harmonics at the point -/
theorem rotMatrices_harmonic (deg i : ℕ) (hi : i ≤ deg) (α β γ : ℝ) (r : ℕ) (hr : r ≤ 2 * i) (p : V3) (hp : OnSphere p) :
    (fun q : V3 => realHarmonic i ((r : ℤ) - i) q.1 q.2.1 q.2.2) (rotZ γ (rotY β (rotZ α p))) =
      ∑ c ∈ Finset.range (2 * i + 1), rotMatrices deg α β γ i r c * realHarmonic i ((c : ℤ) - i) p.1 p.2.1 p.2.2 := by
  have hz := rotZ_sphere α hp
  have hd := rotateDls_symPow β deg i hi
  -- values of the complex harmonics at the rotated point
  have hT : ∀ a ≤ 2 * i, (kap i : ℂ) * hC i ((a : ℤ) - i) (rotZ γ (rotY β (rotZ α p))) =
      ∑ b ∈ Finset.range (2 * i + 1),
        Complex.exp (-1 * Complex.I * (((((deg - i + b : ℕ) : ℝ) - deg) * α + (((deg - i + a : ℕ) : ℝ) - deg) * γ : ℝ) : ℂ)) *
          (rotateDls (deg + 1) β i (deg - i + a) (deg - i + b) : ℂ) * ((kap i : ℂ) * hC i ((b : ℤ) - i) p) := by
    intro a ha
    rw [hC_rotZ, hC_rotY i β _ hd _ hz a ha, Finset.mul_sum, Finset.mul_sum]
    refine Finset.sum_congr rfl fun b _ => ?_
    have e : ∀ t : ℕ, ((deg - i + t : ℕ) : ℝ) - deg = (((t : ℤ) - i : ℤ) : ℝ) := by
      intro t; rw [Nat.cast_add, Nat.cast_sub hi]; push_cast; ring
    rw [hC_rotZ, e, e]
    have : Complex.exp (-1 * Complex.I * ((((((b : ℤ) - i : ℤ) : ℝ)) * α + (((a : ℤ) - i : ℤ) : ℝ) * γ : ℝ) : ℂ)) =
        Complex.exp (-1 * Complex.I * (((((a : ℤ) - i : ℤ) : ℝ) * γ : ℝ) : ℂ)) *
        Complex.exp (-1 * Complex.I * (((((b : ℤ) - i : ℤ) : ℝ) * α : ℝ) : ℂ)) := by
      rw [← Complex.exp_add]
      congr 1
      push_cast
      ring
    rw [this]
    ring
  have key : (((fun q : V3 => realHarmonic i ((r : ℤ) - i) q.1 q.2.1 q.2.2) (rotZ γ (rotY β (rotZ α p))) : ℝ) : ℂ) =
      ∑ c ∈ Finset.range (2 * i + 1), (∑ b ∈ Finset.range (2 * deg + 1), (∑ a ∈ Finset.range (2 * deg + 1),
        (starRingEnd ℂ) (Uc deg a (r + (deg - i))) * (Complex.exp (-1 * Complex.I * ((((b : ℝ) - deg) * α + ((a : ℝ) - deg) * γ : ℝ) : ℂ)) *
          (rotateDls (deg + 1) β i a b : ℂ))) * Uc deg b (c + (deg - i))) * (realHarmonic i ((c : ℤ) - i) p.1 p.2.1 p.2.2 : ℂ) := by
    have cr : ∀ r : ℕ, (((r + (deg - i) : ℕ) : ℤ) - deg) = (r : ℤ) - i := by intro r; omega
    have cl : ∀ r : ℕ, (((deg - i + r : ℕ) : ℤ) - deg) = (r : ℤ) - i := by intro r; omega
    -- exchange the sums
    have hsw : ∀ c : ℕ, (∑ b ∈ Finset.range (2 * deg + 1), (∑ a ∈ Finset.range (2 * deg + 1),
        (starRingEnd ℂ) (Uc deg a (r + (deg - i))) * (Complex.exp (-1 * Complex.I * ((((b : ℝ) - deg) * α + ((a : ℝ) - deg) * γ : ℝ) : ℂ)) *
          (rotateDls (deg + 1) β i a b : ℂ))) * Uc deg b (c + (deg - i))) * (realHarmonic i ((c : ℤ) - i) p.1 p.2.1 p.2.2 : ℂ) =
        ∑ a ∈ Finset.range (2 * deg + 1), ∑ b ∈ Finset.range (2 * deg + 1), (starRingEnd ℂ) (Uc deg a (r + (deg - i))) *
          (Complex.exp (-1 * Complex.I * ((((b : ℝ) - deg) * α + ((a : ℝ) - deg) * γ : ℝ) : ℂ)) * (rotateDls (deg + 1) β i a b : ℂ)) *
          (Uc deg b (c + (deg - i)) * (realHarmonic i ((c : ℤ) - i) p.1 p.2.1 p.2.2 : ℂ)) := by
      intro c
      rw [Finset.sum_mul, Finset.sum_comm]
      refine Finset.sum_congr rfl fun b _ => ?_
      rw [Finset.sum_mul, Finset.sum_mul]
      refine Finset.sum_congr rfl fun a _ => ?_
      ring
    rw [Finset.sum_congr rfl fun c _ => hsw c, Finset.sum_comm]
    have hab : ∀ a : ℕ, ∑ c ∈ Finset.range (2 * i + 1), ∑ b ∈ Finset.range (2 * deg + 1), (starRingEnd ℂ) (Uc deg a (r + (deg - i))) *
          (Complex.exp (-1 * Complex.I * ((((b : ℝ) - deg) * α + ((a : ℝ) - deg) * γ : ℝ) : ℂ)) * (rotateDls (deg + 1) β i a b : ℂ)) *
          (Uc deg b (c + (deg - i)) * (realHarmonic i ((c : ℤ) - i) p.1 p.2.1 p.2.2 : ℂ)) =
        (starRingEnd ℂ) (Uc deg a (r + (deg - i))) * ∑ b ∈ Finset.range (2 * deg + 1),
          Complex.exp (-1 * Complex.I * ((((b : ℝ) - deg) * α + ((a : ℝ) - deg) * γ : ℝ) : ℂ)) * (rotateDls (deg + 1) β i a b : ℂ) *
          ∑ c ∈ Finset.range (2 * i + 1), Uc deg b (c + (deg - i)) * (realHarmonic i ((c : ℤ) - i) p.1 p.2.1 p.2.2 : ℂ) := by
      intro a
      rw [Finset.sum_comm, Finset.mul_sum]
      refine Finset.sum_congr rfl fun b _ => ?_
      rw [Finset.mul_sum, Finset.mul_sum]
      refine Finset.sum_congr rfl fun c _ => ?_
      ring
    rw [Finset.sum_congr rfl fun a _ => hab a, sum_block deg i hi]
    · rw [← U_adjoint i ((r : ℤ) - i) (by omega)]
      refine Finset.sum_congr rfl fun a ha => ?_
      have ha' : a ≤ 2 * i := by have := Finset.mem_range.1 ha; omega
      rw [hT a ha']
      congr 1
      · unfold Uc
        rw [cr, cl]
      · rw [sum_block deg i hi]
        · refine Finset.sum_congr rfl fun b hb => ?_
          have hb' : b ≤ 2 * i := by have := Finset.mem_range.1 hb; omega
          congr 1
          rw [← U_forward i ((b : ℤ) - i) (by omega)]
          refine Finset.sum_congr rfl fun c _ => ?_
          unfold Uc
          rw [cr, cl]
        · intro b hb
          rw [Finset.sum_eq_zero, mul_zero]
          intro c hc
          have hc := Finset.mem_range.1 hc
          unfold Uc
          rw [Umn_zero _ _ (by omega) (by omega), zero_mul]
    · intro a ha
      unfold Uc
      rw [Umn_zero _ _ (by omega) (by omega), map_zero, zero_mul]
  have := congrArg Complex.re key
  rw [Complex.ofReal_re] at this
  rw [this, Complex.re_sum]
  refine Finset.sum_congr rfl fun c _ => ?_
  rw [Complex.re_mul_ofReal]
  rfl

theorem applyBlocks_length (ydeg : ℕ) (R : ℕ → ℕ → ℕ → ℝ) (M : List ℝ) :
    (applyBlocks ydeg R M).length = (ydeg + 1) ^ 2 :=
  (blocks_getD ydeg (fun ell : ℕ => (List.range (2 * ell + 1)).map fun c : ℕ =>
    ∑ r ∈ Finset.range (2 * ell + 1), M.getD (ell * ell + r) 0 * R ell r c) (fun l => by simp) 0 0 0 (by omega) (by omega)).2

theorem applyBlocks_getD (ydeg : ℕ) (R : ℕ → ℕ → ℕ → ℝ) (M : List ℝ) (l c : ℕ) (hl : l ≤ ydeg) (hc : c ≤ 2 * l) :
    (applyBlocks ydeg R M).getD (l ^ 2 + c) 0 = ∑ r ∈ Finset.range (2 * l + 1), M.getD (l ^ 2 + r) 0 * R l r c := by
  unfold applyBlocks
  rw [(blocks_getD ydeg (fun ell : ℕ => (List.range (2 * ell + 1)).map fun c : ℕ =>
    ∑ r ∈ Finset.range (2 * ell + 1), M.getD (ell * ell + r) 0 * R ell r c) (fun l => by simp) 0 l c hl hc).1]
  simp [sq, List.getD_eq_getElem?_getD, show c < 2 * l + 1 by omega]

/-- applying the matrices to the coefficients evaluates the map at the rotated point -/
theorem applyBlocks_mapVal (ydeg : ℕ) (α β γ : ℝ) (M : List ℝ) (p : V3) (hp : OnSphere p) :
    mapVal ydeg (applyBlocks ydeg (rotMatrices ydeg α β γ) M) p = mapVal ydeg M (rotZ γ (rotY β (rotZ α p))) := by
  unfold mapVal
  refine Finset.sum_congr rfl fun l hl => ?_
  have hl' : l ≤ ydeg := by have := Finset.mem_range.1 hl; omega
  have h1 : ∀ c ∈ Finset.range (2 * l + 1), (applyBlocks ydeg (rotMatrices ydeg α β γ) M).getD (l ^ 2 + c) 0 *
      realHarmonic l ((c : ℤ) - l) p.1 p.2.1 p.2.2 = ∑ r ∈ Finset.range (2 * l + 1), M.getD (l ^ 2 + r) 0 *
        (rotMatrices ydeg α β γ l r c * realHarmonic l ((c : ℤ) - l) p.1 p.2.1 p.2.2) := by
    intro c hc
    rw [applyBlocks_getD ydeg _ M l c hl' (by have := Finset.mem_range.1 hc; omega), Finset.sum_mul]
    refine Finset.sum_congr rfl fun r _ => ?_
    ring
  rw [Finset.sum_congr rfl h1, Finset.sum_comm]
  refine Finset.sum_congr rfl fun r hr => ?_
  rw [← Finset.mul_sum]
  congr 1
  exact (rotMatrices_harmonic ydeg l hl' α β γ r (by have := Finset.mem_range.1 hr; omega) p hp).symm

/-- the direction of a vector -/
noncomputable def unitOf (n : V3) : V3 := (n.1 / √(normSq n), n.2.1 / √(normSq n), n.2.2 / √(normSq n))

theorem normSq_unitOf (n : V3) (h : 0 < normSq n) : normSq (unitOf n) = 1 := by
  have h1 : √(normSq n) ^ 2 = normSq n := sq_sqrt h.le
  have h2 : √(normSq n) ≠ 0 := (Real.sqrt_pos.2 h).ne'
  unfold unitOf
  rw [show normSq (n.1 / √(normSq n), n.2.1 / √(normSq n), n.2.2 / √(normSq n)) = normSq n / √(normSq n) ^ 2 by
    conv_lhs => unfold normSq
    simp only [div_pow]
    conv_rhs => rw [show normSq n = n.1 ^ 2 + n.2.1 ^ 2 + n.2.2 ^ 2 from rfl]
    rw [add_div, add_div], h1, div_self h.ne']

/-- C63: `dot_rotation_matrix(ydeg, x, y, z, theta)` with `x` or `y` given returns the coefficients of the map
whose value at `p` is that of the given map at `p` rotated by `theta` about the axis `(x, y, z)` (missing
components are zero, the length of the axis does not matter) -/
theorem dotRotationMatrix_rotates {asEuler : V3 → V3} (hE : IsEulerZYZ asEuler) (ydeg : ℕ) (x y z : Option ℝ) (θ : ℝ)
    (M : List ℝ) (hxy : x ≠ none ∨ y ≠ none) (hn : 0 < normSq (x.getD 0, y.getD 0, z.getD 0)) :
    ∃ M', dotRotationMatrix asEuler ydeg x y z (some θ) M = .ok M' ∧ M'.length = (ydeg + 1) ^ 2 ∧
      ∀ p, OnSphere p → mapVal ydeg M' p = mapVal ydeg M (rotAxis (unitOf (x.getD 0, y.getD 0, z.getD 0)) θ p) := by
  have hx : ¬ (x = none ∧ y = none) := by tauto
  refine ⟨_, if_neg hx, applyBlocks_length _ _ _, fun p hp => ?_⟩
  rw [applyBlocks_mapVal ydeg _ _ _ M p hp]
  congr 1
  by_cases h0 : θ = 0
  · subst h0
    simp [euler, rotZ_zero, rotY_zero, rotAxis_zero]
  · have := hE (unitOf (x.getD 0, y.getD 0, z.getD 0)) θ (normSq_unitOf _ hn) p
    rw [← this]
    simp only [euler, h0, if_false]
    rfl

/-- C63: about the z axis -/
theorem dotRotationMatrix_z (asEuler : V3 → V3) (ydeg : ℕ) (z θ : ℝ) (M : List ℝ) :
    dotRotationMatrix asEuler ydeg none none (some z) (some θ) M = .ok (dotRz ydeg θ M) ∧
      ∀ p, mapVal ydeg (dotRz ydeg θ M) p = mapVal ydeg M (rotZ θ p) :=
  ⟨rfl, fun p => dotRz_mapVal ydeg θ M p⟩

/-- C63: no angle, no change; no axis, an error -/
theorem dotRotationMatrix_none (asEuler : V3 → V3) (ydeg : ℕ) (x y z : Option ℝ) (θ : ℝ) (M : List ℝ) :
    dotRotationMatrix asEuler ydeg x y z none M = .ok M ∧
    dotRotationMatrix asEuler ydeg none none none (some θ) M = .error (.valueError "Either x, y, or z must be specified") :=
  ⟨rfl, rfl⟩

/-- the rotation of the sky that `left_project` composes with: `rot_x(-π/2) rot_z(-theta) sky rot_z(-theta_z)`,
where an angle that is not given is zero -/
noncomputable def viewOf (sky : V3 → V3) (theta theta_z : Option ℝ) (p : V3) : V3 :=
  rotX (-(π / 2)) (rotZ (-theta.getD 0) (sky (rotZ (-theta_z.getD 0) p)))

theorem dotz_opt (asEuler : V3 → V3) (ydeg : ℕ) (t : Option ℝ) (M : List ℝ) (hM : M.length = (ydeg + 1) ^ 2) :
    ∃ M', dotRotationMatrix asEuler ydeg none none (some 1) t M = .ok M' ∧ M'.length = (ydeg + 1) ^ 2 ∧
      ∀ p, mapVal ydeg M' p = mapVal ydeg M (rotZ (t.getD 0) p) := by
  cases t with
  | none => exact ⟨M, rfl, hM, fun p => by rw [Option.getD_none, rotZ_zero]⟩
  | some t => exact ⟨_, rfl, dotRz_length _ _ _, fun p => dotRz_mapVal _ _ _ _⟩

theorem unitOf_unit (n : V3) (h : normSq n = 1) : unitOf n = n := by
  unfold unitOf
  rw [h, sqrt_one]
  simp

theorem dot_axis {asEuler : V3 → V3} (hE : IsEulerZYZ asEuler) (ydeg : ℕ) (x y z : Option ℝ) (θ : ℝ)
    (M : List ℝ) (hxy : x ≠ none ∨ y ≠ none) (hn : normSq (x.getD 0, y.getD 0, z.getD 0) = 1) :
    ∃ M', dotRotationMatrix asEuler ydeg x y z (some θ) M = .ok M' ∧ M'.length = (ydeg + 1) ^ 2 ∧
      ∀ p, OnSphere p → mapVal ydeg M' p = mapVal ydeg M (rotAxis (x.getD 0, y.getD 0, z.getD 0) θ p) := by
  obtain ⟨M', h1, h2, h3⟩ := dotRotationMatrix_rotates hE ydeg x y z θ M hxy (by rw [hn]; norm_num)
  exact ⟨M', h1, h2, fun p hp => by rw [h3 p hp, unitOf_unit _ hn]⟩

theorem rotAxis_x (t : ℝ) (p : V3) : rotAxis (1, 0, 0) t p = rotX t p := (skyProjection_single t).2.2 p

/-- the composition in `left_project`, for a sky rotation `sky` -/
theorem leftProject_of_sky {asEuler : V3 → V3} (hE : IsEulerZYZ asEuler) (ydeg : ℕ) (inc obl theta theta_z : Option ℝ)
    (M : List ℝ) (sky : V3 → V3) (hsky_sphere : ∀ p, OnSphere p → OnSphere (sky p))
    (hsky : ∀ M : List ℝ, M.length = (ydeg + 1) ^ 2 → ∃ M', dotRotationMatrix asEuler ydeg (skyProjection inc obl).1
      (skyProjection inc obl).2.1 (skyProjection inc obl).2.2.1 (skyProjection inc obl).2.2.2 M = .ok M' ∧
        M'.length = (ydeg + 1) ^ 2 ∧ ∀ p, OnSphere p → mapVal ydeg M' p = mapVal ydeg M (sky p)) :
    ∃ M', leftProject asEuler ydeg inc obl theta theta_z M = .ok M' ∧ M'.length = (ydeg + 1) ^ 2 ∧
      ∀ p, OnSphere p → mapVal ydeg M' p = mapVal ydeg M (viewOf sky theta theta_z p) := by
  obtain ⟨M1, a1, b1, c1⟩ := dot_axis hE ydeg (some 1) none none (-0.5 * π) M (by simp) (by simp [normSq])
  obtain ⟨M2, a2, b2, c2⟩ := dotz_opt asEuler ydeg (theta.map (- ·)) M1 b1
  obtain ⟨M3, a3, b3, c3⟩ := hsky M2 b2
  obtain ⟨M4, a4, b4, c4⟩ := dotz_opt asEuler ydeg (theta_z.map (- ·)) M3 b3
  have neg_getD : ∀ t : Option ℝ, (t.map (- ·)).getD 0 = -t.getD 0 := by intro t; cases t <;> simp
  refine ⟨M4, ?_, b4, fun p hp => ?_⟩
  · unfold leftProject
    simp only [a1, a2, a3, a4, bind, Except.bind]
  · have s4 := rotZ_sphere (-theta_z.getD 0) hp
    have s3 := hsky_sphere _ s4
    have s2 := rotZ_sphere (-theta.getD 0) s3
    rw [c4, neg_getD, c3 _ s4, c2, neg_getD, c1 _ s2]
    simp only [Option.getD_some, Option.getD_none]
    rw [rotAxis_x, show -0.5 * π = -(π / 2) by ring]
    rfl

/-- C63: `left_project` with inclination and obliquity returns the map seen by the observer: its value at the
point `p` of the projected frame is the value of the map at the point obtained by undoing the tilts and the
rotation -/
theorem leftProject_spec {asEuler : V3 → V3} (hE : IsEulerZYZ asEuler) (ydeg : ℕ) (inc obl : ℝ) (theta theta_z : Option ℝ)
    (M : List ℝ) :
    ∃ M', leftProject asEuler ydeg (some inc) (some obl) theta theta_z M = .ok M' ∧ M'.length = (ydeg + 1) ^ 2 ∧
      ∀ p, OnSphere p → mapVal ydeg M' p = mapVal ydeg M
        (rotX (-(π / 2)) (rotZ (-theta.getD 0) (rotX inc (rotZ (-obl) (rotZ (-theta_z.getD 0) p))))) := by
  obtain ⟨n, t, e, hn, h⟩ := skyProjection_spec inc obl
  refine leftProject_of_sky hE ydeg _ _ theta theta_z M (fun p => rotX inc (rotZ (-obl) p))
    (fun p hp => rotX_sphere inc (rotZ_sphere _ hp)) fun M _ => ?_
  rw [e]
  obtain ⟨M', h1, h2, h3⟩ := dot_axis hE ydeg (some n.1) (some n.2.1) (some n.2.2) t M (by simp) hn
  exact ⟨M', h1, h2, fun p hp => by rw [h3 p hp]; simp only [Option.getD_some]; rw [h]⟩

/-- C63: without obliquity it is as with obliquity zero -/
theorem leftProject_no_obl {asEuler : V3 → V3} (hE : IsEulerZYZ asEuler) (ydeg : ℕ) (inc : ℝ) (theta theta_z : Option ℝ)
    (M : List ℝ) :
    ∃ M', leftProject asEuler ydeg (some inc) none theta theta_z M = .ok M' ∧ M'.length = (ydeg + 1) ^ 2 ∧
      ∀ p, OnSphere p → mapVal ydeg M' p = mapVal ydeg M
        (rotX (-(π / 2)) (rotZ (-theta.getD 0) (rotX inc (rotZ (-theta_z.getD 0) p)))) := by
  refine leftProject_of_sky hE ydeg _ _ theta theta_z M (rotX inc) (fun p hp => rotX_sphere inc hp) fun M _ => ?_
  obtain ⟨M', h1, h2, h3⟩ := dot_axis hE ydeg (some 1) none none inc M (by simp) (by simp [normSq])
  exact ⟨M', h1, h2, fun p hp => by rw [h3 p hp]; simp only [Option.getD_some, Option.getD_none]; rw [rotAxis_x]⟩

/-- C63: with neither -/
theorem leftProject_none {asEuler : V3 → V3} (hE : IsEulerZYZ asEuler) (ydeg : ℕ) (theta theta_z : Option ℝ)
    (M : List ℝ) :
    ∃ M', leftProject asEuler ydeg none none theta theta_z M = .ok M' ∧ M'.length = (ydeg + 1) ^ 2 ∧
      ∀ p, OnSphere p → mapVal ydeg M' p = mapVal ydeg M
        (rotX (-(π / 2)) (rotZ (-theta.getD 0) (rotZ (-theta_z.getD 0) p))) :=
  leftProject_of_sky hE ydeg _ _ theta theta_z M id (fun _ hp => hp) fun M hM => ⟨M, rfl, hM, fun _ _ => rfl⟩

/-- F19 in `left_project`: with an obliquity and no inclination the obliquity acts with the opposite sign than
with inclination zero -/
theorem leftProject_no_inc {asEuler : V3 → V3} (hE : IsEulerZYZ asEuler) (ydeg : ℕ) (obl : ℝ) (theta theta_z : Option ℝ)
    (M : List ℝ) :
    ∃ M', leftProject asEuler ydeg none (some obl) theta theta_z M = .ok M' ∧ M'.length = (ydeg + 1) ^ 2 ∧
      ∀ p, OnSphere p → mapVal ydeg M' p = mapVal ydeg M
        (rotX (-(π / 2)) (rotZ (-theta.getD 0) (rotZ obl (rotZ (-theta_z.getD 0) p)))) :=
  leftProject_of_sky hE ydeg _ _ theta theta_z M (rotZ obl) (fun _ hp => rotZ_sphere obl hp) fun _ _ =>
    ⟨_, rfl, dotRz_length _ _ _, fun _ _ => dotRz_mapVal _ _ _ _⟩

/-- C63: `right_project` with inclination and obliquity composes the map with the inverse of the rotation of
`left_project` -/
theorem rightProject_spec {asEuler : V3 → V3} (hE : IsEulerZYZ asEuler) (ydeg : ℕ) (inc obl : ℝ) (theta theta_z : Option ℝ)
    (M : List ℝ) (hM : M.length = (ydeg + 1) ^ 2) :
    ∃ M', rightProject asEuler ydeg (some inc) (some obl) theta theta_z M = .ok M' ∧ M'.length = (ydeg + 1) ^ 2 ∧
      ∀ p, OnSphere p → mapVal ydeg M' p = mapVal ydeg M
        (rotZ (theta_z.getD 0) (rotZ obl (rotX (-inc) (rotZ (theta.getD 0) (rotX (π / 2) p))))) := by
  obtain ⟨n, t, e, hn, h⟩ := skyProjection_spec inc obl
  obtain ⟨M1, a1, b1, c1⟩ := dotz_opt asEuler ydeg theta_z M hM
  have hn' : normSq (-n.1, -n.2.1, -n.2.2) = 1 := by rw [← hn]; unfold normSq; ring
  obtain ⟨M2, a2, b2, c2⟩ := dot_axis hE ydeg (some (-n.1)) (some (-n.2.1)) (some (-n.2.2)) t M1 (by simp) hn'
  obtain ⟨M3, a3, b3, c3⟩ := dotz_opt asEuler ydeg theta M2 b2
  obtain ⟨M4, a4, b4, c4⟩ := dot_axis hE ydeg (some 1) none none (0.5 * π) M3 (by simp) (by simp [normSq])
  -- the rotation about the opposite axis is the inverse
  have hinv : ∀ p, rotAxis (-n.1, -n.2.1, -n.2.2) t p = rotZ obl (rotX (-inc) p) := by
    intro p
    have q1 : rotAxis (-n.1, -n.2.1, -n.2.2) t (rotAxis n t (rotZ obl (rotX (-inc) p))) = rotZ obl (rotX (-inc) p) := by
      rw [rotAxis_eq_quat _ _ hn', rotAxis_eq_quat _ _ hn, quatRot_mul]
      have hs := sin_sq_add_cos_sq (t / 2)
      have hw : cos (t / 2) * cos (t / 2) - -n.1 * sin (t / 2) * (n.1 * sin (t / 2)) - -n.2.1 * sin (t / 2) * (n.2.1 * sin (t / 2)) -
          -n.2.2 * sin (t / 2) * (n.2.2 * sin (t / 2)) = 1 := by
        unfold normSq at hn
        linear_combination hs + sin (t / 2) ^ 2 * hn
      generalize rotZ obl (rotX (-inc) p) = w
      have : ∀ a b c d : ℝ, a = 1 → b = 0 → c = 0 → d = 0 → quatRot a b c d w = w := by
        rintro a b c d rfl rfl rfl rfl
        unfold quatRot
        simp
      apply this
      · linear_combination hw
      · simp only; ring
      · simp only; ring
      · simp only; ring
    rw [h] at q1
    rw [← q1]
    congr 1
    have zz : ∀ a (w : V3), rotZ (-a) (rotZ a w) = w := by
      intro a w
      have := sin_sq_add_cos_sq a
      unfold rotZ
      rw [cos_neg, sin_neg]
      refine Prod.ext ?_ (Prod.ext ?_ ?_)
      · simp only; linear_combination w.1 * this
      · simp only; linear_combination w.2.1 * this
      · rfl
    have xx : ∀ a (w : V3), rotX a (rotX (-a) w) = w := by
      intro a w
      have := sin_sq_add_cos_sq a
      unfold rotX
      rw [cos_neg, sin_neg]
      refine Prod.ext ?_ (Prod.ext ?_ ?_)
      · rfl
      · simp only; linear_combination w.2.1 * this
      · simp only; linear_combination w.2.2 * this
    rw [zz, xx]
  refine ⟨M4, ?_, b4, fun p hp => ?_⟩
  · unfold rightProject
    rw [e]
    simp only [a1, a2, a3, a4, bind, Except.bind, Option.map_some]
  · have s4 := rotX_sphere (π / 2) hp
    have s3 := rotZ_sphere (theta.getD 0) s4
    rw [c4 _ hp]
    simp only [Option.getD_some, Option.getD_none]
    rw [rotAxis_x, show 0.5 * π = π / 2 by ring, c3, c2 _ s3]
    simp only [Option.getD_some]
    rw [hinv, c1]

/-- F20: without an inclination `right_project` does not invert the obliquity of `left_project`: both turn the
map by the same angle `+obl` about z (the sign of the z component of the axis is not used by
`dot_rotation_matrix`) -/
theorem rightProject_no_inc {asEuler : V3 → V3} (hE : IsEulerZYZ asEuler) (ydeg : ℕ) (obl : ℝ) (theta theta_z : Option ℝ)
    (M : List ℝ) (hM : M.length = (ydeg + 1) ^ 2) :
    ∃ M', rightProject asEuler ydeg none (some obl) theta theta_z M = .ok M' ∧ M'.length = (ydeg + 1) ^ 2 ∧
      ∀ p, OnSphere p → mapVal ydeg M' p = mapVal ydeg M
        (rotZ (theta_z.getD 0) (rotZ obl (rotZ (theta.getD 0) (rotX (π / 2) p)))) := by
  obtain ⟨M1, a1, b1, c1⟩ := dotz_opt asEuler ydeg theta_z M hM
  obtain ⟨M3, a3, b3, c3⟩ := dotz_opt asEuler ydeg theta (dotRz ydeg obl M1) (dotRz_length _ _ _)
  obtain ⟨M4, a4, b4, c4⟩ := dot_axis hE ydeg (some 1) none none (0.5 * π) M3 (by simp) (by simp [normSq])
  refine ⟨M4, ?_, b4, fun p hp => ?_⟩
  · unfold rightProject
    simp only [skyProjection, Option.map_none, Option.map_some, a1, bind, Except.bind,
      (dotRotationMatrix_z asEuler ydeg (-1) obl M1).1, a3, a4]
  · rw [c4 _ hp]
    simp only [Option.getD_some, Option.getD_none]
    rw [rotAxis_x, show 0.5 * π = π / 2 by ring, c3, dotRz_mapVal, c1]

/-- C63: seen with inclination 90 degrees and not rotated, the centre of the disc shows the point `(0, 0, 1)` of the
map -/
theorem leftProject_centre {asEuler : V3 → V3} (hE : IsEulerZYZ asEuler) (ydeg : ℕ) (M : List ℝ) :
    ∃ M', leftProject asEuler ydeg (some (π / 2)) (some 0) none none M = .ok M' ∧
      mapVal ydeg M' (0, 0, 1) = mapVal ydeg M (0, 0, 1) := by
  obtain ⟨M', h1, _, h3⟩ := leftProject_spec hE ydeg (π / 2) 0 none none M
  refine ⟨M', h1, ?_⟩
  rw [h3 (0, 0, 1) (by simp [OnSphere, normSq])]
  congr 1
  simp [rotX, rotZ]

/-- the hypotheses can be met: there is an Euler-angle function, and a rotation about an oblique axis -/
example : ∃ asEuler : V3 → V3, IsEulerZYZ asEuler ∧ ∃ M',
    dotRotationMatrix asEuler 1 (some 1) (some 2) none (some 0.3) [1, 0, 2, 3] = .ok M' ∧
      ∀ p, OnSphere p → mapVal 1 M' p = mapVal 1 [1, 0, 2, 3] (rotAxis (unitOf (1, 2, 0)) 0.3 p) := by
  obtain ⟨f, hf⟩ := exists_isEulerZYZ
  obtain ⟨M', h1, _, h3⟩ := dotRotationMatrix_rotates hf 1 (some 1) (some 2) none 0.3 [1, 0, 2, 3] (by simp)
    (by norm_num [normSq])
  exact ⟨f, hf, M', h1, h3⟩

end Jaxoplanet.Starry
