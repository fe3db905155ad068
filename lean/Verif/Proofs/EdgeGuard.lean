import Verif.Props.SurfaceLight
import Verif.Proofs.Gauss

/-!
# The guards of `p_integral`: the error of the terms that the code replaces by constants

Used by C85: the solution vector for all positions and radii of the occultor.
-/

namespace Jaxoplanet.Starry
open _root_.Jaxoplanet.Starry.Spec _root_.Jaxoplanet.Spec _root_.Jaxoplanet.Green _root_.Jaxoplanet.LimbDark _root_.Jaxoplanet.Gauss
open Real MeasureTheory

/-- the cube of the height of the occultor's edge above the sky plane, as the code computes it -/
noncomputable def codeCube (eps b r φ : ℝ) : ℝ :=
  (max 0 (if 4 * b * r < 10 * eps then 1 - r ^ 2 else
      (if 4 * b * r < 10 * eps then 1 else 4 * b * r) *
        (max 0 ((1 - r ^ 2 - b ^ 2 + 2 * b * r) / (if 4 * b * r < 10 * eps then 1 else 4 * b * r)) - (1 - cos φ) / 2))) ^ (1.5 : ℝ)

/-- `b - r cos φ`, over `2 r`, as the code computes it -/
noncomputable def codeRise (eps b r φ : ℝ) : ℝ :=
  if r < 10 * eps then 0 else (b - r) / (2 * if r < 10 * eps then 1 else r) + (1 - cos φ) / 2

/-- the value of the integrand at a node, `0` where there is none -/
noncomputable def pVal (eps b r κ : ℝ) (l q : ℕ) (x : ℝ) : ℝ :=
  match pTerm eps b r κ l ((q : ℤ) - l) with
  | none => 0
  | some p => p.2 x

theorem cube_le {α β : ℝ} (a0 : 0 ≤ α) (a1 : α ≤ 1) (b0 : 0 ≤ β) (b1 : β ≤ 1) (hab : β ≤ α) : |α ^ 3 - β ^ 3| ≤ 1.5 * |α ^ 2 - β ^ 2| := by
  rw [abs_of_nonneg (by nlinarith [pow_le_pow_left₀ b0 hab 3]), abs_of_nonneg (by nlinarith)]
  have : 1.5 * (α ^ 2 - β ^ 2) - (α ^ 3 - β ^ 3) = (α - β) * (1.5 * (α + β) - (α ^ 2 + α * β + β ^ 2)) := by ring
  have h2 : 0 ≤ 1.5 * (α + β) - (α ^ 2 + α * β + β ^ 2) := by
    nlinarith [mul_nonneg a0 b0, mul_nonneg a0 (sub_nonneg.2 a1), mul_nonneg b0 (sub_nonneg.2 b1), mul_nonneg a0 (sub_nonneg.2 b1),
      mul_nonneg b0 (sub_nonneg.2 a1)]
  nlinarith [mul_nonneg (sub_nonneg.2 hab) h2]

theorem cube_diff {u v : ℝ} (hu : u ≤ 1) (hv : v ≤ 1) :
    |(max 0 u) ^ (1.5 : ℝ) - (max 0 v) ^ (1.5 : ℝ)| ≤ 1.5 * |u - v| := by
  have e : ∀ t : ℝ, (max 0 t) ^ (1.5 : ℝ) = √(max 0 t) ^ 3 := by
    intro t
    rw [sqrt_cube, max_eq_left (le_max_left _ _)]; norm_num
  rw [e u, e v]
  have h : |max 0 u - max 0 v| ≤ |u - v| := by
    have := abs_max_sub_max_le_max 0 u 0 v
    simpa using this
  have hu0 : 0 ≤ max 0 u := le_max_left _ _
  have hv0 : 0 ≤ max 0 v := le_max_left _ _
  have hu1 : max 0 u ≤ 1 := max_le zero_le_one hu
  have hv1 : max 0 v ≤ 1 := max_le zero_le_one hv
  have key : |√(max 0 u) ^ 3 - √(max 0 v) ^ 3| ≤ 1.5 * |√(max 0 u) ^ 2 - √(max 0 v) ^ 2| := by
    rcases le_total √(max 0 v) √(max 0 u) with hab | hab
    · exact cube_le (sqrt_nonneg _) (sqrt_le_one.2 hu1) (sqrt_nonneg _) (sqrt_le_one.2 hv1) hab
    · rw [abs_sub_comm, abs_sub_comm (√(max 0 u) ^ 2)]
      exact cube_le (sqrt_nonneg _) (sqrt_le_one.2 hv1) (sqrt_nonneg _) (sqrt_le_one.2 hu1) hab
  rw [sq_sqrt hu0, sq_sqrt hv0] at key
  linarith

/-- the integrands of the polynomial and of the other terms, apart from the dipole: `S` and `C` are `r sin φ` and `r cos φ`,
`D` is `b - r cos φ` and `F` the cube of the height -/
noncomputable def pGen (S C D F : ℝ) (l μ ν : ℕ) : ℝ :=
  if μ % 2 = 0 ∧ (μ / 2) % 2 = 0 then 4 * (S ^ (μ / 2 + 2) * D ^ (ν / 2))
  else if μ = 1 ∧ l % 2 = 0 then 4 * (S ^ (l - 2) * F * C)
  else if μ = 1 then 4 * (S ^ (l - 3) * D * F * C)
  else if (μ - 1) % 2 = 0 ∧ ((μ - 1) / 2) % 2 = 0 then 4 * (S ^ ((μ - 1) / 2) * D ^ ((ν - 1) / 2) * F)
  else 0

theorem pVal_gen (eps b r κ : ℝ) (l q : ℕ) (hq : q ≤ 2 * l) (hn : ¬ (l = 1 ∧ q = 1)) (x : ℝ) :
    pVal eps b r κ l q x = pGen (r * sin (κ / 2 * (x + 1))) (r * cos (κ / 2 * (x + 1))) (2 * r * codeRise eps b r (κ / 2 * (x + 1)))
      (codeCube eps b r (κ / 2 * (x + 1))) l (2 * l - q) q := by
  have e1 : ((l : ℤ) - ((q : ℤ) - l)).toNat = 2 * l - q := by omega
  have e2 : ((l : ℤ) + ((q : ℤ) - l)).toNat = q := by omega
  have hsc := sin_sq_add_cos_sq (κ / 2 * (x + 1))
  have ha4 : 1 - 2 * ((1 - cos (κ / 2 * (x + 1))) / 2) = cos (κ / 2 * (x + 1)) := by ring
  unfold pVal pTerm pGen
  rw [e1, e2]
  have c1 : ¬ (2 * l - q = 1 ∧ l = 1) := by omega
  simp only [if_neg c1]
  by_cases c2 : (2 * l - q) % 2 = 0 ∧ ((2 * l - q) / 2) % 2 = 0
  · simp only [if_pos c2, half_angle]
    rw [a1_half _ _ hsc, ← codeRise]
    generalize κ / 2 * (x + 1) = φ at *
    generalize codeRise eps b r φ = D
    obtain ⟨a, ha⟩ : ∃ a, 2 * l - q = 4 * a := ⟨(2 * l - q) / 4, by omega⟩
    obtain ⟨c, rfl⟩ : ∃ c, q = 2 * c := ⟨q / 2, by omega⟩
    obtain rfl : l = 2 * a + c := by omega
    rw [ha]
    have t1 : (0.25 * (((4 * a : ℕ) : ℝ) + 4)) = ((a + 1 : ℕ) : ℝ) := by push_cast; ring
    have t2 : (0.5 * ((2 * c : ℕ) : ℝ)) = ((c : ℕ) : ℝ) := by push_cast; ring
    rw [t1, t2, rpow_natCast, rpow_natCast, show 4 * a / 2 + 2 = 2 * (a + 1) by omega, show 2 * c / 2 = c by omega,
      show 2 * a + c + 2 = 2 * (a + 1) + c by omega]
    rw [← pow_mul, div_pow, pow_add (2 * r), mul_pow 2 r, mul_pow r, mul_pow (2 * r) D]
    field_simp
    ring
  simp only [if_neg c2]
  by_cases c3 : 2 * l - q = 1 ∧ l % 2 = 0
  · simp only [if_pos c3, half_angle]
    rw [← codeCube, a1_half _ _ hsc, ha4]
    generalize κ / 2 * (x + 1) = φ at *
    obtain ⟨c, rfl⟩ : ∃ c, l = 2 * c + 2 := ⟨(l - 2) / 2, by omega⟩
    have t1 : (((2 * c + 2 : ℕ) : ℤ) - 1) = ((2 * c + 1 : ℕ) : ℤ) := by omega
    rw [t1, zpow_natCast, show (2 * c + 2) / 2 - 1 = c by omega, show 2 * c + 2 - 2 = 2 * c by omega]
    rw [← pow_mul, div_pow]
    field_simp
    ring
  simp only [if_neg c3]
  by_cases c4 : 2 * l - q = 1
  · simp only [if_pos c4, half_angle]
    rw [← codeCube, a1_half _ _ hsc, ha4, ← codeRise]
    generalize κ / 2 * (x + 1) = φ at *
    obtain ⟨c, rfl⟩ : ∃ c, l = 2 * c + 3 := ⟨(l - 3) / 2, by omega⟩
    have t1 : (((2 * c + 3 : ℕ) : ℤ) - 1) = ((2 * c + 2 : ℕ) : ℤ) := by omega
    rw [t1, zpow_natCast, show (2 * c + 3 - 3) / 2 = c by omega, show 2 * c + 3 - 3 = 2 * c by omega]
    rw [← pow_mul, div_pow]
    field_simp
    ring
  simp only [if_neg c4]
  have c5 : (((2 * l - q : ℕ) : ℤ) - 1) % 2 = 0 ∧ ((2 * l - q - 1) / 2) % 2 = 0 ↔ (2 * l - q - 1) % 2 = 0 ∧ ((2 * l - q - 1) / 2) % 2 = 0 := by
    omega
  by_cases c6 : (2 * l - q - 1) % 2 = 0 ∧ ((2 * l - q - 1) / 2) % 2 = 0
  · simp only [if_pos c6, if_pos (c5.2 c6), half_angle]
    rw [← codeCube, a1_half _ _ hsc, ← codeRise]
    generalize κ / 2 * (x + 1) = φ at *
    generalize codeRise eps b r φ = D
    obtain ⟨a, ha⟩ : ∃ a, 2 * l - q = 4 * a + 1 := ⟨(2 * l - q - 1) / 4, by omega⟩
    obtain ⟨c, rfl⟩ : ∃ c, q = 2 * c + 1 := ⟨q / 2, by omega⟩
    obtain rfl : l = 2 * a + c + 1 := by omega
    have t1 : (((2 * a + c + 1 : ℕ) : ℤ) - 1) = ((2 * a + c : ℕ) : ℤ) := by omega
    have t2 : (0.5 * (((2 * c + 1 : ℕ) : ℝ) - 1)) = ((c : ℕ) : ℝ) := by push_cast; ring
    rw [ha, t1, t2, zpow_natCast, rpow_natCast, show (4 * a + 1 - 1) / 4 = a by omega, show (4 * a + 1 - 1) / 2 = 2 * a by omega,
      show (2 * c + 1 - 1) / 2 = c by omega]
    rw [← pow_mul, div_pow, pow_add (2 * r), mul_pow 2 r, mul_pow r, mul_pow (2 * r) D]
    field_simp
    ring
  · simp only [if_neg c6, if_neg (fun h => c6 (c5.1 h))]

theorem edge_gen (b r : ℝ) (l q : ℕ) (hq : q ≤ 2 * l) (hn : ¬ (l = 1 ∧ q = 1)) (φ : ℝ) :
    2 * edgePair (greenField (2 * l - q) q) b r φ =
      pGen (r * sin φ) (r * cos φ) (b - r * cos φ) (√(w b r φ) ^ 3) l (2 * l - q) q := by
  rw [← occLine_eq b r l q hq]
  unfold pExact pGen
  have c1 : ¬ (2 * l - q = 1 ∧ l = 1) := by omega
  rw [if_neg c1]
  split_ifs <;> rfl

theorem pow_size {S D r Y : ℝ} (hr : 0 ≤ r) (hS : |S| ≤ r) (hD : |D| ≤ Y) (hY1 : 1 ≤ Y) (hrY : r ≤ Y) {k m n : ℕ} (hk : 1 ≤ k) (h : k + m ≤ n + 1) :
    |S ^ k * D ^ m| ≤ r * Y ^ n := by
  have hY0 : 0 ≤ Y := by linarith
  obtain ⟨k, rfl⟩ : ∃ j, k = j + 1 := ⟨k - 1, by omega⟩
  rw [abs_mul, abs_pow, abs_pow]
  have h1 : |S| ^ (k + 1) ≤ r * Y ^ k := by
    rw [pow_succ']
    exact mul_le_mul hS (pow_le_pow_left₀ (abs_nonneg _) (hS.trans hrY) k) (by positivity) hr
  have h2 : |D| ^ m ≤ Y ^ m := pow_le_pow_left₀ (abs_nonneg _) hD m
  calc _ ≤ (r * Y ^ k) * Y ^ m := mul_le_mul h1 h2 (by positivity) (by positivity)
    _ = r * Y ^ (k + m) := by rw [pow_add]; ring
    _ ≤ r * Y ^ n := mul_le_mul_of_nonneg_left (pow_le_pow_right₀ hY1 (by omega)) hr

theorem mixed_size {S C D r Y : ℝ} (hr : 0 ≤ r) (hS : |S| ≤ r) (hC : |C| ≤ r) (hD : |D| ≤ Y) (hY1 : 1 ≤ Y) (hrY : r ≤ Y) {k m n : ℕ} (h : k + m ≤ n) :
    |S ^ k * D ^ m * C| ≤ r * Y ^ n := by
  have hY0 : 0 ≤ Y := by linarith
  rw [abs_mul, abs_mul, abs_pow, abs_pow]
  have h1 : |S| ^ k ≤ Y ^ k := pow_le_pow_left₀ (abs_nonneg _) (hS.trans hrY) k
  have h2 : |D| ^ m ≤ Y ^ m := pow_le_pow_left₀ (abs_nonneg _) hD m
  calc _ ≤ (Y ^ k * Y ^ m) * r := mul_le_mul (mul_le_mul h1 h2 (by positivity) (by positivity)) hC (abs_nonneg _) (by positivity)
    _ = r * Y ^ (k + m) := by rw [pow_add]; ring
    _ ≤ r * Y ^ n := mul_le_mul_of_nonneg_left (pow_le_pow_right₀ hY1 h) hr

theorem pGen_diff {S C D F T r Y : ℝ} (hr : 0 ≤ r) (hS : |S| ≤ r) (hC : |C| ≤ r) (hD : |D| ≤ Y) (hY1 : 1 ≤ Y) (hrY : r ≤ Y)
    (l μ ν : ℕ) (h : μ + ν = 2 * l) : |pGen S C D F l μ ν - pGen S C D T l μ ν| ≤ 4 * (r * Y ^ (l + 1)) * |F - T| := by
  have h0 : 0 ≤ 4 * (r * Y ^ (l + 1)) * |F - T| := by positivity
  have key : ∀ A : ℝ, |A| ≤ r * Y ^ (l + 1) → |4 * (A * (F - T))| ≤ 4 * (r * Y ^ (l + 1)) * |F - T| := by
    intro A hA
    rw [abs_mul, abs_mul, abs_of_pos (by norm_num : (0 : ℝ) < 4), mul_assoc]
    exact mul_le_mul_of_nonneg_left (mul_le_mul_of_nonneg_right hA (abs_nonneg _)) (by norm_num)
  unfold pGen
  split_ifs with c1 c2 c3 c4
  · simpa using h0
  · have := key (S ^ (l - 2) * D ^ 0 * C) (mixed_size hr hS hC hD hY1 hrY (by omega))
    convert this using 2; ring
  · have := key (S ^ (l - 3) * D ^ 1 * C) (mixed_size hr hS hC hD hY1 hrY (by omega))
    convert this using 2; ring
  · have := key (S ^ ((μ - 1) / 2) * D ^ ((ν - 1) / 2)) (pow_size hr hS hD hY1 hrY (by omega) (by omega))
    convert this using 2; ring
  · simpa using h0

/-- the terms are at most of the size of the occultor -/
theorem pGen_size {S C D F r Y : ℝ} (hr : 0 ≤ r) (hS : |S| ≤ r) (hC : |C| ≤ r) (hD : |D| ≤ Y) (hF : |F| ≤ 1) (hY1 : 1 ≤ Y) (hrY : r ≤ Y)
    (l μ ν : ℕ) (h : μ + ν = 2 * l) : |pGen S C D F l μ ν| ≤ 4 * (r * Y ^ (l + 1)) := by
  have h0 : 0 ≤ 4 * (r * Y ^ (l + 1)) := by positivity
  have key : ∀ A G : ℝ, |A| ≤ r * Y ^ (l + 1) → |G| ≤ 1 → |4 * (A * G)| ≤ 4 * (r * Y ^ (l + 1)) := by
    intro A G hA hG
    rw [abs_mul, abs_mul, abs_of_pos (by norm_num : (0 : ℝ) < 4)]
    refine mul_le_mul_of_nonneg_left ?_ (by norm_num)
    calc _ ≤ (r * Y ^ (l + 1)) * 1 := mul_le_mul hA hG (abs_nonneg _) (by positivity)
      _ = _ := mul_one _
  unfold pGen
  split_ifs with c1 c2 c3 c4
  · have := key (S ^ (μ / 2 + 2) * D ^ (ν / 2)) 1 (pow_size hr hS hD hY1 hrY (by omega) (by omega)) (by simp)
    simpa using this
  · have := key (S ^ (l - 2) * D ^ 0 * C) F (mixed_size hr hS hC hD hY1 hrY (by omega)) hF
    convert this using 2; ring
  · have := key (S ^ (l - 3) * D ^ 1 * C) F (mixed_size hr hS hC hD hY1 hrY (by omega)) hF
    convert this using 2; ring
  · exact key (S ^ ((μ - 1) / 2) * D ^ ((ν - 1) / 2)) F (pow_size hr hS hD hY1 hrY (by omega) (by omega)) hF
  · simpa using h0

theorem w_le_one (b r φ : ℝ) : w b r φ ≤ 1 := by
  have := w_occ b r φ
  nlinarith [sq_nonneg (r * sin φ), sq_nonneg (b - r * cos φ)]

theorem cube_exact (b r φ : ℝ) : √(w b r φ) ^ 3 = (max 0 (w b r φ)) ^ (1.5 : ℝ) := by
  rw [sqrt_cube, max_comm]; norm_num

theorem codeCube_close {eps b r : ℝ} (he : 0 < eps) (hb : 0 ≤ b) (hr : 0 ≤ r) (φ : ℝ) :
    |codeCube eps b r φ| ≤ 1 ∧ |codeCube eps b r φ - √(w b r φ) ^ 3| ≤ if 4 * b * r < 10 * eps then 1.5 * (b * (b + 2 * r)) else 0 := by
  by_cases h : 4 * b * r < 10 * eps
  · rw [if_pos h]
    unfold codeCube
    rw [if_pos h, cube_exact]
    refine ⟨?_, (cube_diff (by nlinarith) (w_le_one b r φ)).trans ?_⟩
    · have h0 : 0 ≤ max 0 (1 - r ^ 2) := le_max_left _ _
      rw [abs_of_nonneg (rpow_nonneg h0 _)]
      exact rpow_le_one h0 (max_le zero_le_one (by nlinarith)) (by norm_num)
    · refine mul_le_mul_of_nonneg_left ?_ (by norm_num)
      unfold w
      have h1 := cos_le_one φ
      have h2 := neg_one_le_cos φ
      have hbr := mul_nonneg hb hr
      rw [abs_le]
      constructor <;> nlinarith
  · rw [if_neg h]
    have := f0_exact (Or.inl (not_lt.1 h)) he (cos φ) φ rfl
    unfold codeCube
    rw [this]
    refine ⟨?_, by simp⟩
    rw [abs_of_nonneg (by positivity)]
    exact pow_le_one₀ (sqrt_nonneg _) (sqrt_le_one.2 (w_le_one b r φ))

theorem codeRise_exact {eps b r : ℝ} (he : 0 < eps) (h : 10 * eps ≤ r) (φ : ℝ) : 2 * r * codeRise eps b r φ = b - r * cos φ := by
  unfold codeRise
  have : r ≠ 0 := by linarith
  rw [if_neg (not_lt.2 h), if_neg (not_lt.2 h)]
  field_simp
  ring

/-- the largest difference, at a node, between the integrand of the code and the line element: the terms are replaced by
constants for an occultor of the size of the rounding error, for one (almost) at the centre of the star, and, for the
dipole term, at nodes (almost) at the centre of the star -/
noncomputable def guardSize (eps b r : ℝ) (l q : ℕ) : ℝ :=
  if l = 1 ∧ q = 1 then if (b - r) ^ 2 < 10 * eps then 2 * r * √(10 * eps) else 0
  else if r < 10 * eps ∨ (4 * b * r < 10 * eps ∧ b ≠ 0) then 80 * eps * (1 + b + 2 * r) ^ (l + 2) else 0

theorem pVal_dipole {eps b r : ℝ} (he : 0 < eps) (hb : 0 ≤ b) (hr : 0 ≤ r) (κ x : ℝ) (h0 : 0 ≤ w b r (κ / 2 * (x + 1))) :
    |pVal eps b r κ 1 1 x - 2 * edgePair (greenField (2 * 1 - 1) 1) b r (κ / 2 * (x + 1))| ≤
      if (b - r) ^ 2 < 10 * eps then 2 * r * √(10 * eps) else 0 := by
  rw [← occLine_eq b r 1 1 (by norm_num)]
  unfold pExact pVal pTerm
  have e1 : (((1 : ℕ) : ℤ) - (((1 : ℕ) : ℤ) - ((1 : ℕ) : ℤ))).toNat = 1 := by omega
  rw [e1]
  simp only [show 2 * 1 - 1 = 1 by norm_num, and_self, if_true]
  rw [show 2 * (0.25 * κ) * x + 0.5 * κ = κ / 2 * (x + 1) by ring]
  generalize κ / 2 * (x + 1) = φ at *
  have hw : r ^ 2 + b ^ 2 - 2 * b * r * cos φ = 1 - w b r φ := by unfold w; ring
  rw [hw]
  have hz2 : w b r φ = √(w b r φ) ^ 2 := (sq_sqrt h0).symm
  have hz0 := sqrt_nonneg (w b r φ)
  have hz1 := sqrt_le_one.2 (w_le_one b r φ)
  have hrc : (r - b * cos φ) ^ 2 ≤ 1 - w b r φ := by
    unfold w
    nlinarith [sin_sq_add_cos_sq φ, sq_nonneg (b * sin φ)]
  by_cases h1 : 1 - w b r φ < 10 * eps
  · have hg : (b - r) ^ 2 < 10 * eps := by
      refine lt_of_le_of_lt ?_ h1
      unfold w
      nlinarith [cos_le_one φ, mul_nonneg hb hr]
    rw [if_pos h1, if_pos hg, zero_sub, abs_neg]
    have h2 : |r - b * cos φ| ≤ √(10 * eps) := abs_le_sqrt (hrc.trans h1.le)
    have h3 : (1 + √(w b r φ) + √(w b r φ) ^ 2) / (3 * (1 + √(w b r φ))) ≤ 1 / 2 := by
      rw [div_le_iff₀ (by positivity)]
      nlinarith
    have h4 : 0 ≤ (1 + √(w b r φ) + √(w b r φ) ^ 2) / (3 * (1 + √(w b r φ))) := by positivity
    rw [abs_mul, abs_mul, abs_mul, abs_of_nonneg hr, abs_of_nonneg h4, abs_of_pos (by norm_num : (0 : ℝ) < 4)]
    have h5 : r * |r - b * cos φ| ≤ r * √(10 * eps) := mul_le_mul_of_nonneg_left h2 hr
    have h6 := mul_le_mul h5 h3 h4 (by positivity)
    linarith
  · rw [if_neg h1, if_neg h1, sub_sub_cancel, max_eq_right h0]
    rw [not_lt] at h1
    unfold Kepler.zeroSafeSqrt
    have h00 : (0 : ℝ) ≤ if (b - r) ^ 2 < 10 * eps then 2 * r * √(10 * eps) else 0 := by split_ifs <;> positivity
    refine le_trans (le_of_eq ?_) h00
    rw [abs_eq_zero, sub_eq_zero]
    generalize √(w b r φ) = z at *
    rw [hz2]
    rw [hz2] at h1
    have : 1 + z ≠ 0 := by linarith
    have h3 : 1 - z ^ 2 ≠ 0 := by linarith
    field_simp
    ring

theorem pVal_close {eps b r : ℝ} (he : 0 < eps) (hb : 0 ≤ b) (hr : 0 ≤ r) (κ : ℝ) (l q : ℕ) (hq : q ≤ 2 * l) (x : ℝ)
    (hx : l = 1 → q = 1 → 0 ≤ w b r (κ / 2 * (x + 1))) :
    |pVal eps b r κ l q x - 2 * edgePair (greenField (2 * l - q) q) b r (κ / 2 * (x + 1))| ≤ guardSize eps b r l q := by
  unfold guardSize
  by_cases hn : l = 1 ∧ q = 1
  · rw [if_pos hn]
    obtain ⟨rfl, rfl⟩ := hn
    exact pVal_dipole he hb hr κ x (hx rfl rfl)
  rw [if_neg hn, pVal_gen eps b r κ l q hq hn, edge_gen b r l q hq hn]
  generalize κ / 2 * (x + 1) = φ
  obtain ⟨hF1, hF2⟩ := codeCube_close he hb hr φ
  have hS : |r * sin φ| ≤ r := by
    rw [abs_mul, abs_of_nonneg hr]; exact mul_le_of_le_one_right hr (abs_sin_le_one φ)
  have hC : |r * cos φ| ≤ r := by
    rw [abs_mul, abs_of_nonneg hr]; exact mul_le_of_le_one_right hr (abs_cos_le_one φ)
  have hD : |b - r * cos φ| ≤ 1 + b + 2 * r := by
    have := abs_le.1 hC
    rw [abs_le]; constructor <;> linarith
  have hT : |√(w b r φ) ^ 3| ≤ 1 := by
    rw [abs_of_nonneg (by positivity)]
    exact pow_le_one₀ (sqrt_nonneg _) (sqrt_le_one.2 (w_le_one b r φ))
  have hY1 : 1 ≤ 1 + b + 2 * r := by linarith
  have hrY : r ≤ 1 + b + 2 * r := by linarith
  have hμ : (2 * l - q) + q = 2 * l := by omega
  have hY : (1 + b + 2 * r) ^ (l + 1) ≤ (1 + b + 2 * r) ^ (l + 2) := pow_le_pow_right₀ hY1 (by omega)
  have hY0 : 0 ≤ (1 + b + 2 * r) ^ (l + 1) := by positivity
  by_cases hA : r < 10 * eps
  · rw [if_pos (Or.inl hA)]
    have hD' : |2 * r * codeRise eps b r φ| ≤ 1 + b + 2 * r := by
      unfold codeRise; rw [if_pos hA]; simp; linarith
    have h1 := pGen_size hr hS hC hD' hF1 hY1 hrY l (2 * l - q) q hμ
    have h2 := pGen_size hr hS hC hD hT hY1 hrY l (2 * l - q) q hμ
    refine (abs_sub _ _).trans ((add_le_add h1 h2).trans ?_)
    have h3 : r * (1 + b + 2 * r) ^ (l + 1) ≤ 10 * eps * (1 + b + 2 * r) ^ (l + 2) := mul_le_mul hA.le hY hY0 (by positivity)
    linarith
  · rw [codeRise_exact he (not_lt.1 hA)]
    by_cases hB : 4 * b * r < 10 * eps ∧ b ≠ 0
    · rw [if_pos (Or.inr hB)]
      rw [if_pos hB.1] at hF2
      refine (pGen_diff hr hS hC hD hY1 hrY l _ _ hμ).trans ((mul_le_mul_of_nonneg_left hF2 (by positivity)).trans ?_)
      have e : 4 * (r * (1 + b + 2 * r) ^ (l + 1)) * (1.5 * (b * (b + 2 * r))) =
          (1.5 * (4 * b * r)) * ((1 + b + 2 * r) ^ (l + 1) * (b + 2 * r)) := by ring
      rw [e]
      have h5 : (1 + b + 2 * r) ^ (l + 1) * (b + 2 * r) ≤ (1 + b + 2 * r) ^ (l + 2) := by
        rw [pow_succ _ (l + 1)]
        exact mul_le_mul_of_nonneg_left (by linarith) hY0
      exact mul_le_mul (by linarith [hB.1]) h5 (by positivity) (by positivity)
    · rw [if_neg (by tauto)]
      refine (pGen_diff hr hS hC hD hY1 hrY l _ _ hμ).trans ?_
      have : |codeCube eps b r φ - √(w b r φ) ^ 3| = 0 := by
        refine le_antisymm (hF2.trans ?_) (abs_nonneg _)
        split_ifs with h
        · have : b = 0 := by tauto
          simp [this]
        · exact le_rfl
      rw [this, mul_zero]

theorem guardSize_nonneg {eps b r : ℝ} (he : 0 < eps) (hb : 0 ≤ b) (hr : 0 ≤ r) (l q : ℕ) : 0 ≤ guardSize eps b r l q := by
  unfold guardSize
  split_ifs <;> positivity

theorem pIntegral_val (eps : ℝ) (quad : ℕ → List (ℝ × ℝ)) (order l_max : ℕ) (hl : 1 ≤ l_max) (b r κ : ℝ) :
    ∃ P, pIntegral eps quad order l_max b r κ = .ok P ∧ P.length = (l_max + 1) ^ 2 ∧
      ∀ l ≤ l_max, ∀ q ≤ 2 * l, P.getD (l ^ 2 + q) 0 = κ / 4 * quadSum (quad (pOrder order l q)) (pVal eps b r κ l q) := by
  unfold pIntegral
  rw [if_neg (by omega)]
  refine ⟨_, rfl, by rw [loopLM_eq]; simp, fun l hlm q hq => ?_⟩
  have hlt : l ^ 2 + q < (l_max + 1) ^ 2 := by nlinarith
  rw [loopLM_eq, List.map_map, List.getD_eq_getElem?_getD, List.getElem?_map, List.getElem?_range hlt]
  simp only [Option.map_some, Option.getD_some, Function.comp_apply]
  rw [lmOfIndex_block l q (by omega)]
  simp only
  unfold quadSum pVal
  cases hp : pTerm eps b r κ l ((q : ℤ) - l) with
  | none => simp
  | some p =>
    have h1 := pTerm_low _ _ _ _ _ _ hq _ hp
    obtain ⟨low, f⟩ := p
    have hor : (if low then min order 20 else order) = pOrder order l q := by
      simp only at h1
      rw [h1]
      unfold pOrder
      split_ifs <;> simp_all
    simp only
    rw [hor, show (0.25 : ℝ) * κ = κ / 4 by ring]
    congr 2
    exact List.map_congr_left fun xw _ => mul_comm _ _

theorem quadSum_close {n : ℕ} {rule : List (ℝ × ℝ)} (h : IsGaussLegendre n rule) {f g : ℝ → ℝ} {d : ℝ} (hd : 0 ≤ d)
    (hfg : ∀ x, -1 ≤ x → x ≤ 1 → |f x - g x| ≤ d) : |quadSum rule f - quadSum rule g| ≤ 2 * d := by
  have h2 : ∀ L : List (ℝ × ℝ), (∀ xw ∈ L, 0 < xw.2 ∧ -1 < xw.1 ∧ xw.1 < 1) →
      |quadSum L f - quadSum L g| ≤ d * (L.map fun xw => xw.2 * 1).sum := by
    intro L
    induction L with
    | nil => simp [quadSum]
    | cons a t ih =>
      intro hL
      obtain ⟨a1, a2, a3⟩ := hL a (by simp)
      have := ih fun xw hx => hL xw (List.mem_cons_of_mem _ hx)
      unfold quadSum at this ⊢
      simp only [List.map_cons, List.sum_cons]
      have h3 := mul_le_mul_of_nonneg_left (hfg a.1 a2.le a3.le) a1.le
      rw [← abs_of_pos a1, ← abs_mul, abs_of_pos a1] at h3
      rw [mul_add]
      refine le_trans (le_trans (le_of_eq ?_) (abs_add_le _ _)) (add_le_add (h3.trans (le_of_eq (by ring))) this)
      congr 1; ring
  refine (h2 rule fun xw hx => node_facts h hx).trans ?_
  rw [mul_comm]
  refine mul_le_mul_of_nonneg_right ?_ hd
  rcases Nat.eq_zero_or_pos n with h0 | h0
  · have := h.length
    rw [h0, List.length_eq_zero_iff] at this
    simp [this]
  · exact (weights_sum h h0).le

/-- C85: every entry of the solution vector is the integral over the visible part of the star, up to the error of the
quadrature on the edge of the occultor and to the guards, for all positions and radii -/
theorem solutionVector_close {quad : ℕ → List (ℝ × ℝ)} (hq : ∀ n, IsGaussLegendre n (quad n)) {eps : ℝ} (he : 0 < eps) (l_max : ℕ)
    (hl : 1 ≤ l_max) {b r : ℝ} (hb : 0 ≤ b) (hr : 0 ≤ r) (hne : ¬ (b = 0 ∧ r = 1)) (order : ℕ) :
    ∃ S, solutionVector eps quad l_max order b r = .ok S ∧ S.length = (l_max + 1) ^ 2 ∧
      ∀ l ≤ l_max, ∀ q ≤ 2 * l,
        |(∫ p in stellarDisc \ occultorY b r, polyVal (gtilde (l ^ 2 + q)) p.1 p.2 (mu p)) - S.getD (l ^ 2 + q) 0 -
          edgeError (quad (pOrder order l q)) b r (kappas b r).1 l q| ≤ (kappas b r).1 / 2 * guardSize eps b r l q := by
  obtain ⟨P, hP, lP, vP⟩ := pIntegral_val eps quad order l_max hl b r (kappas b r).1
  obtain ⟨Q, hQ, lQ, vQ⟩ := qIntegral_spec l_max (0.5 * π - (kappas b r).2)
  refine ⟨List.zipWith (fun q p => q - p) Q P, ?_, by simp [lP, lQ], fun l hlm q hql => ?_⟩
  · unfold solutionVector
    simp only [abs_of_nonneg hb, abs_of_nonneg hr, hP, hQ]
  · have hlt : l ^ 2 + q < (l_max + 1) ^ 2 := by nlinarith
    have e : (List.zipWith (fun q p => q - p) Q P).getD (l ^ 2 + q) 0 = Q.getD (l ^ 2 + q) 0 - P.getD (l ^ 2 + q) 0 := by
      simp only [List.getD_eq_getElem?_getD, List.getElem?_zipWith]
      rw [List.getElem?_eq_getElem (by omega), List.getElem?_eq_getElem (by omega)]
      simp
    rw [e, vP l hlm q hql, vQ l hlm q hql, visible_green l q hql hb hr hne, arc_edgePair,
      show 0.5 * π - (kappas b r).2 = π / 2 - (kappas b r).2 by ring]
    unfold edgeError
    simp only
    rcases kappa_zero_or hb hr with h0 | ⟨h1, h2⟩
    · rw [h0]; simp
    obtain ⟨k0, kπ, hpos, hneg⟩ := w_sign hb hr h1 h2
    rw [← kappas_eq] at k0 kπ hpos
    set κ := (kappas b r).1
    have hc := quadSum_close (hq (pOrder order l q)) (f := pVal eps b r κ l q)
      (g := fun x => 2 * edgePair (greenField (2 * l - q) q) b r (κ / 2 * (x + 1))) (guardSize_nonneg he hb hr l q) (fun x x1 x2 => by
        refine pVal_close he hb hr κ l q hql x fun _ _ => hpos _ ?_ ?_
        · exact mul_nonneg (by linarith) (by linarith)
        · nlinarith)
    have h2s : quadSum (quad (pOrder order l q)) (fun x => 2 * edgePair (greenField (2 * l - q) q) b r (κ / 2 * (x + 1))) =
        2 * quadSum (quad (pOrder order l q)) (fun x => edgePair (greenField (2 * l - q) q) b r (κ / 2 * (x + 1))) := by
      unfold quadSum
      rw [← List.sum_map_mul_left]
      congr 1
      exact List.map_congr_left fun xw _ => by ring
    rw [h2s] at hc
    have := mul_le_mul_of_nonneg_left hc (by linarith : 0 ≤ κ / 4)
    rw [← abs_of_nonneg (by linarith : 0 ≤ κ / 4), ← abs_mul, abs_of_nonneg (by linarith : 0 ≤ κ / 4)] at this
    calc _ = |κ / 4 * (quadSum (quad (pOrder order l q)) (pVal eps b r κ l q) -
          2 * quadSum (quad (pOrder order l q)) (fun x => edgePair (greenField (2 * l - q) q) b r (κ / 2 * (x + 1))))| := by
          congr 1; ring
      _ ≤ _ := this
      _ = _ := by ring

end Jaxoplanet.Starry
