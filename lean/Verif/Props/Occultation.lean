import Verif.Props.QIntegral
import Verif.Props.Green
import Verif.Props.DiscIntegral
import Verif.Proofs.VisiblePoly

/-!
# C64: the solution vector integrates the Green basis over the visible part of an occulted star
-/

namespace Jaxoplanet.Starry

open _root_.Jaxoplanet.Starry.Spec _root_.Jaxoplanet.Spec _root_.Jaxoplanet.Green _root_.Jaxoplanet.LimbDark
open Real intervalIntegral MeasureTheory Set

theorem continuous_polyVal (p : List ((ℕ × ℕ × ℕ) × ℝ)) : Continuous fun q : ℝ × ℝ => polyVal p q.1 q.2 (mu q) := by
  have hmu := continuous_mu
  unfold polyVal
  induction p with
  | nil => simp only [List.map_nil, List.sum_nil]; fun_prop
  | cons a p ih => simp only [List.map_cons, List.sum_cons]; fun_prop

/-- a constant zero component -/
theorem zero_C1 : ChainC1 (fun _ _ => 0) (fun _ _ => 0) (fun _ _ => 0) := by
  refine ⟨fun X Y X' Y' t _ _ => ?_, ?_, ?_, ?_⟩
  · simpa using hasDerivAt_const t (0 : ℝ)
  all_goals exact continuous_const

/-- a component `x^a y^c z³` -/
theorem cube_C1 (a c : ℕ) : ChainC1 (fun x y => x ^ a * y ^ c * √(1 - x ^ 2 - y ^ 2) ^ 3)
    (fun x y => a * x ^ (a - 1) * y ^ c * √(1 - x ^ 2 - y ^ 2) ^ 3 - 2 * x ^ (a + 1) * y ^ c * (3 / 2 * √(1 - x ^ 2 - y ^ 2)))
    (fun x y => c * x ^ a * y ^ (c - 1) * √(1 - x ^ 2 - y ^ 2) ^ 3 - 2 * x ^ a * y ^ (c + 1) * (3 / 2 * √(1 - x ^ 2 - y ^ 2))) :=
  monoField_C1 a c (H := fun t => √t ^ 3) (H' := fun t => 3 / 2 * √t) hasDerivAt_cube (by fun_prop)

theorem curl_unique {G : ℝ → ℝ → ℝ × ℝ} {c a b x y : ℝ} (h : HasCurlAt G c x y) (ha : HasDerivAt (fun s => (G s y).2) a x)
    (hb : HasDerivAt (fun s => (G x s).1) b y) : c = a - b := by
  obtain ⟨a', b', h1, h2, h3⟩ := h
  rw [h3, h1.unique ha, h2.unique hb]

theorem ChainC1.dx {F Fx Fy : ℝ → ℝ → ℝ} (h : ChainC1 F Fx Fy) (x y : ℝ) : HasDerivAt (fun s => F s y) (Fx x y) x := by
  simpa using h.chain (fun s => s) (fun _ => y) 1 0 x (hasDerivAt_id x) (hasDerivAt_const x y)

theorem ChainC1.dy {F Fx Fy : ℝ → ℝ → ℝ} (h : ChainC1 F Fx Fy) (x y : ℝ) : HasDerivAt (fun s => F x s) (Fy x y) y := by
  simpa using h.chain (fun _ => x) (fun s => s) 0 1 y (hasDerivAt_const y x) (hasDerivAt_id y)

theorem greenField_even (μ ν : ℕ) (h : ν % 2 = 0) : greenField μ ν = fun x y => (0, x ^ ((μ + 2) / 2) * y ^ (ν / 2)) := by
  funext x y
  unfold greenField
  simp only [h, if_true]

theorem greenField_x (l : ℕ) (hl : 2 ≤ l) (h : l % 2 = 0) : greenField 1 (2 * l - 1) =
    fun x y => (x ^ (l - 2) * y ^ 0 * √(1 - x ^ 2 - y ^ 2) ^ 3, 0) := by
  funext x y
  unfold greenField
  simp only
  rw [if_neg (by omega), if_neg (by omega), show (1 + (2 * l - 1)) / 2 = l by omega, if_pos ⟨trivial, h⟩]
  simp

theorem greenField_y (l : ℕ) (hl : 2 ≤ l) (h : l % 2 = 1) : greenField 1 (2 * l - 1) =
    fun x y => (x ^ (l - 3) * y ^ 1 * √(1 - x ^ 2 - y ^ 2) ^ 3, 0) := by
  funext x y
  unfold greenField
  simp only
  rw [if_neg (by omega), if_neg (by omega), show (1 + (2 * l - 1)) / 2 = l by omega, if_neg (by omega), if_pos trivial]
  simp

theorem greenField_z (μ ν : ℕ) (hν : ν % 2 = 1) (hμ : μ ≠ 1) : greenField μ ν =
    fun x y => (0, x ^ ((μ - 3) / 2) * y ^ ((ν - 1) / 2) * √(1 - x ^ 2 - y ^ 2) ^ 3) := by
  funext x y
  unfold greenField
  simp only
  rw [if_neg (by omega), if_neg (by omega), if_neg (by omega), if_neg hμ]

theorem visible_of_fields {F1 F1x F1y F2 F2x F2y : ℝ → ℝ → ℝ} (C1 : ChainC1 F1 F1x F1y) (C2 : ChainC1 F2 F2x F2y)
    (z1 : ∀ x y, 1 - x ^ 2 - y ^ 2 ≤ 0 → F1 x y = 0 ∧ F2 x y = 0 ∧ F1y x y = 0 ∧ F2x x y = 0) (μ ν : ℕ)
    (hG : greenField μ ν = fun x y => (F1 x y, F2 x y)) (f : ℝ × ℝ → ℝ) (hf : Continuous f)
    (hcurl : ∀ x y : ℝ, x ^ 2 + y ^ 2 < 1 → HasCurlAt (greenField μ ν) (f (x, y)) x y)
    {b r : ℝ} (hb : 0 ≤ b) (hr : 0 ≤ r) (hne : ¬ (b = 0 ∧ r = 1)) :
    ∫ p in stellarDisc \ occultorY b r, f p =
      arcIntegral (greenField μ ν) 0 0 1 (π - (π / 2 - (kappas b r).2)) (2 * π + (π / 2 - (kappas b r).2)) -
        arcIntegral (greenField μ ν) 0 b r (-(π / 2) - (kappas b r).1) (-(π / 2) + (kappas b r).1) := by
  have h := visible_cube C1 C2 z1 f hf (fun x y hxy => ?_) hb hr hne
  · rw [hG]; exact h
  · refine curl_unique (hcurl x y hxy) ?_ ?_
    · rw [hG]; exact C2.dx x y
    · rw [hG]; exact C1.dy x y

/-- C64: Green's theorem for the basis of the code. The integral of the `n`-th Green basis polynomial over the part of
the star that is not behind the occultor is the line integral along the visible limb minus the line integral along the
occultor's edge, between the angles computed by `kappas` -/
theorem visible_green (l q : ℕ) (hq : q ≤ 2 * l) {b r : ℝ} (hb : 0 ≤ b) (hr : 0 ≤ r) (hne : ¬ (b = 0 ∧ r = 1)) :
    ∫ p in stellarDisc \ occultorY b r, polyVal (gtilde (l ^ 2 + q)) p.1 p.2 (mu p) =
      arcIntegral (greenField (2 * l - q) q) 0 0 1 (π - (π / 2 - (kappas b r).2)) (2 * π + (π / 2 - (kappas b r).2)) -
        arcIntegral (greenField (2 * l - q) q) 0 b r (-(π / 2) - (kappas b r).1) (-(π / 2) + (kappas b r).1) := by
  have hcurl : ∀ x y : ℝ, x ^ 2 + y ^ 2 < 1 →
      HasCurlAt (greenField (2 * l - q) q) (polyVal (gtilde (l ^ 2 + q)) x y (mu (x, y))) x y := by
    intro x y hxy
    have := gtilde_is_curl l ((q : ℤ) - l) (by rw [abs_le]; omega) x y hxy
    have e1 : ((l : ℤ) - ((q : ℤ) - l)).toNat = 2 * l - q := by omega
    have e2 : ((l : ℤ) + ((q : ℤ) - l)).toNat = q := by omega
    have e3 : (Ylm.index l ((q : ℤ) - l)).toNat = l ^ 2 + q := by
      have : Ylm.index l ((q : ℤ) - l) = ((l ^ 2 + q : ℕ) : ℤ) := by
        unfold Ylm.index; push_cast; ring
      rw [this, Int.toNat_natCast]
    rwa [e1, e2, e3] at this
  have hc := continuous_polyVal (gtilde (l ^ 2 + q))
  by_cases c1 : q % 2 = 0
  · obtain ⟨a, ha⟩ : ∃ a, 2 * l - q = 2 * a := ⟨(2 * l - q) / 2, by omega⟩
    have hG := greenField_even (2 * l - q) q c1
    rw [ha, show (2 * a + 2) / 2 = a + 1 by omega] at hG
    rw [ha, hG]
    rw [← visible_poly (a + 1) (q / 2) (by omega) hb hr hne]
    refine setIntegral_congr_fun (measurableSet_stellarDisc.diff (measurableSet_occultorY b r)) fun p _ => ?_
    unfold gtilde
    rw [polyVal_filter_zero, gtilde_block l q hq, if_pos c1, ha]
    have t1 : (((2 * a : ℕ) : ℤ) / 2).toNat = a := by omega
    have t2 : ((q : ℤ) / 2).toNat = q / 2 := by omega
    have t3 : (((2 * a : ℕ) : ℤ) + 2) / 2 = ((a + 1 : ℕ) : ℤ) := by omega
    simp only [List.map_cons, List.map_nil, List.sum_cons, List.sum_nil, t1, t2, t3, Nat.add_sub_cancel, Int.toNat_zero, pow_zero]
    push_cast
    ring
  by_cases c2 : l = 1 ∧ q = 1
  · obtain ⟨rfl, rfl⟩ := c2
    have := visible_linear hb hr hne
    rw [show 2 * 1 - 1 = 1 from rfl, ← this]
    refine setIntegral_congr_fun (measurableSet_stellarDisc.diff (measurableSet_occultorY b r)) fun p _ => ?_
    unfold gtilde
    rw [polyVal_filter_zero, gtilde_block 1 1 (by omega)]
    norm_num
  have zr : ∀ x y : ℝ, 1 - x ^ 2 - y ^ 2 ≤ 0 → √(1 - x ^ 2 - y ^ 2) = 0 := fun x y h => sqrt_eq_zero_of_nonpos h
  by_cases c4 : 2 * l - q = 1
  · obtain rfl : q = 2 * l - 1 := by omega
    rw [c4] at hcurl ⊢
    rcases Nat.mod_two_eq_zero_or_one l with c3 | c3
    · exact visible_of_fields (cube_C1 (l - 2) 0) zero_C1 (fun x y h => by simp [zr x y h]) 1 (2 * l - 1)
        (greenField_x l (by omega) c3) _ hc hcurl hb hr hne
    · exact visible_of_fields (cube_C1 (l - 3) 1) zero_C1 (fun x y h => by simp [zr x y h]) 1 (2 * l - 1)
        (greenField_y l (by omega) c3) _ hc hcurl hb hr hne
  · exact visible_of_fields zero_C1 (cube_C1 ((2 * l - q - 3) / 2) ((q - 1) / 2)) (fun x y h => by simp [zr x y h]) (2 * l - q) q
      (greenField_z _ _ (by omega) c4) _ hc hcurl hb hr hne

theorem half_angle (κ x : ℝ) : sin (0.25 * κ * (x + 1)) ^ 2 = (1 - cos (κ / 2 * (x + 1))) / 2 := by
  have h := cos_sq (0.25 * κ * (x + 1))
  have h2 := sin_sq_add_cos_sq (0.25 * κ * (x + 1))
  rw [show 2 * (0.25 * κ * (x + 1)) = κ / 2 * (x + 1) by ring] at h
  linarith

theorem a1_half (c s : ℝ) (h : s ^ 2 + c ^ 2 = 1) : (1 - c) / 2 - ((1 - c) / 2) ^ 2 = (s / 2) ^ 2 := by
  linear_combination (-1 / 4) * h

/-- the integrands of `p_integral`, with the trigonometric abbreviations of the code expanded; `φ` is the angle along
the occultor's edge -/
noncomputable def pExact (b r : ℝ) (l μ ν : ℕ) (φ : ℝ) : Option (Bool × ℝ) :=
  if μ = 1 ∧ l = 1 then some (false, 4 * (r * (r - b * cos φ) * ((1 + √(w b r φ) + √(w b r φ) ^ 2) / (3 * (1 + √(w b r φ))))))
  else if μ % 2 = 0 ∧ (μ / 2) % 2 = 0 then some (true, 4 * ((r * sin φ) ^ (μ / 2 + 2) * (b - r * cos φ) ^ (ν / 2)))
  else if μ = 1 ∧ l % 2 = 0 then some (false, 4 * ((r * sin φ) ^ (l - 2) * √(w b r φ) ^ 3 * (r * cos φ)))
  else if μ = 1 then some (false, 4 * ((r * sin φ) ^ (l - 3) * (b - r * cos φ) * √(w b r φ) ^ 3 * (r * cos φ)))
  else if (μ - 1) % 2 = 0 ∧ ((μ - 1) / 2) % 2 = 0 then
    some (false, 4 * ((r * sin φ) ^ ((μ - 1) / 2) * (b - r * cos φ) ^ ((ν - 1) / 2) * √(w b r φ) ^ 3))
  else none

theorem f0_exact {eps b r : ℝ} (h4 : 10 * eps ≤ 4 * b * r ∨ b = 0) (he : 0 < eps) (c φ : ℝ) (hc : c = cos φ) :
    (max 0 (if 4 * b * r < 10 * eps then 1 - r ^ 2 else
      (if 4 * b * r < 10 * eps then 1 else 4 * b * r) *
        (max 0 ((1 - r ^ 2 - b ^ 2 + 2 * b * r) / (if 4 * b * r < 10 * eps then 1 else 4 * b * r)) - (1 - c) / 2))) ^ (1.5 : ℝ) =
      √(w b r φ) ^ 3 := by
  rw [sqrt_cube, show (1.5 : ℝ) = 3 / 2 by norm_num]
  congr 1
  rcases h4 with h4 | h4
  · rw [if_neg (not_lt.2 h4), if_neg (not_lt.2 h4)]
    have hp : 0 < 4 * b * r := by linarith
    unfold w
    rw [max_comm]
    rcases le_total 0 (1 - r ^ 2 - b ^ 2 + 2 * b * r) with h | h
    · rw [max_eq_right (a := 0) (by positivity)]
      congr 1
      rw [hc]
      have hb0 : b ≠ 0 := by rintro rfl; simp at hp
      have hr0 : r ≠ 0 := by rintro rfl; simp at hp
      field_simp
      ring
    · rw [max_eq_left (a := 0) (div_nonpos_of_nonpos_of_nonneg h hp.le)]
      have := cos_le_one φ
      rw [max_eq_right, max_eq_right]
      · nlinarith
      · rw [hc]; nlinarith
  · subst h4
    rw [if_pos (by linarith), max_comm]
    unfold w
    congr 1
    ring

theorem pTerm_exact {eps b r : ℝ} (he : 0 < eps) (hr : 10 * eps ≤ r) (h4 : 10 * eps ≤ 4 * b * r ∨ b = 0) (l q : ℕ) (hq : q ≤ 2 * l) (κ : ℝ)  (x : ℝ)
    (hx : l = 1 → q = 1 → 0 ≤ w b r (κ / 2 * (x + 1)) ∧ 10 * eps ≤ 1 - w b r (κ / 2 * (x + 1))) :
    (pTerm eps b r κ l ((q : ℤ) - l)).map (fun p => (p.1, p.2 x)) = pExact b r l (2 * l - q) q (κ / 2 * (x + 1)) := by
  have hr0 : r ≠ 0 := by linarith
  have hr1 : ¬ r < 10 * eps := by linarith
  have e1 : ((l : ℤ) - ((q : ℤ) - l)).toNat = 2 * l - q := by omega
  have e2 : ((l : ℤ) + ((q : ℤ) - l)).toNat = q := by omega
  have hsc := sin_sq_add_cos_sq (κ / 2 * (x + 1))
  have ha2 : (b - r) / (2 * r) + (1 - cos (κ / 2 * (x + 1))) / 2 = (b - r * cos (κ / 2 * (x + 1))) / (2 * r) := by
    field_simp; ring
  have ha4 : 1 - 2 * ((1 - cos (κ / 2 * (x + 1))) / 2) = cos (κ / 2 * (x + 1)) := by ring
  unfold pTerm pExact
  rw [e1, e2]
  by_cases c1 : 2 * l - q = 1 ∧ l = 1
  · simp only [if_pos c1, Option.map_some]
    obtain ⟨h0, h1⟩ := hx c1.2 (by omega)
    rw [show 2 * (0.25 * κ) * x + 0.5 * κ = κ / 2 * (x + 1) by ring]
    generalize κ / 2 * (x + 1) = φ at *
    have hw : r ^ 2 + b ^ 2 - 2 * b * r * cos φ = 1 - w b r φ := by unfold w; ring
    rw [hw, if_neg (not_lt.2 h1), if_neg (not_lt.2 h1), sub_sub_cancel, max_eq_right h0]
    unfold Kepler.zeroSafeSqrt
    obtain ⟨z, hz⟩ : ∃ z, z = √(w b r φ) := ⟨_, rfl⟩
    have hz0 : 0 ≤ z := hz ▸ sqrt_nonneg _
    have hz2 : w b r φ = z ^ 2 := by rw [hz, sq_sqrt h0]
    rw [← hz, hz2]
    rw [hz2] at h1
    have : 1 + z ≠ 0 := by linarith
    have h3 : 1 - z ^ 2 ≠ 0 := by linarith
    congr 2
    field_simp
    ring
  simp only [if_neg c1]
  by_cases c2 : (2 * l - q) % 2 = 0 ∧ ((2 * l - q) / 2) % 2 = 0
  · simp only [if_pos c2, Option.map_some, half_angle, if_neg hr1]
    rw [a1_half _ _ hsc, ha2]
    generalize κ / 2 * (x + 1) = φ at *
    obtain ⟨a, ha⟩ : ∃ a, 2 * l - q = 4 * a := ⟨(2 * l - q) / 4, by omega⟩
    obtain ⟨c, rfl⟩ : ∃ c, q = 2 * c := ⟨q / 2, by omega⟩
    obtain rfl : l = 2 * a + c := by omega
    rw [ha]
    have t1 : (0.25 * (((4 * a : ℕ) : ℝ) + 4)) = ((a + 1 : ℕ) : ℝ) := by push_cast; ring
    have t2 : (0.5 * ((2 * c : ℕ) : ℝ)) = ((c : ℕ) : ℝ) := by push_cast; ring
    rw [t1, t2, rpow_natCast, rpow_natCast, show 4 * a / 2 + 2 = 2 * (a + 1) by omega, show 2 * c / 2 = c by omega,
      show 2 * a + c + 2 = 2 * (a + 1) + c by omega]
    congr 2
    rw [← pow_mul, div_pow, div_pow, pow_add (2 * r), mul_pow 2 r, mul_pow 2 r, mul_pow r]
    field_simp
    ring
  simp only [if_neg c2]
  have hf := f0_exact h4 he _ _ (rfl : cos (κ / 2 * (x + 1)) = cos (κ / 2 * (x + 1)))
  by_cases c3 : 2 * l - q = 1 ∧ l % 2 = 0
  · simp only [if_pos c3, Option.map_some, half_angle]
    rw [hf, a1_half _ _ hsc, ha4]
    generalize κ / 2 * (x + 1) = φ at *
    obtain ⟨c, rfl⟩ : ∃ c, l = 2 * c + 2 := ⟨(l - 2) / 2, by omega⟩
    have t1 : (((2 * c + 2 : ℕ) : ℤ) - 1) = ((2 * c + 1 : ℕ) : ℤ) := by omega
    rw [t1, zpow_natCast, show (2 * c + 2) / 2 - 1 = c by omega, show 2 * c + 2 - 2 = 2 * c by omega]
    congr 2
    rw [← pow_mul, div_pow]
    field_simp
    ring
  simp only [if_neg c3]
  by_cases c4 : 2 * l - q = 1
  · simp only [if_pos c4, Option.map_some, half_angle, if_neg hr1]
    rw [hf, a1_half _ _ hsc, ha4, ha2]
    generalize κ / 2 * (x + 1) = φ at *
    obtain ⟨c, rfl⟩ : ∃ c, l = 2 * c + 3 := ⟨(l - 3) / 2, by omega⟩
    have t1 : (((2 * c + 3 : ℕ) : ℤ) - 1) = ((2 * c + 2 : ℕ) : ℤ) := by omega
    rw [t1, zpow_natCast, show (2 * c + 3 - 3) / 2 = c by omega, show 2 * c + 3 - 3 = 2 * c by omega]
    congr 2
    rw [← pow_mul, div_pow]
    field_simp
    ring
  simp only [if_neg c4]
  have c5 : (((2 * l - q : ℕ) : ℤ) - 1) % 2 = 0 ∧ ((2 * l - q - 1) / 2) % 2 = 0 ↔ (2 * l - q - 1) % 2 = 0 ∧ ((2 * l - q - 1) / 2) % 2 = 0 := by
    omega
  by_cases c6 : (2 * l - q - 1) % 2 = 0 ∧ ((2 * l - q - 1) / 2) % 2 = 0
  · simp only [if_pos c6, if_pos (c5.2 c6), Option.map_some, half_angle, if_neg hr1]
    rw [hf, a1_half _ _ hsc, ha2]
    generalize κ / 2 * (x + 1) = φ at *
    obtain ⟨a, ha⟩ : ∃ a, 2 * l - q = 4 * a + 1 := ⟨(2 * l - q - 1) / 4, by omega⟩
    obtain ⟨c, rfl⟩ : ∃ c, q = 2 * c + 1 := ⟨q / 2, by omega⟩
    obtain rfl : l = 2 * a + c + 1 := by omega
    have t1 : (((2 * a + c + 1 : ℕ) : ℤ) - 1) = ((2 * a + c : ℕ) : ℤ) := by omega
    have t2 : (0.5 * (((2 * c + 1 : ℕ) : ℝ) - 1)) = ((c : ℕ) : ℝ) := by push_cast; ring
    rw [ha, t1, t2, zpow_natCast, rpow_natCast, show (4 * a + 1 - 1) / 4 = a by omega, show (4 * a + 1 - 1) / 2 = 2 * a by omega,
      show (2 * c + 1 - 1) / 2 = c by omega]
    congr 2
    rw [← pow_mul, div_pow, div_pow, pow_add (2 * r), mul_pow 2 r, mul_pow 2 r, mul_pow r]
    field_simp
    ring
  · simp only [if_neg c6, if_neg (fun h => c6 (c5.1 h)), Option.map_none]

theorem occLine_eq (b r : ℝ) (l q : ℕ) (hq : q ≤ 2 * l) (φ : ℝ) :
    (match pExact b r l (2 * l - q) q φ with
      | none => 0
      | some p => p.2) = 2 * edgePair (greenField (2 * l - q) q) b r φ := by
  unfold edgePair pExact
  simp only [sin_neg, cos_neg]
  have hw := w_occ b r φ
  have hw' : 1 - (r * -sin φ) ^ 2 - (b - r * cos φ) ^ 2 = w b r φ := by rw [← w_occ]; ring
  by_cases c1 : 2 * l - q = 1 ∧ l = 1
  · obtain rfl : q = 1 := by omega
    rw [if_pos c1, c1.1]
    unfold greenField
    simp only [hw, hw']
    norm_num
    have hs := sqrt_nonneg (w b r φ)
    generalize √(w b r φ) = z at *
    have : 1 + z ≠ 0 := by linarith
    field_simp
    linear_combination (-4 * (1 + z + z ^ 2) * r ^ 2) * sin_sq_add_cos_sq φ
  rw [if_neg c1]
  by_cases c0 : q % 2 = 0
  · rw [greenField_even _ _ c0]
    simp only
    by_cases c2 : (2 * l - q) % 2 = 0 ∧ ((2 * l - q) / 2) % 2 = 0
    · rw [if_pos c2]
      obtain ⟨a, ha⟩ : ∃ a, 2 * l - q = 4 * a := ⟨(2 * l - q) / 4, by omega⟩
      rw [ha, show 4 * a / 2 + 2 = 2 * a + 2 by omega, show (4 * a + 2) / 2 = 2 * a + 1 by omega, mul_neg, Odd.neg_pow (by use a)]
      ring
    · rw [if_neg c2, if_neg (by omega), if_neg (by omega), if_neg (by omega)]
      obtain ⟨a, ha⟩ : ∃ a, 2 * l - q = 4 * a + 2 := ⟨(2 * l - q) / 4, by omega⟩
      rw [ha, show (4 * a + 2 + 2) / 2 = 2 * a + 2 by omega, mul_neg, Even.neg_pow (by use a + 1; ring)]
      simp only
      ring
  rw [if_neg (by omega)]
  by_cases c4 : 2 * l - q = 1
  · obtain rfl : q = 2 * l - 1 := by omega
    rw [c4]
    rcases Nat.mod_two_eq_zero_or_one l with c3 | c3
    · rw [greenField_x l (by omega) c3, if_pos ⟨rfl, c3⟩]
      simp only [hw, hw']
      simp only [mul_neg]
      rw [Even.neg_pow (by use (l - 2) / 2; omega)]
      ring
    · rw [greenField_y l (by omega) c3, if_neg (by omega), if_pos rfl]
      simp only [hw, hw']
      simp only [mul_neg]
      rw [Even.neg_pow (by use (l - 3) / 2; omega)]
      ring
  rw [if_neg (by omega), if_neg c4, greenField_z _ _ (by omega) c4]
  simp only [hw, hw']
  simp only [mul_neg]
  by_cases c6 : (2 * l - q - 1) % 2 = 0 ∧ ((2 * l - q - 1) / 2) % 2 = 0
  · rw [if_pos c6]
    obtain ⟨a, ha⟩ : ∃ a, 2 * l - q = 4 * a + 5 := ⟨(2 * l - q - 5) / 4, by omega⟩
    rw [ha, show (4 * a + 5 - 1) / 2 = 2 * a + 2 by omega, show (4 * a + 5 - 3) / 2 = 2 * a + 1 by omega, Odd.neg_pow (by use a)]
    simp only
    ring
  · rw [if_neg c6]
    obtain ⟨a, ha⟩ : ∃ a, 2 * l - q = 4 * a + 3 := ⟨(2 * l - q - 3) / 4, by omega⟩
    rw [ha, show (4 * a + 3 - 3) / 2 = 2 * a by omega, Even.neg_pow (by use a; ring)]
    simp only
    ring

theorem continuous_greenField (μ ν : ℕ) : Continuous fun p : ℝ × ℝ => greenField μ ν p.1 p.2 := by
  unfold greenField
  simp only
  have h : ∀ p : ℝ × ℝ, 3 * (1 + √(1 - p.1 ^ 2 - p.2 ^ 2)) ≠ 0 := fun p => by positivity
  split_ifs
  · fun_prop
  · refine Continuous.prodMk (Continuous.mul (Continuous.div (by fun_prop) (by fun_prop) h) (by fun_prop))
      (Continuous.mul (Continuous.div (by fun_prop) (by fun_prop) h) (by fun_prop))
  all_goals fun_prop

theorem continuous_occLine (μ ν : ℕ) (b r : ℝ) : Continuous (occLine (greenField μ ν) b r) := by
  have h0 := continuous_greenField μ ν
  generalize greenField μ ν = G at *
  have h : Continuous fun φ : ℝ => G (r * sin φ) (b - r * cos φ) :=
    h0.comp (by fun_prop : Continuous fun φ : ℝ => (r * sin φ, b - r * cos φ))
  exact (h.fst.mul (by fun_prop)).add (h.snd.mul (by fun_prop))

theorem arc_edgePair (μ ν : ℕ) (b r κ : ℝ) :
    arcIntegral (greenField μ ν) 0 b r (-(π / 2) - κ) (-(π / 2) + κ) =
      κ / 2 * ∫ x in (-1 : ℝ)..1, edgePair (greenField μ ν) b r (κ / 2 * (x + 1)) := by
  rw [arcIntegral_occ, fold_arc (continuous_occLine μ ν b r)]
  have h := intervalIntegral.mul_integral_comp_mul_add (a := -1) (b := 1) (f := edgePair (greenField μ ν) b r) (κ / 2) (κ / 2)
  rw [show κ / 2 * -1 + κ / 2 = 0 by ring, show κ / 2 * 1 + κ / 2 = κ by ring] at h
  have e : ∀ φ, occLine (greenField μ ν) b r φ + occLine (greenField μ ν) b r (-φ) = edgePair (greenField μ ν) b r φ := by
    intro φ
    simp only [occLine, edgePair]
  simp only [e, ← h, mul_add, mul_one]

/-- the occultor is not so small, and not so close to the centre of the star without being there, that the code replaces
terms of the integrands by constants; the nodes of the quadrature lie in `[-1, 1]` and none of them falls on the centre of
the star. `κ` is the opening angle of the edge (`0`: the edge does not cross the star and nothing is integrated) -/
def Regular (eps : ℝ) (nodes : List (ℝ × ℝ)) (b r κ : ℝ) : Prop :=
  κ = 0 ∨ (10 * eps ≤ r ∧ (10 * eps ≤ 4 * b * r ∨ b = 0) ∧
    ∀ xw ∈ nodes, -1 ≤ xw.1 ∧ xw.1 ≤ 1 ∧ 10 * eps ≤ r ^ 2 + b ^ 2 - 2 * b * r * cos (κ / 2 * (xw.1 + 1)))

theorem kappa_zero_or {b r : ℝ} (hb : 0 ≤ b) (hr : 0 ≤ r) : (kappas b r).1 = 0 ∨ (b < 1 + r ∧ r < 1 + b) := by
  by_cases h1 : b < 1 + r
  · by_cases h2 : r < 1 + b
    · exact Or.inr ⟨h1, h2⟩
    · left
      by_cases hne : b = 0 ∧ r = 1
      · rw [hne.1, hne.2, equal_kappas]
      · rw [full_kappas hb (by linarith) hne]
  · left
    rw [none_kappas hb hr (by linarith)]

/-- the order of the quadrature used for an index: the polynomial terms are capped at 20 -/
def pOrder (order l q : ℕ) : ℕ := if (2 * l - q) % 4 = 0 then min order 20 else order

theorem pTerm_low (eps b r κ : ℝ) (l q : ℕ) (hq : q ≤ 2 * l) (p : Bool × (ℝ → ℝ))
    (h : pTerm eps b r κ l ((q : ℤ) - l) = some p) : p.1 = decide ((2 * l - q) % 4 = 0) := by
  have e1 : ((l : ℤ) - ((q : ℤ) - l)).toNat = 2 * l - q := by omega
  unfold pTerm at h
  simp only [e1] at h
  by_cases c1 : 2 * l - q = 1 ∧ l = 1
  · rw [if_pos c1] at h
    rw [← Option.some.inj h]
    exact (decide_eq_false (by omega)).symm
  rw [if_neg c1] at h
  by_cases c2 : (2 * l - q) % 2 = 0 ∧ (2 * l - q) / 2 % 2 = 0
  · rw [if_pos c2] at h
    rw [← Option.some.inj h]
    exact (decide_eq_true (by omega)).symm
  rw [if_neg c2] at h
  have hf : decide ((2 * l - q) % 4 = 0) = false := decide_eq_false (by omega)
  rw [hf]
  by_cases c3 : 2 * l - q = 1 ∧ l % 2 = 0
  · rw [if_pos c3] at h
    rw [← Option.some.inj h]
  rw [if_neg c3] at h
  by_cases c4 : 2 * l - q = 1
  · rw [if_pos c4] at h
    rw [← Option.some.inj h]
  rw [if_neg c4] at h
  by_cases c5 : (((2 * l - q : ℕ) : ℤ) - 1) % 2 = 0 ∧ ((2 * l - q - 1) / 2) % 2 = 0
  · rw [if_pos c5] at h
    rw [← Option.some.inj h]
  · rw [if_neg c5] at h
    exact absurd h (by simp)

theorem pIntegral_spec {eps : ℝ} (he : 0 < eps) (quad : ℕ → List (ℝ × ℝ)) (order l_max : ℕ) (hl : 1 ≤ l_max) {b r : ℝ}
    (hb : 0 ≤ b) (hr : 0 ≤ r) (hreg : Regular eps (quad order) b r (kappas b r).1)
    (hreg' : Regular eps (quad (min order 20)) b r (kappas b r).1) :
    ∃ P, pIntegral eps quad order l_max b r (kappas b r).1 = .ok P ∧ P.length = (l_max + 1) ^ 2 ∧
      ∀ l ≤ l_max, ∀ q ≤ 2 * l, P.getD (l ^ 2 + q) 0 = (kappas b r).1 / 2 *
        quadSum (quad (pOrder order l q)) fun x => edgePair (greenField (2 * l - q) q) b r ((kappas b r).1 / 2 * (x + 1)) := by
  unfold pIntegral
  rw [if_neg (by omega)]
  refine ⟨_, rfl, by rw [loopLM_eq]; simp, fun l hlm q hq => ?_⟩
  have hlt : l ^ 2 + q < (l_max + 1) ^ 2 := by nlinarith
  rw [loopLM_eq, List.map_map, List.getD_eq_getElem?_getD, List.getElem?_map, List.getElem?_range hlt]
  simp only [Option.map_some, Option.getD_some, Function.comp_apply]
  rw [lmOfIndex_block l q (by omega)]
  simp only
  have hor : ∀ p, pTerm eps b r (kappas b r).1 l ((q : ℤ) - l) = some p →
      (if p.1 then min order 20 else order) = pOrder order l q := by
    intro p hp
    rw [pTerm_low _ _ _ _ _ _ hq _ hp]
    unfold pOrder
    split_ifs <;> simp_all
  rcases kappa_zero_or hb hr with h0 | ⟨h1, h2⟩
  · rw [h0]
    split <;> simp
  have hR : Regular eps (quad (pOrder order l q)) b r (kappas b r).1 := by
    unfold pOrder; split_ifs; exacts [hreg', hreg]
  rcases hR with h0 | ⟨g1, g2, g3⟩
  · rw [h0]
    split <;> simp
  obtain ⟨k0, kπ, hpos, hneg⟩ := w_sign hb hr h1 h2
  rw [← kappas_eq] at k0 kπ hpos
  have hterm : ∀ xw ∈ quad (pOrder order l q), (pTerm eps b r (kappas b r).1 l ((q : ℤ) - l)).map (fun p => (p.1, p.2 xw.1)) =
      pExact b r l (2 * l - q) q ((kappas b r).1 / 2 * (xw.1 + 1)) := by
    intro xw hxw
    obtain ⟨n1, n2, n3⟩ := g3 xw hxw
    refine pTerm_exact he g1 g2 l q hq _ _ fun _ _ => ⟨hpos _ ?_ ?_, ?_⟩
    · exact mul_nonneg (by linarith) (by linarith)
    · nlinarith
    · unfold w; linarith
  have hval : ∀ xw ∈ quad (pOrder order l q), 2 * edgePair (greenField (2 * l - q) q) b r ((kappas b r).1 / 2 * (xw.1 + 1)) =
      match pTerm eps b r (kappas b r).1 l ((q : ℤ) - l) with
      | none => 0
      | some p => p.2 xw.1 := by
    intro xw hxw
    rw [← occLine_eq b r l q hq, ← hterm xw hxw]
    cases pTerm eps b r (kappas b r).1 l ((q : ℤ) - l) <;> rfl
  unfold quadSum
  have hs : ∀ S : ℝ, (kappas b r).1 / 2 * S = 0.25 * (kappas b r).1 * (2 * S) := fun S => by ring
  rw [hs, ← List.sum_map_mul_left]
  have e : ((quad (pOrder order l q)).map fun xw => 2 * (xw.2 * edgePair (greenField (2 * l - q) q) b r ((kappas b r).1 / 2 * (xw.1 + 1)))) =
      (quad (pOrder order l q)).map fun xw => (match pTerm eps b r (kappas b r).1 l ((q : ℤ) - l) with
      | none => 0
      | some p => p.2 xw.1) * xw.2 := by
    refine List.map_congr_left fun xw hxw => ?_
    rw [← hval xw hxw]
    ring
  rw [e]
  cases hp : pTerm eps b r (kappas b r).1 l ((q : ℤ) - l) with
  | none => simp
  | some p =>
    obtain ⟨low, f⟩ := p
    simp only
    rw [← hor _ hp]

/-- C64: every entry of the solution vector is the integral of the Green basis polynomial over the visible part of the
star, up to the error of the quadrature rule on the edge of the occultor -/
theorem solutionVector_spec {eps : ℝ} (he : 0 < eps) (quad : ℕ → List (ℝ × ℝ)) (order l_max : ℕ) (hl : 1 ≤ l_max) (b r : ℝ)
    (hne : ¬ (|b| = 0 ∧ |r| = 1)) (hreg : Regular eps (quad order) |b| |r| (kappas |b| |r|).1)
    (hreg' : Regular eps (quad (min order 20)) |b| |r| (kappas |b| |r|).1) :
    ∃ S, solutionVector eps quad l_max order b r = .ok S ∧ S.length = (l_max + 1) ^ 2 ∧
      ∀ l ≤ l_max, ∀ q ≤ 2 * l,
        let κ := (kappas |b| |r|).1
        let g := fun x => edgePair (greenField (2 * l - q) q) |b| |r| (κ / 2 * (x + 1))
        S.getD (l ^ 2 + q) 0 =
          (∫ p in stellarDisc \ occultorY |b| |r|, polyVal (gtilde (l ^ 2 + q)) p.1 p.2 (mu p)) -
            κ / 2 * (quadSum (quad (pOrder order l q)) g - ∫ x in (-1 : ℝ)..1, g x) := by
  obtain ⟨P, hP, lP, vP⟩ := pIntegral_spec he quad order l_max hl (abs_nonneg b) (abs_nonneg r) hreg hreg'
  obtain ⟨Q, hQ, lQ, vQ⟩ := qIntegral_spec l_max (0.5 * π - (kappas |b| |r|).2)
  refine ⟨List.zipWith (fun q p => q - p) Q P, ?_, by simp [lP, lQ], fun l hlm q hq => ?_⟩
  · unfold solutionVector
    simp only [hP, hQ]
  · intro κ g
    have hlt : l ^ 2 + q < (l_max + 1) ^ 2 := by nlinarith
    have e : (List.zipWith (fun q p => q - p) Q P).getD (l ^ 2 + q) 0 = Q.getD (l ^ 2 + q) 0 - P.getD (l ^ 2 + q) 0 := by
      simp only [List.getD_eq_getElem?_getD, List.getElem?_zipWith]
      rw [List.getElem?_eq_getElem (by omega), List.getElem?_eq_getElem (by omega)]
      simp
    rw [e, vP l hlm q hq, vQ l hlm q hq, visible_green l q hq (abs_nonneg b) (abs_nonneg r) hne, arc_edgePair,
      show 0.5 * π - (kappas |b| |r|).2 = π / 2 - (kappas |b| |r|).2 by ring]
    simp only [g, κ]
    ring

/-- C64: the entries with line integrals that are not polynomial converge to the integrals over the visible part of the
star as the order grows, for every family of quadrature rules that converges for continuous functions -/
theorem solutionVector_tendsto {eps : ℝ} (he : 0 < eps) (quad : ℕ → List (ℝ × ℝ)) (l_max : ℕ) (hl : 1 ≤ l_max) (b r : ℝ)
    (hne : ¬ (|b| = 0 ∧ |r| = 1)) (hreg : ∀ order, Regular eps (quad order) |b| |r| (kappas |b| |r|).1)
    (hconv : ∀ g : ℝ → ℝ, Continuous g → Filter.Tendsto (fun n => quadSum (quad n) g) Filter.atTop (nhds (∫ x in (-1 : ℝ)..1, g x)))
    (l q : ℕ) (hlm : l ≤ l_max) (hq : q ≤ 2 * l) (hodd : (2 * l - q) % 4 ≠ 0) :
    ∃ S : ℕ → List ℝ, (∀ order, solutionVector eps quad l_max order b r = .ok (S order)) ∧
      Filter.Tendsto (fun order => (S order).getD (l ^ 2 + q) 0) Filter.atTop
        (nhds (∫ p in stellarDisc \ occultorY |b| |r|, polyVal (gtilde (l ^ 2 + q)) p.1 p.2 (mu p))) := by
  choose S h1 _ h3 using fun order => solutionVector_spec he quad order l_max hl b r hne (hreg order) (hreg (min order 20))
  refine ⟨S, h1, ?_⟩
  have e : ∀ order, pOrder order l q = order := fun order => by unfold pOrder; rw [if_neg hodd]
  have hg : Continuous fun x => edgePair (greenField (2 * l - q) q) |b| |r| ((kappas |b| |r|).1 / 2 * (x + 1)) := by
    have h := continuous_occLine (2 * l - q) q |b| |r|
    have h2 : (fun x => edgePair (greenField (2 * l - q) q) |b| |r| ((kappas |b| |r|).1 / 2 * (x + 1))) =
        fun x => occLine (greenField (2 * l - q) q) |b| |r| ((kappas |b| |r|).1 / 2 * (x + 1)) +
          occLine (greenField (2 * l - q) q) |b| |r| (-((kappas |b| |r|).1 / 2 * (x + 1))) := by
      funext x; simp only [occLine, edgePair]
    rw [h2]
    exact (h.comp (by fun_prop)).add (h.comp (by fun_prop))
  have h4 := hconv _ hg
  have h5 := ((h4.sub_const (∫ x in (-1 : ℝ)..1, edgePair (greenField (2 * l - q) q) |b| |r| ((kappas |b| |r|).1 / 2 * (x + 1)))).const_mul
    ((kappas |b| |r|).1 / 2)).const_sub (∫ p in stellarDisc \ occultorY |b| |r|, polyVal (gtilde (l ^ 2 + q)) p.1 p.2 (mu p))
  rw [sub_self, mul_zero, sub_zero] at h5
  refine h5.congr fun order => ?_
  have := h3 order l hlm q hq
  simp only [e] at this
  exact this.symm

/-- C64: no occultation. The solution vector is exact and integrates over the whole star -/
theorem solutionVector_none {eps : ℝ} (he : 0 < eps) (quad : ℕ → List (ℝ × ℝ)) (order l_max : ℕ) (hl : 1 ≤ l_max) (b r : ℝ)
    (h : 1 + |r| ≤ |b|) :
    ∃ S, solutionVector eps quad l_max order b r = .ok S ∧ S.length = (l_max + 1) ^ 2 ∧
      ∀ l ≤ l_max, ∀ q ≤ 2 * l,
        S.getD (l ^ 2 + q) 0 = ∫ p in stellarDisc, polyVal (gtilde (l ^ 2 + q)) p.1 p.2 (mu p) := by
  have hk : (kappas |b| |r|).1 = 0 := by rw [none_kappas (abs_nonneg b) (abs_nonneg r) h]
  have hr := abs_nonneg r
  obtain ⟨S, h1, h2, h3⟩ := solutionVector_spec he quad order l_max hl b r (by rintro ⟨h0, -⟩; linarith) (Or.inl hk) (Or.inl hk)
  refine ⟨S, h1, h2, fun l hlm q hq => ?_⟩
  have := h3 l hlm q hq
  simp only [hk, zero_div, zero_mul, sub_zero] at this
  rw [this]
  have e : stellarDisc =ᵐ[volume] (stellarDisc \ occultorY |b| |r| : Set (ℝ × ℝ)) := by
    have hsub : stellarDisc ∩ occultorY |b| |r| ⊆ {((0 : ℝ), (1 : ℝ))} := by
      rintro ⟨x, y⟩ ⟨h1, h2⟩
      simp only [stellarDisc, occultorY, mem_ofPred_eq] at h1 h2
      have hy1 : y ≤ 1 := by nlinarith [sq_nonneg x]
      have hx : |b| - |r| ≤ y := by
        by_contra hc
        nlinarith [sq_nonneg x]
      have hy : y = 1 := by linarith
      have hx0 : x = 0 := by
        rw [hy] at h1
        nlinarith [sq_nonneg x]
      simp [hx0, hy]
    have hnull : volume (stellarDisc ∩ occultorY |b| |r|) = 0 := by
      refine measure_mono_null hsub ?_
      rw [Measure.volume_eq_prod, ← Set.singleton_prod_singleton, Measure.prod_prod]
      simp
    have : (stellarDisc \ occultorY |b| |r| : Set (ℝ × ℝ)) = stellarDisc \ (stellarDisc ∩ occultorY |b| |r|) := by simp
    rw [this]
    exact (sdiff_null_ae_eq_self hnull).symm
  exact (setIntegral_congr_set e).symm

/-- C64: total occultation. The solution vector is zero -/
theorem solutionVector_total {eps : ℝ} (he : 0 < eps) (quad : ℕ → List (ℝ × ℝ)) (order l_max : ℕ) (hl : 1 ≤ l_max) (b r : ℝ)
    (h : 1 + |b| ≤ |r|) (hne : ¬ (|b| = 0 ∧ |r| = 1)) :
    ∃ S, solutionVector eps quad l_max order b r = .ok S ∧ S.length = (l_max + 1) ^ 2 ∧
      ∀ l ≤ l_max, ∀ q ≤ 2 * l, S.getD (l ^ 2 + q) 0 = 0 := by
  have hk : (kappas |b| |r|).1 = 0 := by rw [full_kappas (abs_nonneg b) h hne]
  obtain ⟨S, h1, h2, h3⟩ := solutionVector_spec he quad order l_max hl b r hne (Or.inl hk) (Or.inl hk)
  refine ⟨S, h1, h2, fun l hlm q hq => ?_⟩
  have := h3 l hlm q hq
  simp only [hk, zero_div, zero_mul, sub_zero] at this
  rw [this]
  have e : (stellarDisc \ occultorY |b| |r| : Set (ℝ × ℝ)) = ∅ := by
    rw [Set.sdiff_eq_empty]
    rintro ⟨x, y⟩ h1
    simp only [stellarDisc, occultorY, mem_ofPred_eq] at h1 ⊢
    have hy : -1 ≤ y := by nlinarith [sq_nonneg x]
    have hb := abs_nonneg b
    nlinarith
  rw [e]
  simp

/-- Finding: an occultor of exactly the size of the star and concentric with it hides nothing (compare
`solutionVector_total`: a slightly larger one hides everything) -/
theorem solutionVector_equal (eps : ℝ) (quad : ℕ → List (ℝ × ℝ)) (order l_max : ℕ) (hl : 1 ≤ l_max) :
    ∃ S, solutionVector eps quad l_max order 0 1 = .ok S ∧ S.length = (l_max + 1) ^ 2 ∧
      ∀ l ≤ l_max, ∀ q ≤ 2 * l,
        S.getD (l ^ 2 + q) 0 = ∫ p in stellarDisc, polyVal (gtilde (l ^ 2 + q)) p.1 p.2 (mu p) := by
  obtain ⟨Q, hQ, lQ, vQ⟩ := qIntegral_spec l_max (0.5 * π - 0)
  refine ⟨Q, ?_, lQ, fun l hlm q hq => ?_⟩
  · unfold solutionVector
    simp only [abs_zero, abs_one, equal_kappas, hQ]
    unfold pIntegral
    rw [if_neg (by omega)]
    simp only [mul_zero, zero_mul]
    congr 1
    apply List.ext_getElem
    · rw [List.length_zipWith, List.length_map, loopLM_eq]
      simp [lQ]
    · intro n h1 h2
      rw [List.getElem_zipWith, List.getElem_map]
      split <;> simp
  · rw [vQ l hlm q hq]
    have h := visible_green l q hq (b := 2) (r := 0) (by norm_num) le_rfl (by norm_num)
    rw [none_kappas (by norm_num) le_rfl (by norm_num)] at h
    rw [arcIntegral_occ] at h
    simp only [neg_zero, integral_same, sub_zero] at h
    rw [show 0.5 * π - 0 = π / 2 by ring, ← h]
    have : (stellarDisc \ occultorY 2 0 : Set (ℝ × ℝ)) = stellarDisc := by
      rw [sdiff_eq_left, Set.disjoint_left]
      rintro ⟨x, y⟩ h1 h2
      simp only [stellarDisc, occultorY, mem_ofPred_eq] at h1 h2
      have : y = 2 := by nlinarith [sq_nonneg x, sq_nonneg (y - 2)]
      nlinarith [sq_nonneg x]
    rw [this]

/-- Finding: `solution_vector(0)` cannot be evaluated: the list of indices of the high-order terms is empty -/
theorem solutionVector_zero (eps : ℝ) (quad : ℕ → List (ℝ × ℝ)) (order : ℕ) (b r : ℝ) :
    solutionVector eps quad 0 order b r = .error (.valueError "need at least one array to stack") := by
  unfold solutionVector pIntegral
  simp

/-- a planet of radius 1/10 in front of the star, at half a stellar radius; the midpoint rule -/
example : Regular (2 ^ (-52 : ℤ)) [(0, 2)] (1 / 2) (1 / 10) (kappas (1 / 2) (1 / 10)).1 ∧ (kappas (1 / 2) (1 / 10)).1 = π := by
  have hk : (kappas (1 / 2) (1 / 10)).1 = π := by
    rw [kappas_eq, inside_kappas (by norm_num) (by norm_num) (by norm_num) (by norm_num) (by norm_num)]
  refine ⟨Or.inr ⟨by norm_num, Or.inl (by norm_num), ?_⟩, hk⟩
  rw [hk]
  intro xw hxw
  simp only [List.mem_singleton] at hxw
  subst hxw
  simp only [zero_add, mul_one, cos_pi_div_two]
  norm_num

end Jaxoplanet.Starry
