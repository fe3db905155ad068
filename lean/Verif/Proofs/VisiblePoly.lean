import Verif.Proofs.Visible

/-!
# Green's theorem on the visible disc: polynomial fields and the linear term
-/

namespace Jaxoplanet.Starry

open _root_.Jaxoplanet.Starry.Spec _root_.Jaxoplanet.Spec _root_.Jaxoplanet.Green _root_.Jaxoplanet.LimbDark
open Real intervalIntegral MeasureTheory Set

/-! ### slices -/

/-- the boundary term of a slice `|x| ≤ X` -/
noncomputable def sliceTerm (a c : ℕ) (X y : ℝ) : ℝ := (X ^ a - (-X) ^ a) * y ^ c

theorem continuous_sliceTerm (a c : ℕ) {X : ℝ → ℝ} (hX : Continuous X) : Continuous fun y => sliceTerm a c (X y) y := by
  unfold sliceTerm; fun_prop

theorem slice_inner (a c : ℕ) (ha : 1 ≤ a) (y h : ℝ) :
    ∫ x, indicator {x : ℝ | x ^ 2 ≤ h} (fun x => (a : ℝ) * x ^ (a - 1) * y ^ c) x = sliceTerm a c (√h) y := by
  by_cases hh : 0 ≤ h
  · have e : {x : ℝ | x ^ 2 ≤ h} = Icc (-√h) (√h) := by
      ext x
      simp only [mem_ofPred_eq, mem_Icc]
      rw [← abs_le, ← sq_abs]
      exact (le_sqrt (abs_nonneg x) hh).symm
    rw [e, MeasureTheory.integral_indicator measurableSet_Icc, integral_Icc_eq_integral_Ioc,
      ← integral_of_le (by linarith [sqrt_nonneg h])]
    rw [integral_eq_sub_of_hasDerivAt (f := fun x => x ^ a * y ^ c)]
    · unfold sliceTerm; ring
    · intro x _
      exact (hasDerivAt_pow a x).mul_const (y ^ c)
    · apply Continuous.intervalIntegrable; fun_prop
  · have e : {x : ℝ | x ^ 2 ≤ h} = ∅ := by
      ext x
      simp only [mem_ofPred_eq, mem_empty_iff_false, iff_false]
      nlinarith [sq_nonneg x]
    rw [e, sqrt_eq_zero_of_nonpos (by linarith)]
    unfold sliceTerm
    simp [show a ≠ 0 by omega]

theorem slice_integral (a c : ℕ) (ha : 1 ≤ a) {h : ℝ → ℝ} (S : Set (ℝ × ℝ)) (hS : S = {p : ℝ × ℝ | p.1 ^ 2 ≤ h p.2})
    (hcomp : IsCompact S) :
    ∫ p in S, (a : ℝ) * p.1 ^ (a - 1) * p.2 ^ c = ∫ y, sliceTerm a c (√(h y)) y := by
  have hm : MeasurableSet S := hcomp.isClosed.measurableSet
  have hcont : Continuous fun p : ℝ × ℝ => (a : ℝ) * p.1 ^ (a - 1) * p.2 ^ c := by fun_prop
  have hi : Integrable (indicator S fun p : ℝ × ℝ => (a : ℝ) * p.1 ^ (a - 1) * p.2 ^ c) :=
    (integrable_indicator_iff hm).2 (hcont.continuousOn.integrableOn_compact hcomp)
  rw [← MeasureTheory.integral_indicator hm, Measure.volume_eq_prod, integral_prod_symm _ (by rwa [← Measure.volume_eq_prod])]
  congr 1
  funext y
  rw [← slice_inner a c ha y (h y)]
  congr 1
  funext x
  simp only [hS, indicator, mem_ofPred_eq]

/-- both halves of a symmetric arc together -/
theorem fold_arc {g : ℝ → ℝ} (hg : Continuous g) (κ : ℝ) : ∫ φ in (-κ)..κ, g φ = ∫ φ in (0 : ℝ)..κ, (g φ + g (-φ)) := by
  have h1 : ∫ φ in (0 : ℝ)..κ, (g φ + g (-φ)) = (∫ φ in (0 : ℝ)..κ, g φ) + ∫ φ in (0 : ℝ)..κ, g (-φ) :=
    intervalIntegral.integral_add (hg.intervalIntegrable _ _)
      (by apply Continuous.intervalIntegrable; exact hg.comp continuous_neg)
  rw [← intervalIntegral.integral_add_adjacent_intervals (b := 0) (hg.intervalIntegrable _ _) (hg.intervalIntegrable _ _), h1]
  have := integral_comp_neg (a := 0) (b := κ) g
  rw [neg_zero] at this
  rw [this]
  ring

theorem cap_occ (a c : ℕ) (b : ℝ) {r κ : ℝ} (hr : 0 ≤ r) (h0 : 0 ≤ κ) (hκ : κ ≤ π) :
    ∫ y in (b - r)..(b - r * cos κ), sliceTerm a c (√(r ^ 2 - (y - b) ^ 2)) y =
      ∫ φ in (-κ)..κ, (r * sin φ) ^ a * (b - r * cos φ) ^ c * (r * sin φ) := by
  have hsub := integral_comp_mul_deriv (a := 0) (b := κ) (f := fun φ => b - r * cos φ) (f' := fun φ => r * sin φ)
    (g := fun y => sliceTerm a c (√(r ^ 2 - (y - b) ^ 2)) y) (fun φ _ => (hasDerivAt_py b r φ).2) (by fun_prop)
    (continuous_sliceTerm a c (by fun_prop))
  simp only [cos_zero, mul_one] at hsub
  rw [← hsub, fold_arc (by fun_prop)]
  refine integral_congr fun φ hφ => ?_
  rw [uIcc_of_le h0] at hφ
  have hs : 0 ≤ sin φ := sin_nonneg_of_nonneg_of_le_pi hφ.1 (hφ.2.trans hκ)
  have e : √(r ^ 2 - (b - r * cos φ - b) ^ 2) = r * sin φ := by
    rw [show r ^ 2 - (b - r * cos φ - b) ^ 2 = (r * sin φ) ^ 2 by linear_combination (-r ^ 2) * sin_sq_add_cos_sq φ]
    exact sqrt_sq (by positivity)
  simp only [Function.comp, e, sliceTerm, sin_neg, cos_neg, mul_neg]
  ring

theorem cap_star (a c : ℕ) {κ : ℝ} (h0 : 0 ≤ κ) (hκ : κ ≤ π) :
    ∫ y in (cos κ)..1, sliceTerm a c (√(1 - y ^ 2)) y =
      ∫ θ in (π / 2 - κ)..(π / 2 + κ), cos θ ^ a * sin θ ^ c * cos θ := by
  have h := cap_occ a c 0 zero_le_one h0 hκ
  have e1 : ∫ y in (cos κ)..1, sliceTerm a c (√(1 - y ^ 2)) y = ∫ y in (-1)..(-cos κ), sliceTerm a c (√(1 - y ^ 2)) (-y) := by
    have := integral_comp_neg (a := -1) (b := -cos κ) (fun y => sliceTerm a c (√(1 - y ^ 2)) y)
    rw [neg_neg, neg_neg] at this
    rw [← this]
    simp
  have e2 : ∀ X y, sliceTerm a c X (-y) = (-1) ^ c * sliceTerm a c X y := by
    intro X y
    unfold sliceTerm
    rw [neg_pow y]
    ring
  rw [e1]
  simp only [e2]
  rw [intervalIntegral.integral_const_mul]
  simp only [zero_sub, one_mul, one_pow, sub_zero] at h
  rw [h, ← intervalIntegral.integral_const_mul]
  have e3 := integral_comp_sub_left (a := -κ) (b := κ) (fun θ => cos θ ^ a * sin θ ^ c * cos θ) (π / 2)
  rw [sub_neg_eq_add] at e3
  rw [← e3]
  refine integral_congr fun φ _ => ?_
  simp only [cos_pi_div_two_sub, sin_pi_div_two_sub]
  rw [neg_pow (cos φ)]
  have : ((-1 : ℝ) ^ c) * (-1) ^ c = 1 := by rw [← mul_pow]; norm_num
  linear_combination (sin φ ^ a * cos φ ^ c * sin φ) * this

/-- the hidden part, occultor crossing the limb -/
theorem lens_poly (a c : ℕ) (ha : 1 ≤ a) {b r : ℝ} (h : Lens b r) :
    ∫ p in stellarDisc ∩ occultorY b r, (a : ℝ) * p.1 ^ (a - 1) * p.2 ^ c =
      (∫ φ in (-(kappas b r).1)..(kappas b r).1, (r * sin φ) ^ a * (b - r * cos φ) ^ c * (r * sin φ)) +
        ∫ θ in (π / 2 - (kappas b r).2)..(π / 2 + (kappas b r).2), cos θ ^ a * sin θ ^ c * cos θ := by
  obtain ⟨hb, hr, h1, h2, h3⟩ := h.ineqs
  obtain ⟨ha', hs0, hs1, hk0, hk1, hc0, hsn0, hc1, hsn1, hp0, hp1⟩ := lens_kappas h
  rw [kappas_eq]
  have hk1' : 0 ≤ (LimbDark.kappas b r).2.2 ∧ (LimbDark.kappas b r).2.2 ≤ π := by
    rw [hk1]; exact ⟨arccos_nonneg _, arccos_le_pi _⟩
  generalize (LimbDark.kappas b r).2.2 = κ1 at *
  generalize (LimbDark.kappas b r).2.1 = κ0 at *
  let f : ℝ → ℝ := fun y => min (1 - y ^ 2) (r ^ 2 - (y - b) ^ 2)
  have hfc : Continuous f := by simp only [f]; fun_prop
  have hset : stellarDisc ∩ occultorY b r = {p : ℝ × ℝ | p.1 ^ 2 ≤ f p.2} := by
    ext p
    simp only [stellarDisc, occultorY, mem_inter_iff, mem_ofPred_eq, f, le_min_iff]
    constructor <;> rintro ⟨h, h'⟩ <;> constructor <;> linarith
  have hy1 : b - r * cos κ0 = cos κ1 := by rw [hc0, hc1]; field_simp; ring
  have hcomp : IsCompact (stellarDisc ∩ occultorY b r) :=
    isCompact_stellarDisc.inter_right (isCompact_occultorY b r).isClosed
  rw [slice_integral a c ha _ hset hcomp]
  have hzero : ∀ y, f y ≤ 0 → sliceTerm a c (√(f y)) y = 0 := by
    intro y hy
    rw [sqrt_eq_zero_of_nonpos hy]
    simp [sliceTerm, show a ≠ 0 by omega]
  have hlo : b - r ≤ b - r * cos κ0 := by nlinarith [cos_le_one κ0]
  have hhi : cos κ1 ≤ 1 := cos_le_one κ1
  have hcont : Continuous fun y => sliceTerm a c (√(f y)) y := continuous_sliceTerm a c (by fun_prop)
  have e : ∫ y, sliceTerm a c (√(f y)) y = ∫ y in (b - r)..1, sliceTerm a c (√(f y)) y := by
    rw [integral_of_le (by linarith), ← setIntegral_univ]
    refine setIntegral_eq_of_subset_of_forall_sdiff_eq_zero MeasurableSet.univ (subset_univ _) fun y hy => hzero y ?_
    have : y ∉ Ioc (b - r) 1 := hy.2
    rw [mem_Ioc, not_and_or, not_lt, not_le] at this
    rcases this with h | h
    · refine (min_le_right _ _).trans ?_
      nlinarith
    · refine (min_le_left _ _).trans ?_
      nlinarith
  rw [e, ← intervalIntegral.integral_add_adjacent_intervals (hcont.intervalIntegrable (b - r) (cos κ1)) (hcont.intervalIntegrable _ _),
    ← cap_star a c hk1'.1 hk1'.2, ← cap_occ a c b hr.le hp0.le hp1.le, hy1]
  rw [hc1] at hy1
  congr 1
  · refine integral_congr fun y hy => ?_
    rw [uIcc_of_le (by linarith)] at hy
    have hy2 := hy.2
    rw [hc1, le_div_iff₀ (by positivity)] at hy2
    simp only [f]
    rw [min_eq_right (by nlinarith)]
  · refine integral_congr fun y hy => ?_
    rw [uIcc_of_le (by linarith)] at hy
    have hy2 := hy.1
    rw [hc1, div_le_iff₀ (by positivity)] at hy2
    simp only [f]
    rw [min_eq_left (by nlinarith)]

theorem poly_C1 (a c : ℕ) : ChainC1 (fun x y => x ^ a * y ^ c * 1) (fun x y => a * x ^ (a - 1) * y ^ c * 1 - 2 * x ^ (a + 1) * y ^ c * 0)
    (fun x y => c * x ^ a * y ^ (c - 1) * 1 - 2 * x ^ a * y ^ (c + 1) * 0) :=
  monoField_C1 a c (H := fun _ => 1) (H' := fun _ => 0) (fun t => hasDerivAt_const t 1) continuous_const

theorem visible_poly (a c : ℕ) (ha : 1 ≤ a) {b r : ℝ} (hb : 0 ≤ b) (hr : 0 ≤ r) (hne : ¬ (b = 0 ∧ r = 1)) :
    let G : ℝ → ℝ → ℝ × ℝ := fun x y => (0, x ^ a * y ^ c)
    ∫ p in stellarDisc \ occultorY b r, (a : ℝ) * p.1 ^ (a - 1) * p.2 ^ c =
      arcIntegral G 0 0 1 (π - (π / 2 - (kappas b r).2)) (2 * π + (π / 2 - (kappas b r).2)) -
        arcIntegral G 0 b r (-(π / 2) - (kappas b r).1) (-(π / 2) + (kappas b r).1) := by
  intro G
  have hocc : ∀ b r φ : ℝ, occLine G b r φ = (r * sin φ) ^ a * (b - r * cos φ) ^ c * (r * sin φ) := by
    intro b r φ
    simp [occLine, G]
  have hlimb : limbLine G = fun θ => cos θ ^ a * sin θ ^ c * cos θ := by
    funext θ
    simp [limbLine, G]
  have hdisc : ∀ b r : ℝ, 0 ≤ r → ∫ p in occultorY b r, (a : ℝ) * p.1 ^ (a - 1) * p.2 ^ c = ∫ φ in (-π)..π, occLine G b r φ := by
    intro b r hr
    have := green_x (poly_C1 a c) b hr
    simp only [mul_one, mul_zero, sub_zero] at this
    rw [this]
    refine integral_congr fun φ _ => ?_
    rw [hocc]
  refine visible_of G _ (by fun_prop) (by rw [hlimb]; fun_prop) ?_ hb hr ?_ hne
  · have := hdisc 0 1 zero_le_one
    rw [← star_eqY] at this
    rw [this, whole_of]
  · intro h1 h2
    rcases lens_or_inside h1 h2 with h | h
    · rw [lens_poly a c ha h, hlimb]
      simp only [hocc]
    · have hsub : occultorY b r ⊆ stellarDisc := by
        rw [star_preimage, occultorY_preimage]
        exact preimage_mono (occultor_subset hb hr h)
      rw [inter_eq_right.2 hsub, hdisc b r hr, kappas_eq, inside_kappas hb hr h h1 h2]
      simp

/-! ### the linear term -/

theorem visible_linear {b r : ℝ} (hb : 0 ≤ b) (hr : 0 ≤ r) (hne : ¬ (b = 0 ∧ r = 1)) :
    ∫ p in stellarDisc \ occultorY b r, mu p =
      arcIntegral (greenField 1 1) 0 0 1 (π - (π / 2 - (kappas b r).2)) (2 * π + (π / 2 - (kappas b r).2)) -
        arcIntegral (greenField 1 1) 0 b r (-(π / 2) - (kappas b r).1) (-(π / 2) + (kappas b r).1) := by
  have hocc : ∀ b r φ : ℝ, occLine (greenField 1 1) b r φ =
      r * (r - b * cos φ) * ((1 + √(w b r φ) + √(w b r φ) ^ 2) / (3 * (1 + √(w b r φ)))) := by
    intro b r φ
    unfold occLine greenField
    simp only [w_occ]
    norm_num
    have hs := sqrt_nonneg (w b r φ)
    generalize √(w b r φ) = z at *
    have : 1 + z ≠ 0 := by linarith
    field_simp
    linear_combination ((1 + z + z ^ 2) * r ^ 2) * sin_sq_add_cos_sq φ
  have hlimb : limbLine (greenField 1 1) = fun _ => 1 / 3 := by
    funext θ
    unfold limbLine greenField
    have : √(1 - cos θ ^ 2 - sin θ ^ 2) = 0 := by
      rw [show 1 - cos θ ^ 2 - sin θ ^ 2 = 0 by linarith [sin_sq_add_cos_sq θ], sqrt_zero]
    simp only [this]
    norm_num
    linarith [sin_sq_add_cos_sq θ]
  have hw := continuous_w b r
  have hoc : Continuous (occLine (greenField 1 1) b r) := by
    have : occLine (greenField 1 1) b r = fun φ => r * (r - b * cos φ) * ((1 + √(w b r φ) + √(w b r φ) ^ 2) / (3 * (1 + √(w b r φ)))) :=
      funext (hocc b r)
    rw [this]
    refine Continuous.mul (by fun_prop) (Continuous.div (by fun_prop) (by fun_prop) fun φ => ?_)
    positivity
  refine visible_of _ _ continuous_mu (by rw [hlimb]; fun_prop) ?_ hb hr ?_ hne
  · rw [hlimb, intervalIntegral.integral_const]
    have := whole_star 1
    simp only [gtil] at this
    rw [this]
    simp only [smul_eq_mul]
    ring
  · intro h1 h2
    rw [hlimb, intervalIntegral.integral_const]
    have e : ∫ p in stellarDisc ∩ occultorY b r, mu p = ∫ p in stellarDisc ∩ occultor b r, mu p := by
      conv_lhs => rw [star_preimage, occultorY_preimage, ← preimage_inter, swap_integral]
      refine setIntegral_congr_fun (measurableSet_stellarDisc.inter (measurableSet_occultor b r)) fun p _ => ?_
      simp only [mu, Prod.fst_swap, Prod.snd_swap]
      congr 1
      ring
    rw [e, term_one b hr, arc_one hb hr h1 h2, ← kappas_eq, fold_arc hoc]
    congr 1
    · refine integral_congr fun φ _ => ?_
      simp only [hocc]
      have : w b r (-φ) = w b r φ := by simp [w]
      rw [this, cos_neg]
      ring
    · simp only [smul_eq_mul]
      ring

end Jaxoplanet.Starry
