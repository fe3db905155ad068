import Verif.Props.MpBasis

/-!
# C72: the occultation integrals of the multi-precision package

The line integrals of the multi-precision package have integrands of their own (powers with real exponents, angles folded
about zero); with exact quadrature the vector `sT` is the vector of the integrals of the Green polynomials over the part of
the disc that is not behind the occultor.
-/

namespace Jaxoplanet.Starry.Mp
open _root_.Jaxoplanet.Starry.Spec _root_.Jaxoplanet.Spec _root_.Jaxoplanet.Green _root_.Jaxoplanet.LimbDark
open Real MeasureTheory intervalIntegral

theorem kiteArea_eq (a b c : ℝ) : kiteArea a b c = LimbDark.kiteArea a b c := rfl

theorem kappasMp_eq {b r : ℝ} (h : |1 - r| < b ∧ b < 1 + r) : kappasMp b r = Starry.kappas b r := by
  unfold kappasMp Starry.kappas
  simp only [gt_iff_lt, if_pos h, kiteArea_eq]

theorem outside_kappas {b r : ℝ} (hb : 0 < b) (hr : 0 < r) (h1 : b < 1 + r) (h2 : r < 1 + b) (h : ¬ (|1 - r| < b ∧ b < 1 + r)) :
    Starry.kappas b r = (π, 0) := by
  have h3 : b ≤ |1 - r| := by
    by_contra hc
    exact h ⟨not_le.1 hc, h1⟩
  have h4 : b + r ≤ 1 := by
    rcases le_total r 1 with hr1 | hr1
    · rw [abs_of_nonneg (by linarith)] at h3; linarith
    · rw [abs_of_nonpos (by linarith)] at h3; linarith
  rw [kappas_eq, inside_kappas hb.le hr.le h4 h1 h2]

theorem kappaP_eq {b r : ℝ} (hb : 0 < b) (hr : 0 < r) (h1 : b < 1 + r) (h2 : r < 1 + b) :
    kappaP b r = (Starry.kappas b r).1 := by
  unfold kappaP
  simp only
  split_ifs with h
  · rw [kappasMp_eq h]; ring
  · rw [outside_kappas hb hr h1 h2 h]; ring

theorem lam_eq {b r : ℝ} (hb : 0 < b) (hr : 0 < r) (h1 : b < 1 + r) (h2 : r < 1 + b) (l_max : ℕ) :
    qNumerical l_max b r = qIntegral l_max (π / 2 - (Starry.kappas b r).2) := by
  unfold qNumerical
  simp only
  congr 1
  split_ifs with h
  · rw [kappasMp_eq h]; ring
  · rw [outside_kappas hb hr h1 h2 h]; ring

theorem half_angle' (x : ℝ) : sin x ^ 2 = (1 - cos (2 * x)) / 2 := by
  rw [cos_two_mul, ← sin_sq_add_cos_sq x]; ring

theorem cube_exact {b r x : ℝ} (hb : 0 < b) (hr : 0 < r) (hw : 0 ≤ w b r (2 * x)) :
    (4 * b * r) ^ (3 / 2 : ℝ) * ((1 - r ^ 2 - b ^ 2 + 2 * b * r) / (4 * b * r) - (1 - cos (2 * x)) / 2) ^ (3 / 2 : ℝ) =
      √(w b r (2 * x)) ^ 3 := by
  have e : (1 - r ^ 2 - b ^ 2 + 2 * b * r) / (4 * b * r) - (1 - cos (2 * x)) / 2 = w b r (2 * x) / (4 * b * r) := by
    unfold w; field_simp; ring
  rw [e, ← mul_rpow (by positivity) (by positivity), mul_div_cancel₀ _ (by positivity), sqrt_cube, max_eq_left hw]

/-- the value of an integrand, zero when there is none -/
noncomputable def fVal (o : Option (ℝ → ℝ)) (x : ℝ) : ℝ :=
  match o with
  | none => 0
  | some f => f x

/-- the value of an exact integrand -/
noncomputable def eVal (o : Option (Bool × ℝ)) : ℝ :=
  match o with
  | none => 0
  | some p => p.2

theorem pFunc_linear {b r κ x : ℝ} (h0 : 0 ≤ w b r (x + κ / 2)) (h1 : 0 < 1 - w b r (x + κ / 2)) :
    fVal (pFunc b r κ 1 0) x = eVal (pExact b r 1 1 1 (x + κ / 2)) / 2 := by
  unfold pFunc pExact
  norm_num [fVal, eVal]
  rw [show x + 1 / 2 * κ = x + κ / 2 by ring]
  generalize x + κ / 2 = φ at *
  have hw : r ^ 2 + b ^ 2 - 2 * b * r * cos φ = 1 - w b r φ := by unfold w; ring
  rw [if_neg (show ¬ r ^ 2 + b ^ 2 ≤ 2 * b * r * cos φ by linarith), hw, sub_sub_cancel, max_eq_right h0]
  obtain ⟨z, hz⟩ : ∃ z, z = √(w b r φ) := ⟨_, rfl⟩
  have hz0 : 0 ≤ z := hz ▸ sqrt_nonneg _
  have hz2 : w b r φ = z ^ 2 := by rw [hz, sq_sqrt h0]
  rw [← hz, hz2]
  rw [hz2] at h1
  have : 1 + z ≠ 0 := by linarith
  have h3 : 1 - z ^ 2 ≠ 0 := by linarith
  field_simp
  ring

theorem pFunc_exact {b r : ℝ} (hb : 0 < b) (hr : 0 < r) (κ : ℝ) (l q : ℕ) (hq : q ≤ 2 * l) (h11 : ¬ (l = 1 ∧ q = 1)) (x : ℝ)
    (hw : 0 ≤ w b r (2 * x)) :
    fVal (pFunc b r κ l ((q : ℤ) - l)) x = eVal (pExact b r l (2 * l - q) q (2 * x)) / 2 := by
  have hr0 : r ≠ 0 := hr.ne'
  have e1 : ((l : ℤ) - ((q : ℤ) - l)).toNat = 2 * l - q := by omega
  have e2 : ((l : ℤ) + ((q : ℤ) - l)).toNat = q := by omega
  have hsc := sin_sq_add_cos_sq (2 * x)
  have ha2 : (b - r) / (2 * r) + (1 - cos (2 * x)) / 2 = (b - r * cos (2 * x)) / (2 * r) := by
    field_simp; ring
  have ha4 : 1 - 2 * ((1 - cos (2 * x)) / 2) = cos (2 * x) := by ring
  have hs4 : sin x ^ 4 = (sin x ^ 2) ^ 2 := by ring
  have hcube := cube_exact hb hr hw
  unfold pFunc pExact
  rw [e1, e2]
  rw [if_neg (show ¬ (2 * l - q = 1 ∧ l = 1) by omega)]
  by_cases c2 : (2 * l - q) % 4 = 0
  · simp only [if_pos c2, if_pos (show (2 * l - q) % 2 = 0 ∧ ((2 * l - q) / 2) % 2 = 0 by omega), fVal, eVal, hs4, half_angle']
    rw [a1_half _ _ hsc, ha2]
    generalize 2 * x = φ at *
    obtain ⟨a, ha⟩ : ∃ a, 2 * l - q = 4 * a := ⟨(2 * l - q) / 4, by omega⟩
    obtain ⟨c, rfl⟩ : ∃ c, q = 2 * c := ⟨q / 2, by omega⟩
    obtain rfl : l = 2 * a + c := by omega
    rw [ha]
    have t1 : (0.25 * (((4 * a : ℕ) : ℝ) + 4)) = ((a + 1 : ℕ) : ℝ) := by push_cast; ring
    have t2 : (0.5 * ((2 * c : ℕ) : ℝ)) = ((c : ℕ) : ℝ) := by push_cast; ring
    rw [t1, t2, rpow_natCast, rpow_natCast, show 4 * a / 2 + 2 = 2 * (a + 1) by omega, show 2 * c / 2 = c by omega,
      show 2 * a + c + 2 = 2 * (a + 1) + c by omega]
    rw [← pow_mul, div_pow, div_pow, pow_add (2 * r), mul_pow 2 r, mul_pow 2 r, mul_pow r]
    field_simp
    ring
  simp only [if_neg c2]
  rw [if_neg (show ¬ ((2 * l - q) % 2 = 0 ∧ ((2 * l - q) / 2) % 2 = 0) by omega)]
  by_cases c3 : 2 * l - q = 1 ∧ l % 2 = 0
  · simp only [if_pos c3, fVal, eVal, hs4, half_angle']
    rw [a1_half _ _ hsc, ha4]
    obtain ⟨c, rfl⟩ : ∃ c, l = 2 * c + 2 := ⟨(l - 2) / 2, by omega⟩
    have t1 : (0.5 * (((2 * c + 2 : ℕ) : ℝ) - 2)) = ((c : ℕ) : ℝ) := by push_cast; ring
    rw [t1, rpow_natCast, show 2 * c + 2 - 1 = 2 * c + 1 by omega, show 2 * c + 2 - 2 = 2 * c by omega, ← hcube]
    generalize ((1 - r ^ 2 - b ^ 2 + 2 * b * r) / (4 * b * r) - (1 - cos (2 * x)) / 2) ^ (3 / 2 : ℝ) = K
    generalize (4 * b * r) ^ (3 / 2 : ℝ) = K'
    rw [← pow_mul, div_pow]
    field_simp
    ring
  simp only [if_neg c3]
  by_cases c4 : 2 * l - q = 1
  · simp only [if_pos (show 2 * l - q = 1 ∧ l ≠ 1 ∧ l % 2 ≠ 0 by omega), if_pos c4, fVal, eVal, hs4, half_angle']
    rw [a1_half _ _ hsc, ha4, ha2]
    obtain ⟨c, rfl⟩ : ∃ c, l = 2 * c + 3 := ⟨(l - 3) / 2, by omega⟩
    have t1 : (0.5 * (((2 * c + 3 : ℕ) : ℝ) - 3)) = ((c : ℕ) : ℝ) := by push_cast; ring
    rw [t1, rpow_natCast, show 2 * c + 3 - 1 = 2 * c + 2 by omega, show 2 * c + 3 - 3 = 2 * c by omega, ← hcube]
    generalize ((1 - r ^ 2 - b ^ 2 + 2 * b * r) / (4 * b * r) - (1 - cos (2 * x)) / 2) ^ (3 / 2 : ℝ) = K
    generalize (4 * b * r) ^ (3 / 2 : ℝ) = K'
    rw [← pow_mul, div_pow]
    field_simp
    ring
  rw [if_neg (show ¬ (2 * l - q = 1 ∧ l ≠ 1 ∧ l % 2 ≠ 0) by omega), if_neg c4]
  by_cases c6 : (2 * l - q - 1) % 2 = 0 ∧ ((2 * l - q - 1) / 2) % 2 = 0 ∧ 2 * l - q ≠ 0
  · rw [if_pos (show (((2 * l - q : ℕ) : ℤ) - 1) % 2 = 0 ∧ (((2 * l - q : ℕ) : ℤ) - 1) / 2 % 2 = 0 ∧ l ≠ 1 by omega),
      if_pos (show (2 * l - q - 1) % 2 = 0 ∧ ((2 * l - q - 1) / 2) % 2 = 0 by omega)]
    simp only [fVal, eVal, hs4, half_angle']
    rw [a1_half _ _ hsc, ha2]
    obtain ⟨a, ha⟩ : ∃ a, 2 * l - q = 4 * a + 1 := ⟨(2 * l - q - 1) / 4, by omega⟩
    obtain ⟨c, rfl⟩ : ∃ c, q = 2 * c + 1 := ⟨q / 2, by omega⟩
    obtain rfl : l = 2 * a + c + 1 := by omega
    have t2 : (0.5 * (((2 * c + 1 : ℕ) : ℝ) - 1)) = ((c : ℕ) : ℝ) := by push_cast; ring
    have t3 : (0.25 * (((4 * a + 1 : ℕ) : ℝ) - 1)) = ((a : ℕ) : ℝ) := by push_cast; ring
    rw [ha, t2, t3, rpow_natCast, rpow_natCast, show (4 * a + 1 - 1) / 2 = 2 * a by omega,
      show (2 * c + 1 - 1) / 2 = c by omega, show 2 * a + c + 1 - 1 = 2 * a + c by omega, ← hcube]
    generalize ((1 - r ^ 2 - b ^ 2 + 2 * b * r) / (4 * b * r) - (1 - cos (2 * x)) / 2) ^ (3 / 2 : ℝ) = K
    generalize (4 * b * r) ^ (3 / 2 : ℝ) = K'
    rw [← pow_mul, div_pow, div_pow, pow_add (2 * r), mul_pow 2 r, mul_pow 2 r, mul_pow r]
    field_simp
    ring
  · rw [if_neg (show ¬ ((((2 * l - q : ℕ) : ℤ) - 1) % 2 = 0 ∧ (((2 * l - q : ℕ) : ℤ) - 1) / 2 % 2 = 0 ∧ l ≠ 1) by omega),
      if_neg (show ¬ ((2 * l - q - 1) % 2 = 0 ∧ ((2 * l - q - 1) / 2) % 2 = 0) by omega),
      if_neg (show ¬ (2 * l - q = 1 ∧ l = 1) by omega)]
    simp [fVal, eVal]

theorem edgePair_neg (G : ℝ → ℝ → ℝ × ℝ) (b r φ : ℝ) : edgePair G b r (-φ) = edgePair G b r φ := by
  unfold edgePair
  rw [neg_neg, add_comm]

theorem continuous_edgePair (μ ν : ℕ) (b r : ℝ) : Continuous (edgePair (greenField μ ν) b r) := by
  have h := continuous_occLine μ ν b r
  exact h.add (h.comp continuous_neg)

theorem P_integral {b r : ℝ} (hb : 0 < b) (hr : 0 < r) (h1 : b < 1 + r) (h2 : r < 1 + b) (l q : ℕ) (hq : q ≤ 2 * l) :
    P l ((q : ℤ) - l) b r = .ok (∫ φ in (0 : ℝ)..(Starry.kappas b r).1, edgePair (greenField (2 * l - q) q) b r φ) := by
  obtain ⟨k0, kπ, hpos, -⟩ := w_sign hb.le hr.le h1 h2
  rw [← kappas_eq] at k0 kπ hpos
  unfold P
  rw [if_neg (by positivity), kappaP_eq hb hr h1 h2]
  set κ := (Starry.kappas b r).1
  have e0 : (match pFunc b r κ l ((q : ℤ) - l) with
      | none => (0 : ℝ)
      | some f => ∫ x in (-κ / 2)..(κ / 2), f x) = ∫ x in (-κ / 2)..(κ / 2), fVal (pFunc b r κ l ((q : ℤ) - l)) x := by
    cases pFunc b r κ l ((q : ℤ) - l) <;> simp [fVal]
  refine congrArg Except.ok (e0.trans ?_)
  have hE : ∀ φ, eVal (pExact b r l (2 * l - q) q φ) / 2 = edgePair (greenField (2 * l - q) q) b r φ := by
    intro φ
    have := occLine_eq b r l q hq φ
    have h : eVal (pExact b r l (2 * l - q) q φ) = 2 * edgePair (greenField (2 * l - q) q) b r φ := this
    rw [h]
    ring
  by_cases h11 : l = 1 ∧ q = 1
  · obtain ⟨rfl, rfl⟩ := h11
    have : ∫ x in (-κ / 2)..(κ / 2), fVal (pFunc b r κ 1 (((1 : ℕ) : ℤ) - (1 : ℕ))) x =
        ∫ x in (-κ / 2)..(κ / 2), edgePair (greenField (2 * 1 - 1) 1) b r (x + κ / 2) := by
      refine intervalIntegral.integral_congr_uIoo ?_
      intro x hx
      rw [Set.uIoo_of_le (by linarith)] at hx
      have hφ0 : 0 < x + κ / 2 := by linarith [hx.1]
      have hφ1 : x + κ / 2 < κ := by linarith [hx.2]
      show _ = edgePair (greenField (2 * 1 - 1) 1) b r (x + κ / 2)
      rw [← hE]
      refine pFunc_linear (hpos _ hφ0.le hφ1.le) ?_
      have hc : cos (x + κ / 2) < 1 := by
        have := cos_lt_cos_of_nonneg_of_le_pi le_rfl (hφ1.le.trans kπ) hφ0
        rwa [cos_zero] at this
      unfold w
      nlinarith [mul_pos hb hr, sq_nonneg (b - r)]
    rw [this, intervalIntegral.integral_comp_add_right (f := edgePair (greenField (2 * 1 - 1) 1) b r)]
    congr 1 <;> ring
  · have : ∫ x in (-κ / 2)..(κ / 2), fVal (pFunc b r κ l ((q : ℤ) - l)) x =
        ∫ x in (-κ / 2)..(κ / 2), edgePair (greenField (2 * l - q) q) b r (2 * x) := by
      refine intervalIntegral.integral_congr fun x hx => ?_
      rw [Set.uIcc_of_le (by linarith)] at hx
      rw [← hE]
      refine pFunc_exact hb hr κ l q hq h11 x ?_
      rcases le_total 0 x with h | h
      · exact hpos _ (by linarith) (by linarith [hx.2])
      · have := hpos (2 * -x) (by linarith) (by linarith [hx.1])
        unfold w at this ⊢
        rwa [show 2 * -x = -(2 * x) by ring, cos_neg] at this
    rw [this, intervalIntegral.integral_comp_mul_left (hc := two_ne_zero), show 2 * (-κ / 2) = -κ by ring, show 2 * (κ / 2) = κ by ring,
      ← intervalIntegral.integral_add_adjacent_intervals (b := 0)]
    · have : ∫ x in (-κ)..0, edgePair (greenField (2 * l - q) q) b r x = ∫ x in (0 : ℝ)..κ, edgePair (greenField (2 * l - q) q) b r x := by
        have h := intervalIntegral.integral_comp_neg (a := 0) (b := κ) (f := edgePair (greenField (2 * l - q) q) b r)
        rw [neg_zero] at h
        rw [← h]
        simp only [edgePair_neg]
      rw [this, smul_eq_mul]
      ring
    · exact (continuous_edgePair _ _ _ _).intervalIntegrable _ _
    · exact (continuous_edgePair _ _ _ _).intervalIntegrable _ _

theorem mapM_ok {α β : Type} {f : α → Except PyErr β} {g : α → β} : ∀ xs : List α, (∀ x ∈ xs, f x = .ok (g x)) →
    xs.mapM f = .ok (xs.map g)
  | [], _ => rfl
  | x :: xs, h => by
    rw [List.mapM_cons, h x List.mem_cons_self, mapM_ok xs fun y hy => h y (List.mem_cons_of_mem _ hy)]
    rfl

/-- **C72** The occultation vector of the multi-precision package: every entry is exactly the integral of the Green
polynomial over the part of the star's disc that is not behind the occultor -/
theorem sT_visible (l_max : ℕ) (b r : ℝ) (hb : b ≠ 0) (hr : r ≠ 0) (h1 : |b| < 1 + |r|) (h2 : |r| < 1 + |b|) :
    ∃ S, sT l_max b r = .ok S ∧ S.length = (l_max + 1) ^ 2 ∧ ∀ l ≤ l_max, ∀ q ≤ 2 * l,
      S.getD (l ^ 2 + q) 0 = ∫ p in stellarDisc \ occultorY |b| |r|, polyVal (gtilde (l ^ 2 + q)) p.1 p.2 (mu p) := by
  have hb' := abs_pos.2 hb
  have hr' := abs_pos.2 hr
  obtain ⟨Q, hQ, lQ, vQ⟩ := qIntegral_spec l_max (π / 2 - (Starry.kappas |b| |r|).2)
  let v : ℕ × ℤ → ℝ := fun e => ∫ φ in (0 : ℝ)..(Starry.kappas |b| |r|).1,
    edgePair (greenField (e.1 - e.2).toNat (e.1 + e.2).toNat) |b| |r| φ
  have hP : pNumerical l_max |b| |r| = .ok ((loopLM l_max).map v) := by
    refine mapM_ok _ fun e he => ?_
    have := mem_loopLM he
    obtain ⟨q, hq⟩ : ∃ q : ℕ, e.2 = (q : ℤ) - e.1 := ⟨(e.2 + e.1).toNat, by omega⟩
    have := P_integral hb' hr' h1 h2 e.1 q (by omega)
    rw [hq, this]
    simp only [v, hq]
    rw [show ((e.1 : ℤ) - ((q : ℤ) - e.1)).toNat = 2 * e.1 - q by omega, show ((e.1 : ℤ) + ((q : ℤ) - e.1)).toNat = q by omega]
  refine ⟨List.zipWith (fun q p => q - p) Q ((loopLM l_max).map v), ?_, ?_, fun l hlm q hq => ?_⟩
  · unfold sT
    simp only [lam_eq hb' hr' h1 h2, hQ, hP, bind, Except.bind, pure, Except.pure]
  · rw [List.length_zipWith, List.length_map, loopLM_eq]; simp [lQ]
  · have hlt : l ^ 2 + q < (l_max + 1) ^ 2 := by nlinarith
    have lP : ((loopLM l_max).map v).length = (l_max + 1) ^ 2 := by rw [loopLM_eq]; simp
    have e : (List.zipWith (fun q p => q - p) Q ((loopLM l_max).map v)).getD (l ^ 2 + q) 0 =
        Q.getD (l ^ 2 + q) 0 - ((loopLM l_max).map v).getD (l ^ 2 + q) 0 := by
      simp only [List.getD_eq_getElem?_getD, List.getElem?_zipWith]
      rw [List.getElem?_eq_getElem (by omega), List.getElem?_eq_getElem (by omega)]
      simp
    have hv : ((loopLM l_max).map v).getD (l ^ 2 + q) 0 = ∫ φ in (0 : ℝ)..(Starry.kappas |b| |r|).1,
        edgePair (greenField (2 * l - q) q) |b| |r| φ := by
      rw [loopLM_eq, List.map_map, List.getD_eq_getElem?_getD, List.getElem?_map, List.getElem?_range hlt]
      simp only [Option.map_some, Option.getD_some, Function.comp_apply]
      rw [lmOfIndex_block l q (by omega)]
      simp only [v]
      rw [show ((l : ℤ) - ((q : ℤ) - l)).toNat = 2 * l - q by omega, show ((l : ℤ) + ((q : ℤ) - l)).toNat = q by omega]
    rw [e, vQ l hlm q hq, hv, visible_green l q hq hb'.le hr'.le (fun h => hb'.ne' h.1)]
    congr 1
    rw [arcIntegral_occ, fold_arc (continuous_occLine _ _ _ _)]
    refine intervalIntegral.integral_congr fun φ _ => ?_
    simp only [edgePair, occLine]

end Jaxoplanet.Starry.Mp
