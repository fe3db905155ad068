import Verif.Proofs.LimbDark

/-!
# Properties of `core/limb_dark.py::light_curve` (C27 - C32, C57)

`eps` (machine epsilon) and `quad` (the quadrature rule) are universally quantified.
-/

namespace Jaxoplanet.LimbDark

open Real MeasureTheory Set Spec Green

/-! ## Unfolding the solution vector -/

theorem solution_occ {b r : ℝ} (hb : 0 ≤ b) (hr : 0 ≤ r) (h1 : b < 1 + r) (h2 : r < 1 + b)
    (eps : ℝ) (quad : List (ℝ × ℝ)) (n : ℕ) :
    solution eps quad b r n =
      match n with
      | 0 => (s0s2 b r (b ^ 2) (r ^ 2) (kappas b r).1 (kappas b r).2.1 (kappas b r).2.2).1
      | 1 => -pIntegral eps quad b r (b ^ 2) (r ^ 2) (kappas b r).2.1 1
              - 2 * ((kappas b r).2.2 - π) / 3
      | 2 => (s0s2 b r (b ^ 2) (r ^ 2) (kappas b r).1 (kappas b r).2.1 (kappas b r).2.2).2
      | n => -pIntegral eps quad b r (b ^ 2) (r ^ 2) (kappas b r).2.1 n := by
  have hn : ¬ (b ≥ 1 + r) := not_le.2 h1
  have hf : ¬ (1 + b ≤ r) := not_le.2 h2
  unfold solution
  simp only [abs_of_nonneg hb, abs_of_nonneg hr, hn, hf, or_self, if_false]
  match n with
  | 0 => rfl
  | 1 => rfl
  | 2 => rfl
  | n + 3 => rfl

theorem solution_none {b r : ℝ} (hb : 0 ≤ b) (hr : 0 ≤ r) (h : 1 + r ≤ b)
    (eps : ℝ) (quad : List (ℝ × ℝ)) (n : ℕ) :
    solution eps quad b r n = match n with | 0 => π | 1 => 2 * π / 3 | _ => 0 := by
  have hn : b ≥ 1 + r := h
  have hf : ¬ (1 + b ≤ r) := by linarith
  have hcond : ¬ (b > |1 - r| ∧ b < 1 + r) := fun h' => by linarith [h'.2]
  have hk : (kappas b r).2.2 = 0 := by
    simp only [kappas, if_neg hcond]
    exact Complex.arg_ofReal_of_nonneg (x := b ^ 2 - (r - 1) * (r + 1)) (by nlinarith)
  unfold solution
  simp only [abs_of_nonneg hb, abs_of_nonneg hr, hn, hf, or_false, if_true, if_false]
  match n with
  | 0 => rfl
  | 1 => simp only [hk]; ring
  | 2 => rfl
  | n + 3 => simp

theorem solution_full {b r : ℝ} (hb : 0 ≤ b) (hr : 0 ≤ r) (h : 1 + b ≤ r)
    (eps : ℝ) (quad : List (ℝ × ℝ)) (n : ℕ) :
    solution eps quad b r n =
      match n with | 1 => 2 * (π - if b = 0 ∧ r = 1 then 0 else π) / 3 | _ => 0 := by
  have hn : ¬ (b ≥ 1 + r) := by linarith
  have hcond : ¬ (b > |1 - r| ∧ b < 1 + r) := by
    rintro ⟨h', -⟩
    rw [abs_of_nonpos (by linarith)] at h'
    linarith
  have hk : (kappas b r).2.2 = if b = 0 ∧ r = 1 then 0 else π := by
    simp only [kappas, if_neg hcond]
    by_cases hbr : b = 0 ∧ r = 1
    · rw [if_pos hbr, hbr.1, hbr.2]
      have := Complex.arg_ofReal_of_nonneg (x := 0 ^ 2 - (1 - 1) * (1 + 1)) (by norm_num)
      exact this
    · rw [if_neg hbr]
      refine Complex.arg_ofReal_of_neg (x := b ^ 2 - (r - 1) * (r + 1)) ?_
      rcases hb.eq_or_lt with rfl | hb'
      · have : r ≠ 1 := fun h => hbr ⟨rfl, h⟩
        have : 1 < r := lt_of_le_of_ne (by linarith) (Ne.symm this)
        nlinarith
      · nlinarith
  unfold solution
  simp only [abs_of_nonneg hb, abs_of_nonneg hr, hn, h, false_or, if_true, if_false]
  match n with
  | 0 => rfl
  | 1 => simp only [hk]; ring
  | 2 => rfl
  | n + 3 => simp

theorem lightCurve_cons {u : List ℝ} (hu : u ≠ []) (eps : ℝ) (quad : List (ℝ × ℝ)) (b r : ℝ) :
    lightCurve eps quad u b r =
      (∑ n ∈ Finset.range (u.length + 1), solution eps quad b r n * greens u n) / totalFlux u - 1 := by
  rw [totalFlux_eq hu, Finset.sum_div]
  match u, hu with
  | a :: u, _ => exact congrArg (· - 1) (Finset.sum_congr rfl fun n _ => by ring)

/-! ## C27, C28, C32 -/

/-- C32 -/
theorem light_curve_abs (eps : ℝ) (quad : List (ℝ × ℝ)) (u : List ℝ) (b r : ℝ) :
    lightCurve eps quad u (-b) r = lightCurve eps quad u b r ∧
    lightCurve eps quad u b (-r) = lightCurve eps quad u b r ∧
    lightCurve eps quad u b r = lightCurve eps quad u |b| |r| := by
  have h : ∀ b b' r r' : ℝ, |b| = |b'| → |r| = |r'| → solution eps quad b r = solution eps quad b' r' := by
    intro b b' r r' hb hr
    funext n
    unfold solution
    rw [hb, hr]
  have h' : ∀ b b' r r' : ℝ, |b| = |b'| → |r| = |r'| →
      lightCurve eps quad u b r = lightCurve eps quad u b' r' := by
    intro b b' r r' hb hr
    unfold lightCurve
    rw [h b b' r r' hb hr]
  exact ⟨h' _ _ _ _ (abs_neg b) rfl, h' _ _ _ _ rfl (abs_neg r),
    h' _ _ _ _ (abs_abs b).symm (abs_abs r).symm⟩

/-- C27: no occultation, no change of flux. -/
theorem light_curve_no_occultation (eps : ℝ) (quad : List (ℝ × ℝ)) (u : List ℝ)
    (htot : totalFlux u ≠ 0) (b r : ℝ) (h : 1 + |r| ≤ |b|) : lightCurve eps quad u b r = 0 := by
  rw [(light_curve_abs eps quad u b r).2.2]
  have hs := solution_none (abs_nonneg b) (abs_nonneg r) h eps quad
  by_cases hu : u = []
  · subst hu
    simp only [lightCurve, hs]
    have := pi_pos.ne'
    field_simp
    norm_num
  · rw [lightCurve_cons hu]
    simp only [hs]
    have e : ∑ n ∈ Finset.range (u.length + 1),
        (match n with | 0 => π | 1 => 2 * π / 3 | _ => 0) * greens u n = totalFlux u := by
      obtain ⟨M, hM⟩ : ∃ M, u.length = M + 1 :=
        Nat.exists_eq_succ_of_ne_zero (by simpa using hu)
      rw [hM, Finset.sum_range_succ', Finset.sum_range_succ', totalFlux_eq hu]
      simp
      ring
    rw [e, div_self htot, sub_self]

/-- C28 (true part): total occultation removes all the flux, except when a planet of exactly the star's
size is exactly centred. -/
theorem light_curve_total_occultation_partial (eps : ℝ) (quad : List (ℝ × ℝ)) (u : List ℝ) (b r : ℝ)
    (h : 1 + |b| ≤ |r|) (hne : ¬ (|b| = 0 ∧ |r| = 1)) : lightCurve eps quad u b r = -1 := by
  rw [(light_curve_abs eps quad u b r).2.2]
  have hs := solution_full (abs_nonneg b) (abs_nonneg r) h eps quad
  by_cases hu : u = []
  · subst hu
    simp [lightCurve, hs]
  · rw [lightCurve_cons hu]
    have e : ∑ n ∈ Finset.range (u.length + 1), solution eps quad |b| |r| n * greens u n = 0 := by
      refine Finset.sum_eq_zero fun n _ => ?_
      rw [hs, if_neg hne]
      match n with
      | 0 => simp
      | 1 => simp
      | n + 2 => simp
    rw [e]; simp

/-- F1: at `b = 0`, `r = 1` the returned flux is off by the whole linear Green's term. -/
theorem light_curve_exact_cover (eps : ℝ) (quad : List (ℝ × ℝ)) (u : List ℝ) (hu : u ≠ []) :
    lightCurve eps quad u 0 1 = 2 * π / 3 * greens u 1 / totalFlux u - 1 := by
  have hs := solution_full le_rfl zero_le_one (show (1 : ℝ) + 0 ≤ 1 by norm_num) eps quad
  rw [lightCurve_cons hu]
  have e : ∑ n ∈ Finset.range (u.length + 1), solution eps quad 0 1 n * greens u n =
      2 * π / 3 * greens u 1 := by
    obtain ⟨M, hM⟩ : ∃ M, u.length = M + 1 :=
      Nat.exists_eq_succ_of_ne_zero (by simpa using hu)
    rw [hM, Finset.sum_range_succ', Finset.sum_range_succ']
    simp [hs]
  rw [e]

/-- F1, witness: the linear law `u = (1/2,)`; the star is completely hidden, yet the light curve is
`-3/5`, not `-1`. -/
theorem total_occultation_counterexample (eps : ℝ) (quad : List (ℝ × ℝ)) :
    stellarDisc ⊆ occultor 0 1 ∧ lightCurve eps quad [1 / 2] 0 1 = -3 / 5 := by
  refine ⟨star_eq.le, ?_⟩
  rw [light_curve_exact_cover eps quad _ (by simp), totalFlux_eq (by simp)]
  have g0 : greens [1 / 2] 0 = 1 / 2 := by
    simp [greens, uAug, pCoeff, gHigh_of_ge, Finset.sum_range_succ]; norm_num
  have g1 : greens [1 / 2] 1 = 1 / 2 := by
    simp [greens, uAug, pCoeff, gHigh_of_ge, Finset.sum_range_succ]
  rw [g0, g1]
  have := pi_pos.ne'
  field_simp
  norm_num

/-! ## C29: the basis transform -/

/-- C29 -/
theorem greens_reproduces_profile {u : List ℝ} (hu : u ≠ []) (μ : ℝ) :
    greens u 0 + greens u 1 * μ + ∑ n ∈ Finset.Ico 2 (u.length + 1),
      greens u n * ((n + 2) * μ ^ n - n * μ ^ (n - 2)) = profile u μ := by
  obtain ⟨M, hM⟩ : ∃ M, u.length = M + 1 :=
    Nat.exists_eq_succ_of_ne_zero (by simpa using hu)
  rw [← sum_greens hu, hM, Finset.sum_range_succ', Finset.sum_range_succ',
    Finset.sum_Ico_eq_sum_range]
  simp only [gtil, mul_one]
  rw [show M + 1 + 1 - 2 = M by omega]
  have : ∀ k ∈ Finset.range M, greens u (2 + k) * (((2 + k : ℕ) + 2) * μ ^ (2 + k)
      - ((2 + k : ℕ) : ℝ) * μ ^ (2 + k - 2)) =
      greens u (k + 1 + 1) * ((k + 4) * μ ^ (k + 2) - (k + 2) * μ ^ k) := by
    intro k _
    rw [show 2 + k - 2 = k by omega, show k + 1 + 1 = 2 + k by omega]
    push_cast
    ring
  rw [Finset.sum_congr rfl this]
  ring

/-- C29: the normalisation is the flux of the whole star. -/
theorem greens_normalisation {u : List ℝ} (hu : u ≠ []) :
    π * (greens u 0 + greens u 1 / 1.5) = totalFlux u := (totalFlux_eq hu).symm

/-! ## The hidden region in all regimes -/

theorem s0_eq {b r : ℝ} (hb : 0 ≤ b) (hr : 0 ≤ r) (h1 : b < 1 + r) (h2 : r < 1 + b) :
    (s0s2 b r (b ^ 2) (r ^ 2) (kappas b r).1 (kappas b r).2.1 (kappas b r).2.2).1 =
      π - ∫ _p in stellarDisc ∩ occultor b r, (1 : ℝ) := by
  rcases lens_or_inside h1 h2 with h | h
  · rw [lens_area h]
    have : ¬ ((1 + (b + r)) * (1 - (b + r)) + 4 * b * r > 4 * b * r) := by
      have := h.ineqs.2.2.1
      nlinarith
    simp only [s0s2, if_neg this]
  · rw [inside_area hb hr h, inside_kappas hb hr h h1 h2]
    simp only [s0s2]
    split_ifs <;> ring

theorem s2_eq {b r : ℝ} (hb : 0 ≤ b) (hr : 0 ≤ r) (h1 : b < 1 + r) (h2 : r < 1 + b) :
    (s0s2 b r (b ^ 2) (r ^ 2) (kappas b r).1 (kappas b r).2.1 (kappas b r).2.2).2 =
      -∫ p in stellarDisc ∩ occultor b r, gtil 2 (mu p) := by
  obtain ⟨k0, kπ, hpos, -⟩ := w_sign hb hr h1 h2
  rw [hidden_high hr 0, arc_pow hb hr h1 h2 le_rfl, arc_two _ _ _ fun φ hφ => by
    rw [uIcc_of_le k0] at hφ; exact hpos φ hφ.1 hφ.2]
  rcases lens_or_inside h1 h2 with h | h
  · have : ¬ ((1 + (b + r)) * (1 - (b + r)) + 4 * b * r > 4 * b * r) := by
      have := h.ineqs.2.2.1
      nlinarith
    obtain ⟨hb', hr', -⟩ := h.ineqs
    obtain ⟨ha, hs0, hs1, hk0, hk1, hc0, hsn0, hc1, hsn1, hp0, hp1⟩ := lens_kappas h
    simp only [s0s2, if_neg this]
    rw [hc0, hsn0]
    field_simp
    ring
  · rw [inside_kappas hb hr h h1 h2]
    simp only [s0s2, sin_pi]
    split_ifs <;> ring

/-! ## C30 and C57: the light curve is the blocked fraction of the flux -/

theorem touching_null {b r : ℝ} (hr : 0 ≤ r) (h : 1 + r ≤ b) :
    volume (stellarDisc ∩ occultor b r) = 0 := by
  refine measure_mono_null (t := {((1 : ℝ), (0 : ℝ))}) (fun p hp => ?_) (by simp)
  obtain ⟨h1, h2⟩ := hp
  simp only [stellarDisc, occultor, mem_ofPred_eq] at h1 h2
  have hx : b - r ≤ p.1 := by nlinarith [sq_nonneg p.2]
  have hx1 : p.1 = 1 := by nlinarith [sq_nonneg p.2]
  have hy : p.2 = 0 := by
    have : p.2 ^ 2 ≤ 0 := by rw [hx1] at h1; linarith
    exact pow_eq_zero_iff two_ne_zero |>.1 (le_antisymm this (sq_nonneg _))
  exact Prod.ext hx1 hy

theorem covered {b r : ℝ} (hb : 0 ≤ b) (h : 1 + b ≤ r) : stellarDisc ⊆ occultor b r := by
  intro p hp
  simp only [stellarDisc, occultor, mem_ofPred_eq] at *
  have hx : -1 ≤ p.1 := by nlinarith [sq_nonneg p.2]
  nlinarith [mul_le_mul_of_nonneg_left hx hb]

theorem occultor_abs (b r : ℝ) : ∀ u, blockedFlux u |b| |r| = blockedFlux u b r := by
  intro u
  have h1 : occultor |b| |r| = occultor |b| r := by simp [occultor]
  unfold blockedFlux
  rw [h1]
  rcases abs_choice b with h | h
  · rw [h]
  · rw [h]
    have hp : MeasurePreserving (fun p : ℝ × ℝ => -p) volume volume := Measure.measurePreserving_neg _
    have hpre : (fun p : ℝ × ℝ => -p) ⁻¹' (stellarDisc ∩ occultor (-b) r) = stellarDisc ∩ occultor b r := by
      ext p
      simp only [stellarDisc, occultor, mem_preimage, mem_inter_iff, mem_ofPred_eq, Prod.fst_neg,
        Prod.snd_neg, neg_sq]
      rw [show -p.1 - -b = -(p.1 - b) by ring, neg_sq]
    rw [← hp.setIntegral_preimage_emb (MeasurableEquiv.neg (ℝ × ℝ)).measurableEmbedding, hpre]
    simp [mu]

/-- C30: for a uniform star the light curve is minus the hidden fraction of the disc, whatever the
separation and the radius ratio, in every geometric regime. -/
theorem uniform_light_curve (eps : ℝ) (quad : List (ℝ × ℝ)) (b r : ℝ) :
    lightCurve eps quad [] b r = -(volume (stellarDisc ∩ occultor b r)).toReal / π := by
  have habs := occultor_abs b r []
  simp only [blockedFlux, profile, List.length_nil, Finset.univ_eq_empty, Finset.sum_empty, sub_zero,
    setIntegral_const, smul_eq_mul, mul_one, Measure.real] at habs
  rw [(light_curve_abs eps quad [] b r).2.2, ← habs]
  have hb := abs_nonneg b
  have hr := abs_nonneg r
  generalize |b| = b at *
  generalize |r| = r at *
  have hπ := pi_pos.ne'
  have hval : (volume (stellarDisc ∩ occultor b r)).toReal =
      ∫ _p in stellarDisc ∩ occultor b r, (1 : ℝ) := by
    simp [Measure.real]
  simp only [lightCurve]
  rcases le_or_gt (1 + r) b with h1 | h1
  · rw [solution_none hb hr h1, touching_null hr h1]
    simp [hπ]
  · rcases le_or_gt (1 + b) r with h2 | h2
    · rw [solution_full hb hr h2, inter_eq_left.2 (covered hb h2)]
      have := whole_star 0
      simp only [gtil] at this
      have : (volume stellarDisc).toReal = π := by simpa [Measure.real] using this
      rw [this]
      field_simp
      norm_num
    · rw [solution_occ hb hr h1 h2, hval]
      simp only
      rw [s0_eq hb hr h1 h2]
      field_simp
      ring

/-- C30, range -/
theorem uniform_light_curve_range (eps : ℝ) (quad : List (ℝ × ℝ)) (b r : ℝ) :
    -1 ≤ lightCurve eps quad [] b r ∧ lightCurve eps quad [] b r ≤ 0 := by
  have hπ := pi_pos
  have hs : (volume stellarDisc).toReal = π := by
    have := whole_star 0
    simpa [gtil, Measure.real] using this
  rw [uniform_light_curve]
  constructor
  · rw [le_div_iff₀ hπ]
    have := ENNReal.toReal_mono star_volume_lt_top.ne
      (measure_mono (μ := volume) (inter_subset_left (s := stellarDisc) (t := occultor b r)))
    linarith
  · rw [neg_div, neg_nonpos]; positivity

/-- the error of the quadrature rule on the order-`n` line integral of the code -/
noncomputable def quadError (eps : ℝ) (quad : List (ℝ × ℝ)) (b r : ℝ) (n : ℕ) : ℝ :=
  pIntegral eps quad b r (b ^ 2) (r ^ 2) (kappas b r).2.1 n
    - ∫ φ in (0 : ℝ)..(kappas b r).2.1, arcIntegrand b r n φ

theorem solution_hidden {b r : ℝ} (hb : 0 ≤ b) (hr : 0 ≤ r) (h1 : b < 1 + r) (h2 : r < 1 + b)
    (eps : ℝ) (quad : List (ℝ × ℝ)) (n : ℕ) :
    solution eps quad b r n =
      (∫ p in stellarDisc, gtil n (mu p)) - (∫ p in stellarDisc ∩ occultor b r, gtil n (mu p))
        - (if n = 0 ∨ n = 2 then 0 else quadError eps quad b r n) := by
  rw [solution_occ hb hr h1 h2, whole_star]
  match n with
  | 0 =>
    simp only [true_or, if_true, sub_zero]
    rw [s0_eq hb hr h1 h2]
    simp [gtil]
  | 1 =>
    have e : ∀ φ, arcIntegrand b r 1 φ = 2 * r * (r - b * cos φ) *
        ((1 + √(w b r φ) + √(w b r φ) ^ 2) / (3 * (1 + √(w b r φ)))) := fun φ => by
      simp [arcIntegrand, w]
    simp only [one_ne_zero, false_or, OfNat.one_ne_ofNat, if_false, quadError, e, gtil]
    rw [term_one b hr, arc_one hb hr h1 h2]
    ring
  | 2 =>
    simp only [or_true, if_true, sub_zero]
    rw [s2_eq hb hr h1 h2]
    ring
  | n + 3 =>
    have hn : ¬ (n + 3 = 0 ∨ n + 3 = 2) := by omega
    have e : ∀ φ, arcIntegrand b r (n + 3) φ = 2 * r * (r - b * cos φ) * √(w b r φ) ^ (n + 3) :=
      fun φ => by simp [arcIntegrand, w]
    simp only [if_neg hn, quadError, e]
    rw [hidden_high hr (n + 1), arc_pow hb hr h1 h2 (n := n + 1 + 2) (by omega)]
    ring

/-- C57: during an occultation the light curve is minus the fraction of the limb-darkened flux that is
hidden, up to the quadrature errors of the orders 1 and 3, 4, ...; uniform and second order terms are
exact. -/
theorem light_curve_is_blocked_fraction {u : List ℝ} (hu : u ≠ []) (htot : totalFlux u ≠ 0)
    {b r : ℝ} (hb : 0 ≤ b) (hr : 0 ≤ r) (h1 : b < 1 + r) (h2 : r < 1 + b)
    (eps : ℝ) (quad : List (ℝ × ℝ)) :
    lightCurve eps quad u b r = -blockedFlux u b r / totalFlux u
      - ∑ n ∈ Finset.range (u.length + 1),
          greens u n / totalFlux u * (if n = 0 ∨ n = 2 then 0 else quadError eps quad b r n) := by
  have ht : totalFlux u = ∑ n ∈ Finset.range (u.length + 1),
      greens u n * ∫ p in stellarDisc, gtil n (mu p) := by
    have h : totalFlux u = blockedFlux u 0 1 := by
      unfold totalFlux blockedFlux; rw [← star_eq, inter_self]
    rw [h, blockedFlux_eq hu, ← star_eq, inter_self]
  rw [lightCurve_cons hu]
  simp only [solution_hidden hb hr h1 h2]
  have e : ∑ n ∈ Finset.range (u.length + 1), ((∫ p in stellarDisc, gtil n (mu p))
        - (∫ p in stellarDisc ∩ occultor b r, gtil n (mu p))
        - (if n = 0 ∨ n = 2 then 0 else quadError eps quad b r n)) * greens u n =
      totalFlux u - blockedFlux u b r - ∑ n ∈ Finset.range (u.length + 1),
        greens u n * (if n = 0 ∨ n = 2 then 0 else quadError eps quad b r n) := by
    rw [ht, blockedFlux_eq hu, ← Finset.sum_sub_distrib, ← Finset.sum_sub_distrib]
    exact Finset.sum_congr rfl fun n _ => by ring
  have e2 : ∑ n ∈ Finset.range (u.length + 1),
        greens u n / totalFlux u * (if n = 0 ∨ n = 2 then 0 else quadError eps quad b r n) =
      (∑ n ∈ Finset.range (u.length + 1),
        greens u n * (if n = 0 ∨ n = 2 then 0 else quadError eps quad b r n)) / totalFlux u := by
    rw [Finset.sum_div]
    exact Finset.sum_congr rfl fun n _ => by ring
  rw [e, e2]
  field_simp
  ring

/-- C57, all regimes: for every separation and radius ratio of any sign. `E` is the quadrature
contribution, which vanishes when the planet is off the disc or covers it. -/
theorem light_curve_flux_all_regimes {u : List ℝ} (hu : u ≠ []) (htot : totalFlux u ≠ 0)
    (b r : ℝ) (hne : ¬ (|b| = 0 ∧ |r| = 1)) (eps : ℝ) (quad : List (ℝ × ℝ)) :
    lightCurve eps quad u b r = -blockedFlux u b r / totalFlux u
      - ∑ n ∈ Finset.range (u.length + 1), greens u n / totalFlux u *
          (if n = 0 ∨ n = 2 ∨ 1 + |r| ≤ |b| ∨ 1 + |b| ≤ |r| then 0
            else quadError eps quad |b| |r| n) := by
  rcases le_or_gt (1 + |r|) |b| with h1 | h1
  · rw [light_curve_no_occultation eps quad u htot b r h1, ← occultor_abs b r u, blockedFlux,
      setIntegral_measure_zero _ (touching_null (abs_nonneg r) h1)]
    simp [h1]
  · rcases le_or_gt (1 + |b|) |r| with h2 | h2
    · rw [light_curve_total_occultation_partial eps quad u b r h2 hne, ← occultor_abs b r u, blockedFlux,
        inter_eq_left.2 (covered (abs_nonneg b) h2)]
      have : (∫ p in stellarDisc, profile u (mu p)) = totalFlux u := rfl
      rw [this, neg_div, div_self htot]
      simp [h2]
    · rw [(light_curve_abs eps quad u b r).2.2, light_curve_is_blocked_fraction hu htot (abs_nonneg b)
        (abs_nonneg r) h1 h2, occultor_abs]
      simp only [not_le.2 h1, not_le.2 h2, or_false]

/-- C57: with a quadrature rule that is exact on the line integrals, the light curve is exactly minus
the hidden fraction of the flux. -/
theorem light_curve_exact_quadrature {u : List ℝ} (hu : u ≠ []) (htot : totalFlux u ≠ 0)
    (b r : ℝ) (hne : ¬ (|b| = 0 ∧ |r| = 1)) (eps : ℝ) (quad : List (ℝ × ℝ))
    (hq : ∀ n, n = 1 ∨ 3 ≤ n → n ≤ u.length → quadError eps quad |b| |r| n = 0) :
    lightCurve eps quad u b r = -blockedFlux u b r / totalFlux u := by
  rw [light_curve_flux_all_regimes hu htot b r hne, sub_eq_self]
  refine Finset.sum_eq_zero fun n hn => ?_
  have hn := Finset.mem_range.1 hn
  split_ifs with h
  · ring
  · rw [hq n (by omega) (by omega), mul_zero]

/-- C57: the code's integrand is the exact line integrand at the mapped quadrature node, wherever none of
the `10 * eps` guards fires. -/
theorem integrand_exact {b r : ℝ} (eps κ x : ℝ) {n : ℕ} (hn : n = 1 ∨ 3 ≤ n)
    (hw : 0 ≤ w b r (κ / 2 * (x + 1)))
    (h1 : n = 1 → 10 * eps ≤ w b r (κ / 2 * (x + 1)) ∧ 10 * eps ≤ 1 - w b r (κ / 2 * (x + 1)) ∧
      w b r (κ / 2 * (x + 1)) ≠ 1)
    (h3 : 3 ≤ n → (10 * eps ≤ 4 * b * r ∧ 0 < 4 * b * r) ∨ (b = 0 ∧ 0 < eps)) :
    pIntegrand eps b r (b ^ 2) (r ^ 2) κ n x = arcIntegrand b r n (κ / 2 * (x + 1)) := by
  have hang : 0.5 * κ * x + 0.5 * κ = κ / 2 * (x + 1) := by ring
  have hs2 : sin ((0.5 * κ * x + 0.5 * κ) / 2) ^ 2 = (1 - cos (κ / 2 * (x + 1))) / 2 := by
    rw [hang, sin_sq, cos_sq]; ring_nf
  set φ := κ / 2 * (x + 1) with hφ
  have hw1 := w_le_one b r φ
  have earg : 1 - b ^ 2 - r ^ 2 + 2 * b * r * cos φ = w b r φ := rfl
  rcases hn with rfl | hn
  · obtain ⟨ha, hb, hc⟩ := h1 rfl
    simp only [pIntegrand, arcIntegrand, if_true, hang, Kepler.zeroSafeSqrt, earg]
    have e : r ^ 2 + b ^ 2 - 2 * b * r * cos φ = 1 - w b r φ := by rw [w]; ring
    rw [e, max_eq_right (by linarith), if_neg (not_lt.2 hb), if_neg (not_lt.2 hb), sub_sub_cancel,
      if_neg (not_lt.2 ha)]
    have hs := sqrt_nonneg (w b r φ)
    have hsq := sq_sqrt hw
    have hlt : w b r φ < 1 := lt_of_le_of_ne hw1 hc
    generalize √(w b r φ) = z at *
    rw [← hsq] at hlt ⊢
    have hz1 : 0 < 1 - z ^ 2 := by linarith
    have hz2 : 1 - z ^ 2 ≠ 0 := hz1.ne'
    have hz3 : 1 + z ≠ 0 := by linarith
    field_simp
    ring
  · have hn1 : n ≠ 1 := by omega
    simp only [pIntegrand, arcIntegrand, if_neg hn1, hs2, earg]
    have hsqrt : √(w b r φ) ^ n = (w b r φ) ^ (0.5 * (n : ℝ)) := by
      rw [sqrt_eq_rpow, ← rpow_natCast, ← rpow_mul hw]; norm_num
    rw [hsqrt]
    rcases h3 hn with ⟨hk, hpos⟩ | ⟨rfl, heps⟩
    · rw [if_neg (not_lt.2 hk), if_neg (not_lt.2 hk)]
      have e4 : 0 ≤ 1 - r ^ 2 - b ^ 2 + 2 * b * r := by
        have := cos_le_one φ
        rw [w] at hw
        nlinarith
      rw [max_eq_right (a := 0) (div_nonneg e4 hpos.le)]
      have e5 : 4 * b * r * ((1 - r ^ 2 - b ^ 2 + 2 * b * r) / (4 * b * r) - (1 - cos φ) / 2) = w b r φ := by
        rw [mul_sub, mul_div_cancel₀ _ hpos.ne', w]; ring
      rw [e5, max_eq_right hw]
      ring
    · have hk : 4 * 0 * r < 10 * eps := by linarith
      rw [if_pos hk]
      have e5 : 1 - r ^ 2 = w 0 r φ := by rw [w]; ring
      rw [e5, max_eq_right hw]
      ring

/-- C57: the quadrature error is the error of the given rule, mapped to the occulting arc, on the exact line
integrand, when no guard fires at any node. -/
theorem quadError_eq {b r : ℝ} (eps : ℝ) (quad : List (ℝ × ℝ)) {n : ℕ} (hn : n = 1 ∨ 3 ≤ n)
    (hq : ∀ xw ∈ quad, let v := w b r ((kappas b r).2.1 / 2 * (xw.1 + 1))
      0 ≤ v ∧ (n = 1 → 10 * eps ≤ v ∧ 10 * eps ≤ 1 - v ∧ v ≠ 1))
    (h3 : 3 ≤ n → (10 * eps ≤ 4 * b * r ∧ 0 < 4 * b * r) ∨ (b = 0 ∧ 0 < eps)) :
    quadError eps quad b r n =
      (kappas b r).2.1 / 2 * (quad.map fun xw =>
          arcIntegrand b r n ((kappas b r).2.1 / 2 * (xw.1 + 1)) * xw.2).sum
        - ∫ φ in (0 : ℝ)..(kappas b r).2.1, arcIntegrand b r n φ := by
  unfold quadError pIntegral
  congr 1
  have : (quad.map fun xw => pIntegrand eps b r (b ^ 2) (r ^ 2) (kappas b r).2.1 n xw.1 * xw.2) =
      quad.map fun xw => arcIntegrand b r n ((kappas b r).2.1 / 2 * (xw.1 + 1)) * xw.2 := by
    refine List.map_congr_left fun xw hx => ?_
    rw [integrand_exact eps _ _ hn (hq xw hx).1 (hq xw hx).2 h3]
  rw [this]
  ring

/-! ## C31: the kite area -/

/-- C31: `kite_area` of the side lengths of any triangle in the plane is four times its area
(`|cross product| = 2 area`), in whichever order the sides are given. -/
theorem kite_area_is_triangle (P Q R : ℝ × ℝ) :
    let d : ℝ × ℝ → ℝ × ℝ → ℝ := fun A B => √((A.1 - B.1) ^ 2 + (A.2 - B.2) ^ 2)
    kiteArea (d Q R) (d P R) (d P Q) =
      2 * |(Q.1 - P.1) * (R.2 - P.2) - (Q.2 - P.2) * (R.1 - P.1)| := by
  intro d
  have hd : ∀ A B, d A B ^ 2 = (A.1 - B.1) ^ 2 + (A.2 - B.2) ^ 2 := fun A B =>
    sq_sqrt (by positivity)
  rw [kiteArea_eq]
  have a2 := hd Q R
  have b2 := hd P R
  have c2 := hd P Q
  have : (d Q R + d P R + d P Q) * (-d Q R + d P R + d P Q) * (d Q R - d P R + d P Q) *
      (d Q R + d P R - d P Q) =
      (2 * ((Q.1 - P.1) * (R.2 - P.2) - (Q.2 - P.2) * (R.1 - P.1))) ^ 2 := by
    have : (d Q R + d P R + d P Q) * (-d Q R + d P R + d P Q) * (d Q R - d P R + d P Q) *
      (d Q R + d P R - d P Q) = 4 * d P R ^ 2 * d P Q ^ 2 - (d P R ^ 2 + d P Q ^ 2 - d Q R ^ 2) ^ 2 := by ring
    rw [this, a2, b2, c2]; ring
  rw [this, max_eq_right (sq_nonneg _), sqrt_sq_eq_abs, abs_mul, abs_two]

/-- C31: symmetric in its arguments. -/
theorem kite_area_symmetric (a b c : ℝ) :
    kiteArea a b c = kiteArea b a c ∧ kiteArea a b c = kiteArea a c b := by
  simp only [kiteArea_eq]
  constructor <;> congr 2 <;> ring

/-- C31: Heron's formula; zero when no triangle with these sides exists. -/
theorem kite_area_heron (a b c : ℝ) (ha : 0 ≤ a) (hb : 0 ≤ b) (hc : 0 ≤ c) :
    (a ≤ b + c → b ≤ a + c → c ≤ a + b →
      kiteArea a b c ^ 2 = (a + b + c) * (-a + b + c) * (a - b + c) * (a + b - c)) ∧
    (¬ (a ≤ b + c ∧ b ≤ a + c ∧ c ≤ a + b) → kiteArea a b c = 0) := by
  rw [kiteArea_eq]
  constructor
  · intro h1 h2 h3
    have : 0 ≤ (a + b + c) * (-a + b + c) * (a - b + c) * (a + b - c) := by
      have e1 : 0 ≤ -a + b + c := by linarith
      have e2 : 0 ≤ a - b + c := by linarith
      have e3 : 0 ≤ a + b - c := by linarith
      positivity
    rw [max_eq_right this, sq_sqrt this]
  · intro h
    have : (a + b + c) * (-a + b + c) * (a - b + c) * (a + b - c) ≤ 0 := by
      have e0 : 0 ≤ a + b + c := by positivity
      by_cases h1 : a ≤ b + c
      · by_cases h2 : b ≤ a + c
        · have h3 : a + b < c := by
            by_contra h3; exact h ⟨h1, h2, not_lt.1 h3⟩
          exact mul_nonpos_of_nonneg_of_nonpos (mul_nonneg (mul_nonneg e0 (by linarith)) (by linarith))
            (by linarith)
        · push Not at h2
          exact mul_nonpos_of_nonpos_of_nonneg (mul_nonpos_of_nonneg_of_nonpos
            (mul_nonneg e0 (by linarith)) (by linarith)) (by linarith)
      · push Not at h1
        exact mul_nonpos_of_nonpos_of_nonneg (mul_nonpos_of_nonpos_of_nonneg
          (mul_nonpos_of_nonneg_of_nonpos e0 (by linarith)) (by linarith)) (by linarith)
    rw [max_eq_left this, sqrt_zero]

/-! ## The hypotheses are met -/

/-- a quadratic law has non-zero total flux -/
example : totalFlux [0.1, 0.3] ≠ 0 := by
  rw [totalFlux_eq (by simp)]
  have h0 : greens [0.1, 0.3] 0 = 0.6 - 2 * (0.3 / 4) := by
    simp [greens, uAug, gHigh_of_lt, gHigh_of_ge, pCoeff, Finset.sum_range_succ]; norm_num
  have h1 : greens [0.1, 0.3] 1 = 0.7 := by
    simp [greens, uAug, gHigh_of_ge, pCoeff, Finset.sum_range_succ]; norm_num
  rw [h0, h1]
  have := pi_pos
  norm_num

/-- a grazing transit meets the hypotheses of C57 -/
example : (1 : ℝ) < 1 + 0.1 ∧ (0.1 : ℝ) < 1 + 1 ∧ Lens 1 0.1 := by
  refine ⟨by norm_num, by norm_num, ?_, by norm_num⟩
  rw [abs_of_pos (by norm_num)]; norm_num

end Jaxoplanet.LimbDark
