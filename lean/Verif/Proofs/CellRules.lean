import Verif.Props.LightCurve
import Mathlib.Analysis.Calculus.MeanValue
import Mathlib.Analysis.Convex.Deriv

/-! Errors of the midpoint, trapezoid and Simpson rules on one cell, and of linear interpolation. -/

namespace Jaxoplanet.LightCurve

open MeasureTheory Real Set intervalIntegral

/-- a function that starts at zero with derivative at most `K x ^ n` -/
theorem bound_of_deriv_pow {φ φ' : ℝ → ℝ} {K T : ℝ} (n : ℕ) (hT : 0 ≤ T) (hc : ContinuousOn φ (Icc 0 T))
    (hd : ∀ x ∈ Ico 0 T, HasDerivWithinAt φ (φ' x) (Ici x) x) (h0 : φ 0 = 0) (hb : ∀ x ∈ Ico 0 T, |φ' x| ≤ K * x ^ n) :
    |φ T| ≤ K / (n + 1) * T ^ (n + 1) := by
  have hB : ∀ x : ℝ, HasDerivAt (fun x : ℝ => K / (n + 1) * x ^ (n + 1)) (K * x ^ n) x := fun x => by
    have := (hasDerivAt_pow (n + 1) x).const_mul (K / (n + 1))
    refine this.congr_deriv ?_
    have : (n : ℝ) + 1 ≠ 0 := by positivity
    push_cast
    field_simp
  have := image_norm_le_of_norm_deriv_right_le_deriv_boundary (f := φ) (f' := φ') (a := 0) (b := T) hc hd
    (B := fun x => K / (n + 1) * x ^ (n + 1)) (B' := fun x => K * x ^ n) (by simp [h0]) hB (fun x hx => by rw [norm_eq_abs]; exact hb x hx)
  simpa using this (right_mem_Icc.2 hT)

/-- the integral over a symmetric interval, as a function of its half width -/
theorem symm_integral_deriv {f : ℝ → ℝ} {c T : ℝ} (hf : ContinuousOn f (Icc (c - T) (c + T))) {t : ℝ} (ht0 : 0 ≤ t) (htT : t < T) :
    HasDerivAt (fun t => ∫ s in (c - t)..(c + t), f s) (f (c + t) + f (c - t)) t := by
  have hsub : Ioo (c - T) (c + T) ⊆ Icc (c - T) (c + T) := Ioo_subset_Icc_self
  have hint : ∀ x ∈ Ioo (c - T) (c + T), IntervalIntegrable f volume c x := fun x hx => by
    refine (hf.mono ?_).intervalIntegrable
    intro y hy
    rw [mem_uIcc] at hy
    rcases hy with hy | hy
    · exact ⟨by linarith [hy.1, hx.1], by linarith [hy.2, hx.2]⟩
    · exact ⟨by linarith [hy.1, hx.1], by linarith [hy.2, hx.2]⟩
  have hF : ∀ x ∈ Ioo (c - T) (c + T), HasDerivAt (fun x => ∫ s in c..x, f s) (f x) x := fun x hx =>
    integral_hasDerivAt_right (hint x hx) ((hf.mono hsub).stronglyMeasurableAtFilter isOpen_Ioo x hx)
      ((hf.mono hsub).continuousAt (Ioo_mem_nhds hx.1 hx.2))
  have m1 : c + t ∈ Ioo (c - T) (c + T) := ⟨by linarith, by linarith⟩
  have m2 : c - t ∈ Ioo (c - T) (c + T) := ⟨by linarith, by linarith⟩
  have d1 : HasDerivAt (fun t => ∫ s in c..(c + t), f s) (f (c + t)) t := by
    have := (hF _ m1).comp t ((hasDerivAt_id t).const_add c)
    simpa [Function.comp_def] using this
  have d2 : HasDerivAt (fun t => ∫ s in c..(c - t), f s) (-f (c - t)) t := by
    have := (hF _ m2).comp t ((hasDerivAt_id t).const_sub c)
    simpa [Function.comp_def] using this
  have d3 := d1.sub d2
  rw [sub_neg_eq_add] at d3
  refine d3.congr_of_eventuallyEq ?_
  have : ∀ᶠ y in nhds t, y ∈ Ioo (-T) T := Ioo_mem_nhds (by linarith) htT
  filter_upwards [this] with y hy
  simp only [Pi.sub_apply]
  rw [integral_interval_sub_left (hint _ ⟨by linarith [hy.1], by linarith [hy.2]⟩) (hint _ ⟨by linarith [hy.2], by linarith [hy.1]⟩)]

theorem symm_integral_cont {f : ℝ → ℝ} {c T : ℝ} (hT : 0 ≤ T) (hf : ContinuousOn f (Icc (c - T) (c + T))) :
    ContinuousOn (fun t => ∫ s in (c - t)..(c + t), f s) (Icc 0 T) := by
  have hint : IntervalIntegrable f volume (c - T) (c + T) := by
    refine (hf.mono ?_).intervalIntegrable
    rw [uIcc_of_le (by linarith)]
  have h1 : ContinuousOn (fun x => ∫ s in c..x, f s) (Icc (c - T) (c + T)) := by
    have := continuousOn_primitive_interval' (a := c) hint (by rw [uIcc_of_le (by linarith)]; exact ⟨by linarith, by linarith⟩)
    rwa [uIcc_of_le (by linarith)] at this
  have hsub : ∀ x ∈ Icc (c - T) (c + T), IntervalIntegrable f volume c x := fun x hx => by
    refine hint.mono_set ?_
    rw [uIcc_of_le (a := c - T) (by linarith)]
    intro y hy
    rw [mem_uIcc] at hy
    rcases hy with hy | hy
    · exact ⟨by linarith [hy.1, hx.1], by linarith [hy.2, hx.2]⟩
    · exact ⟨by linarith [hy.1, hx.1], by linarith [hy.2, hx.2]⟩
  have h2 : ContinuousOn (fun t => ∫ s in c..(c + t), f s) (Icc 0 T) :=
    h1.comp (f := fun t => c + t) (by fun_prop) fun t ht => ⟨by linarith [ht.1], by linarith [ht.2]⟩
  have h3 : ContinuousOn (fun t => ∫ s in c..(c - t), f s) (Icc 0 T) :=
    h1.comp (f := fun t => c - t) (by fun_prop) fun t ht => ⟨by linarith [ht.2], by linarith [ht.1]⟩
  refine (h2.sub h3).congr fun t ht => ?_
  simp only [Pi.sub_apply]
  rw [integral_interval_sub_left (hsub _ ⟨by linarith [ht.1], by linarith [ht.2]⟩) (hsub _ ⟨by linarith [ht.2], by linarith [ht.1]⟩)]

/-- midpoint rule -/
theorem midpoint_error {f f' : ℝ → ℝ} {c T K : ℝ} (hT : 0 ≤ T) (hf : ∀ x ∈ Icc (c - T) (c + T), HasDerivAt f (f' x) x)
    (hK : ∀ x ∈ Icc (c - T) (c + T), ∀ y ∈ Icc (c - T) (c + T), |f' x - f' y| ≤ K * |x - y|) :
    |(∫ s in (c - T)..(c + T), f s) - 2 * T * f c| ≤ K / 3 * T ^ 3 := by
  have hcont : ContinuousOn f (Icc (c - T) (c + T)) := fun x hx => (hf x hx).continuousAt.continuousWithinAt
  have hmem : ∀ t ∈ Icc (0 : ℝ) T, c + t ∈ Icc (c - T) (c + T) ∧ c - t ∈ Icc (c - T) (c + T) := fun t ht =>
    ⟨⟨by linarith [ht.1], by linarith [ht.2]⟩, ⟨by linarith [ht.2], by linarith [ht.1]⟩⟩
  have hd1 : ∀ t ∈ Icc (0 : ℝ) T, HasDerivAt (fun t => f (c + t) + f (c - t) - 2 * f c) (f' (c + t) - f' (c - t)) t := fun t ht => by
    have a := (hf _ (hmem t ht).1).comp t ((hasDerivAt_id t).const_add c)
    have b := (hf _ (hmem t ht).2).comp t ((hasDerivAt_id t).const_sub c)
    have := (a.add b).sub_const (2 * f c)
    refine this.congr_deriv ?_
    ring
  have step1 : ∀ T' ∈ Icc (0 : ℝ) T, |f (c + T') + f (c - T') - 2 * f c| ≤ K * T' ^ 2 := fun T' hT' => by
    have := bound_of_deriv_pow (φ := fun t => f (c + t) + f (c - t) - 2 * f c) (φ' := fun t => f' (c + t) - f' (c - t)) (K := 2 * K) 1 hT'.1
      (fun t ht => (hd1 t ⟨ht.1, ht.2.trans hT'.2⟩).continuousAt.continuousWithinAt)
      (fun t ht => (hd1 t ⟨ht.1, ht.2.le.trans hT'.2⟩).hasDerivWithinAt) (by simp; ring)
      (fun t ht => by
        have hm := hmem t ⟨ht.1, ht.2.le.trans hT'.2⟩
        have := hK _ hm.1 _ hm.2
        rw [show c + t - (c - t) = 2 * t by ring, abs_of_nonneg (by linarith [ht.1] : (0 : ℝ) ≤ 2 * t)] at this
        linarith)
    refine this.trans (le_of_eq ?_)
    push_cast
    ring
  have := bound_of_deriv_pow (φ := fun t => (∫ s in (c - t)..(c + t), f s) - 2 * t * f c)
    (φ' := fun t => f (c + t) + f (c - t) - 2 * f c) (K := K) 2 hT
    ((symm_integral_cont hT hcont).sub (by fun_prop))
    (fun t ht => by
      have a := (symm_integral_deriv hcont ht.1 ht.2).sub (((hasDerivAt_id t).const_mul 2).mul_const (f c))
      refine (a.congr_deriv ?_).hasDerivWithinAt
      ring) (by simp) (fun t ht => step1 t ⟨ht.1, ht.2.le⟩)
  refine this.trans (le_of_eq ?_)
  push_cast
  ring

/-- trapezoid rule -/
theorem trapezoid_error {f f' : ℝ → ℝ} {c T K : ℝ} (hT : 0 ≤ T) (hf : ∀ x ∈ Icc (c - T) (c + T), HasDerivAt f (f' x) x)
    (hK : ∀ x ∈ Icc (c - T) (c + T), ∀ y ∈ Icc (c - T) (c + T), |f' x - f' y| ≤ K * |x - y|) :
    |(∫ s in (c - T)..(c + T), f s) - T * (f (c + T) + f (c - T))| ≤ 2 * K / 3 * T ^ 3 := by
  have hcont : ContinuousOn f (Icc (c - T) (c + T)) := fun x hx => (hf x hx).continuousAt.continuousWithinAt
  have hmem : ∀ t ∈ Icc (0 : ℝ) T, c + t ∈ Icc (c - T) (c + T) ∧ c - t ∈ Icc (c - T) (c + T) := fun t ht =>
    ⟨⟨by linarith [ht.1], by linarith [ht.2]⟩, ⟨by linarith [ht.2], by linarith [ht.1]⟩⟩
  have hd1 : ∀ t ∈ Icc (0 : ℝ) T, HasDerivAt (fun t => t * (f (c + t) + f (c - t)))
      (f (c + t) + f (c - t) + t * (f' (c + t) - f' (c - t))) t := fun t ht => by
    have a := (hf _ (hmem t ht).1).comp t ((hasDerivAt_id t).const_add c)
    have b := (hf _ (hmem t ht).2).comp t ((hasDerivAt_id t).const_sub c)
    have := (hasDerivAt_id t).mul (a.add b)
    refine this.congr_deriv ?_
    simp only [id, Pi.add_apply, Function.comp_apply]
    ring
  have := bound_of_deriv_pow (φ := fun t => (∫ s in (c - t)..(c + t), f s) - t * (f (c + t) + f (c - t)))
    (φ' := fun t => -(t * (f' (c + t) - f' (c - t)))) (K := 2 * K) 2 hT
    ((symm_integral_cont hT hcont).sub fun t ht => (hd1 t ht).continuousAt.continuousWithinAt)
    (fun t ht => by
      have a := (symm_integral_deriv hcont ht.1 ht.2).sub (hd1 t ⟨ht.1, ht.2.le⟩)
      refine (a.congr_deriv ?_).hasDerivWithinAt
      ring) (by simp) (fun t ht => by
        have hm := hmem t ⟨ht.1, ht.2.le⟩
        have := hK _ hm.1 _ hm.2
        rw [show c + t - (c - t) = 2 * t by ring, abs_of_nonneg (by linarith [ht.1] : (0 : ℝ) ≤ 2 * t)] at this
        rw [abs_neg, abs_mul, abs_of_nonneg ht.1]
        calc t * |f' (c + t) - f' (c - t)| ≤ t * (K * (2 * t)) := mul_le_mul_of_nonneg_left this ht.1
          _ = _ := by ring)
  refine this.trans (le_of_eq ?_)
  push_cast
  ring

/-- Simpson's rule -/
theorem simpson_error {f f1 f2 f3 : ℝ → ℝ} {c T K : ℝ} (hT : 0 ≤ T) (hf : ∀ x ∈ Icc (c - T) (c + T), HasDerivAt f (f1 x) x)
    (hf1 : ∀ x ∈ Icc (c - T) (c + T), HasDerivAt f1 (f2 x) x) (hf2 : ∀ x ∈ Icc (c - T) (c + T), HasDerivAt f2 (f3 x) x)
    (hK : ∀ x ∈ Icc (c - T) (c + T), ∀ y ∈ Icc (c - T) (c + T), |f3 x - f3 y| ≤ K * |x - y|) :
    |(∫ s in (c - T)..(c + T), f s) - T / 3 * (f (c - T) + 4 * f c + f (c + T))| ≤ K / 90 * T ^ 5 := by
  have hcont : ContinuousOn f (Icc (c - T) (c + T)) := fun x hx => (hf x hx).continuousAt.continuousWithinAt
  have hmem : ∀ t ∈ Icc (0 : ℝ) T, c + t ∈ Icc (c - T) (c + T) ∧ c - t ∈ Icc (c - T) (c + T) := fun t ht =>
    ⟨⟨by linarith [ht.1], by linarith [ht.2]⟩, ⟨by linarith [ht.2], by linarith [ht.1]⟩⟩
  have dp : ∀ {g g' : ℝ → ℝ}, (∀ x ∈ Icc (c - T) (c + T), HasDerivAt g (g' x) x) → ∀ t ∈ Icc (0 : ℝ) T,
      HasDerivAt (fun t => g (c + t)) (g' (c + t)) t := fun h t ht => by
    simpa [Function.comp_def] using (h _ (hmem t ht).1).comp t ((hasDerivAt_id t).const_add c)
  have dm : ∀ {g g' : ℝ → ℝ}, (∀ x ∈ Icc (c - T) (c + T), HasDerivAt g (g' x) x) → ∀ t ∈ Icc (0 : ℝ) T,
      HasDerivAt (fun t => g (c - t)) (-g' (c - t)) t := fun h t ht => by
    simpa [Function.comp_def] using (h _ (hmem t ht).2).comp t ((hasDerivAt_id t).const_sub c)
  -- second derivative
  have s2 : ∀ T' ∈ Icc (0 : ℝ) T, |1 / 3 * (f1 (c + T') - f1 (c - T')) - T' / 3 * (f2 (c + T') + f2 (c - T'))| ≤ 2 * K / 9 * T' ^ 3 :=
      fun T' hT' => by
    have hd : ∀ t ∈ Icc (0 : ℝ) T, HasDerivAt (fun t => 1 / 3 * (f1 (c + t) - f1 (c - t)) - t / 3 * (f2 (c + t) + f2 (c - t)))
        (-(t / 3 * (f3 (c + t) - f3 (c - t)))) t := fun t ht => by
      have a := ((dp hf1 t ht).sub (dm hf1 t ht)).const_mul (1 / 3 : ℝ)
      have b := ((hasDerivAt_id t).div_const 3).mul ((dp hf2 t ht).add (dm hf2 t ht))
      refine (a.sub b).congr_deriv ?_
      simp only [id, Pi.add_apply]
      ring
    have := bound_of_deriv_pow (φ := fun t => 1 / 3 * (f1 (c + t) - f1 (c - t)) - t / 3 * (f2 (c + t) + f2 (c - t)))
      (φ' := fun t => -(t / 3 * (f3 (c + t) - f3 (c - t)))) (K := 2 * K / 3) 2 hT'.1
      (fun t ht => (hd t ⟨ht.1, ht.2.trans hT'.2⟩).continuousAt.continuousWithinAt)
      (fun t ht => (hd t ⟨ht.1, ht.2.le.trans hT'.2⟩).hasDerivWithinAt) (by simp)
      (fun t ht => by
        have hm := hmem t ⟨ht.1, ht.2.le.trans hT'.2⟩
        have := hK _ hm.1 _ hm.2
        rw [show c + t - (c - t) = 2 * t by ring, abs_of_nonneg (by linarith [ht.1] : (0 : ℝ) ≤ 2 * t)] at this
        rw [abs_neg, abs_mul, abs_of_nonneg (by linarith [ht.1])]
        calc t / 3 * |f3 (c + t) - f3 (c - t)| ≤ t / 3 * (K * (2 * t)) := mul_le_mul_of_nonneg_left this (by linarith [ht.1])
          _ = _ := by ring)
    refine this.trans (le_of_eq ?_)
    push_cast
    ring
  -- first derivative
  have s1 : ∀ T' ∈ Icc (0 : ℝ) T, |f (c + T') + f (c - T') - 1 / 3 * (f (c - T') + 4 * f c + f (c + T')) -
      T' / 3 * (f1 (c + T') - f1 (c - T'))| ≤ K / 18 * T' ^ 4 := fun T' hT' => by
    have hd : ∀ t ∈ Icc (0 : ℝ) T, HasDerivAt (fun t => f (c + t) + f (c - t) - 1 / 3 * (f (c - t) + 4 * f c + f (c + t)) -
        t / 3 * (f1 (c + t) - f1 (c - t)))
        (1 / 3 * (f1 (c + t) - f1 (c - t)) - t / 3 * (f2 (c + t) + f2 (c - t))) t := fun t ht => by
      have a := (dp hf t ht).add (dm hf t ht)
      have b := (((dm hf t ht).add_const (4 * f c)).add (dp hf t ht)).const_mul (1 / 3 : ℝ)
      have d := ((hasDerivAt_id t).div_const 3).mul ((dp hf1 t ht).sub (dm hf1 t ht))
      refine ((a.sub b).sub d).congr_deriv ?_
      simp only [id, Pi.sub_apply]
      ring
    have := bound_of_deriv_pow (φ := fun t => f (c + t) + f (c - t) - 1 / 3 * (f (c - t) + 4 * f c + f (c + t)) -
        t / 3 * (f1 (c + t) - f1 (c - t)))
      (φ' := fun t => 1 / 3 * (f1 (c + t) - f1 (c - t)) - t / 3 * (f2 (c + t) + f2 (c - t))) (K := 2 * K / 9) 3 hT'.1
      (fun t ht => (hd t ⟨ht.1, ht.2.trans hT'.2⟩).continuousAt.continuousWithinAt)
      (fun t ht => (hd t ⟨ht.1, ht.2.le.trans hT'.2⟩).hasDerivWithinAt) (by simp; ring)
      (fun t ht => s2 t ⟨ht.1, ht.2.le.trans hT'.2⟩)
    refine this.trans (le_of_eq ?_)
    push_cast
    ring
  have hd0 : ∀ t ∈ Icc (0 : ℝ) T, HasDerivAt (fun t => t / 3 * (f (c - t) + 4 * f c + f (c + t)))
      (1 / 3 * (f (c - t) + 4 * f c + f (c + t)) + t / 3 * (f1 (c + t) - f1 (c - t))) t := fun t ht => by
    have a := ((hasDerivAt_id t).div_const 3).mul (((dm hf t ht).add_const (4 * f c)).add (dp hf t ht))
    refine a.congr_deriv ?_
    simp only [id, Pi.add_apply]
    ring
  have := bound_of_deriv_pow (φ := fun t => (∫ s in (c - t)..(c + t), f s) - t / 3 * (f (c - t) + 4 * f c + f (c + t)))
    (φ' := fun t => f (c + t) + f (c - t) - 1 / 3 * (f (c - t) + 4 * f c + f (c + t)) - t / 3 * (f1 (c + t) - f1 (c - t))) (K := K / 18) 4 hT
    ((symm_integral_cont hT hcont).sub fun t ht => (hd0 t ht).continuousAt.continuousWithinAt)
    (fun t ht => by
      have a := (symm_integral_deriv hcont ht.1 ht.2).sub (hd0 t ⟨ht.1, ht.2.le⟩)
      refine (a.congr_deriv ?_).hasDerivWithinAt
      ring) (by simp) (fun t ht => s1 t ⟨ht.1, ht.2.le⟩)
  refine this.trans (le_of_eq ?_)
  push_cast
  ring

/-- linear interpolation of a function whose derivative is `K`-Lipschitz -/
theorem interpolation_error {f f' : ℝ → ℝ} {a b K : ℝ} (hf : ∀ x ∈ Icc a b, HasDerivAt f (f' x) x)
    (hK : ∀ x ∈ Icc a b, ∀ y ∈ Icc a b, |f' x - f' y| ≤ K * |x - y|) {s : ℝ} (hs0 : 0 ≤ s) (hs1 : s ≤ 1) (hab : a ≤ b) :
    |(1 - s) * f a + s * f b - f ((1 - s) * a + s * b)| ≤ K / 2 * (s * (1 - s)) * (b - a) ^ 2 := by
  have key : ∀ σ : ℝ, |σ| = 1 → ConvexOn ℝ (Icc a b) (fun x => σ * f x + K / 2 * x ^ 2) := fun σ hσ => by
    have hd : ∀ x ∈ Icc a b, HasDerivAt (fun x => σ * f x + K / 2 * x ^ 2) (σ * f' x + K * x) x := fun x hx => by
      have := ((hf x hx).const_mul σ).add ((hasDerivAt_pow 2 x).const_mul (K / 2))
      refine this.congr_deriv ?_
      push_cast
      ring
    refine MonotoneOn.convexOn_of_deriv (convex_Icc a b) (fun x hx => (hd x hx).continuousAt.continuousWithinAt)
      (fun x hx => (hd x (interior_subset hx)).differentiableAt.differentiableWithinAt) ?_
    intro x hx y hy hxy
    rw [(hd x (interior_subset hx)).deriv, (hd y (interior_subset hy)).deriv]
    have h1 := hK x (interior_subset hx) y (interior_subset hy)
    rw [abs_sub_comm x y, abs_of_nonneg (sub_nonneg.2 hxy)] at h1
    have h2 : σ * (f' x - f' y) ≤ |f' x - f' y| := by
      calc σ * (f' x - f' y) ≤ |σ * (f' x - f' y)| := le_abs_self _
        _ = _ := by rw [abs_mul, hσ, one_mul]
    linarith
  have m1 : a ∈ Icc a b := left_mem_Icc.2 hab
  have m2 : b ∈ Icc a b := right_mem_Icc.2 hab
  have k1 := (key 1 (by simp)).2 m1 m2 (by linarith : 0 ≤ 1 - s) hs0 (by ring)
  have k2 := (key (-1) (by simp)).2 m1 m2 (by linarith : 0 ≤ 1 - s) hs0 (by ring)
  simp only [smul_eq_mul] at k1 k2
  rw [abs_le]
  constructor <;> nlinarith

end Jaxoplanet.LightCurve
