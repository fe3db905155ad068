import Verif.Proofs.Kepler
import Verif.Proofs.KeplerBern
import Mathlib.Analysis.Calculus.MeanValue

/-! The residual of the starter of the Kepler solver. -/

namespace Jaxoplanet.Kepler

open Real Spec

/-- the partial sums of the series of the sine -/
noncomputable def sinP (n : ℕ) (x : ℝ) : ℝ := ∑ k ∈ Finset.range n, (-1) ^ k * x ^ (2 * k + 1) / (2 * k + 1).factorial

/-- the partial sums of the series of the cosine -/
noncomputable def cosP (n : ℕ) (x : ℝ) : ℝ := ∑ k ∈ Finset.range n, (-1) ^ k * x ^ (2 * k) / (2 * k).factorial

theorem nonneg_of_deriv_nonneg {f f' : ℝ → ℝ} (h0 : f 0 = 0) (hd : ∀ x, HasDerivAt f (f' x) x)
    (hf : ∀ x, 0 ≤ x → 0 ≤ f' x) {x : ℝ} (hx : 0 ≤ x) : 0 ≤ f x := by
  have hm : MonotoneOn f (Set.Ici 0) := by
    refine monotoneOn_of_deriv_nonneg (convex_Ici 0) (fun y _ => (hd y).continuousAt.continuousWithinAt)
      (fun y _ => (hd y).differentiableAt.differentiableWithinAt) fun y hy => ?_
    rw [interior_Ici] at hy
    rw [(hd y).deriv]
    exact hf y (le_of_lt hy)
  have := hm Set.self_mem_Ici (Set.mem_Ici.2 hx) hx
  rwa [h0] at this

theorem hasDerivAt_sinP (n : ℕ) (x : ℝ) : HasDerivAt (sinP n) (cosP n x) x := by
  unfold sinP cosP
  refine HasDerivAt.fun_sum fun k _ => ?_
  have h := ((hasDerivAt_pow (2 * k + 1) x).const_mul ((-1 : ℝ) ^ k)).div_const ((2 * k + 1).factorial : ℝ)
  refine h.congr_deriv ?_
  rw [Nat.factorial_succ]
  have : ((2 * k).factorial : ℝ) ≠ 0 := by positivity
  push_cast
  field_simp

theorem hasDerivAt_cosP (n : ℕ) (x : ℝ) : HasDerivAt (cosP (n + 1)) (-sinP n x) x := by
  unfold sinP cosP
  simp only [Finset.sum_range_succ']
  rw [← Finset.sum_neg_distrib]
  have h0 : HasDerivAt (fun x : ℝ => (-1 : ℝ) ^ 0 * x ^ (2 * 0) / ((2 * 0).factorial : ℝ)) 0 x := by
    simpa using hasDerivAt_const x (1 : ℝ)
  refine (HasDerivAt.fun_sum fun k _ => ?_).add h0 |>.congr_deriv (add_zero _)
  have h := ((hasDerivAt_pow (2 * (k + 1)) x).const_mul ((-1 : ℝ) ^ (k + 1))).div_const ((2 * (k + 1)).factorial : ℝ)
  refine h.congr_deriv ?_
  rw [show 2 * (k + 1) = (2 * k + 1) + 1 by ring, Nat.factorial_succ]
  have : ((2 * k + 1).factorial : ℝ) ≠ 0 := by positivity
  push_cast
  field_simp
  ring

theorem sinP_zero (n : ℕ) : sinP n 0 = 0 := by
  unfold sinP
  refine Finset.sum_eq_zero fun k _ => ?_
  simp

theorem cosP_zero (n : ℕ) : cosP (n + 1) 0 = 1 := by
  unfold cosP
  rw [Finset.sum_range_succ']
  simp

/-- the partial sums alternate around the sine and the cosine -/
theorem taylor_alternates (n : ℕ) {x : ℝ} (hx : 0 ≤ x) :
    0 ≤ (-1) ^ (n + 1) * (cos x - cosP (n + 1) x) ∧ 0 ≤ (-1) ^ (n + 1) * (sin x - sinP (n + 1) x) := by
  have hs : ∀ n : ℕ, (∀ x : ℝ, 0 ≤ x → 0 ≤ (-1) ^ (n + 1) * (cos x - cosP (n + 1) x)) →
      ∀ x : ℝ, 0 ≤ x → 0 ≤ (-1) ^ (n + 1) * (sin x - sinP (n + 1) x) := by
    intro n h x hx
    refine nonneg_of_deriv_nonneg (f := fun x => (-1) ^ (n + 1) * (sin x - sinP (n + 1) x)) (by simp [sinP_zero])
      (fun y => ((hasDerivAt_sin y).sub (hasDerivAt_sinP _ y)).const_mul _) h hx
  have hc : ∀ n : ℕ, ∀ x : ℝ, 0 ≤ x → 0 ≤ (-1) ^ (n + 1) * (cos x - cosP (n + 1) x) := by
    intro n
    induction n with
    | zero =>
      intro x _
      have := cos_le_one x
      simp [cosP]
      linarith
    | succ n ih =>
      intro x hx
      refine nonneg_of_deriv_nonneg (f := fun x => (-1) ^ (n + 1 + 1) * (cos x - cosP (n + 1 + 1) x)) (by simp [cosP_zero])
        (fun y => ((hasDerivAt_cos y).sub (hasDerivAt_cosP _ y)).const_mul _) (fun y hy => ?_) hx
      have := hs n ih y hy
      rw [pow_succ]
      linarith
  exact ⟨hc n x hx, hs n (hc n) x hx⟩

theorem sin_le_17 {x : ℝ} (hx : 0 ≤ x) : sin x ≤ x - x ^ 3 / 6 + x ^ 5 / 120 - x ^ 7 / 5040 + x ^ 9 / 362880 - x ^ 11 / 39916800 +
    x ^ 13 / 6227020800 - x ^ 15 / 1307674368000 + x ^ 17 / 355687428096000 := by
  have h := (taylor_alternates 8 hx).2
  simp only [sinP, Finset.sum_range_succ, Finset.sum_range_zero, Nat.factorial] at h
  norm_num at h
  linarith

theorem le_sin_15 {x : ℝ} (hx : 0 ≤ x) : x - x ^ 3 / 6 + x ^ 5 / 120 - x ^ 7 / 5040 + x ^ 9 / 362880 - x ^ 11 / 39916800 +
    x ^ 13 / 6227020800 - x ^ 15 / 1307674368000 ≤ sin x := by
  have h := (taylor_alternates 7 hx).2
  simp only [sinP, Finset.sum_range_succ, Finset.sum_range_zero, Nat.factorial] at h
  norm_num at h
  linarith

theorem le_sin_7 {x : ℝ} (hx : 0 ≤ x) : x - x ^ 3 / 6 + x ^ 5 / 120 - x ^ 7 / 5040 ≤ sin x := by
  have h := (taylor_alternates 3 hx).2
  simp only [sinP, Finset.sum_range_succ, Finset.sum_range_zero, Nat.factorial] at h
  norm_num at h
  linarith

theorem le_sin_3 {x : ℝ} (hx : 0 ≤ x) : x - x ^ 3 / 6 ≤ sin x := by
  have h := (taylor_alternates 1 hx).2
  simp only [sinP, Finset.sum_range_succ, Finset.sum_range_zero, Nat.factorial] at h
  norm_num at h
  linarith

/-- the constant `1 / (π - 6/π)` of the starter -/
theorem K_bounds : 0.811812 ≤ 1 / (π - 6 / π) ∧ 1 / (π - 6 / π) ≤ 0.811865 ∧
    2.55053 ≤ π * (1 / (π - 6 / π)) ∧ π * (1 / (π - 6 / π)) ≤ 2.55056 := by
  have h1 := pi_gt_d6
  have h2 := pi_lt_d6
  have hp := pi_pos
  have hq : π - 6 / π = (π ^ 2 - 6) / π := by field_simp
  have h3 : (3.141592 : ℝ) ^ 2 < π ^ 2 := by gcongr
  have h4 : π ^ 2 < 3.141593 ^ 2 := by gcongr
  have hd : 0 < π ^ 2 - 6 := by norm_num at h3; linarith
  rw [hq, one_div_div, ← mul_div_assoc, ← sq, le_div_iff₀ hd, div_le_iff₀ hd, le_div_iff₀ hd, div_le_iff₀ hd]
  norm_num at h1 h2 h3 h4 ⊢
  refine ⟨by linarith, by linarith, by linarith, by linarith⟩

/-- the quotient of the starter's equation is increasing in `α` -/
theorem pade_mono {a b E : ℝ} (ha : 0 < a) (hab : a ≤ b) (hE : 0 ≤ E) :
    a * E ^ 3 / (3 * E ^ 2 + 6 * a) ≤ b * E ^ 3 / (3 * E ^ 2 + 6 * b) := by
  have hb : 0 < b := ha.trans_le hab
  rw [div_le_div_iff₀ (by positivity) (by positivity)]
  have : 0 ≤ (b - a) * (E ^ 3 * (3 * E ^ 2)) := mul_nonneg (by linarith) (by positivity)
  nlinarith

/-- a lower bound of `sin (E/2)` -/
theorem half_sin_bound {E : ℝ} (h0 : 0 ≤ E) (h1 : E ≤ 3.2) : 0 ≤ E / 2 - E ^ 3 / 48 ∧
    (E / 2 - E ^ 3 / 48) ^ 3 ≤ sin (E / 2) ^ 3 := by
  have h := le_sin_3 (x := E / 2) (by linarith)
  have h' : E / 2 - E ^ 3 / 48 ≤ sin (E / 2) := by
    refine le_trans (le_of_eq ?_) h
    ring
  have hp : 0 ≤ E / 2 - E ^ 3 / 48 := by
    have : E ^ 2 ≤ 3.2 ^ 2 := by gcongr
    have : 0 ≤ E * (1 / 2 - E ^ 2 / 48) := mul_nonneg h0 (by norm_num at this; linarith)
    linarith
  exact ⟨hp, pow_le_pow_left₀ hp h' 3⟩

theorem pade_upper {E : ℝ} (h0 : 0 ≤ E) (h1 : E ≤ π) : sin E - E +
    (11.7326 - 1.2989 * E) * E ^ 3 / (3 * E ^ 2 + 6 * (11.7326 - 1.2989 * E)) ≤ 0.007 * sin (E / 2) ^ 3 := by
  have h32 : E ≤ 3.2 := h1.trans (by have := pi_lt_d6; norm_num at this ⊢; linarith)
  obtain ⟨_, hs⟩ := half_sin_bound h0 h32
  have ht := sin_le_17 h0
  have hA : 0 < 11.7326 - 1.2989 * E := by norm_num at h32 ⊢; linarith
  generalize hAA : 11.7326 - 1.2989 * E = A at hA ⊢
  have hD : 0 < 3 * E ^ 2 + 6 * A := by positivity
  have hb : sin E - E + A * E ^ 3 / (3 * E ^ 2 + 6 * A) ≤ 0.007 * (E / 2 - E ^ 3 / 48) ^ 3 := by
    rw [← sub_nonneg]
    have e : 0.007 * (E / 2 - E ^ 3 / 48) ^ 3 - (sin E - E + A * E ^ 3 / (3 * E ^ 2 + 6 * A)) =
        ((0.007 * (E / 2 - E ^ 3 / 48) ^ 3 - (sin E - E)) * (3 * E ^ 2 + 6 * A) - A * E ^ 3) / (3 * E ^ 2 + 6 * A) := by
      field_simp
      ring
    rw [e]
    refine div_nonneg ?_ hD.le
    have hmul := mul_le_mul_of_nonneg_right ht hD.le
    have hE3 : 0 ≤ E ^ 3 := by positivity
    rw [← hAA] at hmul ⊢
    rcases le_total E (8 / 5) with h | h
    · have := mul_nonneg hE3 (bern_up_left h0 h)
      norm_num at hmul ⊢
      linarith
    · have := mul_nonneg hE3 (bern_up_right h (by norm_num at h32 ⊢; linarith))
      norm_num at hmul ⊢
      linarith
  linarith

theorem pade_lower_left {E : ℝ} (h0 : 0 ≤ E) (h1 : E ≤ 5 / 2) :
    0 < 9.6919 + 0.6495 * (E - E ^ 3 / 6 + E ^ 5 / 120 - E ^ 7 / 5040 - E) ∧
    -(0.007 * sin (E / 2) ^ 3) ≤ sin E - E + (9.6919 + 0.6495 * (E - E ^ 3 / 6 + E ^ 5 / 120 - E ^ 7 / 5040 - E)) * E ^ 3 /
      (3 * E ^ 2 + 6 * (9.6919 + 0.6495 * (E - E ^ 3 / 6 + E ^ 5 / 120 - E ^ 7 / 5040 - E))) := by
  have h32 : E ≤ 3.2 := by norm_num; linarith
  obtain ⟨_, hs⟩ := half_sin_bound h0 h32
  have ht := le_sin_15 h0
  have hA : 0 < 9.6919 + 0.6495 * (E - E ^ 3 / 6 + E ^ 5 / 120 - E ^ 7 / 5040 - E) := by
    have h3 : E ^ 3 ≤ (5 / 2) ^ 3 := by gcongr
    have h7 : 0 ≤ E ^ 5 * (1 - E ^ 2 / 42) := by
      have : E ^ 2 ≤ (5 / 2) ^ 2 := by gcongr
      refine mul_nonneg (by positivity) ?_
      norm_num at this
      linarith
    norm_num at h3 ⊢
    linarith
  refine ⟨hA, ?_⟩
  have hc := bern_lo_left h0 h1
  generalize hAA : 9.6919 + 0.6495 * (E - E ^ 3 / 6 + E ^ 5 / 120 - E ^ 7 / 5040 - E) = A at hA ⊢
  have hD : 0 < 3 * E ^ 2 + 6 * A := by positivity
  have hb : -(0.007 * (E / 2 - E ^ 3 / 48) ^ 3) ≤ sin E - E + A * E ^ 3 / (3 * E ^ 2 + 6 * A) := by
    rw [← sub_nonneg]
    have e : sin E - E + A * E ^ 3 / (3 * E ^ 2 + 6 * A) - -(0.007 * (E / 2 - E ^ 3 / 48) ^ 3) =
        ((0.007 * (E / 2 - E ^ 3 / 48) ^ 3 + (sin E - E)) * (3 * E ^ 2 + 6 * A) + A * E ^ 3) / (3 * E ^ 2 + 6 * A) := by
      field_simp
      ring
    rw [e]
    refine div_nonneg ?_ hD.le
    have hmul := mul_le_mul_of_nonneg_right ht hD.le
    have hE3 : 0 ≤ E ^ 3 := by positivity
    have := mul_nonneg hE3 hc
    rw [← hAA] at hmul ⊢
    norm_num at hmul ⊢
    linarith
  linarith

theorem pade_lower_right {E : ℝ} (h0 : 5 / 2 ≤ E) (h1 : E ≤ π) :
    -(0.007 * sin (E / 2) ^ 3) ≤ sin E - E + (7.6515 + 0.96 * 1.2989 * (3.1415 - E)) * E ^ 3 /
      (3 * E ^ 2 + 6 * (7.6515 + 0.96 * 1.2989 * (3.1415 - E))) := by
  have h32 : E ≤ 3.2 := h1.trans (by have := pi_lt_d6; norm_num at this ⊢; linarith)
  have h00 : 0 ≤ E := by linarith
  obtain ⟨_, hs⟩ := half_sin_bound h00 h32
  have ht := le_sin_15 h00
  have hc := bern_lo_right h0 (by norm_num at h32 ⊢; linarith)
  generalize hAA : 7.6515 + 0.96 * 1.2989 * (3.1415 - E) = A
  have hA : 0 < A := by rw [← hAA]; norm_num at h32 ⊢; linarith
  have hD : 0 < 3 * E ^ 2 + 6 * A := by positivity
  have hb : -(0.007 * (E / 2 - E ^ 3 / 48) ^ 3) ≤ sin E - E + A * E ^ 3 / (3 * E ^ 2 + 6 * A) := by
    rw [← sub_nonneg]
    have e : sin E - E + A * E ^ 3 / (3 * E ^ 2 + 6 * A) - -(0.007 * (E / 2 - E ^ 3 / 48) ^ 3) =
        ((0.007 * (E / 2 - E ^ 3 / 48) ^ 3 + (sin E - E)) * (3 * E ^ 2 + 6 * A) + A * E ^ 3) / (3 * E ^ 2 + 6 * A) := by
      field_simp
      ring
    rw [e]
    refine div_nonneg ?_ hD.le
    have hmul := mul_le_mul_of_nonneg_right ht hD.le
    have hE3 : 0 ≤ E ^ 3 := by positivity
    have := mul_nonneg hE3 hc
    rw [← hAA] at hmul ⊢
    norm_num at hmul ⊢
    linarith
  linarith

/-- the residual of the starter in Kepler's equation is `-e g` with `|g| ≤ 0.007 sin³(E/2)` -/
theorem starter_residual {M e : ℝ} (he0 : 0 ≤ e) (he : e < 1) (hM0 : 0 ≤ M) (hM : M ≤ π) :
    ∃ g, starter M e (1 - e) - e * sin (starter M e (1 - e)) - M = -(e * g) ∧
      |g| ≤ 0.007 * sin (starter M e (1 - e) / 2) ^ 3 := by
  have h0 := starter_nonneg he0 he hM0 hM
  have h1 := starter_le_pi he0 he hM0 hM
  have hp := starter_pade he0 he hM0 hM
  have hα := alphaP_pos he0 hM
  have hα' : alphaP M e = 3 * (π * (1 / (π - 6 / π))) + 1.6 * (1 / (π - 6 / π)) * ((π - M) / (1 + e)) := by
    unfold alphaP
    ring
  simp only at hp
  generalize starter M e (1 - e) = E at h0 h1 hp ⊢
  generalize alphaP M e = α at hp hα hα'
  obtain ⟨k1, k2, k3, k4⟩ := K_bounds
  generalize 1 / (π - 6 / π) = K at hα' k1 k2 k3 k4
  have hk : 0 < K := by norm_num at k1; linarith
  refine ⟨sin E - E + α * E ^ 3 / (3 * E ^ 2 + 6 * α), by rw [← hp]; ring, ?_⟩
  have hσ : 0 ≤ sin (E / 2) := sin_nonneg_of_nonneg_of_le_pi (by linarith) (by linarith)
  have hB : 0 ≤ 0.007 * sin (E / 2) ^ 3 := by positivity
  generalize hg : sin E - E + α * E ^ 3 / (3 * E ^ 2 + 6 * α) = g
  have hM' : π - M = π - E + e * sin E - e * g := by rw [← hg, ← hp]; ring
  have hsy : sin E ≤ π - E := by
    rw [← sin_pi_sub]
    exact sin_le (by linarith)
  have h1e : 0 < 1 + e := by linarith
  rw [abs_le]
  constructor
  · rcases le_total 0 g with hg0 | hg0
    · linarith
    · have hX : (π - E + sin E) / 2 ≤ (π - M) / (1 + e) := by
        rw [div_le_div_iff₀ (by norm_num) h1e, hM']
        have a1 : 0 ≤ (1 - e) * (π - E - sin E) := mul_nonneg (by linarith) (by linarith)
        have a2 : 0 ≤ e * (-g) := mul_nonneg he0 (by linarith)
        nlinarith
      have hX' := mul_le_mul_of_nonneg_left hX (by positivity : 0 ≤ 1.6 * K)
      rw [← hg]
      rcases le_total E (5 / 2) with h | h
      · obtain ⟨hA, hb⟩ := pade_lower_left h0 h
        refine hb.trans ?_
        have := le_sin_7 h0
        have hs := sin_le h0
        refine add_le_add le_rfl (pade_mono hA ?_ h0)
        have : K * (E - sin E) ≤ 0.811865 * (E - sin E) := mul_le_mul_of_nonneg_right k2 (by linarith)
        norm_num at *
        linarith
      · have hb := pade_lower_right h h1
        refine hb.trans ?_
        have h31 := pi_gt_d6
        refine add_le_add le_rfl (pade_mono ?_ ?_ h0)
        · have := pi_lt_d6
          norm_num at this ⊢
          linarith
        have hy := le_sin_3 (x := π - E) (by linarith)
        rw [sin_pi_sub] at hy
        have hy2 : (π - E) ^ 2 ≤ 0.65 ^ 2 := by
          have := pi_lt_d6
          have : π - E ≤ 0.65 := by norm_num at this ⊢; linarith
          have : 0 ≤ π - E := by linarith
          gcongr
        have hy3 : 0 ≤ (π - E) * (0.65 ^ 2 - (π - E) ^ 2) := mul_nonneg (by linarith) (by linarith)
        have hs2 : 0.92 * (π - E) ≤ sin E := by norm_num at hy3 ⊢; nlinarith
        have : 0.811812 * (π - E + sin E) ≤ K * (π - E + sin E) := mul_le_mul_of_nonneg_right k1 (by norm_num at hs2 ⊢; linarith)
        norm_num at *
        linarith
  · rcases le_total g 0 with hg0 | hg0
    · linarith
    · have hX : (π - M) / (1 + e) ≤ π - E := by
        rw [div_le_iff₀ h1e, hM']
        have a1 : 0 ≤ e * (π - E - sin E) := mul_nonneg he0 (by linarith)
        have a2 : 0 ≤ e * g := mul_nonneg he0 hg0
        nlinarith
      have hX' := mul_le_mul_of_nonneg_left hX (by positivity : 0 ≤ 1.6 * K)
      refine le_trans ?_ (pade_upper h0 h1)
      rw [← hg]
      refine add_le_add le_rfl (pade_mono hα ?_ h0)
      have : 0.811812 * E ≤ K * E := mul_le_mul_of_nonneg_right k1 h0
      norm_num at *
      linarith

end Jaxoplanet.Kepler
