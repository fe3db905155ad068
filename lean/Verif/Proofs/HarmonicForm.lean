import Verif.Proofs.Wigner
import Verif.Spec.SphHarm
import Mathlib.Algebra.Polynomial.Taylor
import Mathlib.Algebra.Polynomial.Degree.Lemmas

/-!
# Spherical harmonics as coefficients of the `l`-th power of a quadratic form

On the unit sphere `(ρ u² + 2 z u v - ρ̄ v²)^l = ∑ h_m em(2l, l + m)(u, v)`, `ρ = x + i y`, and the `h_m` are the
complex spherical harmonics.
-/

namespace Jaxoplanet.Starry

open Spec Real Polynomial

/-- comparison of coefficients -/
theorem coeff_compare (N : ℕ) (a b : ℕ → ℂ)
    (h : ∀ u : ℂ, ∑ n ∈ Finset.range N, a n * u ^ n = ∑ n ∈ Finset.range N, b n * u ^ n) (n : ℕ) (hn : n < N) : a n = b n := by
  have hp : (∑ n ∈ Finset.range N, C (a n) * X ^ n : ℂ[X]) = ∑ n ∈ Finset.range N, C (b n) * X ^ n := by
    apply Polynomial.funext
    intro u
    simpa [eval_finsetSum] using h u
  have := congrArg (fun p => p.coeff n) hp
  simpa [finsetSum_coeff, coeff_C_mul, coeff_X_pow, hn] using this

/-- `(ρ X² + 2 z X - σ)^l` -/
noncomputable def trin (l : ℕ) (ρ σ z : ℂ) : ℂ[X] := (C ρ * X ^ 2 + C (2 * z) * X - C σ) ^ l

/-- `F^(n)(z) / n!` for `F = (z² - 1)^l` -/
noncomputable def tay (l n : ℕ) (z : ℝ) : ℝ := (taylor z ((X ^ 2 - 1 : ℝ[X]) ^ l)).coeff n

theorem rodrigues_tay (l μ : ℕ) (z : ℝ) :
    tay l (l + μ) z = 2 ^ l * (l.factorial : ℝ) / ((l + μ).factorial : ℝ) * rodrigues l μ z := by
  unfold tay rodrigues
  rw [taylor_coeff, ← factorial_smul_hasseDeriv]
  have h1 : (((l + μ).factorial : ℕ) : ℝ) ≠ 0 := by positivity
  have h2 : ((l.factorial : ℕ) : ℝ) ≠ 0 := by positivity
  rw [LinearMap.smul_apply, eval_smul, nsmul_eq_mul]
  field_simp

theorem trin_tay (l : ℕ) (ρ σ : ℂ) (z : ℝ) (h : ρ * σ = 1 - (z : ℂ) ^ 2) (n : ℕ) :
    ρ ^ l * (trin l ρ σ z).coeff n = ρ ^ n * (tay l n z : ℂ) := by
  have e : C ρ ^ l * trin l ρ σ z = (((taylor z ((X ^ 2 - 1 : ℝ[X]) ^ l)).map (algebraMap ℝ ℂ))).comp (C ρ * X) := by
    unfold trin
    rw [taylor_pow, ← mul_pow, Polynomial.map_pow, pow_comp]
    congr 1
    simp only [map_sub, taylor_X_pow, taylor_one, Polynomial.map_sub, Polynomial.map_pow, Polynomial.map_add, map_X, map_C,
      sub_comp, pow_comp, add_comp, X_comp, C_comp]
    have : C ρ * C σ = 1 - C (z : ℂ) ^ 2 := by rw [← C_mul, h]; simp
    simp only [Complex.coe_algebraMap, map_one, map_mul, map_ofNat]
    linear_combination (-1 : ℂ[X]) * this
  have := congrArg (fun p => p.coeff n) e
  simp only [← C_pow, coeff_C_mul, comp_C_mul_X_coeff, coeff_map] at this
  rw [this]
  unfold tay
  simp only [Complex.coe_algebraMap]
  ring

theorem tay_pole (l : ℕ) (z : ℝ) (hz : z ^ 2 = 1) : tay l l z = (2 * z) ^ l := by
  unfold tay
  have : taylor z ((X ^ 2 - 1 : ℝ[X]) ^ l) = X ^ l * (X + C (2 * z)) ^ l := by
    rw [taylor_pow, ← mul_pow]
    congr 1
    simp only [map_sub, taylor_X_pow, taylor_one]
    have : C z ^ 2 = (1 : ℝ[X]) := by rw [← C_pow, hz, C_1]
    simp only [map_one, map_mul, map_ofNat]
    linear_combination this
  rw [this]
  have := coeff_X_pow_mul ((X + C (2 * z)) ^ l) l 0
  rw [zero_add] at this
  rw [this, coeff_zero_eq_eval_zero]
  simp

theorem trin_coeff_high (l : ℕ) (ρ : ℂ) (z : ℝ) (h : ρ * (starRingEnd ℂ) ρ = 1 - (z : ℂ) ^ 2) (p : ℕ) :
    (trin l ρ ((starRingEnd ℂ) ρ) z).coeff (l + p) = ρ ^ p * (tay l (l + p) z : ℂ) := by
  by_cases h0 : ρ = 0
  · have hz : z ^ 2 = 1 := by
      rw [h0, zero_mul] at h
      have : ((z ^ 2 : ℝ) : ℂ) = ((1 : ℝ) : ℂ) := by push_cast; linear_combination h
      exact_mod_cast this
    subst h0
    have e : trin l 0 ((starRingEnd ℂ) 0) z = C ((2 * z) ^ l : ℂ) * X ^ l := by
      unfold trin
      simp [mul_pow]
    rw [e, coeff_C_mul, coeff_X_pow]
    rcases Nat.eq_zero_or_pos p with hp | hp
    · subst hp
      rw [Nat.add_zero, tay_pole l z hz]
      simp
    · rw [if_neg (by omega), zero_pow (by omega)]
      simp
  · have := trin_tay l ρ _ z h (l + p)
    rw [pow_add, mul_assoc] at this
    exact mul_left_cancel₀ (pow_ne_zero l h0) this

theorem trin_natDegree (ρ σ z : ℂ) : (C ρ * X ^ 2 + C (2 * z) * X - C σ : ℂ[X]).natDegree ≤ 2 := by
  compute_degree

theorem trin_homog (l : ℕ) (ρ σ z u v : ℂ) :
    (ρ * u ^ 2 + 2 * z * u * v - σ * v ^ 2) ^ l =
      ∑ n ∈ Finset.range (2 * l + 1), (trin l ρ σ z).coeff n * u ^ n * v ^ (2 * l - n) := by
  have hd : (trin l ρ σ z).natDegree ≤ 2 * l := by
    unfold trin
    refine natDegree_pow_le.trans ?_
    have := trin_natDegree ρ σ z
    nlinarith
  by_cases hv : v = 0
  · subst hv
    rw [Finset.sum_range_succ, Finset.sum_eq_zero]
    · have : (trin l ρ σ z).coeff (2 * l) = ρ ^ l := by
        unfold trin
        rw [mul_comm 2 l, coeff_pow_of_natDegree_le (trin_natDegree ρ σ z)]
        simp
      rw [this]
      simp [mul_pow, pow_mul]
    · intro n hn
      have := Finset.mem_range.1 hn
      rw [zero_pow (by omega), mul_zero]
  · have e : (ρ * u ^ 2 + 2 * z * u * v - σ * v ^ 2) ^ l = v ^ (2 * l) * (trin l ρ σ z).eval (u / v) := by
      unfold trin
      simp only [eval_pow, eval_sub, eval_add, eval_mul, eval_C, eval_X]
      rw [pow_mul, ← mul_pow]
      congr 1
      field_simp
    rw [e, eval_eq_sum_range' (Nat.lt_succ_of_le hd), Finset.mul_sum]
    refine Finset.sum_congr rfl fun n hn => ?_
    have hn := Finset.mem_range.1 hn
    have : v ^ (2 * l) = v ^ n * v ^ (2 * l - n) := by rw [← pow_add]; congr 1; omega
    rw [this, div_pow]
    field_simp

theorem trin_coeff_low (l : ℕ) (ρ σ z : ℂ) (n : ℕ) (hn : n ≤ 2 * l) :
    (trin l ρ σ z).coeff n = (-1) ^ l * (trin l σ ρ (-z)).coeff (2 * l - n) := by
  refine coeff_compare (2 * l + 1) (fun n => (trin l ρ σ z).coeff n) (fun n => (-1) ^ l * (trin l σ ρ (-z)).coeff (2 * l - n))
    (fun u => ?_) n (by omega)
  have h1 := trin_homog l ρ σ z u 1
  have h2 := trin_homog l σ ρ (-z) 1 u
  have h3 : (ρ * u ^ 2 + 2 * z * u * 1 - σ * 1 ^ 2) ^ l = (-1) ^ l * (σ * 1 ^ 2 + 2 * -z * 1 * u - ρ * u ^ 2) ^ l := by
    rw [← mul_pow]; ring
  simp only [one_pow, mul_one] at h1
  rw [← h1]
  simp only [mul_one, one_pow] at h3
  rw [h3]
  simp only [one_pow, mul_one] at h2
  rw [h2, Finset.mul_sum, ← Finset.sum_range_reflect]
  refine Finset.sum_congr rfl fun n hn => ?_
  have hn := Finset.mem_range.1 hn
  rw [show 2 * l + 1 - 1 - n = 2 * l - n by omega, show 2 * l - (2 * l - n) = n by omega]
  ring

theorem tay_neg (l n : ℕ) (z : ℝ) : tay l n (-z) = (-1) ^ n * tay l n z := by
  unfold tay
  have : taylor (-z) ((X ^ 2 - 1 : ℝ[X]) ^ l) = (taylor z ((X ^ 2 - 1 : ℝ[X]) ^ l)).comp (C (-1) * X) := by
    rw [taylor_pow, taylor_pow, pow_comp]
    congr 1
    simp only [map_sub, taylor_X_pow, taylor_one, sub_comp, pow_comp, add_comp, X_comp, C_comp, map_neg, map_one, one_comp]
    ring
  rw [this, comp_C_mul_X_coeff]
  ring

/-- complex spherical harmonics, up to normalisation and phase -/
noncomputable def hC (l : ℕ) (m : ℤ) (p : V3) : ℂ :=
  (2 ^ l * (l.factorial : ℝ) * √(((l - m.natAbs).factorial : ℝ) / ((l + m.natAbs).factorial : ℝ)) *
    rodrigues l m.natAbs p.2.2 : ℝ) *
  (if m ≤ 0 then ((p.1 : ℂ) + p.2.1 * Complex.I) ^ m.natAbs else (-1) ^ m.natAbs * ((p.1 : ℂ) - p.2.1 * Complex.I) ^ m.natAbs)

theorem form_expansion (l : ℕ) (p : V3) (hp : OnSphere p) (u v : ℂ) :
    (((p.1 : ℂ) + p.2.1 * Complex.I) * u ^ 2 + 2 * (p.2.2 : ℂ) * u * v - ((p.1 : ℂ) - p.2.1 * Complex.I) * v ^ 2) ^ l =
      ∑ i ∈ Finset.range (2 * l + 1), hC l ((i : ℤ) - l) p * em (2 * l) i u v := by
  obtain ⟨x, y, z⟩ := p
  simp only [OnSphere, normSq] at hp
  simp only
  set ρ : ℂ := (x : ℂ) + y * Complex.I with hρ
  have hc : (x : ℂ) - y * Complex.I = (starRingEnd ℂ) ρ := by
    rw [hρ]; simp [sub_eq_add_neg]
  have hz : ρ * (starRingEnd ℂ) ρ = 1 - (z : ℂ) ^ 2 := by
    rw [← hc, hρ]
    have : ((x ^ 2 + y ^ 2 + z ^ 2 : ℝ) : ℂ) = 1 := by rw [hp]; norm_num
    push_cast at this
    linear_combination this - (y : ℂ) ^ 2 * Complex.I_sq
  have hz' : (starRingEnd ℂ) ρ * (starRingEnd ℂ) ((starRingEnd ℂ) ρ) = 1 - ((-z : ℝ) : ℂ) ^ 2 := by
    rw [Complex.conj_conj, mul_comm, hz]; push_cast; ring
  rw [hc, trin_homog, ← Finset.sum_range_reflect]
  refine Finset.sum_congr rfl fun i hi => ?_
  have hi := Finset.mem_range.1 hi
  rw [show 2 * l + 1 - 1 - i = 2 * l - i by omega, show 2 * l - (2 * l - i) = i by omega]
  have hfact : ∀ q ≤ l, ((√(((l - q).factorial : ℝ) / ((l + q).factorial : ℝ)) : ℝ) : ℂ) / ((√(((l - q).factorial : ℝ) * ((l + q).factorial : ℝ)) : ℝ) : ℂ)
      = 1 / (((l + q).factorial : ℝ) : ℂ) := by
    intro q _
    rw [← Complex.ofReal_div, ← sqrt_div' _ (by positivity), ← Complex.ofReal_one, ← Complex.ofReal_div]
    congr 1
    have a1 : ((l - q).factorial : ℝ) ≠ 0 := by positivity
    have a2 : ((l + q).factorial : ℝ) ≠ 0 := by positivity
    rw [show ((l - q).factorial : ℝ) / ((l + q).factorial : ℝ) / (((l - q).factorial : ℝ) * ((l + q).factorial : ℝ)) =
      (1 / ((l + q).factorial : ℝ)) ^ 2 by field_simp]
    rw [sqrt_sq (by positivity)]
  rcases Nat.lt_or_ge l i with h | h
  · obtain ⟨q, rfl⟩ : ∃ q, i = l + q := ⟨i - l, by omega⟩
    rw [trin_coeff_low _ _ _ _ _ (by omega), show 2 * l - (2 * l - (l + q)) = l + q by omega]
    have hh := trin_coeff_high l ((starRingEnd ℂ) ρ) (-z) hz' q
    rw [Complex.conj_conj] at hh
    push_cast at hh
    rw [hh]
    unfold hC em
    have e1 : (((l + q : ℕ) : ℤ) - l).natAbs = q := by omega
    rw [e1, if_neg (by omega), tay_neg, rodrigues_tay, show 2 * l - (l + q) = l - q by omega]
    have := hfact q (by omega)
    simp only
    rw [hc, mul_comm ((l + q).factorial : ℝ)]
    push_cast at this ⊢
    have s1 : (-1 : ℂ) ^ l * (-1) ^ (l + q) = (-1) ^ q := by
      rw [← pow_add, show l + (l + q) = 2 * l + q by ring, pow_add, pow_mul]; simp
    linear_combination ((starRingEnd ℂ) ρ ^ q * (2 ^ l * l.factorial / (l + q).factorial * rodrigues l q z) * u ^ (l - q) * v ^ (l + q)) * s1 -
      ((starRingEnd ℂ) ρ ^ q * (2 ^ l * l.factorial * rodrigues l q z) * u ^ (l - q) * v ^ (l + q) * (-1) ^ q) * this
  · obtain ⟨q, rfl⟩ : ∃ q, l = i + q := ⟨l - i, by omega⟩
    have e0 : 2 * (i + q) - i = (i + q) + q := by omega
    rw [e0, trin_coeff_high _ ρ z hz q, rodrigues_tay]
    unfold hC em
    have e1 : ((i : ℤ) - ((i + q : ℕ) : ℤ)).natAbs = q := by omega
    rw [e1, if_pos (by omega), e0]
    have := hfact q (by omega)
    rw [show i + q - q = i by omega] at this ⊢
    simp only
    rw [← hρ]
    push_cast at this ⊢
    linear_combination - (ρ ^ q * (2 ^ (i + q) * (i + q).factorial * rodrigues (i + q) q z) * u ^ (i + q + q) * v ^ i) * this

end Jaxoplanet.Starry
