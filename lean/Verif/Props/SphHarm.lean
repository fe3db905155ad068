import Verif.Proofs.Basis
import Verif.Spec.SphHarm
import Mathlib.Algebra.Polynomial.Expand
import Mathlib.Algebra.Polynomial.Coeff
import Mathlib.NumberTheory.Bernoulli
import Mathlib.Analysis.SpecialFunctions.Gamma.Beta
import Mathlib.Data.Nat.Factorial.DoubleFactorial

/-!
# C62: the change of basis `A1` evaluates the real spherical harmonics
-/

namespace Jaxoplanet.Starry

open Spec Real

/-- `Γ(t + 1/2) = (2t)! √π / (4^t t!)` -/
theorem Gamma_half_add (t : ℕ) : Gamma (t + 1 / 2) = (2 * t).factorial * √π / (4 ^ t * t.factorial) := by
  induction t with
  | zero => simp only [Nat.cast_zero, zero_add, mul_zero, Nat.factorial_zero, pow_zero]; rw [Real.Gamma_one_half_eq]; simp
  | succ t ih =>
    rw [show ((t + 1 : ℕ) : ℝ) + 1 / 2 = ((t : ℝ) + 1 / 2) + 1 by push_cast; ring,
      Real.Gamma_add_one (by positivity), ih, show 2 * (t + 1) = 2 * t + 1 + 1 by ring, Nat.factorial_succ,
      Nat.factorial_succ, Nat.factorial_succ, pow_succ]
    push_cast
    have : (t.factorial : ℝ) ≠ 0 := by positivity
    field_simp
    ring

/-- `Γ(1/2 - s) = (-4)^s s! √π / (2s)!` -/
theorem Gamma_half_sub (s : ℕ) : Gamma (1 / 2 - s) = (-4) ^ s * s.factorial * √π / (2 * s).factorial := by
  induction s with
  | zero => simp only [Nat.cast_zero, sub_zero, mul_zero, Nat.factorial_zero, pow_zero]; rw [Real.Gamma_one_half_eq]; simp
  | succ s ih =>
    have h0 : (1 / 2 - ((s + 1 : ℕ) : ℝ)) ≠ 0 := by
      push_cast
      have : (0 : ℝ) ≤ s := Nat.cast_nonneg s
      linarith
    have h1 := Real.Gamma_add_one h0
    rw [show 1 / 2 - ((s + 1 : ℕ) : ℝ) + 1 = 1 / 2 - (s : ℝ) by push_cast; ring, ih] at h1
    rw [show 2 * (s + 1) = 2 * s + 1 + 1 by ring, Nat.factorial_succ, Nat.factorial_succ, Nat.factorial_succ, pow_succ]
    push_cast at h1 h0 ⊢
    have h2 : ((2 * s).factorial : ℝ) ≠ 0 := by positivity
    have h3 : (2 * (s : ℝ) + 1) ≠ 0 := by positivity
    have h4 : (2 * (s : ℝ) + 1 + 1) ≠ 0 := by positivity
    generalize Gamma (1 / 2 - ((s : ℝ) + 1)) = g at *
    have h5 : g = (-4) ^ s * (s.factorial : ℝ) * √π / ((2 * s).factorial : ℝ) / (1 / 2 - ((s : ℝ) + 1)) := by
      rw [h1, mul_div_assoc, mul_comm, div_mul_cancel₀ _ h0]
    rw [h5]
    have h6 : (1 / 2 - ((s : ℝ) + 1)) = -(2 * (s : ℝ) + 1) / 2 := by ring
    rw [h6]
    field_simp
    ring

open Polynomial in
theorem rodrigues_eq (l m : ℕ) (hm : m ≤ l) (z : ℝ) : rodrigues l m z =
    ∑ k ∈ Finset.range (l - m + 1), (if (l + m + k) % 2 = 0 then
      (-1) ^ (l - (l + m + k) / 2) * ((l + m + k).factorial : ℝ) /
        (2 ^ l * (k.factorial : ℝ) * (((l + m + k) / 2).factorial : ℝ) * ((l - (l + m + k) / 2).factorial : ℝ))
      else 0) * z ^ k := by
  unfold rodrigues
  have hexp : (X ^ 2 - 1 : ℝ[X]) ^ l = expand ℝ 2 ((X - C 1) ^ l) := by simp
  have hdeg : ((derivative^[l + m]) ((X ^ 2 - 1 : ℝ[X]) ^ l)).natDegree < l - m + 1 := by
    have h1 := natDegree_iterate_derivative ((X ^ 2 - 1 : ℝ[X]) ^ l) (l + m)
    have h2 : ((X ^ 2 - 1 : ℝ[X]) ^ l).natDegree ≤ l * 2 := by
      refine le_trans natDegree_pow_le (Nat.mul_le_mul_left _ ?_)
      compute_degree
    omega
  rw [eval_eq_sum_range' hdeg, Finset.sum_div]
  refine Finset.sum_congr rfl fun k hk => ?_
  rw [Finset.mem_range] at hk
  rw [coeff_iterate_derivative, hexp, coeff_expand (by norm_num), nsmul_eq_mul, sub_eq_add_neg, ← C_neg, coeff_X_add_C_pow]
  have c1 : (2 ∣ k + (l + m)) ↔ (l + m + k) % 2 = 0 := by omega
  simp only [c1]
  by_cases h : (l + m + k) % 2 = 0
  · rw [if_pos h, if_pos h]
    have e1 : (k + (l + m)) / 2 = (l + m + k) / 2 := by rw [add_comm]
    rw [e1]
    have hle : (l + m + k) / 2 ≤ l := by omega
    have hch : (l.choose ((l + m + k) / 2) : ℝ) =
        l.factorial / (((l + m + k) / 2).factorial * (l - (l + m + k) / 2).factorial) := Nat.cast_choose ℝ hle
    have hdf : ((k + (l + m)).descFactorial (l + m) : ℝ) = ((l + m + k).factorial : ℝ) / k.factorial := by
      have := Nat.factorial_mul_descFactorial (show l + m ≤ k + (l + m) by omega)
      rw [Nat.add_sub_cancel] at this
      rw [show l + m + k = k + (l + m) by ring, ← this]
      push_cast
      have : (k.factorial : ℝ) ≠ 0 := by positivity
      field_simp
    rw [hch, hdf]
    have : (l.factorial : ℝ) ≠ 0 := by positivity
    field_simp
  · rw [if_neg h, if_neg h]; simp

/-- closed form of `Blmjk` -/
theorem Blmjk_eq (l m j k : ℕ) (hm : m ≤ l) (hj : j ≤ m) (hk : k ≤ l - m) : Blmjk l m j k =
    (m.choose j : ℝ) * (if (l + m + k) % 2 = 0 then
      (-1) ^ (l - (l + m + k) / 2) * ((l + m + k).factorial : ℝ) /
        (2 ^ l * (k.factorial : ℝ) * (((l + m + k) / 2).factorial : ℝ) * ((l - (l + m + k) / 2).factorial : ℝ))
      else 0) := by
  unfold Blmjk
  simp only
  have c1 : ((-(l : ℤ) + m + k - 1 < 0 ∧ (-(l : ℤ) + m + k - 1) % 2 = 0)) ↔ ¬ ((l + m + k) % 2 = 0) := by omega
  simp only [c1]
  by_cases h : (l + m + k) % 2 = 0
  · simp only [h, not_true_eq_false, if_false, if_true]
    obtain ⟨t, ht⟩ : ∃ t, l + m + k = 2 * t := ⟨(l + m + k) / 2, by omega⟩
    obtain ⟨s, hs⟩ : ∃ s, l = t + s := ⟨l - t, by omega⟩
    have e1 : (l + m + k) / 2 = t := by omega
    have e2 : l - (l + m + k) / 2 = s := by omega
    have e3 : l - m - k = 2 * s := by omega
    rw [e2, e1, e3, ht]
    have g1 : 0.5 * (((l : ℤ) + m + k - 1 : ℤ) : ℝ) + 1 = (t : ℝ) + 1 / 2 := by
      have : ((l : ℝ) + m + k) = 2 * t := by exact_mod_cast ht
      push_cast
      linarith
    have g2 : 0.5 * ((-(l : ℤ) + m + k - 1 : ℤ) : ℝ) + 1 = 1 / 2 - (s : ℝ) := by
      have h1 : ((l : ℝ) + m + k) = 2 * t := by exact_mod_cast ht
      have h2 : (l : ℝ) = t + s := by exact_mod_cast hs
      push_cast
      linarith
    rw [g1, g2, Gamma_half_add, Gamma_half_sub, Nat.cast_choose ℝ hj]
    have hpi : √π ≠ 0 := by positivity
    have p1 : (2 : ℝ) ^ l * 2 ^ l = 4 ^ t * 4 ^ s := by
      rw [← mul_pow, hs, pow_add]; norm_num
    have p2 : (-4 : ℝ) ^ s = (-1) ^ s * 4 ^ s := by rw [← mul_pow]; norm_num
    have p3 : ((-1 : ℝ) ^ s) * (-1) ^ s = 1 := by rw [← mul_pow]; norm_num
    rw [p2]
    have n1 : ((2 * t).factorial : ℝ) ≠ 0 := by positivity
    have n2 : ((2 * s).factorial : ℝ) ≠ 0 := by positivity
    have n3 : (t.factorial : ℝ) ≠ 0 := by positivity
    have n4 : (s.factorial : ℝ) ≠ 0 := by positivity
    have n5 : (k.factorial : ℝ) ≠ 0 := by positivity
    have n6 : (j.factorial : ℝ) ≠ 0 := by positivity
    have n7 : ((m - j).factorial : ℝ) ≠ 0 := by positivity
    have n8 : ((-1 : ℝ)) ^ s ≠ 0 := pow_ne_zero _ (by norm_num)
    field_simp
    have p4 : ((-1 : ℝ) ^ s) ^ 2 = 1 := by rw [sq, p3]
    rw [p4, sq, p1]
    ring
  · simp [h]

/-- the sum over `p` and `q` is `(1 - x² - y²)^κ` -/
theorem pq_sum (κ : ℕ) (x y : ℝ) :
    (((range2 0 (2 * κ + 1)).flatMap fun p => (range2 0 (p + 1)).map fun q => ((p, q) : ℕ × ℕ)).map fun e =>
      (-1) ^ (e.1 / 2) * Cpqk e.1 e.2 (2 * κ) * (x ^ (e.1 - e.2) * y ^ e.2)).sum = (1 - x ^ 2 - y ^ 2) ^ κ := by
  rw [listSum_flatMap]
  unfold range2
  rw [List.map_map, show (2 * κ + 1 + 1 - 0) / 2 = κ + 1 by omega, listSum_range]
  have h1 : ∀ i ∈ Finset.range (κ + 1), ((fun a : ℕ => ((List.map (fun q => (a, q))
      (List.map (fun i => 0 + 2 * i) (List.range ((a + 1 + 1 - 0) / 2)))).map fun e : ℕ × ℕ =>
      (-1 : ℝ) ^ (e.1 / 2) * Cpqk e.1 e.2 (2 * κ) * (x ^ (e.1 - e.2) * y ^ e.2)).sum) ∘ fun i => 0 + 2 * i) i =
      (-(x ^ 2 + y ^ 2)) ^ i * 1 ^ (κ - i) * (κ.choose i : ℝ) := by
    intro i hi
    rw [Finset.mem_range] at hi
    simp only [Function.comp, zero_add, List.map_map]
    rw [show (2 * i + 1 + 1 - 0) / 2 = i + 1 by omega, listSum_range]
    have e0 : (-(x ^ 2 + y ^ 2)) ^ i = (-1) ^ i * ∑ l ∈ Finset.range (i + 1), (y ^ 2) ^ l * (x ^ 2) ^ (i - l) * (i.choose l : ℝ) := by
      rw [← add_pow, ← mul_pow]
      congr 1
      ring
    rw [e0, Finset.mul_sum, Finset.sum_mul, Finset.sum_mul]
    refine Finset.sum_congr rfl fun l hl => ?_
    rw [Finset.mem_range] at hl
    unfold Cpqk
    simp only [Function.comp]
    rw [show 2 * i / 2 = i by omega, show 2 * κ / 2 = κ by omega, show 2 * l / 2 = l by omega,
      show (2 * κ - 2 * i) / 2 = κ - i by omega, show (2 * i - 2 * l) / 2 = i - l by omega,
      show 2 * i - 2 * l = 2 * (i - l) by omega, pow_mul, pow_mul, Nat.cast_choose ℝ (show l ≤ i by omega),
      Nat.cast_choose ℝ (show i ≤ κ by omega), one_pow]
    have n1 : (i.factorial : ℝ) ≠ 0 := by positivity
    field_simp
  rw [Finset.sum_congr rfl h1, ← add_pow]
  congr 1
  ring

theorem listSum_range2 (a b : ℕ) (f : ℕ → ℝ) : ((range2 a b).map f).sum =
    ∑ j ∈ Finset.range b, (if a ≤ j ∧ (j - a) % 2 = 0 then f j else 0) := by
  induction b with
  | zero => simp [range2, show (0 + 1 - a) / 2 = 0 by omega]
  | succ b ih =>
    rw [Finset.sum_range_succ, ← ih]
    by_cases h : a ≤ b ∧ (b - a) % 2 = 0
    · rw [if_pos h]
      unfold range2
      rw [show (b + 1 + 1 - a) / 2 = (b + 1 - a) / 2 + 1 by omega, List.range_succ]
      simp only [List.map_append, List.map_cons, List.map_nil, List.sum_append, List.sum_cons, List.sum_nil, add_zero]
      rw [show a + 2 * ((b + 1 - a) / 2) = b by omega]
    · rw [if_neg h, add_zero]
      unfold range2
      rw [show (b + 1 + 1 - a) / 2 = (b + 1 - a) / 2 by omega]

theorem I_pow_re_im (j : ℕ) : ((Complex.I ^ j).re = if j % 2 = 0 then (-1) ^ (j / 2) else 0) ∧
    ((Complex.I ^ j).im = if j % 2 = 0 then 0 else (-1) ^ (j / 2)) := by
  obtain ⟨i, hi⟩ : ∃ i, j = 2 * i ∨ j = 2 * i + 1 := ⟨j / 2, by omega⟩
  have hI : ∀ i : ℕ, Complex.I ^ (2 * i) = (((-1) ^ i : ℝ) : ℂ) := by
    intro i; rw [pow_mul, Complex.I_sq]; push_cast; rfl
  rcases hi with rfl | rfl
  · rw [hI, Complex.ofReal_re, Complex.ofReal_im]
    simp
  · rw [pow_succ, hI, Complex.re_ofReal_mul, Complex.im_ofReal_mul]
    simp only [Complex.I_re, Complex.I_im]
    rw [if_neg (by omega), if_neg (by omega), show (2 * i + 1) / 2 = i by omega]
    simp

theorem azimuth_eq (m : ℕ) (neg : Bool) (x y : ℝ) :
    ∑ j ∈ Finset.range (m + 1), (if (if neg then 1 else 0) ≤ j ∧ (j - (if neg then 1 else 0)) % 2 = 0 then
      (-1) ^ ((j - (if neg then 1 else 0)) / 2) * (m.choose j : ℝ) * (x ^ (m - j) * y ^ j) else 0) =
    if neg then (((x : ℂ) + y * Complex.I) ^ m).im else (((x : ℂ) + y * Complex.I) ^ m).re := by
  have hexp : ((x : ℂ) + y * Complex.I) ^ m =
      ∑ j ∈ Finset.range (m + 1), ((x ^ (m - j) * y ^ j * (m.choose j : ℝ) : ℝ) : ℂ) * Complex.I ^ j := by
    rw [add_comm, add_pow]
    refine Finset.sum_congr rfl fun j _ => ?_
    push_cast
    rw [mul_pow]; ring
  cases neg
  · simp only [Bool.false_eq_true, if_false, hexp, Complex.re_sum, Complex.re_ofReal_mul]
    refine Finset.sum_congr rfl fun j _ => ?_
    rw [(I_pow_re_im j).1]
    simp only [Nat.zero_le, true_and, Nat.sub_zero]
    split_ifs <;> ring
  · simp only [if_true, hexp, Complex.im_sum, Complex.im_ofReal_mul]
    refine Finset.sum_congr rfl fun j _ => ?_
    rw [(I_pow_re_im j).2]
    by_cases h : j % 2 = 0
    · rw [if_pos h, if_neg (by omega)]; ring
    · rw [if_neg h, if_pos (by omega), show (j - 1) / 2 = j / 2 by omega]; ring

/-- the inner loops over `p` and `q` -/
theorem pq_terms (κ a j neg kz : ℕ) (c x y z : ℝ) (hj : neg ≤ j) (hpar : (j - neg) % 2 = 0) :
    (((range2 0 (2 * κ + 1)).flatMap fun p => (range2 0 (p + 1)).map fun q =>
      (((a + p - q, j + q, kz) : Ijk), (-1) ^ ((j + p - neg) / 2) * c * Cpqk p q (2 * κ))).map fun e =>
        e.2 * mono x y z e.1).sum =
    c * ((-1) ^ ((j - neg) / 2) * (x ^ a * y ^ j)) * z ^ kz * (1 - x ^ 2 - y ^ 2) ^ κ := by
  rw [← pq_sum, listSum_flatMap, listSum_flatMap, ← List.sum_map_mul_left]
  refine congrArg List.sum (List.map_congr_left fun p hp => ?_)
  rw [mem_range2] at hp
  rw [List.map_map, List.map_map, ← List.sum_map_mul_left]
  refine congrArg List.sum (List.map_congr_left fun q hq => ?_)
  rw [mem_range2] at hq
  simp only [Function.comp, mono]
  rw [show (j + p - neg) / 2 = (j - neg) / 2 + p / 2 by omega, show a + p - q = a + (p - q) by omega,
    pow_add, pow_add, pow_add]
  ring

/-- value of the coefficient of `z^k` in `rodrigues` -/
noncomputable def rodCoeff (l m k : ℕ) : ℝ :=
  if (l + m + k) % 2 = 0 then
    (-1) ^ (l - (l + m + k) / 2) * ((l + m + k).factorial : ℝ) /
      (2 ^ l * (k.factorial : ℝ) * (((l + m + k) / 2).factorial : ℝ) * ((l - (l + m + k) / 2).factorial : ℝ))
  else 0

theorem ylmTerms_sum (l : ℕ) (m : ℤ) (hm : m.natAbs ≤ l) (x y z : ℝ) (hs : x ^ 2 + y ^ 2 + z ^ 2 = 1) :
    ((ylmTerms l m).map fun e => e.2 * mono x y z e.1).sum = realHarmonic l m x y z := by
  unfold ylmTerms
  simp only
  generalize hneg : (if m < 0 then 1 else 0) = neg
  rw [listSum_flatMap]
  have hz2 : 1 - x ^ 2 - y ^ 2 = z ^ 2 := by linarith
  have hj : ∀ j ∈ range2 neg (m.natAbs + 1), (((((range2 0 (l - m.natAbs + 1)).flatMap fun k =>
      if Blmjk l m.natAbs j k = 0 then []
      else (range2 0 (k + 1)).flatMap fun p => (range2 0 (p + 1)).map fun q =>
        (((m.natAbs - j + p - q, j + q, 0) : Ijk),
          (-1) ^ ((j + p - neg) / 2) * (Alm l m.natAbs * Blmjk l m.natAbs j k) * Cpqk p q k)) ++
    ((range2 1 (l - m.natAbs + 1)).flatMap fun k =>
      if Blmjk l m.natAbs j k = 0 then []
      else (range2 0 k).flatMap fun p => (range2 0 (p + 1)).map fun q =>
        (((m.natAbs - j + p - q, j + q, 1) : Ijk),
          (-1) ^ ((j + p - neg) / 2) * (Alm l m.natAbs * Blmjk l m.natAbs j k) * Cpqk p q (k - 1)))).map fun e =>
            e.2 * mono x y z e.1).sum) =
      Alm l m.natAbs * rodrigues l m.natAbs z *
        ((-1) ^ ((j - neg) / 2) * (m.natAbs.choose j : ℝ) * (x ^ (m.natAbs - j) * y ^ j)) := by
    intro j hj
    rw [mem_range2] at hj
    obtain ⟨h1, h2, h3⟩ := hj
    rw [List.map_append, List.sum_append, listSum_flatMap, listSum_flatMap, rodrigues_eq l _ hm]
    have e0 : ((range2 0 (l - m.natAbs + 1)).map fun k => (((if Blmjk l m.natAbs j k = 0 then []
      else (range2 0 (k + 1)).flatMap fun p => (range2 0 (p + 1)).map fun q =>
        (((m.natAbs - j + p - q, j + q, 0) : Ijk),
          (-1) ^ ((j + p - neg) / 2) * (Alm l m.natAbs * Blmjk l m.natAbs j k) * Cpqk p q k))).map fun e =>
            e.2 * mono x y z e.1).sum).sum =
      ((range2 0 (l - m.natAbs + 1)).map fun k => Alm l m.natAbs * ((-1) ^ ((j - neg) / 2) *
        (m.natAbs.choose j : ℝ) * (x ^ (m.natAbs - j) * y ^ j)) * (rodCoeff l m.natAbs k * z ^ k)).sum := by
      refine congrArg List.sum (List.map_congr_left fun k hk => ?_)
      rw [mem_range2] at hk
      have hB := Blmjk_eq l m.natAbs j k hm (by omega) (by omega)
      change _ = _ * rodCoeff l m.natAbs k at hB
      by_cases h0 : Blmjk l m.natAbs j k = 0
      · rw [if_pos h0]
        have hc : (m.natAbs.choose j : ℝ) ≠ 0 := by
          exact_mod_cast (Nat.choose_pos (show j ≤ m.natAbs by omega)).ne'
        have : rodCoeff l m.natAbs k = 0 := by
          rw [h0] at hB
          exact (mul_eq_zero.1 hB.symm).resolve_left hc
        simp [this]
      · rw [if_neg h0]
        obtain ⟨κ, rfl⟩ : ∃ κ, k = 2 * κ := ⟨k / 2, by omega⟩
        rw [pq_terms κ _ j neg 0 _ x y z h1 h3, hz2, hB, ← pow_mul]
        ring
    have e1 : ((range2 1 (l - m.natAbs + 1)).map fun k => (((if Blmjk l m.natAbs j k = 0 then []
      else (range2 0 k).flatMap fun p => (range2 0 (p + 1)).map fun q =>
        (((m.natAbs - j + p - q, j + q, 1) : Ijk),
          (-1) ^ ((j + p - neg) / 2) * (Alm l m.natAbs * Blmjk l m.natAbs j k) * Cpqk p q (k - 1)))).map fun e =>
            e.2 * mono x y z e.1).sum).sum =
      ((range2 1 (l - m.natAbs + 1)).map fun k => Alm l m.natAbs * ((-1) ^ ((j - neg) / 2) *
        (m.natAbs.choose j : ℝ) * (x ^ (m.natAbs - j) * y ^ j)) * (rodCoeff l m.natAbs k * z ^ k)).sum := by
      refine congrArg List.sum (List.map_congr_left fun k hk => ?_)
      rw [mem_range2] at hk
      have hB := Blmjk_eq l m.natAbs j k hm (by omega) (by omega)
      change _ = _ * rodCoeff l m.natAbs k at hB
      by_cases h0 : Blmjk l m.natAbs j k = 0
      · rw [if_pos h0]
        have hc : (m.natAbs.choose j : ℝ) ≠ 0 := by
          exact_mod_cast (Nat.choose_pos (show j ≤ m.natAbs by omega)).ne'
        have : rodCoeff l m.natAbs k = 0 := by
          rw [h0] at hB
          exact (mul_eq_zero.1 hB.symm).resolve_left hc
        simp [this]
      · rw [if_neg h0]
        obtain ⟨κ, rfl⟩ : ∃ κ, k = 2 * κ + 1 := ⟨k / 2, by omega⟩
        rw [Nat.add_sub_cancel, pq_terms κ _ j neg 1 _ x y z h1 h3, hz2, hB, ← pow_mul, pow_succ z (2 * κ)]
        ring
    rw [e0, e1, listSum_range2, listSum_range2, ← Finset.sum_add_distrib, mul_right_comm (Alm l m.natAbs), Finset.mul_sum]
    refine Finset.sum_congr rfl fun k (_ : k ∈ Finset.range (l - m.natAbs + 1)) => ?_
    change _ = _ * (rodCoeff l m.natAbs k * z ^ k)
    by_cases hk : k % 2 = 0
    · rw [if_pos (by omega), if_neg (by omega), add_zero]
    · rw [if_neg (by omega), if_pos (by omega), zero_add]
  rw [List.map_congr_left hj, List.sum_map_mul_left, listSum_range2]
  unfold realHarmonic
  have hA : Alm l m.natAbs = harmNorm l m.natAbs := by
    unfold Alm harmNorm
    congr 1
    have n1 : ((l + m.natAbs).factorial : ℝ) ≠ 0 := by positivity
    split_ifs <;> field_simp <;> ring
  rw [hA]
  congr 1
  by_cases h : m < 0
  · have := azimuth_eq m.natAbs true x y
    rw [if_pos h] at hneg
    subst hneg
    simp only [if_true] at this
    rw [this, if_neg (by omega)]
  · have := azimuth_eq m.natAbs false x y
    rw [if_neg h] at hneg
    subst hneg
    simp only [Bool.false_eq_true, if_false] at this
    rw [this, if_pos (by omega)]

/-- C62: the dictionary returned by `Ylm(l, m)` evaluates on the unit sphere to the real spherical harmonic of
degree `l` and order `m` -/
theorem ylmDict_val (l : ℕ) (m : ℤ) (hm : |m| ≤ (l : ℤ)) (x y z : ℝ) (hs : x ^ 2 + y ^ 2 + z ^ 2 = 1) :
    polyVal (ylmDict l m) x y z = realHarmonic l m x y z := by
  unfold ylmDict
  rw [polyVal_foldl_accum, ylmTerms_sum l m (by rw [Int.abs_eq_natAbs] at hm; omega) x y z hs]
  simp [polyVal]

theorem ylmTerms_keys (l : ℕ) (m : ℤ) (hm : m.natAbs ≤ l) :
    ∀ e ∈ ylmTerms l m, e.1.2.2 ≤ 1 ∧ e.1.1 + e.1.2.1 + e.1.2.2 ≤ l := by
  intro e he
  unfold ylmTerms at he
  generalize (if m < 0 then 1 else 0) = neg at he
  simp only [List.mem_flatMap, List.mem_append] at he
  obtain ⟨j, hj, he⟩ := he
  rw [mem_range2] at hj
  rcases he with ⟨k, hk, he⟩ | ⟨k, hk, he⟩
  · split_ifs at he
    · simp at he
    · rw [mem_range2] at hk
      simp only [List.mem_flatMap, List.mem_map] at he
      obtain ⟨p, hp, q, hq, rfl⟩ := he
      rw [mem_range2] at hp hq
      constructor <;> simp only <;> omega
  · split_ifs at he
    · simp at he
    · rw [mem_range2] at hk
      simp only [List.mem_flatMap, List.mem_map] at he
      obtain ⟨p, hp, q, hq, rfl⟩ := he
      rw [mem_range2] at hp hq
      constructor <;> simp only <;> omega

theorem ylmDict_keys (l : ℕ) (m : ℤ) (hm : m.natAbs ≤ l) :
    ∀ e ∈ ylmDict l m, e.1.2.2 ≤ 1 ∧ e.1.1 + e.1.2.1 + e.1.2.2 ≤ l := by
  intro e he
  have hk : e.1 ∈ Dict.keys (ylmDict l m) := List.mem_map_of_mem he
  unfold ylmDict at hk
  rw [keys_foldl_accum] at hk
  rcases hk with hk | hk
  · simp at hk
  · obtain ⟨f, hf, hfe⟩ := List.mem_map.1 hk
    rw [← hfe]
    exact ylmTerms_keys l m hm f hf

theorem lmOfIndex_block (l q : ℕ) (hq : q < 2 * l + 1) : lmOfIndex (l ^ 2 + q) = (l, (q : ℤ) - l) := by
  have hs : Nat.sqrt (l ^ 2 + q) = l := sqrt_eq_of_bounds (by omega) (by
    have : (l + 1) ^ 2 = l ^ 2 + (2 * l + 1) := by ring
    omega)
  unfold lmOfIndex
  rw [hs]
  ext
  · rfl
  · simp only; push_cast; ring

theorem sum_blocks (L : ℕ) (f : ℕ → ℝ) : ∑ n ∈ Finset.range (L ^ 2), f n =
    ∑ l ∈ Finset.range L, ∑ q ∈ Finset.range (2 * l + 1), f (l ^ 2 + q) := by
  induction L with
  | zero => simp
  | succ L ih => rw [show (L + 1) ^ 2 = L ^ 2 + (2 * L + 1) by ring, Finset.sum_range_add, ih, Finset.sum_range_succ _ L]

theorem denseVal_scale (c : List ℝ) (a x y z : ℝ) : denseVal (c.map fun v => v * a) x y z = a * denseVal c x y z := by
  rw [denseVal_eq, denseVal_eq, List.length_map, Finset.mul_sum]
  refine Finset.sum_congr rfl fun n hn => ?_
  rw [Finset.mem_range] at hn
  rw [List.getD_eq_getElem?_getD, List.getD_eq_getElem?_getD, List.getElem?_map, List.getElem?_eq_getElem hn]
  simp only [Option.map_some, Option.getD_some]
  ring

/-- C62: `A1(lmax) @ y`, evaluated in the polynomial basis at a point of the unit sphere, is the map
`2/√π Σ_{l ≤ lmax} Σ_{|m| ≤ l} y_{l m} Y_{l m}` (the coefficient of `(l, m)` being entry `l² + l + m` of `y`) -/
theorem A1_val (lmax : ℕ) (v : List ℝ) (hv : v.length = (lmax + 1) ^ 2) (x y z : ℝ)
    (hs : x ^ 2 + y ^ 2 + z ^ 2 = 1) :
    (matVec ((lmax + 1) ^ 2) (A1 lmax) v).length = (lmax + 1) ^ 2 ∧
    denseVal (matVec ((lmax + 1) ^ 2) (A1 lmax) v) x y z =
      2 / √π * ∑ l ∈ Finset.range (lmax + 1), ∑ q ∈ Finset.range (2 * l + 1),
        v.getD (l ^ 2 + q) 0 * realHarmonic l ((q : ℤ) - l) x y z := by
  refine ⟨matVec_length _ _ _, ?_⟩
  unfold A1
  rw [AImpl_eq, matVec_val]
  · have h1 : (((((List.range ((lmax + 1) ^ 2)).map fun n =>
        bcooDense (polyEntries ((lmax + 1) ^ 2) (ylmDict (lmOfIndex n).1 (lmOfIndex n).2)) ((lmax + 1) ^ 2)).map
          fun c => c.map fun v => v * 2 / √π).zip v).map fun e => denseVal e.1 x y z * e.2) =
        (List.range ((lmax + 1) ^ 2)).map fun n : ℕ =>
          2 / √π * (v.getD n 0 * realHarmonic (lmOfIndex n).1 (lmOfIndex n).2 x y z) := by
      apply List.ext_getElem
      · simp [hv]
      · intro n g1 g2
        have hn : n < (lmax + 1) ^ 2 := by simpa using g2
        have hb := sqrt_bounds n
        have hl : Nat.sqrt n ≤ lmax := by
          have : Nat.sqrt n < lmax + 1 := by rw [Nat.sqrt_lt]; nlinarith
          omega
        have hm : (lmOfIndex n).2.natAbs ≤ (lmOfIndex n).1 := by
          unfold lmOfIndex
          simp only
          obtain ⟨q, hq⟩ : ∃ q : ℕ, n = (Nat.sqrt n) ^ 2 + q := ⟨n - Nat.sqrt n ^ 2, by omega⟩
          have h2 : q ≤ 2 * Nat.sqrt n := by omega
          have : (n : ℤ) - (Nat.sqrt n : ℤ) * ((Nat.sqrt n : ℤ) + 1) = (q : ℤ) - Nat.sqrt n := by
            have h3 : (n : ℤ) = (Nat.sqrt n : ℤ) ^ 2 + q := by exact_mod_cast hq
            linear_combination h3
          rw [this]
          omega
        simp only [List.getElem_map, List.getElem_zip, List.getElem_range]
        have hscale : (fun v : ℝ => v * 2 / √π) = fun v => v * (2 / √π) := by funext v; ring
        have hscale' : ∀ c : List ℝ, (c.map fun v => v * 2 / √π) = c.map fun v => v * (2 / √π) := fun c => by rw [hscale]
        rw [hscale', denseVal_scale, column_val, ylmDict_val _ _ (by rw [Int.abs_eq_natAbs]; exact_mod_cast hm) x y z hs,
          List.getD_eq_getElem?_getD, List.getElem?_eq_getElem (hv ▸ hn)]
        · simp only [Option.getD_some]
          ring
        · intro e he
          obtain ⟨a, b⟩ := ylmDict_keys _ _ hm e he
          exact ⟨a, le_trans b hl⟩
    rw [h1, listSum_range, ← Finset.mul_sum, sum_blocks]
    congr 1
    refine Finset.sum_congr rfl fun l _ => Finset.sum_congr rfl fun q hq => ?_
    rw [lmOfIndex_block l q (Finset.mem_range.1 hq)]
  · intro c hc
    obtain ⟨d, hd, rfl⟩ := List.mem_map.1 hc
    obtain ⟨n, _, rfl⟩ := List.mem_map.1 hd
    rw [List.length_map]
    exact bcooDense_length _ _

/-- the specification in spherical coordinates: `Y_{l m} = N sin^μ θ Q_{l μ}(cos θ) cos(m φ)` (or `sin |m| φ`) -/
theorem realHarmonic_polar (l : ℕ) (m : ℤ) (θ φ : ℝ) :
    realHarmonic l m (sin θ * cos φ) (sin θ * sin φ) (cos θ) =
      harmNorm l m.natAbs * (sin θ ^ m.natAbs * rodrigues l m.natAbs (cos θ)) *
        (if 0 ≤ m then cos (m * φ) else sin (-m * φ)) := by
  have h : (((sin θ * cos φ : ℝ) : ℂ) + ((sin θ * sin φ : ℝ) : ℂ) * Complex.I) ^ m.natAbs =
      (((sin θ ^ m.natAbs : ℝ)) : ℂ) * ((cos (m.natAbs * φ) : ℝ) + (sin (m.natAbs * φ) : ℝ) * Complex.I) := by
    have h0 : (((sin θ * cos φ : ℝ) : ℂ) + ((sin θ * sin φ : ℝ) : ℂ) * Complex.I) =
        ((sin θ : ℝ) : ℂ) * (Complex.cos φ + Complex.sin φ * Complex.I) := by push_cast; ring
    rw [h0, mul_pow, Complex.cos_add_sin_mul_I_pow]
    push_cast
    rfl
  unfold realHarmonic
  rw [h, Complex.re_ofReal_mul, Complex.im_ofReal_mul]
  have hre : (((cos (m.natAbs * φ) : ℝ) : ℂ) + ((sin (m.natAbs * φ) : ℝ) : ℂ) * Complex.I).re = cos (m.natAbs * φ) := by
    simp [-Complex.ofReal_cos, -Complex.ofReal_sin]
  have him : (((cos (m.natAbs * φ) : ℝ) : ℂ) + ((sin (m.natAbs * φ) : ℝ) : ℂ) * Complex.I).im = sin (m.natAbs * φ) := by
    simp [-Complex.ofReal_cos, -Complex.ofReal_sin]
  rw [hre, him]
  by_cases hm : 0 ≤ m
  · have e : ((m.natAbs : ℕ) : ℝ) = (m : ℝ) := by
      rw [Nat.cast_natAbs, abs_of_nonneg hm]
    rw [if_pos hm, if_pos hm, e]; ring
  · have e : ((m.natAbs : ℕ) : ℝ) = -(m : ℝ) := by
      rw [Nat.cast_natAbs, abs_of_neg (by omega)]; push_cast; rfl
    rw [if_neg hm, if_neg hm, e]; ring

open Polynomial in
/-- `Y_{1,0} = √(3/4π) z` at a point of the sphere, as the model of `Ylm(1, 0)` evaluates it -/
example : polyVal (ylmDict 1 0) 0.6 0 0.8 = √(3 / (4 * π)) * 0.8 := by
  rw [ylmDict_val 1 0 (by norm_num) _ _ _ (by norm_num)]
  have h : harmNorm 1 0 = √(3 / (4 * π)) := by
    unfold harmNorm
    congr 1
    norm_num
  simp [realHarmonic, h, rodrigues]
  left
  norm_num

end Jaxoplanet.Starry
