import Verif.Proofs.Wigner3j
import Mathlib.Data.Nat.Choose.Vandermonde
import Mathlib.Data.Nat.Choose.Cast

/-!
# Normalisation and sign of the Wigner 3j symbol; the stretched states
-/

namespace Jaxoplanet.Starry
open Spec

theorem fact_zero : fact 0 = 1 := by simp [fact]
theorem invFact_zero : invFact 0 = 1 := by simp [invFact, fact]

/-- Vandermonde's identity over `mRange` -/
theorem vandermonde_mRange {j2 j3 M : ℤ} (h2 : 0 ≤ j2) (h3 : 0 ≤ j3) (hM : |M| ≤ j2 + j3) :
    ∑ m ∈ mRange j2 j3 M, ((Nat.choose (2 * j2).toNat (j2 + m).toNat : ℝ) * (Nat.choose (2 * j3).toNat (j3 + (M - m)).toNat : ℝ)) =
      (Nat.choose (2 * (j2 + j3)).toNat (j2 + j3 + M).toNat : ℝ) := by
  rw [abs_le] at hM
  rw [show (2 * (j2 + j3)).toNat = (2 * j2).toNat + (2 * j3).toNat by omega, Nat.add_choose_eq]
  push_cast
  refine Finset.sum_of_injOn (fun m => ((j2 + m).toNat, (j3 + (M - m)).toNat)) ?_ ?_ ?_ ?_
  · intro x hx y hy h
    have hx := mem_mRange.1 hx
    have hy := mem_mRange.1 hy
    rw [abs_le, abs_le] at hx hy
    simp only [Prod.mk.injEq] at h
    omega
  · intro x hx
    have hx := mem_mRange.1 hx
    rw [abs_le, abs_le] at hx
    simp only [Finset.mem_coe, Finset.mem_antidiagonal]
    omega
  · rintro ⟨p, q⟩ hpq hn
    rw [Finset.mem_antidiagonal] at hpq
    by_contra hc
    apply hn
    have h1 : p ≤ (2 * j2).toNat := by
      by_contra h
      rw [Nat.choose_eq_zero_of_lt (by omega : (2 * j2).toNat < p)] at hc
      simp at hc
    have h1' : q ≤ (2 * j3).toNat := by
      by_contra h
      rw [Nat.choose_eq_zero_of_lt (by omega : (2 * j3).toNat < q)] at hc
      simp at hc
    refine ⟨p - j2, ?_, ?_⟩
    · rw [Finset.mem_coe, mem_mRange, abs_le, abs_le]
      omega
    · simp only [Prod.mk.injEq]
      omega
  · intro m hm
    rfl

theorem choose_fact {n k : ℤ} (h0 : 0 ≤ k) (h1 : k ≤ n) : (Nat.choose n.toNat k.toNat : ℝ) = fact n / (fact k * fact (n - k)) := by
  unfold fact
  rw [Nat.cast_choose ℝ (by omega : k.toNat ≤ n.toNat), show (n - k).toNat = n.toNat - k.toNat by omega]

/-- the symbol at the largest `j1` -/
theorem w3_top {j2 j3 m2 m3 : ℤ} (h2 : |m2| ≤ j2) (h3 : |m3| ≤ j3) :
    w3 j2 j3 m2 m3 (j2 + j3) = (-1) ^ (j2 - j3 + m2 + m3) * (√(racahNorm (j2 + j3) j2 j3 (-(m2 + m3)) m2 m3) *
      (invFact (j2 + m2) * invFact (j2 - m2) * invFact (j3 + m3) * invFact (j3 - m3))) := by
  have a2 := abs_le.1 h2
  have a3 := abs_le.1 h3
  rw [w3_of_coupled h2 h3 (by unfold Coupled; rw [abs_le, abs_le]; omega),
    racahSum_single (j2 + m2) (fun k _ _ _ _ _ _ => by omega)]
  unfold racahTerm
  rw [show j2 + j3 + j2 - j3 - (j2 + m2) = j2 - m2 by ring, show j2 + j3 - -(m2 + m3) - (j2 + m2) = j3 + m3 by ring,
    show j2 + m2 - (j2 + m2) = 0 by ring, show j3 - j2 + -(m2 + m3) + (j2 + m2) = j3 - m3 by ring,
    show j3 - (j2 + j3) - m2 + (j2 + m2) = 0 by ring, invFact_zero]
  have : ((-1 : ℝ)) ^ (j2 - j3 + m2 + m3) = (-1) ^ (j2 + j3 - j2 - m3) * (-1) ^ (j2 + m2) := by
    rw [← zpow_add₀ (by norm_num), show j2 + j3 - j2 - m3 + (j2 + m2) = (j2 - j3 + m2 + m3) + 2 * (j3 - m3) by ring,
      zpow_add₀ (by norm_num) (j2 - j3 + m2 + m3) (2 * (j3 - m3)), zpow_mul]
    norm_num
  rw [this]
  ring

theorem w3_top_sign {j2 j3 m2 m3 : ℤ} (h2 : |m2| ≤ j2) (h3 : |m3| ≤ j3) :
    0 < (-1) ^ (j2 - j3 + m2 + m3) * w3 j2 j3 m2 m3 (j2 + j3) := by
  have a2 := abs_le.1 h2
  have a3 := abs_le.1 h3
  rw [w3_top h2 h3, ← mul_assoc, ← zpow_add₀ (by norm_num), ← two_mul, zpow_mul]
  have := racahNorm_pos (j2 + j3) j2 j3 (-(m2 + m3)) m2 m3
  have h : ∀ n : ℤ, 0 ≤ n → 0 < invFact n := fun n hn => by
    rw [invFact_of_nonneg hn]; exact one_div_pos.2 (fact_pos n)
  have := h (j2 + m2) (by omega)
  have := h (j2 - m2) (by omega)
  have := h (j3 + m3) (by omega)
  have := h (j3 - m3) (by omega)
  rw [show ((-1 : ℝ) ^ (2 : ℤ)) = 1 by norm_num, one_zpow]
  positivity

theorem w3_top_ne {j2 j3 m2 m3 : ℤ} (h2 : |m2| ≤ j2) (h3 : |m3| ≤ j3) : w3 j2 j3 m2 m3 (j2 + j3) ≠ 0 := by
  have := w3_top_sign h2 h3
  intro h
  rw [h] at this
  simp at this

theorem w3_top_sq {j2 j3 m2 m3 : ℤ} (h2 : |m2| ≤ j2) (h3 : |m3| ≤ j3) :
    (2 * (j2 + j3) + 1) * w3 j2 j3 m2 m3 (j2 + j3) ^ 2 * (Nat.choose (2 * (j2 + j3)).toNat (j2 + j3 + (m2 + m3)).toNat : ℝ) =
      (Nat.choose (2 * j2).toNat (j2 + m2).toNat : ℝ) * (Nat.choose (2 * j3).toNat (j3 + m3).toNat : ℝ) := by
  have a2 := abs_le.1 h2
  have a3 := abs_le.1 h3
  rw [w3_top h2 h3, mul_pow, mul_pow, Real.sq_sqrt (racahNorm_pos _ _ _ _ _ _).le, ← zpow_natCast, ← zpow_mul, mul_comm _ ((2 : ℕ) : ℤ), zpow_mul,
    choose_fact (by omega) (by omega), choose_fact (by omega) (by omega), choose_fact (by omega) (by omega),
    invFact_of_nonneg (by omega), invFact_of_nonneg (by omega), invFact_of_nonneg (by omega), invFact_of_nonneg (by omega)]
  unfold racahNorm
  have hf := fact_succ (n := 2 * (j2 + j3)) (by omega)
  rw [show j2 + j3 + j2 - j3 = 2 * j2 by ring, show j2 + j3 - j2 + j3 = 2 * j3 by ring, show -(j2 + j3) + j2 + j3 = 0 by ring, fact_zero,
    show j2 + j3 + j2 + j3 + 1 = 2 * (j2 + j3) + 1 by ring, hf, show j2 + j3 + -(m2 + m3) = j2 + j3 - (m2 + m3) by ring,
    show j2 + j3 - -(m2 + m3) = j2 + j3 + (m2 + m3) by ring, show 2 * (j2 + j3) - (j2 + j3 + (m2 + m3)) = j2 + j3 - (m2 + m3) by ring,
    show 2 * j2 - (j2 + m2) = j2 - m2 by ring, show 2 * j3 - (j3 + m3) = j3 - m3 by ring]
  have hne : ((2 : ℝ) * (j2 + j3) + 1) ≠ 0 := by
    have : (2 * (j2 + j3) + 1 : ℤ) ≠ 0 := by omega
    exact_mod_cast this
  have n := fun n => (fact_pos n).ne'
  have n1 := n (2 * j2); have n2 := n (2 * j3); have n3 := n (2 * (j2 + j3)); have n4 := n (j2 + j3 - (m2 + m3)); have n5 := n (j2 + j3 + (m2 + m3))
  have n6 := n (j2 + m2); have n7 := n (j2 - m2); have n8 := n (j3 + m3); have n9 := n (j3 - m3)
  push_cast
  norm_num
  field_simp

/-- **normalisation**: the squares over `j1` add up to one, for every pair of projections -/
theorem w3_norm {j2 j3 m2 m3 : ℤ} (h2 : |m2| ≤ j2) (h3 : |m3| ≤ j3) :
    ∑ j ∈ Finset.Icc (jMin j2 j3 (m2 + m3)) (j2 + j3), (2 * j + 1) * w3 j2 j3 m2 m3 j ^ 2 = 1 := by
  have a2 := abs_le.1 h2
  have a3 := abs_le.1 h3
  set M := m2 + m3 with hM
  set J := j2 + j3 with hJ
  have hjm : jMin j2 j3 M ≤ J := by
    unfold jMin; rw [max_le_iff, abs_le, abs_le]; omega
  have hMJ : |M| ≤ J := by rw [abs_le]; omega
  set U : ℤ → ℤ → ℝ := fun j m => w3 j2 j3 m (M - m) j with hU
  have hm2 : m2 ∈ mRange j2 j3 M := by rw [mem_mRange]; exact ⟨h2, by rw [hM, add_sub_cancel_left]; exact h3⟩
  have eU : ∀ j, w3 j2 j3 m2 m3 j = U j m2 := fun j => by simp only [hU]; rw [hM, add_sub_cancel_left]
  -- the row of the largest `j1`
  have hrow : (2 * (J : ℝ) + 1) * ∑ m ∈ mRange j2 j3 M, U J m ^ 2 = 1 := by
    have hv := vandermonde_mRange (by omega : 0 ≤ j2) (by omega : 0 ≤ j3) hMJ
    have hc : (Nat.choose (2 * (j2 + j3)).toNat (j2 + j3 + M).toNat : ℝ) ≠ 0 := by
      have := Nat.choose_pos (show (j2 + j3 + M).toNat ≤ (2 * (j2 + j3)).toNat by rw [abs_le] at hMJ; omega)
      exact_mod_cast this.ne'
    have : ∀ m ∈ mRange j2 j3 M, ((Nat.choose (2 * j2).toNat (j2 + m).toNat : ℝ) * (Nat.choose (2 * j3).toNat (j3 + (M - m)).toNat : ℝ)) =
        ((2 * (J : ℝ) + 1) * U J m ^ 2) * (Nat.choose (2 * (j2 + j3)).toNat (j2 + j3 + M).toNat : ℝ) := by
      intro m hm
      obtain ⟨b2, b3⟩ := mem_mRange.1 hm
      have := w3_top_sq b2 b3
      rw [show m + (M - m) = M by ring] at this
      rw [← this, hJ]
      push_cast
      ring
    rw [Finset.sum_congr rfl this, ← Finset.sum_mul, ← Finset.mul_sum] at hv
    exact mul_right_cancel₀ hc (by rw [hv, one_mul])
  have hswap : ∑ m ∈ mRange j2 j3 M, U J m * ∑ j ∈ Finset.Icc (jMin j2 j3 M) J, (2 * (j : ℝ) + 1) * (U j m * U j m2) =
      ∑ j ∈ Finset.Icc (jMin j2 j3 M) J, (2 * (j : ℝ) + 1) * U j m2 * ∑ m ∈ mRange j2 j3 M, U J m * U j m := by
    simp only [Finset.mul_sum]
    rw [Finset.sum_comm]
    refine Finset.sum_congr rfl fun j _ => Finset.sum_congr rfl fun m _ => by ring
  rw [Finset.sum_eq_single_of_mem m2 hm2 fun m hm hne => ?_,
    Finset.sum_eq_single_of_mem (f := fun j : ℤ => (2 * (j : ℝ) + 1) * U j m2 * ∑ m ∈ mRange j2 j3 M, U J m * U j m)
      J (Finset.mem_Icc.2 ⟨hjm, le_rfl⟩) fun j hj hne => ?_] at hswap
  · have hne : U J m2 ≠ 0 := by rw [← eU]; exact w3_top_ne h2 h3
    have hs : ∑ j ∈ Finset.Icc (jMin j2 j3 M) J, (2 * (j : ℝ) + 1) * w3 j2 j3 m2 m3 j ^ 2 =
        ∑ j ∈ Finset.Icc (jMin j2 j3 M) J, (2 * (j : ℝ) + 1) * (U j m2 * U j m2) :=
      Finset.sum_congr rfl fun j _ => by rw [eU]; ring
    rw [hs]
    refine mul_left_cancel₀ hne ?_
    rw [hswap, mul_one]
    have : ∑ m ∈ mRange j2 j3 M, U J m * U J m = ∑ m ∈ mRange j2 j3 M, U J m ^ 2 := Finset.sum_congr rfl fun m _ => by ring
    rw [this]
    linear_combination U J m2 * hrow
  · have c1 : Coupled j2 j3 M J := coupled_iff.2 ⟨hjm, le_rfl⟩
    have c2 : Coupled j2 j3 M j := coupled_iff.2 (Finset.mem_Icc.1 hj)
    have := w3_orth_m c1 c2 (Ne.symm hne) ⟨m2, hm2⟩
    simp only [hU]
    rw [this, mul_zero]
  · obtain ⟨b2, b3⟩ := mem_mRange.1 hm
    have := w3_orth_j b2 b3 h2 h3 (by omega) (Ne.symm hne)
    rw [show m + (M - m) = M by ring] at this
    have e : ∑ j ∈ Finset.Icc (jMin j2 j3 M) J, (2 * (j : ℝ) + 1) * (U j m * U j m2) = 0 := by
      rw [← this]
      exact Finset.sum_congr rfl fun j _ => by rw [eU]
    rw [e, mul_zero]

/-! ### the stretched states -/

theorem invFact_pos {n : ℤ} (h : 0 ≤ n) : 0 < invFact n := by
  rw [invFact_of_nonneg h]; exact one_div_pos.2 (fact_pos n)

/-- a symbol whose sum has one term: sign, and ratio of neighbours -/
theorem stretched_aux {j2 j3 m2 m3 : ℤ} (a M : ℤ) (sg : ℝ) (hs : sg ^ 2 = 1) (T : ℤ → ℝ)
    (haM : a = j2 - j3 ∧ M = m2 + m3 ∨ a = -(j2 - j3) ∧ M = -(m2 + m3))
    (hw : ∀ j, Coupled j2 j3 (m2 + m3) j → w3 j2 j3 m2 m3 j = sg * (√(racahNorm j j2 j3 (-(m2 + m3)) m2 m3) * T j))
    (hT : ∀ j, Coupled j2 j3 (m2 + m3) j → 0 < T j)
    (hr : ∀ j, Coupled j2 j3 (m2 + m3) j → j < j2 + j3 → T (j + 1) * ((j + 1 + a) * (j + 1 - M)) = T j * (j2 + j3 - j)) :
    (∀ j, Coupled j2 j3 (m2 + m3) j → 0 < sg * w3 j2 j3 m2 m3 j) ∧
    (∀ i, Coupled j2 j3 (m2 + m3) (i - 1) → i < j2 + j3 → w3 j2 j3 m2 m3 (i - 1) = w3 j2 j3 m2 m3 i →
      w3 j2 j3 m2 m3 i = w3 j2 j3 m2 m3 (i + 1) → False) := by
  have hpos : ∀ j, Coupled j2 j3 (m2 + m3) j → 0 < sg * w3 j2 j3 m2 m3 j := by
    intro j hj
    rw [hw j hj, ← mul_assoc, ← sq, hs, one_mul]
    exact mul_pos (Real.sqrt_pos.2 (racahNorm_pos _ _ _ _ _ _)) (hT j hj)
  refine ⟨hpos, ?_⟩
  -- equal neighbours
  have key : ∀ j, Coupled j2 j3 (m2 + m3) j → j < j2 + j3 → w3 j2 j3 m2 m3 j = w3 j2 j3 m2 m3 (j + 1) →
      ((j : ℝ) + 1) ^ 2 = (j2 + j3 + 1) * (M - a) + a * M := by
    intro j hj hlt he
    have hj1 : Coupled j2 j3 (m2 + m3) (j + 1) := by
      obtain ⟨b1, b2, b3⟩ := hj
      exact ⟨by omega, by omega, by omega⟩
    have hN := racahNorm_succ hj hlt
    have hR := hr j hj hlt
    have hT0 := hT j hj
    have hT1 := hT (j + 1) hj1
    have N0 := racahNorm_pos j j2 j3 (-(m2 + m3)) m2 m3
    have N1 := racahNorm_pos (j + 1) j2 j3 (-(m2 + m3)) m2 m3
    have hsq : racahNorm j j2 j3 (-(m2 + m3)) m2 m3 * T j ^ 2 = racahNorm (j + 1) j2 j3 (-(m2 + m3)) m2 m3 * T (j + 1) ^ 2 := by
      have : w3 j2 j3 m2 m3 j ^ 2 = w3 j2 j3 m2 m3 (j + 1) ^ 2 := by rw [he]
      rw [hw j hj, hw _ hj1, mul_pow, mul_pow, mul_pow, mul_pow, Real.sq_sqrt N0.le, Real.sq_sqrt N1.le, hs] at this
      linarith
    obtain ⟨b1, b2, b3⟩ := hj
    rw [abs_le] at b1 b2
    have p1 : (0 : ℝ) < j + 1 + a := by
      have : 0 < j + 1 + a := by rcases haM with h | h <;> omega
      exact_mod_cast this
    have p1' : (0 : ℝ) < j + 1 - a := by
      have : 0 < j + 1 - a := by rcases haM with h | h <;> omega
      exact_mod_cast this
    have p2 : (0 : ℝ) < j + 1 - M := by
      have : 0 < j + 1 - M := by rcases haM with h | h <;> omega
      exact_mod_cast this
    have p2' : (0 : ℝ) < j + 1 + M := by
      have : 0 < j + 1 + M := by rcases haM with h | h <;> omega
      exact_mod_cast this
    have p3 : (0 : ℝ) < j2 + j3 - j := by
      have : 0 < j2 + j3 - j := by omega
      exact_mod_cast this
    have p4 : (0 : ℝ) < j2 + j3 + j + 2 := by
      have : 0 < j2 + j3 + j + 2 := by omega
      exact_mod_cast this
    have hN' : racahNorm (j + 1) j2 j3 (-(m2 + m3)) m2 m3 * ((j2 + j3 - j) * (j2 + j3 + j + 2)) =
        ((j + 1 + a) * (j + 1 - a)) * ((j + 1 + M) * (j + 1 - M)) * racahNorm j j2 j3 (-(m2 + m3)) m2 m3 := by
      rcases haM with ⟨rfl, rfl⟩ | ⟨rfl, rfl⟩ <;> push_cast <;> linear_combination hN
    -- eliminate `T (j+1)` and the norms
    have e : ((j : ℝ) + 1 + a) * (j + 1 - M) * (j2 + j3 + j + 2) = (j2 + j3 - j) * (j + 1 - a) * (j + 1 + M) := by
      have hz : racahNorm j j2 j3 (-(m2 + m3)) m2 m3 * T j ^ 2 * ((j + 1 + a) * (j + 1 - M) * (j2 + j3 - j)) ≠ 0 := by positivity
      refine mul_left_cancel₀ hz ?_
      linear_combination ((j + 1 + a) ^ 2 * (j + 1 - M) ^ 2 * (j2 + j3 - j) * (j2 + j3 + j + 2) : ℝ) * hsq
        + (T (j + 1) ^ 2 * (j + 1 + a) ^ 2 * (j + 1 - M) ^ 2) * hN'
        + ((j + 1 + a) * (j + 1 - a) * ((j + 1 + M) * (j + 1 - M)) * racahNorm j j2 j3 (-(m2 + m3)) m2 m3 *
          (T (j + 1) * ((j + 1 + a) * (j + 1 - M)) + T j * (j2 + j3 - j))) * hR
    have hn : (2 : ℝ) * (j + 1) ≠ 0 := by
      have : 0 ≤ j := by omega
      have : (0 : ℝ) ≤ j := by exact_mod_cast this
      positivity
    refine mul_left_cancel₀ hn ?_
    linear_combination e
  intro i hi hlt h1 h2
  have k1 := key (i - 1) hi (by omega) (by rw [sub_add_cancel]; exact h1)
  have k2 := key i (by obtain ⟨b1, b2, b3⟩ := hi; exact ⟨by omega, by omega, by omega⟩) hlt h2
  have : 0 ≤ i - 1 := (abs_nonneg _).trans hi.1
  have h0 : (0 : ℝ) ≤ ((i - 1 : ℤ) : ℝ) := by exact_mod_cast this
  push_cast at k1 h0
  nlinarith

/-- **stretched states**: all symbols have the same sign, and no three neighbours are equal -/
theorem stretched {j2 j3 m2 m3 : ℤ} (h2 : |m2| ≤ j2) (h3 : |m3| ≤ j3) (h : m2 = j2 ∨ m3 = -j3) :
    ∃ sg : ℝ, sg ^ 2 = 1 ∧ (∀ j, Coupled j2 j3 (m2 + m3) j → 0 < sg * w3 j2 j3 m2 m3 j) ∧
    (∀ i, Coupled j2 j3 (m2 + m3) (i - 1) → i < j2 + j3 → w3 j2 j3 m2 m3 (i - 1) = w3 j2 j3 m2 m3 i →
      w3 j2 j3 m2 m3 i = w3 j2 j3 m2 m3 (i + 1) → False) := by
  have a2 := abs_le.1 h2
  have a3 := abs_le.1 h3
  have sgn : ∀ n : ℤ, ((-1 : ℝ) ^ n) ^ 2 = 1 := fun n => by
    rw [← zpow_natCast, ← zpow_mul, mul_comm, zpow_mul]; norm_num
  rcases h with rfl | rfl
  · refine ⟨(-1) ^ (-m3 - j3), sgn _, stretched_aux (m2 - j3) (m2 + m3) _ (sgn _)
      (fun j => invFact (j3 + m3) * (invFact (j + m2 - j3) * invFact (m2 + j3 - j) * invFact (j - (m2 + m3)))) (Or.inl ⟨rfl, rfl⟩) ?_ ?_ ?_⟩
    · intro j hj
      rw [w3_of_coupled h2 h3 hj, racahSum_single (j + m2 - j3) (fun k _ _ _ _ _ _ => by omega)]
      unfold racahTerm
      rw [show j + m2 - j3 - (j + m2 - j3) = 0 by ring, show j - -(m2 + m3) - (j + m2 - j3) = j3 + m3 by ring,
        show m2 + m2 - (j + m2 - j3) = m2 + j3 - j by ring, show j3 - m2 + -(m2 + m3) + (j + m2 - j3) = j - (m2 + m3) by ring,
        show j3 - j - m2 + (j + m2 - j3) = 0 by ring, invFact_zero]
      have : ((-1 : ℝ)) ^ (-m3 - j3) = (-1) ^ (j - m2 - m3) * (-1) ^ (j + m2 - j3) := by
        rw [← zpow_add₀ (by norm_num), show j - m2 - m3 + (j + m2 - j3) = (-m3 - j3) + 2 * j by ring,
          zpow_add₀ (by norm_num) (-m3 - j3) (2 * j), zpow_mul]
        norm_num
      rw [this]
      ring
    · rintro j ⟨b1, b2, b3⟩
      rw [abs_le] at b1 b2
      have := invFact_pos (n := j3 + m3) (by omega)
      have := invFact_pos (n := j + m2 - j3) (by omega)
      have := invFact_pos (n := m2 + j3 - j) (by omega)
      have := invFact_pos (n := j - (m2 + m3)) (by omega)
      positivity
    · rintro j - -
      have q1 := invFact_pred (j + 1 + m2 - j3)
      have q2 := invFact_pred (m2 + j3 - j)
      have q3 := invFact_pred (j + 1 - (m2 + m3))
      rw [show j + 1 + m2 - j3 - 1 = j + m2 - j3 by ring] at q1
      rw [show j + 1 - (m2 + m3) - 1 = j - (m2 + m3) by ring] at q3
      rw [show m2 + j3 - (j + 1) = m2 + j3 - j - 1 by ring, q1, q2, q3]
      push_cast
      ring
  · refine ⟨(-1) ^ (-j2 + m2), sgn _, stretched_aux (-(j2 - j3)) (-(m2 + -j3)) _ (sgn _)
      (fun j => invFact (j2 - m2) * (invFact (j + (m2 + -j3)) * invFact (j2 + j3 - j) * invFact (j3 - j2 + j))) (Or.inr ⟨rfl, rfl⟩) ?_ ?_ ?_⟩
    · intro j hj
      rw [w3_of_coupled h2 h3 hj, racahSum_single (j + (m2 + -j3)) (fun k _ _ _ _ _ _ => by omega)]
      unfold racahTerm
      rw [show j + j2 - j3 - (j + (m2 + -j3)) = j2 - m2 by ring, show j - -(m2 + -j3) - (j + (m2 + -j3)) = 0 by ring,
        show j2 + m2 - (j + (m2 + -j3)) = j2 + j3 - j by ring, show j3 - j2 + -(m2 + -j3) + (j + (m2 + -j3)) = j3 - j2 + j by ring,
        show j3 - j - m2 + (j + (m2 + -j3)) = 0 by ring, invFact_zero]
      have : ((-1 : ℝ)) ^ (-j2 + m2) = (-1) ^ (j - j2 - -j3) * (-1) ^ (j + (m2 + -j3)) := by
        rw [← zpow_add₀ (by norm_num), show j - j2 - -j3 + (j + (m2 + -j3)) = (-j2 + m2) + 2 * j by ring,
          zpow_add₀ (by norm_num) (-j2 + m2) (2 * j), zpow_mul]
        norm_num
      rw [this]
      ring
    · rintro j ⟨b1, b2, b3⟩
      rw [abs_le] at b1 b2
      have := invFact_pos (n := j2 - m2) (by omega)
      have := invFact_pos (n := j + (m2 + -j3)) (by omega)
      have := invFact_pos (n := j2 + j3 - j) (by omega)
      have := invFact_pos (n := j3 - j2 + j) (by omega)
      positivity
    · rintro j - -
      have q1 := invFact_pred (j + 1 + (m2 + -j3))
      have q2 := invFact_pred (j2 + j3 - j)
      have q3 := invFact_pred (j3 - j2 + (j + 1))
      rw [show j + 1 + (m2 + -j3) - 1 = j + (m2 + -j3) by ring] at q1
      rw [show j3 - j2 + (j + 1) - 1 = j3 - j2 + j by ring] at q3
      rw [show j2 + j3 - (j + 1) = j2 + j3 - j - 1 by ring, q1, q2, q3]
      push_cast
      ring

/-- if all symbols have one sign, no three neighbours are equal -/
theorem one_sign_no_plateau {j2 j3 m2 m3 : ℤ} (h2 : |m2| ≤ j2) (h3 : |m3| ≤ j3) (s : ℝ)
    (hs : ∀ j, Coupled j2 j3 (m2 + m3) j → 0 < s * w3 j2 j3 m2 m3 j) (i : ℤ) (hi : Coupled j2 j3 (m2 + m3) (i - 1)) (hlt : i < j2 + j3)
    (e1 : w3 j2 j3 m2 m3 (i - 1) = w3 j2 j3 m2 m3 i) (e2 : w3 j2 j3 m2 m3 i = w3 j2 j3 m2 m3 (i + 1)) : False := by
  have a2 := abs_le.1 h2
  have a3 := abs_le.1 h3
  set m2' := min j2 (m2 + m3 + j3) with hm
  set m3' := m2 + m3 - m2' with hm'
  have b2 : |m2'| ≤ j2 := by rw [abs_le]; omega
  have b3 : |m3'| ≤ j3 := by rw [abs_le]; omega
  have hM : m2' + m3' = m2 + m3 := by omega
  obtain ⟨sg, -, hpos, hno⟩ := stretched b2 b3 (by omega)
  rw [hM] at hpos hno
  by_cases he : m2' = m2
  · have he3 : m3' = m3 := by omega
    rw [he, he3] at hno
    exact hno i hi hlt e1 e2
  · have ho := w3_orth_j h2 h3 b2 b3 hM he
    have : 0 < s * sg * ∑ j ∈ Finset.Icc (jMin j2 j3 (m2 + m3)) (j2 + j3), (2 * (j : ℝ) + 1) * (w3 j2 j3 m2 m3 j * w3 j2 j3 m2' m3' j) := by
      rw [Finset.mul_sum]
      refine Finset.sum_pos (fun j hj => ?_) ?_
      · have hc := coupled_iff.2 (Finset.mem_Icc.1 hj)
        have p1 := hs j hc
        have p2 := hpos j hc
        have h0 : 0 ≤ j := (abs_nonneg _).trans hc.1
        have h0 : (0 : ℝ) ≤ j := by exact_mod_cast h0
        have := mul_pos (mul_pos p1 p2) (show (0 : ℝ) < 2 * j + 1 by positivity)
        linarith
      · obtain ⟨c1, c2⟩ := coupled_iff.1 hi
        exact ⟨i - 1, Finset.mem_Icc.2 ⟨c1, c2⟩⟩
    rw [ho, mul_zero] at this
    exact this.false

end Jaxoplanet.Starry
