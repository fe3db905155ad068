import Verif.Spec.Wigner
import Mathlib.Algebra.BigOperators.Finprod
import Mathlib.Tactic.LinearCombination
import Mathlib.Tactic.FieldSimp

/-!
# Recursions of Racah's sum

Both three-term recursions are proved by telescoping: each comes with a certificate.
-/

namespace Jaxoplanet.Starry
open Spec

theorem fact_succ {n : ℤ} (h : 0 ≤ n) : fact (n + 1) = (n + 1) * fact n := by
  unfold fact
  obtain ⟨k, rfl⟩ := Int.eq_ofNat_of_zero_le h
  rw [show ((k : ℤ) + 1).toNat = k + 1 by omega, Nat.factorial_succ]
  push_cast
  simp

theorem fact_pos (n : ℤ) : 0 < fact n := by
  unfold fact
  exact_mod_cast Nat.factorial_pos _

theorem invFact_neg {n : ℤ} (h : n < 0) : invFact n = 0 := if_pos h

theorem invFact_of_nonneg {n : ℤ} (h : 0 ≤ n) : invFact n = 1 / fact n := if_neg (by omega)

/-- the recursion holds for all integers -/
theorem invFact_pred (n : ℤ) : invFact (n - 1) = n * invFact n := by
  rcases lt_trichotomy n 0 with h | rfl | h
  · rw [invFact_neg h, invFact_neg (by omega), mul_zero]
  · rw [invFact_neg (by omega)]; simp
  · have e : fact n = n * fact (n - 1) := by
      have := fact_succ (show 0 ≤ n - 1 by omega)
      rw [sub_add_cancel] at this
      rw [this]; push_cast; ring
    rw [invFact_of_nonneg h.le, invFact_of_nonneg (by omega), e]
    have h1 := (fact_pos (n - 1)).ne'
    have h2 : (n : ℝ) ≠ 0 := by exact_mod_cast h.ne'
    field_simp

theorem term_support {j1 j2 j3 m1 m2 k : ℤ} (h : racahTerm j1 j2 j3 m1 m2 k ≠ 0) :
    0 ≤ k ∧ k ≤ j1 + j2 - j3 ∧ k ≤ j1 - m1 ∧ k ≤ j2 + m2 ∧ 0 ≤ j3 - j2 + m1 + k ∧ 0 ≤ j3 - j1 - m2 + k := by
  unfold racahTerm at h
  refine ⟨?_, ?_, ?_, ?_, ?_, ?_⟩ <;> by_contra hc <;> apply h
  · rw [invFact_neg (n := k) (by omega)]; simp
  · rw [invFact_neg (n := j1 + j2 - j3 - k) (by omega)]; simp
  · rw [invFact_neg (n := j1 - m1 - k) (by omega)]; simp
  · rw [invFact_neg (n := j2 + m2 - k) (by omega)]; simp
  · rw [invFact_neg (n := j3 - j2 + m1 + k) (by omega)]; simp
  · rw [invFact_neg (n := j3 - j1 - m2 + k) (by omega)]; simp

theorem racahSum_finsum (j1 j2 j3 m1 m2 : ℤ) : racahSum j1 j2 j3 m1 m2 = ∑ᶠ k, racahTerm j1 j2 j3 m1 m2 k := by
  unfold racahSum
  rw [finsum_eq_sum_of_support_subset]
  intro k hk
  have := term_support hk
  simp only [Finset.coe_Icc, Set.mem_Icc]
  omega

theorem finite_support_between {f : ℤ → ℝ} (a b : ℤ) (h : ∀ k, f k ≠ 0 → a ≤ k ∧ k ≤ b) : (Function.support f).Finite :=
  (Set.finite_Icc a b).subset fun k hk => h k hk

/-- a telescoping sum of finitely many terms -/
theorem finsum_telescope (G : ℤ → ℝ) (hG : (Function.support G).Finite) : ∑ᶠ k, (G (k + 1) - G k) = 0 := by
  have h1 : (Function.support fun k => G (k + 1)).Finite := by
    have := hG.preimage (f := fun k : ℤ => k + 1) (fun a _ b _ h => by simpa using h)
    exact this
  have h2 : ∑ᶠ k, G (k + 1) = ∑ᶠ k, G k := finsum_comp_equiv (Equiv.addRight (1 : ℤ)) (f := G)
  rw [finsum_sub_distrib h1 hG, h2, sub_self]

theorem neg_one_zpow_succ (k : ℤ) : (-1 : ℝ) ^ (k + 1) = -(-1) ^ k := by
  rw [zpow_add₀ (by norm_num), zpow_one]; ring

/-- the certificate of the recursion in `j1` -/
def certJ (j j2 j3 m2 m3 k : ℝ) : ℝ :=
    1 - 2 * k + k ^ 2 + m3 - m3 * k + m2 - m2 * k - j3 * k + j3 * k ^ 2 - j3 * m3 * k - j3 * m2 * k - j3 ^ 2 + j3 ^ 2 * k - j3 ^ 2 *
    m3 - j3 ^ 2 * m2 + 2 * j2 - 3 * j2 * k + j2 * k ^ 2 + 2 * j2 * m3 - j2 * m3 * k + 2 * j2 * m2 - j2 * m2 * k + j2 ^ 2 - j2 ^ 2 * k
    + j2 ^ 2 * m3 + j2 ^ 2 * m2 + 4 * j - 3 * j * k + 3 * j * m3 - j * m3 * k + j * m2 * k - j * m2 * m3 - j * m2 ^ 2 + 3 * j * j3 - 5
    * j * j3 * k + j * j3 * k ^ 2 + j * j3 * m3 + 2 * j * j3 * m2 - j * j3 * m2 * m3 - j * j3 * m2 ^ 2 - 3 * j * j3 ^ 2 + j * j3 ^ 2 *
    k + 6 * j * j2 - 5 * j * j2 * k + j * j2 * k ^ 2 + 4 * j * j2 * m3 - 2 * j * j2 * m3 * k + 3 * j * j2 * m2 - 2 * j * j2 * m2 * k +
    j * j2 * m2 * m3 + j * j2 * m2 ^ 2 + j * j2 * j3 - j * j2 * j3 * m3 - j * j2 * j3 * m2 + 2 * j * j2 ^ 2 - j * j2 ^ 2 * k + j * j2
    ^ 2 * m3 + j * j2 ^ 2 * m2 + 3 * j ^ 2 + 2 * j ^ 2 * k - j ^ 2 * k ^ 2 + 2 * j ^ 2 * m3 - 4 * j ^ 2 * m2 + 2 * j ^ 2 * m2 * k - j
    ^ 2 * m2 * m3 - j ^ 2 * m2 ^ 2 + 7 * j ^ 2 * j3 - 4 * j ^ 2 * j3 * k + j ^ 2 * j3 * m2 - 2 * j ^ 2 * j3 ^ 2 + 5 * j ^ 2 * j2 - 2 *
    j ^ 2 * j2 * k + 3 * j ^ 2 * j2 * m3 + 2 * j ^ 2 * j2 * m2 + j ^ 2 * j2 * j3 + j ^ 2 * j2 ^ 2 - 2 * j ^ 3 + 3 * j ^ 3 * k - 3 * j
    ^ 3 * m2 + 4 * j ^ 3 * j3 + j ^ 3 * j2 - 2 * j ^ 4

theorem certJ_spec (j j2 j3 m2 m3 k : ℝ) :
    -(j * ((j + 1) ^ 2 - (j2 - j3) ^ 2) * ((j + 1) ^ 2 - (m2 + m3) ^ 2)) * ((j3 - j - m2 + k) * (j3 - j + 1 - m2 + k)) +
      ((2 * j + 1) * ((m2 + m3) * (j2 * (j2 + 1) - j3 * (j3 + 1)) - (m2 - m3) * j * (j + 1))) *
        ((j + 1 + j2 - j3 - k) * (j + 1 + (m2 + m3) - k) * (j3 - j + 1 - m2 + k)) -
      ((j + 1) * ((j2 + j3 + 1) ^ 2 - j ^ 2)) *
        ((j + j2 - j3 - k) * (j + 1 + j2 - j3 - k) * ((j + (m2 + m3) - k) * (j + 1 + (m2 + m3) - k))) =
    -(certJ j j2 j3 m2 m3 (k + 1) * ((j + 1 + j2 - j3 - k) * (j + 1 + (m2 + m3) - k) * (j2 + m2 - k))) -
      certJ j j2 j3 m2 m3 k * (k * (j3 - j2 - (m2 + m3) + k) * (j3 - j + 1 - m2 + k)) := by
  unfold certJ
  ring

/-- **the recursion of Racah's sum in `j1`**, for all integers -/
theorem racahSum_rec (j j2 j3 m2 m3 : ℤ) :
    -(j * ((j + 1) ^ 2 - (j2 - j3) ^ 2) * ((j + 1) ^ 2 - (m2 + m3) ^ 2)) * racahSum (j + 1) j2 j3 (-(m2 + m3)) m2 +
      ((2 * j + 1) * ((m2 + m3) * (j2 * (j2 + 1) - j3 * (j3 + 1)) - (m2 - m3) * j * (j + 1))) * racahSum j j2 j3 (-(m2 + m3)) m2 -
      ((j + 1) * ((j2 + j3 + 1) ^ 2 - j ^ 2)) * racahSum (j - 1) j2 j3 (-(m2 + m3)) m2 = (0 : ℝ) := by
  simp only [racahSum_finsum]
  set U : ℤ → ℝ := fun k => (-1) ^ k * (invFact k * invFact (j + 1 + j2 - j3 - k) * invFact (j + 1 + (m2 + m3) - k) *
    invFact (j2 + m2 - k) * invFact (j3 - j2 - (m2 + m3) + k) * invFact (j3 - j + 1 - m2 + k)) with hU
  set G : ℤ → ℝ := fun k => certJ j j2 j3 m2 m3 k * (k * (j3 - j2 - (m2 + m3) + k) * (j3 - j + 1 - m2 + k)) * U k with hG
  have hGs : (Function.support G).Finite := by
    refine finite_support_between 0 (j2 + m2) fun k hk => ⟨?_, ?_⟩ <;> by_contra hc <;> apply hk <;> rw [hG, hU] <;> simp only
    · rw [invFact_neg (n := k) (by omega)]; simp
    · rw [invFact_neg (n := j2 + m2 - k) (by omega)]; simp
  have hs : ∀ j : ℤ, (Function.support (racahTerm j j2 j3 (-(m2 + m3)) m2)).Finite := fun j =>
    finite_support_between 0 (j2 + m2) fun k hk => ⟨(term_support hk).1, (term_support hk).2.2.2.1⟩
  rw [mul_finsum, mul_finsum, mul_finsum, ← finsum_add_distrib, ← finsum_sub_distrib,
    ← finsum_telescope G hGs]
  · refine finsum_congr fun k => ?_
    simp only [hG, hU, racahTerm]
    have e1 : invFact (j + j2 - j3 - k) = (j + 1 + j2 - j3 - k : ℤ) * invFact (j + 1 + j2 - j3 - k) := by
      rw [← invFact_pred]; congr 1; ring
    have e2 : invFact (j - 1 + j2 - j3 - k) = (j + j2 - j3 - k : ℤ) * ((j + 1 + j2 - j3 - k : ℤ) * invFact (j + 1 + j2 - j3 - k)) := by
      rw [← e1, ← invFact_pred]; congr 1; ring
    have e3 : invFact (j + 1 - -(m2 + m3) - k) = invFact (j + 1 + (m2 + m3) - k) := by congr 1; ring
    have e4 : invFact (j - -(m2 + m3) - k) = (j + 1 + (m2 + m3) - k : ℤ) * invFact (j + 1 + (m2 + m3) - k) := by
      rw [← invFact_pred]; congr 1; ring
    have e5 : invFact (j - 1 - -(m2 + m3) - k) = (j + (m2 + m3) - k : ℤ) * ((j + 1 + (m2 + m3) - k : ℤ) * invFact (j + 1 + (m2 + m3) - k)) := by
      rw [← e4, show j + (m2 + m3) - k = j - -(m2 + m3) - k by ring, ← invFact_pred]; congr 1; ring
    have e6 : invFact (j3 - (j - 1) - m2 + k) = invFact (j3 - j + 1 - m2 + k) := by congr 1; ring
    have e7 : invFact (j3 - j - m2 + k) = (j3 - j + 1 - m2 + k : ℤ) * invFact (j3 - j + 1 - m2 + k) := by
      rw [← invFact_pred]; congr 1; ring
    have e8 : invFact (j3 - (j + 1) - m2 + k) = (j3 - j - m2 + k : ℤ) * ((j3 - j + 1 - m2 + k : ℤ) * invFact (j3 - j + 1 - m2 + k)) := by
      rw [← e7, ← invFact_pred]; congr 1; ring
    have e9 : invFact (j3 - j2 + -(m2 + m3) + k) = invFact (j3 - j2 - (m2 + m3) + k) := by congr 1
    have s1 : ((k + 1 : ℤ) : ℝ) * invFact (k + 1) = invFact k := by rw [← invFact_pred, add_sub_cancel_right]
    have s2 : invFact (j + 1 + j2 - j3 - (k + 1)) = (j + 1 + j2 - j3 - k : ℤ) * invFact (j + 1 + j2 - j3 - k) := by
      rw [← invFact_pred]; congr 1; ring
    have s3 : invFact (j + 1 + (m2 + m3) - (k + 1)) = (j + 1 + (m2 + m3) - k : ℤ) * invFact (j + 1 + (m2 + m3) - k) := by
      rw [← invFact_pred]; congr 1; ring
    have s4 : invFact (j2 + m2 - (k + 1)) = (j2 + m2 - k : ℤ) * invFact (j2 + m2 - k) := by
      rw [← invFact_pred]; congr 1; ring
    have s5 : ((j3 - j2 - (m2 + m3) + (k + 1) : ℤ) : ℝ) * invFact (j3 - j2 - (m2 + m3) + (k + 1)) = invFact (j3 - j2 - (m2 + m3) + k) := by
      rw [← invFact_pred]; congr 1; ring
    have s6 : ((j3 - j + 1 - m2 + (k + 1) : ℤ) : ℝ) * invFact (j3 - j + 1 - m2 + (k + 1)) = invFact (j3 - j + 1 - m2 + k) := by
      rw [← invFact_pred]; congr 1; ring
    have hG1 : certJ j j2 j3 m2 m3 (k + 1 : ℤ) * ((k + 1 : ℤ) * (j3 - j2 - (m2 + m3) + (k + 1 : ℤ)) * (j3 - j + 1 - m2 + (k + 1 : ℤ))) *
        ((-1) ^ (k + 1) * (invFact (k + 1) * invFact (j + 1 + j2 - j3 - (k + 1)) * invFact (j + 1 + (m2 + m3) - (k + 1)) *
          invFact (j2 + m2 - (k + 1)) * invFact (j3 - j2 - (m2 + m3) + (k + 1)) * invFact (j3 - j + 1 - m2 + (k + 1)))) =
        -(certJ j j2 j3 m2 m3 (k + 1) * ((j + 1 + j2 - j3 - k) * (j + 1 + (m2 + m3) - k) * (j2 + m2 - k))) *
        ((-1) ^ k * (invFact k * invFact (j + 1 + j2 - j3 - k) * invFact (j + 1 + (m2 + m3) - k) *
          invFact (j2 + m2 - k) * invFact (j3 - j2 - (m2 + m3) + k) * invFact (j3 - j + 1 - m2 + k))) := by
      rw [s2, s3, s4, neg_one_zpow_succ, ← s1, ← s5, ← s6]
      push_cast
      ring
    rw [hG1, e1, e2, e3, e4, e5, e6, e7, e8, e9]
    have := certJ_spec j j2 j3 m2 m3 k
    push_cast
    linear_combination ((-1) ^ k * (invFact k * invFact (j + 1 + j2 - j3 - k) * invFact (j + 1 + (m2 + m3) - k) *
          invFact (j2 + m2 - k) * invFact (j3 - j2 - (m2 + m3) + k) * invFact (j3 - j + 1 - m2 + k))) * this
  · exact ((hs (j + 1)).union (hs j)).subset fun k hk => by
      simp only [Function.mem_support, Set.mem_union] at hk ⊢
      by_contra hc
      simp only [not_or, not_not] at hc
      exact hk (by rw [hc.1, hc.2]; simp)
  · exact (hs (j - 1)).subset fun k hk hc => hk (by simp only [hc, mul_zero])
  · exact (hs (j + 1)).subset fun k hk hc => hk (by simp only [hc, mul_zero])
  · exact (hs j).subset fun k hk hc => hk (by simp only [hc, mul_zero])

/-- **the recursion of Racah's sum in `m2`**, for all integers -/
theorem racahSum_rec_m (j j2 j3 m2 m3 : ℤ) :
    (j2 + m2 + 1) * (j3 - m3 + 1) * racahSum j j2 j3 (-(m2 + m3)) (m2 + 1) +
      (j2 - m2 + 1) * (j3 + m3 + 1) * racahSum j j2 j3 (-(m2 + m3)) (m2 - 1) +
      (j * (j + 1) - j2 * (j2 + 1) - j3 * (j3 + 1) - 2 * m2 * m3) * racahSum j j2 j3 (-(m2 + m3)) m2 = (0 : ℝ) := by
  simp only [racahSum_finsum]
  set U : ℤ → ℝ := fun k => (-1) ^ k * (invFact k * invFact (j + j2 - j3 - k) * invFact (j - -(m2 + m3) - k) *
    invFact (j2 + (m2 + 1) - k) * invFact (j3 - j2 + -(m2 + m3) + k) * invFact (j3 - j - (m2 - 1) + k)) with hU
  set G : ℤ → ℝ := fun k => ((j - j2 - j3 - 1) * (k * (j3 - j2 - (m2 + m3) + k) * (j3 - j - m2 + 1 + k))) * U k with hG
  have hGs : (Function.support G).Finite := by
    refine finite_support_between 0 (j2 + (m2 + 1)) fun k hk => ⟨?_, ?_⟩ <;> by_contra hc <;> apply hk <;> rw [hG, hU] <;> simp only
    · rw [invFact_neg (n := k) (by omega)]; simp
    · rw [invFact_neg (n := j2 + (m2 + 1) - k) (by omega)]; simp
  have hs : ∀ m : ℤ, (Function.support (racahTerm j j2 j3 (-(m2 + m3)) m)).Finite := fun m =>
    finite_support_between 0 (j2 + m) fun k hk => ⟨(term_support hk).1, (term_support hk).2.2.2.1⟩
  rw [mul_finsum, mul_finsum, mul_finsum, ← finsum_add_distrib, ← finsum_add_distrib, ← finsum_telescope G hGs]
  · refine finsum_congr fun k => ?_
    simp only [hG, hU, racahTerm]
    have e1 : invFact (j2 + m2 - k) = (j2 + (m2 + 1) - k : ℤ) * invFact (j2 + (m2 + 1) - k) := by
      rw [← invFact_pred]; congr 1; ring
    have e2 : invFact (j2 + (m2 - 1) - k) = (j2 + m2 - k : ℤ) * ((j2 + (m2 + 1) - k : ℤ) * invFact (j2 + (m2 + 1) - k)) := by
      rw [← e1, ← invFact_pred]; congr 1; ring
    have e3 : invFact (j3 - j - m2 + k) = (j3 - j - (m2 - 1) + k : ℤ) * invFact (j3 - j - (m2 - 1) + k) := by
      rw [← invFact_pred]; congr 1; ring
    have e4 : invFact (j3 - j - (m2 + 1) + k) = (j3 - j - m2 + k : ℤ) * ((j3 - j - (m2 - 1) + k : ℤ) * invFact (j3 - j - (m2 - 1) + k)) := by
      rw [← e3, ← invFact_pred]; congr 1; ring
    have s1 : ((k + 1 : ℤ) : ℝ) * invFact (k + 1) = invFact k := by rw [← invFact_pred, add_sub_cancel_right]
    have s2 : invFact (j + j2 - j3 - (k + 1)) = (j + j2 - j3 - k : ℤ) * invFact (j + j2 - j3 - k) := by
      rw [← invFact_pred]; congr 1; ring
    have s3 : invFact (j - -(m2 + m3) - (k + 1)) = (j - -(m2 + m3) - k : ℤ) * invFact (j - -(m2 + m3) - k) := by
      rw [← invFact_pred]; congr 1; ring
    have s4 : invFact (j2 + (m2 + 1) - (k + 1)) = (j2 + (m2 + 1) - k : ℤ) * invFact (j2 + (m2 + 1) - k) := by
      rw [← invFact_pred]; congr 1; ring
    have s5 : ((j3 - j2 + -(m2 + m3) + (k + 1) : ℤ) : ℝ) * invFact (j3 - j2 + -(m2 + m3) + (k + 1)) = invFact (j3 - j2 + -(m2 + m3) + k) := by
      rw [← invFact_pred]; congr 1; ring
    have s6 : ((j3 - j - (m2 - 1) + (k + 1) : ℤ) : ℝ) * invFact (j3 - j - (m2 - 1) + (k + 1)) = invFact (j3 - j - (m2 - 1) + k) := by
      rw [← invFact_pred]; congr 1; ring
    have hG1 : ((j - j2 - j3 - 1) * ((k + 1 : ℤ) * (j3 - j2 - (m2 + m3) + (k + 1 : ℤ)) * (j3 - j - m2 + 1 + (k + 1 : ℤ)))) *
        ((-1) ^ (k + 1) * (invFact (k + 1) * invFact (j + j2 - j3 - (k + 1)) * invFact (j - -(m2 + m3) - (k + 1)) *
          invFact (j2 + (m2 + 1) - (k + 1)) * invFact (j3 - j2 + -(m2 + m3) + (k + 1)) * invFact (j3 - j - (m2 - 1) + (k + 1)))) =
        -((j - j2 - j3 - 1) * ((j + j2 - j3 - k) * (j + (m2 + m3) - k) * (j2 + m2 + 1 - k))) *
        ((-1) ^ k * (invFact k * invFact (j + j2 - j3 - k) * invFact (j - -(m2 + m3) - k) *
          invFact (j2 + (m2 + 1) - k) * invFact (j3 - j2 + -(m2 + m3) + k) * invFact (j3 - j - (m2 - 1) + k))) := by
      rw [s2, s3, s4, neg_one_zpow_succ, ← s1, ← s5, ← s6]
      push_cast
      ring
    rw [hG1, e1, e2, e3, e4]
    push_cast
    ring
  · exact ((hs (m2 + 1)).union (hs (m2 - 1))).subset fun k hk => by
      simp only [Function.mem_support, Set.mem_union] at hk ⊢
      by_contra hc
      simp only [not_or, not_not] at hc
      exact hk (by rw [hc.1, hc.2]; simp)
  · exact (hs m2).subset fun k hk hc => hk (by simp only [hc, mul_zero])
  · exact (hs (m2 + 1)).subset fun k hk hc => hk (by simp only [hc, mul_zero])
  · exact (hs (m2 - 1)).subset fun k hk hc => hk (by simp only [hc, mul_zero])

/-- Racah's sum is invariant under cyclic permutations, up to the sign -/
theorem racahSum_cyclic {j1 j2 j3 m1 m2 m3 : ℤ} (hm : m1 + m2 + m3 = 0) :
    racahSum j2 j3 j1 m2 m3 = (-1) ^ (j3 - j1 - m2) * racahSum j1 j2 j3 m1 m2 := by
  simp only [racahSum_finsum]
  rw [← finsum_comp_equiv (Equiv.addRight (j3 - j1 - m2)) (f := racahTerm j2 j3 j1 m2 m3), mul_finsum]
  refine finsum_congr fun k => ?_
  simp only [Equiv.coe_addRight, racahTerm]
  rw [zpow_add₀ (by norm_num)]
  rw [show k + (j3 - j1 - m2) = j3 - j1 - m2 + k by ring, show j2 + j3 - j1 - (j3 - j1 - m2 + k) = j2 + m2 - k by ring,
    show j2 - m2 - (j3 - j1 - m2 + k) = j1 + j2 - j3 - k by ring, show j3 + m3 - (j3 - j1 - m2 + k) = j1 - m1 - k by linarith,
    show j1 - j3 + m2 + (j3 - j1 - m2 + k) = k by ring, show j1 - j2 - m3 + (j3 - j1 - m2 + k) = j3 - j2 + m1 + k by linarith]
  ring

end Jaxoplanet.Starry
