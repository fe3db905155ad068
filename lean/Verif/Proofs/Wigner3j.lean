import Verif.Proofs.Racah

/-!
# Recursions of the Wigner 3j symbol
-/

namespace Jaxoplanet.Starry
open Spec

theorem racahSum_zero {j1 j2 j3 m1 m2 : ℤ} (h : ∀ k : ℤ, 0 ≤ k → k ≤ j1 + j2 - j3 → k ≤ j1 - m1 → k ≤ j2 + m2 →
    0 ≤ j3 - j2 + m1 + k → 0 ≤ j3 - j1 - m2 + k → False) : racahSum j1 j2 j3 m1 m2 = 0 := by
  unfold racahSum
  refine Finset.sum_eq_zero fun k _ => ?_
  by_contra hc
  obtain ⟨h1, h2, h3, h4, h5, h6⟩ := term_support hc
  exact h k h1 h2 h3 h4 h5 h6

/-- one term -/
theorem racahSum_single {j1 j2 j3 m1 m2 : ℤ} (k0 : ℤ) (h : ∀ k : ℤ, 0 ≤ k → k ≤ j1 + j2 - j3 → k ≤ j1 - m1 → k ≤ j2 + m2 →
    0 ≤ j3 - j2 + m1 + k → 0 ≤ j3 - j1 - m2 + k → k = k0) : racahSum j1 j2 j3 m1 m2 = racahTerm j1 j2 j3 m1 m2 k0 := by
  rw [racahSum_finsum]
  refine finsum_eq_single _ k0 fun k hk => ?_
  by_contra hc
  obtain ⟨h1, h2, h3, h4, h5, h6⟩ := term_support hc
  exact hk (h k h1 h2 h3 h4 h5 h6)

/-- the symbol for `j1 = j` with the projections `m2`, `m3` -/
noncomputable def w3 (j2 j3 m2 m3 j : ℤ) : ℝ := wigner3j j j2 j3 (-(m2 + m3)) m2 m3

/-- the polynomial under the root of `A` -/
def aPoly (j2 j3 M j : ℝ) : ℝ := (j ^ 2 - (j2 - j3) ^ 2) * ((j2 + j3 + 1) ^ 2 - j ^ 2) * (j ^ 2 - M ^ 2)

/-- `A` -/
noncomputable def aCoef (j2 j3 M j : ℤ) : ℝ := √(aPoly j2 j3 M j)

/-- `j` is a value that couples -/
def Coupled (j2 j3 M j : ℤ) : Prop := |j2 - j3| ≤ j ∧ |M| ≤ j ∧ j ≤ j2 + j3

theorem selected_iff {j2 j3 m2 m3 j : ℤ} (h2 : |m2| ≤ j2) (h3 : |m3| ≤ j3) :
    Selected j j2 j3 (-(m2 + m3)) m2 m3 ↔ Coupled j2 j3 (m2 + m3) j := by
  unfold Selected Coupled
  rw [abs_neg]
  constructor
  · rintro ⟨-, h1, -, -, h4, h5⟩; exact ⟨h4, h1, h5⟩
  · rintro ⟨h4, h1, h5⟩; exact ⟨by ring, h1, h2, h3, h4, h5⟩

theorem w3_of_coupled {j2 j3 m2 m3 j : ℤ} (h2 : |m2| ≤ j2) (h3 : |m3| ≤ j3) (h : Coupled j2 j3 (m2 + m3) j) :
    w3 j2 j3 m2 m3 j = (-1) ^ (j - j2 - m3) * √(racahNorm j j2 j3 (-(m2 + m3)) m2 m3) * racahSum j j2 j3 (-(m2 + m3)) m2 := by
  unfold w3 wigner3j
  rw [if_pos ((selected_iff h2 h3).2 h)]

theorem w3_of_not {j2 j3 m2 m3 j : ℤ} (h : ¬ (|m2| ≤ j2 ∧ |m3| ≤ j3 ∧ Coupled j2 j3 (m2 + m3) j)) : w3 j2 j3 m2 m3 j = 0 := by
  unfold w3 wigner3j
  rw [if_neg]
  rintro ⟨-, h1, h2, h3, h4, h5⟩
  rw [abs_neg] at h1
  exact h ⟨h2, h3, h4, h1, h5⟩

theorem racahNorm_pos (j1 j2 j3 m1 m2 m3 : ℤ) : 0 < racahNorm j1 j2 j3 m1 m2 m3 := by
  unfold racahNorm
  have := fact_pos
  have h : ∀ n, 0 < fact n := fact_pos
  have a := h (j1 + j2 - j3); have b := h (j1 - j2 + j3); have c := h (-j1 + j2 + j3); have d := h (j1 + j2 + j3 + 1)
  have e := h (j1 + m1); have f := h (j1 - m1); have g := h (j2 + m2); have i := h (j2 - m2); have k := h (j3 + m3); have l := h (j3 - m3)
  positivity

/-- the radicands of neighbouring `j` -/
theorem racahNorm_succ {j2 j3 m2 m3 j : ℤ} (h0 : Coupled j2 j3 (m2 + m3) j) (h1 : j < j2 + j3) :
    racahNorm (j + 1) j2 j3 (-(m2 + m3)) m2 m3 * ((j2 + j3 + 1) ^ 2 - (j + 1) ^ 2) =
      ((j + 1) ^ 2 - (j2 - j3) ^ 2) * ((j + 1) ^ 2 - (m2 + m3) ^ 2) * racahNorm j j2 j3 (-(m2 + m3)) m2 m3 := by
  obtain ⟨ha, hb, hc⟩ := h0
  rw [abs_le] at ha hb
  unfold racahNorm
  have e1 : fact (j + 1 + j2 - j3) = (j + j2 - j3 + 1 : ℤ) * fact (j + j2 - j3) := by
    rw [show j + 1 + j2 - j3 = j + j2 - j3 + 1 by ring, fact_succ (by omega)]; push_cast; ring
  have e2 : fact (j + 1 - j2 + j3) = (j - j2 + j3 + 1 : ℤ) * fact (j - j2 + j3) := by
    rw [show j + 1 - j2 + j3 = j - j2 + j3 + 1 by ring, fact_succ (by omega)]; push_cast; ring
  have e3 : fact (-j + j2 + j3) = (-j + j2 + j3 : ℤ) * fact (-(j + 1) + j2 + j3) := by
    rw [show -j + j2 + j3 = (-(j + 1) + j2 + j3) + 1 by ring, fact_succ (by omega)]; push_cast; ring
  have e4 : fact (j + 1 + j2 + j3 + 1) = (j + j2 + j3 + 2 : ℤ) * fact (j + j2 + j3 + 1) := by
    rw [show j + 1 + j2 + j3 + 1 = (j + j2 + j3 + 1) + 1 by ring, fact_succ (by omega)]; push_cast; ring
  have e5 : fact (j + 1 + -(m2 + m3)) = (j + -(m2 + m3) + 1 : ℤ) * fact (j + -(m2 + m3)) := by
    rw [show j + 1 + -(m2 + m3) = j + -(m2 + m3) + 1 by ring, fact_succ (by omega)]; push_cast; ring
  have e6 : fact (j + 1 - -(m2 + m3)) = (j - -(m2 + m3) + 1 : ℤ) * fact (j - -(m2 + m3)) := by
    rw [show j + 1 - -(m2 + m3) = j - -(m2 + m3) + 1 by ring, fact_succ (by omega)]; push_cast; ring
  have h4 := (fact_pos (j + j2 + j3 + 1)).ne'
  have h5 : ((j + j2 + j3 + 2 : ℤ) : ℝ) ≠ 0 := by
    have : j + j2 + j3 + 2 ≠ 0 := by omega
    exact_mod_cast this
  rw [e1, e2, e3, e4, e5, e6]
  field_simp
  push_cast
  ring

theorem aPoly_pos {j2 j3 M j : ℤ} (h1 : |j2 - j3| < j) (h2 : |M| < j) (h3 : j ≤ j2 + j3) : 0 < aPoly j2 j3 M j := by
  unfold aPoly
  have hj : 0 < j := lt_of_le_of_lt (abs_nonneg _) h1
  have a1 : (0 : ℝ) < (j : ℝ) ^ 2 - ((j2 : ℝ) - j3) ^ 2 := by
    have : (j2 - j3) ^ 2 < j ^ 2 := sq_lt_sq' (by rw [abs_lt] at h1; omega) (by rw [abs_lt] at h1; omega)
    have : (((j2 - j3) ^ 2 : ℤ) : ℝ) < ((j ^ 2 : ℤ) : ℝ) := by exact_mod_cast this
    push_cast at this; linarith
  have a2 : (0 : ℝ) < ((j2 : ℝ) + j3 + 1) ^ 2 - (j : ℝ) ^ 2 := by
    have : j ^ 2 < (j2 + j3 + 1) ^ 2 := sq_lt_sq' (by omega) (by omega)
    have : ((j ^ 2 : ℤ) : ℝ) < (((j2 + j3 + 1) ^ 2 : ℤ) : ℝ) := by exact_mod_cast this
    push_cast at this; linarith
  have a3 : (0 : ℝ) < (j : ℝ) ^ 2 - (M : ℝ) ^ 2 := by
    have : M ^ 2 < j ^ 2 := sq_lt_sq' (by rw [abs_lt] at h2; omega) (by rw [abs_lt] at h2; omega)
    have : ((M ^ 2 : ℤ) : ℝ) < ((j ^ 2 : ℤ) : ℝ) := by exact_mod_cast this
    push_cast at this; linarith
  positivity

theorem aCoef_pos {j2 j3 M j : ℤ} (h1 : |j2 - j3| < j) (h2 : |M| < j) (h3 : j ≤ j2 + j3) : 0 < aCoef j2 j3 M j :=
  Real.sqrt_pos.2 (aPoly_pos h1 h2 h3)

/-- `A` vanishes at the lower end … -/
theorem aCoef_min {j2 j3 M : ℤ} {j : ℤ} (h : j = |j2 - j3| ∨ j = |M|) : aCoef j2 j3 M j = 0 := by
  unfold aCoef aPoly
  rcases h with rfl | rfl
  · rw [Int.cast_abs, sq_abs]; push_cast; simp
  · rw [Int.cast_abs, sq_abs]; simp

/-- … and above the upper end -/
theorem aCoef_max (j2 j3 M : ℤ) : aCoef j2 j3 M (j2 + j3 + 1) = 0 := by
  unfold aCoef aPoly
  push_cast; simp

theorem aCoef_norm {j2 j3 m2 m3 j : ℤ} (h0 : Coupled j2 j3 (m2 + m3) j) (h1 : j < j2 + j3) :
    aCoef j2 j3 (m2 + m3) (j + 1) * √(racahNorm (j + 1) j2 j3 (-(m2 + m3)) m2 m3) =
      ((j + 1) ^ 2 - (j2 - j3) ^ 2) * ((j + 1) ^ 2 - (m2 + m3) ^ 2) * √(racahNorm j j2 j3 (-(m2 + m3)) m2 m3) ∧
    aCoef j2 j3 (m2 + m3) (j + 1) * √(racahNorm j j2 j3 (-(m2 + m3)) m2 m3) =
      ((j2 + j3 + 1) ^ 2 - (j + 1) ^ 2) * √(racahNorm (j + 1) j2 j3 (-(m2 + m3)) m2 m3) := by
  have hs := racahNorm_succ h0 h1
  obtain ⟨ha, hb, hc⟩ := h0
  have hp := aPoly_pos (j2 := j2) (j3 := j3) (M := m2 + m3) (j := j + 1) (by omega) (by omega) (by omega)
  have hn := racahNorm_pos j j2 j3 (-(m2 + m3)) m2 m3
  have hn1 := racahNorm_pos (j + 1) j2 j3 (-(m2 + m3)) m2 m3
  have hd : (0 : ℝ) < ((j2 : ℝ) + j3 + 1) ^ 2 - ((j : ℝ) + 1) ^ 2 := by
    have h := sq_lt_sq' (show -(j2 + j3 + 1) < j + 1 by have := abs_nonneg (j2 - j3); omega) (show j + 1 < j2 + j3 + 1 by omega)
    have : (((j + 1) ^ 2 : ℤ) : ℝ) < (((j2 + j3 + 1) ^ 2 : ℤ) : ℝ) := by exact_mod_cast h
    push_cast at this; linarith
  have hc' : (0 : ℝ) < ((j + 1) ^ 2 - (j2 - j3) ^ 2) * ((j + 1) ^ 2 - (m2 + m3) ^ 2) := by
    have := mul_pos hn1 hd
    rw [hs] at this
    exact (pos_iff_pos_of_mul_pos this).2 hn
  unfold aCoef
  constructor
  · rw [← Real.sqrt_mul hp.le, ← Real.sqrt_sq hc'.le, ← Real.sqrt_mul (sq_nonneg _)]
    congr 1
    unfold aPoly
    push_cast
    linear_combination ((j + 1) ^ 2 - (j2 - j3) ^ 2) * ((j + 1) ^ 2 - (m2 + m3) ^ 2) * hs
  · rw [← Real.sqrt_mul hp.le, ← Real.sqrt_sq hd.le, ← Real.sqrt_mul (sq_nonneg _)]
    congr 1
    unfold aPoly
    push_cast
    linear_combination -((j2 + j3 + 1) ^ 2 - (j + 1) ^ 2) * hs

/-- **the recursion of the 3j symbol in `j1`** -/
theorem w3_rec {j2 j3 m2 m3 j : ℤ} (h2 : |m2| ≤ j2) (h3 : |m3| ≤ j3) (h : Coupled j2 j3 (m2 + m3) j) :
    j * aCoef j2 j3 (m2 + m3) (j + 1) * w3 j2 j3 m2 m3 (j + 1) +
      ((2 * j + 1) * ((m2 + m3) * (j2 * (j2 + 1) - j3 * (j3 + 1)) - (m2 - m3) * j * (j + 1))) * w3 j2 j3 m2 m3 j +
      (j + 1) * aCoef j2 j3 (m2 + m3) j * w3 j2 j3 m2 m3 (j - 1) = 0 := by
  set s : ℝ := (-1) ^ (j - j2 - m3) with hs
  have hup : aCoef j2 j3 (m2 + m3) (j + 1) * w3 j2 j3 m2 m3 (j + 1) =
      -(s * √(racahNorm j j2 j3 (-(m2 + m3)) m2 m3) * (((j + 1) ^ 2 - (j2 - j3) ^ 2) * ((j + 1) ^ 2 - (m2 + m3) ^ 2)) *
        racahSum (j + 1) j2 j3 (-(m2 + m3)) m2) := by
    rcases lt_or_eq_of_le h.2.2 with hlt | heq
    · rw [w3_of_coupled h2 h3 ⟨by have := h.1; omega, by have := h.2.1; omega, by omega⟩,
        show j + 1 - j2 - m3 = j - j2 - m3 + 1 by ring, neg_one_zpow_succ, ← hs]
      linear_combination -(s * racahSum (j + 1) j2 j3 (-(m2 + m3)) m2) * (aCoef_norm h hlt).1
    · rw [racahSum_zero (j1 := j + 1) (fun k _ _ _ h4 _ h6 => by omega), w3_of_not fun hn => by have := hn.2.2.2.2; omega]
      simp
  have hdn : aCoef j2 j3 (m2 + m3) j * w3 j2 j3 m2 m3 (j - 1) =
      -(s * √(racahNorm j j2 j3 (-(m2 + m3)) m2 m3) * ((j2 + j3 + 1) ^ 2 - j ^ 2) * racahSum (j - 1) j2 j3 (-(m2 + m3)) m2) := by
    by_cases hlt : |j2 - j3| < j ∧ |m2 + m3| < j
    · have hc : Coupled j2 j3 (m2 + m3) (j - 1) := ⟨by omega, by omega, by have := h.2.2; omega⟩
      have hn := (aCoef_norm hc (by have := h.2.2; omega)).2
      have hsg : s = -(-1) ^ (j - 1 - j2 - m3) := by
        rw [hs, ← neg_one_zpow_succ]; congr 1; ring
      rw [sub_add_cancel] at hn
      rw [w3_of_coupled h2 h3 hc, hsg]
      push_cast at hn
      linear_combination ((-1) ^ (j - 1 - j2 - m3) * racahSum (j - 1) j2 j3 (-(m2 + m3)) m2) * hn
    · have hor : j = |j2 - j3| ∨ j = |m2 + m3| := by
        have a := h.1; have b := h.2.1
        by_contra hc
        exact hlt ⟨by omega, by omega⟩
      rw [aCoef_min hor, racahSum_zero (j1 := j - 1)]
      · simp
      · intro k a1 a2 a3 a4 a5 a6
        rcases hor with hj | hj
        · rcases abs_cases (j2 - j3) with ⟨e, -⟩ | ⟨e, -⟩ <;> omega
        · rcases abs_cases (m2 + m3) with ⟨e, -⟩ | ⟨e, -⟩ <;> omega
  have hr := racahSum_rec j j2 j3 m2 m3
  rw [w3_of_coupled h2 h3 h, ← hs]
  linear_combination j * hup + (j + 1) * hdn + s * √(racahNorm j j2 j3 (-(m2 + m3)) m2 m3) * hr

/-! ### the recursion in `m2` -/

/-- the coefficient of the recursion in `m2` -/
noncomputable def bCoef (j2 j3 m2 m3 : ℤ) : ℝ := √((j2 - m2) * (j2 + m2 + 1) * (j3 + m3) * (j3 - m3 + 1))

theorem racahNorm_succ_m {j j2 j3 m1 m2 m3 : ℤ} (h2 : |m2| ≤ j2) (h3 : |m3| ≤ j3) (h2' : m2 < j2) (h3' : -j3 < m3) :
    racahNorm j j2 j3 m1 (m2 + 1) (m3 - 1) * ((j2 - m2) * (j3 + m3)) =
      (j2 + m2 + 1) * (j3 - m3 + 1) * racahNorm j j2 j3 m1 m2 m3 := by
  rw [abs_le] at h2 h3
  unfold racahNorm
  have e1 : fact (j2 + (m2 + 1)) = (j2 + m2 + 1 : ℤ) * fact (j2 + m2) := by
    rw [show j2 + (m2 + 1) = j2 + m2 + 1 by ring, fact_succ (by omega)]; push_cast; ring
  have e2 : fact (j2 - m2) = (j2 - m2 : ℤ) * fact (j2 - (m2 + 1)) := by
    rw [show j2 - m2 = j2 - (m2 + 1) + 1 by ring, fact_succ (by omega)]; push_cast; ring
  have e3 : fact (j3 - (m3 - 1)) = (j3 - m3 + 1 : ℤ) * fact (j3 - m3) := by
    rw [show j3 - (m3 - 1) = j3 - m3 + 1 by ring, fact_succ (by omega)]; push_cast; ring
  have e4 : fact (j3 + m3) = (j3 + m3 : ℤ) * fact (j3 + (m3 - 1)) := by
    rw [show j3 + m3 = j3 + (m3 - 1) + 1 by ring, fact_succ (by omega)]; push_cast; ring
  rw [e1, e2, e3, e4]
  push_cast
  ring

theorem bCoef_norm {j j2 j3 m1 m2 m3 : ℤ} (h2 : |m2| ≤ j2) (h3 : |m3| ≤ j3) (h2' : m2 < j2) (h3' : -j3 < m3) :
    bCoef j2 j3 m2 m3 * √(racahNorm j j2 j3 m1 (m2 + 1) (m3 - 1)) = (j2 + m2 + 1) * (j3 - m3 + 1) * √(racahNorm j j2 j3 m1 m2 m3) ∧
    bCoef j2 j3 m2 m3 * √(racahNorm j j2 j3 m1 m2 m3) = (j2 - m2) * (j3 + m3) * √(racahNorm j j2 j3 m1 (m2 + 1) (m3 - 1)) := by
  have hs := racahNorm_succ_m (j := j) (m1 := m1) h2 h3 h2' h3'
  rw [abs_le] at h2 h3
  have p1 : (0 : ℝ) ≤ (j2 : ℝ) - m2 := by have : (0 : ℤ) ≤ j2 - m2 := by omega
                                          exact_mod_cast this
  have p2 : (0 : ℝ) ≤ (j2 : ℝ) + m2 + 1 := by have : (0 : ℤ) ≤ j2 + m2 + 1 := by omega
                                              exact_mod_cast this
  have p3 : (0 : ℝ) ≤ (j3 : ℝ) + m3 := by have : (0 : ℤ) ≤ j3 + m3 := by omega
                                          exact_mod_cast this
  have p4 : (0 : ℝ) ≤ (j3 : ℝ) - m3 + 1 := by have : (0 : ℤ) ≤ j3 - m3 + 1 := by omega
                                              exact_mod_cast this
  unfold bCoef
  constructor
  · rw [← Real.sqrt_mul (by positivity), ← Real.sqrt_sq (show (0 : ℝ) ≤ (j2 + m2 + 1) * (j3 - m3 + 1) by positivity), ← Real.sqrt_mul (sq_nonneg _)]
    congr 1
    linear_combination ((j2 + m2 + 1) * (j3 - m3 + 1) : ℝ) * hs
  · rw [← Real.sqrt_mul (by positivity), ← Real.sqrt_sq (show (0 : ℝ) ≤ ((j2 : ℝ) - m2) * (j3 + m3) by positivity), ← Real.sqrt_mul (sq_nonneg _)]
    congr 1
    linear_combination -(((j2 : ℝ) - m2) * (j3 + m3)) * hs

/-- **the recursion of the 3j symbol in `m2`** -/
theorem w3_rec_m {j2 j3 m2 m3 j : ℤ} (h2 : |m2| ≤ j2) (h3 : |m3| ≤ j3) (h : Coupled j2 j3 (m2 + m3) j) :
    bCoef j2 j3 m2 m3 * w3 j2 j3 (m2 + 1) (m3 - 1) j + bCoef j2 j3 (m2 - 1) (m3 + 1) * w3 j2 j3 (m2 - 1) (m3 + 1) j =
      (j * (j + 1) - j2 * (j2 + 1) - j3 * (j3 + 1) - 2 * m2 * m3) * w3 j2 j3 m2 m3 j := by
  set s : ℝ := (-1) ^ (j - j2 - m3) with hs
  have a2 := abs_le.1 h2
  have a3 := abs_le.1 h3
  have hup : bCoef j2 j3 m2 m3 * w3 j2 j3 (m2 + 1) (m3 - 1) j =
      -(s * √(racahNorm j j2 j3 (-(m2 + m3)) m2 m3) * ((j2 + m2 + 1) * (j3 - m3 + 1)) * racahSum j j2 j3 (-(m2 + m3)) (m2 + 1)) := by
    by_cases hlt : m2 < j2 ∧ -j3 < m3
    · rw [w3_of_coupled (m2 := m2 + 1) (m3 := m3 - 1) (by rw [abs_le]; omega) (by rw [abs_le]; omega)
        (by rw [show m2 + 1 + (m3 - 1) = m2 + m3 by ring]; exact h), show m2 + 1 + (m3 - 1) = m2 + m3 by ring,
        show j - j2 - (m3 - 1) = j - j2 - m3 + 1 by ring, neg_one_zpow_succ, ← hs]
      linear_combination -(s * racahSum j j2 j3 (-(m2 + m3)) (m2 + 1)) * (bCoef_norm (j := j) (m1 := -(m2 + m3)) h2 h3 hlt.1 hlt.2).1
    · rw [racahSum_zero (m2 := m2 + 1) (fun k b1 b2 b3 b4 b5 b6 => by omega), w3_of_not fun hn => by
        have c2 := abs_le.1 hn.1; have c3 := abs_le.1 hn.2.1; omega]
      simp
  have hdn : bCoef j2 j3 (m2 - 1) (m3 + 1) * w3 j2 j3 (m2 - 1) (m3 + 1) j =
      -(s * √(racahNorm j j2 j3 (-(m2 + m3)) m2 m3) * ((j2 - m2 + 1) * (j3 + m3 + 1)) * racahSum j j2 j3 (-(m2 + m3)) (m2 - 1)) := by
    by_cases hlt : -j2 < m2 ∧ m3 < j3
    · have b2 : |m2 - 1| ≤ j2 := by rw [abs_le]; omega
      have b3 : |m3 + 1| ≤ j3 := by rw [abs_le]; omega
      have hn := (bCoef_norm (j := j) (m1 := -(m2 + m3)) b2 b3 (by omega) (by omega)).2
      rw [sub_add_cancel, add_sub_cancel_right] at hn
      have hsg : s = -(-1) ^ (j - j2 - (m3 + 1)) := by
        rw [hs, ← neg_one_zpow_succ]; congr 1; ring
      rw [w3_of_coupled b2 b3 (by rw [show m2 - 1 + (m3 + 1) = m2 + m3 by ring]; exact h), show m2 - 1 + (m3 + 1) = m2 + m3 by ring, hsg]
      push_cast at hn
      linear_combination ((-1) ^ (j - j2 - (m3 + 1)) * racahSum j j2 j3 (-(m2 + m3)) (m2 - 1)) * hn
    · rw [racahSum_zero (m2 := m2 - 1) (fun k b1 b2 b3 b4 b5 b6 => by omega), w3_of_not fun hn => by
        have c2 := abs_le.1 hn.1; have c3 := abs_le.1 hn.2.1; omega]
      simp
  have hr := racahSum_rec_m j j2 j3 m2 m3
  rw [w3_of_coupled h2 h3 h, ← hs]
  linear_combination hup + hdn - s * √(racahNorm j j2 j3 (-(m2 + m3)) m2 m3) * hr

/-! ### orthogonality -/

/-- discrete summation: a telescoping sum over an interval of integers -/
theorem sum_Icc_telescope (W : ℤ → ℝ) {a b : ℤ} (h : a ≤ b) : ∑ j ∈ Finset.Icc a b, (W j - W (j - 1)) = W b - W (a - 1) := by
  induction b, h using Int.leInduction with
  | base => simp
  | succ n hn ih =>
    have : Finset.Icc a (n + 1) = insert (n + 1) (Finset.Icc a n) := by
      ext x; simp only [Finset.mem_Icc, Finset.mem_insert]; omega
    rw [this, Finset.sum_insert (by simp), ih]
    simp

/-- the smallest and the largest value that couple -/
def jMin (j2 j3 M : ℤ) : ℤ := max |j2 - j3| |M|

theorem coupled_iff {j2 j3 M j : ℤ} : Coupled j2 j3 M j ↔ jMin j2 j3 M ≤ j ∧ j ≤ j2 + j3 := by
  unfold Coupled jMin
  rw [max_le_iff, and_assoc]

theorem jMin_nonneg (j2 j3 M : ℤ) : 0 ≤ jMin j2 j3 M := (abs_nonneg _).trans (le_max_left _ _)

theorem aCoef_jMin (j2 j3 M : ℤ) : aCoef j2 j3 M (jMin j2 j3 M) = 0 := by
  refine aCoef_min ?_
  unfold jMin
  rcases max_choice |j2 - j3| |M| with h | h
  · left; exact h
  · right; exact h

/-- at `j1 = 0` the recursion is void; the relation that replaces it -/
theorem w3_zero_one {J m : ℤ} (h : |m| ≤ J) (hJ : 0 < J) :
    aCoef J J 0 1 * w3 J J m (-m) 1 = 2 * m * w3 J J m (-m) 0 := by
  have hM : m + -m = 0 := by ring
  have h' : |-m| ≤ J := by rwa [abs_neg]
  have c0 : Coupled J J (m + -m) 0 := by unfold Coupled; rw [hM]; simp; omega
  have c1 : Coupled J J (m + -m) 1 := by unfold Coupled; rw [hM]; simp; omega
  have hn := (aCoef_norm (j := 0) c0 (by omega)).1
  rw [zero_add, hM] at hn
  rw [w3_of_coupled h h' c0, w3_of_coupled h h' c1, hM]
  have s0 : racahSum 0 J J (-0) m = invFact (J + m) * invFact (J - m) := by
    rw [racahSum_single 0 (fun k _ _ _ _ _ _ => by omega)]
    unfold racahTerm
    have : invFact 0 = 1 := by simp [invFact, fact]
    simp [this]
  have s1 : racahSum 1 J J (-0) m = -(2 * m) * (invFact (J + m) * invFact (J - m)) := by
    unfold racahSum
    rw [show Finset.Icc (0 : ℤ) (1 + J - J) = {0, 1} by ext x; simp; omega, Finset.sum_insert (by simp), Finset.sum_singleton]
    unfold racahTerm
    have i0 : invFact 0 = 1 := by simp [invFact, fact]
    have i1 : invFact 1 = 1 := by simp [invFact, fact]
    have p1 := invFact_pred (J - m)
    have p2 := invFact_pred (J + m)
    rw [show (1 : ℤ) + J - J - 0 = 1 by ring, show (1 : ℤ) - -0 - 0 = 1 by ring, show J + m - 0 = J + m by ring, show J - J + -0 + 0 = 0 by ring,
      show J - 1 - m + 0 = J - m - 1 by ring, show (1 : ℤ) + J - J - 1 = 0 by ring, show (1 : ℤ) - -0 - 1 = 0 by ring,
      show J - J + -0 + 1 = 1 by ring, show J - 1 - m + 1 = J - m by ring, p1, p2, i0, i1]
    push_cast
    rw [zpow_one, zpow_zero]
    ring
  have hz : ((0 : ℤ) : ℝ) = 0 := Int.cast_zero
  rw [s0, s1, show (1 : ℤ) - J - -m = 0 - J - -m + 1 by ring, neg_one_zpow_succ]
  push_cast at hn
  linear_combination (2 * m * (-1) ^ (0 - J - -m) * (invFact (J + m) * invFact (J - m))) * hn

/-- symbols with different `m2`, `m3` (and the same sum) are orthogonal as functions of `j1` -/
theorem w3_orth_j {j2 j3 m2 m3 m2' m3' : ℤ} (h2 : |m2| ≤ j2) (h3 : |m3| ≤ j3) (h2' : |m2'| ≤ j2) (h3' : |m3'| ≤ j3)
    (hM : m2' + m3' = m2 + m3) (hne : m2' ≠ m2) :
    ∑ j ∈ Finset.Icc (jMin j2 j3 (m2 + m3)) (j2 + j3), (2 * j + 1) * (w3 j2 j3 m2 m3 j * w3 j2 j3 m2' m3' j) = 0 := by
  set a := jMin j2 j3 (m2 + m3) with ha
  have hab : a ≤ j2 + j3 := by
    rw [ha]; unfold jMin
    rw [abs_le] at h2 h3
    rw [max_le_iff, abs_le, abs_le]
    omega
  set g := w3 j2 j3 m2 m3 with hg
  set g' := w3 j2 j3 m2' m3' with hg'
  set W : ℤ → ℝ := fun j => aCoef j2 j3 (m2 + m3) (j + 1) / (j + 1) * (g' j * g (j + 1) - g j * g' (j + 1)) with hW
  set δ : ℝ := (m2 - m3) - (m2' - m3') with hδ
  have hδ0 : δ ≠ 0 := by
    rw [hδ]
    have : (m2 - m3) - (m2' - m3') ≠ 0 := by omega
    exact_mod_cast this
  have key : ∀ j ∈ Finset.Icc a (j2 + j3), W j - W (j - 1) = δ * ((2 * j + 1) * (g j * g' j)) := by
    intro j hj
    rw [Finset.mem_Icc] at hj
    have hc : Coupled j2 j3 (m2 + m3) j := coupled_iff.2 hj
    have r := w3_rec h2 h3 hc
    have r' := w3_rec h2' h3' (hM ▸ hc)
    rw [hM] at r'
    rw [← hg] at r
    rw [← hg'] at r'
    have hj0 : 0 ≤ j := (jMin_nonneg _ _ _).trans hj.1
    have h1 : (j : ℝ) + 1 ≠ 0 := by
      have : j + 1 ≠ 0 := by omega
      exact_mod_cast this
    have hM' : (m2' : ℝ) + m3' = m2 + m3 := by exact_mod_cast hM
    simp only [hW, sub_add_cancel]
    rcases hj0.eq_or_lt with h0 | h0
    · subst h0
      have hmn : jMin j2 j3 (m2 + m3) = 0 := le_antisymm hj.1 (jMin_nonneg _ _ _)
      have hz : |j2 - j3| ≤ 0 ∧ |m2 + m3| ≤ 0 := by
        unfold jMin at hmn; exact ⟨(le_max_left _ _).trans hmn.le, (le_max_right _ _).trans hmn.le⟩
      have e3 : j3 = j2 := by have := abs_nonpos_iff.1 hz.1; omega
      have em : m3 = -m2 := by have := abs_nonpos_iff.1 hz.2; omega
      have em' : m3' = -m2' := by omega
      have hJ : 0 < j2 := by
        rw [abs_le] at h2 h2'
        omega
      subst e3 em em'
      have z := w3_zero_one h2 hJ
      have z' := w3_zero_one h2' hJ
      rw [← hg] at z
      rw [← hg'] at z'
      have hA := aCoef_jMin j3 j3 (m2 + -m2)
      rw [hmn] at hA
      rw [show m2 + -m2 = 0 by ring] at hA ⊢
      rw [hA, hδ]
      push_cast
      simp only [zero_add, zero_div, zero_mul, div_one, sub_zero]
      linear_combination g' 0 * z - g 0 * z'
    · have h2 : (j : ℝ) ≠ 0 := by exact_mod_cast h0.ne'
      push_cast
      rw [sub_add_cancel]
      field_simp
      rw [hδ]
      linear_combination g' j * r - g j * r' + (2 * j + 1) * g j * g' j * (j2 * (j2 + 1) - j3 * (j3 + 1)) * hM'
  have hsum := sum_Icc_telescope W hab
  rw [Finset.sum_congr rfl key, ← Finset.mul_sum] at hsum
  have hb : W (j2 + j3) = 0 := by simp only [hW]; rw [aCoef_max]; simp
  have hl : W (a - 1) = 0 := by simp only [hW, sub_add_cancel]; rw [ha, aCoef_jMin]; simp
  rw [hb, hl, sub_zero] at hsum
  exact (mul_eq_zero.1 hsum).resolve_left hδ0

/-- the values of `m2` for the sum `M` -/
noncomputable def mRange (j2 j3 M : ℤ) : Finset ℤ := Finset.Icc (max (-j2) (M - j3)) (min j2 (M + j3))

theorem mem_mRange {j2 j3 M m : ℤ} : m ∈ mRange j2 j3 M ↔ |m| ≤ j2 ∧ |M - m| ≤ j3 := by
  unfold mRange
  rw [Finset.mem_Icc, max_le_iff, le_min_iff, abs_le, abs_le]
  constructor
  · rintro ⟨⟨a, b⟩, c, d⟩; omega
  · rintro ⟨⟨a, b⟩, c, d⟩; omega

/-- symbols with different `j1` are orthogonal as functions of `m2` -/
theorem w3_orth_m {j2 j3 M j j' : ℤ} (hj : Coupled j2 j3 M j) (hj' : Coupled j2 j3 M j') (hne : j ≠ j') (hM : (mRange j2 j3 M).Nonempty) :
    ∑ m ∈ mRange j2 j3 M, w3 j2 j3 m (M - m) j * w3 j2 j3 m (M - m) j' = 0 := by
  set W : ℤ → ℝ := fun m => bCoef j2 j3 m (M - m) * (w3 j2 j3 (m + 1) (M - m - 1) j * w3 j2 j3 m (M - m) j' -
    w3 j2 j3 m (M - m) j * w3 j2 j3 (m + 1) (M - m - 1) j') with hW
  set δ : ℝ := j * (j + 1) - j' * (j' + 1) with hδ
  have hδ0 : δ ≠ 0 := by
    have h0 : 0 ≤ j := (abs_nonneg _).trans hj.1
    have h0' : 0 ≤ j' := (abs_nonneg _).trans hj'.1
    have : (j - j') * (j + j' + 1) ≠ 0 := mul_ne_zero (by omega) (by omega)
    have h1 : (((j - j') * (j + j' + 1) : ℤ) : ℝ) ≠ 0 := by exact_mod_cast this
    rw [hδ]
    push_cast at h1
    intro h
    apply h1
    linear_combination h
  have key : ∀ m ∈ mRange j2 j3 M, W m - W (m - 1) = δ * (w3 j2 j3 m (M - m) j * w3 j2 j3 m (M - m) j') := by
    intro m hm
    obtain ⟨h2, h3⟩ := mem_mRange.1 hm
    have hs : m + (M - m) = M := by ring
    have r := w3_rec_m h2 h3 (j := j) (by rwa [hs])
    have r' := w3_rec_m h2 h3 (j := j') (by rwa [hs])
    simp only [hW]
    rw [show M - (m - 1) = M - m + 1 by ring, show m - 1 + 1 = m by ring, show M - m + 1 - 1 = M - m by ring, hδ]
    linear_combination w3 j2 j3 m (M - m) j' * r - w3 j2 j3 m (M - m) j * r'
  have hle : max (-j2) (M - j3) ≤ min j2 (M + j3) := by
    obtain ⟨m, hm⟩ := hM
    unfold mRange at hm
    rw [Finset.mem_Icc] at hm
    exact hm.1.trans hm.2
  have hsum := sum_Icc_telescope W hle
  change ∑ m ∈ mRange j2 j3 M, _ = _ at hsum
  rw [Finset.sum_congr rfl key, ← Finset.mul_sum] at hsum
  have hb : W (min j2 (M + j3)) = 0 := by
    simp only [hW]
    have : bCoef j2 j3 (min j2 (M + j3)) (M - min j2 (M + j3)) = 0 := by
      unfold bCoef
      rcases min_choice j2 (M + j3) with h | h <;> rw [h] <;> push_cast <;> simp
    rw [this, zero_mul]
  have hl : W (max (-j2) (M - j3) - 1) = 0 := by
    simp only [hW]
    have : bCoef j2 j3 (max (-j2) (M - j3) - 1) (M - (max (-j2) (M - j3) - 1)) = 0 := by
      unfold bCoef
      rcases max_choice (-j2) (M - j3) with h | h <;> rw [h] <;> push_cast
      · rw [show (j2 : ℝ) + (-j2 - 1) + 1 = 0 by ring]; simp
      · rw [show (j3 : ℝ) - (M - (M - j3 - 1)) + 1 = 0 by ring]; simp
    rw [this, zero_mul]
  rw [hb, hl, sub_zero] at hsum
  exact (mul_eq_zero.1 hsum).resolve_left hδ0

end Jaxoplanet.Starry
