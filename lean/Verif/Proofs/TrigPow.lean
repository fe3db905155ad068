import Mathlib.Analysis.SpecialFunctions.Integrals.Basic
import Mathlib.Analysis.SpecialFunctions.Gamma.Basic
import Verif.Props.SphHarm

/-!
# Integrals of `cos^u sin^v`
-/

namespace Jaxoplanet.Starry

open Real intervalIntegral

theorem trig_bracket (u v : ℕ) (a b : ℝ) :
    cos b ^ (u + 1) * sin b ^ (v + 1) - cos a ^ (u + 1) * sin a ^ (v + 1) =
      ((v : ℝ) + 1) * (∫ φ in a..b, cos φ ^ (u + 2) * sin φ ^ v) - ((u : ℝ) + 1) * ∫ φ in a..b, cos φ ^ u * sin φ ^ (v + 2) := by
  have hd : ∀ φ ∈ Set.uIcc a b, HasDerivAt (fun φ => cos φ ^ (u + 1) * sin φ ^ (v + 1))
      (((v : ℝ) + 1) * (cos φ ^ (u + 2) * sin φ ^ v) - ((u : ℝ) + 1) * (cos φ ^ u * sin φ ^ (v + 2))) φ := by
    intro φ _
    have h1 := ((hasDerivAt_cos φ).pow (u + 1)).mul ((hasDerivAt_sin φ).pow (v + 1))
    refine h1.congr_deriv ?_
    simp only [Nat.add_sub_cancel, Pi.pow_apply]
    push_cast
    ring
  rw [← integral_const_mul, ← integral_const_mul, ← integral_sub]
  · exact (integral_eq_sub_of_hasDerivAt hd (by apply Continuous.intervalIntegrable; fun_prop)).symm
  · apply Continuous.intervalIntegrable; fun_prop
  · apply Continuous.intervalIntegrable; fun_prop

theorem trig_split (u v : ℕ) (a b : ℝ) :
    (∫ φ in a..b, cos φ ^ (u + 2) * sin φ ^ v) + (∫ φ in a..b, cos φ ^ u * sin φ ^ (v + 2)) = ∫ φ in a..b, cos φ ^ u * sin φ ^ v := by
  rw [← integral_add]
  · refine integral_congr fun φ _ => ?_
    have := sin_sq_add_cos_sq φ
    linear_combination (cos φ ^ u * sin φ ^ v) * this
  · apply Continuous.intervalIntegrable; fun_prop
  · apply Continuous.intervalIntegrable; fun_prop

/-- lowering the power of the cosine -/
theorem trig_recU (u v : ℕ) (a b : ℝ) :
    ((u : ℝ) + 2 + v) * (∫ φ in a..b, cos φ ^ (u + 2) * sin φ ^ v) =
      cos b ^ (u + 1) * sin b ^ (v + 1) - cos a ^ (u + 1) * sin a ^ (v + 1) + ((u : ℝ) + 1) * ∫ φ in a..b, cos φ ^ u * sin φ ^ v := by
  rw [trig_bracket u v a b, ← trig_split u v a b]
  ring

/-- lowering the power of the sine -/
theorem trig_recV (u v : ℕ) (a b : ℝ) :
    ((u : ℝ) + (v + 2)) * (∫ φ in a..b, cos φ ^ u * sin φ ^ (v + 2)) =
      -(cos b ^ (u + 1) * sin b ^ (v + 1) - cos a ^ (u + 1) * sin a ^ (v + 1)) + ((v : ℝ) + 1) * ∫ φ in a..b, cos φ ^ u * sin φ ^ v := by
  rw [trig_bracket u v a b, ← trig_split u v a b]
  ring

theorem circU (u v : ℕ) : ((u : ℝ) + 2 + v) * (∫ φ in (-π)..π, cos φ ^ (u + 2) * sin φ ^ v) =
    ((u : ℝ) + 1) * ∫ φ in (-π)..π, cos φ ^ u * sin φ ^ v := by
  rw [trig_recU, sin_neg, sin_pi, neg_zero, zero_pow (by omega)]
  ring

theorem circV (u v : ℕ) : ((u : ℝ) + (v + 2)) * (∫ φ in (-π)..π, cos φ ^ u * sin φ ^ (v + 2)) =
    ((v : ℝ) + 1) * ∫ φ in (-π)..π, cos φ ^ u * sin φ ^ v := by
  rw [trig_recV, sin_neg, sin_pi, neg_zero, zero_pow (by omega)]
  ring

/-- an odd power of the cosine, or of the sine, integrates to zero over the circle -/
theorem trig_circle_odd (u v : ℕ) (h : u % 2 = 1 ∨ v % 2 = 1) : ∫ φ in (-π)..π, cos φ ^ u * sin φ ^ v = 0 := by
  have hu : ∀ u v : ℕ, (∫ φ in (-π)..π, cos φ ^ u * sin φ ^ v) = 0 → (∫ φ in (-π)..π, cos φ ^ (u + 2) * sin φ ^ v) = 0 := by
    intro u v h
    have := circU u v
    rw [h, mul_zero] at this
    rcases mul_eq_zero.1 this with h | h
    · have : (0 : ℝ) < (u : ℝ) + 2 + v := by positivity
      linarith
    · exact h
  have hv : ∀ u v : ℕ, (∫ φ in (-π)..π, cos φ ^ u * sin φ ^ v) = 0 → (∫ φ in (-π)..π, cos φ ^ u * sin φ ^ (v + 2)) = 0 := by
    intro u v h
    have := circV u v
    rw [h, mul_zero] at this
    rcases mul_eq_zero.1 this with h | h
    · have : (0 : ℝ) < (u : ℝ) + (v + 2) := by positivity
      linarith
    · exact h
  have base : ∀ u v : ℕ, u < 2 → v < 2 → (u % 2 = 1 ∨ v % 2 = 1) → (∫ φ in (-π)..π, cos φ ^ u * sin φ ^ v) = 0 := by
    intro u v hu hv h
    interval_cases u <;> interval_cases v
    · simp at h
    · simp
    · simp
    · have h2 : ∫ φ in (-π)..π, cos φ ^ 1 * sin φ ^ 1 = ∫ φ in (-π)..π, sin φ * cos φ :=
        integral_congr fun φ _ => by ring
      rw [h2, integral_sin_mul_cos₁]
      simp
  have stepv : ∀ n u v : ℕ, v ≤ n → u < 2 → (u % 2 = 1 ∨ v % 2 = 1) → (∫ φ in (-π)..π, cos φ ^ u * sin φ ^ v) = 0 := by
    intro n
    induction n with
    | zero => intro u v hv hu h; exact base u v hu (by omega) h
    | succ n ih =>
      intro u v hvn hu h
      rcases Nat.lt_or_ge v 2 with h2 | h2
      · exact base u v hu h2 h
      · obtain ⟨w, rfl⟩ : ∃ w, v = w + 2 := ⟨v - 2, by omega⟩
        exact hv u w (ih u w (by omega) hu (by omega))
  have stepu : ∀ n u v : ℕ, u ≤ n → (u % 2 = 1 ∨ v % 2 = 1) → (∫ φ in (-π)..π, cos φ ^ u * sin φ ^ v) = 0 := by
    intro n
    induction n with
    | zero => intro u v hu h; exact stepv v u v le_rfl (by omega) h
    | succ n ih =>
      intro u v hun h
      rcases Nat.lt_or_ge u 2 with h2 | h2
      · exact stepv v u v le_rfl h2 h
      · obtain ⟨w, rfl⟩ : ∃ w, u = w + 2 := ⟨u - 2, by omega⟩
        exact hu w v (ih w v (by omega) (by omega))
  exact stepu u u v le_rfl h

theorem Gamma_half_succ (t : ℕ) : Gamma (((t + 1 : ℕ) : ℝ) + 1 / 2) = ((t : ℝ) + 1 / 2) * Gamma ((t : ℝ) + 1 / 2) := by
  rw [← Gamma_add_one (by positivity)]
  congr 1
  push_cast
  ring

/-- even powers over the circle -/
theorem trig_circle_even (a b : ℕ) : ∫ φ in (-π)..π, cos φ ^ (2 * a) * sin φ ^ (2 * b) =
    2 * Gamma ((a : ℝ) + 1 / 2) * Gamma ((b : ℝ) + 1 / 2) / ((a + b).factorial : ℝ) := by
  induction a with
  | zero =>
    induction b with
    | zero =>
      simp only [Nat.cast_zero, mul_zero, pow_zero, one_mul, zero_add, Nat.factorial_zero, Nat.cast_one, div_one]
      rw [Gamma_one_half_eq, integral_const, mul_assoc, mul_self_sqrt pi_pos.le]
      simp
      ring
    | succ b ih =>
      have := circV (2 * 0) (2 * b)
      rw [ih] at this
      have e0 : (0 : ℕ) + (b + 1) = b + 1 := by ring
      rw [show 2 * (b + 1) = 2 * b + 2 by ring, e0, Nat.factorial_succ, Gamma_half_succ b]
      generalize (∫ φ in (-π)..π, cos φ ^ (2 * 0) * sin φ ^ (2 * b + 2)) = I at *
      generalize Gamma ((b : ℝ) + 1 / 2) = B at *
      generalize Gamma (((0 : ℕ) : ℝ) + 1 / 2) = A at *
      have hb : (b.factorial : ℝ) ≠ 0 := by positivity
      rw [zero_add] at this
      have e1 : 2 * A * B / (b.factorial : ℝ) * b.factorial = 2 * A * B := div_mul_cancel₀ _ hb
      rw [eq_div_iff (by positivity)]
      push_cast at this ⊢
      linear_combination ((b.factorial : ℝ) / 2) * this + ((b : ℝ) + 1 / 2) * e1
  | succ a ih =>
    have := circU (2 * a) (2 * b)
    rw [ih] at this
    rw [show 2 * (a + 1) = 2 * a + 2 by ring, show a + 1 + b = (a + b) + 1 by ring, Nat.factorial_succ, Gamma_half_succ a]
    generalize (∫ φ in (-π)..π, cos φ ^ (2 * a + 2) * sin φ ^ (2 * b)) = I at *
    generalize Gamma ((b : ℝ) + 1 / 2) = B at *
    generalize Gamma ((a : ℝ) + 1 / 2) = A at *
    have hb : ((a + b).factorial : ℝ) ≠ 0 := by positivity
    have e1 : 2 * A * B / ((a + b).factorial : ℝ) * (a + b).factorial = 2 * A * B := div_mul_cancel₀ _ hb
    rw [eq_div_iff (by positivity)]
    push_cast at this ⊢
    linear_combination (((a + b).factorial : ℝ) / 2) * this + ((a : ℝ) + 1 / 2) * e1

end Jaxoplanet.Starry
