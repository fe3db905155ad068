import Verif.Model.Basic
import Mathlib.Tactic

/-! Helper lemmas about the numerical primitives. -/

namespace Jaxoplanet

theorem fmod_nonneg (a : ℝ) {b : ℝ} (hb : 0 < b) : 0 ≤ fmod a b := by
  unfold fmod
  have h := Int.floor_le (a / b)
  have : b * ⌊a / b⌋ ≤ b * (a / b) := by gcongr
  rw [mul_div_cancel₀ _ hb.ne'] at this
  linarith

theorem fmod_lt (a : ℝ) {b : ℝ} (hb : 0 < b) : fmod a b < b := by
  unfold fmod
  have h := Int.lt_floor_add_one (a / b)
  have : b * (a / b) < b * (⌊a / b⌋ + 1) := by gcongr
  rw [mul_div_cancel₀ _ hb.ne'] at this
  linarith

theorem fmod_add_int (a : ℝ) {b : ℝ} (hb : 0 < b) (n : ℤ) : fmod (a + n * b) b = fmod a b := by
  unfold fmod
  have : (a + n * b) / b = a / b + n := by field_simp
  rw [this, Int.floor_add_intCast]
  push_cast
  ring

theorem fmod_eq_sub (a b : ℝ) : ∃ n : ℤ, fmod a b = a - n * b :=
  ⟨⌊a / b⌋, by unfold fmod; ring⟩

/-- the floored remainder is characterised by congruence and range -/
theorem fmod_unique {a b x : ℝ} (hb : 0 < b) (n : ℤ) (hx : x = a - n * b) (h0 : 0 ≤ x)
    (h1 : x < b) : fmod a b = x := by
  have : a = x + n * b := by rw [hx]; ring
  rw [this, fmod_add_int x hb n]
  unfold fmod
  have : ⌊x / b⌋ = 0 := by
    rw [Int.floor_eq_iff]
    constructor
    · simp; positivity
    · rw [div_lt_iff₀ hb]; simpa using h1
  rw [this]; simp

theorem fmod_of_mem {x b : ℝ} (h0 : 0 ≤ x) (h1 : x < b) : fmod x b = x :=
  fmod_unique (lt_of_le_of_lt h0 h1) 0 (by simp) h0 h1

theorem fmod_neg (a : ℝ) {b : ℝ} (hb : 0 < b) :
    fmod (-a) b = if fmod a b = 0 then 0 else b - fmod a b := by
  obtain ⟨n, hn⟩ := fmod_eq_sub a b
  have h0 := fmod_nonneg a hb
  have h1 := fmod_lt a hb
  split_ifs with h
  · refine fmod_unique hb (-n) ?_ le_rfl hb
    push_cast
    rw [h] at hn
    linarith
  · refine fmod_unique hb (-n - 1) ?_ (by linarith) ?_
    · push_cast
      rw [hn]; ring
    · have : 0 < fmod a b := lt_of_le_of_ne h0 (Ne.symm h)
      linarith

theorem cbrt_nonneg {x : ℝ} (hx : 0 ≤ x) : 0 ≤ cbrt x := by
  unfold cbrt; rw [if_pos hx]; positivity

theorem cbrt_pow {x : ℝ} (hx : 0 ≤ x) : cbrt x ^ 3 = x := by
  unfold cbrt
  rw [if_pos hx, ← Real.rpow_natCast, ← Real.rpow_mul hx]
  norm_num

theorem cbrt_pos {x : ℝ} (hx : 0 < x) : 0 < cbrt x := by
  unfold cbrt; rw [if_pos hx.le]; positivity

theorem cbrt_unique {x y : ℝ} (hy : 0 ≤ y) (h : y ^ 3 = x) : cbrt x = y := by
  have hx : 0 ≤ x := by rw [← h]; positivity
  have h3 : cbrt x ^ 3 = y ^ 3 := by rw [cbrt_pow hx, h]
  exact (pow_left_inj₀ (cbrt_nonneg hx) hy (by norm_num)).1 h3

end Jaxoplanet
