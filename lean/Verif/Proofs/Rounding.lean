import Verif.Model.KeplerFloat
import Verif.Proofs.Basic
import Mathlib.Tactic.Linarith
import Mathlib.Tactic.FieldSimp
import Mathlib.Tactic.Positivity

/-! Propagation of relative errors. -/

namespace Jaxoplanet.KeplerFloat

open Real

theorem Rnd.exists {ε x y : ℝ} (h : Rnd ε x y) : ∃ δ, |δ| ≤ ε ∧ y = x * (1 + δ) ∨ x = 0 ∧ y = 0 := by
  unfold Rnd at h
  rcases eq_or_ne x 0 with hx | hx
  · refine ⟨0, Or.inr ⟨hx, ?_⟩⟩
    rw [hx] at h
    simpa using h
  · refine ⟨(y - x) / x, Or.inl ⟨?_, ?_⟩⟩
    · rw [abs_div, div_le_iff₀ (abs_pos.2 hx)]
      exact h
    · field_simp
      ring

/-- the relative error as a factor -/
theorem Rnd.factor {ε x y : ℝ} (hε : 0 ≤ ε) (h : Rnd ε x y) : ∃ δ, |δ| ≤ ε ∧ y = x * (1 + δ) := by
  obtain ⟨δ, h1 | ⟨h1, h2⟩⟩ := h.exists
  · exact ⟨δ, h1⟩
  · exact ⟨0, by simpa using hε, by rw [h1, h2]; simp⟩

theorem Rnd.of_factor {ε x δ : ℝ} (h : |δ| ≤ ε) : Rnd ε x (x * (1 + δ)) := by
  unfold Rnd
  rw [show x * (1 + δ) - x = x * δ by ring, abs_mul, mul_comm]
  exact mul_le_mul_of_nonneg_right h (abs_nonneg _)

theorem Rnd.mono {ε ε' x y : ℝ} (h : Rnd ε x y) (hε : ε ≤ ε') : Rnd ε' x y :=
  le_trans h (mul_le_mul_of_nonneg_right hε (abs_nonneg _))

theorem Rnd.refl {ε : ℝ} (hε : 0 ≤ ε) (x : ℝ) : Rnd ε x x := by
  unfold Rnd
  rw [sub_self, abs_zero]
  positivity

theorem Rnd.neg {ε x y : ℝ} (h : Rnd ε x y) : Rnd ε (-x) (-y) := by
  unfold Rnd at *
  rw [show -y - -x = -(y - x) by ring, abs_neg, abs_neg]
  exact h

theorem Rnd.abs_le {ε x y : ℝ} (h : Rnd ε x y) : |y| ≤ (1 + ε) * |x| := by
  unfold Rnd at h
  have := abs_sub_abs_le_abs_sub y x
  linarith

theorem Rnd.nonneg {ε x y : ℝ} (hε : ε ≤ 1) (h : Rnd ε x y) (hx : 0 ≤ x) : 0 ≤ y := by
  unfold Rnd at h
  rw [abs_of_nonneg hx] at h
  have h1 := (_root_.abs_le.1 h).1
  nlinarith

theorem Rnd.pos {ε x y : ℝ} (hε : ε < 1) (h : Rnd ε x y) (hx : 0 < x) : 0 < y := by
  unfold Rnd at h
  rw [abs_of_pos hx] at h
  have h1 := (_root_.abs_le.1 h).1
  nlinarith

theorem Rnd.le {ε x y : ℝ} (h : Rnd ε x y) (hx : 0 ≤ x) : y ≤ (1 + ε) * x := by
  have := h.abs_le
  rw [abs_of_nonneg hx] at this
  exact (le_abs_self y).trans this

theorem Rnd.ge {ε x y : ℝ} (h : Rnd ε x y) (hx : 0 ≤ x) : (1 - ε) * x ≤ y := by
  unfold Rnd at h
  rw [abs_of_nonneg hx] at h
  have h1 := (_root_.abs_le.1 h).1
  linarith

theorem factor_bound {a b A B : ℝ} (ha : |a| ≤ A) (hb : |b| ≤ B) : |(1 + a) * (1 + b) - 1| ≤ A + B + A * B := by
  have h1 : |a * b| ≤ A * B := by
    rw [abs_mul]
    exact mul_le_mul ha hb (abs_nonneg _) ((abs_nonneg _).trans ha)
  rw [show (1 + a) * (1 + b) - 1 = a + b + a * b by ring]
  refine (abs_add_le _ _).trans (add_le_add ((abs_add_le _ _).trans (add_le_add ha hb)) h1)

theorem Rnd.trans {ε1 ε2 x y z : ℝ} (h1 : Rnd ε1 x y) (h2 : Rnd ε2 y z) (e1 : 0 ≤ ε1) (e2 : 0 ≤ ε2) :
    Rnd (ε1 + ε2 + ε1 * ε2) x z := by
  obtain ⟨δ1, a1, rfl⟩ := h1.factor e1
  obtain ⟨δ2, a2, rfl⟩ := h2.factor e2
  rw [show x * (1 + δ1) * (1 + δ2) = x * (1 + ((1 + δ1) * (1 + δ2) - 1)) by ring]
  exact Rnd.of_factor (factor_bound a1 a2)

theorem Rnd.mul0 {ε1 ε2 x y x' y' : ℝ} (h1 : Rnd ε1 x x') (h2 : Rnd ε2 y y') (e1 : 0 ≤ ε1) (e2 : 0 ≤ ε2) :
    Rnd (ε1 + ε2 + ε1 * ε2) (x * y) (x' * y') := by
  obtain ⟨δ1, a1, rfl⟩ := h1.factor e1
  obtain ⟨δ2, a2, rfl⟩ := h2.factor e2
  rw [show x * (1 + δ1) * (y * (1 + δ2)) = x * y * (1 + ((1 + δ1) * (1 + δ2) - 1)) by ring]
  exact Rnd.of_factor (factor_bound a1 a2)

theorem Rnd.div0 {ε1 ε2 x y x' y' : ℝ} (h1 : Rnd ε1 x x') (h2 : Rnd ε2 y y') (e1 : 0 ≤ ε1) (e2 : 0 ≤ ε2) (e3 : ε2 < 1) :
    Rnd ((ε1 + ε2) / (1 - ε2)) (x / y) (x' / y') := by
  obtain ⟨δ1, a1, rfl⟩ := h1.factor e1
  obtain ⟨δ2, a2, rfl⟩ := h2.factor e2
  have hp : 0 < 1 + δ2 := by linarith [(_root_.abs_le.1 a2).1]
  have : x * (1 + δ1) / (y * (1 + δ2)) = x / y * (1 + (δ1 - δ2) / (1 + δ2)) := by
    rcases eq_or_ne y 0 with rfl | hy
    · simp
    · field_simp
      ring
  rw [this]
  refine Rnd.of_factor ?_
  rw [abs_div, abs_of_pos hp]
  refine div_le_div₀ (by linarith) ?_ (by linarith) (by linarith [(_root_.abs_le.1 a2).1])
  exact (abs_sub _ _).trans (add_le_add a1 a2)

/-- how far the errors may accumulate: `k ≤ 50000` roundings of size `u ≤ 1e-10` -/
theorem rnd_mul {u k1 k2 k x y x' y' z : ℝ} (hu0 : 0 ≤ u) (hu : u ≤ 1e-10) (h1 : Rnd (k1 * u) x x')
    (h2 : Rnd (k2 * u) y y') (hz : Rnd u (x' * y') z) (a1 : 0 ≤ k1) (b1 : k1 ≤ 50000) (a2 : 0 ≤ k2) (b2 : k2 ≤ 50000)
    (hk : k1 + k2 + 2 ≤ k) : Rnd (k * u) (x * y) z := by
  have e1 : 0 ≤ k1 * u := by positivity
  have e2 : 0 ≤ k2 * u := by positivity
  refine ((h1.mul0 h2 e1 e2).trans hz (by positivity) hu0).mono ?_
  have s1 : k1 * k2 ≤ 50000 * 50000 := mul_le_mul b1 b2 a2 (by norm_num)
  have s2 : k1 * k2 * u ≤ 0.25 := by
    refine (mul_le_mul s1 hu hu0 (by norm_num)).trans (by norm_num)
  have s3 : (k1 + k2) * u ≤ 1e-5 := by
    refine (mul_le_mul (by linarith : k1 + k2 ≤ 100000) hu hu0 (by norm_num)).trans (by norm_num)
  have s4 : k1 * k2 * u * u ≤ 0.25 := by
    refine (mul_le_mul s2 (hu.trans (by norm_num : (1e-10 : ℝ) ≤ 1)) hu0 (by norm_num)).trans (by norm_num)
  have s5 : k1 * u + k2 * u + k1 * u * (k2 * u) + u + (k1 * u + k2 * u + k1 * u * (k2 * u)) * u =
      (k1 + k2 + 1 + (k1 * k2 * u + (k1 + k2) * u + k1 * k2 * u * u)) * u := by ring
  rw [s5]
  refine mul_le_mul_of_nonneg_right ?_ hu0
  norm_num at s2 s3 s4
  linarith

theorem rnd_div {u k1 k2 k x y x' y' z : ℝ} (hu0 : 0 ≤ u) (hu : u ≤ 1e-10) (h1 : Rnd (k1 * u) x x')
    (h2 : Rnd (k2 * u) y y') (hz : Rnd u (x' / y') z) (a1 : 0 ≤ k1) (b1 : k1 ≤ 50000) (a2 : 0 ≤ k2) (b2 : k2 ≤ 50000)
    (hk : k1 + k2 + 3 ≤ k) : Rnd (k * u) (x / y) z := by
  have e1 : 0 ≤ k1 * u := by positivity
  have e2 : 0 ≤ k2 * u := by positivity
  have e3 : k2 * u ≤ 5e-6 := (mul_le_mul b2 hu hu0 (by norm_num)).trans (by norm_num)
  have e4 : k2 * u < 1 := by norm_num at e3; linarith
  have e5 : 0 ≤ (k1 * u + k2 * u) / (1 - k2 * u) := div_nonneg (by positivity) (by linarith)
  have e6 : (k1 * u + k2 * u) / (1 - k2 * u) ≤ (k1 + k2 + 1) * u := by
    rw [div_le_iff₀ (by linarith)]
    have : (k1 + k2 + 1) * (k2 * u) ≤ 100001 * 5e-6 :=
      mul_le_mul (by linarith) e3 e2 (by norm_num)
    have : (k1 + k2 + 1) * (k2 * u) ≤ 1 := this.trans (by norm_num)
    have : (k1 + k2 + 1) * (k2 * u) * u ≤ 1 * u := mul_le_mul_of_nonneg_right this hu0
    linarith
  refine ((h1.div0 h2 e1 e2 e4).trans hz e5 hu0).mono ?_
  have s1 : (k1 * u + k2 * u) / (1 - k2 * u) * u ≤ 1 * u := by
    refine mul_le_mul_of_nonneg_right (e6.trans ?_) hu0
    refine (mul_le_mul (by linarith : k1 + k2 + 1 ≤ 100001) hu hu0 (by norm_num)).trans (by norm_num)
  have : (k1 + k2 + 3) * u ≤ k * u := mul_le_mul_of_nonneg_right hk hu0
  linarith

theorem rnd_comp {u k1 k x x' z : ℝ} (hu0 : 0 ≤ u) (hu : u ≤ 1e-10) (h1 : Rnd (k1 * u) x x') (hz : Rnd u x' z)
    (a1 : 0 ≤ k1) (b1 : k1 ≤ 50000) (hk : k1 + 2 ≤ k) : Rnd (k * u) x z := by
  refine (h1.trans hz (by positivity) hu0).mono ?_
  have s1 : k1 * u * u ≤ 1 * u := by
    refine mul_le_mul_of_nonneg_right ?_ hu0
    refine (mul_le_mul b1 hu hu0 (by norm_num)).trans (by norm_num)
  have : (k1 + 2) * u ≤ k * u := mul_le_mul_of_nonneg_right hk hu0
  linarith

theorem rnd_add {u k0 k x y x' y' z : ℝ} (hu0 : 0 ≤ u) (hu : u ≤ 1e-10) (h1 : Rnd (k0 * u) x x')
    (h2 : Rnd (k0 * u) y y') (hz : Rnd u (x' + y') z) (hx : 0 ≤ x) (hy : 0 ≤ y) (a1 : 0 ≤ k0) (b1 : k0 ≤ 50000)
    (hk : k0 + 2 ≤ k) : Rnd (k * u) (x + y) z := by
  refine rnd_comp hu0 hu (k1 := k0) ?_ hz a1 b1 hk
  unfold Rnd at *
  rw [abs_of_nonneg hx] at h1
  rw [abs_of_nonneg hy] at h2
  rw [abs_of_nonneg (by linarith : 0 ≤ x + y), show x' + y' - (x + y) = x' - x + (y' - y) by ring]
  refine (abs_add_le _ _).trans ?_
  linarith

/-- an absolute error relative to a lower bound -/
theorem rnd_of_abs {ε x y A c : ℝ} (h : |y - x| ≤ A) (hA : A ≤ ε * c) (hε : 0 ≤ ε) (hc : c ≤ |x|) : Rnd ε x y :=
  (h.trans hA).trans (mul_le_mul_of_nonneg_left hc hε)

theorem rnd_sqrt0 {ε x x' : ℝ} (h : Rnd ε x x') (hε : 0 ≤ ε) (hε1 : ε ≤ 1) (hx : 0 ≤ x) : Rnd ε (√x) (√x') := by
  obtain ⟨δ, h1, rfl⟩ := h.factor hε
  obtain ⟨l, r⟩ := _root_.abs_le.1 h1
  rw [Real.sqrt_mul hx, show √(1 + δ) = 1 + (√(1 + δ) - 1) by ring]
  refine Rnd.of_factor ?_
  have hs : √(1 + δ) ^ 2 = 1 + δ := Real.sq_sqrt (by linarith)
  have h0 := Real.sqrt_nonneg (1 + δ)
  generalize √(1 + δ) = s at *
  rw [_root_.abs_le]
  constructor <;> nlinarith

theorem rnd_cbrt0 {ε x x' : ℝ} (h : Rnd ε x x') (hε : 0 ≤ ε) (hε1 : ε ≤ 1) (hx : 0 ≤ x) : Rnd ε (cbrt x) (cbrt x') := by
  obtain ⟨δ, h1, rfl⟩ := h.factor hε
  obtain ⟨l, r⟩ := _root_.abs_le.1 h1
  have hp : 0 ≤ 1 + δ := by linarith
  have hc : cbrt (x * (1 + δ)) = cbrt x * (1 + (cbrt (1 + δ) - 1)) := by
    refine cbrt_unique ?_ ?_
    · have := cbrt_nonneg hx
      have := cbrt_nonneg hp
      ring_nf
      positivity
    · rw [mul_pow, cbrt_pow hx, show 1 + (cbrt (1 + δ) - 1) = cbrt (1 + δ) by ring, cbrt_pow hp]
  rw [hc]
  refine Rnd.of_factor ?_
  have hs := cbrt_pow hp
  have h0 := cbrt_nonneg hp
  generalize cbrt (1 + δ) = s at *
  rw [_root_.abs_le]
  have h3 : s ^ 3 - 1 = (s - 1) * (s ^ 2 + s + 1) := by ring
  constructor
  · by_contra hc
    push Not at hc
    nlinarith [mul_nonneg h0 h0]
  · by_contra hc
    push Not at hc
    nlinarith [mul_nonneg h0 h0]

end Jaxoplanet.KeplerFloat
