import Verif.Proofs.Rotation
import Mathlib.Algebra.Polynomial.Roots

/-!
# The recursion of `_compute_full` builds the symmetric powers of a rotation
-/

namespace Jaxoplanet.Starry

open Spec Real

/-- normalised monomial `u^(j-k) v^k / √(k! (j-k)!)` -/
noncomputable def em (j k : ℕ) (u v : ℂ) : ℂ :=
  u ^ (j - k) * v ^ k / ((√((k.factorial : ℝ) * ((j - k).factorial : ℝ)) : ℝ) : ℂ)

/-- `d` (`[k, i]`, `k, i ≤ j`) is the matrix of the substitution `u ↦ c u - s v`, `v ↦ s u + c v` on forms of
degree `j` -/
def SymPow (j : ℕ) (c s : ℝ) (d : ℕ → ℕ → ℝ) : Prop :=
  ∀ i ≤ j, ∀ u v : ℂ, em j i (c * u - s * v) (s * u + c * v) = ∑ k ∈ Finset.range (j + 1), (d k i : ℂ) * em j k u v

theorem em_u (j k : ℕ) (hk : k ≤ j) (u v : ℂ) :
    u * em j k u v = ((√((j : ℝ) + 1 - k) : ℝ) : ℂ) * em (j + 1) k u v := by
  unfold em
  have h1 : j + 1 - k = (j - k) + 1 := by omega
  have hc : ((j : ℝ) + 1 - k) = ((j - k : ℕ) : ℝ) + 1 := by rw [Nat.cast_sub hk]; ring
  rw [h1, hc, Nat.factorial_succ, pow_succ]
  have e : √((k.factorial : ℝ) * (((j - k + 1) * (j - k).factorial : ℕ) : ℝ)) =
      √(((j - k : ℕ) : ℝ) + 1) * √((k.factorial : ℝ) * ((j - k).factorial : ℝ)) := by
    rw [← sqrt_mul (by positivity)]
    congr 1
    push_cast
    ring
  rw [e]
  push_cast
  have n1 : ((√(((j - k : ℕ) : ℝ) + 1) : ℝ) : ℂ) ≠ 0 := by
    rw [ne_eq, Complex.ofReal_eq_zero]; positivity
  have n2 : ((√((k.factorial : ℝ) * ((j - k).factorial : ℝ)) : ℝ) : ℂ) ≠ 0 := by
    rw [ne_eq, Complex.ofReal_eq_zero]; positivity
  field_simp

theorem em_v (j k : ℕ) (hk : k ≤ j) (u v : ℂ) :
    v * em j k u v = ((√((k : ℝ) + 1) : ℝ) : ℂ) * em (j + 1) (k + 1) u v := by
  unfold em
  have h1 : j + 1 - (k + 1) = j - k := by omega
  rw [h1, Nat.factorial_succ, pow_succ]
  have e : √((((k + 1) * k.factorial : ℕ) : ℝ) * ((j - k).factorial : ℝ)) =
      √((k : ℝ) + 1) * √((k.factorial : ℝ) * ((j - k).factorial : ℝ)) := by
    rw [← sqrt_mul (by positivity)]
    congr 1
    push_cast
    ring
  rw [e]
  push_cast
  have n1 : ((√((k : ℝ) + 1) : ℝ) : ℂ) ≠ 0 := by
    rw [ne_eq, Complex.ofReal_eq_zero]; positivity
  have n2 : ((√((k.factorial : ℝ) * ((j - k).factorial : ℝ)) : ℝ) : ℂ) ≠ 0 := by
    rw [ne_eq, Complex.ofReal_eq_zero]; positivity
  field_simp

/-- the two ways to come from degree `j` to `j + 1` add up -/
theorem em_euler (j i : ℕ) (hi : i ≤ j + 1) (U V : ℂ) :
    ((√((j : ℝ) + 1 - i) : ℝ) : ℂ) * (if i ≤ j then U * em j i U V else 0) +
      ((√(i : ℝ) : ℝ) : ℂ) * (if 1 ≤ i then V * em j (i - 1) U V else 0) = ((j : ℂ) + 1) * em (j + 1) i U V := by
  have h1 : ((√((j : ℝ) + 1 - i) : ℝ) : ℂ) * (if i ≤ j then U * em j i U V else 0) = ((j : ℂ) + 1 - i) * em (j + 1) i U V := by
    split_ifs with h
    · rw [em_u j i h, ← mul_assoc, ← Complex.ofReal_mul, mul_self_sqrt]
      · push_cast; ring
      · have : (i : ℝ) ≤ j := by exact_mod_cast h
        linarith
    · have : i = j + 1 := by omega
      subst this
      push_cast
      ring
  have h2 : ((√(i : ℝ) : ℝ) : ℂ) * (if 1 ≤ i then V * em j (i - 1) U V else 0) = (i : ℂ) * em (j + 1) i U V := by
    split_ifs with h
    · rw [em_v j (i - 1) (by omega), ← mul_assoc, show i - 1 + 1 = i by omega]
      have : ((i - 1 : ℕ) : ℝ) + 1 = i := by rw [Nat.cast_sub h]; push_cast; ring
      rw [this, ← Complex.ofReal_mul, mul_self_sqrt (by positivity)]
      push_cast
      rfl
    · have : i = 0 := by omega
      subst this
      simp
  rw [h1, h2]
  ring

/-- one pass of the recursion, from degree `j` to `j + 1`, without the division -/
noncomputable def halfStep (J : ℕ) (c s : ℝ) (d : ℕ → ℕ → ℝ) : ℕ → ℕ → ℝ := fun k i =>
  √((J : ℝ) - i) * √((J : ℝ) - k) * d k i * c + √(i : ℝ) * √((J : ℝ) - k) * d k (i - 1) * s -
  √((J : ℝ) - i) * √(k : ℝ) * d (k - 1) i * s + √(i : ℝ) * √(k : ℝ) * d (k - 1) (i - 1) * c

theorem symPow_halfStep (j : ℕ) (c s : ℝ) (d : ℕ → ℕ → ℝ) (h : SymPow j c s d) :
    SymPow (j + 1) c s fun k i => halfStep (j + 1) c s d k i / ((j : ℝ) + 1) := by
  intro i hi u v
  have hj : ((j : ℂ) + 1) ≠ 0 := by exact_mod_cast Nat.succ_ne_zero j
  have hJ := em_euler j i hi (c * u - s * v) (s * u + c * v)
  apply mul_left_cancel₀ hj
  rw [← hJ, Finset.mul_sum]
  -- sums of one column of the old matrix
  have hsum : ∀ (a : ℕ) (x y : ℂ), ∑ k ∈ Finset.range (j + 2),
      (((√(((j + 1 : ℕ) : ℝ) - k) : ℝ) : ℂ) * (d k a : ℂ) * x + ((√(k : ℝ) : ℝ) : ℂ) * (d (k - 1) a : ℂ) * y) * em (j + 1) k u v =
      (x * u + y * v) * ∑ k ∈ Finset.range (j + 1), (d k a : ℂ) * em j k u v := by
    intro a x y
    simp only [add_mul, Finset.sum_add_distrib]
    congr 1
    · rw [Finset.sum_range_succ]
      have h0 : ((√(((j + 1 : ℕ) : ℝ) - ((j + 1 : ℕ) : ℝ)) : ℝ) : ℂ) = 0 := by simp
      rw [h0, zero_mul, zero_mul, zero_mul, add_zero, Finset.mul_sum]
      refine Finset.sum_congr rfl fun k hk => ?_
      have := em_u j k (by have := Finset.mem_range.1 hk; omega) u v
      rw [show (((j + 1 : ℕ) : ℝ) - k) = (j : ℝ) + 1 - k by push_cast; ring]
      linear_combination (-((d k a : ℂ) * x)) * this
    · rw [Finset.sum_range_succ']
      have h0 : ((√((0 : ℕ) : ℝ) : ℝ) : ℂ) = 0 := by simp
      rw [h0, zero_mul, zero_mul, zero_mul, add_zero, Finset.mul_sum]
      refine Finset.sum_congr rfl fun k hk => ?_
      have := em_v j k (by have := Finset.mem_range.1 hk; omega) u v
      rw [Nat.add_sub_cancel, show (((k + 1 : ℕ) : ℝ)) = (k : ℝ) + 1 by push_cast; ring]
      linear_combination (-((d k a : ℂ) * y)) * this
  have hterm : ∀ k ∈ Finset.range (j + 1 + 1), ((j : ℂ) + 1) * (((halfStep (j + 1) c s d k i / ((j : ℝ) + 1) : ℝ) : ℂ) * em (j + 1) k u v) =
      ((√(((j + 1 : ℕ) : ℝ) - i) : ℝ) : ℂ) * ((((√(((j + 1 : ℕ) : ℝ) - k) : ℝ) : ℂ) * (d k i : ℂ) * c + ((√(k : ℝ) : ℝ) : ℂ) * (d (k - 1) i : ℂ) * (-s)) * em (j + 1) k u v) +
      ((√(i : ℝ) : ℝ) : ℂ) * ((((√(((j + 1 : ℕ) : ℝ) - k) : ℝ) : ℂ) * (d k (i - 1) : ℂ) * s + ((√(k : ℝ) : ℝ) : ℂ) * (d (k - 1) (i - 1) : ℂ) * c) * em (j + 1) k u v) := by
    intro k _
    unfold halfStep
    push_cast
    field_simp
    ring
  rw [Finset.sum_congr rfl hterm, Finset.sum_add_distrib, ← Finset.mul_sum, ← Finset.mul_sum, hsum i c (-s), hsum (i - 1) s c]
  congr 1
  · rw [show (((j + 1 : ℕ) : ℝ) - i) = (j : ℝ) + 1 - i by push_cast; ring]
    split_ifs with h1
    · rw [← h i h1 u v]; ring
    · have : i = j + 1 := by omega
      subst this
      simp
  · split_ifs with h1
    · rw [← h (i - 1) (by omega) u v]
    · have : i = 0 := by omega
      subst this
      simp

theorem symPow_zero (c s : ℝ) (d : ℕ → ℕ → ℝ) (h : d 0 0 = 1) : SymPow 0 c s d := by
  intro i hi u v
  have : i = 0 := by omega
  subst this
  simp [em, h]

theorem addBlock_eq (A : ℕ → ℕ → ℝ) (r0 c0 n : ℕ) (v : ℕ → ℕ → ℝ) (r c : ℕ) :
    addBlock A r0 c0 n v r c =
      A r c + if (r0 ≤ r ∧ r < r0 + n) ∧ (c0 ≤ c ∧ c < c0 + n) then v (r - r0) (c - c0) else 0 := by
  unfold addBlock
  split_ifs <;> simp

/-- the block of `risboPass` starting at `s`, for an array that vanishes there -/
theorem risboPass_block (A : ℕ → ℕ → ℝ) (st j : ℕ) (d : ℕ → ℕ → ℝ) (a b : ℝ) (k i : ℕ) (hk : k ≤ j) (hi : i ≤ j)
    (hA : A (st + k) (st + i) = 0) :
    risboPass A st j d a b (st + k) (st + i) = halfStep j a (-b) d k i := by
  unfold risboPass halfStep
  simp only [addBlock_eq, hA]
  have e1 : st + k - st = k := by omega
  have e2 : st + i - st = i := by omega
  have e3 : st + k - (st + 1) = k - 1 := by omega
  have e4 : st + i - (st + 1) = i - 1 := by omega
  have c1 : (st ≤ st + k ∧ st + k < st + j) ↔ k < j := by omega
  have c2 : (st ≤ st + i ∧ st + i < st + j) ↔ i < j := by omega
  have c3 : (st + 1 ≤ st + k ∧ st + k < st + 1 + j) ↔ 1 ≤ k := by omega
  have c4 : (st + 1 ≤ st + i ∧ st + i < st + 1 + j) ↔ 1 ≤ i := by omega
  simp only [e1, e2, e3, e4, c1, c2, c3, c4]
  have z1 : ¬ k < j → √((j : ℝ) - k) = 0 := fun h => by
    have : k = j := by omega
    simp [this]
  have z2 : ¬ i < j → √((j : ℝ) - i) = 0 := fun h => by
    have : i = j := by omega
    simp [this]
  have z3 : ¬ 1 ≤ k → √(k : ℝ) = 0 := fun h => by
    have : k = 0 := by omega
    simp [this]
  have z4 : ¬ 1 ≤ i → √(i : ℝ) = 0 := fun h => by
    have : i = 0 := by omega
    simp [this]
  have w3 : 1 ≤ k → ((k - 1 : ℕ) : ℝ) + 1 = k := fun h => by rw [Nat.cast_sub h]; push_cast; ring
  have w4 : 1 ≤ i → ((i - 1 : ℕ) : ℝ) + 1 = i := fun h => by rw [Nat.cast_sub h]; push_cast; ring
  have t1 : (if k < j ∧ i < j then √((j : ℝ) - i) * √((j : ℝ) - k) * d k i * a else 0) =
      √((j : ℝ) - i) * √((j : ℝ) - k) * d k i * a := by
    split_ifs with h
    · rfl
    · rw [not_and_or] at h
      rcases h with h | h
      · rw [z1 h]; ring
      · rw [z2 h]; ring
  have t2 : (if k < j ∧ 1 ≤ i then -√(((i - 1 : ℕ) : ℝ) + 1) * √((j : ℝ) - k) * d k (i - 1) * b else 0) =
      -√(i : ℝ) * √((j : ℝ) - k) * d k (i - 1) * b := by
    split_ifs with h
    · rw [w4 h.2]
    · rw [not_and_or] at h
      rcases h with h | h
      · rw [z1 h]; ring
      · rw [z4 h]; ring
  have t3 : (if 1 ≤ k ∧ i < j then √((j : ℝ) - i) * √(((k - 1 : ℕ) : ℝ) + 1) * d (k - 1) i * b else 0) =
      √((j : ℝ) - i) * √(k : ℝ) * d (k - 1) i * b := by
    split_ifs with h
    · rw [w3 h.1]
    · rw [not_and_or] at h
      rcases h with h | h
      · rw [z3 h]; ring
      · rw [z2 h]; ring
  have t4 : (if 1 ≤ k ∧ 1 ≤ i then √(((i - 1 : ℕ) : ℝ) + 1) * √(((k - 1 : ℕ) : ℝ) + 1) * d (k - 1) (i - 1) * a else 0) =
      √(i : ℝ) * √(k : ℝ) * d (k - 1) (i - 1) * a := by
    split_ifs with h
    · rw [w3 h.1, w4 h.2]
    · rw [not_and_or] at h
      rcases h with h | h
      · rw [z3 h]; ring
      · rw [z4 h]; ring
  rw [t1, t2, t3, t4]
  ring

theorem symPow_congr (j : ℕ) (c s : ℝ) (d d' : ℕ → ℕ → ℝ) (h : ∀ k ≤ j, ∀ i ≤ j, d k i = d' k i)
    (hd : SymPow j c s d) : SymPow j c s d' := by
  intro i hi u v
  rw [hd i hi u v]
  refine Finset.sum_congr rfl fun k hk => ?_
  rw [h k (by have := Finset.mem_range.1 hk; omega) i hi]

theorem halfStep_congr (J : ℕ) (c s : ℝ) (d d' : ℕ → ℕ → ℝ) (h : ∀ k < J, ∀ i < J, d k i = d' k i) (k i : ℕ)
    (hk : k ≤ J) (hi : i ≤ J) : halfStep J c s d k i = halfStep J c s d' k i := by
  unfold halfStep
  have z1 : ¬ k < J → √((J : ℝ) - k) = 0 := fun h => by
    have : k = J := by omega
    simp [this]
  have z2 : ¬ i < J → √((J : ℝ) - i) = 0 := fun h => by
    have : i = J := by omega
    simp [this]
  have z3 : ¬ 1 ≤ k → √(k : ℝ) = 0 := fun h => by
    have : k = 0 := by omega
    simp [this]
  have z4 : ¬ 1 ≤ i → √(i : ℝ) = 0 := fun h => by
    have : i = 0 := by omega
    simp [this]
  have t1 : √((J : ℝ) - i) * √((J : ℝ) - k) * d k i = √((J : ℝ) - i) * √((J : ℝ) - k) * d' k i := by
    by_cases a : k < J
    · by_cases b : i < J
      · rw [h k a i b]
      · rw [z2 b]; ring
    · rw [z1 a]; ring
  have t2 : √(i : ℝ) * √((J : ℝ) - k) * d k (i - 1) = √(i : ℝ) * √((J : ℝ) - k) * d' k (i - 1) := by
    by_cases a : k < J
    · by_cases b : 1 ≤ i
      · rw [h k a (i - 1) (by omega)]
      · rw [z4 b]; ring
    · rw [z1 a]; ring
  have t3 : √((J : ℝ) - i) * √(k : ℝ) * d (k - 1) i = √((J : ℝ) - i) * √(k : ℝ) * d' (k - 1) i := by
    by_cases a : 1 ≤ k
    · by_cases b : i < J
      · rw [h (k - 1) (by omega) i b]
      · rw [z2 b]; ring
    · rw [z3 a]; ring
  have t4 : √(i : ℝ) * √(k : ℝ) * d (k - 1) (i - 1) = √(i : ℝ) * √(k : ℝ) * d' (k - 1) (i - 1) := by
    by_cases a : 1 ≤ k
    · by_cases b : 1 ≤ i
      · rw [h (k - 1) (by omega) (i - 1) (by omega)]
      · rw [z4 b]; ring
    · rw [z3 a]; ring
  rw [t1, t2, t3, t4]

/-- the rotation by `β` about y, one degree up -/
theorem computeFull_step (dl : ℕ → ℕ → ℝ) (β : ℝ) (deg el : ℕ) (h2 : 2 ≤ el) (hel : el ≤ deg)
    (h : SymPow (2 * (el - 1)) (cos (β / 2)) (sin (β / 2)) fun k i => dl (deg - (el - 1) + k) (deg - (el - 1) + i)) :
    SymPow (2 * el) (cos (β / 2)) (sin (β / 2)) fun k i =>
      computeFull dl β (deg + 1) el (deg - el + k) (deg - el + i) := by
  have h1 := symPow_halfStep _ _ _ _ (symPow_halfStep _ _ _ _ h)
  rw [show 2 * (el - 1) + 1 + 1 = 2 * el by omega] at h1
  refine symPow_congr _ _ _ _ _ (fun k hk i hi => ?_) h1
  unfold computeFull
  rw [if_neg (by omega), if_neg (by omega)]
  rw [show deg + 1 - 1 - el = deg - el by omega]
  rw [risboPass_block _ _ _ _ _ _ k i hk hi (by
    rw [if_pos ⟨⟨by omega, by omega⟩, by omega, by omega⟩, mul_zero])]
  rw [halfStep_congr (2 * el) (-cos (β / 2)) (-sin (β / 2)) (risboPass (fun _ _ => 0) 0 (2 * el - 1)
      (fun k i => dl (k + (deg + 1 - 1) - (el - 1)) (i + (deg + 1 - 1) - (el - 1))) (-cos (β / 2)) (sin (β / 2)))
    (fun k i => -halfStep (2 * el - 1) (cos (β / 2)) (sin (β / 2)) (fun k i => dl (deg - (el - 1) + k) (deg - (el - 1) + i)) k i)
    (fun k hk i hi => ?_) k i hk hi]
  · rw [show 2 * (el - 1) + 1 = 2 * el - 1 by omega]
    have c1 : ((2 * el - 1 : ℕ) : ℝ) = 2 * el - 1 := by rw [Nat.cast_sub (by omega)]; push_cast; ring
    have c2 : ((2 * (el - 1) : ℕ) : ℝ) = 2 * el - 2 := by
      rw [Nat.cast_mul, Nat.cast_sub (by omega)]; push_cast; ring
    have h3 : (2 : ℝ) ≤ el := by exact_mod_cast h2
    rw [c1, c2]
    have n1 : (2 * el - 1 : ℝ) ≠ 0 := by linarith
    have n1' : (2 * el - 2 + 1 : ℝ) ≠ 0 := by linarith
    have n2 : (el : ℝ) ≠ 0 := by linarith
    have n3 : (2 * el - 1 + 1 : ℝ) ≠ 0 := by linarith
    rw [eq_div_iff (by positivity), div_mul_eq_mul_div, div_eq_iff n3]
    generalize halfStep (2 * el - 1) (cos (β / 2)) (sin (β / 2)) _ = D
    have e0 : (2 * el - 2 + 1 : ℝ) = 2 * el - 1 := by ring
    rw [e0]
    unfold halfStep
    generalize √(((2 * el : ℕ) : ℝ) - k) = X
    generalize √(((2 * el : ℕ) : ℝ) - i) = Y
    have e1 : ∀ a : ℝ, a / (2 * el - 1) * (2 * el - 1) = a := fun a => div_mul_cancel₀ a n1
    linear_combination (2 * el : ℝ) * (Y * X * cos (β / 2) * e1 (D k i) + √(i : ℝ) * X * sin (β / 2) * e1 (D k (i - 1)) -
      Y * √(k : ℝ) * sin (β / 2) * e1 (D (k - 1) i) + √(i : ℝ) * √(k : ℝ) * cos (β / 2) * e1 (D (k - 1) (i - 1)))
  · have := risboPass_block (fun _ _ => 0) 0 (2 * el - 1)
      (fun k i => dl (k + (deg + 1 - 1) - (el - 1)) (i + (deg + 1 - 1) - (el - 1))) (-cos (β / 2)) (sin (β / 2)) k i
      (by omega) (by omega) rfl
    rw [zero_add, zero_add] at this
    rw [this]
    have e : (fun k i => dl (k + (deg + 1 - 1) - (el - 1)) (i + (deg + 1 - 1) - (el - 1))) =
        fun k i => dl (deg - (el - 1) + k) (deg - (el - 1) + i) := by
      funext k i
      rw [show k + (deg + 1 - 1) - (el - 1) = deg - (el - 1) + k by omega,
        show i + (deg + 1 - 1) - (el - 1) = deg - (el - 1) + i by omega]
    rw [e]
    unfold halfStep
    ring

theorem computeFull_zero (dl : ℕ → ℕ → ℝ) (β : ℝ) (deg : ℕ) :
    SymPow 0 (cos (β / 2)) (sin (β / 2)) fun k i => computeFull dl β (deg + 1) 0 (deg - 0 + k) (deg - 0 + i) := by
  refine symPow_zero _ _ _ ?_
  simp [computeFull, setAt]

theorem computeFull_one (dl : ℕ → ℕ → ℝ) (β : ℝ) (deg : ℕ) (hd : 1 ≤ deg) :
    SymPow (2 * 1) (cos (β / 2)) (sin (β / 2)) fun k i =>
      computeFull dl β (deg + 1) 1 (deg - 1 + k) (deg - 1 + i) := by
  obtain ⟨e, rfl⟩ : ∃ e, deg = e + 1 := ⟨deg - 1, by omega⟩
  have hs2 : ((√2 : ℝ) : ℂ) * ((√2 : ℝ) : ℂ) = 2 := by
    rw [← Complex.ofReal_mul, mul_self_sqrt (by norm_num)]; norm_num
  have hne : ((√2 : ℝ) : ℂ) ≠ 0 := by rw [ne_eq, Complex.ofReal_eq_zero]; positivity
  have hsin : sin β = 2 * sin (β / 2) * cos (β / 2) := by rw [← sin_two_mul]; ring_nf
  have hcos : cos β = cos (β / 2) ^ 2 - sin (β / 2) ^ 2 := by rw [← cos_two_mul']; ring_nf
  intro i hi u v
  rw [Finset.sum_range_succ, Finset.sum_range_succ, Finset.sum_range_one]
  have f2 : Nat.factorial 2 = 2 := rfl
  have q1 : ¬ e = e + 1 + 1 := by omega
  interval_cases i
  all_goals
    simp [em, computeFull, setAt, f2, hsin, hcos, q1]
    generalize Complex.cos (β / 2) = C
    generalize Complex.sin (β / 2) = S
    field_simp
    first | ring1 | linear_combination (C * S * u ^ 2 - C * S * v ^ 2) * hs2

theorem rotateDls_symPow (β : ℝ) (deg el : ℕ) (hel : el ≤ deg) :
    SymPow (2 * el) (cos (β / 2)) (sin (β / 2)) fun k i =>
      rotateDls (deg + 1) β el (deg - el + k) (deg - el + i) := by
  induction el with
  | zero => exact computeFull_zero _ _ _
  | succ el ih =>
    unfold rotateDls
    rcases Nat.eq_zero_or_pos el with h | h
    · subst h
      exact computeFull_one _ _ _ hel
    · exact computeFull_step _ _ _ _ (by omega) hel (ih (by omega))

end Jaxoplanet.Starry
