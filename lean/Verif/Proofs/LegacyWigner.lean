import Verif.Proofs.Racah
import Verif.Proofs.MpRotation

/-!
# Lemmas for C82: the recurrences of Alvarez Collado et al. (1989) for Wigner's `d`

`d` is defined by Wigner's sum; the three-term recurrence in the degree is that of the Jacobi polynomials, which is proved
coefficient by coefficient (`1/n!` is zero for negative `n`, so there are no boundary cases).
-/

namespace Jaxoplanet.Starry.Legacy
open _root_.Jaxoplanet.Starry.Spec Real

/-- coefficient of the Jacobi sum -/
noncomputable def jt (a b n k : ℤ) : ℝ := invFact k * invFact (n - k) * invFact (a + k) * invFact (n + b - k)

/-- `P_n^(a,b) / ((n+a)! (n+b)!)` as a form in `X = (x - 1)/2` and `Y = (x + 1)/2` -/
noncomputable def jac (a b : ℤ) (n : ℕ) (X Y : ℝ) : ℝ := ∑ k ∈ Finset.range (n + 1), jt a b n k * X ^ k * Y ^ (n - k)

theorem jac_Y (a b : ℤ) (n : ℕ) (X Y : ℝ) :
    Y * jac a b n X Y = ∑ k ∈ Finset.range (n + 2), jt a b n k * X ^ k * Y ^ (n + 1 - k) := by
  rw [Finset.sum_range_succ, jac, Finset.mul_sum]
  have : jt a b n ((n + 1 : ℕ) : ℤ) = 0 := by
    unfold jt
    rw [invFact_neg (n := (n : ℤ) - ((n + 1 : ℕ) : ℤ)) (by push_cast; omega)]
    ring
  rw [this]
  simp only [zero_mul, add_zero]
  refine Finset.sum_congr rfl fun k hk => ?_
  have : k ≤ n := by have := Finset.mem_range.1 hk; omega
  rw [show n + 1 - k = (n - k) + 1 by omega, pow_succ]
  ring

theorem jac_X (a b : ℤ) (n : ℕ) (X Y : ℝ) :
    X * jac a b n X Y = ∑ k ∈ Finset.range (n + 2), jt a b n ((k : ℤ) - 1) * X ^ k * Y ^ (n + 1 - k) := by
  rw [Finset.sum_range_succ', jac, Finset.mul_sum]
  have : jt a b n (((0 : ℕ) : ℤ) - 1) = 0 := by
    unfold jt
    rw [invFact_neg (n := ((0 : ℕ) : ℤ) - 1) (by norm_num)]
    ring
  rw [this]
  simp only [zero_mul, add_zero]
  refine Finset.sum_congr rfl fun k hk => ?_
  rw [show n + 1 - (k + 1) = n - k by omega, pow_succ, show (((k + 1 : ℕ) : ℤ) - 1) = (k : ℤ) by push_cast; ring]
  ring

theorem jac_YY (a b : ℤ) (n : ℕ) (X Y : ℝ) :
    Y * (Y * jac a b n X Y) = ∑ k ∈ Finset.range (n + 3), jt a b n k * X ^ k * Y ^ (n + 2 - k) := by
  rw [Finset.sum_range_succ, jac_Y, Finset.mul_sum]
  have : jt a b n ((n + 2 : ℕ) : ℤ) = 0 := by
    unfold jt
    rw [invFact_neg (n := (n : ℤ) - ((n + 2 : ℕ) : ℤ)) (by push_cast; omega)]
    ring
  rw [this]
  simp only [zero_mul, add_zero]
  refine Finset.sum_congr rfl fun k hk => ?_
  have : k ≤ n + 1 := by have := Finset.mem_range.1 hk; omega
  rw [show n + 2 - k = (n + 1 - k) + 1 by omega, pow_succ]
  ring

theorem jac_XY (a b : ℤ) (n : ℕ) (X Y : ℝ) :
    X * (Y * jac a b n X Y) = ∑ k ∈ Finset.range (n + 3), jt a b n ((k : ℤ) - 1) * X ^ k * Y ^ (n + 2 - k) := by
  rw [Finset.sum_range_succ', jac_Y, Finset.mul_sum]
  have : jt a b n (((0 : ℕ) : ℤ) - 1) = 0 := by
    unfold jt
    rw [invFact_neg (n := ((0 : ℕ) : ℤ) - 1) (by norm_num)]
    ring
  rw [this]
  simp only [zero_mul, add_zero]
  refine Finset.sum_congr rfl fun k hk => ?_
  rw [show n + 2 - (k + 1) = n + 1 - k by omega, pow_succ, show (((k + 1 : ℕ) : ℤ) - 1) = (k : ℤ) by push_cast; ring]
  ring

theorem jac_XX (a b : ℤ) (n : ℕ) (X Y : ℝ) :
    X * (X * jac a b n X Y) = ∑ k ∈ Finset.range (n + 3), jt a b n ((k : ℤ) - 2) * X ^ k * Y ^ (n + 2 - k) := by
  rw [Finset.sum_range_succ', jac_X, Finset.mul_sum]
  have : jt a b n (((0 : ℕ) : ℤ) - 2) = 0 := by
    unfold jt
    rw [invFact_neg (n := ((0 : ℕ) : ℤ) - 2) (by norm_num)]
    ring
  rw [this]
  simp only [zero_mul, add_zero]
  refine Finset.sum_congr rfl fun k hk => ?_
  rw [show n + 2 - (k + 1) = n + 1 - k by omega, pow_succ, show (((k + 1 : ℕ) : ℤ) - 2) = (k : ℤ) - 1 by push_cast; ring]
  ring

theorem invFact_pred2 (n : ℤ) : invFact (n - 2) = n * (n - 1) * invFact n := by
  rw [show n - 2 = n - 1 - 1 by ring, invFact_pred, invFact_pred]
  push_cast; ring

/-- coefficients of the three-term recurrence -/
theorem jt_rec (a b n k : ℤ) :
    2 * (n * (n + a + b) * (2 * n + a + b - 2) * (n + a) * (n + b) : ℝ) * jt a b n k =
      (2 * n + a + b - 1) * ((2 * n + a + b) * (2 * n + a + b - 2) * (jt a b (n - 1) k + jt a b (n - 1) (k - 1)) +
        (a ^ 2 - b ^ 2) * (jt a b (n - 1) k - jt a b (n - 1) (k - 1))) -
      2 * (2 * n + a + b) * (jt a b (n - 2) k - 2 * jt a b (n - 2) (k - 1) + jt a b (n - 2) (k - 2)) := by
  unfold jt
  rw [show n - 1 - k = (n - k) - 1 by ring, show n - 1 + b - k = (n + b - k) - 1 by ring, show n - 1 - (k - 1) = n - k by ring,
    show a + (k - 1) = (a + k) - 1 by ring, show n - 1 + b - (k - 1) = n + b - k by ring, show n - 2 - k = (n - k) - 2 by ring,
    show n - 2 + b - k = (n + b - k) - 2 by ring, show n - 2 - (k - 1) = (n - k) - 1 by ring,
    show n - 2 + b - (k - 1) = (n + b - k) - 1 by ring, show n - 2 - (k - 2) = n - k by ring, show n - 2 + b - (k - 2) = n + b - k by ring,
    show a + (k - 2) = (a + k) - 2 by ring]
  simp only [invFact_pred2, invFact_pred]
  push_cast
  ring

theorem jac_rec (a b : ℤ) (n : ℕ) (X Y : ℝ) (h : Y - X = 1) :
    2 * (((n : ℝ) + 2) * (n + 2 + a + b) * (2 * (n + 2) + a + b - 2) * (n + 2 + a) * (n + 2 + b)) * jac a b (n + 2) X Y =
      (2 * (n + 2) + a + b - 1) * ((2 * (n + 2) + a + b) * (2 * (n + 2) + a + b - 2) * (X + Y) + (a ^ 2 - b ^ 2)) * jac a b (n + 1) X Y -
      2 * (2 * (n + 2) + a + b) * jac a b n X Y := by
  have e1 : (X + Y) * jac a b (n + 1) X Y = Y * jac a b (n + 1) X Y + X * jac a b (n + 1) X Y := by ring
  have e2 : jac a b (n + 1) X Y = Y * jac a b (n + 1) X Y - X * jac a b (n + 1) X Y := by linear_combination -(jac a b (n + 1) X Y) * h
  have e3 : jac a b n X Y = Y * (Y * jac a b n X Y) - 2 * (X * (Y * jac a b n X Y)) + X * (X * jac a b n X Y) := by
    linear_combination -(jac a b n X Y) * (Y - X + 1) * h
  have e4 : (2 * (n + 2) + a + b - 1) * ((2 * (n + 2) + a + b) * (2 * (n + 2) + a + b - 2) * (X + Y) + (a ^ 2 - b ^ 2)) * jac a b (n + 1) X Y =
      (2 * (n + 2) + a + b - 1) * ((2 * (n + 2) + a + b) * (2 * (n + 2) + a + b - 2) * (Y * jac a b (n + 1) X Y + X * jac a b (n + 1) X Y) +
        (a ^ 2 - b ^ 2) * (Y * jac a b (n + 1) X Y - X * jac a b (n + 1) X Y)) := by rw [← e2]; ring
  rw [e4, e3, jac_YY, jac_XY, jac_XX, jac_Y, jac_X, jac]
  simp only [Finset.mul_sum, ← Finset.sum_add_distrib, ← Finset.sum_sub_distrib]
  rw [show n + 2 + 1 = n + 3 from rfl, show n + 1 + 2 = n + 3 from rfl]
  refine Finset.sum_congr rfl fun k _ => ?_
  have := jt_rec a b ((n : ℤ) + 2) k
  rw [show (n : ℤ) + 2 - 1 = n + 1 by ring, show (n : ℤ) + 2 - 2 = n by ring] at this
  push_cast at this ⊢
  rw [show n + 1 + 1 - k = n + 2 - k by omega]
  linear_combination X ^ k * Y ^ (n + 2 - k) * this

theorem jac_rec_one (a b : ℤ) (X Y : ℝ) (h : Y - X = 1) :
    2 * ((1 + a + b) * (2 + a + b - 2) * (1 + a) * (1 + b)) * jac a b 1 X Y =
      (2 + a + b - 1) * ((2 + a + b) * (2 + a + b - 2) * (X + Y) + (a ^ 2 - b ^ 2)) * jac a b 0 X Y := by
  have e2 : jac a b 0 X Y = Y * jac a b 0 X Y - X * jac a b 0 X Y := by linear_combination -(jac a b 0 X Y) * h
  have e4 : (2 + a + b - 1) * ((2 + a + b) * (2 + a + b - 2) * (X + Y) + (a ^ 2 - b ^ 2)) * jac a b 0 X Y =
      (2 + a + b - 1) * ((2 + a + b) * (2 + a + b - 2) * (Y * jac a b 0 X Y + X * jac a b 0 X Y) +
        (a ^ 2 - b ^ 2) * (Y * jac a b 0 X Y - X * jac a b 0 X Y)) := by rw [← e2]; ring
  rw [e4, jac_Y, jac_X, jac]
  simp only [Finset.mul_sum, ← Finset.sum_add_distrib, ← Finset.sum_sub_distrib]
  refine Finset.sum_congr rfl fun k _ => ?_
  have := jt_rec a b 1 k
  have z : ∀ k : ℤ, jt a b (1 - 2) k = 0 := by
    intro k
    unfold jt
    rcases lt_or_ge k 0 with h | h
    · rw [invFact_neg h]; ring
    · rw [invFact_neg (n := 1 - 2 - k) (by omega)]; ring
  rw [z, z, z] at this
  push_cast at this ⊢
  norm_num at this ⊢
  linear_combination X ^ k * Y ^ (1 - k) * this

/-- normalisation -/
noncomputable def wnorm (l m : ℤ) : ℝ := √(fact (l + m) * fact (l - m))

/-- a term of Wigner's sum -/
noncomputable def wterm (c s : ℝ) (l m' m k : ℤ) : ℝ :=
  (-1) ^ (m' - m + k).toNat * c ^ ((l + m - k).toNat + (l - m' - k).toNat) * s ^ (k.toNat + (m' - m + k).toNat) *
    (invFact k * invFact (l + m - k) * invFact (l - m' - k) * invFact (m' - m + k))

/-- Wigner's `d`: `c`, `s` are the cosine and sine of half the angle -/
noncomputable def wd (c s : ℝ) (l m' m : ℤ) : ℝ := wnorm l m' * wnorm l m * ∑ᶠ k : ℤ, wterm c s l m' m k

theorem wterm_support {c s : ℝ} {l m' m k : ℤ} (h : wterm c s l m' m k ≠ 0) : 0 ≤ k ∧ k ≤ l + m ∧ k ≤ l - m' ∧ 0 ≤ m' - m + k := by
  by_contra hc
  apply h
  unfold wterm
  simp only [not_and_or, not_le] at hc
  rcases hc with hc | hc | hc | hc
  · rw [invFact_neg hc]; ring
  · rw [invFact_neg (n := l + m - k) (by omega)]; ring
  · rw [invFact_neg (n := l - m' - k) (by omega)]; ring
  · rw [invFact_neg (n := m' - m + k) (by omega)]; ring

theorem pow_parity {a b : ℕ} (h : Even (a + b)) : ((-1 : ℝ)) ^ a = (-1) ^ b := by
  rcases Nat.even_or_odd a with ha | ha
  · rw [ha.neg_one_pow, (show Even b from (Nat.even_add.1 h).1 ha).neg_one_pow]
  · have hb : Odd b := by
      rcases Nat.even_or_odd b with hb | hb
      · exact absurd ((Nat.even_add.1 h).2 hb) (Nat.not_even_iff_odd.2 ha)
      · exact hb
    rw [ha.neg_one_pow, hb.neg_one_pow]

theorem wd_reflect (c s : ℝ) (l m' m : ℤ) : wd c s l m' m = (-1) ^ (m - m').natAbs * wd c s l m m' := by
  unfold wd
  rw [← finsum_comp_equiv (Equiv.subRight (m' - m))]
  rw [show (-1 : ℝ) ^ (m - m').natAbs * (wnorm l m * wnorm l m' * ∑ᶠ k, wterm c s l m m' k) =
    wnorm l m' * wnorm l m * ((-1) ^ (m - m').natAbs * ∑ᶠ k, wterm c s l m m' k) by ring, show (-1 : ℝ) ^ (m - m').natAbs * ∑ᶠ k, wterm c s l m m' k =
      ∑ᶠ k, (-1 : ℝ) ^ (m - m').natAbs * wterm c s l m m' k from mul_finsum _ _]
  congr 1
  refine finsum_congr fun k => ?_
  simp only [Equiv.subRight_apply]
  by_cases h : 0 ≤ k ∧ k ≤ l + m' ∧ k ≤ l - m ∧ 0 ≤ m - m' + k
  · obtain ⟨h1, h2, h3, h4⟩ := h
    unfold wterm
    rw [show m' - m + (k - (m' - m)) = k by ring, show l + m - (k - (m' - m)) = l + m' - k by ring,
      show l - m' - (k - (m' - m)) = l - m - k by ring, show k - (m' - m) = m - m' + k by ring]
    have : (-1 : ℝ) ^ k.toNat = (-1) ^ (m - m').natAbs * (-1) ^ (m - m' + k).toNat := by
      rw [← pow_add]
      exact pow_parity (by rw [Nat.even_iff]; omega)
    rw [this, add_comm k.toNat]
    ring
  · have e1 : wterm c s l m m' k = 0 := by
      by_contra hc; exact h (wterm_support hc)
    have e2 : wterm c s l m' m (k - (m' - m)) = 0 := by
      by_contra hc
      have := wterm_support hc
      exact h ⟨by omega, by omega, by omega, by omega⟩
    rw [e1, e2, mul_zero]

theorem wnorm_neg (l m : ℤ) : wnorm l (-m) = wnorm l m := by
  unfold wnorm
  rw [mul_comm, sub_neg_eq_add, ← sub_eq_add_neg]

theorem wd_invert (c s : ℝ) (l m' m : ℤ) : wd c s l m' m = (-1) ^ (m - m').natAbs * wd c s l (-m') (-m) := by
  rw [wd_reflect c s l m' m]
  congr 1
  unfold wd
  rw [wnorm_neg, wnorm_neg, mul_comm (wnorm l m)]
  congr 1
  refine finsum_congr fun k => ?_
  unfold wterm
  rw [show -m' - -m = m - m' by ring, show l - -m' - k = l + m' - k by ring, show l + -m - k = l - m - k by ring,
    add_comm (l + m' - k).toNat]
  ring

/-- in the triangle `|m| ≤ m'` -/
theorem wd_jac {c s : ℝ} (l m' m : ℤ) (h1 : |m| ≤ m') (h2 : m' ≤ l) :
    wd c s l m' m = wnorm l m' * wnorm l m * ((-1) ^ (m' - m).toNat * c ^ (m' + m).toNat * s ^ (m' - m).toNat *
      jac (m' - m) (m' + m) (l - m').toNat (-s ^ 2) (c ^ 2)) := by
  unfold wd
  rw [abs_le] at h1
  obtain ⟨n, hn⟩ := Int.eq_ofNat_of_zero_le (show 0 ≤ l - m' by omega)
  congr 1
  rw [finsum_eq_finsetSum_of_support_subset (s := (Finset.range (n + 1)).map Nat.castEmbedding), Finset.sum_map]
  · rw [hn, jac, Int.toNat_natCast, Finset.mul_sum]
    refine Finset.sum_congr rfl fun k hk => ?_
    have hk' : k ≤ n := by have := Finset.mem_range.1 hk; omega
    simp only [Nat.castEmbedding_apply]
    unfold wterm jt
    obtain ⟨a, ha⟩ := Int.eq_ofNat_of_zero_le (show 0 ≤ m' - m by omega)
    obtain ⟨b, hb⟩ := Int.eq_ofNat_of_zero_le (show 0 ≤ m' + m by omega)

    rw [show l + m - (k : ℤ) = (n : ℤ) + (m' + m) - k by omega, show l - m' - (k : ℤ) = (n : ℤ) - k by omega, ha, hb,
      show ((a : ℤ) + k).toNat = a + k by omega, show ((n : ℤ) + b - k).toNat = b + (n - k) by omega,
      show ((n : ℤ) - k).toNat = n - k by omega, Int.toNat_natCast, Int.toNat_natCast, Int.toNat_natCast]
    rw [show b + (n - k) + (n - k) = b + 2 * (n - k) by ring, show k + (a + k) = a + 2 * k by ring, pow_add, pow_add, pow_add,
      show (-s ^ 2) ^ k = (-1) ^ k * s ^ (2 * k) by rw [neg_pow, pow_mul], pow_mul c 2]
    ring
  · intro k hk
    have := wterm_support (Function.mem_support.1 hk)
    simp only [Finset.coe_map, Nat.castEmbedding_apply, Set.mem_image, Finset.coe_range, Set.mem_Iio]
    exact ⟨k.toNat, by omega, by omega⟩

theorem wnorm_step {l m : ℤ} (h : |m| < l) : wnorm l m = √((l + m) * (l - m) : ℝ) * wnorm (l - 1) m := by
  rw [abs_lt] at h
  unfold wnorm
  rw [← sqrt_mul (by
    have h1 : (0 : ℝ) ≤ l + m := by exact_mod_cast (by omega : 0 ≤ l + m)
    have h2 : (0 : ℝ) ≤ l - m := by exact_mod_cast (by omega : 0 ≤ l - m)
    positivity)]
  have e1 := fact_succ (show 0 ≤ l - 1 + m by omega)
  have e2 := fact_succ (show 0 ≤ l - 1 - m by omega)
  rw [show l - 1 + m + 1 = l + m by ring] at e1
  rw [show l - 1 - m + 1 = l - m by ring] at e2
  rw [e1, e2]
  push_cast
  congr 1
  ring

/-- the three-term recurrence in the degree (equation 21 of Alvarez Collado et al.) -/
theorem wd_rec {c s : ℝ} (hcs : c ^ 2 + s ^ 2 = 1) (l m' m : ℤ) (hl : 2 ≤ l) (h1 : |m| ≤ m') (h2 : m' ≤ l - 1) :
    (l - 1 : ℝ) * √((l + m') * (l - m') : ℝ) * √((l + m) * (l - m) : ℝ) * wd c s l m' m =
      (2 * l - 1) * ((c ^ 2 - s ^ 2) * l * (l - 1) - m * m') * wd c s (l - 1) m' m -
      (if m' ≤ l - 2 then wd c s (l - 2) m' m * (√((l + m' - 1) * (l - m' - 1) : ℝ) * l) * √((l + m - 1) * (l - m - 1) : ℝ) else 0) := by
  have h1' := abs_le.1 h1
  have q1 : (0 : ℝ) ≤ (l + m') * (l - m') := by
    have h1 : (0 : ℝ) ≤ l + m' := by exact_mod_cast (by omega : 0 ≤ l + m')
    have h2 : (0 : ℝ) ≤ l - m' := by exact_mod_cast (by omega : 0 ≤ l - m')
    positivity
  have q2 : (0 : ℝ) ≤ (l + m) * (l - m) := by
    have h1 : (0 : ℝ) ≤ l + m := by exact_mod_cast (by omega : 0 ≤ l + m)
    have h2 : (0 : ℝ) ≤ l - m := by exact_mod_cast (by omega : 0 ≤ l - m)
    positivity
  have hY : c ^ 2 - -s ^ 2 = 1 := by linarith
  rw [wd_jac l m' m h1 (by omega), wd_jac (l - 1) m' m h1 (by omega), wnorm_step (l := l) (m := m') (by rw [abs_lt]; omega),
    wnorm_step (l := l) (m := m) (by rw [abs_lt]; omega)]
  set G := (-1 : ℝ) ^ (m' - m).toNat * c ^ (m' + m).toNat * s ^ (m' - m).toNat
  set A := m' - m with hA
  set B := m' + m with hB
  have hAr : (A : ℝ) = m' - m := by rw [hA]; push_cast; ring
  have hBr : (B : ℝ) = m' + m := by rw [hB]; push_cast; ring
  have s1 := mul_self_sqrt q1
  have s2 := mul_self_sqrt q2
  obtain ⟨n, hn⟩ := Int.eq_ofNat_of_zero_le (show 0 ≤ l - 1 - m' by omega)

  have hnr : (n : ℝ) = l - 1 - m' := by exact_mod_cast hn.symm
  rcases n with _ | n
  · rw [if_neg (by omega), show (l - m').toNat = 1 by omega, show (l - 1 - m').toNat = 0 by omega]
    have hl' : (l : ℝ) = m' + 1 := by push_cast at hnr; linarith
    have J := jac_rec_one A B (-s ^ 2) (c ^ 2) hY
    rw [hAr, hBr] at J
    rw [hl'] at s1 s2 ⊢
    set j1 := jac A B 1 (-s ^ 2) (c ^ 2)
    set j0 := jac A B 0 (-s ^ 2) (c ^ 2)
    set N1 := wnorm (l - 1) m'
    set N2 := wnorm (l - 1) m
    set r1 := √((m' + 1 + m') * (m' + 1 - m') : ℝ)
    set r2 := √((m' + 1 + m) * (m' + 1 - m) : ℝ)
    linear_combination (m' : ℝ) * N1 * N2 * G * j1 * r2 * r2 * s1 + (m' : ℝ) * N1 * N2 * G * j1 * ((m' + 1 + m') * (m' + 1 - m')) * s2 +
      N1 * N2 * G * J / 4
  · rw [if_pos (by omega), wd_jac (l - 2) m' m h1 (by omega), show (l - m').toNat = n + 2 by omega,
      show (l - 1 - m').toNat = n + 1 by omega, show (l - 2 - m').toNat = n by omega]
    have J := jac_rec A B n (-s ^ 2) (c ^ 2) hY
    have hn2 : (n : ℝ) = l - 2 - m' := by push_cast at hnr; linarith
    rw [hAr, hBr, hn2] at J
    have w1 := wnorm_step (l := l - 1) (m := m') (by rw [abs_lt]; omega)
    have w2 := wnorm_step (l := l - 1) (m := m) (by rw [abs_lt]; omega)
    rw [show l - 1 - 1 = l - 2 by ring] at w1 w2
    push_cast at w1 w2
    rw [show ((l : ℝ) - 1 + m') * (l - 1 - m') = (l + m' - 1) * (l - m' - 1) by ring] at w1
    rw [show ((l : ℝ) - 1 + m) * (l - 1 - m) = (l + m - 1) * (l - m - 1) by ring] at w2
    rw [w1, w2]
    set j2 := jac A B (n + 2) (-s ^ 2) (c ^ 2)
    set j1 := jac A B (n + 1) (-s ^ 2) (c ^ 2)
    set j0 := jac A B n (-s ^ 2) (c ^ 2)
    set N1 := wnorm (l - 2) m'
    set N2 := wnorm (l - 2) m
    set r1 := √((l + m') * (l - m') : ℝ)
    set r2 := √((l + m) * (l - m) : ℝ)
    set r3 := √((l + m' - 1) * (l - m' - 1) : ℝ)
    set r4 := √((l + m - 1) * (l - m - 1) : ℝ)
    linear_combination (l - 1 : ℝ) * r3 * N1 * r4 * N2 * G * j2 * r2 * r2 * s1 + (l - 1 : ℝ) * r3 * N1 * r4 * N2 * G * j2 * ((l + m') * (l - m')) * s2 +
      r3 * r4 * N1 * N2 * G * J / 4

theorem wd_last (c s : ℝ) (l m : ℤ) (h : |m| ≤ l) : wd c s l l m = wnorm l l * wnorm l m * ((-1) ^ (l - m).toNat * c ^ (l + m).toNat *
    s ^ (l - m).toNat * (invFact (l - m) * invFact (l + m))) := by
  rw [wd_jac l l m h le_rfl, sub_self, show (0 : ℤ).toNat = 0 from rfl, jac]
  simp [jt, invFact, fact]

theorem wnorm_sq {l m : ℤ} (h : |m| ≤ l) : wnorm l m * wnorm l m * (invFact (l - m) * invFact (l + m)) = 1 := by
  rw [abs_le] at h
  unfold wnorm
  have p1 := fact_pos (l + m)
  have p2 := fact_pos (l - m)
  rw [mul_self_sqrt (by positivity), invFact_of_nonneg (by omega), invFact_of_nonneg (by omega)]
  field_simp

theorem wd_top (c s : ℝ) {l : ℤ} (h : 0 ≤ l) : wd c s l l l = (c ^ 2) ^ l.toNat := by
  have a : |l| ≤ l := by rw [abs_of_nonneg h]
  rw [wd_last c s l l a, ← pow_mul]
  have := wnorm_sq a
  rw [sub_self] at *
  rw [show (l + l).toNat = 2 * l.toNat by omega]
  simp only [Int.toNat_zero, pow_zero, one_mul, mul_one]
  linear_combination c ^ (2 * l.toNat) * this

theorem wd_corner (c s : ℝ) {l : ℤ} (h : 0 ≤ l) : wd c s l l (-l) = (s ^ 2) ^ l.toNat := by
  have a : |-l| ≤ l := by rw [abs_neg, abs_of_nonneg h]
  rw [wd_last c s l (-l) a, ← pow_mul, wnorm_neg]
  have := wnorm_sq a
  rw [wnorm_neg] at this
  rw [show l + -l = 0 by ring, show l - -l = l + l by ring] at *
  rw [show (l + l).toNat = 2 * l.toNat by omega]
  simp only [Int.toNat_zero, pow_zero, mul_one]
  rw [pow_mul (-1 : ℝ), neg_one_sq, one_pow]
  linear_combination s ^ (2 * l.toNat) * this

theorem wnorm_shift {l m : ℤ} (h1 : -l ≤ m) (h2 : m < l) : wnorm l m * (invFact (l - m) * invFact (l + m)) =
    √((l + m + 1 : ℝ) / (l - m)) * (wnorm l (m + 1) * (invFact (l - (m + 1)) * invFact (l + (m + 1)))) := by
  have p1 := fact_pos (l + m)
  have p2 := fact_pos (l - (m + 1))
  have e1 := fact_succ (show 0 ≤ l + m by omega)
  have e2 := fact_succ (show 0 ≤ l - (m + 1) by omega)
  rw [show l - (m + 1) + 1 = l - m by ring] at e2
  rw [show l + m + 1 = l + (m + 1) by ring] at e1
  have a1 : (0 : ℝ) < l + m + 1 := by exact_mod_cast (by omega : 0 < l + m + 1)
  have a2 : (0 : ℝ) < l - m := by exact_mod_cast (by omega : 0 < l - m)
  unfold wnorm
  rw [invFact_of_nonneg (by omega), invFact_of_nonneg (by omega), invFact_of_nonneg (by omega), invFact_of_nonneg (by omega), e1, e2]
  push_cast
  rw [show ((l : ℝ) - (m + 1) + 1) = l - m by ring, sqrt_div a1.le]
  generalize fact (l + m) = F at *
  generalize fact (l - (m + 1)) = H at *
  rw [show F * (((l : ℝ) - m) * H) = (l - m) * (F * H) by ring, sqrt_mul a2.le, show ((l : ℝ) + m + 1) * F * H = (l + m + 1) * (F * H) by ring,
    sqrt_mul a1.le]
  have s1 := mul_self_sqrt a1.le
  have s2 := mul_self_sqrt a2.le
  have n1 := (sqrt_pos.2 a1).ne'
  have n2 := (sqrt_pos.2 a2).ne'
  set x := √((l : ℝ) + m + 1)
  set y := √((l : ℝ) - m)
  rw [← s1, ← s2]
  field_simp

/-- the recurrence along the last row (equations 19 and 20 of Alvarez Collado et al.) -/
theorem wd_last_step {c s t : ℝ} (ht : c ≠ 0 → t * c = s) {l m : ℤ} (h1 : -l < m) (h2 : m < l) :
    wd c s l l m = -t * √((l + m + 1 : ℝ) / (l - m)) * wd c s l l (m + 1) := by
  rw [wd_last c s l m (abs_le.2 (by omega)), wd_last c s l (m + 1) (abs_le.2 (by omega))]
  have w := wnorm_shift h1.le h2
  obtain ⟨p, hp⟩ : ∃ p : ℕ, (l + m).toNat = p + 1 := ⟨(l + m).toNat - 1, by omega⟩
  rw [hp, show (l + (m + 1)).toNat = p + 1 + 1 by omega]
  obtain ⟨q, hq⟩ : ∃ q : ℕ, (l - m).toNat = q + 1 := ⟨(l - m).toNat - 1, by omega⟩
  rw [hq, show (l - (m + 1)).toNat = q by omega]
  by_cases hc : c = 0
  · rw [hc]; ring
  · have := ht hc
    rw [← this]
    linear_combination wnorm l l * ((-1) ^ (q + 1) * c ^ (p + 1) * (t * c) ^ (q + 1)) * w

/-- the matrix of Wigner's sum of the multi-precision package -/
theorem wd_wsum (c s : ℝ) (l r i : ℕ) (hr : r ≤ 2 * l) (hi : i ≤ 2 * l) :
    √((i.factorial : ℝ) * ((2 * l - i).factorial : ℝ) * ((r.factorial : ℝ) * ((2 * l - r).factorial : ℝ))) * Mp.wsum (2 * l) c s r i =
      wd c s l ((r : ℤ) - l) ((i : ℤ) - l) := by
  unfold wd wnorm
  have f : ∀ q : ℕ, q ≤ 2 * l → fact ((l : ℤ) + (q - l)) * fact ((l : ℤ) - (q - l)) = (q.factorial : ℝ) * ((2 * l - q).factorial : ℝ) := by
    intro q hq
    unfold fact
    rw [show ((l : ℤ) + (q - l)).toNat = q by omega, show ((l : ℤ) - (q - l)).toNat = 2 * l - q by omega]
  rw [f r hr, f i hi, sqrt_mul (by positivity), mul_comm √((i.factorial : ℝ) * _)]
  congr 1
  rw [finsum_eq_finsetSum_of_support_subset (s := (Finset.range (i + 1)).map Nat.castEmbedding), Finset.sum_map]
  · unfold Mp.wsum
    refine Finset.sum_congr rfl fun k hk => ?_
    have hk' : k ≤ i := by have := Finset.mem_range.1 hk; omega
    simp only [Nat.castEmbedding_apply]
    split_ifs with h
    · unfold wterm
      rw [invFact_of_nonneg (by omega), invFact_of_nonneg (by omega), invFact_of_nonneg (by omega), invFact_of_nonneg (by omega)]
      unfold fact
      rw [show ((r : ℤ) - l - (i - l) + k).toNat = r + k - i by omega, show ((l : ℤ) + (i - l) - k).toNat = i - k by omega,
        show ((l : ℤ) - (r - l) - k).toNat = 2 * l - r - k by omega, Int.toNat_natCast]
      field_simp
    · by_contra hc
      have := wterm_support (Ne.symm hc)
      omega
  · intro k hk
    have := wterm_support (Function.mem_support.1 hk)
    simp only [Finset.coe_map, Nat.castEmbedding_apply, Set.mem_image, Finset.coe_range, Set.mem_Iio]
    exact ⟨k.toNat, by omega, by omega⟩

end Jaxoplanet.Starry.Legacy
