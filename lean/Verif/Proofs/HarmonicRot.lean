import Verif.Proofs.HarmonicForm
import Verif.Props.RotationZ

/-!
# How the complex harmonics change under rotations, and their relation to the real ones
-/

namespace Jaxoplanet.Starry

open Spec Real

theorem em_compare (j : ℕ) (a b : ℕ → ℂ)
    (h : ∀ u v : ℂ, ∑ k ∈ Finset.range (j + 1), a k * em j k u v = ∑ k ∈ Finset.range (j + 1), b k * em j k u v)
    (k : ℕ) (hk : k ≤ j) : a k = b k := by
  have hne : ((√((k.factorial : ℝ) * ((j - k).factorial : ℝ)) : ℝ) : ℂ) ≠ 0 := by
    rw [ne_eq, Complex.ofReal_eq_zero]; positivity
  have := coeff_compare (j + 1) (fun k => a k / ((√((k.factorial : ℝ) * ((j - k).factorial : ℝ)) : ℝ) : ℂ))
    (fun k => b k / ((√((k.factorial : ℝ) * ((j - k).factorial : ℝ)) : ℝ) : ℂ)) (fun v => ?_) k (by omega)
  · exact (div_left_inj' hne).1 this
  · have h1 := h 1 v
    unfold em at h1
    calc _ = _ := Finset.sum_congr rfl fun k _ => ?_
      _ = _ := h1
      _ = _ := Finset.sum_congr rfl fun k _ => ?_
    · rw [one_pow]; ring
    · rw [one_pow]; ring

theorem hC_rotY (l : ℕ) (β : ℝ) (d : ℕ → ℕ → ℝ) (hd : SymPow (2 * l) (cos (β / 2)) (sin (β / 2)) d) (p : V3)
    (hp : OnSphere p) (k : ℕ) (hk : k ≤ 2 * l) :
    hC l ((k : ℤ) - l) (rotY β p) = ∑ i ∈ Finset.range (2 * l + 1), (d k i : ℂ) * hC l ((i : ℤ) - l) p := by
  refine em_compare (2 * l) (fun k => hC l ((k : ℤ) - l) (rotY β p))
    (fun k => ∑ i ∈ Finset.range (2 * l + 1), (d k i : ℂ) * hC l ((i : ℤ) - l) p) (fun u v => ?_) k hk
  rw [← form_expansion l (rotY β p) (rotY_sphere β hp)]
  have e : (((rotY β p).1 : ℂ) + (rotY β p).2.1 * Complex.I) * u ^ 2 + 2 * ((rotY β p).2.2 : ℂ) * u * v -
      (((rotY β p).1 : ℂ) - (rotY β p).2.1 * Complex.I) * v ^ 2 =
      ((p.1 : ℂ) + p.2.1 * Complex.I) * (((cos (β / 2) : ℝ) : ℂ) * u - ((sin (β / 2) : ℝ) : ℂ) * v) ^ 2 +
      2 * (p.2.2 : ℂ) * (((cos (β / 2) : ℝ) : ℂ) * u - ((sin (β / 2) : ℝ) : ℂ) * v) * (((sin (β / 2) : ℝ) : ℂ) * u + ((cos (β / 2) : ℝ) : ℂ) * v) -
      ((p.1 : ℂ) - p.2.1 * Complex.I) * (((sin (β / 2) : ℝ) : ℂ) * u + ((cos (β / 2) : ℝ) : ℂ) * v) ^ 2 := by
    have hsin : sin β = 2 * sin (β / 2) * cos (β / 2) := by rw [← sin_two_mul]; ring_nf
    have hcos : cos β = cos (β / 2) ^ 2 - sin (β / 2) ^ 2 := by rw [← cos_two_mul']; ring_nf
    have h1 : ((cos (β / 2) : ℝ) : ℂ) ^ 2 + ((sin (β / 2) : ℝ) : ℂ) ^ 2 = 1 := by
      have := cos_sq_add_sin_sq (β / 2)
      exact_mod_cast this
    unfold rotY
    simp only
    rw [hsin, hcos]
    simp only [Complex.ofReal_mul, Complex.ofReal_add, Complex.ofReal_sub, Complex.ofReal_neg, Complex.ofReal_pow,
      Complex.ofReal_ofNat]
    linear_combination (-(p.2.1 : ℂ) * Complex.I * (u ^ 2 + v ^ 2)) * h1
  rw [e, form_expansion l p hp]
  simp only [Finset.sum_mul]
  rw [Finset.sum_comm]
  refine Finset.sum_congr rfl fun i hi => ?_
  rw [hd i (by have := Finset.mem_range.1 hi; omega) u v, Finset.mul_sum]
  refine Finset.sum_congr rfl fun k _ => ?_
  ring

theorem hC_rotZ (l : ℕ) (m : ℤ) (α : ℝ) (p : V3) :
    hC l m (rotZ α p) = Complex.exp (-1 * Complex.I * ((m * α : ℝ) : ℂ)) * hC l m p := by
  unfold hC rotZ
  simp only
  have h1 : ((cos α * p.1 - sin α * p.2.1 : ℝ) : ℂ) + ((sin α * p.1 + cos α * p.2.1 : ℝ) : ℂ) * Complex.I =
      Complex.exp (α * Complex.I) * ((p.1 : ℂ) + p.2.1 * Complex.I) := by
    rw [Complex.exp_mul_I]
    push_cast
    linear_combination (-(Complex.sin α * p.2.1)) * Complex.I_sq
  have h2 : ((cos α * p.1 - sin α * p.2.1 : ℝ) : ℂ) - ((sin α * p.1 + cos α * p.2.1 : ℝ) : ℂ) * Complex.I =
      Complex.exp (-α * Complex.I) * ((p.1 : ℂ) - p.2.1 * Complex.I) := by
    rw [Complex.exp_mul_I, Complex.cos_neg, Complex.sin_neg]
    push_cast
    linear_combination (-(Complex.sin α * p.2.1)) * Complex.I_sq
  rw [h1, h2, mul_pow, mul_pow, ← Complex.exp_nat_mul, ← Complex.exp_nat_mul]
  split_ifs with h
  · have : ((m.natAbs : ℕ) : ℂ) = -(m : ℂ) := by
      have : ((m.natAbs : ℕ) : ℤ) = -m := by omega
      have := congrArg (fun t : ℤ => (t : ℂ)) this
      push_cast at this
      simpa using this
    rw [this]
    have e : -(m : ℂ) * (α * Complex.I) = -1 * Complex.I * ((m * α : ℝ) : ℂ) := by push_cast; ring
    rw [e]
    ring
  · have : ((m.natAbs : ℕ) : ℂ) = (m : ℂ) := by
      have : ((m.natAbs : ℕ) : ℤ) = m := by omega
      have := congrArg (fun t : ℤ => (t : ℂ)) this
      simpa using this
    rw [this]
    have e : (m : ℂ) * (-α * Complex.I) = -1 * Complex.I * ((m * α : ℝ) : ℂ) := by push_cast; ring
    rw [e]
    ring

/-- normalisation between `hC` and the harmonics -/
noncomputable def kap (l : ℕ) : ℝ := √((2 * l + 1) / (4 * π)) / (2 ^ l * (l.factorial : ℝ))

theorem realHarmonic_hC (l : ℕ) (m : ℤ) (p : V3) :
    (kap l : ℂ) * hC l m p = if m = 0 then (realHarmonic l 0 p.1 p.2.1 p.2.2 : ℂ) else
      if m < 0 then ((realHarmonic l (-m) p.1 p.2.1 p.2.2 : ℂ) + (realHarmonic l m p.1 p.2.1 p.2.2 : ℂ) * Complex.I) / ((√2 : ℝ) : ℂ)
      else (-1) ^ m.natAbs * ((realHarmonic l m p.1 p.2.1 p.2.2 : ℂ) - (realHarmonic l (-m) p.1 p.2.1 p.2.2 : ℂ) * Complex.I) / ((√2 : ℝ) : ℂ) := by
  obtain ⟨x, y, z⟩ := p
  have hne : ((√2 : ℝ) : ℂ) ≠ 0 := by rw [ne_eq, Complex.ofReal_eq_zero]; positivity
  have hl : (2 ^ l * (l.factorial : ℝ)) ≠ 0 := by positivity
  have key : ∀ q : ℕ, q ≠ 0 → kap l * (2 ^ l * (l.factorial : ℝ) * √(((l - q).factorial : ℝ) / ((l + q).factorial : ℝ)) * rodrigues l q z) =
      harmNorm l q * rodrigues l q z / √2 := by
    intro q hq
    unfold kap harmNorm
    rw [if_neg hq, show 2 * (2 * (l : ℝ) + 1) / (4 * π) * (((l - q).factorial : ℝ) / ((l + q).factorial : ℝ)) =
      2 * ((2 * (l : ℝ) + 1) / (4 * π) * (((l - q).factorial : ℝ) / ((l + q).factorial : ℝ))) by ring,
      sqrt_mul (by norm_num), sqrt_mul (by positivity)]
    have h2 : √2 ≠ 0 := by positivity
    generalize √((2 * (l : ℝ) + 1) / (4 * π)) = a
    generalize √(((l - q).factorial : ℝ) / ((l + q).factorial : ℝ)) = b
    field_simp
  have hcj : (x : ℂ) - y * Complex.I = (starRingEnd ℂ) ((x : ℂ) + y * Complex.I) := by simp [sub_eq_add_neg]
  have reim : ∀ w : ℂ, w = (w.re : ℂ) + (w.im : ℂ) * Complex.I := fun w => (Complex.re_add_im w).symm
  unfold hC
  simp only
  rw [← mul_assoc, ← Complex.ofReal_mul]
  rcases lt_trichotomy m 0 with h | h | h
  · rw [key _ (by omega), if_neg (show ¬ m = 0 by omega), if_pos h, if_pos (show m ≤ 0 by omega)]
    unfold realHarmonic
    rw [if_pos (by omega), if_neg (by omega), Int.natAbs_neg]
    generalize ((x : ℂ) + y * Complex.I) ^ m.natAbs = w
    conv_lhs => rw [reim w]
    push_cast
    field_simp
  · subst h
    simp only [if_true, Int.natAbs_zero, pow_zero, mul_one, le_refl]
    unfold realHarmonic kap harmNorm
    simp only [Int.natAbs_zero, pow_zero, if_true, le_refl, Complex.one_re, mul_one]
    congr 1
    have h1 : ((l - 0 : ℕ).factorial : ℝ) / ((l + 0 : ℕ).factorial : ℝ) = 1 := by
      simp; positivity
    rw [h1, sqrt_one, mul_one, one_mul, mul_one]
    field_simp
  · rw [key _ (by omega), if_neg (show ¬ m ≤ 0 by omega), if_neg (show ¬ m = 0 by omega), if_neg (show ¬ m < 0 by omega), hcj, ← map_pow]
    unfold realHarmonic
    rw [if_pos (by omega), if_neg (by omega), Int.natAbs_neg]
    generalize ((x : ℂ) + y * Complex.I) ^ m.natAbs = w
    have : (starRingEnd ℂ) w = (w.re : ℂ) - (w.im : ℂ) * Complex.I := by
      apply Complex.ext <;> simp
    rw [this]
    push_cast
    field_simp

theorem sum_pm (l : ℕ) (n : ℤ) (hn : n.natAbs ≤ l) (g : ℤ → ℂ) (hg : ∀ m, m ≠ n → m ≠ -n → g m = 0) :
    ∑ a ∈ Finset.range (2 * l + 1), g ((a : ℤ) - l) = if n = 0 then g 0 else g n + g (-n) := by
  have e1 : (((n + l).toNat : ℕ) : ℤ) = n + l := Int.toNat_of_nonneg (by omega)
  have e2 : (((-n + l).toNat : ℕ) : ℤ) = -n + l := Int.toNat_of_nonneg (by omega)
  split_ifs with h
  · subst h
    rw [Finset.sum_eq_single_of_mem l (Finset.mem_range.2 (by omega))]
    · rw [sub_self]
    · intro b _ hb
      exact hg _ (by omega) (by omega)
  · rw [Finset.sum_eq_add_of_mem (n + l).toNat (-n + l).toNat (Finset.mem_range.2 (by omega)) (Finset.mem_range.2 (by omega))
      (by omega)]
    · rw [e1, e2, add_sub_cancel_right, add_sub_cancel_right]
    · intro b _ hb
      exact hg _ (by omega) (by omega)

theorem sum_block {M : Type*} [AddCommMonoid M] (deg i : ℕ) (hi : i ≤ deg) (g : ℕ → M) (hg : ∀ b, b < deg - i ∨ deg + i < b → g b = 0) :
    ∑ b ∈ Finset.range (2 * deg + 1), g b = ∑ b ∈ Finset.range (2 * i + 1), g (deg - i + b) := by
  rw [show 2 * deg + 1 = (deg - i) + ((2 * i + 1) + (deg - i)) by omega, Finset.sum_range_add, Finset.sum_range_add,
    Finset.sum_eq_zero (s := Finset.range (deg - i)), zero_add,
    Finset.sum_eq_zero (s := Finset.range (deg - i)) (f := fun x => g (deg - i + (2 * i + 1 + x))), add_zero]
  · intro x _
    exact hg _ (by omega)
  · intro x hx
    exact hg _ (Or.inl (Finset.mem_range.1 hx))

theorem Umn_zero (m n : ℤ) (h1 : m ≠ n) (h2 : m ≠ -n) : Umn m n = 0 := by
  unfold Umn
  simp [h1, h2]

theorem Umn_vals (n : ℤ) (hn : 0 < n) :
    Umn n n = (-1) ^ n.natAbs / ((√2 : ℝ) : ℂ) ∧ Umn (-n) n = 1 / ((√2 : ℝ) : ℂ) ∧
    Umn n (-n) = -((-1) ^ n.natAbs) * Complex.I / ((√2 : ℝ) : ℂ) ∧ Umn (-n) (-n) = Complex.I / ((√2 : ℝ) : ℂ) := by
  have q1 : ¬ n < 0 := by omega
  have q2 : ¬ n = 0 := by omega
  have q3 : ¬ n = -n := by omega
  have q4 : ¬ -n = n := by omega
  have q5 : -n < 0 := by omega
  rcases Int.even_or_odd n with he | ho
  · have p1 : n % 2 = 0 := Int.even_iff.1 he
    have p2 : (-n) % 2 = 0 := by omega
    have p3 : ((-1 : ℂ)) ^ n.natAbs = 1 := Even.neg_one_pow (by rwa [Int.natAbs_even])
    unfold Umn
    simp [q1, q2, q3, q4, hn, p1, p3]
  · have p1 : n % 2 = 1 := Int.odd_iff.1 ho
    have p2 : (-n) % 2 = 1 := by omega
    have p3 : ((-1 : ℂ)) ^ n.natAbs = -1 := Odd.neg_one_pow (by rwa [Int.natAbs_odd])
    unfold Umn
    simp [q1, q2, q3, q4, hn, p1, p3]

theorem Umn_00 : Umn 0 0 = 1 := by
  unfold Umn
  have hne : ((√2 : ℝ) : ℂ) ≠ 0 := by rw [ne_eq, Complex.ofReal_eq_zero]; positivity
  simp
  field_simp
  norm_num

/-- the real harmonics from the complex ones -/
theorem U_adjoint (l : ℕ) (n : ℤ) (hn : n.natAbs ≤ l) (p : V3) :
    ∑ a ∈ Finset.range (2 * l + 1), (starRingEnd ℂ) (Umn ((a : ℤ) - l) n) * ((kap l : ℂ) * hC l ((a : ℤ) - l) p) =
      (realHarmonic l n p.1 p.2.1 p.2.2 : ℂ) := by
  have hs2 : ((√2 : ℝ) : ℂ) * ((√2 : ℝ) : ℂ) = 2 := by
    rw [← Complex.ofReal_mul, mul_self_sqrt (by norm_num)]; norm_num
  have hne : ((√2 : ℝ) : ℂ) ≠ 0 := by rw [ne_eq, Complex.ofReal_eq_zero]; positivity
  have hsgn : ∀ q : ℕ, ((-1 : ℂ) ^ q) * (-1) ^ q = 1 := fun q => by rw [← mul_pow]; simp
  rw [sum_pm l n hn (fun m => (starRingEnd ℂ) (Umn m n) * ((kap l : ℂ) * hC l m p)) (fun m h1 h2 => by
    rw [Umn_zero m n h1 h2, map_zero, zero_mul])]
  rcases lt_trichotomy n 0 with h | h | h
  · rw [if_neg (by omega)]
    obtain ⟨v1, v2, v3, v4⟩ := Umn_vals (-n) (by omega)
    rw [neg_neg, Int.natAbs_neg] at *
    rw [v4, v3, realHarmonic_hC, realHarmonic_hC, if_neg (by omega), if_pos h, if_neg (by omega), if_neg (by omega), neg_neg,
      Int.natAbs_neg]
    simp only [map_div₀, map_mul, map_neg, map_pow, map_one, Complex.conj_I, Complex.conj_ofReal]
    have := hsgn n.natAbs
    generalize (realHarmonic l (-n) p.1 p.2.1 p.2.2 : ℂ) = A
    generalize (realHarmonic l n p.1 p.2.1 p.2.2 : ℂ) = B
    generalize ((-1 : ℂ)) ^ n.natAbs = s at *
    field_simp
    rw [show ((√2 : ℝ) : ℂ) ^ 2 = 2 by rw [sq, hs2]]
    linear_combination (-(2 : ℂ) * B) * Complex.I_sq + (Complex.I * A - Complex.I ^ 2 * B) * this
  · subst h
    simp only [if_true]
    rw [Umn_00, realHarmonic_hC]
    simp
  · rw [if_neg (by omega)]
    obtain ⟨v1, v2, v3, v4⟩ := Umn_vals n (by omega)
    rw [v1, v2, realHarmonic_hC, realHarmonic_hC, if_neg (by omega), if_neg (by omega), if_neg (by omega), if_pos (by omega), neg_neg]
    simp only [map_div₀, map_neg, map_pow, map_one, Complex.conj_ofReal]
    have := hsgn n.natAbs
    generalize (realHarmonic l (-n) p.1 p.2.1 p.2.2 : ℂ) = A
    generalize (realHarmonic l n p.1 p.2.1 p.2.2 : ℂ) = B
    generalize ((-1 : ℂ)) ^ n.natAbs = s at *
    field_simp
    rw [show ((√2 : ℝ) : ℂ) ^ 2 = 2 by rw [sq, hs2]]
    linear_combination (B - Complex.I * A) * this

/-- the complex harmonics from the real ones -/
theorem U_forward (l : ℕ) (m : ℤ) (hm : m.natAbs ≤ l) (p : V3) :
    ∑ c ∈ Finset.range (2 * l + 1), Umn m ((c : ℤ) - l) * (realHarmonic l ((c : ℤ) - l) p.1 p.2.1 p.2.2 : ℂ) =
      (kap l : ℂ) * hC l m p := by
  have hne : ((√2 : ℝ) : ℂ) ≠ 0 := by rw [ne_eq, Complex.ofReal_eq_zero]; positivity
  rw [sum_pm l m hm (fun n => Umn m n * (realHarmonic l n p.1 p.2.1 p.2.2 : ℂ)) (fun n h1 h2 => by
    rw [Umn_zero m n (by omega) (by omega), zero_mul])]
  rw [realHarmonic_hC]
  rcases lt_trichotomy m 0 with h | h | h
  · rw [if_neg (by omega), if_neg (by omega), if_pos h]
    obtain ⟨v1, v2, v3, v4⟩ := Umn_vals (-m) (by omega)
    rw [neg_neg] at *
    rw [v2, v4]
    field_simp
    ring
  · subst h
    simp [Umn_00]
  · rw [if_neg (by omega), if_neg (by omega), if_neg (by omega)]
    obtain ⟨v1, v2, v3, v4⟩ := Umn_vals m (by omega)
    rw [v1, v3]
    field_simp
    ring

end Jaxoplanet.Starry
