import Verif.Props.SphHarm
import Verif.Spec.Rotation
import Mathlib.Algebra.Polynomial.Roots

/-!
# The real spherical harmonics are linearly independent on the sphere

Fourier coefficients in the longitude (a polynomial in `e^{iφ}` with the unit circle as zeros is zero), then the degrees of
the Rodrigues polynomials.
-/

namespace Jaxoplanet.Starry
open Spec Real Polynomial

/-- the polynomial of Rodrigues' formula -/
noncomputable def rodPoly (l k : ℕ) : ℝ[X] := (derivative^[l + k]) ((X ^ 2 - 1 : ℝ[X]) ^ l)

theorem rodrigues_rodPoly (l k : ℕ) (z : ℝ) : rodrigues l k z = (rodPoly l k).eval z / (2 ^ l * (l.factorial : ℝ)) := rfl

theorem natDegree_base (l : ℕ) : ((X ^ 2 - 1 : ℝ[X]) ^ l).natDegree ≤ 2 * l := by
  refine (natDegree_pow_le).trans ?_
  have : (X ^ 2 - 1 : ℝ[X]).natDegree ≤ 2 := by compute_degree
  rw [mul_comm 2 l]
  exact Nat.mul_le_mul_left l this

theorem rodPoly_coeff_lt {l l' k : ℕ} (h : l < l') (hk : k ≤ l') : (rodPoly l k).coeff (l' - k) = 0 := by
  unfold rodPoly
  rw [coeff_iterate_derivative, coeff_eq_zero_of_natDegree_lt, smul_zero]
  have := natDegree_base l
  omega

theorem rodPoly_coeff_top {l k : ℕ} (h : k ≤ l) : (rodPoly l k).coeff (l - k) ≠ 0 := by
  unfold rodPoly
  rw [coeff_iterate_derivative, show l - k + (l + k) = 2 * l by omega]
  have h1 : ((X ^ 2 - 1 : ℝ[X]) ^ l).coeff (2 * l) = 1 := by
    have hm : (X ^ 2 - 1 : ℝ[X]).Monic := by
      have := monic_X_pow_sub_C (1 : ℝ) (n := 2) (by norm_num)
      simpa using this
    have hd : (X ^ 2 - 1 : ℝ[X]).natDegree = 2 := by compute_degree!
    have := (hm.pow l).coeff_natDegree
    rwa [hm.natDegree_pow, hd, mul_comm] at this
  rw [h1]
  have : (2 * l).descFactorial (l + k) ≠ 0 := by
    rw [Ne, Nat.descFactorial_eq_zero_iff_lt]
    omega
  simp [this]

/-- polynomials of distinct degrees are independent -/
theorem rodPoly_indep (n k : ℕ) (c : ℕ → ℝ) (h : ∑ l ∈ Finset.range n, (if k ≤ l then C (c l) * rodPoly l k else 0) = 0) :
    ∀ l < n, k ≤ l → c l = 0 := by
  induction n with
  | zero => intro l hl; omega
  | succ n ih =>
    have hn : k ≤ n → c n = 0 := by
      intro hk
      have h1 := congrArg (fun p : ℝ[X] => p.coeff (n - k)) h
      simp only [finsetSum_coeff, coeff_zero] at h1
      rw [Finset.sum_range_succ, Finset.sum_eq_zero, zero_add, if_pos hk, coeff_C_mul] at h1
      · exact (mul_eq_zero.1 h1).resolve_right (rodPoly_coeff_top hk)
      · intro l hl
        rw [Finset.mem_range] at hl
        split_ifs
        · rw [coeff_C_mul, rodPoly_coeff_lt hl hk, mul_zero]
        · simp
    have h2 : ∑ l ∈ Finset.range n, (if k ≤ l then C (c l) * rodPoly l k else 0) = 0 := by
      rw [Finset.sum_range_succ] at h
      by_cases hk : k ≤ n
      · rwa [if_pos hk, hn hk, C_0, zero_mul, add_zero] at h
      · rwa [if_neg hk, add_zero] at h
    intro l hl hk
    rcases Nat.lt_succ_iff_lt_or_eq.1 hl with h3 | rfl
    · exact ih h2 l h3 hk
    · exact hn hk

/-- `cos (m φ)` or `sin (-m φ)` as a polynomial in `e^{iφ}`, times `e^{iLφ}` -/
noncomputable def trigPoly (L : ℕ) (m : ℤ) : ℂ[X] :=
  if 0 ≤ m then C (1 / 2) * (X ^ (L + m.natAbs) + X ^ (L - m.natAbs))
  else C (1 / (2 * Complex.I)) * (X ^ (L + m.natAbs) - X ^ (L - m.natAbs))

theorem trigPoly_eval (L : ℕ) (m : ℤ) (hm : m.natAbs ≤ L) (φ : ℝ) :
    (trigPoly L m).eval (Complex.exp (φ * Complex.I)) =
      Complex.exp (φ * Complex.I) ^ L * ((if 0 ≤ m then cos (m * φ) else sin (-m * φ) : ℝ) : ℂ) := by
  set w := Complex.exp (φ * Complex.I) with hw
  have hw0 : w ≠ 0 := Complex.exp_ne_zero _
  have hp : ∀ k : ℕ, w ^ k = Complex.exp (((k : ℝ) * φ : ℝ) * Complex.I) := by
    intro k
    rw [hw, ← Complex.exp_nat_mul]
    congr 1
    push_cast; ring
  have hn : w ^ (L - m.natAbs) * w ^ m.natAbs = w ^ L := by rw [← pow_add, Nat.sub_add_cancel hm]
  have hinv : Complex.exp (((m.natAbs : ℝ) * φ : ℝ) * Complex.I) * Complex.exp (-((((m.natAbs : ℝ) * φ : ℝ)) * Complex.I)) = 1 := by
    rw [← Complex.exp_add]; simp
  have hsub : w ^ (L - m.natAbs) = w ^ L * Complex.exp (-((((m.natAbs : ℝ) * φ : ℝ)) * Complex.I)) := by
    rw [← hn, mul_assoc, hp m.natAbs, hinv, mul_one]
  unfold trigPoly
  by_cases h : 0 ≤ m
  · have e : (m : ℝ) = (m.natAbs : ℝ) := by
      have : m = (m.natAbs : ℤ) := by omega
      exact (by simpa only [Int.cast_natCast, Int.cast_neg] using congrArg (Int.cast : ℤ → ℝ) this)
    rw [if_pos h, if_pos h, e, Complex.ofReal_cos, Complex.cos]
    simp only [eval_mul, eval_C, eval_add, eval_pow, eval_X]
    rw [hsub, pow_add, hp m.natAbs, neg_mul]
    ring
  · have e : -(m : ℝ) = (m.natAbs : ℝ) := by
      have : -m = (m.natAbs : ℤ) := by omega
      exact (by simpa only [Int.cast_natCast, Int.cast_neg] using congrArg (Int.cast : ℤ → ℝ) this)
    rw [if_neg h, if_neg h, e, Complex.ofReal_sin, Complex.sin]
    simp only [eval_mul, eval_C, eval_sub, eval_pow, eval_X]
    rw [hsub, pow_add, hp m.natAbs, neg_mul]
    generalize Complex.exp (((m.natAbs : ℝ) * φ : ℝ) * Complex.I) = E
    generalize Complex.exp (-(((m.natAbs : ℝ) * φ : ℝ) * Complex.I)) = E'
    have hI := Complex.I_mul_I
    have hI0 := Complex.I_ne_zero
    field_simp
    linear_combination (E - E') * hI

theorem trigPoly_coeff (L : ℕ) (m : ℤ) (k : ℕ) (hk : 0 < k) :
    (trigPoly L m).coeff (L + k) = if m = k then 1 / 2 else if m = -k then 1 / (2 * Complex.I) else 0 := by
  unfold trigPoly
  by_cases h : 0 ≤ m
  · rw [if_pos h, coeff_C_mul, coeff_add, coeff_X_pow, coeff_X_pow, if_neg (show ¬ L + k = L - m.natAbs by omega), add_zero]
    by_cases h1 : m = k
    · rw [if_pos h1, if_pos (by omega), mul_one]
    · rw [if_neg h1, if_neg (show ¬ L + k = L + m.natAbs by omega), if_neg (show ¬ m = -k by omega), mul_zero]
  · rw [if_neg h, coeff_C_mul, coeff_sub, coeff_X_pow, coeff_X_pow, if_neg (show ¬ L + k = L - m.natAbs by omega), sub_zero]
    rw [if_neg (show ¬ m = k by omega)]
    by_cases h1 : m = -k
    · rw [if_pos h1, if_pos (by omega), mul_one]
    · rw [if_neg h1, if_neg (show ¬ L + k = L + m.natAbs by omega), mul_zero]

theorem trigPoly_coeff_zero (L : ℕ) (m : ℤ) (hm : m.natAbs ≤ L) : (trigPoly L m).coeff L = if m = 0 then 1 else 0 := by
  unfold trigPoly
  by_cases h1 : m = 0
  · subst h1; norm_num
  · rw [if_neg h1]
    by_cases h : 0 ≤ m
    · rw [if_pos h, coeff_C_mul, coeff_add, coeff_X_pow, coeff_X_pow, if_neg (by omega), if_neg (by omega)]; simp
    · rw [if_neg h, coeff_C_mul, coeff_sub, coeff_X_pow, coeff_X_pow, if_neg (by omega), if_neg (by omega)]; simp

/-- a polynomial with all numbers of the unit circle as zeros is zero -/
theorem poly_zero_of_circle (P : ℂ[X]) (h : ∀ φ : ℝ, P.eval (Complex.exp (φ * Complex.I)) = 0) : P = 0 := by
  apply Polynomial.eq_zero_of_infinite_isRoot
  have hinj : Set.InjOn (fun φ : ℝ => Complex.exp (φ * Complex.I)) (Set.Icc 0 1) := by
    intro a ha b hb hab
    have h1 := congrArg Complex.arg hab
    simp only at h1
    have hpi := Real.two_le_pi
    rw [Complex.arg_exp_mul_I, Complex.arg_exp_mul_I, (toIocMod_eq_self _).2, (toIocMod_eq_self _).2] at h1
    · exact h1
    · constructor <;> [linarith [hb.1]; linarith [hb.2]]
    · constructor <;> [linarith [ha.1]; linarith [ha.2]]
  refine Set.Infinite.mono ?_ ((Set.Icc_infinite (zero_lt_one (α := ℝ))).image hinj)
  rintro _ ⟨φ, -, rfl⟩
  exact h φ

theorem sum_pick (l : ℕ) (k : ℕ) (f : ℕ → ℝ) : ∑ q ∈ Finset.range (2 * l + 1), (if (q : ℤ) - l = k then f q else 0) = if k ≤ l then f (l + k) else 0 := by
  by_cases h : k ≤ l
  · rw [if_pos h, Finset.sum_eq_single (l + k)]
    · rw [if_pos (by push_cast; ring)]
    · intro q _ hq
      rw [if_neg (by omega)]
    · intro hn
      exact absurd (Finset.mem_range.2 (by omega)) hn
  · rw [if_neg h]
    refine Finset.sum_eq_zero fun q hq => ?_
    rw [Finset.mem_range] at hq
    rw [if_neg (by omega)]

theorem sum_pick_neg (l : ℕ) (k : ℕ) (f : ℕ → ℝ) : ∑ q ∈ Finset.range (2 * l + 1), (if (q : ℤ) - l = -k then f q else 0) = if k ≤ l then f (l - k) else 0 := by
  by_cases h : k ≤ l
  · rw [if_pos h, Finset.sum_eq_single (l - k)]
    · rw [if_pos (by omega)]
    · intro q _ hq
      rw [if_neg (by omega)]
    · intro hn
      exact absurd (Finset.mem_range.2 (by omega)) hn
  · rw [if_neg h]
    refine Finset.sum_eq_zero fun q hq => ?_
    rw [Finset.mem_range] at hq
    rw [if_neg (by omega)]

/-- a map that vanishes on the sphere has the Fourier coefficients in the longitude zero -/
theorem fourier_zero (L : ℕ) (v : ℕ → ℕ → ℝ)
    (h : ∀ x y z : ℝ, x ^ 2 + y ^ 2 + z ^ 2 = 1 → ∑ l ∈ Finset.range (L + 1), ∑ q ∈ Finset.range (2 * l + 1),
      v l q * realHarmonic l ((q : ℤ) - l) x y z = 0) (θ : ℝ) (k : ℕ) :
    ∑ l ∈ Finset.range (L + 1), (if k ≤ l then v l (l + k) * (harmNorm l k * (sin θ ^ k * rodrigues l k (cos θ))) else 0) = 0 ∧
    (0 < k → ∑ l ∈ Finset.range (L + 1), (if k ≤ l then v l (l - k) * (harmNorm l k * (sin θ ^ k * rodrigues l k (cos θ))) else 0) = 0) := by
  set g : ℕ → ℕ → ℝ := fun l q => v l q * (harmNorm l ((q : ℤ) - l).natAbs * (sin θ ^ ((q : ℤ) - l).natAbs * rodrigues l ((q : ℤ) - l).natAbs (cos θ))) with hg
  set P : ℂ[X] := ∑ l ∈ Finset.range (L + 1), ∑ q ∈ Finset.range (2 * l + 1), C (g l q : ℂ) * trigPoly L ((q : ℤ) - l) with hP
  have hP0 : P = 0 := by
    refine poly_zero_of_circle P fun φ => ?_
    have h1 := h (sin θ * cos φ) (sin θ * sin φ) (cos θ) (by
      have a := sin_sq_add_cos_sq θ; have b := sin_sq_add_cos_sq φ
      linear_combination sin θ ^ 2 * b + a)
    simp only [realHarmonic_polar] at h1
    rw [hP]
    simp only [eval_finsetSum, eval_mul, eval_C]
    have h2 : ∀ l ∈ Finset.range (L + 1), ∀ q ∈ Finset.range (2 * l + 1), (g l q : ℂ) * (trigPoly L ((q : ℤ) - l)).eval (Complex.exp (φ * Complex.I)) =
        Complex.exp (φ * Complex.I) ^ L * ((v l q * (harmNorm l ((q : ℤ) - l).natAbs * (sin θ ^ ((q : ℤ) - l).natAbs * rodrigues l ((q : ℤ) - l).natAbs (cos θ)) *
          (if 0 ≤ (q : ℤ) - l then cos (((q : ℤ) - l : ℤ) * φ) else sin (-((q : ℤ) - l : ℤ) * φ))) : ℝ) : ℂ) := by
      intro l hl q hq
      rw [Finset.mem_range] at hl hq
      rw [trigPoly_eval L _ (by omega) φ, hg]
      push_cast
      ring
    rw [Finset.sum_congr rfl fun l hl => Finset.sum_congr rfl fun q hq => h2 l hl q hq]
    simp only [← Finset.mul_sum]
    rw [mul_eq_zero]
    right
    rw [← Complex.ofReal_zero, ← h1]
    push_cast
    rfl
  have hc := fun n => congrArg (fun p : ℂ[X] => p.coeff n) hP0
  simp only [hP, finsetSum_coeff, coeff_C_mul, coeff_zero] at hc
  have hgp : ∀ l k, g l (l + k) = v l (l + k) * (harmNorm l k * (sin θ ^ k * rodrigues l k (cos θ))) := by
    intro l k; simp only [hg]; rw [show (((l + k : ℕ) : ℤ) - l).natAbs = k by omega]
  have hgm : ∀ l k, k ≤ l → g l (l - k) = v l (l - k) * (harmNorm l k * (sin θ ^ k * rodrigues l k (cos θ))) := by
    intro l k hk; simp only [hg]; rw [show (((l - k : ℕ) : ℤ) - l).natAbs = k by omega]
  rcases Nat.eq_zero_or_pos k with rfl | hk
  · refine ⟨?_, fun h => absurd h (lt_irrefl _)⟩
    have h0 := hc L
    have e : ∀ l ∈ Finset.range (L + 1), (∑ q ∈ Finset.range (2 * l + 1), (g l q : ℂ) * (trigPoly L ((q : ℤ) - l)).coeff L) =
        ((if 0 ≤ l then v l (l + 0) * (harmNorm l 0 * (sin θ ^ 0 * rodrigues l 0 (cos θ))) else 0 : ℝ) : ℂ) := by
      intro l hl
      rw [Finset.mem_range] at hl
      rw [← hgp l 0, ← sum_pick l 0 (g l)]
      push_cast
      refine Finset.sum_congr rfl fun q hq => ?_
      rw [Finset.mem_range] at hq
      rw [trigPoly_coeff_zero _ _ (by omega)]
      split_ifs <;> simp
    rw [Finset.sum_congr rfl e] at h0
    exact_mod_cast h0
  · have h0 := hc (L + k)
    have e : ∀ l ∈ Finset.range (L + 1), (∑ q ∈ Finset.range (2 * l + 1), (g l q : ℂ) * (trigPoly L ((q : ℤ) - l)).coeff (L + k)) =
        (1 / 2) * ((if k ≤ l then v l (l + k) * (harmNorm l k * (sin θ ^ k * rodrigues l k (cos θ))) else 0 : ℝ) : ℂ) -
        (1 / 2) * ((if k ≤ l then v l (l - k) * (harmNorm l k * (sin θ ^ k * rodrigues l k (cos θ))) else 0 : ℝ) : ℂ) * Complex.I := by
      intro l hl
      have e1 : (if k ≤ l then v l (l - k) * (harmNorm l k * (sin θ ^ k * rodrigues l k (cos θ))) else 0) = if k ≤ l then g l (l - k) else 0 := by
        split_ifs with h
        · rw [hgm l k h]
        · rfl
      rw [← hgp l k, e1, ← sum_pick l k (g l), ← sum_pick_neg l k (g l)]
      push_cast
      rw [Finset.mul_sum, Finset.mul_sum, Finset.sum_mul, ← Finset.sum_sub_distrib]
      refine Finset.sum_congr rfl fun q hq => ?_
      rw [trigPoly_coeff _ _ k hk]
      have hI : 1 / (2 * Complex.I) = -(1 / 2) * Complex.I := by
        have := Complex.I_mul_I; have h2 := Complex.I_ne_zero
        field_simp
        linear_combination this
      rw [hI]
      by_cases a : (q : ℤ) - l = k
      · rw [if_pos a, if_pos a, if_neg (by omega)]; push_cast; ring
      · rw [if_neg a, if_neg a]
        by_cases b : (q : ℤ) - l = -k
        · rw [if_pos b, if_pos b]; push_cast; ring
        · rw [if_neg b, if_neg b]; push_cast; ring
    rw [Finset.sum_congr rfl e, Finset.sum_sub_distrib, ← Finset.mul_sum, ← Finset.sum_mul, ← Finset.mul_sum, ← Complex.ofReal_sum,
      ← Complex.ofReal_sum] at h0
    have hre := congrArg Complex.re h0
    have him := congrArg Complex.im h0
    simp at hre him
    exact ⟨hre, fun _ => him⟩

theorem harmNorm_ne_zero (l k : ℕ) : harmNorm l k ≠ 0 := by
  unfold harmNorm
  refine (sqrt_pos.2 ?_).ne'
  have h1 : (0 : ℝ) < ((l - k).factorial : ℝ) := by exact_mod_cast Nat.factorial_pos _
  have h2 : (0 : ℝ) < ((l + k).factorial : ℝ) := by exact_mod_cast Nat.factorial_pos _
  have := pi_pos
  split_ifs <;> positivity

/-- one order -/
theorem order_zero (L k : ℕ) (c : ℕ → ℝ)
    (h : ∀ θ : ℝ, ∑ l ∈ Finset.range (L + 1), (if k ≤ l then c l * (harmNorm l k * (sin θ ^ k * rodrigues l k (cos θ))) else 0) = 0) :
    ∀ l ≤ L, k ≤ l → c l = 0 := by
  set d : ℕ → ℝ := fun l => c l * harmNorm l k / (2 ^ l * (l.factorial : ℝ)) with hd
  have hP : ∑ l ∈ Finset.range (L + 1), (if k ≤ l then C (d l) * rodPoly l k else 0) = 0 := by
    apply Polynomial.eq_zero_of_infinite_isRoot
    refine Set.Infinite.mono ?_ (Set.Ioo_infinite (show (-1 : ℝ) < 1 by norm_num))
    intro z hz
    have hs : sin (arccos z) ≠ 0 := by
      rw [sin_arccos]
      refine (sqrt_pos.2 ?_).ne'
      nlinarith [hz.1, hz.2]
    have h1 := h (arccos z)
    rw [cos_arccos hz.1.le hz.2.le] at h1
    have e : ∀ l ∈ Finset.range (L + 1), (if k ≤ l then c l * (harmNorm l k * (sin (arccos z) ^ k * rodrigues l k z)) else 0) =
        sin (arccos z) ^ k * (if k ≤ l then C (d l) * rodPoly l k else 0).eval z := by
      intro l _
      split_ifs
      · rw [rodrigues_rodPoly, eval_mul, eval_C, hd]; ring
      · simp
    rw [Finset.sum_congr rfl e, ← Finset.mul_sum, ← eval_finsetSum] at h1
    exact (mul_eq_zero.1 h1).resolve_left (pow_ne_zero _ hs)
  intro l hl hk
  have := rodPoly_indep (L + 1) k d hP l (by omega) hk
  rw [hd] at this
  have h2 : (2 ^ l * (l.factorial : ℝ)) ≠ 0 := by
    have : (l.factorial : ℝ) ≠ 0 := by exact_mod_cast Nat.factorial_ne_zero l
    positivity
  have h3 := (div_eq_zero_iff.1 this).resolve_right h2
  exact (mul_eq_zero.1 h3).resolve_right (harmNorm_ne_zero l k)

/-- a map that vanishes on the sphere has no coefficients -/
theorem harmonics_indep (L : ℕ) (v : ℕ → ℕ → ℝ)
    (h : ∀ x y z : ℝ, x ^ 2 + y ^ 2 + z ^ 2 = 1 → ∑ l ∈ Finset.range (L + 1), ∑ q ∈ Finset.range (2 * l + 1),
      v l q * realHarmonic l ((q : ℤ) - l) x y z = 0) : ∀ l ≤ L, ∀ q ≤ 2 * l, v l q = 0 := by
  intro l hl q hq
  rcases le_or_gt l q with h1 | h1
  · have := order_zero L (q - l) (fun l' => v l' (l' + (q - l))) (fun θ => (fourier_zero L v h θ (q - l)).1) l hl (by omega)
    rwa [show l + (q - l) = q by omega] at this
  · have := order_zero L (l - q) (fun l' => v l' (l' - (l - q))) (fun θ => (fourier_zero L v h θ (l - q)).2 (by omega)) l hl (by omega)
    rwa [show l - (l - q) = q by omega] at this

end Jaxoplanet.Starry
