import Verif.Spec.Quadrature
import Mathlib.Analysis.Calculus.LocalExtr.Polynomial
import Mathlib.LinearAlgebra.Lagrange
import Mathlib.MeasureTheory.Integral.IntervalIntegral.IntegrationByParts
import Mathlib.MeasureTheory.Integral.IntervalIntegral.Basic
import Mathlib.Topology.ContinuousMap.Weierstrass

/-!
# Gauss-Legendre quadrature: nodes, weights, convergence, existence, uniqueness

Nothing here refers to the code.
-/

namespace Jaxoplanet.Gauss
open _root_.Jaxoplanet.Starry.Spec Polynomial intervalIntegral MeasureTheory

theorem poly_intervalIntegrable (p : ℝ[X]) (a b : ℝ) : IntervalIntegrable (fun x => p.eval x) volume a b :=
  p.continuous.intervalIntegrable a b

/-- a polynomial that is nonnegative on `[-1, 1]` and not zero has a positive integral -/
theorem integral_pos_of_nonneg (p : ℝ[X]) (hp : p ≠ 0) (h : ∀ x ∈ Set.Icc (-1 : ℝ) 1, 0 ≤ p.eval x) :
    0 < ∫ x in (-1 : ℝ)..1, p.eval x := by
  have hex : ∃ c ∈ Set.Icc (-1 : ℝ) 1, 0 < p.eval c := by
    by_contra hc
    push Not at hc
    have hz : ∀ x ∈ Set.Icc (-1 : ℝ) 1, p.eval x = 0 := fun x hx => le_antisymm (hc x hx) (h x hx)
    refine hp (Polynomial.eq_zero_of_infinite_isRoot p ((Set.Icc_infinite (by norm_num : (-1 : ℝ) < 1)).mono ?_))
    exact fun x hx => hz x hx
  exact intervalIntegral.integral_pos (by norm_num) p.continuous.continuousOn (fun x hx => h x ⟨hx.1.le, hx.2⟩) hex

theorem quadSum_nil (g : ℝ → ℝ) : quadSum [] g = 0 := by simp [quadSum]

theorem quadSum_add (rule : List (ℝ × ℝ)) (f g : ℝ → ℝ) : quadSum rule (fun x => f x + g x) = quadSum rule f + quadSum rule g := by
  unfold quadSum
  rw [← List.sum_map_add]
  congr 1
  exact List.map_congr_left fun xw _ => by ring

theorem quadSum_sub (rule : List (ℝ × ℝ)) (f g : ℝ → ℝ) : quadSum rule (fun x => f x - g x) = quadSum rule f - quadSum rule g := by
  have := quadSum_add rule (fun x => f x - g x) g
  simp only [sub_add_cancel] at this
  linarith

theorem quadSum_mul (rule : List (ℝ × ℝ)) (c : ℝ) (g : ℝ → ℝ) : quadSum rule (fun x => c * g x) = c * quadSum rule g := by
  unfold quadSum
  rw [← List.sum_map_mul_left]
  congr 1
  exact List.map_congr_left fun xw _ => by ring

theorem quadSum_congr {rule : List (ℝ × ℝ)} {f g : ℝ → ℝ} (h : ∀ xw ∈ rule, f xw.1 = g xw.1) : quadSum rule f = quadSum rule g := by
  unfold quadSum
  congr 1
  exact List.map_congr_left fun xw hx => by rw [h xw hx]

theorem quadSum_mono {rule : List (ℝ × ℝ)} {f g : ℝ → ℝ} (h : ∀ xw ∈ rule, 0 ≤ xw.2 ∧ f xw.1 ≤ g xw.1) : quadSum rule f ≤ quadSum rule g := by
  unfold quadSum
  exact List.sum_le_sum fun xw hx => mul_le_mul_of_nonneg_left (h xw hx).2 (h xw hx).1

/-- `Π_{a ∈ S} (X - a)` -/
noncomputable def nodePoly (S : Finset ℝ) : ℝ[X] := ∏ a ∈ S, (X - C a)

theorem nodePoly_monic (S : Finset ℝ) : (nodePoly S).Monic := monic_prod_of_monic _ _ fun a _ => monic_X_sub_C a

theorem nodePoly_natDegree (S : Finset ℝ) : (nodePoly S).natDegree = S.card := by
  unfold nodePoly
  rw [natDegree_prod_of_monic _ _ fun a _ => monic_X_sub_C a]
  simp

theorem nodePoly_eval (S : Finset ℝ) (x : ℝ) : (nodePoly S).eval x = ∏ a ∈ S, (x - a) := by
  unfold nodePoly
  rw [eval_prod]
  simp

theorem sq_natDegree (S : Finset ℝ) : (nodePoly S ^ 2).natDegree = 2 * S.card := by
  rw [Monic.natDegree_pow (nodePoly_monic S), nodePoly_natDegree]

variable {n : ℕ} {rule : List (ℝ × ℝ)}

theorem nodes_nodup (h : IsGaussLegendre n rule) : (rule.map Prod.fst).Nodup := by
  classical
  set S := (rule.map Prod.fst).toFinset with hS
  by_contra hd
  have hlt : S.card < n := by
    have h1 := List.toFinset_card_le (rule.map Prod.fst)
    have h2 : S.card ≠ (rule.map Prod.fst).length := fun he => hd (Multiset.toFinset_card_eq_card_iff_nodup.1 he)
    have h3 := h.length
    simp only [List.length_map] at h1 h2
    rw [← hS] at h1
    omega
  have hp : (nodePoly S ^ 2) ≠ 0 := (nodePoly_monic S).pow 2 |>.ne_zero
  have h1 := integral_pos_of_nonneg _ hp fun x _ => by rw [eval_pow]; positivity
  rw [← h.exact _ (by rw [sq_natDegree]; omega)] at h1
  refine h1.ne' ?_
  unfold quadSum
  refine List.sum_eq_zero fun v hv => ?_
  obtain ⟨xw, hx, rfl⟩ := List.mem_map.1 hv
  have : xw.1 ∈ S := List.mem_toFinset.2 (List.mem_map_of_mem hx)
  simp only
  rw [eval_pow, nodePoly_eval, Finset.prod_eq_zero this (by simp)]
  ring

theorem single_node {rule : List (ℝ × ℝ)} (hnd : (rule.map Prod.fst).Nodup) {xw : ℝ × ℝ} (hx : xw ∈ rule) (g : ℝ → ℝ)
    (hg : ∀ yw ∈ rule, yw.1 ≠ xw.1 → g yw.1 = 0) : quadSum rule g = xw.2 * g xw.1 := by
  induction rule with
  | nil => simp at hx
  | cons a t ih =>
    simp only [List.map_cons, List.nodup_cons] at hnd
    simp only [quadSum, List.map_cons, List.sum_cons]
    rcases List.mem_cons.1 hx with rfl | hx
    · have : (t.map fun yw => yw.2 * g yw.1).sum = 0 := by
        refine List.sum_eq_zero fun v hv => ?_
        obtain ⟨yw, hy, rfl⟩ := List.mem_map.1 hv
        rw [hg yw (List.mem_cons_of_mem _ hy), mul_zero]
        exact fun he => hnd.1 (he ▸ List.mem_map_of_mem hy)
      rw [this, add_zero]
    · have h1 := ih hnd.2 hx fun yw hy => hg yw (List.mem_cons_of_mem _ hy)
      simp only [quadSum] at h1
      rw [h1, hg a (List.mem_cons_self ..), mul_zero, zero_add]
      exact fun he => hnd.1 (he ▸ List.mem_map_of_mem hx)

theorem node_facts (h : IsGaussLegendre n rule) {xw : ℝ × ℝ} (hx : xw ∈ rule) : 0 < xw.2 ∧ -1 < xw.1 ∧ xw.1 < 1 := by
  classical
  have hnd := nodes_nodup h
  set S := (rule.map Prod.fst).toFinset.erase xw.1 with hS
  have hmem : xw.1 ∈ (rule.map Prod.fst).toFinset := List.mem_toFinset.2 (List.mem_map_of_mem hx)
  have hn : 0 < n := by rw [← h.length]; exact List.length_pos_of_mem hx
  have hcard : S.card = n - 1 := by
    rw [hS, Finset.card_erase_of_mem hmem, List.toFinset_card_of_nodup hnd, List.length_map, h.length]
  have hsq : 0 < (nodePoly S ^ 2).eval xw.1 := by
    rw [eval_pow, nodePoly_eval]
    refine sq_pos_of_ne_zero (Finset.prod_ne_zero_iff.2 fun a ha => sub_ne_zero.2 ?_)
    exact (Finset.ne_of_mem_erase ha).symm
  have key : ∀ p : ℝ[X], p ≠ 0 → p.natDegree ≤ 1 → (∀ x ∈ Set.Icc (-1 : ℝ) 1, 0 ≤ p.eval x) → 0 < xw.2 * p.eval xw.1 := by
    intro p hp hd hpos
    have hne : p * nodePoly S ^ 2 ≠ 0 := mul_ne_zero hp ((nodePoly_monic S).pow 2 |>.ne_zero)
    have h1 := integral_pos_of_nonneg _ hne fun x hx' => by
      rw [eval_mul, eval_pow]; exact mul_nonneg (hpos x hx') (sq_nonneg _)
    rw [← h.exact _ ?_, single_node hnd hx] at h1
    · rw [eval_mul, ← mul_assoc] at h1
      exact pos_of_mul_pos_left h1 hsq.le
    · intro yw hy hne'
      have : yw.1 ∈ S := Finset.mem_erase.2 ⟨hne', List.mem_toFinset.2 (List.mem_map_of_mem hy)⟩
      rw [eval_mul, eval_pow, nodePoly_eval, Finset.prod_eq_zero this (by simp)]
      ring
    · refine lt_of_le_of_lt natDegree_mul_le ?_
      rw [sq_natDegree]
      omega
  have h1 := key 1 one_ne_zero (by simp) (by simp)
  have h2 := key (C (-1) * X + C 1) (fun h0 => by simpa using congrArg (eval 0) h0) natDegree_linear_le (fun x hx => by simp; linarith [hx.2])
  have h3 := key (X + C 1) (X_add_C_ne_zero 1) (natDegree_X_add_C 1).le (fun x hx => by simp; linarith [hx.1])
  simp only [eval_one, mul_one, eval_mul, eval_add, eval_C, eval_X] at h1 h2 h3
  refine ⟨h1, ?_, ?_⟩
  · have := pos_of_mul_pos_right h3 h1.le; linarith
  · have := pos_of_mul_pos_right h2 h1.le; linarith

/-- the weights add to the length of the interval -/
theorem weights_sum (h : IsGaussLegendre n rule) (hn : 0 < n) : quadSum rule (fun _ => 1) = 2 := by
  have := h.exact 1 (by simp; omega)
  simp only [eval_one] at this
  rw [this]
  norm_num

/-- error bound by polynomial approximation -/
theorem error_le (h : IsGaussLegendre n rule) {g : ℝ → ℝ} (hg : IntervalIntegrable g volume (-1) 1) (p : ℝ[X])
    (hd : p.natDegree < 2 * n) {ε : ℝ} (hε : ∀ x ∈ Set.Icc (-1 : ℝ) 1, |g x - p.eval x| ≤ ε) :
    |quadSum rule g - ∫ x in (-1 : ℝ)..1, g x| ≤ 4 * ε := by
  have h1 : |quadSum rule g - quadSum rule (fun x => p.eval x)| ≤ 2 * ε := by
    rw [← quadSum_sub]
    have hw := weights_sum h (by omega)
    have hc : quadSum rule (fun _ => ε) = 2 * ε := by
      have := quadSum_mul rule ε fun _ => 1
      simp only [mul_one] at this
      rw [this, hw]; ring
    have hc' : quadSum rule (fun _ => -ε) = -(2 * ε) := by
      have := quadSum_mul rule (-ε) fun _ => 1
      simp only [mul_one] at this
      rw [this, hw]; ring
    rw [abs_le, ← hc']
    have hx : ∀ xw ∈ rule, 0 ≤ xw.2 ∧ |g xw.1 - p.eval xw.1| ≤ ε := fun xw hx =>
      ⟨(node_facts h hx).1.le, hε _ ⟨(node_facts h hx).2.1.le, (node_facts h hx).2.2.le⟩⟩
    rw [← hc]
    exact ⟨quadSum_mono fun xw hxw => ⟨(hx xw hxw).1, (abs_le.1 (hx xw hxw).2).1⟩,
      quadSum_mono fun xw hxw => ⟨(hx xw hxw).1, (abs_le.1 (hx xw hxw).2).2⟩⟩
  have h2 : |(∫ x in (-1 : ℝ)..1, g x) - ∫ x in (-1 : ℝ)..1, p.eval x| ≤ 2 * ε := by
    rw [← intervalIntegral.integral_sub hg (poly_intervalIntegrable p _ _)]
    have := intervalIntegral.norm_integral_le_of_norm_le_const (a := (-1 : ℝ)) (b := 1) (C := ε)
      (f := fun x => g x - p.eval x) fun x hx => by
        rw [Set.uIoc_of_le (by norm_num)] at hx
        exact hε x ⟨hx.1.le, hx.2⟩
    rw [Real.norm_eq_abs] at this
    refine this.trans (le_of_eq ?_)
    norm_num; ring
  rw [h.exact p hd] at h1
  have := abs_sub_le (quadSum rule g) (∫ x in (-1 : ℝ)..1, p.eval x) (∫ x in (-1 : ℝ)..1, g x)
  rw [abs_sub_comm] at h2
  linarith

open Filter Topology in
/-- Gauss-Legendre rules converge for continuous functions -/
theorem tendsto_quadSum {quad : ℕ → List (ℝ × ℝ)} (hq : ∀ n, IsGaussLegendre n (quad n)) {g : ℝ → ℝ}
    (hg : ContinuousOn g (Set.Icc (-1) 1)) : Tendsto (fun n => quadSum (quad n) g) atTop (𝓝 (∫ x in (-1 : ℝ)..1, g x)) := by
  rw [Metric.tendsto_atTop]
  intro ε hε
  obtain ⟨p, hp⟩ := exists_polynomial_near_of_continuousOn (-1) 1 g hg (ε / 5) (by positivity)
  refine ⟨p.natDegree + 1, fun n hn => ?_⟩
  rw [Real.dist_eq]
  have hgi : IntervalIntegrable g volume (-1) 1 := by
    refine ContinuousOn.intervalIntegrable ?_
    rwa [Set.uIcc_of_le (by norm_num)]
  refine lt_of_le_of_lt (error_le (hq n) hgi p (by omega) fun x hx => ?_) (by linarith : 4 * (ε / 5) < ε)
  rw [abs_sub_comm]
  exact (hp x hx).le

/-! ### existence -/

/-- `(X² - 1)^n` -/
noncomputable def rodr (n : ℕ) : ℝ[X] := ((X - C 1) * (X + C 1)) ^ n

theorem rodr_monic (n : ℕ) : (rodr n).Monic := ((monic_X_sub_C 1).mul (monic_X_add_C 1)).pow n

theorem rodr_natDegree (n : ℕ) : (rodr n).natDegree = 2 * n := by
  unfold rodr
  rw [Monic.natDegree_pow ((monic_X_sub_C 1).mul (monic_X_add_C 1)), Monic.natDegree_mul (monic_X_sub_C 1) (monic_X_add_C 1),
    natDegree_X_sub_C, natDegree_X_add_C]
  ring

theorem dvd_iter (a : ℝ) (q : ℝ[X]) (k m : ℕ) : (X - C a) ^ (m - k) ∣ derivative^[k] ((X - C a) ^ m * q) := by
  induction k generalizing m q with
  | zero => simp
  | succ k ih =>
    rw [Function.iterate_succ_apply]
    rcases m with _ | m
    · simp
    rw [derivative_mul, derivative_X_sub_C_pow]
    have e : C ((m + 1 : ℕ) : ℝ) * (X - C a) ^ (m + 1 - 1) * q + (X - C a) ^ (m + 1) * derivative q =
        (X - C a) ^ m * (C ((m + 1 : ℕ) : ℝ) * q + (X - C a) * derivative q) := by
      rw [Nat.add_sub_cancel]; ring
    rw [e, Nat.add_sub_add_right]
    exact ih _ _

theorem rodr_iter_zero {n k : ℕ} (hk : k < n) {a : ℝ} (ha : a = 1 ∨ a = -1) : (derivative^[k] (rodr n)).eval a = 0 := by
  have h : ∃ q, rodr n = (X - C a) ^ n * q := by
    rcases ha with rfl | rfl
    · exact ⟨(X + C 1) ^ n, by rw [rodr, mul_pow]⟩
    · exact ⟨(X - C 1) ^ n, by rw [rodr, mul_pow, mul_comm]; simp⟩
  obtain ⟨q, hq⟩ := h
  rw [hq]
  refine eval_eq_zero_of_dvd_of_eval_eq_zero (dvd_iter a q k n) ?_
  simp [Nat.sub_ne_zero_of_lt hk]

/-- integration by parts, repeatedly -/
theorem by_parts (n k : ℕ) (hk : k ≤ n) (q : ℝ[X]) : ∫ x in (-1 : ℝ)..1, (derivative^[n] (rodr n)).eval x * q.eval x =
    (-1) ^ k * ∫ x in (-1 : ℝ)..1, (derivative^[n - k] (rodr n)).eval x * (derivative^[k] q).eval x := by
  induction k with
  | zero => simp
  | succ k ih =>
    rw [ih (by omega), pow_succ]
    have hd : n - k = (n - (k + 1)) + 1 := by omega
    have h := intervalIntegral.integral_mul_deriv_eq_deriv_mul (a := (-1 : ℝ)) (b := 1)
      (u := fun x => (derivative^[k] q).eval x) (u' := fun x => (derivative^[k + 1] q).eval x)
      (v := fun x => (derivative^[n - (k + 1)] (rodr n)).eval x) (v' := fun x => (derivative^[n - k] (rodr n)).eval x)
      (fun x _ => by rw [Function.iterate_succ_apply']; exact Polynomial.hasDerivAt _ x)
      (fun x _ => by rw [hd, Function.iterate_succ_apply']; exact Polynomial.hasDerivAt _ x)
      (poly_intervalIntegrable _ _ _) (poly_intervalIntegrable _ _ _)
    rw [rodr_iter_zero (by omega) (Or.inl rfl), rodr_iter_zero (by omega) (Or.inr rfl)] at h
    simp only [mul_zero, sub_zero, zero_sub] at h
    have c1 : ∀ x, (derivative^[n - k] (rodr n)).eval x * (derivative^[k] q).eval x =
      (derivative^[k] q).eval x * (derivative^[n - k] (rodr n)).eval x := fun x => mul_comm _ _
    have c2 : ∀ x, (derivative^[n - (k + 1)] (rodr n)).eval x * (derivative^[k + 1] q).eval x =
      (derivative^[k + 1] q).eval x * (derivative^[n - (k + 1)] (rodr n)).eval x := fun x => mul_comm _ _
    simp only [c1, c2, h]
    ring

/-- the Legendre polynomial of degree `n`, up to a factor -/
noncomputable def leg (n : ℕ) : ℝ[X] := derivative^[n] (rodr n)

theorem leg_orthogonal {n : ℕ} {q : ℝ[X]} (hq : q.natDegree < n) : ∫ x in (-1 : ℝ)..1, (leg n * q).eval x = 0 := by
  have h := by_parts n n le_rfl q
  simp only [eval_mul, leg]
  rw [h, iterate_derivative_eq_zero hq]
  simp

theorem leg_natDegree (n : ℕ) : (leg n).natDegree = n := by
  have h1 : (leg n).natDegree ≤ n := by
    unfold leg
    refine (natDegree_iterate_derivative _ _).trans ?_
    rw [rodr_natDegree]; omega
  refine le_antisymm h1 (le_natDegree_of_ne_zero ?_)
  unfold leg
  rw [coeff_iterate_derivative]
  have : (rodr n).coeff (n + n) = 1 := by
    have := (rodr_monic n).coeff_natDegree
    rwa [rodr_natDegree, two_mul] at this
  rw [this]
  simp [Nat.descFactorial_eq_zero_iff_lt]

theorem leg_ne_zero (n : ℕ) : leg n ≠ 0 := by
  rcases n with _ | n
  · simp [leg, rodr]
  · intro h
    have := leg_natDegree (n + 1)
    rw [h] at this
    simp at this

theorem leg_roots_card (n : ℕ) : (leg n).roots.card = n := by
  refine le_antisymm ((card_roots' _).trans (leg_natDegree n).le) ?_
  have h : ∀ k, (rodr n).roots.card ≤ (derivative^[k] (rodr n)).roots.card + k := by
    intro k
    induction k with
    | zero => simp
    | succ k ih =>
      refine ih.trans ?_
      rw [Function.iterate_succ_apply']
      have := card_roots_le_derivative (derivative^[k] (rodr n))
      omega
  have h1 := h n
  have h2 : (rodr n).roots.card = 2 * n := by
    unfold rodr
    rw [roots_pow, roots_mul ((monic_X_sub_C 1).mul (monic_X_add_C 1)).ne_zero, roots_X_sub_C, roots_X_add_C]
    simp; ring
  unfold leg
  omega

theorem leg_roots_nodup (n : ℕ) : (leg n).roots.Nodup := by
  classical
  rw [Multiset.nodup_iff_count_le_one]
  intro a
  by_contra hc
  push Not at hc
  rw [count_roots] at hc
  obtain ⟨R, hR⟩ := (le_rootMultiplicity_iff (leg_ne_zero n)).1 (show 2 ≤ rootMultiplicity a (leg n) from hc)
  have hR0 : R ≠ 0 := by
    rintro rfl
    exact leg_ne_zero n (by rw [hR, mul_zero])
  have hdeg : R.natDegree < n := by
    have := leg_natDegree n
    rw [hR, Monic.natDegree_mul' ((monic_X_sub_C a).pow 2) hR0, (monic_X_sub_C a).natDegree_pow, natDegree_X_sub_C] at this
    omega
  have h1 := leg_orthogonal hdeg
  have h2 := integral_pos_of_nonneg (leg n * R) (mul_ne_zero (leg_ne_zero n) hR0) fun x _ => by
    rw [hR]
    simp only [eval_mul, eval_pow, eval_sub, eval_X, eval_C]
    nlinarith [mul_nonneg (sq_nonneg (x - a)) (sq_nonneg (R.eval x))]
  linarith

theorem quadSum_finset (S : Finset ℝ) (w : ℝ → ℝ) (g : ℝ → ℝ) : quadSum (S.toList.map fun a => (a, w a)) g = ∑ a ∈ S, w a * g a := by
  unfold quadSum
  rw [List.map_map, ← Finset.sum_map_toList]
  rfl

/-- a Gauss-Legendre rule exists for every number of nodes -/
theorem exists_gauss (n : ℕ) : ∃ rule, IsGaussLegendre n rule := by
  classical
  set S := (leg n).roots.toFinset with hS
  have hcard : S.card = n := by
    rw [hS, Multiset.toFinset_card_of_nodup (leg_roots_nodup n), leg_roots_card]
  set w : ℝ → ℝ := fun a => ∫ x in (-1 : ℝ)..1, (Lagrange.basis S id a).eval x with hw
  refine ⟨S.toList.map fun a => (a, w a), by simp [hcard], fun p hp => ?_⟩
  rw [quadSum_finset]
  have hroot : ∀ a ∈ S, (leg n).eval a = 0 := fun a ha => by
    rw [hS, Multiset.mem_toFinset, mem_roots (leg_ne_zero n)] at ha
    exact ha
  have hdiv := EuclideanDomain.div_add_mod p (leg n)
  set q := p / leg n
  set r := p % leg n
  have hr : r.degree < S.card := by
    have : r.degree < (leg n).degree := EuclideanDomain.mod_lt p (leg_ne_zero n)
    rwa [degree_eq_natDegree (leg_ne_zero n), leg_natDegree, ← hcard] at this
  have hn : 0 < n := by omega
  have hqd : q.natDegree < n := by
    by_contra hc
    have hq0 : q ≠ 0 := by
      rintro h0
      rw [h0, natDegree_zero] at hc
      omega
    have h1 : (leg n * q).natDegree = n + q.natDegree := by
      rw [natDegree_mul (leg_ne_zero n) hq0, leg_natDegree]
    have h2 : p.natDegree = (leg n * q).natDegree := by
      rw [← hdiv]
      refine natDegree_add_eq_left_of_degree_lt (hr.trans_le ?_)
      rw [degree_eq_natDegree (mul_ne_zero (leg_ne_zero n) hq0), h1, hcard]
      exact_mod_cast Nat.le_add_right _ _
    omega
  have e1 : ∫ x in (-1 : ℝ)..1, p.eval x = ∫ x in (-1 : ℝ)..1, r.eval x := by
    have : ∀ x, p.eval x = (leg n * q).eval x + r.eval x := fun x => by rw [← eval_add, hdiv]
    simp only [this]
    rw [intervalIntegral.integral_add (poly_intervalIntegrable _ _ _) (poly_intervalIntegrable _ _ _), leg_orthogonal hqd, zero_add]
  have e2 : ∀ a ∈ S, p.eval a = r.eval a := fun a ha => by
    rw [← hdiv, eval_add, eval_mul, hroot a ha]; ring
  have e3 : r = Lagrange.interpolate S id fun a => r.eval a := Lagrange.eq_interpolate (f := r) (Set.injOn_id _) hr
  have e4 : ∀ x, r.eval x = ∑ a ∈ S, r.eval a * (Lagrange.basis S id a).eval x := fun x => by
    conv_lhs => rw [e3]
    rw [Lagrange.interpolate_apply, eval_finsetSum]
    exact Finset.sum_congr rfl fun a _ => by rw [eval_mul, eval_C]
  rw [e1, intervalIntegral.integral_congr (g := fun x => ∑ a ∈ S, r.eval a * (Lagrange.basis S id a).eval x) fun x _ => e4 x]
  rw [intervalIntegral.integral_finsetSum fun a _ => ((poly_intervalIntegrable _ _ _).const_mul _)]
  refine Finset.sum_congr rfl fun a ha => ?_
  rw [intervalIntegral.integral_const_mul, e2 a ha, mul_comm]

/-! ### uniqueness -/

variable {rule' : List (ℝ × ℝ)}

theorem nodePoly_orthogonal (h : IsGaussLegendre n rule) {q : ℝ[X]} (hq : q.natDegree < n) :
    ∫ x in (-1 : ℝ)..1, (nodePoly (rule.map Prod.fst).toFinset * q).eval x = 0 := by
  have hcard : (rule.map Prod.fst).toFinset.card = n := by
    rw [List.toFinset_card_of_nodup (nodes_nodup h), List.length_map, h.length]
  rw [← h.exact]
  · unfold quadSum
    refine List.sum_eq_zero fun v hv => ?_
    obtain ⟨xw, hx, rfl⟩ := List.mem_map.1 hv
    simp only
    rw [eval_mul, nodePoly_eval, Finset.prod_eq_zero (List.mem_toFinset.2 (List.mem_map_of_mem hx)) (by simp)]
    ring
  · refine lt_of_le_of_lt natDegree_mul_le ?_
    rw [nodePoly_natDegree, hcard]
    omega

/-- two Gauss-Legendre rules with the same number of nodes have the same nodes -/
theorem nodes_unique (h : IsGaussLegendre n rule) (h' : IsGaussLegendre n rule') :
    (rule.map Prod.fst).toFinset = (rule'.map Prod.fst).toFinset := by
  set S := (rule.map Prod.fst).toFinset with hS
  set S' := (rule'.map Prod.fst).toFinset with hS'
  have hc : S.card = n := by rw [hS, List.toFinset_card_of_nodup (nodes_nodup h), List.length_map, h.length]
  have hc' : S'.card = n := by rw [hS', List.toFinset_card_of_nodup (nodes_nodup h'), List.length_map, h'.length]
  have hP : nodePoly S = nodePoly S' := by
    by_contra hne
    have hd0 : nodePoly S - nodePoly S' ≠ 0 := sub_ne_zero.2 hne
    have hd : (nodePoly S - nodePoly S').natDegree < n := by
      have hdeg : (nodePoly S - nodePoly S').degree < (nodePoly S).degree := by
        refine degree_sub_lt_left ?_ (nodePoly_monic S).ne_zero ?_
        · rw [degree_eq_natDegree (nodePoly_monic S).ne_zero, degree_eq_natDegree (nodePoly_monic S').ne_zero,
            nodePoly_natDegree, nodePoly_natDegree, hc, hc']
        · rw [(nodePoly_monic S).leadingCoeff, (nodePoly_monic S').leadingCoeff]
      rw [natDegree_lt_iff_degree_lt hd0, ← hc, ← nodePoly_natDegree S, ← degree_eq_natDegree (nodePoly_monic S).ne_zero]
      exact hdeg
    have h1 := nodePoly_orthogonal h hd
    have h2 := nodePoly_orthogonal h' hd
    have h3 := integral_pos_of_nonneg _ (pow_ne_zero 2 hd0) fun x _ => by rw [eval_pow]; positivity
    have e : ∀ x, ((nodePoly S - nodePoly S') ^ 2).eval x =
        (nodePoly S * (nodePoly S - nodePoly S')).eval x - (nodePoly S' * (nodePoly S - nodePoly S')).eval x := fun x => by
      rw [← eval_sub]; congr 1; ring
    simp only [e] at h3
    rw [intervalIntegral.integral_sub (poly_intervalIntegrable _ _ _) (poly_intervalIntegrable _ _ _), h1, h2] at h3
    linarith
  have hroots : ∀ T : Finset ℝ, (nodePoly T).roots = T.val := fun T => by
    unfold nodePoly; exact roots_prod_X_sub_C T
  have := congrArg Polynomial.roots hP
  rw [hroots, hroots] at this
  exact Finset.val_injective this

/-- two Gauss-Legendre rules with the same number of nodes are the same, up to the order of the nodes -/
theorem gauss_unique (h : IsGaussLegendre n rule) (h' : IsGaussLegendre n rule') : rule.Perm rule' := by
  have hnd := nodes_nodup h
  have hnd' := nodes_nodup h'
  have hS := nodes_unique h h'
  have key : ∀ {rule rule' : List (ℝ × ℝ)}, IsGaussLegendre n rule → IsGaussLegendre n rule' →
      (rule.map Prod.fst).toFinset = (rule'.map Prod.fst).toFinset → ∀ xw ∈ rule, xw ∈ rule' := by
    intro rule rule' h h' hS xw hx
    have hmem : xw.1 ∈ (rule'.map Prod.fst).toFinset := by rw [← hS]; exact List.mem_toFinset.2 (List.mem_map_of_mem hx)
    obtain ⟨yw, hy, hyx⟩ := List.mem_map.1 (List.mem_toFinset.1 hmem)
    have hcard : ((rule.map Prod.fst).toFinset.erase xw.1).card = n - 1 := by
      rw [Finset.card_erase_of_mem (by rw [hS]; exact hmem), List.toFinset_card_of_nodup (nodes_nodup h), List.length_map, h.length]
    have hn : 0 < n := by rw [← h.length]; exact List.length_pos_of_mem hx
    set p := nodePoly ((rule.map Prod.fst).toFinset.erase xw.1) with hp
    have hdeg : p.natDegree < 2 * n := by rw [hp, nodePoly_natDegree, hcard]; omega
    have e1 := h.exact p hdeg
    have e2 := h'.exact p hdeg
    have z : ∀ a ∈ (rule.map Prod.fst).toFinset, a ≠ xw.1 → p.eval a = 0 := fun a ha hne => by
      rw [hp, nodePoly_eval, Finset.prod_eq_zero (Finset.mem_erase.2 ⟨hne, ha⟩) (by simp)]
    rw [single_node (nodes_nodup h) hx _ fun a ha hne => z a.1 (List.mem_toFinset.2 (List.mem_map_of_mem ha)) hne] at e1
    rw [single_node (nodes_nodup h') hy _ fun a ha hne => z a.1 (by rw [hS]; exact List.mem_toFinset.2 (List.mem_map_of_mem ha)) (by rwa [hyx] at hne),
      ← e1, hyx] at e2
    have hne : p.eval xw.1 ≠ 0 := by
      rw [hp, nodePoly_eval]
      exact Finset.prod_ne_zero_iff.2 fun a ha => sub_ne_zero.2 (Finset.ne_of_mem_erase ha).symm
    have hw : yw.2 = xw.2 := mul_right_cancel₀ hne e2
    rwa [← Prod.ext hyx hw]
  exact (List.perm_ext_iff_of_nodup (List.Nodup.of_map _ hnd) (List.Nodup.of_map _ hnd')).2 fun xw =>
    ⟨key h h' hS xw, key h' h hS.symm xw⟩

/-- the value of a Gauss-Legendre sum does not depend on the rule, only on its number of nodes -/
theorem quadSum_unique (h : IsGaussLegendre n rule) (h' : IsGaussLegendre n rule') (g : ℝ → ℝ) : quadSum rule g = quadSum rule' g :=
  ((gauss_unique h h').map _).sum_eq

end Jaxoplanet.Gauss
