import Verif.Proofs.Gauss
import Mathlib.Analysis.Calculus.LocalExtr.Rolle
import Mathlib.Analysis.SpecialFunctions.Trigonometric.Chebyshev.RootsExtrema
import Mathlib.RingTheory.Polynomial.Chebyshev
import Mathlib.LinearAlgebra.Lagrange
import Mathlib.Data.Nat.Choose.Sum
import Mathlib.Analysis.SpecialFunctions.Trigonometric.Deriv

/-!
# Explicit error of Gauss-Legendre quadrature for functions with bounded derivatives

Nothing here refers to the code.
-/

namespace Jaxoplanet.Gauss
open _root_.Jaxoplanet.Starry.Spec Polynomial intervalIntegral MeasureTheory

/-- `F k` is the `k`-th derivative of `F 0` -/
def Derivs (F : ℕ → ℝ → ℝ) : Prop := ∀ k t, HasDerivAt (F k) (F (k + 1) t) t

/-- Rolle's theorem, repeatedly -/
theorem rolle_iter (N : ℕ) (F : ℕ → ℝ → ℝ) (hF : Derivs F) (x : ℕ → ℝ) (hx : ∀ i < N, x i < x (i + 1))
    (hz : ∀ i ≤ N, F 0 (x i) = 0) : ∃ ξ, F N ξ = 0 := by
  induction N generalizing F x with
  | zero => exact ⟨x 0, hz 0 le_rfl⟩
  | succ N ih =>
    have h : ∀ i, ∃ y, i ≤ N → (x i < y ∧ y < x (i + 1)) ∧ F 1 y = 0 := by
      intro i
      by_cases hi : i ≤ N
      · obtain ⟨c, hc, hc'⟩ := exists_hasDerivAt_eq_zero (f := F 0) (f' := F 1) (hx i (by omega))
          (fun t _ => (hF 0 t).continuousAt.continuousWithinAt) (by rw [hz i (by omega), hz (i + 1) (by omega)]) fun t _ => hF 0 t
        exact ⟨c, fun _ => ⟨hc, hc'⟩⟩
      · exact ⟨0, fun h => absurd h hi⟩
    choose y hy using h
    obtain ⟨ξ, hξ⟩ := ih (fun k => F (k + 1)) (fun k t => hF (k + 1) t) y
      (fun i hi => (hy i (by omega)).1.2.trans (hy (i + 1) (by omega)).1.1) fun i hi => (hy i hi).2
    exact ⟨ξ, hξ⟩

theorem derivs_poly (p : ℝ[X]) : Derivs fun k t => (derivative^[k] p).eval t := by
  intro k t
  simp only [Function.iterate_succ_apply']
  exact Polynomial.hasDerivAt _ t

/-- interpolation at the Chebyshev nodes -/
theorem cheb_interp {N : ℕ} (hN : 0 < N) {F : ℕ → ℝ → ℝ} (hF : Derivs F) {M : ℝ} (hM : ∀ t, |F N t| ≤ M) :
    ∃ p : ℝ[X], p.natDegree < N ∧ ∀ x ∈ Set.Icc (-1 : ℝ) 1, |F 0 x - p.eval x| ≤ M / (N.factorial * 2 ^ (N - 1)) := by
  classical
  set T := Chebyshev.T ℝ N with hT
  set S := T.roots.toFinset with hS
  have hTd : T.natDegree = N := by rw [hT, Chebyshev.natDegree_T, Int.natAbs_natCast]
  have hT0 : T ≠ 0 := by
    intro h
    rw [h, natDegree_zero] at hTd
    omega
  have hcard : S.card = N := by
    rw [hS, hT, Chebyshev.roots_T_real]
    have := Chebyshev.roots_T_real N
    rw [Multiset.toFinset_card_of_nodup (Finset.nodup _)]
    have h1 : (Finset.image (fun k : ℕ => Real.cos ((2 * k + 1) * Real.pi / (2 * N))) (Finset.range N)).card = N := by
      rw [Finset.card_image_of_injOn ((Finset.range N).nodup_map_iff_injOn.mp (Chebyshev.roots_T_real_nodup N)), Finset.card_range]
    exact h1
  have hroot : ∀ a ∈ S, T.eval a = 0 := fun a ha => by
    rw [hS, Multiset.mem_toFinset, mem_roots hT0] at ha
    exact ha
  have hnroot : ∀ a, a ∉ S → T.eval a ≠ 0 := fun a ha h => ha (by
    rw [hS, Multiset.mem_toFinset, mem_roots hT0]; exact h)
  set p := Lagrange.interpolate S id (F 0) with hp
  have hpd : p.degree < N := by
    rw [← hcard]
    exact Lagrange.degree_interpolate_lt _ (Set.injOn_id _)
  have hpn : p.natDegree < N := by
    by_cases h0 : p = 0
    · rw [h0, natDegree_zero]; exact hN
    · rwa [natDegree_lt_iff_degree_lt h0]
  have hpv : ∀ a ∈ S, p.eval a = F 0 a := fun a ha => Lagrange.eval_interpolate_at_node (v := id) (F 0) (Set.injOn_id _) ha
  refine ⟨p, hpn, fun x hx => ?_⟩
  have hM0 : 0 ≤ M := (abs_nonneg _).trans (hM 0)
  by_cases hxS : x ∈ S
  · rw [hpv x hxS, sub_self, abs_zero]
    positivity
  set K := (F 0 x - p.eval x) / T.eval x with hK
  have hTx := hnroot x hxS
  set G : ℕ → ℝ → ℝ := fun k t => F k t - (derivative^[k] p).eval t - K * (derivative^[k] T).eval t with hG
  have hGd : Derivs G := fun k t => ((hF k t).sub (derivs_poly p k t)).sub ((derivs_poly T k t).const_mul K)
  have hS' : (insert x S).card = N + 1 := by rw [Finset.card_insert_of_notMem hxS, hcard]
  set e := (insert x S).orderEmbOfFin hS' with he
  set z : ℕ → ℝ := fun i => if h : i < N + 1 then e ⟨i, h⟩ else 0 with hz
  obtain ⟨ξ, hξ⟩ := rolle_iter N G hGd z
    (fun i hi => by
      simp only [hz]
      rw [dif_pos (by omega), dif_pos (by omega)]
      exact e.strictMono (by simp [Fin.lt_def]))
    (fun i hi => by
      simp only [hz]
      rw [dif_pos (by omega)]
      have hm : e ⟨i, by omega⟩ ∈ insert x S := Finset.orderEmbOfFin_mem _ _ _
      simp only [hG, Function.iterate_zero, id_eq]
      rcases Finset.mem_insert.1 hm with h | h
      · rw [h, hK, div_mul_cancel₀ _ hTx, sub_self]
      · rw [hpv _ h, hroot _ h]; ring)
  have h1 : (derivative^[N] p).eval ξ = 0 := by rw [iterate_derivative_eq_zero hpn, eval_zero]
  have h2 : (derivative^[N] T).eval ξ = N.factorial * 2 ^ (N - 1) := by
    have hd0 : (derivative^[N] T).natDegree ≤ 0 := by
      refine (natDegree_iterate_derivative _ _).trans ?_
      rw [hTd]; omega
    rw [eq_C_of_natDegree_le_zero hd0, eval_C, coeff_iterate_derivative, zero_add, Nat.descFactorial_self]
    have : T.coeff N = 2 ^ (N - 1) := by
      have := Chebyshev.leadingCoeff_T ℝ (N : ℤ)
      rw [leadingCoeff, ← hT, hTd] at this
      rw [this, Int.natAbs_natCast]
    rw [this, nsmul_eq_mul]
  have hpos : (0 : ℝ) < N.factorial * 2 ^ (N - 1) := by positivity
  simp only [hG, h1, h2, sub_zero] at hξ
  have hKe : K = F N ξ / (N.factorial * 2 ^ (N - 1)) := by
    rw [eq_div_iff hpos.ne']; linarith
  have hE : F 0 x - p.eval x = K * T.eval x := by rw [hK, div_mul_cancel₀ _ hTx]
  rw [hE, abs_mul, hKe, abs_div, abs_of_pos hpos]
  have hT1 : |T.eval x| ≤ 1 := Chebyshev.abs_eval_T_real_le_one N (abs_le.2 hx)
  have h3 : |F N ξ| / (N.factorial * 2 ^ (N - 1)) ≤ M / (N.factorial * 2 ^ (N - 1)) := div_le_div_of_nonneg_right (hM ξ) hpos.le
  calc _ ≤ |F N ξ| / (N.factorial * 2 ^ (N - 1)) * 1 := mul_le_mul_of_nonneg_left hT1 (by positivity)
    _ ≤ _ := by rw [mul_one]; exact h3

/-- all derivatives of `f` are bounded like those of a trigonometric polynomial -/
def DerivBound (f : ℝ → ℝ) (A Ω : ℝ) : Prop :=
  ∃ F : ℕ → ℝ → ℝ, F 0 = f ∧ Derivs F ∧ ∀ k t, |F k t| ≤ A * Ω ^ k

theorem DerivBound.const (c : ℝ) : DerivBound (fun _ => c) |c| 0 := by
  refine ⟨fun k _ => if k = 0 then c else 0, rfl, fun k t => ?_, fun k t => ?_⟩
  · simpa using hasDerivAt_const t _
  · rcases k with _ | k <;> simp

/-- Leibniz' rule -/
theorem DerivBound.mul {f g : ℝ → ℝ} {A B Ω Ω' : ℝ} (hΩ : 0 ≤ Ω) (hf : DerivBound f A Ω) (hg : DerivBound g B Ω') :
    DerivBound (fun t => f t * g t) (A * B) (Ω + Ω') := by
  obtain ⟨F, rfl, dF, bF⟩ := hf
  obtain ⟨G, rfl, dG, bG⟩ := hg
  have hA : 0 ≤ A := by have := (abs_nonneg _).trans (bF 0 0); simpa using this
  have hB : 0 ≤ B := by have := (abs_nonneg _).trans (bG 0 0); simpa using this
  refine ⟨fun k t => ∑ ij ∈ Finset.antidiagonal k, (k.choose ij.1 : ℝ) * (F ij.1 t * G ij.2 t), by simp, fun k t => ?_, fun k t => ?_⟩
  · have h1 : HasDerivAt (fun t => ∑ ij ∈ Finset.antidiagonal k, (k.choose ij.1 : ℝ) * (F ij.1 t * G ij.2 t))
        (∑ ij ∈ Finset.antidiagonal k, (k.choose ij.1 : ℝ) * (F (ij.1 + 1) t * G ij.2 t + F ij.1 t * G (ij.2 + 1) t)) t := by
      refine HasDerivAt.fun_sum fun ij _ => ?_
      exact ((dF ij.1 t).mul (dG ij.2 t)).const_mul _
    convert h1 using 1
    simp only
    rw [Finset.sum_antidiagonal_choose_succ_mul (fun i j => F i t * G j t) k, ← Finset.sum_add_distrib]
    refine Finset.sum_congr rfl fun ij hij => ?_
    rw [← Nat.choose_symm_of_eq_add (Finset.mem_antidiagonal.1 hij).symm]
    ring
  · refine (Finset.abs_sum_le_sum_abs _ _).trans ?_
    have h : ∀ ij ∈ Finset.antidiagonal k, |(k.choose ij.1 : ℝ) * (F ij.1 t * G ij.2 t)| ≤
        A * B * ((k.choose ij.1 : ℝ) * (Ω ^ ij.1 * Ω' ^ ij.2)) := by
      intro ij _
      rw [abs_mul, abs_mul, Nat.abs_cast]
      have := mul_le_mul (bF ij.1 t) (bG ij.2 t) (abs_nonneg _) (by positivity)
      calc _ ≤ (k.choose ij.1 : ℝ) * (A * Ω ^ ij.1 * (B * Ω' ^ ij.2)) := mul_le_mul_of_nonneg_left this (Nat.cast_nonneg _)
        _ = _ := by ring
    refine (Finset.sum_le_sum h).trans (le_of_eq ?_)
    rw [← Finset.mul_sum, (Commute.all Ω Ω').add_pow']
    simp only [nsmul_eq_mul]

theorem DerivBound.pow {f : ℝ → ℝ} {A Ω : ℝ} (hΩ : 0 ≤ Ω) (hf : DerivBound f A Ω) (n : ℕ) : DerivBound (fun t => f t ^ n) (A ^ n) (n * Ω) := by
  induction n with
  | zero => simpa using DerivBound.const 1
  | succ n ih =>
    have := ih.mul (by positivity) hf
    simp only [pow_succ]
    convert this using 1
    push_cast; ring

/-- a cosine -/
theorem DerivBound.cos (c d : ℝ) : DerivBound (fun t => Real.cos (c * t + d)) 1 |c| := by
  refine ⟨fun k t => c ^ k * Real.cos (c * t + d + k * (Real.pi / 2)), by simp, fun k t => ?_, fun k t => ?_⟩
  · have h1 : HasDerivAt (fun t => c * t + d + k * (Real.pi / 2)) c t := by
      simpa using (((hasDerivAt_id t).const_mul c).add_const d).add_const (k * (Real.pi / 2))
    have h2 := ((Real.hasDerivAt_cos _).comp t h1).const_mul (c ^ k)
    have e : c ^ (k + 1) * Real.cos (c * t + d + ((k + 1 : ℕ) : ℝ) * (Real.pi / 2)) =
        c ^ k * (-Real.sin (c * t + d + k * (Real.pi / 2)) * c) := by
      rw [show c * t + d + ((k + 1 : ℕ) : ℝ) * (Real.pi / 2) = (c * t + d + k * (Real.pi / 2)) + Real.pi / 2 by push_cast; ring,
        Real.cos_add_pi_div_two]
      ring
    simp only [e]
    exact h2
  · rw [abs_mul, abs_pow, one_mul]
    exact mul_le_of_le_one_right (by positivity) (Real.abs_cos_le_one _)

theorem DerivBound.sin (c d : ℝ) : DerivBound (fun t => Real.sin (c * t + d)) 1 |c| := by
  have := DerivBound.cos c (d - Real.pi / 2)
  convert this using 1
  funext t
  rw [show c * t + (d - Real.pi / 2) = c * t + d - Real.pi / 2 by ring, Real.cos_sub_pi_div_two]

/-- `a f + b` -/
theorem DerivBound.affine {f : ℝ → ℝ} {Ω : ℝ} (hΩ : 0 ≤ Ω) (a b : ℝ) (hf : DerivBound f 1 Ω) : DerivBound (fun t => b + a * f t) (|b| + |a|) Ω := by
  obtain ⟨F, rfl, dF, bF⟩ := hf
  refine ⟨fun k t => (if k = 0 then b else 0) + a * F k t, by simp, fun k t => ?_, fun k t => ?_⟩
  · have := ((dF k t).const_mul a).const_add (if k = 0 then b else 0)
    simpa using this
  · have h1 := mul_le_mul_of_nonneg_left (bF k t) (abs_nonneg a)
    rw [one_mul] at h1
    refine (abs_add_le _ _).trans ?_
    rw [abs_mul, add_mul]
    refine add_le_add ?_ h1
    rcases k with _ | k
    · simp
    · simp; positivity

/-- the error of the Gauss-Legendre rule with `n` nodes -/
theorem gauss_error {n : ℕ} {rule : List (ℝ × ℝ)} (h : IsGaussLegendre n rule) (hn : 0 < n) {f : ℝ → ℝ} {A Ω : ℝ} (hf : DerivBound f A Ω) :
    |quadSum rule f - ∫ x in (-1 : ℝ)..1, f x| ≤ 8 * A * (Ω / 2) ^ (2 * n) / (2 * n).factorial := by
  obtain ⟨F, rfl, dF, bF⟩ := hf
  obtain ⟨p, hp, hb⟩ := cheb_interp (N := 2 * n) (by omega) dF (bF (2 * n))
  have hc : Continuous (F 0) := continuous_iff_continuousAt.2 fun t => (dF 0 t).continuousAt
  refine (error_le h (hc.intervalIntegrable _ _) p hp hb).trans (le_of_eq ?_)
  obtain ⟨m, hm⟩ : ∃ m, 2 * n = m + 1 := ⟨2 * n - 1, by omega⟩
  rw [hm, Nat.add_sub_cancel, div_pow, pow_succ 2]
  field_simp
  ring

end Jaxoplanet.Gauss
