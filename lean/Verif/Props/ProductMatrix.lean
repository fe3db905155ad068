import Verif.Model.ProductMatrix
import Verif.Props.PolyBasis

/-!
# C83: `polynomial_product_matrix`

`M @ p2` should be the product of the polynomials `p` and `p2`. It is the product of `p2` with `p` plus the last coefficient of `p`
times all monomials of the next degree, because the degree of `p` is taken to be one too large and JAX clamps the index.
-/

namespace Jaxoplanet.Starry

open Spec

/-- the basis polynomial number `n` -/
def bas (x y z : ℝ) (n : ℕ) : ℝ := mono x y z (n2ijk n)

theorem bas_block (x y z : ℝ) (l q : ℕ) (h : q ≤ 2 * l) : bas x y z (l ^ 2 + q) = x ^ ((2 * l - q) / 2) * y ^ (q / 2) * z ^ (q % 2) := by
  unfold bas mono
  rw [n2ijk_block l q h]

theorem denseVal_bas (c : List ℝ) (x y z : ℝ) : denseVal c x y z = ∑ n ∈ Finset.range c.length, c.getD n 0 * bas x y z n := by
  unfold denseVal
  refine Finset.sum_congr rfl fun n _ => ?_
  obtain ⟨l, q, hq, rfl⟩ := block_of n
  have hs : Nat.sqrt (l ^ 2 + q) = l := by
    symm; rw [Nat.eq_sqrt]; constructor <;> nlinarith
  rw [bas_block x y z l q hq]
  simp only [hs]
  rw [Nat.add_sub_cancel_left]

theorem blocks_foldl {σ : Type} (f : ℕ → σ → ℤ → σ) (I : ℕ → σ → Prop) (s : σ) (h0 : I 0 s) (L : ℕ)
    (hs : ∀ l < L, ∀ q ≤ 2 * l, ∀ s, I (l ^ 2 + q) s → I (l ^ 2 + q + 1) (f l s ((q : ℤ) - l))) :
    I (L ^ 2) ((List.range L).foldl (fun s l => (orders l).foldl (f l) s) s) := by
  induction L with
  | zero => simpa using h0
  | succ L ih =>
    rw [List.range_succ, List.foldl_append]
    simp only [List.foldl_cons, List.foldl_nil]
    have hL := ih fun l hl => hs l (by omega)
    generalize List.foldl _ s (List.range L) = t at hL
    have inner : ∀ k ≤ 2 * L + 1, I (L ^ 2 + k) (((List.range k).map fun q => ((q : ℕ) : ℤ) - L).foldl (f L) t) := by
      intro k hk
      induction k with
      | zero => simpa using hL
      | succ k ihk =>
        rw [List.range_succ, List.map_append, List.foldl_append]
        exact hs L (by omega) k (by omega) _ (ihk (by omega))
    have := inner (2 * L + 1) le_rfl
    rw [show L ^ 2 + (2 * L + 1) = (L + 1) ^ 2 by ring] at this
    unfold orders
    exact this

/-- value of a column -/
noncomputable def colVal (N : ℕ) (M : ℕ → ℕ → ℝ) (x y z : ℝ) (c : ℕ) : ℝ := ∑ i ∈ Finset.range N, M i c * bas x y z i

theorem colVal_addAt {N : ℕ} {M : ℕ → ℕ → ℝ} {x y z : ℝ} {r : ℤ} {c : ℕ} {v : ℝ} {k : ℕ} (hr : r = k) (hk : k < N) :
    colVal N (addAt M r c v) x y z c = colVal N M x y z c + v * bas x y z k := by
  unfold colVal addAt
  have : ∀ i ∈ Finset.range N, (if i = r.toNat ∧ c = c then M i c + v else M i c) * bas x y z i =
      M i c * bas x y z i + (if i = k then v * bas x y z i else 0) := by
    intro i _
    rw [hr, Int.toNat_natCast]
    by_cases h : i = k <;> simp [h, add_mul]
  rw [Finset.sum_congr rfl this, Finset.sum_add_distrib, Finset.sum_ite_eq' (Finset.range N) k, if_pos (Finset.mem_range.2 hk)]

theorem addAt_other {M : ℕ → ℕ → ℝ} {r : ℤ} {c : ℕ} {v : ℝ} {i j : ℕ} (h : j ≠ c) : addAt M r c v i j = M i j := by
  unfold addAt
  rw [if_neg (by tauto)]

theorem prodStep_spec {p : List ℝ} {degree l1 q1 l2 q2 n1 n2 : ℕ} {x y z : ℝ} (hxyz : x ^ 2 + y ^ 2 + z ^ 2 = 1) (h1 : l1 ≤ degree) (hq1 : q1 ≤ 2 * l1)
    (h2 : l2 ≤ prodDeg p) (hq2 : q2 ≤ 2 * l2) (M : ℕ → ℕ → ℝ) :
    let st := prodStep p l1 ((q1 : ℤ) - l1) n1 l2 (M, n2) ((q2 : ℤ) - l2)
    st.2 = n2 + 1 ∧ colVal (prodRows p degree) st.1 x y z n1 = colVal (prodRows p degree) M x y z n1 +
      clampGet p n2 * (bas x y z (l1 ^ 2 + q1) * bas x y z (l2 ^ 2 + q2)) ∧ ∀ i j, j ≠ n1 → st.1 i j = M i j := by
  have hrows : (l1 + l2) ^ 2 + 2 * (l1 + l2) < prodRows p degree := by
    unfold prodRows
    have : l1 + l2 + 1 ≤ prodDeg p + degree + 1 := by omega
    nlinarith
  unfold prodStep
  simp only [show (l1 : ℤ) + ((q1 : ℤ) - l1) = q1 by ring, show (l2 : ℤ) + ((q2 : ℤ) - l2) = q2 by ring]
  refine ⟨trivial, ?_, fun i j hj => ?_⟩
  · split_ifs with h
    · obtain ⟨b1, rfl⟩ : ∃ b1, q1 = 2 * b1 + 1 := ⟨q1 / 2, by omega⟩
      obtain ⟨b2, rfl⟩ : ∃ b2, q2 = 2 * b2 + 1 := ⟨q2 / 2, by omega⟩
      obtain ⟨a1, rfl⟩ : ∃ a1, l1 = a1 + b1 + 1 := ⟨l1 - b1 - 1, by omega⟩
      obtain ⟨a2, rfl⟩ : ∃ a2, l2 = a2 + b2 + 1 := ⟨l2 - b2 - 1, by omega⟩
      rw [colVal_addAt (k := (a1 + b1 + 1 + (a2 + b2 + 1)) ^ 2 + (2 * (b1 + b2 + 2))) (by push_cast; ring) (by omega),
        colVal_addAt (k := (a1 + b1 + 1 + (a2 + b2 + 1)) ^ 2 + (2 * (b1 + b2))) (by push_cast; ring) (by omega),
        colVal_addAt (k := (a1 + b1 + (a2 + b2)) ^ 2 + (2 * (b1 + b2))) (by push_cast; ring) (by nlinarith),
        bas_block _ _ _ _ _ (by omega), bas_block _ _ _ _ _ (by omega), bas_block _ _ _ _ _ (by omega), bas_block _ _ _ _ _ hq1,
        bas_block _ _ _ _ _ hq2]
      rw [show (2 * (a1 + b1 + 1 + (a2 + b2 + 1)) - 2 * (b1 + b2 + 2)) / 2 = a1 + a2 by omega,
        show (2 * (a1 + b1 + 1 + (a2 + b2 + 1)) - 2 * (b1 + b2)) / 2 = a1 + a2 + 2 by omega,
        show (2 * (a1 + b1 + (a2 + b2)) - 2 * (b1 + b2)) / 2 = a1 + a2 by omega,
        show (2 * (b1 + b2 + 2)) / 2 = b1 + b2 + 2 by omega, show (2 * (b1 + b2)) / 2 = b1 + b2 by omega,
        show (2 * (b1 + b2 + 2)) % 2 = 0 by omega, show (2 * (b1 + b2)) % 2 = 0 by omega,
        show (2 * (a1 + b1 + 1) - (2 * b1 + 1)) / 2 = a1 by omega, show (2 * (a2 + b2 + 1) - (2 * b2 + 1)) / 2 = a2 by omega,
        show (2 * b1 + 1) / 2 = b1 by omega, show (2 * b2 + 1) / 2 = b2 by omega, show (2 * b1 + 1) % 2 = 1 by omega,
        show (2 * b2 + 1) % 2 = 1 by omega]
      linear_combination -(clampGet p n2 * x ^ (a1 + a2) * y ^ (b1 + b2)) * hxyz
    · rw [colVal_addAt (k := (l1 + l2) ^ 2 + (q1 + q2)) (by push_cast; ring) (by omega), bas_block _ _ _ _ _ (by omega),
        bas_block _ _ _ _ _ hq1, bas_block _ _ _ _ _ hq2]
      have e1 : (2 * (l1 + l2) - (q1 + q2)) / 2 = (2 * l1 - q1) / 2 + (2 * l2 - q2) / 2 := by omega
      have e2 : (q1 + q2) / 2 = q1 / 2 + q2 / 2 := by omega
      have e3 : (q1 + q2) % 2 = q1 % 2 + q2 % 2 := by omega
      rw [e1, e2, e3]
      ring
  · split_ifs with h
    · rw [addAt_other hj, addAt_other hj, addAt_other hj]
    · rw [addAt_other hj]

theorem prodColumn_spec {p : List ℝ} {degree l1 q1 n1 : ℕ} {x y z : ℝ} (hxyz : x ^ 2 + y ^ 2 + z ^ 2 = 1) (h1 : l1 ≤ degree) (hq1 : q1 ≤ 2 * l1)
    (M : ℕ → ℕ → ℝ) :
    colVal (prodRows p degree) (prodColumn p l1 ((q1 : ℤ) - l1) n1 M) x y z n1 = colVal (prodRows p degree) M x y z n1 +
      (∑ k ∈ Finset.range ((prodDeg p + 1) ^ 2), clampGet p k * bas x y z k) * bas x y z (l1 ^ 2 + q1) ∧
    ∀ i j, j ≠ n1 → prodColumn p l1 ((q1 : ℤ) - l1) n1 M i j = M i j := by
  have := blocks_foldl (prodStep p l1 ((q1 : ℤ) - l1) n1)
    (fun n st => st.2 = n ∧ colVal (prodRows p degree) st.1 x y z n1 = colVal (prodRows p degree) M x y z n1 +
      (∑ k ∈ Finset.range n, clampGet p k * bas x y z k) * bas x y z (l1 ^ 2 + q1) ∧ ∀ i j, j ≠ n1 → st.1 i j = M i j)
    (M, 0) ⟨rfl, by simp, fun i j _ => rfl⟩ (prodDeg p + 1) (fun l hl q hq st ⟨i1, i2, i3⟩ => by
      obtain ⟨j1, j2, j3⟩ := prodStep_spec (p := p) (n1 := n1) (n2 := st.2) hxyz h1 hq1 (show l ≤ prodDeg p by omega) hq st.1
      refine ⟨by rw [← i1]; exact j1, ?_, fun i j hj => by rw [← i3 i j hj]; exact j3 i j hj⟩
      rw [Finset.sum_range_succ]
      refine j2.trans ?_
      rw [i2, i1]
      ring)
  exact this.2

/-- the polynomial whose product is computed: `p` continued by its last coefficient to the next degree -/
theorem matrix_spec {p : List ℝ} {degree : ℕ} {x y z : ℝ} (hxyz : x ^ 2 + y ^ 2 + z ^ 2 = 1) {n : ℕ} (hn : n < (degree + 1) ^ 2) :
    colVal (prodRows p degree) (polynomialProductMatrix p degree) x y z n =
      (∑ k ∈ Finset.range ((prodDeg p + 1) ^ 2), clampGet p k * bas x y z k) * bas x y z n := by
  have := blocks_foldl (fun l1 (st : (ℕ → ℕ → ℝ) × ℕ) (m1 : ℤ) => (prodColumn p l1 m1 st.2 st.1, st.2 + 1))
    (fun n st => st.2 = n ∧ (∀ k < n, colVal (prodRows p degree) st.1 x y z k =
      (∑ k ∈ Finset.range ((prodDeg p + 1) ^ 2), clampGet p k * bas x y z k) * bas x y z k) ∧ ∀ i j, n ≤ j → st.1 i j = 0)
    (fun _ _ => 0, 0) ⟨rfl, fun k hk => by omega, fun i j _ => rfl⟩ (degree + 1) (fun l hl q hq st ⟨i1, i2, i3⟩ => by
      obtain ⟨j1, j2⟩ := prodColumn_spec (p := p) (n1 := st.2) hxyz (show l ≤ degree by omega) hq st.1
      refine ⟨by simp only [i1], fun k hk => ?_, fun i j hj => ?_⟩
      · by_cases hkn : k = st.2
        · rw [hkn]
          refine j1.trans ?_
          have : colVal (prodRows p degree) st.1 x y z st.2 = 0 := by
            unfold colVal
            exact Finset.sum_eq_zero fun i _ => by rw [i3 i _ (by omega), zero_mul]
          rw [this, zero_add, i1]
        · rw [← i2 k (by omega)]
          unfold colVal
          exact Finset.sum_congr rfl fun i _ => by simp only [j2 i k hkn]
      · simp only
        rw [j2 i j (by omega), i3 i j (by omega)])
  exact this.2.1 n hn

/-- the rows of `polynomial_product_matrix(p, degree) @ p2`, for all `p` of degree `d` and `p2` of degree `degree`: the product with `p2`
of `p` plus the last coefficient of `p` times all monomials `x^i y^j z^k` (`k ≤ 1`) of degree `d + 1` -/
theorem polynomialProductMatrix_value {p p2 : List ℝ} {d degree : ℕ} (hp : p.length = (d + 1) ^ 2) (h2 : p2.length = (degree + 1) ^ 2)
    {x y z : ℝ} (hxyz : x ^ 2 + y ^ 2 + z ^ 2 = 1) :
    denseVal (prodApply (prodRows p degree) (polynomialProductMatrix p degree) p2) x y z =
      (denseVal p x y z + p.getD ((d + 1) ^ 2 - 1) 0 *
        ∑ q ∈ Finset.range (2 * d + 3), x ^ ((2 * (d + 1) - q) / 2) * y ^ (q / 2) * z ^ (q % 2)) * denseVal p2 x y z := by
  have hdeg : prodDeg p = d + 1 := by
    unfold prodDeg
    rw [hp, sq]; exact Nat.sqrt_eq _
  have hsum : (∑ k ∈ Finset.range ((prodDeg p + 1) ^ 2), clampGet p k * bas x y z k) = denseVal p x y z + p.getD ((d + 1) ^ 2 - 1) 0 *
        ∑ q ∈ Finset.range (2 * d + 3), x ^ ((2 * (d + 1) - q) / 2) * y ^ (q / 2) * z ^ (q % 2) := by
    rw [hdeg, show (d + 1 + 1) ^ 2 = (d + 1) ^ 2 + (2 * d + 3) by ring, Finset.sum_range_add, denseVal_bas, hp, Finset.mul_sum]
    congr 1
    · refine Finset.sum_congr rfl fun k hk => ?_
      unfold clampGet
      rw [hp, min_eq_left (by have := Finset.mem_range.1 hk; omega)]
    · refine Finset.sum_congr rfl fun k hk => ?_
      unfold clampGet
      have := Finset.mem_range.1 hk
      rw [hp, min_eq_right (by omega), bas_block _ _ _ _ _ (by omega)]
  rw [denseVal_bas, denseVal_bas p2, ← hsum]
  have hlen : (prodApply (prodRows p degree) (polynomialProductMatrix p degree) p2).length = prodRows p degree := by simp [prodApply]
  rw [hlen, Finset.mul_sum]
  have : ∀ i ∈ Finset.range (prodRows p degree), (prodApply (prodRows p degree) (polynomialProductMatrix p degree) p2).getD i 0 * bas x y z i =
      ∑ j ∈ Finset.range p2.length, polynomialProductMatrix p degree i j * p2.getD j 0 * bas x y z i := by
    intro i hi
    have := Finset.mem_range.1 hi
    unfold prodApply
    rw [List.getD_eq_getElem?_getD]
    simp [this, Finset.sum_mul]
  rw [Finset.sum_congr rfl this, Finset.sum_comm]
  refine Finset.sum_congr rfl fun j hj => ?_
  have hj' := Finset.mem_range.1 hj
  rw [h2] at hj'
  have := matrix_spec (p := p) hxyz hj'
  unfold colVal at this
  rw [mul_left_comm, ← this, Finset.mul_sum]
  exact Finset.sum_congr rfl fun i _ => by ring

/-- the documented claim, where it holds: the last coefficient of `p` (that of `y^d`) is zero -/
theorem polynomialProductMatrix_product_partial {p p2 : List ℝ} {d degree : ℕ} (hp : p.length = (d + 1) ^ 2) (h2 : p2.length = (degree + 1) ^ 2)
    (h0 : p.getD ((d + 1) ^ 2 - 1) 0 = 0) {x y z : ℝ} (hxyz : x ^ 2 + y ^ 2 + z ^ 2 = 1) :
    denseVal (prodApply (prodRows p degree) (polynomialProductMatrix p degree) p2) x y z = denseVal p x y z * denseVal p2 x y z := by
  rw [polynomialProductMatrix_value hp h2 hxyz, h0, zero_mul, add_zero]

/-- otherwise the documented claim is false: at the point `(0, 1, 0)` every product with a `p2` that does not vanish there is wrong -/
theorem polynomialProductMatrix_wrong {p p2 : List ℝ} {d degree : ℕ} (hp : p.length = (d + 1) ^ 2) (h2 : p2.length = (degree + 1) ^ 2)
    (h0 : p.getD ((d + 1) ^ 2 - 1) 0 ≠ 0) (hv : denseVal p2 0 1 0 ≠ 0) :
    denseVal (prodApply (prodRows p degree) (polynomialProductMatrix p degree) p2) 0 1 0 ≠ denseVal p 0 1 0 * denseVal p2 0 1 0 := by
  rw [polynomialProductMatrix_value hp h2 (by norm_num)]
  have : ∑ q ∈ Finset.range (2 * d + 3), (0 : ℝ) ^ ((2 * (d + 1) - q) / 2) * 1 ^ (q / 2) * 0 ^ (q % 2) = 1 := by
    rw [Finset.sum_eq_single (2 * d + 2)]
    · rw [show (2 * (d + 1) - (2 * d + 2)) / 2 = 0 by omega, show (2 * d + 2) % 2 = 0 by omega]; simp
    · intro q hq hne
      have := Finset.mem_range.1 hq
      by_cases ho : q % 2 = 0
      · rw [zero_pow (by omega)]; simp
      · rw [zero_pow ho, mul_zero]
    · intro h; exact absurd (Finset.mem_range.2 (by omega)) h
  rw [this, mul_one]
  intro h
  exact h0 (by have := mul_right_cancel₀ hv h; linarith)

/-- non-vacuity: the product of the constant 1 with itself has the value 2 at `(0, 1, 0)`; a polynomial with zero last coefficient -/
example : denseVal (prodApply (prodRows [1] 0) (polynomialProductMatrix [1] 0) [1]) 0 1 0 = 2 ∧
    (([1, 2, 3, 0] : List ℝ).length = (1 + 1) ^ 2 ∧ ([1, 2, 3, 0] : List ℝ).getD ((1 + 1) ^ 2 - 1) 0 = 0) := by
  refine ⟨?_, by simp, by simp⟩
  rw [polynomialProductMatrix_value (d := 0) (by simp) (by simp) (by norm_num)]
  simp [denseVal, Finset.sum_range_succ]
  norm_num

end Jaxoplanet.Starry
