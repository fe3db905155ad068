import Verif.Proofs.Basis
import Verif.Spec.LimbDark

/-!
# C44: the limb-darkening change of basis
-/

namespace Jaxoplanet.Starry

open _root_.Jaxoplanet.Starry.Spec _root_.Jaxoplanet.Spec

theorem uTerms_sum (n : ℕ) (x y z : ℝ) (hs : x ^ 2 + y ^ 2 + z ^ 2 = 1) :
    ((uTerms n).map fun e => e.2 * mono x y z e.1).sum = -(1 - z) ^ n := by
  unfold uTerms
  rw [listSum_flatMap, listSum_range]
  have inner : ∀ k, (((List.range (k / 2 + 1)).flatMap fun j : ℕ => (List.range (j + 1)).map fun l : ℕ =>
      (((2 * (j - l), 2 * l, k % 2) : Ijk), -((n.choose k : ℝ) * (-1) ^ k) * (((k / 2).choose j : ℝ) * (-1) ^ j) *
        (j.choose l : ℝ))).map fun e => e.2 * mono x y z e.1).sum =
      -((n.choose k : ℝ) * (-1) ^ k * z ^ k) := by
    intro k
    rw [listSum_flatMap, listSum_range]
    have h1 : ∀ j, (((List.range (j + 1)).map fun l : ℕ =>
        (((2 * (j - l), 2 * l, k % 2) : Ijk), -((n.choose k : ℝ) * (-1) ^ k) * (((k / 2).choose j : ℝ) * (-1) ^ j) *
        (j.choose l : ℝ))).map fun e => e.2 * mono x y z e.1).sum =
        -((n.choose k : ℝ) * (-1) ^ k) * z ^ (k % 2) * ((-(x ^ 2 + y ^ 2)) ^ j * ((k / 2).choose j : ℝ)) := by
      intro j
      rw [List.map_map, listSum_range]
      have e0 : (-(x ^ 2 + y ^ 2)) ^ j = (-1) ^ j * ∑ l ∈ Finset.range (j + 1), (y ^ 2) ^ l * (x ^ 2) ^ (j - l) * (j.choose l : ℝ) := by
        rw [← add_pow, ← mul_pow]
        congr 1
        ring
      rw [e0, Finset.mul_sum, Finset.sum_mul, Finset.mul_sum]
      refine Finset.sum_congr rfl fun l _ => ?_
      simp only [Function.comp, mono, pow_mul]
      ring
    rw [Finset.sum_congr rfl fun j _ => h1 j, ← Finset.mul_sum]
    have h2 : ∑ j ∈ Finset.range (k / 2 + 1), (-(x ^ 2 + y ^ 2)) ^ j * ((k / 2).choose j : ℝ) = z ^ (2 * (k / 2)) := by
      have := add_pow (-(x ^ 2 + y ^ 2)) 1 (k / 2)
      simp only [one_pow, mul_one] at this
      rw [← this, pow_mul]
      congr 1
      linarith
    rw [h2]
    have h3 : z ^ k = z ^ (k % 2) * z ^ (2 * (k / 2)) := by
      rw [← pow_add]; congr 1; omega
    rw [h3]
    ring
  rw [Finset.sum_congr rfl fun k _ => inner k]
  have h4 := add_pow (-z) 1 n
  simp only [one_pow, mul_one] at h4
  rw [show (1 - z) = (-z + 1) by ring, h4, ← Finset.sum_neg_distrib]
  refine Finset.sum_congr rfl fun k _ => ?_
  rw [neg_pow]
  ring

theorem uTerms_keys (n : ℕ) : ∀ e ∈ uTerms n, e.1.2.2 ≤ 1 ∧ e.1.1 + e.1.2.1 + e.1.2.2 ≤ n := by
  intro e he
  unfold uTerms at he
  simp only [List.mem_flatMap, List.mem_range, List.mem_map] at he
  obtain ⟨k, hk, j, hj, l, hl, rfl⟩ := he
  constructor
  · simp only; omega
  · simp only; omega

theorem utilde_keys (n : ℕ) : ∀ e ∈ utilde n, e.1.2.2 ≤ 1 ∧ e.1.1 + e.1.2.1 + e.1.2.2 ≤ n := by
  intro e he
  unfold utilde at he
  split_ifs at he with h
  · simp only [List.mem_singleton] at he
    subst he
    simp
  · have hk : e.1 ∈ Dict.keys ((uTerms n).foldl (fun d e => Dict.accum d e.1 e.2) []) := List.mem_map_of_mem he
    rw [keys_foldl_accum] at hk
    rcases hk with hk | hk
    · simp at hk
    · obtain ⟨f, hf, hfe⟩ := List.mem_map.1 hk
      rw [← hfe]
      exact uTerms_keys n f hf

/-- C44: the `n`-th limb-darkening basis function is `-(1 - z)^n` on the sphere (`1` for `n = 0`) -/
theorem utilde_val (n : ℕ) (x y z : ℝ) (hs : x ^ 2 + y ^ 2 + z ^ 2 = 1) :
    polyVal (utilde n) x y z = if n = 0 then 1 else -(1 - z) ^ n := by
  unfold utilde
  split_ifs with h
  · simp [polyVal]
  · rw [polyVal_foldl_accum, uTerms_sum n x y z hs]
    simp [polyVal]

theorem Umat_row_val (udeg i : ℕ) (hi : i ≤ udeg) (x y z : ℝ) (hs : x ^ 2 + y ^ 2 + z ^ 2 = 1) :
    denseVal (bcooDense (polyEntries ((udeg + 1) ^ 2) (utilde i)) ((udeg + 1) ^ 2)) x y z =
      if i = 0 then 1 else -(1 - z) ^ i := by
  rw [column_val _ udeg, utilde_val i x y z hs]
  intro e he
  obtain ⟨h1, h2⟩ := utilde_keys i e he
  exact ⟨h1, by omega⟩

/-- C44: `[1, *u] @ U(len(u))` is the limb-darkening profile `1 - Σ u_k (1 - z)^k`, as a polynomial on the
sphere, of the length that belongs to its degree -/
theorem limbDarkPoly_val (u : List ℝ) (x y z : ℝ) (hs : x ^ 2 + y ^ 2 + z ^ 2 = 1) :
    (limbDarkPoly u).length = (u.length + 1) ^ 2 ∧ denseVal (limbDarkPoly u) x y z = profile u z := by
  unfold limbDarkPoly
  refine ⟨matVec_length _ _ _, ?_⟩
  rw [matVec_val]
  · unfold Umat
    have h1 : ((((List.range (u.length + 1)).map fun i => bcooDense (polyEntries ((u.length + 1) ^ 2) (utilde i))
        ((u.length + 1) ^ 2)).zip (1 :: u)).map fun e => denseVal e.1 x y z * e.2) =
        (List.range (u.length + 1)).map fun i : ℕ => (if i = 0 then 1 else -(1 - z) ^ i) * (1 :: u).getD i 0 := by
      apply List.ext_getElem
      · simp
      · intro i g1 g2
        have hi : i < u.length + 1 := by simpa using g2
        simp only [List.getElem_map, List.getElem_zip, List.getElem_range]
        rw [Umat_row_val u.length i (by omega) x y z hs, List.getD_eq_getElem?_getD,
          List.getElem?_eq_getElem (by simpa using hi)]
        rfl
    rw [h1, listSum_range, Finset.sum_range_succ']
    unfold profile
    simp only [Nat.add_eq_zero_iff, one_ne_zero, and_false, if_false, if_true, List.getD_cons_zero,
      List.getD_cons_succ, mul_one]
    rw [Finset.sum_range fun i => -(1 - z) ^ (i + 1) * u.getD i 0]
    have : ∀ i : Fin u.length, -(1 - z) ^ ((i : ℕ) + 1) * u.getD i 0 = -(u[i] * (1 - z) ^ ((i : ℕ) + 1)) := by
      intro i
      rw [List.getD_eq_getElem?_getD, List.getElem?_eq_getElem i.2]
      simp only [Option.getD_some, Fin.getElem_fin]
      ring
    rw [Finset.sum_congr rfl fun i _ => this i, Finset.sum_neg_distrib]
    ring
  · intro c hc
    unfold Umat at hc
    obtain ⟨i, _, rfl⟩ := List.mem_map.1 hc
    exact bcooDense_length _ _

/-- quadratic limb darkening at disc centre and at the limb -/
example : denseVal (limbDarkPoly [0.3, 0.2]) 0 0 1 = 1 ∧ denseVal (limbDarkPoly [0.3, 0.2]) 1 0 0 = 0.5 := by
  constructor
  · rw [(limbDarkPoly_val _ _ _ _ (by norm_num)).2]
    simp [profile]
  · rw [(limbDarkPoly_val _ _ _ _ (by norm_num)).2]
    simp [profile, Fin.sum_univ_succ]
    norm_num

end Jaxoplanet.Starry
