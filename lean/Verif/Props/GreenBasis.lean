import Verif.Proofs.GreenIndep
import Verif.Model.SurfaceLight

/-!
# C65: the change of basis between polynomials and the Green basis is invertible
-/

namespace Jaxoplanet.Starry
open _root_.Jaxoplanet.Starry.Spec

theorem A2inv_getD (lmax i n : ℕ) (hi : i < (lmax + 1) ^ 2) (hn : n < (lmax + 1) ^ 2) :
    ((A2inv lmax).getD n []).getD i 0 = gc n (ptilde i) := by
  unfold A2inv
  rw [AImpl_eq]
  have : ((List.range ((lmax + 1) ^ 2)).map fun n => bcooDense (polyEntries ((lmax + 1) ^ 2) (gtilde n)) ((lmax + 1) ^ 2)).getD n [] =
      bcooDense (polyEntries ((lmax + 1) ^ 2) (gtilde n)) ((lmax + 1) ^ 2) := by
    rw [List.getD_eq_getElem?_getD, List.getElem?_map, List.getElem?_range hn]
    rfl
  rw [this, column_entry _ lmax _ i hi, gtilde_coef]
  intro e he
  obtain ⟨a, b⟩ := gtilde_keys n e he
  exact ⟨a, le_trans b (sqrt_le_of_lt hn)⟩

theorem A2inv_length (lmax : ℕ) : (A2inv lmax).length = (lmax + 1) ^ 2 := by
  unfold A2inv
  rw [AImpl_eq]
  simp

/-- C65: the change of basis to the Green basis is invertible -/
theorem A2inv_det (lmax : ℕ) : (matOf ((lmax + 1) ^ 2) (A2inv lmax)).det ≠ 0 := by
  intro h
  obtain ⟨v, hv, h0⟩ := Matrix.exists_mulVec_eq_zero_iff.2 h
  apply hv
  have := gtilde_independent lmax (fun n => if hn : n < (lmax + 1) ^ 2 then v ⟨n, hn⟩ else 0) fun i hi => by
    have := congrFun h0 ⟨i, hi⟩
    simp only [Matrix.mulVec, dotProduct, matOf, Matrix.of_apply, Pi.zero_apply] at this
    rw [← this, Finset.sum_range]
    refine Finset.sum_congr rfl fun n _ => ?_
    rw [dif_pos n.2, A2inv_getD lmax i n hi n.2, mul_comm]
  funext n
  have := this n n.2
  rw [dif_pos n.2] at this
  exact this

theorem getD_ofFn {N : ℕ} (f : Fin N → ℝ) (i : Fin N) : (List.ofFn f).getD i 0 = f i := by
  rw [List.getD_eq_getElem?_getD, List.getElem?_ofFn, dif_pos i.2]
  rfl

/-- C65: `inv(A2_inv(lmax))` exists; contracting with it is contracting with the coefficients in the Green basis -/
theorem A2_spec (lmax : ℕ) : ∃ A2, scipyInv (matOf ((lmax + 1) ^ 2) (A2inv lmax)) = .ok A2 ∧
    ∀ c : List ℝ, c.length = (lmax + 1) ^ 2 → ∃ g : List ℝ, g.length = (lmax + 1) ^ 2 ∧
      (∀ x y z, denseVal c x y z = ∑ n ∈ Finset.range ((lmax + 1) ^ 2), g.getD n 0 * polyVal (gtilde n) x y z) ∧
      ∀ s : List ℝ, (List.zipWith (· * ·) (vecMat s A2) c).sum = ∑ n ∈ Finset.range ((lmax + 1) ^ 2), s.getD n 0 * g.getD n 0 := by
  set N := (lmax + 1) ^ 2 with hN
  set M := matOf N (A2inv lmax) with hM
  have hdet : IsUnit M.det := isUnit_iff_ne_zero.2 (A2inv_det lmax)
  refine ⟨M⁻¹, by unfold scipyInv; rw [if_neg (A2inv_det lmax)], fun c hc => ?_⟩
  set cv : Fin N → ℝ := fun i => c.getD i 0 with hcv
  set g := List.ofFn (M⁻¹.mulVec cv) with hg
  have hgl : g.length = N := by simp [hg]
  refine ⟨g, hgl, fun x y z => ?_, fun s => ?_⟩
  · have h1 : matVec N (A2inv lmax) g = c := by
      unfold matVec
      apply List.ext_getElem
      · simp [hc]
      · intro i h1 h2
        have hi : i < N := by rw [hc] at h2; exact h2
        rw [List.getElem_map, List.getElem_range]
        have h3 := congrFun (show M.mulVec (M⁻¹.mulVec cv) = cv by
          rw [Matrix.mulVec_mulVec, Matrix.mul_nonsing_inv _ hdet, Matrix.one_mulVec]) ⟨i, hi⟩
        rw [hcv] at h3
        simp only at h3
        rw [List.getD_eq_getElem _ _ h2] at h3
        rw [← h3]
        have e : (((A2inv lmax).zip g).map fun e => e.1.getD i 0 * e.2) =
            (List.range N).map fun n : ℕ => ((A2inv lmax).getD n []).getD i 0 * g.getD n 0 := by
          apply List.ext_getElem
          · simp [hgl, A2inv_length, hN]
          · intro n a1 a2
            simp only [List.getElem_map, List.getElem_zip, List.getElem_range]
            have hn : n < N := by simpa using a2
            rw [List.getD_eq_getElem (A2inv lmax) _ (by rw [A2inv_length]; exact hn), List.getD_eq_getElem g _ (by omega)]
        rw [e, listSum_range, Finset.sum_range]
        simp only [Matrix.mulVec, dotProduct]
        refine Finset.sum_congr rfl fun n _ => ?_
        rw [hg, getD_ofFn]
        rfl
    have := (A2inv_val lmax g hgl x y z).2
    rw [← hN, h1] at this
    exact this
  · have e : List.zipWith (· * ·) (vecMat s M⁻¹) c = (List.range N).map fun j : ℕ => (vecMat s M⁻¹).getD j 0 * c.getD j 0 := by
      apply List.ext_getElem
      · simp [vecMat, hc]
      · intro n a1 a2
        have hn : n < N := by simpa using a2
        simp only [List.getElem_zipWith, List.getElem_map, List.getElem_range]
        rw [List.getD_eq_getElem _ _ (by simpa [vecMat] using hn), List.getD_eq_getElem c _ (by omega)]
    rw [e, listSum_range, Finset.sum_range, Finset.sum_range]
    have h1 : ∀ j : Fin N, (vecMat s M⁻¹).getD j 0 * c.getD j 0 = ∑ i : Fin N, s.getD i 0 * M⁻¹ i j * cv j := by
      intro j
      unfold vecMat
      rw [getD_ofFn, Finset.sum_mul]
    rw [Finset.sum_congr rfl fun j _ => h1 j, Finset.sum_comm]
    refine Finset.sum_congr rfl fun i _ => ?_
    rw [hg, getD_ofFn]
    simp only [Matrix.mulVec, dotProduct, Finset.mul_sum, mul_assoc]
end Jaxoplanet.Starry
