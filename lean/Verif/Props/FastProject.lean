import Verif.Model.FastProject
import Verif.Props.MapRotation
import Verif.Props.RealComplex
import Verif.Proofs.HarmIndep
import Verif.Props.Intensity

/-!
# C79: `fast_direct_left_project` is `left_project`
-/

namespace Jaxoplanet.Starry

open Jaxoplanet.Starry.Spec Real

/-! ### transposed Wigner matrices -/

theorem em_kernel (j : ℕ) (u v a b : ℂ) :
    ∑ k ∈ Finset.range (j + 1), em j k u v * em j k a b = (u * a + v * b) ^ j / (j.factorial : ℂ) := by
  rw [add_comm (u * a), add_pow, Finset.sum_div]
  refine Finset.sum_congr rfl fun k hk => ?_
  have hk' : k ≤ j := by have := Finset.mem_range.1 hk; omega
  unfold em
  have h1 : ((√((k.factorial : ℝ) * ((j - k).factorial : ℝ)) : ℝ) : ℂ) * ((√((k.factorial : ℝ) * ((j - k).factorial : ℝ)) : ℝ) : ℂ) =
      (k.factorial : ℂ) * ((j - k).factorial : ℂ) := by
    rw [← Complex.ofReal_mul, mul_self_sqrt (by positivity)]
    push_cast
    rfl
  have h2 : (j.choose k : ℂ) = (j.factorial : ℂ) / ((k.factorial : ℂ) * ((j - k).factorial : ℂ)) := by
    rw [eq_div_iff (by simp [Nat.factorial_ne_zero])]
    rw [← Nat.choose_mul_factorial_mul_factorial hk']
    push_cast
    ring
  have h3 : (j.factorial : ℂ) ≠ 0 := by exact_mod_cast Nat.factorial_ne_zero j
  have h4 : (k.factorial : ℂ) ≠ 0 := by exact_mod_cast Nat.factorial_ne_zero k
  have h5 : ((j - k).factorial : ℂ) ≠ 0 := by exact_mod_cast Nat.factorial_ne_zero (j - k)
  rw [div_mul_div_comm, h1, h2, mul_pow, mul_pow]
  field_simp

/-- the transposed matrix belongs to the inverse rotation -/
theorem symPow_transpose (j : ℕ) (c s : ℝ) (d : ℕ → ℕ → ℝ) (h : SymPow j c s d) : SymPow j c (-s) fun k i => d i k := by
  intro k hk a b
  refine em_compare j (fun k => em j k ((c : ℂ) * a - ((-s : ℝ) : ℂ) * b) (((-s : ℝ) : ℂ) * a + c * b))
    (fun k => ∑ i ∈ Finset.range (j + 1), (d k i : ℂ) * em j i a b) (fun u v => ?_) k hk
  calc _ = ∑ k ∈ Finset.range (j + 1), em j k u v * em j k ((c : ℂ) * a - ((-s : ℝ) : ℂ) * b) (((-s : ℝ) : ℂ) * a + c * b) :=
        Finset.sum_congr rfl fun k _ => mul_comm _ _
    _ = ((c * u - s * v) * a + (s * u + c * v) * b) ^ j / (j.factorial : ℂ) := by
        rw [em_kernel]; congr 2; push_cast; ring
    _ = ∑ i ∈ Finset.range (j + 1), em j i (c * u - s * v) (s * u + c * v) * em j i a b := by rw [em_kernel]
    _ = ∑ i ∈ Finset.range (j + 1), ∑ k ∈ Finset.range (j + 1), (d k i : ℂ) * em j k u v * em j i a b := by
        refine Finset.sum_congr rfl fun i hi => ?_
        rw [h i (by have := Finset.mem_range.1 hi; omega), Finset.sum_mul]
    _ = _ := by
        rw [Finset.sum_comm]
        refine Finset.sum_congr rfl fun k _ => ?_
        rw [Finset.sum_mul]
        refine Finset.sum_congr rfl fun i _ => ?_
        ring

/-- the combinations of the complex harmonics with the columns of the matrix -/
theorem hC_rotY_inv (l : ℕ) (β : ℝ) (d : ℕ → ℕ → ℝ) (hd : SymPow (2 * l) (cos (β / 2)) (sin (β / 2)) d) (p : V3)
    (hp : OnSphere p) (k : ℕ) (hk : k ≤ 2 * l) :
    ∑ i ∈ Finset.range (2 * l + 1), (d i k : ℂ) * hC l ((i : ℤ) - l) p = hC l ((k : ℤ) - l) (rotY (-β) p) := by
  refine (hC_rotY l (-β) (fun k i => d i k) ?_ p hp k hk).symm
  have := symPow_transpose _ _ _ _ hd
  rwa [neg_div, cos_neg, sin_neg]

/-! ### `rotate_flms` -/

/-- the array of degree `el` computed in the loop of `rotate_flms` -/
theorem flm_loop (flm : ℕ → ℕ → ℂ) (L : ℕ) (al ga : ℕ → ℂ) (beta : ℝ) (k : ℕ) :
    let st := (List.range k).foldl (flmStep flm L al ga beta none) ⟨fun _ _ => 0, fun _ _ => 0⟩
    (∀ el, k = el + 1 → st.dl = rotateDls L beta el) ∧
    ∀ r c, k ≤ L → st.flm r c = if r < k ∧ L - 1 - r ≤ c ∧ c ≤ L - 1 + r then
      ∑ n ∈ Finset.range (2 * r + 1), ((rotateDls L beta r c (L - 1 - r + n) : ℂ) * al c) *
        (ga (L - 1 - r + n) * flm r (L - 1 - r + n)) else 0 := by
  induction k with
  | zero => exact ⟨by intro el h; omega, by intro r c _; simp⟩
  | succ k ih =>
    simp only at ih ⊢
    rw [List.range_succ, List.foldl_append, List.foldl_cons, List.foldl_nil]
    have hdl : ∀ st : FlmState, (flmStep flm L al ga beta none st k).dl = computeFull st.dl beta L k := fun st => rfl
    have hd : (flmStep flm L al ga beta none ((List.range k).foldl (flmStep flm L al ga beta none) ⟨fun _ _ => 0, fun _ _ => 0⟩) k).dl =
        rotateDls L beta k := by
      rw [hdl]
      cases k with
      | zero => rfl
      | succ k => rw [ih.1 k rfl]; rfl
    refine ⟨by intro el h; rw [hd, show el = k by omega], fun r c hk => ?_⟩
    rw [hdl] at hd
    have ihf := ih.2 r c (by omega)
    generalize (List.range k).foldl (flmStep flm L al ga beta none) ⟨fun _ _ => 0, fun _ _ => 0⟩ = st at *
    unfold flmStep flmDl
    simp only
    rw [hd, show min k (L - 1) = k by omega, ihf]
    by_cases hr : r = k
    · subst hr
      by_cases hc : L - 1 - r ≤ c ∧ c ≤ L - 1 + r
      · rw [if_pos ⟨rfl, hc⟩, if_neg (by omega), if_pos ⟨by omega, hc⟩, zero_add]
        rw [show L - 1 - r + (c - (L - 1 - r)) = c by omega]
      · rw [if_neg (by tauto), if_neg (by tauto), if_neg (by tauto)]
    · rw [if_neg (by tauto)]
      by_cases hc : r < k ∧ L - 1 - r ≤ c ∧ c ≤ L - 1 + r
      · rw [if_pos hc, if_pos ⟨by omega, hc.2⟩]
      · rw [if_neg hc, if_neg (by omega)]

/-- C79: the rotated coefficient of degree `l` and order `m` (column `m + L - 1`) is
`Σ_n e^(-i m α) d^l_(m n)(β) e^(-i n γ) f_(l n)`, and the entries with `|m| > l` are zero -/
theorem rotateFlms_entry (flm : ℕ → ℕ → ℂ) (L : ℕ) (a b g : ℝ) (r c : ℕ) :
    rotateFlms flm L (a, b, g) none r c = if r < L ∧ L - 1 - r ≤ c ∧ c ≤ L - 1 + r then
      ∑ n ∈ Finset.range (2 * r + 1), ((rotateDls L b r c (L - 1 - r + n) : ℂ) * expArray L a c) *
        (expArray L g (L - 1 - r + n) * flm r (L - 1 - r + n)) else 0 := by
  unfold rotateFlms
  simp only
  rw [(flm_loop flm L _ _ b L).2 r c le_rfl]

theorem flm_loop_some (flm : ℕ → ℕ → ℂ) (L : ℕ) (al ga : ℕ → ℂ) (beta : ℝ) (d : ℕ → ℕ → ℕ → ℝ) (k : ℕ) (st0 : FlmState) (hk : k ≤ L) :
    ∀ r c, ((List.range k).foldl (flmStep flm L al ga beta (some d)) st0).flm r c =
      if r < k ∧ L - 1 - r ≤ c ∧ c ≤ L - 1 + r then
        st0.flm r c + ∑ n ∈ Finset.range (2 * r + 1), ((d r c (L - 1 - r + n) : ℂ) * al c) *
          (ga (L - 1 - r + n) * flm r (L - 1 - r + n)) else st0.flm r c := by
  induction k with
  | zero => intro r c; simp
  | succ k ih =>
    intro r c
    have ihf := ih (by omega) r c
    rw [List.range_succ, List.foldl_append, List.foldl_cons, List.foldl_nil]
    generalize (List.range k).foldl (flmStep flm L al ga beta (some d)) st0 = st at *
    unfold flmStep flmDl
    simp only
    rw [show min k (L - 1) = k by omega, ihf]
    by_cases hr : r = k
    · subst hr
      by_cases hc : L - 1 - r ≤ c ∧ c ≤ L - 1 + r
      · rw [if_pos ⟨rfl, hc⟩, if_neg (by omega), if_pos ⟨by omega, hc⟩]
        rw [show L - 1 - r + (c - (L - 1 - r)) = c by omega]
      · rw [if_neg (by tauto), if_neg (by tauto), if_neg (by tauto)]
    · rw [if_neg (by tauto)]
      by_cases hc : r < k ∧ L - 1 - r ≤ c ∧ c ≤ L - 1 + r
      · rw [if_pos hc, if_pos ⟨by omega, hc.2⟩]
      · rw [if_neg hc, if_neg (by omega)]

/-- C79: passing the precomputed Wigner arrays gives the same result as computing them -/
theorem rotateFlms_precomputed (flm : ℕ → ℕ → ℂ) (L : ℕ) (a b g : ℝ) :
    rotateFlms flm L (a, b, g) (some (rotateDls L b)) = rotateFlms flm L (a, b, g) none := by
  funext r c
  rw [rotateFlms_entry]
  unfold rotateFlms
  simp only
  rw [flm_loop_some _ _ _ _ _ _ _ _ le_rfl]
  simp only [zero_add]

/-! ### the change of basis -/

theorem Cmat_Umn (l r c : ℕ) (hr : r ≤ 2 * l) (hc : c ≤ 2 * l) :
    ((Cmat l).getD r []).getD c 0 = Umn ((c : ℤ) - l) ((r : ℤ) - l) := by
  rw [Cmat_entry l r c hr hc]
  have hne : ((√2 : ℝ) : ℂ) ≠ 0 := by rw [ne_eq, Complex.ofReal_eq_zero]; positivity
  rcases Nat.lt_trichotomy r l with h | h | h
  · rw [if_pos h]
    obtain ⟨v1, v2, v3, v4⟩ := Umn_vals ((l : ℤ) - r) (by omega)
    rw [neg_sub] at v3 v4
    by_cases h1 : c = r
    · rw [if_pos h1, h1, v4]
    · rw [if_neg h1]
      by_cases h2 : c = 2 * l - r
      · rw [if_pos h2, show (c : ℤ) - l = (l : ℤ) - r by omega, v3, show ((l : ℤ) - r).natAbs = l - r by omega]
        ring
      · rw [if_neg h2, Umn_zero _ _ (by omega) (by omega), zero_div]
  · subst h
    rw [if_neg (by omega), if_pos rfl]
    by_cases h1 : c = r
    · rw [if_pos h1, h1, sub_self, Umn_00, div_self hne]
    · rw [if_neg h1, Umn_zero _ _ (by omega) (by omega), zero_div]
  · rw [if_neg (by omega), if_neg (by omega)]
    obtain ⟨v1, v2, v3, v4⟩ := Umn_vals ((r : ℤ) - l) (by omega)
    by_cases h1 : c = 2 * l - r
    · rw [if_pos h1, show (c : ℤ) - l = -((r : ℤ) - l) by omega, v2]
    · rw [if_neg h1]
      by_cases h2 : c = r
      · rw [if_pos h2, h2, v1, show ((r : ℤ) - l).natAbs = r - l by omega]
      · rw [if_neg h2, Umn_zero _ _ (by omega) (by omega), zero_div]

/-- the steps of `fast_direct_left_project` after the Euler angles -/
noncomputable def fastPipe (ydeg : ℕ) (e : V3) (y : List ℝ) : List ℝ :=
  (y2dTo1d ydeg fun l r => ∑ c ∈ Finset.range (2 * ydeg + 1), ((Cmat ydeg).getD r []).getD c 0 *
    rotateFlms (fun l r => ∑ c ∈ Finset.range (2 * ydeg + 1), (starRingEnd ℂ) (((Cmat ydeg).getD c []).getD r 0) *
      y1dTo2d ydeg (y.map Complex.ofReal) l c) (ydeg + 1) e none l c).map fun v => v.re

theorem fastLeftProject_pipe (eps : ℝ) (asEuler : V3 → V3) (ydeg : ℕ) (inc obl theta theta_z : Option ℝ) (y : List ℝ) :
    fastLeftProject eps asEuler ydeg inc obl theta theta_z y =
      fastPipe ydeg (euler asEuler (-(fullRotation eps inc obl theta theta_z).1) (-(fullRotation eps inc obl theta theta_z).2.1)
        (fullRotation eps inc obl theta theta_z).2.2.1 (-(fullRotation eps inc obl theta theta_z).2.2.2)) y := rfl

theorem fastPipe_length (ydeg : ℕ) (e : V3) (y : List ℝ) : (fastPipe ydeg e y).length = (ydeg + 1) ^ 2 := by
  unfold fastPipe
  rw [List.length_map, (y2dTo1d_entry ydeg _).1]

theorem block_index {ydeg l q : ℕ} (hl : l ≤ ydeg) (hq : q ≤ 2 * l) : l ^ 2 + q < (ydeg + 1) ^ 2 := by
  have : (l + 1) ^ 2 ≤ (ydeg + 1) ^ 2 := Nat.pow_le_pow_left (by omega) 2
  nlinarith

theorem y1d_block (ydeg l q : ℕ) (hl : l ≤ ydeg) (hq : q ≤ 2 * l) (v : List ℂ) :
    y1dTo2d ydeg v l (ydeg - l + q) = v.getD (l ^ 2 + q) 0 := by
  have h := y1dTo2d_entry ydeg v (l ^ 2 + q) (block_index hl hq)
  rw [lmOfIndex_block l q (by omega)] at h
  simp only at h
  rwa [show ((q : ℤ) - l + ydeg).toNat = ydeg - l + q by omega] at h

theorem fastPipe_getD (ydeg : ℕ) (e : V3) (y : List ℝ) (l q : ℕ) (hl : l ≤ ydeg) (hq : q ≤ 2 * l) :
    (fastPipe ydeg e y).getD (l ^ 2 + q) 0 = (∑ c ∈ Finset.range (2 * ydeg + 1), ((Cmat ydeg).getD (ydeg - l + q) []).getD c 0 *
    rotateFlms (fun l r => ∑ c ∈ Finset.range (2 * ydeg + 1), (starRingEnd ℂ) (((Cmat ydeg).getD c []).getD r 0) *
      y1dTo2d ydeg (y.map Complex.ofReal) l c) (ydeg + 1) e none l c).re := by
  obtain ⟨h1, h2⟩ := y2dTo1d_entry ydeg fun l r => ∑ c ∈ Finset.range (2 * ydeg + 1), ((Cmat ydeg).getD r []).getD c 0 *
    rotateFlms (fun l r => ∑ c ∈ Finset.range (2 * ydeg + 1), (starRingEnd ℂ) (((Cmat ydeg).getD c []).getD r 0) *
      y1dTo2d ydeg (y.map Complex.ofReal) l c) (ydeg + 1) e none l c
  have h := h2 (l ^ 2 + q) (block_index hl hq)
  rw [lmOfIndex_block l q (by omega)] at h
  simp only at h
  rw [show ((q : ℤ) - l + ydeg).toNat = ydeg - l + q by omega] at h
  rw [← h]
  unfold fastPipe
  rw [List.getD_eq_getElem?_getD, List.getD_eq_getElem?_getD, List.getElem?_map]
  cases (y2dTo1d ydeg _)[l ^ 2 + q]? <;> simp

theorem expArray_block (ydeg l k : ℕ) (hl : l ≤ ydeg) (x : ℝ) :
    expArray (ydeg + 1) x (ydeg - l + k) = Complex.exp (-1 * Complex.I * (((((k : ℤ) - l : ℤ) : ℝ) * x : ℝ) : ℂ)) := by
  unfold expArray
  congr 1
  push_cast [Nat.cast_sub hl]
  ring

/-- C79: the map of the returned coefficients is the map composed with the rotation of the Euler angles, the second one reversed -/
theorem fastPipe_mapVal (ydeg : ℕ) (a b g : ℝ) (y : List ℝ) (p : V3) (hp : OnSphere p) :
    mapVal ydeg (fastPipe ydeg (a, b, g) y) p = mapVal ydeg y (rotZ g (rotY (-b) (rotZ a p))) := by
  unfold mapVal
  refine Finset.sum_congr rfl fun l hl => ?_
  have hl' : l ≤ ydeg := by have := Finset.mem_range.1 hl; omega
  have hmem : ∀ {q : ℕ}, q ∈ Finset.range (2 * l + 1) → q ≤ 2 * l := by intro q h; have := Finset.mem_range.1 h; omega
  set yc : ℕ → ℕ → ℂ := fun l r => ∑ c ∈ Finset.range (2 * ydeg + 1), (starRingEnd ℂ) (((Cmat ydeg).getD c []).getD r 0) *
      y1dTo2d ydeg (y.map Complex.ofReal) l c with hyc
  have cl : ∀ r : ℕ, (((ydeg - l + r : ℕ) : ℤ) - ydeg) = (r : ℤ) - l := by intro r; omega
  -- the complex coefficients
  have e1 : ∀ n ≤ 2 * l, yc l (ydeg - l + n) = ∑ c ∈ Finset.range (2 * l + 1), (starRingEnd ℂ) (Umn ((n : ℤ) - l) ((c : ℤ) - l)) *
      ((y.getD (l ^ 2 + c) 0 : ℝ) : ℂ) := by
    intro n hn
    rw [hyc]
    simp only
    rw [sum_block ydeg l hl']
    · refine Finset.sum_congr rfl fun c hc => ?_
      have hc := hmem hc
      rw [Cmat_Umn ydeg _ _ (by omega) (by omega), cl, cl, y1d_block ydeg l c hl' hc]
      congr 1
      rw [List.getD_eq_getElem?_getD, List.getD_eq_getElem?_getD, List.getElem?_map]
      cases y[l ^ 2 + c]? <;> simp
    · intro c hc
      rcases le_or_gt c (2 * ydeg) with h | h
      · rw [Cmat_Umn ydeg _ _ h (by omega), Umn_zero _ _ (by omega) (by omega), map_zero, zero_mul]
      · have : (Cmat ydeg).getD c [] = [] := List.getD_eq_default _ _ (by rw [(Cmat_shape ydeg).1]; omega)
        rw [this]
        simp
  -- the value of the map through its complex coefficients
  have e2 : ∀ q : V3, ∑ n ∈ Finset.range (2 * l + 1), yc l (ydeg - l + n) * ((kap l : ℂ) * hC l ((n : ℤ) - l) q) =
      ((∑ c ∈ Finset.range (2 * l + 1), y.getD (l ^ 2 + c) 0 * realHarmonic l ((c : ℤ) - l) q.1 q.2.1 q.2.2 : ℝ) : ℂ) := by
    intro q
    calc _ = ∑ n ∈ Finset.range (2 * l + 1), ∑ c ∈ Finset.range (2 * l + 1), (starRingEnd ℂ) (Umn ((n : ℤ) - l) ((c : ℤ) - l)) *
          ((y.getD (l ^ 2 + c) 0 : ℝ) : ℂ) * ((kap l : ℂ) * hC l ((n : ℤ) - l) q) := by
          refine Finset.sum_congr rfl fun n hn => ?_
          rw [e1 n (hmem hn), Finset.sum_mul]
      _ = ∑ c ∈ Finset.range (2 * l + 1), ((y.getD (l ^ 2 + c) 0 : ℝ) : ℂ) * ∑ n ∈ Finset.range (2 * l + 1),
          (starRingEnd ℂ) (Umn ((n : ℤ) - l) ((c : ℤ) - l)) * ((kap l : ℂ) * hC l ((n : ℤ) - l) q) := by
          rw [Finset.sum_comm]
          refine Finset.sum_congr rfl fun c _ => ?_
          rw [Finset.mul_sum]
          refine Finset.sum_congr rfl fun n _ => ?_
          ring
      _ = _ := by
          rw [Complex.ofReal_sum]
          refine Finset.sum_congr rfl fun c hc => ?_
          rw [U_adjoint l _ (by have := hmem hc; omega), Complex.ofReal_mul]
  -- the rotated complex coefficients
  have e3 : ∀ k ≤ 2 * l, rotateFlms yc (ydeg + 1) (a, b, g) none l (ydeg - l + k) = ∑ n ∈ Finset.range (2 * l + 1),
      ((rotateDls (ydeg + 1) b l (ydeg - l + k) (ydeg - l + n) : ℂ) *
        Complex.exp (-1 * Complex.I * (((((k : ℤ) - l : ℤ) : ℝ) * a : ℝ) : ℂ))) *
        (Complex.exp (-1 * Complex.I * (((((n : ℤ) - l : ℤ) : ℝ) * g : ℝ) : ℂ)) * yc l (ydeg - l + n)) := by
    intro k hk
    rw [rotateFlms_entry, if_pos (by omega)]
    refine Finset.sum_congr rfl fun n _ => ?_
    rw [Nat.add_sub_cancel, expArray_block ydeg l k hl', expArray_block ydeg l n hl']
  -- the value of the rotated map through them
  have e4 : ∑ k ∈ Finset.range (2 * l + 1), rotateFlms yc (ydeg + 1) (a, b, g) none l (ydeg - l + k) *
      ((kap l : ℂ) * hC l ((k : ℤ) - l) p) = ∑ n ∈ Finset.range (2 * l + 1), yc l (ydeg - l + n) *
        ((kap l : ℂ) * hC l ((n : ℤ) - l) (rotZ g (rotY (-b) (rotZ a p)))) := by
    calc _ = ∑ k ∈ Finset.range (2 * l + 1), ∑ n ∈ Finset.range (2 * l + 1),
          yc l (ydeg - l + n) * (kap l : ℂ) * Complex.exp (-1 * Complex.I * (((((n : ℤ) - l : ℤ) : ℝ) * g : ℝ) : ℂ)) *
          ((rotateDls (ydeg + 1) b l (ydeg - l + k) (ydeg - l + n) : ℂ) * hC l ((k : ℤ) - l) (rotZ a p)) := by
          refine Finset.sum_congr rfl fun k hk => ?_
          rw [e3 k (hmem hk), Finset.sum_mul]
          refine Finset.sum_congr rfl fun n _ => ?_
          rw [hC_rotZ]
          ring
      _ = _ := by
          rw [Finset.sum_comm]
          refine Finset.sum_congr rfl fun n hn => ?_
          rw [← Finset.mul_sum, hC_rotY_inv l b _ (rotateDls_symPow b ydeg l hl') _ (rotZ_sphere a hp) n (hmem hn), hC_rotZ l _ g]
          ring
  -- the returned coefficients
  have e5 : ∀ q ≤ 2 * l, (fastPipe ydeg (a, b, g) y).getD (l ^ 2 + q) 0 = (∑ k ∈ Finset.range (2 * l + 1),
      Umn ((k : ℤ) - l) ((q : ℤ) - l) * rotateFlms yc (ydeg + 1) (a, b, g) none l (ydeg - l + k)).re := by
    intro q hq
    rw [fastPipe_getD ydeg _ y l q hl' hq, ← hyc, sum_block ydeg l hl']
    · congr 1
      refine Finset.sum_congr rfl fun k hk => ?_
      have hk := hmem hk
      rw [Cmat_Umn ydeg _ _ (by omega) (by omega), cl, cl]
    · intro c hc
      rw [rotateFlms_entry, if_neg (by omega), mul_zero]
  have e6 : ((∑ k ∈ Finset.range (2 * l + 1), rotateFlms yc (ydeg + 1) (a, b, g) none l (ydeg - l + k) *
      ((kap l : ℂ) * hC l ((k : ℤ) - l) p)).re : ℝ) =
      ∑ q ∈ Finset.range (2 * l + 1), (fastPipe ydeg (a, b, g) y).getD (l ^ 2 + q) 0 * realHarmonic l ((q : ℤ) - l) p.1 p.2.1 p.2.2 := by
    have : ∑ k ∈ Finset.range (2 * l + 1), rotateFlms yc (ydeg + 1) (a, b, g) none l (ydeg - l + k) *
      ((kap l : ℂ) * hC l ((k : ℤ) - l) p) = ∑ q ∈ Finset.range (2 * l + 1), (∑ k ∈ Finset.range (2 * l + 1),
      Umn ((k : ℤ) - l) ((q : ℤ) - l) * rotateFlms yc (ydeg + 1) (a, b, g) none l (ydeg - l + k)) *
        (realHarmonic l ((q : ℤ) - l) p.1 p.2.1 p.2.2 : ℂ) := by
      simp only [Finset.sum_mul]
      rw [Finset.sum_comm]
      refine Finset.sum_congr rfl fun k hk => ?_
      rw [← U_forward l _ (by have := hmem hk; omega), Finset.mul_sum]
      refine Finset.sum_congr rfl fun q _ => ?_
      ring
    rw [this, Complex.re_sum]
    refine Finset.sum_congr rfl fun q hq => ?_
    rw [Complex.re_mul_ofReal, e5 q (hmem hq)]
  rw [← e6, e4, e2, Complex.ofReal_re]

/-! ### the projection -/

theorem rotY_flip (a b g t : ℝ) (n : V3)
    (h : ∀ p, rotZ g (rotY b (rotZ a p)) = rotAxis (-n.1, -n.2.1, n.2.2) t p) (p : V3) :
    rotZ g (rotY (-b) (rotZ a p)) = rotAxis n t p := by
  have hp := h (-p.1, -p.2.1, p.2.2)
  simp only [rotZ, rotY, rotAxis, Prod.mk.injEq, cos_neg, sin_neg] at hp ⊢
  refine ⟨?_, ?_, ?_⟩
  · linear_combination -hp.1
  · linear_combination -hp.2.1
  · linear_combination hp.2.2

theorem fullRotation_getD (eps : ℝ) (inc obl theta theta_z : Option ℝ) :
    fullRotation eps inc obl theta theta_z =
      fullRotation eps (some (inc.getD 0)) (some (obl.getD 0)) (some (theta.getD 0)) (some (theta_z.getD 0)) := rfl

/-- the real part of the quaternion of the projection: the cosine of half its rotation angle -/
noncomputable def halfAngleCos (inc obl theta theta_z : ℝ) : ℝ :=
  0.5 * √2 * (sin (inc / 2) * cos (0.5 * (obl - theta + theta_z)) + cos (inc / 2) * cos (0.5 * (obl + theta + theta_z)))

/-- the point of the map seen at the point `p` of the sky frame: the tilts and the rotation are undone -/
noncomputable def viewPoint (inc obl theta theta_z : Option ℝ) (p : V3) : V3 :=
  rotX (-(π / 2)) (rotZ (-theta.getD 0) (rotX (inc.getD 0) (rotZ (-obl.getD 0) (rotZ (-theta_z.getD 0) p))))

/-- the rotation of the map on the sky, and its inverse -/
theorem view_inverse (inc obl theta theta_z : ℝ) (p : V3) :
    rotZ (obl + theta_z) (rotX (-inc) (rotZ theta (rotX (π / 2)
      (rotX (-(π / 2)) (rotZ (-theta) (rotX inc (rotZ (-obl) (rotZ (-theta_z) p)))))))) = p := by
  rw [rotX_rotX, add_neg_cancel, rotX_zero, rotZ_rotZ, add_neg_cancel, rotZ_zero, rotX_rotX, neg_add_cancel, rotX_zero,
    rotZ_rotZ, rotZ_rotZ, show obl + theta_z + -obl + -theta_z = 0 by ring, rotZ_zero]

theorem view_inverse' (inc obl theta theta_z : ℝ) (p : V3) :
    rotX (-(π / 2)) (rotZ (-theta) (rotX inc (rotZ (-obl) (rotZ (-theta_z)
      (rotZ (obl + theta_z) (rotX (-inc) (rotZ theta (rotX (π / 2) p)))))))) = p := by
  rw [rotZ_rotZ, rotZ_rotZ, show -obl + -theta_z + (obl + theta_z) = 0 by ring, rotZ_zero, rotX_rotX, add_neg_cancel, rotX_zero,
    rotZ_rotZ, neg_add_cancel, rotZ_zero, rotX_rotX, neg_add_cancel, rotX_zero]

theorem rotAxis_neg_cancel (n : V3) (hn : normSq n = 1) (t : ℝ) (p : V3) : rotAxis n (-t) (rotAxis n t p) = p := by
  rw [rotAxis_eq_quat _ _ hn, rotAxis_eq_quat _ _ hn, quatRot_mul, neg_div, cos_neg, sin_neg]
  have hs := sin_sq_add_cos_sq (t / 2)
  have : ∀ a b c d : ℝ, a = 1 → b = 0 → c = 0 → d = 0 → quatRot a b c d p = p := by
    rintro a b c d rfl rfl rfl rfl
    unfold quatRot
    simp
  unfold normSq at hn
  apply this
  · linear_combination hs + sin (t / 2) ^ 2 * hn
  · ring
  · ring
  · ring

theorem fastPipe_axis {asEuler : V3 → V3} (hE : IsEulerZYZ asEuler) (ydeg : ℕ) (n : V3) (hn : normSq n = 1) (t : ℝ) (y : List ℝ)
    (p : V3) (hp : OnSphere p) :
    mapVal ydeg (fastPipe ydeg (euler asEuler (-n.1) (-n.2.1) n.2.2 (-t)) y) p = mapVal ydeg y (rotAxis n (-t) p) := by
  obtain ⟨a, b, g, he⟩ : ∃ a b g, euler asEuler (-n.1) (-n.2.1) n.2.2 (-t) = (a, b, g) := ⟨_, _, _, rfl⟩
  rw [he, fastPipe_mapVal ydeg a b g y p hp]
  congr 1
  apply rotY_flip
  intro p
  unfold euler at he
  by_cases h0 : -t = 0
  · simp only [h0, if_true, Prod.mk.injEq] at he
    obtain ⟨rfl, rfl, rfl⟩ := he
    rw [h0, rotZ_zero, rotY_zero, rotZ_zero, rotAxis_zero]
  · have hn' : normSq (-n.1, -n.2.1, n.2.2) = 1 := by rw [← hn]; unfold normSq; ring
    simp only [h0, if_false] at he
    have hs : √((-n.1) ^ 2 + (-n.2.1) ^ 2 + n.2.2 ^ 2) = 1 := by
      rw [← sqrt_one]; congr 1
    rw [hs, div_one, div_one, div_one] at he
    have := hE (-n.1, -n.2.1, n.2.2) (-t) hn' p
    simp only [he] at this
    exact this

/-- C79: unless the rotation is snapped (F13), the map of the coefficients returned by `fast_direct_left_project` has at the point
`p` of the sky frame the value of the given map at the point obtained by undoing the tilts and the rotation -/
theorem fastLeftProject_mapVal_partial {asEuler : V3 → V3} (hE : IsEulerZYZ asEuler) (eps : ℝ) (ydeg : ℕ)
    (inc obl theta theta_z : Option ℝ) (y : List ℝ)
    (hz : eps + 1e-5 < |halfAngleCos (inc.getD 0) (obl.getD 0) (theta.getD 0) (theta_z.getD 0) - 1|) (p : V3) (hp : OnSphere p) :
    mapVal ydeg (fastLeftProject eps asEuler ydeg inc obl theta theta_z y) p = mapVal ydeg y
      (rotX (-(π / 2)) (rotZ (-theta.getD 0) (rotX (inc.getD 0) (rotZ (-obl.getD 0) (rotZ (-theta_z.getD 0) p))))) := by
  obtain ⟨n, t, e, hn, h⟩ := fullRotation_spec_partial eps (inc.getD 0) (obl.getD 0) (theta.getD 0) (theta_z.getD 0) (by
    rw [abs_one, mul_one, not_le]; exact hz)
  rw [fastLeftProject_pipe, fullRotation_getD, e]
  rw [fastPipe_axis hE ydeg n hn t y p hp]
  congr 1
  have h1 := view_inverse (inc.getD 0) (obl.getD 0) (theta.getD 0) (theta_z.getD 0) p
  rw [← h] at h1
  conv_lhs => rw [← h1]
  rw [rotAxis_neg_cancel n hn]

theorem mapVal_ext (ydeg : ℕ) (a b : List ℝ) (ha : a.length = (ydeg + 1) ^ 2) (hb : b.length = (ydeg + 1) ^ 2)
    (h : ∀ p, OnSphere p → mapVal ydeg a p = mapVal ydeg b p) : a = b := by
  have key := harmonics_indep ydeg (fun l q => a.getD (l ^ 2 + q) 0 - b.getD (l ^ 2 + q) 0) (fun x y z hs => by
    have := h (x, y, z) hs
    unfold mapVal at this
    rw [← sub_eq_zero, ← Finset.sum_sub_distrib] at this
    refine Eq.trans ?_ this
    refine Finset.sum_congr rfl fun l _ => ?_
    rw [← Finset.sum_sub_distrib]
    refine Finset.sum_congr rfl fun q _ => ?_
    ring)
  apply List.ext_getElem (by rw [ha, hb])
  intro n h1 h2
  have hb1 := lmOfIndex_bounds n
  have hsq : n = (lmOfIndex n).1 ^ 2 + (n - (lmOfIndex n).1 ^ 2) := by
    have : (lmOfIndex n).1 = Nat.sqrt n := rfl
    have := Nat.sqrt_le' n
    simp only [lmOfIndex]
    omega
  have hq : n - (lmOfIndex n).1 ^ 2 ≤ 2 * (lmOfIndex n).1 := by
    have := Nat.sqrt_le_add n
    simp only [lmOfIndex, sq]
    omega
  have := key (lmOfIndex n).1 (lmOfIndex_le (ha ▸ h1)) (n - (lmOfIndex n).1 ^ 2) hq
  rw [← hsq, List.getD_eq_getElem?_getD, List.getD_eq_getElem?_getD, List.getElem?_eq_getElem h1, List.getElem?_eq_getElem h2,
    sub_eq_zero] at this
  exact this

/-- C79: unless the rotation is snapped (F13), `fast_direct_left_project` returns the coefficients of `left_project` -/
theorem fastLeftProject_eq_partial {asEuler : V3 → V3} (hE : IsEulerZYZ asEuler) (eps : ℝ) (ydeg : ℕ)
    (inc obl : ℝ) (theta theta_z : Option ℝ) (y : List ℝ)
    (hz : eps + 1e-5 < |halfAngleCos inc obl (theta.getD 0) (theta_z.getD 0) - 1|) :
    leftProject asEuler ydeg (some inc) (some obl) theta theta_z y =
      .ok (fastLeftProject eps asEuler ydeg (some inc) (some obl) theta theta_z y) := by
  obtain ⟨M', h1, h2, h3⟩ := leftProject_spec hE ydeg inc obl theta theta_z y
  rw [h1]
  congr 1
  refine mapVal_ext ydeg _ _ h2 (by rw [fastLeftProject_pipe, fastPipe_length]) fun p hp => ?_
  rw [h3 p hp, fastLeftProject_mapVal_partial hE eps ydeg (some inc) (some obl) theta theta_z y hz p hp]
  rfl

theorem quatRot_displacement {w x y z : ℝ} (h : w ^ 2 + x ^ 2 + y ^ 2 + z ^ 2 = 1) (v : V3) (hv : OnSphere v) :
    (v.1 - (quatRot w x y z v).1) ^ 2 + (v.2.1 - (quatRot w x y z v).2.1) ^ 2 + (v.2.2 - (quatRot w x y z v).2.2) ^ 2 ≤ 4 * (1 - w ^ 2) := by
  have e : (v.1 - (quatRot w x y z v).1) ^ 2 + (v.2.1 - (quatRot w x y z v).2.1) ^ 2 + (v.2.2 - (quatRot w x y z v).2.2) ^ 2 =
      4 * (1 - w ^ 2) - 4 * (x * v.1 + y * v.2.1 + z * v.2.2) ^ 2 := by
    unfold OnSphere normSq at hv
    have hw : w ^ 2 = 1 - x ^ 2 - y ^ 2 - z ^ 2 := by linarith
    have c1 : v.1 - (quatRot w x y z v).1 = 2 * ((x ^ 2 + y ^ 2 + z ^ 2) * v.1 - x * (x * v.1 + y * v.2.1 + z * v.2.2) - w * (y * v.2.2 - z * v.2.1)) := by
      unfold quatRot; simp only; linear_combination -v.1 * h
    have c2 : v.2.1 - (quatRot w x y z v).2.1 = 2 * ((x ^ 2 + y ^ 2 + z ^ 2) * v.2.1 - y * (x * v.1 + y * v.2.1 + z * v.2.2) - w * (z * v.1 - x * v.2.2)) := by
      unfold quatRot; simp only; linear_combination -v.2.1 * h
    have c3 : v.2.2 - (quatRot w x y z v).2.2 = 2 * ((x ^ 2 + y ^ 2 + z ^ 2) * v.2.2 - z * (x * v.1 + y * v.2.1 + z * v.2.2) - w * (x * v.2.1 - y * v.1)) := by
      unfold quatRot; simp only; linear_combination -v.2.2 * h
    rw [c1, c2, c3]
    have f : (2 * ((x ^ 2 + y ^ 2 + z ^ 2) * v.1 - x * (x * v.1 + y * v.2.1 + z * v.2.2) - w * (y * v.2.2 - z * v.2.1))) ^ 2 +
        (2 * ((x ^ 2 + y ^ 2 + z ^ 2) * v.2.1 - y * (x * v.1 + y * v.2.1 + z * v.2.2) - w * (z * v.1 - x * v.2.2))) ^ 2 +
        (2 * ((x ^ 2 + y ^ 2 + z ^ 2) * v.2.2 - z * (x * v.1 + y * v.2.1 + z * v.2.2) - w * (x * v.2.1 - y * v.1))) ^ 2 =
        4 * (w ^ 2 + x ^ 2 + y ^ 2 + z ^ 2) * ((x ^ 2 + y ^ 2 + z ^ 2) * (v.1 ^ 2 + v.2.1 ^ 2 + v.2.2 ^ 2) -
          (x * v.1 + y * v.2.1 + z * v.2.2) ^ 2) := by ring
    rw [f, h, hv]
    linear_combination 4 * hw
  rw [e]
  nlinarith [sq_nonneg (x * v.1 + y * v.2.1 + z * v.2.2)]

theorem halfAngle_unit (inc obl theta theta_z : ℝ) :
    (0.5 * √2 * (sin (inc / 2) * cos (0.5 * (obl - theta + theta_z)) + cos (inc / 2) * cos (0.5 * (obl + theta + theta_z)))) ^ 2 +
    (0.5 * √2 * (-sin (inc / 2) * cos (0.5 * (obl - theta + theta_z)) + cos (inc / 2) * cos (0.5 * (obl + theta + theta_z)))) ^ 2 +
    (0.5 * √2 * (-sin (inc / 2) * sin (0.5 * (obl - theta + theta_z)) + sin (0.5 * (obl + theta + theta_z)) * cos (inc / 2))) ^ 2 +
    (0.5 * √2 * (sin (inc / 2) * sin (0.5 * (obl - theta + theta_z)) + sin (0.5 * (obl + theta + theta_z)) * cos (inc / 2))) ^ 2 = 1 := by
  have hi := sin_sq_add_cos_sq (inc / 2)
  have hm := sin_sq_add_cos_sq (0.5 * (obl - theta + theta_z))
  have hp := sin_sq_add_cos_sq (0.5 * (obl + theta + theta_z))
  have h2 : (√2 : ℝ) ^ 2 = 2 := sq_sqrt (by norm_num)
  generalize sin (inc / 2) = si at *
  generalize cos (inc / 2) = ci at *
  generalize sin (0.5 * (obl - theta + theta_z)) = sm at *
  generalize cos (0.5 * (obl - theta + theta_z)) = cm at *
  generalize sin (0.5 * (obl + theta + theta_z)) = sp at *
  generalize cos (0.5 * (obl + theta + theta_z)) = cp at *
  have : (0.5 * √2 * (si * cm + ci * cp)) ^ 2 + (0.5 * √2 * (-si * cm + ci * cp)) ^ 2 +
      (0.5 * √2 * (-si * sm + sp * ci)) ^ 2 + (0.5 * √2 * (si * sm + sp * ci)) ^ 2 =
      0.25 * √2 ^ 2 * (2 * (si ^ 2 * (sm ^ 2 + cm ^ 2) + ci ^ 2 * (sp ^ 2 + cp ^ 2))) := by ring
  rw [this, h2, hm, hp]
  linear_combination hi

/-- a snapped rotation moves no point of the sphere by more than 0.01 -/
theorem snapped_displacement (eps : ℝ) (heps : eps ≤ 1e-6) (inc obl theta theta_z : ℝ)
    (hz : |halfAngleCos inc obl theta theta_z - 1| ≤ eps + 1e-5) (p q : V3) (hp : OnSphere p)
    (hq : q = rotX (-(π / 2)) (rotZ (-theta) (rotX inc (rotZ (-obl) (rotZ (-theta_z) p))))) :
    (p.1 - q.1) ^ 2 + (p.2.1 - q.2.1) ^ 2 + (p.2.2 - q.2.2) ^ 2 ≤ 0.01 ^ 2 := by
  have h1 := view_inverse inc obl theta theta_z p
  have hqs : OnSphere q := by
    rw [hq]; exact rotX_sphere _ (rotZ_sphere _ (rotX_sphere _ (rotZ_sphere _ (rotZ_sphere _ hp))))
  rw [← hq, full_quat] at h1
  have h2 := quatRot_displacement (halfAngle_unit inc obl theta theta_z) q hqs
  rw [h1] at h2
  have hu := halfAngle_unit inc obl theta theta_z
  change |0.5 * √2 * (sin (inc / 2) * cos (0.5 * (obl - theta + theta_z)) + cos (inc / 2) * cos (0.5 * (obl + theta + theta_z))) - 1| ≤ _ at hz
  generalize 0.5 * √2 * (sin (inc / 2) * cos (0.5 * (obl - theta + theta_z)) + cos (inc / 2) * cos (0.5 * (obl + theta + theta_z))) = w at *
  have hz1 := (abs_le.1 hz).1
  have hz2 := (abs_le.1 hz).2
  have : (p.1 - q.1) ^ 2 + (p.2.1 - q.2.1) ^ 2 + (p.2.2 - q.2.2) ^ 2 =
    (q.1 - p.1) ^ 2 + (q.2.1 - p.2.1) ^ 2 + (q.2.2 - p.2.2) ^ 2 := by ring
  rw [this]
  refine h2.trans ?_
  norm_num at hz1 hz2 heps ⊢
  nlinarith

/-- F13 in `fast_direct_left_project`: a snapped rotation leaves the map as it is -/
theorem fastLeftProject_snapped (eps : ℝ) (asEuler : V3 → V3) (ydeg : ℕ) (inc obl theta theta_z : Option ℝ) (y : List ℝ)
    (hz : |halfAngleCos (inc.getD 0) (obl.getD 0) (theta.getD 0) (theta_z.getD 0) - 1| ≤ eps + 1e-5) (p : V3) (hp : OnSphere p) :
    mapVal ydeg (fastLeftProject eps asEuler ydeg inc obl theta theta_z y) p = mapVal ydeg y p := by
  have ha : (fullRotation eps inc obl theta theta_z).2.2.2 = 0 := by
    unfold fullRotation
    simp only
    rw [abs_one, mul_one]
    exact if_pos hz
  rw [fastLeftProject_pipe, ha]
  have : ∀ x y z, euler asEuler x y z (-0) = (0, 0, 0) := by
    intro x y z
    unfold euler
    simp
  rw [this, fastPipe_mapVal ydeg 0 0 0 y p hp, neg_zero, rotZ_zero, rotY_zero, rotZ_zero]

/-- C79: for all inputs (in double or single precision, `eps ≤ 1e-6`), the value returned for a point of the sky frame is the value of the
map within 0.01 of the right point; it is the right point unless the rotation is snapped -/
theorem fastLeftProject_near {asEuler : V3 → V3} (hE : IsEulerZYZ asEuler) (eps : ℝ) (heps : eps ≤ 1e-6) (ydeg : ℕ)
    (inc obl theta theta_z : Option ℝ) (y : List ℝ) (p : V3) (hp : OnSphere p) :
    ∃ q : V3, OnSphere q ∧ mapVal ydeg (fastLeftProject eps asEuler ydeg inc obl theta theta_z y) p = mapVal ydeg y q ∧
      (q.1 - (viewPoint inc obl theta theta_z p).1) ^ 2 + (q.2.1 - (viewPoint inc obl theta theta_z p).2.1) ^ 2 +
        (q.2.2 - (viewPoint inc obl theta theta_z p).2.2) ^ 2 ≤ 0.01 ^ 2 := by
  rcases le_or_gt |halfAngleCos (inc.getD 0) (obl.getD 0) (theta.getD 0) (theta_z.getD 0) - 1| (eps + 1e-5) with h | h
  · exact ⟨p, hp, fastLeftProject_snapped eps asEuler ydeg inc obl theta theta_z y h p hp,
      snapped_displacement eps heps _ _ _ _ h p _ hp rfl⟩
  · refine ⟨viewPoint inc obl theta theta_z p, ?_, fastLeftProject_mapVal_partial hE eps ydeg inc obl theta theta_z y h p hp, by norm_num⟩
    exact rotX_sphere _ (rotZ_sphere _ (rotX_sphere _ (rotZ_sphere _ (rotZ_sphere _ hp))))

/-- F13: for a map inclined by `π/2 + 0.004` the two functions differ -/
theorem fastLeftProject_differs {asEuler : V3 → V3} (hE : IsEulerZYZ asEuler) (eps : ℝ) (heps : 0 ≤ eps) :
    leftProject asEuler 1 (some (π / 2 + 0.004)) (some 0) none none [0, 0, 1, 0] ≠
      .ok (fastLeftProject eps asEuler 1 (some (π / 2 + 0.004)) (some 0) none none [0, 0, 1, 0]) := by
  intro h
  obtain ⟨M', h1, h2, h3⟩ := leftProject_spec hE 1 (π / 2 + 0.004) 0 none none [0, 0, 1, 0]
  rw [h1] at h
  injection h with h
  have hs : OnSphere (0, 1, 0) := by simp [OnSphere, normSq]
  have h4 := h3 (0, 1, 0) hs
  rw [h, fastLeftProject_snapped eps asEuler 1 _ _ _ _ _ ?_ _ hs] at h4
  · have hv : ∀ p : V3, mapVal 1 [0, 0, 1, 0] p = realHarmonic 1 0 p.1 p.2.1 p.2.2 := by
      intro p
      unfold mapVal
      simp [Finset.sum_range_succ]
      left; rfl
    rw [hv, hv] at h4
    have hr : ∀ x y z : ℝ, realHarmonic 1 0 x y z = harmNorm 1 0 * z := by
      intro x y z
      simp [realHarmonic, rodrigues]
      left; ring
    rw [hr, hr] at h4
    have h5 := mul_left_cancel₀ (harmNorm_ne_zero 1 0) h4
    simp only [rotZ, rotX, Option.getD_none, neg_zero, cos_zero, sin_zero] at h5
    rw [cos_neg, sin_neg, cos_pi_div_two, sin_pi_div_two] at h5
    have h6 : cos (π / 2 + 0.004) = -sin 0.004 := by rw [add_comm, cos_add_pi_div_two]
    rw [h6] at h5
    have h7 : 0 < sin (0.004 : ℝ) := sin_pos_of_pos_of_lt_pi (by norm_num) (by linarith [pi_gt_three])
    norm_num at h5
    linarith
  · unfold halfAngleCos
    simp only [Option.getD_some, Option.getD_none]
    have h1 : (0.5 : ℝ) * (0 - 0 + 0) = 0 := by norm_num
    have h2 : (0.5 : ℝ) * (0 + 0 + 0) = 0 := by norm_num
    rw [h1, h2, cos_zero, mul_one, mul_one]
    have h3 : 0.5 * √2 * (sin ((π / 2 + 0.004) / 2) + cos ((π / 2 + 0.004) / 2)) = cos 0.002 := by
      have : (0.002 : ℝ) = (π / 2 + 0.004) / 2 - π / 4 := by ring
      rw [this, cos_sub, cos_pi_div_four, sin_pi_div_four]
      ring
    rw [h3]
    have h4 := cos_le_one (0.002 : ℝ)
    have h5 := one_sub_sq_div_two_le_cos (x := 0.002)
    rw [abs_le]
    constructor
    · norm_num at h5 ⊢; linarith
    · norm_num at h5 ⊢; linarith

/-- the hypotheses can be met: a map with inclination zero, turned by half a revolution -/
example : ∃ asEuler : V3 → V3, IsEulerZYZ asEuler ∧ (2e-16 : ℝ) + 1e-5 < |halfAngleCos 0 0 π 0 - 1| ∧
    leftProject asEuler 2 (some 0) (some 0) (some π) (some 0) [1, 2, 3, 4, 5, 6, 7, 8, 9] =
      .ok (fastLeftProject 2e-16 asEuler 2 (some 0) (some 0) (some π) (some 0) [1, 2, 3, 4, 5, 6, 7, 8, 9]) := by
  obtain ⟨f, hf⟩ := exists_isEulerZYZ
  have h : (2e-16 : ℝ) + 1e-5 < |halfAngleCos 0 0 π 0 - 1| := by
    unfold halfAngleCos
    have : (0.5 : ℝ) * (0 + π + 0) = π / 2 := by ring
    rw [this, cos_pi_div_two]
    norm_num
  exact ⟨f, hf, h, fastLeftProject_eq_partial hf _ 2 0 0 (some π) (some 0) _ h⟩

end Jaxoplanet.Starry
