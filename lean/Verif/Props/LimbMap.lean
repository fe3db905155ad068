import Verif.Model.Spot
import Verif.Proofs.HarmIndep
import Verif.Props.SurfaceLight

/-!
# C74: limb darkening as a map

`Ylm.from_limb_darkening(u)` solves for the spherical harmonic coefficients of the limb-darkening profile. The change of
basis `A1` from spherical harmonics to polynomials is invertible for every degree, so the solution exists and is unique.
-/

namespace Jaxoplanet.Starry
open _root_.Jaxoplanet.Starry.Spec _root_.Jaxoplanet.Spec
open Real MeasureTheory
open _root_.Jaxoplanet.Green _root_.Jaxoplanet.LimbDark

/-- **C74** a map is determined by its intensity on the sphere: different coefficients give different maps -/
theorem map_determines_coef {y y' : Ylm} (hy : ValidMap y) (hy' : ValidMap y') (h : ∀ p, OnSphere p → mapAt y p = mapAt y' p)
    (l : ℕ) (m : ℤ) : coef y l m = coef y' l m := by
  set L := max y.deg y'.deg with hL
  have ext : ∀ (y : Ylm), ValidMap y → y.deg ≤ L → ∀ p : V3, mapAt y p = ∑ l ∈ Finset.range (L + 1), ∑ q ∈ Finset.range (2 * l + 1),
      coef y l ((q : ℤ) - l) * realHarmonic l ((q : ℤ) - l) p.1 p.2.1 p.2.2 := by
    intro y hy hle p
    unfold mapAt
    refine Finset.sum_subset (Finset.range_subset_range.2 (by omega)) fun l hl hn => Finset.sum_eq_zero fun q _ => ?_
    rw [coef_zero_of_invalid hy (Or.inr (by simpa using hn)), zero_mul]
  have h0 := harmonics_indep L (fun l q => coef y l ((q : ℤ) - l) - coef y' l ((q : ℤ) - l)) fun a b c hs => by
    have := h (a, b, c) hs
    rw [ext y hy (le_max_left _ _), ext y' hy' (le_max_right _ _)] at this
    simp only [sub_mul, Finset.sum_sub_distrib]
    exact sub_eq_zero.2 this
  by_cases hm : |m| ≤ (l : ℤ)
  · rw [abs_le] at hm
    by_cases hl : l ≤ L
    · have := h0 l hl (m + l).toNat (by omega)
      rw [show (((m + l).toNat : ℕ) : ℤ) - l = m by omega] at this
      linarith
    · rw [coef_zero_of_invalid hy (Or.inr (by omega)), coef_zero_of_invalid hy' (Or.inr (by omega))]
  · rw [coef_zero_of_invalid hy (Or.inl hm), coef_zero_of_invalid hy' (Or.inl hm)]

/-! ### the change of basis is invertible -/

theorem A1_length (lmax : ℕ) : (A1 lmax).length = (lmax + 1) ^ 2 := by
  unfold A1
  rw [AImpl_eq]
  simp

/-- the product of a matrix, given by its columns, with a vector -/
theorem matVec_ofFn {N : ℕ} {cols : List (List ℝ)} (hc : cols.length = N) (v : Fin N → ℝ) :
    matVec N cols (List.ofFn v) = List.ofFn ((matOf N cols).mulVec v) := by
  apply List.ext_getElem
  · simp [matVec]
  · intro i h1 h2
    simp only [matVec, List.getElem_map, List.getElem_range, List.getElem_ofFn]
    have e : ((cols.zip (List.ofFn v)).map fun e => e.1.getD i 0 * e.2) =
        (List.range N).map fun n : ℕ => (cols.getD n []).getD i 0 * (List.ofFn v).getD n 0 := by
      apply List.ext_getElem
      · simp [hc]
      · intro n a1 a2
        simp only [List.getElem_map, List.getElem_zip, List.getElem_range]
        have hn : n < N := by simpa using a2
        rw [List.getD_eq_getElem cols _ (by omega), List.getD_eq_getElem (List.ofFn v) _ (by simpa using hn)]
    rw [e, listSum_range, Finset.sum_range]
    simp only [Matrix.mulVec, dotProduct]
    refine Finset.sum_congr rfl fun n _ => ?_
    rw [getD_ofFn]
    rfl

theorem denseVal_zeros (N : ℕ) (x y z : ℝ) : denseVal (List.ofFn (0 : Fin N → ℝ)) x y z = 0 := by
  unfold denseVal
  refine Finset.sum_eq_zero fun n hn => ?_
  have hn : n < N := by simpa using hn
  have := getD_ofFn (0 : Fin N → ℝ) ⟨n, hn⟩
  simp only at this
  simp only [this, Pi.zero_apply, zero_mul]

/-- **C74** the change of basis from spherical harmonics to polynomials is invertible, for every degree -/
theorem A1_det (lmax : ℕ) : (matOf ((lmax + 1) ^ 2) (A1 lmax)).det ≠ 0 := by
  intro h
  obtain ⟨v, hv, h0⟩ := Matrix.exists_mulVec_eq_zero_iff.2 h
  apply hv
  have hm := matVec_ofFn (A1_length lmax) v
  rw [h0] at hm
  have hz := harmonics_indep lmax (fun l q => (List.ofFn v).getD (l ^ 2 + q) 0) fun x y z hs => by
    have h1 := (A1_val lmax (List.ofFn v) (by simp) x y z hs).2
    rw [hm, denseVal_zeros] at h1
    have : (2 : ℝ) / √π ≠ 0 := by have := sqrt_pos.2 pi_pos; positivity
    exact (mul_eq_zero.1 h1.symm).resolve_left this
  funext n
  have hb := Nat.sqrt_le' (n : ℕ)
  have hb2 := Nat.lt_succ_sqrt' (n : ℕ)
  have hs : Nat.sqrt n ≤ lmax := by
    have : Nat.sqrt n < lmax + 1 := by rw [Nat.sqrt_lt']; exact n.2
    omega
  have := hz (Nat.sqrt n) hs (n - Nat.sqrt n ^ 2) (by
    have : (Nat.sqrt n).succ ^ 2 = Nat.sqrt n ^ 2 + 2 * Nat.sqrt n + 1 := by rw [Nat.succ_eq_add_one]; ring
    omega)
  rw [Nat.add_sub_cancel' hb, getD_ofFn] at this
  exact this

/-- **C74** every polynomial on the sphere is a map: `inv(A1)` gives the coefficients, and they are the only ones -/
theorem A1_inverse (lmax : ℕ) : ∃ B, scipyInv (matOf ((lmax + 1) ^ 2) (A1 lmax)) = .ok B ∧
    ∀ c : List ℝ, c.length = (lmax + 1) ^ 2 → ∀ x y z : ℝ, x ^ 2 + y ^ 2 + z ^ 2 = 1 →
      2 / √π * mapVal lmax (List.ofFn (B.mulVec fun j => c.getD j 0)) (x, y, z) = denseVal c x y z := by
  set N := (lmax + 1) ^ 2 with hN
  set M := matOf N (A1 lmax) with hM
  have hdet : IsUnit M.det := isUnit_iff_ne_zero.2 (A1_det lmax)
  refine ⟨M⁻¹, by unfold scipyInv; rw [if_neg (A1_det lmax)], fun c hc x y z hs => ?_⟩
  set cv : Fin N → ℝ := fun j => c.getD j 0 with hcv
  have h1 : matVec N (A1 lmax) (List.ofFn (M⁻¹.mulVec cv)) = c := by
    rw [matVec_ofFn (A1_length lmax), ← hM, Matrix.mulVec_mulVec, Matrix.mul_nonsing_inv _ hdet, Matrix.one_mulVec]
    apply List.ext_getElem
    · simp [hc, hN]
    · intro i a b
      rw [List.getElem_ofFn]
      exact List.getD_eq_getElem _ _ b
  have h2 := (A1_val lmax (List.ofFn (M⁻¹.mulVec cv)) (by simp [hN]) x y z hs).2
  rw [← hN, h1] at h2
  exact h2.symm

/-! ### limb darkening -/

/-- **C74** `Ylm.from_limb_darkening(u)` is the map of the limb-darkening profile, scaled to total flux 1 (a profile without flux cannot be scaled): at the
point `p` of the sphere its intensity is `π` times the profile at the cosine `p.z`, divided by the flux of the profile -/
theorem from_limb_darkening_map (u : List ℝ) (hu : totalFlux u ≠ 0) : ∃ y, Ylm.fromLimbDarkening u = .ok y ∧ ValidMap y ∧ y.deg = u.length ∧
    ∀ p, OnSphere p → 2 * √π * mapAt y p = π * profile u p.2.2 / totalFlux u := by
  obtain ⟨B, hB, hval⟩ := A1_inverse u.length
  have hul := (limbDarkPoly_val u 0 0 1 (by norm_num)).1
  set w := List.ofFn (B.mulVec fun j => (limbDarkPoly u).getD j 0) with hw
  have hwl : w.length = (u.length + 1) ^ 2 := by simp [hw]
  have hne : w ≠ [] := by
    intro h
    have : 0 < (u.length + 1) ^ 2 := by positivity
    rw [← hwl, h] at this
    simp at this
  have hmap : ((List.finRange ((u.length + 1) ^ 2)).map fun i => B.mulVec (fun j => (limbDarkPoly u).getD j 0) i) = w := by
    rw [hw, List.ofFn_eq_map]
  obtain ⟨y0, hy0⟩ : ∃ y, Ylm.fromDense w false = .ok y := ⟨_, rfl⟩
  have hv0 := fromDense_valid hne hy0
  have hd0 := fromDense_deg hwl hy0
  have hune : limbDarkPoly u ≠ [] := by
    intro h
    have : 0 < (u.length + 1) ^ 2 := by positivity
    rw [← hul, h] at this
    simp at this
  obtain ⟨q, hq, -, -, hqd, -⟩ := pijk_fromDense (limbDarkPoly u) hune (some u.length)
  have hqt := pijk_todense_fromDense hul (some u.length) (Or.inr rfl) hq
  have hdot : q.dot (rT u.length) = .ok (totalFlux u) := by
    rw [dot_ok _ _ (by rw [(rT_spec u.length).1, pijk_todense_length, hqd _ rfl]), hqt, rT_dot _ _ hul]
    unfold totalFlux
    congr 1
    exact setIntegral_congr_fun measurableSet_stellarDisc fun p hp => (limbDarkPoly_val u _ _ _ (disc_sphere hp)).2
  have hv : ValidMap (y0.smul (1 / totalFlux u)) := by
    refine ⟨?_, ?_, ?_⟩
    · have := hv0.wf
      unfold Dict.WF at this ⊢
      unfold Ylm.smul
      simpa [List.map_map, Function.comp_def] using this
    · have := hv0.nonempty
      unfold Ylm.smul
      simpa using this
    · intro e he
      unfold Ylm.smul at he
      obtain ⟨e', he', rfl⟩ := List.mem_map.1 he
      exact hv0.order e' he'
  have hd : (y0.smul (1 / totalFlux u)).deg = y0.deg := by
    unfold Ylm.deg Ylm.smul
    simp [List.map_map, Function.comp_def]
  refine ⟨y0.smul (1 / totalFlux u), ?_, hv, by rw [hd, hd0], fun p hp => ?_⟩
  · unfold Ylm.fromLimbDarkening
    simp only [hB, hmap, hy0, hq, hdot, bind, Except.bind, pure, Except.pure]
  · have h1 : mapAt (y0.smul (1 / totalFlux u)) p = 1 / totalFlux u * mapAt y0 p := by
      unfold mapAt
      rw [hd, Finset.mul_sum]
      refine Finset.sum_congr rfl fun l _ => ?_
      rw [Finset.mul_sum]
      refine Finset.sum_congr rfl fun q _ => ?_
      rw [smul_coef, mul_assoc]
    have h2 := hval _ hul p.1 p.2.1 p.2.2 hp
    rw [(limbDarkPoly_val u _ _ _ hp).2, ← hw] at h2
    have h3 := mapVal_todense hv0 p
    rw [todense_fromDense hwl hy0, hd0] at h3
    rw [h1, ← h3, ← h2]
    have h0 : √π ≠ 0 := (sqrt_pos.2 pi_pos).ne'
    have hpi : √π * √π = π := mul_self_sqrt pi_pos.le
    field_simp
    linear_combination mapVal u.length w p * hpi

/-- **C74** the two ways of limb darkening agree: seen along its axis of symmetry, the map of `u` has the same relative flux
from every part of the disc as the constant map darkened with `u` -/
theorem from_limb_darkening_flux (u : List ℝ) (hu : totalFlux u ≠ 0) {y : Ylm} (h : Ylm.fromLimbDarkening u = .ok y) (V : Set (ℝ × ℝ))
    (hV : MeasurableSet V) (hVs : V ⊆ stellarDisc) :
    relativeFlux y [] (π / 2) 0 0 V = (∫ p in V, profile u (mu p)) / totalFlux u := by
  obtain ⟨y', h1, -, -, h2⟩ := from_limb_darkening_map u hu
  rw [h, Except.ok.injEq] at h1
  subst h1
  have htot : totalFlux [] = π := by
    have := LimbDark.whole_star 0
    simpa [totalFlux, profile, LimbDark.gtil] using this
  unfold relativeFlux
  rw [htot]
  have e : ∫ p in V, skyIntensity y [] (π / 2) 0 0 p = ∫ p in V, π / totalFlux u * profile u (mu p) := by
    refine setIntegral_congr_fun hV fun p hp => ?_
    unfold skyIntensity
    have hv : observerView (π / 2) 0 0 (p.1, p.2, mu p) = (p.1, p.2, mu p) := by
      simp [observerView, rotX, rotZ]
    have := h2 (p.1, p.2, mu p) (disc_sphere (hVs hp))
    simp only [hv, this]
    simp [profile]
    ring
  rw [e, integral_const_mul]
  have := pi_ne_zero
  field_simp

/-- the flux of the whole disc is 1 -/
theorem from_limb_darkening_total (u : List ℝ) (hu : totalFlux u ≠ 0) {y : Ylm} (h : Ylm.fromLimbDarkening u = .ok y) :
    relativeFlux y [] (π / 2) 0 0 stellarDisc = 1 := by
  rw [from_limb_darkening_flux u hu h _ measurableSet_stellarDisc subset_rfl]
  exact div_self hu

/-- a quadratic law: the flux is not zero -/
example : ∃ y, Ylm.fromLimbDarkening [0.1, 0.3] = .ok y ∧ y.deg = 2 ∧ relativeFlux y [] (π / 2) 0 0 stellarDisc = 1 := by
  have hu : totalFlux [0.1, 0.3] ≠ 0 := by
    rw [totalFlux_eq (by simp)]
    have h0 : greens [0.1, 0.3] 0 = 0.6 - 2 * (0.3 / 4) := by
      simp [greens, uAug, gHigh_of_lt, gHigh_of_ge, pCoeff, Finset.sum_range_succ]; norm_num
    have h1 : greens [0.1, 0.3] 1 = 0.7 := by
      simp [greens, uAug, gHigh_of_ge, pCoeff, Finset.sum_range_succ]; norm_num
    rw [h0, h1]
    have := pi_pos
    norm_num
  obtain ⟨y, h, -, hd, -⟩ := from_limb_darkening_map _ hu
  exact ⟨y, h, hd, from_limb_darkening_total _ hu h⟩

end Jaxoplanet.Starry
