import Verif.Props.LimbMap

/-!
# the light curve as a linear function of the coefficients of the map (helpers for C108)
-/

namespace Jaxoplanet.Starry
open _root_.Jaxoplanet.Starry.Spec _root_.Jaxoplanet.Spec
open Real MeasureTheory
open _root_.Jaxoplanet.Green _root_.Jaxoplanet.LimbDark

/-- the monomial of entry `n` of the polynomial basis -/
noncomputable def monoAt (n : ℕ) (x y z : ℝ) : ℝ :=
  x ^ ((2 * Nat.sqrt n - (n - Nat.sqrt n ^ 2)) / 2) * y ^ ((n - Nat.sqrt n ^ 2) / 2) * z ^ ((n - Nat.sqrt n ^ 2) % 2)

/-- a vector of `N` numbers -/
def dvec (N : ℕ) (v : ℕ → ℝ) : List ℝ := (List.range N).map v

@[simp] theorem dvec_length (N : ℕ) (v : ℕ → ℝ) : (dvec N v).length = N := by simp [dvec]

theorem dvec_getD {N n : ℕ} (v : ℕ → ℝ) (h : n < N) : (dvec N v).getD n 0 = v n := by
  unfold dvec
  rw [List.getD_eq_getElem?_getD, List.getElem?_map, List.getElem?_range h]
  rfl

theorem dvec_getD_self {c : List ℝ} {N : ℕ} (h : c.length = N) : dvec N (fun n => c.getD n 0) = c := by
  apply List.ext_getElem
  · simp [h]
  · intro i a b
    simp only [dvec, List.getElem_map, List.getElem_range]
    exact List.getD_eq_getElem _ _ b

theorem denseVal_dvec (N : ℕ) (v : ℕ → ℝ) (x y z : ℝ) : denseVal (dvec N v) x y z = ∑ n ∈ Finset.range N, v n * monoAt n x y z := by
  unfold denseVal
  rw [dvec_length]
  refine Finset.sum_congr rfl fun n hn => ?_
  rw [dvec_getD v (Finset.mem_range.1 hn)]
  rfl

/-- polynomials on the sphere have one vector of coefficients -/
theorem dense_indep (D : ℕ) (v : ℕ → ℝ) (h : ∀ x y z : ℝ, x ^ 2 + y ^ 2 + z ^ 2 = 1 →
    ∑ n ∈ Finset.range ((D + 1) ^ 2), v n * monoAt n x y z = 0) : ∀ n < (D + 1) ^ 2, v n = 0 := by
  set N := (D + 1) ^ 2 with hN
  set M := matOf N (A1 D) with hM
  have hdet : IsUnit M.det := isUnit_iff_ne_zero.2 (A1_det D)
  set cv : Fin N → ℝ := fun j => v j with hcv
  set y := List.ofFn (M⁻¹.mulVec cv) with hy
  have hyl : y.length = N := by simp [hy]
  have h1 : matVec N (A1 D) y = dvec N v := by
    rw [hy, matVec_ofFn (A1_length D), ← hM, Matrix.mulVec_mulVec, Matrix.mul_nonsing_inv _ hdet, Matrix.one_mulVec]
    apply List.ext_getElem
    · rw [List.length_ofFn, dvec_length]
    · intro i a b
      simp [dvec, hcv]
  have h2 := harmonics_indep D (fun l q => y.getD (l ^ 2 + q) 0) fun a b c hs => by
    have := (A1_val D y (by rw [hyl]) a b c hs).2
    rw [← hN, h1, denseVal_dvec, h a b c hs] at this
    have h0 : (2 / √π) ≠ 0 := by positivity
    exact (mul_eq_zero.1 this.symm).resolve_left h0
  have h3 : M⁻¹.mulVec cv = 0 := by
    funext i
    have hi := sqrt_bounds i.1
    have := h2 (Nat.sqrt i) (sqrt_le_of_lt i.2) (i - Nat.sqrt i ^ 2) (by omega)
    rw [show Nat.sqrt i ^ 2 + (i - Nat.sqrt i ^ 2) = (i : ℕ) by omega, hy, getD_ofFn] at this
    exact this
  have h4 : cv = 0 := by
    have : M.mulVec (M⁻¹.mulVec cv) = cv := by rw [Matrix.mulVec_mulVec, Matrix.mul_nonsing_inv _ hdet, Matrix.one_mulVec]
    rw [← this, h3, Matrix.mulVec_zero]
  intro n hn
  exact congrFun h4 ⟨n, hn⟩

/-- functions on the sphere have one vector of coefficients in the Green basis -/
theorem gtilde_indep (D : ℕ) (g : ℕ → ℝ) (h : ∀ x y z : ℝ, x ^ 2 + y ^ 2 + z ^ 2 = 1 →
    ∑ n ∈ Finset.range ((D + 1) ^ 2), g n * polyVal (gtilde n) x y z = 0) : ∀ n < (D + 1) ^ 2, g n = 0 := by
  set N := (D + 1) ^ 2 with hN
  set M := matOf N (A2inv D) with hM
  have hval := fun x y z => A2inv_val D (dvec N g) (by rw [dvec_length]) x y z
  obtain ⟨w, hw⟩ : ∃ w : ℕ → ℝ, matVec N (A2inv D) (dvec N g) = dvec N w :=
    ⟨_, (dvec_getD_self (hval 0 0 0).1).symm⟩
  have h1 : ∀ n < N, w n = 0 := dense_indep D w fun x y z hs => by
    have := (hval x y z).2
    rw [← hN, hw, denseVal_dvec] at this
    rw [this]
    refine (Finset.sum_congr rfl fun n hn => ?_).trans (h x y z hs)
    rw [dvec_getD g (Finset.mem_range.1 hn)]
  set gv : Fin N → ℝ := fun j => g j with hgv
  have h2 : M.mulVec gv = 0 := by
    have e : dvec N g = List.ofFn gv := by
      apply List.ext_getElem
      · simp
      · intro i a b
        simp [dvec, hgv]
    rw [e, matVec_ofFn (A2inv_length D)] at hw
    funext i
    have : (List.ofFn (M.mulVec gv)).getD i.1 0 = (dvec N w).getD i.1 0 := congrArg (fun l => l.getD i.1 0) hw
    rw [getD_ofFn, dvec_getD w i.2, h1 i i.2] at this
    exact this
  have hdet : IsUnit M.det := isUnit_iff_ne_zero.2 (A2inv_det D)
  have h3 : gv = 0 := by
    have : M⁻¹.mulVec (M.mulVec gv) = gv := by rw [Matrix.mulVec_mulVec, Matrix.nonsing_inv_mul _ hdet, Matrix.one_mulVec]
    rw [← this, h2, Matrix.mulVec_zero]
  intro n hn
  exact congrFun h3 ⟨n, hn⟩

/-- the entries of the solution vector do not depend on the degree -/
theorem solutionVector_prefix (eps : ℝ) (quad : ℕ → List (ℝ × ℝ)) (order : ℕ) (b r : ℝ) : ∃ W : ℕ → ℝ, ∀ D, D ≠ 0 →
    ∃ S, solutionVector eps quad D order b r = .ok S ∧ ∀ n < (D + 1) ^ 2, S.getD n 0 = W n := by
  have hQ := fun D => qIntegral_spec D (0.5 * π - (kappas |b| |r|).2)
  let Pn : ℕ → ℝ := fun n => match pTerm eps |b| |r| (kappas |b| |r|).1 (lmOfIndex n).1 (lmOfIndex n).2 with
      | none => 0
      | some (low, f) => 0.25 * (kappas |b| |r|).1 * ((quad (if low then min order 20 else order)).map fun xw => f xw.1 * xw.2).sum
  refine ⟨fun n => arcIntegral (greenField (2 * Nat.sqrt n - (n - Nat.sqrt n ^ 2)) (n - Nat.sqrt n ^ 2)) 0 0 1
    (π - (0.5 * π - (kappas |b| |r|).2)) (2 * π + (0.5 * π - (kappas |b| |r|).2)) - Pn n, fun D hD => ?_⟩
  obtain ⟨Q, h1, h2, h3⟩ := hQ D
  unfold solutionVector
  simp only [h1]
  unfold pIntegral
  rw [if_neg hD]
  refine ⟨_, rfl, fun n hn => ?_⟩
  rw [List.getD_eq_getElem _ _ (by simp [h2, loopLM_eq, hn])]
  simp only [List.getElem_zipWith, List.getElem_map, loopLM_eq, List.getElem_range]
  have hi := sqrt_bounds n
  have h4 := h3 (Nat.sqrt n) (sqrt_le_of_lt hn) (n - Nat.sqrt n ^ 2) (by omega)
  rw [show Nat.sqrt n ^ 2 + (n - Nat.sqrt n ^ 2) = n by omega] at h4
  rw [← List.getD_eq_getElem Q 0 (by rw [h2]; exact hn), h4]
  rfl

theorem zip_dvec {F : List ℝ} {N : ℕ} (hF : F.length = N) (v : ℕ → ℝ) :
    (List.zipWith (· * ·) F (dvec N v)).sum = ∑ n ∈ Finset.range N, F.getD n 0 * v n := by
  have : List.zipWith (· * ·) F (dvec N v) = (List.range N).map fun n => F.getD n 0 * v n := by
    apply List.ext_getElem
    · simp [hF]
    · intro i a b
      have hi : i < N := by simpa using b
      simp only [List.getElem_zipWith, dvec, List.getElem_map, List.getElem_range]
      rw [List.getD_eq_getElem F 0 (by omega)]
  rw [this, listSum_range]

theorem sum_extend {N N' : ℕ} (h : N ≤ N') (f : ℕ → ℝ) :
    ∑ n ∈ Finset.range N, f n = ∑ n ∈ Finset.range N', if n < N then f n else 0 := by
  rw [← Finset.sum_filter]
  refine Finset.sum_congr ?_ fun _ _ => rfl
  ext n
  simp only [Finset.mem_range, Finset.mem_filter]
  omega

/-- the contraction of the design vector depends only on the polynomial as a function on the sphere, not on its degree -/
theorem design_stable (eps : ℝ) (quad : ℕ → List (ℝ × ℝ)) (order : ℕ) (r x y z : ℝ) : ∃ F : ℕ → List ℝ,
    (∀ D, D ≠ 0 → designVector eps quad order D r x y z = .ok (F D) ∧ (F D).length = (D + 1) ^ 2) ∧
    ∀ D D', D ≠ 0 → D' ≠ 0 → D ≤ D' → ∀ v v' : ℕ → ℝ, (∀ a b c : ℝ, a ^ 2 + b ^ 2 + c ^ 2 = 1 →
        ∑ n ∈ Finset.range ((D + 1) ^ 2), v n * monoAt n a b c = ∑ n ∈ Finset.range ((D' + 1) ^ 2), v' n * monoAt n a b c) →
      ∑ n ∈ Finset.range ((D + 1) ^ 2), (F D).getD n 0 * v n = ∑ n ∈ Finset.range ((D' + 1) ^ 2), (F D').getD n 0 * v' n := by
  by_cases h : 1 + r ≤ √(x ^ 2 + y ^ 2) ∨ z ≤ 0
  · refine ⟨rT, fun D hD => ⟨designVector_rot eps quad order hD r x y z h, (rT_spec D).1⟩, fun D D' hD hD' hle v v' hv => ?_⟩
    have e := fun D (v : ℕ → ℝ) => (zip_dvec (rT_spec D).1 v).symm.trans (rT_dot D _ (dvec_length _ v))
    rw [e, e]
    refine setIntegral_congr_fun measurableSet_stellarDisc fun p hp => ?_
    simp only [denseVal_dvec]
    exact hv _ _ _ (disc_sphere hp)
  · obtain ⟨W, hW⟩ := solutionVector_prefix eps quad order √(x ^ 2 + y ^ 2) r
    have hA := A2_spec
    choose A2 hA1 hA2 using hA
    choose S hS1 hS2 using hW
    refine ⟨fun D => if hD : D ≠ 0 then vecMat (S D hD) (A2 D) else [], fun D hD => ?_, fun D D' hD hD' hle v v' hv => ?_⟩
    · simp only [dif_pos hD]
      exact ⟨designVector_occ h (hS1 D hD) (hA1 D), vecMat_length _ _⟩
    · simp only [dif_pos hD, dif_pos hD']
      rw [← zip_dvec (vecMat_length _ _), ← zip_dvec (vecMat_length _ _)]
      obtain ⟨g, hg1, hg2, hg3⟩ := hA2 D (dvec _ v) (dvec_length _ _)
      obtain ⟨g', hg1', hg2', hg3'⟩ := hA2 D' (dvec _ v') (dvec_length _ _)
      rw [hg3, hg3']
      have hN : (D + 1) ^ 2 ≤ (D' + 1) ^ 2 := by nlinarith
      have hind := gtilde_indep D' (fun n => (if n < (D + 1) ^ 2 then g.getD n 0 else 0) - g'.getD n 0) fun a b c hs => by
        have := hv a b c hs
        rw [← denseVal_dvec, ← denseVal_dvec, hg2, hg2', sum_extend hN] at this
        simp only [sub_mul, Finset.sum_sub_distrib]
        rw [← this, sub_eq_zero]
        refine Finset.sum_congr rfl fun n _ => ?_
        split_ifs <;> simp
      rw [sum_extend hN]
      refine Finset.sum_congr rfl fun n hn => ?_
      have := hind n (Finset.mem_range.1 hn)
      rw [hS2 D' hD' n (Finset.mem_range.1 hn)]
      split_ifs with hlt
      · rw [if_pos hlt] at this
        rw [hS2 D hD n hlt, sub_eq_zero.1 this]
      · rw [if_neg hlt] at this
        have h0 : g'.getD n 0 = 0 := by linarith
        rw [h0, mul_zero]

/-- the map, the orientation and the limb darkening in the polynomial basis, on the whole sphere -/
theorem sky_poly {asEuler : V3 → V3} (hE : IsEulerZYZ asEuler) (d : ℕ) (inc obl theta : Option ℝ) (tz : ℝ) (u M : List ℝ) (hM : M.length = (d + 1) ^ 2) :
    ∃ c : List ℝ, c.length = (d + u.length + 1) ^ 2 ∧
      (∀ x y z : ℝ, x ^ 2 + y ^ 2 + z ^ 2 = 1 → denseVal c x y z = 2 / √π *
        mapVal d M (observerView (inc.getD 0) (usedObl inc obl) (theta.getD 0) (rotZ (-tz) (x, y, z))) * profile u z) ∧
      ∀ s : Surface, s.y.todense = M → s.ydeg = d → s.u = u → s.inc = inc → s.obl = obl →
        ∀ design : List ℝ, design.length = (d + u.length + 1) ^ 2 → projectFlux asEuler s theta tz design =
          .ok (s.amplitude * (List.zipWith (· * ·) design c).sum * (π / totalFlux u)) := by
  have hrot : ∃ M', (if d = 0 then .ok M else leftProject asEuler d inc obl theta (some tz) M) = .ok M' ∧ M'.length = (d + 1) ^ 2 ∧
      ∀ p, OnSphere p → mapVal d M' p = mapVal d M (observerView (inc.getD 0) (usedObl inc obl) (theta.getD 0) (rotZ (-tz) p)) := by
    by_cases h : d = 0
    · refine ⟨M, by rw [if_pos h], hM, fun p _ => ?_⟩
      rw [h]
      exact mapVal_zero _ _ _
    · rw [if_neg h]
      exact leftProject_view hE _ _ _ _ _ _
  obtain ⟨M', hM1, hM2, hM3⟩ := hrot
  obtain ⟨cu, q, hcu, hq, hu, hval⟩ := uPoly_spec u
  obtain ⟨p, q', w, hp, hq', hw, hwl, hwv⟩ := dense_product (d1 := d) (d2 := u.length)
    (A1_val d M' hM2 0 0 1 (by norm_num)).1 hcu
  obtain rfl : q' = q := by
    rw [hq] at hq'
    exact (Except.ok.inj hq').symm
  have hqd : q'.todense = cu := pijk_todense_fromDense hcu (some u.length) (Or.inr rfl) hq
  have htot : ∫ p in stellarDisc, denseVal cu p.1 p.2 (mu p) = totalFlux u := by
    unfold totalFlux
    exact setIntegral_congr_fun measurableSet_stellarDisc fun p hp => hval _ _ _ (disc_sphere hp)
  refine ⟨w.todense, hwl, fun x y z hs => ?_, fun s h1 h2 h3 h4 h5 design hd => ?_⟩
  · rw [hwv _ _ _ hs, hval _ _ _ hs, (A1_val d M' hM2 _ _ _ hs).2, ← hM3 (x, y, z) hs]
    rfl
  · subst h1 h2 h3 h4 h5
    unfold projectFlux rotatedY
    simp only [hM1, hu, hp, hw, bind, Except.bind]
    rw [dot_ok _ _ (by rw [hqd, (rT_spec s.udeg).1, hcu]; rfl), dot_ok _ _ (by rw [hd, hwl])]
    simp only
    rw [hqd, show s.udeg = s.u.length from rfl, rT_dot _ _ hcu, htot]
    rfl

theorem mapVal_unit (l q : ℕ) (hq : q ≤ 2 * l) (p : V3) :
    mapVal (l + 1) (dvec ((l + 1 + 1) ^ 2) fun n => if n = l ^ 2 + q then 1 else 0) p = realHarmonic l ((q : ℤ) - l) p.1 p.2.1 p.2.2 := by
  have hb := sum_blocks (l + 1 + 1) fun n => (if n = l ^ 2 + q then (1 : ℝ) else 0) *
    realHarmonic (Nat.sqrt n) (((n - Nat.sqrt n ^ 2 : ℕ) : ℤ) - Nat.sqrt n) p.1 p.2.1 p.2.2
  have hblk : ∀ l q : ℕ, q ≤ 2 * l → Nat.sqrt (l ^ 2 + q) = l := fun l q h => by
    rw [eq_comm, Nat.eq_sqrt]
    constructor <;> nlinarith
  have hlt : l ^ 2 + q < (l + 1 + 1) ^ 2 := by nlinarith
  unfold mapVal
  calc _ = ∑ l' ∈ Finset.range (l + 1 + 1), ∑ q' ∈ Finset.range (2 * l' + 1), (if l' ^ 2 + q' = l ^ 2 + q then (1 : ℝ) else 0) *
      realHarmonic (Nat.sqrt (l' ^ 2 + q')) (((l' ^ 2 + q' - Nat.sqrt (l' ^ 2 + q') ^ 2 : ℕ) : ℤ) - Nat.sqrt (l' ^ 2 + q')) p.1 p.2.1 p.2.2 := by
        refine Finset.sum_congr rfl fun l' hl' => Finset.sum_congr rfl fun q' hq' => ?_
        rw [Finset.mem_range] at hl' hq'
        rw [dvec_getD _ (by nlinarith), hblk l' q' (by omega), show l' ^ 2 + q' - l' ^ 2 = q' by omega]
    _ = _ := hb.symm
    _ = _ := by
        rw [Finset.sum_eq_single (l ^ 2 + q)]
        · rw [if_pos rfl, one_mul, hblk l q hq, show l ^ 2 + q - l ^ 2 = q by omega]
        · intro n _ hn
          rw [if_neg hn, zero_mul]
        · intro h
          exact absurd (Finset.mem_range.2 hlt) h

/-- the flux is linear in the coefficients of the map, for every design vector that depends only on the function -/
theorem flux_linear_core {asEuler : V3 → V3} (hE : IsEulerZYZ asEuler) (inc obl theta : Option ℝ) (tz : ℝ) (u : List ℝ) (D0 : ℕ) (hD0 : D0 ≤ 1) (F : ℕ → List ℝ)
    (hlen : ∀ D, D0 ≤ D → (F D).length = (D + 1) ^ 2)
    (hst : ∀ D D', D0 ≤ D → D0 ≤ D' → D ≤ D' → ∀ v v' : ℕ → ℝ, (∀ a b c : ℝ, a ^ 2 + b ^ 2 + c ^ 2 = 1 →
        ∑ n ∈ Finset.range ((D + 1) ^ 2), v n * monoAt n a b c = ∑ n ∈ Finset.range ((D' + 1) ^ 2), v' n * monoAt n a b c) →
      ∑ n ∈ Finset.range ((D + 1) ^ 2), (F D).getD n 0 * v n = ∑ n ∈ Finset.range ((D' + 1) ^ 2), (F D').getD n 0 * v' n) :
    ∃ X : ℕ → ℤ → ℝ, ∀ s : Surface, ValidMap s.y → D0 ≤ s.ydeg → s.u = u → s.inc = inc → s.obl = obl →
      projectFlux asEuler s theta tz (F s.deg) = .ok (s.amplitude * ∑ l ∈ Finset.range (s.ydeg + 1), ∑ q ∈ Finset.range (2 * l + 1),
        X l ((q : ℤ) - l) * coef s.y l ((q : ℤ) - l)) := by
  have hC := fun (l : ℕ) (q : ℕ) => sky_poly hE (l + 1) inc obl theta tz u (dvec ((l + 1 + 1) ^ 2) fun n => if n = l ^ 2 + q then 1 else 0) (dvec_length _ _)
  choose C hC1 hC2 _ using hC
  refine ⟨fun l m => (∑ n ∈ Finset.range ((l + 1 + u.length + 1) ^ 2), (F (l + 1 + u.length)).getD n 0 * (C l (m + l).toNat).getD n 0) *
    (π / totalFlux u), fun s hy hd h1 h2 h3 => ?_⟩
  have hsd : s.deg = s.ydeg + u.length := by unfold Surface.deg Surface.udeg; rw [h1]
  obtain ⟨c, hc1, hc2, hc3⟩ := sky_poly hE s.ydeg inc obl theta tz u s.y.todense (todense_length _)
  rw [hsd, hc3 s rfl rfl h1 h2 h3 _ (hlen _ (by omega))]
  obtain ⟨v, rfl⟩ : ∃ v, c = dvec ((s.ydeg + u.length + 1) ^ 2) v := ⟨_, (dvec_getD_self hc1).symm⟩
  rw [zip_dvec (hlen _ (by omega))]
  have hkey : ∑ n ∈ Finset.range ((s.ydeg + u.length + 1) ^ 2), (F (s.ydeg + u.length)).getD n 0 * v n =
      ∑ l ∈ Finset.range (s.ydeg + 1), ∑ q ∈ Finset.range (2 * l + 1), coef s.y l ((q : ℤ) - l) *
        ∑ n ∈ Finset.range ((l + 1 + u.length + 1) ^ 2), (F (l + 1 + u.length)).getD n 0 * (C l q).getD n 0 := by
    have hle : ∀ l ∈ Finset.range (s.ydeg + 1), (l + 1 + u.length + 1) ^ 2 ≤ (s.ydeg + 1 + u.length + 1) ^ 2 := fun l hl => by
      rw [Finset.mem_range] at hl
      exact Nat.pow_le_pow_left (by omega) 2
    have e := hst (s.ydeg + u.length) (s.ydeg + 1 + u.length) (by omega) (by omega) (by omega) v
      (fun n => ∑ l ∈ Finset.range (s.ydeg + 1), ∑ q ∈ Finset.range (2 * l + 1), coef s.y l ((q : ℤ) - l) *
        if n < (l + 1 + u.length + 1) ^ 2 then (C l q).getD n 0 else 0) fun a b c hs => by
      rw [← denseVal_dvec, hc2 a b c hs, show s.ydeg = s.y.deg from rfl, mapVal_todense hy]
      simp only [Finset.sum_mul]
      rw [Finset.sum_comm]
      unfold mapAt
      rw [Finset.mul_sum, Finset.sum_mul]
      refine Finset.sum_congr rfl fun l hl => ?_
      rw [Finset.sum_comm, Finset.mul_sum, Finset.sum_mul]
      refine Finset.sum_congr rfl fun q hq => ?_
      have h4 := hC2 l q a b c hs
      rw [← dvec_getD_self (hC1 l q), denseVal_dvec, sum_extend (hle l hl), mapVal_unit l q (by rw [Finset.mem_range] at hq; omega)] at h4
      calc _ = coef s.y l ((q : ℤ) - l) * (2 / √π * realHarmonic l ((q : ℤ) - l) _ _ _ * profile u c) := by ring
        _ = _ := by
          rw [← h4, Finset.mul_sum]
          refine Finset.sum_congr rfl fun n _ => ?_
          split_ifs <;> ring
    rw [e]
    simp only [Finset.mul_sum]
    rw [Finset.sum_comm]
    refine Finset.sum_congr rfl fun l hl => ?_
    rw [Finset.sum_comm]
    refine Finset.sum_congr rfl fun q hq => ?_
    have h5 := hst (l + 1 + u.length) (s.ydeg + 1 + u.length) (by omega) (by omega) (by rw [Finset.mem_range] at hl; omega)
      (fun n => (C l q).getD n 0) (fun n => if n < (l + 1 + u.length + 1) ^ 2 then (C l q).getD n 0 else 0) fun a b c _ => by
        rw [sum_extend (hle l hl)]
        refine Finset.sum_congr rfl fun n _ => ?_
        split_ifs <;> simp
    rw [← Finset.mul_sum, h5, Finset.mul_sum]
    refine Finset.sum_congr rfl fun n _ => ?_
    ring
  rw [hkey]
  congr 1
  rw [mul_assoc, Finset.sum_mul]
  congr 1
  refine Finset.sum_congr rfl fun l _ => ?_
  rw [Finset.sum_mul]
  refine Finset.sum_congr rfl fun q _ => ?_
  beta_reduce
  rw [show ((q : ℤ) - l + l).toNat = q by omega]
  ring

end Jaxoplanet.Starry
