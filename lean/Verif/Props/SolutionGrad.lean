import Verif.Proofs.SolutionGrad
import Verif.Props.LimbDarkDeriv

/-!
# C92: the derivatives of the solution vector

`solution_vector(l_max, order)(b, r)`, from which the light curve of an occulted map is computed, has finite derivatives with respect to `b` and `r`
in both modes of automatic differentiation, except if the occultor exactly covers the star (`b = 0`, `|r| = 1`) or is a point on its limb
(`|b| = 1`, `r = 0`), and away from the thresholds of the guards of the program they are its derivatives.
-/

namespace Jaxoplanet.Starry
open Real AD AD.Dual Filter Topology

theorem solutionVector_entry (eps : ℝ) (quad : ℕ → List (ℝ × ℝ)) {l_max : ℕ} (hl : l_max ≠ 0) (order : ℕ) (b r : ℝ) :
    solutionVector eps quad l_max order b r = .ok ((loopLM l_max).map fun e =>
      qEntry (0.5 * π - (kappas |b| |r|).2) e - pEntry eps quad order |b| |r| (kappas |b| |r|).1 e) := by
  unfold solutionVector
  simp only [pIntegral_entry _ _ _ hl, qIntegral_entry]
  congr 1
  induction loopLM l_max with
  | nil => rfl
  | cons e es ih => simp [ih]

theorem track_zip {ι : Type*} {t : ℝ} {q p : ι → ℝ → ℝ} {F : ι → Dual} {es : List ι} {D : List Dual} (hq : List.Forall₂ (fun e x => Tracks (q e) t x) es D)
    (hp : ∀ e ∈ es, Tracks (p e) t (F e)) :
    List.Forall₂ (fun e x => Tracks (fun s => q e s - p e s) t x) es (List.zipWith (fun q p => q - p) D (es.map F)) := by
  induction hq with
  | nil => exact .nil
  | cons h _ ih => exact .cons (track_sub h (hp _ (by simp))) (ih fun e he => hp e (by simp [he]))

theorem solutionVectorD_v (eps : ℝ) (strict : Bool) (quad : ℕ → List (ℝ × ℝ)) (l_max order : ℕ) (b r : Dual) :
    (solutionVectorD eps strict quad l_max order b r).map (List.map (·.v)) = solutionVector eps quad l_max order b.v r.v := by
  unfold solutionVectorD solutionVector
  have hk1 : (kappasD eps strict b.abs r.abs).1.v = (kappas |b.v| |r.v|).1 := LimbDark.kappasD_0 eps strict b.abs r.abs
  have hk2 : (kappasD eps strict b.abs r.abs).2.v = (kappas |b.v| |r.v|).2 := LimbDark.kappasD_1 eps strict b.abs r.abs
  have hp := pIntegralD_v eps strict quad order l_max b.abs r.abs (kappasD eps strict b.abs r.abs).1
  have hq := qIntegralD_v l_max (const (0.5 * π) - (kappasD eps strict b.abs r.abs).2)
  rw [sub_v, const_v, hk2] at hq
  rw [abs_v, abs_v, hk1] at hp
  simp only
  rw [← hp, ← hq]
  cases pIntegralD eps strict quad order l_max b.abs r.abs (kappasD eps strict b.abs r.abs).1 <;>
    cases qIntegralD l_max (const (0.5 * π) - (kappasD eps strict b.abs r.abs).2)
  · rfl
  · rfl
  · rfl
  · simp only [Except.map]
    congr 1
    rw [List.map_zipWith, List.zipWith_map]
    rfl

/-- C92: the derivatives of the solution vector are finite, in both modes -/
theorem solution_gradient_finite {eps : ℝ} (he : 0 < eps) (strict : Bool) (quad : ℕ → List (ℝ × ℝ)) {l_max : ℕ} (hl : l_max ≠ 0) (order : ℕ) (b r : Dual)
    (hb : ∃ d, b.d = some d) (hr : ∃ d, r.d = some d) (h1 : ¬ (b.v = 0 ∧ |r.v| = 1)) (h2 : ¬ (|b.v| = 1 ∧ r.v = 0)) :
    ∃ L, solutionVectorD eps strict quad l_max order b r = .ok L ∧ L.length = (l_max + 1) ^ 2 ∧ ∀ a ∈ L, ∃ d, a.d = some d := by
  have hb' := fin_abs hb
  have hr' := fin_abs hr
  obtain ⟨-, k0, k1⟩ := LimbDark.fin_kappasD eps strict hb' hr' (abs_nonneg _) (abs_nonneg _)
  have k0 := k0 (by simpa using h2) (by simpa using h1)
  have k1 := k1 (by simpa using h1)
  obtain ⟨f, hf⟩ := fin_tracks (t := 0) (fin_sub (fin_const (0.5 * π)) k1)
  obtain ⟨D, hD, hT⟩ := track_qIntegral hf l_max
  have hp := fun e he' => (fin_tracks (t := 0) (fin_pEntryD he strict quad order hb' hr' k0 e (mem_loopLM (lmax := l_max) he')))
  choose! p hp using hp
  have hz := track_zip hT hp
  refine ⟨List.zipWith (fun q p => q - p) D ((loopLM l_max).map (pEntryD eps strict quad order b.abs r.abs (LimbDark.kappasD eps strict b.abs r.abs).2.1)), ?_, ?_, ?_⟩
  · unfold solutionVectorD
    simp only [kappasD_eq, pIntegralD_entry _ _ _ _ hl, hD]
  · rw [← hz.length_eq, loopLM_eq]
    simp
  · intro a ha
    obtain ⟨i, hi, rfl⟩ := List.getElem_of_mem ha
    exact (hz.get (by rw [hz.length_eq]; exact hi) hi).fin

/-- the points at which no guard of the program is at its threshold: the occultor is not exactly centred, not of size zero, not in exact contact with the limb,
and no quantity compared with `10 * eps` is at (or, under the square root of the linear limb-darkening term, between zero and) this threshold -/
structure RegularPoint (eps : ℝ) (nodes : List (ℝ × ℝ)) (b r : ℝ) : Prop where
  centre : b ≠ 0
  size : r ≠ 0
  outer : |b| ≠ 1 + |r|
  inner : |b| ≠ |(1 - |r|)|
  kite : LimbDark.Lens |b| |r| → 10 * eps ≤ (LimbDark.kappas |b| |r|).1 ^ 2
  factor : 4 * |b| * |r| ≠ 10 * eps
  radius : |r| ≠ 10 * eps
  node : ∀ xw ∈ nodes, NodeOk eps |b| |r| (kappas |b| |r|).1 xw.1

/-- C92: at regular points the derivative of every entry of the solution vector is the derivative of this entry -/
theorem solution_gradient_is_derivative {eps : ℝ} (he : 0 < eps) (strict : Bool) (quad : ℕ → List (ℝ × ℝ)) {l_max : ℕ} (hl : l_max ≠ 0) (order : ℕ) {t : ℝ}
    (b r : ℝ → ℝ) (hb : DifferentiableAt ℝ b t) (hr : DifferentiableAt ℝ r t) (h : RegularPoint eps (quad order) (b t) (r t)) :
    ∃ (L : List Dual) (V : ℝ → List ℝ), solutionVectorD eps strict quad l_max order (LimbDark.input t b) (LimbDark.input t r) = .ok L ∧ L.length = (l_max + 1) ^ 2 ∧
      (∀ s, solutionVector eps quad l_max order (b s) (r s) = .ok (V s)) ∧
      ∀ n < (l_max + 1) ^ 2, ∃ d, (L.getD n (const 0)).d = some d ∧ HasDerivAt (fun s => (V s).getD n 0) d t := by
  have tb := track_abs (LimbDark.track_input hb) h.centre
  have tr := track_abs (LimbDark.track_input hr) h.size
  have hb0 : 0 < |b t| := abs_pos.2 h.centre
  have hr0 : 0 < |r t| := abs_pos.2 h.size
  obtain ⟨-, k0, k1⟩ := LimbDark.track_kappas he strict tb tr hb0 hr0 h.outer h.inner h.kite
  have hnum : 1 - |r t| ^ 2 - |b t| ^ 2 + 2 * |b t| * |r t| ≠ 0 := by
    intro h0
    have : (1 - |b t| + |r t|) * (1 + |b t| - |r t|) = 0 := by linarith
    rcases mul_eq_zero.1 this with h' | h'
    · exact h.outer (by linarith)
    · refine h.inner ?_
      rw [abs_of_nonpos (by linarith : 1 - |r t| ≤ 0)]
      linarith
  obtain ⟨D, hD, hT⟩ := track_qIntegral (track_sub (track_const (0.5 * π) t) k1) l_max
  have hk0 : (LimbDark.kappasD eps strict (LimbDark.input t b).abs (LimbDark.input t r).abs).2.1.v = (kappas |b t| |r t|).1 :=
    LimbDark.kappasD_0 _ _ _ _
  have hz := track_zip hT fun e he' => track_pEntry he strict quad order tb tr k0 h.factor h.radius hnum
    (by intro xw hxw; rw [hk0]; exact h.node xw hxw) e (mem_loopLM (lmax := l_max) he')
  refine ⟨List.zipWith (fun q p => q - p) D ((loopLM l_max).map (pEntryD eps strict quad order (LimbDark.input t b).abs (LimbDark.input t r).abs
    (LimbDark.kappasD eps strict (LimbDark.input t b).abs (LimbDark.input t r).abs).2.1)), fun s => _, ?_, ?_, fun s => solutionVector_entry eps quad hl order (b s) (r s), ?_⟩
  · unfold solutionVectorD
    simp only [kappasD_eq, pIntegralD_entry _ _ _ _ hl, hD]
  · rw [← hz.length_eq, loopLM_eq]
    simp
  · intro n hn
    have hln : n < (loopLM l_max).length := by rw [loopLM_eq]; simpa using hn
    have hT := hz.get hln (by rw [← hz.length_eq]; exact hln)
    obtain ⟨-, d, hd, hder⟩ := hT
    refine ⟨d, ?_, ?_⟩
    · rw [List.getD_eq_getElem?_getD, List.getElem?_eq_getElem (by rw [← hz.length_eq]; exact hln)]
      exact hd
    · refine hder.congr_of_eventuallyEq (Eventually.of_forall fun s => ?_)
      simp only
      rw [List.getD_eq_getElem?_getD, List.getElem?_map, List.getElem?_eq_getElem hln]
      rfl

/-- Finding F41: if the occultor exactly covers the star, or is a point on its limb, the derivative of the first entry (the occulted flux of a uniform map)
is not finite, in both modes -/
theorem solution_gradient_not_finite (eps : ℝ) (strict : Bool) (quad : ℕ → List (ℝ × ℝ)) {l_max : ℕ} (hl : l_max ≠ 0) (order : ℕ) (b r : Dual)
    (h : (b.v = 0 ∧ |r.v| = 1) ∨ (|b.v| = 1 ∧ r.v = 0)) :
    ∃ L, solutionVectorD eps strict quad l_max order b r = .ok L ∧ ∃ a, L[0]? = some a ∧ a.d = none := by
  have hk : (kappasD eps strict b.abs r.abs).1.d = none := by
    refine LimbDark.none_atan2 ⟨(LimbDark.kappasD_area eps strict b.abs r.abs).trans (LimbDark.kappas_area_zero ?_), ?_⟩
    · rintro ⟨h1, h2⟩
      rcases h with ⟨hb, hr⟩ | ⟨hb, hr⟩ <;> simp [hb, hr] at h1 h2
    · rcases h with ⟨hb, hr⟩ | ⟨hb, hr⟩ <;> simp [hb, hr]
  have hv := qIntegralD_v l_max (const (0.5 * π) - (kappasD eps strict b.abs r.abs).2)
  rw [qIntegral_entry] at hv
  unfold solutionVectorD
  simp only [pIntegralD_entry _ _ _ _ hl]
  cases hQ : qIntegralD l_max (const (0.5 * π) - (kappasD eps strict b.abs r.abs).2) with
  | error e => rw [hQ] at hv; cases hv
  | ok Q =>
    rw [hQ] at hv
    have hv : Q.map (·.v) = _ := Except.ok.inj hv
    have hlen : Q.length = (l_max + 1) ^ 2 := by
      have := congrArg List.length hv
      simpa [loopLM_eq] using this
    have hloop : ∃ es, loopLM l_max = (0, 0) :: es := by
      rw [loopLM_eq]
      have hpos : 0 < (l_max + 1) ^ 2 := by positivity
      obtain ⟨k, hk⟩ : ∃ k, (l_max + 1) ^ 2 = k + 1 := ⟨(l_max + 1) ^ 2 - 1, by omega⟩
      rw [hk, List.range_succ_eq_map]
      exact ⟨_, by rw [List.map_cons]; rfl⟩
    obtain ⟨es, hes⟩ := hloop
    refine ⟨_, rfl, ?_⟩
    cases Q with
    | nil =>
      have hpos : 0 < (l_max + 1) ^ 2 := by positivity
      rw [List.length_nil] at hlen
      omega
    | cons q Q =>
      rw [hes]
      refine ⟨_, rfl, ?_⟩
      refine LimbDark.none_sub_right (LimbDark.none_mul_left (LimbDark.none_mul_right hk))

/-- a body inside the disc of the star: regular for every quadrature rule, with the `eps` of double precision -/
theorem regularPoint_inside (nodes : List (ℝ × ℝ)) : RegularPoint (2 ^ (-52 : ℤ)) nodes (1 / 2) (1 / 10) := by
  have hb : |(1 / 2 : ℝ)| = 1 / 2 := by norm_num
  have hr : |(1 / 10 : ℝ)| = 1 / 10 := by norm_num
  have h1r : |(1 - 1 / 10 : ℝ)| = 9 / 10 := by norm_num
  have he : (10 : ℝ) * 2 ^ (-52 : ℤ) < 1 / 100 := by norm_num
  have h := LimbDark.regular_inside []
  refine ⟨h.centre, h.size, h.outer, h.inner, h.kite, ?_, ?_, fun xw _ => ?_⟩
  · rw [hb, hr]; intro h; linarith
  · rw [hr]; intro h; linarith
  · rw [hb, hr]
    have h1 := Real.cos_le_one (2 * (0.25 * (kappas (1 / 2) (1 / 10)).1) * xw.1 + 0.5 * (kappas (1 / 2) (1 / 10)).1)
    have h2 := Real.neg_one_le_cos (2 * (0.25 * (kappas (1 / 2) (1 / 10)).1) * xw.1 + 0.5 * (kappas (1 / 2) (1 / 10)).1)
    refine ⟨fun h => ?_, Or.inr ?_⟩ <;> linarith

/-- a body crossing the limb, with the rule of order 1 -/
theorem regularPoint_limb : RegularPoint (2 ^ (-52 : ℤ)) [(0, 2)] 1 (1 / 2) := by
  have hb : |(1 : ℝ)| = 1 := by norm_num
  have hr : |(1 / 2 : ℝ)| = 1 / 2 := by norm_num
  have he : (10 : ℝ) * 2 ^ (-52 : ℤ) < 1 / 100 := by norm_num
  have h := LimbDark.regular_limb
  have hl : LimbDark.Lens (1 : ℝ) (1 / 2) := by
    rw [LimbDark.Lens, show |(1 - 1 / 2 : ℝ)| = 1 / 2 by norm_num]; norm_num
  obtain ⟨-, -, -, -, -, hcos, -, -, -, hk, hkπ⟩ := LimbDark.lens_kappas hl
  refine ⟨h.centre, h.size, h.outer, h.inner, h.kite, ?_, ?_, fun xw hxw => ?_⟩
  · rw [hb, hr]; intro h; linarith
  · rw [hr]; intro h; linarith
  · obtain rfl : xw = (0, 2) := by simpa using hxw
    rw [hb, hr]
    unfold NodeOk
    have hc2 := Real.cos_sq ((LimbDark.kappas 1 (1 / 2)).2.1 / 2)
    rw [mul_div_cancel₀ _ two_ne_zero, hcos] at hc2
    have hpos : 0 < Real.cos ((LimbDark.kappas 1 (1 / 2)).2.1 / 2) := Real.cos_pos_of_mem_Ioo ⟨by linarith, by linarith⟩
    have e : 2 * (0.25 * (kappas 1 (1 / 2)).1) * (0, (2 : ℝ)).1 + 0.5 * (kappas 1 (1 / 2)).1 = (LimbDark.kappas 1 (1 / 2)).2.1 / 2 := by
      rw [kappas_eq]
      norm_num
      ring
    rw [e]
    norm_num at hc2
    have h1 : Real.cos ((LimbDark.kappas 1 (1 / 2)).2.1 / 2) < 8 / 10 := by nlinarith
    have h2 : 7 / 10 < Real.cos ((LimbDark.kappas 1 (1 / 2)).2.1 / 2) := by nlinarith
    refine ⟨fun h => ?_, Or.inr ?_⟩ <;> linarith

/-- the hypotheses of the theorems are met: the derivative with respect to the impact parameter, of a map of degree 3, across the limb -/
example : ∃ (L : List Dual) (V : ℝ → List ℝ), solutionVectorD (2 ^ (-52 : ℤ)) true (fun _ => [(0, 2)]) 3 20 (LimbDark.input 1 fun s => s) (LimbDark.input 1 fun _ => 1 / 2) = .ok L ∧
    L.length = (3 + 1) ^ 2 ∧ (∀ s, solutionVector (2 ^ (-52 : ℤ)) (fun _ => [(0, 2)]) 3 20 s (1 / 2) = .ok (V s)) ∧
      ∀ n < (3 + 1) ^ 2, ∃ d, (L.getD n (const 0)).d = some d ∧ HasDerivAt (fun s => (V s).getD n 0) d 1 :=
  solution_gradient_is_derivative (by positivity) true (fun _ => [(0, 2)]) (by norm_num) 20 (fun s => s) (fun _ => 1 / 2) differentiableAt_id
    (differentiableAt_const _) regularPoint_limb

/-- and those of finiteness -/
example (quad : ℕ → List (ℝ × ℝ)) : ∃ L, solutionVectorD (2 ^ (-52 : ℤ)) true quad 3 20 ⟨0, some 1⟩ ⟨1 / 10, some 0⟩ = .ok L ∧ L.length = (3 + 1) ^ 2 ∧
    ∀ a ∈ L, ∃ d, a.d = some d :=
  solution_gradient_finite (by positivity) true quad (by norm_num) 20 _ _ ⟨_, rfl⟩ ⟨_, rfl⟩ (by rintro ⟨-, h⟩; norm_num at h) (by rintro ⟨h, -⟩; norm_num at h)

end Jaxoplanet.Starry
