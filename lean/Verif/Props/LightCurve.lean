import Verif.Proofs.LightCurve
import Verif.Proofs.Interp
import Verif.Props.Orbit
import Verif.Proofs.Stack
import Verif.Props.LimbDark

/-! # Properties of the light curve transforms and of the light curves of orbits (C33 - C36, C51) -/

namespace Jaxoplanet.LightCurve

open Real intervalIntegral MeasureTheory

/-! ## C33: exposure time integration -/

/-- C33: no exposure time, no change; errors. -/
theorem integrate_none_and_errors (f : ℝ → ℝ) (ndim order N : ℕ) (e : ℝ) :
    integrate f none ndim order N = .ok f ∧
    (ndim ≠ 0 → integrate f (some e) ndim order N = .error .nonScalar) ∧
    (3 ≤ order → integrate f (some e) 0 order N = .error .order) := by
  refine ⟨rfl, fun h => by simp [integrate, h], fun h => ?_⟩
  obtain ⟨k, rfl⟩ : ∃ k, order = k + 3 := ⟨order - 3, by omega⟩
  rfl

/-- C33: for every order, number of samples, exposure, light curve and time, the integrated value lies
between the bounds of the light curve over the exposure window (so it is a weighted mean, with
non-negative weights adding up to one, of values inside the window). -/
theorem integrate_is_mean {order N : ℕ} (ho : order ≤ 2) (hN : order = 0 ∨ 2 ≤ N) (f : ℝ → ℝ) (e : ℝ) :
    ∃ g, integrate f (some e) 0 order N = .ok g ∧
      ∀ t a b : ℝ, (∀ s, |s - t| ≤ |e| / 2 → a ≤ f s ∧ f s ≤ b) → a ≤ g t ∧ g t ≤ b := by
  refine ⟨_, integrate_eq ho hN f e, fun t a b h => ?_⟩
  obtain ⟨m, hm, hm1⟩ := oddSamples_spec N
  set n := oddSamples N
  have hW : 0 < ∑ i ∈ Finset.range n, rawWeight order n i :=
    Finset.sum_pos (fun i _ => rawWeight_pos _ _ _) ⟨0, by simp; omega⟩
  have hf : ∀ i ∈ Finset.range n, a ≤ f (t + offset order n i * e) ∧ f (t + offset order n i * e) ≤ b := by
    intro i hi
    refine h _ ?_
    have hb := offset_bounds (order := order) (Finset.mem_range.1 hi) (by omega)
    rw [add_sub_cancel_left, abs_mul]
    nlinarith [abs_nonneg e]
  constructor
  · rw [le_div_iff₀ hW, Finset.mul_sum]
    refine Finset.sum_le_sum fun i hi => ?_
    rw [mul_comm]
    exact mul_le_mul_of_nonneg_left (hf i hi).1 (rawWeight_pos _ _ _).le
  · rw [div_le_iff₀ hW, Finset.mul_sum]
    refine Finset.sum_le_sum fun i hi => ?_
    rw [mul_comm b]
    exact mul_le_mul_of_nonneg_left (hf i hi).2 (rawWeight_pos _ _ _).le

/-- C33: constants are preserved. -/
theorem integrate_const {order N : ℕ} (ho : order ≤ 2) (hN : order = 0 ∨ 2 ≤ N) (c e : ℝ) :
    integrate (fun _ => c) (some e) 0 order N = .ok fun _ => c := by
  obtain ⟨g, hg, h⟩ := integrate_is_mean ho hN (fun _ => c) e
  rw [hg]
  congr 1
  funext t
  obtain ⟨h1, h2⟩ := h t c c fun _ _ => ⟨le_rfl, le_rfl⟩
  exact le_antisymm h2 h1

/-- C33: the scheme is linear in the light curve. -/
theorem integrate_linear {order N : ℕ} (ho : order ≤ 2) (hN : order = 0 ∨ 2 ≤ N) (f h : ℝ → ℝ)
    (α β e : ℝ) {gf gh gs : ℝ → ℝ} (hf : integrate f (some e) 0 order N = .ok gf)
    (hh : integrate h (some e) 0 order N = .ok gh)
    (hs : integrate (fun s => α * f s + β * h s) (some e) 0 order N = .ok gs) (t : ℝ) :
    gs t = α * gf t + β * gh t := by
  rw [integrate_eq ho hN, Except.ok.injEq] at hf hh hs
  subst hf hh hs
  simp only
  rw [mul_div_assoc', mul_div_assoc', ← add_div, Finset.mul_sum, Finset.mul_sum, ← Finset.sum_add_distrib]
  congr 1
  exact Finset.sum_congr rfl fun i _ => by ring

/-- cells of a composite rule -/
theorem integral_eq_sum_cells {F f : ℝ → ℝ} (hF : ∀ x, HasDerivAt F (f x) x) (hf : Continuous f)
    (a H : ℝ) (M : ℕ) (rule : ℕ → ℝ) (hr : ∀ j < M, rule j = F (a + (j + 1 : ℕ) * H) - F (a + j * H)) :
    ∑ j ∈ Finset.range M, rule j = ∫ x in a..(a + M * H), f x := by
  rw [integral_eq_sub_of_hasDerivAt (fun x _ => hF x) (hf.intervalIntegrable _ _),
    Finset.sum_congr rfl fun j hj => hr j (Finset.mem_range.1 hj),
    Finset.sum_range_sub (fun j : ℕ => F (a + (j : ℝ) * H))]
  simp

theorem cubic_deriv (c0 c1 c2 c3 x : ℝ) :
    HasDerivAt (fun x : ℝ => c0 * x + c1 * x ^ 2 / 2 + c2 * x ^ 3 / 3 + c3 * x ^ 4 / 4)
      (c0 + c1 * x + c2 * x ^ 2 + c3 * x ^ 3) x := by
  have h := ((((hasDerivAt_id x).const_mul c0).add
    ((((hasDerivAt_id x).pow 2).const_mul c1).div_const 2)).add
    ((((hasDerivAt_id x).pow 3).const_mul c2).div_const 3)).add
    ((((hasDerivAt_id x).pow 4).const_mul c3).div_const 4)
  refine h.congr_deriv ?_
  simp only [id]
  push_cast
  ring

/-- C33: the midpoint and trapezoid schemes average linear light curves exactly. -/
theorem integrate_linear_exact {order N : ℕ} (ho : order ≤ 1) (hN : order = 0 ∨ 2 ≤ N) (c0 c1 e : ℝ)
    (he : e ≠ 0) {g : ℝ → ℝ}
    (hg : integrate (fun s => c0 + c1 * s) (some e) 0 order N = .ok g) (t : ℝ) :
    g t = (∫ s in (t - e / 2)..(t + e / 2), (c0 + c1 * s)) / e := by
  rw [integrate_eq (by omega) hN, Except.ok.injEq] at hg
  subst hg
  obtain ⟨m, hm, hm1⟩ := oddSamples_spec N
  simp only
  rw [sum_rawWeight (by omega) hm (by omega)]
  set n := oddSamples N
  have hd : ∀ x, HasDerivAt (fun x : ℝ => c0 * x + c1 * x ^ 2 / 2 + 0 * x ^ 3 / 3 + 0 * x ^ 4 / 4)
      (c0 + c1 * x) x := fun x => (cubic_deriv c0 c1 0 0 x).congr_deriv (by ring)
  have hn0 : (n : ℝ) ≠ 0 := by
    have : n ≠ 0 := by omega
    exact_mod_cast this
  match order, ho, hN with
  | 0, _, _ =>
    have key := integral_eq_sum_cells hd (by fun_prop) (t - e / 2) (e / n) n
      (fun j => e / n * (c0 + c1 * (t + offset 0 n j * e))) (fun j _ => by
        simp only [offset]; push_cast; field_simp; ring)
    rw [show t - e / 2 + n * (e / n) = t + e / 2 by field_simp; ring] at key
    rw [← key, ← Finset.mul_sum]
    simp only [rawWeight, one_mul, totalWeight]
    generalize (Finset.sum _ _ : ℝ) = S
    field_simp
  | 1, _, .inr h =>
    have hm1 := hm1 h
    have hn1 : (n : ℝ) - 1 ≠ 0 := by
      rw [hm]; push_cast
      have : (m : ℝ) ≠ 0 := by
        have : m ≠ 0 := by omega
        exact_mod_cast this
      simpa using this
    have hcast : ((n - 1 : ℕ) : ℝ) = n - 1 := by rw [Nat.cast_sub (by omega)]; simp
    have key := integral_eq_sum_cells hd (by fun_prop) (t - e / 2) (e / (n - 1)) (n - 1)
      (fun j => e / (2 * (n - 1)) * ((c0 + c1 * (t + offset 1 n j * e)) +
        (c0 + c1 * (t + offset 1 n (j + 1) * e)))) (fun j _ => by
        simp only [offset]; push_cast; field_simp; ring)
    rw [hcast, show t - e / 2 + (n - 1) * (e / (n - 1)) = t + e / 2 by field_simp; ring] at key
    rw [← key, ← Finset.mul_sum, trapezoid_sum _ (by omega)]
    simp only [totalWeight]
    generalize (Finset.sum _ _ : ℝ) = S
    field_simp

/-- C33: the Simpson scheme averages cubic light curves exactly. -/
theorem integrate_cubic_exact {N : ℕ} (hN : 2 ≤ N) (c0 c1 c2 c3 e : ℝ)
    (he : e ≠ 0) {g : ℝ → ℝ}
    (hg : integrate (fun s => c0 + c1 * s + c2 * s ^ 2 + c3 * s ^ 3) (some e) 0 2 N = .ok g) (t : ℝ) :
    g t = (∫ s in (t - e / 2)..(t + e / 2), (c0 + c1 * s + c2 * s ^ 2 + c3 * s ^ 3)) / e := by
  rw [integrate_eq (by omega) (.inr hN), Except.ok.injEq] at hg
  subst hg
  obtain ⟨m, hm, hm1⟩ := oddSamples_spec N
  have hm1 := hm1 hN
  simp only
  rw [sum_rawWeight (by omega) hm (by omega), hm]
  have hm0 : (m : ℝ) ≠ 0 := by
    have : m ≠ 0 := by omega
    exact_mod_cast this
  have hn1 : ((2 * m + 1 : ℕ) : ℝ) - 1 = 2 * m := by push_cast; ring
  have key := integral_eq_sum_cells (cubic_deriv c0 c1 c2 c3) (by fun_prop) (t - e / 2) (e / m) m
    (fun j =>
      let p := fun s : ℝ => c0 + c1 * s + c2 * s ^ 2 + c3 * s ^ 3
      e / (6 * m) * (p (t + offset 2 (2 * m + 1) (2 * j) * e) +
        4 * p (t + offset 2 (2 * m + 1) (2 * j + 1) * e) +
        p (t + offset 2 (2 * m + 1) (2 * j + 2) * e))) (fun j _ => by
      simp only [offset, hn1]
      push_cast
      field_simp
      ring)
  rw [show t - e / 2 + m * (e / m) = t + e / 2 by field_simp; ring] at key
  rw [← key, ← Finset.mul_sum, simpson_sum _ hm1]
  simp only [hn1, totalWeight]
  generalize (Finset.sum _ _ : ℝ) = S
  field_simp
  ring

/-- C33: the default scheme converges to the true exposure average, at rate `1 / num_samples`, for every
Lipschitz light curve (light curves have corners at the contact points). -/
theorem integrate_converges (N : ℕ) (f : ℝ → ℝ) (e L : ℝ) (he : 0 < e) (hL : 0 ≤ L) (t : ℝ)
    (hf : ∀ x y, |f x - f y| ≤ L * |x - y|) {g : ℝ → ℝ}
    (hg : integrate f (some e) 0 0 N = .ok g) :
    |g t - (∫ s in (t - e / 2)..(t + e / 2), f s) / e| ≤ L * e / (2 * oddSamples N) := by
  rw [integrate_eq (by omega) (.inl rfl), Except.ok.injEq] at hg
  subst hg
  obtain ⟨m, hm, -⟩ := oddSamples_spec N
  simp only
  rw [sum_rawWeight (by omega) hm (.inl rfl)]
  set n := oddSamples N
  have hn0 : (0 : ℝ) < n := by
    have : 0 < n := by omega
    exact_mod_cast this
  have hcont : Continuous f := by
    have : LipschitzWith ⟨L, hL⟩ f := LipschitzWith.of_dist_le_mul fun x y => by
      rw [Real.dist_eq, Real.dist_eq]; exact hf x y
    exact this.continuous
  let a : ℕ → ℝ := fun j => t - e / 2 + j * (e / n)
  have hsplit : ∫ s in (t - e / 2)..(t + e / 2), f s = ∑ j ∈ Finset.range n, ∫ s in (a j)..(a (j + 1)), f s := by
    rw [sum_integral_adjacent_intervals fun k _ => hcont.intervalIntegrable _ _]
    simp only [a]
    congr 1
    · simp
    · field_simp; ring
  have hcell : ∀ j, |e / n * f (t + offset 0 n j * e) - ∫ s in (a j)..(a (j + 1)), f s| ≤
      L * (e / n / 2) * (e / n) := by
    intro j
    have haj : a (j + 1) - a j = e / n := by simp only [a]; push_cast; ring
    have hpos : 0 < e / n := by positivity
    have e1 : e / n * f (t + offset 0 n j * e) = ∫ s in (a j)..(a (j + 1)), f (t + offset 0 n j * e) := by
      rw [intervalIntegral.integral_const, haj, smul_eq_mul]
    rw [e1, ← intervalIntegral.integral_sub (by simp) (hcont.intervalIntegrable _ _)]
    have := norm_integral_le_of_norm_le_const (a := a j) (b := a (j + 1)) (C := L * (e / n / 2))
      (f := fun s => f (t + offset 0 n j * e) - f s) (fun s hs => ?_)
    · rwa [haj, abs_of_pos hpos, norm_eq_abs] at this
    · rw [Set.uIoc_of_le (by linarith)] at hs
      rw [norm_eq_abs]
      refine (hf _ _).trans (mul_le_mul_of_nonneg_left ?_ hL)
      have hmid : t + offset 0 n j * e = (a j + a (j + 1)) / 2 := by
        simp only [a, offset]; push_cast; field_simp; ring
      rw [hmid, abs_le]
      have := hs.1
      have := hs.2
      constructor <;> linarith
  have e2 : (∑ i ∈ Finset.range n, rawWeight 0 n i * f (t + offset 0 n i * e)) / (n : ℝ)
      - (∫ s in (t - e / 2)..(t + e / 2), f s) / e =
      (∑ j ∈ Finset.range n, (e / n * f (t + offset 0 n j * e) - ∫ s in (a j)..(a (j + 1)), f s)) / e := by
    rw [Finset.sum_sub_distrib, ← hsplit, ← Finset.mul_sum]
    simp only [rawWeight, one_mul]
    generalize (Finset.sum _ _ : ℝ) = S
    field_simp
  rw [totalWeight, e2, abs_div, abs_of_pos he, div_le_iff₀ he]
  refine (Finset.abs_sum_le_sum_abs _ _).trans ((Finset.sum_le_sum fun j _ => hcell j).trans ?_)
  rw [Finset.sum_const, Finset.card_range, nsmul_eq_mul]
  apply le_of_eq
  field_simp

/-- F6: with `num_samples` 0 or 1 the trapezoid and Simpson schemes sample the light curve at the start of
the exposure only. -/
theorem integrate_single_sample (order N : ℕ) (ho : order = 1 ∨ order = 2) (hN : N ≤ 1) (f : ℝ → ℝ)
    (e : ℝ) : integrate f (some e) 0 order N = .ok fun t => f (t - e / 2) := by
  have hn : oddSamples N = 1 := by
    rcases (by omega : N = 0 ∨ N = 1) with rfl | rfl <;> rfl
  have hs : stencil order N = .ok ([-0.5], [1]) := by
    rcases ho with rfl | rfl <;> simp [stencil, hn, linspace, setAt, sliceIdx]
  simp only [integrate, ne_eq, not_true_eq_false, if_false, hs]
  show Except.ok _ = Except.ok _
  congr 1
  funext t
  simp [dot]
  congr 1
  ring

example : ∃ g, integrate (fun s => s ^ 2) (some 0.02) 0 2 7 = .ok g ∧
    ∀ t, 0 ≤ g t := by
  obtain ⟨g, hg, h⟩ := integrate_is_mean (order := 2) (N := 7) le_rfl (.inr (by norm_num))
    (fun s => s ^ 2) 0.02
  refine ⟨g, hg, fun t => (h t 0 ((|t| + 0.01) ^ 2) fun s hs => ⟨sq_nonneg s, ?_⟩).1⟩
  rw [← sq_abs]
  refine pow_le_pow_left₀ (abs_nonneg s) ?_ 2
  have := abs_sub_abs_le_abs_sub s t
  rw [abs_of_pos (by norm_num : (0:ℝ) < 0.02)] at hs
  norm_num at hs ⊢
  linarith

/-! ## C34: vectorisation over times of any shape -/

open Stack in
/-- the entry of a nested array at a multi-index -/
def entry : List ℕ → Arr → Option Arr
  | [], a => some a
  | _ :: _, .scalar _ => none
  | i :: is, .vec l => l[i]?.bind (entry is)

open Stack in
theorem foldl_vmap1 (f : Arr → Option Arr) (k : ℕ) (s : List ℕ) :
    (k :: s).foldl (fun inner _ => vmap1 inner) f = vmap1 (s.foldl (fun inner _ => vmap1 inner) f) := by
  induction s generalizing f k with
  | nil => rfl
  | cons a s ih => rw [List.foldl_cons, ih, List.foldl_cons]

open Stack in
/-- C34: for a time array of any shape, the vectorised function exists and its entry at every
multi-index of the time array is the function applied to the time with that index: the time axes come
first. -/
theorem vectorize_elementwise (f : Arr → Option Arr) (hf : ∀ x, ∃ y, f (.scalar x) = some y)
    {time : Arr} {shape : List ℕ} (h : time.HasShape shape) :
    ∃ r, vectorize f shape time = some r ∧
      ∀ path, path.length = shape.length → entry path r = (entry path time).bind f := by
  unfold vectorize
  induction shape generalizing time with
  | nil =>
    cases h with
    | scalar x =>
      obtain ⟨y, hy⟩ := hf x
      refine ⟨y, hy, fun path hp => ?_⟩
      have : path = [] := List.length_eq_zero_iff.1 hp
      subst this
      simp [entry, hy]
  | cons k s ih =>
    cases h with
    | vec hl =>
      rename_i l
      rw [foldl_vmap1]
      have hall : ∀ a ∈ l, ∃ r, (s.foldl (fun inner _ => vmap1 inner) f) a = some r ∧
          ∀ path, path.length = s.length → entry path r = (entry path a).bind f :=
        fun a ha => ih (hl a ha)
      obtain ⟨rs, hrs⟩ : ∃ rs, List.Forall₂
          (fun a r => (s.foldl (fun inner _ => vmap1 inner) f) a = some r) l rs := by
        clear hl
        induction l with
        | nil => exact ⟨[], .nil⟩
        | cons a l ihl =>
          obtain ⟨r, hr, -⟩ := hall a (by simp)
          obtain ⟨rs, hrs⟩ := ihl fun b hb => hall b (by simp [hb])
          exact ⟨r :: rs, .cons hr hrs⟩
      refine ⟨.vec rs, ?_, ?_⟩
      · simp only [vmap1]
        rw [mapM_some_iff.2 hrs]
        rfl
      · intro path hp
        match path, hp with
        | i :: is, hp =>
          have hp : is.length = s.length := by simpa using hp
          simp only [entry]
          have hlen := hrs.length_eq
          by_cases hi : i < l.length
          · have hi' : i < rs.length := by omega
            rw [List.getElem?_eq_getElem hi, List.getElem?_eq_getElem hi']
            have hr := List.Forall₂.get hrs hi hi'
            simp only [List.get_eq_getElem] at hr
            obtain ⟨r, hr', hpath⟩ := hall l[i] (List.getElem_mem hi)
            rw [hr] at hr'
            simp only [Option.some.injEq] at hr'
            simp only [Option.bind_some]
            rw [hr', hpath is hp]
          · rw [List.getElem?_eq_none (by omega), List.getElem?_eq_none (by omega)]
            rfl

open Stack in
example : (Arr.vec [.vec [.scalar 0, .scalar 1], .vec [.scalar 2, .scalar 3]]).HasShape [2, 2] := by
  refine .vec (l := [_, _]) fun a ha => ?_
  simp only [List.mem_cons, List.not_mem_nil, or_false] at ha
  rcases ha with rfl | rfl <;> refine .vec (l := [_, _]) fun b hb => ?_ <;>
    simp only [List.mem_cons, List.not_mem_nil, or_false] at hb <;> rcases hb with rfl | rfl <;>
    exact .scalar _

/-! ## C35: interpolation -/

/-- C35: the interpolated light curve is periodic, whatever the function, window and grid. -/
theorem interpolate_periodic {P : ℝ} (hP : 0 < P) (tiny : ℝ) (f : ℝ → ℝ) (t0 : ℝ) (n : ℕ)
    (dur : Option ℝ) (t : ℝ) (m : ℤ) :
    interpolate tiny f P t0 n dur (t + m * P) = interpolate tiny f P t0 n dur t := by
  rw [interpolate_eq hP, interpolate_eq hP]
  exact interpPeriodic_shift hP tiny _ _ _ m rfl

/-- The window: shorter than the period, or a full period (the default) of a function taking the same
value at both ends. -/
def GoodWindow (f : ℝ → ℝ) (t0 P : ℝ) (dur : Option ℝ) : Prop :=
  match dur with
  | none => f (t0 - P / 2) = f (t0 + P / 2)
  | some d => 0 < d ∧ d < P

theorem GoodWindow.spec {f : ℝ → ℝ} {t0 P : ℝ} {dur : Option ℝ} (hP : 0 < P) (h : GoodWindow f t0 P dur) :
    0 < dur.getD P ∧ dur.getD P ≤ P ∧
      (dur.getD P < P ∨ (dur.getD P = P ∧ f (t0 - P / 2) = f (t0 + P / 2))) := by
  match dur, h with
  | none, h => exact ⟨hP, le_rfl, .inr ⟨rfl, h⟩⟩
  | some d, h => exact ⟨h.1, h.2.le, .inl h.2⟩

/-- a cell, without its right end -/
theorem interpolate_cell_open {P : ℝ} (hP : 0 < P) (tiny : ℝ) {f : ℝ → ℝ} {t0 : ℝ} {n : ℕ} (hn : 2 ≤ n)
    {dur : Option ℝ} (hw : GoodWindow f t0 P dur) {k : ℕ} (hk : k + 1 < n) {t : ℝ}
    (h1 : node t0 (dur.getD P) n k ≤ t) (h2 : t < node t0 (dur.getD P) n (k + 1)) :
    interpolate tiny f P t0 n dur t =
      if |dur.getD P / (n - 1)| ≤ tiny then f (node t0 (dur.getD P) n k) else
      f (node t0 (dur.getD P) n k) + (t - node t0 (dur.getD P) n k) / (dur.getD P / (n - 1)) *
        (f (node t0 (dur.getD P) n (k + 1)) - f (node t0 (dur.getD P) n k)) := by
  obtain ⟨hd, hdP, hc⟩ := hw.spec hP
  rw [interpolate_eq hP, interpPeriodic_cell hP (grid_consistent hn hP hd.le hc) tiny
    (p := (node t0 (dur.getD P) n k, f (node t0 (dur.getD P) n k)))
    (q := (node t0 (dur.getD P) n (k + 1), f (node t0 (dur.getD P) n (k + 1))))
    ((ext_grid hn).2 ⟨k, by omega, 0, by simp⟩) ((ext_grid hn).2 ⟨k + 1, hk, 0, by simp⟩) ?_ h1 h2]
  · simp only [node_spacing]
  · intro z hz
    obtain ⟨j, hj, m, rfl⟩ := (ext_grid hn).1 hz
    exact no_node_between hn hP hd hdP hk hj m

/-- the gap, without its right end -/
theorem interpolate_gap_open {P : ℝ} (hP : 0 < P) (tiny : ℝ) (f : ℝ → ℝ) (t0 : ℝ) {n : ℕ} (hn : 2 ≤ n)
    {d : ℝ} (hd : 0 < d) (hdP : d < P) {t : ℝ} (h1 : t0 + d / 2 ≤ t) (h2 : t < t0 - d / 2 + P) :
    interpolate tiny f P t0 n (some d) t =
      if |P - d| ≤ tiny then f (t0 + d / 2) else
      f (t0 + d / 2) + (t - (t0 + d / 2)) / (P - d) * (f (t0 - d / 2) - f (t0 + d / 2)) := by
  rw [interpolate_eq hP, interpPeriodic_cell hP (grid_consistent (dur := some d) hn hP hd.le (.inl hdP)) tiny
    (p := (t0 + d / 2, f (t0 + d / 2))) (q := (t0 - d / 2 + P, f (t0 - d / 2)))
    ((ext_grid hn).2 ⟨n - 1, by omega, 0, by
      simp only [Option.getD_some, node_last hn, Int.cast_zero, zero_mul, add_zero]⟩)
    ((ext_grid hn).2 ⟨0, by omega, 1, by
      simp only [Option.getD_some, node_first, Int.cast_one, one_mul]⟩) ?_ h1 h2]
  · rw [show t0 - d / 2 + P - (t0 + d / 2) = P - d by ring]
  · intro z hz
    obtain ⟨j, hj, m, rfl⟩ := (ext_grid hn).1 hz
    exact no_node_outside hn hP hd hdP hj m

/-- C35: at every grid node (and all its periodic images) the interpolated light curve is the light
curve at that node. -/
theorem interpolate_exact_at_nodes {P : ℝ} (hP : 0 < P) (tiny : ℝ) {f : ℝ → ℝ} {t0 : ℝ} {n : ℕ}
    (hn : 2 ≤ n) {dur : Option ℝ} (hw : GoodWindow f t0 P dur) {k : ℕ} (hk : k < n) (m : ℤ) :
    interpolate tiny f P t0 n dur (t0 - dur.getD P / 2 + k * (dur.getD P / (n - 1)) + m * P) =
      f (t0 - dur.getD P / 2 + k * (dur.getD P / (n - 1))) := by
  rw [interpolate_periodic hP]
  show interpolate tiny f P t0 n dur (node t0 (dur.getD P) n k) = f (node t0 (dur.getD P) n k)
  have hn1 : (0 : ℝ) < n - 1 := by
    have : (2 : ℝ) ≤ n := by exact_mod_cast hn
    linarith
  have hs := (hw.spec hP).1
  have key : ∀ k, k + 1 < n →
      interpolate tiny f P t0 n dur (node t0 (dur.getD P) n k) = f (node t0 (dur.getD P) n k) := by
    intro k hk
    rw [interpolate_cell_open hP tiny hn hw hk le_rfl
      (by have := node_spacing (n := n) t0 (dur.getD P) k
          have : 0 < dur.getD P / (n - 1 : ℝ) := by positivity
          linarith), sub_self, zero_div, zero_mul, add_zero, ite_self]
  rcases lt_or_ge (k + 1) n with hk1 | hk1
  · exact key k hk1
  · obtain rfl : k = n - 1 := by omega
    rw [node_last hn]
    match dur, hw with
    | none, hw =>
      have h0 := key 0 (by omega)
      rw [node_first] at h0
      simp only [Option.getD_none] at h0 ⊢
      have hw : f (t0 - P / 2) = f (t0 + P / 2) := hw
      rw [← hw, ← h0, ← interpolate_periodic hP tiny f t0 n none (t0 - P / 2) 1]
      congr 1
      push_cast; ring
    | some d, hw =>
      simp only [Option.getD_some]
      rw [interpolate_gap_open hP tiny f t0 hn hw.1 hw.2 le_rfl (by linarith [hw.2]), sub_self, zero_div,
        zero_mul, add_zero, ite_self]

/-- C35: within each grid cell of the window (and its periodic images) the interpolated light curve is
linear between the values of the light curve at the two ends. -/
theorem interpolate_linear_in_cell {P : ℝ} (hP : 0 < P) (tiny : ℝ) {f : ℝ → ℝ} {t0 : ℝ} {n : ℕ}
    (hn : 2 ≤ n) {dur : Option ℝ} (hw : GoodWindow f t0 P dur) (htiny : tiny < dur.getD P / (n - 1))
    {k : ℕ} (hk : k + 1 < n) (m : ℤ) {s : ℝ} (h0 : 0 ≤ s) (h1 : s ≤ 1) :
    interpolate tiny f P t0 n dur (t0 - dur.getD P / 2 + (k + s) * (dur.getD P / (n - 1)) + m * P) =
      (1 - s) * f (t0 - dur.getD P / 2 + k * (dur.getD P / (n - 1))) +
      s * f (t0 - dur.getD P / 2 + (k + 1) * (dur.getD P / (n - 1))) := by
  rcases eq_or_lt_of_le h1 with rfl | h1
  · have := interpolate_exact_at_nodes hP tiny hn hw hk m
    push_cast at this
    rw [this]; ring
  · have hn1 : (0 : ℝ) < n - 1 := by
      have : (2 : ℝ) ≤ n := by exact_mod_cast hn
      linarith
    have hh : 0 < dur.getD P / (n - 1 : ℝ) := div_pos (hw.spec hP).1 hn1
    rw [interpolate_periodic hP, interpolate_cell_open hP tiny hn hw hk, if_neg]
    · unfold node
      push_cast
      set h := dur.getD P / (n - 1 : ℝ)
      generalize f (t0 - dur.getD P / 2 + k * h) = A
      generalize f (t0 - dur.getD P / 2 + (k + 1) * h) = B
      have : h ≠ 0 := hh.ne'
      field_simp
      ring
    · rw [abs_of_pos hh]; linarith
    · unfold node; nlinarith
    · unfold node; push_cast; nlinarith

/-- C35: between the end of one window and the start of the next, the interpolated light curve is linear
between the two end values. -/
theorem interpolate_outside_window {P : ℝ} (hP : 0 < P) (tiny : ℝ) (f : ℝ → ℝ) (t0 : ℝ) {n : ℕ}
    (hn : 2 ≤ n) {d : ℝ} (hd : 0 < d) (hdP : tiny < P - d) (hdP' : d < P) (m : ℤ) {s : ℝ} (h0 : 0 ≤ s)
    (h1 : s ≤ 1) :
    interpolate tiny f P t0 n (some d) (t0 + d / 2 + s * (P - d) + m * P) =
      (1 - s) * f (t0 + d / 2) + s * f (t0 - d / 2) := by
  rcases eq_or_lt_of_le h1 with rfl | h1
  · have := interpolate_exact_at_nodes hP tiny hn (f := f) (t0 := t0) (dur := some d) ⟨hd, hdP'⟩
      (k := 0) (by omega) (m + 1)
    simp only [Option.getD_some] at this
    push_cast at this
    rw [show t0 + d / 2 + 1 * (P - d) + m * P = t0 - d / 2 + 0 * (d / (n - 1)) + (m + 1) * P by ring, this]
    simp
  · rw [interpolate_periodic hP, interpolate_gap_open hP tiny f t0 hn hd hdP', if_neg]
    · have : P - d ≠ 0 := by linarith
      field_simp
      ring
    · rw [abs_of_pos (by linarith)]; linarith
    · nlinarith
    · nlinarith

/-- C35: inside the window the interpolation error of a Lipschitz light curve (with a corner at the contact
points, say) is at most half the Lipschitz constant times the grid spacing. -/
theorem interpolate_error {P : ℝ} (hP : 0 < P) (tiny : ℝ) {f : ℝ → ℝ} {t0 : ℝ} {n : ℕ}
    (hn : 2 ≤ n) {dur : Option ℝ} (hw : GoodWindow f t0 P dur) (htiny : tiny < dur.getD P / (n - 1))
    {L : ℝ} (hL : 0 ≤ L) (hf : ∀ x y, |f x - f y| ≤ L * |x - y|) {t : ℝ}
    (ht : |t - t0| ≤ dur.getD P / 2) :
    |interpolate tiny f P t0 n dur t - f t| ≤ L * (dur.getD P / (n - 1)) / 2 := by
  have hn1 : (0 : ℝ) < n - 1 := by
    have : (2 : ℝ) ≤ n := by exact_mod_cast hn
    linarith
  set h := dur.getD P / (n - 1 : ℝ) with hh
  have hpos : 0 < h := div_pos (hw.spec hP).1 hn1
  have hdh : dur.getD P = (n - 1) * h := by rw [hh]; field_simp
  rw [abs_le] at ht
  -- locate the cell
  obtain ⟨k, s, hk, hs0, hs1, hts⟩ : ∃ k : ℕ, ∃ s : ℝ, k + 1 < n ∧ 0 ≤ s ∧ s ≤ 1 ∧
      t = t0 - dur.getD P / 2 + (k + s) * h := by
    set x := (t - (t0 - dur.getD P / 2)) / h with hx
    have hx0 : 0 ≤ x := div_nonneg (by linarith [ht.1]) hpos.le
    have hx1 : x ≤ n - 1 := by
      rw [hx, div_le_iff₀ hpos, ← hdh]; linarith [ht.2]
    have htx : t = t0 - dur.getD P / 2 + x * h := by rw [hx]; field_simp; ring
    rcases lt_or_ge ⌊x⌋₊ (n - 1) with hfl | hfl
    · refine ⟨⌊x⌋₊, x - ⌊x⌋₊, by omega, ?_, ?_, ?_⟩
      · linarith [Nat.floor_le hx0]
      · linarith [Nat.lt_floor_add_one x]
      · rw [htx]; ring
    · refine ⟨n - 2, 1, by omega, zero_le_one, le_rfl, ?_⟩
      have h1 : ((n - 1 : ℕ) : ℝ) ≤ x := (Nat.cast_le.2 hfl).trans (Nat.floor_le hx0)
      rw [Nat.cast_sub (by omega)] at h1
      push_cast at h1
      have : x = n - 1 := le_antisymm hx1 h1
      rw [htx, this, Nat.cast_sub (by omega)]
      push_cast
      ring
  have key := interpolate_linear_in_cell hP tiny hn hw htiny hk 0 hs0 hs1
  rw [Int.cast_zero, zero_mul, add_zero, ← hh, ← hts] at key
  rw [key]
  set a := t0 - dur.getD P / 2 + k * h
  set b := t0 - dur.getD P / 2 + (k + 1) * h
  have e1 : t - a = s * h := by rw [hts]; simp only [a]; ring
  have e2 : b - t = (1 - s) * h := by rw [hts]; simp only [b]; ring
  have h1 := hf a t
  have h2 := hf b t
  rw [abs_sub_comm a t, e1, abs_of_nonneg (mul_nonneg hs0 hpos.le)] at h1
  rw [e2, abs_of_nonneg (mul_nonneg (by linarith) hpos.le)] at h2
  have e3 : (1 - s) * f a + s * f b - f t = (1 - s) * (f a - f t) + s * (f b - f t) := by ring
  rw [e3]
  refine (abs_add_le _ _).trans ?_
  rw [abs_mul, abs_mul, abs_of_nonneg (by linarith : 0 ≤ 1 - s), abs_of_nonneg hs0]
  have h3 : (1 - s) * |f a - f t| ≤ (1 - s) * (L * (s * h)) := mul_le_mul_of_nonneg_left h1 (by linarith)
  have h4 : s * |f b - f t| ≤ s * (L * ((1 - s) * h)) := mul_le_mul_of_nonneg_left h2 hs0
  have h5 : 0 ≤ L * h := by positivity
  nlinarith [mul_nonneg h5 (sq_nonneg (1 - 2 * s))]

/-- a transit window of 0.3 in a period of 3 is admissible -/
example : GoodWindow (fun t => t ^ 2) 0 3 (some 0.3) ∧ GoodWindow (fun t => t ^ 2) 0 3 none := by
  constructor
  · constructor <;> norm_num
  · simp [GoodWindow]

/-! ## C36: transits happen in front of the star only -/

/-- C36: a body behind (or in the plane of) the star does not dim it. -/
theorem limb_dark_behind (eps : ℝ) (quad : List (ℝ × ℝ)) (u : List ℝ) (r_star radius : ℝ)
    {p : Keplerian.V3} (hz : p.z ≤ 0) : limbDarkTerm eps quad u r_star radius p = 0 := by
  simp only [limbDarkTerm]
  rw [if_neg (not_lt.2 hz)]

/-- C36: a body whose disc does not overlap the stellar disc does not dim it. -/
theorem limb_dark_separated (eps : ℝ) (quad : List (ℝ × ℝ)) (u : List ℝ) (hu : Spec.totalFlux u ≠ 0)
    {r_star radius : ℝ} (hR : 0 < r_star) (hr : 0 ≤ radius) {p : Keplerian.V3}
    (h : r_star + radius ≤ √(p.x ^ 2 + p.y ^ 2)) : limbDarkTerm eps quad u r_star radius p = 0 := by
  simp only [limbDarkTerm]
  split_ifs
  · refine LimbDark.light_curve_no_occultation eps quad u hu _ _ ?_
    rw [abs_of_nonneg (by positivity), abs_of_nonneg (by positivity), le_div_iff₀ hR]
    field_simp
    linarith
  · rfl

/-- C36: the whole light curve has one entry per body, the `k`-th one depending only on the `k`-th body,
and is zero when no body is in front of the star. -/
theorem limb_dark_entries (eps : ℝ) (quad : List (ℝ × ℝ)) (u : List ℝ) (hu : Spec.totalFlux u ≠ 0)
    {r_star : ℝ} (hR : 0 < r_star) (bodies : List (ℝ × Keplerian.V3)) (hr : ∀ b ∈ bodies, 0 ≤ b.1) :
    (limbDarkLightCurve eps quad u r_star bodies).length = bodies.length ∧
    (∀ k : ℕ, (limbDarkLightCurve eps quad u r_star bodies)[k]? =
      bodies[k]?.map fun b => limbDarkTerm eps quad u r_star b.1 b.2) ∧
    ((∀ b ∈ bodies, b.2.z ≤ 0 ∨ r_star + b.1 ≤ √(b.2.x ^ 2 + b.2.y ^ 2)) →
      ∀ f ∈ limbDarkLightCurve eps quad u r_star bodies, f = 0) := by
  refine ⟨by simp [limbDarkLightCurve], fun k => by simp [limbDarkLightCurve], fun h f hf => ?_⟩
  obtain ⟨b, hb, rfl⟩ := List.mem_map.1 hf
  rcases h b hb with hz | hs
  · exact limb_dark_behind _ _ _ _ _ hz
  · exact limb_dark_separated _ _ _ hu hR (hr b hb) hs

open Spec in
/-- C36 with C30: a uniform star loses light to a body exactly while the body is in front and the two
discs overlap (in more than a point); the loss is the hidden fraction of the disc. -/
theorem limb_dark_uniform (eps : ℝ) (quad : List (ℝ × ℝ)) {r_star radius : ℝ} (hR : 0 < r_star)
    (hr : 0 < radius) (p : Keplerian.V3) :
    -1 ≤ limbDarkTerm eps quad [] r_star radius p ∧ limbDarkTerm eps quad [] r_star radius p ≤ 0 ∧
    (limbDarkTerm eps quad [] r_star radius p < 0 ↔
      0 < p.z ∧ √(p.x ^ 2 + p.y ^ 2) < r_star + radius) := by
  simp only [limbDarkTerm]
  split_ifs with hz
  · obtain ⟨h1, h2⟩ := LimbDark.uniform_light_curve_range eps quad (√(p.x ^ 2 + p.y ^ 2) / r_star)
      (radius / r_star)
    refine ⟨h1, h2, ?_⟩
    set b := √(p.x ^ 2 + p.y ^ 2) / r_star with hb
    set r := radius / r_star with hrr
    have hb0 : 0 ≤ b := by positivity
    have hr0 : 0 < r := by positivity
    have hiff : √(p.x ^ 2 + p.y ^ 2) < r_star + radius ↔ b < 1 + r := by
      rw [hb, hrr, div_lt_iff₀ hR, add_mul, div_mul_cancel₀ _ hR.ne', one_mul]
    rw [hiff]
    constructor
    · intro hneg
      refine ⟨hz, ?_⟩
      by_contra hge
      rw [LimbDark.light_curve_no_occultation eps quad [] ?_ b r
        (by rw [abs_of_nonneg hb0, abs_of_pos hr0]; linarith)] at hneg
      · exact lt_irrefl _ hneg
      · have : totalFlux [] = π := by
          have := LimbDark.whole_star 0
          simpa [totalFlux, profile, LimbDark.gtil] using this
        rw [this]; exact pi_pos.ne'
    · rintro ⟨-, hlt⟩
      rw [LimbDark.uniform_light_curve, neg_div, neg_lt_zero]
      refine div_pos (ENNReal.toReal_pos ?_ ?_) pi_pos
      · -- a small box around an interior point
        refine (IsOpen.measure_pos volume (U := {q : ℝ × ℝ | q.1 ^ 2 + q.2 ^ 2 < 1} ∩
          {q : ℝ × ℝ | (q.1 - b) ^ 2 + q.2 ^ 2 < r ^ 2}) ?_ ?_).ne' |> fun h h' => h (measure_mono_null ?_ h')
        · exact (isOpen_lt (by fun_prop) (by fun_prop)).inter (isOpen_lt (by fun_prop) (by fun_prop))
        · -- the point between b - r and 1 on the x axis
          have hm : max (-1) (b - r) < min 1 (b + r) := by
            rw [max_lt_iff, lt_min_iff, lt_min_iff]
            refine ⟨⟨by norm_num, by linarith⟩, by linarith, by linarith⟩
          obtain ⟨c, hc1, hc2⟩ := exists_between hm
          rw [max_lt_iff] at hc1
          rw [lt_min_iff] at hc2
          refine ⟨(c, 0), ?_, ?_⟩
          · simp only [Set.mem_ofPred_eq]; nlinarith
          · simp only [Set.mem_ofPred_eq]; nlinarith
        · rintro q ⟨hq1, hq2⟩
          simp only [Set.mem_ofPred_eq] at hq1 hq2
          exact ⟨by simp only [stellarDisc, Set.mem_ofPred_eq]; linarith,
            by simp only [occultor, Set.mem_ofPred_eq]; linarith⟩
      · refine ne_top_of_le_ne_top ?_ (measure_mono Set.inter_subset_left)
        intro htop
        have := LimbDark.whole_star 0
        simp [LimbDark.gtil, Measure.real, htop] at this
        exact pi_pos.ne this
  · refine ⟨by norm_num, le_rfl, ?_⟩
    constructor
    · intro h; exact absurd h (lt_irrefl _)
    · rintro ⟨h, -⟩; exact absurd h hz

/-! ## Emission light curves -/

/-- C51 (emission): rows: the star followed by the bodies. A body in front of the star or beside it shows
its full amplitude; with no body in front, the star shows its full flux. -/
theorem emission_rows (eps : ℝ) (quad : List (ℝ × ℝ)) (u : List ℝ) (r_star : ℝ)
    (bodies : List EmissionBody) :
    (emissionLightCurve eps quad u r_star bodies).length = bodies.length + 1 ∧
    ((∀ e ∈ bodies, e.pos.z ≤ 0) → (emissionLightCurve eps quad u r_star bodies)[0]? = some 1) ∧
    (∀ k : ℕ, (emissionLightCurve eps quad u r_star bodies)[k + 1]? =
      bodies[k]?.map (emissionTerm eps quad r_star)) := by
  refine ⟨by simp [emissionLightCurve], fun h => ?_, fun k => by simp [emissionLightCurve]⟩
  simp only [emissionLightCurve, List.getElem?_cons_zero, Option.some.injEq]
  rw [add_eq_right]
  refine List.sum_eq_zero fun x hx => ?_
  simp only [limbDarkLightCurve, List.map_map, List.mem_map, Function.comp] at hx
  obtain ⟨e, he, rfl⟩ := hx
  exact limb_dark_behind _ _ _ _ _ (h e he)

/-- C51 (emission): a body's flux is its amplitude unless it is behind the star with overlapping discs; it
vanishes when the star covers it completely. -/
theorem emission_term (eps : ℝ) (quad : List (ℝ × ℝ)) {r_star : ℝ} (hR : 0 < r_star) (e : EmissionBody)
    (hr : 0 < e.radius) (hu : Spec.totalFlux e.u ≠ 0) :
    ((0 ≤ e.pos.z ∨ r_star + e.radius ≤ √(e.pos.x ^ 2 + e.pos.y ^ 2)) →
      emissionTerm eps quad r_star e = e.amplitude) ∧
    (e.pos.z < 0 → √(e.pos.x ^ 2 + e.pos.y ^ 2) + e.radius ≤ r_star →
      ¬ (√(e.pos.x ^ 2 + e.pos.y ^ 2) = 0 ∧ r_star = e.radius) → emissionTerm eps quad r_star e = 0) := by
  constructor
  · intro h
    simp only [emissionTerm]
    split_ifs with hz
    · rcases h with h | h
      · linarith
      · rw [LimbDark.light_curve_no_occultation eps quad e.u hu, add_zero, mul_one]
        rw [abs_of_nonneg (by positivity), abs_of_nonneg (by positivity), le_div_iff₀ hr]
        field_simp
        linarith
    · ring
  · intro hz h hne
    simp only [emissionTerm]
    rw [if_pos hz, LimbDark.light_curve_total_occultation_partial]
    · ring
    · rw [abs_of_nonneg (by positivity), abs_of_nonneg (by positivity), le_div_iff₀ hr]
      field_simp
      linarith
    · rintro ⟨h1, h2⟩
      rw [abs_of_nonneg (by positivity), div_eq_zero_iff] at h1
      rw [abs_of_nonneg (by positivity), div_eq_one_iff_eq hr.ne'] at h2
      exact hne ⟨h1.resolve_right hr.ne', h2⟩

/-- a planet in transit, and one that is not -/
example : limbDarkTerm 0 [] [] 1 0.1 ⟨0.5, 0, 3⟩ < 0 ∧ limbDarkTerm 0 [] [] 1 0.1 ⟨0.5, 0, -3⟩ = 0 := by
  constructor
  · rw [(limb_dark_uniform 0 [] one_pos (by norm_num) _).2.2]
    refine ⟨by norm_num, ?_⟩
    simp only
    rw [Real.sqrt_lt' (by norm_num)]
    norm_num
  · exact limb_dark_behind _ _ _ _ _ (by norm_num)

end Jaxoplanet.LightCurve
