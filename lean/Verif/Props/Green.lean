import Verif.Proofs.Basis
import Verif.Spec.Green

/-!
# C43: the Green basis is the curl of the fields used by the occultation integrals
-/

namespace Jaxoplanet.Starry

open Spec

/-- `z` as a function on the disc -/
noncomputable def zOf (x y : ℝ) : ℝ := √(1 - x ^ 2 - y ^ 2)

theorem zOf_pos {x y : ℝ} (h : x ^ 2 + y ^ 2 < 1) : 0 < zOf x y := Real.sqrt_pos.2 (by linarith)
theorem zOf_sq {x y : ℝ} (h : x ^ 2 + y ^ 2 ≤ 1) : zOf x y ^ 2 = 1 - x ^ 2 - y ^ 2 :=
  Real.sq_sqrt (by linarith)

theorem zOf_symm (x y : ℝ) : zOf x y = zOf y x := by unfold zOf; ring_nf

theorem zOf_deriv {x y : ℝ} (h : x ^ 2 + y ^ 2 < 1) : HasDerivAt (fun s => zOf s y) (-x / zOf x y) x := by
  have h1 : HasDerivAt (fun s : ℝ => 1 - s ^ 2 - y ^ 2) (-(2 * x)) x := by
    have := ((hasDerivAt_pow 2 x).const_sub 1).sub_const (y ^ 2)
    simpa using this
  have := h1.sqrt (by linarith)
  refine this.congr_deriv ?_
  unfold zOf
  rw [show -(2 * x) = 2 * (-x) by ring, mul_div_mul_left _ _ (by norm_num)]

theorem zOf_deriv' {x y : ℝ} (h : x ^ 2 + y ^ 2 < 1) : HasDerivAt (fun s => zOf x s) (-y / zOf x y) y := by
  have := zOf_deriv (x := y) (y := x) (by linarith)
  rw [zOf_symm x y]
  simpa only [zOf_symm] using this

/-- `∂/∂x [x^a c z³]` -/
theorem deriv_pow_z3 {x y : ℝ} (h : x ^ 2 + y ^ 2 < 1) (a : ℕ) (c : ℝ) :
    HasDerivAt (fun s => s ^ a * c * zOf s y ^ 3)
      (a * x ^ (a - 1) * c * zOf x y ^ 3 - 3 * x ^ (a + 1) * c * zOf x y) x := by
  have hz := zOf_pos h
  have := ((hasDerivAt_pow a x).mul_const c).mul ((zOf_deriv h).pow 3)
  refine this.congr_deriv ?_
  simp only [Nat.cast_ofNat, Pi.pow_apply]
  field_simp
  ring

theorem deriv_z3 {x y : ℝ} (h : x ^ 2 + y ^ 2 < 1) (c : ℝ) :
    HasDerivAt (fun s => c * zOf x s ^ 3) (-(3 * c * y * zOf x y)) y := by
  have hz := zOf_pos h
  have := ((zOf_deriv' h).pow 3).const_mul c
  refine this.congr_deriv ?_
  simp only [Nat.cast_ofNat]
  field_simp
  ring

theorem deriv_y_z3 {x y : ℝ} (h : x ^ 2 + y ^ 2 < 1) (c : ℝ) :
    HasDerivAt (fun s => c * s * zOf x s ^ 3) (c * zOf x y ^ 3 - 3 * c * y ^ 2 * zOf x y) y := by
  have hz := zOf_pos h
  have := ((hasDerivAt_id y).const_mul c).mul ((zOf_deriv' h).pow 3)
  refine this.congr_deriv ?_
  simp only [Nat.cast_ofNat, Pi.pow_apply, id]
  field_simp
  ring

/-- derivative of `(1 + z + z²) / (3 (1 + z)) s` along `s` -/
theorem deriv_linear_field {x y : ℝ} (h : x ^ 2 + y ^ 2 < 1) :
    HasDerivAt (fun s => (1 + zOf s y + zOf s y ^ 2) / (3 * (1 + zOf s y)) * s)
      ((1 + zOf x y + zOf x y ^ 2) / (3 * (1 + zOf x y)) -
        x ^ 2 * (2 + zOf x y) / (3 * (1 + zOf x y) ^ 2)) x := by
  have hz := zOf_pos h
  have hd := zOf_deriv h
  have h1 : (3 * (1 + zOf x y)) ≠ 0 := by positivity
  have hn := ((hd.const_add 1).add (hd.pow 2))
  have hden := (hd.const_add 1).const_mul 3
  have := (hn.div hden h1).mul (hasDerivAt_id x)
  refine this.congr_deriv ?_
  simp only [Nat.cast_ofNat, Pi.pow_apply, Pi.add_apply, Pi.div_apply, id]
  field_simp
  ring

theorem gtilde_block (l q : ℕ) (hq : q ≤ 2 * l) : gTerms (l ^ 2 + q) =
    (if q % 2 = 0 then [(((2 * l - q : ℕ) : ℤ) / 2, (q : ℤ) / 2, 0, (((2 * l - q : ℕ) : ℤ) + 2) / 2)]
    else if l = 1 ∧ q = 1 then [(0, 0, 1, 1)]
    else if 2 * l - q = 1 ∧ l % 2 = 0 then [((l : ℤ) - 2, 1, 1, 3)]
    else if 2 * l - q = 1 then [((l : ℤ) - 3, 0, 1, -1), ((l : ℤ) - 1, 0, 1, 1), ((l : ℤ) - 3, 2, 1, 4)]
    else [((((2 * l - q : ℕ) : ℤ) - 5) / 2, ((q : ℤ) - 1) / 2, 1, (((2 * l - q : ℕ) : ℤ) - 3) / 2),
      ((((2 * l - q : ℕ) : ℤ) - 5) / 2, ((q : ℤ) + 3) / 2, 1, -(((2 * l - q : ℕ) : ℤ) - 3) / 2),
      ((((2 * l - q : ℕ) : ℤ) - 1) / 2, ((q : ℤ) - 1) / 2, 1, -(((2 * l - q : ℕ) : ℤ) + 3) / 2)]) := by
  have hs : Nat.sqrt (l ^ 2 + q) = l := sqrt_eq_of_bounds (by omega) (by
    have : (l + 1) ^ 2 = l ^ 2 + (2 * l + 1) := by ring
    omega)
  unfold gTerms
  rw [hs]
  have e1 : ((l ^ 2 + q : ℕ) : ℤ) - (l : ℤ) * l - l = (q : ℤ) - l := by push_cast; ring
  simp only [e1]
  have e2 : (l : ℤ) - ((q : ℤ) - l) = ((2 * l - q : ℕ) : ℤ) := by omega
  have e3 : (l : ℤ) + ((q : ℤ) - l) = (q : ℤ) := by omega
  rw [e2, e3]
  have c1 : ((q : ℤ) % 2 = 0) ↔ q % 2 = 0 := by omega
  have c2 : ((l : ℤ) = 1 ∧ (q : ℤ) - l = 0) ↔ (l = 1 ∧ q = 1) := by omega
  have c3 : ((l : ℤ) % 2 = 0) ↔ (l % 2 = 0) := by omega
  have c4 : (((2 * l - q : ℕ) : ℤ) = 1) ↔ (2 * l - q = 1) := by omega
  simp only [c1, c2, c3, c4]

theorem polyVal_filter_zero (ts : List (ℤ × ℤ × ℤ × ℤ)) (x y z : ℝ) :
    polyVal ((ts.filter fun t => t.2.2.2 ≠ 0).map fun t =>
      ((t.1.toNat, t.2.1.toNat, t.2.2.1.toNat), (t.2.2.2 : ℝ))) x y z =
    (ts.map fun t => (t.2.2.2 : ℝ) * (x ^ t.1.toNat * y ^ t.2.1.toNat * z ^ t.2.2.1.toNat)).sum := by
  induction ts with
  | nil => simp [polyVal]
  | cons t ts ih =>
    rw [List.filter_cons, List.map_cons, List.sum_cons, ← ih]
    by_cases h : t.2.2.2 = 0
    · simp [h]
    · simp only [ne_eq, h, not_false_eq_true, decide_true, if_true, List.map_cons, polyVal, List.sum_cons]

/-- C43: at every point of the open disc, the `n`-th Green basis polynomial (at `z = √(1 - x² - y²)`) is the
exterior derivative of the field `G_n` of the occultation integrals -/
theorem gtilde_is_curl (l : ℕ) (m : ℤ) (hm : |m| ≤ (l : ℤ)) (x y : ℝ) (h : x ^ 2 + y ^ 2 < 1) :
    HasCurlAt (greenField ((l : ℤ) - m).toNat ((l : ℤ) + m).toNat)
      (polyVal (gtilde (Ylm.index l m).toNat) x y (√(1 - x ^ 2 - y ^ 2))) x y := by
  rw [abs_le] at hm
  obtain ⟨q, hq⟩ : ∃ q : ℕ, (l : ℤ) + m = q := ⟨((l : ℤ) + m).toNat, by omega⟩
  have hq2 : q ≤ 2 * l := by omega
  have e1 : ((l : ℤ) - m).toNat = 2 * l - q := by omega
  have e2 : ((l : ℤ) + m).toNat = q := by omega
  have e3 : (Ylm.index l m).toNat = l ^ 2 + q := by
    have : Ylm.index l m = ((l ^ 2 + q : ℕ) : ℤ) := by
      unfold Ylm.index
      push_cast
      rw [← hq]; ring
    rw [this, Int.toNat_natCast]
  rw [e1, e2, e3]
  have hl : (2 * l - q + q) / 2 = l := by omega
  have hz := zOf_pos h
  have hz2 := zOf_sq h.le
  change HasCurlAt _ (polyVal (gtilde (l ^ 2 + q)) x y (zOf x y)) x y
  unfold gtilde
  rw [polyVal_filter_zero, gtilde_block l q hq2]
  by_cases c1 : q % 2 = 0
  · rw [if_pos c1]
    have hG : ∀ a b, greenField (2 * l - q) q a b = (0, a ^ ((2 * l - q + 2) / 2) * b ^ (q / 2)) := by
      intro a b; unfold greenField; simp only [c1, if_true]
    refine ⟨_, 0, by simp only [hG]; exact (hasDerivAt_pow _ x).mul_const _, by simp only [hG]; exact hasDerivAt_const _ _, ?_⟩
    obtain ⟨a, ha⟩ : ∃ a, 2 * l - q = 2 * a := ⟨(2 * l - q) / 2, by omega⟩
    rw [ha]
    have t1 : (((2 * a : ℕ) : ℤ) / 2).toNat = a := by omega
    have t2 : ((q : ℤ) / 2).toNat = q / 2 := by omega
    have t3 : (((2 * a : ℕ) : ℤ) + 2) / 2 = ((a + 1 : ℕ) : ℤ) := by omega
    have t4 : (2 * a + 2) / 2 = a + 1 := by omega
    simp only [List.map_cons, List.map_nil, List.sum_cons, List.sum_nil, t1, t2, t3, t4,
      Nat.add_sub_cancel, Int.toNat_zero, pow_zero]
    push_cast
    ring
  rw [if_neg c1]
  by_cases c2 : l = 1 ∧ q = 1
  · rw [if_pos c2]
    obtain ⟨rfl, rfl⟩ := c2
    have hG : ∀ a b, greenField (2 * 1 - 1) 1 a b =
        (-(1 + zOf a b + zOf a b ^ 2) / (3 * (1 + zOf a b)) * b,
          (1 + zOf a b + zOf a b ^ 2) / (3 * (1 + zOf a b)) * a) := by
      intro a b; unfold greenField zOf; simp
    have d2 : HasDerivAt (fun s => -(1 + zOf x s + zOf x s ^ 2) / (3 * (1 + zOf x s)) * s)
        (-((1 + zOf x y + zOf x y ^ 2) / (3 * (1 + zOf x y)) -
          y ^ 2 * (2 + zOf x y) / (3 * (1 + zOf x y) ^ 2))) y := by
      have := (deriv_linear_field (x := y) (y := x) (by linarith)).neg
      rw [zOf_symm y x] at this
      refine this.congr_of_eventuallyEq (Filter.Eventually.of_forall fun s => ?_)
      simp only [Pi.neg_apply]
      rw [zOf_symm x s]
      ring
    refine ⟨_, _, by simp only [hG]; exact deriv_linear_field h, by simp only [hG]; exact d2, ?_⟩
    simp only [List.map_cons, List.map_nil, List.sum_cons, List.sum_nil, Int.toNat_zero, pow_zero,
      Int.toNat_one, pow_one, Int.cast_one]
    have h1 : (1 + zOf x y) ≠ 0 := by positivity
    generalize zOf x y = z at *
    have hy2 : y ^ 2 = 1 - x ^ 2 - z ^ 2 := by linarith
    rw [hy2]
    field_simp
    ring
  rw [if_neg c2]
  have c2' : ¬ (2 * l - q = 1 ∧ q = 1) := by omega
  by_cases c3 : 2 * l - q = 1 ∧ l % 2 = 0
  · rw [if_pos c3]
    have hG : ∀ a b, greenField (2 * l - q) q a b = (a ^ (l - 2) * zOf a b ^ 3, 0) := by
      intro a b; unfold greenField zOf; simp only [c1, c2', if_false, hl]; rw [if_pos c3]
    refine ⟨0, _, by simp only [hG]; exact hasDerivAt_const _ _, by simp only [hG]; exact deriv_z3 h _, ?_⟩
    have t1 : ((l : ℤ) - 2).toNat = l - 2 := by omega
    simp only [List.map_cons, List.map_nil, List.sum_cons, List.sum_nil, t1, Int.toNat_one, pow_one]
    push_cast
    ring
  rw [if_neg c3]
  by_cases c4 : 2 * l - q = 1
  · rw [if_pos c4]
    have hG : ∀ a b, greenField (2 * l - q) q a b = (a ^ (l - 3) * b * zOf a b ^ 3, 0) := by
      intro a b; unfold greenField zOf; simp only [c1, c2', if_false, hl]; rw [if_neg c3, if_pos c4]
    refine ⟨0, _, by simp only [hG]; exact hasDerivAt_const _ _, by simp only [hG]; exact deriv_y_z3 h _, ?_⟩
    obtain ⟨a, ha⟩ : ∃ a, l = a + 3 := ⟨l - 3, by omega⟩
    have t1 : ((l : ℤ) - 3).toNat = a := by omega
    have t2 : ((l : ℤ) - 1).toNat = a + 2 := by omega
    have t3 : l - 3 = a := by omega
    simp only [List.map_cons, List.map_nil, List.sum_cons, List.sum_nil, t1, t2, t3, Int.toNat_one, pow_one,
      Int.toNat_zero, pow_zero, show (2 : ℤ).toNat = 2 from rfl]
    push_cast
    linear_combination (x ^ a * zOf x y) * hz2
  · rw [if_neg c4]
    have hG : ∀ a b, greenField (2 * l - q) q a b =
        (0, a ^ ((2 * l - q - 3) / 2) * b ^ ((q - 1) / 2) * zOf a b ^ 3) := by
      intro a b; unfold greenField zOf; simp only [c1, c2', if_false, hl]; rw [if_neg c3, if_neg c4]
    refine ⟨_, 0, by simp only [hG]; exact deriv_pow_z3 h _ _, by simp only [hG]; exact hasDerivAt_const _ _, ?_⟩
    obtain ⟨a, ha⟩ : ∃ a, 2 * l - q = 2 * a + 3 := ⟨(2 * l - q - 3) / 2, by omega⟩
    obtain ⟨b, hb⟩ : ∃ b, q = 2 * b + 1 := ⟨(q - 1) / 2, by omega⟩
    rw [ha, hb]
    have t1 : ((((2 * a + 3 : ℕ) : ℤ) - 5) / 2).toNat = a - 1 := by omega
    have t2 : ((((2 * b + 1 : ℕ) : ℤ) - 1) / 2).toNat = b := by omega
    have t3 : ((((2 * b + 1 : ℕ) : ℤ) + 3) / 2).toNat = b + 2 := by omega
    have t4 : ((((2 * a + 3 : ℕ) : ℤ) - 1) / 2).toNat = a + 1 := by omega
    have t5 : (((2 * a + 3 : ℕ) : ℤ) - 3) / 2 = a := by omega
    have t6 : -(((2 * a + 3 : ℕ) : ℤ) - 3) / 2 = -a := by omega
    have t7 : -(((2 * a + 3 : ℕ) : ℤ) + 3) / 2 = -(a + 3) := by omega
    have t8 : (2 * a + 3 - 3) / 2 = a := by omega
    have t9 : (2 * b + 1 - 1) / 2 = b := by omega
    simp only [List.map_cons, List.map_nil, List.sum_cons, List.sum_nil, t1, t2, t3, t4, t5, t6, t7, t8, t9,
      Int.toNat_one, pow_one]
    push_cast
    cases a with
    | zero => simp; ring
    | succ a =>
      simp only [Nat.add_sub_cancel]
      push_cast
      linear_combination (-((a : ℝ) + 1) * x ^ a * y ^ b * zOf x y) * hz2

theorem gtilde_keys (n : ℕ) :
    ∀ e ∈ gtilde n, e.1.2.2 ≤ 1 ∧ e.1.1 + e.1.2.1 + e.1.2.2 ≤ Nat.sqrt n := by
  have hb := sqrt_bounds n
  obtain ⟨q, hq⟩ : ∃ q : ℕ, n = (Nat.sqrt n) ^ 2 + q := ⟨n - Nat.sqrt n ^ 2, by omega⟩
  have h2 : q ≤ 2 * Nat.sqrt n := by omega
  intro e he
  unfold gtilde at he
  generalize Nat.sqrt n = l at *
  rw [hq, gtilde_block l q h2] at he
  obtain ⟨t, ht, rfl⟩ := List.mem_map.1 he
  rw [List.mem_filter] at ht
  obtain ⟨ht, hc⟩ := ht
  simp only [ne_eq, decide_not, Bool.not_eq_true', decide_eq_false_iff_not] at hc
  simp only
  split_ifs at ht with c1 c2 c3 c4
  · simp only [List.mem_singleton] at ht
    subst ht
    constructor
    · simp
    · simp only at *; omega
  · simp only [List.mem_singleton] at ht
    subst ht
    simp [c2]
  · simp only [List.mem_singleton] at ht
    subst ht
    constructor
    · simp
    · simp only at *; omega
  · simp only [List.mem_cons, List.not_mem_nil, or_false] at ht
    rcases ht with rfl | rfl | rfl
    · constructor
      · simp
      · simp only at *; omega
    · constructor
      · simp
      · simp only at *; omega
    · constructor
      · simp
      · simp only at *; omega
  · simp only [List.mem_cons, List.not_mem_nil, or_false] at ht
    rcases ht with rfl | rfl | rfl
    · constructor
      · simp
      · simp only at *; omega
    · constructor
      · simp
      · simp only at *; omega
    · constructor
      · simp
      · simp only at *; omega

theorem sqrt_le_of_lt {n lmax : ℕ} (h : n < (lmax + 1) ^ 2) : Nat.sqrt n ≤ lmax := by
  have : Nat.sqrt n < lmax + 1 := by rw [Nat.sqrt_lt]; nlinarith
  omega

/-- C43: `A2_inv(lmax)` maps Green-basis coefficients to polynomial coefficients: its `n`-th column is the
dense form of the `n`-th Green basis polynomial, and `A2_inv @ g` evaluates to `Σ g_n G̃_n` -/
theorem A2inv_val (lmax : ℕ) (g : List ℝ) (hg : g.length = (lmax + 1) ^ 2) (x y z : ℝ) :
    (matVec ((lmax + 1) ^ 2) (A2inv lmax) g).length = (lmax + 1) ^ 2 ∧
    denseVal (matVec ((lmax + 1) ^ 2) (A2inv lmax) g) x y z =
      ∑ n ∈ Finset.range ((lmax + 1) ^ 2), g.getD n 0 * polyVal (gtilde n) x y z := by
  refine ⟨matVec_length _ _ _, ?_⟩
  unfold A2inv
  rw [AImpl_eq, matVec_val]
  · rw [← listSum_range]
    congr 1
    apply List.ext_getElem
    · simp [hg]
    · intro n h1 h2
      have hn : n < (lmax + 1) ^ 2 := by simpa using h2
      simp only [List.getElem_map, List.getElem_zip, List.getElem_range]
      rw [column_val]
      · rw [List.getD_eq_getElem?_getD, List.getElem?_eq_getElem (hg ▸ hn)]
        simp only [Option.getD_some]
        ring
      · intro e he
        obtain ⟨a, b⟩ := gtilde_keys n e he
        exact ⟨a, le_trans b (sqrt_le_of_lt hn)⟩
  · intro c hc
    obtain ⟨n, _, rfl⟩ := List.mem_map.1 hc
    exact bcooDense_length _ _

/-- the case `l = 1, m = 0` of `gtilde_is_curl` at an interior point -/
example : HasCurlAt (greenField 1 1) (polyVal (gtilde 2) 0.3 0.4 (√(1 - 0.3 ^ 2 - 0.4 ^ 2))) 0.3 0.4 := by
  have := gtilde_is_curl 1 0 (by norm_num) 0.3 0.4 (by norm_num)
  simpa [Ylm.index] using this

end Jaxoplanet.Starry
