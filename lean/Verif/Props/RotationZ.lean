import Verif.Model.Rotation
import Verif.Proofs.Basis
import Verif.Spec.Rotation

/-!
# C45: rotation about the polar axis
-/

namespace Jaxoplanet.Starry

open Spec Real

theorem chebList_eq (deg : ℕ) (f : ℕ → ℝ) (c : ℝ) (hf : ∀ n, f (n + 2) = 2 * f (n + 1) * c - f n) :
    chebList deg (f 0) (f 1) c = (List.range (max deg 1 + 1)).map f := by
  have key : ∀ k, (List.range k).foldl (fun L i => L ++ [2 * L.getD (i + 2 - 1) 0 * c - L.getD (i + 2 - 2) 0]) [f 0, f 1] =
      (List.range (k + 2)).map f := by
    intro k
    induction k with
    | zero => simp [List.range_succ]
    | succ k ih =>
      rw [List.range_succ, List.foldl_append, ih, List.range_succ (n := k + 2), List.map_append]
      simp only [List.foldl_cons, List.foldl_nil, List.map_cons, List.map_nil]
      congr 2
      rw [hf]
      simp
  unfold chebList
  simp only
  rw [key]
  congr 2
  omega

theorem cos_cheb (t : ℝ) (n : ℕ) : cos (((n + 2 : ℕ) : ℝ) * t) = 2 * cos (((n + 1 : ℕ) : ℝ) * t) * cos t - cos ((n : ℝ) * t) := by
  have h1 : ((n + 2 : ℕ) : ℝ) * t = ((n + 1 : ℕ) : ℝ) * t + t := by push_cast; ring
  have h2 : (n : ℝ) * t = ((n + 1 : ℕ) : ℝ) * t - t := by push_cast; ring
  rw [h1, h2, cos_add, cos_sub]; ring

theorem sin_cheb (t : ℝ) (n : ℕ) : sin (((n + 2 : ℕ) : ℝ) * t) = 2 * sin (((n + 1 : ℕ) : ℝ) * t) * cos t - sin ((n : ℝ) * t) := by
  have h1 : ((n + 2 : ℕ) : ℝ) * t = ((n + 1 : ℕ) : ℝ) * t + t := by push_cast; ring
  have h2 : (n : ℝ) * t = ((n + 1 : ℕ) : ℝ) * t - t := by push_cast; ring
  rw [h1, h2, sin_add, sin_sub]; ring

theorem chebList_cos (deg : ℕ) (t : ℝ) : chebList deg 1 (cos t) (cos t) =
    (List.range (max deg 1 + 1)).map fun n : ℕ => cos (n * t) := by
  have := chebList_eq deg (fun n : ℕ => cos (n * t)) (cos t) (cos_cheb t)
  simpa using this

theorem chebList_sin (deg : ℕ) (t : ℝ) : chebList deg 0 (sin t) (cos t) =
    (List.range (max deg 1 + 1)).map fun n : ℕ => sin (n * t) := by
  have := chebList_eq deg (fun n : ℕ => sin (n * t)) (cos t) (sin_cheb t)
  simpa using this

theorem getD_append_left {α : Type} (a b : List α) (d : α) (n : ℕ) (h : n < a.length) : (a ++ b).getD n d = a.getD n d := by
  rw [List.getD_eq_getElem?_getD, List.getD_eq_getElem?_getD, List.getElem?_append_left h]

theorem getD_append_right {α : Type} (a b : List α) (d : α) (n : ℕ) (h : a.length ≤ n) :
    (a ++ b).getD n d = b.getD (n - a.length) d := by
  rw [List.getD_eq_getElem?_getD, List.getD_eq_getElem?_getD, List.getElem?_append_right h]

theorem mem_loopLJ {deg : ℕ} {e : ℕ × ℕ} : e ∈ loopLJ deg ↔ e.1 ≤ deg ∧ e.2 ≤ 2 * e.1 := by
  unfold loopLJ
  simp only [List.mem_flatMap, List.mem_range, List.mem_map]
  constructor
  · rintro ⟨l, hl, j, hj, rfl⟩; exact ⟨by omega, by simp only; omega⟩
  · rintro ⟨h1, h2⟩; exact ⟨e.1, by omega, e.2, by omega, rfl⟩

/-- concatenating blocks of length `2l + 1` puts entry `q` of block `l` at `l² + q` -/
theorem blocks_getD {α : Type} (deg : ℕ) (f : ℕ → List α) (hf : ∀ l, (f l).length = 2 * l + 1) (d : α) (l q : ℕ)
    (hl : l ≤ deg) (hq : q ≤ 2 * l) :
    (((List.range (deg + 1)).flatMap f).getD (l ^ 2 + q) d) = (f l).getD q d ∧
    ((List.range (deg + 1)).flatMap f).length = (deg + 1) ^ 2 := by
  have hlen : ∀ L, ((List.range L).flatMap f).length = L ^ 2 := by
    intro L
    induction L with
    | zero => simp
    | succ L ih => rw [List.range_succ, List.flatMap_append, List.length_append, ih]; simp [hf]; ring
  have key : ∀ L, l < L → ((List.range L).flatMap f).getD (l ^ 2 + q) d = (f l).getD q d := by
    intro L hL
    induction L with
    | zero => omega
    | succ L ih =>
      rw [List.range_succ, List.flatMap_append]
      rcases Nat.lt_or_ge l L with h | h
      · rw [getD_append_left, ih h]
        rw [hlen]
        have : (l + 1) ^ 2 ≤ L ^ 2 := Nat.pow_le_pow_left h 2
        nlinarith
      · have : l = L := by omega
        subst this
        rw [getD_append_right _ _ _ _ (by rw [hlen]; omega), hlen]
        simp
  exact ⟨key _ (by omega), hlen _⟩

theorem mtList_getD (deg : ℕ) (nt : List ℝ) (sgn : ℝ) (l q : ℕ) (hl : l ≤ deg) (hq : q ≤ 2 * l) :
    (mtList deg nt sgn).getD (l ^ 2 + q) 0 = if q < l then sgn * nt.getD (l - q) 0 else nt.getD (q - l) 0 := by
  unfold mtList
  rw [(blocks_getD deg _ (by intro l; simp; ring) 0 l q hl hq).1]
  by_cases h : q < l
  · rw [if_pos h, getD_append_left _ _ _ _ (by simpa using h)]
    rw [List.getD_eq_getElem?_getD]
    simp [h]
  · rw [if_neg h, getD_append_right _ _ _ _ (by simp; omega)]
    rw [List.getD_eq_getElem?_getD]
    simp [show q - l < l + 1 by omega]

/-- folding assignments at distinct positions -/
theorem foldl_set_getD {ι : Type} (es : List ι) (idx : ι → ℕ) (val : ι → ℝ) (L : List ℝ)
    (hinj : ∀ a ∈ es, ∀ b ∈ es, idx a = idx b → val a = val b) (hlt : ∀ e ∈ es, idx e < L.length) :
    (es.foldl (fun r e => r.set (idx e) (val e)) L).length = L.length ∧
    ∀ e ∈ es, (es.foldl (fun r e => r.set (idx e) (val e)) L).getD (idx e) 0 = val e := by
  induction es using List.reverseRecOn with
  | nil => simp
  | append_singleton es a ih =>
    have ih' := ih (fun x hx y hy => hinj x (by simp [hx]) y (by simp [hy])) (fun e he => hlt e (by simp [he]))
    rw [List.foldl_append]
    simp only [List.foldl_cons, List.foldl_nil, List.length_set]
    refine ⟨ih'.1, fun e he => ?_⟩
    rw [List.getD_eq_getElem?_getD, List.getElem?_set]
    have h1 := hlt a (by simp)
    have h2 := hlt e he
    by_cases h : idx a = idx e
    · rw [if_pos h, if_pos (by rw [ih'.1]; exact h1)]
      simp only [Option.getD_some]
      exact hinj a (by simp) e he h
    · rw [if_neg h]
      have he' : e ∈ es := by
        rcases List.mem_append.1 he with h3 | h3
        · exact h3
        · rw [List.mem_singleton] at h3; subst h3; exact absurd rfl h
      have := ih'.2 e he'
      rw [List.getD_eq_getElem?_getD] at this
      exact this

theorem block_inj {a b c d : ℕ} (hb : b ≤ 2 * a) (hd : d ≤ 2 * c) (h : a * a + b = c * c + d) : a = c ∧ b = d := by
  have h1 : Nat.sqrt (a * a + b) = a := by rw [← sq]; exact sqrt_eq_of_bounds (by omega) (by nlinarith)
  have h2 : Nat.sqrt (c * c + d) = c := by rw [← sq]; exact sqrt_eq_of_bounds (by omega) (by nlinarith)
  have : a = c := by rw [← h1, h, h2]
  subst this
  exact ⟨rfl, by omega⟩

theorem dotRz_length (deg : ℕ) (t : ℝ) (M : List ℝ) : (dotRz deg t M).length = (deg + 1) ^ 2 := by
  unfold dotRz
  simp only
  rw [(foldl_set_getD (loopLJ deg) (fun e => e.1 * e.1 + e.2) _ _ _ _).1, List.length_replicate]
  · ring
  · rintro ⟨a, b⟩ ha ⟨c, d⟩ hc h
    rw [mem_loopLJ] at ha hc
    obtain ⟨rfl, rfl⟩ := block_inj ha.2 hc.2 h
    rfl
  · rintro ⟨a, b⟩ ha
    rw [mem_loopLJ] at ha
    simp only [List.length_replicate] at *
    nlinarith [ha.1, ha.2]

theorem dotRz_getD (deg : ℕ) (t : ℝ) (M : List ℝ) (l q : ℕ) (hl : l ≤ deg) (hq : q ≤ 2 * l) :
    (dotRz deg t M).getD (l ^ 2 + q) 0 =
      cos (((q : ℝ) - l) * t) * M.getD (l ^ 2 + q) 0 + sin (((q : ℝ) - l) * t) * M.getD (l ^ 2 + (2 * l - q)) 0 := by
  unfold dotRz
  simp only
  have key := (foldl_set_getD (loopLJ deg) (fun e => e.1 * e.1 + e.2) (fun e =>
      (M.getD (e.1 * e.1 + e.2) 0 * (mtList deg (chebList deg 1 (cos t) (cos t)) 1).getD (e.1 * e.1 + e.2) 0 +
        M.getD (e.1 * e.1 + 2 * e.1 - e.2) 0 * (mtList deg (chebList deg 0 (sin t) (cos t)) (-1)).getD (e.1 * e.1 + e.2) 0))
      (List.replicate (deg ^ 2 + 2 * deg + 1) 0) (by
        rintro ⟨a, b⟩ ha ⟨c, d⟩ hc h
        rw [mem_loopLJ] at ha hc
        obtain ⟨rfl, rfl⟩ := block_inj ha.2 hc.2 h
        rfl) (by
        rintro ⟨a, b⟩ ha
        rw [mem_loopLJ] at ha
        simp only [List.length_replicate] at *
        nlinarith [ha.1, ha.2])).2 (l, q) (mem_loopLJ.2 ⟨hl, hq⟩)
  simp only at key
  rw [show l ^ 2 + q = l * l + q by ring, key, ← sq, mtList_getD deg _ _ l q hl hq, mtList_getD deg _ _ l q hl hq, chebList_cos, chebList_sin,
    show l ^ 2 + 2 * l - q = l ^ 2 + (2 * l - q) by omega]
  have hg : ∀ (f : ℕ → ℝ) n, n ≤ l → ((List.range (max deg 1 + 1)).map f).getD n 0 = f n := by
    intro f n hn
    rw [List.getD_eq_getElem?_getD]
    simp [show n < max deg 1 + 1 by omega]
  by_cases h : q < l
  · rw [if_pos h, if_pos h, hg _ _ (by omega), hg _ _ (by omega)]
    have : ((l - q : ℕ) : ℝ) * t = -(((q : ℝ) - l) * t) := by rw [Nat.cast_sub h.le]; ring
    rw [this, cos_neg, sin_neg]
    ring
  · rw [if_neg h, if_neg h, hg _ _ (by omega), hg _ _ (by omega)]
    have : ((q - l : ℕ) : ℝ) * t = ((q : ℝ) - l) * t := by rw [Nat.cast_sub (by omega)]
    rw [this]
    ring

/-- C45: `dot_rz(deg, θ)` mixes the coefficients `(l, m)` and `(l, -m)` by the angle `m θ`, for every
`|m| ≤ l ≤ deg`; the coefficient of `(l, m)` is entry `l² + l + m` -/
theorem dotRz_mixes (deg : ℕ) (t : ℝ) (M : List ℝ) (l : ℕ) (m : ℤ) (hl : l ≤ deg) (hm : |m| ≤ (l : ℤ)) :
    (dotRz deg t M).length = (deg + 1) ^ 2 ∧
    (dotRz deg t M).getD ((l : ℤ) ^ 2 + l + m).toNat 0 =
      cos (m * t) * M.getD ((l : ℤ) ^ 2 + l + m).toNat 0 + sin (m * t) * M.getD ((l : ℤ) ^ 2 + l - m).toNat 0 := by
  refine ⟨dotRz_length _ _ _, ?_⟩
  rw [abs_le] at hm
  obtain ⟨q, hq⟩ : ∃ q : ℕ, (l : ℤ) + m = q := ⟨((l : ℤ) + m).toNat, by omega⟩
  have e1 : ((l : ℤ) ^ 2 + l + m).toNat = l ^ 2 + q := by
    have : (l : ℤ) ^ 2 + l + m = ((l ^ 2 + q : ℕ) : ℤ) := by push_cast; rw [← hq]; ring
    rw [this, Int.toNat_natCast]
  have e2 : ((l : ℤ) ^ 2 + l - m).toNat = l ^ 2 + (2 * l - q) := by
    have : (l : ℤ) ^ 2 + l - m = ((l ^ 2 + (2 * l - q) : ℕ) : ℤ) := by
      push_cast [Nat.cast_sub (show q ≤ 2 * l by omega)]; rw [← hq]; ring
    rw [this, Int.toNat_natCast]
  rw [e1, e2, dotRz_getD deg t M l q hl (by omega)]
  have : (m : ℝ) = (q : ℝ) - l := by
    have : (m : ℤ) = (q : ℤ) - l := by omega
    rw [this]; push_cast; rfl
  rw [this]

theorem getD_ext {a b : List ℝ} {deg : ℕ} (ha : a.length = (deg + 1) ^ 2) (hb : b.length = (deg + 1) ^ 2)
    (h : ∀ l q, l ≤ deg → q ≤ 2 * l → a.getD (l ^ 2 + q) 0 = b.getD (l ^ 2 + q) 0) : a = b := by
  apply List.ext_getElem (by rw [ha, hb])
  intro n h1 h2
  have hb' := sqrt_bounds n
  have hl : Nat.sqrt n ≤ deg := by
    have : Nat.sqrt n < deg + 1 := by rw [Nat.sqrt_lt]; nlinarith
    omega
  have := h (Nat.sqrt n) (n - Nat.sqrt n ^ 2) hl (by omega)
  rw [show Nat.sqrt n ^ 2 + (n - Nat.sqrt n ^ 2) = n by omega] at this
  rw [List.getD_eq_getElem?_getD, List.getD_eq_getElem?_getD, List.getElem?_eq_getElem h1, List.getElem?_eq_getElem h2] at this
  simpa using this

/-- C45: angle zero is the identity -/
theorem dotRz_zero (deg : ℕ) (M : List ℝ) (hM : M.length = (deg + 1) ^ 2) : dotRz deg 0 M = M := by
  apply getD_ext (dotRz_length _ _ _) hM
  intro l q hl hq
  rw [dotRz_getD deg 0 M l q hl hq]
  simp

/-- C45: composition adds the angles -/
theorem dotRz_comp (deg : ℕ) (s t : ℝ) (M : List ℝ) : dotRz deg s (dotRz deg t M) = dotRz deg (s + t) M := by
  apply getD_ext (dotRz_length _ _ _) (dotRz_length _ _ _)
  intro l q hl hq
  rw [dotRz_getD deg _ _ l q hl hq, dotRz_getD deg _ _ l q hl hq, dotRz_getD deg _ _ l (2 * l - q) hl (by omega),
    dotRz_getD deg _ _ l q hl hq]
  have e : ((2 * l - q : ℕ) : ℝ) - l = -((q : ℝ) - l) := by rw [Nat.cast_sub hq]; push_cast; ring
  rw [e, show 2 * l - (2 * l - q) = q by omega, neg_mul, cos_neg, sin_neg, mul_add ((q : ℝ) - l), cos_add, sin_add]
  ring

/-- C45: the polar coefficients `m = 0` do not change -/
theorem dotRz_polar (deg : ℕ) (t : ℝ) (M : List ℝ) (l : ℕ) (hl : l ≤ deg) :
    (dotRz deg t M).getD (l ^ 2 + l) 0 = M.getD (l ^ 2 + l) 0 := by
  rw [dotRz_getD deg t M l l hl (by omega)]
  simp

/-- C45: the norm of every degree is preserved -/
theorem dotRz_norm (deg : ℕ) (t : ℝ) (M : List ℝ) (l : ℕ) (hl : l ≤ deg) :
    ∑ q ∈ Finset.range (2 * l + 1), (dotRz deg t M).getD (l ^ 2 + q) 0 ^ 2 =
      ∑ q ∈ Finset.range (2 * l + 1), M.getD (l ^ 2 + q) 0 ^ 2 := by
  have h1 : ∀ q ∈ Finset.range (2 * l + 1), (dotRz deg t M).getD (l ^ 2 + q) 0 ^ 2 =
      (cos (((q : ℝ) - l) * t) ^ 2 * M.getD (l ^ 2 + q) 0 ^ 2 +
       2 * (cos (((q : ℝ) - l) * t) * sin (((q : ℝ) - l) * t) * M.getD (l ^ 2 + q) 0 * M.getD (l ^ 2 + (2 * l - q)) 0)) +
       sin (((q : ℝ) - l) * t) ^ 2 * M.getD (l ^ 2 + (2 * l - q)) 0 ^ 2 := by
    intro q hq
    rw [dotRz_getD deg t M l q hl (by have := Finset.mem_range.1 hq; omega)]
    ring
  rw [Finset.sum_congr rfl h1, Finset.sum_add_distrib, Finset.sum_add_distrib, ← Finset.mul_sum]
  have refl : ∀ f : ℕ → ℝ, ∑ q ∈ Finset.range (2 * l + 1), f (2 * l - q) = ∑ q ∈ Finset.range (2 * l + 1), f q := by
    intro f
    have := Finset.sum_range_reflect f (2 * l + 1)
    rw [← this]
    refine Finset.sum_congr rfl fun q hq => ?_
    congr 1
  have hcast : ∀ q ∈ Finset.range (2 * l + 1), ((2 * l - q : ℕ) : ℝ) - l = -((q : ℝ) - l) := by
    intro q hq
    rw [Nat.cast_sub (by have := Finset.mem_range.1 hq; omega)]; push_cast; ring
  have hcross : ∑ q ∈ Finset.range (2 * l + 1), cos (((q : ℝ) - l) * t) * sin (((q : ℝ) - l) * t) *
      M.getD (l ^ 2 + q) 0 * M.getD (l ^ 2 + (2 * l - q)) 0 = 0 := by
    have h2 := refl fun q => cos (((q : ℝ) - l) * t) * sin (((q : ℝ) - l) * t) *
      M.getD (l ^ 2 + q) 0 * M.getD (l ^ 2 + (2 * l - q)) 0
    have h3 : ∑ q ∈ Finset.range (2 * l + 1), cos ((((2 * l - q : ℕ) : ℝ) - l) * t) * sin ((((2 * l - q : ℕ) : ℝ) - l) * t) *
      M.getD (l ^ 2 + (2 * l - q)) 0 * M.getD (l ^ 2 + (2 * l - (2 * l - q))) 0 =
      -∑ q ∈ Finset.range (2 * l + 1), cos (((q : ℝ) - l) * t) * sin (((q : ℝ) - l) * t) *
      M.getD (l ^ 2 + q) 0 * M.getD (l ^ 2 + (2 * l - q)) 0 := by
      rw [← Finset.sum_neg_distrib]
      refine Finset.sum_congr rfl fun q hq => ?_
      rw [hcast q hq, neg_mul, cos_neg, sin_neg, show 2 * l - (2 * l - q) = q by have := Finset.mem_range.1 hq; omega]
      ring
    linarith
  have hsin : ∑ q ∈ Finset.range (2 * l + 1), sin (((q : ℝ) - l) * t) ^ 2 * M.getD (l ^ 2 + (2 * l - q)) 0 ^ 2 =
      ∑ q ∈ Finset.range (2 * l + 1), sin (((q : ℝ) - l) * t) ^ 2 * M.getD (l ^ 2 + q) 0 ^ 2 := by
    rw [← refl fun q => sin (((q : ℝ) - l) * t) ^ 2 * M.getD (l ^ 2 + q) 0 ^ 2]
    refine Finset.sum_congr rfl fun q hq => ?_
    rw [hcast q hq, neg_mul, sin_neg]
    ring
  rw [hcross, hsin, mul_zero, add_zero, ← Finset.sum_add_distrib]
  refine Finset.sum_congr rfl fun q _ => ?_
  rw [← add_mul, cos_sq_add_sin_sq, one_mul]

/-- the spherical harmonics of orders `m` and `-m` at the point rotated about the z axis -/
theorem realHarmonic_rotZ (l : ℕ) (m : ℤ) (t x y z : ℝ) :
    realHarmonic l m (cos t * x - sin t * y) (sin t * x + cos t * y) z =
      cos (m * t) * realHarmonic l m x y z - sin (m * t) * realHarmonic l (-m) x y z := by
  have h : (((cos t * x - sin t * y : ℝ) : ℂ) + ((sin t * x + cos t * y : ℝ) : ℂ) * Complex.I) ^ m.natAbs =
      ((x : ℂ) + y * Complex.I) ^ m.natAbs * (((cos (m.natAbs * t) : ℝ) : ℂ) + ((sin (m.natAbs * t) : ℝ) : ℂ) * Complex.I) := by
    have h0 : (((cos t * x - sin t * y : ℝ) : ℂ) + ((sin t * x + cos t * y : ℝ) : ℂ) * Complex.I) =
        ((x : ℂ) + y * Complex.I) * (Complex.cos t + Complex.sin t * Complex.I) := by
      push_cast
      linear_combination (-(Complex.sin t * y)) * Complex.I_sq
    rw [h0, mul_pow, Complex.cos_add_sin_mul_I_pow]
    push_cast
    rfl
  unfold realHarmonic
  rw [h, Int.natAbs_neg]
  generalize ((x : ℂ) + y * Complex.I) ^ m.natAbs = w
  have hre : ∀ a b : ℝ, ((w * ((a : ℂ) + (b : ℂ) * Complex.I)).re = w.re * a - w.im * b) ∧
      ((w * ((a : ℂ) + (b : ℂ) * Complex.I)).im = w.re * b + w.im * a) := by
    intro a b
    constructor <;> simp
  rw [(hre _ _).1, (hre _ _).2]
  rcases lt_trichotomy m 0 with hm | hm | hm
  · have e : ((m.natAbs : ℕ) : ℝ) = -(m : ℝ) := by
      rw [Nat.cast_natAbs, abs_of_neg (by omega)]; push_cast; rfl
    rw [if_neg (by omega), if_neg (by omega), if_pos (by omega), e, neg_mul, cos_neg, sin_neg]
    ring
  · subst hm
    simp
  · have e : ((m.natAbs : ℕ) : ℝ) = (m : ℝ) := by
      rw [Nat.cast_natAbs, abs_of_nonneg (by omega)]
    rw [if_pos (by omega), if_pos (by omega), if_neg (by omega), e]
    ring

/-- C45: the map with the coefficients `dot_rz(deg, θ)(y)` takes at `p` the value of the map `y` at `p` rotated
by `θ` about the z axis -/
theorem dotRz_mapVal (deg : ℕ) (t : ℝ) (M : List ℝ) (p : V3) :
    mapVal deg (dotRz deg t M) p = mapVal deg M (rotZ t p) := by
  unfold mapVal
  refine Finset.sum_congr rfl fun l hl => ?_
  have hl' : l ≤ deg := by have := Finset.mem_range.1 hl; omega
  have h1 : ∀ q ∈ Finset.range (2 * l + 1), (dotRz deg t M).getD (l ^ 2 + q) 0 *
        realHarmonic l ((q : ℤ) - l) p.1 p.2.1 p.2.2 =
      M.getD (l ^ 2 + q) 0 * (cos (((q : ℝ) - l) * t) * realHarmonic l ((q : ℤ) - l) p.1 p.2.1 p.2.2) +
      (fun q : ℕ => M.getD (l ^ 2 + q) 0 * (-sin (((q : ℝ) - l) * t) * realHarmonic l (-((q : ℤ) - l)) p.1 p.2.1 p.2.2)) (2 * l - q) := by
    intro q hq
    have hq' : q ≤ 2 * l := by have := Finset.mem_range.1 hq; omega
    rw [dotRz_getD deg t M l q hl' hq']
    simp only
    have e : ((2 * l - q : ℕ) : ℝ) - l = -((q : ℝ) - l) := by rw [Nat.cast_sub hq']; push_cast; ring
    have e2 : -(((2 * l - q : ℕ) : ℤ) - l) = (q : ℤ) - l := by omega
    rw [e, e2, neg_mul ((q : ℝ) - l), sin_neg]
    ring
  rw [Finset.sum_congr rfl h1, Finset.sum_add_distrib]
  have refl : ∀ f : ℕ → ℝ, ∑ q ∈ Finset.range (2 * l + 1), f (2 * l - q) = ∑ q ∈ Finset.range (2 * l + 1), f q := by
    intro f
    have := Finset.sum_range_reflect f (2 * l + 1)
    rw [← this]
    refine Finset.sum_congr rfl fun q hq => ?_
    congr 1
  rw [refl fun q : ℕ => M.getD (l ^ 2 + q) 0 * (-sin (((q : ℝ) - l) * t) *
    realHarmonic l (-((q : ℤ) - l)) p.1 p.2.1 p.2.2), ← Finset.sum_add_distrib]
  refine Finset.sum_congr rfl fun q _ => ?_
  unfold rotZ
  simp only
  rw [realHarmonic_rotZ]
  push_cast
  ring

/-- a quarter turn of a map of degree one exchanges the two equatorial coefficients -/
example : dotRz 1 (π / 2) [1, 2, 3, 4] = [1, -4, 3, 2] := by
  apply getD_ext (deg := 1) (dotRz_length _ _ _) (by norm_num)
  intro l q hl hq
  rw [dotRz_getD 1 _ _ l q hl hq]
  interval_cases l
  · interval_cases q; simp
  · interval_cases q
    · norm_num
    · norm_num
    · norm_num [show ((2 : ℝ) - 1) = 1 by norm_num]

end Jaxoplanet.Starry
