import Verif.Proofs.Basis

/-!
# C42: `poly_basis` evaluates the polynomial basis
-/

namespace Jaxoplanet.Starry

open Spec

/-- exponents of `x` and `y` of the monomial with index `k` -/
theorem n2ijk_block (l q : ℕ) (h : q ≤ 2 * l) : n2ijk (l ^ 2 + q) = ((2 * l - q) / 2, q / 2, q % 2) := by
  have hs : Nat.sqrt (l ^ 2 + q) = l := sqrt_eq_of_bounds (by omega) (by
    have : (l + 1) ^ 2 = l ^ 2 + (2 * l + 1) := by ring
    omega)
  rw [n2ijk_eq, hs, Nat.add_sub_cancel_left]

theorem block_of (k : ℕ) : ∃ l q, q ≤ 2 * l ∧ k = l ^ 2 + q := by
  have hb := sqrt_bounds k
  exact ⟨Nat.sqrt k, k - Nat.sqrt k ^ 2, by omega, by omega⟩

theorem block_unique {l q l' q' : ℕ} (h : q ≤ 2 * l) (h' : q' ≤ 2 * l') (he : l ^ 2 + q = l' ^ 2 + q') :
    l = l' ∧ q = q' := by
  have e1 : Nat.sqrt (l ^ 2 + q) = l := sqrt_eq_of_bounds (by omega) (by
    have : (l + 1) ^ 2 = l ^ 2 + (2 * l + 1) := by ring
    omega)
  have e2 : Nat.sqrt (l' ^ 2 + q') = l' := sqrt_eq_of_bounds (by omega) (by
    have : (l' + 1) ^ 2 = l' ^ 2 + (2 * l' + 1) := by ring
    omega)
  rw [he, e2] at e1
  subst e1
  exact ⟨rfl, by omega⟩

/-- the effect of the inner loop started at step `s + 1` -/
theorem polyWhile_spec (deg n : ℕ) (xt yt : ℝ) : ∀ (r s : ℕ), n + s + r = deg → ∀ (xa ya : Arr),
    ∃ xa' ya', polyWhile ((deg + 1) * (deg + 1)) xt yt xa ya ((n + (s + 1)) ^ 2 + 2 * s + 1) (3 + 2 * n + 2 * s)
        ((n + (s + 1)) ^ 2 + 2 * n) (2 + 2 * n + 2 * s) = some (xa', ya') ∧
      (∀ l q, q ≤ 2 * l → xa' (l ^ 2 + q) =
        if l ≤ deg ∧ n + s < l ∧ (2 * l - q) / 2 = n then some xt else xa (l ^ 2 + q)) ∧
      (∀ l q, q ≤ 2 * l → ya' (l ^ 2 + q) =
        if l ≤ deg ∧ n + s < l ∧ q / 2 = n then some yt else ya (l ^ 2 + q)) := by
  intro r
  induction r with
  | zero =>
    intro s hs xa ya
    rw [polyWhile]
    have h1 : ¬ ((n + (s + 1)) ^ 2 + 2 * s + 1 + 1 < (deg + 1) * (deg + 1)) := by
      have : n + (s + 1) = deg + 1 := by omega
      rw [this]
      nlinarith
    rw [if_neg h1]
    refine ⟨xa, ya, rfl, fun l q _ => ?_, fun l q _ => ?_⟩
    · rw [if_neg (by omega)]
    · rw [if_neg (by omega)]
  | succ r ih =>
    intro s hs xa ya
    rw [polyWhile]
    set L := n + (s + 1) with hL
    have hle : L ≤ deg := by omega
    have hN : (L + 1) ^ 2 ≤ (deg + 1) * (deg + 1) := by
      have := Nat.pow_le_pow_left (show L + 1 ≤ deg + 1 by omega) 2
      nlinarith
    have hL2 : (L + 1) ^ 2 = L ^ 2 + 2 * L + 1 := by ring
    rw [if_pos (by omega), if_pos (by omega)]
    have e1 : L ^ 2 + 2 * s + 1 + (3 + 2 * n + 2 * s + 2) = (n + (s + 1 + 1)) ^ 2 + 2 * (s + 1) + 1 := by
      rw [hL]; ring
    have e2 : 3 + 2 * n + 2 * s + 2 = 3 + 2 * n + 2 * (s + 1) := by ring
    have e3 : L ^ 2 + 2 * n + (2 + 2 * n + 2 * s + 2) - 1 = (n + (s + 1 + 1)) ^ 2 + 2 * n := by
      have : (n + (s + 1 + 1)) ^ 2 = L ^ 2 + 2 * L + 1 := by rw [hL]; ring
      omega
    have e4 : 2 + 2 * n + 2 * s + 2 = 2 + 2 * n + 2 * (s + 1) := by ring
    rw [e1, e2, e3, e4]
    obtain ⟨xa', ya', hw, hx, hy⟩ := ih (s + 1) (by omega)
      (Function.update (Function.update xa (L ^ 2 + 2 * s + 1) (some xt)) (L ^ 2 + 2 * s + 1 + 1) (some xt))
      (Function.update (Function.update ya (L ^ 2 + 2 * n) (some yt)) (L ^ 2 + 2 * n + 1) (some yt))
    refine ⟨xa', ya', hw, fun l q hq => ?_, fun l q hq => ?_⟩
    · rw [hx l q hq]
      by_cases hl : l = L
      · subst hl
        rw [if_neg (by omega)]
        by_cases hn : (2 * L - q) / 2 = n
        · rw [if_pos (by omega)]
          rcases (by omega : q = 2 * s + 2 ∨ q = 2 * s + 1) with rfl | rfl
          · rw [show L ^ 2 + (2 * s + 2) = L ^ 2 + 2 * s + 1 + 1 by ring, Function.update_self]
          · rw [show L ^ 2 + (2 * s + 1) = L ^ 2 + 2 * s + 1 by ring, Function.update_of_ne (by omega),
              Function.update_self]
        · rw [if_neg (by omega), Function.update_of_ne (by omega), Function.update_of_ne (by omega)]
      · have ne1 : l ^ 2 + q ≠ L ^ 2 + 2 * s + 1 + 1 := fun h =>
          hl (block_unique hq (show 2 * s + 2 ≤ 2 * L by omega) (by omega)).1
        have ne2 : l ^ 2 + q ≠ L ^ 2 + 2 * s + 1 := fun h =>
          hl (block_unique hq (show 2 * s + 1 ≤ 2 * L by omega) (by omega)).1
        rw [Function.update_of_ne ne1, Function.update_of_ne ne2]
        have : (l ≤ deg ∧ n + (s + 1) < l ∧ (2 * l - q) / 2 = n) ↔
          (l ≤ deg ∧ n + s < l ∧ (2 * l - q) / 2 = n) := by omega
        simp only [this]
    · rw [hy l q hq]
      by_cases hl : l = L
      · subst hl
        rw [if_neg (by omega)]
        by_cases hn : q / 2 = n
        · rw [if_pos (by omega)]
          rcases (by omega : q = 2 * n + 1 ∨ q = 2 * n) with rfl | rfl
          · rw [show L ^ 2 + (2 * n + 1) = L ^ 2 + 2 * n + 1 by ring, Function.update_self]
          · rw [Function.update_of_ne (by omega), Function.update_self]
        · rw [if_neg (by omega), Function.update_of_ne (by omega), Function.update_of_ne (by omega)]
      · have ne1 : l ^ 2 + q ≠ L ^ 2 + 2 * n + 1 := fun h =>
          hl (block_unique hq (show 2 * n + 1 ≤ 2 * L by omega) (by omega)).1
        have ne2 : l ^ 2 + q ≠ L ^ 2 + 2 * n := fun h =>
          hl (block_unique hq (show 2 * n ≤ 2 * L by omega) (by omega)).1
        rw [Function.update_of_ne ne1, Function.update_of_ne ne2]
        have : (l ≤ deg ∧ n + (s + 1) < l ∧ q / 2 = n) ↔ (l ≤ deg ∧ n + s < l ∧ q / 2 = n) := by omega
        simp only [this]

/-- invariant of the outer loop before round `n` -/
structure PolyInv (deg : ℕ) (x y : ℝ) (n : ℕ) (s : PolyState) : Prop where
  xterm : s.xterm = x ^ n
  yterm : s.yterm = y ^ n
  i0 : s.i0 = n ^ 2
  di0 : s.di0 = 3 + 2 * n
  j0 : s.j0 = n ^ 2 + 2 * n
  dj0 : s.dj0 = 2 + 2 * n
  xarr : ∀ l q, q ≤ 2 * l → l ≤ deg → (2 * l - q) / 2 < n → s.xarr (l ^ 2 + q) = some (x ^ ((2 * l - q) / 2))
  yarr : ∀ l q, q ≤ 2 * l → l ≤ deg → q / 2 < n → s.yarr (l ^ 2 + q) = some (y ^ (q / 2))

theorem polyStep_inv {deg : ℕ} {x y : ℝ} {n : ℕ} {s : PolyState} (hn : n ≤ deg) (hs : PolyInv deg x y n s) :
    ∃ s', polyStep ((deg + 1) * (deg + 1)) x y s n = some s' ∧ PolyInv deg x y (n + 1) s' := by
  obtain ⟨h1, h2, h3, h4, h5, h6, h7, h8⟩ := hs
  have hN : (n + 1) ^ 2 ≤ (deg + 1) * (deg + 1) := by
    have := Nat.pow_le_pow_left (show n + 1 ≤ deg + 1 by omega) 2
    nlinarith
  have hn2 : (n + 1) ^ 2 = n ^ 2 + 2 * n + 1 := by ring
  unfold polyStep
  rw [if_pos (by omega)]
  obtain ⟨xa', ya', hw, hx, hy⟩ := polyWhile_spec deg n s.xterm s.yterm (deg - n) 0 (by omega)
    (Function.update s.xarr s.i0 (some s.xterm)) (Function.update s.yarr s.j0 (some s.yterm))
  have e1 : s.i0 + s.di0 - 1 = (n + (0 + 1)) ^ 2 + 2 * 0 + 1 := by
    rw [h3, h4, Nat.zero_add, hn2]; omega
  have e2 : s.j0 + s.dj0 - 1 = (n + (0 + 1)) ^ 2 + 2 * n := by
    rw [h5, h6, Nat.zero_add, hn2]; omega
  rw [e1, e2]
  have hw' : polyWhile ((deg + 1) * (deg + 1)) s.xterm s.yterm (Function.update s.xarr s.i0 (some s.xterm))
      (Function.update s.yarr s.j0 (some s.yterm)) ((n + (0 + 1)) ^ 2 + 2 * 0 + 1) s.di0
      ((n + (0 + 1)) ^ 2 + 2 * n) s.dj0 = some (xa', ya') := by
    rw [h4, h6]; exact hw
  rw [hw']
  refine ⟨_, rfl, ?_⟩
  constructor
  · show s.xterm * x = _
    rw [h1, pow_succ]
  · show s.yterm * y = _
    rw [h2, pow_succ]
  · show s.i0 + (2 * n + 1) = _
    rw [h3, hn2]; omega
  · show s.di0 + 2 = _
    rw [h4]; ring
  · show s.j0 + (2 * (n + 1) + 1) = _
    rw [h5, hn2]; omega
  · show s.dj0 + 2 = _
    rw [h6]; ring
  · intro l q hq hl hlt
    show xa' _ = _
    rw [hx l q hq]
    by_cases hc : (2 * l - q) / 2 = n
    · by_cases hl2 : n + 0 < l
      · rw [if_pos ⟨hl, hl2, hc⟩, h1, hc]
      · obtain ⟨rfl, rfl⟩ : l = n ∧ q = 0 := by omega
        rw [if_neg (by omega), h3, Nat.add_zero, Function.update_self, h1]
        simp
    · rw [if_neg (by omega)]
      have : l ^ 2 + q ≠ n ^ 2 := fun h => by
        obtain ⟨rfl, rfl⟩ := block_unique hq (show 0 ≤ 2 * n by omega) (by omega : l ^ 2 + q = n ^ 2 + 0)
        omega
      rw [h3, Function.update_of_ne this]
      exact h7 l q hq hl (by omega)
  · intro l q hq hl hlt
    show ya' _ = _
    rw [hy l q hq]
    by_cases hc : q / 2 = n
    · by_cases hl2 : n + 0 < l
      · rw [if_pos ⟨hl, hl2, hc⟩, h2, hc]
      · obtain ⟨rfl, rfl⟩ : l = n ∧ q = 2 * n := by omega
        rw [if_neg (by omega), h5, Function.update_self, h2]
        simp
    · rw [if_neg (by omega)]
      have : l ^ 2 + q ≠ n ^ 2 + 2 * n := fun h => by
        obtain ⟨rfl, rfl⟩ := block_unique hq (le_refl (2 * n)) h
        omega
      rw [h5, Function.update_of_ne this]
      exact h8 l q hq hl (by omega)

theorem foldlM_polyInv (deg : ℕ) (x y : ℝ) (s0 : PolyState) (h0 : PolyInv deg x y 0 s0) : ∀ n ≤ deg + 1,
    ∃ s, (List.range n).foldlM (polyStep ((deg + 1) * (deg + 1)) x y) s0 = some s ∧ PolyInv deg x y n s := by
  intro n hn
  induction n with
  | zero => exact ⟨s0, rfl, h0⟩
  | succ n ih =>
    obtain ⟨s, hs, hi⟩ := ih (by omega)
    obtain ⟨s', hs', hi'⟩ := polyStep_inv (by omega) hi
    refine ⟨s', ?_, hi'⟩
    rw [List.range_succ, List.foldlM_append, hs]
    simp [hs']

theorem mapM_some {α β : Type} (l : List α) (f : α → Option β) (g : α → β) (h : ∀ a ∈ l, f a = some (g a)) :
    l.mapM f = some (l.map g) := by
  induction l with
  | nil => simp
  | cons a l ih =>
    rw [List.mapM_cons, h a (by simp), ih fun b hb => h b (by simp [hb])]
    rfl

/-- C42: `poly_basis(deg)` runs without an `IndexError` or a failed assertion, and returns the `(deg + 1)²`
monomials in the order of `ptilde` -/
theorem polyBasis_spec (deg : ℕ) (x y z : ℝ) :
    polyBasis deg x y z = some ((List.range ((deg + 1) ^ 2)).map fun n =>
      x ^ (ptilde n).1 * y ^ (ptilde n).2.1 * z ^ (ptilde n).2.2) := by
  have h0 : PolyInv deg x y 0
      ⟨fun _ => none, fun _ => none, 1 + 0 * z, 1 + 0 * z, 0, 3, 0, 2⟩ := by
    constructor <;> simp
  obtain ⟨s, hs, hi⟩ := foldlM_polyInv deg x y _ h0 (deg + 1) le_rfl
  have hN : (deg + 1) * (deg + 1) = (deg + 1) ^ 2 := by ring
  have hblock : ∀ k ∈ List.range ((deg + 1) * (deg + 1)), ∃ l q, q ≤ 2 * l ∧ l ≤ deg ∧ k = l ^ 2 + q := by
    intro k hk
    rw [List.mem_range] at hk
    obtain ⟨l, q, hq, rfl⟩ := block_of k
    refine ⟨l, q, hq, ?_, rfl⟩
    by_contra hl
    have := Nat.mul_le_mul (show deg + 1 ≤ l by omega) (show deg + 1 ≤ l by omega)
    have : l * l = l ^ 2 := by ring
    omega
  have hxs : (List.range ((deg + 1) * (deg + 1))).mapM s.xarr =
      some ((List.range ((deg + 1) * (deg + 1))).map fun k => x ^ (n2ijk k).1) := by
    apply mapM_some
    intro k hk
    obtain ⟨l, q, hq, hl, rfl⟩ := hblock k hk
    rw [hi.xarr l q hq hl (by omega), n2ijk_block l q hq]
  have hys : (List.range ((deg + 1) * (deg + 1))).mapM s.yarr =
      some ((List.range ((deg + 1) * (deg + 1))).map fun k => y ^ (n2ijk k).2.1) := by
    apply mapM_some
    intro k hk
    obtain ⟨l, q, hq, hl, rfl⟩ := hblock k hk
    rw [hi.yarr l q hq hl (by omega), n2ijk_block l q hq]
  have hinds : ∀ k < (deg + 1) ^ 2,
      (k ∈ ((loopLM deg).zipIdx.filter fun e => ((e.1.1 : ℤ) + e.1.2) % 2 ≠ 0).map Prod.snd ↔
        (n2ijk k).2.2 = 1) := by
    intro k hk
    rw [loopLM_zipIdx]
    simp only [List.mem_map, List.mem_filter, List.mem_range]
    obtain ⟨l, q, hq, rfl⟩ := block_of k
    have hs : Nat.sqrt (l ^ 2 + q) = l := sqrt_eq_of_bounds (by omega) (by
      have : (l + 1) ^ 2 = l ^ 2 + (2 * l + 1) := by ring
      omega)
    rw [n2ijk_block l q hq]
    have hlm : ((lmOfIndex (l ^ 2 + q)).1 : ℤ) + (lmOfIndex (l ^ 2 + q)).2 = q := by
      unfold lmOfIndex
      rw [hs]
      push_cast
      ring
    constructor
    · rintro ⟨_, ⟨⟨n, hn, rfl⟩, hp⟩, he⟩
      simp only at he hp
      rw [he, hlm] at hp
      simp only [ne_eq, decide_not, Bool.not_eq_true', decide_eq_false_iff_not] at hp
      simp only
      omega
    · intro h
      simp only at h
      refine ⟨(lmOfIndex (l ^ 2 + q), l ^ 2 + q), ⟨⟨_, hk, rfl⟩, ?_⟩, rfl⟩
      simp only [ne_eq, decide_not, Bool.not_eq_true', decide_eq_false_iff_not]
      rw [hlm]
      omega
  unfold polyBasis
  simp only
  rw [hs]
  simp only [Option.bind_eq_bind, Option.bind_some]
  rw [hxs, hys]
  simp only [Option.bind_some, Option.pure_def, Option.some.injEq]
  apply List.ext_getElem
  · simp [hN]
  · intro k h1 h2
    have hk : k < (deg + 1) ^ 2 := by simpa using h2
    have hz : (n2ijk k).2.2 ≤ 1 := (pIndex_n2ijk.1 k).1
    simp only [List.getElem_mapIdx, List.getElem_zipWith, List.getElem_map, List.getElem_range]
    rw [ptilde_eq_n2ijk]
    by_cases h : (n2ijk k).2.2 = 1
    · rw [if_pos ((hinds k hk).2 h), h, pow_one]
    · rw [if_neg fun hh => h ((hinds k hk).1 hh), show (n2ijk k).2.2 = 0 by omega, pow_zero, mul_one]

/-- C42, as used by the renderer: the scalar product of `poly_basis` with a dense coefficient vector is the
value of the polynomial -/
theorem polyBasis_dot (deg : ℕ) (c : List ℝ) (hc : c.length = (deg + 1) ^ 2) (x y z : ℝ) :
    ∃ p, polyBasis deg x y z = some p ∧ p.length = (deg + 1) ^ 2 ∧
      (List.zipWith (· * ·) p c).sum = denseVal c x y z := by
  refine ⟨_, polyBasis_spec deg x y z, by simp, ?_⟩
  rw [denseVal_eq, hc, ← listSum_range]
  congr 1
  apply List.ext_getElem
  · simp [hc]
  · intro k h1 h2
    have hk : k < (deg + 1) ^ 2 := by simpa using h2
    simp only [List.getElem_zipWith, List.getElem_map, List.getElem_range, basisMono, mono, ptilde_eq_n2ijk]
    rw [List.getD_eq_getElem?_getD, List.getElem?_eq_getElem (hc ▸ hk)]
    simp only [Option.getD_some]
    ring

/-- the first four monomials -/
example (x y z : ℝ) : polyBasis 1 x y z = some [1, x, z, y] := by
  rw [polyBasis_spec]
  have : (1 + 1) ^ 2 = 4 := by norm_num
  rw [this]
  simp only [Option.some.injEq, List.range_succ, List.range_zero, List.nil_append,
    List.map_cons, List.map_nil, List.cons_append, List.cons.injEq, and_true]
  have h1 : Nat.sqrt 1 = 1 := sqrt_eq_of_bounds (by norm_num) (by norm_num)
  have h2 : Nat.sqrt 2 = 1 := sqrt_eq_of_bounds (by norm_num) (by norm_num)
  have h3 : Nat.sqrt 3 = 1 := sqrt_eq_of_bounds (by norm_num) (by norm_num)
  simp [ptilde, h1, h2, h3]

end Jaxoplanet.Starry
