import Verif.Model.YlmMul
import Verif.Proofs.Harmonics
import Verif.Props.Wigner

/-!
# The product of two maps
-/

namespace Jaxoplanet.Starry

open Real Wig Spec

/-- the contribution of a pair of coefficients to the coefficient of `(l3, m1 + m2)` -/
noncomputable def mulCoef (k1 k2 : ℕ × ℤ) (l3 : ℤ) : ℝ :=
  (-1) ^ ((k1.1 : ℤ) + k2.1 + l3 + (k1.2 + k2.2)) * √(2 * (l3 : ℝ) + 1) * wigner3j l3 k1.1 k2.1 (-(k1.2 + k2.2)) k1.2 k2.2 *
    √((2 * (k1.1 : ℝ) + 1) / (4 * π)) * √(2 * (k2.1 : ℝ) + 1)

theorem mem_keysUpTo {L : ℕ} {k : ℕ × ℤ} : k ∈ keysUpTo L ↔ k.1 ≤ L ∧ |k.2| ≤ k.1 := by
  unfold keysUpTo
  rw [List.mem_flatMap]
  obtain ⟨l, m⟩ := k
  have hr : ∀ a b x : ℤ, x ∈ rangeUp a b ↔ a ≤ x ∧ x < b := by
    intro a b x
    unfold rangeUp
    rw [List.mem_map]
    constructor
    · rintro ⟨i, hi, rfl⟩
      rw [List.mem_range] at hi
      omega
    · rintro ⟨h1, h2⟩
      exact ⟨(x - a).toNat, by rw [List.mem_range]; omega, by omega⟩
  constructor
  · rintro ⟨l', hl, hm⟩
    rw [List.mem_map] at hm
    obtain ⟨m', hm', he⟩ := hm
    simp only [Prod.mk.injEq] at he
    obtain ⟨rfl, rfl⟩ := he
    rw [hr] at hm'
    rw [List.mem_range] at hl
    simp only [abs_le]
    omega
  · rintro ⟨h1, h2⟩
    simp only [abs_le] at h1 h2
    refine ⟨l, List.mem_range.2 (by omega), List.mem_map.2 ⟨m, (hr _ _ _).2 (by omega), rfl⟩⟩

theorem mem_rangeUp {a b x : ℤ} : x ∈ rangeUp a b ↔ a ≤ x ∧ x < b := by
  unfold rangeUp
  rw [List.mem_map]
  constructor
  · rintro ⟨i, hi, rfl⟩
    rw [List.mem_range] at hi
    omega
  · rintro ⟨h1, h2⟩
    exact ⟨(x - a).toNat, by rw [List.mem_range]; omega, by omega⟩

theorem nodup_rangeUp (a b : ℤ) : (rangeUp a b).Nodup := by
  unfold rangeUp
  exact List.nodup_range.map fun i j h => by simpa using h

theorem nodup_keysUpTo (L : ℕ) : (keysUpTo L).Nodup := by
  unfold keysUpTo
  rw [List.nodup_flatMap]
  refine ⟨fun l _ => (nodup_rangeUp _ _).map fun x y h => by simpa using h, ?_⟩
  refine List.nodup_range.imp fun {l l'} hne => ?_
  intro k hk hk'
  rw [List.mem_map] at hk hk'
  obtain ⟨_, _, rfl⟩ := hk
  obtain ⟨_, _, h⟩ := hk'
  simp only [Prod.mk.injEq] at h
  exact hne h.1.symm

theorem getD0_foldl {κ ι : Type} [DecidableEq κ] (key : ι → κ) (val : ι → ℝ) (ts : List ι) (d : Dict κ) (k : κ) :
    Dict.getD0 (ts.foldl (fun d e => Dict.accum d (key e) (val e)) d) k =
      Dict.getD0 d k + (ts.map fun e => if key e = k then val e else 0).sum := by
  induction ts generalizing d with
  | nil => simp
  | cons e ts ih =>
    rw [List.foldl_cons, ih, Dict.getD0_accum, List.map_cons, List.sum_cons]
    simp only [eq_comm (a := k)]
    ring

/-- the innermost loop -/
theorem getD0_mulInner (L : ℕ) (k1 k2 : ℕ × ℤ) (hL : k1.1 + k2.1 ≤ L) (v1 v2 : ℝ) (w : Arr)
    (hw : ∀ j1, w j1 = wigner3j j1 k1.1 k2.1 (-(k1.2 + k2.2)) k1.2 k2.2) (fg : Dict (ℕ × ℤ)) (l : ℕ) (m : ℤ) :
    Dict.getD0 (mulInner L k1 k2 v1 v2 w fg) (l, m) =
      Dict.getD0 fg (l, m) + if k1.2 + k2.2 = m then mulCoef k1 k2 l * v1 * v2 else 0 := by
  unfold mulInner
  simp only
  rw [getD0_foldl]
  congr 1
  have hsel : wigner3j l k1.1 k2.1 (-(k1.2 + k2.2)) k1.2 k2.2 ≠ 0 →
      max |k1.2 + k2.2| |(k1.1 : ℤ) - k2.1| ≤ l ∧ (l : ℤ) < min ((k1.1 : ℤ) + k2.1) L + 1 := by
    intro h
    have : Selected l k1.1 k2.1 (-(k1.2 + k2.2)) k1.2 k2.2 := by
      by_contra hc
      exact h (if_neg hc)
    obtain ⟨-, q1, -, -, q4, q5⟩ := this
    rw [abs_neg] at q1
    exact ⟨max_le q1 q4, by omega⟩
  have hpos : ∀ x ∈ rangeUp (max |k1.2 + k2.2| |(k1.1 : ℤ) - k2.1|) (min ((k1.1 : ℤ) + k2.1) L + 1), 0 ≤ x := fun x hx =>
    ((abs_nonneg _).trans (le_max_left _ _)).trans (mem_rangeUp.1 hx).1
  split_ifs with hm
  · by_cases hl : (l : ℤ) ∈ rangeUp (max |k1.2 + k2.2| |(k1.1 : ℤ) - k2.1|) (min ((k1.1 : ℤ) + k2.1) L + 1)
    · rw [List.sum_map_eq_nsmul_single (l : ℤ), List.count_eq_one_of_mem (nodup_rangeUp _ _) hl, one_smul, if_pos (by simp [hm]), hw]
      · unfold mulCoef
        push_cast
        ring
      · intro x hx hxm
        rw [if_neg]
        intro hc
        simp only [Prod.mk.injEq] at hc
        have := hpos x hxm
        omega
    · have hz : wigner3j l k1.1 k2.1 (-(k1.2 + k2.2)) k1.2 k2.2 = 0 := by
        by_contra hc
        exact hl (mem_rangeUp.2 (hsel hc))
      unfold mulCoef
      rw [hz]
      rw [List.sum_eq_zero]
      · ring
      · intro y hy
        rw [List.mem_map] at hy
        obtain ⟨x, hx, rfl⟩ := hy
        rw [if_neg]
        intro hc
        simp only [Prod.mk.injEq] at hc
        have := hpos x hx
        have : x = l := by omega
        subst this
        exact hl hx
  · rw [List.sum_eq_zero]
    intro y hy
    rw [List.mem_map] at hy
    obtain ⟨x, hx, rfl⟩ := hy
    rw [if_neg]
    intro hc
    simp only [Prod.mk.injEq] at hc
    exact hm hc.2

theorem getD0_of_get1 {κ : Type} [DecidableEq κ] (d : Dict κ) (k : κ) : Dict.getD0 d k = (Dict.get1 d k).getD 0 := rfl

/-- **the coefficients that the product has**: for all maps, `f * g` succeeds, and its coefficient of `(l, m)` is the sum
over all pairs of coefficients with `m1 + m2 = m` of the product of the coefficients with ONE 3j symbol -/
theorem ylm_mul_coefficients (f g : Ylm) : ∃ r, Ylm.mul f g = .ok r ∧ ∀ l m, Dict.getD0 r.data (l, m) =
    ((keysUpTo f.deg).map fun k1 => ((keysUpTo g.deg).map fun k2 =>
      if k1.2 + k2.2 = m then mulCoef k1 k2 l * Dict.getD0 f.data k1 * Dict.getD0 g.data k2 else 0).sum).sum := by
  have inner : ∀ (k1 : ℕ × ℤ) (v1 : ℝ), k1.1 ≤ f.deg → ∀ (ks : List (ℕ × ℤ)), (∀ k ∈ ks, k.1 ≤ g.deg) → ∀ fg, ∃ fg', ks.foldlM (mulStep f g k1 v1) fg = .ok fg' ∧
      ∀ l m, Dict.getD0 fg' (l, m) = Dict.getD0 fg (l, m) + (ks.map fun k2 =>
        if k1.2 + k2.2 = m then mulCoef k1 k2 l * v1 * Dict.getD0 g.data k2 else 0).sum := by
    intro k1 v1 hk1 ks
    induction ks with
    | nil => intro _ fg; exact ⟨fg, rfl, fun l m => by simp⟩
    | cons k2 ks ih =>
      intro hks fg
      have ih := ih fun k hk => hks k (List.mem_cons_of_mem _ hk)
      rw [List.foldlM_cons]
      cases hg : Dict.get1 g.data k2 with
      | none =>
        obtain ⟨fg', h1, h2⟩ := ih fg
        refine ⟨fg', by simp only [mulStep, hg, bind, Except.bind]; exact h1, fun l m => ?_⟩
        rw [h2, List.map_cons, List.sum_cons, getD0_of_get1 g.data k2, hg]
        simp
      | some v2 =>
        obtain ⟨w, hw, hw'⟩ := calculate_eq k1.1 k2.1 k1.2 k2.2
        obtain ⟨fg', h1, h2⟩ := ih (mulInner (f.deg + g.deg) k1 k2 v1 v2 w fg)
        refine ⟨fg', by simp only [mulStep, hg, hw, bind, Except.bind]; exact h1, fun l m => ?_⟩
        rw [h2, List.map_cons, List.sum_cons, getD0_of_get1 g.data k2, hg,
          getD0_mulInner _ _ _ (by have := hks k2 List.mem_cons_self; omega) _ _ _ hw', Option.getD_some]
        ring
  have outer : ∀ (ks : List (ℕ × ℤ)), (∀ k ∈ ks, k.1 ≤ f.deg) → ∀ fg, ∃ fg', ks.foldlM (mulRow f g) fg = .ok fg' ∧
      ∀ l m, Dict.getD0 fg' (l, m) = Dict.getD0 fg (l, m) + (ks.map fun k1 => ((keysUpTo g.deg).map fun k2 =>
        if k1.2 + k2.2 = m then mulCoef k1 k2 l * Dict.getD0 f.data k1 * Dict.getD0 g.data k2 else 0).sum).sum := by
    intro ks
    induction ks with
    | nil => intro _ fg; exact ⟨fg, rfl, fun l m => by simp⟩
    | cons k1 ks ih =>
      intro hks fg
      have ih := ih fun k hk => hks k (List.mem_cons_of_mem _ hk)
      rw [List.foldlM_cons]
      cases hf : Dict.get1 f.data k1 with
      | none =>
        obtain ⟨fg', h1, h2⟩ := ih fg
        refine ⟨fg', by simp only [mulRow, hf, bind, Except.bind]; exact h1, fun l m => ?_⟩
        rw [h2, List.map_cons, List.sum_cons, getD0_of_get1 f.data k1, hf]
        simp
      | some v1 =>
        obtain ⟨fg1, e1, e2⟩ := inner k1 v1 (hks k1 List.mem_cons_self) (keysUpTo g.deg) (fun k hk => (mem_keysUpTo.1 hk).1) fg
        obtain ⟨fg', h1, h2⟩ := ih fg1
        refine ⟨fg', ?_, fun l m => ?_⟩
        · simp only [mulRow, hf, e1, bind, Except.bind]
          exact h1
        · rw [h2, e2, List.map_cons, List.sum_cons, getD0_of_get1 f.data k1, hf, Option.getD_some]
          ring
  obtain ⟨fg, h1, h2⟩ := outer (keysUpTo f.deg) (fun k hk => (mem_keysUpTo.1 hk).1) []
  refine ⟨⟨fg⟩, ?_, fun l m => ?_⟩
  · unfold Ylm.mul
    rw [h1]
    rfl
  · rw [h2]
    simp [Dict.getD0, Dict.get1]

theorem sum_map_single {ι : Type} {L : List ι} (hn : L.Nodup) {a : ι} (ha : a ∈ L) {v : ι → ℝ}
    (hv : ∀ x ∈ L, x ≠ a → v x = 0) : (L.map v).sum = v a := by
  classical
  have h : ∀ M : List ι, M.Nodup → (∀ x ∈ M, x ≠ a → v x = 0) → (M.map v).sum = if a ∈ M then v a else 0 := by
    intro M
    induction M with
    | nil => intro _ _; simp
    | cons b M ih =>
      intro hM hv
      rw [List.nodup_cons] at hM
      rw [List.map_cons, List.sum_cons, ih hM.2 fun x hx => hv x (List.mem_cons_of_mem _ hx)]
      by_cases hb : b = a
      · subst hb
        rw [if_neg hM.1, if_pos List.mem_cons_self, add_zero]
      · rw [hv b List.mem_cons_self hb, zero_add]
        simp only [List.mem_cons, Ne.symm hb, false_or]
  rw [h L hn hv, if_pos ha]

theorem le_foldr_max {l : ℕ} {L : List ℕ} (h : l ∈ L) : l ≤ L.foldr max 0 := by
  induction L with
  | nil => cases h
  | cons b L ih =>
    rw [List.foldr_cons]
    rcases List.mem_cons.1 h with rfl | h
    · exact le_max_left _ _
    · exact (ih h).trans (le_max_right _ _)

/-- the symbol with a zero -/
theorem wigner3j_with_zero (l m : ℤ) (h : |m| ≤ l) : wigner3j l l 0 (-(m + 0)) m 0 = (-1) ^ (l + m) / √(2 * (l : ℝ) + 1) := by
  have hn := w3_norm (j2 := l) (j3 := 0) (m2 := m) (m3 := 0) h (by simp)
  have hs := w3_top_sign (j2 := l) (j3 := 0) (m2 := m) (m3 := 0) h (by simp)
  have hl : 0 ≤ l := (abs_nonneg m).trans h
  have hj : jMin l 0 (m + 0) = l := by
    unfold jMin
    rw [sub_zero, add_zero, abs_of_nonneg hl, max_eq_left h]
  rw [hj, add_zero, Finset.Icc_self, Finset.sum_singleton] at hn
  rw [sub_zero, add_zero, add_zero] at hs
  change w3 l 0 m 0 l = _
  have hr : (0 : ℝ) < 2 * (l : ℝ) + 1 := by
    have : (0 : ℝ) ≤ l := by exact_mod_cast hl
    linarith
  have hq := Real.sqrt_pos.2 hr
  have h1 := Wig.sign_sq (l + m)
  have h2 : ((-1) ^ (l + m) * w3 l 0 m 0 l) ^ 2 = (1 / √(2 * (l : ℝ) + 1)) ^ 2 := by
    rw [div_pow, Real.sq_sqrt hr.le, one_pow, eq_div_iff hr.ne']
    linear_combination (2 * (l : ℝ) + 1) * w3 l 0 m 0 l ^ 2 * h1 + hn
  have h3 := (sq_eq_sq₀ hs.le (by positivity)).1 h2
  rw [div_eq_mul_one_div, ← h3]
  linear_combination -w3 l 0 m 0 l * h1

/-- **multiplication with a constant map is not a scaling** (finding F10): the coefficient of `(l, m)` is multiplied by
`(-1)^l √(2l + 1) c / √(4π)`, which depends on `l`, while the product with a constant multiplies every coefficient by
the same number -/
theorem ylm_mul_constant (f : Ylm) (c : ℝ) (hf : ∀ k ∈ Dict.keys f.data, |k.2| ≤ k.1) :
    ∃ r, Ylm.mul f ⟨[((0, 0), c)]⟩ = .ok r ∧
      ∀ l m, Dict.getD0 r.data (l, m) = (-1) ^ l * √(2 * (l : ℝ) + 1) * (c / √(4 * π)) * Dict.getD0 f.data (l, m) := by
  obtain ⟨r, hr, h⟩ := ylm_mul_coefficients f ⟨[((0, 0), c)]⟩
  refine ⟨r, hr, fun l m => ?_⟩
  have hk : keysUpTo (Ylm.deg ⟨[((0, 0), c)]⟩) = [(0, 0)] := rfl
  have hc : Dict.getD0 [(((0 : ℕ), (0 : ℤ)), c)] (0, 0) = c := by simp [Dict.getD0_cons]
  rw [h, hk]
  simp only [List.map_cons, List.map_nil, List.sum_cons, List.sum_nil, add_zero, hc]
  have hterm : ∀ k1 ∈ keysUpTo f.deg, (l, m) ≠ k1 → (if k1.2 = m then mulCoef k1 (0, 0) l * Dict.getD0 f.data k1 * c else 0) = 0 := by
    intro k1 _ hne
    split_ifs with hm
    · have hz : wigner3j l k1.1 0 (-(k1.2 + 0)) k1.2 0 = 0 := by
        refine if_neg ?_
        rintro ⟨-, -, -, -, q4, q5⟩
        rw [sub_zero, abs_le] at q4
        apply hne
        obtain ⟨a, b⟩ := k1
        simp only at hm q4 q5
        simp only [Prod.mk.injEq]
        omega
      unfold mulCoef
      simp only [Nat.cast_zero]
      rw [hz]
      ring
    · rfl
  by_cases hl : (l, m) ∈ keysUpTo f.deg
  · rw [sum_map_single (nodup_keysUpTo _) hl (fun k1 hk1 hm1 => hterm k1 hk1 (Ne.symm hm1)), if_pos rfl]
    have hm := (mem_keysUpTo.1 hl).2
    unfold mulCoef
    simp only [Nat.cast_zero, mul_zero, zero_add, Real.sqrt_one, mul_one]
    rw [wigner3j_with_zero l m hm]
    have hr : (0 : ℝ) < 2 * (l : ℝ) + 1 := by positivity
    have hq := (Real.sqrt_pos.2 hr).ne'
    have hs : ((-1 : ℝ)) ^ ((l : ℤ) + 0 + l + (m + 0)) * (-1) ^ ((l : ℤ) + m) = (-1) ^ l := by
      rw [← zpow_add₀ (by norm_num), show (l : ℤ) + 0 + l + (m + 0) + (l + m) = 2 * (l + m) + l by ring, zpow_add₀ (by norm_num), zpow_mul, zpow_natCast]
      norm_num
    rw [Real.sqrt_div hr.le]
    have h4 : √(4 * π) ≠ 0 := (Real.sqrt_pos.2 (by positivity)).ne'
    push_cast
    field_simp
    linear_combination (c * Dict.getD0 f.data (l, m)) * hs
  · have hz : Dict.getD0 f.data (l, m) = 0 := by
      by_contra hc
      apply hl
      have hmem : (l, m) ∈ Dict.keys f.data := by
        by_contra hn
        exact hc (Dict.getD0_of_notMem hn)
      refine mem_keysUpTo.2 ⟨?_, hf _ hmem⟩
      simp only [Dict.keys, List.mem_map] at hmem
      obtain ⟨e, he, hk⟩ := hmem
      exact le_foldr_max (List.mem_map.2 ⟨e, he, by rw [hk]⟩)
    rw [hz, mul_zero]
    refine List.sum_eq_zero fun y hy => ?_
    rw [List.mem_map] at hy
    obtain ⟨k1, hk1, rfl⟩ := hy
    exact hterm k1 hk1 fun hc => hl (hc ▸ hk1)

/-- **the product is not the product of the maps** (finding F10): whatever intensity a constant map has, the product with
it would multiply all coefficients by one and the same number; the product the code computes does not do so, for any map
with coefficients in the degrees 0 and 1 and for any constant map that is not zero -/
theorem ylm_mul_not_scaling (f : Ylm) (c : ℝ) (hf : ∀ k ∈ Dict.keys f.data, |k.2| ≤ k.1) (hc : c ≠ 0)
    (h0 : Dict.getD0 f.data (0, 0) ≠ 0) (m : ℤ) (h1 : Dict.getD0 f.data (1, m) ≠ 0) :
    ¬ ∃ (k : ℝ) (r : Ylm), Ylm.mul f ⟨[((0, 0), c)]⟩ = .ok r ∧ ∀ l m, Dict.getD0 r.data (l, m) = k * Dict.getD0 f.data (l, m) := by
  rintro ⟨k, r, hr, hk⟩
  obtain ⟨r', hr', h⟩ := ylm_mul_constant f c hf
  obtain rfl : r = r' := by
    rw [hr] at hr'
    exact Except.ok.inj hr'
  have h4 : 0 < √(4 * π) := Real.sqrt_pos.2 (by positivity)
  have e0 := (hk 0 0).symm.trans (h 0 0)
  have e1 := (hk 1 m).symm.trans (h 1 m)
  have e0 := mul_right_cancel₀ h0 e0
  have e1 := mul_right_cancel₀ h1 e1
  norm_num at e0 e1
  have h3 : 0 < √3 := Real.sqrt_pos.2 (by norm_num)
  have hd : c / √(4 * π) ≠ 0 := div_ne_zero hc h4.ne'
  norm_num at hd
  rw [e0] at e1
  have : (c / (2 * √π)) * (1 + √3) = 0 := by
    linear_combination e1
  rcases mul_eq_zero.1 this with h | h
  · rcases div_eq_zero_iff.1 h with h | h
    · exact hc h
    · have : 0 < 2 * √π := by positivity
      exact this.ne' h
  · linarith

/-- a map and a constant that meet the hypotheses -/
example : ¬ ∃ (k : ℝ) (r : Ylm), Ylm.mul ⟨[((0, 0), 1), ((1, 0), 1)]⟩ ⟨[((0, 0), 2)]⟩ = .ok r ∧
    ∀ l m, Dict.getD0 r.data (l, m) = k * Dict.getD0 (κ := ℕ × ℤ) [((0, 0), 1), ((1, 0), 1)] (l, m) :=
  ylm_mul_not_scaling ⟨[((0, 0), 1), ((1, 0), 1)]⟩ 2 (by simp [Dict.keys]) (by norm_num) (by norm_num [Dict.getD0_cons]) 0
    (by norm_num [Dict.getD0_cons])

/-- `Y₁₀` times a positive constant comes out negative -/
theorem ylm_mul_wrong : ∃ r, Ylm.mul ⟨[((1, 0), 1)]⟩ ⟨[((0, 0), √(4 * π))]⟩ = .ok r ∧ Dict.getD0 r.data (1, 0) = -√3 := by
  obtain ⟨r, h1, h2⟩ := ylm_mul_constant ⟨[((1, 0), 1)]⟩ (√(4 * π)) (by simp [Dict.keys])
  refine ⟨r, h1, ?_⟩
  have h4 : √(4 * π) ≠ 0 := (Real.sqrt_pos.2 (by positivity)).ne'
  rw [h2, Dict.getD0_cons, div_self h4]
  norm_num

end Jaxoplanet.Starry
