import Verif.Model.Rotation
import Verif.Proofs.Basis

/-!
# C47: reshaping and complex-to-real conversion of coefficient arrays
-/

namespace Jaxoplanet.Starry

open Real

/-- folding assignments into a two-dimensional array -/
theorem foldl_set2 {ι : Type} (es : List ι) (P : ι → ℕ → ℕ → Prop) [∀ e r c, Decidable (P e r c)] (val : ι → ℂ)
    (A : ℕ → ℕ → ℂ) (r c : ℕ) :
    (∀ e ∈ es, ¬ P e r c) → (es.foldl (fun A e => fun r c => if P e r c then val e else A r c) A) r c = A r c := by
  induction es generalizing A with
  | nil => simp
  | cons e es ih =>
    intro h
    rw [List.foldl_cons, ih _ (fun e he => h e (by simp [he])), if_neg (h e (by simp))]

theorem foldl_set2_mem {ι : Type} (es : List ι) (P : ι → ℕ → ℕ → Prop) [∀ e r c, Decidable (P e r c)] (val : ι → ℂ)
    (A : ℕ → ℕ → ℂ) (r c : ℕ) (e : ι) (he : e ∈ es) (hP : P e r c) (huniq : ∀ f ∈ es, P f r c → val f = val e) :
    (es.foldl (fun A e => fun r c => if P e r c then val e else A r c) A) r c = val e := by
  induction es using List.reverseRecOn with
  | nil => simp at he
  | append_singleton es a ih =>
    rw [List.foldl_append]
    simp only [List.foldl_cons, List.foldl_nil]
    by_cases ha : P a r c
    · rw [if_pos ha]; exact huniq a (by simp) ha
    · rw [if_neg ha]
      have : e ∈ es := by
        rcases List.mem_append.1 he with h | h
        · exact h
        · rw [List.mem_singleton] at h; subst h; exact absurd hP ha
      exact ih this fun f hf => huniq f (by simp [hf])

theorem foldl_setC {ι : Type} (es : List ι) (idx : ι → ℕ) (val : ι → ℂ) (L : List ℂ)
    (hinj : ∀ a ∈ es, ∀ b ∈ es, idx a = idx b → val a = val b) (hlt : ∀ e ∈ es, idx e < L.length) :
    (es.foldl (fun r e => r.set (idx e) (val e)) L).length = L.length ∧
    ∀ e ∈ es, (es.foldl (fun r e => r.set (idx e) (val e)) L).getD (idx e) 0 = val e := by
  induction es using List.reverseRecOn with
  | nil => simp
  | append_singleton es a ih =>
    have ih' := ih (fun x hx y hy => hinj x (by simp [hx]) y (by simp [hy])) (fun e he => hlt e (by simp [he]))
    rw [List.foldl_append]
    simp only [List.foldl_cons, List.foldl_nil, List.length_set]
    refine ⟨ih'.1, fun e he => ?_⟩
    rw [List.getD_eq_getElem?_getD, List.getElem?_set]
    have h1 := hlt a (by simp)
    by_cases h : idx a = idx e
    · rw [if_pos h, if_pos (by rw [ih'.1]; exact h1)]
      simp only [Option.getD_some]
      exact hinj a (by simp) e he h
    · rw [if_neg h]
      have he' : e ∈ es := by
        rcases List.mem_append.1 he with h3 | h3
        · exact h3
        · rw [List.mem_singleton] at h3; subst h3; exact absurd rfl h
      have := ih'.2 e he'
      rw [List.getD_eq_getElem?_getD] at this
      exact this

theorem mem_loop_zipIdx {ydeg : ℕ} {e : (ℕ × ℤ) × ℕ} :
    e ∈ (loopLM ydeg).zipIdx ↔ e.2 < (ydeg + 1) ^ 2 ∧ e.1 = lmOfIndex e.2 := by
  rw [loopLM_zipIdx, List.mem_map]
  constructor
  · rintro ⟨n, hn, rfl⟩; exact ⟨List.mem_range.1 hn, rfl⟩
  · rintro ⟨h1, h2⟩; exact ⟨e.2, List.mem_range.2 h1, by rw [← h2]⟩

theorem lmOfIndex_inj {a b : ℕ} (h : lmOfIndex a = lmOfIndex b) : a = b := by
  unfold lmOfIndex at h
  rw [Prod.mk.injEq] at h
  obtain ⟨h1, h2⟩ := h
  rw [h1] at h2
  omega

theorem lmOfIndex_bounds (n : ℕ) : -((lmOfIndex n).1 : ℤ) ≤ (lmOfIndex n).2 ∧ (lmOfIndex n).2 ≤ (lmOfIndex n).1 := by
  have hb := sqrt_bounds n
  unfold lmOfIndex
  simp only
  obtain ⟨q, hq⟩ : ∃ q : ℕ, n = (Nat.sqrt n) ^ 2 + q := ⟨n - Nat.sqrt n ^ 2, by omega⟩
  have h2 : q ≤ 2 * Nat.sqrt n := by omega
  have : (n : ℤ) - (Nat.sqrt n : ℤ) * ((Nat.sqrt n : ℤ) + 1) = (q : ℤ) - Nat.sqrt n := by
    have h3 : (n : ℤ) = (Nat.sqrt n : ℤ) ^ 2 + q := by exact_mod_cast hq
    linear_combination h3
  rw [this]
  omega

theorem lmOfIndex_le {n ydeg : ℕ} (h : n < (ydeg + 1) ^ 2) : (lmOfIndex n).1 ≤ ydeg := by
  unfold lmOfIndex
  simp only
  have : Nat.sqrt n < ydeg + 1 := by rw [Nat.sqrt_lt]; nlinarith
  omega

/-- entry `[l, m + ydeg]` of the two-dimensional array is the coefficient `l² + l + m` -/
theorem y1dTo2d_entry (ydeg : ℕ) (v : List ℂ) (n : ℕ) (hn : n < (ydeg + 1) ^ 2) :
    y1dTo2d ydeg v (lmOfIndex n).1 ((lmOfIndex n).2 + (ydeg : ℤ)).toNat = v.getD n 0 := by
  unfold y1dTo2d
  have hb := lmOfIndex_bounds n
  have hl := lmOfIndex_le hn
  have := foldl_set2_mem (loopLM ydeg).zipIdx (fun e r c => r = e.1.1 ∧ (c : ℤ) = e.1.2 + ydeg) (fun e => v.getD e.2 0)
    (fun _ _ => 0) (lmOfIndex n).1 ((lmOfIndex n).2 + (ydeg : ℤ)).toNat (lmOfIndex n, n)
    (mem_loop_zipIdx.2 ⟨hn, rfl⟩) (by
      refine ⟨rfl, ?_⟩
      simp only
      omega) (by
      intro f hf hP
      rw [mem_loop_zipIdx] at hf
      have : f.2 = n := by
        apply lmOfIndex_inj
        rw [← hf.2]
        ext
        · exact hP.1.symm
        · have := hP.2
          omega
      rw [this])
  exact this

theorem y2dTo1d_entry (ydeg : ℕ) (A : ℕ → ℕ → ℂ) :
    (y2dTo1d ydeg A).length = (ydeg + 1) ^ 2 ∧
    ∀ n, n < (ydeg + 1) ^ 2 → (y2dTo1d ydeg A).getD n 0 = A (lmOfIndex n).1 ((lmOfIndex n).2 + (ydeg : ℤ)).toNat := by
  have key := foldl_setC (loopLM ydeg).zipIdx (fun e => e.2) (fun e => A e.1.1 (e.1.2 + (ydeg : ℤ)).toNat)
    (List.replicate ((ydeg + 1) ^ 2) 0) (by
      intro a ha b hb h
      rw [mem_loop_zipIdx] at ha hb
      rw [ha.2, hb.2, h]) (by
      intro e he
      rw [mem_loop_zipIdx] at he
      simpa using he.1)
  refine ⟨by unfold y2dTo1d; rw [key.1]; simp, fun n hn => ?_⟩
  exact key.2 (lmOfIndex n, n) (mem_loop_zipIdx.2 ⟨hn, rfl⟩)

/-- C47: `y2d_to_1d` undoes `y1d_to_2d` -/
theorem y2d_y1d (ydeg : ℕ) (v : List ℂ) (hv : v.length = (ydeg + 1) ^ 2) : y2dTo1d ydeg (y1dTo2d ydeg v) = v := by
  obtain ⟨h1, h2⟩ := y2dTo1d_entry ydeg (y1dTo2d ydeg v)
  apply List.ext_getElem (by rw [h1, hv])
  intro n g1 g2
  have hn : n < (ydeg + 1) ^ 2 := hv ▸ g2
  have := h2 n hn
  rw [y1dTo2d_entry ydeg v n hn, List.getD_eq_getElem?_getD, List.getD_eq_getElem?_getD,
    List.getElem?_eq_getElem g1, List.getElem?_eq_getElem g2] at this
  simpa using this

/-- C47: `y1d_to_2d` undoes `y2d_to_1d` on the arrays with `ydeg + 1` rows and `2 ydeg + 1` columns that vanish
where `|m| > l`, and always produces such an array -/
theorem y1d_y2d (ydeg : ℕ) (A : ℕ → ℕ → ℂ) (l c : ℕ) (hl : l ≤ ydeg) :
    y1dTo2d ydeg (y2dTo1d ydeg A) l c = if ydeg ≤ c + l ∧ c ≤ ydeg + l then A l c else 0 := by
  by_cases h : ydeg ≤ c + l ∧ c ≤ ydeg + l
  · rw [if_pos h]
    obtain ⟨n, hn⟩ : ∃ n : ℕ, lmOfIndex n = (l, (c : ℤ) - ydeg) := by
      refine ⟨l ^ 2 + (c + l - ydeg), ?_⟩
      have hs : Nat.sqrt (l ^ 2 + (c + l - ydeg)) = l := sqrt_eq_of_bounds (by omega) (by
        have : (l + 1) ^ 2 = l ^ 2 + (2 * l + 1) := by ring
        omega)
      unfold lmOfIndex
      rw [hs]
      ext
      · rfl
      · simp only
        push_cast [Nat.cast_sub h.1]
        ring
    have hlt : n < (ydeg + 1) ^ 2 := by
      have hb := sqrt_bounds n
      have : Nat.sqrt n = l := congrArg Prod.fst hn
      rw [this] at hb
      have : (l + 1) ^ 2 ≤ (ydeg + 1) ^ 2 := Nat.pow_le_pow_left (by omega) 2
      have h3 : (l + 1) ^ 2 = l ^ 2 + (2 * l + 1) := by ring
      omega
    have h1 := y1dTo2d_entry ydeg (y2dTo1d ydeg A) n hlt
    rw [(y2dTo1d_entry ydeg A).2 n hlt, hn] at h1
    simp only [show ((c : ℤ) - ydeg + ydeg).toNat = c by omega] at h1
    exact h1
  · rw [if_neg h]
    unfold y1dTo2d
    have := foldl_set2 (loopLM ydeg).zipIdx (fun e r c => r = e.1.1 ∧ (c : ℤ) = e.1.2 + ydeg)
      (fun e => (y2dTo1d ydeg A).getD e.2 0) (fun _ _ => 0) l c (by
        rintro e he ⟨h1, h2⟩
        rw [mem_loop_zipIdx] at he
        have hb := lmOfIndex_bounds e.2
        rw [← he.2] at hb
        omega)
    exact this

theorem zipWith_map_range {α β γ : Type} (n : ℕ) (f : ℕ → α) (g : ℕ → β) (op : α → β → γ) :
    List.zipWith op ((List.range n).map f) ((List.range n).map g) = (List.range n).map fun i => op (f i) (g i) := by
  apply List.ext_getElem
  · simp
  · intro i h1 h2; simp

theorem map_range_reverse {α : Type} (n : ℕ) (f : ℕ → α) :
    ((List.range n).map f).reverse = (List.range n).map fun i => f (n - 1 - i) := by
  apply List.ext_getElem
  · simp
  · intro i h1 h2; simp

theorem map_if_getD (n : ℕ) (f : ℕ → ℂ) (c : ℕ) : ((List.range n).map f).getD c 0 = if c < n then f c else 0 := by
  rw [List.getD_eq_getElem?_getD, List.getElem?_map]
  by_cases h : c < n
  · rw [if_pos h, List.getElem?_range h]; rfl
  · rw [if_neg h, List.getElem?_eq_none (by simpa using h)]; rfl

/-- rows of `C(l)` -/
theorem Cmat_eq (l : ℕ) : Cmat l =
    ((List.range l).map fun r : ℕ => (((List.range l).map fun c : ℕ => Complex.I * (if c = r then (1 : ℂ) else 0)) ++ [0] ++
        ((List.range l).map fun c : ℕ => -1 * Complex.I * (if c = l - 1 - r then (-1 : ℂ) ^ (l - 1 - r + 1) else 0))).map
          fun v => v / ((√2 : ℝ) : ℂ)) ++
    [((List.replicate (2 * l + 1) (0 : ℂ)).set l ((√2 : ℝ) : ℂ)).map fun v => v / ((√2 : ℝ) : ℂ)] ++
    ((List.range l).map fun r : ℕ => (((List.range l).map fun c : ℕ => (if c = l - 1 - r then (1 : ℂ) else 0)) ++ [0] ++
        ((List.range l).map fun c : ℕ => (if c = r then (-1 : ℂ) ^ (r + 1) else 0))).map
          fun v => v / ((√2 : ℝ) : ℂ)) := by
  unfold Cmat
  simp only [List.map_map, zipWith_map_range, map_range_reverse, List.map_append, List.map_cons, List.map_nil,
    Function.comp_def]
  congr 1
  · congr 1
    apply List.map_congr_left
    intro r hr
    rw [List.mem_range] at hr
    congr 1
    congr 1
    apply List.map_congr_left
    intro c hc
    rw [List.mem_range] at hc
    have : (l - 1 - c = l - 1 - r) ↔ c = r := by omega
    simp only [this]
  · apply List.map_congr_left
    intro r hr
    rw [List.mem_range] at hr
    congr 1
    congr 1
    apply List.map_congr_left
    intro c hc
    rw [List.mem_range] at hc
    have : (l - 1 - c = r) ↔ c = l - 1 - r := by omega
    simp only [this]

theorem Cmat_shape (l : ℕ) : (Cmat l).length = 2 * l + 1 ∧ ∀ row ∈ Cmat l, row.length = 2 * l + 1 := by
  rw [Cmat_eq]
  constructor
  · simp; ring
  · intro row hrow
    simp only [List.mem_append, List.mem_map, List.mem_range, List.mem_singleton] at hrow
    rcases hrow with (⟨r, _, rfl⟩ | rfl) | ⟨r, _, rfl⟩
    · simp; ring
    · simp
    · simp; ring

/-- the entries of `C(l)`: row `m`, column `μ` (stored with the offset `l`) -/
theorem Cmat_entry (l : ℕ) (r c : ℕ) (hr : r ≤ 2 * l) (hc : c ≤ 2 * l) :
    ((Cmat l).getD r []).getD c 0 =
      (if r < l then (if c = r then Complex.I else if c = 2 * l - r then -Complex.I * (-1) ^ (l - r) else 0)
       else if r = l then (if c = l then ((√2 : ℝ) : ℂ) else 0)
       else (if c = 2 * l - r then 1 else if c = r then (-1) ^ (r - l) else 0)) / ((√2 : ℝ) : ℂ) := by
  have gm : ∀ (L : List ℂ), (L.map fun v => v / ((√2 : ℝ) : ℂ)).getD c 0 = L.getD c 0 / ((√2 : ℝ) : ℂ) := by
    intro L
    rw [List.getD_eq_getElem?_getD, List.getD_eq_getElem?_getD, List.getElem?_map]
    cases L[c]? <;> simp
  have ga : ∀ (f g : ℕ → ℂ), (((List.range l).map f) ++ [0] ++ ((List.range l).map g)).getD c 0 =
      if c < l then f c else if c = l then 0 else g (c - l - 1) := by
    intro f g
    rw [List.getD_eq_getElem?_getD]
    rcases Nat.lt_trichotomy c l with h | h | h
    · rw [List.append_assoc, List.getElem?_append_left (by simpa using h), if_pos h]
      simp [h]
    · subst h
      rw [List.append_assoc, List.getElem?_append_right (by simp), if_neg (by omega), if_pos rfl]
      simp
    · rw [List.getElem?_append_right (by simp; omega), if_neg (by omega), if_neg (by omega)]
      simp only [List.length_append, List.length_map, List.length_range, List.length_cons, List.length_nil]
      rw [List.getElem?_map, List.getElem?_range (by omega)]
      simp [Nat.sub_sub]
  rw [Cmat_eq]
  rcases Nat.lt_trichotomy r l with h | h | h
  · rw [if_pos h, List.getD_eq_getElem?_getD (l := _ ++ _), List.append_assoc, List.getElem?_append_left (by simpa using h)]
    simp only [List.getElem?_map, List.getElem?_range h, Option.map_some, Option.getD_some]
    rw [gm, ga]
    congr 1
    rcases Nat.lt_trichotomy c l with h2 | h2 | h2
    · rw [if_pos h2]
      by_cases h3 : c = r
      · simp [h3]
      · rw [if_neg h3, if_neg h3, if_neg (by omega)]; simp
    · rw [if_neg (by omega), if_pos h2, if_neg (by omega), if_neg (by omega)]
    · rw [if_neg (by omega), if_neg (by omega), if_neg (show ¬ c = r by omega)]
      by_cases h3 : c = 2 * l - r
      · rw [if_pos h3, if_pos (show c - l - 1 = l - 1 - r by omega), show l - 1 - r + 1 = l - r by omega]; ring
      · rw [if_neg h3, if_neg (by omega)]; simp
  · subst h
    rw [if_neg (by omega), if_pos rfl, List.getD_eq_getElem?_getD (l := _ ++ _), List.append_assoc,
      List.getElem?_append_right (by simp)]
    simp only [List.length_map, List.length_range, Nat.sub_self, List.cons_append, List.nil_append, List.getElem?_cons_zero,
      Option.getD_some]
    rw [gm]
    congr 1
    rw [List.getD_eq_getElem?_getD, List.getElem?_set]
    by_cases h3 : c = r
    · subst h3; simp; rw [if_pos hc]; rfl
    · rw [if_neg h3, if_neg (by omega)]
      simp [show c < 2 * r + 1 by omega]
  · rw [if_neg (by omega), if_neg (by omega), List.getD_eq_getElem?_getD (l := _ ++ _),
      List.getElem?_append_right (by simp; omega)]
    simp only [List.length_append, List.length_map, List.length_range, List.length_cons, List.length_nil]
    simp only [List.getElem?_map, List.getElem?_range (show r - (l + (0 + 1)) < l by omega), Option.map_some, Option.getD_some]
    rw [gm, ga]
    congr 1
    rcases Nat.lt_trichotomy c l with h2 | h2 | h2
    · rw [if_pos h2]
      by_cases h3 : c = 2 * l - r
      · rw [if_pos h3, if_pos (by omega)]
      · rw [if_neg h3, if_neg (by omega), if_neg (by omega)]
    · rw [if_neg (by omega), if_pos h2, if_neg (by omega), if_neg (by omega)]
    · rw [if_neg (by omega), if_neg (by omega), if_neg (show ¬ c = 2 * l - r by omega)]
      by_cases h3 : c = r
      · rw [if_pos h3, if_pos (show c - l - 1 = r - (l + (0 + 1)) by omega), show r - (l + (0 + 1)) + 1 = r - l by omega]
      · rw [if_neg h3, if_neg (by omega)]

/-- a row of `C(l)` has at most the entries `r` and `2l - r` -/
theorem Cmat_pair_sum (l r : ℕ) (hr : r ≤ 2 * l) (f : ℕ → ℂ) (hf : ∀ c, c ≠ r → c ≠ 2 * l - r → f c = 0) :
    ∑ c ∈ Finset.range (2 * l + 1), f c = if r = l then f r else f r + f (2 * l - r) := by
  by_cases h : r = l
  · rw [if_pos h]
    exact Finset.sum_eq_single r (fun c _ hc => hf c hc (by omega)) (fun h => absurd (Finset.mem_range.2 (by omega)) h)
  · rw [if_neg h]
    rw [← Finset.sum_pair (show r ≠ 2 * l - r by omega)]
    symm
    apply Finset.sum_subset
    · intro x hx
      simp only [Finset.mem_insert, Finset.mem_singleton] at hx
      exact Finset.mem_range.2 (by omega)
    · intro x _ hx
      simp only [Finset.mem_insert, Finset.mem_singleton, not_or] at hx
      exact hf x hx.1 hx.2

/-- C47: `C(l)` is unitary, for every degree -/
theorem Cmat_unitary (l : ℕ) (r s : ℕ) (hr : r ≤ 2 * l) (hs : s ≤ 2 * l) :
    ∑ c ∈ Finset.range (2 * l + 1),
      ((Cmat l).getD r []).getD c 0 * (starRingEnd ℂ) (((Cmat l).getD s []).getD c 0) = if r = s then 1 else 0 := by
  have hsq : (((√2 : ℝ) : ℂ)) ^ 2 = 2 := by
    rw [← Complex.ofReal_pow, sq_sqrt (by norm_num)]; norm_num
  have hne : (((√2 : ℝ) : ℂ)) ≠ 0 := by
    intro h; rw [h] at hsq; norm_num at hsq
  have hsgn : ∀ n : ℕ, ((-1 : ℂ) ^ n) * (-1) ^ n = 1 := by intro n; rw [← mul_pow]; norm_num
  rw [Cmat_pair_sum l r hr]
  · rw [Cmat_entry l r r hr hr, Cmat_entry l s r hs hr, Cmat_entry l r (2 * l - r) hr (by omega),
      Cmat_entry l s (2 * l - r) hs (by omega)]
    by_cases hrs : r = s
    · subst hrs
      rw [if_pos rfl]
      rcases Nat.lt_trichotomy r l with h | h | h
      · rw [if_neg (by omega)]
        simp only [h, if_true, if_neg (show ¬ (2 * l - r = r) by omega), map_div₀, map_mul, map_neg, map_pow, map_one,
          Complex.conj_I, Complex.conj_ofReal]
        field_simp
        rw [hsq]
        have := hsgn (l - r)
        linear_combination (-1 - (-1) ^ (l - r) * (-1) ^ (l - r)) * Complex.I_sq + this
      · subst h
        simp only [lt_irrefl, if_false, if_true, map_div₀, Complex.conj_ofReal]
        field_simp
      · rw [if_neg (by omega)]
        simp only [show ¬ (r < l) by omega, show ¬ (r = l) by omega, if_false, if_true,
          if_neg (show ¬ (r = 2 * l - r) by omega), map_div₀, map_pow, map_neg, map_one, Complex.conj_ofReal]
        field_simp
        rw [hsq]
        linear_combination hsgn (r - l)
    · rw [if_neg hrs]
      rcases Nat.lt_trichotomy r l with h | h | h
      · by_cases h2 : s = 2 * l - r
        · subst h2
          rw [if_neg (by omega)]
          simp only [h, if_true, if_neg (show ¬ (2 * l - r = r) by omega), if_neg hrs, show ¬ (2 * l - r < l) by omega,
            show ¬ (2 * l - r = l) by omega, if_false, show 2 * l - (2 * l - r) = r by omega,
            show 2 * l - r - l = l - r by omega, map_div₀, map_pow, map_neg, map_one, Complex.conj_ofReal]
          field_simp
          linear_combination (-Complex.I) * hsgn (l - r)
        · rw [if_neg (by omega)]
          have e1 : ¬ (r = s) := hrs
          have e2 : ¬ (r = 2 * l - s) := by omega
          have e3 : ¬ (2 * l - r = s) := by omega
          have e4 : ¬ (2 * l - r = 2 * l - s) := by omega
          have e5 : ¬ (r = l) := by omega
          have e6 : ¬ (2 * l - r = l) := by omega
          simp only [e1, e2, e3, e4, e5, e6, if_false]
          simp
      · subst h
        rw [if_pos rfl]
        have e1 : ¬ (r = s) := hrs
        have e2 : ¬ (r = 2 * r - s) := by omega
        have e3 : ¬ (s = r) := by omega
        simp only [e1, e2, e3, if_false]
        simp
      · by_cases h2 : s = 2 * l - r
        · subst h2
          rw [if_neg (by omega)]
          simp only [show 2 * l - r < l by omega, if_true, if_neg (show ¬ (r = 2 * l - r) by omega), show ¬ (r < l) by omega,
            show ¬ (r = l) by omega, if_false, show 2 * l - (2 * l - r) = r by omega,
            show l - (2 * l - r) = r - l by omega, map_div₀, map_pow, map_neg, map_one, map_mul, Complex.conj_ofReal, Complex.conj_I]
          field_simp
          linear_combination (Complex.I) * hsgn (r - l)
        · rw [if_neg (by omega)]
          have e1 : ¬ (r = s) := hrs
          have e2 : ¬ (r = 2 * l - s) := by omega
          have e3 : ¬ (2 * l - r = s) := by omega
          have e4 : ¬ (2 * l - r = 2 * l - s) := by omega
          have e5 : ¬ (r = l) := by omega
          have e6 : ¬ (2 * l - r = l) := by omega
          simp only [e1, e2, e3, e4, e5, e6, if_false]
          simp
  · intro c h1 h2
    by_cases hc : c ≤ 2 * l
    · rw [Cmat_entry l r c hr hc]
      have : ¬ (c = l ∧ r = l) := by omega
      split_ifs <;> simp_all
    · have : ((Cmat l).getD r []).getD c 0 = 0 := by
        have hlen := (Cmat_shape l).2 ((Cmat l).getD r []) (by
          rw [List.getD_eq_getElem?_getD, List.getElem?_eq_getElem (by rw [(Cmat_shape l).1]; omega)]
          simp)
        rw [List.getD_eq_getElem?_getD, List.getElem?_eq_none (by omega)]
        rfl
      rw [this, zero_mul]

/-- the array of a map of degree one -/
example : y2dTo1d 1 (y1dTo2d 1 [1, 2, 3, 4]) = [1, 2, 3, 4] := y2d_y1d 1 _ (by norm_num)

end Jaxoplanet.Starry
