import Mathlib.Tactic
import Verif.Model.LightCurve
import Verif.Proofs.Basic

/-! # Periodic linear interpolation -/

namespace Jaxoplanet.LightCurve

open Real

/-- weakly increasing abscissae -/
def Inc (l : List (ℝ × ℝ)) : Prop := l.Pairwise fun p q => p.1 ≤ q.1

theorem interpSorted_cell {l1 l2 : List (ℝ × ℝ)} {p q : ℝ × ℝ} {x : ℝ} (tiny : ℝ)
    (hs : Inc (l1 ++ p :: q :: l2)) (h1 : p.1 ≤ x) (h2 : x < q.1) :
    interpSorted tiny (l1 ++ p :: q :: l2) x =
      if |q.1 - p.1| ≤ tiny then p.2 else p.2 + (x - p.1) / (q.1 - p.1) * (q.2 - p.2) := by
  unfold Inc at hs
  rw [List.pairwise_append] at hs
  obtain ⟨hs1, hs2, hs3⟩ := hs
  rw [List.pairwise_cons, List.pairwise_cons] at hs2
  have hc : countLe (l1 ++ p :: q :: l2) x = l1.length + 1 := by
    unfold countLe
    rw [List.filter_append, List.filter_cons, if_pos (by simpa using h1), List.filter_cons,
      if_neg (by simpa using h2)]
    have e1 : l1.filter (fun p => decide (p.1 ≤ x)) = l1 := by
      rw [List.filter_eq_self]
      intro a ha
      have := hs3 a ha p (by simp)
      simp; linarith
    have e2 : l2.filter (fun p => decide (p.1 ≤ x)) = [] := by
      rw [List.filter_eq_nil_iff]
      intro a ha
      have := hs2.2.1 a ha
      simp; linarith
    rw [e1, e2]; simp
  unfold interpSorted
  have hlen : (l1 ++ p :: q :: l2).length - 1 = l1.length + 1 + l2.length := by simp; omega
  rw [hc, hlen, show max 1 (min (l1.length + 1) (l1.length + 1 + l2.length)) = l1.length + 1 by omega]
  have g0 : (l1 ++ p :: q :: l2).getD (l1.length + 1 - 1) 0 = p := by simp
  have g1 : (l1 ++ p :: q :: l2).getD (l1.length + 1) 0 = q := by
    rw [List.getD_eq_getElem?_getD, List.getElem?_append_right (by omega)]; simp
  simp only [g0, g1]

/-- Two nodes with no node strictly in between are neighbours, up to nodes of equal abscissa. -/
theorem adjacent {l : List (ℝ × ℝ)} (hs : Inc l) {a b : ℝ} (hp : ∃ p ∈ l, p.1 = a)
    (hq : ∃ q ∈ l, q.1 = b) (hpq : a < b)
    (hno : ∀ r ∈ l, ¬ (a < r.1 ∧ r.1 < b)) :
    ∃ l1 p q l2, l = l1 ++ p :: q :: l2 ∧ p.1 = a ∧ q.1 = b := by
  induction l with
  | nil => obtain ⟨p, hp, -⟩ := hp; simp at hp
  | cons c t ih =>
    obtain ⟨hc, ht⟩ := List.pairwise_cons.1 hs
    have hqt : ∃ q ∈ t, q.1 = b := by
      obtain ⟨q, hq, hqb⟩ := hq
      rcases List.mem_cons.1 hq with rfl | h
      · obtain ⟨p, hp, hpa⟩ := hp
        rcases List.mem_cons.1 hp with rfl | h
        · linarith
        · have := hc p h; linarith
      · exact ⟨q, h, hqb⟩
    by_cases hpt : ∃ p ∈ t, p.1 = a
    · obtain ⟨l1, p, q, l2, rfl, h1, h2⟩ := ih ht hpt hqt fun r hr => hno r (by simp [hr])
      exact ⟨c :: l1, p, q, l2, rfl, h1, h2⟩
    · have hca : c.1 = a := by
        obtain ⟨p, hp, hpa⟩ := hp
        rcases List.mem_cons.1 hp with rfl | h
        · exact hpa
        · exact absurd ⟨p, h, hpa⟩ hpt
      match t, hc, ht, hqt, hpt, hno with
      | r :: t, hc, ht, hqt, hpt, hno =>
        have h1 := hc r (by simp)
        have h2 : r.1 ≠ a := fun h => hpt ⟨r, by simp, h⟩
        have h3 := hno r (by simp)
        have h4 : r.1 ≤ b := by
          obtain ⟨q, hq, hqb⟩ := hqt
          rcases List.mem_cons.1 hq with rfl | h
          · exact hqb.le
          · have := (List.pairwise_cons.1 ht).1 q h; linarith
        refine ⟨[], c, r, t, rfl, hca, ?_⟩
        have h5 : a < r.1 := lt_of_le_of_ne (hca ▸ h1) (Ne.symm h2)
        by_contra hne
        exact h3 ⟨h5, lt_of_le_of_ne h4 hne⟩

/-- the nodes repeated at all periods -/
def Ext (P : ℝ) (table : List (ℝ × ℝ)) (y : ℝ × ℝ) : Prop :=
  ∃ p ∈ table, ∃ m : ℤ, y = (p.1 + m * P, p.2)

/-- repeated nodes with the same abscissa carry the same value -/
def Consistent (P : ℝ) (table : List (ℝ × ℝ)) : Prop :=
  ∀ y y', Ext P table y → Ext P table y' → y.1 = y'.1 → y.2 = y'.2

theorem Ext.shift {P : ℝ} {table : List (ℝ × ℝ)} {y : ℝ × ℝ} (h : Ext P table y) (k : ℤ) :
    Ext P table (y.1 + k * P, y.2) := by
  obtain ⟨p, hp, m, rfl⟩ := h
  exact ⟨p, hp, m + k, by push_cast; simp only [Prod.mk.injEq, and_true]; ring⟩

theorem mem_wrapped {P : ℝ} {table : List (ℝ × ℝ)} {y : ℝ × ℝ} :
    y ∈ wrapped P table ↔ ∃ p ∈ table, (fmod p.1 P, p.2) = y := by
  unfold wrapped
  rw [(List.mergeSort_perm _ _).mem_iff, List.mem_map]

theorem mem_wrapped_iff {P : ℝ} (hP : 0 < P) {table : List (ℝ × ℝ)} {y : ℝ × ℝ} :
    y ∈ wrapped P table ↔ Ext P table y ∧ 0 ≤ y.1 ∧ y.1 < P := by
  rw [mem_wrapped]
  constructor
  · rintro ⟨p, hp, rfl⟩
    refine ⟨⟨p, hp, ?_⟩, fmod_nonneg _ hP, fmod_lt _ hP⟩
    obtain ⟨n, hn⟩ := fmod_eq_sub p.1 P
    exact ⟨-n, by rw [hn]; push_cast; simp only [Prod.mk.injEq, and_true]; ring⟩
  · rintro ⟨⟨p, hp, m, rfl⟩, h0, h1⟩
    refine ⟨p, hp, ?_⟩
    simp only [Prod.mk.injEq, and_true]
    exact fmod_unique hP (-m) (by push_cast; ring) h0 h1

theorem wrapped_inc (P : ℝ) (table : List (ℝ × ℝ)) : Inc (wrapped P table) := by
  have h1 : (wrapped P table).Pairwise fun p q => leFst p q = true :=
    List.pairwise_mergeSort (fun a b c => by simp only [leFst, decide_eq_true_eq]; exact le_trans)
      (fun a b => by simp only [leFst, Bool.or_eq_true, decide_eq_true_eq]; exact le_total _ _) _
  refine h1.imp fun {p q} h => ?_
  simpa only [leFst, decide_eq_true_eq] using h

theorem padded_spec {P : ℝ} (hP : 0 < P) {table : List (ℝ × ℝ)} (hne : table ≠ []) :
    Inc (padded P table) ∧ (∀ y ∈ padded P table, Ext P table y) ∧
    (∀ y, Ext P table y → (∀ z, Ext P table z → z.1 < 0 → z.1 ≤ y.1) → y.1 < P →
      ∃ y' ∈ padded P table, y'.1 = y.1) ∧
    (∀ y, Ext P table y → (∀ z, Ext P table z → P ≤ z.1 → y.1 ≤ z.1) → 0 ≤ y.1 →
      ∃ y' ∈ padded P table, y'.1 = y.1) := by
  have hinc := wrapped_inc P table
  have hwne : wrapped P table ≠ [] := by
    intro h
    have : (wrapped P table).length = table.length := by
      unfold wrapped; rw [(List.mergeSort_perm _ _).length_eq, List.length_map]
    rw [h] at this
    exact hne (List.length_eq_zero_iff.1 this.symm)
  obtain ⟨first, hfirst⟩ : ∃ f, (wrapped P table).head? = some f := by
    cases h : wrapped P table with
    | nil => exact absurd h hwne
    | cons a l => exact ⟨a, rfl⟩
  obtain ⟨last, hlast⟩ : ∃ f, (wrapped P table).getLast? = some f :=
    ⟨_, List.getLast?_eq_some_getLast hwne⟩
  have hfm : first ∈ wrapped P table := List.mem_of_mem_head? (by rw [hfirst]; simp)
  have hlm : last ∈ wrapped P table := List.mem_of_getLast? hlast
  obtain ⟨fe, f0, f1⟩ := (mem_wrapped_iff hP).1 hfm
  obtain ⟨le', l0, l1⟩ := (mem_wrapped_iff hP).1 hlm
  have hpad : padded P table = (last.1 - P, last.2) :: wrapped P table ++ [(first.1 + P, first.2)] := by
    simp only [padded, hfirst, hlast, Option.getD_some]
  have hbnd : ∀ y ∈ wrapped P table, 0 ≤ y.1 ∧ y.1 < P := fun y hy => ((mem_wrapped_iff hP).1 hy).2
  have hmax : ∀ y ∈ wrapped P table, y.1 ≤ last.1 := by
    obtain ⟨ys, hys⟩ := List.getLast?_eq_some_iff.1 hlast
    intro y hy
    rw [hys] at hy hinc
    unfold Inc at hinc
    rw [List.pairwise_append] at hinc
    rcases List.mem_append.1 hy with h | h
    · exact hinc.2.2 y h last (by simp)
    · simp only [List.mem_singleton] at h; rw [h]
  have hmin : ∀ y ∈ wrapped P table, first.1 ≤ y.1 := by
    intro y hy
    cases hwr : wrapped P table with
    | nil => exact absurd hwr hwne
    | cons a l =>
      rw [hwr] at hfirst hy hinc
      simp only [List.head?_cons, Option.some.injEq] at hfirst
      subst hfirst
      rcases List.mem_cons.1 hy with h | h
      · rw [h]
      · exact (List.pairwise_cons.1 hinc).1 y h
  have eL : Ext P table (last.1 - P, last.2) := by
    have := le'.shift (-1)
    have e : last.1 + ((-1 : ℤ) : ℝ) * P = last.1 - P := by push_cast; ring
    rwa [e] at this
  have eF : Ext P table (first.1 + P, first.2) := by
    have := fe.shift 1
    have e : first.1 + ((1 : ℤ) : ℝ) * P = first.1 + P := by push_cast; ring
    rwa [e] at this
  refine ⟨?_, ?_, ?_, ?_⟩
  · rw [hpad]
    unfold Inc at *
    rw [List.cons_append, List.pairwise_cons, List.pairwise_append]
    refine ⟨?_, hinc, List.pairwise_singleton _ _, ?_⟩
    · intro y hy
      rcases List.mem_append.1 hy with h | h
      · have := (hbnd y h).1; simp only; linarith
      · simp only [List.mem_singleton] at h
        rw [h]; simp only; linarith
    · intro a ha b hb
      simp only [List.mem_singleton] at hb
      rw [hb]
      have := (hbnd a ha).2
      simp only; linarith
  · intro y hy
    rw [hpad, List.cons_append, List.mem_cons, List.mem_append, List.mem_singleton] at hy
    rcases hy with rfl | hy | rfl
    · exact eL
    · exact ((mem_wrapped_iff hP).1 hy).1
    · exact eF
  · intro y hy hz hlt
    rcases le_or_gt 0 y.1 with h0 | h0
    · refine ⟨y, ?_, rfl⟩
      rw [hpad, List.cons_append, List.mem_cons, List.mem_append]
      exact Or.inr (Or.inl ((mem_wrapped_iff hP).2 ⟨hy, h0, hlt⟩))
    · refine ⟨(last.1 - P, last.2), by rw [hpad]; simp, ?_⟩
      have h1 := hz _ eL (by simp only; linarith)
      simp only at h1
      have eU := hy.shift 1
      have m : (y.1 + ((1 : ℤ) : ℝ) * P, y.2) ∈ wrapped P table :=
        (mem_wrapped_iff hP).2 ⟨eU, by push_cast; linarith, by push_cast; linarith⟩
      have h2 := hmax _ m
      push_cast at h2
      simp only; linarith
  · intro y hy hz h0
    rcases lt_or_ge y.1 P with hlt | hge
    · refine ⟨y, ?_, rfl⟩
      rw [hpad, List.cons_append, List.mem_cons, List.mem_append]
      exact Or.inr (Or.inl ((mem_wrapped_iff hP).2 ⟨hy, h0, hlt⟩))
    · refine ⟨(first.1 + P, first.2), by rw [hpad]; simp, ?_⟩
      have h1 := hz _ eF (by simp only; linarith)
      simp only at h1
      have eU := hy.shift (-1)
      have m : (y.1 + ((-1 : ℤ) : ℝ) * P, y.2) ∈ wrapped P table :=
        (mem_wrapped_iff hP).2 ⟨eU, by push_cast; linarith, by push_cast; linarith⟩
      have h2 := hmin _ m
      push_cast at h2
      simp only; linarith

/-- Periodic interpolation between two neighbouring nodes of the periodically repeated table. -/
theorem interpPeriodic_cell {P : ℝ} (hP : 0 < P) {table : List (ℝ × ℝ)} (hw : Consistent P table)
    (tiny : ℝ) {p q : ℝ × ℝ} (hp : Ext P table p) (hq : Ext P table q)
    (hno : ∀ z, Ext P table z → ¬ (p.1 < z.1 ∧ z.1 < q.1)) {t : ℝ} (h1 : p.1 ≤ t) (h2 : t < q.1) :
    interpPeriodic tiny P table t =
      if |q.1 - p.1| ≤ tiny then p.2 else p.2 + (t - p.1) / (q.1 - p.1) * (q.2 - p.2) := by
  have hne : table ≠ [] := by
    rintro rfl; obtain ⟨a, ha, -⟩ := hp; simp at ha
  obtain ⟨hinc, hext, hlow, hup⟩ := padded_spec hP hne
  obtain ⟨n, hn⟩ := fmod_eq_sub t P
  set x := fmod t P with hx
  have hx0 : 0 ≤ x := fmod_nonneg t hP
  have hx1 : x < P := fmod_lt t hP
  let p' : ℝ × ℝ := (p.1 + ((-n : ℤ) : ℝ) * P, p.2)
  let q' : ℝ × ℝ := (q.1 + ((-n : ℤ) : ℝ) * P, q.2)
  have hp' : Ext P table p' := hp.shift (-n)
  have hq' : Ext P table q' := hq.shift (-n)
  have hp1 : p'.1 ≤ x := by simp only [p']; push_cast; linarith
  have hq1 : x < q'.1 := by simp only [q']; push_cast; linarith
  have hno' : ∀ z, Ext P table z → ¬ (p'.1 < z.1 ∧ z.1 < q'.1) := by
    intro z hz ⟨ha, hb⟩
    refine hno _ (hz.shift n) ⟨?_, ?_⟩
    · simp only [p'] at ha; push_cast at ha; simp only; linarith
    · simp only [q'] at hb; push_cast at hb; simp only; linarith
  have mp : ∃ y ∈ padded P table, y.1 = p'.1 := by
    refine hlow p' hp' (fun z hz hz0 => ?_) (by linarith)
    by_contra hlt
    exact hno' z hz ⟨not_le.1 hlt, by linarith⟩
  have mq : ∃ y ∈ padded P table, y.1 = q'.1 := by
    refine hup q' hq' (fun z hz hz0 => ?_) (by linarith)
    by_contra hlt
    exact hno' z hz ⟨by linarith, not_le.1 hlt⟩
  obtain ⟨l1, a, b, l2, hl, ha, hb⟩ :=
    adjacent hinc mp mq (by linarith) fun r hr => hno' r (hext r hr)
  have ha2 : a.2 = p'.2 := hw a p' (hext a (by rw [hl]; simp)) hp' ha
  have hb2 : b.2 = q'.2 := hw b q' (hext b (by rw [hl]; simp)) hq' hb
  unfold interpPeriodic
  rw [← hx, hl]
  rw [hl] at hinc
  rw [interpSorted_cell tiny hinc (by rw [ha]; exact hp1) (by rw [hb]; exact hq1), ha, hb, ha2, hb2]
  have e1 : q'.1 - p'.1 = q.1 - p.1 := by simp only [p', q']; ring
  have e2 : x - p'.1 = t - p.1 := by simp only [p']; rw [hn]; push_cast; ring
  rw [e1, e2]

/-! ## The time grid -/

/-- the `k`-th node time -/
noncomputable def node (t0 d : ℝ) (n k : ℕ) : ℝ := t0 - d / 2 + k * (d / (n - 1))

theorem timeGrid_eq {n : ℕ} (hn : 2 ≤ n) (t0 P : ℝ) (dur : Option ℝ) :
    timeGrid t0 P dur n = (List.range n).map (node t0 (dur.getD P) n) := by
  unfold timeGrid linspace
  rw [if_neg (by omega), List.map_map]
  refine List.map_congr_left fun k _ => ?_
  simp only [Function.comp, node]
  ring

theorem ext_grid {n : ℕ} (hn : 2 ≤ n) {P t0 : ℝ} {dur : Option ℝ} {f : ℝ → ℝ} {y : ℝ × ℝ} :
    Ext P ((timeGrid t0 P dur n).map fun t => (t, f t)) y ↔
      ∃ k < n, ∃ m : ℤ, y = (node t0 (dur.getD P) n k + m * P, f (node t0 (dur.getD P) n k)) := by
  rw [timeGrid_eq hn]
  unfold Ext
  simp only [List.map_map, List.mem_map, List.mem_range, Function.comp]
  constructor
  · rintro ⟨p, ⟨k, hk, rfl⟩, m, h⟩
    exact ⟨k, hk, m, h⟩
  · rintro ⟨k, hk, m, h⟩
    exact ⟨_, ⟨k, hk, rfl⟩, m, h⟩

theorem node_range {n : ℕ} (hn : 2 ≤ n) {t0 d : ℝ} (hd : 0 ≤ d) {k : ℕ} (hk : k < n) :
    t0 - d / 2 ≤ node t0 d n k ∧ node t0 d n k ≤ t0 + d / 2 := by
  have hn1 : (0 : ℝ) < n - 1 := by
    have : (2 : ℝ) ≤ n := by exact_mod_cast hn
    linarith
  have hk1 : (k : ℝ) ≤ n - 1 := by
    have : ((k + 1 : ℕ) : ℝ) ≤ n := by exact_mod_cast hk
    push_cast at this; linarith
  unfold node
  constructor
  · have : 0 ≤ (k : ℝ) * (d / (n - 1)) := by positivity
    linarith
  · have : (k : ℝ) * (d / (n - 1)) ≤ (n - 1) * (d / (n - 1)) := by gcongr
    rw [mul_div_cancel₀ _ hn1.ne'] at this
    linarith

/-- an integer strictly between -1 and 1 -/
theorem int_small {P x : ℝ} (hP : 0 < P) {m : ℤ} (h : x = m * P) (h1 : -P < x) (h2 : x < P) : m = 0 := by
  have a1 : (-1 : ℝ) < m := by
    by_contra hh
    have : (m : ℝ) * P ≤ -1 * P := mul_le_mul_of_nonneg_right (not_lt.1 hh) hP.le
    linarith
  have a2 : (m : ℝ) < 1 := by
    by_contra hh
    have : 1 * P ≤ (m : ℝ) * P := mul_le_mul_of_nonneg_right (not_lt.1 hh) hP.le
    linarith
  have b1 : -1 < m := by exact_mod_cast a1
  have b2 : m < 1 := by exact_mod_cast a2
  omega

/-- the tabulated values are consistent if the window is shorter than the period, or if the light curve
takes the same value at both ends of a window of one full period -/
theorem grid_consistent {n : ℕ} (hn : 2 ≤ n) {P t0 : ℝ} (hP : 0 < P) {dur : Option ℝ} {f : ℝ → ℝ}
    (hd : 0 ≤ dur.getD P)
    (h : dur.getD P < P ∨ (dur.getD P = P ∧ f (t0 - P / 2) = f (t0 + P / 2))) :
    Consistent P ((timeGrid t0 P dur n).map fun t => (t, f t)) := by
  intro y y' hy hy' heq
  obtain ⟨k, hk, m, rfl⟩ := (ext_grid hn).1 hy
  obtain ⟨k', hk', m', rfl⟩ := (ext_grid hn).1 hy'
  obtain ⟨a1, a2⟩ := node_range hn (t0 := t0) hd hk
  obtain ⟨b1, b2⟩ := node_range hn (t0 := t0) hd hk'
  simp only at heq ⊢
  generalize hA : node t0 (dur.getD P) n k = A at *
  generalize hB : node t0 (dur.getD P) n k' = B at *
  have hAB : A - B = ((m' - m : ℤ) : ℝ) * P := by push_cast; linarith
  rcases h with h | ⟨h, hf⟩
  · have := int_small hP hAB (by linarith) (by linarith)
    rw [this] at hAB
    push_cast at hAB
    rw [show A = B by linarith]
  · rw [h] at a1 a2 b1 b2
    rcases eq_or_lt_of_le (show -P ≤ A - B by linarith) with h1 | h1
    · rw [show A = t0 - P / 2 by linarith, show B = t0 + P / 2 by linarith, hf]
    · rcases eq_or_lt_of_le (show A - B ≤ P by linarith) with h2 | h2
      · rw [show A = t0 + P / 2 by linarith, show B = t0 - P / 2 by linarith, hf]
      · have := int_small hP hAB h1 h2
        rw [this] at hAB
        push_cast at hAB
        rw [show A = B by linarith]

theorem node_spacing {n : ℕ} (t0 d : ℝ) (k : ℕ) : node t0 d n (k + 1) - node t0 d n k = d / (n - 1) := by
  unfold node; push_cast; ring

/-- no repeated node lies strictly between two consecutive nodes -/
theorem no_node_between {n : ℕ} (hn : 2 ≤ n) {P t0 d : ℝ} (hP : 0 < P) (hd : 0 < d) (hdP : d ≤ P)
    {k : ℕ} (hk : k + 1 < n) {j : ℕ} (hj : j < n) (m : ℤ) :
    ¬ (node t0 d n k < node t0 d n j + m * P ∧ node t0 d n j + m * P < node t0 d n (k + 1)) := by
  rintro ⟨h1, h2⟩
  obtain ⟨a1, a2⟩ := node_range hn (t0 := t0) hd.le (show k < n by omega)
  obtain ⟨c1, c2⟩ := node_range hn (t0 := t0) hd.le hk
  obtain ⟨b1, b2⟩ := node_range hn (t0 := t0) hd.le hj
  have hm : m = 0 := int_small hP (x := m * P) rfl (by linarith) (by linarith)
  subst hm
  have hn1 : (0 : ℝ) < n - 1 := by
    have : (2 : ℝ) ≤ n := by exact_mod_cast hn
    linarith
  have hs : 0 < d / (n - 1 : ℝ) := by positivity
  unfold node at h1 h2
  push_cast at h1 h2
  have e1 : (k : ℝ) * (d / (n - 1)) < j * (d / (n - 1)) := by linarith
  have e2 : (j : ℝ) * (d / (n - 1)) < (k + 1) * (d / (n - 1)) := by linarith
  have e1 := lt_of_mul_lt_mul_right e1 hs.le
  have e2 := lt_of_mul_lt_mul_right e2 hs.le
  have e1 : k < j := by exact_mod_cast e1
  have e2 : j < k + 1 := by exact_mod_cast e2
  omega

theorem no_node_outside {n : ℕ} (hn : 2 ≤ n) {P t0 d : ℝ} (hP : 0 < P) (hd : 0 < d) (hdP : d < P)
    {j : ℕ} (hj : j < n) (m : ℤ) :
    ¬ (t0 + d / 2 < node t0 d n j + m * P ∧ node t0 d n j + m * P < t0 - d / 2 + P) := by
  rintro ⟨h1, h2⟩
  obtain ⟨b1, b2⟩ := node_range hn (t0 := t0) hd.le hj
  have h3 : (0 : ℝ) < m * P := by linarith
  have h4 : (m : ℝ) * P < P := by linarith
  have hm : m = 0 := int_small hP (x := m * P) rfl (by linarith) h4
  subst hm
  simp at h3

theorem node_first (t0 d : ℝ) (n : ℕ) : node t0 d n 0 = t0 - d / 2 := by simp [node]

theorem node_last {n : ℕ} (hn : 2 ≤ n) (t0 d : ℝ) : node t0 d n (n - 1) = t0 + d / 2 := by
  have hn1 : (n : ℝ) - 1 ≠ 0 := by
    have : (2 : ℝ) ≤ n := by exact_mod_cast hn
    linarith
  unfold node
  rw [Nat.cast_sub (by omega)]
  push_cast
  field_simp
  ring

theorem interpPeriodic_shift {P : ℝ} (hP : 0 < P) (tiny : ℝ) (table : List (ℝ × ℝ)) (t s : ℝ) (m : ℤ)
    (h : s = t + m * P) : interpPeriodic tiny P table s = interpPeriodic tiny P table t := by
  unfold interpPeriodic
  rw [h, fmod_add_int _ hP]

/-- the wrapped time differs from the time by whole periods -/
theorem wrapped_time {P : ℝ} (t t0 : ℝ) : ∃ m : ℤ,
    fmod (t - t0 + 0.5 * P) P + 0.5 * P + t0 = t + m * P := by
  obtain ⟨n, hn⟩ := fmod_eq_sub (t - t0 + 0.5 * P) P
  exact ⟨1 - n, by rw [hn]; push_cast; ring⟩

theorem interpolate_eq {P : ℝ} (hP : 0 < P) (tiny : ℝ) (f : ℝ → ℝ) (t0 : ℝ) (n : ℕ) (dur : Option ℝ)
    (t : ℝ) : interpolate tiny f P t0 n dur t =
      interpPeriodic tiny P ((timeGrid t0 P dur n).map fun t => (t, f t)) t := by
  obtain ⟨m, hm⟩ := wrapped_time (P := P) t t0
  exact interpPeriodic_shift hP tiny _ t _ m hm

end Jaxoplanet.LightCurve
