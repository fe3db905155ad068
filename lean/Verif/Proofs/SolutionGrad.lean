import Verif.Model.SolutionGrad
import Verif.Proofs.LimbDarkGrad
import Verif.Props.QIntegral

/-!
# Auxiliary lemmas for C92: the derivatives of the solution vector
-/

namespace Jaxoplanet.Starry
open Real AD AD.Dual Filter Topology

/-! ## Values -/

/-- the values of the memo dictionary -/
def memoV (h : MemoD) : Memo := h.map fun p => (p.1, p.2.v)

theorem memoV_lookup (h : MemoD) (k : ℕ × ℕ) : (memoV h).lookup k = (h.lookup k).map (·.v) := by
  induction h with
  | nil => rfl
  | cons p h ih =>
    obtain ⟨k', x⟩ := p
    change List.lookup k ((k', x.v) :: memoV h) = _
    rw [List.lookup_cons, List.lookup_cons, ih]
    cases k == k' <;> rfl

theorem qGetD_v (c s : Dual) (u v : ℕ) (h : MemoD) :
    (qGetD c s u v h).map (fun p => (p.1.v, memoV p.2)) = qGet c.v s.v u v (memoV h) := by
  obtain ⟨n, hn⟩ : ∃ n, u + v ≤ n := ⟨_, le_rfl⟩
  induction n generalizing u v h with
  | zero =>
    have e1 : u = 0 := by omega
    have e2 : v = 0 := by omega
    subst e1; subst e2
    unfold qGet qGetD
    rw [memoV_lookup]
    cases h.lookup (0, 0) <;> rfl
  | succ n ih =>
    unfold qGet qGetD
    rw [memoV_lookup]
    cases h.lookup (u, v) with
    | some x => rfl
    | none =>
      simp only [Option.map_none]
      by_cases h2 : 2 ≤ u
      · rw [if_pos h2, if_pos h2, ← ih (u - 2) v h (by omega)]
        cases qGetD c s (u - 2) v h with
        | error e => rfl
        | ok p => rfl
      · rw [if_neg h2, if_neg h2]
        by_cases h3 : 2 ≤ v
        · rw [if_pos h3, if_pos h3, ← ih u (v - 2) h (by omega)]
          cases qGetD c s u (v - 2) h with
          | error e => rfl
          | ok p => rfl
        · rw [if_neg h3, if_neg h3]; rfl

theorem qStepD_v (lam : Dual) (st : List Dual × MemoD) (e : ℕ × ℤ) :
    (qStepD lam st e).map (fun p => (p.1.map (·.v), memoV p.2)) = qStep lam.v (st.1.map (·.v), memoV st.2) e := by
  unfold qStepD qStep
  simp only
  split_ifs with h1 h2 h3
  · simp [Except.map]
  · rw [← cos_v, ← sin_v, ← qGetD_v]
    cases qGetD lam.cos lam.sin _ _ st.2 with
    | error e => rfl
    | ok p => simp [Except.map]
  · rfl
  · simp [Except.map]

theorem qFoldD_v (lam : Dual) (es : List (ℕ × ℤ)) (st : List Dual × MemoD) :
    (es.foldlM (qStepD lam) st).map (fun p => (p.1.map (·.v), memoV p.2)) = es.foldlM (qStep lam.v) (st.1.map (·.v), memoV st.2) := by
  induction es generalizing st with
  | nil => rfl
  | cons e es ih =>
    rw [List.foldlM_cons, List.foldlM_cons, ← qStepD_v]
    cases qStepD lam st e with
    | error e => rfl
    | ok p => exact ih p

theorem qIntegralD_v (l_max : ℕ) (lam : Dual) : (qIntegralD l_max lam).map (List.map (·.v)) = qIntegral l_max lam.v := by
  unfold qIntegralD qIntegral
  have h := qFoldD_v lam (loopLM l_max) ([], [((0, 0), const 2 * lam + const π), ((0, 1), const (-2) * lam.cos)])
  have e : memoV [((0, 0), const 2 * lam + const π), ((0, 1), const (-2) * lam.cos)] = [((0, 0), 2 * lam.v + π), ((0, 1), -2 * cos lam.v)] := rfl
  simp only [List.map_nil, e] at h
  rw [← h]
  cases List.foldlM (qStepD lam) _ (loopLM l_max) <;> rfl

theorem kappasD_eq (eps : ℝ) (st : Bool) (b r : Dual) : kappasD eps st b r = (LimbDark.kappasD eps st b r).2 := rfl

theorem kappas_eq (b r : ℝ) : kappas b r = (LimbDark.kappas b r).2 := rfl

theorem pTermD_v (eps : ℝ) (st : Bool) (b r k : Dual) (l : ℕ) (m : ℤ) (hm : m.natAbs ≤ l) :
    (pTermD eps st b r k l m).map (fun p => (p.1, fun x => (p.2 x).v)) = pTerm eps b.v r.v k.v l m := by
  unfold pTermD pTerm
  simp only
  by_cases h1 : ((l : ℤ) - m).toNat = 1 ∧ l = 1
  · rw [if_pos h1, if_pos h1]; rfl
  rw [if_neg h1, if_neg h1]
  by_cases h2 : ((l : ℤ) - m).toNat % 2 = 0 ∧ (((l : ℤ) - m).toNat / 2) % 2 = 0
  · rw [if_pos h2, if_pos h2]; rfl
  rw [if_neg h2, if_neg h2]
  have hl : l ≠ 0 := by omega
  have hz : ((l : ℤ) - 1) = ((l - 1 : ℕ) : ℤ) := by omega
  simp only [hz, zpow_natCast]
  by_cases h3 : ((l : ℤ) - m).toNat = 1 ∧ l % 2 = 0
  · rw [if_pos h3, if_pos h3]; rfl
  rw [if_neg h3, if_neg h3]
  by_cases h4 : ((l : ℤ) - m).toNat = 1
  · rw [if_pos h4, if_pos h4]; rfl
  rw [if_neg h4, if_neg h4]
  by_cases h5 : ((((l : ℤ) - m).toNat : ℤ) - 1) % 2 = 0 ∧ ((((l : ℤ) - m).toNat - 1) / 2) % 2 = 0
  · rw [if_pos h5, if_pos h5]; rfl
  · rw [if_neg h5, if_neg h5]; rfl

theorem pIntegralD_v (eps : ℝ) (st : Bool) (quad : ℕ → List (ℝ × ℝ)) (order l_max : ℕ) (b r k : Dual) :
    (pIntegralD eps st quad order l_max b r k).map (List.map (·.v)) = pIntegral eps quad order l_max b.v r.v k.v := by
  unfold pIntegralD pIntegral
  split_ifs with h
  · rfl
  · simp only [Except.map, List.map_map]
    congr 1
    refine List.map_congr_left fun e he => ?_
    simp only [Function.comp_apply]
    rw [← pTermD_v eps st _ _ _ _ _ (mem_loopLM he)]
    cases pTermD eps st b r k e.1 e.2 with
    | none => rfl
    | some p => simp [Function.comp_def]

variable {t : ℝ} {f : ℝ → ℝ} {a : Dual}

/-! ## The Q integral -/

theorem limbInt_recU (lam : ℝ) (w v : ℕ) (hw : w % 2 = 0) :
    (2 * Real.cos lam ^ (w + 2 - 1) * Real.sin lam ^ (v + 1) + (((w + 2 : ℕ) : ℝ) - 1) * limbInt lam w v) / (((w + 2 : ℕ) : ℝ) + v) =
      limbInt lam (w + 2) v := by
  obtain ⟨c1, s1, c2, s2⟩ := limb_ends lam
  have := trig_recU w v (π - lam) (2 * π + lam)
  rw [c1, s1, c2, s2] at this
  have hodd : (-Real.cos lam) ^ (w + 1) = -(Real.cos lam ^ (w + 1)) := Odd.neg_pow (Nat.odd_iff.2 (by omega)) _
  rw [hodd] at this
  rw [div_eq_iff (by positivity)]
  unfold limbInt
  rw [show w + 2 - 1 = w + 1 by omega]
  push_cast
  linear_combination -this

theorem limbInt_recV (lam : ℝ) (w : ℕ) :
    (-2 * Real.cos lam ^ (0 + 1) * Real.sin lam ^ (w + 2 - 1) + (((w + 2 : ℕ) : ℝ) - 1) * limbInt lam 0 w) / (((0 : ℕ) : ℝ) + ((w + 2 : ℕ) : ℝ)) =
      limbInt lam 0 (w + 2) := by
  obtain ⟨c1, s1, c2, s2⟩ := limb_ends lam
  have := trig_recV 0 w (π - lam) (2 * π + lam)
  rw [c1, s1, c2, s2] at this
  rw [div_eq_iff (by positivity)]
  unfold limbInt
  rw [show w + 2 - 1 = w + 1 by omega]
  push_cast at this ⊢
  linear_combination -this

/-- the memo dictionary holds the integrals with their derivatives, and the two starting values -/
def MemoTr (f : ℝ → ℝ) (t : ℝ) (h : MemoD) : Prop :=
  (∀ k x, h.lookup k = some x → Tracks (fun s => limbInt (f s) k.1 k.2) t x) ∧ h.lookup (0, 0) ≠ none ∧ h.lookup (0, 1) ≠ none

theorem memoTr_cons {h : MemoD} (hh : MemoTr f t h) (k : ℕ × ℕ) (x : Dual) (hx : Tracks (fun s => limbInt (f s) k.1 k.2) t x) :
    MemoTr f t ((k, x) :: h) := by
  obtain ⟨h1, h2, h3⟩ := hh
  have e : ∀ k', ((k, x) :: h).lookup k' = if k' = k then some x else h.lookup k' := by
    intro k'
    rw [List.lookup_cons]
    by_cases hk : k' = k
    · simp [hk]
    · have hb : (k' == k) = false := beq_eq_false_iff_ne.2 hk
      rw [hb, if_neg hk]
  refine ⟨fun k' y hy => ?_, ?_, ?_⟩
  · rw [e] at hy
    split_ifs at hy with hk
    · rw [hk, ← Option.some.inj hy]; exact hx
    · exact h1 k' y hy
  · rw [e]; split_ifs <;> simp [h2]
  · rw [e]; split_ifs <;> simp [h3]

theorem memoTr_start (ha : Tracks f t a) : MemoTr f t [((0, 0), const 2 * a + const π), ((0, 1), const (-2) * a.cos)] := by
  have C := fun c => track_const c t
  have h0 : Tracks (fun s => limbInt (f s) 0 0) t (const 2 * a + const π) := by
    refine Tracks.congr (track_add (track_mul (C 2) ha) (C π)) (Eventually.of_forall fun s => ?_)
    exact ((memo_start (f s)).1 (0, 0) _ rfl).symm
  have h1 : Tracks (fun s => limbInt (f s) 0 1) t (const (-2) * a.cos) := by
    refine Tracks.congr (track_mul (C (-2)) (track_cos ha)) (Eventually.of_forall fun s => ?_)
    exact ((memo_start (f s)).1 (0, 1) _ rfl).symm
  refine ⟨fun k x hx => ?_, by simp, by simp⟩
  rw [List.lookup_cons] at hx
  by_cases hk : k = (0, 0)
  · subst hk
    have hx : some (const 2 * a + const π) = some x := hx
    rw [← Option.some.inj hx]; exact h0
  · have hb : (k == (0, 0)) = false := beq_eq_false_iff_ne.2 hk
    rw [hb] at hx
    simp only at hx
    rw [List.lookup_cons] at hx
    by_cases hk2 : k = (0, 1)
    · subst hk2
      have hx : some (const (-2) * a.cos) = some x := hx
      rw [← Option.some.inj hx]; exact h1
    · have hb2 : (k == (0, 1)) = false := beq_eq_false_iff_ne.2 hk2
      rw [hb2] at hx
      simp at hx

theorem track_qGet (ha : Tracks f t a) (u v : ℕ) (hu : u % 2 = 0) (h : MemoD) (hh : MemoTr f t h) :
    ∃ x h', qGetD a.cos a.sin u v h = .ok (x, h') ∧ Tracks (fun s => limbInt (f s) u v) t x ∧ MemoTr f t h' := by
  obtain ⟨n, hn⟩ : ∃ n, u + v ≤ n := ⟨_, le_rfl⟩
  have C := fun c => track_const c t
  induction n generalizing u v h with
  | zero =>
    have e1 : u = 0 := by omega
    have e2 : v = 0 := by omega
    subst e1; subst e2
    unfold qGetD
    obtain ⟨x, hx⟩ := Option.ne_none_iff_exists'.1 hh.2.1
    rw [hx]
    exact ⟨x, h, rfl, hh.1 _ _ hx, hh⟩
  | succ n ih =>
    unfold qGetD
    cases hl : h.lookup (u, v) with
    | some x => exact ⟨x, h, rfl, hh.1 _ _ hl, hh⟩
    | none =>
      simp only
      by_cases h2 : 2 ≤ u
      · rw [if_pos h2]
        obtain ⟨w, rfl⟩ : ∃ w, u = w + 2 := ⟨u - 2, by omega⟩
        obtain ⟨g, h', e, hg, ok⟩ := ih w v (by omega) h hh (by omega)
        rw [Nat.add_sub_cancel, e]
        have val := Tracks.congr (track_div (track_add (track_mul (track_mul (C 2) (track_ipow (track_cos ha) (w + 2 - 1))) (track_ipow (track_sin ha) (v + 1)))
          (track_mul (C (((w + 2 : ℕ) : ℝ) - 1)) hg)) (C (((w + 2 : ℕ) : ℝ) + v)) (by simp only [const_v]; positivity))
          (Eventually.of_forall fun s => (limbInt_recU (f s) w v (by omega)).symm)
        exact ⟨_, _, rfl, val, memoTr_cons ok (w + 2, v) _ val⟩
      · rw [if_neg h2]
        have e0 : u = 0 := by omega
        subst e0
        have h2v : 2 ≤ v := by
          by_contra hc
          have : v = 0 ∨ v = 1 := by omega
          rcases this with rfl | rfl
          · exact hh.2.1 hl
          · exact hh.2.2 hl
        rw [if_pos h2v]
        obtain ⟨w, rfl⟩ : ∃ w, v = w + 2 := ⟨v - 2, by omega⟩
        obtain ⟨g, h', e, hg, ok⟩ := ih 0 w (by omega) h hh (by omega)
        rw [Nat.add_sub_cancel, e]
        have val := Tracks.congr (track_div (track_add (track_mul (track_mul (C (-2)) (track_ipow (track_cos ha) (0 + 1))) (track_ipow (track_sin ha) (w + 2 - 1)))
          (track_mul (C (((w + 2 : ℕ) : ℝ) - 1)) hg)) (C (((0 : ℕ) : ℝ) + ((w + 2 : ℕ) : ℝ))) (by simp only [const_v]; positivity))
          (Eventually.of_forall fun s => (limbInt_recV (f s) w).symm)
        exact ⟨_, _, rfl, val, memoTr_cons ok (0, w + 2) _ val⟩

/-- the entry `(l, m)` of the Q integral, as an integral along the limb -/
noncomputable def qEntry (lam : ℝ) (e : ℕ × ℤ) : ℝ :=
  if e.1 = 1 ∧ e.2 = 0 then (π + 2 * lam) / 3
  else if ((e.1 : ℤ) - e.2).toNat % 2 = 0 ∧ (((e.1 : ℤ) - e.2).toNat / 2) % 2 = 0 then
    limbInt lam (((e.1 : ℤ) - e.2).toNat / 2 + 2) (((e.1 : ℤ) + e.2).toNat / 2)
  else 0

theorem track_qStep (ha : Tracks f t a) (U : List Dual) (h : MemoD) (hh : MemoTr f t h) (e : ℕ × ℤ) :
    ∃ x h', qStepD a (U, h) e = .ok (U ++ [x], h') ∧ Tracks (fun s => qEntry (f s) e) t x ∧ MemoTr f t h' := by
  have C := fun c => track_const c t
  unfold qStepD qEntry
  simp only
  split_ifs with h1 h2 h3
  · exact ⟨_, h, rfl, track_div (track_add (C π) (track_mul (C 2) ha)) (C 3) (by simp), hh⟩
  · obtain ⟨x, h', e', hx, ok⟩ := track_qGet ha _ (((e.1 : ℤ) + e.2).toNat / 2) h3 h hh
    rw [e']
    exact ⟨x, h', rfl, hx, ok⟩
  · omega
  · exact ⟨_, h, rfl, C 0, hh⟩

theorem qFold_entry (lam : ℝ) (es : List (ℕ × ℤ)) (U : List ℝ) (h : Memo) (hh : MemoOk lam h) :
    ∃ h', es.foldlM (qStep lam) (U, h) = .ok (U ++ es.map (qEntry lam), h') ∧ MemoOk lam h' := by
  induction es generalizing U h with
  | nil => exact ⟨h, by simp [Pure.pure, Except.pure], hh⟩
  | cons e es ih =>
    have step : ∃ h', qStep lam (U, h) e = .ok (U ++ [qEntry lam e], h') ∧ MemoOk lam h' := by
      unfold qStep qEntry
      simp only
      split_ifs with h1 h2 h3
      · exact ⟨h, rfl, hh⟩
      · obtain ⟨h', e', ok⟩ := qGet_spec lam _ (((e.1 : ℤ) + e.2).toNat / 2) h3 h hh
        rw [e']
        exact ⟨h', rfl, ok⟩
      · omega
      · exact ⟨h, rfl, hh⟩
    obtain ⟨h1, e1, ok1⟩ := step
    obtain ⟨h2, e2, ok2⟩ := ih (U ++ [qEntry lam e]) h1 ok1
    refine ⟨h2, ?_, ok2⟩
    rw [List.foldlM_cons, e1]
    simp only [Bind.bind, Except.bind]
    rw [e2]
    simp

theorem qIntegral_entry (l_max : ℕ) (lam : ℝ) : qIntegral l_max lam = .ok ((loopLM l_max).map (qEntry lam)) := by
  obtain ⟨h', e, _⟩ := qFold_entry lam (loopLM l_max) [] _ (memo_start lam)
  unfold qIntegral
  rw [e]
  simp

theorem track_qFold (ha : Tracks f t a) (es : List (ℕ × ℤ)) (U : List Dual) (h : MemoD) (hh : MemoTr f t h) :
    ∃ (D : List Dual) (h' : MemoD), es.foldlM (qStepD a) (U, h) = .ok (U ++ D, h') ∧
      List.Forall₂ (fun e x => Tracks (fun s => qEntry (f s) e) t x) es D := by
  induction es generalizing U h with
  | nil => exact ⟨[], h, by simp [Pure.pure, Except.pure], .nil⟩
  | cons e es ih =>
    obtain ⟨x, h1, e1, hx, ok1⟩ := track_qStep ha U h hh e
    obtain ⟨D, h2, e2, hD⟩ := ih (U ++ [x]) h1 ok1
    refine ⟨x :: D, h2, ?_, .cons hx hD⟩
    rw [List.foldlM_cons, e1]
    simp only [Bind.bind, Except.bind]
    rw [e2]
    simp

theorem track_qIntegral (ha : Tracks f t a) (l_max : ℕ) : ∃ D : List Dual, qIntegralD l_max a = .ok D ∧
    List.Forall₂ (fun e x => Tracks (fun s => qEntry (f s) e) t x) (loopLM l_max) D := by
  obtain ⟨D, h', e, hD⟩ := track_qFold ha (loopLM l_max) [] _ (memoTr_start ha)
  refine ⟨D, ?_, hD⟩
  unfold qIntegralD
  rw [e]
  simp

/-! ## The P integral -/

/-- one entry of the P integral -/
noncomputable def pEntry (eps : ℝ) (quad : ℕ → List (ℝ × ℝ)) (order : ℕ) (b r k : ℝ) (e : ℕ × ℤ) : ℝ :=
  match pTerm eps b r k e.1 e.2 with
  | none => 0
  | some (low, f) => 0.25 * k * ((quad (if low then min order 20 else order)).map fun xw => f xw.1 * xw.2).sum

/-- one entry of the P integral, with its derivative -/
noncomputable def pEntryD (eps : ℝ) (st : Bool) (quad : ℕ → List (ℝ × ℝ)) (order : ℕ) (b r k : Dual) (e : ℕ × ℤ) : Dual :=
  match pTermD eps st b r k e.1 e.2 with
  | none => const 0
  | some (low, f) => const 0.25 * k * Dual.sum ((quad (if low then min order 20 else order)).map fun xw => f xw.1 * const xw.2)

theorem pIntegral_entry (eps : ℝ) (quad : ℕ → List (ℝ × ℝ)) (order : ℕ) {l_max : ℕ} (hl : l_max ≠ 0) (b r k : ℝ) :
    pIntegral eps quad order l_max b r k = .ok ((loopLM l_max).map (pEntry eps quad order b r k)) := if_neg hl

theorem pIntegralD_entry (eps : ℝ) (st : Bool) (quad : ℕ → List (ℝ × ℝ)) (order : ℕ) {l_max : ℕ} (hl : l_max ≠ 0) (b r k : Dual) :
    pIntegralD eps st quad order l_max b r k = .ok ((loopLM l_max).map (pEntryD eps st quad order b r k)) := if_neg hl

/-- the exponents of the powers are zero or at least one -/
theorem half_nat {n : ℕ} (h : n % 2 = 0) : (0.5 * (n : ℝ)) = 0 ∨ 1 ≤ 0.5 * (n : ℝ) := by
  obtain ⟨k, rfl⟩ : ∃ k, n = 2 * k := ⟨n / 2, by omega⟩
  rcases k with _ | k
  · left; simp
  · right; push_cast; linarith [Nat.cast_nonneg (α := ℝ) k]

theorem half_nat_sub {n : ℕ} (h : n % 2 = 1) : (0.5 * ((n : ℝ) - 1)) = 0 ∨ 1 ≤ 0.5 * ((n : ℝ) - 1) := by
  obtain ⟨k, rfl⟩ : ∃ k, n = 2 * k + 1 := ⟨n / 2, by omega⟩
  rcases k with _ | k
  · left; simp
  · right; push_cast; linarith [Nat.cast_nonneg (α := ℝ) k]

theorem fin_pTermD {eps : ℝ} (he : 0 < eps) (st : Bool) {b r k : Dual} (hb : Fin b) (hr : Fin r) (hk : Fin k) (l : ℕ) (m : ℤ) (hm : m.natAbs ≤ l) :
    ∀ low f, pTermD eps st b r k l m = some (low, f) → ∀ x, Fin (f x) := by
  classical
  intro low F hF x
  have hfac : Fin (Dual.where st ((const 4 * b * r).v < 10 * eps) (const 1) (const 4 * b * r)) := by fin_tac
  have hk2 : Fin (Dual.max (const 0) ((const 1 - r.square - b.square + const 2 * b * r) /
      Dual.where st ((const 4 * b * r).v < 10 * eps) (const 1) (const 4 * b * r))) := by
    refine fin_max (fin_const _) (fin_div (by fin_tac) hfac ?_)
    simp only [mul_v, const_v, where_v]
    split_ifs with h
    · norm_num
    · exact (lt_of_lt_of_le (by positivity) (not_lt.1 h)).ne'
  have hdelta : Fin ((b - r) / (const 2 * Dual.where st (r.v < 10 * eps) (const 1) r)) := by
    refine fin_div (by fin_tac) (by fin_tac) ?_
    simp only [mul_v, const_v, where_v]
    split_ifs with h
    · norm_num
    · exact (mul_pos two_pos (lt_of_lt_of_le (by positivity) (not_lt.1 h))).ne'
  have hs2 : Fin (((const 0.25 * k * const (x + 1)).sin).square) := by fin_tac
  have hf0 : Fin ((Dual.max (const 0) (Dual.where st ((const 4 * b * r).v < 10 * eps) (const 1 - r.square)
      (Dual.where st ((const 4 * b * r).v < 10 * eps) (const 1) (const 4 * b * r) * (Dual.max (const 0) ((const 1 - r.square - b.square + const 2 * b * r) /
      Dual.where st ((const 4 * b * r).v < 10 * eps) (const 1) (const 4 * b * r)) - ((const 0.25 * k * const (x + 1)).sin).square)))).pow 1.5) :=
    fin_pow (by fin_tac) (by norm_num)
  have hfa3 := fin_mul (fin_ipow (fin_mul (fin_const 2) hr) (l - 1)) hf0
  unfold pTermD at hF
  simp only at hF
  split_ifs at hF with h1 h2 h3 h4 h5
  · obtain ⟨-, rfl⟩ := Prod.mk.inj (Option.some.inj hF)
    refine fin_where (fin_const _) (fin_mul (fin_const _) (fin_div (by fin_tac) (by fin_tac) ?_))
    simp only [mul_v, const_v, where_v]
    split_ifs with h
    · norm_num
    · exact (mul_pos three_pos (lt_of_lt_of_le (by positivity) (not_lt.1 h))).ne'
  · obtain ⟨-, rfl⟩ := Prod.mk.inj (Option.some.inj hF)
    have p1 : Fin (((((const 0.25 * k * const (x + 1)).sin).square) - ((((const 0.25 * k * const (x + 1)).sin).square)).square).pow
        (0.25 * ((((l : ℤ) - m).toNat : ℝ) + 4))) := by
      refine fin_pow (by fin_tac) ?_
      have : (0 : ℝ) ≤ (((l : ℤ) - m).toNat : ℝ) := Nat.cast_nonneg _
      linarith
    have p2 : Fin ((Dual.where st (r.v < 10 * eps) (const 0) ((b - r) / (const 2 * Dual.where st (r.v < 10 * eps) (const 1) r) +
        ((const 0.25 * k * const (x + 1)).sin).square)).pow (0.5 * (((l : ℤ) + m).toNat : ℝ))) :=
      fin_pow' (by fin_tac) (half_nat (by omega))
    have p3 := fin_ipow (fin_mul (fin_const 2) hr) (l + 2)
    fin_tac
  · obtain ⟨-, rfl⟩ := Prod.mk.inj (Option.some.inj hF)
    have p1 := fin_ipow (fin_sub hs2 (fin_square hs2)) (l / 2 - 1)
    fin_tac
  · obtain ⟨-, rfl⟩ := Prod.mk.inj (Option.some.inj hF)
    have p1 := fin_ipow (fin_sub hs2 (fin_square hs2)) ((l - 3) / 2)
    fin_tac
  · obtain ⟨-, rfl⟩ := Prod.mk.inj (Option.some.inj hF)
    have p1 := fin_ipow (fin_sub hs2 (fin_square hs2)) ((((l : ℤ) - m).toNat - 1) / 4)
    have p2 : Fin ((Dual.where st (r.v < 10 * eps) (const 0) ((b - r) / (const 2 * Dual.where st (r.v < 10 * eps) (const 1) r) +
        ((const 0.25 * k * const (x + 1)).sin).square)).pow (0.5 * ((((l : ℤ) + m).toNat : ℝ) - 1))) :=
      fin_pow' (by fin_tac) (half_nat_sub (by omega))
    fin_tac

theorem fin_pEntryD {eps : ℝ} (he : 0 < eps) (st : Bool) (quad : ℕ → List (ℝ × ℝ)) (order : ℕ) {b r k : Dual} (hb : Fin b) (hr : Fin r) (hk : Fin k)
    (e : ℕ × ℤ) (hm : e.2.natAbs ≤ e.1) : Fin (pEntryD eps st quad order b r k e) := by
  unfold pEntryD
  have h := fin_pTermD he st hb hr hk e.1 e.2 hm
  cases hp : pTermD eps st b r k e.1 e.2 with
  | none => exact fin_const _
  | some p =>
    refine fin_mul (by fin_tac) (fin_sum fun a ha => ?_)
    obtain ⟨xw, -, rfl⟩ := List.mem_map.1 ha
    exact fin_mul (h p.1 p.2 hp _) (fin_const _)

/-- `z2 * zero_safe_sqrt(z2)` for a positive part: differentiable at zero too, away from the guard of the square root -/
theorem track_relu_sqrt {eps : ℝ} (he : 0 < eps) {f : ℝ → ℝ} {a : Dual} (ha : Tracks f t a) (h : a.v ≤ 0 ∨ 10 * eps ≤ a.v) :
    Tracks (fun s => max 0 (f s) * Kepler.zeroSafeSqrt (max 0 (f s))) t
      (Dual.max (const 0) a * Dual.zeroSafeSqrt eps (Dual.max (const 0) a)) := by
  rcases h with h | h
  · have hp := LimbDark.track_relu_pow ha (y := 1.5) (by norm_num)
    have hv : (Dual.max (const 0) a).v = 0 := by simp [h]
    obtain ⟨d, hd⟩ := fin_max (fin_const 0) ha.fin
    obtain ⟨d', hd'⟩ := fin_zeroSafeSqrt eps (fin_max (fin_const 0) ha.fin)
    have hsq : (Dual.zeroSafeSqrt eps (Dual.max (const 0) a)).v = 0 := by
      rw [zeroSafeSqrt_v, hv]
      simp [Kepler.zeroSafeSqrt]
    have e : Dual.max (const 0) a * Dual.zeroSafeSqrt eps (Dual.max (const 0) a) = (Dual.max (const 0) a).pow 1.5 := by
      ext1
      · rw [mul_v, pow_v, hv, Real.zero_rpow (by norm_num), zero_mul]
      · change plus (lin (some _) _) (lin (some _) _) = _
        rw [hd, hd', hv, hsq]
        unfold Dual.pow
        simp only
        rw [if_neg (by norm_num), if_neg (by rintro ⟨-, h'⟩; norm_num at h'), hv, hd, Real.zero_rpow (by norm_num)]
        simp [lin, plus]
    rw [e]
    refine Tracks.congr hp (Eventually.of_forall fun s => ?_)
    have h0 : 0 ≤ max 0 (f s) := le_max_left _ _
    rw [show (1.5 : ℝ) = 1 + 1 / 2 by norm_num, Real.rpow_add_of_nonneg h0 (by norm_num) (by norm_num), Real.rpow_one,
      ← Real.sqrt_eq_rpow]
    rfl
  · have hm := track_max_right (track_const 0 t) ha (by simp only [const_v]; linarith)
    exact track_mul hm (track_zeroSafeSqrt he hm (by simpa [max_eq_right (show (0 : ℝ) ≤ a.v by linarith)] using h))

/-- the points at which no guard of the integrand is at its threshold -/
def NodeOk (eps b r k x : ℝ) : Prop :=
  r ^ 2 + b ^ 2 - 2 * b * r * Real.cos (2 * (0.25 * k) * x + 0.5 * k) ≠ 10 * eps ∧
  (1 - (r ^ 2 + b ^ 2 - 2 * b * r * Real.cos (2 * (0.25 * k) * x + 0.5 * k)) ≤ 0 ∨
    10 * eps ≤ 1 - (r ^ 2 + b ^ 2 - 2 * b * r * Real.cos (2 * (0.25 * k) * x + 0.5 * k)))

theorem track_pTerm {eps : ℝ} (he : 0 < eps) (st : Bool) {b r k : Dual} {fb fr fk : ℝ → ℝ} (hb : Tracks fb t b) (hr : Tracks fr t r)
    (hk : Tracks fk t k) (hfac0 : 4 * b.v * r.v ≠ 10 * eps) (hr0 : r.v ≠ 10 * eps)
    (hnum0 : 1 - r.v ^ 2 - b.v ^ 2 + 2 * b.v * r.v ≠ 0) (l : ℕ) (m : ℤ) (hm : m.natAbs ≤ l) :
    (pTermD eps st b r k l m = none ∧ ∀ s, pTerm eps (fb s) (fr s) (fk s) l m = none) ∨
    ∃ (low : Bool) (F : ℝ → Dual) (g : ℝ → ℝ → ℝ), pTermD eps st b r k l m = some (low, F) ∧
      (∀ s, pTerm eps (fb s) (fr s) (fk s) l m = some (low, g s)) ∧
      ∀ x, (low = false → NodeOk eps b.v r.v k.v x) → Tracks (fun s => g s x) t (F x) := by
  classical
  have C := fun c => track_const c t
  have hfac := track_mul (track_mul (C 4) hb) hr
  have hnum := track_add (track_sub (track_sub (C 1) (track_square hr)) (track_square hb)) (track_mul (track_mul (C 2) hb) hr)
  have hs2 := fun x => track_square (track_sin (track_mul (track_mul (C 0.25) hk) (C (x + 1))))
  -- the factor, and the flag of the guard
  obtain ⟨hw, hwpos, hsel⟩ : Tracks (fun s => if 4 * fb s * fr s < 10 * eps then 1 else 4 * fb s * fr s) t
      (Dual.where st ((const 4 * b * r).v < 10 * eps) (const 1) (const 4 * b * r)) ∧
      0 < (Dual.where st ((const 4 * b * r).v < 10 * eps) (const 1) (const 4 * b * r)).v ∧
      (∀ {f1 f2 : ℝ → ℝ} {d1 d2 : Dual}, Tracks f1 t d1 → Tracks f2 t d2 →
        Tracks (fun s => if 4 * fb s * fr s < 10 * eps then f1 s else f2 s) t (Dual.where st ((const 4 * b * r).v < 10 * eps) d1 d2)) := by
    rcases lt_or_gt_of_ne hfac0 with h | h
    · have hc : (const 4 * b * r).v < 10 * eps := h
      have hev : ∀ᶠ s in 𝓝 t, 4 * fb s * fr s < 10 * eps := hfac.ev_lt hc
      exact ⟨track_where_pos (C 1) hfac.fin hc hev, by rw [where_v, if_pos hc]; simp, fun h1 h2 => track_where_pos h1 h2.fin hc hev⟩
    · have hc : ¬ (const 4 * b * r).v < 10 * eps := not_lt.2 (le_of_lt h)
      have hev : ∀ᶠ s in 𝓝 t, ¬ 4 * fb s * fr s < 10 * eps := by
        filter_upwards [hfac.ev_gt (c := 10 * eps) h] with s hs
        exact not_lt.2 hs.le
      refine ⟨track_where_neg (fin_const 1) hfac hc hev, ?_, fun h1 h2 => track_where_neg h1.fin h2 hc hev⟩
      rw [where_v, if_neg hc]
      have : 4 * b.v * r.v > 10 * eps := h
      change 0 < 4 * b.v * r.v
      linarith
  have hdiv := track_div hnum hw hwpos.ne'
  have hk2 : Tracks (fun s => max 0 ((1 - fr s ^ 2 - fb s ^ 2 + 2 * fb s * fr s) / (if 4 * fb s * fr s < 10 * eps then 1 else 4 * fb s * fr s))) t
      (Dual.max (const 0) ((const 1 - r.square - b.square + const 2 * b * r) /
        Dual.where st ((const 4 * b * r).v < 10 * eps) (const 1) (const 4 * b * r))) := by
    rcases lt_or_gt_of_ne hnum0 with h | h
    · exact track_max_left (C 0) hdiv (by rw [div_v]; exact div_neg_of_neg_of_pos h hwpos)
    · exact track_max_right (C 0) hdiv (by rw [div_v]; exact div_pos h hwpos)
  have hf0 := fun x => LimbDark.track_relu_pow (y := 1.5) (hsel (track_sub (C 1) (track_square hr)) (track_mul hw (track_sub hk2 (hs2 x)))) (by norm_num)
  have ha1 := fun x => track_sub (hs2 x) (track_square (hs2 x))
  have ha4 := fun x => track_sub (C 1) (track_mul (C 2) (hs2 x))
  have hfa3 := fun x => track_mul (track_ipow (track_mul (C 2) hr) (l - 1)) (hf0 x)
  have ha2 : ∀ x, Tracks (fun s => if fr s < 10 * eps then 0 else (fb s - fr s) / (2 * if fr s < 10 * eps then 1 else fr s) +
      (Real.sin (0.25 * fk s * (x + 1))) ^ 2) t (Dual.where st (r.v < 10 * eps) (const 0) ((b - r) / (const 2 * Dual.where st (r.v < 10 * eps) (const 1) r) +
        ((const 0.25 * k * const (x + 1)).sin).square)) := by
    intro x
    rcases lt_or_gt_of_ne hr0 with h | h
    · have hev : ∀ᶠ s in 𝓝 t, fr s < 10 * eps := hr.ev_lt h
      have hd := track_div (track_sub hb hr) (track_mul (C 2) (track_where_pos (st := st) (g := fr) (C 1) hr.fin h hev)) (by simp [h])
      exact track_where_pos (C 0) (track_add hd (hs2 x)).fin h hev
    · have hc : ¬ r.v < 10 * eps := not_lt.2 (le_of_lt h)
      have hev : ∀ᶠ s in 𝓝 t, ¬ fr s < 10 * eps := by
        filter_upwards [hr.ev_gt (c := 10 * eps) h] with s hs
        exact not_lt.2 hs.le
      have hd := track_div (track_sub hb hr) (track_mul (C 2) (track_where_neg (st := st) (f := fun _ => 1) (fin_const 1) hr hc hev))
        (by
          simp only [mul_v, const_v, where_v, if_neg hc]
          have : r.v > 10 * eps := h
          exact (mul_pos two_pos (by linarith)).ne')
      exact track_where_neg (fin_const 0) (track_add hd (hs2 x)) hc hev
  unfold pTermD pTerm
  simp only
  by_cases h1 : ((l : ℤ) - m).toNat = 1 ∧ l = 1
  · right
    simp only [if_pos h1]
    refine ⟨_, _, _, rfl, fun s => rfl, fun x hx => ?_⟩
    obtain ⟨n1, n2⟩ := hx rfl
    have hc := track_cos (track_add (track_mul (track_mul (C 2) (track_mul (C 0.25) hk)) (C x)) (track_mul (C 0.5) hk))
    have hD := track_sub (track_add (track_square hr) (track_square hb)) (track_mul (track_mul (track_mul (C 2) hb) hr) hc)
    set D := r.square + b.square - const 2 * b * r * ((const 2 * (const 0.25 * k) * const x + const 0.5 * k).cos) with hDdef
    have hDv : D.v = r.v ^ 2 + b.v ^ 2 - 2 * b.v * r.v * Real.cos (2 * (0.25 * k.v) * x + 0.5 * k.v) := rfl
    rw [← hDv] at n1 n2
    rcases lt_or_gt_of_ne n1 with h | h
    · have hev := hD.ev_lt h
      refine track_where_pos (C 0) ?_ h hev
      have := hb.fin; have := hr.fin; have := hD.fin; have := hc.fin
      refine fin_mul (fin_const _) (fin_div (by fin_tac) (by fin_tac) ?_)
      simp only [mul_v, const_v, where_v]
      rw [if_pos (by exact h)]
      norm_num
    · have hcn : ¬ D.v < 10 * eps := not_lt.2 (le_of_lt h)
      have hev := (hD.ev_gt (c := 10 * eps) h).mono fun s hs => not_lt.2 (le_of_lt hs)
      have ho := track_where_neg (st := st) (f := fun _ => 1) (fin_const 1) hD hcn hev
      have hz := track_relu_sqrt he (track_sub (C 1) ho) (by simp only [sub_v, const_v, where_v, if_neg hcn]; exact n2)
      have hres := track_div (track_mul (track_mul (track_mul (C 2) hr) (track_sub hr (track_mul hb hc))) (track_sub (C 1) hz)) (track_mul (C 3) ho)
        (by
          simp only [mul_v, const_v, where_v, if_neg hcn]
          have : D.v > 10 * eps := h
          exact (mul_pos three_pos (by linarith)).ne')
      exact track_where_neg (fin_const 0) (track_mul (C 2) hres) hcn hev
  simp only [if_neg h1]
  by_cases h2 : ((l : ℤ) - m).toNat % 2 = 0 ∧ (((l : ℤ) - m).toNat / 2) % 2 = 0
  · right
    simp only [if_pos h2]
    refine ⟨_, _, _, rfl, fun s => rfl, fun x _ => ?_⟩
    have p1 := track_pow (y := 0.25 * ((((l : ℤ) - m).toNat : ℝ) + 4)) (ha1 x) (by
      have : (0 : ℝ) ≤ (((l : ℤ) - m).toNat : ℝ) := Nat.cast_nonneg _
      linarith)
    have p2 := track_pow' (y := 0.5 * (((l : ℤ) + m).toNat : ℝ)) (ha2 x) (half_nat (by omega))
    exact track_mul (C 2) (track_mul (track_mul (track_mul (C 2) (track_ipow (track_mul (C 2) hr) (l + 2))) p1) p2)
  simp only [if_neg h2]
  have hz : ((l : ℤ) - 1) = ((l - 1 : ℕ) : ℤ) := by omega
  simp only [hz, zpow_natCast]
  by_cases h3 : ((l : ℤ) - m).toNat = 1 ∧ l % 2 = 0
  · right
    simp only [if_pos h3]
    refine ⟨_, _, _, rfl, fun s => rfl, fun x _ => ?_⟩
    exact track_mul (C 2) (track_mul (track_mul (hfa3 x) (track_ipow (ha1 x) _)) (ha4 x))
  simp only [if_neg h3]
  by_cases h4 : ((l : ℤ) - m).toNat = 1
  · right
    simp only [if_pos h4]
    refine ⟨_, _, _, rfl, fun s => rfl, fun x _ => ?_⟩
    exact track_mul (C 2) (track_mul (track_mul (track_mul (hfa3 x) (track_ipow (ha1 x) _)) (ha2 x)) (ha4 x))
  simp only [if_neg h4]
  by_cases h5 : ((((l : ℤ) - m).toNat : ℤ) - 1) % 2 = 0 ∧ ((((l : ℤ) - m).toNat - 1) / 2) % 2 = 0
  · right
    simp only [if_pos h5]
    refine ⟨_, _, _, rfl, fun s => rfl, fun x _ => ?_⟩
    have p2 := track_pow' (y := 0.5 * ((((l : ℤ) + m).toNat : ℝ) - 1)) (ha2 x) (half_nat_sub (by omega))
    exact track_mul (C 2) (track_mul (track_mul (track_mul (C 2) (hfa3 x)) (track_ipow (ha1 x) _)) p2)
  · left
    simp only [if_neg h5]
    exact ⟨trivial, fun _ => trivial⟩

theorem track_pEntry {eps : ℝ} (he : 0 < eps) (st : Bool) (quad : ℕ → List (ℝ × ℝ)) (order : ℕ) {b r k : Dual} {fb fr fk : ℝ → ℝ} (hb : Tracks fb t b) (hr : Tracks fr t r)
    (hk : Tracks fk t k) (hfac0 : 4 * b.v * r.v ≠ 10 * eps) (hr0 : r.v ≠ 10 * eps)
    (hnum0 : 1 - r.v ^ 2 - b.v ^ 2 + 2 * b.v * r.v ≠ 0) (hn : ∀ xw ∈ quad order, NodeOk eps b.v r.v k.v xw.1) (e : ℕ × ℤ) (hm : e.2.natAbs ≤ e.1) :
    Tracks (fun s => pEntry eps quad order (fb s) (fr s) (fk s) e) t (pEntryD eps st quad order b r k e) := by
  unfold pEntry pEntryD
  rcases track_pTerm he st hb hr hk hfac0 hr0 hnum0 e.1 e.2 hm with ⟨h1, h2⟩ | ⟨low, F, g, h1, h2, h3⟩
  · simp only [h1, h2]
    exact track_const 0 t
  · simp only [h1, h2]
    refine track_mul (track_mul (track_const _ _) hk) (track_sum _ fun xw hxw => track_mul (h3 xw.1 fun hlow => ?_) (track_const _ _))
    subst hlow
    exact hn xw hxw

end Jaxoplanet.Starry
