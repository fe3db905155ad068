import Verif.Model.LegacyRotation
import Verif.Proofs.LegacyWigner
import Verif.Proofs.WignerAlg

/-!
# Lemmas for C82: the loops of `dlmn` fill the Wigner matrix and its real form
-/

namespace Jaxoplanet.Starry.Legacy
open _root_.Jaxoplanet.Starry.Spec Real Wig

/-! ### loops -/

theorem foldl_down {σ : Type} (f : σ → ℤ → σ) (I : ℤ → σ → Prop) {b : ℤ} : ∀ {a : ℤ} (s : σ), b ≤ a → I a s →
    (∀ i s, b < i → i ≤ a → I i s → I (i - 1) (f s i)) → I b ((rangeDown a b).foldl f s) := by
  intro a s hab h hs
  obtain ⟨n, hn⟩ : ∃ n : ℕ, (a - b).toNat = n := ⟨_, rfl⟩
  induction n generalizing a s with
  | zero =>
    obtain rfl : a = b := by omega
    rw [rangeDown_nil le_rfl]; exact h
  | succ n ih =>
    rw [rangeDown_cons (by omega), List.foldl_cons]
    exact ih (f s a) (by omega) (hs a s (by omega) le_rfl h) (fun i s h1 h2 => hs i s h1 (by omega)) (by omega)

theorem foldl_up {σ : Type} (f : σ → ℤ → σ) (I : ℤ → σ → Prop) {b : ℤ} : ∀ {a : ℤ} (s : σ), a ≤ b → I a s →
    (∀ i s, a ≤ i → i < b → I i s → I (i + 1) (f s i)) → I b ((rangeUp a b).foldl f s) := by
  intro a s hab h hs
  obtain ⟨n, hn⟩ : ∃ n : ℕ, (b - a).toNat = n := ⟨_, rfl⟩
  induction n generalizing a s with
  | zero =>
    obtain rfl : a = b := by omega
    rw [rangeUp_nil le_rfl]; exact h
  | succ n ih =>
    rw [rangeUp_cons (by omega), List.foldl_cons]
    exact ih (f s a) (by omega) (hs a s le_rfl (by omega) h) (fun i s h1 h2 => hs i s (by omega) h2) (by omega)

/-- the entries of `A` in the region `P` are those of `W` -/
def AgreeOn (W : Mat) (P : ℤ → ℤ → Prop) (A : Mat) : Prop := ∀ r c, P r c → A r c = W r c

theorem AgreeOn.put {W A : Mat} {P : ℤ → ℤ → Prop} (h : AgreeOn W P A) {r c : ℤ} {v : ℝ} (hv : v = W r c) :
    AgreeOn W (fun r' c' => P r' c' ∨ (r' = r ∧ c' = c)) (put A r c v) := by
  intro r' c' hp
  unfold Legacy.put
  split_ifs with hc
  · rw [hv, hc.1, hc.2]
  · exact h _ _ (hp.resolve_right hc)

theorem AgreeOn.mono {W A : Mat} {P Q : ℤ → ℤ → Prop} (h : AgreeOn W P A) (hq : ∀ r c, Q r c → P r c) : AgreeOn W Q A :=
  fun r c hc => h r c (hq r c hc)

/-- the whole block of degree `l` -/
def Block (l : ℤ) (r c : ℤ) : Prop := |r| ≤ l ∧ |c| ≤ l

/-- the matrices of the degrees below `l` -/
def Below (c s : ℝ) (l : ℕ) (D : List Mat) : Prop :=
  D.length = l ∧ ∀ j < l, AgreeOn (wd c s j) (Block j) (D.getD j fun _ _ => 0)

theorem lastRow_ok {c s t c2 : ℝ} (hcs : c ^ 2 + s ^ 2 = 1) (h2 : c2 = c ^ 2 - s ^ 2) (ht : c ≠ 0 → t * c = s) {l : ℕ} (hl : 1 ≤ l)
    {D : List Mat} (hD : Below c s l D) :
    AgreeOn (wd c s l) (fun r c => r = l ∧ -(l : ℤ) ≤ c ∧ c ≤ l) (lastRow l c2 t D) := by
  have hprev := hD.2 (l - 1) (by omega)
  have e1 : fromEnd D 1 = D.getD (l - 1) fun _ _ => 0 := by unfold fromEnd; rw [hD.1]
  have hcast : ((l - 1 : ℕ) : ℤ) = (l : ℤ) - 1 := by omega
  rw [hcast] at hprev
  unfold lastRow
  simp only
  have start : AgreeOn (wd c s l) (fun r c' => r = l ∧ (l : ℤ) - 1 < c' ∧ c' ≤ l)
      (put (fun _ _ => 0) l l (0.5 * fromEnd D 1 (-(1 - (l : ℤ))) (-(1 - (l : ℤ))) * (1 + c2))) := by
    have : AgreeOn (wd c s l) (fun _ _ => False) (fun _ _ => 0) := fun r c h => h.elim
    refine (this.put ?_).mono (fun r c' h => Or.inr ⟨h.1, by omega⟩)
    rw [e1, show -(1 - (l : ℤ)) = (l : ℤ) - 1 by ring, hprev _ _ ⟨by rw [abs_of_nonneg (by omega)], by rw [abs_of_nonneg (by omega)]⟩,
      wd_top c s (by omega), wd_top c s (by omega), h2, show ((l : ℤ)).toNat = ((l : ℤ) - 1).toNat + 1 by omega, pow_succ]
    linear_combination -(0.5 : ℝ) * (c ^ 2) ^ ((l : ℤ) - 1).toNat * hcs
  have loop := foldl_down (fun (D_ : Mat) (m : ℤ) => put D_ l m (-t * √(((l : ℝ) + m + 1) / (l - m)) * D_ l (m + 1)))
    (fun m A => AgreeOn (wd c s l) (fun r c' => r = l ∧ m < c' ∧ c' ≤ l) A) (a := -(1 - (l : ℤ))) (b := 1 - (l : ℤ) - 1) _ (by omega)
    (start.mono fun r c' h => ⟨h.1, by omega, h.2.2⟩) (fun m A h1 h2 hA => by
      refine (hA.put ?_).mono (fun r c' h => ?_)
      · rw [hA l (m + 1) ⟨rfl, by omega, by omega⟩]
        have := wd_last_step ht (l := (l : ℤ)) (m := m) (by omega) (by omega)
        rw [this]
        push_cast
        ring
      · by_cases hc : c' = m
        · exact Or.inr ⟨h.1, hc⟩
        · exact Or.inl ⟨h.1, by omega, h.2.2⟩)
  refine (loop.put ?_).mono (fun r c' h => ?_)
  · rw [show -(1 - (l : ℤ)) = (l : ℤ) - 1 by ring, hprev _ _ ⟨by rw [abs_of_nonneg (by omega)], by rw [abs_neg, abs_of_nonneg (by omega)]⟩,
      wd_corner c s (by omega), wd_corner c s (by omega), h2, show ((l : ℤ)).toNat = ((l : ℤ) - 1).toNat + 1 by omega, pow_succ]
    linear_combination -(0.5 : ℝ) * (s ^ 2) ^ ((l : ℤ) - 1).toNat * hcs
  · by_cases hc : c' = -(l : ℤ)
    · exact Or.inr ⟨h.1, hc⟩
    · exact Or.inl ⟨h.1, by omega, h.2.2⟩

theorem triEntry_ok {c s c2 : ℝ} (hcs : c ^ 2 + s ^ 2 = 1) (h2 : c2 = c ^ 2 - s ^ 2) {l : ℕ} (hl : 2 ≤ l) {D : List Mat}
    (hD : Below c s l D) {mp m : ℤ} (h1 : |m| ≤ mp) (h3 : mp ≤ (l : ℤ) - 1) : triEntry l c2 D mp m = wd c s l mp m := by
  have a1 := abs_le.1 h1
  have key := wd_rec hcs l mp m (by omega) h1 h3
  have p1 := hD.2 (l - 1) (by omega)
  have p2 := hD.2 (l - 2) (by omega)
  have e1 : fromEnd D 1 = D.getD (l - 1) fun _ _ => 0 := by unfold fromEnd; rw [hD.1]
  have e2 : fromEnd D 2 = D.getD (l - 2) fun _ _ => 0 := by unfold fromEnd; rw [hD.1]
  rw [show ((l - 1 : ℕ) : ℤ) = (l : ℤ) - 1 by omega] at p1
  rw [show ((l - 2 : ℕ) : ℤ) = (l : ℤ) - 2 by omega] at p2
  have q1 : (0 : ℝ) < (l + mp) * (l - mp) := by
    have h1 : (0 : ℝ) < l + mp := by exact_mod_cast (by omega : 0 < (l : ℤ) + mp)
    have h2 : (0 : ℝ) < l - mp := by exact_mod_cast (by omega : 0 < (l : ℤ) - mp)
    positivity
  have q2 : (0 : ℝ) < (l + m) * (l - m) := by
    have h1 : (0 : ℝ) < l + m := by exact_mod_cast (by omega : 0 < (l : ℤ) + m)
    have h2 : (0 : ℝ) < l - m := by exact_mod_cast (by omega : 0 < (l : ℤ) - m)
    positivity
  have q3 : (0 : ℝ) < (l : ℝ) - 1 := by
    have : (2 : ℝ) ≤ l := by exact_mod_cast hl
    linarith
  have n1 := (sqrt_pos.2 q1).ne'
  have n2 := (sqrt_pos.2 q2).ne'
  unfold triEntry
  simp only
  rw [e1, p1 mp m ⟨by rw [abs_le]; omega, by rw [abs_le]; omega⟩]
  push_cast at key ⊢
  rw [h2]
  by_cases hm : mp ≤ (l : ℤ) - 2
  · rw [if_pos hm] at key
    rw [if_pos ⟨by omega, by omega⟩, e2, p2 mp m ⟨by rw [abs_le]; omega, by rw [abs_le]; omega⟩]
    have hw : wd c s l mp m = (((l : ℝ) - 1) * √((l + mp) * (l - mp) : ℝ) * √((l + m) * (l - m) : ℝ) * wd c s l mp m) /
        (((l : ℝ) - 1) * √((l + mp) * (l - mp) : ℝ) * √((l + m) * (l - m) : ℝ)) := by
      field_simp
    rw [hw, key]
    field_simp
    ring
  · rw [if_neg hm] at key
    rw [if_neg (by omega)]
    have hw : wd c s l mp m = (((l : ℝ) - 1) * √((l + mp) * (l - mp) : ℝ) * √((l + m) * (l - m) : ℝ) * wd c s l mp m) /
        (((l : ℝ) - 1) * √((l + mp) * (l - mp) : ℝ) * √((l + m) * (l - m) : ℝ)) := by
      field_simp
    rw [hw, key]
    field_simp
    ring

theorem triangle_ok {c s c2 : ℝ} (hcs : c ^ 2 + s ^ 2 = 1) (h2 : c2 = c ^ 2 - s ^ 2) {l : ℕ} (hl : 2 ≤ l) {D : List Mat}
    (hD : Below c s l D) {A : Mat} (hA : AgreeOn (wd c s l) (fun r c => r = l ∧ -(l : ℤ) ≤ c ∧ c ≤ l) A) :
    AgreeOn (wd c s l) (fun r c => 0 ≤ r ∧ r ≤ l ∧ |c| ≤ r) (triangle l c2 D A) := by
  unfold triangle
  have loop := foldl_down (fun (st : Mat × ℤ × ℤ) (mp : ℤ) =>
    ((rangeDown st.2.2 (st.2.1 - 1)).foldl (fun (D_ : Mat) (m : ℤ) => put D_ mp m (triEntry l c2 D mp m)) st.1,
      st.2.1 + 1, st.2.2 - 1))
    (fun mp st => st.2.1 = -mp ∧ st.2.2 = mp ∧ AgreeOn (wd c s l) (fun r c => mp < r ∧ r ≤ l ∧ |c| ≤ r) st.1)
    (a := (l : ℤ) - 1) (b := -1) (A, 1 - (l : ℤ), -(1 - (l : ℤ))) (by omega)
    ⟨by simp, by simp, hA.mono fun r c h => ⟨by omega, abs_le.1 (by rw [show (l : ℤ) = r by omega]; exact h.2.2)⟩⟩
    (fun mp st h1 h3 ⟨i1, i2, i3⟩ => by
      refine ⟨by simp only; omega, by simp only; omega, ?_⟩
      have inner := foldl_down (fun (D_ : Mat) (m : ℤ) => put D_ mp m (triEntry l c2 D mp m))
        (fun m A => AgreeOn (wd c s l) (fun r c => (mp < r ∧ r ≤ l ∧ |c| ≤ r) ∨ (r = mp ∧ m < c ∧ c ≤ mp)) A)
        (a := st.2.2) (b := st.2.1 - 1) st.1 (by omega)
        (i3.mono fun r c h => by rcases h with h | h; exacts [h, by omega])
        (fun m A h4 h5 hA => by
          refine (hA.put (triEntry_ok hcs h2 hl hD (by rw [abs_le]; omega) h3)).mono fun r c h => ?_
          rcases h with h | h
          · exact Or.inl (Or.inl h)
          · by_cases hc : c = m
            · exact Or.inr ⟨h.1, hc⟩
            · exact Or.inl (Or.inr ⟨h.1, by omega, h.2.2⟩))
      refine inner.mono fun r c h => ?_
      have := abs_le.1 h.2.2
      by_cases hr : r = mp
      · exact Or.inr ⟨hr, by omega, by omega⟩
      · exact Or.inl ⟨by omega, h.2.1, h.2.2⟩)
  exact loop.2.2.mono fun r c h => ⟨by omega, h.2.1, h.2.2⟩

theorem neg_one_natAbs (k : ℤ) : (-1 : ℝ) ^ (k + 1).natAbs = (-1) ^ k.natAbs * -1 := by
  rw [← pow_succ]
  exact pow_parity (by rw [Nat.even_iff]; omega)

theorem neg_one_natAbs_congr {a b : ℤ} (h : (a + b) % 2 = 0) : (-1 : ℝ) ^ a.natAbs = (-1) ^ b.natAbs :=
  pow_parity (by rw [Nat.even_iff]; omega)

theorem reflect_ok {c s : ℝ} {l : ℕ} {A : Mat} (hA : AgreeOn (wd c s l) (fun r c => 0 ≤ r ∧ r ≤ l ∧ |c| ≤ r) A) :
    AgreeOn (wd c s l) (fun r c => (0 ≤ r ∧ r ≤ l ∧ |c| ≤ r) ∨ (0 < c ∧ c ≤ l ∧ -c ≤ r ∧ r ≤ c - 1)) (reflect l A) := by
  unfold reflect
  simp only
  have loop := foldl_down (fun (st : Mat × ℝ × ℤ × ℤ) (m : ℤ) =>
    let inner := (rangeUp st.2.2.1 (st.2.2.2 + 1)).foldl (fun (s : Mat × ℝ) (mp : ℤ) =>
      (put s.1 mp m (s.2 * s.1 m mp), s.2 * (-1))) (st.1, st.2.1)
    (inner.1, inner.2, st.2.2.1 + 1, st.2.2.2 - 1))
    (fun m st => st.2.1 = 1 ∧ st.2.2.1 = -m ∧ st.2.2.2 = m - 1 ∧
      AgreeOn (wd c s l) (fun r c => (0 ≤ r ∧ r ≤ l ∧ |c| ≤ r) ∨ (m < c ∧ c ≤ l ∧ -c ≤ r ∧ r ≤ c - 1)) st.1)
    (a := (l : ℤ)) (b := 0) (A, 1, -(l : ℤ), (l : ℤ) - 1) (by omega)
    ⟨rfl, rfl, rfl, hA.mono fun r c h => by rcases h with h | h; exacts [h, by omega]⟩
    (fun m st h1 h3 ⟨i1, i2, i3, i4⟩ => by
      have inner := foldl_up (fun (s : Mat × ℝ) (mp : ℤ) => (put s.1 mp m (s.2 * s.1 m mp), s.2 * (-1)))
        (fun mp s' => s'.2 = (-1) ^ (mp + m).natAbs ∧ AgreeOn (wd c s l) (fun r c => ((0 ≤ r ∧ r ≤ l ∧ |c| ≤ r) ∨
          (m < c ∧ c ≤ l ∧ -c ≤ r ∧ r ≤ c - 1)) ∨ (c = m ∧ -m ≤ r ∧ r < mp)) s'.1)
        (a := st.2.2.1) (b := st.2.2.2 + 1) (st.1, st.2.1) (by omega)
        ⟨by rw [i2, i1]; simp, i4.mono fun r c h => by rcases h with h | h; exacts [h, by omega]⟩
        (fun mp s' h4 h5 ⟨j1, j2⟩ => by
          refine ⟨by rw [show mp + 1 + m = mp + m + 1 by ring, neg_one_natAbs, ← j1], (j2.put ?_).mono fun r c h => ?_⟩
          · rw [j2 m mp (Or.inl (Or.inl ⟨by omega, h3, by rw [abs_le]; omega⟩)), j1, wd_reflect c s l mp m]
            congr 1
            exact neg_one_natAbs_congr (by omega)
          · rcases h with h | h
            · exact Or.inl (Or.inl h)
            · by_cases hr : r = mp
              · exact Or.inr ⟨hr, h.1⟩
              · exact Or.inl (Or.inr ⟨h.1, h.2.1, by omega⟩))
      refine ⟨?_, by simp only; omega, by simp only; omega, inner.2.mono fun r c h => ?_⟩
      · simp only
        rw [inner.1, i3]
        exact Even.neg_one_pow (by rw [Nat.even_iff]; omega)
      · rcases h with h | h
        · exact Or.inl (Or.inl h)
        · by_cases hc : c = m
          · exact Or.inr ⟨hc, by omega, by omega⟩
          · exact Or.inl (Or.inr ⟨by omega, h.2.1, h.2.2⟩))
  exact loop.2.2.2

theorem invert_ok {c s : ℝ} {l : ℕ} {A : Mat} (hA : AgreeOn (wd c s l) (fun r c => (0 ≤ r ∧ r ≤ l ∧ |c| ≤ r) ∨
    (0 < c ∧ c ≤ l ∧ -c ≤ r ∧ r ≤ c - 1)) A) : AgreeOn (wd c s l) (Block l) (invert l A) := by
  unfold invert
  simp only
  have loop := foldl_down (fun (st : Mat × ℤ) (m : ℤ) =>
    let inner := (rangeDown st.2 (-(l : ℤ) - 1)).foldl (fun (s : Mat × ℝ) (mp : ℤ) =>
      (put s.1 mp m (s.2 * s.1 (-mp) (-m)), s.2 * (-1))) (st.1, (-1 : ℝ))
    (inner.1, st.2 + 1))
    (fun m st => st.2 = -(m + 1) ∧ AgreeOn (wd c s l) (fun r c => ((0 ≤ r ∧ r ≤ l ∧ |c| ≤ r) ∨ (0 < c ∧ c ≤ l ∧ -c ≤ r ∧ r ≤ c - 1)) ∨
      (m < c ∧ c ≤ (l : ℤ) - 1 ∧ -(l : ℤ) ≤ r ∧ r ≤ -(c + 1))) st.1)
    (a := (l : ℤ) - 1) (b := -((l : ℤ) + 1)) (A, -(l : ℤ)) (by omega)
    ⟨by simp, hA.mono fun r c h => by rcases h with h | h; exacts [h, by omega]⟩
    (fun m st h1 h3 ⟨i1, i2⟩ => by
      have inner := foldl_down (fun (s : Mat × ℝ) (mp : ℤ) => (put s.1 mp m (s.2 * s.1 (-mp) (-m)), s.2 * (-1)))
        (fun mp s' => s'.2 = (-1) ^ (m - mp).natAbs ∧ AgreeOn (wd c s l) (fun r c => (((0 ≤ r ∧ r ≤ l ∧ |c| ≤ r) ∨
          (0 < c ∧ c ≤ l ∧ -c ≤ r ∧ r ≤ c - 1)) ∨ (m < c ∧ c ≤ (l : ℤ) - 1 ∧ -(l : ℤ) ≤ r ∧ r ≤ -(c + 1))) ∨
          (c = m ∧ mp < r ∧ r ≤ -(m + 1))) s'.1)
        (a := st.2) (b := -(l : ℤ) - 1) (st.1, (-1 : ℝ)) (by omega)
        ⟨by rw [i1]; exact (Odd.neg_one_pow (by rw [Nat.odd_iff]; omega)).symm,
          i2.mono fun r c h => by rcases h with h | h; exacts [h, by omega]⟩
        (fun mp s' h4 h5 ⟨j1, j2⟩ => by
          refine ⟨by rw [show m - (mp - 1) = m - mp + 1 by ring, neg_one_natAbs, ← j1], (j2.put ?_).mono fun r c h => ?_⟩
          · rw [j2 (-mp) (-m) ?_, j1, wd_invert c s l mp m]
            refine Or.inl (Or.inl ?_)
            rw [abs_le]
            omega
          · rcases h with h | h
            · exact Or.inl (Or.inl h)
            · by_cases hr : r = mp
              · exact Or.inr ⟨hr, h.1⟩
              · exact Or.inl (Or.inr ⟨h.1, by omega, h.2.2⟩))
      refine ⟨by simp only; omega, inner.2.mono fun r c h => ?_⟩
      rcases h with h | h
      · exact Or.inl (Or.inl h)
      · by_cases hc : c = m
        · exact Or.inr ⟨hc, by omega, by omega⟩
        · exact Or.inl (Or.inr ⟨by omega, h.2.1, h.2.2⟩))
  refine loop.2.mono fun r c h => ?_
  obtain ⟨h1, h2⟩ := h
  rw [abs_le] at h1 h2
  rw [abs_le]
  omega

theorem dlmn_D {c s t c2 : ℝ} (hcs : c ^ 2 + s ^ 2 = 1) (h2 : c2 = c ^ 2 - s ^ 2) (ht : c ≠ 0 → t * c = s) {l : ℕ} (hl : 2 ≤ l)
    {D : List Mat} (hD : Below c s l D) (s1 c1 s3 c3 : ℝ) : AgreeOn (wd c s l) (Block l) (dlmn l s1 c1 c2 t s3 c3 D).1 :=
  invert_ok (reflect_ok (triangle_ok hcs h2 hl hD (lastRow_ok hcs h2 ht (by omega) hD)))

/-! ### the real matrix -/

/-- an entry of the complex matrix -/
noncomputable def wz (l : ℤ) (α β γ : ℝ) (a b : ℤ) : ℂ :=
  Complex.exp (-1 * Complex.I * ((a * α : ℝ) : ℂ)) * (wd (cos (β / 2)) (sin (β / 2)) l a b : ℂ) *
    Complex.exp (-1 * Complex.I * ((b * γ : ℝ) : ℂ))

/-- the real rotation matrix of degree `l` -/
noncomputable def Vmat (l : ℕ) (α β γ : ℝ) : Mat := fun r c => Mp.fooMat l α β γ (r + l).toNat (c + l).toNat

theorem foo_sum (l : ℕ) (α β γ : ℝ) (r c : ℤ) (hr : r.natAbs ≤ l) (hc : c.natAbs ≤ l) : Vmat l α β γ r c =
    (∑ a ∈ Finset.range (2 * l + 1), ∑ b ∈ Finset.range (2 * l + 1), (starRingEnd ℂ) (Umn ((a : ℤ) - l) r) *
      (wz l α β γ ((a : ℤ) - l) ((b : ℤ) - l) * Umn ((b : ℤ) - l) c)).re := by
  unfold Vmat Mp.fooMat
  rw [dif_pos ⟨by omega, by omega⟩, Mp.U_inv]
  congr 1
  rw [Matrix.mul_assoc, Matrix.mul_apply, ← Fin.sum_univ_eq_sum_range (fun a => ∑ b ∈ Finset.range (2 * l + 1), _)]
  refine Finset.sum_congr rfl fun a _ => ?_
  rw [← Finset.mul_sum, Matrix.mul_apply, ← Fin.sum_univ_eq_sum_range (fun b => wz l α β γ _ ((b : ℤ) - l) * Umn ((b : ℤ) - l) c)]
  have ha := a.2
  congr 1
  · rw [Matrix.conjTranspose_apply, Mp.U, Matrix.of_apply]
    simp only [starRingEnd_apply]
    congr 2
    omega
  · refine Finset.sum_congr rfl fun b _ => ?_
    have hb := b.2
    rw [Mp.Dw, Matrix.of_apply, Mp.U, Matrix.of_apply, wd_wsum _ _ _ _ _ (by omega) (by omega)]
    unfold wz
    dsimp only
    rw [show (((c + (l : ℤ)).toNat : ℕ) : ℤ) - l = c by omega]

theorem foo_pm (l : ℕ) (α β γ : ℝ) (r c : ℤ) (hr : r.natAbs ≤ l) (hc : c.natAbs ≤ l) : Vmat l α β γ r c =
    (if r = 0 then (if c = 0 then (starRingEnd ℂ) (Umn 0 r) * (wz l α β γ 0 0 * Umn 0 c)
        else (starRingEnd ℂ) (Umn 0 r) * (wz l α β γ 0 c * Umn c c) + (starRingEnd ℂ) (Umn 0 r) * (wz l α β γ 0 (-c) * Umn (-c) c))
      else (if c = 0 then (starRingEnd ℂ) (Umn r r) * (wz l α β γ r 0 * Umn 0 c)
        else (starRingEnd ℂ) (Umn r r) * (wz l α β γ r c * Umn c c) + (starRingEnd ℂ) (Umn r r) * (wz l α β γ r (-c) * Umn (-c) c)) +
        (if c = 0 then (starRingEnd ℂ) (Umn (-r) r) * (wz l α β γ (-r) 0 * Umn 0 c)
        else (starRingEnd ℂ) (Umn (-r) r) * (wz l α β γ (-r) c * Umn c c) + (starRingEnd ℂ) (Umn (-r) r) * (wz l α β γ (-r) (-c) * Umn (-c) c))).re := by
  rw [foo_sum l α β γ r c hr hc]
  congr 1
  have inner : ∀ a : ℤ, ∑ b ∈ Finset.range (2 * l + 1), (starRingEnd ℂ) (Umn a r) * (wz l α β γ a ((b : ℤ) - l) * Umn ((b : ℤ) - l) c) =
      if c = 0 then (starRingEnd ℂ) (Umn a r) * (wz l α β γ a 0 * Umn 0 c)
        else (starRingEnd ℂ) (Umn a r) * (wz l α β γ a c * Umn c c) + (starRingEnd ℂ) (Umn a r) * (wz l α β γ a (-c) * Umn (-c) c) := by
    intro a
    rw [sum_pm l c hc (fun m => (starRingEnd ℂ) (Umn a r) * (wz l α β γ a m * Umn m c)) (fun m h1 h2 => by
      rw [Umn_zero m c h1 h2, mul_zero, mul_zero])]
  simp only [inner]
  rw [sum_pm l r hr (fun a => if c = 0 then (starRingEnd ℂ) (Umn a r) * (wz l α β γ a 0 * Umn 0 c)
        else (starRingEnd ℂ) (Umn a r) * (wz l α β γ a c * Umn c c) + (starRingEnd ℂ) (Umn a r) * (wz l α β γ a (-c) * Umn (-c) c))
        (fun m h1 h2 => by rw [Umn_zero m r h1 h2]; simp)]

theorem expI (x : ℝ) : Complex.exp (-1 * Complex.I * (x : ℂ)) = ⟨cos x, -sin x⟩ := by
  rw [show -1 * Complex.I * (x : ℂ) = ((-x : ℝ) : ℂ) * Complex.I by push_cast; ring, Complex.exp_mul_I, ← Complex.ofReal_cos,
    ← Complex.ofReal_sin, cos_neg, sin_neg]
  apply Complex.ext <;> simp [Complex.cos_ofReal_re, Complex.sin_ofReal_re]

theorem inv_sqrt2 : (1 : ℂ) / ((√2 : ℝ) : ℂ) = ((√2 / 2 : ℝ) : ℂ) := by
  have h : √2 * √2 = (2 : ℝ) := mul_self_sqrt (by norm_num)
  have h0 : (√2 : ℝ) ≠ 0 := by positivity
  rw [← Complex.ofReal_one, ← Complex.ofReal_div]
  congr 1
  field_simp
  linarith

variable {l : ℕ} {α β γ : ℝ}

local notation "w" => wd (cos (β / 2)) (sin (β / 2)) (l : ℤ)

theorem V_00 : Vmat l α β γ 0 0 = w 0 0 := by
  rw [foo_pm l α β γ 0 0 (by simp) (by simp), if_pos rfl, if_pos rfl, Umn_00]
  simp [wz]

theorem sgn_cases (n : ℕ) : ((-1 : ℝ)) ^ n = 1 ∧ ((-1 : ℂ)) ^ n = 1 ∨ ((-1 : ℝ)) ^ n = -1 ∧ ((-1 : ℂ)) ^ n = -1 := by
  rcases Nat.even_or_odd n with h | h
  · exact Or.inl ⟨h.neg_one_pow, h.neg_one_pow⟩
  · exact Or.inr ⟨h.neg_one_pow, h.neg_one_pow⟩

theorem Umn_real (n : ℤ) (hn : 0 < n) :
    Umn n n = ⟨(-1) ^ n.natAbs * (√2 / 2), 0⟩ ∧ Umn (-n) n = ⟨√2 / 2, 0⟩ ∧
    Umn n (-n) = ⟨0, -((-1) ^ n.natAbs * (√2 / 2))⟩ ∧ Umn (-n) (-n) = ⟨0, √2 / 2⟩ := by
  obtain ⟨v1, v2, v3, v4⟩ := Umn_vals n hn
  have k := inv_sqrt2
  generalize √2 / 2 = K at *
  rw [div_eq_mul_one_div, k] at v1 v3 v4
  rw [k] at v2
  rw [v1, v2, v3, v4]
  rcases sgn_cases n.natAbs with ⟨h, h'⟩ | ⟨h, h'⟩ <;> rw [h, h'] <;> refine ⟨?_, ?_, ?_, ?_⟩ <;> apply Complex.ext <;> simp

theorem wz_eq (a b : ℤ) : wz l α β γ a b = ⟨cos (a * α), -sin (a * α)⟩ * (w a b : ℂ) * ⟨cos (b * γ), -sin (b * γ)⟩ := by
  unfold wz
  rw [expI, expI]

theorem wz_neg (a b : ℤ) : wz l α β γ (-a) b = ⟨cos (a * α), sin (a * α)⟩ * (w (-a) b : ℂ) * ⟨cos (b * γ), -sin (b * γ)⟩ := by
  rw [wz_eq]; push_cast; rw [neg_mul, cos_neg, sin_neg, neg_neg]

theorem wz_neg' (a b : ℤ) : wz l α β γ a (-b) = ⟨cos (a * α), -sin (a * α)⟩ * (w a (-b) : ℂ) * ⟨cos (b * γ), sin (b * γ)⟩ := by
  rw [wz_eq]; push_cast; rw [neg_mul, cos_neg, sin_neg, neg_neg]

theorem wz_neg2 (a b : ℤ) : wz l α β γ (-a) (-b) = ⟨cos (a * α), sin (a * α)⟩ * (w (-a) (-b) : ℂ) * ⟨cos (b * γ), sin (b * γ)⟩ := by
  rw [wz_neg]; push_cast; rw [neg_mul, cos_neg, sin_neg, neg_neg]

theorem wz_zero (b : ℤ) : wz l α β γ 0 b = (w 0 b : ℂ) * ⟨cos (b * γ), -sin (b * γ)⟩ := by
  rw [wz_eq]; simp only [Int.cast_zero, zero_mul, cos_zero, sin_zero, neg_zero]
  rw [show (⟨1, 0⟩ : ℂ) = 1 from rfl, one_mul]

theorem wz_zero' (a : ℤ) : wz l α β γ a 0 = ⟨cos (a * α), -sin (a * α)⟩ * (w a 0 : ℂ) := by
  rw [wz_eq]; simp only [Int.cast_zero, zero_mul, cos_zero, sin_zero, neg_zero]
  rw [show (⟨1, 0⟩ : ℂ) = 1 from rfl, mul_one]

theorem wz_zeron (b : ℤ) : wz l α β γ 0 (-b) = (w 0 (-b) : ℂ) * ⟨cos (b * γ), sin (b * γ)⟩ := by
  rw [wz_zero]; push_cast; rw [neg_mul, cos_neg, sin_neg, neg_neg]

theorem wz_zeron' (a : ℤ) : wz l α β γ (-a) 0 = ⟨cos (a * α), sin (a * α)⟩ * (w (-a) 0 : ℂ) := by
  rw [wz_zero']; push_cast; rw [neg_mul, cos_neg, sin_neg, neg_neg]

/-- signs under reflection and inversion for one zero index -/
theorem w_zero (n : ℤ) : w n 0 = (-1) ^ n.natAbs * w 0 n ∧ w (-n) 0 = w 0 n ∧ w 0 (-n) = w n 0 := by
  refine ⟨?_, ?_, ?_⟩
  · rw [wd_reflect]; congr 1; exact neg_one_natAbs_congr (by omega)
  · rw [wd_reflect, wd_invert, neg_neg, neg_zero, ← mul_assoc, ← pow_add, Even.neg_one_pow (by rw [Nat.even_iff]; omega), one_mul]
  · rw [wd_invert, wd_reflect, neg_neg, neg_zero, ← mul_assoc, ← pow_add, Even.neg_one_pow (by rw [Nat.even_iff]; omega), one_mul]

theorem V_col {n : ℤ} (h0 : 0 < n) (h1 : n ≤ l) :
    Vmat l α β γ n 0 = √2 * w 0 n * cos (n * α) ∧ Vmat l α β γ (-n) 0 = √2 * w 0 n * sin (n * α) := by
  obtain ⟨v1, v2, v3, v4⟩ := Umn_real n h0
  obtain ⟨z1, z2, z3⟩ := w_zero (l := l) (β := β) n
  constructor
  · rw [foo_pm l α β γ n 0 (by omega) (by simp), if_neg h0.ne', if_pos rfl, if_pos rfl, Umn_00, v1, v2, wz_zeron' n, wz_zero' n, z1, z2]
    simp only [Complex.add_re, Complex.mul_re, Complex.mul_im, Complex.conj_re, Complex.conj_im, Complex.ofReal_re, Complex.ofReal_im,
      Complex.one_re, Complex.one_im]
    rcases sgn_cases n.natAbs with ⟨h, -⟩ | ⟨h, -⟩ <;> rw [h] <;> ring
  · rw [foo_pm l α β γ (-n) 0 (by omega) (by simp), if_neg (by omega), if_pos rfl, if_pos rfl, Umn_00, neg_neg, v3, v4, wz_zeron' n, wz_zero' n,
      z1, z2]
    simp only [Complex.add_re, Complex.mul_re, Complex.mul_im, Complex.conj_re, Complex.conj_im, Complex.ofReal_re, Complex.ofReal_im,
      Complex.one_re, Complex.one_im]
    rcases sgn_cases n.natAbs with ⟨h, -⟩ | ⟨h, -⟩ <;> rw [h] <;> ring

theorem V_row {n : ℤ} (h0 : 0 < n) (h1 : n ≤ l) :
    Vmat l α β γ 0 n = √2 * w n 0 * cos (n * γ) ∧ Vmat l α β γ 0 (-n) = -(√2 * w n 0) * sin (n * γ) := by
  obtain ⟨v1, v2, v3, v4⟩ := Umn_real n h0
  obtain ⟨z1, z2, z3⟩ := w_zero (l := l) (β := β) n
  constructor
  · rw [foo_pm l α β γ 0 n (by simp) (by omega), if_pos rfl, if_neg h0.ne', Umn_00, v1, v2, wz_zeron n, wz_zero n, z3, z1]
    simp only [Complex.add_re, Complex.mul_re, Complex.mul_im, Complex.conj_re, Complex.conj_im, Complex.ofReal_re, Complex.ofReal_im,
      Complex.one_re, Complex.one_im]
    rcases sgn_cases n.natAbs with ⟨h, -⟩ | ⟨h, -⟩ <;> rw [h] <;> ring
  · rw [foo_pm l α β γ 0 (-n) (by simp) (by omega), if_pos rfl, if_neg (by omega), Umn_00, neg_neg, v3, v4, wz_zeron n, wz_zero n, z3, z1]
    simp only [Complex.add_re, Complex.mul_re, Complex.mul_im, Complex.conj_re, Complex.conj_im, Complex.ofReal_re, Complex.ofReal_im,
      Complex.one_re, Complex.one_im]
    rcases sgn_cases n.natAbs with ⟨h, -⟩ | ⟨h, -⟩ <;> rw [h] <;> ring

theorem V_block {p q : ℤ} (hp0 : 0 < p) (hp : p ≤ l) (hq0 : 0 < q) (hq : q ≤ l) :
    Vmat l α β γ p q = w (-p) (-q) * (cos (p * α) * cos (q * γ) - sin (p * α) * sin (q * γ)) +
      (-1) ^ p.natAbs * w p (-q) * (cos (p * α) * cos (q * γ) + sin (p * α) * sin (q * γ)) ∧
    Vmat l α β γ p (-q) = -w (-p) (-q) * (sin (p * α) * cos (q * γ) + cos (p * α) * sin (q * γ)) +
      (-1) ^ p.natAbs * w p (-q) * (sin (p * α) * cos (q * γ) - cos (p * α) * sin (q * γ)) ∧
    Vmat l α β γ (-p) q = w (-p) (-q) * (sin (p * α) * cos (q * γ) + cos (p * α) * sin (q * γ)) +
      (-1) ^ p.natAbs * w p (-q) * (sin (p * α) * cos (q * γ) - cos (p * α) * sin (q * γ)) ∧
    Vmat l α β γ (-p) (-q) = w (-p) (-q) * (cos (p * α) * cos (q * γ) - sin (p * α) * sin (q * γ)) -
      (-1) ^ p.natAbs * w p (-q) * (cos (p * α) * cos (q * γ) + sin (p * α) * sin (q * γ)) := by
  obtain ⟨v1, v2, v3, v4⟩ := Umn_real p hp0
  obtain ⟨u1, u2, u3, u4⟩ := Umn_real q hq0
  have sg : (-1 : ℝ) ^ (q - p).natAbs = (-1) ^ p.natAbs * (-1) ^ q.natAbs := by
    rw [← pow_add]; exact pow_parity (by rw [Nat.even_iff]; omega)
  have i1 : w p q = (-1) ^ p.natAbs * (-1) ^ q.natAbs * w (-p) (-q) := by rw [wd_invert, sg]
  have i2 : w (-p) q = (-1) ^ p.natAbs * (-1) ^ q.natAbs * w p (-q) := by
    rw [wd_invert, neg_neg, ← sg]; congr 1; exact neg_one_natAbs_congr (by omega)
  have h2 : √2 * √2 = (2 : ℝ) := mul_self_sqrt (by norm_num)
  have hK : √2 / 2 * (√2 / 2) = (1 / 2 : ℝ) := by linarith
  generalize √2 / 2 = K at *
  refine ⟨?_, ?_, ?_, ?_⟩
  · rw [foo_pm l α β γ p q (by omega) (by omega), if_neg (by omega), if_neg (by omega), if_neg (by omega), v1, v2, u1, u2, wz_eq p q,
      wz_neg' p q, wz_neg p q, wz_neg2, i1, i2]
    simp only [Complex.add_re, Complex.mul_re, Complex.mul_im, Complex.conj_re, Complex.conj_im, Complex.ofReal_re, Complex.ofReal_im]
    rcases sgn_cases p.natAbs with ⟨h, -⟩ | ⟨h, -⟩ <;> rcases sgn_cases q.natAbs with ⟨h', -⟩ | ⟨h', -⟩ <;> rw [h, h'] <;> (first | linear_combination 2 * (w (-p) (-q) * (cos (p * α) * cos (q * γ) - sin (p * α) * sin (q * γ)) + 1 * w p (-q) * (cos (p * α) * cos (q * γ) + sin (p * α) * sin (q * γ))) * hK | linear_combination 2 * (w (-p) (-q) * (cos (p * α) * cos (q * γ) - sin (p * α) * sin (q * γ)) + (-1) * w p (-q) * (cos (p * α) * cos (q * γ) + sin (p * α) * sin (q * γ))) * hK)
  · rw [foo_pm l α β γ p (-q) (by omega) (by omega), if_neg (by omega), if_neg (by omega), if_neg (by omega), neg_neg, v1, v2, u3, u4,
      wz_eq p q, wz_neg' p q, wz_neg p q, wz_neg2, i1, i2]
    simp only [Complex.add_re, Complex.mul_re, Complex.mul_im, Complex.conj_re, Complex.conj_im, Complex.ofReal_re, Complex.ofReal_im]
    rcases sgn_cases p.natAbs with ⟨h, -⟩ | ⟨h, -⟩ <;> rcases sgn_cases q.natAbs with ⟨h', -⟩ | ⟨h', -⟩ <;> rw [h, h'] <;> (first | linear_combination 2 * (-w (-p) (-q) * (sin (p * α) * cos (q * γ) + cos (p * α) * sin (q * γ)) + 1 * w p (-q) * (sin (p * α) * cos (q * γ) - cos (p * α) * sin (q * γ))) * hK | linear_combination 2 * (-w (-p) (-q) * (sin (p * α) * cos (q * γ) + cos (p * α) * sin (q * γ)) + (-1) * w p (-q) * (sin (p * α) * cos (q * γ) - cos (p * α) * sin (q * γ))) * hK)
  · rw [foo_pm l α β γ (-p) q (by omega) (by omega), if_neg (by omega), if_neg (by omega), if_neg (by omega), neg_neg, v3, v4, u1, u2,
      wz_eq p q, wz_neg' p q, wz_neg p q, wz_neg2, i1, i2]
    simp only [Complex.add_re, Complex.mul_re, Complex.mul_im, Complex.conj_re, Complex.conj_im, Complex.ofReal_re, Complex.ofReal_im]
    rcases sgn_cases p.natAbs with ⟨h, -⟩ | ⟨h, -⟩ <;> rcases sgn_cases q.natAbs with ⟨h', -⟩ | ⟨h', -⟩ <;> rw [h, h'] <;> (first | linear_combination 2 * (w (-p) (-q) * (sin (p * α) * cos (q * γ) + cos (p * α) * sin (q * γ)) + 1 * w p (-q) * (sin (p * α) * cos (q * γ) - cos (p * α) * sin (q * γ))) * hK | linear_combination 2 * (w (-p) (-q) * (sin (p * α) * cos (q * γ) + cos (p * α) * sin (q * γ)) + (-1) * w p (-q) * (sin (p * α) * cos (q * γ) - cos (p * α) * sin (q * γ))) * hK)
  · rw [foo_pm l α β γ (-p) (-q) (by omega) (by omega), if_neg (by omega), if_neg (by omega), if_neg (by omega), neg_neg, neg_neg, v3, v4,
      u3, u4, wz_eq p q, wz_neg' p q, wz_neg p q, wz_neg2, i1, i2]
    simp only [Complex.add_re, Complex.mul_re, Complex.mul_im, Complex.conj_re, Complex.conj_im, Complex.ofReal_re, Complex.ofReal_im]
    rcases sgn_cases p.natAbs with ⟨h, -⟩ | ⟨h, -⟩ <;> rcases sgn_cases q.natAbs with ⟨h', -⟩ | ⟨h', -⟩ <;> rw [h, h'] <;> (first | linear_combination 2 * (w (-p) (-q) * (cos (p * α) * cos (q * γ) - sin (p * α) * sin (q * γ)) - 1 * w p (-q) * (cos (p * α) * cos (q * γ) + sin (p * α) * sin (q * γ))) * hK | linear_combination 2 * (w (-p) (-q) * (cos (p * α) * cos (q * γ) - sin (p * α) * sin (q * γ)) - (-1) * w p (-q) * (cos (p * α) * cos (q * γ) + sin (p * α) * sin (q * γ))) * hK)

theorem realMatrix_ok {D_ : Mat} (hl : 1 ≤ l) (hD : AgreeOn (wd (cos (β / 2)) (sin (β / 2)) (l : ℤ)) (Block l) D_) :
    AgreeOn (Vmat l α β γ) (Block l) (realMatrix l (sin α) (cos α) (sin γ) (cos γ) D_) := by
  have hw : ∀ a b : ℤ, |a| ≤ l → |b| ≤ l → D_ a b = w a b := fun a b h1 h2 => hD a b ⟨h1, h2⟩
  have addc : ∀ (m : ℤ) (x : ℝ), cos (m * x) * cos x - sin (m * x) * sin x = cos (((m + 1 : ℤ) : ℝ) * x) := by
    intro m x; push_cast; rw [add_mul, one_mul, cos_add]
  have adds : ∀ (m : ℤ) (x : ℝ), sin (m * x) * cos x + cos (m * x) * sin x = sin (((m + 1 : ℤ) : ℝ) * x) := by
    intro m x; push_cast; rw [add_mul, one_mul, sin_add]
  unfold realMatrix
  simp only
  have start : AgreeOn (Vmat l α β γ) (fun r c => r = 0 ∧ c = 0) (put (fun _ _ => 0) 0 0 (D_ 0 0)) := by
    have : AgreeOn (Vmat l α β γ) (fun _ _ => False) (fun _ _ => 0) := fun r c h => h.elim
    refine (this.put ?_).mono (fun r c' h => Or.inr h)
    rw [V_00, hw 0 0 (by simp) (by simp)]
  have loop := foldl_up (fun (st : Mat × ℝ × ℝ × ℝ) (mp : ℤ) =>
    let cosmal := st.2.1
    let sinmal := st.2.2.1
    let sign := st.2.2.2
    let aux := √2 * D_ 0 mp
    let R_ := put st.1 mp 0 (aux * cosmal)
    let R_ := put R_ (-mp) 0 (aux * sinmal)
    let inner := (rangeUp 1 ((l : ℤ) + 1)).foldl (realInner D_ (cos γ) (sin γ) cosmal sinmal sign mp) (R_, cos γ, sin γ)
    (inner.1, cosmal * cos α - sinmal * sin α, sinmal * cos α + cosmal * sin α, sign * (-1)))
    (fun mp st => st.2.1 = cos (mp * α) ∧ st.2.2.1 = sin (mp * α) ∧ st.2.2.2 = (-1) ^ mp.natAbs ∧
      AgreeOn (Vmat l α β γ) (fun r c => |r| < mp ∧ |c| ≤ l ∧ (r ≠ 0 ∨ c = 0 ∨ 1 < mp)) st.1)
    (a := 1) (b := (l : ℤ) + 1) (put (fun _ _ => 0) 0 0 (D_ 0 0), cos α, sin α, (-1 : ℝ)) (by omega)
    ⟨by simp, by simp, by simp, start.mono fun r c h => by
      have := abs_lt.1 h.1
      refine ⟨by omega, ?_⟩
      omega⟩
    (fun mp st h1 h2 ⟨i1, i2, i3, i4⟩ => by
      have hmp : 0 < mp := by omega
      obtain ⟨vc, vs⟩ := V_col (α := α) (β := β) (γ := γ) hmp (show mp ≤ l by omega)
      have amp : |mp| ≤ (l : ℤ) := by rw [abs_le]; omega
      have amp' : |-mp| ≤ (l : ℤ) := by rw [abs_neg]; exact amp
      have s0 : AgreeOn (Vmat l α β γ) (fun r c => (|r| < mp ∧ |c| ≤ l ∧ (r ≠ 0 ∨ c = 0 ∨ 1 < mp)) ∨ (r = mp ∧ c = 0) ∨ (r = -mp ∧ c = 0))
          (put (put st.1 mp 0 (√2 * D_ 0 mp * st.2.1)) (-mp) 0 (√2 * D_ 0 mp * st.2.2.1)) := by
        refine ((i4.put ?_).put ?_).mono fun r c h => ?_
        · rw [vc, hw 0 mp (by simp) amp, i1]
        · rw [vs, hw 0 mp (by simp) amp, i2]
        · rcases h with h | h | h
          · exact Or.inl (Or.inl h)
          · exact Or.inl (Or.inr h)
          · exact Or.inr h
      have inner := foldl_up (realInner D_ (cos γ) (sin γ) st.2.1 st.2.2.1 st.2.2.2 mp)
        (fun m s' => s'.2.1 = cos (m * γ) ∧ s'.2.2 = sin (m * γ) ∧ AgreeOn (Vmat l α β γ) (fun r c =>
          (|r| < mp ∧ |c| ≤ l ∧ (r ≠ 0 ∨ c = 0 ∨ 1 < mp)) ∨ ((r = mp ∨ r = -mp) ∧ |c| < m) ∨ (r = 0 ∧ |c| < m)) s'.1)
        (a := 1) (b := (l : ℤ) + 1) (put (put st.1 mp 0 (√2 * D_ 0 mp * st.2.1)) (-mp) 0 (√2 * D_ 0 mp * st.2.2.1), cos γ, sin γ) (by omega)
        ⟨by simp, by simp, s0.mono fun r c h => by
          rcases h with h | h | h
          · exact Or.inl h
          · have := abs_lt.1 h.2
            rcases h.1 with h' | h'
            · exact Or.inr (Or.inl ⟨h', by omega⟩)
            · exact Or.inr (Or.inr ⟨h', by omega⟩)
          · have := abs_lt.1 h.2
            have c0 : c = 0 := by omega
            refine Or.inl ⟨by rw [h.1, abs_zero]; exact hmp, by rw [c0, abs_zero]; omega, Or.inr (Or.inl c0)⟩⟩
        (fun m s' h3 h4 ⟨j1, j2, j3⟩ => by
          have hm : 0 < m := by omega
          obtain ⟨rc, rs⟩ := V_row (α := α) (β := β) (γ := γ) hm (show m ≤ l by omega)
          obtain ⟨b1, b2, b3, b4⟩ := V_block (α := α) (β := β) (γ := γ) hmp (show mp ≤ l by omega) hm (show m ≤ l by omega)
          have am : |m| ≤ (l : ℤ) := by rw [abs_le]; omega
          have am' : |-m| ≤ (l : ℤ) := by rw [abs_neg]; exact am
          unfold realInner
          simp only
          refine ⟨by rw [j1, j2, addc], by rw [j1, j2, adds], ?_⟩
          refine ((((((j3.put ?_).put ?_).put ?_).put ?_).put ?_).put ?_).mono fun r c h => ?_
          · rw [rc, hw m 0 am (by simp), j1]
          · rw [rs, hw m 0 am (by simp), j2]
          · rw [b1, hw (-mp) (-m) amp' am', hw mp (-m) amp am', i1, i2, i3, j1, j2]
          · rw [b2, hw (-mp) (-m) amp' am', hw mp (-m) amp am', i1, i2, i3, j1, j2]
          · rw [b3, hw (-mp) (-m) amp' am', hw mp (-m) amp am', i1, i2, i3, j1, j2]
          · rw [b4, hw (-mp) (-m) amp' am', hw mp (-m) amp am', i1, i2, i3, j1, j2]
          · by_cases hc : |c| < m
            · left; left; left; left; left; left
              rcases h with h | h | h
              · exact Or.inl h
              · exact Or.inr (Or.inl ⟨h.1, hc⟩)
              · exact Or.inr (Or.inr ⟨h.1, hc⟩)
            · rcases h with h | h | h
              · left; left; left; left; left; left
                exact Or.inl h
              · have hc' := abs_lt.1 h.2
                rw [abs_lt] at hc
                omega
              · have hc' := abs_lt.1 h.2
                rw [abs_lt] at hc
                omega)
      refine ⟨by simp only; rw [i1, i2, addc], by simp only; rw [i1, i2, adds], by simp only; rw [i3, neg_one_natAbs], ?_⟩
      refine inner.2.2.mono fun r c h => ?_
      have hr := abs_lt.1 h.1
      have hc := abs_le.1 h.2.1
      by_cases h5 : r = mp ∨ r = -mp
      · exact Or.inr (Or.inl ⟨h5, by rw [abs_lt]; omega⟩)
      · by_cases h6 : r = 0
        · exact Or.inr (Or.inr ⟨h6, by rw [abs_lt]; omega⟩)
        · exact Or.inl ⟨by rw [abs_lt]; omega, h.2.1, Or.inl h6⟩)
  refine loop.2.2.2.mono fun r c h => ⟨?_, h.2, Or.inr (Or.inr (by omega))⟩
  have := h.1
  omega

/-! ### degrees 0 and 1 -/

theorem wd_00 (c s : ℝ) : wd c s 0 0 0 = 1 := by
  rw [wd_top c s le_rfl]; simp

theorem wd_one {c s : ℝ} : wd c s 1 1 1 = c ^ 2 ∧ wd c s 1 1 0 = -(√2 * c * s) ∧ wd c s 1 1 (-1) = s ^ 2 ∧
    wd c s 1 0 1 = √2 * c * s ∧ wd c s 1 0 0 = c ^ 2 - s ^ 2 ∧ wd c s 1 0 (-1) = -(√2 * c * s) ∧
    wd c s 1 (-1) 1 = s ^ 2 ∧ wd c s 1 (-1) 0 = √2 * c * s ∧ wd c s 1 (-1) (-1) = c ^ 2 := by
  have a : wd c s 1 1 1 = c ^ 2 := by rw [wd_top c s (by norm_num)]; simp
  have b : wd c s 1 1 (-1) = s ^ 2 := by rw [wd_corner c s (by norm_num)]; simp
  have d : wd c s 1 1 0 = -(√2 * c * s) := by
    rw [wd_last c s 1 0 (by norm_num)]
    simp [wnorm, fact, invFact]
    ring
  have e : wd c s 1 0 0 = c ^ 2 - s ^ 2 := by
    rw [wd_jac 1 0 0 (by norm_num) (by norm_num)]
    simp [wnorm, fact, invFact, jac, jt, Finset.sum_range_succ]
    ring
  refine ⟨a, d, b, ?_, e, ?_, ?_, ?_, ?_⟩
  · rw [wd_reflect, d]; norm_num
  · rw [wd_invert]; norm_num [d]
    rw [wd_reflect, d]; norm_num
  · rw [wd_invert]; norm_num [b]
  · rw [wd_invert]; norm_num [d]
  · rw [wd_invert]; norm_num [a]

/-! ### `rotar` -/

theorem tan_half {eps β : ℝ} (h0 : 0 < eps) (h : sin β = 0 ∨ 10 * eps ≤ |sin β|) :
    cos (β / 2) ≠ 0 → (if |sin β| < 10 * eps then sin β else (1 - cos β) / sin β) * cos (β / 2) = sin (β / 2) := by
  intro hc
  have h2 : sin β = 2 * sin (β / 2) * cos (β / 2) := by rw [← sin_two_mul]; ring_nf
  have h1 := sin_sq_add_cos_sq (β / 2)
  have h3 : cos β = 2 * cos (β / 2) ^ 2 - 1 := by rw [← cos_two_mul]; ring_nf
  rcases h with h | h
  · rw [if_pos (by rw [h, abs_zero]; linarith), h, zero_mul]
    rw [h2] at h
    rcases mul_eq_zero.1 h with h | h
    · linarith
    · exact absurd h hc
  · rw [if_neg (by linarith)]
    have hs : sin β ≠ 0 := by intro h'; rw [h', abs_zero] at h; linarith
    have hs2 : sin (β / 2) ≠ 0 := by intro h'; rw [h2, h'] at hs; simp at hs
    rw [h2, h3, div_mul_eq_mul_div, div_eq_iff (mul_ne_zero (mul_ne_zero two_ne_zero hs2) hc)]
    linear_combination (-2 * cos (β / 2)) * h1

/-- the list `R` contains the real rotation matrices of the degrees below `n` -/
def RealBelow (α β γ : ℝ) (n : ℕ) (R : List Mat) : Prop :=
  R.length = n ∧ ∀ j < n, AgreeOn (Vmat j α β γ) (Block j) (R.getD j fun _ _ => 0)

theorem Below.snoc {c s : ℝ} {n : ℕ} {D : List Mat} (h : Below c s n D) {A : Mat} (hA : AgreeOn (wd c s n) (Block n) A) :
    Below c s (n + 1) (D ++ [A]) := by
  refine ⟨by simp [h.1], fun j hj => ?_⟩
  by_cases hjn : j = n
  · subst hjn
    rw [List.getD_append_right _ _ _ _ (by rw [h.1]), h.1]
    simpa using hA
  · rw [List.getD_append _ _ _ _ (by rw [h.1]; omega)]
    exact h.2 j (by omega)

theorem RealBelow.snoc {α β γ : ℝ} {n : ℕ} {D : List Mat} (h : RealBelow α β γ n D) {A : Mat} (hA : AgreeOn (Vmat n α β γ) (Block n) A) :
    RealBelow α β γ (n + 1) (D ++ [A]) := by
  refine ⟨by simp [h.1], fun j hj => ?_⟩
  by_cases hjn : j = n
  · subst hjn
    rw [List.getD_append_right _ _ _ _ (by rw [h.1]), h.1]
    simpa using hA
  · rw [List.getD_append _ _ _ _ (by rw [h.1]; omega)]
    exact h.2 j (by omega)

theorem block_zero {A : Mat} {W : Mat} (h : A 0 0 = W 0 0) : AgreeOn W (Block 0) A := by
  rintro r c ⟨h1, h2⟩
  rw [abs_nonpos_iff.1 h1, abs_nonpos_iff.1 h2, h]

theorem block_one {a00 a01 a02 a10 a11 a12 a20 a21 a22 : ℝ} {W : Mat} (h00 : a00 = W (-1) (-1)) (h01 : a01 = W (-1) 0) (h02 : a02 = W (-1) 1)
    (h10 : a10 = W 0 (-1)) (h11 : a11 = W 0 0) (h12 : a12 = W 0 1) (h20 : a20 = W 1 (-1)) (h21 : a21 = W 1 0) (h22 : a22 = W 1 1) :
    AgreeOn W (Block 1) (mat3 a00 a01 a02 a10 a11 a12 a20 a21 a22) := by
  rintro r c ⟨h1, h2⟩
  rw [abs_le] at h1 h2
  obtain hr | hr | hr : r = -1 ∨ r = 0 ∨ r = 1 := by omega
  all_goals
    obtain hc | hc | hc : c = -1 ∨ c = 0 ∨ c = 1 := by omega
    all_goals
      subst hr hc
      simp [mat3, *]

theorem rotar_ok {eps α β γ : ℝ} (h0 : 0 < eps) (h : sin β = 0 ∨ 10 * eps ≤ |sin β|) (ydeg : ℕ) :
    Below (cos (β / 2)) (sin (β / 2)) (ydeg + 1) (rotar eps ydeg (cos α) (sin α) (cos β) (sin β) (cos γ) (sin γ)).1 ∧
    RealBelow α β γ (ydeg + 1) (rotar eps ydeg (cos α) (sin α) (cos β) (sin β) (cos γ) (sin γ)).2 := by
  have hcs : cos (β / 2) ^ 2 + sin (β / 2) ^ 2 = 1 := cos_sq_add_sin_sq _
  have h2 : sin β = 2 * sin (β / 2) * cos (β / 2) := by rw [← sin_two_mul]; ring_nf
  have h3 : cos β = cos (β / 2) ^ 2 - sin (β / 2) ^ 2 := by rw [← cos_two_mul']; ring_nf
  have zD : Below (cos (β / 2)) (sin (β / 2)) 1 [fun _ _ => 1] := by
    refine ⟨rfl, fun j hj => ?_⟩
    obtain rfl : j = 0 := by omega
    exact block_zero (by simpa using (wd_00 _ _).symm)
  have zR : RealBelow α β γ 1 [fun _ _ => 1] := by
    refine ⟨rfl, fun j hj => ?_⟩
    obtain rfl : j = 0 := by omega
    refine block_zero ?_
    rw [V_00]
    simpa using (wd_00 _ _).symm
  unfold rotar
  split_ifs with hy
  · subst hy; exact ⟨zD, zR⟩
  simp only
  obtain ⟨w1, w2, w3, w4, w5, w6, w7, w8, w9⟩ := wd_one (c := cos (β / 2)) (s := sin (β / 2))
  have q2 : √2 * √2 = (2 : ℝ) := mul_self_sqrt (by norm_num)
  have qn : √2 ≠ (0 : ℝ) := by positivity
  have hs2 : sin β / √2 = √2 * cos (β / 2) * sin (β / 2) := by
    rw [div_eq_iff qn, h2]; linear_combination (-cos (β / 2) * sin (β / 2)) * q2
  have hp : 0.5 * (1 + cos β) = cos (β / 2) ^ 2 := by rw [h3]; linear_combination -(0.5 : ℝ) * hcs
  have hm : 0.5 * (1 - cos β) = sin (β / 2) ^ 2 := by rw [h3]; linear_combination -(0.5 : ℝ) * hcs
  have oD : Below (cos (β / 2)) (sin (β / 2)) 2 ([fun _ _ => 1] ++ [mat3 (0.5 * (1 + cos β)) (-(-sin β / √2)) (0.5 * (1 - cos β))
      (-sin β / √2) (0.5 * (1 + cos β) - 0.5 * (1 - cos β)) (-(-sin β / √2)) (0.5 * (1 - cos β)) (-sin β / √2) (0.5 * (1 + cos β))]) := by
    refine zD.snoc (block_one ?_ ?_ ?_ ?_ ?_ ?_ ?_ ?_ ?_)
    all_goals push_cast; simp only [w1, w2, w3, w4, w5, w6, w7, w8, w9, hp, hm, neg_div, hs2, neg_neg]
  have c1 : ((1 : ℕ) : ℤ) = 1 := rfl
  obtain ⟨vc, vs⟩ := V_col (l := 1) (α := α) (β := β) (γ := γ) (n := 1) one_pos (by norm_num)
  obtain ⟨rc, rs⟩ := V_row (l := 1) (α := α) (β := β) (γ := γ) (n := 1) one_pos (by norm_num)
  obtain ⟨b1, b2, b3, b4⟩ := V_block (l := 1) (α := α) (β := β) (γ := γ) (p := 1) (q := 1) one_pos (by norm_num) one_pos (by norm_num)
  have v0 := V_00 (l := 1) (α := α) (β := β) (γ := γ)
  rw [c1] at vc vs rc rs b1 b2 b3 b4 v0
  simp only [w2, w3, w4, w5, w9, Int.cast_one, one_mul, Int.natAbs_one, pow_one] at vc vs rc rs b1 b2 b3 b4 v0
  have oR : RealBelow α β γ 2 ([fun _ _ => 1] ++ [mat3
      (0.5 * (1 + cos β) * (cos α * cos γ - sin α * sin γ) + 0.5 * (1 - cos β) * (cos α * cos γ + sin α * sin γ))
      (√2 * -(-sin β / √2) * sin α)
      (0.5 * (1 + cos β) * (sin α * cos γ + cos α * sin γ) - 0.5 * (1 - cos β) * (sin α * cos γ - cos α * sin γ))
      (-√2 * (-sin β / √2) * sin γ)
      (0.5 * (1 + cos β) - 0.5 * (1 - cos β))
      (√2 * (-sin β / √2) * cos γ)
      (-(0.5 * (1 + cos β)) * (sin α * cos γ + cos α * sin γ) - 0.5 * (1 - cos β) * (sin α * cos γ - cos α * sin γ))
      (√2 * -(-sin β / √2) * cos α)
      (0.5 * (1 + cos β) * (cos α * cos γ - sin α * sin γ) - 0.5 * (1 - cos β) * (cos α * cos γ + sin α * sin γ))]) := by
    refine zR.snoc (block_one ?_ ?_ ?_ ?_ ?_ ?_ ?_ ?_ ?_)
    all_goals
      first | rw [b4] | rw [vs] | rw [b3] | rw [rs] | rw [v0] | rw [rc] | rw [b2] | rw [vc] | rw [b1]
      simp only [hp, hm, neg_div, hs2, neg_neg] <;> ring
  obtain ⟨n, rfl⟩ : ∃ n, ydeg = n + 1 := ⟨ydeg - 1, by omega⟩
  rw [Nat.add_sub_cancel]
  clear hy
  have ht := tan_half h0 h
  induction n with
  | zero => exact ⟨oD, oR⟩
  | succ n ih =>
    rw [List.range_succ, List.foldl_append]
    simp only [List.foldl_cons, List.foldl_nil]
    generalize List.foldl _ _ _ = st at ih ⊢
    have hd := dlmn_D hcs h3 ht (l := n + 2) (by omega) ih.1 (sin α) (cos α) (sin γ) (cos γ)
    exact ⟨ih.1.snoc hd, ih.2.snoc (realMatrix_ok (by omega) hd)⟩

/-! ### the Euler angles -/

set_option maxHeartbeats 1000000 in
theorem euler_unit {eps u1 u2 u3 theta : ℝ} (h0 : 0 < eps) (h01 : 10 * eps ≤ 1) (hn : u1 ^ 2 + u2 ^ 2 + u3 ^ 2 = 1) (r : ℝ)
    (hr : r = cos theta + u3 * u3 * (1 - cos theta)) (h : r = 1 ∨ r = -1 ∨ (10 * eps ≤ |r - 1| ∧ 10 * eps ≤ |r + 1|)) :
    ∃ α β γ, eulerCS eps u1 u2 u3 theta = some (cos α, sin α, cos β, sin β, cos γ, sin γ) ∧ (sin β = 0 ∨ 10 * eps ≤ |sin β|) ∧
      ∀ p, rotZ α (rotY β (rotZ γ p)) = rotAxis (u1, u2, u3) theta p := by
  have hcs : cos theta ^ 2 + sin theta ^ 2 = 1 := cos_sq_add_sin_sq _
  obtain ⟨n1, n2, n3⟩ := Mp.axis_norms hn hcs
  have hc1 := cos_le_one theta
  have hnorm : √(u1 * u1 + u2 * u2 + u3 * u3) = 1 := by rw [show u1 * u1 + u2 * u2 + u3 * u3 = 1 by linarith, sqrt_one]
  unfold eulerCS
  simp only [hnorm, one_ne_zero, if_false, div_one, ← hr, Mp.axis_matrix]
  generalize cos theta = c at *
  generalize sin theta = s at *
  rw [← hr] at n1 n2 n3
  have c00 : (c + u2 * u2 * (1 - c)) * r - (u2 * u3 * (1 - c) - u1 * s) * (u3 * u2 * (1 - c) + u1 * s) = c + u1 * u1 * (1 - c) := by
    rw [hr]; linear_combination c * (1 - c) * hn + u1 ^ 2 * hcs
  have c11 : (c + u1 * u1 * (1 - c)) * r - (u1 * u3 * (1 - c) + u2 * s) * (u3 * u1 * (1 - c) - u2 * s) = c + u2 * u2 * (1 - c) := by
    rw [hr]; linear_combination c * (1 - c) * hn + u2 ^ 2 * hcs
  have c01 : (u2 * u3 * (1 - c) - u1 * s) * (u3 * u1 * (1 - c) - u2 * s) - (u2 * u1 * (1 - c) + u3 * s) * r = u1 * u2 * (1 - c) - u3 * s := by
    rw [hr]; linear_combination (-s * u3 * (1 - c)) * hn + u1 * u2 * hcs
  have c10 : (u1 * u3 * (1 - c) + u2 * s) * (u3 * u2 * (1 - c) + u1 * s) - (u1 * u2 * (1 - c) - u3 * s) * r = u2 * u1 * (1 - c) + u3 * s := by
    rw [hr]; linear_combination (s * u3 * (1 - c)) * hn + u1 * u2 * hcs
  have col : (u1 * u2 * (1 - c) - u3 * s) ^ 2 + (c + u2 * u2 * (1 - c)) ^ 2 + (u3 * u2 * (1 - c) + u1 * s) ^ 2 = 1 := by
    linear_combination (u2 ^ 2 * (1 - c) ^ 2 + s ^ 2) * hn + (1 - u2 ^ 2) * hcs
  generalize u3 * u1 * (1 - c) - u2 * s = a20 at *
  generalize u3 * u2 * (1 - c) + u1 * s = a21 at *
  generalize u1 * u3 * (1 - c) + u2 * s = a02 at *
  generalize u2 * u3 * (1 - c) - u1 * s = a12 at *
  generalize u1 * u2 * (1 - c) - u3 * s = a01 at *
  generalize u2 * u1 * (1 - c) + u3 * s = a10 at *
  generalize c + u1 * u1 * (1 - c) = a00 at *
  generalize c + u2 * u2 * (1 - c) = a11 at *
  have zero : r ^ 2 = 1 → a20 = 0 ∧ a21 = 0 ∧ a02 = 0 ∧ a12 = 0 := by
    intro h
    rw [h, sub_self] at n1 n2
    have k : ∀ a b : ℝ, a * a + b * b = 0 → a = 0 ∧ b = 0 := fun a b h =>
      ⟨mul_self_eq_zero.1 (by linarith [mul_self_nonneg a, mul_self_nonneg b]), mul_self_eq_zero.1 (by linarith [mul_self_nonneg a, mul_self_nonneg b])⟩
    exact ⟨(k _ _ n1).1, (k _ _ n1).2, (k _ _ n2).1, (k _ _ n2).2⟩
  rcases h with h | h | ⟨h1, h2⟩
  · obtain ⟨z1, z2, z3, z4⟩ := zero (by rw [h]; norm_num)
    subst h z1 z2 z3 z4
    have hneg : ¬ |(1 : ℝ) + 1| < 10 * eps := by rw [abs_of_pos (by norm_num)]; linarith
    obtain ⟨g1, g2⟩ := Mp.arctan2_unit (x := a11) (y := -a01) (by linarith)
    refine ⟨0, 0, arctan2 (-a01) a11, ?_, Or.inl sin_zero, fun p => ?_⟩
    · rw [g1, g2]
      simp [hneg, h0]
    · unfold rotZ rotY
      simp only [g1, g2, cos_zero, sin_zero, Prod.mk.injEq]
      refine ⟨?_, ?_, ?_⟩
      · linear_combination p.1 * c00
      · linear_combination p.1 * c10
      · ring
  · obtain ⟨z1, z2, z3, z4⟩ := zero (by rw [h]; norm_num)
    subst h z1 z2 z3 z4
    have hpos : ¬ |(-1 : ℝ) - 1| < 10 * eps := by rw [abs_of_neg (by norm_num)]; linarith
    obtain ⟨g1, g2⟩ := Mp.arctan2_unit (x := a11) (y := a01) (by linarith)
    refine ⟨0, π, arctan2 a01 a11, ?_, Or.inl sin_pi, fun p => ?_⟩
    · rw [g1, g2]
      simp [hpos, h0]
    · unfold rotZ rotY
      simp only [g1, g2, cos_zero, sin_zero, cos_pi, sin_pi, Prod.mk.injEq]
      refine ⟨?_, ?_, ?_⟩
      · linear_combination p.1 * c00
      · linear_combination p.1 * c10
      · ring
  · have hneg : ¬ |r + 1| < 10 * eps := by linarith
    have hpos : ¬ |r - 1| < 10 * eps := by linarith
    have hge : 10 * eps ≤ 1 - r ^ 2 := by
      have b1 : r ≤ 1 ∧ -1 ≤ r := by
        have : 0 ≤ 1 - r ^ 2 := by rw [← n1]; nlinarith [mul_self_nonneg a20, mul_self_nonneg a21]
        constructor <;> nlinarith
      rw [abs_of_nonpos (by linarith)] at h1
      rw [abs_of_nonneg (by linarith)] at h2
      rcases le_total 0 r with hr0 | hr0 <;> nlinarith
    have hpos' : 0 < 1 - r ^ 2 := by linarith
    have hSp := sqrt_pos.2 hpos'
    have hS := hSp.ne'
    have hS2 : √(1 - r ^ 2) ^ 2 = 1 - r ^ 2 := sq_sqrt hpos'.le
    have hSe : 10 * eps ≤ √(1 - r ^ 2) := by
      apply le_sqrt_of_sq_le
      nlinarith
    simp only [hneg, hpos, or_self, if_false, not_false_eq_true, true_and, n1, n2, show r * r = r ^ 2 by ring]
    rw [if_neg (by tauto)]
    generalize √(1 - r ^ 2) = S at *
    obtain ⟨b1, b2⟩ := Mp.arctan2_unit (x := r) (y := S) (by linarith)
    obtain ⟨g1, g2⟩ := Mp.arctan2_unit (x := -a20 / S) (y := a21 / S) (by field_simp; rw [hS2]; linarith)
    obtain ⟨f1, f2⟩ := Mp.arctan2_unit (x := a02 / S) (y := a12 / S) (by field_simp; rw [hS2]; linarith)
    refine ⟨_, _, _, ?_, ?_, fun p => Mp.zyz_matrix hS c00 c11 c01 c10 hS2 f1 f2 b1 b2 g1 g2 p⟩
    · rw [f1, f2, b1, b2, g1, g2]
    · rw [b2, abs_of_pos hSp]; exact Or.inr hSe

theorem euler_scale {eps x y z theta : ℝ} (h : √(x * x + y * y + z * z) ≠ 0) :
    eulerCS eps x y z theta = eulerCS eps (x / √(x * x + y * y + z * z)) (y / √(x * x + y * y + z * z)) (z / √(x * x + y * y + z * z)) theta := by
  have h2 : √(x * x + y * y + z * z) ^ 2 = x * x + y * y + z * z := sq_sqrt (by nlinarith [mul_self_nonneg x, mul_self_nonneg y, mul_self_nonneg z])
  generalize hn : √(x * x + y * y + z * z) = n at *
  have e : x / n * (x / n) + y / n * (y / n) + z / n * (z / n) = 1 := by field_simp; linarith
  unfold eulerCS
  rw [hn, e, sqrt_one]
  simp only [h, if_false, one_ne_zero, div_one]

end Jaxoplanet.Starry.Legacy
