import Verif.Model.Solution
import Verif.Spec.Occultation
import Verif.Proofs.TrigPow

/-!
# C48: the Q integral is the line integral along the visible limb
-/

namespace Jaxoplanet.Starry

open _root_.Jaxoplanet.Starry.Spec Real intervalIntegral

/-- `∫ cos^u sin^v` over the visible limb -/
noncomputable def limbInt (lam : ℝ) (u v : ℕ) : ℝ := ∫ φ in (π - lam)..(2 * π + lam), cos φ ^ u * sin φ ^ v

/-- the memo dictionary holds integrals, and the two starting values -/
def MemoOk (lam : ℝ) (h : Memo) : Prop :=
  (∀ k x, h.lookup k = some x → x = limbInt lam k.1 k.2) ∧ h.lookup (0, 0) ≠ none ∧ h.lookup (0, 1) ≠ none

theorem limb_ends (lam : ℝ) : cos (2 * π + lam) = cos lam ∧ sin (2 * π + lam) = sin lam ∧ cos (π - lam) = -cos lam ∧
    sin (π - lam) = sin lam := by
  refine ⟨?_, ?_, cos_pi_sub _, sin_pi_sub _⟩
  · rw [add_comm, cos_add_two_pi]
  · rw [add_comm, sin_add_two_pi]

theorem memoOk_cons (lam : ℝ) (h : Memo) (hh : MemoOk lam h) (k : ℕ × ℕ) (x : ℝ) (hx : x = limbInt lam k.1 k.2) :
    MemoOk lam ((k, x) :: h) := by
  obtain ⟨h1, h2, h3⟩ := hh
  have e : ∀ k', ((k, x) :: h).lookup k' = if k' = k then some x else h.lookup k' := by
    intro k'
    rw [List.lookup_cons]
    by_cases hk : k' = k
    · simp [hk]
    · have hb : (k' == k) = false := beq_eq_false_iff_ne.2 hk
      rw [hb, if_neg hk]
  refine ⟨fun k' y hy => ?_, ?_, ?_⟩
  · rw [e] at hy
    split_ifs at hy with hk
    · rw [hk, ← Option.some.inj hy, hx]
    · exact h1 k' y hy
  · rw [e]; split_ifs <;> simp [h2]
  · rw [e]; split_ifs <;> simp [h3]

theorem memo_start (lam : ℝ) : MemoOk lam [((0, 0), 2 * lam + π), ((0, 1), -2 * cos lam)] := by
  have h00 : limbInt lam 0 0 = 2 * lam + π := by
    unfold limbInt
    simp
    ring
  have h01 : limbInt lam 0 1 = -2 * cos lam := by
    unfold limbInt
    simp [integral_sin, (limb_ends lam).1, (limb_ends lam).2.2.1]
    ring
  refine ⟨fun k x hx => ?_, by simp, by simp⟩
  rw [List.lookup_cons] at hx
  by_cases hk : k = (0, 0)
  · subst hk
    have hx : some (2 * lam + π) = some x := hx
    rw [← Option.some.inj hx, h00]
  · have hb : (k == (0, 0)) = false := beq_eq_false_iff_ne.2 hk
    rw [hb] at hx
    simp only at hx
    rw [List.lookup_cons] at hx
    by_cases hk2 : k = (0, 1)
    · subst hk2
      have hx : some (-2 * cos lam) = some x := hx
      rw [← Option.some.inj hx, h01]
    · have hb2 : (k == (0, 1)) = false := beq_eq_false_iff_ne.2 hk2
      rw [hb2] at hx
      simp at hx

/-- `get(u, v)` returns the integral of `cos^u sin^v`, whatever has been stored before -/
theorem qGet_spec (lam : ℝ) (u v : ℕ) (hu : u % 2 = 0) (h : Memo) (hh : MemoOk lam h) :
    ∃ h', qGet (cos lam) (sin lam) u v h = .ok (limbInt lam u v, h') ∧ MemoOk lam h' := by
  obtain ⟨n, hn⟩ : ∃ n, u + v ≤ n := ⟨_, le_rfl⟩
  obtain ⟨c1, s1, c2, s2⟩ := limb_ends lam
  induction n generalizing u v h with
  | zero =>
    have e1 : u = 0 := by omega
    have e2 : v = 0 := by omega
    subst e1; subst e2
    unfold qGet
    obtain ⟨x, hx⟩ := Option.ne_none_iff_exists'.1 hh.2.1
    rw [hx]
    exact ⟨h, by rw [hh.1 _ _ hx], hh⟩
  | succ n ih =>
    unfold qGet
    cases hl : h.lookup (u, v) with
    | some x => exact ⟨h, by rw [hh.1 _ _ hl], hh⟩
    | none =>
      simp only
      by_cases h2 : 2 ≤ u
      · rw [if_pos h2]
        obtain ⟨w, rfl⟩ : ∃ w, u = w + 2 := ⟨u - 2, by omega⟩
        obtain ⟨h', e, ok⟩ := ih w v (by omega) h hh (by omega)
        rw [Nat.add_sub_cancel, e]
        have val : (2 * cos lam ^ (w + 2 - 1) * sin lam ^ (v + 1) + (((w + 2 : ℕ) : ℝ) - 1) * limbInt lam w v) / (((w + 2 : ℕ) : ℝ) + v) =
            limbInt lam (w + 2) v := by
          have := trig_recU w v (π - lam) (2 * π + lam)
          rw [c1, s1, c2, s2] at this
          have hodd : (-cos lam) ^ (w + 1) = -(cos lam ^ (w + 1)) := Odd.neg_pow (Nat.odd_iff.2 (by omega)) _
          rw [hodd] at this
          rw [div_eq_iff (by positivity)]
          unfold limbInt
          rw [show w + 2 - 1 = w + 1 by omega]
          push_cast
          linear_combination -this
        simp only
        rw [val]
        exact ⟨_, rfl, memoOk_cons lam h' ok _ _ rfl⟩
      · rw [if_neg h2]
        have e0 : u = 0 := by omega
        subst e0
        have h2v : 2 ≤ v := by
          by_contra hc
          have : v = 0 ∨ v = 1 := by omega
          rcases this with rfl | rfl
          · exact hh.2.1 hl
          · exact hh.2.2 hl
        rw [if_pos h2v]
        obtain ⟨w, rfl⟩ : ∃ w, v = w + 2 := ⟨v - 2, by omega⟩
        obtain ⟨h', e, ok⟩ := ih 0 w (by omega) h hh (by omega)
        rw [Nat.add_sub_cancel, e]
        have val : (-2 * cos lam ^ (0 + 1) * sin lam ^ (w + 2 - 1) + (((w + 2 : ℕ) : ℝ) - 1) * limbInt lam 0 w) / (((0 : ℕ) : ℝ) + ((w + 2 : ℕ) : ℝ)) =
            limbInt lam 0 (w + 2) := by
          have := trig_recV 0 w (π - lam) (2 * π + lam)
          rw [c1, s1, c2, s2] at this
          rw [div_eq_iff (by positivity)]
          unfold limbInt
          rw [show w + 2 - 1 = w + 1 by omega]
          push_cast at this ⊢
          linear_combination -this
        simp only
        rw [val]
        exact ⟨_, rfl, memoOk_cons lam h' ok _ _ rfl⟩

theorem limbInt_odd (lam : ℝ) (u v : ℕ) (hu : u % 2 = 1) : limbInt lam u v = 0 := by
  have h : limbInt lam u v = -limbInt lam u v := by
    unfold limbInt
    have := integral_comp_sub_left (fun φ => cos φ ^ u * sin φ ^ v) (a := π - lam) (b := 2 * π + lam) (3 * π)
    rw [show 3 * π - (2 * π + lam) = π - lam by ring, show 3 * π - (π - lam) = 2 * π + lam by ring] at this
    rw [← intervalIntegral.integral_neg]
    refine this.symm.trans (integral_congr fun φ _ => ?_)
    have e1 : cos (3 * π - φ) = -cos φ := by
      rw [show 3 * π - φ = π - φ + 2 * π by ring, cos_add_two_pi, cos_pi_sub]
    have e2 : sin (3 * π - φ) = sin φ := by
      rw [show 3 * π - φ = π - φ + 2 * π by ring, sin_add_two_pi, sin_pi_sub]
    simp only [e1, e2]
    rw [(Nat.odd_iff.2 hu).neg_pow]
    ring
  linarith

/-- the value pushed for the index `(l, m)` -/
noncomputable def qVal (lam : ℝ) (e : ℕ × ℤ) : ℝ :=
  arcIntegral (greenField ((e.1 : ℤ) - e.2).toNat ((e.1 : ℤ) + e.2).toNat) 0 0 1 (π - lam) (2 * π + lam)

theorem arc_unit (G : ℝ → ℝ → ℝ × ℝ) (F : ℝ → ℝ) (a b : ℝ)
    (h : ∀ φ, (G (cos φ) (sin φ)).1 * (-sin φ) + (G (cos φ) (sin φ)).2 * cos φ = F φ) :
    arcIntegral G 0 0 1 a b = ∫ φ in a..b, F φ := by
  unfold arcIntegral
  refine integral_congr fun φ _ => ?_
  simp only [zero_add, one_mul]
  exact h φ

theorem z_unit (φ : ℝ) : √(1 - cos φ ^ 2 - sin φ ^ 2) = 0 := by
  rw [show 1 - cos φ ^ 2 - sin φ ^ 2 = 0 by linarith [sin_sq_add_cos_sq φ], sqrt_zero]

theorem qStep_spec (lam : ℝ) (U : List ℝ) (h : Memo) (hh : MemoOk lam h) (e : ℕ × ℤ) (he : e.2.natAbs ≤ e.1) :
    ∃ h', qStep lam (U, h) e = .ok (U ++ [qVal lam e], h') ∧ MemoOk lam h' := by
  obtain ⟨l, m⟩ := e
  simp only at he
  unfold qStep qVal
  simp only
  by_cases h10 : l = 1 ∧ m = 0
  · rw [if_pos h10]
    obtain ⟨rfl, rfl⟩ := h10
    refine ⟨h, ?_, hh⟩
    have : arcIntegral (greenField (((1 : ℕ) : ℤ) - 0).toNat (((1 : ℕ) : ℤ) + 0).toNat) 0 0 1 (π - lam) (2 * π + lam) = (π + 2 * lam) / 3 := by
      rw [arc_unit _ (fun _ => 1 / 3)]
      · rw [integral_const]
        simp only [smul_eq_mul]
        ring
      · intro φ
        have e1 : (((1 : ℕ) : ℤ) - 0).toNat = 1 := rfl
        have e2 : (((1 : ℕ) : ℤ) + 0).toNat = 1 := rfl
        rw [e1, e2]
        unfold greenField
        simp only [z_unit]
        norm_num
        linarith [sin_sq_add_cos_sq φ]
    rw [this]
  · rw [if_neg h10]
    generalize hmu : ((l : ℤ) - m).toNat = μ
    generalize hnu : ((l : ℤ) + m).toNat = ν
    have hpar : (μ + ν) % 2 = 0 := by omega
    by_cases hev : ν % 2 = 0
    · have harc : arcIntegral (greenField μ ν) 0 0 1 (π - lam) (2 * π + lam) = limbInt lam (μ / 2 + 2) (ν / 2) := by
        rw [arc_unit _ (fun φ => cos φ ^ (μ / 2 + 2) * sin φ ^ (ν / 2))]
        · rfl
        · intro φ
          unfold greenField
          simp only [hev, if_true]
          rw [show (μ + 2) / 2 = μ / 2 + 1 by omega]
          ring
      by_cases h4 : μ % 2 = 0 ∧ (μ / 2) % 2 = 0
      · rw [if_pos h4, if_pos (by omega)]
        obtain ⟨h', e1, ok⟩ := qGet_spec lam (μ / 2 + 2) (ν / 2) (by omega) h hh
        rw [e1]
        exact ⟨h', by rw [harc], ok⟩
      · rw [if_neg h4]
        refine ⟨h, ?_, hh⟩
        rw [harc, limbInt_odd _ _ _ (by omega)]
    · rw [if_neg (by omega)]
      refine ⟨h, ?_, hh⟩
      have harc : arcIntegral (greenField μ ν) 0 0 1 (π - lam) (2 * π + lam) = 0 := by
        rw [arc_unit _ (fun _ => 0)]
        · simp
        · intro φ
          unfold greenField
          have h11 : ¬ (μ = 1 ∧ ν = 1) := by omega
          simp only [z_unit, hev, if_false, h11]
          split_ifs <;> simp
      rw [harc]

theorem qFold_spec (lam : ℝ) (es : List (ℕ × ℤ)) (hes : ∀ e ∈ es, e.2.natAbs ≤ e.1) (U : List ℝ) (h : Memo) (hh : MemoOk lam h) :
    ∃ h', es.foldlM (qStep lam) (U, h) = .ok (U ++ es.map (qVal lam), h') ∧ MemoOk lam h' := by
  induction es generalizing U h with
  | nil => exact ⟨h, by simp [pure, Except.pure], hh⟩
  | cons e es ih =>
    obtain ⟨h1, e1, ok1⟩ := qStep_spec lam U h hh e (hes e (by simp))
    obtain ⟨h2, e2, ok2⟩ := ih (fun e he => hes e (by simp [he])) (U ++ [qVal lam e]) h1 ok1
    refine ⟨h2, ?_, ok2⟩
    rw [List.foldlM_cons, e1]
    simp only [bind, Except.bind]
    rw [e2]
    simp

theorem mem_loopLM {lmax : ℕ} {e : ℕ × ℤ} (h : e ∈ loopLM lmax) : e.2.natAbs ≤ e.1 := by
  unfold loopLM at h
  simp only [List.mem_flatMap, List.mem_range, List.mem_map] at h
  obtain ⟨l, _, k, hk, rfl⟩ := h
  simp only
  omega

/-- C48: `q_integral` never fails, and its entry for `(l, m)` is the line integral of the field `G_{lm}` along the
limb of the star, counterclockwise from `π - λ` to `2π + λ` -/
theorem qIntegral_spec (l_max : ℕ) (lam : ℝ) : ∃ Q, qIntegral l_max lam = .ok Q ∧ Q.length = (l_max + 1) ^ 2 ∧
    ∀ l ≤ l_max, ∀ q ≤ 2 * l,
      Q.getD (l ^ 2 + q) 0 = arcIntegral (greenField (2 * l - q) q) 0 0 1 (π - lam) (2 * π + lam) := by
  obtain ⟨h', e, _⟩ := qFold_spec lam (loopLM l_max) (fun e he => mem_loopLM he) [] _ (memo_start lam)
  refine ⟨(loopLM l_max).map (qVal lam), ?_, ?_, fun l hl q hq => ?_⟩
  · unfold qIntegral
    rw [e]
    simp
  · rw [loopLM_eq]; simp
  · have hlt : l ^ 2 + q < (l_max + 1) ^ 2 := by nlinarith
    rw [loopLM_eq, List.map_map, List.getD_eq_getElem?_getD, List.getElem?_map, List.getElem?_range hlt]
    simp only [Option.map_some, Option.getD_some, Function.comp_apply]
    rw [lmOfIndex_block l q (by omega)]
    unfold qVal
    simp only
    rw [show ((l : ℤ) - ((q : ℤ) - l)).toNat = 2 * l - q by omega, show ((l : ℤ) + ((q : ℤ) - l)).toNat = q by omega]

/-- the integral of `cos² ` over the lower half of the limb, `λ = 0`: the first entry of `q_integral(0, 0)` is `π/2` -/
example : ∃ Q, qIntegral 0 0 = .ok Q ∧ Q.getD 0 0 = π / 2 := by
  obtain ⟨Q, h1, _, h3⟩ := qIntegral_spec 0 0
  refine ⟨Q, h1, ?_⟩
  have := h3 0 le_rfl 0 (by omega)
  rw [show 0 ^ 2 + 0 = 0 by norm_num] at this
  rw [this, arc_unit _ (fun φ => cos φ ^ 2)]
  · rw [integral_cos_sq]
    simp
    ring
  · intro φ
    simp [greenField]
    ring

end Jaxoplanet.Starry
