import Verif.Model.Wigner
import Verif.Proofs.WignerNorm

/-!
# The three-term recurrence algorithm computes the solution of its recurrence
-/

namespace Jaxoplanet.Starry.Wig

/-! ### loops -/

theorem rangeUp_nil {a b : ℤ} (h : b ≤ a) : rangeUp a b = [] := by
  unfold rangeUp; rw [show (b - a).toNat = 0 by omega]; rfl

theorem rangeUp_cons {a b : ℤ} (h : a < b) : rangeUp a b = a :: rangeUp (a + 1) b := by
  unfold rangeUp
  obtain ⟨n, hn⟩ : ∃ n : ℕ, (b - a).toNat = n + 1 := ⟨(b - a).toNat - 1, by omega⟩
  rw [hn, show (b - (a + 1)).toNat = n by omega, List.range_succ_eq_map, List.map_cons, List.map_map]
  simp only [Nat.cast_zero, add_zero, List.cons.injEq, true_and]
  refine List.map_congr_left fun i _ => ?_
  simp; ring

theorem rangeDown_nil {a b : ℤ} (h : a ≤ b) : rangeDown a b = [] := by
  unfold rangeDown; rw [show (a - b).toNat = 0 by omega]; rfl

theorem rangeDown_cons {a b : ℤ} (h : b < a) : rangeDown a b = a :: rangeDown (a - 1) b := by
  unfold rangeDown
  obtain ⟨n, hn⟩ : ∃ n : ℕ, (a - b).toNat = n + 1 := ⟨(a - b).toNat - 1, by omega⟩
  rw [hn, show (a - 1 - b).toNat = n by omega, List.range_succ_eq_map, List.map_cons, List.map_map]
  simp only [Nat.cast_zero, sub_zero, List.cons.injEq, true_and]
  refine List.map_congr_left fun i _ => ?_
  simp; ring

/-- loop invariant for `range(a, b)` -/
theorem forLoop_up {σ : Type} {body : ℤ → σ → Except WErr (Bool × σ)} (I : ℤ → σ → Prop) (Q : σ → Prop) {b : ℤ}
    (hstep : ∀ j s, j < b → I j s → ∃ r, body j s = .ok r ∧ if r.1 then Q r.2 else I (j + 1) r.2)
    (hend : ∀ s, I b s → Q s) : ∀ a, a ≤ b → ∀ s, I a s → ∃ r, forLoop body (rangeUp a b) s = .ok r ∧ Q r := by
  intro a hab
  induction a, hab using Int.leInductionDown with
  | base => intro s h; rw [rangeUp_nil le_rfl]; exact ⟨s, rfl, hend s h⟩
  | pred n hn ih =>
    intro s h
    rw [rangeUp_cons (by omega), sub_add_cancel]
    obtain ⟨⟨c, s'⟩, hr, hq⟩ := hstep (n - 1) s (by omega) h
    simp only [forLoop, hr, bind, Except.bind]
    cases c with
    | true => exact ⟨s', rfl, hq⟩
    | false => simp only [sub_add_cancel, Bool.false_eq_true, if_false] at hq ⊢; exact ih s' hq

/-- loop invariant for `range(a, b, -1)` -/
theorem forLoop_down {σ : Type} {body : ℤ → σ → Except WErr (Bool × σ)} (I : ℤ → σ → Prop) (Q : σ → Prop) {b : ℤ}
    (hstep : ∀ j s, b < j → I j s → ∃ r, body j s = .ok r ∧ if r.1 then Q r.2 else I (j - 1) r.2)
    (hend : ∀ s, I b s → Q s) : ∀ a, b ≤ a → ∀ s, I a s → ∃ r, forLoop body (rangeDown a b) s = .ok r ∧ Q r := by
  intro a hab
  induction a, hab using Int.leInduction with
  | base => intro s h; rw [rangeDown_nil le_rfl]; exact ⟨s, rfl, hend s h⟩
  | succ n hn ih =>
    intro s h
    rw [rangeDown_cons (by omega), add_sub_cancel_right]
    obtain ⟨⟨c, s'⟩, hr, hq⟩ := hstep (n + 1) s (by omega) h
    simp only [forLoop, hr, bind, Except.bind]
    cases c with
    | true => exact ⟨s', rfl, hq⟩
    | false => simp only [add_sub_cancel_right, Bool.false_eq_true, if_false] at hq ⊢; exact ih s' hq

theorem div_ok {x y : ℝ} (h : y ≠ 0) : div x y = .ok (x / y) := if_neg h

theorem sqrt_ok {x : ℝ} (h : 0 ≤ x) : sqrt x = .ok (√x) := if_neg (not_lt.2 h)

theorem set_same (F : Arr) (i : ℤ) (v : ℝ) : set F i v i = v := if_pos rfl

theorem set_ne (F : Arr) {i k : ℤ} (v : ℝ) (h : k ≠ i) : set F i v k = F k := if_neg h

/-! ### the situation -/

/-- `g` solves the recurrence on `[a, b]` -/
structure Ctx (j2 j3 m2 m3 m1 a b : ℤ) (x z g : ℤ → ℝ) : Prop where
  a0 : 0 ≤ a
  ab : a < b
  X : ∀ j, a ≤ j → j ≤ b → Xf j j2 j3 m1 = .ok (x j)
  Z : ∀ j, a ≤ j → j ≤ b → Zf j j2 j3 m1 = .ok (z j)
  recur : ∀ j, a ≤ j → j ≤ b → x j * g (j + 1) + Yf j j2 j3 m2 m3 * g j + z j * g (j - 1) = 0
  xpos : ∀ j, a ≤ j → 0 < j → j < b → 0 < x j
  x0 : a = 0 → x a = 0
  y0 : a = 0 → Yf a j2 j3 m2 m3 = 0
  zpos : ∀ j, a < j → j ≤ b → 0 < z j
  za : z a = 0
  xb : x b = 0
  gb : g b ≠ 0
  /-- all projections zero -/
  yz : m2 = 0 → m3 = 0 → ∀ j, Yf j j2 j3 m2 m3 = 0
  first : m2 = 0 → m3 = 0 → a = 0 → g (a + 1) = 0
  even : a = 0 → a + 2 ≤ b
  zero : a = 0 → g a = 0 → g (a + 1) = 0
  plateau : ∀ s : ℝ, (∀ j, a ≤ j → j ≤ b → 0 < s * g j) → ∀ i, a < i → i < b → g (i - 1) = g i → g i = g (i + 1) → False

/-- `F` is a multiple of `g` on `[lo, hi]` -/
def Prop' (g F : ℤ → ℝ) (lo hi : ℤ) : Prop := ∃ c : ℝ, c ≠ 0 ∧ ∀ i, lo ≤ i → i ≤ hi → F i = c * g i

variable {j2 j3 m2 m3 m1 a b : ℤ} {x z g : ℤ → ℝ}

/-- no two neighbours vanish -/
theorem Ctx.nozero (h : Ctx j2 j3 m2 m3 m1 a b x z g) {j : ℤ} (h1 : a ≤ j) (h2 : j < b) (e1 : g j = 0) : g (j + 1) ≠ 0 := by
  intro e2
  have key : ∀ k, j + 1 ≤ k → k ≤ b → g (k - 1) = 0 ∧ g k = 0 := by
    intro k hk
    induction k, hk using Int.leInduction with
    | base => intro _; rw [add_sub_cancel_right]; exact ⟨e1, e2⟩
    | succ n hn ih =>
      intro hb
      obtain ⟨i1, i2⟩ := ih (by omega)
      rw [add_sub_cancel_right]
      refine ⟨i2, ?_⟩
      have hr := h.recur n (by omega) (by omega)
      rw [i1, i2] at hr
      have hx := h.xpos n (by omega) (by have := h.a0; omega) (by omega)
      have : x n * g (n + 1) = 0 := by linarith
      exact (mul_eq_zero.1 this).resolve_left hx.ne'
  exact h.gb (key b (by omega) le_rfl).2

theorem Ctx.ga (h : Ctx j2 j3 m2 m3 m1 a b x z g) : g a ≠ 0 := by
  intro e
  refine h.nozero le_rfl h.ab e ?_
  by_cases h0 : a = 0
  · exact h.zero h0 e
  · have hr := h.recur a le_rfl h.ab.le
    have hx := h.xpos a le_rfl (by have := h.a0; omega) h.ab
    rw [e, h.za] at hr
    have : x a * g (a + 1) = 0 := by linarith
    exact (mul_eq_zero.1 this).resolve_left hx.ne'

/-- the second value from below -/
theorem Ctx.second (h : Ctx j2 j3 m2 m3 m1 a b x z g) (h0 : 0 < a) : g (a + 1) = -Yf a j2 j3 m2 m3 / x a * g a := by
  have hr := h.recur a le_rfl h.ab.le
  have hx := (h.xpos a le_rfl h0 h.ab).ne'
  rw [h.za] at hr
  field_simp
  linarith

/-- the second value from above -/
theorem Ctx.second' (h : Ctx j2 j3 m2 m3 m1 a b x z g) : g (b - 1) = -Yf b j2 j3 m2 m3 / z b * g b := by
  have hr := h.recur b h.ab.le le_rfl
  have hz := (h.zpos b h.ab le_rfl).ne'
  rw [h.xb] at hr
  field_simp
  linarith

/-! ### the forward iteration -/

/-- what the forward scan knows about `sf` below `j` -/
def FwdInv (g sf : ℤ → ℝ) (a hi : ℤ) : Prop :=
  ∀ i, a ≤ i → i < hi → 0 < sf i ∧ g i = sf i * g (i + 1) ∧ (a < i → sf i ≤ 1)

theorem FwdInv.nonzero {g sf : ℤ → ℝ} {a hi : ℤ} (h : FwdInv g sf a hi) (ga : g a ≠ 0) : ∀ i, a ≤ i → i ≤ hi → g i ≠ 0 := by
  intro i hi'
  induction i, hi' using Int.leInduction with
  | base => intro _; exact ga
  | succ n hn ih =>
    intro hl e
    have := (h n hn (by omega)).2.1
    rw [e, mul_zero] at this
    exact ih (by omega) this

/-- one step of the ratio: from below -/
theorem ratio_step {X Y Z s gm g0 gp : ℝ} (hX : 0 < X) (hrec : X * gp + Y * g0 + Z * gm = 0) (hs : gm = s * g0)
    (h1 : ¬ |X| > |Y + Z * s|) (h2 : ¬ X * (Y + Z * s) ≥ 0) (h3 : Y + Z * s ≠ 0) :
    0 < -X / (Y + Z * s) ∧ g0 = -X / (Y + Z * s) * gp ∧ -X / (Y + Z * s) ≤ 1 := by
  have hd : Y + Z * s < 0 := by
    by_contra hc
    exact h2 (mul_nonneg hX.le (not_lt.1 hc))
  refine ⟨div_pos_of_neg_of_neg (by linarith) hd, ?_, ?_⟩
  · field_simp
    rw [hs] at hrec
    linarith
  · rw [abs_of_pos hX, abs_of_neg hd] at h1
    rw [div_le_one_of_neg hd]
    linarith

theorem fwdScan_ok (h : Ctx j2 j3 m2 m3 m1 a b x z g) (h0 : 0 < a) {q : ℝ} (hq : 0 < q) (hq' : g a = q * g (a + 1)) :
    ∃ r, forLoop (fwdScanBody j2 j3 m2 m3 m1) (rangeUp (a + 1) b) (set (fun _ => 0) a q, b) = .ok r ∧
      ((r.2 = b ∧ FwdInv g r.1 a b) ∨ (a ≤ r.2 ∧ r.2 + 1 < b ∧ FwdInv g r.1 a (r.2 + 1))) := by
  have hab := h.ab
  refine forLoop_up (I := fun j s => a < j ∧ FwdInv g s.1 a j ∧ s.2 = b) _ ?_ ?_ (a + 1) (by omega) _ ?_
  · rintro j ⟨sf, jm⟩ hj ⟨haj, hinv, hjm⟩
    simp only [] at hinv hjm
    unfold fwdScanBody
    simp only [h.Z j haj.le hj.le, h.X j haj.le hj.le, bind, Except.bind]
    obtain ⟨s1, s2, -⟩ := hinv (j - 1) (by omega) (by omega)
    rw [sub_add_cancel] at s2
    split_ifs with hc
    · refine ⟨_, rfl, ?_⟩
      simp only [if_true]
      exact Or.inr ⟨by omega, by omega, by rwa [sub_add_cancel]⟩
    · push Not at hc
      obtain ⟨c1, c2, c3⟩ := hc
      have hx := h.xpos j haj.le (by omega) hj
      obtain ⟨r1, r2, r3⟩ := ratio_step hx (h.recur j haj.le hj.le) s2 (not_lt.2 c1) (not_le.2 c2) c3
      rw [div_ok c3]
      refine ⟨_, rfl, ?_⟩
      simp only [Bool.false_eq_true, if_false]
      refine ⟨by omega, ?_, hjm⟩
      intro i hi hi'
      by_cases hij : i = j
      · subst hij
        rw [set_same]
        exact ⟨r1, r2, fun _ => r3⟩
      · rw [set_ne _ _ hij]
        exact hinv i hi (by omega)
  · rintro ⟨sf, jm⟩ ⟨-, hinv, hjm⟩
    exact Or.inl ⟨hjm, hinv⟩
  · refine ⟨by omega, ?_, rfl⟩
    intro i hi hi'
    have : i = a := by omega
    subst this
    simp only []
    rw [set_same]
    exact ⟨hq, hq', fun hc => absurd hc (lt_irrefl _)⟩

theorem fwdFill_ok {g sf : ℤ → ℝ} {jm : ℤ} (haj : a ≤ jm) (hs : ∀ i, a ≤ i → i < jm → g i = sf i * g (i + 1)) (hg : g jm ≠ 0) :
    ∃ F, forLoop (fwdFillBody jm sf) (rangeUp 1 (jm - a + 1)) (set (fun _ => 0) jm 1) = .ok F ∧
      (∀ i, a ≤ i → i ≤ jm → F i = 1 / g jm * g i) ∧ ∀ i, i < a → F i = 0 := by
  refine forLoop_up (I := fun k F => 1 ≤ k ∧ (∀ i, jm - k + 1 ≤ i → i ≤ jm → F i = 1 / g jm * g i) ∧ ∀ i, i < jm - k + 1 → F i = 0) _ ?_ ?_ 1 (by omega) _ ?_
  · rintro k F hk ⟨h1, h2, h3⟩
    refine ⟨_, rfl, ?_⟩
    simp only [Bool.false_eq_true, if_false]
    refine ⟨by omega, fun i hi hi' => ?_, fun i hi => ?_⟩
    · by_cases hik : i = jm - k
      · subst hik
        rw [set_same, h2 _ (by omega) (by omega)]
        have := hs (jm - k) (by omega) (by omega)
        rw [this]
        ring
      · rw [set_ne _ _ hik, h2 i (by omega) hi']
    · rw [set_ne _ _ (by omega)]
      exact h3 i (by omega)
  · rintro F ⟨-, h2, h3⟩
    exact ⟨fun i hi => h2 i (by omega), fun i hi => h3 i (by omega)⟩
  · refine ⟨le_rfl, fun i hi hi' => ?_, fun i hi => ?_⟩
    · have : i = jm := by omega
      subst this
      rw [set_same, one_div, inv_mul_cancel₀ hg]
    · rw [set_ne _ _ (by omega)]

/-- after the forward iteration -/
structure FwdOk (m2 m3 a b : ℤ) (g : ℤ → ℝ) (fw : Fwd) : Prop where
  undef : fw.undefined_min = true → a = 0 ∧ fw.j_minus = a ∧ ¬ (m2 = 0 ∧ m3 = 0)
  zero : fw.undefined_min = false → a = 0 → m2 = 0 ∧ m3 = 0
  le : fw.undefined_min = false → a + 1 ≤ fw.j_minus ∧ fw.j_minus ≤ b
  eq : fw.undefined_min = false → Prop' g fw.F_minus a fw.j_minus
  low : ∀ i, i < a → fw.F_minus i = 0
  sf : a + 1 < fw.j_minus → fw.j_minus < b → FwdInv g fw.sf a (fw.j_minus + 1) ∧ fw.j_minus + 1 < b

theorem two_values {g : ℤ → ℝ} {v : ℝ} (ga : g a ≠ 0) (hv : g (a + 1) = v * g a) :
    Prop' g (set (set (fun _ => 0) a 1) (a + 1) v) a (a + 1) := by
  refine ⟨1 / g a, one_div_ne_zero ga, fun i hi hi' => ?_⟩
  rcases (show i = a ∨ i = a + 1 by omega) with rfl | rfl
  · rw [set_ne _ _ (by omega), set_same, one_div, inv_mul_cancel₀ ga]
  · rw [set_same, hv]; field_simp

theorem forward_ok (h : Ctx j2 j3 m2 m3 m1 a b x z g) (hm : m1 = -(m2 + m3)) :
    ∃ fw, forward j2 j3 m2 m3 m1 a b = .ok fw ∧ FwdOk m2 m3 a b g fw := by
  have hab := h.ab
  have ha0 := h.a0
  have ga := h.ga
  have low2 : ∀ v : ℝ, ∀ i, i < a → set (set (fun _ => (0 : ℝ)) a 1) (a + 1) v i = 0 := fun v i hi => by
    rw [set_ne _ _ (by omega), set_ne _ _ (by omega)]
  unfold forward
  simp only [h.X a le_rfl hab.le, bind, Except.bind]
  by_cases hz : m1 = 0 ∧ m2 = 0 ∧ m3 = 0
  · rw [if_pos hz]
    obtain ⟨-, z2, z3⟩ := hz
    have h1 : g (a + 1) = 0 := by
      by_cases h0 : a = 0
      · exact h.first z2 z3 h0
      · rw [h.second (by omega), h.yz z2 z3]; simp
    refine ⟨_, rfl, ⟨nofun, fun _ _ => ⟨z2, z3⟩, fun _ => ⟨le_rfl, by simp only []; omega⟩, fun _ => two_values ga (by rw [h1]; ring), low2 0, fun hc => ?_⟩⟩
    simp at hc
  rw [if_neg hz]
  have hz' : ¬ (m2 = 0 ∧ m3 = 0) := fun hc => hz ⟨by omega, hc⟩
  by_cases hy : Yf a j2 j3 m2 m3 = 0
  · rw [if_pos hy]
    by_cases hx : x a = 0
    · rw [if_pos hx]
      have h0 : a = 0 := by
        by_contra hc
        exact (h.xpos a le_rfl (by omega) hab).ne' hx
      exact ⟨_, rfl, ⟨fun _ => ⟨h0, rfl, hz'⟩, nofun, nofun, nofun, fun _ _ => rfl, fun hc => by simp at hc⟩⟩
    · rw [if_neg hx]
      have h0 : 0 < a := by
        rcases ha0.lt_or_eq with hc | hc
        · exact hc
        · exact absurd (h.x0 hc.symm) hx
      have h1 := h.second h0
      rw [hy] at h1
      refine ⟨_, rfl, ⟨nofun, fun _ hc => absurd hc h0.ne', fun _ => ⟨le_rfl, by simp only []; omega⟩, fun _ => two_values ga (by rw [h1]; ring), low2 0, fun hc => ?_⟩⟩
      simp at hc
  rw [if_neg hy]
  have h0 : 0 < a := by
    rcases ha0.lt_or_eq with hc | hc
    · exact hc
    · exact absurd (h.y0 hc.symm) hy
  have hx := h.xpos a le_rfl h0 hab
  have h1 := h.second h0
  by_cases hc : x a * Yf a j2 j3 m2 m3 ≥ 0
  · rw [if_pos hc, div_ok hx.ne']
    refine ⟨_, rfl, ⟨nofun, fun _ hc => absurd hc h0.ne', fun _ => ⟨le_rfl, by simp only []; omega⟩, fun _ => two_values ga h1, low2 _, fun hc => ?_⟩⟩
    simp at hc
  rw [if_neg hc, div_ok hy]
  have hyn : Yf a j2 j3 m2 m3 < 0 := by
    by_contra hn
    exact hc (mul_nonneg hx.le (not_lt.1 hn))
  have hq : 0 < -x a / Yf a j2 j3 m2 m3 := div_pos_of_neg_of_neg (by linarith) hyn
  obtain ⟨⟨sf, jm⟩, hr, hpost⟩ := fwdScan_ok h h0 hq (by rw [h1]; field_simp)
  simp only [hr]
  simp only [] at hpost
  have hjm : a ≤ jm ∧ jm ≤ b ∧ FwdInv g sf a jm ∧ (jm < b → FwdInv g sf a (jm + 1) ∧ jm + 1 < b) := by
    rcases hpost with ⟨rfl, hi⟩ | ⟨p1, p2, hi⟩
    · exact ⟨hab.le, le_rfl, hi, fun hc => absurd hc (lt_irrefl _)⟩
    · exact ⟨p1, by omega, fun i h1 h2 => hi i h1 (by omega), fun _ => ⟨hi, p2⟩⟩
  obtain ⟨p1, p2, hi, hi'⟩ := hjm
  have hgj := hi.nonzero ga jm p1 le_rfl
  obtain ⟨F, hF, hF1, hF2⟩ := fwdFill_ok p1 (fun i h1 h2 => (hi i h1 h2).2.1) hgj
  simp only [hF]
  by_cases hja : jm = a
  · rw [if_pos hja, div_ok hx.ne']
    refine ⟨_, rfl, ⟨nofun, fun _ hc => absurd hc h0.ne', fun _ => ⟨le_rfl, by simp only []; omega⟩, fun _ => ?_, fun i hi => ?_, fun hc => ?_⟩⟩
    · refine ⟨1 / g a, one_div_ne_zero ga, fun i hi hi' => ?_⟩
      simp only [] at hi'
      rcases (show i = a ∨ i = a + 1 by omega) with rfl | rfl
      · simp only []
        rw [set_ne _ _ (by omega), hF1 i le_rfl p1, hja]
      · simp only []
        rw [set_same, h1]
        field_simp
    · simp only []
      rw [set_ne _ _ (by omega)]
      exact hF2 i hi
    · simp at hc
  · rw [if_neg hja]
    refine ⟨_, rfl, ⟨nofun, fun _ hc => absurd hc h0.ne', fun _ => ⟨by simp only []; omega, p2⟩,
      fun _ => ⟨1 / g jm, one_div_ne_zero hgj, hF1⟩, hF2, fun _ hc => hi' hc⟩⟩

/-! ### the reverse iteration -/

/-- what the reverse scan knows about `rf` above `lo` -/
def RevInv (g rf : ℤ → ℝ) (lo b : ℤ) : Prop :=
  ∀ i, lo < i → i ≤ b → 0 < rf i ∧ g i = rf i * g (i - 1) ∧ (i < b → rf i ≤ 1)

theorem RevInv.nonzero {g rf : ℤ → ℝ} {lo b : ℤ} (h : RevInv g rf lo b) (gb : g b ≠ 0) : ∀ i, i ≤ b → lo ≤ i → g i ≠ 0 := by
  intro i hi'
  induction i, hi' using Int.leInductionDown with
  | base => intro _; exact gb
  | pred n hn ih =>
    intro hl e
    have := (h n (by omega) hn).2.1
    rw [e, mul_zero] at this
    exact ih (by omega) this

theorem revScan_ok (h : Ctx j2 j3 m2 m3 m1 a b x z g) {jm : ℤ} (hjm : a ≤ jm) (hjb : jm < b) (sf : ℤ → ℝ) {q : ℝ} (hq : 0 < q)
    (hq' : g b = q * g (b - 1)) :
    ∃ r, forLoop (revScanBody j2 j3 m2 m3 m1) (rangeDown (b - 1) (jm - 1)) (set sf b q, a) = .ok r ∧
      ((r.2 = a ∧ a < jm ∧ RevInv g r.1 (jm - 1) b ∧ ∀ i, i < jm → r.1 i = sf i) ∨ (jm + 1 ≤ r.2 ∧ r.2 ≤ b ∧ RevInv g r.1 (r.2 - 1) b)) := by
  have ha0 := h.a0
  refine forLoop_down (I := fun j s => jm - 1 ≤ j ∧ j < b ∧ RevInv g s.1 j b ∧ (∀ i, i ≤ j → s.1 i = sf i) ∧ s.2 = a ∧ (j = jm - 1 → a < jm))
    _ ?_ ?_ (b - 1) (by omega) _ ?_
  · rintro j ⟨rf, jp⟩ hj ⟨hm, hjb', hinv, hold, hjp, -⟩
    simp only [] at hinv hjp hold
    unfold revScanBody
    simp only [h.Z j (by omega) hjb'.le, h.X j (by omega) hjb'.le, bind, Except.bind]
    obtain ⟨s1, s2, -⟩ := hinv (j + 1) (by omega) (by omega)
    rw [add_sub_cancel_right] at s2
    split_ifs with hc
    · refine ⟨_, rfl, ?_⟩
      simp only [if_true]
      exact Or.inr ⟨by omega, by omega, by rwa [add_sub_cancel_right]⟩
    · push Not at hc
      obtain ⟨c1, c2, c3⟩ := hc
      have haj : a < j := by
        rcases (show a ≤ j by omega).lt_or_eq with hl | hl
        · exact hl
        · rw [← hl, h.za, zero_mul] at c3
          exact absurd c3 (lt_irrefl _)
      have hz := h.zpos j haj hjb'.le
      have hrec := h.recur j haj.le hjb'.le
      obtain ⟨r1, r2, r3⟩ := ratio_step (gp := g (j - 1)) (g0 := g j) hz (by linarith [hrec]) s2 (not_lt.2 c2) (not_le.2 c3) c1
      rw [div_ok c1]
      refine ⟨_, rfl, ?_⟩
      simp only [Bool.false_eq_true, if_false]
      refine ⟨by omega, by omega, ?_, ?_, hjp, fun _ => by omega⟩
      · intro i hi hi'
        by_cases hij : i = j
        · subst hij
          rw [set_same]
          exact ⟨r1, r2, fun _ => r3⟩
        · rw [set_ne _ _ hij]
          exact hinv i (by omega) hi'
      · intro i hi
        rw [set_ne _ _ (by omega)]
        exact hold i (by omega)
  · rintro ⟨rf, jp⟩ ⟨-, -, hinv, hold, hjp, ha⟩
    exact Or.inl ⟨hjp, ha rfl, hinv, fun i hi => hold i (by omega)⟩
  · refine ⟨by omega, by omega, ?_, ?_, rfl, by omega⟩
    · intro i hi hi'
      have : i = b := by omega
      subst this
      simp only []
      rw [set_same]
      exact ⟨hq, hq', fun hc => absurd hc (lt_irrefl _)⟩
    · intro i hi
      simp only []
      rw [set_ne _ _ (by omega)]

theorem revFill_ok {g rf : ℤ → ℝ} {jp : ℤ} (hjb : jp ≤ b) (hs : ∀ i, jp < i → i ≤ b → g i = rf i * g (i - 1)) (hg : g jp ≠ 0) :
    ∃ F, forLoop (revFillBody jp rf) (rangeUp 1 (b - jp + 1)) (set (fun _ => 0) jp 1) = .ok F ∧
      (∀ i, jp ≤ i → i ≤ b → F i = 1 / g jp * g i) := by
  refine forLoop_up (I := fun k F => 1 ≤ k ∧ (∀ i, jp ≤ i → i < jp + k → F i = 1 / g jp * g i)) _ ?_ ?_ 1 (by omega) _ ?_
  · rintro k F hk ⟨h1, h2⟩
    refine ⟨_, rfl, ?_⟩
    simp only [Bool.false_eq_true, if_false]
    refine ⟨by omega, fun i hi hi' => ?_⟩
    by_cases hik : i = jp + k
    · subst hik
      rw [set_same, h2 _ (by omega) (by omega)]
      have := hs (jp + k) (by omega) (by omega)
      rw [this]
      ring
    · rw [set_ne _ _ hik, h2 i (by omega) (by omega)]
  · rintro F ⟨-, h2⟩
    exact fun i hi hi' => h2 i hi (by omega)
  · refine ⟨le_rfl, fun i hi hi' => ?_⟩
    have : i = jp := by omega
    subst this
    rw [set_same, one_div, inv_mul_cancel₀ hg]

/-- after the reverse iteration -/
structure RevOk (a b jm : ℤ) (g : ℤ → ℝ) (rv : Rev) : Prop where
  defd : rv.undefined_max = false
  le : rv.j_plus ≤ b - 1
  ge : jm ≤ rv.j_plus ∨ (rv.j_plus = a ∧ jm = a + 1)
  eq : Prop' g rv.F_plus rv.j_plus b

theorem two_values' {g : ℤ → ℝ} {v : ℝ} (gb : g b ≠ 0) (hv : g (b - 1) = v * g b) :
    Prop' g (set (set (fun _ => 0) b 1) (b - 1) v) (b - 1) b := by
  refine ⟨1 / g b, one_div_ne_zero gb, fun i hi hi' => ?_⟩
  rcases (show i = b ∨ i = b - 1 by omega) with rfl | rfl
  · rw [set_ne _ _ (by omega), set_same, one_div, inv_mul_cancel₀ gb]
  · rw [set_same, hv]; field_simp

/-- the reverse scan cannot run into the values that the forward scan left -/
theorem no_alias (h : Ctx j2 j3 m2 m3 m1 a b x z g) {jm : ℤ} (h1 : a + 1 < jm) (h2 : jm + 1 < b) {sf rf : ℤ → ℝ}
    (hs : FwdInv g sf a (jm + 1)) (hr : RevInv g rf (jm - 1) b) : False := by
  have ga := h.ga
  -- one sign
  have pos : ∀ i, a ≤ i → i ≤ b → 0 < g a * g i := by
    have up : ∀ i, a ≤ i → i ≤ jm → 0 < g a * g i := by
      intro i hi
      induction i, hi using Int.leInduction with
      | base => intro _; exact mul_self_pos.2 ga
      | succ n hn ih =>
        intro hl
        have i1 := ih (by omega)
        obtain ⟨p1, p2, -⟩ := hs n hn (by omega)
        rw [p2] at i1
        have : 0 < sf n * (g a * g (n + 1)) := by linarith
        exact (pos_iff_pos_of_mul_pos this).1 p1
    have dn : ∀ i, jm ≤ i → i ≤ b → 0 < g a * g i := by
      intro i hi
      induction i, hi using Int.leInduction with
      | base => intro _; exact up jm (by omega) le_rfl
      | succ n hn ih =>
        intro hl
        have i1 := ih (by omega)
        obtain ⟨p1, p2, -⟩ := hr (n + 1) (by omega) hl
        rw [add_sub_cancel_right] at p2
        rw [p2]
        have := mul_pos p1 i1
        linarith
    intro i hi hb
    rcases le_total i jm with hc | hc
    · exact up i hi hc
    · exact dn i hc hb
  -- two equal ratios
  have eqs : ∀ i, jm ≤ i → i ≤ jm + 1 → i < b → g (i - 1) = g i := by
    intro i hi hi' hib
    obtain ⟨p1, p2, p3⟩ := hr i (by omega) hib.le
    obtain ⟨q1, q2, q3⟩ := hs (i - 1) (by omega) (by omega)
    rw [sub_add_cancel] at q2
    have l1 := p3 hib
    have l2 := q3 (by omega)
    have e : rf i * sf (i - 1) = 1 := by
      have hne : g i ≠ 0 := by
        have := pos i (by omega) hib.le
        intro hc; rw [hc, mul_zero] at this; exact this.false
      rw [q2] at p2
      have : (rf i * sf (i - 1) - 1) * g i = 0 := by linarith
      have := (mul_eq_zero.1 this).resolve_right hne
      linarith
    have : rf i = 1 := by nlinarith
    rw [this, one_mul] at p2
    exact p2.symm
  have e1 := eqs jm le_rfl (by omega) (by omega)
  have e2 := eqs (jm + 1) (by omega) le_rfl h2
  rw [add_sub_cancel_right] at e2
  exact h.plateau (g a) pos jm (by omega) (by omega) e1 e2

theorem reverse_ok (h : Ctx j2 j3 m2 m3 m1 a b x z g) {fw : Fwd} (hf : FwdOk m2 m3 a b g fw) (hjb : fw.j_minus < b) :
    ∃ rv, reverse j2 j3 m2 m3 m1 a b fw.j_minus fw.sf = .ok rv ∧ RevOk a b fw.j_minus g rv := by
  have hab := h.ab
  have gb := h.gb
  have hz := h.zpos b hab le_rfl
  have h1 := h.second'
  have hja : a ≤ fw.j_minus := by
    cases hu : fw.undefined_min with
    | true => exact (hf.undef hu).2.1.ge
    | false => have := (hf.le hu).1; omega
  unfold reverse
  simp only [h.Z b hab.le le_rfl, bind, Except.bind]
  by_cases hm : m1 = 0 ∧ m2 = 0 ∧ m3 = 0
  · rw [if_pos hm]
    refine ⟨_, rfl, ⟨rfl, le_rfl, Or.inl (by simp only []; omega), two_values' gb ?_⟩⟩
    rw [h1, h.yz hm.2.1 hm.2.2]; simp
  rw [if_neg hm]
  by_cases hy : Yf b j2 j3 m2 m3 = 0
  · rw [if_pos hy, if_neg hz.ne', div_ok hz.ne']
    exact ⟨_, rfl, ⟨rfl, le_rfl, Or.inl (by simp only []; omega), two_values' gb h1⟩⟩
  rw [if_neg hy]
  by_cases hc : Yf b j2 j3 m2 m3 * z b ≥ 0
  · rw [if_pos hc, div_ok hz.ne']
    exact ⟨_, rfl, ⟨rfl, le_rfl, Or.inl (by simp only []; omega), two_values' gb h1⟩⟩
  rw [if_neg hc, div_ok hy]
  have hyn : Yf b j2 j3 m2 m3 < 0 := by
    by_contra hn
    exact hc (mul_nonneg (not_lt.1 hn) hz.le)
  have hq : 0 < -z b / Yf b j2 j3 m2 m3 := div_pos_of_neg_of_neg (by linarith) hyn
  obtain ⟨⟨rf, jp⟩, hr, hpost⟩ := revScan_ok h hja hjb fw.sf hq (by rw [h1]; field_simp)
  simp only [hr]
  simp only [] at hpost
  have hjp : jp ≤ b ∧ (fw.j_minus + 1 ≤ jp ∨ (jp = a ∧ fw.j_minus = a + 1)) ∧ RevInv g rf jp b ∧ g jp ≠ 0 := by
    rcases hpost with ⟨rfl, hlt, hi, -⟩ | ⟨p1, p2, hi⟩
    · have hja1 : fw.j_minus = jp + 1 := by
        by_contra hne
        obtain ⟨s1, s2⟩ := hf.sf (by omega) hjb
        exact no_alias h (by omega) s2 s1 hi
      exact ⟨hab.le, Or.inr ⟨rfl, hja1⟩, fun i q1 q2 => hi i (by omega) q2, h.ga⟩
    · exact ⟨p2, Or.inl p1, fun i q1 q2 => hi i (by omega) q2, hi.nonzero gb jp p2 (by omega)⟩
  obtain ⟨p1, p2, p3, p4⟩ := hjp
  obtain ⟨F, hF, hF1⟩ := revFill_ok p1 (fun i q1 q2 => (p3 i q1 q2).2.1) p4
  simp only [hF]
  by_cases hb : jp = b
  · rw [if_pos hb, div_ok hz.ne']
    refine ⟨_, rfl, ⟨rfl, le_rfl, Or.inl (by simp only []; omega), ?_⟩⟩
    refine ⟨1 / g b, one_div_ne_zero gb, fun i hi hi' => ?_⟩
    simp only [] at hi ⊢
    rcases (show i = b ∨ i = b - 1 by omega) with rfl | rfl
    · rw [set_ne _ _ (by omega), hF1 i hb.le le_rfl, hb]
    · rw [set_same, h1]; field_simp
  · rw [if_neg hb]
    exact ⟨_, rfl, ⟨rfl, by simp only []; omega, by simp only []; omega, ⟨1 / g jp, one_div_ne_zero p4, hF1⟩⟩⟩

/-! ### the classical region -/

theorem Prop'.rescale {g F : ℤ → ℝ} {lo hi lo' hi' : ℤ} (h : Prop' g F lo hi) (h1 : lo' = lo) (h2 : hi' = hi) :
    Prop' g (rescale F lo' hi') lo hi := by
  subst h1 h2
  obtain ⟨c, hc, h⟩ := h
  refine ⟨c / 1000, by positivity, fun i q1 q2 => ?_⟩
  unfold Wig.rescale
  rw [if_pos ⟨q1, q2⟩, h i q1 q2]
  ring

theorem up_ok (h : Ctx j2 j3 m2 m3 m1 a b x z g) {jm mid : ℤ} (h1 : a + 1 ≤ jm) (h2 : mid < b) (F : ℤ → ℝ)
    (hF : Prop' g F a jm) (hlow : ∀ i, i < a → F i = 0) (hmid : jm ≤ mid ∨ mid = a) :
    ∃ r, forLoop (upBody j2 j3 m2 m3 m1 a) (rangeUp jm mid) (F, mid) = .ok r ∧
      a ≤ r.2 ∧ r.2 ≤ mid ∧ Prop' g r.1 a r.2 ∧ ∀ i, i < a → r.1 i = 0 := by
  have ha0 := h.a0
  rcases hmid with hmid | hmid
  · refine forLoop_up (I := fun j s => a + 1 ≤ j ∧ s.2 = mid ∧ Prop' g s.1 a j ∧ ∀ i, i < a → s.1 i = 0) _ ?_ ?_ jm hmid _ ⟨h1, rfl, hF, hlow⟩
    · rintro j ⟨F, md⟩ hj ⟨hja, hmd, hP, hl⟩
      simp only [] at hmd hP hl
      unfold upBody
      have hx := h.xpos j (by omega) (by omega) (by omega)
      simp only [h.Z j (by omega) (by omega), h.X j (by omega) (by omega), div_ok hx.ne', bind, Except.bind]
      set F' := set F (j + 1) (-(Yf j j2 j3 m2 m3 * F j + z j * F (j - 1)) / x j) with hF'
      have hP' : Prop' g F' a (j + 1) := by
        obtain ⟨c, hc, hP⟩ := hP
        refine ⟨c, hc, fun i q1 q2 => ?_⟩
        rw [hF']
        by_cases hi : i = j + 1
        · subst hi
          rw [set_same, hP j (by omega) le_rfl, hP (j - 1) (by omega) (by omega)]
          have := h.recur j (by omega) (by omega)
          rw [div_eq_iff hx.ne']
          linear_combination -c * this
        · rw [set_ne _ _ hi, hP i q1 (by omega)]
      have hl' : ∀ i, i < a → F' i = 0 := fun i hi => by rw [hF', set_ne _ _ (by omega), hl i hi]
      set F'' := (if |F' (j + 1)| > 1 then rescale F' a (j + 1) else F') with hF''
      have hP'' : Prop' g F'' a (j + 1) := by
        rw [hF'']
        split_ifs
        · exact hP'.rescale rfl rfl
        · exact hP'
      have hl'' : ∀ i, i < a → F'' i = 0 := fun i hi => by
        rw [hF'']
        split_ifs
        · unfold rescale
          rw [if_neg (by omega), hl' i hi]
        · exact hl' i hi
      split_ifs with hc
      · refine ⟨_, rfl, ?_⟩
        simp only [if_true]
        exact ⟨by omega, by omega, hP'', hl''⟩
      · refine ⟨_, rfl, ?_⟩
        simp only [Bool.false_eq_true, if_false]
        exact ⟨by omega, hmd, hP'', hl''⟩
    · rintro ⟨F, md⟩ ⟨q1, rfl, q3, q4⟩
      exact ⟨by simp only [] at *; omega, le_rfl, q3, q4⟩
  · rw [rangeUp_nil (by omega)]
    obtain ⟨c, hc, hF⟩ := hF
    exact ⟨_, rfl, hmid.ge, le_rfl, ⟨c, hc, fun i q1 q2 => hF i q1 (by simp only [] at q2; omega)⟩, hlow⟩

theorem down_ok (h : Ctx j2 j3 m2 m3 m1 a b x z g) {jp mid : ℤ} (h1 : a ≤ mid) (h2 : mid ≤ jp) (h3 : jp < b) (F : ℤ → ℝ)
    (hF : Prop' g F jp b) :
    ∃ r, forLoop (downBody j2 j3 m2 m3 m1 b) (rangeDown jp mid) F = .ok r ∧ Prop' g r mid b := by
  refine forLoop_down (I := fun j F => j < b ∧ Prop' g F j b) _ ?_ ?_ jp h2 _ ⟨h3, hF⟩
  · rintro j F hj ⟨hjb, hP⟩
    unfold downBody
    have hz := h.zpos j (by omega) (by omega)
    simp only [h.Z j (by omega) (by omega), h.X j (by omega) (by omega), div_ok hz.ne', bind, Except.bind]
    set F' := set F (j - 1) (-(x j * F (j + 1) + Yf j j2 j3 m2 m3 * F j) / z j) with hF'
    have hP' : Prop' g F' (j - 1) b := by
      obtain ⟨c, hc, hP⟩ := hP
      refine ⟨c, hc, fun i q1 q2 => ?_⟩
      rw [hF']
      by_cases hi : i = j - 1
      · subst hi
        rw [set_same, hP j le_rfl (by omega), hP (j + 1) (by omega) (by omega)]
        have := h.recur j (by omega) (by omega)
        rw [div_eq_iff hz.ne']
        linear_combination -c * this
      · rw [set_ne _ _ hi, hP i (by omega) q2]
    refine ⟨_, rfl, ?_⟩
    simp only [Bool.false_eq_true, if_false]
    refine ⟨by omega, ?_⟩
    split_ifs
    · exact hP'.rescale rfl rfl
    · exact hP'
  · rintro F ⟨-, hP⟩
    exact hP

theorem middle_ok (h : Ctx j2 j3 m2 m3 m1 a b x z g) {fw : Fwd} {rv : Rev} (hf : FwdOk m2 m3 a b g fw) (hjb : fw.j_minus < b)
    (hr : RevOk a b fw.j_minus g rv) :
    ∃ f, middle j2 j3 m2 m3 m1 a b fw rv = .ok f ∧ Prop' g f a b ∧ ∀ i, ¬ (a ≤ i ∧ i ≤ b) → f i = 0 := by
  have hab := h.ab
  have gdef := hr.defd
  have out : ∀ F : Arr, ∀ i, ¬ (a ≤ i ∧ i ≤ b) → setRange (fun _ => 0) a b F i = 0 := fun F i hi => if_neg hi
  have inn : ∀ F : Arr, Prop' g F a b → Prop' g (setRange (fun _ => 0) a b F) a b := by
    rintro F ⟨c, hc, hF⟩
    refine ⟨c, hc, fun i q1 q2 => ?_⟩
    unfold setRange
    rw [if_pos ⟨q1, q2⟩, hF i q1 q2]
  have le := hr.le
  unfold middle
  cases hu : fw.undefined_min with
  | true =>
    simp only [gdef, bind, Except.bind]
    obtain ⟨q1, q2, q3⟩ := hf.undef hu
    have hjp : a ≤ rv.j_plus := by
      rcases hr.ge with hc | hc <;> omega
    obtain ⟨F, hF, hP⟩ := down_ok h le_rfl hjp (by omega) rv.F_plus hr.eq
    simp only [hF, Bool.false_eq_true, and_false, if_false, not_true_eq_false, false_and]
    exact ⟨_, rfl, inn F hP, out F⟩
  | false =>
    simp only [gdef, bind, Except.bind, Bool.false_eq_true, and_false, if_false, not_false_eq_true, and_self, if_true]
    obtain ⟨l1, l2⟩ := hf.le hu
    obtain ⟨⟨Fm, mid⟩, hup, u1, u2, u3, u4⟩ := up_ok h (mid := (fw.j_minus + rv.j_plus) / 2) l1 (by rcases hr.ge with hc | hc <;> omega) fw.F_minus (hf.eq hu) hf.low
      (by rcases hr.ge with hc | hc <;> omega)
    simp only [hup]
    simp only [] at u1 u2 u3 u4
    set mid' := (if Fm (mid - 1) ≠ 0 ∧ |Fm mid / Fm (mid - 1)| < 1.0e-6 then mid - 1 else mid) with hmid'
    obtain ⟨c, hc, u3⟩ := u3
    have hm' : a ≤ mid' ∧ mid' ≤ mid ∧ Fm mid' ≠ 0 := by
      rw [hmid']
      split_ifs with hcond
      · refine ⟨?_, by omega, hcond.1⟩
        by_contra hlt
        exact hcond.1 (u4 (mid - 1) (by omega))
      · refine ⟨u1, le_rfl, fun h0 => ?_⟩
        rw [u3 mid u1 le_rfl] at h0
        have g0 := (mul_eq_zero.1 h0).resolve_left hc
        rcases u1.lt_or_eq with hlt | heq
        · apply hcond
          have g1 : g (mid - 1) ≠ 0 := by
            intro hn
            have := h.nozero (j := mid - 1) (by omega) (by rcases hr.ge with hc | hc <;> omega) hn
            rw [sub_add_cancel] at this
            exact this g0
          refine ⟨?_, ?_⟩
          · rw [u3 (mid - 1) (by omega) (by omega)]
            exact mul_ne_zero hc g1
          · rw [u3 mid u1 le_rfl, g0]
            norm_num
        · rw [← heq] at g0
          exact h.ga g0
    obtain ⟨v1, v2, v3⟩ := hm'
    have hmp : mid' ≤ rv.j_plus := by rcases hr.ge with hc | hc <;> omega
    obtain ⟨Fp, hdn, c', hc', w3⟩ := down_ok h v1 hmp (by omega) rv.F_plus hr.eq
    simp only [hdn]
    rw [if_neg (by omega)]
    by_cases hma : mid' = a
    · rw [if_pos hma]
      exact ⟨_, rfl, inn Fp ⟨c', hc', fun i q1 q2 => w3 i (by omega) q2⟩, out Fp⟩
    · rw [if_neg hma, div_ok v3]
      refine ⟨_, rfl, ⟨c', hc', fun i q1 q2 => ?_⟩, fun i hi => ?_⟩
      · unfold setRange
        by_cases hi : mid' + 1 ≤ i
        · rw [if_pos ⟨hi, q2⟩, w3 i (by omega) q2]
        · rw [if_neg (by omega), if_pos ⟨q1, by omega⟩]
          beta_reduce
          rw [w3 mid' le_rfl (by omega), u3 i q1 (by omega)]
          rw [u3 mid' v1 v2] at v3 ⊢
          have g0 : g mid' ≠ 0 := right_ne_zero_of_mul v3
          field_simp
      · unfold setRange
        rw [if_neg (by omega), if_neg (by omega)]

end Jaxoplanet.Starry.Wig
