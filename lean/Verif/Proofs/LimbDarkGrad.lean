import Verif.Props.LimbDarkGrad
import Mathlib.Analysis.InnerProductSpace.NormPow
namespace Jaxoplanet.LimbDark
open Real AD AD.Dual

/-! ## Gradients are derivatives -/

theorem add_mk (v w x y : ℝ) : ((⟨v, some x⟩ : Dual) + ⟨w, some y⟩) = ⟨v + w, some (x + y)⟩ := rfl
theorem sub_mk (v w x y : ℝ) : ((⟨v, some x⟩ : Dual) - ⟨w, some y⟩) = ⟨v - w, some (x + -1 * y)⟩ := rfl
theorem mul_mk (v w x y : ℝ) : ((⟨v, some x⟩ : Dual) * ⟨w, some y⟩) = ⟨v * w, some (w * x + v * y)⟩ := rfl

/-- the radicand of `kite_area` -/
noncomputable def squareArea (a b c : Dual) : Dual := (a + (b + c)) * (c - (a - b)) * (c + (a - b)) * (a + (b - c))

theorem squareArea_mk (a b c x y z : ℝ) : squareArea ⟨a, some x⟩ ⟨b, some y⟩ ⟨c, some z⟩ =
    ⟨(a + b + c) * (-a + b + c) * (a - b + c) * (a + b - c), some (
      (x + y + z) * (-a + b + c) * (a - b + c) * (a + b - c) + (a + b + c) * (-x + y + z) * (a - b + c) * (a + b - c) +
      (a + b + c) * (-a + b + c) * (x - y + z) * (a + b - c) + (a + b + c) * (-a + b + c) * (a - b + c) * (x + y - z))⟩ := by
  unfold squareArea
  simp only [add_mk, sub_mk, mul_mk, Dual.mk.injEq, Option.some.injEq]
  constructor <;> ring

theorem sort_mk (a b x y : ℝ) :
    (Dual.min ⟨a, some x⟩ ⟨b, some y⟩ = ⟨a, some x⟩ ∧ Dual.max ⟨a, some x⟩ ⟨b, some y⟩ = ⟨b, some y⟩) ∨
    (Dual.min ⟨a, some x⟩ ⟨b, some y⟩ = ⟨b, some y⟩ ∧ Dual.max ⟨a, some x⟩ ⟨b, some y⟩ = ⟨a, some x⟩) ∨
    (a = b ∧ Dual.min ⟨a, some x⟩ ⟨b, some y⟩ = ⟨a, some ((x + y) / 2)⟩ ∧ Dual.max ⟨a, some x⟩ ⟨b, some y⟩ = ⟨a, some ((x + y) / 2)⟩) := by
  rcases lt_trichotomy a b with h | h | h
  · left
    simp [Dual.min, Dual.max, balancedEq, h.le, h.ne, h.ne', lin, plus]
  · right; right
    subst h
    simp only [Dual.min, Dual.max, balancedEq, min_self, max_self, lin, plus, if_true, Option.map₂_some_some, Dual.mk.injEq, Option.some.injEq, true_and]
    constructor <;> ring
  · right; left
    simp [Dual.min, Dual.max, balancedEq, h.le, h.ne, h.ne', lin, plus]

theorem squareArea_sort12 {a b c : Dual} (ha : Fin a) (hb : Fin b) (hc : Fin c) : squareArea (Dual.min a b) (Dual.max a b) c = squareArea a b c := by
  obtain ⟨va, da⟩ := a
  obtain ⟨vb, db⟩ := b
  obtain ⟨vc, dc⟩ := c
  obtain ⟨x, rfl⟩ := ha
  obtain ⟨y, rfl⟩ := hb
  obtain ⟨z, rfl⟩ := hc
  rcases sort_mk va vb x y with ⟨h1, h2⟩ | ⟨h1, h2⟩ | ⟨rfl, h1, h2⟩ <;> rw [h1, h2] <;>
    simp only [squareArea_mk, Dual.mk.injEq, Option.some.injEq] <;> constructor <;> first | trivial | ring

theorem squareArea_sort23 {a b c : Dual} (ha : Fin a) (hb : Fin b) (hc : Fin c) : squareArea a (Dual.min b c) (Dual.max b c) = squareArea a b c := by
  obtain ⟨va, da⟩ := a
  obtain ⟨vb, db⟩ := b
  obtain ⟨vc, dc⟩ := c
  obtain ⟨x, rfl⟩ := ha
  obtain ⟨y, rfl⟩ := hb
  obtain ⟨z, rfl⟩ := hc
  rcases sort_mk vb vc y z with ⟨h1, h2⟩ | ⟨h1, h2⟩ | ⟨rfl, h1, h2⟩ <;> rw [h1, h2] <;>
    simp only [squareArea_mk, Dual.mk.injEq, Option.some.injEq] <;> constructor <;> first | trivial | ring

/-- sorting the sides does not change the derivative, even where sides are equal -/
theorem kiteAreaD_eq (eps : ℝ) {a b c : Dual} (ha : Fin a) (hb : Fin b) (hc : Fin c) :
    kiteAreaD eps a b c = Dual.zeroSafeSqrt eps (Dual.max (const 0) (squareArea a b c)) := by
  have h1 := fin_min ha hb
  have h2 := fin_max ha hb
  have h3 := fin_min h2 hc
  have h4 := fin_max h2 hc
  have : kiteAreaD eps a b c = Dual.zeroSafeSqrt eps (Dual.max (const 0)
      (squareArea (Dual.min (Dual.min a b) (Dual.min (Dual.max a b) c)) (Dual.max (Dual.min a b) (Dual.min (Dual.max a b) c)) (Dual.max (Dual.max a b) c))) := rfl
  rw [this, squareArea_sort12 h1 h3 h4, squareArea_sort23 h1 h2 hc, squareArea_sort12 ha hb hc]

variable {t : ℝ} {f g k : ℝ → ℝ} {a b c : Dual}

theorem track_squareArea (ha : Tracks f t a) (hb : Tracks g t b) (hc : Tracks k t c) :
    Tracks (fun s => (f s + g s + k s) * (-f s + g s + k s) * (f s - g s + k s) * (f s + g s - k s)) t (squareArea a b c) := by
  have h := track_mul (track_mul (track_mul (track_add ha (track_add hb hc)) (track_sub hc (track_sub ha hb))) (track_add hc (track_sub ha hb)))
    (track_add ha (track_sub hb hc))
  refine Tracks.congr h (Filter.Eventually.of_forall fun s => ?_)
  ring

theorem track_kiteArea {eps : ℝ} (he : 0 < eps) (ha : Tracks f t a) (hb : Tracks g t b) (hc : Tracks k t c)
    (h : 10 * eps ≤ (squareArea a b c).v) : Tracks (fun s => kiteArea (f s) (g s) (k s)) t (kiteAreaD eps a b c) := by
  have hp : 0 < (squareArea a b c).v := by linarith
  rw [kiteAreaD_eq eps ha.fin hb.fin hc.fin]
  have h1 := track_max_right (track_const 0 t) (track_squareArea ha hb hc) (by simpa using hp)
  have h2 := track_zeroSafeSqrt he h1 (by simpa [max_eq_right hp.le] using h)
  refine Tracks.congr h2 (Filter.Eventually.of_forall fun s => ?_)
  rw [kiteArea_eq]
  rfl

/-- a positive part to a power larger than 1 is differentiable at zero too -/
theorem track_relu_pow {y : ℝ} (ha : Tracks f t a) (hy : 1 < y) :
    Tracks (fun s => (max 0 (f s)) ^ y) t (Dual.pow (Dual.max (const 0) a) y) := by
  rcases lt_trichotomy a.v 0 with h | h | h
  · exact track_pow (track_max_left (track_const 0 t) ha (by simpa using h)) hy.le
  · obtain ⟨h1, x, hx, h2⟩ := ha
    have hv : (Dual.max (const 0) a).v = 0 := by simp [h]
    refine ⟨by simp [h1, h], 0, ?_, ?_⟩
    · obtain ⟨d, hd⟩ := fin_max (fin_const 0) (⟨x, hx⟩ : Fin a)
      unfold Dual.pow
      simp only
      rw [if_neg (by linarith), if_neg (by rintro ⟨-, h'⟩; linarith), hd, hv, Real.zero_rpow (by linarith), mul_zero]
      simp [lin]
    · have hφ : HasDerivAt (fun w : ℝ => (max 0 w) ^ y) 0 0 := by
        have habs := hasDerivAt_abs_rpow 0 hy
        rw [mul_zero, hasDerivAt_iff_isLittleO] at habs
        rw [hasDerivAt_iff_isLittleO]
        refine Asymptotics.IsLittleO.trans_isBigO ?_ (Asymptotics.isBigO_refl _ _)
        refine Asymptotics.IsBigO.trans_isLittleO ?_ habs
        refine Asymptotics.IsBigO.of_bound 1 (Filter.Eventually.of_forall fun w => ?_)
        have h0 : (0 : ℝ) ^ y = 0 := Real.zero_rpow (by linarith)
        simp only [max_self, h0, smul_zero, sub_zero, abs_zero, one_mul, Real.norm_eq_abs]
        rw [abs_of_nonneg (by positivity), abs_of_nonneg (by positivity)]
        exact Real.rpow_le_rpow (by positivity) (max_le (abs_nonneg _) (le_abs_self _)) (by linarith)
      have hφ' : HasDerivAt (fun w : ℝ => (max 0 w) ^ y) 0 (f t) := by rw [h1, h]; exact hφ
      have := hφ'.comp t h2
      rw [zero_mul] at this
      exact this
  · exact track_pow (track_max_right (track_const 0 t) ha (by simpa using h)) hy.le


open Filter Topology

theorem track_kappas {eps : ℝ} (he : 0 < eps) (st : Bool) {b r : Dual} (hb : Tracks f t b) (hr : Tracks g t r) (hb0 : 0 < b.v) (hr0 : 0 < r.v)
    (h1 : b.v ≠ 1 + r.v) (h2 : b.v ≠ |1 - r.v|) (hk : Lens b.v r.v → 10 * eps ≤ (kappas b.v r.v).1 ^ 2) :
    Tracks (fun s => (kappas (f s) (g s)).1) t (kappasD eps st b r).1 ∧
    Tracks (fun s => (kappas (f s) (g s)).2.1) t (kappasD eps st b r).2.1 ∧
    Tracks (fun s => (kappas (f s) (g s)).2.2) t (kappasD eps st b r).2.2 := by
  classical
  have h1r := track_sub (track_const 1 t) hr
  have hplus := track_add (track_square hb) (track_mul (track_sub hr (track_const 1 t)) (track_add hr (track_const 1 t)))
  have hminus := track_sub (track_square hb) (track_mul (track_sub hr (track_const 1 t)) (track_add hr (track_const 1 t)))
  have hcabs : ContinuousAt (fun s => |1 - g s|) t := h1r.cont.abs
  have hc1r : ContinuousAt (fun s => 1 + g s) t := continuousAt_const.add hr.cont
  by_cases hl : Lens b.v r.v
  · have hev : ∀ᶠ s in 𝓝 t, f s > |1 - g s| ∧ f s < 1 + g s :=
      (hcabs.eventually_lt hb.cont (by rw [hb.1, hr.1]; exact hl.1)).and (hb.cont.eventually_lt hc1r (by rw [hb.1, hr.1]; exact hl.2))
    have hcond : b.v > |1 - r.v| ∧ b.v < 1 + r.v := hl
    have hb_ : Tracks (fun s => if f s > |1 - g s| ∧ f s < 1 + g s then f s else 1) t
        (Dual.where st (b.v > |1 - r.v| ∧ b.v < 1 + r.v) b (const 1)) := track_where_pos hb (fin_const _) hcond hev
    have hv : (squareArea r (Dual.where st (b.v > |1 - r.v| ∧ b.v < 1 + r.v) b (const 1)) (const 1)).v = (kappas b.v r.v).1 ^ 2 := by
      rw [(lens_kappas hl).2.1]
      simp only [squareArea, mul_v, add_v, sub_v, const_v, where_v, if_pos hcond]
      ring
    have harea := track_kiteArea he hr hb_ (track_const 1 t) (by rw [hv]; exact hk hl)
    have harea' : Tracks (fun s => (kappas (f s) (g s)).1) t (kappasD eps st b r).1 :=
      track_where_pos (g := fun _ => 0) harea (fin_const _) hcond hev
    have hne : (kappasD eps st b r).1.v ≠ 0 := by
      rw [kappasD_area]
      exact (lens_kappas hl).1.ne'
    exact ⟨harea', track_atan2 harea' hplus (Or.inr hne), track_atan2 harea' hminus (Or.inr hne)⟩
  · have hcond : ¬ (b.v > |1 - r.v| ∧ b.v < 1 + r.v) := hl
    have hout : b.v < |1 - r.v| ∨ 1 + r.v < b.v := by
      rw [not_and_or, gt_iff_lt, not_lt, not_lt] at hcond
      exact hcond.imp (fun h => lt_of_le_of_ne h h2) (fun h => lt_of_le_of_ne h h1.symm)
    have hev : ∀ᶠ s in 𝓝 t, ¬ (f s > |1 - g s| ∧ f s < 1 + g s) := by
      rcases hout with h | h
      · filter_upwards [hb.cont.eventually_lt hcabs (by rw [hb.1, hr.1]; exact h)] with s hs h'
        exact lt_asymm hs h'.1
      · filter_upwards [hc1r.eventually_lt hb.cont (by rw [hb.1, hr.1]; exact h)] with s hs h'
        exact lt_asymm hs h'.2
    have harea' : Tracks (fun s => (kappas (f s) (g s)).1) t (kappasD eps st b r).1 :=
      track_where_neg (fin_kiteAreaD eps hr.fin (fin_where hb.fin (fin_const _)) (fin_const _)) (track_const 0 t) hcond hev
    have hz : ∀ᶠ s in 𝓝 t, (kappas (f s) (g s)).1 = 0 := hev.mono fun s hs => kappas_area_zero hs
    refine ⟨harea', track_atan2_zero harea' hplus hz ?_, track_atan2_zero harea' hminus hz ?_⟩
    · simp only [add_v, square_v, mul_v, sub_v, const_v]
      rcases hout with h | h
      · rcases lt_abs.1 h with h | h
        · have : b.v ^ 2 < (1 - r.v) ^ 2 := by nlinarith
          nlinarith
        · nlinarith
      · nlinarith
    · simp only [add_v, square_v, mul_v, sub_v, const_v]
      rcases hout with h | h
      · rcases lt_abs.1 h with h | h
        · nlinarith
        · have : b.v ^ 2 < (r.v - 1) ^ 2 := by nlinarith
          nlinarith
      · nlinarith

theorem track_s0s2 (st : Bool) {b r b2 r2 area k0 k1 : Dual} {fb fr fb2 fr2 fa f0 f1 : ℝ → ℝ} (hb : Tracks fb t b) (hr : Tracks fr t r)
    (hb2 : Tracks fb2 t b2) (hr2 : Tracks fr2 t r2) (ha : Tracks fa t area) (h0 : Tracks f0 t k0) (h1 : Tracks f1 t k1)
    (hpos : 0 < b.v + r.v) (hne : b.v + r.v ≠ 1) :
    Tracks (fun s => (s0s2 (fb s) (fr s) (fb2 s) (fr2 s) (fa s) (f0 s) (f1 s)).1) t (s0s2D st b r b2 r2 area k0 k1).1 ∧
    Tracks (fun s => (s0s2 (fb s) (fr s) (fb2 s) (fr2 s) (fa s) (f0 s) (f1 s)).2) t (s0s2D st b r b2 r2 area k0 k1).2 := by
  classical
  have C := fun c => track_const c t
  have heta := track_mul (track_mul (C 0.5) hr2) (track_add hr2 (track_mul (C 2) hb2))
  have hl0 := track_mul (C π) (track_sub (C 1) hr2)
  have hl2 := track_add (track_mul (C 2) hl0) (track_mul (C (4 * π)) (track_sub heta (C 0.5)))
  have hs0 := track_sub (C π) (track_sub (track_add h1 (track_mul hr2 h0)) (track_mul ha (C 0.5)))
  have hs2 := track_add (track_mul (C 2) hs0) (track_mul (C 2) (track_sub (track_add (track_neg (track_sub (C π) h1))
    (track_mul (track_mul (C 2) heta) h0)) (track_mul (track_mul (C 0.25) ha) (track_add (track_add (C 1) (track_mul (C 5) hr2)) hb2))))
  have hcond : ∀ x y d : ℝ, ((1 + (x + y)) * (1 - (x + y)) + d > d) ↔ (1 + (x + y)) * (1 - (x + y)) > 0 := fun x y d => by
    constructor <;> intro h <;> linarith
  have hcont : ContinuousAt (fun s => (1 + (fb s + fr s)) * (1 - (fb s + fr s))) t :=
    (continuousAt_const.add (hb.cont.add hr.cont)).mul (continuousAt_const.sub (hb.cont.add hr.cont))
  have hval : ((const 1 + (b + r)) * (const 1 - (b + r)) + const 4 * b * r).v = (1 + (b.v + r.v)) * (1 - (b.v + r.v)) + 4 * b.v * r.v := rfl
  have hval2 : (const 4 * b * r).v = 4 * b.v * r.v := rfl
  rcases lt_or_gt_of_ne hne with h | h
  · have hc : ((const 1 + (b + r)) * (const 1 - (b + r)) + const 4 * b * r).v > (const 4 * b * r).v := by
      rw [hval, hval2, hcond]
      exact mul_pos (by linarith) (by linarith)
    have hev : ∀ᶠ s in 𝓝 t, (1 + (fb s + fr s)) * (1 - (fb s + fr s)) + 4 * fb s * fr s > 4 * fb s * fr s := by
      filter_upwards [(continuousAt_const (y := (0 : ℝ))).eventually_lt hcont (by rw [hb.1, hr.1]; exact mul_pos (by linarith) (by linarith))] with s hs
      exact (hcond _ _ _).2 hs
    refine ⟨?_, ?_⟩
    · refine Tracks.congr (track_where_pos (st := st) (g := fun s => π - (f1 s + fr2 s * f0 s - fa s * 0.5)) hl0 hs0.fin hc hev)
        (Eventually.of_forall fun s => ?_)
      simp only [s0s2]
      split_ifs <;> rfl
    · refine Tracks.congr (track_where_pos (st := st) (g := fun _ => 0) hl2 hs2.fin hc hev)
        (hev.mono fun s hs => ?_)
      simp only [s0s2]
      rw [if_pos hs, if_pos hs]
  · have hc : ¬ ((const 1 + (b + r)) * (const 1 - (b + r)) + const 4 * b * r).v > (const 4 * b * r).v := by
      rw [hval, hval2, hcond, gt_iff_lt, not_lt]
      nlinarith
    have hev : ∀ᶠ s in 𝓝 t, ¬ (1 + (fb s + fr s)) * (1 - (fb s + fr s)) + 4 * fb s * fr s > 4 * fb s * fr s := by
      filter_upwards [hcont.eventually_lt (continuousAt_const (y := (0 : ℝ))) (by rw [hb.1, hr.1]; nlinarith)] with s hs
      rw [hcond]
      exact not_lt.2 hs.le
    refine ⟨?_, ?_⟩
    · refine Tracks.congr (track_where_neg (st := st) (f := fun s => 0) hl0.fin hs0 hc hev)
        (hev.mono fun s hs => ?_)
      simp only [s0s2]
      rw [if_neg hs, if_neg hs]
    · refine Tracks.congr (track_where_neg (st := st) (f := fun s => 0) hl2.fin hs2 hc hev)
        (hev.mono fun s hs => ?_)
      simp only [s0s2]
      rw [if_neg hs, if_neg hs]


theorem _root_.Jaxoplanet.AD.Dual.Tracks.ev_lt {f : ℝ → ℝ} {a : Dual} (h : Tracks f t a) {c : ℝ} (hc : a.v < c) : ∀ᶠ s in 𝓝 t, f s < c :=
  h.cont.eventually_lt continuousAt_const (by rw [h.1]; exact hc)
theorem _root_.Jaxoplanet.AD.Dual.Tracks.ev_gt {f : ℝ → ℝ} {a : Dual} (h : Tracks f t a) {c : ℝ} (hc : c < a.v) : ∀ᶠ s in 𝓝 t, c < f s :=
  (continuousAt_const (y := c)).eventually_lt h.cont (by rw [h.1]; exact hc)

theorem track_pIntegrand_one {eps : ℝ} (he : 0 < eps) (he1 : 10 * eps ≤ 1) (st : Bool) {b r b2 r2 k0 : Dual} {fb fr fb2 fr2 f0 : ℝ → ℝ} (hb : Tracks fb t b)
    (hr : Tracks fr t r) (hb2 : Tracks fb2 t b2) (hr2 : Tracks fr2 t r2) (h0 : Tracks f0 t k0) (x : ℝ)
    (hd1 : r2.v + b2.v - 2 * b.v * r.v * Real.cos (0.5 * k0.v * x + 0.5 * k0.v) ≠ 10 * eps)
    (hd2 : 1 - (r2.v + b2.v - 2 * b.v * r.v * Real.cos (0.5 * k0.v * x + 0.5 * k0.v)) ≠ 10 * eps) :
    Tracks (fun s => pIntegrand eps (fb s) (fr s) (fb2 s) (fr2 s) (f0 s) 1 x) t (pIntegrandD eps st b r b2 r2 k0 1 x) := by
  classical
  have C := fun c => track_const c t
  have hc := track_cos (track_add (track_mul (track_mul (C 0.5) h0) (C x)) (track_mul (C 0.5) h0))
  have hD := track_sub (track_add hr2 hb2) (track_mul (track_mul (track_mul (C 2) hb) hr) hc)
  set D := r2 + b2 - const 2 * b * r * ((const 0.5 * k0 * const x + const 0.5 * k0).cos) with hDdef
  set fD := fun s => fr2 s + fb2 s - 2 * fb s * fr s * Real.cos (0.5 * f0 s * x + 0.5 * f0 s) with hfD
  have hDv : D.v = r2.v + b2.v - 2 * b.v * r.v * Real.cos (0.5 * k0.v * x + 0.5 * k0.v) := rfl
  rw [← hDv] at hd1 hd2
  have hmaxc : ContinuousAt (fun s => max 0 (fD s)) t := continuousAt_const.max hD.cont
  have hfin := fin_pIntegrandD he st hb.fin hr.fin hb2.fin hr2.fin h0.fin (Or.inl rfl : 1 = 1 ∨ 3 ≤ 1) x
  rcases lt_or_gt_of_ne hd1 with h | h
  · -- the guarded point
    have hcond : (Dual.max (const 0) D).v < 10 * eps := max_lt (by simpa using he) h
    have hev : ∀ᶠ s in 𝓝 t, max 0 (fD s) < 10 * eps :=
      hmaxc.eventually_lt continuousAt_const (by rw [hD.1]; exact hcond)
    unfold pIntegrandD pIntegrand
    simp only [if_true]
    refine track_where_pos (C 0) ?_ hcond hev
    refine fin_div (by have := hb.fin; have := hr.fin; have := hD.fin; have := hc.fin; fin_tac) (by have := hD.fin; fin_tac) ?_
    simp only [mul_v, const_v, where_v]
    rw [if_pos (by exact hcond)]
    norm_num
  · have hD0 : 0 < D.v := by linarith
    have hM := track_max_right (C 0) hD (by simpa using hD0)
    have hMv : (Dual.max (const 0) D).v = D.v := max_eq_right hD0.le
    have hcond : ¬ (Dual.max (const 0) D).v < 10 * eps := by rw [hMv]; linarith
    have hev : ∀ᶠ s in 𝓝 t, ¬ max 0 (fD s) < 10 * eps := by
      filter_upwards [(continuousAt_const (y := 10 * eps)).eventually_lt hD.cont (by rw [hD.1]; exact h)] with s hs
      exact not_lt.2 (hs.le.trans (le_max_right _ _))
    have hz := track_sub (C 1) hM
    have hzv : (const 1 - Dual.max (const 0) D).v = 1 - D.v := by simp [max_eq_right hD0.le]
    have hz2 : Tracks (fun s => if 1 - max 0 (fD s) < 10 * eps then 1 else 1 - max 0 (fD s)) t
        (Dual.where st ((const 1 - Dual.max (const 0) D).v < 10 * eps) (const 1) (const 1 - Dual.max (const 0) D)) ∧
        10 * eps ≤ (Dual.where st ((const 1 - Dual.max (const 0) D).v < 10 * eps) (const 1) (const 1 - Dual.max (const 0) D)).v := by
      rcases lt_or_gt_of_ne hd2 with h' | h'
      · have hc2 : (const 1 - Dual.max (const 0) D).v < 10 * eps := by rw [hzv]; exact h'
        refine ⟨track_where_pos (C 1) hz.fin hc2 ?_, ?_⟩
        · exact hz.ev_lt hc2
        · rw [where_v, if_pos hc2]; simpa using he1
      · have hc2 : ¬ (const 1 - Dual.max (const 0) D).v < 10 * eps := by rw [hzv]; exact not_lt.2 h'.le
        refine ⟨track_where_neg (fin_const 1) hz hc2 ?_, ?_⟩
        · filter_upwards [hz.ev_gt (c := 10 * eps) (by rw [hzv]; exact h')] with s hs
          exact not_lt.2 hs.le
        · rw [where_v, if_neg hc2]; exact not_lt.1 hc2
    have hz3 := track_mul hz2.1 (track_zeroSafeSqrt he hz2.1 hz2.2)
    have ho : Tracks (fun s => if max 0 (fD s) < 10 * eps then 1 else max 0 (fD s)) t
        (Dual.where st ((Dual.max (const 0) D).v < 10 * eps) (const 1) (Dual.max (const 0) D)) :=
      track_where_neg (fin_const 1) hM hcond hev
    have hne : (const 3 * Dual.where st ((Dual.max (const 0) D).v < 10 * eps) (const 1) (Dual.max (const 0) D)).v ≠ 0 := by
      simp only [mul_v, const_v, where_v, if_neg hcond]
      rw [hMv]
      positivity
    have hres := track_div (track_mul (track_mul (track_mul (C 2) hr) (track_sub hr (track_mul hb hc))) (track_sub (C 1) hz3)) (track_mul (C 3) ho) hne
    unfold pIntegrandD pIntegrand
    simp only [if_true]
    exact track_where_neg (fin_const 0) hres hcond hev

theorem track_pIntegrand_high {eps : ℝ} (he : 0 < eps) (st : Bool) {b r b2 r2 k0 : Dual} {fb fr fb2 fr2 f0 : ℝ → ℝ} (hb : Tracks fb t b)
    (hr : Tracks fr t r) (hb2 : Tracks fb2 t b2) (hr2 : Tracks fr2 t r2) (h0 : Tracks f0 t k0) {n : ℕ} (hn : 3 ≤ n) (x : ℝ)
    (hsize : 4 * b.v * r.v ≠ 10 * eps) (hq : 0 < 1 - r2.v - b2.v + 2 * b.v * r.v) :
    Tracks (fun s => pIntegrand eps (fb s) (fr s) (fb2 s) (fr2 s) (f0 s) n x) t (pIntegrandD eps st b r b2 r2 k0 n x) := by
  classical
  have C := fun c => track_const c t
  have hfac := track_mul (track_mul (C 4) hb) hr
  have hs2 := track_square (track_sin (track_div (track_add (track_mul (track_mul (C 0.5) h0) (C x)) (track_mul (C 0.5) h0)) (C 2) (by simp)))
  have hnum := track_add (track_sub (track_sub (C 1) hr2) hb2) (track_mul (track_mul (C 2) hb) hr)
  have hy : 1 < 0.5 * (n : ℝ) := by
    have : (3 : ℝ) ≤ n := by exact_mod_cast hn
    linarith
  have hlast := track_mul (track_mul (C 2) hr) (track_add (track_sub hr hb) (track_mul (track_mul (C 2) hb) hs2))
  unfold pIntegrandD pIntegrand
  simp only [if_neg (show n ≠ 1 by omega)]
  rcases lt_or_gt_of_ne hsize with h | h
  · have hc : (const 4 * b * r).v < 10 * eps := h
    have hev : ∀ᶠ s in 𝓝 t, 4 * fb s * fr s < 10 * eps := hfac.ev_lt hc
    have hw := track_where_pos (st := st) (g := fun s => 4 * fb s * fr s) (C 1) hfac.fin hc hev
    have hk2 := track_max_right (C 0) (track_div hnum hw (by rw [where_v, if_pos hc]; simp))
      (by simpa [where_v, if_pos h] using hq)
    exact track_mul (track_relu_pow (track_where_pos (track_sub (C 1) hr2) (track_mul hw (track_sub hk2 hs2)).fin hc hev) hy) hlast
  · have hc : ¬ (const 4 * b * r).v < 10 * eps := not_lt.2 (le_of_lt h)
    have hev : ∀ᶠ s in 𝓝 t, ¬ 4 * fb s * fr s < 10 * eps := by
      filter_upwards [hfac.ev_gt (c := 10 * eps) h] with s hs
      exact not_lt.2 hs.le
    have hpos : 0 < 4 * b.v * r.v := by linarith
    have hw := track_where_neg (st := st) (f := fun _ => 1) (fin_const 1) hfac hc hev
    have hk2 := track_max_right (C 0) (track_div hnum hw (by rw [where_v, if_neg hc]; exact hpos.ne'))
      (by simp only [const_v, div_v, where_v, if_neg hc]; exact div_pos hq hpos)
    exact track_mul (track_relu_pow (track_where_neg (track_sub (C 1) hr2).fin (track_mul hw (track_sub hk2 hs2)) hc hev) hy) hlast

theorem track_pIntegral {eps : ℝ} (st : Bool) {quad : List (ℝ × ℝ)} {b r b2 r2 k0 : Dual} {fb fr fb2 fr2 f0 : ℝ → ℝ} {n : ℕ} (h0 : Tracks f0 t k0)
    (h : ∀ xw ∈ quad, Tracks (fun s => pIntegrand eps (fb s) (fr s) (fb2 s) (fr2 s) (f0 s) n xw.1) t (pIntegrandD eps st b r b2 r2 k0 n xw.1)) :
    Tracks (fun s => pIntegral eps quad (fb s) (fr s) (fb2 s) (fr2 s) (f0 s) n) t (pIntegralD eps st quad b r b2 r2 k0 n) :=
  track_mul (track_mul (track_const _ _) h0) (track_sum quad fun xw hxw => track_mul (h xw hxw) (track_const _ _))

/-- The points at which the gradient is claimed to be the derivative: the body is not exactly centred, not of size zero, not in exact
contact with the limb, and no quantity is at the threshold of one of the guards of the program (`10 * eps`). -/
structure Regular (eps : ℝ) (quad : List (ℝ × ℝ)) (b r : ℝ) : Prop where
  centre : b ≠ 0
  size : r ≠ 0
  outer : |b| ≠ 1 + |r|
  inner : |b| ≠ |(1 - |r|)|
  kite : Lens |b| |r| → 10 * eps ≤ (kappas |b| |r|).1 ^ 2
  factor : ¬ Clear |b| |r| → 4 * |b| * |r| ≠ 10 * eps
  node : ¬ Clear |b| |r| → ∀ xw ∈ quad,
    |r| ^ 2 + |b| ^ 2 - 2 * |b| * |r| * Real.cos (0.5 * (kappas |b| |r|).2.1 * xw.1 + 0.5 * (kappas |b| |r|).2.1) ≠ 10 * eps ∧
    1 - (|r| ^ 2 + |b| ^ 2 - 2 * |b| * |r| * Real.cos (0.5 * (kappas |b| |r|).2.1 * xw.1 + 0.5 * (kappas |b| |r|).2.1)) ≠ 10 * eps

theorem track_solution {eps : ℝ} (he : 0 < eps) (he1 : 10 * eps ≤ 1) (st : Bool) {quad : List (ℝ × ℝ)} {b r : Dual} {fb fr : ℝ → ℝ}
    (hb : Tracks fb t b) (hr : Tracks fr t r) (hreg : Regular eps quad b.v r.v) (n : ℕ) :
    Tracks (fun s => solution eps quad (fb s) (fr s) n) t (solutionD eps st quad b r n) := by
  classical
  have C := fun c => track_const c t
  have hB := track_abs hb hreg.centre
  have hR := track_abs hr hreg.size
  have hB0 : 0 < b.abs.v := abs_pos.2 hreg.centre
  have hR0 : 0 < r.abs.v := abs_pos.2 hreg.size
  obtain ⟨hA, hk0, hk1⟩ := track_kappas he st hB hR hB0 hR0 hreg.outer hreg.inner hreg.kite
  have hfin := fin_solutionD he st quad hb.fin hr.fin (fun h => hreg.size h.2) (fun h => hreg.centre h.1)
  have hR1 := track_add (C 1) hR
  have hB1 := track_add (C 1) hB
  have hgap1 := track_sub hB hR1
  have hgap2 := track_sub hB1 hR
  have hin : |(1 - |r.v|)| ≠ |b.v| := hreg.inner.symm
  by_cases hc : Clear b.abs.v r.abs.v
  · have hbf : ∀ c : Prop, Fin (Dual.where st c (const 1) b.abs) := fun c => fin_where (fin_const _) hB.fin
    have hsf := fun c : Prop => fin_s0s2D st (hbf c) hR.fin (fin_square (hbf c)) (fin_square hR.fin) hA.fin hk0.fin hk1.fin
    have hpf := fun (c : Prop) (n : ℕ) (hn : n = 1 ∨ 3 ≤ n) =>
      fin_pIntegralD he st quad (hbf c) hR.fin (fin_square (hbf c)) (fin_square hR.fin) hk0.fin hn
    have hcl : ∀ᶠ s in 𝓝 t, Clear |fb s| |fr s| := by
      rcases hc with h | h
      · have h' : (1 : ℝ) + |r.v| < |b.v| := lt_of_le_of_ne h hreg.outer.symm
        filter_upwards [hgap1.ev_gt (c := 0) (by change 0 < |b.v| - (1 + |r.v|); linarith)] with s hs
        left; linarith
      · have h' : (1 : ℝ) + |b.v| < |r.v| := lt_of_le_of_ne h fun h' => hin (by rw [← h']; simp)
        filter_upwards [hgap2.ev_lt (c := 0) (by change (1 + |b.v|) - |r.v| < 0; linarith)] with s hs
        right; linarith
    have hc' : b.abs.v ≥ 1 + r.abs.v ∨ 1 + b.abs.v ≤ r.abs.v := hc
    rcases n with _ | _ | _ | n
    · by_cases hfull : 1 + b.abs.v ≤ r.abs.v
      · have h' : (1 : ℝ) + |b.v| < |r.v| := lt_of_le_of_ne hfull fun h' => hin (by rw [← h']; simp)
        have hev : ∀ᶠ s in 𝓝 t, 1 + |fb s| ≤ |fr s| := by
          filter_upwards [hgap2.ev_lt (c := 0) (by change (1 + |b.v|) - |r.v| < 0; linarith)] with s hs
          linarith
        refine Tracks.congr (track_where_pos (st := st) (g := fun _ => 0) (C 0) (fin_where (fin_const π) (hsf _).1) hfull hev) ?_
        filter_upwards [hev] with s hs
        rw [solution_zero]
        simp only [if_pos hs]
      · have hno : b.abs.v ≥ 1 + r.abs.v := hc.resolve_right hfull
        have h' : (1 : ℝ) + |r.v| < |b.v| := lt_of_le_of_ne hno hreg.outer.symm
        have hev : ∀ᶠ s in 𝓝 t, |fb s| ≥ 1 + |fr s| := by
          filter_upwards [hgap1.ev_gt (c := 0) (by change 0 < |b.v| - (1 + |r.v|); linarith)] with s hs
          linarith
        have hev2 : ∀ᶠ s in 𝓝 t, ¬ 1 + |fb s| ≤ |fr s| := hev.mono fun s hs => by linarith
        refine Tracks.congr (track_where_neg (st := st) (f := fun _ => 0) (fin_const 0)
          (track_where_pos (st := st) (g := fun _ => 0) (C π) (hsf _).1 hno hev) hfull hev2) ?_
        filter_upwards [hev, hev2] with s hs hs2
        rw [solution_zero, if_neg hs2, if_neg hs2, if_pos hs, if_pos hs]
    · have h1 := track_where_pos (st := st) (g := fun _ => 0) (C 0) (hpf (b.abs.v ≥ 1 + r.abs.v ∨ 1 + b.abs.v ≤ r.abs.v) 1 (Or.inl rfl)) hc' hcl
      refine Tracks.congr (track_sub (track_neg h1) (track_div (track_mul (C 2) (track_sub hk1 (C π))) (C 3) (by simp))) ?_
      filter_upwards [hcl] with s hs
      rw [solution_one]
      simp only [if_pos hs]
    · refine Tracks.congr (track_where_pos (st := st) (g := fun _ => 0) (C 0) (hsf _).2 hc' hcl) ?_
      filter_upwards [hcl] with s hs
      rw [solution_two]
      simp only [if_pos hs]
    · refine Tracks.congr (track_neg (track_where_pos (st := st) (g := fun _ => 0) (C 0) (hpf _ (n + 3) (Or.inr (by omega))) hc' hcl)) ?_
      filter_upwards [hcl] with s hs
      rw [solution_high]
      simp only [if_pos hs]
  · have hno : ¬ b.abs.v ≥ 1 + r.abs.v := fun h => hc (Or.inl h)
    have hfull : ¬ 1 + b.abs.v ≤ r.abs.v := fun h => hc (Or.inr h)
    have hc' : ¬ (b.abs.v ≥ 1 + r.abs.v ∨ 1 + b.abs.v ≤ r.abs.v) := hc
    have h1' : |b.v| < 1 + |r.v| := not_le.1 hno
    have h2' : |r.v| < 1 + |b.v| := not_le.1 hfull
    have hev1 : ∀ᶠ s in 𝓝 t, ¬ |fb s| ≥ 1 + |fr s| := by
      filter_upwards [hgap1.ev_lt (c := 0) (by change |b.v| - (1 + |r.v|) < 0; linarith)] with s hs
      push Not; linarith
    have hev2 : ∀ᶠ s in 𝓝 t, ¬ 1 + |fb s| ≤ |fr s| := by
      filter_upwards [hgap2.ev_gt (c := 0) (by change 0 < (1 + |b.v|) - |r.v|; linarith)] with s hs
      push Not; linarith
    have hcl : ∀ᶠ s in 𝓝 t, ¬ Clear |fb s| |fr s| := by
      filter_upwards [hev1, hev2] with s h h' hcl
      exact hcl.elim h h'
    have hb_ : Tracks (fun s => if Clear |fb s| |fr s| then 1 else |fb s|) t
        (Dual.where st (b.abs.v ≥ 1 + r.abs.v ∨ 1 + b.abs.v ≤ r.abs.v) (const 1) b.abs) := track_where_neg (fin_const 1) hB hc' hcl
    have hbv : (Dual.where st (b.abs.v ≥ 1 + r.abs.v ∨ 1 + b.abs.v ≤ r.abs.v) (const 1) b.abs).v = |b.v| := by
      rw [where_v, if_neg hc']; rfl
    have hs := track_s0s2 st hb_ hR (track_square hb_) (track_square hR) hA hk0 hk1 (by rw [hbv]; exact add_pos hB0 hR0)
      (by
        rw [hbv]
        intro h
        apply hreg.inner
        have h3 : |b.v| + |r.v| = 1 := h
        have h4 : |(1 - |r.v|)| = 1 - |r.v| := abs_of_nonneg (by have := abs_nonneg b.v; linarith)
        rw [h4]
        linarith)
    have hk0v : (kappasD eps st b.abs r.abs).2.1.v = (kappas |b.v| |r.v|).2.1 := kappasD_0 _ _ _ _
    have hp1 := track_pIntegral (quad := quad) st hk0 fun xw hxw => track_pIntegrand_one he he1 st hb_ hR (track_square hb_) (track_square hR) hk0 xw.1
      (by rw [square_v, square_v, hbv, hk0v]; exact (hreg.node hc xw hxw).1)
      (by rw [square_v, square_v, hbv, hk0v]; exact (hreg.node hc xw hxw).2)
    have hph := fun (n : ℕ) (hn : 3 ≤ n) => track_pIntegral (quad := quad) st hk0 fun xw _ =>
      track_pIntegrand_high he st hb_ hR (track_square hb_) (track_square hR) hk0 hn xw.1
      (by rw [hbv]; exact hreg.factor hc)
      (by
        rw [square_v, square_v, hbv]
        change 0 < 1 - |r.v| ^ 2 - |b.v| ^ 2 + 2 * |b.v| * |r.v|
        nlinarith)
    rcases n with _ | _ | _ | n
    · refine Tracks.congr (track_where_neg (st := st) (f := fun _ => 0) (fin_const 0)
          (track_where_neg (st := st) (f := fun _ => 0) (fin_const π) hs.1 hno hev1) hfull hev2) ?_
      filter_upwards [hev1, hev2] with s h1 h2
      rw [solution_zero]
      simp only [if_neg h1, if_neg h2]
    · have h1 := track_where_neg (st := st) (f := fun _ => 0) (fin_const 0) hp1 hc' hcl
      refine Tracks.congr (track_sub (track_neg h1) (track_div (track_mul (C 2) (track_sub hk1 (C π))) (C 3) (by simp))) ?_
      filter_upwards [hcl] with s hs
      rw [solution_one]
    · refine Tracks.congr (track_where_neg (st := st) (f := fun _ => 0) (fin_const 0) hs.2 hc' hcl) ?_
      filter_upwards [hcl] with s hs
      rw [solution_two]
    · refine Tracks.congr (track_neg (track_where_neg (st := st) (f := fun _ => 0) (fin_const 0) (hph (n + 3) (by omega)) hc' hcl)) ?_
      filter_upwards [hcl] with s hs
      rw [solution_high]

/-- a parameter of the program with its derivative with respect to `s`, at `s = t` -/
noncomputable def input (t : ℝ) (f : ℝ → ℝ) : Dual := ⟨f t, some (deriv f t)⟩

theorem track_input {f : ℝ → ℝ} (h : DifferentiableAt ℝ f t) : Tracks f t (input t f) := ⟨rfl, _, rfl, h.hasDerivAt⟩

theorem track_pCoeff {u : List (ℝ → ℝ)} (hu : ∀ f ∈ u, DifferentiableAt ℝ f t) (n : ℕ) :
    Tracks (fun s => pCoeff (u.map (· s)) n) t (pCoeffD (u.map (input t)) n) := by
  have hl : ∀ s, (uAug (u.map (· s))).length = (uAugD (u.map (input t))).length := fun s => by simp [uAug, uAugD]
  have h := track_mul (track_const ((-1) ^ (n + 1)) t) (track_sum (List.range (uAugD (u.map (input t))).length)
    (F := fun j s => (Nat.choose j n : ℝ) * (uAug (u.map (· s))).getD j 0)
    (D := fun j => const (Nat.choose j n : ℝ) * (uAugD (u.map (input t))).getD j (const 0)) fun j _ => ?_)
  · refine Tracks.congr h (Eventually.of_forall fun s => ?_)
    simp only [pCoeff]
    rw [hl, range_sum]
  · refine track_mul (track_const _ _) ?_
    rcases j with _ | j
    · exact track_const _ _
    · simp only [uAug, uAugD, List.getD_eq_getElem?_getD, List.getElem?_cons_succ, List.getElem?_map]
      cases hj : u[j]? with
      | none => exact track_const _ _
      | some f => exact track_input (hu f (List.mem_of_getElem? hj))

theorem track_gHigh {p : ℕ → Dual} {q : ℕ → ℝ → ℝ} (h : ∀ n, Tracks (q n) t (p n)) (size n : ℕ) :
    Tracks (fun s => gHigh (fun n => q n s) size n) t (gHighD p size n) := by
  induction hk : size - n using Nat.strong_induction_on generalizing n with
  | _ k ih =>
    by_cases hn : n < size
    · have h1 := track_add (track_div (h n) (track_const ((n : ℝ) + 2) t) (by simp only [const_v]; positivity))
        (ih (size - (n + 2)) (by omega) (n + 2) rfl)
      have e : gHighD p size n = p n / const ((n : ℝ) + 2) + gHighD p size (n + 2) := by rw [gHighD, if_pos hn]
      rw [e]
      refine Tracks.congr h1 (Eventually.of_forall fun s => ?_)
      rw [gHigh, if_pos hn]
    · have e : gHighD p size n = const 0 := by rw [gHighD, if_neg hn]
      rw [e]
      refine Tracks.congr (track_const 0 t) (Eventually.of_forall fun s => ?_)
      rw [gHigh, if_neg hn]

theorem track_greens {u : List (ℝ → ℝ)} (hu : ∀ f ∈ u, DifferentiableAt ℝ f t) (n : ℕ) :
    Tracks (fun s => greens (u.map (· s)) n) t (greensD (u.map (input t)) n) := by
  have hl : ∀ s, (uAug (u.map (· s))).length = (uAugD (u.map (input t))).length := fun s => by simp [uAug, uAugD]
  have h1 := track_pCoeff hu
  have h2 := track_gHigh h1 (uAugD (u.map (input t))).length
  unfold greens greensD
  simp only [hl]
  rcases n with _ | _ | n
  · exact track_add (h1 0) (track_mul (track_const _ _) (h2 2))
  · exact track_add (h1 1) (track_mul (track_const _ _) (h2 3))
  · exact h2 _

theorem track_lightCurve {eps : ℝ} (he : 0 < eps) (he1 : 10 * eps ≤ 1) (st : Bool) {quad : List (ℝ × ℝ)} {u : List (ℝ → ℝ)} {fb fr : ℝ → ℝ} {b r : Dual}
    (hu : ∀ f ∈ u, DifferentiableAt ℝ f t) (hb : Tracks fb t b) (hr : Tracks fr t r)
    (hflux : greens (u.map (· t)) 0 + greens (u.map (· t)) 1 / 1.5 ≠ 0) (hreg : Regular eps quad b.v r.v) :
    Tracks (fun s => lightCurve eps quad (u.map (· s)) (fb s) (fr s)) t (lightCurveD eps st quad (u.map (input t)) b r) := by
  have hs := track_solution he he1 st hb hr hreg
  have hg := track_greens hu
  cases u with
  | nil => exact track_sub (track_mul (hs 0) (track_const _ _)) (track_const _ _)
  | cons f u =>
    have hnorm := track_mul (track_const π t) (track_add (hg 0) (track_div (hg 1) (track_const 1.5 t) (by norm_num)))
    have hn0 : (const π * (greensD ((f :: u).map (input t)) 0 + greensD ((f :: u).map (input t)) 1 / const 1.5)).v ≠ 0 := by
      rw [← hnorm.1]
      exact mul_ne_zero pi_pos.ne' hflux
    have h := track_sub (track_sum (List.range ((f :: u).length + 1)) fun n _ => track_mul (hs n) (track_div (hg n) hnorm hn0)) (track_const 1 t)
    have e : lightCurveD eps st quad ((f :: u).map (input t)) b r =
      Dual.sum ((List.range ((f :: u).length + 1)).map fun (n : ℕ) => solutionD eps st quad b r n *
        (greensD ((f :: u).map (input t)) n / (const π * (greensD ((f :: u).map (input t)) 0 + greensD ((f :: u).map (input t)) 1 / const 1.5)))) - const 1 := by
      simp [lightCurveD]
    rw [e]
    refine Tracks.congr h (Eventually.of_forall fun s => ?_)
    simp only [lightCurve, List.map_cons, List.length_cons, List.length_map]
    rw [range_sum]

end Jaxoplanet.LimbDark
