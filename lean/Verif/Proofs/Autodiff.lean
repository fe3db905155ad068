import Verif.Model.Autodiff
import Mathlib.Analysis.Calculus.Deriv.Abs
import Mathlib.Analysis.Calculus.Deriv.Inv
import Mathlib.Analysis.SpecialFunctions.Sqrt
import Mathlib.Analysis.SpecialFunctions.Complex.LogDeriv
import Mathlib.Analysis.SpecialFunctions.Pow.Deriv
import Mathlib.Analysis.SpecialFunctions.Trigonometric.Deriv

/-!
# Rules of the model of automatic differentiation: values, finiteness, and agreement with derivatives
-/

namespace Jaxoplanet.AD
open Real Filter Topology

namespace Dual

/-! ## Values -/

@[simp] theorem const_v (c : ℝ) : (const c).v = c := rfl
@[simp] theorem add_v (a b : Dual) : (a + b).v = a.v + b.v := rfl
@[simp] theorem sub_v (a b : Dual) : (a - b).v = a.v - b.v := rfl
@[simp] theorem neg_v (a : Dual) : (-a).v = -a.v := rfl
@[simp] theorem mul_v (a b : Dual) : (a * b).v = a.v * b.v := rfl
@[simp] theorem div_v (a b : Dual) : (a / b).v = a.v / b.v := rfl
@[simp] theorem square_v (a : Dual) : a.square.v = a.v ^ 2 := rfl
@[simp] theorem sqrt_v (a : Dual) : a.sqrt.v = √a.v := rfl
@[simp] theorem zeroSafeSqrt_v (eps : ℝ) (a : Dual) : (a.zeroSafeSqrt eps).v = Kepler.zeroSafeSqrt a.v := rfl
@[simp] theorem cos_v (a : Dual) : a.cos.v = Real.cos a.v := rfl
@[simp] theorem sin_v (a : Dual) : a.sin.v = Real.sin a.v := rfl
@[simp] theorem atan2_v (a b : Dual) : (atan2 a b).v = arctan2 a.v b.v := rfl
@[simp] theorem abs_v (a : Dual) : a.abs.v = |a.v| := rfl
@[simp] theorem max_v (a b : Dual) : (Dual.max a b).v = Max.max a.v b.v := rfl
@[simp] theorem min_v (a b : Dual) : (Dual.min a b).v = Min.min a.v b.v := rfl
@[simp] theorem pow_v (a : Dual) (y : ℝ) : (a.pow y).v = a.v ^ y := rfl
@[simp] theorem ipow_v (a : Dual) (n : ℕ) : (a.ipow n).v = a.v ^ n := rfl
@[simp] theorem where_v (st : Bool) (c : Prop) [Decidable c] (a b : Dual) : (Dual.where st c a b).v = if c then a.v else b.v := by
  unfold Dual.where
  simp only
  congr
@[simp] theorem mod_v (a b : Dual) : (Dual.mod a b).v = fmod a.v b.v := rfl
@[simp] theorem sum_v (l : List Dual) : (Dual.sum l).v = (l.map (·.v)).sum := by
  induction l with
  | nil => rfl
  | cons a l ih => simpa [Dual.sum] using ih

/-! ## Finite derivatives -/

/-- the derivative is a finite number -/
def Fin (a : Dual) : Prop := ∃ d, a.d = some d

theorem fin_const (c : ℝ) : Fin (const c) := ⟨_, rfl⟩

theorem lin_some {c : ℝ} {d : Option ℝ} (h : ∃ x, d = some x) : ∃ x, lin (some c) d = some x := by
  obtain ⟨x, rfl⟩ := h
  exact ⟨_, rfl⟩

theorem plus_some {a b : Option ℝ} (ha : ∃ x, a = some x) (hb : ∃ x, b = some x) : ∃ x, plus a b = some x := by
  obtain ⟨x, rfl⟩ := ha
  obtain ⟨y, rfl⟩ := hb
  exact ⟨_, rfl⟩

theorem fin_add {a b : Dual} (ha : Fin a) (hb : Fin b) : Fin (a + b) := plus_some ha hb
theorem fin_sub {a b : Dual} (ha : Fin a) (hb : Fin b) : Fin (a - b) := plus_some ha (lin_some hb)
theorem fin_neg {a : Dual} (ha : Fin a) : Fin (-a) := lin_some ha
theorem fin_mul {a b : Dual} (ha : Fin a) (hb : Fin b) : Fin (a * b) := plus_some (lin_some ha) (lin_some hb)
theorem fin_div {a b : Dual} (ha : Fin a) (hb : Fin b) (h : b.v ≠ 0) : Fin (a / b) := by
  change ∃ d, (if b.v = 0 then none else _) = some d
  rw [if_neg h]
  exact plus_some (lin_some ha) (lin_some hb)
theorem fin_square {a : Dual} (ha : Fin a) : Fin a.square := lin_some ha
theorem fin_zeroSafeSqrt (eps : ℝ) {a : Dual} (ha : Fin a) : Fin (a.zeroSafeSqrt eps) := by
  obtain ⟨d, hd⟩ := ha
  exact ⟨_, by unfold zeroSafeSqrt; simp only [hd]; rfl⟩
theorem fin_cos {a : Dual} (ha : Fin a) : Fin a.cos := lin_some ha
theorem fin_sin {a : Dual} (ha : Fin a) : Fin a.sin := lin_some ha
theorem fin_atan2 {a b : Dual} (ha : Fin a) (hb : Fin b) (h : ¬ (a.v = 0 ∧ b.v = 0)) : Fin (atan2 a b) := by
  unfold atan2 Fin
  simp only
  rw [if_neg h]
  exact plus_some (lin_some ha) (lin_some hb)
theorem fin_abs {a : Dual} (ha : Fin a) : Fin a.abs := lin_some ha
theorem fin_max {a b : Dual} (ha : Fin a) (hb : Fin b) : Fin (Dual.max a b) := plus_some (lin_some ha) (lin_some hb)
theorem fin_min {a b : Dual} (ha : Fin a) (hb : Fin b) : Fin (Dual.min a b) := plus_some (lin_some ha) (lin_some hb)
theorem fin_pow {a : Dual} (ha : Fin a) {y : ℝ} (h : 1 ≤ y) : Fin (a.pow y) := by
  unfold Fin pow
  simp only
  rw [if_neg (by linarith), if_neg (by rintro ⟨-, h'⟩; linarith)]
  exact lin_some ha
theorem fin_ipow {a : Dual} (ha : Fin a) (n : ℕ) : Fin (a.ipow n) := by
  unfold ipow Fin
  simp only
  split_ifs
  · exact ⟨_, rfl⟩
  · exact lin_some ha
theorem fin_pow' {a : Dual} (ha : Fin a) {y : ℝ} (h : y = 0 ∨ 1 ≤ y) : Fin (a.pow y) := by
  rcases h with rfl | h
  · unfold Dual.pow Fin
    simp only [if_true]
    exact lin_some ha
  · exact fin_pow ha h
theorem fin_where {st : Bool} {c : Prop} {a b : Dual} (ha : Fin a) (hb : Fin b) : Fin (Dual.where st c a b) := by
  obtain ⟨x, hx⟩ := ha
  obtain ⟨y, hy⟩ := hb
  unfold Fin Dual.where
  simp only
  by_cases h : c
  · simp only [if_pos h, hx, hy]
    simp
  · simp only [if_neg h, hx, hy]
    simp
theorem fin_mod {a b : Dual} (ha : Fin a) (hb : Fin b) (h : b.v ≠ 0) : Fin (Dual.mod a b) := by
  unfold Fin mod
  simp only
  rw [if_neg h]
  exact plus_some ha (lin_some hb)
theorem fin_sqrt {a : Dual} (ha : Fin a) (h : 0 < a.v) : Fin a.sqrt := by
  unfold Fin Dual.sqrt
  simp only
  rw [if_neg (not_le.2 h)]
  exact lin_some ha
theorem fin_sum {l : List Dual} (h : ∀ a ∈ l, Fin a) : Fin (Dual.sum l) := by
  induction l with
  | nil => exact fin_const 0
  | cons a l ih => exact fin_add (h a (by simp)) (ih fun b hb => h b (by simp [hb]))

/-! ## Agreement with derivatives -/

/-- the number is the value of `f` at `t` with the derivative of `f` -/
def Tracks (f : ℝ → ℝ) (t : ℝ) (a : Dual) : Prop := f t = a.v ∧ ∃ d, a.d = some d ∧ HasDerivAt f d t

variable {f g : ℝ → ℝ} {t : ℝ} {a b : Dual}

theorem Tracks.fin (h : Tracks f t a) : Fin a := h.2.imp fun _ h => h.1
theorem Tracks.cont (h : Tracks f t a) : ContinuousAt f t := h.2.choose_spec.2.continuousAt
theorem Tracks.congr (h : Tracks f t a) (he : ∀ᶠ s in 𝓝 t, g s = f s) : Tracks g t a :=
  ⟨(he.self_of_nhds).trans h.1, h.2.imp fun _ hd => ⟨hd.1, hd.2.congr_of_eventuallyEq he⟩⟩

theorem track_const (c t : ℝ) : Tracks (fun _ => c) t (const c) := ⟨rfl, 0, rfl, hasDerivAt_const _ _⟩

theorem track_add (hf : Tracks f t a) (hg : Tracks g t b) : Tracks (fun s => f s + g s) t (a + b) := by
  obtain ⟨hf, x, hx, hf'⟩ := hf
  obtain ⟨hg, y, hy, hg'⟩ := hg
  refine ⟨by simp [hf, hg], x + y, ?_, hf'.add hg'⟩
  change plus a.d b.d = _
  rw [hx, hy]; rfl

theorem track_neg (hf : Tracks f t a) : Tracks (fun s => -f s) t (-a) := by
  obtain ⟨hf, x, hx, hf'⟩ := hf
  refine ⟨by simp [hf], -1 * x, ?_, hf'.neg.congr_deriv (by ring)⟩
  exact congrArg (lin (some _)) hx

theorem track_sub (hf : Tracks f t a) (hg : Tracks g t b) : Tracks (fun s => f s - g s) t (a - b) := by
  obtain ⟨hf, x, hx, hf'⟩ := hf
  obtain ⟨hg, y, hy, hg'⟩ := hg
  refine ⟨by simp [hf, hg], x + -1 * y, ?_, (hf'.sub hg').congr_deriv (by ring)⟩
  change plus a.d (lin _ b.d) = _
  rw [hx, hy]; rfl

theorem track_mul (hf : Tracks f t a) (hg : Tracks g t b) : Tracks (fun s => f s * g s) t (a * b) := by
  obtain ⟨hf, x, hx, hf'⟩ := hf
  obtain ⟨hg, y, hy, hg'⟩ := hg
  refine ⟨by simp [hf, hg], b.v * x + a.v * y, ?_, ?_⟩
  · change plus (lin _ a.d) (lin _ b.d) = _
    rw [hx, hy]; rfl
  · have := hf'.mul hg'
    rw [hf, hg] at this
    refine this.congr_deriv ?_
    ring

theorem track_div (hf : Tracks f t a) (hg : Tracks g t b) (h : b.v ≠ 0) : Tracks (fun s => f s / g s) t (a / b) := by
  obtain ⟨hf, x, hx, hf'⟩ := hf
  obtain ⟨hg, y, hy, hg'⟩ := hg
  refine ⟨by simp [hf, hg], 1 / b.v * x + -a.v / b.v ^ 2 * y, ?_, ?_⟩
  · change (if b.v = 0 then none else plus (lin _ a.d) (lin _ b.d)) = _
    rw [if_neg h, hx, hy]; rfl
  · have := hf'.div hg' (by rwa [hg])
    rw [hf, hg] at this
    refine this.congr_deriv ?_
    field_simp
    ring

theorem track_square (hf : Tracks f t a) : Tracks (fun s => f s ^ 2) t a.square := by
  obtain ⟨hf, x, hx, hf'⟩ := hf
  refine ⟨by simp [hf], 2 * a.v * x, ?_, ?_⟩
  · exact congrArg (lin (some _)) hx
  · have := hf'.pow 2
    rw [hf] at this
    refine this.congr_deriv ?_
    simp

theorem track_zeroSafeSqrt {eps : ℝ} (he : 0 < eps) (hf : Tracks f t a) (h : 10 * eps ≤ a.v) :
    Tracks (fun s => Kepler.zeroSafeSqrt (f s)) t (a.zeroSafeSqrt eps) := by
  obtain ⟨hf, x, hx, hf'⟩ := hf
  have hp : 0 < a.v := by linarith
  refine ⟨by simp [hf], Kepler.zeroSafeSqrtTangent eps a.v x, ?_, ?_⟩
  · change a.d.map _ = _
    rw [hx]; rfl
  · have := hf'.sqrt (by rw [hf]; exact hp.ne')
    unfold Kepler.zeroSafeSqrt
    refine this.congr_deriv ?_
    unfold Kepler.zeroSafeSqrtTangent
    simp only
    rw [if_neg (not_lt.2 h), hf]
    have h1 := Real.sq_sqrt hp.le
    have h2 := (Real.sqrt_pos.2 hp).ne'
    rw [div_eq_div_iff (by positivity) hp.ne']
    linear_combination (-x) * h1

theorem track_sqrt (hf : Tracks f t a) (h : 0 < a.v) : Tracks (fun s => √(f s)) t a.sqrt := by
  obtain ⟨hf, x, hx, hf'⟩ := hf
  refine ⟨by simp [hf], 0.5 / √a.v * x, ?_, ?_⟩
  · change lin (if a.v ≤ 0 then none else _) a.d = _
    rw [if_neg (not_le.2 h), hx]; rfl
  · refine (hf'.sqrt (by rw [hf]; exact h.ne')).congr_deriv ?_
    rw [hf]
    have h2 := (Real.sqrt_pos.2 h).ne'
    field_simp
    ring

theorem track_cos (hf : Tracks f t a) : Tracks (fun s => Real.cos (f s)) t a.cos := by
  obtain ⟨hf, x, hx, hf'⟩ := hf
  refine ⟨by simp [hf], -Real.sin a.v * x, ?_, by have := hf'.cos; rwa [hf] at this⟩
  exact congrArg (lin (some _)) hx

theorem track_sin (hf : Tracks f t a) : Tracks (fun s => Real.sin (f s)) t a.sin := by
  obtain ⟨hf, x, hx, hf'⟩ := hf
  refine ⟨by simp [hf], Real.cos a.v * x, ?_, by have := hf'.sin; rwa [hf] at this⟩
  exact congrArg (lin (some _)) hx

/-- `arctan2` away from its cut -/
theorem track_atan2 (hf : Tracks f t a) (hg : Tracks g t b) (h : 0 < b.v ∨ a.v ≠ 0) :
    Tracks (fun s => arctan2 (f s) (g s)) t (atan2 a b) := by
  obtain ⟨hf, x, hx, hf'⟩ := hf
  obtain ⟨hg, y, hy, hg'⟩ := hg
  have h0 : ¬ (a.v = 0 ∧ b.v = 0) := by
    rintro ⟨h1, h2⟩
    rcases h with h | h
    · linarith
    · exact h h1
  have hpos : 0 < a.v ^ 2 + b.v ^ 2 := by
    rcases h with h | h <;> positivity
  refine ⟨by simp [hf, hg], b.v / (a.v ^ 2 + b.v ^ 2) * x + -a.v / (a.v ^ 2 + b.v ^ 2) * y, ?_, ?_⟩
  · unfold atan2
    simp only
    rw [if_neg h0, hx, hy]; rfl
  · have hc : HasDerivAt (fun s => ((g s : ℂ) + (f s : ℂ) * Complex.I)) ((y : ℂ) + (x : ℂ) * Complex.I) t :=
      hg'.ofReal_comp.add (hf'.ofReal_comp.mul_const _)
    have hs : ((g t : ℂ) + (f t : ℂ) * Complex.I) ∈ Complex.slitPlane := by
      rw [Complex.mem_slitPlane_iff]
      simp only [Complex.add_re, Complex.ofReal_re, Complex.mul_re, Complex.I_re, Complex.ofReal_im, Complex.I_im, Complex.add_im, Complex.mul_im]
      rw [hf, hg]
      simpa using h
    have hl := (hc.clog_real hs)
    have him := (Complex.imCLM.hasFDerivAt.comp_hasDerivAt t hl)
    have he : (fun s => arctan2 (f s) (g s)) = (Complex.imCLM ∘ fun s => Complex.log ((g s : ℂ) + (f s : ℂ) * Complex.I)) := by
      ext s
      simp only [Function.comp, Complex.imCLM_apply, Complex.log_im, arctan2]
      congr 1
      apply Complex.ext <;> simp
    rw [he]
    refine him.congr_deriv ?_
    rw [Complex.imCLM_apply, hf, hg, Complex.div_im]
    simp only [Complex.add_re, Complex.ofReal_re, Complex.mul_re, Complex.I_re, Complex.ofReal_im, Complex.I_im, Complex.add_im, Complex.mul_im,
      Complex.normSq_apply]
    have e1 : (b.v + (a.v * 0 - 0 * 1)) * (b.v + (a.v * 0 - 0 * 1)) + (0 + (a.v * 1 + 0 * 0)) * (0 + (a.v * 1 + 0 * 0)) =
        a.v ^ 2 + b.v ^ 2 := by ring
    rw [e1]
    field_simp
    ring

/-- `arctan2` of a numerator that stays zero is constant -/
theorem track_atan2_zero (hf : Tracks f t a) (hg : Tracks g t b) (hz : ∀ᶠ s in 𝓝 t, f s = 0) (h : b.v ≠ 0) :
    Tracks (fun s => arctan2 (f s) (g s)) t (atan2 a b) := by
  have hgc := hg.cont
  obtain ⟨hf, x, hx, hf'⟩ := hf
  obtain ⟨hg, y, hy, hg'⟩ := hg
  have ha : a.v = 0 := by rw [← hf, hz.self_of_nhds]
  have hx0 : x = 0 := by
    have : HasDerivAt f 0 t := (hasDerivAt_const t (0 : ℝ)).congr_of_eventuallyEq hz
    exact hf'.unique this
  refine ⟨by simp [hf, hg], b.v / (a.v ^ 2 + b.v ^ 2) * x + -a.v / (a.v ^ 2 + b.v ^ 2) * y, ?_, ?_⟩
  · unfold atan2
    simp only
    rw [if_neg (fun h' => h h'.2), hx, hy]; rfl
  · rw [ha, hx0]
    simp only [mul_zero, neg_zero, zero_div, zero_mul, add_zero]
    have key : ∀ᶠ s in 𝓝 t, arctan2 (f s) (g s) = arctan2 0 b.v := by
      have e0 : ∀ w : ℝ, arctan2 0 w = Complex.arg (w : ℂ) := fun w => rfl
      rcases lt_or_gt_of_ne h with h | h
      · filter_upwards [hz, hgc.eventually_lt continuousAt_const (by rwa [hg])] with s h1 h2
        rw [h1, e0, e0, Complex.arg_ofReal_of_neg h2, Complex.arg_ofReal_of_neg h]
      · filter_upwards [hz, (continuousAt_const (y := (0 : ℝ))).eventually_lt hgc (by rwa [hg])] with s h1 h2
        rw [h1, e0, e0, Complex.arg_ofReal_of_nonneg h2.le, Complex.arg_ofReal_of_nonneg h.le]
    exact (hasDerivAt_const t _).congr_of_eventuallyEq key

theorem track_abs (hf : Tracks f t a) (h : a.v ≠ 0) : Tracks (fun s => |f s|) t a.abs := by
  obtain ⟨hf, x, hx, hf'⟩ := hf
  refine ⟨by simp [hf], SignType.sign a.v * x, ?_, ?_⟩
  · exact congrArg (lin (some _)) hx
  · have := (hasDerivAt_abs (by rwa [hf] : f t ≠ 0)).comp t hf'
    rw [hf] at this
    exact this

theorem track_max_left (hf : Tracks f t a) (hg : Tracks g t b) (h : b.v < a.v) : Tracks (fun s => Max.max (f s) (g s)) t (Dual.max a b) := by
  have hc := hg.cont.eventually_lt hf.cont (by rwa [hf.1, hg.1])
  obtain ⟨hf, x, hx, hf'⟩ := hf
  obtain ⟨hg, y, hy, hg'⟩ := hg
  refine ⟨by simp [hf, hg], x, ?_, hf'.congr_of_eventuallyEq (hc.mono fun s hs => max_eq_left hs.le)⟩
  unfold Dual.max
  simp only [max_eq_left h.le, balancedEq]
  rw [hx, hy]
  simp [lin, plus, h.ne]

theorem track_max_right (hf : Tracks f t a) (hg : Tracks g t b) (h : a.v < b.v) : Tracks (fun s => Max.max (f s) (g s)) t (Dual.max a b) := by
  have hc := hf.cont.eventually_lt hg.cont (by rwa [hf.1, hg.1])
  obtain ⟨hf, x, hx, hf'⟩ := hf
  obtain ⟨hg, y, hy, hg'⟩ := hg
  refine ⟨by simp [hf, hg], y, ?_, hg'.congr_of_eventuallyEq (hc.mono fun s hs => max_eq_right hs.le)⟩
  unfold Dual.max
  simp only [max_eq_right h.le, balancedEq]
  rw [hx, hy]
  simp [lin, plus, h.ne]

theorem track_pow {y : ℝ} (hf : Tracks f t a) (hy : 1 ≤ y) : Tracks (fun s => f s ^ y) t (a.pow y) := by
  obtain ⟨hf, x, hx, hf'⟩ := hf
  refine ⟨by simp [hf], y * a.v ^ (y - 1) * x, ?_, ?_⟩
  · unfold pow
    simp only
    rw [if_neg (by linarith), if_neg (by rintro ⟨-, h'⟩; linarith), hx]
    rfl
  · have := hf'.rpow_const (p := y) (Or.inr hy)
    rw [hf] at this
    refine this.congr_deriv ?_
    ring

theorem track_pow' {y : ℝ} (hf : Tracks f t a) (hy : y = 0 ∨ 1 ≤ y) : Tracks (fun s => f s ^ y) t (a.pow y) := by
  rcases hy with rfl | hy
  · obtain ⟨hf, x, hx, hf'⟩ := hf
    refine ⟨by simp, 0, ?_, ?_⟩
    · unfold Dual.pow
      simp [hx, lin]
    · simpa using hasDerivAt_const t (1 : ℝ)
  · exact track_pow hf hy

theorem track_ipow (hf : Tracks f t a) (n : ℕ) : Tracks (fun s => f s ^ n) t (a.ipow n) := by
  obtain ⟨hf, x, hx, hf'⟩ := hf
  rcases n with _ | n
  · exact ⟨by simp, 0, by simp [ipow], by simpa using hasDerivAt_const t (1 : ℝ)⟩
  · refine ⟨by simp [hf], ((n + 1 : ℕ) : ℝ) * a.v ^ (n + 1 - 1) * x, ?_, ?_⟩
    · unfold ipow
      simp [hx, lin]
    · have := hf'.pow (n + 1)
      rw [hf] at this
      exact this

/-- a finite derivative is the derivative of the tangent line -/
theorem fin_tracks (h : Fin a) : ∃ f : ℝ → ℝ, Tracks f t a := by
  obtain ⟨d, hd⟩ := h
  refine ⟨fun s => a.v + d * (s - t), by simp, d, hd, ?_⟩
  simpa using (((hasDerivAt_id t).sub_const t).const_mul d).const_add a.v

theorem track_where_pos {st : Bool} {c : Prop} {p : ℝ → Prop} [DecidablePred p] (hf : Tracks f t a) (hb : Fin b) (hc : c)
    (hp : ∀ᶠ s in 𝓝 t, p s) : Tracks (fun s => if p s then f s else g s) t (Dual.where st c a b) := by
  refine Tracks.congr (f := f) ?_ (hp.mono fun s hs => if_pos hs)
  obtain ⟨hf, x, hx, hf'⟩ := hf
  obtain ⟨y, hy⟩ := hb
  refine ⟨by simp [Dual.where, hc, hf], x, ?_, hf'⟩
  simp [Dual.where, hc, hx, hy]

theorem track_where_neg {st : Bool} {c : Prop} {p : ℝ → Prop} [DecidablePred p] (hf : Fin a) (hg : Tracks g t b) (hc : ¬ c)
    (hp : ∀ᶠ s in 𝓝 t, ¬ p s) : Tracks (fun s => if p s then f s else g s) t (Dual.where st c a b) := by
  refine Tracks.congr (f := g) ?_ (hp.mono fun s hs => if_neg hs)
  obtain ⟨hg, x, hx, hg'⟩ := hg
  obtain ⟨y, hy⟩ := hf
  refine ⟨by simp [Dual.where, hc, hg], x, ?_, hg'⟩
  simp [Dual.where, hc, hx, hy]

/-- away from the multiples of the period -/
theorem track_mod (hf : Tracks f t a) (hg : Tracks g t b) (h0 : b.v ≠ 0) (h : ∀ n : ℤ, a.v / b.v ≠ n) :
    Tracks (fun s => fmod (f s) (g s)) t (Dual.mod a b) := by
  have hq : ContinuousAt (fun s => f s / g s) t := hf.cont.div hg.cont (by rwa [hg.1])
  obtain ⟨hf, x, hx, hf'⟩ := hf
  obtain ⟨hg, y, hy, hg'⟩ := hg
  have hlt : ((⌊a.v / b.v⌋ : ℤ) : ℝ) < a.v / b.v := lt_of_le_of_ne (Int.floor_le _) (h _).symm
  have hev : ∀ᶠ s in 𝓝 t, ⌊f s / g s⌋ = ⌊a.v / b.v⌋ := by
    filter_upwards [(continuousAt_const (y := ((⌊a.v / b.v⌋ : ℤ) : ℝ))).eventually_lt hq (by rw [hf, hg]; exact hlt),
      hq.eventually_lt (continuousAt_const (y := ((⌊a.v / b.v⌋ : ℤ) : ℝ) + 1)) (by rw [hf, hg]; exact Int.lt_floor_add_one _)] with s h1 h2
    exact Int.floor_eq_iff.2 ⟨h1.le, h2⟩
  refine ⟨by simp [hf, hg], x + -(⌊a.v / b.v⌋ : ℝ) * y, ?_, ?_⟩
  · unfold Dual.mod
    simp only
    rw [if_neg h0, hx, hy]
    rfl
  · have := hf'.sub (hg'.mul_const (⌊a.v / b.v⌋ : ℝ))
    refine (this.congr_deriv (by ring)).congr_of_eventuallyEq (hev.mono fun s hs => ?_)
    simp only [fmod, hs, Pi.sub_apply]

theorem track_sum {ι : Type*} (l : List ι) {F : ι → ℝ → ℝ} {D : ι → Dual} (h : ∀ i ∈ l, Tracks (F i) t (D i)) :
    Tracks (fun s => (l.map fun i => F i s).sum) t (Dual.sum (l.map D)) := by
  induction l with
  | nil => exact track_const 0 t
  | cons i l ih =>
    simp only [List.map_cons, List.sum_cons]
    exact track_add (h i (by simp)) (ih fun j hj => h j (by simp [hj]))

end Dual
end Jaxoplanet.AD
