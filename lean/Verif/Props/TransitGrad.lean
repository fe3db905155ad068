import Verif.Model.TransitGrad
import Verif.Props.LimbDarkDeriv

/-!
# C91: gradients of transit light curves with respect to the transit parameters
-/

namespace Jaxoplanet.Transit
open Real AD AD.Dual LimbDark Filter Topology
open Jaxoplanet.Spec (totalFlux)

/-- the light curve of a `TransitOrbit` constructed from these parameters, at the time `t` (0 if the constructor raises) -/
noncomputable def transitFlux (eps : ℝ) (quad : List (ℝ × ℝ)) (u : List ℝ) (period : ℝ) (duration speed : Option ℝ)
    (time_transit impact_param radius_ratio t : ℝ) : ℝ :=
  match TransitOrbit.init period duration speed (some time_transit) (some impact_param) (some radius_ratio) with
  | .ok o => LightCurve.limbDarkTerm eps quad u 1 radius_ratio (o.relative_position t)
  | .error _ => 0

/-- its gradient, along the direction given by the derivatives of the parameters -/
noncomputable def transitGradient (eps : ℝ) (strict : Bool) (quad : List (ℝ × ℝ)) (u : List Dual) (period : Dual) (duration speed : Option Dual)
    (time_transit impact_param radius_ratio t : Dual) : Option ℝ :=
  match TransitOrbitD.init period duration speed (some time_transit) (some impact_param) (some radius_ratio) with
  | .ok o => (o.flux eps strict quad u t).d
  | .error _ => none

theorem fin_fold {o : TransitOrbitD} {t : Dual} (hp : Fin o.period) (ht0 : Fin o.time_transit) (ht : Fin t) (h : o.period.v ≠ 0) : Fin (o.fold t) :=
  fin_sub (fin_mod (fin_sub ht (fin_sub ht0 (fin_mul (fin_const _) hp))) hp h) (fin_mul (fin_const _) hp)

/-- the folded time -/
noncomputable def foldTime (period time_transit t : ℝ) : ℝ := fmod (t - (time_transit - 0.5 * period)) period - 0.5 * period

theorem fin_flux {eps : ℝ} (he : 0 < eps) (st : Bool) (quad : List (ℝ × ℝ)) (u : List Dual) {o : TransitOrbitD} {t : Dual}
    (hu : ∀ a ∈ u, ∃ d, a.d = some d) (hp : Fin o.period) (hs : Fin o.speed) (ht0 : Fin o.time_transit) (hb : Fin o.impact_param)
    (hr : Fin o.radius_ratio) (ht : Fin t) (htot : totalFlux (u.map (·.v)) ≠ 0) (hp0 : o.period.v ≠ 0)
    (hr0 : o.radius_ratio.v ≠ 0) (hxy : ¬ (o.speed.v * foldTime o.period.v o.time_transit.v t.v = 0 ∧ o.impact_param.v = 0)) :
    Fin (o.flux eps st quad u t) :=
  orbit_gradient_finite he st quad u _ _ _ _ _ hu (fin_mul hs (fin_fold hp ht0 ht hp0)) hb hr (fin_const _) htot hxy (by simp) hr0

/-- C91, finite gradients, with a duration: unless there is no transit (`|impact_param| ≥ 1 + radius_ratio`), the body has no radius, or its
centre is exactly in front of the centre of the star -/
theorem transit_gradient_finite {eps : ℝ} (he : 0 < eps) (strict : Bool) (quad : List (ℝ × ℝ)) (u : List Dual)
    (period duration time_transit impact_param radius_ratio t : Dual) (speed : Option Dual)
    (hu : ∀ a ∈ u, ∃ d, a.d = some d) (hp : ∃ d, period.d = some d) (hd : ∃ d, duration.d = some d) (ht0 : ∃ d, time_transit.d = some d)
    (hb : ∃ d, impact_param.d = some d) (hr : ∃ d, radius_ratio.d = some d) (ht : ∃ d, t.d = some d)
    (htot : totalFlux (u.map (·.v)) ≠ 0) (hp0 : period.v ≠ 0) (hd0 : duration.v ≠ 0) (hr0 : radius_ratio.v ≠ 0)
    (hx2 : impact_param.v ^ 2 < (1 + radius_ratio.v) ^ 2)
    (hxy : ¬ (foldTime period.v time_transit.v t.v = 0 ∧ impact_param.v = 0)) :
    ∃ d, transitGradient eps strict quad u period (some duration) speed time_transit impact_param radius_ratio t = some d := by
  have hx2' : 0 < ((const 1 + radius_ratio).square - impact_param.square).v := by
    simp only [sub_v, square_v, add_v, const_v]
    linarith
  have hmax : 0 < (Dual.max (const 0) ((const 1 + radius_ratio).square - impact_param.square)).v := lt_max_of_lt_right hx2'
  have hs : Fin (const 2 * (Dual.max (const 0) ((const 1 + radius_ratio).square - impact_param.square)).sqrt / duration) :=
    fin_div (fin_mul (fin_const _) (fin_sqrt (fin_max (fin_const _) (fin_sub (fin_square (fin_add (fin_const _) hr)) (fin_square hb))) hmax)) hd hd0
  refine fin_flux (o := ⟨period, _, duration, time_transit, impact_param, radius_ratio⟩) he strict quad u hu hp hs ht0 hb hr ht htot hp0 hr0 ?_
  rintro ⟨h, h'⟩
  refine hxy ⟨(mul_eq_zero.1 h).resolve_left ?_, h'⟩
  exact div_ne_zero (mul_ne_zero two_ne_zero (Real.sqrt_pos.2 hmax).ne') hd0

/-- C91, finite gradients, with a speed -/
theorem transit_gradient_finite_speed {eps : ℝ} (he : 0 < eps) (strict : Bool) (quad : List (ℝ × ℝ)) (u : List Dual)
    (period speed time_transit impact_param radius_ratio t : Dual)
    (hu : ∀ a ∈ u, ∃ d, a.d = some d) (hp : ∃ d, period.d = some d) (hs : ∃ d, speed.d = some d) (ht0 : ∃ d, time_transit.d = some d)
    (hb : ∃ d, impact_param.d = some d) (hr : ∃ d, radius_ratio.d = some d) (ht : ∃ d, t.d = some d)
    (htot : totalFlux (u.map (·.v)) ≠ 0) (hp0 : period.v ≠ 0) (hr0 : radius_ratio.v ≠ 0)
    (hxy : ¬ (speed.v * foldTime period.v time_transit.v t.v = 0 ∧ impact_param.v = 0)) :
    ∃ d, transitGradient eps strict quad u period none (some speed) time_transit impact_param radius_ratio t = some d :=
  fin_flux (o := ⟨period, speed, _, time_transit, impact_param, radius_ratio⟩) he strict quad u hu hp hs ht0 hb hr ht htot hp0 hr0 hxy

/-- the derivative of the flux is not finite if that of `x` is not -/
theorem orbitFlux_none {eps : ℝ} {strict : Bool} {quad : List (ℝ × ℝ)} {u : List Dual} {x y z radius r_star : Dual} (hx : x.d = none)
    (h : strict = true ∨ (u ≠ [] ∧ 0 < z.v)) : (orbitFluxD eps strict quad u x y z radius r_star).d = none := by
  have hb : (Dual.sqrt (x.square + y.square) / r_star).d = none := by
    refine none_div_left ?_
    have : (x.square + y.square).d = none := none_add_left (by unfold Dual.square; simp [lin, hx])
    unfold Dual.sqrt
    simp [lin, this]
  have hk : (kappasD eps strict (Dual.sqrt (x.square + y.square) / r_star).abs (radius / r_star).abs).2.2.d = none := by
    refine none_atan2_right (none_sub_left ?_)
    unfold Dual.square Dual.abs
    simp only [lin, Option.map₂_eq_none_iff]
    right; right; exact hb
  have hlc : (lightCurveD eps strict quad u (Dual.sqrt (x.square + y.square) / r_star) (radius / r_star)).d = none := by
    cases u with
    | nil =>
      obtain rfl : strict = true := by simpa using h
      exact none_sub_left (none_mul_left (none_where_strict (Or.inr (none_where_strict (Or.inr (none_where_strict
        (Or.inr (none_sub_right (none_sub_left (none_add_left hk))))))))))
    | cons a u =>
      exact none_sub_left (none_sum (List.mem_map.2 ⟨1, List.mem_range.2 (by simp), rfl⟩)
        (none_mul_left (none_sub_right (none_div_left (none_mul_right (none_sub_left hk))))))
  unfold orbitFluxD
  rcases h with rfl | ⟨-, hz⟩
  · exact none_where_strict (Or.inl hlc)
  · classical
    unfold Dual.where
    simp only [gt_iff_lt, hz, if_true]
    split_ifs
    · rfl
    · exact hlc

/-- Finding F40: with a duration, if the disc of the body does not cross that of the star (`|impact_param| ≥ 1 + radius_ratio`), the gradient
of the (constant) light curve is not finite: at every time in reverse mode, during the "transit" in forward mode -/
theorem no_transit_gradient (eps : ℝ) (strict : Bool) (quad : List (ℝ × ℝ)) (u : List Dual)
    (period duration time_transit impact_param radius_ratio t : Dual) (speed : Option Dual)
    (hx2 : (1 + radius_ratio.v) ^ 2 ≤ impact_param.v ^ 2)
    (h : strict = true ∨ (u ≠ [] ∧ |foldTime period.v time_transit.v t.v| < 0.5 * duration.v)) :
    transitGradient eps strict quad u period (some duration) speed time_transit impact_param radius_ratio t = none := by
  refine orbitFlux_none (none_mul_left (none_div_left (none_mul_right ?_))) (h.imp_right fun h => ⟨h.1, ?_⟩)
  · have : (Dual.max (const 0) ((const 1 + radius_ratio).square - impact_param.square)).v ≤ 0 := by
      simp only [max_v, sub_v, square_v, add_v, const_v]
      exact max_le le_rfl (by linarith)
    change lin (if (Dual.max (const 0) ((const 1 + radius_ratio).square - impact_param.square)).v ≤ 0 then none else _) _ = none
    rw [if_pos this]
    rfl
  · have h' : |(TransitOrbitD.fold ⟨period, const 2 * (Dual.max (const 0) ((const 1 + radius_ratio).square - impact_param.square)).sqrt / duration, duration,
        time_transit, impact_param, radius_ratio⟩ t).v| < 0.5 * duration.v := h.2
    exact (if_pos h').symm ▸ (one_pos : (0 : ℝ) < 1)

/-- and yet this light curve is constant: no flux is lost -/
theorem no_transit_flux (eps : ℝ) (quad : List (ℝ × ℝ)) (u : List ℝ) (period duration time_transit impact_param radius_ratio t : ℝ)
    (hx2 : (1 + radius_ratio) ^ 2 ≤ impact_param ^ 2) (hr : 0 ≤ radius_ratio) (htot : totalFlux u ≠ 0) :
    transitFlux eps quad u period (some duration) none time_transit impact_param radius_ratio t = 0 := by
  classical
  have hb : 1 + radius_ratio ≤ |impact_param| := by
    have := sq_le_sq.1 hx2
    rwa [abs_of_nonneg (show 0 ≤ 1 + radius_ratio by linarith)] at this
  simp only [transitFlux, TransitOrbit.init, LightCurve.limbDarkTerm]
  split_ifs
  · refine light_curve_no_occultation eps quad u htot _ _ ?_
    rw [div_one, div_one, abs_of_nonneg hr, abs_of_nonneg (Real.sqrt_nonneg _)]
    refine hb.trans ?_
    rw [← Real.sqrt_sq_eq_abs]
    exact Real.sqrt_le_sqrt (le_add_of_nonneg_left (sq_nonneg _))
  · rfl

theorem track_flux {t : ℝ} {eps : ℝ} (he : 0 < eps) (he1 : 10 * eps ≤ 1) (st : Bool) (quad : List (ℝ × ℝ)) {u : List (ℝ → ℝ)} {o : TransitOrbitD} {O : ℝ → TransitOrbit}
    {time : ℝ → ℝ} {T : Dual} (hu : ∀ f ∈ u, DifferentiableAt ℝ f t) (hp : Tracks (fun s => (O s).period) t o.period)
    (hs : Tracks (fun s => (O s).speed) t o.speed) (hd : ContinuousAt (fun s => (O s).duration) t) (hd' : (O t).duration = o.duration.v)
    (ht0 : Tracks (fun s => (O s).time_transit) t o.time_transit)
    (hb : Tracks (fun s => (O s).impact_param) t o.impact_param) (hr : Tracks (fun s => (O s).radius_ratio) t o.radius_ratio) (hT : Tracks time t T)
    (htot : totalFlux (u.map (· t)) ≠ 0) (hp0 : (O t).period ≠ 0)
    (hwrap : ∀ n : ℤ, (time t - ((O t).time_transit - 0.5 * (O t).period)) / (O t).period ≠ n)
    (hedge : |(O t).fold (time t)| ≠ 0.5 * (O t).duration)
    (hxy : ¬ ((O t).speed * (O t).fold (time t) = 0 ∧ (O t).impact_param = 0))
    (hreg : Regular eps quad (√(((O t).speed * (O t).fold (time t)) ^ 2 + (O t).impact_param ^ 2)) (O t).radius_ratio) :
    Tracks (fun s => LightCurve.limbDarkTerm eps quad (u.map (· s)) 1 (O s).radius_ratio ((O s).relative_position (time s))) t
      (o.flux eps st quad (u.map (input t)) T) := by
  classical
  have C := fun c => track_const c t
  have hnum := track_sub hT (track_sub ht0 (track_mul (C 0.5) hp))
  have hfold : Tracks (fun s => (O s).fold (time s)) t (o.fold T) :=
    track_sub (track_mod hnum hp (by rw [← hp.1]; exact hp0) (by
      intro n
      rw [← hp.1, ← hnum.1]
      exact hwrap n)) (track_mul (C 0.5) hp)
  have hx := track_mul hs hfold
  have hpos : 0 < (Dual.square (o.speed * o.fold T) + Dual.square o.impact_param).v := by
    simp only [add_v, square_v, ← hx.1, ← hb.1]
    rcases not_and_or.1 hxy with h | h <;> positivity
  have hbb := track_div (track_sqrt (track_add (track_square hx) (track_square hb)) hpos) (C 1) (by simp)
  have hrr := track_div hr (C 1) (by simp)
  have hreg' : Regular eps quad (Dual.sqrt (Dual.square (o.speed * o.fold T) + Dual.square o.impact_param) / const 1).v (o.radius_ratio / const 1).v := by
    rw [← hbb.1, ← hrr.1]
    simpa using hreg
  have hlc := track_lightCurve he he1 st hu hbb hrr (norm_ne htot) hreg'
  have hfoldv : (O t).fold (time t) = (o.fold T).v := hfold.1
  have hfc : ContinuousAt (fun s => |(O s).fold (time s)|) t := hfold.cont.abs
  have hdc : ContinuousAt (fun s => 0.5 * (O s).duration) t := continuousAt_const.mul hd
  unfold TransitOrbitD.flux orbitFluxD
  simp only
  rcases lt_or_gt_of_ne hedge with h | h
  · have hm : |(o.fold T).v| < 0.5 * o.duration.v := by rw [← hfoldv, ← hd']; exact h
    refine Tracks.congr (track_where_pos (p := fun s => |(O s).fold (time s)| < 0.5 * (O s).duration) (g := fun _ => 0) hlc (fin_const 0) ?_
      (hfc.eventually_lt hdc h)) (Eventually.of_forall fun s => ?_)
    · simp only [const_v]
      rw [if_pos (by exact hm)]
      exact one_pos
    · simp only [LightCurve.limbDarkTerm, TransitOrbit.relative_position]
      by_cases hc : |(O s).fold (time s)| < 0.5 * (O s).duration
      · simp [hc]
      · simp [hc]
  · have hm : ¬ |(o.fold T).v| < 0.5 * o.duration.v := by rw [← hfoldv, ← hd']; exact not_lt.2 (le_of_lt h)
    refine Tracks.congr (track_where_neg (p := fun s => |(O s).fold (time s)| < 0.5 * (O s).duration) (f := fun _ => 0) hlc.fin (C 0) ?_
      ((hdc.eventually_lt hfc h).mono fun s hs => not_lt.2 hs.le)) ((hdc.eventually_lt hfc h).mono fun s hs => ?_)
    · simp only [const_v]
      rw [if_neg (by exact hm)]
      norm_num
    · have hc : ¬ |(O s).fold (time s)| < 0.5 * (O s).duration := not_lt.2 hs.le
      simp [LightCurve.limbDarkTerm, TransitOrbit.relative_position, hc]

/-- the light curve of a transit, on numbers with derivatives -/
noncomputable def transitFluxD (eps : ℝ) (strict : Bool) (quad : List (ℝ × ℝ)) (u : List Dual) (period : Dual) (duration speed : Option Dual)
    (time_transit impact_param radius_ratio t : Dual) : Dual :=
  match TransitOrbitD.init period duration speed (some time_transit) (some impact_param) (some radius_ratio) with
  | .ok o => o.flux eps strict quad u t
  | .error _ => const 0

theorem track_transit {t : ℝ} {eps : ℝ} (he : 0 < eps) (he1 : 10 * eps ≤ 1) (strict : Bool) (quad : List (ℝ × ℝ)) (u : List (ℝ → ℝ))
    (P D t0 b r time : ℝ → ℝ) (hu : ∀ f ∈ u, DifferentiableAt ℝ f t) (hP : DifferentiableAt ℝ P t) (hD : DifferentiableAt ℝ D t)
    (ht0 : DifferentiableAt ℝ t0 t) (hb : DifferentiableAt ℝ b t) (hr : DifferentiableAt ℝ r t) {T : Dual} (hT : Tracks time t T)
    (htot : totalFlux (u.map (· t)) ≠ 0) (hP0 : P t ≠ 0) (hD0 : D t ≠ 0) (hx2 : b t ^ 2 < (1 + r t) ^ 2)
    (hwrap : ∀ n : ℤ, time t - t0 t ≠ (n + 0.5) * P t) (hedge : |foldTime (P t) (t0 t) (time t)| ≠ 0.5 * D t)
    (hxy : ¬ (foldTime (P t) (t0 t) (time t) = 0 ∧ b t = 0))
    (hreg : Regular eps quad (√((2 * √((1 + r t) ^ 2 - b t ^ 2) / D t * foldTime (P t) (t0 t) (time t)) ^ 2 + b t ^ 2)) (r t)) :
    Tracks (fun s => transitFlux eps quad (u.map (· s)) (P s) (some (D s)) none (t0 s) (b s) (r s) (time s)) t
      (transitFluxD eps strict quad (u.map (input t)) (input t P) (some (input t D)) none (input t t0) (input t b) (input t r) T) := by
  have C := fun c => track_const c t
  have hx2t := track_sub (track_square (track_add (C 1) (track_input hr))) (track_square (track_input hb))
  have hx2v : (0 : ℝ) < ((const 1 + input t r).square - (input t b).square).v := by
    simp only [sub_v, square_v, add_v, const_v]
    exact sub_pos.2 hx2
  have hmax := track_max_right (C 0) hx2t hx2v
  have hmaxv : 0 < (Dual.max (const 0) ((const 1 + input t r).square - (input t b).square)).v := lt_max_of_lt_right hx2v
  have hspeed := track_div (track_mul (C 2) (track_sqrt hmax hmaxv)) (track_input hD) hD0
  have hm : max 0 ((1 + r t) ^ 2 - b t ^ 2) = (1 + r t) ^ 2 - b t ^ 2 := max_eq_right (sub_pos.2 hx2).le
  refine (track_flux (o := ⟨input t P, _, input t D, input t t0, input t b, input t r⟩)
    (O := fun s => ⟨P s, 2 * √(max 0 ((1 + r s) ^ 2 - b s ^ 2)) / D s, D s, t0 s, b s, r s⟩) (time := time) he he1 strict quad hu (track_input hP) hspeed
    hD.continuousAt rfl (track_input ht0) (track_input hb) (track_input hr) hT htot hP0 ?_ hedge ?_ ?_)
  · intro n h
    simp only at h
    rw [div_eq_iff hP0] at h
    refine hwrap (n - 1) ?_
    push_cast
    linarith
  · rintro ⟨h, h'⟩
    refine hxy ⟨(mul_eq_zero.1 h).resolve_left ?_, h'⟩
    simp only [hm]
    exact div_ne_zero (mul_ne_zero two_ne_zero (Real.sqrt_pos.2 (sub_pos.2 hx2)).ne') hD0
  · simp only [hm]
    exact hreg

/-- C91: **the gradient is the derivative**, with a duration: limb darkening, period, duration, epoch, impact parameter, radius and time may all be
differentiable functions of a parameter. The time is not exactly half a period from mid-transit, nor exactly at the start or end of the
transit, and the separation is a regular one (C90). -/
theorem transit_gradient_is_derivative {t : ℝ} {eps : ℝ} (he : 0 < eps) (he1 : 10 * eps ≤ 1) (strict : Bool) (quad : List (ℝ × ℝ)) (u : List (ℝ → ℝ))
    (P D t0 b r time : ℝ → ℝ) (hu : ∀ f ∈ u, DifferentiableAt ℝ f t) (hP : DifferentiableAt ℝ P t) (hD : DifferentiableAt ℝ D t)
    (ht0 : DifferentiableAt ℝ t0 t) (hb : DifferentiableAt ℝ b t) (hr : DifferentiableAt ℝ r t) (hT : DifferentiableAt ℝ time t)
    (htot : totalFlux (u.map (· t)) ≠ 0) (hP0 : P t ≠ 0) (hD0 : D t ≠ 0) (hx2 : b t ^ 2 < (1 + r t) ^ 2)
    (hwrap : ∀ n : ℤ, time t - t0 t ≠ (n + 0.5) * P t) (hedge : |foldTime (P t) (t0 t) (time t)| ≠ 0.5 * D t)
    (hxy : ¬ (foldTime (P t) (t0 t) (time t) = 0 ∧ b t = 0))
    (hreg : Regular eps quad (√((2 * √((1 + r t) ^ 2 - b t ^ 2) / D t * foldTime (P t) (t0 t) (time t)) ^ 2 + b t ^ 2)) (r t)) :
    ∃ d, transitGradient eps strict quad (u.map (input t)) (input t P) (some (input t D)) none (input t t0) (input t b) (input t r) (input t time) = some d ∧
      HasDerivAt (fun s => transitFlux eps quad (u.map (· s)) (P s) (some (D s)) none (t0 s) (b s) (r s) (time s)) d t :=
  (track_transit he he1 strict quad u P D t0 b r time hu hP hD ht0 hb hr (track_input hT) htot hP0 hD0 hx2 hwrap hedge hxy hreg).2

/-- C91: the gradient is the derivative, with a speed -/
theorem transit_gradient_is_derivative_speed {t : ℝ} {eps : ℝ} (he : 0 < eps) (he1 : 10 * eps ≤ 1) (strict : Bool) (quad : List (ℝ × ℝ)) (u : List (ℝ → ℝ))
    (P v t0 b r time : ℝ → ℝ) (hu : ∀ f ∈ u, DifferentiableAt ℝ f t) (hP : DifferentiableAt ℝ P t) (hv : DifferentiableAt ℝ v t)
    (ht0 : DifferentiableAt ℝ t0 t) (hb : DifferentiableAt ℝ b t) (hr : DifferentiableAt ℝ r t) (hT : DifferentiableAt ℝ time t)
    (htot : totalFlux (u.map (· t)) ≠ 0) (hP0 : P t ≠ 0) (hv0 : v t ≠ 0)
    (hwrap : ∀ n : ℤ, time t - t0 t ≠ (n + 0.5) * P t)
    (hedge : |foldTime (P t) (t0 t) (time t)| ≠ √(max 0 ((1 + r t) ^ 2 - b t ^ 2)) / v t)
    (hxy : ¬ (foldTime (P t) (t0 t) (time t) = 0 ∧ b t = 0))
    (hreg : Regular eps quad (√((v t * foldTime (P t) (t0 t) (time t)) ^ 2 + b t ^ 2)) (r t)) :
    ∃ d, transitGradient eps strict quad (u.map (input t)) (input t P) none (some (input t v)) (input t t0) (input t b) (input t r) (input t time) = some d ∧
      HasDerivAt (fun s => transitFlux eps quad (u.map (· s)) (P s) none (some (v s)) (t0 s) (b s) (r s) (time s)) d t := by
  refine (track_flux (o := ⟨input t P, input t v, _, input t t0, input t b, input t r⟩)
    (O := fun s => ⟨P s, v s, 2 * √(max 0 ((1 + r s) ^ 2 - b s ^ 2)) / v s, t0 s, b s, r s⟩) (time := time) he he1 strict quad hu (track_input hP) (track_input hv)
    ?_ rfl (track_input ht0) (track_input hb) (track_input hr) (track_input hT) htot hP0 ?_ ?_ ?_ hreg).2
  · have h1 : ContinuousAt (fun s => max 0 ((1 + r s) ^ 2 - b s ^ 2)) t :=
      continuousAt_const.max (((continuousAt_const.add hr.continuousAt).pow 2).sub (hb.continuousAt.pow 2))
    exact (continuousAt_const.mul (Real.continuous_sqrt.continuousAt.comp h1)).div hv.continuousAt hv0
  · intro n h
    simp only at h
    rw [div_eq_iff hP0] at h
    refine hwrap (n - 1) ?_
    push_cast
    linarith
  · intro h
    apply hedge
    have h' : |foldTime (P t) (t0 t) (time t)| = 0.5 * (2 * √(max 0 ((1 + r t) ^ 2 - b t ^ 2)) / v t) := h
    rw [h']
    ring
  · rintro ⟨h, h'⟩
    exact hxy ⟨(mul_eq_zero.1 h).resolve_left hv0, h'⟩

/-- the hypotheses are met: a transit of a body of radius 1/10 at the impact parameter 1/2, in mid-transit, with a changing impact parameter and period -/
example (quad : List (ℝ × ℝ)) : ∃ d, transitGradient (2 ^ (-52 : ℤ)) true quad [] (input (1 / 2) fun s => 4 + s) (some (input (1 / 2) fun _ => 0.2)) none
    (input (1 / 2) fun _ => 0) (input (1 / 2) fun s => s) (input (1 / 2) fun _ => 1 / 10) (input (1 / 2) fun _ => 0) = some d ∧
      HasDerivAt (fun s => transitFlux (2 ^ (-52 : ℤ)) quad [] (4 + s) (some 0.2) none 0 s (1 / 10) 0) d (1 / 2) := by
  have hf : foldTime (4 + 1 / 2) 0 0 = 0 := by
    simp only [foldTime, fmod]
    have : ⌊((0 : ℝ) - (0 - 0.5 * (4 + 1 / 2))) / (4 + 1 / 2)⌋ = 0 := by norm_num
    rw [this]
    norm_num
  refine transit_gradient_is_derivative (t := 1 / 2) (by positivity) (by norm_num) true quad [] (fun s => 4 + s) (fun _ => 0.2) (fun _ => 0) (fun s => s)
    (fun _ => 1 / 10) (fun _ => 0) (by simp) (by fun_prop) (by fun_prop) (by fun_prop) (by fun_prop) (by fun_prop) (by fun_prop) ?_ (by norm_num) (by norm_num)
    (by norm_num) ?_ ?_ ?_ ?_
  · simpa using totalFlux_nil_ne
  · intro n h
    have h' : ((n : ℝ) + 0.5) = 0 := by
      norm_num at h ⊢
      linarith
    have : (2 * n + 1 : ℤ) = 0 := by
      have : ((2 * n + 1 : ℤ) : ℝ) = 0 := by push_cast; linarith
      exact_mod_cast this
    omega
  · simp only [hf]
    norm_num
  · rintro ⟨-, h⟩
    norm_num at h
  · simp only [hf, mul_zero]
    have : √((0 : ℝ) ^ 2 + (1 / 2) ^ 2) = 1 / 2 := by
      rw [zero_pow two_ne_zero, zero_add, Real.sqrt_sq (by norm_num)]
    rw [this]
    exact regular_inside quad

end Jaxoplanet.Transit
