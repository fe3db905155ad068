import Verif.Model.TTVGrad
import Verif.Props.TTV
import Verif.Props.TransitGrad
import Verif.Props.KeplerGrad

/-!
# C105: gradients of light curves with transit timing variations
-/

namespace Jaxoplanet.Transit
open Real AD AD.Dual LimbDark Filter Topology
open Jaxoplanet.Spec (totalFlux)

/-! ## definitions -/

/-- the light curve at the time `time` of an orbit that has been constructed (0 if the constructor raised) -/
noncomputable def fluxOf (eps : ℝ) (quad : List (ℝ × ℝ)) (u : List ℝ) (o : Except PyErr TTVOrbit) (duration speed : Option ℝ) (b r time : ℝ) : ℝ :=
  match o with
  | .error _ => 0
  | .ok o => match o.base 0 duration speed (some b) (some r) with
    | .error _ => 0
    | .ok base => match o.relative_position 0 base time with
      | none => 0
      | some p => LightCurve.limbDarkTerm eps quad u 1 r p

/-- the light curve of `TTVOrbit(transit_times=(tt,), ...)` -/
noncomputable def timesFlux (eps : ℝ) (quad : List (ℝ × ℝ)) (u : List ℝ) (period time_transit : Option ℝ) (tt : List ℝ) (inds : Option (List ℝ))
    (delta_log_period duration speed : Option ℝ) (b r time : ℝ) : ℝ :=
  fluxOf eps quad u (TTVOrbit.init (period.map ([·])) (time_transit.map ([·])) (some [tt]) (inds.map ([·])) none delta_log_period) duration speed b r time

/-- its gradient, along the direction given by the derivatives of the arguments -/
noncomputable def timesGradient (eps : ℝ) (strict : Bool) (quad : List (ℝ × ℝ)) (u : List Dual) (period time_transit : Option Dual) (tt : List Dual)
    (inds : Option (List ℝ)) (delta_log_period duration speed : Option Dual) (b r time : Dual) : Option ℝ :=
  match TTVOrbitD.ofTimes period time_transit tt inds delta_log_period duration speed (some b) (some r) with
  | .ok o => (o.flux eps strict quad u time).d
  | .error _ => none

/-! ## bins -/

theorem countP_near {t : ℝ} {time : ℝ → ℝ} (ht : ContinuousAt time t) : ∀ (E : List (ℝ → ℝ)), (∀ e ∈ E, ContinuousAt e t) → (∀ e ∈ E, time t ≠ e t) →
    ∀ᶠ s in 𝓝 t, searchsorted (E.map (· s)) (time s) = searchsorted (E.map (· t)) (time t)
  | [], _, _ => Eventually.of_forall fun _ => rfl
  | e :: E, hc, hne => by
    have ih := countP_near ht E (fun e he => hc e (List.mem_cons_of_mem _ he)) fun e he => hne e (List.mem_cons_of_mem _ he)
    have h1 : ∀ᶠ s in 𝓝 t, (e s < time s ↔ e t < time t) := by
      rcases lt_or_gt_of_ne (hne e List.mem_cons_self) with h | h
      · filter_upwards [ht.eventually_lt (hc e List.mem_cons_self) h] with s hs
        exact ⟨fun h' => absurd h' (not_lt.2 hs.le), fun h' => absurd h' (not_lt.2 h.le)⟩
      · filter_upwards [(hc e List.mem_cons_self).eventually_lt ht h] with s hs
        exact ⟨fun _ => h, fun _ => hs⟩
    filter_upwards [ih, h1] with s hs hs1
    simp only [searchsorted, List.map_cons, List.countP_cons, decide_eq_true_eq, hs1] at hs ⊢
    rw [hs]

theorem input_zero (t : ℝ) : input t (fun _ => (0 : ℝ)) = const 0 := by simp [input, const]

theorem headD_map (tt : List (ℝ → ℝ)) (s : ℝ) : (tt.map (· s)).headD 0 = (tt.headD fun _ => 0) s := by
  cases tt <;> simp

theorem getLastD_map (tt : List (ℝ → ℝ)) (s : ℝ) : (tt.map (· s)).getLastD 0 = (tt.getLastD fun _ => 0) s := by
  rw [List.getLastD_eq_getLast?, List.getLastD_eq_getLast?, List.getLast?_map]
  cases tt.getLast? <;> rfl

theorem headD_input (tt : List (ℝ → ℝ)) (t : ℝ) : (tt.map (input t)).headD (const 0) = input t (tt.headD fun _ => 0) := by
  cases tt <;> simp [input_zero]

theorem getLastD_input (tt : List (ℝ → ℝ)) (t : ℝ) : (tt.map (input t)).getLastD (const 0) = input t (tt.getLastD fun _ => 0) := by
  rw [List.getLastD_eq_getLast?, List.getLastD_eq_getLast?, List.getLast?_map]
  cases tt.getLast? <;> simp [input_zero]

/-- the bin values as functions -/
def valuesFun (tt : List (ℝ → ℝ)) : List (ℝ → ℝ) := [tt.headD fun _ => 0] ++ tt ++ [tt.getLastD fun _ => 0]

theorem values_map (tt : List (ℝ → ℝ)) (s : ℝ) : binValues (tt.map (· s)) = (valuesFun tt).map (· s) := by
  simp only [binValues, valuesFun, headD_map, getLastD_map, List.map_append, List.map_cons, List.map_nil]

theorem values_input (tt : List (ℝ → ℝ)) (t : ℝ) : binValuesD (tt.map (input t)) = (valuesFun tt).map (input t) := by
  simp only [binValuesD, valuesFun, headD_input, getLastD_input, List.map_append, List.map_cons, List.map_nil]

/-- the bin edges as functions -/
noncomputable def edgesFun (tt : List (ℝ → ℝ)) (p : ℝ → ℝ) : List (ℝ → ℝ) :=
  [fun s => (tt.headD fun _ => 0) s - 0.5 * p s] ++ List.zipWith (fun b a s => 0.5 * (b s + a s)) tt.tail tt.dropLast ++
    [fun s => (tt.getLastD fun _ => 0) s + 0.5 * p s]

theorem edges_map (tt : List (ℝ → ℝ)) (p : ℝ → ℝ) (s : ℝ) : binEdges (tt.map (· s)) (p s) = (edgesFun tt p).map (· s) := by
  simp only [binEdges, edgesFun, midpoints, headD_map, getLastD_map, List.map_append, List.map_cons, List.map_nil, ← List.map_tail, ← List.map_dropLast,
    List.zipWith_map, List.map_zipWith]

theorem edgesFun_cont {t : ℝ} {tt : List (ℝ → ℝ)} (h : ∀ f ∈ tt, ContinuousAt f t) {p : ℝ → ℝ} (hp : ContinuousAt p t) : ∀ e ∈ edgesFun tt p, ContinuousAt e t := by
  have hhead : ContinuousAt (tt.headD fun _ => 0) t := by
    cases tt with
    | nil => exact continuousAt_const
    | cons f l => exact h f List.mem_cons_self
  have hlast : ContinuousAt (tt.getLastD fun _ => 0) t := by
    rw [List.getLastD_eq_getLast?]
    cases hl : tt.getLast? with
    | none => exact continuousAt_const
    | some f => exact h f (List.mem_of_getLast? hl)
  intro e he
  simp only [edgesFun, List.mem_append, List.mem_singleton] at he
  rcases he with (rfl | he) | rfl
  · exact hhead.sub (continuousAt_const.mul hp)
  · obtain ⟨i, hi, rfl⟩ := List.mem_iff_getElem.1 he
    rw [List.getElem_zipWith]
    exact continuousAt_const.mul ((h _ (List.mem_of_mem_tail (List.getElem_mem _))).add (h _ (List.mem_of_mem_dropLast (List.getElem_mem _))))
  · exact hlast.add (continuousAt_const.mul hp)

theorem valuesFun_mem {tt : List (ℝ → ℝ)} {Q : (ℝ → ℝ) → Prop} (h : ∀ f ∈ tt, Q f) (h0 : Q fun _ => 0) (k : ℕ) : Q ((valuesFun tt).getD k fun _ => 0) := by
  rw [List.getD_eq_getElem?_getD]
  cases hk : (valuesFun tt)[k]? with
  | none => exact h0
  | some f =>
    have hf := List.mem_of_getElem? hk
    simp only [valuesFun, List.mem_append, List.mem_singleton] at hf
    rcases hf with (rfl | hf) | rfl
    · cases tt with
      | nil => exact h0
      | cons f l => exact h f List.mem_cons_self
    · exact h f hf
    · rw [Option.getD_some, List.getLastD_eq_getLast?]
      cases hl : tt.getLast? with
      | none => exact h0
      | some f => exact h f (List.mem_of_getLast? hl)

/-- the bin that `t` is in -/
noncomputable def binOf (tt : List (ℝ → ℝ)) (p time : ℝ → ℝ) (t : ℝ) : ℕ := searchsorted (binEdges (tt.map (· t)) (p t)) (time t)

theorem dt_near {t : ℝ} {tt : List (ℝ → ℝ)} (h : ∀ f ∈ tt, DifferentiableAt ℝ f t) {p time : ℝ → ℝ} (hp : ContinuousAt p t) (ht : ContinuousAt time t)
    (hbin : ∀ e ∈ binEdges (tt.map (· t)) (p t), time t ≠ e) :
    ∀ᶠ s in 𝓝 t, processDt (binEdges (tt.map (· s)) (p s)) (binValues (tt.map (· s))) (time s) = ((valuesFun tt).getD (binOf tt p time t) fun _ => 0) s := by
  have hc := edgesFun_cont (fun f hf => (h f hf).continuousAt) hp
  have hne : ∀ e ∈ edgesFun tt p, time t ≠ e t := by
    intro e he
    refine hbin _ ?_
    rw [edges_map]
    exact List.mem_map_of_mem he
  filter_upwards [countP_near ht _ hc hne] with s hs
  unfold processDt binOf
  rw [edges_map, edges_map, hs, values_map]
  generalize searchsorted _ _ = k
  rw [List.getD_eq_getElem?_getD, List.getD_eq_getElem?_getD, List.getElem?_map]
  cases (valuesFun tt)[k]? <;> rfl

theorem values_getD (tt : List (ℝ → ℝ)) (t : ℝ) (k : ℕ) : (binValuesD (tt.map (input t))).getD k (const 0) = input t ((valuesFun tt).getD k fun _ => 0) := by
  rw [values_input, List.getD_eq_getElem?_getD, List.getD_eq_getElem?_getD, List.getElem?_map]
  cases (valuesFun tt)[k]?
  · simp [input_zero]
  · rfl

theorem map_input_v (tt : List (ℝ → ℝ)) (t : ℝ) : (tt.map (input t)).map (·.v) = tt.map (· t) := by
  rw [List.map_map]
  rfl

theorem track_dt {t : ℝ} {tt : List (ℝ → ℝ)} (h : ∀ f ∈ tt, DifferentiableAt ℝ f t) {p time : ℝ → ℝ} (hp : ContinuousAt p t) (ht : ContinuousAt time t)
    (hbin : ∀ e ∈ binEdges (tt.map (· t)) (p t), time t ≠ e) :
    Tracks (fun s => processDt (binEdges (tt.map (· s)) (p s)) (binValues (tt.map (· s))) (time s)) t
      ((binValuesD (tt.map (input t))).getD (binOf tt p time t) (const 0)) := by
  rw [values_getD]
  exact (track_input (valuesFun_mem h (differentiableAt_const 0) _)).congr (dt_near h hp ht hbin)

/-! ## linear fit -/

theorem track_ephemeris {t : ℝ} {tt : List (ℝ → ℝ)} (h : ∀ f ∈ tt, DifferentiableAt ℝ f t) (inds : List ℝ)
    {r : ℝ × ℝ × List ℝ} (hr : linearEphemeris (tt.map (· t)) inds = some r) :
    ∃ (A P : ℝ → ℝ) (aD pD : Dual), (∀ s, ∃ q, linearEphemeris (tt.map (· s)) inds = some (A s, P s, q)) ∧
      linearEphemerisD (tt.map (input t)) inds = some (aD, pD) ∧ Tracks A t aD ∧ Tracks P t pD := by
  classical
  have hc : ¬ (inds.length ≠ tt.length ∨ (tt.length : ℝ) * (inds.map (· ^ 2)).sum - inds.sum * inds.sum = 0) := by
    intro hc
    have : linearEphemeris (tt.map (· t)) inds = none := by
      unfold linearEphemeris
      simp only [List.length_map]
      rw [if_pos hc]
    rw [this] at hr
    cases hr
  have hdet := (not_or.1 hc).2
  have C := fun c => track_const c t
  have h1 : Tracks (fun s => (tt.map (· s)).sum) t (Dual.sum (tt.map (input t))) := track_sum tt fun f hf => track_input (h f hf)
  have h2 : Tracks (fun s => (List.zipWith (· * ·) inds (tt.map (· s))).sum) t (Dual.sum (List.zipWith (fun i t => const i * t) inds (tt.map (input t)))) := by
    have := track_sum (t := t) (inds.zip tt) (F := fun q s => q.1 * q.2 s) (D := fun q => const q.1 * input t q.2)
      fun q hq => track_mul (C q.1) (track_input (h q.2 (List.of_mem_zip hq).2))
    simp only [List.zipWith_map_right]
    simpa only [List.zip, List.map_zipWith] using this
  refine ⟨_, _, _, _, fun s => ?_, ?_, track_div (track_sub (track_mul h1 (C (inds.map (· ^ 2)).sum)) (track_mul (C inds.sum) h2)) (C _) hdet,
    track_div (track_sub (track_mul (C tt.length) h2) (track_mul (C inds.sum) h1)) (C _) hdet⟩
  · simp only [linearEphemeris, List.length_map, if_neg hc]
    exact ⟨_, rfl⟩
  · unfold linearEphemerisD
    simp only [List.length_map]
    rw [if_neg hc]

theorem track_exp {t : ℝ} {f : ℝ → ℝ} {a : Dual} (hf : Tracks f t a) : Tracks (fun s => Real.exp (f s)) t (expD a) := by
  obtain ⟨h, d, hd, hder⟩ := hf
  refine ⟨by simp [expD, h], Real.exp a.v * d, by simp [expD, lin, hd], ?_⟩
  rw [← h]
  exact hder.exp

theorem track_log {t : ℝ} {f : ℝ → ℝ} {a : Dual} (hf : Tracks f t a) (h0 : a.v ≠ 0) : Tracks (fun s => Real.log (f s)) t (logD a) := by
  obtain ⟨h, d, hd, hder⟩ := hf
  refine ⟨by simp [logD, h], 1 / a.v * d, by simp [logD, lin, hd, h0], ?_⟩
  have := hder.log (by rwa [h])
  rwa [div_eq_mul_one_div, mul_comm, h] at this

/-! ## the base orbit -/

/-- the base orbit and its derivatives -/
structure TrBase (t : ℝ) (O : ℝ → TransitOrbit) (o : TransitOrbitD) : Prop where
  period : Tracks (fun s => (O s).period) t o.period
  speed : Tracks (fun s => (O s).speed) t o.speed
  dur_cont : ContinuousAt (fun s => (O s).duration) t
  dur_eq : (O t).duration = o.duration.v
  time_transit : Tracks (fun s => (O s).time_transit) t o.time_transit
  impact_param : Tracks (fun s => (O s).impact_param) t o.impact_param
  radius_ratio : Tracks (fun s => (O s).radius_ratio) t o.radius_ratio

theorem track_base {t : ℝ} {P T0 b r : ℝ → ℝ} {pD tD bD rD : Dual} (hP : Tracks P t pD) (hT : Tracks T0 t tD) (hb : Tracks b t bD) (hr : Tracks r t rD)
    (duration speed : Option (ℝ → ℝ)) (hD : ∀ D, duration = some D → DifferentiableAt ℝ D t) (hv : ∀ v, speed = some v → DifferentiableAt ℝ v t)
    (hD0 : ∀ D, duration = some D → D t ≠ 0 ∧ b t ^ 2 < (1 + r t) ^ 2) (hv0 : duration = none → ∀ v, speed = some v → v t ≠ 0)
    {e : TransitOrbit} (he : TransitOrbit.init (P t) (duration.map (· t)) (speed.map (· t)) (some (T0 t)) (some (b t)) (some (r t)) = .ok e) :
    ∃ (O : ℝ → TransitOrbit) (o : TransitOrbitD),
      (∀ s, TransitOrbit.init (P s) (duration.map (· s)) (speed.map (· s)) (some (T0 s)) (some (b s)) (some (r s)) = .ok (O s)) ∧
      TransitOrbitD.init pD (duration.map (input t)) (speed.map (input t)) (some tD) (some bD) (some rD) = .ok o ∧ TrBase t O o ∧
      (∀ s, (O s).period = P s ∧ (O s).time_transit = T0 s ∧ (O s).impact_param = b s ∧ (O s).radius_ratio = r s) := by
  have C := fun c => track_const c t
  cases duration with
  | none =>
    cases speed with
    | none => cases he
    | some v =>
      have hv := hv v rfl
      have hv0 := hv0 rfl v rfl
      refine ⟨_, _, fun s => rfl, rfl, ⟨hP, track_input hv, ?_, ?_, hT, hb, hr⟩, fun s => ⟨rfl, rfl, rfl, rfl⟩⟩
      · have h1 : ContinuousAt (fun s => max 0 ((1 + r s) ^ 2 - b s ^ 2)) t :=
          continuousAt_const.max (((continuousAt_const.add hr.cont).pow 2).sub (hb.cont.pow 2))
        exact (continuousAt_const.mul (Real.continuous_sqrt.continuousAt.comp h1)).div hv.continuousAt hv0
      · simp only [Option.getD_some, hr.1, hb.1]
        rfl
  | some D =>
    have hD := hD D rfl
    obtain ⟨hD0, hx2⟩ := hD0 D rfl
    have hx2t := track_sub (track_square (track_add (C 1) hr)) (track_square hb)
    have hx2v : (0 : ℝ) < ((const 1 + rD).square - bD.square).v := by
      rw [← hx2t.1]
      exact sub_pos.2 hx2
    have hmax := track_max_right (C 0) hx2t hx2v
    have hmaxv : 0 < (Dual.max (const 0) ((const 1 + rD).square - bD.square)).v := lt_max_of_lt_right hx2v
    have hspeed := track_div (track_mul (C 2) (track_sqrt hmax hmaxv)) (track_input hD) hD0
    exact ⟨_, _, fun s => rfl, rfl, ⟨hP, hspeed, hD.continuousAt, rfl, hT, hb, hr⟩, fun s => ⟨rfl, rfl, rfl, rfl⟩⟩

/-- the light curve at a warped time -/
theorem track_warped {t : ℝ} {eps : ℝ} (he : 0 < eps) (he1 : 10 * eps ≤ 1) (st : Bool) (quad : List (ℝ × ℝ)) {u : List (ℝ → ℝ)} {O : ℝ → TransitOrbit} {o : TransitOrbitD}
    (hO : TrBase t O o) {W : ℝ → ℝ} {w : Dual} (hW : Tracks W t w) (hu : ∀ f ∈ u, DifferentiableAt ℝ f t) (htot : totalFlux (u.map (· t)) ≠ 0)
    (hp0 : (O t).period ≠ 0) (hwrap : ∀ n : ℤ, W t - (O t).time_transit ≠ (n + 0.5) * (O t).period)
    (hedge : |(O t).fold (W t)| ≠ 0.5 * (O t).duration)
    (hxy : ¬ ((O t).speed * (O t).fold (W t) = 0 ∧ (O t).impact_param = 0))
    (hreg : Regular eps quad (√(((O t).speed * (O t).fold (W t)) ^ 2 + (O t).impact_param ^ 2)) (O t).radius_ratio) :
    Tracks (fun s => LightCurve.limbDarkTerm eps quad (u.map (· s)) 1 (O s).radius_ratio ((O s).relative_position (W s))) t (o.flux eps st quad (u.map (input t)) w) := by
  refine track_flux he he1 st quad hu hO.period hO.speed hO.dur_cont hO.dur_eq hO.time_transit hO.impact_param hO.radius_ratio hW htot hp0 ?_ hedge hxy hreg
  intro n h
  rw [div_eq_iff hp0] at h
  refine hwrap (n - 1) ?_
  push_cast
  linarith

/-! ## `transit_times` -/

/-- the period of the base orbit -/
noncomputable def shapePeriod (period delta : Option ℝ) (p : ℝ) : ℝ :=
  match period, delta with
  | some P, _ => P
  | none, some d => Real.exp (Real.log p + d)
  | none, none => p

theorem init_single (period time_transit : Option ℝ) (tt : List ℝ) (inds : Option (List ℝ)) (delta : Option ℝ) :
    TTVOrbit.init (period.map ([·])) (time_transit.map ([·])) (some [tt]) (inds.map ([·])) none delta =
      match linearEphemeris tt (inds.getD (arange tt.length)) with
      | none => .error .uninitialised
      | some (a, p, q) => .ok (TTVOrbit.mk [tt] [inds.getD (arange tt.length)] [q] [a] [p] [shapePeriod period delta p] [time_transit.getD a]
          [(binEdges tt p, binValues tt)]) := by
  have h : (inds.map ([·])).getD ([tt].map fun tt => arange tt.length) = [inds.getD (arange tt.length)] := by
    cases inds <;> rfl
  unfold TTVOrbit.init
  simp only [h, fitAll]
  cases hf : linearEphemeris tt (inds.getD (arange tt.length)) with
  | none =>
    simp only [List.zip_cons_cons, List.zip_nil_right, List.mapM_cons, hf]
    rfl
  | some q =>
    obtain ⟨a, p, q⟩ := q
    simp only [List.zip_cons_cons, List.zip_nil_right, List.mapM_cons, List.mapM_nil, hf]
    cases period <;> cases delta <;> cases time_transit <;> rfl

theorem warp_single (o : TTVOrbit) {E V : List ℝ} {a : ℝ} (hb : o.bins = [(E, V)]) (ha : o.t0 = [a]) (t : ℝ) : o.warpTimes 0 t = some (t - (processDt E V t - a)) := by
  simp [TTVOrbit.warpTimes, hb, ha, bget]

theorem base_single (o : TTVOrbit) {p a : ℝ} (hp : o.period = [p]) (ha : o.time_transit = [a]) (D v : Option ℝ) (b r : Option ℝ) :
    o.base 0 D v b r = TransitOrbit.init p D v (some a) b r := by
  simp [TTVOrbit.base, hp, ha, bget]

theorem fluxOf_single (eps : ℝ) (quad : List (ℝ × ℝ)) (u : List ℝ) (x1 x2 x3 : List (List ℝ)) (a : ℝ) (x5 : List ℝ) (p T : ℝ) (E V : List ℝ) (D v : Option ℝ) (b r time : ℝ) :
    fluxOf eps quad u (.ok (TTVOrbit.mk x1 x2 x3 [a] x5 [p] [T] [(E, V)])) D v b r time =
      match TransitOrbit.init p D v (some T) (some b) (some r) with
      | .error _ => 0
      | .ok base => LightCurve.limbDarkTerm eps quad u 1 r (base.relative_position (time - (processDt E V time - a))) := by
  simp only [fluxOf]
  rw [base_single _ (p := p) (a := T) rfl rfl]
  cases TransitOrbit.init p D v (some T) (some b) (some r) with
  | error e => rfl
  | ok base =>
    simp only [TTVOrbit.relative_position]
    rw [warp_single _ (E := E) (V := V) (a := a) rfl rfl]
    rfl

/-- what the constructor computes -/
theorem times_core {t : ℝ} {eps : ℝ} (strict : Bool) (quad : List (ℝ × ℝ)) (u tt : List (ℝ → ℝ))
    (period time_transit delta_log_period duration speed : Option (ℝ → ℝ)) (inds : Option (List ℝ)) (b r time : ℝ → ℝ)
    (htt : ∀ f ∈ tt, DifferentiableAt ℝ f t) (hP : ∀ f ∈ period, DifferentiableAt ℝ f t)
    (hT0 : ∀ f ∈ time_transit, DifferentiableAt ℝ f t) (hδ : ∀ f ∈ delta_log_period, DifferentiableAt ℝ f t) (hD : ∀ f ∈ duration, DifferentiableAt ℝ f t)
    (hv : ∀ f ∈ speed, DifferentiableAt ℝ f t) (hb : DifferentiableAt ℝ b t) (hr : DifferentiableAt ℝ r t)
    {o : TTVOrbit} (ho : TTVOrbit.init ((period.map (· t)).map ([·])) ((time_transit.map (· t)).map ([·])) (some [tt.map (· t)]) (inds.map ([·])) none
      (delta_log_period.map (· t)) = .ok o) {base : TransitOrbit} (hbase : o.base 0 (duration.map (· t)) (speed.map (· t)) (some (b t)) (some (r t)) = .ok base)
    {w : ℝ} (hw : o.warpTimes 0 (time t) = some w)
    (hD0 : ∀ D ∈ duration, D t ≠ 0 ∧ b t ^ 2 < (1 + r t) ^ 2) (hv0 : duration = none → ∀ v ∈ speed, v t ≠ 0)
    (hfit : ∀ p ∈ o.ttv_period, p ≠ 0) :
    ∃ (A P : ℝ → ℝ) (O : ℝ → TransitOrbit) (oD : TransitOrbitD) (aD : Dual),
      (∀ s, timesFlux eps quad (u.map (· s)) (period.map (· s)) (time_transit.map (· s)) (tt.map (· s)) inds (delta_log_period.map (· s))
        (duration.map (· s)) (speed.map (· s)) (b s) (r s) (time s) = LightCurve.limbDarkTerm eps quad (u.map (· s)) 1 (O s).radius_ratio
          ((O s).relative_position (time s - (processDt (binEdges (tt.map (· s)) (P s)) (binValues (tt.map (· s))) (time s) - A s)))) ∧
      timesGradient eps strict quad (u.map (input t)) (period.map (input t)) (time_transit.map (input t)) (tt.map (input t)) inds (delta_log_period.map (input t))
        (duration.map (input t)) (speed.map (input t)) (input t b) (input t r) (input t time) =
        (oD.flux eps strict quad (u.map (input t)) (input t time - ((binValuesD (tt.map (input t))).getD (binOf tt P time t) (const 0) - aD))).d ∧
      TrBase t O oD ∧ Tracks A t aD ∧ ContinuousAt P t ∧ base = O t ∧ o.bins = [(binEdges (tt.map (· t)) (P t), binValues (tt.map (· t)))] ∧ o.ttv_period = [P t] ∧
      w = time t - (processDt (binEdges (tt.map (· t)) (P t)) (binValues (tt.map (· t))) (time t) - A t) ∧
      (∀ s, (O s).time_transit = (time_transit.map (· s)).getD (A s) ∧ (O s).radius_ratio = r s) ∧
      ∀ s, TransitOrbit.init (O s).period (duration.map (· s)) (speed.map (· s)) (some (O s).time_transit) (some (b s)) (some (r s)) = .ok (O s) := by
  rw [init_single] at ho
  cases hfit0 : linearEphemeris (tt.map (· t)) (inds.getD (arange (tt.map (· t)).length)) with
  | none => rw [hfit0] at ho; cases ho
  | some q =>
    obtain ⟨A, P, aD, pD, hreal, hdual, hA, hPf⟩ := track_ephemeris htt _ hfit0
    obtain ⟨q', hq'⟩ := hreal t
    rw [hq'] at ho
    simp only [Except.ok.injEq] at ho
    subst ho
    have hPt : P t ≠ 0 := hfit _ (List.mem_singleton_self _)
    have hpshape : Tracks (fun s => shapePeriod (period.map (· s)) (delta_log_period.map (· s)) (P s)) t
        (shapePeriodD (period.map (input t)) (delta_log_period.map (input t)) pD) := by
      cases period with
      | some p => exact track_input (hP p rfl)
      | none =>
        cases delta_log_period with
        | none => exact hPf
        | some d => exact track_exp (track_add (track_log hPf (by rw [← hPf.1]; exact hPt)) (track_input (hδ d rfl)))
    have hT : Tracks (fun s => (time_transit.map (· s)).getD (A s)) t ((time_transit.map (input t)).getD aD) := by
      cases time_transit with
      | none => exact hA
      | some f => exact track_input (hT0 f rfl)
    rw [base_single _ rfl rfl] at hbase
    rw [warp_single _ rfl rfl, Option.some.injEq] at hw
    obtain ⟨O, oD, hO, hoD, hTr, hfields⟩ := track_base hpshape hT (track_input hb) (track_input hr) duration speed (fun D h => hD D h) (fun v h => hv v h)
      (fun D h => hD0 D h) (fun h v hv => hv0 h v hv) hbase
    have hbO : base = O t := by
      have := hO t
      rw [hbase] at this
      exact (Except.ok.inj this)
    refine ⟨A, P, O, oD, aD, fun s => ?_, ?_, hTr, hA, hPf.cont, hbO, rfl, rfl, hw.symm, fun s => ⟨(hfields s).2.1, (hfields s).2.2.2⟩, fun s => ?_⟩
    · obtain ⟨q, hq⟩ := hreal s
      have hlen : (tt.map (· s)).length = (tt.map (· t)).length := by simp
      simp only [timesFlux, init_single, hlen, hq, fluxOf_single, hO s, (hfields s).2.2.2]
    · unfold timesGradient TTVOrbitD.ofTimes
      have hlen : (tt.map (input t)).length = (tt.map (· t)).length := by simp
      rw [hlen, hdual]
      simp only [hoD]
      show Dual.d (TTVOrbitD.flux _ _ _ _ ⟨oD, aD, binEdges ((tt.map (input t)).map (·.v)) pD.v, binValuesD (tt.map (input t))⟩ _) = _
      rw [map_input_v, ← hPf.1]
      rfl
    · rw [(hfields s).1, (hfields s).2.1]
      exact hO s

/-- C105: with observed transit times, the gradient of the light curve with respect to them and all other parameters is its derivative -/
theorem times_gradient_is_derivative {t : ℝ} {eps : ℝ} (he : 0 < eps) (he1 : 10 * eps ≤ 1) (strict : Bool) (quad : List (ℝ × ℝ)) (u tt : List (ℝ → ℝ))
    (period time_transit delta_log_period duration speed : Option (ℝ → ℝ)) (inds : Option (List ℝ)) (b r time : ℝ → ℝ)
    (hu : ∀ f ∈ u, DifferentiableAt ℝ f t) (htt : ∀ f ∈ tt, DifferentiableAt ℝ f t) (hP : ∀ f ∈ period, DifferentiableAt ℝ f t)
    (hT0 : ∀ f ∈ time_transit, DifferentiableAt ℝ f t) (hδ : ∀ f ∈ delta_log_period, DifferentiableAt ℝ f t) (hD : ∀ f ∈ duration, DifferentiableAt ℝ f t)
    (hv : ∀ f ∈ speed, DifferentiableAt ℝ f t) (hb : DifferentiableAt ℝ b t) (hr : DifferentiableAt ℝ r t) (htime : DifferentiableAt ℝ time t)
    (htot : totalFlux (u.map (· t)) ≠ 0)
    -- the constructed orbit, its base orbit and the warped time
    {o : TTVOrbit} (ho : TTVOrbit.init ((period.map (· t)).map ([·])) ((time_transit.map (· t)).map ([·])) (some [tt.map (· t)]) (inds.map ([·])) none
      (delta_log_period.map (· t)) = .ok o) {base : TransitOrbit} (hbase : o.base 0 (duration.map (· t)) (speed.map (· t)) (some (b t)) (some (r t)) = .ok base)
    {w : ℝ} (hw : o.warpTimes 0 (time t) = some w)
    (hD0 : ∀ D ∈ duration, D t ≠ 0 ∧ b t ^ 2 < (1 + r t) ^ 2) (hv0 : duration = none → ∀ v ∈ speed, v t ≠ 0)
    (hp0 : base.period ≠ 0) (hfit : ∀ p ∈ o.ttv_period, p ≠ 0)
    -- the time is not on the edge of a bin, half a period from a transit, or at a contact
    (hbin : ∀ B ∈ o.bins, ∀ e ∈ B.1, time t ≠ e) (hwrap : ∀ n : ℤ, w - base.time_transit ≠ (n + 0.5) * base.period)
    (hedge : |base.fold w| ≠ 0.5 * base.duration) (hxy : ¬ (base.speed * base.fold w = 0 ∧ base.impact_param = 0))
    (hreg : Regular eps quad (√((base.speed * base.fold w) ^ 2 + base.impact_param ^ 2)) base.radius_ratio) :
    ∃ d, timesGradient eps strict quad (u.map (input t)) (period.map (input t)) (time_transit.map (input t)) (tt.map (input t)) inds (delta_log_period.map (input t))
        (duration.map (input t)) (speed.map (input t)) (input t b) (input t r) (input t time) = some d ∧
      HasDerivAt (fun s => timesFlux eps quad (u.map (· s)) (period.map (· s)) (time_transit.map (· s)) (tt.map (· s)) inds (delta_log_period.map (· s))
        (duration.map (· s)) (speed.map (· s)) (b s) (r s) (time s)) d t := by
  obtain ⟨A, P, O, oD, aD, hflux, hgrad, hTr, hA, hPc, rfl, hbins, -, rfl, -, -⟩ := times_core (eps := eps) strict quad u tt period time_transit delta_log_period duration speed inds b r time
    htt hP hT0 hδ hD hv hb hr ho hbase hw hD0 hv0 hfit
  rw [hbins] at hbin
  have hW := track_sub (track_input htime) (track_sub (track_dt htt hPc htime.continuousAt (hbin _ (List.mem_singleton_self _))) hA)
  obtain ⟨d, hd, hder⟩ := (track_warped he he1 strict quad hTr hW hu htot hp0 hwrap hedge hxy hreg).2
  exact ⟨d, hgrad.trans hd, hder.congr_of_eventuallyEq (Eventually.of_forall hflux)⟩

/-- C105: with observed transit times, the gradient of the light curve is finite, also on the edges of the bins, half a period from a transit and at the contacts -/
theorem times_gradient_finite {t : ℝ} {eps : ℝ} (he : 0 < eps) (strict : Bool) (quad : List (ℝ × ℝ)) (u tt : List (ℝ → ℝ))
    (period time_transit delta_log_period duration speed : Option (ℝ → ℝ)) (inds : Option (List ℝ)) (b r time : ℝ → ℝ)
    (htt : ∀ f ∈ tt, DifferentiableAt ℝ f t) (hP : ∀ f ∈ period, DifferentiableAt ℝ f t)
    (hT0 : ∀ f ∈ time_transit, DifferentiableAt ℝ f t) (hδ : ∀ f ∈ delta_log_period, DifferentiableAt ℝ f t) (hD : ∀ f ∈ duration, DifferentiableAt ℝ f t)
    (hv : ∀ f ∈ speed, DifferentiableAt ℝ f t) (hb : DifferentiableAt ℝ b t) (hr : DifferentiableAt ℝ r t)
    (htot : totalFlux (u.map (· t)) ≠ 0)
    {o : TTVOrbit} (ho : TTVOrbit.init ((period.map (· t)).map ([·])) ((time_transit.map (· t)).map ([·])) (some [tt.map (· t)]) (inds.map ([·])) none
      (delta_log_period.map (· t)) = .ok o) {base : TransitOrbit} (hbase : o.base 0 (duration.map (· t)) (speed.map (· t)) (some (b t)) (some (r t)) = .ok base)
    {w : ℝ} (hw : o.warpTimes 0 (time t) = some w)
    (hD0 : ∀ D ∈ duration, D t ≠ 0 ∧ b t ^ 2 < (1 + r t) ^ 2) (hv0 : duration = none → ∀ v ∈ speed, v t ≠ 0)
    (hp0 : base.period ≠ 0) (hfit : ∀ p ∈ o.ttv_period, p ≠ 0) (hr0 : base.radius_ratio ≠ 0)
    (hxy : ¬ (base.speed * base.fold w = 0 ∧ base.impact_param = 0)) :
    ∃ d, timesGradient eps strict quad (u.map (input t)) (period.map (input t)) (time_transit.map (input t)) (tt.map (input t)) inds (delta_log_period.map (input t))
        (duration.map (input t)) (speed.map (input t)) (input t b) (input t r) (input t time) = some d := by
  obtain ⟨A, P, O, oD, aD, hflux, hgrad, hTr, hA, hPc, rfl, hbins, -, rfl, -, -⟩ := times_core (eps := eps) strict quad u tt period time_transit delta_log_period duration speed inds b r time
    htt hP hT0 hδ hD hv hb hr ho hbase hw hD0 hv0 hfit
  rw [hgrad]
  have hval : (input t time - ((binValuesD (tt.map (input t))).getD (binOf tt P time t) (const 0) - aD)).v =
      time t - (processDt (binEdges (tt.map (· t)) (P t)) (binValues (tt.map (· t))) (time t) - A t) := by
    rw [values_getD]
    simp only [sub_v, hA.1]
    congr 2
    unfold processDt binOf
    rw [values_map]
    generalize searchsorted _ _ = k
    rw [List.getD_eq_getElem?_getD, List.getD_eq_getElem?_getD, List.getElem?_map]
    cases (valuesFun tt)[k]? <;> rfl
  refine fin_flux he strict quad (u.map (input t)) ?_ hTr.period.fin hTr.speed.fin hTr.time_transit.fin hTr.impact_param.fin hTr.radius_ratio.fin ?_ ?_ ?_ ?_ ?_
  · rintro a ha
    obtain ⟨f, -, rfl⟩ := List.mem_map.1 ha
    exact ⟨_, rfl⟩
  · rw [values_getD]
    exact fin_sub ⟨_, rfl⟩ (fin_sub ⟨_, rfl⟩ hA.fin)
  · rw [map_input_v]
    exact htot
  · rw [← hTr.period.1]
    exact hp0
  · rw [← hTr.radius_ratio.1]
    exact hr0
  · rw [← hTr.speed.1, ← hTr.period.1, ← hTr.time_transit.1, ← hTr.impact_param.1, hval]
    exact hxy

/-- while the nearest transit is less than half a period away, the light curve is that of the transit itself, whatever the period -/
theorem flux_near {eps : ℝ} {quad : List (ℝ × ℝ)} {u : List ℝ} {D v : Option ℝ} {b r P T : ℝ} {o : TransitOrbit}
    (ho : TransitOrbit.init P D v (some T) (some b) (some r) = .ok o) {P0 T' w time : ℝ} (hw : w - T = time - T') (h : |time - T'| < P / 2)
    (h0 : |time - T'| < P0 / 2) :
    LightCurve.limbDarkTerm eps quad u 1 o.radius_ratio (o.relative_position w) = transitFlux eps quad u P0 D v T' b r time := by
  have hP : 0 < P := by linarith [abs_nonneg (time - T')]
  have hP0 : 0 < P0 := by linarith [abs_nonneg (time - T')]
  obtain ⟨h1, h2⟩ := abs_lt.1 h
  obtain ⟨h3, h4⟩ := abs_lt.1 h0
  have hfold : ∀ o : TransitOrbit, o.period = P → o.time_transit = T → o.fold w = time - T' := fun o hp ht =>
    fold_unique o (by rw [hp]; exact hP) 0 (by rw [hp, ht]; push_cast; linarith) (by rw [hp]; linarith) (by rw [hp]; linarith)
  have hfold0 : ∀ o : TransitOrbit, o.period = P0 → o.time_transit = T' → o.fold time = time - T' := fun o hp ht =>
    fold_unique o (by rw [hp]; exact hP0) 0 (by rw [hp, ht]; push_cast; linarith) (by rw [hp]; linarith) (by rw [hp]; linarith)
  unfold transitFlux
  cases D with
  | none =>
    cases v with
    | none => cases ho
    | some v =>
      obtain rfl := (Except.ok.inj ho).symm
      simp only [TransitOrbit.init, TransitOrbit.relative_position]
      rw [hfold _ rfl rfl, hfold0 _ rfl rfl]
      rfl
  | some D =>
    obtain rfl := (Except.ok.inj ho).symm
    simp only [TransitOrbit.init, TransitOrbit.relative_position]
    rw [hfold _ rfl rfl, hfold0 _ rfl rfl]
    rfl

theorem valuesFun_getD_mem {tt : List (ℝ → ℝ)} (hne : tt ≠ []) {k : ℕ} (hk : k < tt.length + 2) : (valuesFun tt).getD k (fun _ => 0) ∈ tt := by
  have hlen : (valuesFun tt).length = tt.length + 2 := by simp [valuesFun]
  rw [List.getD_eq_getElem?_getD, List.getElem?_eq_getElem (by omega), Option.getD_some]
  have hf := List.getElem_mem (l := valuesFun tt) (n := k) (by omega)
  generalize (valuesFun tt)[k] = f at hf
  obtain ⟨a, l, rfl⟩ := List.exists_cons_of_ne_nil hne
  simp only [valuesFun, List.mem_append, List.mem_singleton] at hf
  rcases hf with (rfl | hf) | rfl
  · exact List.mem_cons_self
  · exact hf
  · rw [List.getLastD_eq_getLast?, List.getLast?_eq_some_getLast (List.cons_ne_nil _ _)]
    exact List.getLast_mem _

theorem binOf_lt {tt : List (ℝ → ℝ)} (hne : tt ≠ []) (p time : ℝ → ℝ) (t : ℝ) : binOf tt p time t < tt.length + 2 := by
  have h1 : binOf tt p time t ≤ (binEdges (tt.map (· t)) (p t)).length := List.countP_le_length
  have h2 : (binEdges (tt.map (· t)) (p t)).length ≤ tt.length + 1 := by
    have : 0 < tt.length := List.length_pos_of_ne_nil hne
    simp [binEdges, midpoints]
    omega
  omega

theorem not_half_period {x P : ℝ} (hP : 0 < P) (h : |x| < P / 2) (n : ℤ) : x ≠ (n + 0.5) * P := by
  rintro rfl
  rw [abs_mul, abs_of_pos hP] at h
  have h1 : |(n : ℝ) + 0.5| < 1 / 2 := by
    by_contra hc
    nlinarith
  obtain ⟨h2, h3⟩ := abs_lt.1 h1
  have h4 : (-1 : ℝ) < n := by linarith
  have h5 : (n : ℝ) < 0 := by linarith
  have h6 : (-1 : ℤ) < n := by exact_mod_cast h4
  have h7 : n < (0 : ℤ) := by exact_mod_cast h5
  omega

/-- near its transit, a light curve at a warped time is that of the transit itself -/
theorem deriv_near {t : ℝ} {eps : ℝ} {quad : List (ℝ × ℝ)} {u tt : List (ℝ → ℝ)} (htt : ∀ f ∈ tt, DifferentiableAt ℝ f t) {duration speed : Option (ℝ → ℝ)}
    {b r time A P : ℝ → ℝ} (htime : ContinuousAt time t) (hPc : ContinuousAt P t) {O : ℝ → TransitOrbit} (hper : ContinuousAt (fun s => (O s).period) t)
    (hO : ∀ s, TransitOrbit.init (O s).period (duration.map (· s)) (speed.map (· s)) (some (O s).time_transit) (some (b s)) (some (r s)) = .ok (O s))
    (hA : ∀ s, (O s).time_transit = A s) (hbin : ∀ e ∈ binEdges (tt.map (· t)) (P t), time t ≠ e)
    (hinc : tt.Pairwise fun f g => f t < g t) (hne : tt ≠ []) (hP0 : 0 ≤ P t)
    (hnear : ∀ f ∈ tt, (∀ g ∈ tt, |time t - f t| ≤ |time t - g t|) → |time t - f t| < (O t).period / 2) :
    ∃ f ∈ tt, (∀ g ∈ tt, |time t - f t| ≤ |time t - g t|) ∧ processDt (binEdges (tt.map (· t)) (P t)) (binValues (tt.map (· t))) (time t) = f t ∧ ∀ᶠ s in 𝓝 t,
      LightCurve.limbDarkTerm eps quad (u.map (· s)) 1 (O s).radius_ratio
          ((O s).relative_position (time s - (processDt (binEdges (tt.map (· s)) (P s)) (binValues (tt.map (· s))) (time s) - A s))) =
        transitFlux eps quad (u.map (· s)) (O t).period (duration.map (· s)) (speed.map (· s)) (f s) (b s) (r s) (time s) := by
  have hdt := dt_near htt hPc htime hbin
  have hmem := valuesFun_getD_mem hne (binOf_lt hne P time t)
  generalize (valuesFun tt).getD (binOf tt P time t) (fun _ => 0) = f at hdt hmem
  have hn := nearest_transit (tt := tt.map (· t)) (by simpa [List.pairwise_map] using hinc) (by simpa using hne) hP0 (time t)
  have hft := hdt.self_of_nhds
  rw [hft] at hn
  have hmin : ∀ g ∈ tt, |time t - f t| ≤ |time t - g t| := fun g hg => hn.2 _ (List.mem_map_of_mem hg)
  have hlt := hnear f hmem hmin
  have hc : ContinuousAt (fun s => |time s - f s|) t := (htime.sub (htt f hmem).continuousAt).abs
  refine ⟨f, hmem, hmin, hft, ?_⟩
  filter_upwards [hdt, hc.eventually_lt (hper.div_const 2) hlt, hc.eventually_lt continuousAt_const hlt] with s hs h1 h2
  rw [hs]
  exact flux_near (hO s) (by rw [hA]; ring) h1 h2

/-- C105: while the nearest observed transit is less than half a period away, the gradient is that of the transit itself: its own time, duration (or speed), impact
parameter, radius and limb darkening; the other transit times and the period have no influence -/
theorem times_gradient_nearest {t : ℝ} {eps : ℝ} (he : 0 < eps) (he1 : 10 * eps ≤ 1) (strict : Bool) (quad : List (ℝ × ℝ)) (u tt : List (ℝ → ℝ))
    (period delta_log_period duration speed : Option (ℝ → ℝ)) (inds : Option (List ℝ)) (b r time : ℝ → ℝ)
    (hu : ∀ f ∈ u, DifferentiableAt ℝ f t) (htt : ∀ f ∈ tt, DifferentiableAt ℝ f t) (hP : ∀ f ∈ period, DifferentiableAt ℝ f t)
    (hδ : ∀ f ∈ delta_log_period, DifferentiableAt ℝ f t) (hD : ∀ f ∈ duration, DifferentiableAt ℝ f t)
    (hv : ∀ f ∈ speed, DifferentiableAt ℝ f t) (hb : DifferentiableAt ℝ b t) (hr : DifferentiableAt ℝ r t) (htime : DifferentiableAt ℝ time t)
    (htot : totalFlux (u.map (· t)) ≠ 0)
    {o : TTVOrbit} (ho : TTVOrbit.init ((period.map (· t)).map ([·])) none (some [tt.map (· t)]) (inds.map ([·])) none
      (delta_log_period.map (· t)) = .ok o) {base : TransitOrbit} (hbase : o.base 0 (duration.map (· t)) (speed.map (· t)) (some (b t)) (some (r t)) = .ok base)
    {w : ℝ} (hw : o.warpTimes 0 (time t) = some w)
    (hD0 : ∀ D ∈ duration, D t ≠ 0 ∧ b t ^ 2 < (1 + r t) ^ 2) (hv0 : duration = none → ∀ v ∈ speed, v t ≠ 0)
    (hfit : ∀ p ∈ o.ttv_period, 0 < p) (hbin : ∀ B ∈ o.bins, ∀ e ∈ B.1, time t ≠ e)
    (hedge : |base.fold w| ≠ 0.5 * base.duration) (hxy : ¬ (base.speed * base.fold w = 0 ∧ base.impact_param = 0))
    (hreg : Regular eps quad (√((base.speed * base.fold w) ^ 2 + base.impact_param ^ 2)) base.radius_ratio)
    -- increasing transit times, the nearest of which is less than half a period away
    (hinc : tt.Pairwise fun f g => f t < g t) (hne : tt ≠ [])
    (hnear : ∀ f ∈ tt, (∀ g ∈ tt, |time t - f t| ≤ |time t - g t|) → |time t - f t| < base.period / 2) :
    ∃ f ∈ tt, (∀ g ∈ tt, |time t - f t| ≤ |time t - g t|) ∧
      ∃ d, timesGradient eps strict quad (u.map (input t)) (period.map (input t)) none (tt.map (input t)) inds (delta_log_period.map (input t))
        (duration.map (input t)) (speed.map (input t)) (input t b) (input t r) (input t time) = some d ∧
      HasDerivAt (fun s => transitFlux eps quad (u.map (· s)) base.period (duration.map (· s)) (speed.map (· s)) (f s) (b s) (r s) (time s)) d t := by
  obtain ⟨A, P, O, oD, aD, hflux, hgrad, hTr, hA, hPc, rfl, hbins, hpp, rfl, hfields, hO⟩ := times_core (eps := eps) (time_transit := none) strict quad u tt period
    delta_log_period duration speed inds b r time htt hP (by simp) hδ hD hv hb hr ho hbase hw hD0 hv0 (fun p hp => (hfit p hp).ne')
  rw [hbins] at hbin
  have hPt : 0 < P t := hfit _ (by rw [hpp]; exact List.mem_singleton_self _)
  have hbin := hbin _ (List.mem_singleton_self _)
  obtain ⟨f, hf, hmin, hdt, hev⟩ := deriv_near (eps := eps) (quad := quad) (u := u) htt htime.continuousAt hPc hTr.period.cont hO (fun s => (hfields s).1) hbin hinc hne hPt.le hnear
  have hW := track_sub (track_input htime) (track_sub (track_dt htt hPc htime.continuousAt hbin) hA)
  have hlt := hnear f hf hmin
  have hp0 : 0 < (O t).period := by linarith [abs_nonneg (time t - f t)]
  have hwrap : ∀ n : ℤ, time t - (processDt (binEdges (tt.map (· t)) (P t)) (binValues (tt.map (· t))) (time t) - A t) - (O t).time_transit ≠ (n + 0.5) * (O t).period := by
    intro n
    rw [hdt, (hfields t).1, Option.map_none, Option.getD_none, sub_sub, sub_add_cancel]
    exact not_half_period hp0 hlt n
  obtain ⟨d, hd, hder⟩ := (track_warped he he1 strict quad hTr hW hu htot hp0.ne' hwrap hedge hxy hreg).2
  exact ⟨f, hf, hmin, d, hgrad.trans hd, hder.congr_of_eventuallyEq (hev.mono fun s hs => hs.symm)⟩

/-! ## `ttvs` -/

/-- the light curve of `TTVOrbit(period=..., time_transit=..., ttvs=(ttvs,), ...)` -/
noncomputable def ttvsFlux (eps : ℝ) (quad : List (ℝ × ℝ)) (u : List ℝ) (period : ℝ) (time_transit : Option ℝ) (ttvs : List ℝ) (inds : Option (List ℝ))
    (duration speed : Option ℝ) (b r time : ℝ) : ℝ :=
  fluxOf eps quad u (TTVOrbit.init (some [period]) (time_transit.map ([·])) none (inds.map ([·])) (some [ttvs]) none) duration speed b r time

/-- its gradient, along the direction given by the derivatives of the arguments; an error if the constructor raises -/
noncomputable def ttvsGradient (eps : ℝ) (strict : Bool) (quad : List (ℝ × ℝ)) (traced jit : Bool) (u : List Dual) (period : Dual) (time_transit : Option Dual)
    (ttvs : List Dual) (inds : Option (List ℝ)) (duration speed : Option Dual) (b r time : Dual) : Except PyErr (Option ℝ) :=
  (TTVOrbitD.ofTtvs traced jit period time_transit ttvs inds duration speed (some b) (some r)).map fun o => (o.flux eps strict quad u time).d

/-- the transit times: `T0 + P * index + (offset - mean offset)` -/
noncomputable def offsetTimes (P T0 : ℝ) (inds : List ℝ) (ttvs : List (ℝ → ℝ)) : List (ℝ → ℝ) :=
  List.zipWith (fun i x s => T0 + P * i + (x s - (ttvs.map (· s)).sum / ttvs.length)) inds ttvs

theorem ttvs_single (P : ℝ) (time_transit : Option ℝ) (ttvs : List (ℝ → ℝ)) (inds : Option (List ℝ)) (s : ℝ) :
    TTVOrbit.init (some [P]) (time_transit.map ([·])) none (inds.map ([·])) (some [ttvs.map (· s)]) none =
      .ok (TTVOrbit.mk [(offsetTimes P (time_transit.getD 0) (inds.getD (arange ttvs.length)) ttvs).map (· s)] [inds.getD (arange ttvs.length)]
        [(ttvs.map (· s)).map (· - mean (ttvs.map (· s)))] [time_transit.getD 0] [P] [P] [time_transit.getD 0]
        [(binEdges ((offsetTimes P (time_transit.getD 0) (inds.getD (arange ttvs.length)) ttvs).map (· s)) P,
          binValues ((offsetTimes P (time_transit.getD 0) (inds.getD (arange ttvs.length)) ttvs).map (· s)))]) := by
  have h : ∀ I : List ℝ, List.zipWith (fun i x => time_transit.getD 0 + P * i + x) I ((ttvs.map (· s)).map (· - mean (ttvs.map (· s)))) =
      (offsetTimes P (time_transit.getD 0) I ttvs).map (· s) := by
    intro I
    simp only [offsetTimes, List.map_zipWith, List.zipWith_map_right, mean, List.length_map]
  have h0 : (time_transit.map ([·])).getD [0] = [time_transit.getD 0] := by cases time_transit <;> rfl
  have hi : (inds.map ([·])).getD [arange ttvs.length] = [inds.getD (arange ttvs.length)] := by cases inds <;> rfl
  unfold TTVOrbit.init
  simp only [h0, List.map_cons, List.map_nil, List.length_map, hi]
  simp only [ttvTimes, List.zipIdx, List.mapM_cons, List.zip_cons_cons, List.zip_nil_right, List.mapM_nil, ← h]
  rfl

theorem offsetTimes_dual {t : ℝ} (P T0 : ℝ) (inds : List ℝ) {ttvs : List (ℝ → ℝ)} (h : ∀ f ∈ ttvs, DifferentiableAt ℝ f t) :
    List.zipWith (fun i x => const T0 + const P * const i + x) inds
        ((ttvs.map (input t)).map (· - Dual.sum (ttvs.map (input t)) / const (ttvs.map (input t)).length)) = (offsetTimes P T0 inds ttvs).map (input t) ∧
      ∀ f ∈ offsetTimes P T0 inds ttvs, DifferentiableAt ℝ f t := by
  have C := fun c => track_const c t
  by_cases hne : ttvs = []
  · subst hne
    simp [offsetTimes]
  have hlen : (ttvs.length : ℝ) ≠ 0 := by
    have := List.length_pos_of_ne_nil hne
    positivity
  have hm := track_div (track_sum (t := t) ttvs fun f hf => track_input (h f hf)) (C ttvs.length) hlen
  have key : ∀ i : ℝ, ∀ x ∈ ttvs, Tracks (fun s => T0 + P * i + (x s - (ttvs.map (· s)).sum / ttvs.length)) t
      (const T0 + const P * const i + (input t x - Dual.sum (ttvs.map (input t)) / const ttvs.length)) := fun i x hx =>
    track_add (track_add (C T0) (track_mul (C P) (C i))) (track_sub (track_input (h x hx)) hm)
  constructor
  · simp only [offsetTimes, List.map_zipWith, List.zipWith_map_right, List.length_map, List.map_map]
    have : ∀ (l : List (ℝ × (ℝ → ℝ))), (∀ q ∈ l, q.2 ∈ ttvs) → l.map (fun q => const T0 + const P * const q.1 +
        (input t q.2 - Dual.sum (ttvs.map (input t)) / const ttvs.length)) =
        l.map fun q => input t fun s => T0 + P * q.1 + (q.2 s - (ttvs.map (· s)).sum / ttvs.length) :=
      fun l hl => List.map_congr_left fun q hq => (LightCurve.tracks_eq_input (key q.1 q.2 (hl q hq))).1
    have := this (inds.zip ttvs) fun q hq => (List.of_mem_zip hq).2
    simpa only [List.zip, List.map_zipWith, Function.comp_apply] using this
  · intro f hf
    obtain ⟨k, hk, rfl⟩ := List.mem_iff_getElem.1 hf
    simp only [offsetTimes, List.getElem_zipWith]
    exact (LightCurve.tracks_eq_input (key _ _ (List.getElem_mem _))).2

/-- what the constructor computes, unless it raises: the orbit with the transit times in which the period and the time of transit have been frozen -/
theorem ttvs_core {t : ℝ} {eps : ℝ} (strict : Bool) (quad : List (ℝ × ℝ)) (traced jit : Bool) (hj : (traced && jit) = false) (u ttvs : List (ℝ → ℝ)) (P : ℝ → ℝ)
    (T0 duration speed : Option (ℝ → ℝ)) (inds : Option (List ℝ)) (b r time : ℝ → ℝ)
    (httv : ∀ f ∈ ttvs, DifferentiableAt ℝ f t) (hP : DifferentiableAt ℝ P t) (hT0 : ∀ f ∈ T0, DifferentiableAt ℝ f t) (hD : ∀ f ∈ duration, DifferentiableAt ℝ f t)
    (hv : ∀ f ∈ speed, DifferentiableAt ℝ f t) (hb : DifferentiableAt ℝ b t) (hr : DifferentiableAt ℝ r t)
    {base : TransitOrbit} (hbase : TransitOrbit.init (P t) (duration.map (· t)) (speed.map (· t)) (some ((T0.map (· t)).getD 0)) (some (b t)) (some (r t)) = .ok base)
    (hD0 : ∀ D ∈ duration, D t ≠ 0 ∧ b t ^ 2 < (1 + r t) ^ 2) (hv0 : duration = none → ∀ v ∈ speed, v t ≠ 0)
    {tt : List (ℝ → ℝ)} (htt : tt = offsetTimes (P t) ((T0.map (· t)).getD 0) (inds.getD (arange ttvs.length)) ttvs) :
    ∃ (O : ℝ → TransitOrbit) (oD : TransitOrbitD) (aD : Dual),
      ttvsGradient eps strict quad traced jit (u.map (input t)) (input t P) (T0.map (input t)) (ttvs.map (input t)) inds
        (duration.map (input t)) (speed.map (input t)) (input t b) (input t r) (input t time) =
        .ok (oD.flux eps strict quad (u.map (input t)) (input t time - ((binValuesD (tt.map (input t))).getD (binOf tt P time t) (const 0) - aD))).d ∧
      TrBase t O oD ∧ Tracks (fun s => (T0.map (· s)).getD 0) t aD ∧ base = O t ∧ (∀ f ∈ tt, DifferentiableAt ℝ f t) ∧
      (∀ s, (O s).period = P s ∧ (O s).time_transit = (T0.map (· s)).getD 0 ∧ (O s).radius_ratio = r s) ∧
      ∀ s, TransitOrbit.init (O s).period (duration.map (· s)) (speed.map (· s)) (some (O s).time_transit) (some (b s)) (some (r s)) = .ok (O s) := by
  have hT : Tracks (fun s => (T0.map (· s)).getD 0) t ((T0.map (input t)).getD (const 0)) := by
    cases T0 with
    | none => exact track_const 0 t
    | some f => exact track_input (hT0 f rfl)
  obtain ⟨O, oD, hO, hoD, hTr, hfields⟩ := track_base (track_input hP) hT (track_input hb) (track_input hr) duration speed (fun D h => hD D h) (fun v h => hv v h)
    (fun D h => hD0 D h) (fun h v hv => hv0 h v hv) hbase
  have hbO : base = O t := by
    have := hO t
    rw [hbase] at this
    exact (Except.ok.inj this)
  obtain ⟨hdual, hdiff⟩ := offsetTimes_dual (t := t) (P t) ((T0.map (· t)).getD 0) (inds.getD (arange ttvs.length)) httv
  refine ⟨O, oD, _, ?_, hTr, hT, hbO, by rw [htt]; exact hdiff, fun s => ⟨(hfields s).1, (hfields s).2.1, (hfields s).2.2.2⟩, fun s => ?_⟩
  · unfold ttvsGradient TTVOrbitD.ofTtvs item
    rw [hj]
    have e1 : ((T0.map (input t)).getD (const 0)).v = (T0.map (· t)).getD 0 := hT.1.symm
    have e2 : (input t P).v = P t := rfl
    have e3 : (List.map (fun x => x - Dual.sum (ttvs.map (input t)) / const ((ttvs.map (input t)).length : ℝ)) (ttvs.map (input t))).length = ttvs.length := by simp
    simp only [e1, e2, e3, hoD]
    show Except.ok (Dual.d (TTVOrbitD.flux _ _ _ _ ⟨oD, _, binEdges ((List.zipWith (fun i x => const ((T0.map (· t)).getD 0) + const (P t) * const i + x)
      (inds.getD (arange ttvs.length)) ((ttvs.map (input t)).map (· - Dual.sum (ttvs.map (input t)) / const (ttvs.map (input t)).length))).map (·.v)) (P t),
      binValuesD (List.zipWith (fun i x => const ((T0.map (· t)).getD 0) + const (P t) * const i + x)
      (inds.getD (arange ttvs.length)) ((ttvs.map (input t)).map (· - Dual.sum (ttvs.map (input t)) / const (ttvs.map (input t)).length)))⟩ _)) = _
    rw [hdual, map_input_v, ← htt]
    rfl
  · rw [(hfields s).1, (hfields s).2.1]
    exact hO s

/-- C105: given offsets from a linear ephemeris, the gradient of the light curve is its derivative, with respect to the offsets, the other parameters and the time -
if the period and the time of transit are not differentiated and are known when tracing -/
theorem ttvs_gradient_is_derivative_partial {t : ℝ} {eps : ℝ} (he : 0 < eps) (he1 : 10 * eps ≤ 1) (strict : Bool) (quad : List (ℝ × ℝ)) (jit : Bool) (u ttvs : List (ℝ → ℝ))
    (P : ℝ) (T0 : Option ℝ) (duration speed : Option (ℝ → ℝ)) (inds : Option (List ℝ)) (b r time : ℝ → ℝ)
    (hu : ∀ f ∈ u, DifferentiableAt ℝ f t) (httv : ∀ f ∈ ttvs, DifferentiableAt ℝ f t) (hD : ∀ f ∈ duration, DifferentiableAt ℝ f t)
    (hv : ∀ f ∈ speed, DifferentiableAt ℝ f t) (hb : DifferentiableAt ℝ b t) (hr : DifferentiableAt ℝ r t) (htime : DifferentiableAt ℝ time t)
    (htot : totalFlux (u.map (· t)) ≠ 0)
    {o : TTVOrbit} (ho : TTVOrbit.init (some [P]) (T0.map ([·])) none (inds.map ([·])) (some [ttvs.map (· t)]) none = .ok o)
    {base : TransitOrbit} (hbase : o.base 0 (duration.map (· t)) (speed.map (· t)) (some (b t)) (some (r t)) = .ok base)
    {w : ℝ} (hw : o.warpTimes 0 (time t) = some w)
    (hD0 : ∀ D ∈ duration, D t ≠ 0 ∧ b t ^ 2 < (1 + r t) ^ 2) (hv0 : duration = none → ∀ v ∈ speed, v t ≠ 0) (hp0 : base.period ≠ 0)
    (hbin : ∀ B ∈ o.bins, ∀ e ∈ B.1, time t ≠ e) (hwrap : ∀ n : ℤ, w - base.time_transit ≠ (n + 0.5) * base.period)
    (hedge : |base.fold w| ≠ 0.5 * base.duration) (hxy : ¬ (base.speed * base.fold w = 0 ∧ base.impact_param = 0))
    (hreg : Regular eps quad (√((base.speed * base.fold w) ^ 2 + base.impact_param ^ 2)) base.radius_ratio) :
    ∃ d, ttvsGradient eps strict quad false jit (u.map (input t)) (const P) (T0.map const) (ttvs.map (input t)) inds
        (duration.map (input t)) (speed.map (input t)) (input t b) (input t r) (input t time) = .ok (some d) ∧
      HasDerivAt (fun s => ttvsFlux eps quad (u.map (· s)) P T0 (ttvs.map (· s)) inds (duration.map (· s)) (speed.map (· s)) (b s) (r s) (time s)) d t := by
  rw [ttvs_single, Except.ok.injEq] at ho
  subst ho
  rw [base_single _ rfl rfl] at hbase
  rw [warp_single _ rfl rfl, Option.some.injEq] at hw
  subst hw
  have hT : ∀ s : ℝ, ((T0.map fun c => (fun _ : ℝ => c)).map (· s)) = T0 := by intro s; cases T0 <;> rfl
  obtain ⟨O, oD, aD, hgrad, hTr, hA, rfl, hdiff, hfields, hO⟩ := ttvs_core (t := t) (eps := eps) strict quad false jit rfl u ttvs (fun _ => P) (T0.map fun c _ => c) duration speed
    inds b r time httv (differentiableAt_const P) (by
      intro f hf
      cases T0 with
      | none => cases hf
      | some c =>
        obtain rfl : (fun _ => c) = f := by simpa using hf
        exact differentiableAt_const c) hD hv hb hr (base := base) (by rw [hT]; exact hbase) hD0 hv0 rfl
  simp only [hT] at hgrad hA hdiff hfields
  have hbin := hbin _ (List.mem_singleton_self _)
  have hW := track_sub (track_input htime) (track_sub (track_dt (p := fun _ => P) hdiff continuousAt_const htime.continuousAt hbin) hA)
  obtain ⟨d, hd, hder⟩ := (track_warped he he1 strict quad hTr hW hu htot hp0 hwrap hedge hxy hreg).2
  have e1 : input t (fun _ => P) = const P := by simp [input, const]
  have e2 : (T0.map fun c => (fun _ : ℝ => c)).map (input t) = T0.map const := by
    cases T0 <;> simp [input, const]
  rw [e1, e2, hd] at hgrad
  refine ⟨d, hgrad, hder.congr_of_eventuallyEq (Eventually.of_forall fun s => ?_)⟩
  have hOs := hO s
  rw [(hfields s).1, (hfields s).2.1] at hOs
  simp only [ttvsFlux, ttvs_single, fluxOf_single, hOs, (hfields s).2.2]

/-- C105 (finding): with `ttvs`, under `jax.jit` the constructor raises if the period or the time of transit is differentiated or is an argument of the compiled function -/
theorem ttvs_gradient_jit_raises (eps : ℝ) (strict : Bool) (quad : List (ℝ × ℝ)) (u : List Dual) (period : Dual) (time_transit : Option Dual)
    (ttvs : List Dual) (inds : Option (List ℝ)) (duration speed : Option Dual) (b r time : Dual) :
    ∃ msg, ttvsGradient eps strict quad true true u period time_transit ttvs inds duration speed b r time = .error (.valueError msg) :=
  ⟨_, rfl⟩

/-- C105 (finding): without `jit`, the gradient of the light curve near a transit with respect to the period and the time of transit is that of a light curve whose
transit times do not depend on them -/
theorem ttvs_gradient_drops_ephemeris {t : ℝ} {eps : ℝ} (he : 0 < eps) (he1 : 10 * eps ≤ 1) (strict : Bool) (quad : List (ℝ × ℝ)) (u ttvs : List (ℝ → ℝ))
    (P : ℝ → ℝ) (T0 : ℝ → ℝ) (duration speed : Option (ℝ → ℝ)) (inds : Option (List ℝ)) (b r time : ℝ → ℝ)
    (hu : ∀ f ∈ u, DifferentiableAt ℝ f t) (httv : ∀ f ∈ ttvs, DifferentiableAt ℝ f t) (hP : DifferentiableAt ℝ P t) (hT0 : DifferentiableAt ℝ T0 t)
    (hD : ∀ f ∈ duration, DifferentiableAt ℝ f t)
    (hv : ∀ f ∈ speed, DifferentiableAt ℝ f t) (hb : DifferentiableAt ℝ b t) (hr : DifferentiableAt ℝ r t) (htime : DifferentiableAt ℝ time t)
    (htot : totalFlux (u.map (· t)) ≠ 0)
    {o : TTVOrbit} (ho : TTVOrbit.init (some [P t]) (some [T0 t]) none (inds.map ([·])) (some [ttvs.map (· t)]) none = .ok o)
    {base : TransitOrbit} (hbase : o.base 0 (duration.map (· t)) (speed.map (· t)) (some (b t)) (some (r t)) = .ok base)
    {w : ℝ} (hw : o.warpTimes 0 (time t) = some w)
    (hD0 : ∀ D ∈ duration, D t ≠ 0 ∧ b t ^ 2 < (1 + r t) ^ 2) (hv0 : duration = none → ∀ v ∈ speed, v t ≠ 0)
    (hbin : ∀ B ∈ o.bins, ∀ e ∈ B.1, time t ≠ e)
    (hedge : |base.fold w| ≠ 0.5 * base.duration) (hxy : ¬ (base.speed * base.fold w = 0 ∧ base.impact_param = 0))
    (hreg : Regular eps quad (√((base.speed * base.fold w) ^ 2 + base.impact_param ^ 2)) base.radius_ratio)
    -- the transit times, with the ephemeris frozen
    {tt : List (ℝ → ℝ)} (htt : tt = offsetTimes (P t) (T0 t) (inds.getD (arange ttvs.length)) ttvs)
    (hinc : tt.Pairwise fun f g => f t < g t) (hne : tt ≠ [])
    (hnear : ∀ f ∈ tt, (∀ g ∈ tt, |time t - f t| ≤ |time t - g t|) → |time t - f t| < P t / 2) :
    ∃ f ∈ tt, (∀ g ∈ tt, |time t - f t| ≤ |time t - g t|) ∧
      ∃ d, ttvsGradient eps strict quad true false (u.map (input t)) (input t P) (some (input t T0)) (ttvs.map (input t)) inds
        (duration.map (input t)) (speed.map (input t)) (input t b) (input t r) (input t time) = .ok (some d) ∧
      HasDerivAt (fun s => transitFlux eps quad (u.map (· s)) (P t) (duration.map (· s)) (speed.map (· s)) (f s) (b s) (r s) (time s)) d t := by
  have hs := ttvs_single (P t) (some (T0 t)) ttvs inds t
  rw [Option.map_some, ho, Except.ok.injEq] at hs
  subst hs
  rw [base_single _ rfl rfl] at hbase
  rw [warp_single _ rfl rfl, Option.some.injEq] at hw
  subst hw
  obtain ⟨O, oD, aD, hgrad, hTr, hA, rfl, hdiff, hfields, hO⟩ := ttvs_core (t := t) (eps := eps) (time := time) strict quad true false rfl u ttvs P (some T0) duration speed
    inds b r httv hP (by simpa using hT0) hD hv hb hr (base := base) hbase hD0 hv0 htt
  have hbin := hbin _ (List.mem_singleton_self _)
  simp only [Option.getD_some, ← htt] at hbin hedge hxy hreg
  simp only [Option.map_some, Option.getD_some] at hA hfields
  have hp0 : 0 < P t := by
    obtain ⟨h1, h2⟩ := nearest_transit (tt := tt.map (· t)) (P := |P t|) (by simpa [List.pairwise_map] using hinc) (by simpa using hne) (abs_nonneg _) (time t)
    obtain ⟨f, hf, hft⟩ := List.mem_map.1 h1
    rw [← hft] at h2
    have := hnear f hf fun g hg => h2 _ (List.mem_map_of_mem hg)
    linarith [abs_nonneg (time t - f t)]
  obtain ⟨f, hf, hmin, hdt, hev⟩ := deriv_near (eps := eps) (quad := quad) (u := u) (A := T0) hdiff htime.continuousAt hP.continuousAt hTr.period.cont hO (fun s => (hfields s).2.1) hbin
    hinc hne hp0.le (by rw [(hfields t).1]; exact hnear)
  have hlt := hnear f hf hmin
  have hW := track_sub (track_input htime) (track_sub (track_dt hdiff hP.continuousAt htime.continuousAt hbin) hA)
  have hwrap : ∀ n : ℤ, time t - (processDt (binEdges (tt.map (· t)) (P t)) (binValues (tt.map (· t))) (time t) - T0 t) - (O t).time_transit ≠ (n + 0.5) * (O t).period := by
    intro n
    rw [hdt, (hfields t).1, (hfields t).2.1, sub_sub, sub_add_cancel]
    exact not_half_period hp0 hlt n
  obtain ⟨d, hd, hder⟩ := (track_warped he he1 strict quad hTr hW hu htot (by rw [(hfields t).1]; exact hp0.ne') hwrap hedge hxy hreg).2
  rw [(hfields t).1] at hev
  rw [hd] at hgrad
  exact ⟨f, hf, hmin, d, hgrad, hder.congr_of_eventuallyEq (hev.mono fun s hs => hs.symm)⟩

/-- a star of intensity `(1 + mu ^ 2) / 2`, a body of radius 1/10 on its disc -/
theorem curve_inside (eps : ℝ) (quad : List (ℝ × ℝ)) {z : ℝ} (h0 : 0 ≤ z) (h1 : z + 1 / 10 ≤ 1) :
    lightCurve eps quad [1, -1 / 2] z (1 / 10) = z ^ 2 / 150 - 0.0133 := by
  have hr : (0 : ℝ) ≤ 1 / 10 := by norm_num
  have a1 : z < 1 + 1 / 10 := by linarith
  have a2 : (1 / 10 : ℝ) < 1 + z := by linarith
  have hpi := pi_pos.ne'
  simp only [lightCurve, List.length_cons, List.length_nil, Finset.sum_range_succ, Finset.sum_range_zero, solution_occ h0 hr a1 a2,
    inside_kappas h0 hr h1 a1 a2]
  simp [greens, gHigh, pCoeff, uAug, Finset.sum_range_succ, s0s2]
  have e : (1 + 2 * (-1 / 2) : ℝ) = 0 := by norm_num
  rw [e, zero_div, zero_div, mul_zero, add_zero, add_zero]
  split_ifs <;> field_simp <;> ring

/-- the light curve of a transit across it, at the impact parameter 3/10, with the speed 1 -/
theorem transit_inside (eps : ℝ) (quad : List (ℝ × ℝ)) {T : ℝ} (h : |T| < 1 / 10) :
    transitFlux eps quad [1, -1 / 2] 10 none (some 1) T (3 / 10) (1 / 10) (4 / 10) = ((4 / 10 - T) ^ 2 + (3 / 10) ^ 2) / 150 - 0.0133 := by
  obtain ⟨h1, h2⟩ := abs_lt.1 h
  have hfold : ∀ o : TransitOrbit, o.period = 10 → o.time_transit = T → o.fold (4 / 10) = 4 / 10 - T := fun o hp ht =>
    fold_unique o (by rw [hp]; norm_num) 0 (by rw [hp, ht]; push_cast; ring) (by rw [hp]; linarith) (by rw [hp]; linarith)
  have hin : |4 / 10 - T| < 0.5 * (2 * √(max 0 ((1 + 1 / 10) ^ 2 - (3 / 10) ^ 2)) / 1) := by
    have : (1 : ℝ) ≤ √(max 0 ((1 + 1 / 10) ^ 2 - (3 / 10) ^ 2)) := by
      rw [Real.le_sqrt' one_pos]
      norm_num
    have : |4 / 10 - T| < 1 := abs_lt.2 ⟨by linarith, by linarith⟩
    linarith
  simp only [transitFlux, TransitOrbit.init, TransitOrbit.relative_position, Option.getD_some]
  rw [hfold _ rfl rfl, if_pos hin]
  simp only [LightCurve.limbDarkTerm]
  rw [if_pos one_pos, div_one, div_one, one_mul, curve_inside eps quad (Real.sqrt_nonneg _), Real.sq_sqrt (by positivity)]
  have : √((4 / 10 - T) ^ 2 + (3 / 10) ^ 2) ≤ 9 / 10 := by
    rw [Real.sqrt_le_left (by norm_num)]
    nlinarith
  linarith

/-- the transit times of a linear ephemeris of period 10 -/
theorem near_offsets {T : ℝ} (h : |T| < 1 / 10) :
    processDt (binEdges [T, T + 10, T + 20] 10) (binValues [T, T + 10, T + 20]) (4 / 10) = T := by
  obtain ⟨h1, h2⟩ := abs_lt.1 h
  obtain ⟨hm, hmin⟩ := nearest_transit (tt := [T, T + 10, T + 20]) (by simp; norm_num) (by simp) (P := 10) (by norm_num) (4 / 10)
  generalize processDt _ _ _ = x at hm hmin
  have hx := hmin T (by simp)
  have h0 : |4 / 10 - T| < 1 / 2 := abs_lt.2 ⟨by linarith, by linarith⟩
  simp only [List.mem_cons, List.not_mem_nil, or_false] at hm
  rcases hm with rfl | rfl | rfl
  · rfl
  · have := (abs_lt.1 (hx.trans_lt h0)).1
    linarith
  · have := (abs_lt.1 (hx.trans_lt h0)).1
    linarith

theorem zero_offsets (P T : ℝ) (s : ℝ) : (offsetTimes P T (arange 3) [fun _ => 0, fun _ => 0, fun _ => 0]).map (· s) = [T, T + P, T + P * 2] := by
  simp [offsetTimes, arange, List.range_succ]

/-- C105 (finding): the gradient with respect to the time of transit (`jax.grad`, without `jit`) is 0 on a light curve whose derivative is not 0: a star of intensity
`(1 + mu ^ 2) / 2`, a linear ephemeris (offsets 0) of period 10, at a time during a transit -/
theorem ttvs_gradient_time_transit_wrong (strict : Bool) (quad : List (ℝ × ℝ)) :
    ttvsGradient (2 ^ (-52 : ℤ)) strict quad true false [const 1, const (-1 / 2)] (const 10) (some (input 0 fun T => T)) [const 0, const 0, const 0] none
        none (some (const 1)) (const (3 / 10)) (const (1 / 10)) (const (4 / 10)) = .ok (some 0) ∧
      HasDerivAt (fun T => ttvsFlux (2 ^ (-52 : ℤ)) quad [1, -1 / 2] 10 (some T) [0, 0, 0] none none (some 1) (3 / 10) (1 / 10) (4 / 10)) (-2 / 375) 0 := by
  constructor
  · have hs := ttvs_single 10 (some 0) [fun _ => 0, fun _ => 0, fun _ => 0] none 0
    have hE : processDt (binEdges [0, 0 + 10, 0 + 20] 10) (binValues [0, 0 + 10, 0 + 20]) (4 / 10) = 0 := near_offsets (T := 0) (by norm_num)
    have e : (0 : ℝ) + 10 * 2 = 0 + 20 := by ring
    simp only [Option.getD_none, List.length_cons, List.length_nil, Nat.reduceAdd, Option.getD_some, zero_offsets, Option.map_some, e] at hs
    have hfold : ∀ o : TransitOrbit, o.period = 10 → o.time_transit = 0 → o.fold (4 / 10 - (0 - 0)) = 4 / 10 := fun o hp ht =>
      fold_unique o (by rw [hp]; norm_num) 0 (by rw [hp, ht]; norm_num) (by rw [hp]; norm_num) (by rw [hp]; norm_num)
    have htt : offsetTimes 10 0 (arange 3) [fun _ => 0, fun _ => 0, fun _ => 0] = [fun _ => 0, fun _ => 10, fun _ => 20] := by
      simp [offsetTimes, arange, List.range_succ]
      norm_num
    have hsqrt : (1 : ℝ) ≤ √(max 0 ((1 + 1 / 10) ^ 2 - (3 / 10) ^ 2)) := by
      rw [Real.le_sqrt' one_pos]
      norm_num
    have h12 : √((1 * (4 / 10) : ℝ) ^ 2 + (3 / 10) ^ 2) = 1 / 2 := by
      rw [Real.sqrt_eq_iff_eq_sq (by positivity) (by norm_num)]
      norm_num
    obtain ⟨f, hf, -, d, hd, hder⟩ := ttvs_gradient_drops_ephemeris (t := 0) (eps := 2 ^ (-52 : ℤ)) (by positivity) (by norm_num) strict quad
      [fun _ => 1, fun _ => -1 / 2] [fun _ => 0, fun _ => 0, fun _ => 0] (fun _ => 10) (fun T => T) none (some fun _ => 1) none (fun _ => 3 / 10) (fun _ => 1 / 10)
      (fun _ => 4 / 10) (by simp) (by simp) (by fun_prop) (by fun_prop) (by simp) (by simp) (by fun_prop) (by fun_prop) (by fun_prop) (by
        simp only [List.map_cons, List.map_nil]
        rw [totalFlux_eq (by simp)]
        refine mul_ne_zero pi_pos.ne' ?_
        simp [greens, gHigh, pCoeff, uAug, Finset.sum_range_succ]
        norm_num) hs (base := ⟨10, 1, 2 * √(max 0 ((1 + 1 / 10) ^ 2 - (3 / 10) ^ 2)) / 1, 0, 3 / 10, 1 / 10⟩) (w := 4 / 10 - (0 - 0))
      ((base_single _ rfl rfl _ _ _ _).trans rfl) (by rw [warp_single _ rfl rfl, hE]) (by simp) (by simp)
      (by simp [binEdges, midpoints]; norm_num)
      (by
        rw [hfold _ rfl rfl, abs_of_pos (by norm_num : (0 : ℝ) < 4 / 10)]
        refine ne_of_lt ?_
        show (4 / 10 : ℝ) < 0.5 * (2 * √(max 0 ((1 + 1 / 10) ^ 2 - (3 / 10) ^ 2)) / 1)
        linarith)
      (by
        rintro ⟨-, h⟩
        norm_num at h)
      (by
        rw [hfold _ rfl rfl]
        show Regular _ _ (√((1 * (4 / 10) : ℝ) ^ 2 + (3 / 10) ^ 2)) (1 / 10)
        rw [h12]
        exact regular_inside quad)
      htt.symm (by simp; norm_num) (by simp) (by
        intro f hf hmin
        have h0 := hmin (fun _ => 0) (by simp)
        refine h0.trans_lt ?_
        norm_num [abs_of_pos])
    have h0 : d = 0 := by
      obtain ⟨c, rfl⟩ : ∃ c : ℝ, f = fun _ => c := by
        simp only [List.mem_cons, List.not_mem_nil, or_false] at hf
        rcases hf with rfl | rfl | rfl <;> exact ⟨_, rfl⟩
      exact hder.unique (hasDerivAt_const (0 : ℝ) (transitFlux (2 ^ (-52 : ℤ)) quad [1, -1 / 2] 10 none (some 1) c (3 / 10) (1 / 10) (4 / 10)))
    subst h0
    have ic : ∀ c : ℝ, input 0 (fun _ => c) = const c := fun c => by simp [input, const]
    simpa only [List.map_cons, List.map_nil, Option.map_none, Option.map_some, ic] using hd
  · have hev : ∀ᶠ T in 𝓝 (0 : ℝ), |T| < 1 / 10 := by
      have : ContinuousAt (fun T : ℝ => |T|) 0 := continuous_abs.continuousAt
      exact this.eventually_lt continuousAt_const (by norm_num)
    have hder : HasDerivAt (fun T : ℝ => ((4 / 10 - T) ^ 2 + (3 / 10) ^ 2) / 150 - 0.0133) (-2 / 375) 0 := by
      have h1 : HasDerivAt (fun T : ℝ => 4 / 10 - T) (-1) 0 := (hasDerivAt_id 0).const_sub _
      have h2 := (((h1.pow 2).add_const ((3 / 10) ^ 2)).div_const 150).sub_const 0.0133
      refine h2.congr_deriv ?_
      norm_num
    refine hder.congr_of_eventuallyEq (hev.mono fun T hT => ?_)
    show ttvsFlux _ _ _ _ _ _ _ _ _ _ _ _ = ((4 / 10 - T) ^ 2 + (3 / 10) ^ 2) / 150 - 0.0133
    rw [← transit_inside (2 ^ (-52 : ℤ)) quad hT]
    have hs := ttvs_single 10 (some T) [fun _ => 0, fun _ => 0, fun _ => 0] none 0
    simp only [Option.getD_none, List.length_cons, List.length_nil, Nat.reduceAdd, Option.getD_some, zero_offsets, List.map_cons, List.map_nil] at hs
    simp only [ttvsFlux, hs, fluxOf_single]
    have e : T + 10 * 2 = T + 20 := by ring
    rw [e, near_offsets hT]
    have h4 : |4 / 10 - T| < 10 / 2 := by
      obtain ⟨h1, h2⟩ := abs_lt.1 hT
      exact abs_lt.2 ⟨by linarith, by linarith⟩
    exact flux_near (o := ⟨10, 1, _, T, _, _⟩) (P := 10) (T := T) rfl (by ring) h4 h4

theorem fit_example : ∃ q, linearEphemeris [0, 10, 20] (arange 3) = some (0, 10, q) := by
  simp [linearEphemeris, arange, List.range_succ]
  norm_num

/-- the hypotheses are met: the gradient with respect to the time of the first of three transits, during this transit -/
example (strict : Bool) (quad : List (ℝ × ℝ)) :
    ∃ d, timesGradient (2 ^ (-52 : ℤ)) strict quad [] none none [input 0 fun T => T, input 0 fun _ => 10, input 0 fun _ => 20] none none none
        (some (input 0 fun _ => 1)) (input 0 fun _ => 3 / 10) (input 0 fun _ => 1 / 10) (input 0 fun _ => 4 / 10) = some d ∧
      HasDerivAt (fun T => timesFlux (2 ^ (-52 : ℤ)) quad [] none none [T, 10, 20] none none none (some 1) (3 / 10) (1 / 10) (4 / 10)) d 0 ∧
      HasDerivAt (fun T => transitFlux (2 ^ (-52 : ℤ)) quad [] 10 none (some 1) T (3 / 10) (1 / 10) (4 / 10)) d 0 := by
  obtain ⟨q, hq⟩ := fit_example
  have ho := init_single none none [0, 10, 20] none none
  simp only [Option.getD_none, List.length_cons, List.length_nil, Nat.reduceAdd, hq, Option.map_none, shapePeriod] at ho
  have hE : processDt (binEdges [0, 10, 20] 10) (binValues [0, 10, 20]) (4 / 10) = 0 := by
    have := near_offsets (T := 0) (by norm_num)
    rwa [zero_add, zero_add] at this
  have hfold : ∀ o : TransitOrbit, o.period = 10 → o.time_transit = 0 → o.fold (4 / 10 - (0 - 0)) = 4 / 10 := fun o hp ht =>
    fold_unique o (by rw [hp]; norm_num) 0 (by rw [hp, ht]; norm_num) (by rw [hp]; norm_num) (by rw [hp]; norm_num)
  have hsqrt : (1 : ℝ) ≤ √(max 0 ((1 + 1 / 10) ^ 2 - (3 / 10) ^ 2)) := by
    rw [Real.le_sqrt' one_pos]
    norm_num
  have h12 : √((1 * (4 / 10) : ℝ) ^ 2 + (3 / 10) ^ 2) = 1 / 2 := by
    rw [Real.sqrt_eq_iff_eq_sq (by positivity) (by norm_num)]
    norm_num
  have hedge : |TransitOrbit.fold ⟨10, 1, 2 * √(max 0 ((1 + 1 / 10) ^ 2 - (3 / 10) ^ 2)) / 1, 0, 3 / 10, 1 / 10⟩ (4 / 10 - (0 - 0))| ≠
      0.5 * (2 * √(max 0 ((1 + 1 / 10) ^ 2 - (3 / 10) ^ 2)) / 1) := by
    rw [hfold _ rfl rfl, abs_of_pos (by norm_num : (0 : ℝ) < 4 / 10)]
    refine ne_of_lt ?_
    linarith
  have hreg : Regular (2 ^ (-52 : ℤ)) quad (√((1 * TransitOrbit.fold ⟨10, 1, 2 * √(max 0 ((1 + 1 / 10) ^ 2 - (3 / 10) ^ 2)) / 1, 0, 3 / 10, 1 / 10⟩
      (4 / 10 - (0 - 0))) ^ 2 + (3 / 10) ^ 2)) (1 / 10) := by
    rw [hfold _ rfl rfl, h12]
    exact regular_inside quad
  have htot : totalFlux (([] : List (ℝ → ℝ)).map (· 0)) ≠ 0 := by simpa using totalFlux_nil_ne
  have hdiff : ∀ f ∈ [fun T : ℝ => T, fun _ => 10, fun _ => 20], DifferentiableAt ℝ f 0 := by
    intro f hf
    simp only [List.mem_cons, List.not_mem_nil, or_false] at hf
    rcases hf with rfl | rfl | rfl <;> fun_prop
  have hbase := (base_single (TTVOrbit.mk [[0, 10, 20]] [arange 3] [q] [0] [10] [10] [0] [(binEdges [0, 10, 20] 10, binValues [0, 10, 20])]) rfl rfl none (some 1)
    (some (3 / 10)) (some (1 / 10))).trans rfl
  have hw := warp_single (TTVOrbit.mk [[0, 10, 20]] [arange 3] [q] [0] [10] [10] [0] [(binEdges [0, 10, 20] 10, binValues [0, 10, 20])]) rfl rfl (4 / 10)
  rw [hE] at hw
  have hbin : ∀ B ∈ [(binEdges [(0 : ℝ), 10, 20] 10, binValues [(0 : ℝ), 10, 20])], ∀ e ∈ B.1, (4 / 10 : ℝ) ≠ e := by
    simp [binEdges, midpoints]
    norm_num
  obtain ⟨d, hd, hder⟩ := times_gradient_is_derivative (t := 0) (eps := 2 ^ (-52 : ℤ)) (by positivity) (by norm_num) strict quad []
    [fun T => T, fun _ => 10, fun _ => 20] none none none none (some fun _ => 1) none (fun _ => 3 / 10) (fun _ => 1 / 10) (fun _ => 4 / 10) (by simp) hdiff
    (by simp) (by simp) (by simp) (by simp) (by simp) (by fun_prop) (by fun_prop) (by fun_prop) htot ho hbase hw (by simp) (by simp) (by norm_num) (by simp)
    hbin (fun n => by
      show (4 / 10 - (0 - 0) - 0 : ℝ) ≠ (n + 0.5) * 10
      rw [sub_zero, sub_zero, sub_zero]
      exact not_half_period (by norm_num) (by norm_num [abs_of_pos]) n) hedge (by rintro ⟨-, h⟩; norm_num at h) hreg
  obtain ⟨f, hf, hmin, d', hd', hder'⟩ := times_gradient_nearest (t := 0) (eps := 2 ^ (-52 : ℤ)) (by positivity) (by norm_num) strict quad []
    [fun T => T, fun _ => 10, fun _ => 20] none none none (some fun _ => 1) none (fun _ => 3 / 10) (fun _ => 1 / 10) (fun _ => 4 / 10) (by simp) hdiff
    (by simp) (by simp) (by simp) (by simp) (by fun_prop) (by fun_prop) (by fun_prop) htot ho hbase hw (by simp) (by simp) (by simp)
    hbin hedge (by rintro ⟨-, h⟩; norm_num at h) hreg (by simp; norm_num) (by simp) (by
      intro f hf hmin
      have h0 := hmin (fun T => T) (by simp)
      refine h0.trans_lt ?_
      norm_num [abs_of_pos])
  have hf0 : f = fun T => T := by
    have h0 := hmin (fun T => T) (by simp)
    simp only [List.mem_cons, List.not_mem_nil, or_false] at hf
    rcases hf with rfl | rfl | rfl
    · rfl
    · norm_num [abs_of_pos, abs_of_neg] at h0
    · norm_num [abs_of_pos, abs_of_neg] at h0
  subst hf0
  have hdd : d' = d := Option.some.inj (hd'.symm.trans hd)
  subst hdd
  exact ⟨d', hd, hder, hder'⟩

/-- the hypotheses are met: the gradient with respect to the first of three offsets, during the first transit, under `jit` -/
example (strict : Bool) (quad : List (ℝ × ℝ)) :
    ∃ d, ttvsGradient (2 ^ (-52 : ℤ)) strict quad false true [] (const 10) (some (const 0)) [input 0 fun x => x, input 0 fun _ => 0, input 0 fun _ => 0] none none
        (some (input 0 fun _ => 1)) (input 0 fun _ => 3 / 10) (input 0 fun _ => 1 / 10) (input 0 fun _ => 4 / 10) = .ok (some d) ∧
      HasDerivAt (fun x => ttvsFlux (2 ^ (-52 : ℤ)) quad [] 10 (some 0) [x, 0, 0] none none (some 1) (3 / 10) (1 / 10) (4 / 10)) d 0 := by
  have hz : (offsetTimes 10 0 (arange 3) [fun x => x, fun _ => 0, fun _ => 0]).map (· 0) = [0, 10, 20] := by
    simp [offsetTimes, arange, List.range_succ]
    norm_num
  have ho := ttvs_single 10 (some 0) [fun x => x, fun _ => 0, fun _ => 0] none 0
  simp only [Option.getD_none, List.length_cons, List.length_nil, Nat.reduceAdd, Option.getD_some, hz] at ho
  have hE : processDt (binEdges [0, 10, 20] 10) (binValues [0, 10, 20]) (4 / 10) = 0 := by
    have := near_offsets (T := 0) (by norm_num)
    rwa [zero_add, zero_add] at this
  have hfold : ∀ o : TransitOrbit, o.period = 10 → o.time_transit = 0 → o.fold (4 / 10 - (0 - 0)) = 4 / 10 := fun o hp ht =>
    fold_unique o (by rw [hp]; norm_num) 0 (by rw [hp, ht]; norm_num) (by rw [hp]; norm_num) (by rw [hp]; norm_num)
  have hsqrt : (1 : ℝ) ≤ √(max 0 ((1 + 1 / 10) ^ 2 - (3 / 10) ^ 2)) := by
    rw [Real.le_sqrt' one_pos]
    norm_num
  have h12 : √((1 * (4 / 10) : ℝ) ^ 2 + (3 / 10) ^ 2) = 1 / 2 := by
    rw [Real.sqrt_eq_iff_eq_sq (by positivity) (by norm_num)]
    norm_num
  refine ttvs_gradient_is_derivative_partial (t := 0) (eps := 2 ^ (-52 : ℤ)) (by positivity) (by norm_num) strict quad true []
    [fun x => x, fun _ => 0, fun _ => 0] 10 (some 0) none (some fun _ => 1) none (fun _ => 3 / 10) (fun _ => 1 / 10) (fun _ => 4 / 10) (by simp) (by
      intro f hf
      simp only [List.mem_cons, List.not_mem_nil, or_false] at hf
      rcases hf with rfl | rfl | rfl <;> fun_prop)
    (by simp) (by simp) (by fun_prop) (by fun_prop) (by fun_prop) (by simpa using totalFlux_nil_ne) ho
    (base := ⟨10, 1, 2 * √(max 0 ((1 + 1 / 10) ^ 2 - (3 / 10) ^ 2)) / 1, 0, 3 / 10, 1 / 10⟩) (w := 4 / 10 - (0 - 0)) ((base_single _ rfl rfl _ _ _ _).trans rfl)
    (by rw [warp_single _ rfl rfl, hE]) (by simp) (by simp) (by norm_num)
    (by simp [binEdges, midpoints]; norm_num) (fun n => ?_) ?_ (by rintro ⟨-, h⟩; norm_num at h) ?_
  · show (4 / 10 - (0 - 0) - 0 : ℝ) ≠ (n + 0.5) * 10
    rw [sub_zero, sub_zero, sub_zero]
    exact not_half_period (by norm_num) (by norm_num [abs_of_pos]) n
  · rw [hfold _ rfl rfl, abs_of_pos (by norm_num : (0 : ℝ) < 4 / 10)]
    refine ne_of_lt ?_
    show (4 / 10 : ℝ) < 0.5 * (2 * √(max 0 ((1 + 1 / 10) ^ 2 - (3 / 10) ^ 2)) / 1)
    linarith
  · rw [hfold _ rfl rfl]
    show Regular _ _ (√((1 * (4 / 10) : ℝ) ^ 2 + (3 / 10) ^ 2)) (1 / 10)
    rw [h12]
    exact regular_inside quad

end Jaxoplanet.Transit
