import Verif.Proofs.SurfaceGrad

/-!
# C93: the derivatives of the light curve of a surface

`surface_light_curve(surface, r, x, y, z, theta, order)` has finite derivatives with respect to the position and the radius of the occultor, the rotation angle,
the coefficients of the map, the limb-darkening coefficients and the amplitude, in both modes of automatic differentiation, whenever the occultor is
not exactly centred; and away from the thresholds of the guards of the program they are its derivatives.
-/

namespace Jaxoplanet.Starry
open _root_.Jaxoplanet.Starry.Spec _root_.Jaxoplanet.Spec
open Real AD AD.Dual Filter Topology

/-- the values of a surface with derivatives -/
def SurfaceD.value (s : SurfaceD) (period : Option ℝ) (phase radius : ℝ) : Surface :=
  ⟨⟨s.y.map fun e => (e.1, e.2.v)⟩, s.inc, s.obl, s.u.map (·.v), period, s.amplitude.v, phase, radius⟩

/-- a surface that depends on a parameter -/
structure SurfaceFamily where
  y : List ((ℕ × ℤ) × (ℝ → ℝ))
  inc : Option ℝ
  obl : Option ℝ
  u : List (ℝ → ℝ)
  period : Option ℝ
  amplitude : ℝ → ℝ
  phase : ℝ
  radius : ℝ

/-- the surface at the parameter `s` -/
def SurfaceFamily.eval (m : SurfaceFamily) (s : ℝ) : Surface :=
  ⟨⟨m.y.map fun e => (e.1, e.2 s)⟩, m.inc, m.obl, m.u.map (· s), m.period, m.amplitude s, m.phase, m.radius⟩

/-- its values with their derivatives at the parameter `t`: the input of automatic differentiation -/
noncomputable def SurfaceFamily.input (m : SurfaceFamily) (t : ℝ) : SurfaceD :=
  ⟨m.y.map fun e => (e.1, LimbDark.input t e.2), m.inc, m.obl, m.u.map (LimbDark.input t), LimbDark.input t m.amplitude⟩

/-- all parameters are differentiable -/
structure SurfaceFamily.Smooth (m : SurfaceFamily) (t : ℝ) : Prop where
  y : ∀ e ∈ m.y, DifferentiableAt ℝ e.2 t
  u : ∀ f ∈ m.u, DifferentiableAt ℝ f t
  amplitude : DifferentiableAt ℝ m.amplitude t

variable {t : ℝ}

theorem SurfaceFamily.Smooth.tracks {m : SurfaceFamily} (h : m.Smooth t) : TrSurf (Tk t) m.eval (m.input t) where
  y := by
    have : ∀ l : List ((ℕ × ℤ) × (ℝ → ℝ)), (∀ e ∈ l, DifferentiableAt ℝ e.2 t) →
        TrD (Tk t) (fun s => l.map fun e => (e.1, e.2 s)) (l.map fun e => (e.1, LimbDark.input t e.2)) := by
      intro l
      induction l with
      | nil => exact fun _ => .nil
      | cons e l ih => exact fun h => TrD.cons (k := e.1) (LimbDark.track_input (h e (by simp))) (ih fun e he => h e (by simp [he]))
    exact this m.y h.y
  inc := fun _ => rfl
  obl := fun _ => rfl
  u := trL_map m.u fun f hf => LimbDark.track_input (h.u f hf)
  amplitude := LimbDark.track_input h.amplitude

theorem tracks_of_finite (s : SurfaceD) (hy : ∀ e ∈ s.y, Dual.Fin e.2) (hu : ∀ a ∈ s.u, Dual.Fin a) (ha : Dual.Fin s.amplitude) (period : Option ℝ) (phase radius : ℝ) :
    ∃ S : ℝ → Surface, TrSurf (Tk 0) S s ∧ S 0 = s.value period phase radius := by
  have : ∀ l : List ((ℕ × ℤ) × Dual), (∀ e ∈ l, Dual.Fin e.2) → ∃ F : ℝ → List ((ℕ × ℤ) × ℝ), TrD (Tk 0) F l ∧ F 0 = l.map fun e => (e.1, e.2.v) := by
    intro l
    induction l with
    | nil => exact fun _ => ⟨_, .nil, rfl⟩
    | cons e l ih =>
      intro h
      obtain ⟨F, hF, hv⟩ := ih fun e he => h e (by simp [he])
      obtain ⟨f, hf⟩ := fin_tracks (t := 0) (h e (by simp))
      exact ⟨_, TrD.cons (k := e.1) hf hF, by simp [hv, hf.1]⟩
  obtain ⟨Y, hY, hYv⟩ := this s.y hy
  obtain ⟨U, hU⟩ := fin_trL (t := 0) hu
  obtain ⟨A, hA⟩ := fin_tracks (t := 0) ha
  refine ⟨fun p => ⟨⟨Y p⟩, s.inc, s.obl, U p, period, A p, phase, radius⟩, ⟨hY, fun _ => rfl, fun _ => rfl, hU, hA⟩, ?_⟩
  simp only [SurfaceD.value]
  rw [hYv, hU.val, hA.1]

/-- the light curve of a map of degree zero -/
theorem flatD (eps : ℝ) (strict : Bool) (quad : ℕ → List (ℝ × ℝ)) (order : ℕ) {ydeg : ℕ} (h0 : ydeg = 0) {u : List Dual} {amplitude : Dual} (rotated : Dual → Except PyErr (List Dual))
    (r x y z : Dual) :
    lightCurveFromD eps strict quad order ydeg u amplitude rotated (some r) x y z = .ok (const 1 + Dual.where strict (¬ NotInFront x.v y.v z.v r.v)
      (LimbDark.lightCurveD eps strict (quad order) u (Dual.where strict (NotInFront x.v y.v z.v r.v) (const 1) (impactD x y))
        (Dual.where strict (NotInFront x.v y.v z.v r.v) (const 1) r)) (const 0)) := by
  unfold lightCurveFromD
  simp only
  rw [if_pos h0]
  rfl

open Classical in
theorem flat (eps : ℝ) (quad : ℕ → List (ℝ × ℝ)) (asEuler : V3 → V3) (order : ℕ) {s : Surface} (h0 : s.ydeg = 0) (r x y z : ℝ) (theta : Option ℝ) :
    surfaceLightCurve eps quad asEuler order s (some r) (some x) (some y) (some z) theta = .ok (1 + if NotInFront x y z r then 0 else
      LimbDark.lightCurve eps (quad order) s.u (if NotInFront x y z r then 1 else √(x ^ 2 + y ^ 2)) (if NotInFront x y z r then 1 else r)) := by
  unfold surfaceLightCurve
  simp only [Option.getD_some]
  rw [if_pos h0]
  by_cases h : NotInFront x y z r
  · have h' : √(x ^ 2 + y ^ 2) ≥ 1 + r ∨ z ≤ 0 := h
    simp only [if_pos h, if_pos h']
  · have h' : ¬ (√(x ^ 2 + y ^ 2) ≥ 1 + r ∨ z ≤ 0) := h
    simp only [if_neg h, if_neg h']

theorem value_deg (s : SurfaceD) (period : Option ℝ) (phase radius : ℝ) :
    (s.value period phase radius).deg = ylmDeg s.y + s.u.length ∧ (s.value period phase radius).ydeg = ylmDeg s.y := by
  simp only [Surface.deg, Surface.ydeg, Surface.udeg, Ylm.deg, SurfaceD.value, ylmDeg, List.map_map, Function.comp_def, List.length_map, and_self]

theorem trL_values (L : List Dual) : TrL (Val 0) (fun _ => L.map (·.v)) L := by
  induction L with
  | nil => exact .nil
  | cons a L ih => exact .cons (rfl : Val 0 (fun _ => a.v) a) ih

theorem trD_values (l : List ((ℕ × ℤ) × Dual)) : TrD (Val 0) (fun _ => l.map fun e => (e.1, e.2.v)) l := by
  induction l with
  | nil => exact .nil
  | cons e l ih => exact TrD.cons (k := e.1) (rfl : Val 0 (fun _ => e.2.v) e.2) ih

theorem trO_values (theta : Option Dual) : TrO (Val 0) (theta.map fun a _ => a.v) theta := by
  cases theta with
  | none => exact .none
  | some a => exact .some rfl

theorem fluxFromD_v {asEuler : V3 → V3} (hE : IsEulerZYZ asEuler) {S : Surface} {yD : DictD (ℕ × ℤ)} {uD : List Dual} {aD : Dual} (hS : TrSurf0 (Val 0) (fun _ => S) yD uD aD)
    (hmap : ValidMap S.y) (htot : totalFlux S.u ≠ 0) {theta : Option ℝ} {tz : ℝ} {rot : Except PyErr (List Dual)} (hrot : TrE (TrL (Val 0)) (fun _ => rotatedY asEuler S theta tz) rot)
    {L : List Dual} (hl : L.length = (ylmDeg yD + uD.length + 1) ^ 2) :
    ∃ a, fluxFromD (ylmDeg yD) uD aD rot L = .ok a ∧ projectFlux asEuler S theta tz (L.map (·.v)) = .ok a.v := by
  have hdeg : S.deg = ylmDeg yD + uD.length := by
    unfold Surface.deg
    rw [hS.ydeg 0, Surface.udeg, hS.u.length 0]
  obtain ⟨c, -, -, hc⟩ := projectFlux_spec hE S hmap theta tz
  have hok := hc (L.map (·.v)) (by rw [List.length_map, hl, hdeg])
  rcases trE_fluxFrom (R := Val 0) (t := 0) hS (fun h => h) htot (theta := fun _ => theta) (f := fun _ => tz) hrot (trL_values L) with ⟨e, -, h2⟩ | ⟨g, a, h1, h2, h3⟩
  · have := h2 0
    beta_reduce at this
    rw [hok] at this
    cases this
  · have h2 := h2 0
    beta_reduce at h2
    rw [show g 0 = a.v from h3] at h2
    exact ⟨a, h1, h2⟩

/-- the value of the light curve, for any way of rotating the map -/
theorem surface_value_core (eps : ℝ) (strict : Bool) (quad : ℕ → List (ℝ × ℝ)) {asEuler : V3 → V3} (hE : IsEulerZYZ asEuler) (order : ℕ)
    {S : Surface} {yD : DictD (ℕ × ℤ)} {uD : List Dual} {aD : Dual} (hS : TrSurf0 (Val 0) (fun _ => S) yD uD aD) (hmap : ValidMap S.y) (htot : totalFlux S.u ≠ 0) (hu : S.u = uD.map (·.v))
    {theta : Option ℝ} {rotated : Dual → Except PyErr (List Dual)} (hrotated : ∀ tz : Dual, TrE (TrL (Val 0)) (fun _ => rotatedY asEuler S theta tz.v) (rotated tz))
    (r : Option Dual) (x y z : Dual) :
    ∃ a, lightCurveFromD eps strict quad order (ylmDeg yD) uD aD rotated r x y z = .ok a ∧
      surfaceLightCurve eps quad asEuler order S (r.map (·.v)) (some x.v) (some y.v) (some z.v) theta = .ok a.v := by
  classical
  have hydeg : S.ydeg = ylmDeg yD := hS.ydeg 0
  have hdeg : S.deg = ylmDeg yD + uD.length := by
    unfold Surface.deg
    rw [hydeg, Surface.udeg, hS.u.length 0]
  cases r with
  | none =>
    unfold lightCurveFromD surfaceLightCurve
    simp only [hdeg]
    obtain ⟨a, h1, h3⟩ := fluxFromD_v hE hS hmap htot (hrotated (const 0)) (L := (rT (ylmDeg yD + uD.length)).map const) (by rw [List.length_map, (rT_spec _).1])
    refine ⟨a, h1, ?_⟩
    rw [List.map_map, show ((fun d : Dual => d.v) ∘ const) = id from rfl, List.map_id] at h3
    exact h3
  | some r =>
    rw [Option.map_some]
    by_cases h0 : ylmDeg yD = 0
    · refine ⟨_, flatD eps strict quad order h0 rotated r x y z, ?_⟩
      rw [flat eps quad asEuler order (by rw [hydeg, h0])]
      congr 1
      rw [add_v, const_v, where_v, LimbDark.lightCurveD_v, where_v, where_v, const_v, const_v, ite_not, hu]
      rfl
    · unfold lightCurveFromD surfaceLightCurve
      simp only [hdeg, hydeg, Option.getD_some]
      rw [if_neg h0, if_neg h0]
      obtain ⟨L, hL, hv, hl⟩ := designVectorD_v eps strict quad order (deg := ylmDeg yD + uD.length) (by omega) r x y z
      obtain ⟨a, h1, h3⟩ := fluxFromD_v hE hS hmap htot (hrotated (Dual.atan2 x y)) hl
      refine ⟨a, ?_, ?_⟩
      · rw [hL]; exact h1
      · rw [hv]; exact h3

/-- C93: automatic differentiation does not change the value, wherever the occultor is -/
theorem surface_gradient_value (eps : ℝ) (strict : Bool) (quad : ℕ → List (ℝ × ℝ)) {asEuler : V3 → V3} (hE : IsEulerZYZ asEuler) (order : ℕ)
    (s : SurfaceD) (period : Option ℝ) (phase radius : ℝ) (r theta : Option Dual) (x y z : Dual)
    (hmap : ValidMap (s.value period phase radius).y) (htot : totalFlux (s.u.map (·.v)) ≠ 0) :
    ∃ a, surfaceLightCurveD eps strict quad asEuler order s r x y z theta = .ok a ∧
      surfaceLightCurve eps quad asEuler order (s.value period phase radius) (r.map (·.v)) (some x.v) (some y.v) (some z.v) (theta.map (·.v)) = .ok a.v := by
  have hS : TrSurf (Val 0) (fun _ => s.value period phase radius) s := ⟨trD_values s.y, fun _ => rfl, fun _ => rfl, trL_values s.u, rfl⟩
  refine surface_value_core eps strict quad hE order hS.base hmap htot rfl (fun tz => ?_) r x y z
  have := trE_rotatedY (R := Val 0) asEuler hS (trO_values theta) (f := fun _ => tz.v) (a := tz) (by simp only [Val]; simp) (by simp only [Val]; simp)
  simpa [Option.map_map, Function.comp_def] using this

/-- the derivatives of the light curve are finite, for any way of rotating the map -/
theorem surface_finite_core {eps : ℝ} (he : 0 < eps) (strict : Bool) (quad : ℕ → List (ℝ × ℝ)) {asEuler : V3 → V3} (hE : IsEulerZYZ asEuler) (order : ℕ)
    {S : ℝ → Surface} {yD : DictD (ℕ × ℤ)} {uD : List Dual} {aD : Dual} (hS : TrSurf0 (Tk 0) S yD uD aD) (hmap : ValidMap (S 0).y) (htot : totalFlux (S 0).u ≠ 0)
    {theta : ℝ → Option ℝ} {rotated : Dual → Except PyErr (List Dual)}
    (hrotated : ∀ {f : ℝ → ℝ} {a : Dual}, Tracks (fun s => Real.cos (-f s)) 0 (-a).cos → Tracks (fun s => Real.sin (-f s)) 0 (-a).sin →
      TrE (TrL (Tk 0)) (fun s => rotatedY asEuler (S s) (theta s) (f s)) (rotated a))
    (r : Option Dual) (x y z : Dual) (hr : ∀ a ∈ r, ∃ d, a.d = some d) (hx : ∃ d, x.d = some d) (hy' : ∃ d, y.d = some d)
    (hxy : r = none ∨ ¬ (x.v = 0 ∧ y.v = 0)) :
    ∃ a, lightCurveFromD eps strict quad order (ylmDeg yD) uD aD rotated r x y z = .ok a ∧ (∃ d, a.d = some d) ∧
      surfaceLightCurve eps quad asEuler order (S 0) (r.map (·.v)) (some x.v) (some y.v) (some z.v) (theta 0) = .ok a.v := by
  classical
  have hydeg : (S 0).ydeg = ylmDeg yD := hS.ydeg 0
  have hdeg : (S 0).deg = ylmDeg yD + uD.length := by
    unfold Surface.deg
    rw [hydeg, Surface.udeg, hS.u.length 0]
  have hu : (S 0).u = uD.map (·.v) := hS.u.val
  -- the last part of the program
  have proj : ∀ {tz : Dual} {L : List Dual}, Dual.Fin tz → (∀ a ∈ L, Dual.Fin a) → L.length = (ylmDeg yD + uD.length + 1) ^ 2 →
      ∃ a, fluxFromD (ylmDeg yD) uD aD (rotated tz) L = .ok a ∧ (∃ d, a.d = some d) ∧
        projectFlux asEuler (S 0) (theta 0) tz.v (L.map (·.v)) = .ok a.v := by
    intro tz L htz hL hl
    obtain ⟨f, hf⟩ := fin_tracks (t := 0) htz
    obtain ⟨F, hF⟩ := fin_trL (t := 0) hL
    obtain ⟨c, -, -, hc⟩ := projectFlux_spec hE (S 0) hmap (theta 0) tz.v
    have hok := hc (L.map (·.v)) (by rw [List.length_map, hl, hdeg])
    rcases trE_fluxFrom (R := Tk 0) (t := 0) hS And.left htot (hrotated (track_cos (track_neg hf)) (track_sin (track_neg hf))) hF with ⟨e, -, h2⟩ | ⟨g, a, h1, h2, h3⟩
    · have := h2 0
      beta_reduce at this
      rw [hf.1, hF.val, hok] at this
      cases this
    · have h2 := h2 0
      beta_reduce at h2
      rw [hf.1, hF.val, h3.1] at h2
      exact ⟨a, h1, h3.fin, h2⟩
  cases r with
  | none =>
    unfold lightCurveFromD surfaceLightCurve
    simp only [hdeg]
    obtain ⟨a, h1, h2, h3⟩ := proj (tz := const 0) (L := (rT (ylmDeg yD + uD.length)).map const) (fin_const 0)
      (by intro a ha; obtain ⟨c, -, rfl⟩ := List.mem_map.1 ha; exact fin_const c) (by rw [List.length_map, (rT_spec _).1])
    refine ⟨a, h1, h2, ?_⟩
    rw [List.map_map, show ((fun d : Dual => d.v) ∘ const) = id from rfl, List.map_id] at h3
    exact h3
  | some r =>
    have hxy : ¬ (x.v = 0 ∧ y.v = 0) := by simpa using hxy
    have hr := hr r rfl
    rw [Option.map_some]
    have hb : Dual.Fin (impactD x y) := fin_sqrt (fin_add (fin_square hx) (fin_square hy')) (sq_add_pos hxy)
    have hb0 : 0 < √(x.v ^ 2 + y.v ^ 2) := Real.sqrt_pos.2 (sq_add_pos hxy)
    by_cases h0 : ylmDeg yD = 0
    · refine ⟨_, flatD eps strict quad order h0 rotated r x y z, ?_, ?_⟩
      · refine fin_add (fin_const 1) (fin_where ?_ (fin_const 0))
        refine LimbDark.gradient_finite he strict (quad order) uD _ _ hS.u.allFin (fin_where (fin_const 1) hb) (fin_where (fin_const 1) hr) (by rw [← hu]; exact htot) ?_ ?_
        · rw [where_v, where_v, const_v, show (impactD x y).v = √(x.v ^ 2 + y.v ^ 2) from rfl]
          split_ifs with hrot
          · rintro ⟨-, h1⟩; norm_num at h1
          · rintro ⟨h1, h2⟩
            refine hrot (Or.inl ?_)
            rw [abs_of_pos hb0] at h1
            rw [h1, h2]
            norm_num
        · rw [where_v, where_v, const_v, show (impactD x y).v = √(x.v ^ 2 + y.v ^ 2) from rfl]
          split_ifs with hrot
          · rintro ⟨h1, -⟩; norm_num at h1
          · rintro ⟨h1, -⟩; exact hb0.ne' h1
      · rw [flat eps quad asEuler order (by rw [hydeg, h0])]
        congr 1
        rw [add_v, const_v, where_v, LimbDark.lightCurveD_v, where_v, where_v, const_v, const_v, ite_not, hu]
        rfl
    · unfold lightCurveFromD surfaceLightCurve
      simp only [hdeg, hydeg, Option.getD_some]
      rw [if_neg h0, if_neg h0]
      obtain ⟨L, hL, hl, hf, hv⟩ := design_finite he strict quad order (deg := ylmDeg yD + uD.length) (by omega) z hr hx hy' hxy
      obtain ⟨a, h1, h2, h3⟩ := proj (tz := Dual.atan2 x y) (fin_atan2 hx hy' hxy) hf hl
      refine ⟨a, ?_, h2, ?_⟩
      · rw [hL]; exact h1
      · rw [hv]; exact h3

/-- an optional number with a finite derivative -/
theorem finite_option {theta : Option Dual} (hth : ∀ a ∈ theta, ∃ d, a.d = some d) : ∃ th : Option (ℝ → ℝ), TrO (Tk 0) th theta ∧ th.map (· 0) = theta.map (·.v) := by
  cases theta with
  | none => exact ⟨none, .none, rfl⟩
  | some a =>
    obtain ⟨f, hf⟩ := fin_tracks (t := 0) (hth a rfl)
    exact ⟨some f, .some hf, by simp [hf.1]⟩

/-- C93: the derivatives of the light curve are finite, in both modes, unless the occultor is exactly centred -/
theorem surface_gradient_finite {eps : ℝ} (he : 0 < eps) (strict : Bool) (quad : ℕ → List (ℝ × ℝ)) {asEuler : V3 → V3} (hE : IsEulerZYZ asEuler) (order : ℕ)
    (s : SurfaceD) (period : Option ℝ) (phase radius : ℝ) (r theta : Option Dual) (x y z : Dual)
    (hmap : ValidMap (s.value period phase radius).y) (htot : totalFlux (s.u.map (·.v)) ≠ 0)
    (hy : ∀ e ∈ s.y, ∃ d, e.2.d = some d) (hu : ∀ a ∈ s.u, ∃ d, a.d = some d) (ha : ∃ d, s.amplitude.d = some d)
    (hr : ∀ a ∈ r, ∃ d, a.d = some d) (hth : ∀ a ∈ theta, ∃ d, a.d = some d) (hx : ∃ d, x.d = some d) (hy' : ∃ d, y.d = some d)
    (hxy : r = none ∨ ¬ (x.v = 0 ∧ y.v = 0)) :
    ∃ a, surfaceLightCurveD eps strict quad asEuler order s r x y z theta = .ok a ∧ (∃ d, a.d = some d) ∧
      surfaceLightCurve eps quad asEuler order (s.value period phase radius) (r.map (·.v)) (some x.v) (some y.v) (some z.v) (theta.map (·.v)) = .ok a.v := by
  obtain ⟨S, hS, hS0⟩ := tracks_of_finite s hy hu ha period phase radius
  obtain ⟨th, hth', hth0⟩ := finite_option hth
  have := surface_finite_core he strict quad hE order hS.base (by rw [hS0]; exact hmap) (by rw [hS0]; exact htot) (theta := fun s => th.map (· s))
    (fun hc hs => trE_rotatedY (R := Tk 0) asEuler hS hth' hc hs) r x y z hr hx hy' hxy
  rw [hS0, hth0] at this
  exact this

/-- near a point that is not at a threshold the occultor stays in front of the star, or does not -/
theorem front_cases (strict : Bool) {fr fx fy fz : ℝ → ℝ} {r x y z : Dual} (hr : Tracks fr t r) (hx : Tracks fx t x) (hy : Tracks fy t y) (hz : Tracks fz t z)
    (hne : ¬ (x.v = 0 ∧ y.v = 0)) {P : Prop} (h : 1 + fr t < √(fx t ^ 2 + fy t ^ 2) ∨ fz t < 0 ∨ (0 < fz t ∧ √(fx t ^ 2 + fy t ^ 2) < 1 + fr t ∧ P)) :
    ((∀ᶠ s in 𝓝 t, NotInFront (fx s) (fy s) (fz s) (fr s)) ∧ NotInFront x.v y.v z.v r.v) ∨
    ((∀ᶠ s in 𝓝 t, ¬ NotInFront (fx s) (fy s) (fz s) (fr s)) ∧ ¬ NotInFront x.v y.v z.v r.v ∧ P ∧
      Tracks (fun s => √(fx s ^ 2 + fy s ^ 2)) t (Dual.where strict (NotInFront x.v y.v z.v r.v) (const 1) (impactD x y)) ∧
      Tracks fr t (Dual.where strict (NotInFront x.v y.v z.v r.v) (const 1) r)) := by
  classical
  have hbt : Tracks (fun s => √(fx s ^ 2 + fy s ^ 2)) t (impactD x y) :=
    track_sqrt (track_add (track_square hx) (track_square hy)) (sq_add_pos hne)
  have hb1 := hbt.cont
  have hr1 := hr.cont
  have hz1 := hz.cont
  have hval : ∀ {Q : ℝ → ℝ → ℝ → ℝ → Prop}, (∀ᶠ s in 𝓝 t, Q (fx s) (fy s) (fz s) (fr s)) → Q x.v y.v z.v r.v := by
    intro Q hev
    have := hev.self_of_nhds
    rwa [hx.1, hy.1, hz.1, hr.1] at this
  rcases h with h1 | h1 | ⟨h1, h2, h3⟩
  · left
    have : ContinuousAt (fun s => 1 + fr s) t := continuousAt_const.add hr1
    have hev := (this.eventually_lt hb1 h1).mono fun s hs => (Or.inl hs.le : NotInFront (fx s) (fy s) (fz s) (fr s))
    exact ⟨hev, hval hev⟩
  · left
    have hev := (hz1.eventually_lt continuousAt_const h1).mono fun s hs => (Or.inr hs.le : NotInFront (fx s) (fy s) (fz s) (fr s))
    exact ⟨hev, hval hev⟩
  · right
    have hev : ∀ᶠ s in 𝓝 t, ¬ NotInFront (fx s) (fy s) (fz s) (fr s) := by
      have : ContinuousAt (fun s => 1 + fr s) t := continuousAt_const.add hr1
      filter_upwards [hb1.eventually_lt this h2, continuousAt_const.eventually_lt hz1 h1] with s hs hs'
      rintro (h | h)
      · exact absurd h (not_le.2 hs)
      · exact absurd h (not_le.2 hs')
    have hrot : ¬ NotInFront x.v y.v z.v r.v := hval (Q := fun x y z r => ¬ NotInFront x y z r) hev
    refine ⟨hev, hrot, h3, ?_, ?_⟩
    · have := track_where_neg (st := strict) (c := NotInFront x.v y.v z.v r.v) (f := fun _ => 1) (p := fun _ => NotInFront x.v y.v z.v r.v) (fin_const 1) hbt hrot (Eventually.of_forall fun _ => hrot)
      exact this.congr (Eventually.of_forall fun s => by rw [if_neg hrot])
    · have := track_where_neg (st := strict) (c := NotInFront x.v y.v z.v r.v) (f := fun _ => 1) (p := fun _ => NotInFront x.v y.v z.v r.v) (fin_const 1) hr hrot (Eventually.of_forall fun _ => hrot)
      exact this.congr (Eventually.of_forall fun s => by rw [if_neg hrot])

theorem track_trig_neg {f : ℝ → ℝ} {a : Dual} (h : Tracks (fun s => Real.cos (f s)) t a.cos ∧ Tracks (fun s => Real.sin (f s)) t a.sin) :
    Tracks (fun s => Real.cos (-f s)) t (-a).cos ∧ Tracks (fun s => Real.sin (-f s)) t (-a).sin := by
  obtain ⟨⟨v1, d1, e1, g1⟩, ⟨v2, d2, e2, g2⟩⟩ := h
  have c1 : a.cos.d = AD.lin (some (-Real.sin a.v)) a.d := rfl
  have c2 : a.sin.d = AD.lin (some (Real.cos a.v)) a.d := rfl
  have c3 : (-a).cos.d = AD.lin (some (-Real.sin (-a.v))) (AD.lin (some (-1)) a.d) := rfl
  have c4 : (-a).sin.d = AD.lin (some (Real.cos (-a.v))) (AD.lin (some (-1)) a.d) := rfl
  rw [c1] at e1
  rw [c2] at e2
  cases hd : a.d with
  | none =>
    rw [hd] at e1
    cases e1
  | some d =>
    rw [hd] at e1 e2 c3 c4
    have e1' : d1 = -Real.sin a.v * d := (Option.some.inj e1).symm
    have e2' : d2 = Real.cos a.v * d := (Option.some.inj e2).symm
    refine ⟨⟨by simpa using v1, d1, ?_, by simpa using g1⟩, ⟨?_, -d2, ?_, ?_⟩⟩
    · rw [c3, e1']
      simp [AD.lin]
    · simp only [Real.sin_neg, sin_v, neg_v] at v2 ⊢
      rw [v2]
    · rw [c4, e2']
      simp [AD.lin]
    · simp only [Real.sin_neg]
      exact g2.fun_neg

theorem track_option {theta : Option (ℝ → ℝ)} (hth : ∀ f ∈ theta, DifferentiableAt ℝ f t) : TrO (Tk t) theta (theta.map (LimbDark.input t)) := by
  cases theta with
  | none => exact .none
  | some f => exact .some (LimbDark.track_input (hth f rfl))

theorem trL_functions {F : ℝ → List ℝ} {L : List Dual} (h : TrL (Tk t) F L) :
    ∃ us : List (ℝ → ℝ), (∀ s, F s = us.map (· s)) ∧ L = us.map (LimbDark.input t) ∧ ∀ f ∈ us, DifferentiableAt ℝ f t := by
  induction h with
  | nil => exact ⟨[], fun _ => rfl, rfl, by simp⟩
  | cons h _ ih =>
    rename_i f _ _ _ _
    obtain ⟨us, h1, h2, h3⟩ := ih
    obtain ⟨e, d⟩ := Tracks.eq_input h
    exact ⟨f :: us, fun s => by simp [h1 s], by simp [e, h2], by simpa using ⟨d, h3⟩⟩

/-- the light curve of an occulted surface, for any way of rotating the map -/
theorem surface_gradient_core {eps : ℝ} (he : 0 < eps) (he1 : 10 * eps ≤ 1) (strict : Bool) (quad : ℕ → List (ℝ × ℝ)) {asEuler : V3 → V3} (hE : IsEulerZYZ asEuler)
    (order : ℕ) {S : ℝ → Surface} {yD : DictD (ℕ × ℤ)} {uD : List Dual} {aD : Dual} (hS : TrSurf0 (Tk t) S yD uD aD) (hmap : ValidMap (S t).y)
    (htot : totalFlux (S t).u ≠ 0) {r x y z : ℝ → ℝ} {rD xD yyD zD : Dual} {theta : ℝ → Option ℝ} (tr : Tracks r t rD) (tx : Tracks x t xD) (ty : Tracks y t yyD)
    (tz : Tracks z t zD) {rotated : Dual → Except PyErr (List Dual)}
    (hrotated : ∀ {f : ℝ → ℝ} {a : Dual}, Tracks (fun s => Real.cos (-f s)) t (-a).cos → Tracks (fun s => Real.sin (-f s)) t (-a).sin →
      TrE (TrL (Tk t)) (fun s => rotatedY asEuler (S s) (theta s) (f s)) (rotated a))
    (hxy : ¬ (x t = 0 ∧ y t = 0))
    (hreg : 1 + r t < √(x t ^ 2 + y t ^ 2) ∨ z t < 0 ∨ (0 < z t ∧ √(x t ^ 2 + y t ^ 2) < 1 + r t ∧
      ((S t).ydeg ≠ 0 → RegularPoint eps (quad order) √(x t ^ 2 + y t ^ 2) (r t)) ∧
      ((S t).ydeg = 0 → LimbDark.Regular eps (quad order) √(x t ^ 2 + y t ^ 2) (r t)))) :
    ∃ (a : Dual) (f : ℝ → ℝ), lightCurveFromD eps strict quad order (ylmDeg yD) uD aD rotated (some rD) xD yyD zD = .ok a ∧
      (∀ s, surfaceLightCurve eps quad asEuler order (S s) (some (r s)) (some (x s)) (some (y s)) (some (z s)) (theta s) = .ok (f s)) ∧ Tracks f t a := by
  classical
  obtain ⟨rfl, hr⟩ := Tracks.eq_input tr
  obtain ⟨rfl, hx⟩ := Tracks.eq_input tx
  obtain ⟨rfl, hy⟩ := Tracks.eq_input ty
  obtain ⟨rfl, hz⟩ := Tracks.eq_input tz
  have hydeg : ∀ s, (S s).ydeg = ylmDeg yD := hS.ydeg
  have hdeg : ∀ s, (S s).deg = ylmDeg yD + uD.length := by
    intro s
    unfold Surface.deg
    rw [hydeg, Surface.udeg, hS.u.length]
  by_cases h0 : ylmDeg yD = 0
  · have key : Tracks (fun s => 1 + if NotInFront (x s) (y s) (z s) (r s) then 0 else LimbDark.lightCurve eps (quad order) (S s).u
          (if NotInFront (x s) (y s) (z s) (r s) then 1 else √(x s ^ 2 + y s ^ 2)) (if NotInFront (x s) (y s) (z s) (r s) then 1 else r s)) t
        (const 1 + Dual.where strict (¬ NotInFront (x t) (y t) (z t) (r t)) (LimbDark.lightCurveD eps strict (quad order) uD
          (Dual.where strict (NotInFront (x t) (y t) (z t) (r t)) (const 1) (impactD (LimbDark.input t x) (LimbDark.input t y)))
          (Dual.where strict (NotInFront (x t) (y t) (z t) (r t)) (const 1) (LimbDark.input t r))) (const 0)) := by
      refine track_add (track_const 1 t) ?_
      rcases front_cases strict tr tx ty tz hxy hreg with ⟨hev, hrot⟩ | ⟨hev, hrot, hP, tb', tr'⟩
      · change NotInFront (x t) (y t) (z t) (r t) at hrot
        have hfin : Dual.Fin (LimbDark.lightCurveD eps strict (quad order) uD
            (Dual.where strict (NotInFront (x t) (y t) (z t) (r t)) (const 1) (impactD (LimbDark.input t x) (LimbDark.input t y)))
            (Dual.where strict (NotInFront (x t) (y t) (z t) (r t)) (const 1) (LimbDark.input t r))) := by
          have hb : Dual.Fin (impactD (LimbDark.input t x) (LimbDark.input t y)) :=
            fin_sqrt (fin_add (fin_square tx.fin) (fin_square ty.fin)) (sq_add_pos hxy)
          refine LimbDark.gradient_finite he strict (quad order) _ _ _ hS.u.allFin (fin_where (fin_const 1) hb) (fin_where (fin_const 1) tr.fin) ?_ ?_ ?_
          · rw [← hS.u.val]
            exact htot
          · rw [where_v, where_v, if_pos hrot, if_pos hrot, const_v]
            rintro ⟨-, h1⟩; norm_num at h1
          · rw [where_v, where_v, if_pos hrot, if_pos hrot, const_v]
            rintro ⟨h1, -⟩; norm_num at h1
        have := track_where_neg (st := strict) (c := ¬ NotInFront (x t) (y t) (z t) (r t)) (p := fun s => ¬ NotInFront (x s) (y s) (z s) (r s))
          (f := fun _ => 0) hfin (track_const 0 t) (not_not.2 hrot) (hev.mono fun s hs => not_not.2 hs)
        refine this.congr (hev.mono fun s hs => ?_)
        rw [if_pos hs, if_neg (not_not.2 hs)]
      · have hreg' : LimbDark.Regular eps (quad order) √(x t ^ 2 + y t ^ 2) (r t) := hP.2 (by rw [hydeg, h0])
        obtain ⟨us, hus, rfl, hud⟩ := trL_functions hS.u
        rw [hus] at htot
        have hL := LimbDark.track_lightCurve he he1 strict (quad := quad order) hud tb' tr' (LimbDark.norm_ne htot) (by rw [← tb'.1, ← tr'.1]; exact hreg')
        have := track_where_pos (st := strict) (c := ¬ NotInFront (x t) (y t) (z t) (r t)) (p := fun s => ¬ NotInFront (x s) (y s) (z s) (r s))
          (g := fun _ => 0) hL (fin_const 0) hrot hev
        refine this.congr (hev.mono fun s hs => ?_)
        rw [if_neg hs, if_neg hs, if_neg hs, if_pos hs, hus]
    refine ⟨_, fun s => 1 + if NotInFront (x s) (y s) (z s) (r s) then 0 else LimbDark.lightCurve eps (quad order) (S s).u
          (if NotInFront (x s) (y s) (z s) (r s) then 1 else √(x s ^ 2 + y s ^ 2)) (if NotInFront (x s) (y s) (z s) (r s) then 1 else r s), ?_, fun s => ?_, key⟩
    · unfold lightCurveFromD
      simp only
      rw [if_pos h0]
      rfl
    · exact flat eps quad asEuler order (by rw [hydeg, h0]) _ _ _ _ _
  · have hD := design_tracks he strict quad order (deg := ylmDeg yD + uD.length) (by omega) tr tx ty tz
      ⟨hxy, hreg.imp_right (Or.imp_right fun h => ⟨h.1, h.2.1, h.2.2.1 (by rw [hydeg]; exact h0)⟩)⟩
    have ht := track_trig_neg (track_trig_atan2 tx ty hxy)
    have hT : TrE (Tk t)
        (fun s => designVector eps quad order (ylmDeg yD + uD.length) (r s) (x s) (y s) (z s) >>= fun design =>
          projectFlux asEuler (S s) (theta s) (arctan2 (x s) (y s)) design)
        (designVectorD eps strict quad order (ylmDeg yD + uD.length) (LimbDark.input t r) (LimbDark.input t x) (LimbDark.input t y) (LimbDark.input t z) >>= fun design =>
          fluxFromD (ylmDeg yD) uD aD (rotated (Dual.atan2 (LimbDark.input t x) (LimbDark.input t y))) design) :=
      TrE.bind hD fun F L hF => trE_fluxFrom (R := Tk t) hS And.left htot (hrotated ht.1 ht.2) hF
    rcases hT with ⟨e, -, h2⟩ | ⟨f, a, h1, h2, h3⟩
    · exfalso
      obtain ⟨L, -, hl, -, hv⟩ := design_finite he strict quad order (deg := ylmDeg yD + uD.length) (by omega) (LimbDark.input t z) tr.fin tx.fin ty.fin hxy
      have hv : designVector eps quad order (ylmDeg yD + uD.length) (r t) (x t) (y t) (z t) = .ok (L.map (·.v)) := hv
      obtain ⟨c, -, -, hc⟩ := projectFlux_spec hE (S t) hmap (theta t) (arctan2 (x t) (y t))
      have h2 := h2 t
      beta_reduce at h2
      rw [hv] at h2
      have h2 : projectFlux asEuler (S t) (theta t) (arctan2 (x t) (y t)) (L.map (·.v)) = .error e := h2
      rw [hc _ (by rw [List.length_map, hl, hdeg])] at h2
      cases h2
    · refine ⟨a, f, ?_, fun s => ?_, h3⟩
      · unfold lightCurveFromD
        simp only [h0, if_false]
        exact h1
      · rw [← h2 s]
        unfold surfaceLightCurve
        simp only [hydeg, hdeg, h0, if_false, Option.getD_some]

/-- the same for a surface without an occultor -/
theorem surface_rotation_core (eps : ℝ) (strict : Bool) (quad : ℕ → List (ℝ × ℝ)) {asEuler : V3 → V3} (hE : IsEulerZYZ asEuler)
    (order : ℕ) {S : ℝ → Surface} {yD : DictD (ℕ × ℤ)} {uD : List Dual} {aD : Dual} (hS : TrSurf0 (Tk t) S yD uD aD) (hmap : ValidMap (S t).y)
    (htot : totalFlux (S t).u ≠ 0) {theta : ℝ → Option ℝ} {rotated : Dual → Except PyErr (List Dual)}
    (hrotated : ∀ {f : ℝ → ℝ} {a : Dual}, Tracks (fun s => Real.cos (-f s)) t (-a).cos → Tracks (fun s => Real.sin (-f s)) t (-a).sin →
      TrE (TrL (Tk t)) (fun s => rotatedY asEuler (S s) (theta s) (f s)) (rotated a)) (x y z : Dual) :
    ∃ (a : Dual) (f : ℝ → ℝ), lightCurveFromD eps strict quad order (ylmDeg yD) uD aD rotated none x y z = .ok a ∧
      (∀ s, surfaceLightCurve eps quad asEuler order (S s) none none none none (theta s) = .ok (f s)) ∧ Tracks f t a := by
  have hydeg : ∀ s, (S s).ydeg = ylmDeg yD := hS.ydeg
  have hdeg : ∀ s, (S s).deg = ylmDeg yD + uD.length := by
    intro s
    unfold Surface.deg
    rw [hydeg, Surface.udeg, hS.u.length]
  have hT := trE_fluxFrom (R := Tk t) hS And.left htot (hrotated (f := fun _ => 0) (a := const 0) (track_cos (track_neg (track_const 0 t))) (track_sin (track_neg (track_const 0 t))))
    (trL_const (R := Tk t) (rT (ylmDeg yD + uD.length)))
  rcases hT with ⟨e, -, h2⟩ | ⟨f, a, h1, h2, h3⟩
  · exfalso
    obtain ⟨c, -, -, hc⟩ := projectFlux_spec hE (S t) hmap (theta t) 0
    have h2 := h2 t
    beta_reduce at h2
    rw [hc _ (by rw [(rT_spec _).1, hdeg])] at h2
    cases h2
  · refine ⟨a, f, h1, fun s => ?_, h3⟩
    rw [← h2 s]
    unfold surfaceLightCurve
    simp only [hdeg]

/-- C93: the derivatives of the light curve of an occulted surface are its derivatives -/
theorem surface_gradient_is_derivative {eps : ℝ} (he : 0 < eps) (he1 : 10 * eps ≤ 1) (strict : Bool) (quad : ℕ → List (ℝ × ℝ)) {asEuler : V3 → V3} (hE : IsEulerZYZ asEuler)
    (order : ℕ) (m : SurfaceFamily) (hm : m.Smooth t) (hmap : ValidMap (m.eval t).y) (htot : totalFlux (m.eval t).u ≠ 0)
    (r x y z : ℝ → ℝ) (theta : Option (ℝ → ℝ)) (hr : DifferentiableAt ℝ r t) (hx : DifferentiableAt ℝ x t) (hy : DifferentiableAt ℝ y t)
    (hz : DifferentiableAt ℝ z t) (hth : ∀ f ∈ theta, DifferentiableAt ℝ f t) (hxy : ¬ (x t = 0 ∧ y t = 0))
    (hreg : 1 + r t < √(x t ^ 2 + y t ^ 2) ∨ z t < 0 ∨ (0 < z t ∧ √(x t ^ 2 + y t ^ 2) < 1 + r t ∧
      ((m.eval t).ydeg ≠ 0 → RegularPoint eps (quad order) √(x t ^ 2 + y t ^ 2) (r t)) ∧
      ((m.eval t).ydeg = 0 → LimbDark.Regular eps (quad order) √(x t ^ 2 + y t ^ 2) (r t)))) :
    ∃ (a : Dual) (f : ℝ → ℝ), surfaceLightCurveD eps strict quad asEuler order (m.input t) (some (LimbDark.input t r)) (LimbDark.input t x) (LimbDark.input t y)
        (LimbDark.input t z) (theta.map (LimbDark.input t)) = .ok a ∧
      (∀ s, surfaceLightCurve eps quad asEuler order (m.eval s) (some (r s)) (some (x s)) (some (y s)) (some (z s)) (theta.map (· s)) = .ok (f s)) ∧
      a.v = f t ∧ ∃ d, a.d = some d ∧ HasDerivAt f d t := by
  have hS := hm.tracks
  obtain ⟨a, f, h1, h2, h3⟩ := surface_gradient_core he he1 strict quad hE order hS.base hmap htot (LimbDark.track_input hr) (LimbDark.track_input hx) (LimbDark.track_input hy)
    (LimbDark.track_input hz) (theta := fun s => theta.map (· s)) (fun hc hs => trE_rotatedY (R := Tk t) asEuler hS (track_option hth) hc hs) hxy hreg
  exact ⟨a, f, h1, h2, h3.1.symm, h3.2⟩

/-- C93: so are those of a rotating surface without an occultor, everywhere -/
theorem surface_gradient_rotation (eps : ℝ) (strict : Bool) (quad : ℕ → List (ℝ × ℝ)) {asEuler : V3 → V3} (hE : IsEulerZYZ asEuler)
    (order : ℕ) (m : SurfaceFamily) (hm : m.Smooth t) (hmap : ValidMap (m.eval t).y) (htot : totalFlux (m.eval t).u ≠ 0) (theta : Option (ℝ → ℝ))
    (hth : ∀ f ∈ theta, DifferentiableAt ℝ f t) (x y z : Dual) :
    ∃ (a : Dual) (f : ℝ → ℝ), surfaceLightCurveD eps strict quad asEuler order (m.input t) none x y z (theta.map (LimbDark.input t)) = .ok a ∧
      (∀ s, surfaceLightCurve eps quad asEuler order (m.eval s) none none none none (theta.map (· s)) = .ok (f s)) ∧
      a.v = f t ∧ ∃ d, a.d = some d ∧ HasDerivAt f d t := by
  have hS := hm.tracks
  obtain ⟨a, f, h1, h2, h3⟩ := surface_rotation_core eps strict quad hE order hS.base hmap htot (theta := fun s => theta.map (· s))
    (fun hc hs => trE_rotatedY (R := Tk t) asEuler hS (track_option hth) hc hs) x y z
  exact ⟨a, f, h1, h2, h3.1.symm, h3.2⟩

/-- Finding F42: if the occultor is exactly centred, the derivative of the light curve of a map is not finite, in both modes, whatever the radius, and
also if the occultor is behind the star -/
theorem surface_gradient_not_finite (eps : ℝ) (strict : Bool) (quad : ℕ → List (ℝ × ℝ)) {asEuler : V3 → V3} (hE : IsEulerZYZ asEuler) (order : ℕ)
    (s : SurfaceD) (period : Option ℝ) (phase radius : ℝ) (r : Dual) (theta : Option Dual) (x y z : Dual)
    (hmap : ValidMap (s.value period phase radius).y) (htot : totalFlux (s.u.map (·.v)) ≠ 0) (hdeg : (s.value period phase radius).ydeg ≠ 0)
    (hx : x.v = 0) (hy : y.v = 0) :
    ∃ a, surfaceLightCurveD eps strict quad asEuler order s (some r) x y z theta = .ok a ∧ a.d = none := by
  obtain ⟨a, ha, -⟩ := surface_gradient_value eps strict quad hE order s period phase radius (some r) theta x y z hmap htot
  refine ⟨a, ha, ?_⟩
  rw [(value_deg s period phase radius).2] at hdeg
  unfold surfaceLightCurveD lightCurveFromD at ha
  simp only at ha
  rw [if_neg hdeg] at ha
  obtain ⟨L, hL, -, -⟩ := designVectorD_v eps strict quad order (deg := ylmDeg s.y + s.u.length) (by omega) r x y z
  rw [hL] at ha
  exact none_projectFlux asEuler hdeg theta (LimbDark.none_atan2 ⟨hx, hy⟩) L ha

/-- a dipole map whose strength is the parameter, with which the amplitude also varies -/
noncomputable def growingDipole : SurfaceFamily := ⟨[((0, 0), fun _ => 1), ((1, 0), fun s => s)], some 1.2, some 0.3, [], none, fun s => 2 * s, 0, 1⟩

theorem growingDipole_ok (t : ℝ) : growingDipole.Smooth t ∧ ValidMap (growingDipole.eval t).y ∧ totalFlux (growingDipole.eval t).u ≠ 0 ∧ (growingDipole.eval t).ydeg = 1 := by
  refine ⟨⟨?_, by simp [growingDipole], ?_⟩, ⟨by simp [Dict.WF, growingDipole, SurfaceFamily.eval], by simp [growingDipole, SurfaceFamily.eval], by simp [growingDipole, SurfaceFamily.eval]⟩,
    LimbDark.totalFlux_nil_ne, by simp [Surface.ydeg, Ylm.deg, growingDipole, SurfaceFamily.eval]⟩
  · intro e he
    simp only [growingDipole, List.mem_cons, List.not_mem_nil, or_false] at he
    rcases he with rfl | rfl
    · exact differentiableAt_const _
    · exact differentiableAt_id
  · exact differentiableAt_id.const_mul 2

/-- the hypotheses of `surface_gradient_is_derivative` are met: an occultor that crosses the limb along the x axis, while the map changes and the star turns -/
example {asEuler : V3 → V3} (hE : IsEulerZYZ asEuler) : ∃ (a : Dual) (f : ℝ → ℝ),
    surfaceLightCurveD (2 ^ (-52 : ℤ)) true (fun _ => [(0, 2)]) asEuler 20 (growingDipole.input 1) (some (LimbDark.input 1 fun _ => 1 / 2)) (LimbDark.input 1 fun s => s)
      (LimbDark.input 1 fun _ => 0) (LimbDark.input 1 fun _ => 1) (some (LimbDark.input 1 fun s => 3 * s)) = .ok a ∧
    (∀ s, surfaceLightCurve (2 ^ (-52 : ℤ)) (fun _ => [(0, 2)]) asEuler 20 (growingDipole.eval s) (some (1 / 2)) (some s) (some 0) (some 1) (some (3 * s)) = .ok (f s)) ∧
    a.v = f 1 ∧ ∃ d, a.d = some d ∧ HasDerivAt f d 1 := by
  obtain ⟨h1, h2, h3, h4⟩ := growingDipole_ok 1
  have hb : √((1 : ℝ) ^ 2 + 0 ^ 2) = 1 := by norm_num
  exact surface_gradient_is_derivative (t := 1) (by positivity) (by norm_num) true (fun _ => [(0, 2)]) hE 20 growingDipole h1 h2 h3 (fun _ => 1 / 2) (fun s => s) (fun _ => 0) (fun _ => 1)
    (some fun s => 3 * s) (differentiableAt_const _) differentiableAt_id (differentiableAt_const _) (differentiableAt_const _)
    (by intro f hf; obtain rfl := Option.some.inj hf; exact differentiableAt_id.const_mul 3) (by simp)
    (Or.inr (Or.inr ⟨one_pos, by rw [hb]; norm_num, fun _ => by rw [hb]; exact regularPoint_limb, fun h => by rw [h4] at h; cases h⟩))

/-- those of `surface_gradient_finite` (and of `surface_gradient_value`): a transit of a dipole, differentiated in the x direction, with any quadrature rule -/
example {asEuler : V3 → V3} (hE : IsEulerZYZ asEuler) (quad : ℕ → List (ℝ × ℝ)) : ∃ a,
    surfaceLightCurveD (2 ^ (-52 : ℤ)) true quad asEuler 20 (growingDipole.input 1) (some ⟨1 / 10, some 0⟩) ⟨0.3, some 1⟩ ⟨0.4, some 0⟩ ⟨1, some 0⟩ none = .ok a ∧ ∃ d, a.d = some d := by
  obtain ⟨h1, h2, h3, h4⟩ := growingDipole_ok 1
  obtain ⟨a, ha, hd, -⟩ := surface_gradient_finite (eps := 2 ^ (-52 : ℤ)) (by positivity) true quad hE 20 (growingDipole.input 1) none 0 1 (some ⟨1 / 10, some 0⟩) none ⟨0.3, some 1⟩ ⟨0.4, some 0⟩ ⟨1, some 0⟩
    h2 h3 (by simp [growingDipole, SurfaceFamily.input, LimbDark.input]) (by simp [growingDipole, SurfaceFamily.input]) ⟨_, rfl⟩
    (by intro a ha; obtain rfl := Option.some.inj ha; exact ⟨_, rfl⟩) (by simp) ⟨_, rfl⟩ ⟨_, rfl⟩ (Or.inr (by norm_num))
  exact ⟨a, ha, hd⟩

/-- those of `surface_gradient_rotation`: the derivative of the rotational light curve with respect to the angle -/
example {asEuler : V3 → V3} (hE : IsEulerZYZ asEuler) (t : ℝ) (x : Dual) : ∃ (a : Dual) (f : ℝ → ℝ),
    surfaceLightCurveD (2 ^ (-52 : ℤ)) true (fun _ => []) asEuler 20 (growingDipole.input t) none x x x (some (LimbDark.input t fun s => s)) = .ok a ∧
    (∀ s, surfaceLightCurve (2 ^ (-52 : ℤ)) (fun _ => []) asEuler 20 (growingDipole.eval s) none none none none (some s) = .ok (f s)) ∧
    a.v = f t ∧ ∃ d, a.d = some d ∧ HasDerivAt f d t := by
  obtain ⟨h1, h2, h3, -⟩ := growingDipole_ok t
  exact surface_gradient_rotation _ true _ hE 20 growingDipole h1 h2 h3 (some fun s => s)
    (by intro f hf; obtain rfl := Option.some.inj hf; exact differentiableAt_id) x x x

/-- those of `surface_gradient_not_finite`: a planet of radius 0.1 at the centre of the star, or behind it -/
example {asEuler : V3 → V3} (hE : IsEulerZYZ asEuler) (quad : ℕ → List (ℝ × ℝ)) (z : Dual) : ∃ a,
    surfaceLightCurveD (2 ^ (-52 : ℤ)) false quad asEuler 20 (growingDipole.input 1) (some ⟨1 / 10, some 0⟩) ⟨0, some 1⟩ ⟨0, some 0⟩ z none = .ok a ∧ a.d = none := by
  obtain ⟨h1, h2, h3, h4⟩ := growingDipole_ok 1
  exact surface_gradient_not_finite _ false quad hE 20 (growingDipole.input 1) none 0 1 _ none _ _ z h2 h3 (by
    have : ((growingDipole.input 1).value none 0 1).ydeg = (growingDipole.eval 1).ydeg := rfl
    rw [this, h4]; exact one_ne_zero) rfl rfl

end Jaxoplanet.Starry
