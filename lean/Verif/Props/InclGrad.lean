import Verif.Proofs.EulerGrad
import Verif.Props.Intensity

/-!
# C101: the derivatives with respect to the orientation of the star

`surface_light_curve` of a surface whose inclination and obliquity are parameters too: the derivatives are finite and are its derivatives, unless the
rotation axis of the star points exactly towards or away from the observer.
-/

namespace Jaxoplanet.Starry
open _root_.Jaxoplanet.Starry.Spec _root_.Jaxoplanet.Spec
open Real AD AD.Dual Filter Topology

/-- a surface that depends on a parameter, together with its orientation -/
structure OrientedFamily where
  y : List ((ℕ × ℤ) × (ℝ → ℝ))
  inc : Option (ℝ → ℝ)
  obl : Option (ℝ → ℝ)
  u : List (ℝ → ℝ)
  period : Option ℝ
  amplitude : ℝ → ℝ
  phase : ℝ
  radius : ℝ

/-- the surface at the parameter `s` -/
def OrientedFamily.eval (m : OrientedFamily) (s : ℝ) : Surface :=
  ⟨⟨m.y.map fun e => (e.1, e.2 s)⟩, m.inc.map (· s), m.obl.map (· s), m.u.map (· s), m.period, m.amplitude s, m.phase, m.radius⟩

/-- all parameters are differentiable -/
structure OrientedFamily.Smooth (m : OrientedFamily) (t : ℝ) : Prop where
  y : ∀ e ∈ m.y, DifferentiableAt ℝ e.2 t
  inc : ∀ f ∈ m.inc, DifferentiableAt ℝ f t
  obl : ∀ f ∈ m.obl, DifferentiableAt ℝ f t
  u : ∀ f ∈ m.u, DifferentiableAt ℝ f t
  amplitude : DifferentiableAt ℝ m.amplitude t

/-- the light curve with its derivative at the parameter `t`, by automatic differentiation -/
noncomputable def OrientedFamily.lightCurveD (m : OrientedFamily) (t eps : ℝ) (strict : Bool) (quad : ℕ → List (ℝ × ℝ)) (asEuler : V3 → V3)
    (asEulerD : Dual × Dual × Dual → Dual × Dual × Dual) (order : ℕ) (r : Option Dual) (x y z : Dual) (theta : Option Dual) : Except PyErr Dual :=
  surfaceLightCurveI eps strict quad asEuler asEulerD order (m.y.map fun e => (e.1, LimbDark.input t e.2)) (m.inc.map (LimbDark.input t)) (m.obl.map (LimbDark.input t))
    (m.u.map (LimbDark.input t)) (LimbDark.input t m.amplitude) r x y z theta

variable {t : ℝ}

theorem OrientedFamily.Smooth.base {m : OrientedFamily} (h : m.Smooth t) :
    TrSurf0 (Tk t) m.eval (m.y.map fun e => (e.1, LimbDark.input t e.2)) (m.u.map (LimbDark.input t)) (LimbDark.input t m.amplitude) := by
  have := (SurfaceFamily.Smooth.tracks (m := ⟨m.y, none, none, m.u, m.period, m.amplitude, m.phase, m.radius⟩) (t := t) ⟨h.y, h.u, h.amplitude⟩).base
  exact ⟨this.y, this.u, this.amplitude⟩

/-- C101: the derivatives of the light curve of an occulted surface with respect to all parameters, including the inclination and the obliquity -/
theorem orientation_gradient_is_derivative {eps : ℝ} (he : 0 < eps) (he1 : 10 * eps ≤ 1) (strict : Bool) (quad : ℕ → List (ℝ × ℝ)) {asEuler : V3 → V3}
    {asEulerD : Dual × Dual × Dual → Dual × Dual × Dual} (hE : IsEulerZYZ asEuler) (hD : DifferentiatesEuler asEuler asEulerD)
    (order : ℕ) (m : OrientedFamily) (hm : m.Smooth t) (hmap : ValidMap (m.eval t).y) (htot : totalFlux (m.eval t).u ≠ 0)
    (hpole : (m.eval t).ydeg ≠ 0 → ∀ inc ∈ (m.eval t).inc, Real.sin inc ≠ 0)
    (r x y z : ℝ → ℝ) (theta : Option (ℝ → ℝ)) (hr : DifferentiableAt ℝ r t) (hx : DifferentiableAt ℝ x t) (hy : DifferentiableAt ℝ y t)
    (hz : DifferentiableAt ℝ z t) (hth : ∀ f ∈ theta, DifferentiableAt ℝ f t) (hxy : ¬ (x t = 0 ∧ y t = 0))
    (hreg : 1 + r t < √(x t ^ 2 + y t ^ 2) ∨ z t < 0 ∨ (0 < z t ∧ √(x t ^ 2 + y t ^ 2) < 1 + r t ∧
      ((m.eval t).ydeg ≠ 0 → RegularPoint eps (quad order) √(x t ^ 2 + y t ^ 2) (r t)) ∧
      ((m.eval t).ydeg = 0 → LimbDark.Regular eps (quad order) √(x t ^ 2 + y t ^ 2) (r t)))) :
    ∃ (a : Dual) (f : ℝ → ℝ), m.lightCurveD t eps strict quad asEuler asEulerD order (some (LimbDark.input t r)) (LimbDark.input t x) (LimbDark.input t y)
        (LimbDark.input t z) (theta.map (LimbDark.input t)) = .ok a ∧
      (∀ s, surfaceLightCurve eps quad asEuler order (m.eval s) (some (r s)) (some (x s)) (some (y s)) (some (z s)) (theta.map (· s)) = .ok (f s)) ∧
      a.v = f t ∧ ∃ d, a.d = some d ∧ HasDerivAt f d t := by
  obtain ⟨a, f, h1, h2, h3⟩ := surface_gradient_core he he1 strict quad hE order hm.base hmap htot (LimbDark.track_input hr) (LimbDark.track_input hx) (LimbDark.track_input hy)
    (LimbDark.track_input hz) (theta := fun s => theta.map (· s))
    (fun hc hs => trE_rotatedYI hD strict hm.base (track_option hm.inc) (track_option hm.obl) (fun _ => rfl) (fun _ => rfl)
      (fun h f hf => hpole h _ (Option.mem_map_of_mem _ hf)) (track_option hth) hc hs) hxy hreg
  exact ⟨a, f, h1, h2, h3.1.symm, h3.2⟩

/-- C101: so are those of a rotating surface without an occultor -/
theorem orientation_gradient_rotation (eps : ℝ) (strict : Bool) (quad : ℕ → List (ℝ × ℝ)) {asEuler : V3 → V3} {asEulerD : Dual × Dual × Dual → Dual × Dual × Dual}
    (hE : IsEulerZYZ asEuler) (hD : DifferentiatesEuler asEuler asEulerD) (order : ℕ) (m : OrientedFamily) (hm : m.Smooth t) (hmap : ValidMap (m.eval t).y)
    (htot : totalFlux (m.eval t).u ≠ 0) (hpole : (m.eval t).ydeg ≠ 0 → ∀ inc ∈ (m.eval t).inc, Real.sin inc ≠ 0)
    (theta : Option (ℝ → ℝ)) (hth : ∀ f ∈ theta, DifferentiableAt ℝ f t) (x y z : Dual) :
    ∃ (a : Dual) (f : ℝ → ℝ), m.lightCurveD t eps strict quad asEuler asEulerD order none x y z (theta.map (LimbDark.input t)) = .ok a ∧
      (∀ s, surfaceLightCurve eps quad asEuler order (m.eval s) none none none none (theta.map (· s)) = .ok (f s)) ∧
      a.v = f t ∧ ∃ d, a.d = some d ∧ HasDerivAt f d t := by
  obtain ⟨a, f, h1, h2, h3⟩ := surface_rotation_core eps strict quad hE order hm.base hmap htot (theta := fun s => theta.map (· s))
    (fun hc hs => trE_rotatedYI hD strict hm.base (track_option hm.inc) (track_option hm.obl) (fun _ => rfl) (fun _ => rfl)
      (fun h f hf => hpole h _ (Option.mem_map_of_mem _ hf)) (track_option hth) hc hs) x y z
  exact ⟨a, f, h1, h2, h3.1.symm, h3.2⟩

/-- C101: the derivatives are finite in both modes, also where the light curve has a kink, unless the occultor is exactly centred or the star is seen exactly
along its rotation axis -/
theorem orientation_gradient_finite {eps : ℝ} (he : 0 < eps) (strict : Bool) (quad : ℕ → List (ℝ × ℝ)) {asEuler : V3 → V3} {asEulerD : Dual × Dual × Dual → Dual × Dual × Dual}
    (hE : IsEulerZYZ asEuler) (hD : DifferentiatesEuler asEuler asEulerD) (order : ℕ) (yD : DictD (ℕ × ℤ)) (inc obl : Option Dual) (u : List Dual) (amplitude : Dual)
    (period : Option ℝ) (phase radius : ℝ) (r theta : Option Dual) (x y z : Dual)
    (hmap : ValidMap ⟨yD.map fun e => (e.1, e.2.v)⟩) (htot : totalFlux (u.map (·.v)) ≠ 0)
    (hpole : ylmDeg yD ≠ 0 → ∀ a ∈ inc, Real.sin a.v ≠ 0)
    (hy : ∀ e ∈ yD, ∃ d, e.2.d = some d) (hi : ∀ a ∈ inc, ∃ d, a.d = some d) (ho : ∀ a ∈ obl, ∃ d, a.d = some d) (hu : ∀ a ∈ u, ∃ d, a.d = some d) (ha : ∃ d, amplitude.d = some d)
    (hr : ∀ a ∈ r, ∃ d, a.d = some d) (hth : ∀ a ∈ theta, ∃ d, a.d = some d) (hx : ∃ d, x.d = some d) (hy' : ∃ d, y.d = some d)
    (hxy : r = none ∨ ¬ (x.v = 0 ∧ y.v = 0)) :
    ∃ a, surfaceLightCurveI eps strict quad asEuler asEulerD order yD inc obl u amplitude r x y z theta = .ok a ∧ (∃ d, a.d = some d) ∧
      surfaceLightCurve eps quad asEuler order ⟨⟨yD.map fun e => (e.1, e.2.v)⟩, inc.map (·.v), obl.map (·.v), u.map (·.v), period, amplitude.v, phase, radius⟩
        (r.map (·.v)) (some x.v) (some y.v) (some z.v) (theta.map (·.v)) = .ok a.v := by
  obtain ⟨S, hS, hS0⟩ := tracks_of_finite ⟨yD, none, none, u, amplitude⟩ hy hu ha period phase radius
  obtain ⟨fi, hi', hi0⟩ := finite_option hi
  obtain ⟨fo, ho', ho0⟩ := finite_option ho
  obtain ⟨th, hth', hth0⟩ := finite_option hth
  have hS' : TrSurf0 (Tk 0) (fun s => { S s with inc := fi.map (· s), obl := fo.map (· s) }) yD u amplitude := ⟨hS.y, hS.u, hS.amplitude⟩
  have e0 : ({ S 0 with inc := fi.map (· 0), obl := fo.map (· 0) } : Surface) =
      ⟨⟨yD.map fun e => (e.1, e.2.v)⟩, inc.map (·.v), obl.map (·.v), u.map (·.v), period, amplitude.v, phase, radius⟩ := by
    rw [hS0, hi0, ho0]
    rfl
  have hp : ∀ s, (S s).ydeg = ylmDeg yD := hS.ydeg
  have := surface_finite_core he strict quad hE order hS' (by rw [e0]; exact hmap) (by rw [e0]; exact htot) (theta := fun s => th.map (· s))
    (fun hc hs => trE_rotatedYI hD strict hS' hi' ho' (fun _ => rfl) (fun _ => rfl) (fun h f hf => by
      have hne : ylmDeg yD ≠ 0 := by rw [← hp 0]; exact h
      cases hi' with
      | none => cases hf
      | @some f' a' h' =>
        obtain rfl := Option.some.inj hf
        have hv := h'.1
        rw [hv]
        exact hpole hne a' rfl) hth' hc hs) r x y z hr hx hy' hxy
  beta_reduce at this
  rw [e0, hth0] at this
  exact this

/-! ### Values -/

theorem skyProjectionD_v (strict : Bool) (inc obl : Option Dual) :
    let a := skyProjectionD strict inc obl
    (a.1.map (·.v), a.2.1.map (·.v), a.2.2.1.map (·.v), a.2.2.2.map (·.v)) = skyProjection (inc.map (·.v)) (obl.map (·.v)) := by
  cases inc with
  | none => cases obl <;> rfl
  | some i =>
    cases obl with
    | none => rfl
    | some o =>
      unfold skyProjectionD skyProjection
      simp only [Option.map_some, where_v, div_v, mul_v, sub_v, neg_v, const_v, cos_v, sin_v, sqrt_v, square_v]
      rfl

theorem eulerD_v {asEuler : V3 → V3} {asEulerD : Dual × Dual × Dual → Dual × Dual × Dual} (hD : DifferentiatesEuler asEuler asEulerD) (strict : Bool) (x y z theta : Dual) :
    ((eulerD strict asEulerD x y z theta).1.v, (eulerD strict asEulerD x y z theta).2.1.v, (eulerD strict asEulerD x y z theta).2.2.v) = euler asEuler x.v y.v z.v theta.v := by
  unfold eulerD euler
  simp only [where_v, const_v]
  have := hD.value ((Dual.where strict (theta.v = 0) (const 1) x) / ((Dual.where strict (theta.v = 0) (const 1) x).square + y.square + z.square).sqrt * Dual.where strict (theta.v = 0) (const 1) theta,
    y / ((Dual.where strict (theta.v = 0) (const 1) x).square + y.square + z.square).sqrt * Dual.where strict (theta.v = 0) (const 1) theta,
    z / ((Dual.where strict (theta.v = 0) (const 1) x).square + y.square + z.square).sqrt * Dual.where strict (theta.v = 0) (const 1) theta)
  simp only [where_v, div_v, mul_v, add_v, square_v, sqrt_v, const_v] at this
  by_cases h0 : theta.v = 0
  · simp only [h0, if_true]
  · simp only [h0, if_false] at this ⊢
    exact this

theorem trE_rotatedYI_v {asEuler : V3 → V3} {asEulerD : Dual × Dual × Dual → Dual × Dual × Dual} (hD : DifferentiatesEuler asEuler asEulerD) (strict : Bool)
    {S : Surface} {yD : DictD (ℕ × ℤ)} {uD : List Dual} {aD : Dual} (hS : TrSurf0 (Val 0) (fun _ => S) yD uD aD) (inc obl : Option Dual) (hi : S.inc = inc.map (·.v)) (ho : S.obl = obl.map (·.v))
    (theta : Option Dual) (tz : Dual) :
    TrE (TrL (Val 0)) (fun _ => rotatedY asEuler S (theta.map (·.v)) tz.v) (rotatedYI strict asEuler asEulerD yD inc obl theta tz) := by
  have hyd : S.ydeg = ylmDeg yD := hS.ydeg 0
  have hsky : ∀ (x y z th : Option Dual) {F : ℝ → List ℝ} {L : List Dual}, TrL (Val 0) F L →
      TrE (TrL (Val 0)) (fun s => dotRotationMatrix asEuler (ylmDeg yD) (x.map (·.v)) (y.map (·.v)) (z.map (·.v)) (th.map (·.v)) (F s))
        (dotRotationMatrixI strict asEulerD (ylmDeg yD) x y z th L) := by
    intro x y z th F L h
    unfold dotRotationMatrix dotRotationMatrixI
    cases th with
    | none => exact TrE.pure h
    | some th =>
      simp only [Option.map_some, Option.map_eq_none_iff, Option.isNone_iff_eq_none]
      split_ifs
      · exact TrE.error _
      · exact TrE.pure (trL_dotRz _ (by simp only [Val]; simp) (by simp only [Val]; simp) h)
      · have e := eulerD_v hD strict (x.getD (const 0)) (y.getD (const 0)) (z.getD (const 0)) th
        have g : ∀ x : Option Dual, (x.map (·.v)).getD 0 = (x.getD (const 0)).v := by
          intro x; cases x <;> rfl
        rw [g, g, g, ← e]
        exact TrE.pure (trL_blocksI _ (fun i => trM_rotMatrices (R := Val 0) (ylmDeg yD) (fa := fun _ => _) (fb := fun _ => _) (fc := fun _ => _) rfl rfl rfl i) h)
  unfold rotatedY rotatedYI
  rw [hyd, hi, ho]
  by_cases h0 : ylmDeg yD = 0
  · simp only [h0, if_true]
    have := hS.todense
    exact TrE.pure this
  · simp only [h0, if_false]
    unfold leftProject leftProjectI
    refine TrE.bind (trE_dotRotation asEuler (ylmDeg yD) (some 1) none none (some (-0.5 * π)) hS.todense) fun F1 L1 h1 => ?_
    have e := skyProjectionD_v strict inc obl
    simp only at e
    have tail : ∀ {G : ℝ → List ℝ} {M : List Dual}, TrL (Val 0) G M → TrE (TrL (Val 0))
        (fun s => (dotRotationMatrix asEuler (ylmDeg yD) (skyProjection (inc.map (·.v)) (obl.map (·.v))).1 (skyProjection (inc.map (·.v)) (obl.map (·.v))).2.1
          (skyProjection (inc.map (·.v)) (obl.map (·.v))).2.2.1 (skyProjection (inc.map (·.v)) (obl.map (·.v))).2.2.2 (G s)) >>= fun y =>
          dotRotationMatrix asEuler (ylmDeg yD) none none (some 1) (Option.map (- ·) (some tz.v)) y)
        ((dotRotationMatrixI strict asEulerD (ylmDeg yD) (skyProjectionD strict inc obl).1 (skyProjectionD strict inc obl).2.1 (skyProjectionD strict inc obl).2.2.1
          (skyProjectionD strict inc obl).2.2.2 M) >>= fun y => .ok (dotRzD (ylmDeg yD) (-tz) y)) := by
      intro G M hG
      rw [← e]
      exact TrE.bind (hsky _ _ _ _ hG) fun F2 L2 h2 => TrE.pure (trL_dotRz (f := fun _ => -tz.v) _ (by simp only [Val]; simp) (by simp only [Val]; simp) h2)
    cases theta with
    | none => exact tail h1
    | some th => exact tail (trL_dotRz (f := fun _ => -th.v) _ (by simp only [Val]; simp) (by simp only [Val]; simp) h1)

/-- C101: automatic differentiation does not change the value, for any orientation -/
theorem orientation_gradient_value (eps : ℝ) (strict : Bool) (quad : ℕ → List (ℝ × ℝ)) {asEuler : V3 → V3} {asEulerD : Dual × Dual × Dual → Dual × Dual × Dual}
    (hE : IsEulerZYZ asEuler) (hD : DifferentiatesEuler asEuler asEulerD) (order : ℕ) (yD : DictD (ℕ × ℤ)) (inc obl : Option Dual) (u : List Dual) (amplitude : Dual)
    (period : Option ℝ) (phase radius : ℝ) (r theta : Option Dual) (x y z : Dual)
    (hmap : ValidMap ⟨yD.map fun e => (e.1, e.2.v)⟩) (htot : totalFlux (u.map (·.v)) ≠ 0) :
    ∃ a, surfaceLightCurveI eps strict quad asEuler asEulerD order yD inc obl u amplitude r x y z theta = .ok a ∧
      surfaceLightCurve eps quad asEuler order ⟨⟨yD.map fun e => (e.1, e.2.v)⟩, inc.map (·.v), obl.map (·.v), u.map (·.v), period, amplitude.v, phase, radius⟩
        (r.map (·.v)) (some x.v) (some y.v) (some z.v) (theta.map (·.v)) = .ok a.v := by
  have hS : TrSurf0 (Val 0) (fun _ => (⟨⟨yD.map fun e => (e.1, e.2.v)⟩, inc.map (·.v), obl.map (·.v), u.map (·.v), period, amplitude.v, phase, radius⟩ : Surface)) yD u amplitude :=
    ⟨trD_values yD, trL_values u, rfl⟩
  exact surface_value_core eps strict quad hE order hS hmap htot rfl (fun tz => trE_rotatedYI_v hD strict hS inc obl rfl rfl theta tz) r x y z

/-! ### Finding F45: a star that is seen along its rotation axis -/

/-- the family with its inclination held at zero -/
def OrientedFamily.held (m : OrientedFamily) : OrientedFamily := { m with inc := some fun _ => 0 }

/-- C101, finding F45: at the inclination zero (without obliquity) the derivatives are finite, but they are those of the light curve whose inclination is held fixed -/
theorem orientation_gradient_pole (eps : ℝ) (strict : Bool) (quad : ℕ → List (ℝ × ℝ)) {asEuler : V3 → V3} {asEulerD : Dual × Dual × Dual → Dual × Dual × Dual}
    (hE : IsEulerZYZ asEuler) (hD : DifferentiatesEuler asEuler asEulerD) (order : ℕ) (m : OrientedFamily) (hm : m.Smooth t) (hmap : ValidMap (m.eval t).y)
    (htot : totalFlux (m.eval t).u ≠ 0) (hinc : (m.eval t).inc = some 0) (hobl : m.obl = none)
    (theta : Option (ℝ → ℝ)) (hth : ∀ f ∈ theta, DifferentiableAt ℝ f t) (x y z : Dual) :
    ∃ (a : Dual) (f : ℝ → ℝ), m.lightCurveD t eps strict quad asEuler asEulerD order none x y z (theta.map (LimbDark.input t)) = .ok a ∧
      (∀ s, surfaceLightCurve eps quad asEuler order (m.held.eval s) none none none none (theta.map (· s)) = .ok (f s)) ∧
      a.v = f t ∧ ∃ d, a.d = some d ∧ HasDerivAt f d t := by
  obtain ⟨g, hg, hg0⟩ : ∃ g, m.inc = some g ∧ g t = 0 := by
    have : m.inc.map (· t) = some 0 := hinc
    cases hm' : m.inc with
    | none => rw [hm'] at this; cases this
    | some g => rw [hm'] at this; exact ⟨g, rfl, Option.some.inj this⟩
  have hS : TrSurf0 (Tk t) m.held.eval (m.y.map fun e => (e.1, LimbDark.input t e.2)) (m.u.map (LimbDark.input t)) (LimbDark.input t m.amplitude) :=
    ⟨hm.base.y, hm.base.u, hm.base.amplitude⟩
  obtain ⟨a, f, h1, h2, h3⟩ := surface_rotation_core eps strict quad hE order hS hmap htot (theta := fun s => theta.map (· s))
    (fun hc hs => trE_rotatedY_pole hD strict hS (inc := LimbDark.input t g) ⟨_, rfl⟩ hg0 (fun _ => rfl) (fun s => by
      show m.obl.map (· s) = none
      rw [hobl]; rfl) (track_option hth) hc hs) x y z
  refine ⟨a, f, ?_, h2, h3.1.symm, h3.2⟩
  unfold OrientedFamily.lightCurveD surfaceLightCurveI
  rw [hg, hobl]
  exact h1

/-- a star with a bright spot on its equator, seen from above its pole, that is tilted towards the observer -/
noncomputable def tilted : OrientedFamily where
  y := [((0, 0), fun _ => 1), ((1, 0), fun _ => 1)]
  inc := some fun s => s
  obl := none
  u := []
  period := none
  amplitude := fun _ => 1
  phase := 0
  radius := 1

theorem tilted_ok (t : ℝ) : tilted.Smooth t ∧ ValidMap (tilted.eval t).y ∧ totalFlux (tilted.eval t).u ≠ 0 := by
  refine ⟨⟨?_, ?_, by simp [tilted], by simp [tilted], differentiableAt_const _⟩, ⟨by simp [Dict.WF, tilted, OrientedFamily.eval], by simp [tilted, OrientedFamily.eval], by simp [tilted, OrientedFamily.eval]⟩, dipole_ok.2.2⟩
  · intro e he
    simp only [tilted, List.mem_cons, List.not_mem_nil, or_false] at he
    rcases he with rfl | rfl <;> exact differentiableAt_const _
  · intro f hf
    obtain rfl := Option.some.inj hf
    exact differentiableAt_id

theorem tilted_map (s : ℝ) (p : V3) : mapAt (tilted.eval s).y p = 1 / (2 * √π) + √3 / (2 * √π) * p.2.2 := by
  have hd : (tilted.eval s).y.deg = 1 := by simp [tilted, OrientedFamily.eval, Ylm.deg]
  unfold mapAt
  rw [hd]
  simp only [Finset.sum_range_succ, Finset.sum_range_zero, zero_add, mul_zero, mul_one, Nat.cast_zero, Nat.cast_one, Nat.cast_ofNat]
  norm_num
  rw [realHarmonic_zero, (realHarmonic_one _ _ _).2.1]
  have c0 : coef (tilted.eval s).y 0 0 = 1 := rfl
  have c1 : coef (tilted.eval s).y 1 (-1) = 0 := rfl
  have c2 : coef (tilted.eval s).y 1 0 = 1 := rfl
  have c3 : coef (tilted.eval s).y 1 1 = 0 := rfl
  rw [c0, c1, c2, c3]
  ring

open MeasureTheory in
theorem tilted_flux (eps : ℝ) (quad : ℕ → List (ℝ × ℝ)) {asEuler : V3 → V3} (hE : IsEulerZYZ asEuler) (order : ℕ) (s : ℝ) :
    surfaceLightCurve eps quad asEuler order (tilted.eval s) none none none none none = .ok (1 + 2 * √3 / 3 * Real.sin s) := by
  rw [surface_light_curve_rotation eps quad hE order _ (tilted_ok s).2.1 (tilted_ok s).2.2]
  have hpi : totalFlux [] = π := by
    have := LimbDark.whole_star 0
    simpa [totalFlux, profile, LimbDark.gtil] using this
  have hu : (tilted.eval s).u = [] := rfl
  have hi : (tilted.eval s).inc.getD 0 = s := rfl
  have ho : usedObl (tilted.eval s).inc (tilted.eval s).obl = 0 := by simp [usedObl, tilted, OrientedFamily.eval]
  have ha : (tilted.eval s).amplitude = 1 := rfl
  unfold fluxOf relativeFlux
  rw [hu, hi, ho, ha, hpi]
  have hsp : √π ≠ 0 := (Real.sqrt_pos.2 Real.pi_pos).ne'
  have hint : ∀ p : ℝ × ℝ, skyIntensity (tilted.eval s).y [] s 0 0 p = (1 - √3 * Real.cos s * (p.1 ^ 0 * p.2 ^ 1 * mu p ^ 0)) + √3 * Real.sin s * (p.1 ^ 0 * p.2 ^ 0 * mu p ^ 1) := by
    intro p
    unfold skyIntensity
    rw [tilted_map]
    simp only [observerView, rotX, rotZ, neg_zero, Real.cos_zero, Real.sin_zero, Real.cos_neg, Real.sin_neg, Real.cos_pi_div_two, Real.sin_pi_div_two, profile]
    simp
    field_simp
    ring
  have i1 := disc_mono 0 1 0 (by norm_num)
  have i2 : ∫ p in stellarDisc, p.1 ^ 0 * p.2 ^ 0 * mu p ^ 1 = 2 * π / 3 := by
    have := LimbDark.whole_star 1
    simpa [LimbDark.gtil] using this
  have i0 : ∫ _ in stellarDisc, (1 : ℝ) = π := by
    have := LimbDark.whole_star 0
    simpa [LimbDark.gtil] using this
  rw [show discClosed 0 1 0 = 0 by simp [discClosed]] at i1
  have hmu : Continuous mu := Green.continuous_mu
  have c1 : IntegrableOn (fun p : ℝ × ℝ => √3 * Real.cos s * (p.1 ^ 0 * p.2 ^ 1 * mu p ^ 0)) stellarDisc := integrableOn_disc_cont (by fun_prop)
  have c2 : IntegrableOn (fun p : ℝ × ℝ => √3 * Real.sin s * (p.1 ^ 0 * p.2 ^ 0 * mu p ^ 1)) stellarDisc := integrableOn_disc_cont (by fun_prop)
  have c0 : IntegrableOn (fun _ : ℝ × ℝ => (1 : ℝ)) stellarDisc := integrableOn_disc_cont continuous_const
  rw [show (Option.none : Option ℝ).getD 0 = 0 from rfl]
  simp only [hint]
  have c01 : IntegrableOn (fun p : ℝ × ℝ => 1 - √3 * Real.cos s * (p.1 ^ 0 * p.2 ^ 1 * mu p ^ 0)) stellarDisc := c0.sub c1
  rw [integral_add c01 c2, integral_sub c0 c1, integral_const_mul, integral_const_mul, i1, i2, i0]
  congr 1
  have := Real.pi_pos
  field_simp
  ring

/-- C101, finding F45: for this star, tilted from its pole-on position, the derivative is the wrong number zero -/
theorem orientation_gradient_wrong_at_pole (eps : ℝ) (strict : Bool) (quad : ℕ → List (ℝ × ℝ)) {asEuler : V3 → V3} {asEulerD : Dual × Dual × Dual → Dual × Dual × Dual}
    (hE : IsEulerZYZ asEuler) (hD : DifferentiatesEuler asEuler asEulerD) (order : ℕ) (x y z : Dual) :
    ∃ (a : Dual) (f : ℝ → ℝ), tilted.lightCurveD 0 eps strict quad asEuler asEulerD order none x y z none = .ok a ∧ a.d = some 0 ∧
      (∀ s, surfaceLightCurve eps quad asEuler order (tilted.eval s) none none none none none = .ok (f s)) ∧ HasDerivAt f (2 * √3 / 3) 0 := by
  obtain ⟨h1, h2, h3⟩ := tilted_ok 0
  obtain ⟨a, f, k1, k2, -, d, k4, k5⟩ := orientation_gradient_pole eps strict quad hE hD order tilted h1 h2 h3 rfl rfl none (by simp) x y z
  refine ⟨a, fun s => 1 + 2 * √3 / 3 * Real.sin s, k1, ?_, fun s => tilted_flux eps quad hE order s, ?_⟩
  · have hc : ∀ s, f s = 1 := by
      intro s
      have e1 := k2 s
      have e2 : tilted.held.eval s = tilted.eval 0 := by simp [OrientedFamily.eval, OrientedFamily.held, tilted]
      have e3 := tilted_flux eps quad hE order 0
      rw [e2, Option.map_none, e3] at e1
      have := Except.ok.inj e1
      rw [← this]
      simp
    have : f = fun _ => 1 := funext hc
    rw [this] at k5
    rw [k4, k5.unique (hasDerivAt_const 0 1)]
  · have := ((Real.hasDerivAt_sin 0).const_mul (2 * √3 / 3)).const_add 1
    simpa using this

/-! ### The hypotheses are met -/

/-- Euler angles with derivatives exist -/
example : ∃ (asEuler : V3 → V3) (asEulerD : Dual × Dual × Dual → Dual × Dual × Dual), IsEulerZYZ asEuler ∧ DifferentiatesEuler asEuler asEulerD :=
  ⟨eulerOf, eulerOfD, eulerOf_isEuler, eulerOf_differentiates⟩

/-- `orientation_gradient_rotation`: the tilted star at any other inclination; the derivative is that of its light curve -/
example (eps : ℝ) (strict : Bool) (quad : ℕ → List (ℝ × ℝ)) (x : Dual) : ∃ (a : Dual),
    tilted.lightCurveD 1 eps strict quad eulerOf eulerOfD 20 none x x x none = .ok a ∧ a.d = some (2 * √3 / 3 * Real.cos 1) := by
  obtain ⟨h1, h2, h3⟩ := tilted_ok 1
  obtain ⟨a, f, k1, k2, -, d, k4, k5⟩ := orientation_gradient_rotation (t := 1) eps strict quad eulerOf_isEuler eulerOf_differentiates 20 tilted h1 h2 h3
    (fun _ i hi => by
      obtain rfl : (1 : ℝ) = i := Option.some.inj hi
      exact (Real.sin_pos_of_pos_of_lt_pi one_pos (by linarith [Real.pi_gt_three])).ne') none (by simp) x x x
  refine ⟨a, k1, ?_⟩
  have hf : f = fun s => 1 + 2 * √3 / 3 * Real.sin s := funext fun s => by
    have := k2 s
    rw [Option.map_none, tilted_flux eps quad eulerOf_isEuler] at this
    exact (Except.ok.inj this).symm
  rw [hf] at k5
  rw [k4, k5.unique (((Real.hasDerivAt_sin 1).const_mul (2 * √3 / 3)).const_add 1)]

/-- a star with an inclination and an obliquity that both depend on the parameter -/
noncomputable def precessing : OrientedFamily where
  y := [((0, 0), fun _ => 1), ((1, 0), fun s => s)]
  inc := some fun s => s
  obl := some fun s => 2 * s
  u := []
  period := none
  amplitude := fun _ => 1
  phase := 0
  radius := 1

theorem precessing_ok (t : ℝ) : precessing.Smooth t ∧ ValidMap (precessing.eval t).y ∧ totalFlux (precessing.eval t).u ≠ 0 ∧ (precessing.eval t).ydeg = 1 := by
  refine ⟨⟨?_, ?_, ?_, by simp [precessing], differentiableAt_const _⟩, ⟨by simp [Dict.WF, precessing, OrientedFamily.eval], by simp [precessing, OrientedFamily.eval],
    by simp [precessing, OrientedFamily.eval]⟩, dipole_ok.2.2, by simp [Surface.ydeg, Ylm.deg, precessing, OrientedFamily.eval]⟩
  · intro e he
    simp only [precessing, List.mem_cons, List.not_mem_nil, or_false] at he
    rcases he with rfl | rfl
    · exact differentiableAt_const _
    · exact differentiableAt_id
  · intro f hf
    obtain rfl := Option.some.inj hf
    exact differentiableAt_id
  · intro f hf
    obtain rfl := Option.some.inj hf
    exact differentiableAt_id.const_mul 2

/-- `orientation_gradient_is_derivative`: a planet of radius 1/2 that crosses the limb of the precessing star -/
example : ∃ (a : Dual) (f : ℝ → ℝ),
    precessing.lightCurveD 1 (2 ^ (-52 : ℤ)) true (fun _ => [(0, 2)]) eulerOf eulerOfD 20 (some (LimbDark.input 1 fun _ => 1 / 2)) (LimbDark.input 1 fun s => s)
      (LimbDark.input 1 fun _ => 0) (LimbDark.input 1 fun _ => 1) none = .ok a ∧
    (∀ s, surfaceLightCurve (2 ^ (-52 : ℤ)) (fun _ => [(0, 2)]) eulerOf 20 (precessing.eval s) (some (1 / 2)) (some s) (some 0) (some 1) none = .ok (f s)) ∧
    a.v = f 1 ∧ ∃ d, a.d = some d ∧ HasDerivAt f d 1 := by
  obtain ⟨h1, h2, h3, h4⟩ := precessing_ok 1
  have hb : √((1 : ℝ) ^ 2 + 0 ^ 2) = 1 := by norm_num
  exact orientation_gradient_is_derivative (t := 1) (by positivity) (by norm_num) true (fun _ => [(0, 2)]) eulerOf_isEuler eulerOf_differentiates 20 precessing h1 h2 h3
    (fun _ i hi => by
      obtain rfl : (1 : ℝ) = i := Option.some.inj hi
      exact (Real.sin_pos_of_pos_of_lt_pi one_pos (by linarith [Real.pi_gt_three])).ne')
    (fun _ => 1 / 2) (fun s => s) (fun _ => 0) (fun _ => 1) none (differentiableAt_const _) differentiableAt_id (differentiableAt_const _) (differentiableAt_const _)
    (by simp) (by simp)
    (Or.inr (Or.inr ⟨one_pos, by rw [hb]; norm_num, fun _ => by rw [hb]; exact regularPoint_limb, fun h => by rw [h4] at h; cases h⟩))

/-- `orientation_gradient_finite` and `orientation_gradient_value`: a transit of a dipole, differentiated in the direction of the inclination, with any quadrature rule -/
example (quad : ℕ → List (ℝ × ℝ)) : ∃ a,
    surfaceLightCurveI (2 ^ (-52 : ℤ)) true quad eulerOf eulerOfD 20 [((0, 0), const 1), ((1, 0), const 1)] (some ⟨1, some 1⟩) (some ⟨0.3, some 0⟩) [] (const 1)
      (some ⟨1 / 10, some 0⟩) ⟨0.3, some 0⟩ ⟨0.4, some 0⟩ ⟨1, some 0⟩ none = .ok a ∧ ∃ d, a.d = some d := by
  obtain ⟨a, ha, hd, -⟩ := orientation_gradient_finite (eps := 2 ^ (-52 : ℤ)) (by positivity) true quad eulerOf_isEuler eulerOf_differentiates 20 [((0, 0), const 1), ((1, 0), const 1)]
    (some ⟨1, some 1⟩) (some ⟨0.3, some 0⟩) [] (const 1) none 0 1 (some ⟨1 / 10, some 0⟩) none ⟨0.3, some 0⟩ ⟨0.4, some 0⟩ ⟨1, some 0⟩ (tilted_ok 0).2.1 (tilted_ok 0).2.2
    (fun _ a ha => by
      obtain rfl := Option.some.inj ha
      exact (Real.sin_pos_of_pos_of_lt_pi one_pos (by linarith [Real.pi_gt_three])).ne')
    (by simp [const]) (by simp) (by simp) (by simp) ⟨_, rfl⟩ (by simp) (by simp) ⟨_, rfl⟩ ⟨_, rfl⟩ (Or.inr (by norm_num))
  exact ⟨a, ha, hd⟩

end Jaxoplanet.Starry
