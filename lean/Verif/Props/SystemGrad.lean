import Verif.Model.SystemGrad
import Verif.Props.InclGrad
import Verif.Props.KeplerGrad
import Verif.Props.SurfaceSystem

/-!
# C102: the derivatives of the light curve of a system of surfaces
-/

namespace Jaxoplanet.Starry
open _root_.Jaxoplanet.Starry.Spec _root_.Jaxoplanet.Spec Keplerian
open Real AD AD.Dual Filter Topology

variable {R : (ℝ → ℝ) → Dual → Prop}

theorem rel_sum_range [hR : Closed R] (n : ℕ) {f : ℕ → ℝ → ℝ} {fD : ℕ → Dual} (h : ∀ i < n, R (f i) (fD i)) :
    R (fun s => ((List.range n).map fun i => f i s).sum) (Dual.sum ((List.range n).map fD)) := by
  have key : ∀ l : List ℕ, (∀ i ∈ l, R (f i) (fD i)) → R (fun s => (l.map fun i => f i s).sum) (Dual.sum (l.map fD)) := by
    intro l
    induction l with
    | nil => intro _; exact hR.const 0
    | cons a l ih =>
      intro h
      exact hR.add (h a (by simp)) (ih fun i hi => h i (by simp [hi]))
  exact key _ fun i hi => h i (List.mem_range.1 hi)

theorem mapM_range {α β : Type} {ε : Type} {l : List α} {f : α → Except ε β} {v : ℕ → β} (h : ∀ i (hi : i < l.length), f l[i] = .ok (v i)) :
    l.mapM f = .ok ((List.range l.length).map v) := by
  rw [Stack.mapM_ok_iff, List.forall₂_iff_get]
  refine ⟨by simp, fun i h1 h2 => ?_⟩
  simpa using h i h1

/-- the rows of a system and the rows on numbers with derivatives -/
theorem system_rows_core [hR : Closed R] {obs0 obs : SurfaceObservable} {obs0D obsD : SurfaceObservableD} {kep : ℝ → ℝ → ℝ × ℝ} {au : ℝ} {S : ℝ → SurfaceSystem} {n : ℕ}
    (hn : ∀ s, (S s).bodies.length = n) (hn' : ∀ s, (S s).body_surfaces.length = n) {time : ℝ → ℝ} {cs : ℝ → Surface} (hcs : ∀ s, (S s).central_surface = some (cs s))
    {rad : ℕ → ℝ → ℝ} (hrad : ∀ s i (h : i < (S s).bodies.length), (S s).bodies[i].radius = some (rad i s))
    {pos : ℕ → ℝ → Keplerian.V3} (hpos : ∀ s i (h : i < (S s).bodies.length), (S s).bodies[i].relative_position kep au (time s) = pos i s)
    {Rs : ℝ → ℝ} (hRs : ∀ s, (S s).central.radius = Rs s)
    {phase : ℝ → ℝ} (hphase : ∀ s, obs0 (cs s) none none none none ((cs s).rotationalPhase (time s)) = .ok (phase s))
    {f : ℕ → ℝ → ℝ} (hf : ∀ s, ∀ i < n, obs (cs s) (some (rad i s / Rs s)) (some ((pos i s).x / Rs s)) (some ((pos i s).y / Rs s))
      (some ((pos i s).z / Rs s)) ((cs s).rotationalPhase (time s)) = .ok (f i s))
    {g : ℕ → ℝ → ℝ} (hg0 : ∀ s i (h : i < (S s).body_surfaces.length), (S s).body_surfaces[i] = none → g i s = 0)
    (hg1 : ∀ s i (h : i < (S s).body_surfaces.length) su, (S s).body_surfaces[i] = some su →
      obs su (some (Rs s / rad i s)) (some (-(pos i s).x / rad i s)) (some (-(pos i s).y / rad i s)) (some (-(pos i s).z / rad i s)) (su.rotationalPhase (time s)) =
        .ok (g i s))
    {RD : Dual} {csD : SurfaceI} {bs : List SurfaceBodyD} (hbs : bs.length = n) {timeD : Dual} {phaseD : Dual} {fD gD : ℕ → Dual}
    (hphD : obs0D csD none (const 0) (const 0) (const 0) (csD.rotationalPhase timeD) = .ok phaseD)
    (hfD : ∀ i (h : i < bs.length), centralRowD obsD kep au RD csD (csD.rotationalPhase timeD) timeD bs[i] = .ok (fD i))
    (hgD : ∀ i (h : i < bs.length), bodyRowD obsD kep au RD timeD bs[i] = .ok (gD i))
    (rph : R phase phaseD) (rf : ∀ i < n, R (f i) (fD i)) (rg : ∀ i < n, R (g i) (gD i)) :
    ∃ (rows : ℝ → List ℝ) (a : List Dual), (∀ s, systemObservable obs0 obs kep au (S s) (time s) = .ok (some (rows s))) ∧
      systemObservableD obs0D obsD kep au RD csD bs timeD = .ok a ∧ a.length = n + 1 ∧ (∀ s, (rows s).length = n + 1) ∧
      ∀ i (h : i < a.length), R (fun s => (rows s).getD i 0) a[i] := by
  have hv : ∀ s, systemObservable obs0 obs kep au (S s) (time s) =
      .ok (some ((phase s + ∑ i ∈ Finset.range n, (f i s - phase s)) :: (List.range n).map fun i => g i s)) := by
    intro s
    have := system_observable_rows obs0 obs kep au (S s) (time s) ((hn s).trans (hn' s).symm) (hcs s) (rad := fun i => rad i s) (hrad s) (pos := fun i => pos i s) (hpos s)
      (hRs s) (hphase s) (f := fun i => f i s) (by rw [hn s]; exact hf s) (g := fun i => g i s) (hg0 s) (hg1 s)
    rwa [hn s] at this
  refine ⟨_, ((if n = 0 then phaseD else if n > 1 then Dual.sum ((List.range n).map fD) - phaseD * const ((n : ℝ) - 1) else fD 0) :: (List.range n).map gD),
    hv, ?_, by simp, by simp, ?_⟩
  · unfold systemObservableD
    simp only [hphD, Bind.bind, Except.bind, mapM_range hfD, mapM_range hgD, hbs, pure, Except.pure]
    by_cases h0 : n = 0
    · subst h0; simp
    · by_cases h1 : n > 1
      · simp [h0, h1, Nat.pos_of_ne_zero h0]
      · obtain rfl : n = 1 := by omega
        simp
  · intro i hi
    cases i with
    | succ i =>
      have hi' : i < n := by simpa using hi
      simpa [hi'] using rg i hi'
    | zero =>
      simp only [List.getElem_cons_zero, List.getD_cons_zero]
      by_cases h0 : n = 0
      · subst h0; simpa using rph
      · rw [if_neg h0]
        by_cases h1 : n > 1
        · rw [if_pos h1]
          have := hR.sub (rel_sum_range n rf) (hR.mul rph (hR.const ((n : ℝ) - 1)))
          convert this using 2 with s
          rw [sum_range_map_getD, Finset.sum_sub_distrib, Finset.sum_const, Finset.card_range, nsmul_eq_mul]
          ring
        · obtain rfl : n = 1 := by omega
          simpa using rf 0 (by norm_num)

/-! ### Families of systems -/

/-- a rotating surface that depends on a parameter -/
structure RotatingFamily where
  y : List ((ℕ × ℤ) × (ℝ → ℝ))
  inc : Option (ℝ → ℝ)
  obl : Option (ℝ → ℝ)
  u : List (ℝ → ℝ)
  period : Option (ℝ → ℝ)
  amplitude : ℝ → ℝ
  phase : ℝ → ℝ
  radius : ℝ → ℝ

namespace RotatingFamily

/-- the surface at the parameter `s` -/
def eval (m : RotatingFamily) (s : ℝ) : Surface :=
  ⟨⟨m.y.map fun e => (e.1, e.2 s)⟩, m.inc.map (· s), m.obl.map (· s), m.u.map (· s), m.period.map (· s), m.amplitude s, m.phase s, m.radius s⟩

/-- the surface with the derivatives of its parameters at `t` -/
noncomputable def dual (m : RotatingFamily) (t : ℝ) : SurfaceI :=
  ⟨m.y.map fun e => (e.1, LimbDark.input t e.2), m.inc.map (LimbDark.input t), m.obl.map (LimbDark.input t), m.u.map (LimbDark.input t),
    m.period.map (LimbDark.input t), LimbDark.input t m.amplitude, LimbDark.input t m.phase, LimbDark.input t m.radius⟩

/-- all parameters are differentiable, the map is valid, the rotation period is not zero, the star is not seen along its axis -/
structure Regular (m : RotatingFamily) (t : ℝ) : Prop where
  y : ∀ e ∈ m.y, DifferentiableAt ℝ e.2 t
  inc : ∀ f ∈ m.inc, DifferentiableAt ℝ f t
  obl : ∀ f ∈ m.obl, DifferentiableAt ℝ f t
  u : ∀ f ∈ m.u, DifferentiableAt ℝ f t
  period : ∀ f ∈ m.period, DifferentiableAt ℝ f t ∧ f t ≠ 0
  amplitude : DifferentiableAt ℝ m.amplitude t
  phase : DifferentiableAt ℝ m.phase t
  map : ValidMap (m.eval t).y
  flux : totalFlux (m.eval t).u ≠ 0
  pole : (m.eval t).ydeg ≠ 0 → ∀ inc ∈ (m.eval t).inc, Real.sin inc ≠ 0

/-- the rotational phase as a function of the parameter -/
noncomputable def turn (m : RotatingFamily) (time : ℝ → ℝ) : Option (ℝ → ℝ) := m.period.map fun p s => 2 * π * time s / p s + m.phase s

theorem turn_eval (m : RotatingFamily) (time : ℝ → ℝ) (s : ℝ) : (m.eval s).rotationalPhase (time s) = (m.turn time).map (· s) := by
  unfold Surface.rotationalPhase turn eval
  cases m.period <;> rfl

theorem Regular.turn {m : RotatingFamily} {t : ℝ} (h : m.Regular t) {time : ℝ → ℝ} (ht : DifferentiableAt ℝ time t) :
    (∀ f ∈ m.turn time, DifferentiableAt ℝ f t) ∧ (m.dual t).rotationalPhase (LimbDark.input t time) = (m.turn time).map (LimbDark.input t) := by
  have hp := h.period
  unfold RotatingFamily.turn SurfaceI.rotationalPhase dual
  cases hm : m.period with
  | none => simp
  | some p =>
    rw [hm] at hp
    obtain ⟨h1, h2⟩ := hp p rfl
    have ht' : Tracks (fun s => 2 * π * time s / p s + m.phase s) t (const (2 * π) * LimbDark.input t time / LimbDark.input t p + LimbDark.input t m.phase) :=
      track_add (track_div (track_mul (track_const _ t) (LimbDark.track_input ht)) (LimbDark.track_input h1) h2) (LimbDark.track_input h.phase)
    have := LightCurve.tracks_eq_input ht'
    simp only [Option.map_some, Option.mem_def, Option.some.injEq, forall_eq']
    exact ⟨this.2, this.1⟩

end RotatingFamily

/-- the occultor of radius `r` at `(x, y, z)` is not exactly centred and, if it is in front of the limb or the disc, at a regular point: not in exact contact and no
quantity at the threshold of a guard (as in C93) -/
def RegularOccultation (eps : ℝ) (quad : List (ℝ × ℝ)) (ydeg : ℕ) (r x y z : ℝ) : Prop :=
  ¬ (x = 0 ∧ y = 0) ∧ (1 + r < √(x ^ 2 + y ^ 2) ∨ z < 0 ∨ (0 < z ∧ √(x ^ 2 + y ^ 2) < 1 + r ∧
    (ydeg ≠ 0 → RegularPoint eps quad √(x ^ 2 + y ^ 2) r) ∧ (ydeg = 0 → LimbDark.Regular eps quad √(x ^ 2 + y ^ 2) r)))

/-- a system that depends on a parameter -/
structure SystemFamily where
  mass : ℝ → ℝ
  radius : ℝ → ℝ
  density : ℝ → ℝ
  surface : RotatingFamily
  bodies : List (Body (ℝ → ℝ) × Option RotatingFamily)

/-- the `SurfaceSystem` at the parameter `s` -/
noncomputable def SystemFamily.build (m : SystemFamily) (G s : ℝ) : Except PyErr SurfaceSystem :=
  SurfaceSystem.init G (some ⟨m.mass s, m.radius s, m.density s⟩) (some (m.surface.eval s))
    (m.bodies.map fun b => (.body (b.1.map (· s)) none, b.2.map (·.eval s)))

/-- its light curve with its derivative at the parameter `t`, by automatic differentiation -/
noncomputable def SystemFamily.lightCurveD (m : SystemFamily) (t eps : ℝ) (strict : Bool) (quad : ℕ → List (ℝ × ℝ)) (asEuler : Spec.V3 → Spec.V3)
    (asEulerD : Dual × Dual × Dual → Dual × Dual × Dual) (order : ℕ) (G : ℝ) (kep : ℝ → ℝ → ℝ × ℝ) (au : ℝ) (time : ℝ → ℝ) : Except PyErr (List Dual) :=
  systemLightCurveD eps strict quad asEuler asEulerD order G kep au ⟨LimbDark.input t m.mass, LimbDark.input t m.radius⟩ (m.surface.dual t)
    (m.bodies.map fun b => (b.1.map (LimbDark.input t), b.2.map (·.dual t))) (LimbDark.input t time)

variable {t : ℝ}

theorem RotatingFamily.Regular.oriented {m : RotatingFamily} (h : m.Regular t) :
    (⟨m.y, m.inc, m.obl, m.u, none, m.amplitude, 0, 0⟩ : OrientedFamily).Smooth t := ⟨h.y, h.inc, h.obl, h.u, h.amplitude⟩

theorem rotating_occulted {eps : ℝ} (he : 0 < eps) (he1 : 10 * eps ≤ 1) (strict : Bool) (quad : ℕ → List (ℝ × ℝ)) {asEuler : Spec.V3 → Spec.V3}
    {asEulerD : Dual × Dual × Dual → Dual × Dual × Dual} (hE : IsEulerZYZ asEuler) (hD : DifferentiatesEuler asEuler asEulerD) (order : ℕ) {m : RotatingFamily} (hm : m.Regular t)
    {time : ℝ → ℝ} (ht : DifferentiableAt ℝ time t) {r x y z : ℝ → ℝ} {rD xD yD zD : Dual} (hr : Tracks r t rD) (hx : Tracks x t xD) (hy : Tracks y t yD) (hz : Tracks z t zD)
    (hreg : RegularOccultation eps (quad order) (m.eval t).ydeg (r t) (x t) (y t) (z t)) :
    ∃ (a : Dual) (f : ℝ → ℝ), (m.dual t).lightCurve eps strict quad asEuler asEulerD order (some rD) xD yD zD ((m.dual t).rotationalPhase (LimbDark.input t time)) = .ok a ∧
      (∀ s, surfaceLightCurve eps quad asEuler order (m.eval s) (some (r s)) (some (x s)) (some (y s)) (some (z s)) ((m.eval s).rotationalPhase (time s)) = .ok (f s)) ∧
      Tracks f t a := by
  obtain ⟨rfl, hr'⟩ := LightCurve.tracks_eq_input hr
  obtain ⟨rfl, hx'⟩ := LightCurve.tracks_eq_input hx
  obtain ⟨rfl, hy'⟩ := LightCurve.tracks_eq_input hy
  obtain ⟨rfl, hz'⟩ := LightCurve.tracks_eq_input hz
  obtain ⟨hth, hthD⟩ := hm.turn ht
  obtain ⟨a, f, h1, h2, h3, d, h4, h5⟩ := orientation_gradient_is_derivative he he1 strict quad hE hD order ⟨m.y, m.inc, m.obl, m.u, none, m.amplitude, 0, 0⟩ hm.oriented hm.map hm.flux hm.pole
    r x y z (m.turn time) hr' hx' hy' hz' hth hreg.1 hreg.2
  refine ⟨a, f, ?_, ?_, h3.symm, d, h4, h5⟩
  · rw [hthD]; exact h1
  · intro s
    rw [m.turn_eval]
    exact h2 s

theorem rotating_alone (eps : ℝ) (strict : Bool) (quad : ℕ → List (ℝ × ℝ)) {asEuler : Spec.V3 → Spec.V3}
    {asEulerD : Dual × Dual × Dual → Dual × Dual × Dual} (hE : IsEulerZYZ asEuler) (hD : DifferentiatesEuler asEuler asEulerD) (order : ℕ) {m : RotatingFamily} (hm : m.Regular t)
    {time : ℝ → ℝ} (ht : DifferentiableAt ℝ time t) (x y z : Dual) :
    ∃ (a : Dual) (f : ℝ → ℝ), (m.dual t).lightCurve eps strict quad asEuler asEulerD order none x y z ((m.dual t).rotationalPhase (LimbDark.input t time)) = .ok a ∧
      (∀ s, surfaceLightCurve eps quad asEuler order (m.eval s) none none none none ((m.eval s).rotationalPhase (time s)) = .ok (f s)) ∧ Tracks f t a := by
  obtain ⟨hth, hthD⟩ := hm.turn ht
  obtain ⟨a, f, h1, h2, h3, d, h4, h5⟩ := orientation_gradient_rotation eps strict quad hE hD order ⟨m.y, m.inc, m.obl, m.u, none, m.amplitude, 0, 0⟩ hm.oriented hm.map hm.flux hm.pole
    (m.turn time) hth x y z
  refine ⟨a, f, ?_, ?_, h3.symm, d, h4, h5⟩
  · rw [hthD]; exact h1
  · intro s
    rw [m.turn_eval]
    exact h2 s

/-- the conditions on one body of a system: those of C94 on its orbit `o` around the central, a radius `size` that is not zero, and occultations of the central and of the
surface of the body (if it has one) that are regular: `Reg surface r x y z` -/
structure RegularBody (Reg : RotatingFamily → ℝ → ℝ → ℝ → ℝ → Prop) (kep : ℝ → ℝ → ℝ × ℝ) (au : ℝ) (m : SystemFamily) (t time : ℝ)
    (b : Body (ℝ → ℝ) × Option RotatingFamily) (o : OrbitalBody) : Prop where
  args : ∀ a, some a ∈ b.1.args → DifferentiableAt ℝ a t
  orbit : RegularOrbit ⟨m.mass t, m.radius t, m.density t⟩ o b.1.impact_param.isSome
  radius : ∃ size, b.1.radius = some size ∧ size t ≠ 0 ∧
    Reg m.surface (size t / m.radius t) ((o.relative_position kep au time).x / m.radius t)
      ((o.relative_position kep au time).y / m.radius t) ((o.relative_position kep au time).z / m.radius t) ∧
    ∀ surf ∈ b.2, surf.Regular t ∧ Reg surf (m.radius t / size t) (-(o.relative_position kep au time).x / size t)
      (-(o.relative_position kep au time).y / size t) (-(o.relative_position kep au time).z / size t)

/-- all that is needed about one body -/
structure BodyRows (obs : SurfaceObservable) (obsD : SurfaceObservableD) (G : ℝ) (kep : ℝ → ℝ → ℝ × ℝ) (au : ℝ) (m : SystemFamily) (t : ℝ) (time : ℝ → ℝ)
    (b : Body (ℝ → ℝ) × Option RotatingFamily) (O : ℝ → OrbitalBody) (size : ℝ → ℝ) (f g : ℝ → ℝ) (bD : SurfaceBodyD) (fD gD : Dual) : Prop where
  build : ∀ s, mkOrbitalBody G ⟨m.mass s, m.radius s, m.density s⟩ (b.1.map (· s)) = .ok (O s)
  buildD : bindSurfaceBodyD G ⟨LimbDark.input t m.mass, LimbDark.input t m.radius⟩ (b.1.map (LimbDark.input t), b.2.map (·.dual t)) = .ok bD
  hsize : ∀ s, (O s).radius = some (size s)
  central : ∀ s, obs (m.surface.eval s) (some (size s / m.radius s)) (some (((O s).relative_position kep au (time s)).x / m.radius s))
      (some (((O s).relative_position kep au (time s)).y / m.radius s)) (some (((O s).relative_position kep au (time s)).z / m.radius s))
      ((m.surface.eval s).rotationalPhase (time s)) = .ok (f s)
  centralD : centralRowD obsD kep au (LimbDark.input t m.radius) (m.surface.dual t)
      ((m.surface.dual t).rotationalPhase (LimbDark.input t time)) (LimbDark.input t time) bD = .ok fD
  centralR : Tracks f t fD
  own0 : b.2 = none → ∀ s, g s = 0
  own1 : ∀ surf, b.2 = some surf → ∀ s, obs (surf.eval s) (some (m.radius s / size s)) (some (-((O s).relative_position kep au (time s)).x / size s))
      (some (-((O s).relative_position kep au (time s)).y / size s)) (some (-((O s).relative_position kep au (time s)).z / size s))
      ((surf.eval s).rotationalPhase (time s)) = .ok (g s)
  ownD : bodyRowD obsD kep au (LimbDark.input t m.radius) (LimbDark.input t time) bD = .ok gD
  ownR : Tracks g t gD
  reflex : Tracks (fun s => (O s).radial_velocity kep au (time s)) t (bD.orbit.radial_velocity kep au (LimbDark.input t time))

/-- an observable of an occulted surface: its derivative is what automatic differentiation computes, where the occultation is regular -/
def ObservableOk (Reg : RotatingFamily → ℝ → ℝ → ℝ → ℝ → Prop) (obs : SurfaceObservable) (obsD : SurfaceObservableD) (t : ℝ) (time : ℝ → ℝ) : Prop :=
  ∀ m : RotatingFamily, m.Regular t → ∀ (r x y z : ℝ → ℝ) (rD xD yD zD : Dual), Tracks r t rD → Tracks x t xD → Tracks y t yD → Tracks z t zD →
    Reg m (r t) (x t) (y t) (z t) → ∃ (a : Dual) (f : ℝ → ℝ), obsD (m.dual t) (some rD) xD yD zD ((m.dual t).rotationalPhase (LimbDark.input t time)) = .ok a ∧
      (∀ s, obs (m.eval s) (some (r s)) (some (x s)) (some (y s)) (some (z s)) ((m.eval s).rotationalPhase (time s)) = .ok (f s)) ∧ Tracks f t a

theorem body_rows {Reg : RotatingFamily → ℝ → ℝ → ℝ → ℝ → Prop} {obs : SurfaceObservable} {obsD : SurfaceObservableD} {time : ℝ → ℝ} (hobs : ObservableOk Reg obs obsD t time)
    {kep : ℝ → ℝ → ℝ × ℝ} (hkep : ExactNear kep) (G au : ℝ) {m : SystemFamily} (hmass : DifferentiableAt ℝ m.mass t) (hrad : DifferentiableAt ℝ m.radius t)
    (hrad0 : m.radius t ≠ 0) (hs : m.surface.Regular t) (ht : DifferentiableAt ℝ time t) {b : Body (ℝ → ℝ) × Option RotatingFamily} {o : OrbitalBody}
    (h : mkOrbitalBody G ⟨m.mass t, m.radius t, m.density t⟩ (b.1.map (· t)) = .ok o) (hb : RegularBody Reg kep au m t (time t) b o) :
    ∃ O size f g bD fD gD, BodyRows obs obsD G kep au m t time b O size f g bD fD gD := by
  obtain ⟨O, oD, h1, rfl, h3, h4⟩ := orbit_derivatives_correct hkep G au m.mass m.radius m.density b.1 hmass hrad hb.args h hb.orbit ht none none (by simp) (by simp)
  obtain ⟨size, hsize, hsize0, hc, ho⟩ := hb.radius
  have hsizeD : Tracks size t (LimbDark.input t size) := LimbDark.track_input (hb.args size (by simp [Body.args, hsize]))
  have hR : Tracks m.radius t (LimbDark.input t m.radius) := LimbDark.track_input hrad
  have hRv : (LimbDark.input t m.radius).v ≠ 0 := hrad0
  have hSv : (LimbDark.input t size).v ≠ 0 := hsize0
  obtain ⟨ox, oy, oz⟩ := h4.relative_position
  simp only [Option.map_none] at ox oy oz
  obtain ⟨fD, f, hf1, hf2, hf3⟩ := hobs _ hs _ _ _ _ _ _ _ _ (track_div hsizeD hR hRv) (track_div ox hR hRv) (track_div oy hR hRv) (track_div oz hR hRv) hc
  have hOs : ∀ s, (O s).radius = some (size s) := by
    intro s
    obtain ⟨-, p0, a0, k0, -, -, hO⟩ := mkOrbitalBody_ok (h1 s)
    rw [hO]
    show (b.1.map (· s)).radius = _
    simp [Body.map, hsize]
  have hbD : bindSurfaceBodyD G ⟨LimbDark.input t m.mass, LimbDark.input t m.radius⟩ (b.1.map (LimbDark.input t), b.2.map (·.dual t)) =
      .ok ⟨oD, some (LimbDark.input t size), b.2.map (·.dual t)⟩ := by
    unfold bindSurfaceBodyD
    simp only [h3, Bind.bind, Except.bind, pure, Except.pure]
    simp [Body.map, hsize]
  cases hb2 : b.2 with
  | none =>
    refine ⟨O, size, f, fun _ => 0, _, fD, const 0, h1, hbD, hOs, hf2, hf1, hf3, fun _ _ => rfl, by simp [hb2], ?_, track_const 0 t, h4.radial_velocity⟩
    simp [bodyRowD, hb2]
  | some surf =>
    obtain ⟨hr1, hr2⟩ := ho surf hb2
    obtain ⟨gD, g, hg1, hg2, hg3⟩ := hobs _ hr1 _ _ _ _ _ _ _ _ (track_div hR hsizeD hSv) (track_div (track_neg ox) hsizeD hSv)
      (track_div (track_neg oy) hsizeD hSv) (track_div (track_neg oz) hsizeD hSv) hr2
    refine ⟨O, size, f, g, _, fD, gD, h1, hbD, hOs, hf2, hf1, hf3, by simp [hb2], ?_, ?_, hg3, h4.radial_velocity⟩
    · intro surf' h'
      obtain rfl : surf = surf' := Option.some.inj (hb2.symm.trans h')
      exact hg2
    · simp only [bodyRowD, hb2, Option.map_some]
      exact hg1

/-- an observable of a system, for any observable of its surfaces -/
theorem system_gradient_core {Reg : RotatingFamily → ℝ → ℝ → ℝ → ℝ → Prop} {obs0 obs : SurfaceObservable} {obs0D obsD : SurfaceObservableD} {time : ℝ → ℝ}
    (hobs : ObservableOk Reg obs obsD t time) {kep : ℝ → ℝ → ℝ × ℝ} (hkep : ExactNear kep) (G au : ℝ) (m : SystemFamily) (hmass : DifferentiableAt ℝ m.mass t)
    (hrad : DifferentiableAt ℝ m.radius t) (hrad0 : m.radius t ≠ 0) (hs : m.surface.Regular t) (ht : DifferentiableAt ℝ time t) {sys : SurfaceSystem} (h : m.build G t = .ok sys)
    (hb : List.Forall₂ (RegularBody Reg kep au m t (time t)) m.bodies sys.bodies)
    (hobs0 : ∃ (a : Dual) (f : ℝ → ℝ), obs0D (m.surface.dual t) none (const 0) (const 0) (const 0) ((m.surface.dual t).rotationalPhase (LimbDark.input t time)) = .ok a ∧
      (∀ s, obs0 (m.surface.eval s) none none none none ((m.surface.eval s).rotationalPhase (time s)) = .ok (f s)) ∧ Tracks f t a) :
    ∃ (S : ℝ → SurfaceSystem) (rows : ℝ → List ℝ) (bs : List SurfaceBodyD) (a : List Dual), (∀ s, m.build G s = .ok (S s)) ∧
      (∀ s, systemObservable obs0 obs kep au (S s) (time s) = .ok (some (rows s))) ∧
      (m.bodies.map fun b => (b.1.map (LimbDark.input t), b.2.map (·.dual t))).mapM (bindSurfaceBodyD G ⟨LimbDark.input t m.mass, LimbDark.input t m.radius⟩) = .ok bs ∧
      systemObservableD obs0D obsD kep au (LimbDark.input t m.radius) (m.surface.dual t) bs (LimbDark.input t time) = .ok a ∧
      a.length = m.bodies.length + 1 ∧ (∀ s, (rows s).length = m.bodies.length + 1) ∧ (∀ i (hi : i < a.length), Tracks (fun s => (rows s).getD i 0) t a[i]) ∧
      (∀ s, (S s).bodies.length = m.bodies.length) ∧ bs.length = m.bodies.length ∧ ∀ i, i < m.bodies.length → ∃ (O : ℝ → OrbitalBody) (b : SurfaceBodyD),
        (∀ s, (S s).bodies[i]? = some (O s)) ∧ bs[i]? = some b ∧ Tracks (fun s => (O s).radial_velocity kep au (time s)) t (b.orbit.radial_velocity kep au (LimbDark.input t time)) := by
  have hi := surface_system_init G _ _ _ h
  obtain ⟨hl, hbound, hc, -, -, -⟩ := hi
  have hc := hc _ rfl
  have hlen : m.bodies.length = sys.bodies.length := hb.length_eq
  -- every body
  have hbody : ∀ i, i < m.bodies.length → ∃ O size f g bD fD gD, ∀ b, m.bodies[i]? = some b → BodyRows obs obsD G kep au m t time b O size f g bD fD gD := by
    intro i hi
    have hi' : i < sys.bodies.length := by omega
    have h1 := (List.forall₂_iff_get.1 hb).2 i hi hi'
    have h2 := (List.forall₂_iff_get.1 hbound).2 i (by simpa using hi) (by simp; omega)
    simp only [List.get_eq_getElem, List.getElem_map, List.getElem_zip, BoundAs] at h1 h2
    rw [hc] at h2
    obtain ⟨O, size, f, g, bD, fD, gD, hh⟩ := body_rows hobs hkep G au hmass hrad hrad0 hs ht h2.1 h1
    refine ⟨O, size, f, g, bD, fD, gD, fun b hb' => ?_⟩
    rw [List.getElem?_eq_getElem hi] at hb'
    obtain rfl := Option.some.inj hb'
    exact hh
  have hbody' : ∀ i : ℕ, ∃ O size f g bD fD gD, ∀ b, m.bodies[i]? = some b → BodyRows obs obsD G kep au m t time b O size f g bD fD gD := by
    intro i
    by_cases hi : i < m.bodies.length
    · exact hbody i hi
    · obtain ⟨O⟩ : Nonempty (ℝ → OrbitalBody) := ⟨fun _ => ⟨⟨0, 0, 0⟩, 0, 0, 0, 0, 0, 0, 0, none, none, none, none, none, none⟩⟩
      exact ⟨O, fun _ => 0, fun _ => 0, fun _ => 0, ⟨⟨⟨const 0, const 0⟩, const 0, const 0, const 0, const 0, const 0, const 0, const 0, none, none, none, none, none⟩, none, none⟩, const 0,
        const 0, fun b hb' => by rw [List.getElem?_eq_none (by omega)] at hb'; cases hb'⟩
  choose O size f g bD fD gD hrow using hbody'
  have hrow' : ∀ i (hi : i < m.bodies.length), BodyRows obs obsD G kep au m t time m.bodies[i] (O i) (size i) (f i) (g i) (bD i) (fD i) (gD i) :=
    fun i hi => hrow i _ (List.getElem?_eq_getElem hi)
  obtain ⟨phD, ph, p1, p2, p3⟩ := hobs0
  let S : ℝ → SurfaceSystem := fun s => ⟨⟨m.mass s, m.radius s, m.density s⟩, some (m.surface.eval s), (List.range m.bodies.length).map fun i => O i s, m.bodies.map fun b => b.2.map (·.eval s)⟩
  have hS : ∀ s, m.build G s = .ok (S s) := by
    intro s
    unfold SystemFamily.build SurfaceSystem.init
    have : (m.bodies.map fun b => ((.body (b.1.map (· s)) none, b.2.map (·.eval s)) : SurfaceBodyLike × Option Surface)).mapM
        (bindSurfaceBody G ⟨m.mass s, m.radius s, m.density s⟩) = .ok ((List.range m.bodies.length).map fun i => (O i s, (m.bodies[i]?.bind (·.2)).map (·.eval s))) := by
      have := mapM_range (l := m.bodies.map fun b => ((.body (b.1.map (· s)) none, b.2.map (·.eval s)) : SurfaceBodyLike × Option Surface))
        (f := bindSurfaceBody G ⟨m.mass s, m.radius s, m.density s⟩) (v := fun i => (O i s, (m.bodies[i]?.bind (·.2)).map (·.eval s))) (by
          intro i hi
          have hi : i < m.bodies.length := by simpa using hi
          rw [bindSurfaceBody_ok]
          simp only [List.getElem_map, BoundAs, List.getElem?_eq_getElem hi, Option.bind_some, Option.or_none, and_true]
          exact (hrow' i hi).build s)
      simpa using this
    simp only [Bind.bind, Except.bind, this, pure, Except.pure, Except.ok.injEq, S, SurfaceSystem.mk.injEq, true_and, List.map_map, Function.comp_def]
    refine List.ext_getElem (by simp) fun i h1 h2 => ?_
    have hi : i < m.bodies.length := by simpa using h1
    simp [List.getElem?_eq_getElem hi]
  have hbs : (m.bodies.map fun b => (b.1.map (LimbDark.input t), b.2.map (·.dual t))).mapM (bindSurfaceBodyD G ⟨LimbDark.input t m.mass, LimbDark.input t m.radius⟩) =
      .ok ((List.range m.bodies.length).map bD) := by
    have := mapM_range (l := m.bodies.map fun b => (b.1.map (LimbDark.input t), b.2.map (·.dual t)))
      (f := bindSurfaceBodyD G ⟨LimbDark.input t m.mass, LimbDark.input t m.radius⟩) (v := bD) (by
        intro i hi
        have hi : i < m.bodies.length := by simpa using hi
        simpa using (hrow' i hi).buildD)
    simpa using this
  obtain ⟨rows, a, r1, r2, r3, r4, r5⟩ := system_rows_core (R := Tk t) (obs0 := obs0) (obs := obs)
    (obs0D := obs0D) (obsD := obsD) (kep := kep) (au := au)
    (S := S) (n := m.bodies.length) (by simp [S]) (by simp [S]) (time := time) (cs := m.surface.eval) (fun _ => rfl) (rad := size)
    (fun s i h => by
      have hi : i < m.bodies.length := by simpa [S] using h
      simpa [S] using (hrow' i hi).hsize s)
    (pos := fun i s => (O i s).relative_position kep au (time s)) (fun s i h => by simp [S]) (Rs := m.radius) (fun _ => rfl) p2 (f := f)
    (fun s i hi => (hrow' i hi).central s) (g := g)
    (fun s i h h0 => by
      have hi : i < m.bodies.length := by simpa [S] using h
      exact (hrow' i hi).own0 (by simpa [S] using h0) s)
    (fun s i h su hsu => by
      have hi : i < m.bodies.length := by simpa [S] using h
      obtain ⟨surf, hs1, rfl⟩ := Option.map_eq_some_iff.1 (show (m.bodies[i].2).map (·.eval s) = some su by simpa [S] using hsu)
      exact (hrow' i hi).own1 surf hs1 s)
    (RD := LimbDark.input t m.radius) (csD := m.surface.dual t) (bs := (List.range m.bodies.length).map bD) (by simp) (timeD := LimbDark.input t time) p1
    (fD := fD) (gD := gD)
    (fun i h => by
      have hi : i < m.bodies.length := by simpa using h
      simpa using (hrow' i hi).centralD)
    (fun i h => by
      have hi : i < m.bodies.length := by simpa using h
      simpa using (hrow' i hi).ownD) p3 (fun i hi => (hrow' i hi).centralR) (fun i hi => (hrow' i hi).ownR)
  refine ⟨S, rows, _, a, hS, r1, hbs, r2, r3, r4, r5, by simp [S], by simp, fun i hi => ⟨O i, bD i, ?_, ?_, (hrow' i hi).reflex⟩⟩
  · intro s
    simp [S, hi]
  · simp [hi]

/-- C102: the light curve of a system - the star occulted by its bodies, the bodies occulted by the star, all of them rotating - has as derivative, with respect to all parameters
of the star, the bodies, their orbits and their surfaces and time, what automatic differentiation (in both modes) computes -/
theorem system_gradient_is_derivative {eps : ℝ} (he : 0 < eps) (he1 : 10 * eps ≤ 1) (strict : Bool) (quad : ℕ → List (ℝ × ℝ)) {asEuler : Spec.V3 → Spec.V3}
    {asEulerD : Dual × Dual × Dual → Dual × Dual × Dual} (hE : IsEulerZYZ asEuler) (hD : DifferentiatesEuler asEuler asEulerD) (order : ℕ)
    {kep : ℝ → ℝ → ℝ × ℝ} (hkep : ExactNear kep) (G au : ℝ) (m : SystemFamily) (hmass : DifferentiableAt ℝ m.mass t) (hrad : DifferentiableAt ℝ m.radius t)
    (hrad0 : m.radius t ≠ 0) (hs : m.surface.Regular t) {time : ℝ → ℝ} (ht : DifferentiableAt ℝ time t) {sys : SurfaceSystem} (h : m.build G t = .ok sys)
    (hb : List.Forall₂ (RegularBody (fun s => RegularOccultation eps (quad order) (s.eval t).ydeg) kep au m t (time t)) m.bodies sys.bodies) :
    ∃ (S : ℝ → SurfaceSystem) (rows : ℝ → List ℝ) (a : List Dual), (∀ s, m.build G s = .ok (S s)) ∧
      (∀ s, systemLightCurve eps quad asEuler order kep au (S s) (time s) = .ok (some (rows s))) ∧
      m.lightCurveD t eps strict quad asEuler asEulerD order G kep au time = .ok a ∧ a.length = m.bodies.length + 1 ∧ (∀ s, (rows s).length = m.bodies.length + 1) ∧
      ∀ i (hi : i < a.length), a[i].v = (rows t).getD i 0 ∧ ∃ d, a[i].d = some d ∧ HasDerivAt (fun s => (rows s).getD i 0) d t := by
  obtain ⟨S, rows, bs, a, h1, h2, h3, h4, h5, h6, h7, -⟩ := system_gradient_core (obs0 := surfaceLightCurve eps quad asEuler 20)
    (obs0D := SurfaceI.lightCurve eps strict quad asEuler asEulerD 20) (obsD := SurfaceI.lightCurve eps strict quad asEuler asEulerD order)
    (fun m' hm r x y z rD xD yD zD hr hx hy hz hreg => rotating_occulted he he1 strict quad hE hD order hm ht hr hx hy hz hreg) hkep G au m hmass hrad hrad0 hs ht h hb
    (rotating_alone eps strict quad hE hD 20 hs ht _ _ _)
  refine ⟨S, rows, a, h1, h2, ?_, h5, h6, fun i hi => ⟨(h7 i hi).1.symm, (h7 i hi).2⟩⟩
  unfold SystemFamily.lightCurveD systemLightCurveD
  rw [h3]
  exact h4

/-! ### Finite derivatives -/

/-- the surface without the derivatives of its parameters -/
def SurfaceI.val (s : SurfaceI) : Surface :=
  ⟨⟨s.y.map fun e => (e.1, e.2.v)⟩, s.inc.map (·.v), s.obl.map (·.v), s.u.map (·.v), s.period.map (·.v), s.amplitude.v, s.phase.v, s.radius.v⟩

/-- the derivatives of all parameters are finite, the map is valid, the rotation period is not zero, the star is not seen along its axis -/
structure SurfaceI.Regular (s : SurfaceI) : Prop where
  y : ∀ e ∈ s.y, ∃ d, e.2.d = some d
  inc : ∀ a ∈ s.inc, ∃ d, a.d = some d
  obl : ∀ a ∈ s.obl, ∃ d, a.d = some d
  u : ∀ a ∈ s.u, ∃ d, a.d = some d
  period : ∀ a ∈ s.period, (∃ d, a.d = some d) ∧ a.v ≠ 0
  amplitude : ∃ d, s.amplitude.d = some d
  phase : ∃ d, s.phase.d = some d
  map : ValidMap s.val.y
  flux : totalFlux s.val.u ≠ 0
  pole : s.val.ydeg ≠ 0 → ∀ inc ∈ s.val.inc, Real.sin inc ≠ 0

theorem SurfaceI.rotationalPhase_v (s : SurfaceI) (time : Dual) : (s.rotationalPhase time).map (·.v) = s.val.rotationalPhase time.v := by
  unfold SurfaceI.rotationalPhase Surface.rotationalPhase SurfaceI.val
  cases s.period with
  | none => rfl
  | some p => simp only [Option.map_some, add_v, div_v, mul_v, const_v]

theorem SurfaceI.Regular.turn {s : SurfaceI} (h : s.Regular) {time : Dual} (ht : ∃ d, time.d = some d) : ∀ a ∈ s.rotationalPhase time, ∃ d, a.d = some d := by
  have hp := h.period
  unfold SurfaceI.rotationalPhase
  cases hs : s.period with
  | none => simp
  | some p =>
    rw [hs] at hp
    obtain ⟨h1, h2⟩ := hp p rfl
    intro a ha
    obtain rfl := Option.some.inj ha
    exact fin_add (fin_div (fin_mul (fin_const _) ht) h1 h2) h.phase

theorem SurfaceI.val_ydeg (s : SurfaceI) : s.val.ydeg = ylmDeg s.y := by
  simp [SurfaceI.val, Surface.ydeg, Ylm.deg, ylmDeg, List.map_map, Function.comp_def]

theorem SurfaceI.Regular.lightCurve {s : SurfaceI} (h : s.Regular) {eps : ℝ} (he : 0 < eps) (strict : Bool) (quad : ℕ → List (ℝ × ℝ)) {asEuler : Spec.V3 → Spec.V3}
    {asEulerD : Dual × Dual × Dual → Dual × Dual × Dual} (hE : IsEulerZYZ asEuler) (hD : DifferentiatesEuler asEuler asEulerD) (order : ℕ)
    {time : Dual} (ht : ∃ d, time.d = some d) (r : Option Dual) (x y z : Dual) (hr : ∀ a ∈ r, ∃ d, a.d = some d) (hx : ∃ d, x.d = some d) (hy : ∃ d, y.d = some d)
    (hxy : r = none ∨ ¬ (x.v = 0 ∧ y.v = 0)) :
    ∃ a, s.lightCurve eps strict quad asEuler asEulerD order r x y z (s.rotationalPhase time) = .ok a ∧ (∃ d, a.d = some d) ∧
      surfaceLightCurve eps quad asEuler order s.val (r.map (·.v)) (some x.v) (some y.v) (some z.v) (s.val.rotationalPhase time.v) = .ok a.v := by
  obtain ⟨a, h1, h2, h3⟩ := orientation_gradient_finite he strict quad hE hD order s.y s.inc s.obl s.u s.amplitude (s.period.map (·.v)) s.phase.v s.radius.v r (s.rotationalPhase time) x y z h.map h.flux
    (fun hy' a ha => h.pole (by rw [s.val_ydeg]; exact hy') a.v (Option.mem_map_of_mem _ ha)) h.y h.inc h.obl h.u h.amplitude hr (h.turn ht) hx hy hxy
  refine ⟨a, h1, h2, ?_⟩
  rw [← s.rotationalPhase_v]
  exact h3

/-- an observable of an occulted surface: its derivatives are finite, where `Reg surface r x y z`, and its value is that of the program -/
def ObservableFinite (Reg : SurfaceI → ℝ → ℝ → ℝ → ℝ → Prop) (obs : SurfaceObservable) (obsD : SurfaceObservableD) (time : Dual) : Prop :=
  ∀ s : SurfaceI, s.Regular → ∀ r x y z : Dual, (∃ d, r.d = some d) → (∃ d, x.d = some d) → (∃ d, y.d = some d) → (∃ d, z.d = some d) → Reg s r.v x.v y.v z.v →
    ∃ a, obsD s (some r) x y z (s.rotationalPhase time) = .ok a ∧ (∃ d, a.d = some d) ∧
      obs s.val (some r.v) (some x.v) (some y.v) (some z.v) (s.val.rotationalPhase time.v) = .ok a.v

/-- an observable of a system, for any observable of its surfaces -/
theorem system_finite_core {Reg : SurfaceI → ℝ → ℝ → ℝ → ℝ → Prop} {obs0 obs : SurfaceObservable} {obs0D obsD : SurfaceObservableD} {time : Dual} (hobs : ObservableFinite Reg obs obsD time)
    {kep : ℝ → ℝ → ℝ × ℝ} (hkep : UnitSolver kep) (G au : ℝ) (central : CentralD) (density : ℝ) (cs : SurfaceI) (bodies : List (Body Dual × Option SurfaceI))
    (hmass : ∃ d, central.mass.d = some d) (hrad : ∃ d, central.radius.d = some d) (hrad0 : central.radius.v ≠ 0) (hcs : cs.Regular) (ht : ∃ d, time.d = some d)
    {sys : SurfaceSystem} (h : SurfaceSystem.init G (some ⟨central.mass.v, central.radius.v, density⟩) (some cs.val)
      (bodies.map fun b => (.body (b.1.map (·.v)) none, b.2.map (·.val))) = .ok sys)
    (hb : List.Forall₂ (fun (b : Body Dual × Option SurfaceI) o => (∀ a, some a ∈ b.1.args → ∃ d, a.d = some d) ∧
      RegularOrbit ⟨central.mass.v, central.radius.v, density⟩ o b.1.impact_param.isSome ∧ ∃ size, b.1.radius = some size ∧ size.v ≠ 0 ∧
      Reg cs (size.v / central.radius.v) ((o.relative_position kep au time.v).x / central.radius.v) ((o.relative_position kep au time.v).y / central.radius.v)
        ((o.relative_position kep au time.v).z / central.radius.v) ∧
      ∀ surf ∈ b.2, surf.Regular ∧ Reg surf (central.radius.v / size.v) (-(o.relative_position kep au time.v).x / size.v) (-(o.relative_position kep au time.v).y / size.v)
        (-(o.relative_position kep au time.v).z / size.v)) bodies sys.bodies)
    (hobs0 : ∃ a, obs0D cs none (const 0) (const 0) (const 0) (cs.rotationalPhase time) = .ok a ∧ (∃ d, a.d = some d) ∧
      obs0 cs.val none none none none (cs.val.rotationalPhase time.v) = .ok a.v) :
    ∃ (bs : List SurfaceBodyD) (a : List Dual), bodies.mapM (bindSurfaceBodyD G central) = .ok bs ∧ systemObservableD obs0D obsD kep au central.radius cs bs time = .ok a ∧
      systemObservable obs0 obs kep au sys time.v = .ok (some (a.map (·.v))) ∧ (∀ x ∈ a, ∃ d, x.d = some d) ∧ a.length = bodies.length + 1 ∧ bs.length = bodies.length ∧
      ∀ i (_ : i < bs.length) (_ : i < sys.bodies.length), (bs[i].orbit.radial_velocity kep au time).v = sys.bodies[i].radial_velocity kep au time.v ∧
        ∃ d, (bs[i].orbit.radial_velocity kep au time).d = some d := by
  obtain ⟨hl, hbound, hc, -, hcs', -⟩ := surface_system_init G _ _ _ h
  have hc := hc _ rfl
  have hcs' := hcs' _ rfl
  have hlen : bodies.length = sys.bodies.length := hb.length_eq
  have hbody : ∀ i : ℕ, ∃ (bD : SurfaceBodyD) (size fD gD : Dual), ∀ (h1 : i < bodies.length) (h2 : i < sys.bodies.length) (h3 : i < sys.body_surfaces.length),
      bindSurfaceBodyD G central bodies[i] = .ok bD ∧ sys.bodies[i].radius = some size.v ∧
      obs cs.val (some (size.v / central.radius.v)) (some ((sys.bodies[i].relative_position kep au time.v).x / central.radius.v))
        (some ((sys.bodies[i].relative_position kep au time.v).y / central.radius.v)) (some ((sys.bodies[i].relative_position kep au time.v).z / central.radius.v))
        (cs.val.rotationalPhase time.v) = .ok fD.v ∧
      centralRowD obsD kep au central.radius cs (cs.rotationalPhase time) time bD = .ok fD ∧ (∃ d, fD.d = some d) ∧
      (sys.body_surfaces[i] = none → gD.v = 0) ∧
      (∀ su, sys.body_surfaces[i] = some su → obs su (some (central.radius.v / size.v))
        (some (-(sys.bodies[i].relative_position kep au time.v).x / size.v)) (some (-(sys.bodies[i].relative_position kep au time.v).y / size.v))
        (some (-(sys.bodies[i].relative_position kep au time.v).z / size.v)) (su.rotationalPhase time.v) = .ok gD.v) ∧
      bodyRowD obsD kep au central.radius time bD = .ok gD ∧ (∃ d, gD.d = some d) ∧
      (bD.orbit.radial_velocity kep au time).v = sys.bodies[i].radial_velocity kep au time.v ∧ ∃ d, (bD.orbit.radial_velocity kep au time).d = some d := by
    intro i
    by_cases hi : i < bodies.length
    swap
    · exact ⟨⟨⟨⟨const 0, const 0⟩, const 0, const 0, const 0, const 0, const 0, const 0, const 0, none, none, none, none, none⟩, none, none⟩, const 0, const 0, const 0,
        fun h1 => absurd h1 hi⟩
    have hi' : i < sys.bodies.length := by omega
    obtain ⟨g1, g2, size, hsize, hsize0, g4, g5⟩ := (List.forall₂_iff_get.1 hb).2 i hi hi'
    have h2 := (List.forall₂_iff_get.1 hbound).2 i (by simpa using hi) (by simp; omega)
    simp only [List.get_eq_getElem, List.getElem_map, List.getElem_zip, BoundAs] at g1 g2 g4 g5 hsize h2
    rw [hc] at h2
    obtain ⟨h2, h2'⟩ := h2
    obtain ⟨oD, d1, d2⟩ := orbit_derivatives_finite hkep G au central bodies[i].1 hmass hrad g1 h2 g2 time ht none none (by simp) (by simp)
    obtain ⟨ox, oy, oz⟩ := d2.relative_position
    simp only [Option.map_none] at ox oy oz
    have hsizeD : ∃ d, size.d = some d := g1 size (by simp [Body.args, hsize])
    have hor : sys.bodies[i].radius = some size.v := by
      obtain ⟨-, p0, a0, k0, -, -, hO⟩ := mkOrbitalBody_ok h2
      rw [hO]
      show (bodies[i].1.map (·.v)).radius = _
      simp [Body.map, hsize]
    have hbD : bindSurfaceBodyD G central bodies[i] = .ok ⟨oD, some size, bodies[i].2⟩ := by
      unfold bindSurfaceBodyD
      simp only [d1, Bind.bind, Except.bind, pure, Except.pure]
      simp [hsize]
    have orv := d2.radial_velocity
    simp only [Option.map_none] at orv
    obtain ⟨fD, f1, f2, f3⟩ := hobs cs hcs (size / central.radius) ((oD.relative_position kep au time).x / central.radius)
      ((oD.relative_position kep au time).y / central.radius) ((oD.relative_position kep au time).z / central.radius)
      (fin_div hsizeD hrad hrad0) (fin_div ox.2 hrad hrad0) (fin_div oy.2 hrad hrad0) (fin_div oz.2 hrad hrad0)
      (by simp only [div_v, ← ox.1, ← oy.1, ← oz.1]; exact g4)
    simp only [div_v, ← ox.1, ← oy.1, ← oz.1] at f3
    cases hb2 : bodies[i].2 with
    | none =>
      refine ⟨_, size, fD, const 0, fun _ _ _ => ⟨hbD, hor, f3, f1, f2, fun _ => rfl, ?_, ?_, ⟨0, rfl⟩, orv.1.symm, orv.2⟩⟩
      · intro su hsu
        rw [h2', hb2] at hsu
        cases hsu
      · simp [bodyRowD, hb2]
    | some surf =>
      obtain ⟨hsurf, hsurf'⟩ := g5 surf hb2
      obtain ⟨gD, k1, k2, k3⟩ := hobs surf hsurf (central.radius / size) (-(oD.relative_position kep au time).x / size)
        (-(oD.relative_position kep au time).y / size) (-(oD.relative_position kep au time).z / size)
        (fin_div hrad hsizeD hsize0) (fin_div (fin_neg ox.2) hsizeD hsize0) (fin_div (fin_neg oy.2) hsizeD hsize0) (fin_div (fin_neg oz.2) hsizeD hsize0)
        (by simp only [div_v, neg_v, ← ox.1, ← oy.1, ← oz.1]; exact hsurf')
      simp only [div_v, neg_v, ← ox.1, ← oy.1, ← oz.1] at k3
      refine ⟨_, size, fD, gD, fun _ _ _ => ⟨hbD, hor, f3, f1, f2, ?_, ?_, ?_, k2, orv.1.symm, orv.2⟩⟩
      · intro h0
        rw [h2', hb2] at h0
        cases h0
      · intro su hsu
        rw [h2', hb2] at hsu
        obtain rfl := Option.some.inj hsu
        exact k3
      · simp only [bodyRowD, hb2]
        exact k1
  choose bD size fD gD hrow using hbody
  have hrow' : ∀ i (hi : i < bodies.length), _ := fun i hi => hrow i hi (by omega) (by omega)
  obtain ⟨phD, p1, p2, p3⟩ := hobs0
  have hbs : bodies.mapM (bindSurfaceBodyD G central) = .ok ((List.range bodies.length).map bD) := mapM_range fun i hi => (hrow' i hi).1
  obtain ⟨rows, a, r1, r2, r3, r4, r5⟩ := system_rows_core (R := FinV 0) (obs0 := obs0) (obs := obs)
    (obs0D := obs0D) (obsD := obsD) (kep := kep) (au := au)
    (S := fun _ => sys) (n := bodies.length) (fun _ => hlen.symm) (fun _ => by omega) (time := fun _ => time.v) (cs := fun _ => cs.val) (fun _ => hcs') (rad := fun i _ => (size i).v)
    (fun s i h => (hrow' i (by omega)).2.1)
    (pos := fun i s => (sys.bodies[i]?.map fun o => o.relative_position kep au time.v).getD ⟨0, 0, 0⟩) (fun s i h => by simp [List.getElem?_eq_getElem h]) (Rs := fun _ => central.radius.v)
    (fun _ => by rw [hc]) (phase := fun _ => phD.v) (fun _ => p3) (f := fun i _ => (fD i).v)
    (fun s i hi => by
      have hi' : i < sys.bodies.length := by omega
      simp only [List.getElem?_eq_getElem hi', Option.map_some, Option.getD_some]
      exact (hrow' i hi).2.2.1) (g := fun i _ => (gD i).v)
    (fun s i h h0 => (hrow' i (by omega)).2.2.2.2.2.1 h0)
    (fun s i h su hsu => by
      have hi' : i < sys.bodies.length := by omega
      simp only [List.getElem?_eq_getElem hi', Option.map_some, Option.getD_some]
      exact (hrow' i (by omega)).2.2.2.2.2.2.1 su hsu)
    (RD := central.radius) (csD := cs) (bs := (List.range bodies.length).map bD) (by simp) (timeD := time) p1
    (fD := fD) (gD := gD)
    (fun i h => by
      have hi : i < bodies.length := by simpa using h
      simpa using (hrow' i hi).2.2.2.1)
    (fun i h => by
      have hi : i < bodies.length := by simpa using h
      simpa using (hrow' i hi).2.2.2.2.2.2.2.1) ⟨rfl, p2⟩ (fun i hi => ⟨rfl, (hrow' i hi).2.2.2.2.1⟩) (fun i hi => ⟨rfl, (hrow' i hi).2.2.2.2.2.2.2.2.1⟩)
  refine ⟨_, a, hbs, r2, ?_, ?_, r3, by simp, fun i hi hi' => ?_⟩
  · rw [r1 0]
    congr 2
    refine List.ext_getElem (by simp [r3, r4]) fun i h1 h2 => ?_
    have hi : i < a.length := by simpa using h2
    have := (r5 i hi).1
    simp only [List.getElem_map, ← this, List.getD_eq_getElem _ _ h1]
  · intro x hx
    obtain ⟨i, hi, rfl⟩ := List.getElem_of_mem hx
    exact (r5 i hi).2
  · have hi'' : i < bodies.length := by simpa using hi
    simpa using (hrow' i hi'').2.2.2.2.2.2.2.2.2

/-- C102: the derivatives of the light curve of a system are finite, also where the light curve has a kink, unless a body is exactly aligned with the star or a surface is seen
exactly along its rotation axis; and automatic differentiation does not change the values -/
theorem system_gradient_finite {eps : ℝ} (he : 0 < eps) (strict : Bool) (quad : ℕ → List (ℝ × ℝ)) {asEuler : Spec.V3 → Spec.V3}
    {asEulerD : Dual × Dual × Dual → Dual × Dual × Dual} (hE : IsEulerZYZ asEuler) (hD : DifferentiatesEuler asEuler asEulerD) (order : ℕ)
    {kep : ℝ → ℝ → ℝ × ℝ} (hkep : UnitSolver kep) (G au : ℝ) (central : CentralD) (density : ℝ) (cs : SurfaceI) (bodies : List (Body Dual × Option SurfaceI)) (time : Dual)
    (hmass : ∃ d, central.mass.d = some d) (hrad : ∃ d, central.radius.d = some d) (hrad0 : central.radius.v ≠ 0) (hcs : cs.Regular) (ht : ∃ d, time.d = some d)
    {sys : SurfaceSystem} (h : SurfaceSystem.init G (some ⟨central.mass.v, central.radius.v, density⟩) (some cs.val)
      (bodies.map fun b => (.body (b.1.map (·.v)) none, b.2.map (·.val))) = .ok sys)
    (hb : List.Forall₂ (fun (b : Body Dual × Option SurfaceI) o => (∀ a, some a ∈ b.1.args → ∃ d, a.d = some d) ∧
      RegularOrbit ⟨central.mass.v, central.radius.v, density⟩ o b.1.impact_param.isSome ∧ (∃ size, b.1.radius = some size ∧ size.v ≠ 0) ∧
      ¬ ((o.relative_position kep au time.v).x = 0 ∧ (o.relative_position kep au time.v).y = 0) ∧ ∀ surf ∈ b.2, surf.Regular) bodies sys.bodies) :
    ∃ a : List Dual, systemLightCurveD eps strict quad asEuler asEulerD order G kep au central cs bodies time = .ok a ∧
      systemLightCurve eps quad asEuler order kep au sys time.v = .ok (some (a.map (·.v))) ∧ ∀ x ∈ a, ∃ d, x.d = some d := by
  obtain ⟨bs, a, h1, h2, h3, h4, -⟩ := system_finite_core (Reg := fun _ _ x y _ => ¬ (x = 0 ∧ y = 0)) (obs0 := surfaceLightCurve eps quad asEuler 20)
    (obs := surfaceLightCurve eps quad asEuler order) (obs0D := SurfaceI.lightCurve eps strict quad asEuler asEulerD 20) (obsD := SurfaceI.lightCurve eps strict quad asEuler asEulerD order)
    (fun s hs r x y z hr hx hy _ hxy => hs.lightCurve he strict quad hE hD order ht (some r) x y z
      (by intro a ha; obtain rfl := Option.some.inj ha; exact hr) hx hy (Or.inr hxy)) hkep G au central density cs bodies hmass hrad hrad0 hcs ht h
    (hb.imp fun b o hbo => by
      obtain ⟨g1, g2, ⟨size, hsize, hsize0⟩, g4, g5⟩ := hbo
      exact ⟨g1, g2, size, hsize, hsize0, fun hh => g4 ⟨by simpa [hrad0] using hh.1, by simpa [hrad0] using hh.2⟩, fun surf hsurf => ⟨g5 surf hsurf,
        fun hh => g4 ⟨by simpa [hsize0] using hh.1, by simpa [hsize0] using hh.2⟩⟩⟩)
    (hcs.lightCurve he strict quad hE hD 20 ht none (const 0) (const 0) (const 0) (by simp) ⟨0, rfl⟩ ⟨0, rfl⟩ (Or.inl rfl))
  refine ⟨a, ?_, h3, h4⟩
  unfold systemLightCurveD
  rw [h1]
  exact h2

/-! ### The hypotheses are met -/

/-- a rotating dipole whose coefficients, inclination, period, amplitude and phase depend on the parameter -/
noncomputable def dipoleFamily : RotatingFamily where
  y := [((0, 0), fun _ => 1), ((1, 0), fun s => 1 + s)]
  inc := some fun s => 1 + s
  obl := some fun s => 2 * s
  u := []
  period := some fun s => 10 + s
  amplitude := fun s => 1 + 3 * s
  phase := fun s => s
  radius := fun _ => 1

theorem dipoleFamily_regular : dipoleFamily.Regular 0 := by
  refine ⟨?_, ?_, ?_, by simp [dipoleFamily], ?_, ?_, differentiableAt_id, ⟨by simp [Dict.WF, dipoleFamily, RotatingFamily.eval], by simp [dipoleFamily, RotatingFamily.eval],
    by simp [dipoleFamily, RotatingFamily.eval]⟩, dipole_ok.2.2, ?_⟩
  · intro e he
    simp only [dipoleFamily, List.mem_cons, List.not_mem_nil, or_false] at he
    rcases he with rfl | rfl <;> fun_prop
  · intro f hf
    obtain rfl := Option.some.inj hf
    fun_prop
  · intro f hf
    obtain rfl := Option.some.inj hf
    fun_prop
  · intro f hf
    obtain rfl := Option.some.inj hf
    exact ⟨by fun_prop, by norm_num⟩
  · change DifferentiableAt ℝ (fun s : ℝ => 1 + 3 * s) 0
    fun_prop
  · intro _ i hi
    obtain rfl : (1 + 0 : ℝ) = i := Option.some.inj hi
    exact (Real.sin_pos_of_pos_of_lt_pi (by norm_num) (by linarith [Real.pi_gt_three])).ne'

/-- a planet on an eccentric orbit whose eccentricity and impact parameter depend on the parameter -/
noncomputable def planetFamily : Body (ℝ → ℝ) :=
  { semimajor := some (fun _ => 10), eccentricity := some (fun s => 0.5 + s), sin_omega_peri := some (fun _ => 0.6), cos_omega_peri := some (fun _ => 0.8),
    impact_param := some (fun s => 0.5 + s), mass := some (fun _ => 0.1), radius := some (fun _ => 0.1) }

/-- a system of a dipole star with two planets on such orbits, one of them with a surface -/
noncomputable def systemFamily : SystemFamily := ⟨fun _ => 1, fun _ => 1, fun _ => 1, dipoleFamily, [(planetFamily, some dipoleFamily), (planetFamily, none)]⟩

/-- `system_gradient_is_derivative` at the time of transit -/
example (quad : ℕ → List (ℝ × ℝ)) : ∃ kep, ExactNear kep ∧ ∃ (S : ℝ → SurfaceSystem) (rows : ℝ → List ℝ) (a : List Dual), (∀ s, systemFamily.build 1 s = .ok (S s)) ∧
    (∀ s, systemLightCurve (2 ^ (-52 : ℤ)) quad eulerOf 20 kep 1 (S s) s = .ok (some (rows s))) ∧
    systemFamily.lightCurveD 0 (2 ^ (-52 : ℤ)) true quad eulerOf eulerOfD 20 1 kep 1 (fun s => s) = .ok a ∧ a.length = 3 ∧
    ∀ i (hi : i < a.length), ∃ d, a[i].d = some d ∧ HasDerivAt (fun s => (rows s).getD i 0) d 0 := by
  obtain ⟨kep, hkep⟩ := exists_exactNear
  obtain ⟨o, h, hreg, hp, hz⟩ := LightCurve.example_transit hkep.exact
  have hbody : planetFamily.map (· 0) = { semimajor := some 10, eccentricity := some 0.5, sin_omega_peri := some 0.6, cos_omega_peri := some 0.8, impact_param := some 0.5, mass := some 0.1, radius := some 0.1 } := by
    simp [planetFamily, Body.map]
  have hsys : systemFamily.build 1 0 = .ok ⟨⟨1, 1, 1⟩, some (dipoleFamily.eval 0), [o, o], [some (dipoleFamily.eval 0), none]⟩ := by
    simp only [SystemFamily.build, systemFamily, SurfaceSystem.init, List.map_cons, List.map_nil, List.mapM_cons, List.mapM_nil, bindSurfaceBody, hbody, h, Bind.bind, Except.bind,
      pure, Except.pure]
    rfl
  have hb : RegularBody (fun s => RegularOccultation (2 ^ (-52 : ℤ)) (quad 20) (s.eval 0).ydeg) kep 1 systemFamily 0 0 (planetFamily, some dipoleFamily) o ∧
      RegularBody (fun s => RegularOccultation (2 ^ (-52 : ℤ)) (quad 20) (s.eval 0).ydeg) kep 1 systemFamily 0 0 (planetFamily, none) o := by
    have hargs : ∀ a, some a ∈ planetFamily.args → DifferentiableAt ℝ a 0 := by
      intro a ha
      simp [planetFamily, Body.args] at ha
      rcases ha with rfl | rfl | rfl | rfl | rfl | rfl | rfl <;> fun_prop
    have hc : RegularOccultation (2 ^ (-52 : ℤ)) (quad 20) (dipoleFamily.eval 0).ydeg (0.1 / 1) ((o.relative_position kep 1 0).x / 1) ((o.relative_position kep 1 0).y / 1)
        ((o.relative_position kep 1 0).z / 1) := by
      have hdeg : (dipoleFamily.eval 0).ydeg = 1 := by simp [Surface.ydeg, Ylm.deg, dipoleFamily, RotatingFamily.eval]
      have e1 : √(((0 : ℝ) / 1) ^ 2 + (-0.5 / 1) ^ 2) = 1 / 2 := by
        rw [show (((0 : ℝ) / 1) ^ 2 + (-0.5 / 1) ^ 2) = (1 / 2) ^ 2 by norm_num]
        exact Real.sqrt_sq (by norm_num)
      rw [hp, hdeg]
      refine ⟨by norm_num, Or.inr (Or.inr ⟨by simpa using hz, ?_, fun _ => ?_, fun h => by cases h⟩)⟩
      · change √(((0 : ℝ) / 1) ^ 2 + (-0.5 / 1) ^ 2) < _
        rw [e1]
        norm_num
      · change RegularPoint _ _ √(((0 : ℝ) / 1) ^ 2 + (-0.5 / 1) ^ 2) _
        rw [e1, show ((0.1 : ℝ) / 1) = 1 / 10 by norm_num]
        exact regularPoint_inside _
    have ho : RegularOccultation (2 ^ (-52 : ℤ)) (quad 20) (dipoleFamily.eval 0).ydeg (1 / 0.1) (-(o.relative_position kep 1 0).x / 0.1) (-(o.relative_position kep 1 0).y / 0.1)
        (-(o.relative_position kep 1 0).z / 0.1) := by
      refine ⟨?_, Or.inr (Or.inl (div_neg_of_neg_of_pos (by linarith) (by norm_num)))⟩
      rw [hp]
      norm_num
    refine ⟨⟨hargs, hreg, _, rfl, by norm_num, hc, ?_⟩, ⟨hargs, hreg, _, rfl, by norm_num, hc, ?_⟩⟩
    · intro surf hs
      obtain rfl := Option.some.inj hs
      exact ⟨dipoleFamily_regular, ho⟩
    · intro surf hs
      cases hs
  obtain ⟨S, rows, a, h1, h2, h3, h4, -, h6⟩ := system_gradient_is_derivative (t := 0) (eps := 2 ^ (-52 : ℤ)) (by positivity) (by norm_num) true quad eulerOf_isEuler eulerOf_differentiates 20
    hkep 1 1 systemFamily (differentiableAt_const _) (differentiableAt_const _) one_ne_zero dipoleFamily_regular (time := fun s => s) differentiableAt_id hsys
    (.cons hb.1 (.cons hb.2 .nil))
  exact ⟨kep, hkep, S, rows, a, h1, h2, h3, h4, fun i hi => (h6 i hi).2⟩

theorem dipoleI_regular : (⟨[((0, 0), const 1), ((1, 0), ⟨1, some 2⟩)], some ⟨1, some 1⟩, none, [], some ⟨10, some 1⟩, ⟨1, some 1⟩, ⟨0, some 1⟩, const 1⟩ : SurfaceI).Regular := by
  refine ⟨by simp [const], by simp, by simp, by simp, by simp, ⟨_, rfl⟩, ⟨_, rfl⟩, ⟨by simp [Dict.WF, SurfaceI.val], by simp [SurfaceI.val], by simp [SurfaceI.val]⟩, dipole_ok.2.2, ?_⟩
  intro _ i hi
  obtain rfl : (1 : ℝ) = i := Option.some.inj hi
  exact (Real.sin_pos_of_pos_of_lt_pi one_pos (by linarith [Real.pi_gt_three])).ne'

/-- `system_gradient_finite`, with the solver of the program: a circular orbit at the time of transit -/
example (quad : ℕ → List (ℝ × ℝ)) : ∃ a, systemLightCurveD (2 ^ (-52 : ℤ)) true quad eulerOf eulerOfD 20 1 Kepler.kepler 1 ⟨⟨1, some 1⟩, ⟨1, some 2⟩⟩
      ⟨[((0, 0), const 1), ((1, 0), ⟨1, some 2⟩)], some ⟨1, some 1⟩, none, [], some ⟨10, some 1⟩, ⟨1, some 1⟩, ⟨0, some 1⟩, const 1⟩
      [({ semimajor := some ⟨10, some 1⟩, impact_param := some ⟨0.5, some 3⟩, radius := some ⟨0.1, some 1⟩ },
        some ⟨[((0, 0), const 1), ((1, 0), ⟨1, some 2⟩)], some ⟨1, some 1⟩, none, [], some ⟨10, some 1⟩, ⟨1, some 1⟩, ⟨0, some 1⟩, const 1⟩)] ⟨0, some 1⟩ = .ok a ∧
    ∀ x ∈ a, ∃ d, x.d = some d := by
  obtain ⟨o, ho⟩ := mkOrbitalBody_of_accepted 1 ⟨1, 1, 1⟩ (b := { semimajor := some 10, impact_param := some 0.5, radius := some 0.1 })
    (by constructor <;> simp [Given, ScalarIfGiven])
  have ho' := ho
  obtain ⟨-, p0, a0, k0, hps, hec, hO⟩ := mkOrbitalBody_ok ho
  simp only [periodSemimajor, totalMass, Except.ok.injEq, Prod.mk.injEq] at hps
  simp only [eccOf, Except.ok.injEq] at hec
  obtain ⟨rfl, rfl⟩ := hps
  subst hec
  have hreg : RegularOrbit ⟨1, 1, 1⟩ o true := by
    rw [hO]
    refine ⟨?_, ?_, ?_, ?_, ?_, fun _ => ?_⟩
    · change 0 < 2 * π * 10 * √(10 / (1 * 1))
      positivity
    · change (0 : ℝ) < 10
      norm_num
    · norm_num
    · intro k hk
      cases hk
    · intro k hk
      cases hk
    · change (1 * 1 / 10 * 0.5 : ℝ) ^ 2 < 1
      norm_num
  have htr := transit_is_transit_circular 1 ho' hreg.period hreg.semimajor (by norm_num) (by rw [hO]; rfl) (by rw [hO]; rfl) 0
  have e1 : o.node = none := by rw [hO]; rfl
  have e2 : o.impact_param = 0.5 := by rw [hO]; rfl
  have e3 : o.time_transit = 0 := by rw [hO]; rfl
  simp only [e1, e2, e3, Int.cast_zero, zero_mul, add_zero, mul_one] at htr
  obtain ⟨a, h1, -, h3⟩ := system_gradient_finite (eps := 2 ^ (-52 : ℤ)) (by positivity) true quad eulerOf_isEuler eulerOf_differentiates 20 kepler_unitSolver 1 1
    ⟨⟨1, some 1⟩, ⟨1, some 2⟩⟩ 1 _ [({ semimajor := some ⟨10, some 1⟩, impact_param := some ⟨0.5, some 3⟩, radius := some ⟨0.1, some 1⟩ }, some _)] ⟨0, some 1⟩
    ⟨_, rfl⟩ ⟨_, rfl⟩ one_ne_zero dipoleI_regular ⟨_, rfl⟩ (sys := ⟨⟨1, 1, 1⟩, some _, [o], [some _]⟩)
    (by
      simp only [SurfaceSystem.init, List.map_cons, List.map_nil, List.mapM_cons, List.mapM_nil, bindSurfaceBody, Body.map, Option.map_some, Option.map_none, ho', Bind.bind, Except.bind,
        pure, Except.pure]
      rfl)
    (.cons ⟨by intro a ha; simp [Body.args] at ha; rcases ha with rfl | rfl | rfl <;> exact ⟨_, rfl⟩, hreg, ⟨_, rfl, by norm_num⟩, by
      rintro ⟨-, h⟩
      have := htr.1.2.symm.trans h
      norm_num at this, by
      intro surf hs
      obtain rfl := Option.some.inj hs
      exact dipoleI_regular⟩ .nil)
  exact ⟨a, h1, h3⟩

end Jaxoplanet.Starry
