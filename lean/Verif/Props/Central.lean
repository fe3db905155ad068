import Verif.Spec.Orbit
import Verif.Proofs.Basic

/-!
# Properties C08–C11: `Central`, `Body`, Kepler's third law
-/

namespace Jaxoplanet.Keplerian

open Real Spec

/-- **C08 (a).** Scalars: `Central(mass, radius, density)` is accepted exactly when two of the three
are given, or none, or only the density.  (All three given is rejected too, though only by
`equinox`'s uninitialised-field error, finding F15.) -/
theorem central_accepted_iff (mass radius density : Option ℝ) :
    (∃ c, Central.init mass radius density = .ok c) ↔
      (Given mass ∧ Given radius ∧ ¬ Given density) ∨ (Given mass ∧ ¬ Given radius ∧ Given density) ∨
      (¬ Given mass ∧ Given radius ∧ Given density) ∨
      (¬ Given mass ∧ ¬ Given radius) := by
  cases mass <;> cases radius <;> cases density <;> simp [Central.init, Given]

/-- **C08 (b).** Whenever construction succeeds with non-zero radius/density inputs, mass, radius and
density satisfy the sphere relation, the given values are kept, and the defaults are the Sun's. -/
theorem central_consistent (mass radius density : Option ℝ) (c : Central)
    (hm : ∀ m, mass = some m → 0 ≤ m) (hr : ∀ r, radius = some r → 0 < r)
    (hd : ∀ d, density = some d → 0 < d)
    (h : Central.init mass radius density = .ok c) :
    SphereRelation c.mass c.radius c.density ∧
    (∀ m, mass = some m → c.mass = m) ∧ (∀ r, radius = some r → c.radius = r) ∧
    (∀ d, density = some d → c.density = d) ∧
    (¬ Given mass → ¬ Given radius → c.radius = 1) ∧
    (¬ Given mass → ¬ Given radius → ¬ Given density → c.mass = 1) := by
  have hpi := pi_pos
  have cube : ∀ m ρ : ℝ, 0 ≤ m → 0 < ρ → ((3 * m / (4 * π * ρ)) ^ (1 / 3 : ℝ)) ^ 3
      = 3 * m / (4 * π * ρ) := by
    intro m ρ hm hρ
    rw [← rpow_natCast, ← rpow_mul (by positivity)]
    norm_num
  cases mass with
  | none =>
    cases radius with
    | none =>
      cases density with
      | none =>
        simp [Central.init] at h
        subst h
        refine ⟨?_, by simp, by simp, by simp, by simp, by simp⟩
        unfold SphereRelation
        simp only
        field_simp
      | some d =>
        simp [Central.init] at h
        subst h
        refine ⟨?_, by simp, by simp, by simp, by simp, by simp [Given]⟩
        unfold SphereRelation
        simp only
        ring
    | some r =>
      cases density with
      | none => simp [Central.init] at h
      | some d =>
        simp [Central.init] at h
        subst h
        refine ⟨?_, by simp, by simp, by simp, by simp [Given], by simp [Given]⟩
        unfold SphereRelation
        simp only
        ring
  | some m =>
    cases radius with
    | none =>
      cases density with
      | none => simp [Central.init] at h
      | some d =>
        have hd' := hd d rfl
        have hm' := hm m rfl
        simp [Central.init] at h
        subst h
        refine ⟨?_, by simp, by simp, by simp, by simp [Given], by simp [Given]⟩
        unfold SphereRelation
        have := cube m d hm' hd'
        simp only
        rw [show (3 : ℝ)⁻¹ = 1 / 3 by norm_num, this]
        field_simp
    | some r =>
      cases density with
      | none =>
        have hr' := hr r rfl
        simp [Central.init] at h
        subst h
        refine ⟨?_, by simp, by simp, by simp, by simp [Given], by simp [Given]⟩
        unfold SphereRelation
        simp only
        field_simp
      | some d => simp [Central.init] at h

/-- **C08 (c).** Every rejected combination of scalars raises; with exactly one of mass / radius it
is the documented `ValueError`, with all three it is `equinox`'s uninitialised-field error. -/
theorem central_errors :
    (∀ m, Central.init (some m) none none = .error (.valueError
      "Values must be provided for exactly two of mass, radius, and density")) ∧
    (∀ r, Central.init none (some r) none = .error (.valueError
      "Values must be provided for exactly two of mass, radius, and density")) ∧
    (∀ m r d, Central.init (some m) (some r) (some d) = .error .uninitialised) := by
  refine ⟨?_, ?_, ?_⟩ <;> intros <;> simp [Central.init]

/-- **C08 (d).** Any given argument that is not a scalar is rejected with a `ValueError`. -/
theorem central_nonscalar (mass radius density : Option ℝ) (nM nR nD : ℕ)
    (h : (Given mass ∧ nM ≠ 0) ∨ (Given radius ∧ nR ≠ 0) ∨ (Given density ∧ nD ≠ 0)) :
    ∃ msg, Central.init mass radius density nM nR nD = .error (.valueError msg) := by
  refine ⟨"All parameters of a KeplerianCentral must be scalars", ?_⟩
  unfold Central.init
  simp only
  rw [if_pos]
  rcases h with ⟨⟨m, rfl⟩, h⟩ | ⟨⟨r, rfl⟩, h⟩ | ⟨⟨d, rfl⟩, h⟩
  · left; simpa using h
  · right; left; simpa using h
  · right; right; simpa using h

/-- non-vacuity of C08: mass and density given -/
example : ∃ c, Central.init (some 2) none (some 3) = .ok c ∧ SphereRelation c.mass c.radius c.density ∧
    c.mass = 2 := by
  obtain ⟨c, hc⟩ := (central_accepted_iff (some 2) none (some 3)).2 (by simp [Given])
  have := central_consistent _ _ _ c (by simp) (by simp) (by simp) hc
  exact ⟨c, hc, this.1, this.2.1 2 rfl⟩

/-- **C10.** `Body(...)` is accepted exactly under the documented rules; an accepted body is the
record of its arguments, a rejected one raises a `ValueError`. -/
theorem body_accepted_iff {α : Type} (ndim : α → ℕ) (b : Body α) :
    ((∃ b', Body.create ndim b = .ok b') ↔ AcceptedBody ndim b) ∧
    (∀ b', Body.create ndim b = .ok b' → b' = b) ∧
    (∀ err, Body.create ndim b = .error err → ∃ msg, err = .valueError msg) := by
  have hG : ∀ {β : Type} (o : Option β), Given o ↔ o.isSome = true := by
    intro β o; cases o <;> simp [Given]
  have hargs : ((b.args.filterMap id).any fun a => ndim a != 0) = false ↔
      (ScalarIfGiven ndim b.time_transit ∧ ScalarIfGiven ndim b.time_peri ∧
    ScalarIfGiven ndim b.period ∧ ScalarIfGiven ndim b.semimajor ∧
    ScalarIfGiven ndim b.inclination ∧ ScalarIfGiven ndim b.impact_param ∧
    ScalarIfGiven ndim b.eccentricity ∧ ScalarIfGiven ndim b.omega_peri ∧
    ScalarIfGiven ndim b.sin_omega_peri ∧ ScalarIfGiven ndim b.cos_omega_peri ∧
    ScalarIfGiven ndim b.asc_node ∧ ScalarIfGiven ndim b.sin_asc_node ∧
    ScalarIfGiven ndim b.cos_asc_node ∧ ScalarIfGiven ndim b.mass ∧
    ScalarIfGiven ndim b.radius ∧ ScalarIfGiven ndim b.radial_velocity_semiamplitude ∧
    ScalarIfGiven ndim b.parallax) := by
    rw [List.any_eq_false]
    simp only [List.mem_filterMap, id, exists_eq_right, bne_iff_ne, ne_eq, not_not, Body.args,
      List.mem_cons, List.not_mem_nil, or_false, ScalarIfGiven]
    constructor
    · intro h
      refine ⟨?_, ?_, ?_, ?_, ?_, ?_, ?_, ?_, ?_, ?_, ?_, ?_, ?_, ?_, ?_, ?_, ?_⟩ <;>
        (intro a ha; exact h a (by simp [ha]))
    · rintro ⟨h1, h2, h3, h4, h5, h6, h7, h8, h9, h10, h11, h12, h13, h14, h15, h16, h17⟩ a ha
      rcases ha with h | h | h | h | h | h | h | h | h | h | h | h | h | h | h | h | h
      exacts [h1 a h.symm, h2 a h.symm, h3 a h.symm, h4 a h.symm, h5 a h.symm, h6 a h.symm,
        h7 a h.symm, h8 a h.symm, h9 a h.symm, h10 a h.symm, h11 a h.symm, h12 a h.symm,
        h13 a h.symm, h14 a h.symm, h15 a h.symm, h16 a h.symm, h17 a h.symm]
  have hacc : AcceptedBody ndim b ↔
      ((!(b.period.isNone ^^ b.semimajor.isNone)) = false ∧
      ((b.args.filterMap id).any fun a => ndim a != 0) = false ∧
      (b.omega_peri.isSome && (b.sin_omega_peri.isSome || b.cos_omega_peri.isSome)) = false ∧
      (b.sin_omega_peri.isSome ^^ b.cos_omega_peri.isSome) = false ∧
      (b.asc_node.isSome && (b.sin_asc_node.isSome || b.cos_asc_node.isSome)) = false ∧
      (b.sin_asc_node.isSome ^^ b.cos_asc_node.isSome) = false ∧
      (b.eccentricity.isSome ^^ (b.omega_peri.isSome || b.sin_omega_peri.isSome ||
        b.cos_omega_peri.isSome)) = false ∧
      (b.impact_param.isSome && b.inclination.isSome) = false ∧
      (b.time_transit.isSome && b.time_peri.isSome) = false) := by
    constructor
    · rintro ⟨h1, h2, h3, h4, h5, h6, h7, h8, h9⟩
      simp only [hG] at *
      refine ⟨?_, hargs.2 h2, ?_, ?_, ?_, ?_, ?_, ?_, ?_⟩
      · cases hp : b.period <;> cases hs : b.semimajor <;> simp_all
      · cases hp : b.omega_peri <;> cases hs : b.sin_omega_peri <;> simp_all
      · cases hp : b.cos_omega_peri <;> cases hs : b.sin_omega_peri <;> simp_all
      · cases hp : b.asc_node <;> cases hs : b.sin_asc_node <;> simp_all
      · cases hp : b.cos_asc_node <;> cases hs : b.sin_asc_node <;> simp_all
      · cases hp : b.eccentricity <;> cases hs : b.sin_omega_peri <;>
          cases hq : b.omega_peri <;> simp_all
      · cases hp : b.impact_param <;> simp_all
      · cases hp : b.time_transit <;> simp_all
    · rintro ⟨h1, h2, h3, h4, h5, h6, h7, h8, h9⟩
      refine ⟨?_, hargs.1 h2, ?_, ?_, ?_, ?_, ?_, ?_, ?_⟩ <;> simp only [hG]
      · cases hp : b.period <;> cases hs : b.semimajor <;> simp_all
      · cases hp : b.omega_peri <;> cases hs : b.sin_omega_peri <;> simp_all
      · cases hp : b.cos_omega_peri <;> cases hs : b.sin_omega_peri <;> simp_all
      · cases hp : b.asc_node <;> cases hs : b.sin_asc_node <;> simp_all
      · cases hp : b.cos_asc_node <;> cases hs : b.sin_asc_node <;> simp_all
      · cases hp : b.eccentricity <;> cases hs : b.sin_omega_peri <;>
          cases hq : b.omega_peri <;> simp_all
      · cases hp : b.impact_param <;> simp_all
      · cases hp : b.time_transit <;> simp_all
  rw [hacc]
  unfold Body.create Body.checkInit
  simp only [bind, Except.bind, throw, throwThe, MonadExceptOf.throw, pure, Except.pure]
  generalize (!(b.period.isNone ^^ b.semimajor.isNone)) = c1
  generalize ((b.args.filterMap id).any fun a => ndim a != 0) = c2
  generalize (b.omega_peri.isSome && (b.sin_omega_peri.isSome || b.cos_omega_peri.isSome)) = c3
  generalize (b.sin_omega_peri.isSome ^^ b.cos_omega_peri.isSome) = c4
  generalize (b.asc_node.isSome && (b.sin_asc_node.isSome || b.cos_asc_node.isSome)) = c5
  generalize (b.sin_asc_node.isSome ^^ b.cos_asc_node.isSome) = c6
  generalize (b.eccentricity.isSome ^^ (b.omega_peri.isSome || b.sin_omega_peri.isSome ||
        b.cos_omega_peri.isSome)) = c7
  generalize (b.impact_param.isSome && b.inclination.isSome) = c8
  generalize (b.time_transit.isSome && b.time_peri.isSome) = c9
  cases c1 <;> [skip; (simp [Except.map]; done)]
  cases c2 <;> [skip; (simp [Except.map]; done)]
  cases c3 <;> [skip; (simp [Except.map]; done)]
  cases c4 <;> [skip; (simp [Except.map]; done)]
  cases c5 <;> [skip; (simp [Except.map]; done)]
  cases c6 <;> [skip; (simp [Except.map]; done)]
  cases c7 <;> [skip; (simp [Except.map]; done)]
  cases c8 <;> [skip; (simp [Except.map]; done)]
  cases c9 <;> simp [Except.map]

/-- non-vacuity of C10: an accepted and a rejected body -/
example : AcceptedBody (fun _ : ℝ => 0)
    { period := some 3, eccentricity := some 0.1, omega_peri := some 1,
      impact_param := some 0.2 } := by
  constructor <;> simp [Given, ScalarIfGiven]
example : ¬ AcceptedBody (fun _ : ℝ => 0) { period := some 3, eccentricity := some 0.1 } := by
  intro h
  have := h.ecc_iff_omega
  simp [Given] at this

end Jaxoplanet.Keplerian
