import Verif.Props.Stack
import Verif.Props.Orbit

/-!
# C20 — a `System` is an append-only list of bodies; its quantities are the bodies' own, row by row
-/

namespace Jaxoplanet.Keplerian

open Stack Spec

/-- flattening a body loses nothing -/
theorem unflatten_flatten (o : OrbitalBody) : OrbitalBody.unflatten o.flatten = some o := by
  rcases o with ⟨⟨cm, cr, cd⟩, tr, tt, p, a, si, ci, b, m, r, ecc, node, rv, px⟩
  rcases m with _ | m <;> rcases r with _ | r <;> rcases ecc with _ | ⟨e, s, c⟩ <;>
    rcases node with _ | ⟨s, c⟩ <;> rcases rv with _ | rv <;> rcases px with _ | px <;> rfl

theorem flatten_specDetermines (bs : List OrbitalBody) :
    SpecDeterminesLeaves (bs.map OrbitalBody.flatten) := by
  intro o ho o' ho' h
  obtain ⟨b, -, rfl⟩ := List.mem_map.1 ho
  obtain ⟨b', -, rfl⟩ := List.mem_map.1 ho'
  rcases b with ⟨c1, tr, tt, p, a, si, ci, b, m, r, ecc, node, rv, px⟩
  rcases b' with ⟨c1', tr', tt', p', a', si', ci', b', m', r', ecc', node', rv', px'⟩
  simp only [OrbitalBody.flatten, BodySpec.mk.injEq] at h
  obtain ⟨h1, h2, h3, h4, h5, h6⟩ := h
  have hl : ∀ x y : Option ℝ, x.isSome = y.isSome → (optLeaf x).length = (optLeaf y).length := by
    intro x y h; cases x <;> cases y <;> simp_all [optLeaf]
  simp only [OrbitalBody.flatten, List.length_append]
  rw [hl _ _ h1, hl _ _ h2, hl _ _ h5, hl _ _ h6]
  have he : ∀ x y : Option Ecc, x.isSome = y.isSome →
      (eccLeaves x).length = (eccLeaves y).length := by
    intro x y h; cases x <;> cases y <;> simp_all [eccLeaves]
  have hn : ∀ x y : Option (ℝ × ℝ), x.isSome = y.isSome →
      (nodeLeaves x).length = (nodeLeaves y).length := by
    intro x y h; cases x <;> cases y <;> simp_all [nodeLeaves]
  rw [he _ _ h3, hn _ _ h4]
  rfl

/-- a whole history of `add_body` calls -/
noncomputable def addBodies (G : ℝ) (s : System) :
    List (Body ℝ × Option Central) → Except PyErr System
  | [] => .ok s
  | (b, c) :: rest =>
    match s.addBody G b c with
    | .ok s' => addBodies G s' rest
    | .error e => .error e

theorem bind_orbitals (G : ℝ) (c : Central) (bs : List OrbitalBody) (x : BodyLike) :
    (bs.map BodyLike.orbital ++ [x]).mapM (bindBody G c) =
      (bindBody G c x).map fun o => bs ++ [o] := by
  rw [List.mapM_append]
  have : (bs.map BodyLike.orbital).mapM (bindBody G c) = .ok bs := by
    rw [mapM_ok_iff, List.forall₂_map_left_iff, List.forall₂_same]
    intro b _; rfl
  rw [this]
  simp only [List.mapM_cons, List.mapM_nil]
  cases bindBody G c x <;> rfl

theorem addBody_eq (G : ℝ) (s : System) (b : Body ℝ) (c : Option Central) :
    s.addBody G b c = (mkOrbitalBody G (c.getD s.central) b).map
      fun o => ⟨s.central, s.bodies ++ [o]⟩ := by
  unfold System.addBody System.init
  cases c with
  | none =>
    simp only [Except.bind, bind, bind_orbitals, bindBody, Option.getD_none]
    cases mkOrbitalBody G s.central b <;> rfl
  | some c =>
    simp only [Except.bind, bind, Option.getD_some]
    cases h : mkOrbitalBody G c b with
    | error e => rfl
    | ok o =>
      simp only [Except.map, bind_orbitals, bindBody]
      rfl

/-- **C20 (a).** After any history of `add_body` calls that raises no error, the bodies are the
original ones, unchanged and in order, followed by exactly the added ones in order, each bound to its
own central if one was given and to the system's central otherwise; the central is unchanged.
Conversely the history succeeds as soon as every added body is acceptable. -/
theorem system_history (G : ℝ) (s : System) (adds : List (Body ℝ × Option Central)) :
    (∀ s', addBodies G s adds = .ok s' → s'.central = s.central ∧
      ∃ new, s'.bodies = s.bodies ++ new ∧
        List.Forall₂ (fun (a : Body ℝ × Option Central) o =>
          mkOrbitalBody G (a.2.getD s.central) a.1 = .ok o ∧
          o.central = a.2.getD s.central) adds new) ∧
    ((∀ a ∈ adds, AcceptedBody (fun _ => 0) a.1) → ∃ s', addBodies G s adds = .ok s') := by
  induction adds generalizing s with
  | nil =>
    refine ⟨?_, fun _ => ⟨s, rfl⟩⟩
    intro s' h
    simp only [addBodies, Except.ok.injEq] at h
    subst h
    exact ⟨rfl, [], by simp, .nil⟩
  | cons a rest ih =>
    obtain ⟨b, c⟩ := a
    constructor
    · intro s' h
      simp only [addBodies, addBody_eq] at h
      cases ho : mkOrbitalBody G (c.getD s.central) b with
      | error e => rw [ho] at h; simp [Except.map] at h
      | ok o =>
        rw [ho] at h
        simp only [Except.map] at h
        obtain ⟨h1, new, h2, h3⟩ := (ih ⟨s.central, s.bodies ++ [o]⟩).1 s' h
        refine ⟨h1, o :: new, by simpa using h2, .cons ⟨ho, ?_⟩ h3⟩
        obtain ⟨-, P, A, ecc, -, -, rfl⟩ := mkOrbitalBody_ok ho
        rfl
    · intro hacc
      obtain ⟨o, ho⟩ := mkOrbitalBody_of_accepted G (c.getD s.central) (hacc (b, c) (by simp))
      simp only [addBodies, addBody_eq, ho, Except.map]
      exact (ih ⟨s.central, s.bodies ++ [o]⟩).2 fun a ha => hacc a (by simp [ha])

/-- **C20 (a').** The constructor: bodies in the given order, each bound as above; the default
central is 1 M_sun, 1 R_sun. -/
theorem system_init (G : ℝ) (c : Option Central) (bs : List BodyLike) {s : System}
    (h : System.init G c bs = .ok s) :
    (∀ c', c = some c' → s.central = c') ∧
    (c = none → s.central.mass = 1 ∧ s.central.radius = 1) ∧
    List.Forall₂ (fun b o => match b with
      | .orbital o' => o = o'
      | .body b => mkOrbitalBody G s.central b = .ok o) bs s.bodies := by
  unfold System.init at h
  cases c with
  | none =>
    simp only [Central.init, Option.isNone_none, Bool.and_self, if_true, Option.isSome_none,
      Bool.false_eq_true, if_false, ne_eq, not_true_eq_false, or_self, bind,
      Except.bind] at h
    split at h
    · cases h
    rename_i os hos
    simp only [pure, Except.pure, Except.ok.injEq] at h
    subst h
    refine ⟨by simp, fun _ => ⟨rfl, rfl⟩, ?_⟩
    refine (mapM_ok_iff.1 hos).imp ?_
    intro b o hb
    cases b with
    | body b => exact hb
    | orbital o' => simp only [bindBody, Except.ok.injEq] at hb; exact hb.symm
  | some c =>
    simp only [bind, Except.bind] at h
    split at h
    · cases h
    rename_i os hos
    simp only [pure, Except.pure, Except.ok.injEq] at h
    subst h
    refine ⟨by simp, by simp, ?_⟩
    refine (mapM_ok_iff.1 hos).imp ?_
    intro b o hb
    cases b with
    | body b => exact hb
    | orbital o' => simp only [bindBody, Except.ok.injEq] at hb; exact hb.symm

/-- **C20 (b).** Row by row: mapping a function with `k` scalar outputs over a non-empty system
returns `k` vectors with one entry per body, the `n`-th being the `n`-th body's own value — whether
or not the bodies have the same set of parameters. -/
theorem bodyVmap_rows (s : System) (hs : s.bodies ≠ []) (k : ℕ)
    (func : OrbitalBody → Except PyErr (List ℝ)) (val : OrbitalBody → List ℝ)
    (hval : ∀ o ∈ s.bodies, func o = .ok (val o) ∧ (val o).length = k) :
    ∃ rows : List Arr, s.bodyVmap k func = .ok ⟨(), rows⟩ ∧ rows.length = k ∧
      ∀ i < k, rows[i]? = some (.vec (s.bodies.map fun o => .scalar ((val o).getD i 0))) := by
  unfold System.bodyVmap System.bodyStack
  rw [vmap_eq_loop _ (flatten_specDetermines _) _ _ _ _
    (by intro _ a ha; rw [List.eq_of_mem_replicate ha]; simp) (by simp)]
  unfold loopPath
  have hres : (s.bodies.map OrbitalBody.flatten).zipIdx.mapM
      (fun x => callAt (onTree func) [] [] x.2 x.1) =
      .ok (s.bodies.map fun o => ⟨(), (val o).map .scalar⟩) := by
    rw [mapM_ok_iff, List.forall₂_iff_get]
    refine ⟨by simp, ?_⟩
    intro i h1 h2
    have hlt : i < s.bodies.length := by simpa using h2
    have hv := hval s.bodies[i] (List.getElem_mem hlt)
    simp only [List.get_eq_getElem, List.getElem_zipIdx, List.getElem_map]
    simp [callAt, orErr, onTree, unflatten_flatten, hv.1, Except.map, bind, Except.bind]
  obtain ⟨b0, bs, hb⟩ := List.exists_cons_of_ne_nil hs
  refine ⟨(List.range k).map fun i => .vec (s.bodies.map fun o => .scalar ((val o).getD i 0)),
    ?_, by simp, fun i hi => by simp [hi]⟩
  rw [hres]
  simp only [bind, Except.bind]
  simp only [hb, List.map_cons, assemble]
  have hk0 : (val b0).length = k := (hval b0 (by rw [hb]; simp)).2
  rw [if_pos (by simp)]
  simp only [bind, Except.bind, List.length_map, hk0]
  have hcols : ∀ i < k, (({ spec := (), leaves := (val b0).map Arr.scalar } : PyTree Unit) ::
        bs.map fun o => { spec := (), leaves := (val o).map .scalar }).mapM
        (fun r => r.leaves[i]?)
      = some ((b0 :: bs).map fun o => Arr.scalar ((val o).getD i 0)) := by
    intro i hi
    rw [← List.map_cons (f := fun o => ({ spec := (), leaves := (val o).map .scalar } : PyTree Unit)),
      mapM_some_iff, List.forall₂_map_left_iff, List.forall₂_map_right_iff, List.forall₂_same]
    intro o ho
    have : i < (val o).length := by rw [(hval o (by rw [hb]; exact ho)).2]; exact hi
    simp [this]
  have hm : (List.range k).mapM (column (List.replicate k (some 0)) false
        ({ spec := (), leaves := (val b0).map Arr.scalar } ::
          bs.map fun o => { spec := (), leaves := (val o).map .scalar })) =
      .ok ((List.range k).map fun i =>
        Arr.vec ((b0 :: bs).map fun o => .scalar ((val o).getD i 0))) := by
    rw [mapM_ok_iff, List.forall₂_map_right_iff, List.forall₂_same]
    intro i hi
    have hi := List.mem_range.1 hi
    unfold column
    rw [hcols i hi]
    simp [orErr, hi, outLeaf, stackArr, bind, Except.bind]
  rw [hm]
  simp [pure, Except.pure]

/-- **C20 (c).** The system-level methods, for a non-empty system: the `n`-th entry of each of the
returned components is the `n`-th body's own quantity. -/
theorem system_quantities (kep : ℝ → ℝ → ℝ × ℝ) (au : ℝ) (s : System) (hs : s.bodies ≠ []) (t : ℝ) :
    s.position kep au t = .ok ⟨(),
      [.vec (s.bodies.map fun o => .scalar (o.position kep au t).x),
       .vec (s.bodies.map fun o => .scalar (o.position kep au t).y),
       .vec (s.bodies.map fun o => .scalar (o.position kep au t).z)]⟩ ∧
    s.relative_position kep au t = .ok ⟨(),
      [.vec (s.bodies.map fun o => .scalar (o.relative_position kep au t).x),
       .vec (s.bodies.map fun o => .scalar (o.relative_position kep au t).y),
       .vec (s.bodies.map fun o => .scalar (o.relative_position kep au t).z)]⟩ ∧
    s.central_velocity kep au t = .ok ⟨(),
      [.vec (s.bodies.map fun o => .scalar (o.central_velocity kep au t).x),
       .vec (s.bodies.map fun o => .scalar (o.central_velocity kep au t).y),
       .vec (s.bodies.map fun o => .scalar (o.central_velocity kep au t).z)]⟩ ∧
    s.radial_velocity kep au t = .ok ⟨(),
      [.vec (s.bodies.map fun o => .scalar (o.radial_velocity kep au t))]⟩ := by
  have three : ∀ g : OrbitalBody → V3, s.bodyVmap 3 (fun o => .ok (g o).toList) = .ok ⟨(),
      [.vec (s.bodies.map fun o => .scalar (g o).x), .vec (s.bodies.map fun o => .scalar (g o).y),
       .vec (s.bodies.map fun o => .scalar (g o).z)]⟩ := by
    intro g
    obtain ⟨rows, h1, h2, h3⟩ := bodyVmap_rows s hs 3 (fun o => .ok (g o).toList)
      (fun o => (g o).toList) (fun o _ => ⟨rfl, rfl⟩)
    rw [h1]
    have e0 := h3 0 (by norm_num)
    have e1 := h3 1 (by norm_num)
    have e2 := h3 2 (by norm_num)
    match rows, h2 with
    | [a, b, c], _ =>
      simp only [List.getElem?_cons_zero, List.getElem?_cons_succ, Option.some.injEq] at e0 e1 e2
      subst e0 e1 e2
      rfl
  refine ⟨three _, three _, three _, ?_⟩
  obtain ⟨rows, h1, h2, h3⟩ := bodyVmap_rows s hs 1 (fun o => .ok [o.radial_velocity kep au t])
    (fun o => [o.radial_velocity kep au t]) (fun o _ => ⟨rfl, rfl⟩)
  unfold System.radial_velocity
  rw [h1]
  have e0 := h3 0 (by norm_num)
  match rows, h2 with
  | [a], _ =>
    simp only [List.getElem?_cons_zero, Option.some.injEq] at e0
    subst e0
    rfl

/-- **C20 (c').** `central_position`, `velocity` and `relative_velocity` need every body to allow
them (a mass, for the first); then they are row-wise too. -/
theorem system_quantities' (kep : ℝ → ℝ → ℝ × ℝ) (au : ℝ) (s : System) (hs : s.bodies ≠ []) (t : ℝ)
    (hm : ∀ o ∈ s.bodies, Given o.mass) :
    ∃ (q v w : OrbitalBody → V3), (∀ o ∈ s.bodies, o.central_position kep au t = .ok (q o) ∧
        o.velocity kep au t = .ok (v o) ∧ o.relative_velocity kep au t = .ok (w o)) ∧
      s.central_position kep au t = .ok ⟨(),
        [.vec (s.bodies.map fun o => .scalar (q o).x), .vec (s.bodies.map fun o => .scalar (q o).y),
         .vec (s.bodies.map fun o => .scalar (q o).z)]⟩ ∧
      s.velocity kep au t = .ok ⟨(),
        [.vec (s.bodies.map fun o => .scalar (v o).x), .vec (s.bodies.map fun o => .scalar (v o).y),
         .vec (s.bodies.map fun o => .scalar (v o).z)]⟩ ∧
      s.relative_velocity kep au t = .ok ⟨(),
        [.vec (s.bodies.map fun o => .scalar (w o).x), .vec (s.bodies.map fun o => .scalar (w o).y),
         .vec (s.bodies.map fun o => .scalar (w o).z)]⟩ := by
  have three : ∀ (g : OrbitalBody → Except PyErr V3) (v : OrbitalBody → V3),
      (∀ o ∈ s.bodies, g o = .ok (v o)) →
      s.bodyVmap 3 (fun o => (g o).map V3.toList) = .ok ⟨(),
      [.vec (s.bodies.map fun o => .scalar (v o).x), .vec (s.bodies.map fun o => .scalar (v o).y),
       .vec (s.bodies.map fun o => .scalar (v o).z)]⟩ := by
    intro g v hgv
    obtain ⟨rows, h1, h2, h3⟩ := bodyVmap_rows s hs 3 (fun o => (g o).map V3.toList)
      (fun o => (v o).toList) (fun o ho => ⟨by rw [hgv o ho]; rfl, rfl⟩)
    rw [h1]
    have e0 := h3 0 (by norm_num)
    have e1 := h3 1 (by norm_num)
    have e2 := h3 2 (by norm_num)
    match rows, h2 with
    | [a, b, c], _ =>
      simp only [List.getElem?_cons_zero, List.getElem?_cons_succ, Option.some.injEq] at e0 e1 e2
      subst e0 e1 e2
      rfl
  let q : OrbitalBody → V3 := fun o =>
    match o.central_position kep au t with | .ok v => v | .error _ => ⟨0, 0, 0⟩
  let v : OrbitalBody → V3 := fun o =>
    match o.velocity kep au t with | .ok v => v | .error _ => ⟨0, 0, 0⟩
  let w : OrbitalBody → V3 := fun o =>
    match o.relative_velocity kep au t with | .ok v => v | .error _ => ⟨0, 0, 0⟩
  have hq : ∀ o ∈ s.bodies, o.central_position kep au t = .ok (q o) := by
    intro o ho
    obtain ⟨m, hm'⟩ := hm o ho
    simp only [q, OrbitalBody.central_position, hm']
  have hv : ∀ o ∈ s.bodies, o.velocity kep au t = .ok (v o) := fun o _ => rfl
  have hw : ∀ o ∈ s.bodies, o.relative_velocity kep au t = .ok (w o) := fun o _ => rfl
  exact ⟨q, v, w, fun o ho => ⟨hq o ho, hv o ho, hw o ho⟩, three _ q hq, three _ v hv,
    three _ w hw⟩

/-- an empty system has no rows to return: every mapped quantity is an error -/
theorem empty_system_errors (c : Central) (k : ℕ) (func : OrbitalBody → Except PyErr (List ℝ)) :
    (System.mk c []).bodyVmap k func = .error .other := rfl

/-- non-vacuity: a two-body history with different parameter sets is accepted -/
example : ∃ s', addBodies 2942 ⟨⟨1, 1, 1⟩, []⟩
    [({ period := some 1, mass := some 0.1 }, none),
     ({ semimajor := some 10, eccentricity := some 0.3, omega_peri := some 1 },
      some ⟨2, 1, 1⟩)] = .ok s' ∧ s'.bodies.length = 2 := by
  have hacc : ∀ a ∈ ([({ period := some 1, mass := some 0.1 }, none),
     ({ semimajor := some 10, eccentricity := some 0.3, omega_peri := some 1 },
      some ⟨2, 1, 1⟩)] : List (Body ℝ × Option Central)), AcceptedBody (fun _ => 0) a.1 := by
    intro a ha
    simp only [List.mem_cons, List.not_mem_nil, or_false] at ha
    rcases ha with rfl | rfl <;> constructor <;> simp [Given, ScalarIfGiven]
  obtain ⟨s', hs'⟩ := (system_history 2942 ⟨⟨1, 1, 1⟩, []⟩ _).2 hacc
  refine ⟨s', hs', ?_⟩
  obtain ⟨-, new, h1, h2⟩ := (system_history 2942 ⟨⟨1, 1, 1⟩, []⟩ _).1 s' hs'
  rw [h1]
  simpa using h2.length_eq.symm

end Jaxoplanet.Keplerian
