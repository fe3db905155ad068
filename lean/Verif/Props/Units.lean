import Mathlib.Analysis.Real.Pi.Bounds
import Mathlib.Tactic
import Verif.Spec.Units
import Verif.Proofs.Orbit
import Verif.Proofs.Stack

/-! # Properties of the unit layer (C37, C53) -/

namespace Jaxoplanet.Units

/-! ## C53: conversion -/

/-- C53: conversion succeeds exactly between units of the same dimension; it yields the requested unit
and the same physical value. -/
theorem to_spec (q : Quantity) (u : Unit) (hu : u.size ≠ 0) :
    (q.units.dim = u.dim → ∃ q', q.to u = .ok q' ∧ q'.units = u ∧ q'.phys = q.phys) ∧
    (q.units.dim ≠ u.dim → q.to u = .error .dimensionality) := by
  constructor
  · intro h
    refine ⟨⟨q.magnitude * q.units.size / u.size, u⟩, by simp [Quantity.to, h], rfl, ?_⟩
    simp only [Quantity.phys, h, Prod.mk.injEq, true_and]
    field_simp
  · intro h; simp [Quantity.to, h]

/-- C53: a quantity is determined by its unit and its physical value, so conversions compose and round
trips are the identity. -/
theorem to_comp (q q1 : Quantity) (u v : Unit) (hu : u.size ≠ 0) (hv : v.size ≠ 0)
    (h : q.to u = .ok q1) : q1.to v = q.to v := by
  unfold Quantity.to at h
  split_ifs at h with hd
  rw [Except.ok.injEq] at h
  subst h
  simp only [Quantity.to, hd]
  split_ifs <;> [(congr 2; field_simp); rfl]

theorem to_roundtrip (q q1 : Quantity) (u : Unit) (hu : u.size ≠ 0) (hq : q.units.size ≠ 0)
    (h : q.to u = .ok q1) : q1.to q.units = .ok q := by
  rw [to_comp q q1 u q.units hu hq h]
  simp only [Quantity.to, if_true]
  rw [mul_div_assoc, div_self hq, mul_one]

/-- C53: the solar, Jovian and terrestrial masses times `G` are the mass parameters. -/
theorem mass_parameters :
    gravitationalConstant.mul M_sun = GM_sun ∧ gravitationalConstant.mul M_jupiter = GM_jupiter ∧
    gravitationalConstant.mul M_earth = GM_earth := by
  refine ⟨?_, ?_, ?_⟩ <;>
    simp only [Unit.mul, Unit.div, gravitationalConstant, M_sun, M_jupiter, M_earth, GM_sun, GM_jupiter,
      GM_earth] <;> norm_num

/-- C53: Newton's constant in the units the code works in depends on the measured `GM_sun` only. -/
theorem codeG_eq : codeG = GM_sun.size * day.size ^ 2 / R_sun.size ^ 3 := by
  have h : gravitationalConstant.size * M_sun.size = GM_sun.size :=
    congrArg Unit.size mass_parameters.1
  unfold codeG
  rw [h]

theorem codeG_pos : 0 < codeG := by
  rw [codeG_eq]
  simp only [GM_sun, day, R_sun]
  norm_num

/-- C53: a test particle at one astronomical unit from the Sun takes a (sidereal) year, in the units the code works in
(`P² = 4 π² a³ / (G M)` with `M = 1`) -/
theorem year_in_code_units :
    365.256 ^ 2 < 4 * Real.pi ^ 2 * (AU.size / R_sun.size) ^ 3 / codeG ∧ 4 * Real.pi ^ 2 * (AU.size / R_sun.size) ^ 3 / codeG < 365.258 ^ 2 := by
  have h1 := Real.pi_gt_d6
  have h2 := Real.pi_lt_d6
  have h3 : (3.141592 : ℝ) ^ 2 < Real.pi ^ 2 := by nlinarith
  have h4 : Real.pi ^ 2 < (3.141593 : ℝ) ^ 2 := by nlinarith
  rw [codeG_eq]
  simp only [GM_sun, day, R_sun, AU]
  norm_num at *
  constructor <;> linarith

/-- C53: the planets against the Sun: mass and radius ratios -/
theorem planet_ratios :
    1047.5 < M_sun.size / M_jupiter.size ∧ M_sun.size / M_jupiter.size < 1047.6 ∧
    332940 < M_sun.size / M_earth.size ∧ M_sun.size / M_earth.size < 332950 ∧
    9.73 < R_sun.size / R_jupiter.size ∧ R_sun.size / R_jupiter.size < 9.74 ∧
    109 < R_sun.size / R_earth.size ∧ R_sun.size / R_earth.size < 109.1 := by
  simp only [Unit.div, gravitationalConstant, M_sun, M_jupiter, M_earth, GM_sun, GM_jupiter, GM_earth, R_sun, R_jupiter, R_earth]
  norm_num

/-! ## C37: `quantity_input` -/

theorem apply_leaf (strict : Bool) (v : Leaf) (u : Unit) (hu : u.size ≠ 0) (r : Leaf)
    (h : applyUnits strict v (.leaf u) = .ok r) :
    ∃ q', r = .quantity q' ∧ q'.units = u ∧
      (∀ q, v = .quantity q → q'.phys = q.phys) ∧ (∀ x, v = .bare x → strict = false ∧ q'.magnitude = x) := by
  cases v with
  | quantity q =>
    simp only [applyUnits] at h
    by_cases hd : q.units.dim = u.dim
    · obtain ⟨q', h1, h2, h3⟩ := (to_spec q u hu).1 hd
      rw [h1] at h
      simp only [Except.map, Except.ok.injEq] at h
      refine ⟨q', h.symm, h2, ?_, by simp⟩
      intro q0 h0
      cases h0
      exact h3
    · rw [(to_spec q u hu).2 hd] at h
      simp [Except.map] at h
  | bare x =>
    simp only [applyUnits] at h
    split_ifs at h with hs
    rw [Except.ok.injEq] at h
    exact ⟨⟨x, u⟩, h.symm, rfl, by simp, fun y hy => ⟨by simpa using hs, by cases hy; rfl⟩⟩

theorem treeMapList_forall₂ (strict : Bool) {cs : List (Tree Leaf)} {us : List (Tree Unit)}
    {rs : List (Tree Leaf)} (h : treeMapList strict cs us = .ok rs) :
    cs.length = us.length ∧ rs.length = cs.length ∧
    ∀ i (hc : i < cs.length) (hu : i < us.length) (hr : i < rs.length),
      treeMap strict cs[i] us[i] = .ok rs[i] := by
  induction cs generalizing us rs with
  | nil =>
    match us with
    | [] =>
      simp only [treeMapList, Except.ok.injEq] at h
      subst h
      exact ⟨rfl, rfl, fun i hc => absurd hc (by simp)⟩
    | u :: us => simp [treeMapList] at h
  | cons c cs ih =>
    match us with
    | [] => simp [treeMapList] at h
    | u :: us =>
      simp only [treeMapList] at h
      cases hc : treeMap strict c u with
      | error e => rw [hc] at h; simp [bind, Except.bind] at h
      | ok c' =>
        cases hcs : treeMapList strict cs us with
        | error e => rw [hc, hcs] at h; simp [bind, Except.bind] at h
        | ok cs' =>
          rw [hc, hcs] at h
          simp only [bind, Except.bind, pure, Except.pure, Except.ok.injEq] at h
          subst h
          obtain ⟨h1, h2, h3⟩ := ih hcs
          refine ⟨by simp [h1], by simp [h2], fun i hi hu hr => ?_⟩
          cases i with
          | zero => exact hc
          | succ i => exact h3 i (by simpa using hi) (by simpa using hu) (by simpa using hr)

/-- C37 (trees): when conversion of a structured argument succeeds, the result has, at every position
where a unit is declared, a quantity in exactly that unit; it has the physical value of the caller's
quantity, or (not in strict mode) the caller's number when that had no unit. Positions declared `None`
are passed through unchanged. -/
theorem treeMap_leaves (strict : Bool) (value : Tree Leaf) (units : Tree Unit) (r : Tree Leaf)
    (h : treeMap strict value units = .ok r) (path : List ℕ) (v : Leaf)
    (hv : value.at path = some (.leaf v)) :
    (∀ u, units.at path = some (.leaf u) → u.size ≠ 0 →
      ∃ q', r.at path = some (.leaf (.quantity q')) ∧ q'.units = u ∧
        (∀ q, v = .quantity q → q'.phys = q.phys) ∧
        (∀ x, v = .bare x → strict = false ∧ q'.magnitude = x)) ∧
    (units.at path = some .none → r.at path = some (.leaf v)) := by
  induction path generalizing value units r with
  | nil =>
    simp only [Tree.at, Option.some.injEq] at hv
    subst hv
    simp only [treeMap] at h
    cases ha : applyUnits strict v units with
    | error e => rw [ha] at h; simp [Except.map] at h
    | ok w =>
      rw [ha] at h
      simp only [Except.map, Except.ok.injEq] at h
      subst h
      simp only [Tree.at, Option.some.injEq]
      constructor
      · intro u hu hsz
        subst hu
        obtain ⟨q', h1, h2⟩ := apply_leaf strict v u hsz w ha
        exact ⟨q', by rw [h1], h2⟩
      · intro hu
        subst hu
        simp only [applyUnits, Except.ok.injEq] at ha
        rw [ha]
  | cons i p ih =>
    match value, hv with
    | .node l cs, hv =>
      match units with
      | .node l' us =>
        simp only [treeMap] at h
        split_ifs at h with hl
        · cases hm : treeMapList strict cs us with
          | error e => rw [hm] at h; simp [Except.map] at h
          | ok rs =>
            rw [hm] at h
            simp only [Except.map, Except.ok.injEq] at h
            subst h
            obtain ⟨h1, h2, h3⟩ := treeMapList_forall₂ strict hm
            simp only [Tree.at] at hv ⊢
            by_cases hi : i < cs.length
            · have hu : i < us.length := by omega
              have hr : i < rs.length := by omega
              rw [List.getElem?_eq_getElem hi] at hv
              rw [List.getElem?_eq_getElem hr, List.getElem?_eq_getElem hu]
              exact ih cs[i] us[i] rs[i] (h3 i hi hu hr) hv
            · rw [List.getElem?_eq_none (by omega)] at hv
              simp at hv
      | .leaf u => simp [treeMap] at h
      | .none => simp [treeMap] at h

/-- the outcome for one scalar argument -/
theorem treeMap_scalar (strict : Bool) (v : Leaf) (u : Unit) :
    treeMap strict (.leaf v) (.leaf u) =
      match v with
      | .quantity q => (q.to u).map fun q' => .leaf (.quantity q')
      | .bare x => if strict then .error .strict else .ok (.leaf (.quantity ⟨x, u⟩)) := by
  cases v with
  | quantity q =>
    simp only [treeMap, applyUnits]
    cases q.to u <;> rfl
  | bare x =>
    simp only [treeMap, applyUnits]
    split_ifs <;> rfl

/-- C37 (decoration): the decorator accepts exactly the declarations whose names are ordinary
parameters of the function; any other name (unknown, positional-only, the name of `*args` or `**kwargs`,
or one that `**kwargs` would swallow) is a `TypeError` at decoration time. -/
theorem decoration {β : Type} (strict : Bool) (sig : List Param) (decl : List (String × Tree Unit))
    (func : List (String × Tree Leaf) → β) :
    ((∀ d ∈ decl, Plain sig d.1) ↔ ∃ g, quantityInput strict sig decl func = .ok g) ∧
    ((¬ ∀ d ∈ decl, Plain sig d.1) ↔ quantityInput strict sig decl func = .error .type) := by
  have hplain : ∀ d : String × Tree Unit,
      (sig.any fun p => p.byName && p.name == d.1) = true ↔ Plain sig d.1 := by
    intro d
    simp only [List.any_eq_true, Bool.and_eq_true, Param.byName, decide_eq_true_eq, beq_iff_eq, Plain]
    constructor
    · rintro ⟨p, hp, h1, h2⟩; exact ⟨p, hp, h2, h1⟩
    · rintro ⟨p, hp, h1, h2⟩; exact ⟨p, hp, h2, h1⟩
  by_cases hall : ∀ d ∈ decl, Plain sig d.1
  · have h1 : (decl.filter fun d => !(sig.any fun p => p.byName && p.name == d.1)).isEmpty = true := by
      rw [List.isEmpty_iff, List.filter_eq_nil_iff]
      intro d hd
      simp [(hplain d).2 (hall d hd)]
    have h2 : ∃ g, quantityInput strict sig decl func = .ok g := by
      simp only [quantityInput, inputUnitMap, bindPartial, h1, if_true, bind, Except.bind]
      exact ⟨_, rfl⟩
    obtain ⟨g, hg⟩ := h2
    exact ⟨⟨fun _ => ⟨g, hg⟩, fun _ => hall⟩, ⟨fun h => absurd hall h, fun h => by rw [hg] at h; cases h⟩⟩
  · have h1 : (decl.filter fun d => !(sig.any fun p => p.byName && p.name == d.1)).isEmpty = false := by
      rw [Bool.eq_false_iff]
      intro h
      rw [List.isEmpty_iff, List.filter_eq_nil_iff] at h
      apply hall
      intro d hd
      have := h d hd
      rw [← hplain d]
      simpa using this
    have h2 : quantityInput strict sig decl func = .error .type := by
      simp only [quantityInput, inputUnitMap, bindPartial, h1]
      rw [if_neg Bool.false_ne_true]
      split_ifs <;> rfl
    refine ⟨⟨fun h => absurd h hall, ?_⟩, ⟨fun _ => h2, fun _ => hall⟩⟩
    rintro ⟨g, hg⟩
    rw [h2] at hg
    cases hg

/-- C37 (call): what the function receives. Every call of the decorated function either calls `func`
exactly once with one argument per bound name, in the same order, or raises. Arguments without a
declared unit, and `None` for a parameter whose default is `None`, arrive unchanged; any other argument
arrives as the tree conversion of the caller's value (`treeMap_leaves`). -/
theorem call {β : Type} (strict : Bool) (sig : List Param) (decl : List (String × Tree Unit))
    (func : List (String × Tree Leaf) → β) {g : List (String × Tree Leaf) → Except UErr β}
    (hg : quantityInput strict sig decl func = .ok g) (bound : List (String × Tree Leaf)) (y : β)
    (hy : g bound = .ok y) :
    ∃ args, y = func args ∧ args.map Prod.fst = bound.map Prod.fst ∧
      List.Forall₂ (fun a r =>
        (a.2.isNone = true ∧ defaultIsNone sig a.1 = true → r = a) ∧
        (decl.lookup a.1 = none → r = a) ∧
        (∀ u, decl.lookup a.1 = some u → ¬ (a.2.isNone = true ∧ defaultIsNone sig a.1 = true) →
          u.isNone = false → treeMap strict a.2 u = .ok r.2)) bound args := by
  have hplain := ((decoration strict sig decl func).1.2 ⟨g, hg⟩)
  have hknown : decl.filter (fun d => sig.any fun p => p.byName && p.name == d.1) = decl := by
    rw [List.filter_eq_self]
    intro d hd
    obtain ⟨p, hp, h1, h2⟩ := hplain d hd
    simp only [List.any_eq_true, Bool.and_eq_true, Param.byName, decide_eq_true_eq, beq_iff_eq]
    exact ⟨p, hp, h2, h1⟩
  have hunk : (decl.filter fun d => !(sig.any fun p => p.byName && p.name == d.1)).isEmpty = true := by
    rw [List.isEmpty_iff, List.filter_eq_nil_iff]
    intro d hd
    have := List.filter_eq_self.1 hknown d hd
    simp [this]
  simp only [quantityInput, inputUnitMap, bindPartial, hunk, hknown, if_true, bind, Except.bind, pure,
    Except.pure, Except.ok.injEq, Bool.false_eq_true, if_false] at hg
  subst hg
  simp only at hy
  cases hm : bound.mapM (convertArg strict sig decl) with
  | error e => rw [hm] at hy; simp at hy
  | ok args =>
    rw [hm] at hy
    simp only [Except.ok.injEq] at hy
    have hf : List.Forall₂ (fun a r => convertArg strict sig decl a = .ok r) bound args := by
      clear hy
      induction bound generalizing args with
      | nil => simp [pure, Except.pure] at hm; subst hm; exact .nil
      | cons a l ih =>
        rw [List.mapM_cons] at hm
        cases ha : convertArg strict sig decl a with
        | error e => rw [ha] at hm; simp [bind, Except.bind] at hm
        | ok a' =>
          cases hl : l.mapM (convertArg strict sig decl) with
          | error e => rw [ha, hl] at hm; simp [bind, Except.bind] at hm
          | ok l' =>
            rw [ha, hl] at hm
            simp only [bind, Except.bind, pure, Except.pure, Except.ok.injEq] at hm
            subst hm
            exact .cons ha (ih l' hl)
    refine ⟨args, hy.symm, ?_, hf.imp ?_⟩
    · clear hm hy
      induction hf with
      | nil => rfl
      | @cons a b _ _ h _ ih =>
        rw [List.map_cons, List.map_cons, ih]
        congr 1
        unfold convertArg at h
        split_ifs at h
        · rw [Except.ok.injEq] at h; rw [h]
        · split at h
          · rw [Except.ok.injEq] at h; rw [h]
          · rw [Except.ok.injEq] at h; rw [h]
          · rename_i u _ _
            cases hu : treeMap strict a.2 u with
            | error e => rw [hu] at h; simp [Except.map] at h
            | ok v => rw [hu] at h; simp only [Except.map, Except.ok.injEq] at h; rw [← h]
    · intro a r h
      unfold convertArg at h
      split_ifs at h with hn
      · rw [Except.ok.injEq] at h
        simp only [Bool.and_eq_true] at hn
        exact ⟨fun _ => h.symm, fun _ => h.symm, fun u _ hc => absurd hn hc⟩
      · simp only [Bool.and_eq_true] at hn
        refine ⟨fun hc => absurd hc hn, fun hl => ?_, fun u hl _ hu => ?_⟩
        · rw [hl] at h
          simp only [Except.ok.injEq] at h
          exact h.symm
        · rw [hl] at h
          match u, hu, h with
          | .leaf u, _, h =>
            simp only at h
            cases ht : treeMap strict a.2 (.leaf u) with
            | error e => rw [ht] at h; simp [Except.map] at h
            | ok v => rw [ht] at h; simp only [Except.map, Except.ok.injEq] at h; rw [← h]
          | .node l us, _, h =>
            simp only at h
            cases ht : treeMap strict a.2 (.node l us) with
            | error e => rw [ht] at h; simp [Except.map] at h
            | ok v => rw [ht] at h; simp only [Except.map, Except.ok.injEq] at h; rw [← h]

/-- C37 (errors): a scalar argument with a declared unit is refused exactly if it is a quantity of
another dimension, or a bare number in strict mode. -/
theorem scalar_refused (strict : Bool) (v : Leaf) (u : Unit) (hu : u.size ≠ 0) :
    (∃ e, treeMap strict (.leaf v) (.leaf u) = .error e) ↔
      (∃ q, v = .quantity q ∧ q.units.dim ≠ u.dim) ∨ ((∃ x, v = .bare x) ∧ strict = true) := by
  rw [treeMap_scalar]
  cases v with
  | quantity q =>
    simp only [Leaf.quantity.injEq, exists_eq_left', reduceCtorEq, exists_false, false_and, or_false]
    by_cases hd : q.units.dim = u.dim
    · obtain ⟨q', h1, -⟩ := (to_spec q u hu).1 hd
      simp [h1, hd, Except.map]
    · simp [(to_spec q u hu).2 hd, hd, Except.map]
  | bare x =>
    simp only [reduceCtorEq, false_and, exists_false, Leaf.bare.injEq, exists_eq', true_and, false_or]
    cases strict <;> simp

/-- C37 (default `None`): a declared unit never turns `None` into a quantity: it is passed through when
it is the default and refused otherwise. -/
theorem none_argument (strict : Bool) (sig : List Param) (units : List (String × Tree Unit))
    (name : String) (u : Unit) (hu : units.lookup name = some (.leaf u)) :
    convertArg strict sig units (name, .none) =
      if defaultIsNone sig name then .ok (name, .none) else .error .structure := by
  unfold convertArg
  simp only [Tree.isNone, Bool.true_and, hu]
  split_ifs <;> simp_all [treeMap, Except.map]

/-- C37 (fields): a field converter passes `None` through, and otherwise converts like the decorator. -/
theorem field_converter (strict : Bool) (u : Tree Unit) (orig : Tree Leaf → Tree Leaf) :
    fieldConverter strict (some u) orig .none = .ok .none ∧
    (∀ v, v.isNone = false → fieldConverter strict (some u) orig v = treeMap strict (orig v) u) ∧
    (∀ v, fieldConverter strict none orig v = .ok (orig v)) := by
  refine ⟨rfl, fun v hv => ?_, fun _ => rfl⟩
  simp [fieldConverter, hv]

/-- one day given as a bare number, and 48 hours given as a quantity -/
example : treeMap false (.leaf (.bare 1)) (.leaf day) = .ok (.leaf (.quantity ⟨1, day⟩)) ∧
    treeMap true (.leaf (.quantity ⟨48, ⟨⟨0, 0, 1⟩, 3600⟩⟩)) (.leaf day) =
      .ok (.leaf (.quantity ⟨2, day⟩)) ∧
    treeMap false (.leaf (.quantity ⟨1, metre⟩)) (.leaf day) = .error .dimensionality := by
  refine ⟨by rw [treeMap_scalar]; rfl, ?_, ?_⟩
  · rw [treeMap_scalar]
    simp only [Quantity.to, day, if_true, Except.map, Except.ok.injEq]
    norm_num
  · rw [treeMap_scalar]
    simp [Quantity.to, day, metre, Except.map]

/-- a function `f(t, *args, parallax=None)` -/
def sampleSig : List Param :=
  [⟨"t", .positionalOrKeyword, none⟩, ⟨"args", .varPositional, none⟩,
   ⟨"parallax", .keywordOnly, some .none⟩]

example : (∃ g, quantityInput false sampleSig [("t", .leaf day), ("parallax", .leaf metre)]
      (fun a => a.length) = .ok g) ∧
    quantityInput false sampleSig [("args", .leaf day)] (fun a => a.length) = .error .type := by
  constructor
  · rw [← (decoration _ _ _ _).1]
    simp [Plain, sampleSig]
  · rw [← (decoration _ _ _ _).2]
    simp [Plain, sampleSig]

end Jaxoplanet.Units
