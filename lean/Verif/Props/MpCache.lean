import Verif.Spec.MpCache
import Mathlib.Tactic.NormNum
import Mathlib.Tactic.Linarith

/-! C55: the matrix caches of the multi-precision package are transparent. -/

namespace Jaxoplanet.Starry.Mp

open _root_.Jaxoplanet.Starry.Spec

variable {V : Type}

theorem lookup_setKey {κ β : Type} [DecidableEq κ] [BEq κ] [LawfulBEq κ] (d : List (κ × β)) (k : κ) (v : β) (k' : κ) :
    (setKey d k v).lookup k' = if k' = k then some v else d.lookup k' := by
  induction d with
  | nil =>
    by_cases h : k' = k
    · simp [setKey, h]
    · have : (k' == k) = false := by simpa using h
      simp [setKey, List.lookup_cons, h, this]
  | cons e d ih =>
    rcases e with ⟨a, b⟩
    simp only [setKey]
    by_cases h : a = k
    · subst h
      by_cases h' : k' = a
      · simp [h']
      · have : (k' == a) = false := by simpa using h'
        simp [List.lookup_cons, h', this]
    · by_cases h' : k' = a
      · subst h'
        simp [h]
      · have : (k' == a) = false := by simpa using h'
        simp [h, List.lookup_cons, this, ih]

theorem row_setRow (c : Cache V) (l : ℕ) (r : Row V) (l' : ℕ) :
    (c.setRow l r).row l' = if l' = l then r else c.row l' := by
  by_cases h : l' = l <;> simp [Cache.row, Cache.setRow, lookup_setKey, h]

/-- the fixed matrices -/
noncomputable def fixed (K : Kernels V) (dps l : ℕ) (name : String) : Option V :=
  if name = "A1" then some (K.A1 dps l)
  else if name = "A2" then some (K.A2 dps l)
  else if name = "R_px" then some (K.R dps l (1, 0, 0) (-(Real.pi / 2)))
  else if name = "R_mx" then some (K.R dps l (1, 0, 0) (Real.pi / 2))
  else none

/-- the matrices with keys -/
noncomputable def keyed (K : Kernels V) (dps l : ℕ) (name : String) (key : List ℝ) : Option V :=
  if name = "R_obl" then
    match key with
    | [obl] => some (K.R dps l (0, 0, 1) (-obl))
    | _ => none
  else if name = "R_inc" then
    match key with
    | [inc, obl] => some (K.R dps l (-Real.cos obl, -Real.sin obl, 0) (Real.pi / 2 - inc))
    | _ => none
  else if name = "sT" then
    match key with
    | [b, r] => some (K.sT dps l b r)
    | _ => none
  else none

def okEntry (K : Kernels V) (dps l : ℕ) (name : String) : Entry V → Prop
  | .mat v => fixed K dps l name = some v
  | .sub t => name ∈ ["R_obl", "R_inc", "sT"] ∧ ∀ key v, t.lookup key = some v → keyed K dps l name key = some v

/-- every stored entry is the value of its function, and the inner dictionaries are those of a new row -/
structure Good (K : Kernels V) (dps : ℕ) (c : Cache V) : Prop where
  ok : ∀ l name e, (c.row l).lookup name = some e → okEntry K dps l name e
  has : ∀ l, ∀ name ∈ ["R_obl", "R_inc", "sT"], ((c.row l).lookup name).isSome ↔ name ∈ c.dflt

theorem lookup_map_sub (ds : List String) (name : String) :
    (ds.map fun n => (n, (Entry.sub [] : Entry V))).lookup name = if name ∈ ds then some (.sub []) else none := by
  induction ds with
  | nil => simp
  | cons d ds ih =>
    by_cases h : name = d
    · simp [h]
    · have : (name == d) = false := by simpa using h
      simp only [List.map_cons, List.lookup_cons, this, ih, List.mem_cons, h, false_or]

theorem good_empty (K : Kernels V) (dps : ℕ) (dflt : List String) (hd : ∀ n ∈ dflt, n ∈ ["R_obl", "R_inc", "sT"]) :
    Good K dps (⟨dflt, []⟩ : Cache V) := by
  constructor
  · intro l name e h
    simp only [Cache.row, List.lookup_nil, Option.getD_none, lookup_map_sub] at h
    split_ifs at h with hn
    simp only [Option.some.injEq] at h
    subst h
    exact ⟨hd _ hn, by simp⟩
  · intro l name hn
    simp only [Cache.row, List.lookup_nil, Option.getD_none, lookup_map_sub]
    split_ifs with h <;> simp [h]

theorem Good.touch {K : Kernels V} {dps : ℕ} {c : Cache V} (h : Good K dps c) (l : ℕ) :
    Good K dps (c.setRow l (c.row l)) := by
  constructor
  · intro l' name e he
    rw [row_setRow] at he
    split_ifs at he with hl
    · subst hl; exact h.ok _ _ _ he
    · exact h.ok _ _ _ he
  · intro l' name hn
    rw [row_setRow]
    split_ifs with hl
    · subst hl; exact h.has _ _ hn
    · exact h.has _ _ hn

theorem Good.put {K : Kernels V} {dps : ℕ} {c : Cache V} (h : Good K dps c) (l : ℕ) (name : String) (e : Entry V)
    (he : okEntry K dps l name e)
    (hs : name ∈ ["R_obl", "R_inc", "sT"] → name ∈ c.dflt) :
    Good K dps (c.setRow l (setKey (c.row l) name e)) := by
  constructor
  · intro l' name' e' he'
    rw [row_setRow] at he'
    split_ifs at he' with hl
    · subst hl
      rw [lookup_setKey] at he'
      split_ifs at he' with hn
      · subst hn
        simp only [Option.some.injEq] at he'
        exact he' ▸ he
      · exact h.ok _ _ _ he'
    · exact h.ok _ _ _ he'
  · intro l' name' hn'
    rw [row_setRow]
    split_ifs with hl
    · subst hl
      rw [lookup_setKey]
      split_ifs with hn
      · subst hn
        simpa [Cache.setRow] using hs hn'
      · exact h.has _ _ hn'
    · exact h.has _ _ hn'

theorem fixed_notMem {K : Kernels V} {dps l : ℕ} {name : String} {v : V} (h : fixed K dps l name = some v) :
    name ∉ ["R_obl", "R_inc", "sT"] := by
  intro hn
  simp only [List.mem_cons, List.not_mem_nil, or_false] at hn
  rcases hn with rfl | rfl | rfl <;> simp [fixed] at h

theorem getA_spec {K : Kernels V} {dps : ℕ} {c : Cache V} (h : Good K dps c) (l : ℕ) (name : String) (v : V)
    (hv : fixed K dps l name = some v) :
    (getA name l v c).1 = .mat v ∧ Good K dps (getA name l v c).2 ∧ (getA name l v c).2.dflt = c.dflt := by
  unfold getA
  cases hl : (c.row l).lookup name with
  | none =>
    simp only [hl, Row.read, lookup_setKey, if_true, Entry.out]
    exact ⟨trivial, h.put l name _ hv fun hn => absurd hn (fixed_notMem hv), rfl⟩
  | some e =>
    simp only [hl, Row.read]
    have := h.ok _ _ _ hl
    cases e with
    | mat w =>
      simp only [okEntry] at this
      rw [hv] at this
      simp only [Option.some.injEq] at this
      exact ⟨by simp [Entry.out, this], h.touch l, rfl⟩
    | sub t => exact absurd this.1 (fixed_notMem hv)

theorem getRFixed_spec {K : Kernels V} {dps : ℕ} {c : Cache V} (h : Good K dps c) (l : ℕ) (name : String)
    (hn : name = "R_px" ∨ name = "R_mx") :
    some (getRFixed K dps name l c).1 = (fixed K dps l name).map .mat ∧ Good K dps (getRFixed K dps name l c).2 ∧
      (getRFixed K dps name l c).2.dflt = c.dflt := by
  have key : ∃ v, fixed K dps l name = some v ∧ getRFixed K dps name l c = getA name l v c := by
    rcases hn with rfl | rfl
    · refine ⟨K.R dps l (1, 0, 0) (-(Real.pi / 2)), by simp [fixed], ?_⟩
      have e1 : -0.5 * Real.pi = -(Real.pi / 2) := by norm_num; ring
      unfold getRFixed getA
      cases hc : (c.row l).lookup "R_px" <;> simp [hc, e1]
    · refine ⟨K.R dps l (1, 0, 0) (Real.pi / 2), by simp [fixed], ?_⟩
      have e1 : 0.5 * Real.pi = Real.pi / 2 := by norm_num; ring
      unfold getRFixed getA
      cases hc : (c.row l).lookup "R_mx" <;> simp [hc, e1]
  obtain ⟨v, hv, he⟩ := key
  rw [he, hv]
  have := getA_spec h l name v hv
  exact ⟨by rw [this.1]; rfl, this.2⟩

theorem getSub_spec {K : Kernels V} {dps : ℕ} {c : Cache V} (h : Good K dps c) (l : ℕ) (name : String)
    (hn : name ∈ ["R_obl", "R_inc", "sT"]) (key : List ℝ) (v : V) (hv : keyed K dps l name key = some v) :
    (getSub name l key v c).1 = (if name ∈ c.dflt then .mat v else .keyError) ∧
      Good K dps (getSub name l key v c).2 ∧ (getSub name l key v c).2.dflt = c.dflt := by
  unfold getSub
  cases hl : (c.row l).lookup name with
  | none =>
    have := h.has l name hn
    rw [hl] at this
    have hnd : name ∉ c.dflt := by simpa using this
    simp only [hl]
    exact ⟨by simp [hnd], h.touch l, rfl⟩
  | some e =>
    have hd : name ∈ c.dflt := by
      have := h.has l name hn
      rw [hl] at this
      simpa using this
    have hok := h.ok _ _ _ hl
    simp only [hl]
    cases e with
    | mat w => exact absurd hn (fixed_notMem hok)
    | sub t =>
      simp only [hd, if_true]
      cases ht : t.lookup key with
      | none =>
        simp only [lookup_setKey, if_true]
        refine ⟨trivial, h.put l name _ ⟨hn, ?_⟩ fun _ => hd, rfl⟩
        intro k' v' hk'
        rw [lookup_setKey] at hk'
        split_ifs at hk' with hkk
        · rw [hkk, hv, hk']
        · exact hok.2 _ _ hk'
      | some w =>
        have hw := hok.2 _ _ ht
        rw [hv] at hw
        simp only [Option.some.injEq] at hw
        simp only [ht]
        exact ⟨by rw [hw], h.put l name _ hok fun _ => hd, rfl⟩

/-- one call on a good cache -/
theorem step_spec {K : Kernels V} {dps : ℕ} {c : Cache V} (h : Good K dps c) (op : Op) (o : Out V)
    (ho : direct K c.dflt dps op = some o) :
    (step K dps c op).1 = o ∧ Good K dps (step K dps c op).2 ∧ (step K dps c op).2.dflt = c.dflt := by
  have e1 : ∀ inc : ℝ, 0.5 * Real.pi - inc = Real.pi / 2 - inc := fun inc => by norm_num; ring
  cases op with
  | A1 l =>
    simp only [direct, Option.some.injEq] at ho
    subst ho
    exact getA_spec h l "A1" _ (by simp [fixed])
  | A2 l =>
    simp only [direct, Option.some.injEq] at ho
    subst ho
    exact getA_spec h l "A2" _ (by simp [fixed])
  | sT l b r =>
    simp only [direct, Option.some.injEq] at ho
    subst ho
    exact getSub_spec h l "sT" (by simp) [b, r] _ (by simp [keyed])
  | R name l obl inc =>
    have hfix : ∀ o : Out V, (if name = "R_px" then some (.mat (K.R dps l (1, 0, 0) (-(Real.pi / 2))))
        else if name = "R_mx" then some (.mat (K.R dps l (1, 0, 0) (Real.pi / 2))) else none) = some o →
        (getRFixed K dps name l c).1 = o ∧ Good K dps (getRFixed K dps name l c).2 ∧
          (getRFixed K dps name l c).2.dflt = c.dflt := by
      intro o' ho'
      split_ifs at ho' with h1 h2
      · subst h1
        have := getRFixed_spec h l "R_px" (Or.inl rfl)
        refine ⟨?_, this.2⟩
        cases ho'
        simpa [fixed] using this.1
      · subst h2
        have := getRFixed_spec h l "R_mx" (Or.inr rfl)
        refine ⟨?_, this.2⟩
        cases ho'
        simpa [fixed] using this.1
    rcases obl with _ | obl
    · exact hfix o ho
    · rcases inc with _ | inc
      · exact hfix o ho
      · simp only [direct] at ho
        split_ifs at ho with h1 h2 h3 h4
        all_goals simp only [Option.some.injEq] at ho
        all_goals subst ho
        · subst h1
          have := getSub_spec h l "R_obl" (by simp) [obl] (K.R dps l (0, 0, 1) (-obl)) (by simp [keyed])
          simpa [step, getR, h2] using this
        · subst h1
          have := getSub_spec h l "R_obl" (by simp) [obl] (K.R dps l (0, 0, 1) (-obl)) (by simp [keyed])
          simpa [step, getR, h2] using this
        · subst h3
          have := getSub_spec h l "R_inc" (by simp) [inc, obl]
            (K.R dps l (-Real.cos obl, -Real.sin obl, 0) (Real.pi / 2 - inc)) (by simp [keyed])
          simpa [step, getR, h4, e1] using this
        · subst h3
          have := getSub_spec h l "R_inc" (by simp) [inc, obl]
            (K.R dps l (-Real.cos obl, -Real.sin obl, 0) (Real.pi / 2 - inc)) (by simp [keyed])
          simpa [step, getR, h4, e1] using this

theorem run_good {K : Kernels V} {dps : ℕ} (h : List Op) : ∀ {c : Cache V}, Good K dps c →
    (∀ op ∈ h, (direct K c.dflt dps op).isSome) →
    (run K c (h.map fun op => (dps, op))).map some = h.map (direct K c.dflt dps) := by
  induction h with
  | nil => intro c _ _; rfl
  | cons op h ih =>
    intro c hc hv
    obtain ⟨o, ho⟩ := Option.isSome_iff_exists.mp (hv op List.mem_cons_self)
    have hs := step_spec hc op o ho
    have := ih hs.2.1 (by
      intro op' hop'
      rw [hs.2.2]
      exact hv op' (List.mem_cons_of_mem _ hop'))
    simp only [List.map_cons, run, hs.1, ho]
    rw [this, hs.2.2]

/-! ## the theorems -/

/-- **C55**. On any of the four cache objects of the package, and for every history of calls of the cached functions,
in any order and with any repetitions, degrees, angles and geometries, the results are those of the functions
without a cache (`direct`, where also the cache objects that lack an inner dictionary are described). -/
theorem cache_transparent (K : Kernels V) (dps : ℕ) (c : Cache V)
    (hc : c ∈ [basisCache V, rotationCache V, solutionCache V, fluxCache V]) (h : List Op)
    (hv : ∀ op ∈ h, (direct K c.dflt dps op).isSome) :
    (run K c (h.map fun op => (dps, op))).map some = h.map (direct K c.dflt dps) := by
  apply run_good _ _ hv
  simp only [List.mem_cons, List.not_mem_nil, or_false] at hc
  rcases hc with rfl | rfl | rfl | rfl
  · exact good_empty K dps [] (by simp)
  · exact good_empty K dps _ (by simp)
  · exact good_empty K dps _ (by simp)
  · exact good_empty K dps _ (by simp)

/-- **C55**, for the reference light curves: any number of light curves (`flux`, whose degrees and orientations may
differ) and of occultations evaluated with them, in any order, share `flux.CACHED_MATRICES` without influencing each
other; no call fails. -/
theorem flux_cache_transparent (K : Kernels V) (dps : ℕ) (h : List Op)
    (hv : ∀ op ∈ h, (∃ ydeg udeg inc obl, op ∈ fluxOps ydeg udeg inc obl) ∨ ∃ ydeg udeg b r, op = occOp ydeg udeg b r) :
    (run K (fluxCache V) (h.map fun op => (dps, op))).map some = h.map (direct K (fluxCache V).dflt dps) ∧
      ∀ o ∈ run K (fluxCache V) (h.map fun op => (dps, op)), ∃ v, o = .mat v := by
  have key : ∀ op ∈ h, ∃ v, direct K (fluxCache V).dflt dps op = some (.mat v) := by
    intro op hop
    rcases hv op hop with ⟨ydeg, udeg, inc, obl, hm⟩ | ⟨ydeg, udeg, b, r, rfl⟩
    · unfold fluxOps at hm
      split_ifs at hm
      · simp only [List.mem_cons, List.not_mem_nil, or_false] at hm
        rcases hm with rfl | rfl | rfl | rfl | rfl | rfl <;> simp [direct, fluxCache]
      · simp only [List.mem_cons, List.not_mem_nil, or_false] at hm
        rcases hm with rfl | rfl <;> simp [direct]
    · simp [direct, occOp, fluxCache]
  have main := cache_transparent K dps (fluxCache V) (by simp) h fun op hop => by
    obtain ⟨v, hv⟩ := key op hop
    simp [hv]
  refine ⟨main, fun o ho => ?_⟩
  have : some o ∈ (run K (fluxCache V) (h.map fun op => (dps, op))).map some := List.mem_map_of_mem ho
  rw [main, List.mem_map] at this
  obtain ⟨op, hop, he⟩ := this
  obtain ⟨v, hv⟩ := key op hop
  rw [hv] at he
  exact ⟨v, by simpa using he.symm⟩

/-- the hypotheses are met: a light curve of degree 2 + 1, two occultations, one of them repeated, and a second
light curve with another orientation -/
example (K : Kernels V) : run K (fluxCache V) ((fluxOps 2 1 1 0.5 ++ [occOp 2 1 0.3 0.1, occOp 2 1 0.3 0.1] ++
    fluxOps 2 0 1 0.7 ++ [occOp 2 0 0.3 0.1]).map fun op => (30, op)) =
    [.mat (K.A2 30 3), .mat (K.A1 30 2), .mat (K.R 30 2 (1, 0, 0) (-(Real.pi / 2))),
     .mat (K.R 30 2 (1, 0, 0) (Real.pi / 2)), .mat (K.R 30 2 (0, 0, 1) (-0.5)),
     .mat (K.R 30 2 (-Real.cos 0.5, -Real.sin 0.5, 0) (Real.pi / 2 - 1)), .mat (K.sT 30 3 0.3 0.1),
     .mat (K.sT 30 3 0.3 0.1),
     .mat (K.A2 30 2), .mat (K.A1 30 2), .mat (K.R 30 2 (1, 0, 0) (-(Real.pi / 2))),
     .mat (K.R 30 2 (1, 0, 0) (Real.pi / 2)), .mat (K.R 30 2 (0, 0, 1) (-0.7)),
     .mat (K.R 30 2 (-Real.cos 0.7, -Real.sin 0.7, 0) (Real.pi / 2 - 1)), .mat (K.sT 30 2 0.3 0.1)] := by
  have h := (flux_cache_transparent K 30 (fluxOps 2 1 1 0.5 ++ [occOp 2 1 0.3 0.1, occOp 2 1 0.3 0.1] ++
    fluxOps 2 0 1 0.7 ++ [occOp 2 0 0.3 0.1]) (by
      intro op hop
      simp only [List.mem_append, List.mem_cons, List.not_mem_nil, or_false] at hop
      rcases hop with ((h | h | h) | h) | h
      · exact Or.inl ⟨_, _, _, _, h⟩
      · exact Or.inr ⟨_, _, _, _, h⟩
      · exact Or.inr ⟨_, _, _, _, h⟩
      · exact Or.inl ⟨_, _, _, _, h⟩
      · exact Or.inr ⟨_, _, _, _, h⟩)).1
  have inj : Function.Injective (List.map (some : Out V → _)) := List.map_injective_iff.mpr (Option.some_injective _)
  apply inj
  rw [h]
  simp [fluxOps, occOp, direct, fluxCache]

/-- The caches of the submodules do not serve each other: a solution vector or an angle-dependent rotation that is
looked up in the cache of `basis` is a `KeyError`, whatever was done before. -/
theorem foreign_cache_keyError (K : Kernels V) (dps : ℕ) (h : List Op)
    (hv : ∀ op ∈ h, (direct K (basisCache V).dflt dps op).isSome) (l : ℕ) (b r : ℝ) :
    (run K (basisCache V) ((h ++ [Op.sT l b r]).map fun op => (dps, op))).getLast? = some .keyError := by
  have := cache_transparent K dps (basisCache V) (by simp) (h ++ [Op.sT l b r]) (by
    intro op hop
    rcases List.mem_append.mp hop with h' | h'
    · exact hv op h'
    · simp only [List.mem_cons, List.not_mem_nil, or_false] at h'
      subst h'
      simp [direct])
  have h2 := congrArg List.getLast? this
  rw [List.getLast?_map] at h2
  simpa [direct, basisCache, Option.map_eq_some_iff] using h2

/-- **F28**: the precision `mp.dps` is not part of the keys. After a change of precision the old value comes back:
for every kernel whose `A1` depends on the precision, the second call is not the value at the new precision. -/
theorem stale_after_precision_change (K : Kernels V) (d d' l : ℕ) (hK : K.A1 d l ≠ K.A1 d' l) :
    run K (fluxCache V) [(d, .A1 l), (d', .A1 l)] = [.mat (K.A1 d l), .mat (K.A1 d l)] ∧
    (run K (fluxCache V) [(d, .A1 l), (d', .A1 l)]).map some ≠
      [direct K (fluxCache V).dflt d (.A1 l), direct K (fluxCache V).dflt d' (.A1 l)] := by
  have key : run K (fluxCache V) [(d, .A1 l), (d', .A1 l)] = [.mat (K.A1 d l), .mat (K.A1 d l)] := by
    have h1 := getA_spec (good_empty K d ["R_obl", "R_inc", "sT"] (by simp)) l "A1" (K.A1 d l) (by simp [fixed])
    simp only [run, step, fluxCache, h1.1, List.cons.injEq, true_and, and_true]
    have hr : ((getA "A1" l (K.A1 d l) (⟨["R_obl", "R_inc", "sT"], []⟩ : Cache V)).2.row l).lookup "A1" =
        some (.mat (K.A1 d l)) := by
      simp [getA, setKey, Cache.row, Cache.setRow, List.lookup]
    generalize (getA "A1" l (K.A1 d l) (⟨["R_obl", "R_inc", "sT"], []⟩ : Cache V)).2 = c at hr
    simp [getA, hr, Row.read, Entry.out]
  refine ⟨key, ?_⟩
  rw [key]
  simp [direct, hK]

/-- without both angles, `get_R("R_obl", …)` gives back the inner dictionary: what it contains depends on the
history, so such a call has no `direct` value -/
theorem getR_leaks_dict (K : Kernels V) (dps l : ℕ) (obl inc : ℝ) :
    run K (fluxCache V) [(dps, .R "R_obl" l none none)] = [.sub []] ∧
    run K (fluxCache V) [(dps, .R "R_obl" l (some obl) (some inc)), (dps, .R "R_obl" l none none)] =
      [.mat (K.R dps l (0, 0, 1) (-obl)), .sub [([obl], K.R dps l (0, 0, 1) (-obl))]] := by
  constructor
  · simp [run, step, getR, getRFixed, fluxCache, Cache.row, Row.read, Entry.out]
  · simp [run, step, getR, getRFixed, getSub, fluxCache, Cache.row, Cache.setRow, Row.read, Entry.out, List.lookup,
      setKey]

end Jaxoplanet.Starry.Mp
