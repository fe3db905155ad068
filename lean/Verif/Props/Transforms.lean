import Verif.Model.Transforms
import Verif.Props.LightCurve

/-!
# C104: `integrate` and `interpolate` of light curves with several values and with arguments
-/

namespace Jaxoplanet.LightCurve
open Stack

/-- the array with these entries -/
def arr1 {m : ℕ} (g : Fin m → ℝ) : Arr := .vec (List.ofFn fun k => .scalar (g k))

/-- the matrix with these entries -/
def arr2 {m k : ℕ} (g : Fin m → Fin k → ℝ) : Arr := .vec (List.ofFn fun i => arr1 (g i))

theorem length_linspace (a b : ℝ) (n : ℕ) : (linspace a b n).length = n := by
  unfold linspace
  split_ifs <;> simp

theorem stencil_length {order N : ℕ} {dt s : List ℝ} (h : stencil order N = .ok (dt, s)) :
    dt.length = oddSamples N ∧ s.length = oddSamples N := by
  match order with
  | 0 =>
    rw [stencil_zero] at h
    cases h
    simp
  | 1 =>
    unfold stencil at h
    cases h
    simp [length_linspace, setAt]
  | 2 =>
    unfold stencil at h
    cases h
    simp [length_linspace, setAt]
  | n + 3 => cases h

theorem mapM_except {α β ε : Type} {f : α → Except ε β} {g : α → β} : ∀ xs : List α, (∀ x ∈ xs, f x = .ok (g x)) →
    xs.mapM f = .ok (xs.map g)
  | [], _ => rfl
  | x :: xs, h => by
    rw [List.mapM_cons, h x List.mem_cons_self, mapM_except xs fun y hy => h y (List.mem_cons_of_mem _ hy)]
    rfl

theorem mapM_option {α β : Type} {f : α → Option β} {g : α → β} : ∀ xs : List α, (∀ x ∈ xs, f x = some (g x)) →
    xs.mapM f = some (xs.map g)
  | [], _ => rfl
  | x :: xs, h => by
    rw [List.mapM_cons, h x List.mem_cons_self, mapM_option xs fun y hy => h y (List.mem_cons_of_mem _ hy)]
    rfl

theorem integrateArr_eq {order N : ℕ} {dt s : List ℝ} (h : stencil order N = .ok (dt, s)) (f : LcFun) (e : ℝ) :
    ∃ G, integrateArr f (some e) 0 order N = .ok G ∧ ∀ time args kwargs, G time args kwargs =
      (vmapFunc f (dt.map fun d => time + d * e) args kwargs).bind fun r => orErr .other (dotArr (s.map (· / s.sum)) (Arr.ndim r) r) := by
  refine ⟨fun time args kwargs => (vmapFunc f (dt.map fun d => time + d * e) args kwargs).bind fun r =>
    orErr .other (dotArr (s.map (· / s.sum)) (Arr.ndim r) r), ?_, fun _ _ _ => rfl⟩
  simp only [integrateArr, ne_eq, not_true_eq_false, if_false, h]
  show Except.ok _ = Except.ok _
  congr 1
  funext time args kwargs
  simp only [List.map_map]
  rfl

theorem integrate_stencil {order N : ℕ} {dt s : List ℝ} (h : stencil order N = .ok (dt, s)) (f : ℝ → ℝ) (e : ℝ) :
    integrate f (some e) 0 order N = .ok fun time => dot (s.map (· / s.sum)) (dt.map fun d => f (time + d * e)) := by
  simp only [integrate, ne_eq, not_true_eq_false, if_false, h]
  show Except.ok _ = Except.ok _
  congr 1
  funext t
  simp only [List.map_map]
  rfl

theorem vmapFunc_nil {f : LcFun} {args : List Arr} {R : ℝ → Arr} (hf : ∀ t, f t args [] = .ok (R t)) (times : List ℝ) :
    vmapFunc f times args [] = .ok (.vec (times.map R)) := by
  have h : (times.zipIdx.mapM fun t => do
      let kw ← orErr .value (kwEntry t.2 [])
      f t.1 args kw) = Except.ok (times.zipIdx.map fun t => R t.1) :=
    mapM_except _ fun t _ => hf t.1
  unfold vmapFunc
  simp only [List.all_nil, if_true, h]
  show Except.ok (Arr.vec _) = _
  congr 2
  rw [← Function.comp_def, ← List.map_map, List.zipIdx_map_fst]

theorem oddSamples_pos (N : ℕ) : 0 < oddSamples N := by
  unfold oddSamples
  omega

theorem dotVec_scalars (s xs : List ℝ) : dotVec s (xs.map .scalar) = if xs.length = s.length then some (.scalar (dot s xs)) else none := by
  have : (xs.map Arr.scalar).mapM Arr.toReal = some xs := by
    rw [List.mapM_map]
    exact (mapM_option (f := Arr.toReal ∘ Arr.scalar) (g := id) _ fun _ _ => rfl).trans (by simp)
  unfold dotVec
  rw [this]
  rfl

/-- C104: without an exposure time the light curve itself is returned, whatever the order and number of samples, so every
positional and keyword argument reaches it -/
theorem integrate_without_exposure (f : LcFun) (ndim order N : ℕ) : integrateArr f none ndim order N = .ok f := rfl

/-- C104: `integrate` raises exactly when there is an exposure time and it is an array or the order is not 0, 1 or 2 -/
theorem integrate_raises_iff (f : LcFun) (exposure : Option ℝ) (ndim order N : ℕ) :
    (∃ err, integrateArr f exposure ndim order N = .error err) ↔ exposure ≠ none ∧ (ndim ≠ 0 ∨ 2 < order) := by
  cases exposure with
  | none => simp [integrateArr]
  | some e =>
    by_cases hn : ndim = 0
    · subst hn
      rcases order with _ | _ | _ | n
      · obtain ⟨G, hG, -⟩ := integrateArr_eq (stencil_zero N) f e
        simp [hG]
      · obtain ⟨⟨dt, s⟩, hst⟩ : ∃ p, stencil 1 N = .ok p := ⟨_, rfl⟩
        obtain ⟨G, hG, -⟩ := integrateArr_eq hst f e
        simp [hG]
      · obtain ⟨⟨dt, s⟩, hst⟩ : ∃ p, stencil 2 N = .ok p := ⟨_, rfl⟩
        obtain ⟨G, hG, -⟩ := integrateArr_eq hst f e
        simp [hG]
      · simp only [ne_eq, reduceCtorEq, not_false_eq_true, not_true_eq_false, false_or, true_and]
        exact ⟨fun _ => by omega, fun _ => ⟨_, rfl⟩⟩
    · simp [integrateArr, hn]

/-- C104 (partial: not for keyword arguments and matrices, see below): the mean over the exposure of a light curve with one value, whatever its positional arguments -/
theorem integrate_one_value_partial {order N : ℕ} (f : LcFun) (args : List Arr) (F : ℝ → ℝ) (hf : ∀ t, f t args [] = .ok (.scalar (F t))) (e : ℝ)
    {g : ℝ → ℝ} (hg : integrate F (some e) 0 order N = .ok g) :
    ∃ G, integrateArr f (some e) 0 order N = .ok G ∧ ∀ time, G time args [] = .ok (.scalar (g time)) := by
  rcases hst : stencil order N with _ | ⟨dt, s⟩
  · simp only [integrate, ne_eq, not_true_eq_false, if_false, hst] at hg
    cases hg
  · obtain ⟨G, hG, h⟩ := integrateArr_eq hst f e
    refine ⟨G, hG, fun time => ?_⟩
    rw [integrate_stencil hst] at hg
    cases hg
    obtain ⟨h1, h2⟩ := stencil_length hst
    have hne : dt ≠ [] := by
      rintro rfl
      have := oddSamples_pos N
      simp at h1
      omega
    have h3 : (dt.map fun d => time + d * e).map (fun t => Arr.scalar (F t)) = (dt.map fun d => F (time + d * e)).map Arr.scalar := by
      simp only [List.map_map]
      rfl
    have h4 : Arr.ndim (.vec ((dt.map fun d => F (time + d * e)).map Arr.scalar)) = 1 := by
      obtain ⟨a, l, rfl⟩ := List.exists_cons_of_ne_nil hne
      simp [Arr.ndim]
    rw [h, vmapFunc_nil hf, h3]
    show orErr _ (dotArr _ (Arr.ndim (.vec _)) (.vec _)) = _
    rw [h4]
    show orErr _ (dotVec _ _) = _
    rw [dotVec_scalars, if_pos (by simp [h1, h2])]
    rfl

theorem entries_arr1 {m : ℕ} (g : Fin m → ℝ) : (arr1 g).entries = some (List.ofFn fun k => Arr.scalar (g k)) := rfl

/-- the product of a vector and a matrix given by its rows -/
theorem dotMat_rows {m : ℕ} (s : List ℝ) (rows : List (Fin m → ℝ)) (h : rows.length = s.length) (hne : rows ≠ []) :
    dotMat s (rows.map arr1) = some (arr1 fun k => dot s (rows.map (· k))) := by
  have h1 : (rows.map arr1).mapM Arr.entries = some (rows.map fun g => List.ofFn fun k => Arr.scalar (g k)) := by
    rw [List.mapM_map]
    exact mapM_option _ fun _ _ => rfl
  have h2 : ((rows.map fun g => List.ofFn fun k => Arr.scalar (g k)).headD []).length = m := by
    obtain ⟨a, l, rfl⟩ := List.exists_cons_of_ne_nil hne
    simp
  have h3 : ∀ j ∈ List.range m, (do
      let col ← (rows.map fun g => List.ofFn fun k => Arr.scalar (g k)).mapM (·[j]?)
      dotVec s col) = some (if hj : j < m then Arr.scalar (dot s (rows.map (· ⟨j, hj⟩))) else .scalar 0) := by
    intro j hj
    have hj := List.mem_range.1 hj
    have : (rows.map fun g => List.ofFn fun k => Arr.scalar (g k)).mapM (·[j]?) = some ((rows.map (· ⟨j, hj⟩)).map Arr.scalar) := by
      rw [List.mapM_map, mapM_option (g := fun g : Fin m → ℝ => Arr.scalar (g ⟨j, hj⟩)), List.map_map]
      · rfl
      · intro g _
        simp [hj]
    rw [this]
    show dotVec s _ = _
    rw [dotVec_scalars, if_pos (by simpa using h), dif_pos hj]
  unfold dotMat
  rw [h1]
  simp only [Option.bind_eq_bind, Option.bind_some]
  rw [h2]
  simp only [Option.bind_eq_bind] at h3
  rw [mapM_option _ h3]
  show some (Arr.vec _) = some (Arr.vec _)
  congr 2
  apply List.ext_getElem
  · simp
  · intro i hi _
    simp at hi
    simp [hi]

/-- C104 (partial: not for keyword arguments and matrices, see below): the mean over the exposure of a light curve with one value for each of `m` bodies: body by body, whatever its positional arguments -/
theorem integrate_bodies_partial {order N m : ℕ} (f : LcFun) (args : List Arr) (F : ℝ → Fin m → ℝ) (hf : ∀ t, f t args [] = .ok (arr1 (F t))) (e : ℝ)
    {g : Fin m → ℝ → ℝ} (ho : order ≤ 2) (hg : ∀ k, integrate (fun t => F t k) (some e) 0 order N = .ok (g k)) :
    ∃ G, integrateArr f (some e) 0 order N = .ok G ∧ ∀ time, G time args [] = .ok (arr1 fun k => g k time) := by
  rcases hst : stencil order N with _ | ⟨dt, s⟩
  · match order with
    | 0 | 1 | 2 => cases hst
  · obtain ⟨G, hG, h⟩ := integrateArr_eq hst f e
    refine ⟨G, hG, fun time => ?_⟩
    obtain ⟨h1, h2⟩ := stencil_length hst
    have hne : dt ≠ [] := by
      rintro rfl
      have := oddSamples_pos N
      simp at h1
      omega
    have hg' : ∀ k, g k time = dot (s.map (· / s.sum)) (dt.map fun d => F (time + d * e) k) := by
      intro k
      have := hg k
      rw [integrate_stencil hst] at this
      exact (congrFun (Except.ok.inj this) time).symm
    have h3 : (dt.map fun d => time + d * e).map (fun t => arr1 (F t)) = (dt.map fun d => F (time + d * e)).map arr1 := by
      simp only [List.map_map]
      rfl
    have h4 : Arr.ndim (.vec ((dt.map fun d => F (time + d * e)).map arr1)) = 2 := by
      obtain ⟨a, l, rfl⟩ := List.exists_cons_of_ne_nil hne
      rcases m with _ | m
      · simp [Arr.ndim, arr1]
      · simp [Arr.ndim, arr1]
    rw [h, vmapFunc_nil hf, h3]
    show orErr _ (dotArr _ (Arr.ndim (.vec _)) (.vec _)) = _
    rw [h4]
    show orErr _ (dotMat _ _) = _
    rw [dotMat_rows _ _ (by simp [h1, h2]) (by simpa using hne)]
    simp only [List.map_map, hg']
    rfl

theorem dotMat_short {m : ℕ} (s : List ℝ) (rows : List (Fin (m + 1) → ℝ)) (h : rows.length ≠ s.length) (hne : rows ≠ []) :
    dotMat s (rows.map arr1) = none := by
  have h1 : (rows.map arr1).mapM Arr.entries = some (rows.map fun g => List.ofFn fun k => Arr.scalar (g k)) := by
    rw [List.mapM_map]
    exact mapM_option _ fun _ _ => rfl
  have h2 : ((rows.map fun g => List.ofFn fun k => Arr.scalar (g k)).headD []).length = m + 1 := by
    obtain ⟨a, l, rfl⟩ := List.exists_cons_of_ne_nil hne
    simp
  have h4 : (rows.map fun g => List.ofFn fun k => Arr.scalar (g k)).mapM (·[0]?) = some ((rows.map (· 0)).map Arr.scalar) := by
    rw [List.mapM_map]
    refine (mapM_option (g := fun g : Fin (m + 1) → ℝ => Arr.scalar (g 0)) _ fun g _ => ?_).trans (by simp)
    simp
  have h5 : dotVec s ((rows.map (· 0)).map Arr.scalar) = none := by
    rw [dotVec_scalars, if_neg (by simpa using h)]
  unfold dotMat
  rw [h1]
  simp only [Option.bind_eq_bind, Option.bind_some]
  rw [h2, List.range_succ_eq_map, List.mapM_cons, h4]
  simp only [Option.bind_eq_bind, Option.bind_some, h5, Option.bind_none]

theorem stencil_defined {order : ℕ} (N : ℕ) (ho : order ≤ 2) : ∃ dt s, stencil order N = .ok (dt, s) := by
  match order, ho with
  | 0, _ | 1, _ | 2, _ => exact ⟨_, _, rfl⟩

theorem arr2_eq {m k : ℕ} (g : Fin m → Fin k → ℝ) : arr2 g = .vec ((List.ofFn g).map arr1) := by
  simp [arr2, List.map_ofFn, Function.comp_def]

theorem ndim_arr2 {m k : ℕ} (g : Fin (m + 1) → Fin k → ℝ) : Arr.ndim (arr2 g) = 2 := by
  cases k <;> simp [Arr.ndim, arr1, arr2]

/-- Finding F47: a light curve with a *matrix* of values at each time. If the number of rows is not the number of samples the call raises -/
theorem integrate_matrix_raises {order N m k : ℕ} (ho : order ≤ 2) (f : LcFun) (args : List Arr) (F : ℝ → Fin (m + 1) → Fin (k + 1) → ℝ)
    (hf : ∀ t, f t args [] = .ok (arr2 (F t))) (e : ℝ) (hm : m + 1 ≠ oddSamples N) :
    ∃ G, integrateArr f (some e) 0 order N = .ok G ∧ ∀ time, G time args [] = .error .other := by
  obtain ⟨dt, s, hst⟩ := stencil_defined N ho
  obtain ⟨G, hG, h⟩ := integrateArr_eq hst f e
  refine ⟨G, hG, fun time => ?_⟩
  obtain ⟨h1, h2⟩ := stencil_length hst
  have hne : dt ≠ [] := by
    rintro rfl
    have := oddSamples_pos N
    simp at h1
    omega
  obtain ⟨a, l, rfl⟩ := List.exists_cons_of_ne_nil hne
  rw [h, vmapFunc_nil hf]
  show orErr _ (dotArr _ (Arr.ndim (.vec _)) (.vec _)) = _
  have h4 : Arr.ndim (.vec (((a :: l).map fun d => time + d * e).map fun t => arr2 (F t))) = 3 := by
    simp only [List.map_cons, Arr.ndim, ndim_arr2]
  rw [h4]
  show orErr _ (Option.map _ (List.mapM (dotArr _ 2) _)) = _
  rw [List.map_cons, List.map_cons, List.mapM_cons]
  have h5 : dotArr (s.map (· / s.sum)) 2 (arr2 (F (time + a * e))) = none := by
    rw [arr2_eq]
    show dotMat _ _ = none
    exact dotMat_short _ _ (by simpa [h2] using hm) (by simp)
  rw [h5]
  rfl

/-- with as many rows as samples it does not raise, and each sample of the light curve is averaged over its *rows* instead: the result has one row per
sample time, and does not contain the mean over the exposure -/
theorem integrate_matrix_wrong {order N k : ℕ} {dt s : List ℝ} (hst : stencil order N = .ok (dt, s)) (f : LcFun) (args : List Arr)
    (F : ℝ → Fin (oddSamples N) → Fin k → ℝ) (hf : ∀ t, f t args [] = .ok (arr2 (F t))) (e : ℝ) :
    ∃ G, integrateArr f (some e) 0 order N = .ok G ∧ ∀ time, G time args [] =
      .ok (.vec (dt.map fun d => arr1 fun c => dot (s.map (· / s.sum)) (List.ofFn fun j => F (time + d * e) j c))) := by
  obtain ⟨G, hG, h⟩ := integrateArr_eq hst f e
  refine ⟨G, hG, fun time => ?_⟩
  obtain ⟨h1, h2⟩ := stencil_length hst
  have hn := oddSamples_pos N
  have hne : dt ≠ [] := by
    rintro rfl
    simp at h1
    omega
  rw [h, vmapFunc_nil hf]
  show orErr _ (dotArr _ (Arr.ndim (.vec _)) (.vec _)) = _
  have h4 : Arr.ndim (.vec ((dt.map fun d => time + d * e).map fun t => arr2 (F t))) = 3 := by
    obtain ⟨a, l, rfl⟩ := List.exists_cons_of_ne_nil hne
    obtain ⟨q, hq⟩ : ∃ q, oddSamples N = q + 1 := ⟨oddSamples N - 1, by omega⟩
    have : ∀ g : Fin (oddSamples N) → Fin k → ℝ, Arr.ndim (arr2 g) = 2 := by
      rw [hq]
      exact fun g => ndim_arr2 g
    simp only [List.map_cons, Arr.ndim, this]
  rw [h4]
  show orErr _ (Option.map _ (List.mapM (dotArr _ 2) _)) = _
  rw [List.map_map, List.mapM_map, mapM_option (g := fun d => arr1 fun c => dot (s.map (· / s.sum)) (List.ofFn fun j => F (time + d * e) j c))]
  · rfl
  · intro d _
    simp only [Function.comp]
    rw [arr2_eq]
    show dotMat _ _ = _
    rw [dotMat_rows _ _ (by simp [h2]) (by simp; omega)]
    simp [List.map_ofFn, Function.comp_def]

/-- a constant matrix is not preserved: the rows of the result are all equal -/
theorem integrate_matrix_not_mean (e time : ℝ) : ∃ f : LcFun, ∃ C : Fin 7 → Fin 1 → ℝ, (∀ t args kw, f t args kw = .ok (arr2 C)) ∧
    ∃ G, integrateArr f (some e) 0 0 7 = .ok G ∧ ∃ v, G time [] [] = .ok v ∧ v ≠ arr2 C := by
  obtain ⟨dt, s, hst⟩ := stencil_defined (order := 0) 7 (by norm_num)
  obtain ⟨G, hG, h⟩ := integrate_matrix_wrong hst (fun _ _ _ => .ok (arr2 fun j _ => (j : ℝ))) [] (fun _ (j : Fin 7) (_ : Fin 1) => (j : ℝ)) (fun _ => rfl) e
  refine ⟨_, fun j _ => (j : ℝ), fun _ _ _ => rfl, G, hG, _, h time, fun hc => ?_⟩
  obtain ⟨h1, -⟩ := stencil_length hst
  have h1 : dt.length = 7 := h1
  rw [arr2, Arr.vec.injEq] at hc
  have h0 := congrArg (·[0]?) hc
  have h2 := congrArg (·[1]?) hc
  simp only [List.getElem?_map, List.getElem?_eq_getElem (show 0 < dt.length by omega), List.getElem?_eq_getElem (show 1 < dt.length by omega),
    Option.map_some, List.getElem?_ofFn] at h0 h2
  norm_num at h0 h2
  have := h0.symm.trans h2
  simp [arr1] at this

/-! ## keyword arguments -/

/-- Finding F46: an integrated light curve cannot be called with a scalar keyword argument (nor with an array whose first axis does not have one entry per
sample), although the light curve itself can -/
theorem integrate_keyword_raises {order N : ℕ} (ho : order ≤ 2) (f : LcFun) (e : ℝ) (args : List Arr) (kwargs : List (String × Arr))
    (hk : ∃ k ∈ kwargs, k.2.size 0 ≠ some (oddSamples N)) :
    ∃ G, integrateArr f (some e) 0 order N = .ok G ∧ ∀ time, G time args kwargs = .error .value := by
  obtain ⟨dt, s, hst⟩ := stencil_defined N ho
  obtain ⟨G, hG, h⟩ := integrateArr_eq hst f e
  refine ⟨G, hG, fun time => ?_⟩
  obtain ⟨k, hk, hks⟩ := hk
  rw [h]
  unfold vmapFunc
  rw [if_neg]
  · rfl
  · rw [List.all_eq_true]
    intro hall
    have := hall k hk
    simp [(stencil_length hst).1] at this
    exact hks this

/-- and if its first axis has one entry per sample, each sample of the exposure is evaluated with its own entry, not with the argument -/
theorem integrate_keyword_mapped {order N : ℕ} {dt s : List ℝ} (hst : stencil order N = .ok (dt, s)) (f : LcFun) (e : ℝ) (args : List Arr) (name : String)
    (entries : List Arr) (hl : entries.length = oddSamples N) (F : ℝ → Arr → ℝ) (hf : ∀ t a, f t args [(name, a)] = .ok (.scalar (F t a))) :
    ∃ G, integrateArr f (some e) 0 order N = .ok G ∧ ∀ time, G time args [(name, .vec entries)] =
      .ok (.scalar (dot (s.map (· / s.sum)) (List.zipWith (fun d a => F (time + d * e) a) dt entries))) := by
  obtain ⟨G, hG, h⟩ := integrateArr_eq hst f e
  obtain ⟨h1, h2⟩ := stencil_length hst
  have hn := oddSamples_pos N
  refine ⟨G, hG, fun time => ?_⟩
  have hv : vmapFunc f (dt.map fun d => time + d * e) args [(name, .vec entries)] =
      .ok (.vec ((List.zipWith (fun d a => F (time + d * e) a) dt entries).map Arr.scalar)) := by
    unfold vmapFunc
    rw [if_pos (by simp [Arr.size, h1, hl])]
    have : ((dt.map fun d => time + d * e).zipIdx.mapM fun t => do
        let kw ← orErr .value (kwEntry t.2 [(name, .vec entries)])
        f t.1 args kw) = Except.ok ((List.zipWith (fun d a => F (time + d * e) a) dt entries).map Arr.scalar) := by
      rw [mapM_ok_iff, List.forall₂_iff_get]
      refine ⟨by simp [h1, hl], fun i hi hi' => ?_⟩
      simp only [List.length_map, List.length_zipWith, h1, hl, min_self] at hi'
      have h3 : entries[i]? = some (entries[i]'(by omega)) := List.getElem?_eq_getElem _
      simp only [List.get_eq_getElem, List.getElem_zipIdx, List.getElem_map, List.getElem_zipWith, zero_add, kwEntry, List.mapM_cons, List.mapM_nil,
        Arr.entries, Option.bind_some, h3, Option.map_some]
      exact hf _ _
    rw [this]
    rfl
  rw [h, hv]
  have hne : List.zipWith (fun d a => F (time + d * e) a) dt entries ≠ [] := by
    rw [ne_eq, ← List.length_eq_zero_iff]
    simp only [List.length_zipWith, h1, hl, min_self]
    omega
  have h4 : Arr.ndim (.vec ((List.zipWith (fun d a => F (time + d * e) a) dt entries).map Arr.scalar)) = 1 := by
    obtain ⟨a, l, hal⟩ := List.exists_cons_of_ne_nil hne
    rw [hal]
    simp [Arr.ndim]
  show orErr _ (dotArr _ (Arr.ndim (.vec _)) (.vec _)) = _
  rw [h4]
  show orErr _ (dotVec _ _) = _
  rw [dotVec_scalars, if_pos (by simp [h1, h2, hl])]
  rfl

/-- the light curve `depth * time` can be called with `depth=2`, its integral over an exposure cannot, but can be with `depth` positional -/
example : ∃ f : LcFun, f 3 [] [("depth", .scalar 2)] = .ok (.scalar 6) ∧ (∃ G, integrateArr f (some 1) 0 0 7 = .ok G ∧
    G 3 [] [("depth", .scalar 2)] = .error .value) ∧ ∃ G, integrateArr f (some 1) 0 0 7 = .ok G ∧ G 3 [.scalar 2] [] = .ok (.scalar 6) := by
  refine ⟨fun t args kw => match args, kw with
    | [.scalar d], [] => .ok (.scalar (d * t))
    | [], [(_, .scalar d)] => .ok (.scalar (d * t))
    | _, _ => .error .value, by norm_num, ?_, ?_⟩
  · obtain ⟨G, hG, h⟩ := integrate_keyword_raises (order := 0) (N := 7) (by norm_num) (fun t args kw => match args, kw with
      | [.scalar d], [] => .ok (.scalar (d * t))
      | [], [(_, .scalar d)] => .ok (.scalar (d * t))
      | _, _ => .error .value) 1 [] [("depth", .scalar 2)] ⟨_, List.mem_singleton_self _, by simp [Arr.size]⟩
    exact ⟨G, hG, h 3⟩
  · obtain ⟨g, hg, -⟩ := integrate_is_mean (order := 0) (N := 7) (by norm_num) (.inl rfl) (fun t => 2 * t) 1
    have hg3 : g 3 = 6 := by
      rw [integrate_eq (by norm_num) (.inl rfl)] at hg
      cases hg
      norm_num [oddSamples, Finset.sum_range_succ, rawWeight, offset]
    obtain ⟨G, hG, h⟩ := integrate_one_value_partial (fun t args kw => match args, kw with
      | [.scalar d], [] => .ok (.scalar (d * t))
      | [], [(_, .scalar d)] => .ok (.scalar (d * t))
      | _, _ => .error .value) [.scalar 2] (fun t => 2 * t) (fun _ => rfl) 1 hg
    exact ⟨G, hG, by rw [h 3, hg3]⟩

/-! ## interpolation -/

/-- C104 (partial: not for light curves with several values, see below): a light curve with one value is interpolated as in C35, with the arguments given to the transform; those given to the call are ignored -/
theorem interpolate_one_value_partial (tiny : ℝ) (f : LcFun) (args : List Arr) (kwargs : List (String × Arr)) (F : ℝ → ℝ)
    (hf : ∀ t, f t args kwargs = .ok (.scalar (F t))) (period time_transit : ℝ) (n : ℕ) (duration : Option ℝ) :
    ∃ G, interpolateArr tiny f period time_transit n duration args kwargs = .ok G ∧
      ∀ time args' kwargs', G time args' kwargs' = .ok (.scalar (interpolate tiny F period time_transit n duration time)) := by
  have h : (timeGrid time_transit period duration n).mapM (fun t => f t args kwargs) =
      .ok (((timeGrid time_transit period duration n).map F).map Arr.scalar) := by
    rw [List.map_map]
    exact mapM_except _ fun t _ => hf t
  have h' : (((timeGrid time_transit period duration n).map F).map Arr.scalar).mapM Arr.toReal = some ((timeGrid time_transit period duration n).map F) := by
    rw [List.mapM_map]
    exact (mapM_option (f := Arr.toReal ∘ Arr.scalar) (g := id) _ fun _ _ => rfl).trans (by simp)
  unfold interpolateArr
  simp only [h]
  refine ⟨_, rfl, fun time _ _ => ?_⟩
  rw [h']
  show Except.ok (Arr.scalar _) = _
  unfold interpolate
  congr 4
  rw [List.zip_eq_zipWith, List.zipWith_map_right, List.zipWith_self]

/-- Finding F48: a light curve with one value for each body (even for a single body) cannot be interpolated: the transform succeeds, and every call of the
interpolated light curve raises `ValueError` -/
theorem interpolate_bodies_raises (tiny : ℝ) (f : LcFun) (args : List Arr) (kwargs : List (String × Arr)) {m : ℕ} (F : ℝ → Fin m → ℝ)
    (hf : ∀ t, f t args kwargs = .ok (arr1 (F t))) (period time_transit : ℝ) {n : ℕ} (hn : 0 < n) (duration : Option ℝ) :
    ∃ G, interpolateArr tiny f period time_transit n duration args kwargs = .ok G ∧ ∀ time args' kwargs', G time args' kwargs' = .error .value := by
  have h : (timeGrid time_transit period duration n).mapM (fun t => f t args kwargs) =
      .ok ((timeGrid time_transit period duration n).map fun t => arr1 (F t)) := mapM_except _ fun t _ => hf t
  have h' : ((timeGrid time_transit period duration n).map fun t => arr1 (F t)).mapM Arr.toReal = none := by
    have hne : timeGrid time_transit period duration n ≠ [] := by
      rw [ne_eq, ← List.length_eq_zero_iff]
      simp [timeGrid, length_linspace]
      omega
    obtain ⟨a, l, hal⟩ := List.exists_cons_of_ne_nil hne
    rw [hal, List.map_cons, List.mapM_cons]
    rfl
  unfold interpolateArr
  simp only [h]
  refine ⟨_, rfl, fun time _ _ => ?_⟩
  rw [h']
  rfl

/-! ## light curves of orbits -/

theorem orbitLcFun_eq (eps : ℝ) (quad : List (ℝ × ℝ)) (u : List ℝ) (r_star : ℝ) (bodies : List (ℝ × (ℝ → Keplerian.V3))) (time : ℝ) (args : List Arr)
    (kwargs : List (String × Arr)) : orbitLcFun eps quad u r_star bodies time args kwargs =
      .ok (arr1 fun k : Fin bodies.length => limbDarkTerm eps quad u r_star bodies[k].1 (bodies[k].2 time)) := by
  unfold orbitLcFun limbDarkLightCurve arr1
  congr 2
  apply List.ext_getElem
  · simp
  · intro i hi _
    simp

/-- C104: the exposure-integrated light curve of an orbit with any number of bodies has, for each body, the mean over the exposure (C33) of
the light curve of that body -/
theorem integrate_orbit {order N : ℕ} (ho : order ≤ 2) (eps : ℝ) (quad : List (ℝ × ℝ)) (u : List ℝ) (r_star : ℝ) (bodies : List (ℝ × (ℝ → Keplerian.V3)))
    (e : ℝ) : ∃ (g : Fin bodies.length → ℝ → ℝ) (G : LcFun),
      (∀ k, integrate (fun t => limbDarkTerm eps quad u r_star bodies[k].1 (bodies[k].2 t)) (some e) 0 order N = .ok (g k)) ∧
      integrateArr (orbitLcFun eps quad u r_star bodies) (some e) 0 order N = .ok G ∧ ∀ time, G time [] [] = .ok (arr1 fun k => g k time) := by
  obtain ⟨dt, s, hst⟩ := stencil_defined N ho
  have hg := fun k : Fin bodies.length => integrate_stencil hst (fun t => limbDarkTerm eps quad u r_star bodies[k].1 (bodies[k].2 t)) e
  obtain ⟨G, hG, h⟩ := integrate_bodies_partial (orbitLcFun eps quad u r_star bodies) [] _ (fun t => orbitLcFun_eq eps quad u r_star bodies t [] []) e ho hg
  exact ⟨_, G, hg, hG, h⟩

/-- the light curve of two bodies -/
example (e : ℝ) : ∃ G, integrateArr (fun t _ _ => .ok (arr1 ![t, t ^ 2])) (some e) 0 0 3 = .ok G ∧
    ∃ m : Fin 2 → ℝ, G 0 [] [] = .ok (arr1 m) ∧ m 0 = 0 ∧ m 1 = 2 / 27 * e ^ 2 := by
  have hg := fun k : Fin 2 => integrate_eq (order := 0) (N := 3) (by norm_num) (.inl rfl) (fun t : ℝ => ![t, t ^ 2] k) e
  obtain ⟨G, hG, h⟩ := integrate_bodies_partial (order := 0) (N := 3) (fun t _ _ => .ok (arr1 ![t, t ^ 2])) [] (fun t => ![t, t ^ 2]) (fun _ => rfl) e
    (by norm_num) hg
  refine ⟨G, hG, _, h 0, ?_, ?_⟩
  · norm_num [oddSamples, Finset.sum_range_succ, rawWeight, offset]
  · norm_num [oddSamples, Finset.sum_range_succ, rawWeight, offset]
    ring

/-- and it cannot be interpolated -/
theorem interpolate_orbit_raises (tiny eps : ℝ) (quad : List (ℝ × ℝ)) (u : List ℝ) (r_star : ℝ) (bodies : List (ℝ × (ℝ → Keplerian.V3))) (period time_transit : ℝ)
    {n : ℕ} (hn : 0 < n) (duration : Option ℝ) :
    ∃ G, interpolateArr tiny (orbitLcFun eps quad u r_star bodies) period time_transit n duration [] [] = .ok G ∧
      ∀ time args' kwargs', G time args' kwargs' = .error .value :=
  interpolate_bodies_raises tiny _ [] [] _ (fun t => orbitLcFun_eq eps quad u r_star bodies t [] []) period time_transit hn duration

end Jaxoplanet.LightCurve
