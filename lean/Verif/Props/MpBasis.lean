import Verif.Model.Multiprecision
import Verif.Props.MpCache
import Verif.Props.GreenBasis
import Verif.Props.RealComplex
import Verif.Props.Occultation
import Verif.Props.SurfaceLight

/-!
# C71: the bases of the multi-precision package

The multi-precision reference implementation computes the changes of basis with its own code: memoised factorials of
half-integers (with `mp.inf` at the poles), memoised coefficients, dictionaries. They are the matrices of the core package,
after any history of the factorial table.
-/

namespace Jaxoplanet.Starry.Mp

open Real

/-! ### tables -/

/-- every entry of the factorial table is right -/
def FacOk (t : FacTbl) : Prop := ∀ n v, t.lookup n = some v → v = facFn n

/-- the computation `m` gives `a` from every correct table and leaves a correct table -/
def Gives {α : Type} (m : StateT FacTbl Option α) (a : α) : Prop :=
  ∀ t, FacOk t → ∃ t', m t = some (a, t') ∧ FacOk t'

theorem Gives.pure {α : Type} (a : α) : Gives (Pure.pure a) a := fun t ht => ⟨t, rfl, ht⟩

theorem Gives.bind {α β : Type} {m : StateT FacTbl Option α} {f : α → StateT FacTbl Option β} {a : α} {b : β}
    (hm : Gives m a) (hf : Gives (f a) b) : Gives (m >>= f) b := by
  intro t ht
  obtain ⟨t1, h1, h2⟩ := hm t ht
  obtain ⟨t2, h3, h4⟩ := hf t1 h2
  refine ⟨t2, ?_, h4⟩
  show (m t).bind _ = _
  rw [h1]
  exact h3

theorem fac_gives (n : ℝ) : Gives (fac n) (facFn n) := by
  intro t ht
  unfold fac
  cases h : t.lookup n with
  | none =>
    refine ⟨setKey t n (facFn n), by simp [lookup_setKey], ?_⟩
    intro n' v hv
    rw [lookup_setKey] at hv
    split_ifs at hv with hn
    · rw [hn]; simpa using hv.symm
    · exact ht _ _ hv
  | some v =>
    refine ⟨t, by simp [h, ht _ _ h], ht⟩

theorem facNum_gives {n v : ℝ} (h : facFn n = some v) : Gives (facNum n) v := by
  refine (fac_gives n).bind ?_
  rw [h]
  exact Gives.pure v

theorem facFn_nat (n : ℕ) : facFn n = some (n.factorial : ℝ) := by
  unfold facFn
  by_cases h : (n : ℝ) = 0
  · have : n = 0 := by exact_mod_cast h
    subst this
    simp
  · rw [if_neg h, if_neg, Gamma_nat_eq_factorial]
    rintro ⟨k, hk⟩
    have h1 : (0 : ℝ) ≤ n := Nat.cast_nonneg n
    have h2 : (0 : ℝ) ≤ k := Nat.cast_nonneg k
    linarith

theorem facFn_cast {x : ℝ} (n : ℕ) (h : x = n) : facFn x = some (n.factorial : ℝ) := h ▸ facFn_nat n

theorem facFn_gamma {x : ℝ} (h : ∀ k : ℕ, x ≠ -(k : ℝ) - 1) : facFn x = some (Gamma (x + 1)) := by
  unfold facFn
  by_cases h0 : x = 0
  · simp [h0]
  · rw [if_neg h0, if_neg]
    rintro ⟨k, hk⟩
    exact h k hk

/-! ### the constants -/

theorem A_gives (l m : ℕ) (h : m ≤ l) : Gives (A l m) (Alm l m) := by
  unfold A
  refine (facNum_gives (facFn_cast (l - m) (by rw [Nat.cast_sub h]))).bind ?_
  refine (facNum_gives (facFn_cast (l + m) (by push_cast; ring))).bind ?_
  exact Gives.pure _

theorem B_gives (l m j k : ℕ) (h1 : j ≤ m) (h2 : m + k ≤ l) : Gives (B l m j k) (Blmjk l m j k) := by
  have hn : ∀ i : ℕ, ((l : ℝ) + m + k - 1) / 2 ≠ -(i : ℝ) - 1 := by
    intro i h
    have a1 : (0 : ℝ) ≤ i := Nat.cast_nonneg i
    have a2 : (0 : ℝ) ≤ l := Nat.cast_nonneg l
    have a3 : (0 : ℝ) ≤ m := Nat.cast_nonneg m
    have a4 : (0 : ℝ) ≤ k := Nat.cast_nonneg k
    linarith
  have key : Blmjk l m j k = 2 ^ l * (m.factorial : ℝ) /
      ((j.factorial : ℝ) * (k.factorial : ℝ) * ((m - j).factorial : ℝ) * ((l - m - k).factorial : ℝ)) *
      (match facFn ((-(l : ℝ) + m + k - 1) / 2) with
        | none => 0
        | some v => Gamma (((l : ℝ) + m + k - 1) / 2 + 1) / v) := by
    unfold Blmjk
    simp only
    by_cases hb : (-(l : ℤ) + m + k - 1 < 0) ∧ (-(l : ℤ) + m + k - 1) % 2 = 0
    · rw [if_pos hb]
      have : facFn ((-(l : ℝ) + m + k - 1) / 2) = none := by
        obtain ⟨i, hi⟩ : ∃ i : ℕ, (l : ℤ) - m - k + 1 = 2 * (i + 1) := ⟨((l - m - k + 1) / 2 - 1 : ℕ), by omega⟩
        have hi' : (l : ℝ) - m - k + 1 = 2 * (i + 1) := by exact_mod_cast hi
        have e : (-(l : ℝ) + m + k - 1) / 2 = -(i : ℝ) - 1 := by linarith
        unfold facFn
        rw [if_neg, if_pos ⟨i, e⟩]
        rw [e]
        have a1 : (0 : ℝ) ≤ i := Nat.cast_nonneg i
        linarith
      rw [this]
      simp
    · rw [if_neg hb]
      have : facFn ((-(l : ℝ) + m + k - 1) / 2) = some (Gamma ((-(l : ℝ) + m + k - 1) / 2 + 1)) := by
        apply facFn_gamma
        intro i hi
        apply hb
        have hi' : -(l : ℝ) + m + k - 1 = 2 * (-(i : ℝ) - 1) := by linarith
        have hi2 : -(l : ℤ) + m + k - 1 = 2 * (-(i : ℤ) - 1) := by exact_mod_cast hi'
        omega
      rw [this]
      simp only
      push_cast
      rw [show (0.5 : ℝ) * ((l : ℝ) + m + k - 1) + 1 = ((l : ℝ) + m + k - 1) / 2 + 1 by ring,
        show (0.5 : ℝ) * (-(l : ℝ) + m + k - 1) + 1 = (-(l : ℝ) + m + k - 1) / 2 + 1 by ring]
  unfold B
  refine (facNum_gives (facFn_gamma hn)).bind ?_
  refine (fac_gives _).bind ?_
  refine (facNum_gives (facFn_nat m)).bind ?_
  refine (facNum_gives (facFn_nat j)).bind ?_
  refine (facNum_gives (facFn_nat k)).bind ?_
  refine (facNum_gives (facFn_cast (m - j) (by rw [Nat.cast_sub h1]))).bind ?_
  refine (facNum_gives (facFn_cast (l - m - k) (by
    rw [Nat.cast_sub (by omega), Nat.cast_sub (by omega)]))).bind ?_
  rw [key]
  exact Gives.pure _

theorem half_nat {a b : ℕ} (h : b ≤ a) (he : (a - b) % 2 = 0) : ((a : ℝ) - b) / 2 = ((a - b) / 2 : ℕ) := by
  obtain ⟨i, hi⟩ : ∃ i, a - b = 2 * i := ⟨(a - b) / 2, by omega⟩
  have : (a : ℝ) - b = 2 * i := by
    rw [← Nat.cast_sub h, hi]
    push_cast
    ring
  rw [this, hi]
  simp

theorem C_gives (p q k : ℕ) (hk : k % 2 = 0) (hp : p % 2 = 0) (hq : q % 2 = 0) (hqp : q ≤ p) (hpk : p ≤ k) :
    Gives (C p q k) (Cpqk p q k) := by
  unfold C
  refine (facNum_gives (facFn_cast (k / 2) (by simpa using half_nat (Nat.zero_le k) (by simpa using hk)))).bind ?_
  refine (facNum_gives (facFn_cast (q / 2) (by simpa using half_nat (Nat.zero_le q) (by simpa using hq)))).bind ?_
  refine (facNum_gives (facFn_cast ((k - p) / 2) (half_nat hpk (by omega)))).bind ?_
  refine (facNum_gives (facFn_cast ((p - q) / 2) (half_nat hqp (by omega)))).bind ?_
  exact Gives.pure _

/-! ### `Y` -/

/-- the value that belongs to a key of the table of `Y` -/
noncomputable def coefVal (key : String × List ℕ) : Option ℝ :=
  if key.1 = "A" then
    match key.2 with
    | [l, m] => some (Alm l m)
    | _ => none
  else if key.1 = "B" then
    match key.2 with
    | [l, m, j, k] => some (Blmjk l m j k)
    | _ => none
  else if key.1 = "C" then
    match key.2 with
    | [p, q, k] => some (Cpqk p q k)
    | _ => none
  else none

structure MemOk (s : MemSt) : Prop where
  facs : FacOk s.facs
  coeffs : ∀ key v, s.coeffs.lookup key = some v → coefVal key = some v

def Gives' {α : Type} (m : StateT MemSt Option α) (a : α) : Prop := ∀ s, MemOk s → ∃ s', m s = some (a, s') ∧ MemOk s'

theorem Gives'.pure {α : Type} (a : α) : Gives' (Pure.pure a) a := fun t ht => ⟨t, rfl, ht⟩

theorem Gives'.bind {α β : Type} {m : StateT MemSt Option α} {f : α → StateT MemSt Option β} {a : α} {b : β}
    (hm : Gives' m a) (hf : Gives' (f a) b) : Gives' (m >>= f) b := by
  intro t ht
  obtain ⟨t1, h1, h2⟩ := hm t ht
  obtain ⟨t2, h3, h4⟩ := hf t1 h2
  refine ⟨t2, ?_, h4⟩
  show (m t).bind _ = _
  rw [h1]
  exact h3

theorem get_gives (name : String) (idx : List ℕ) (f : StateT FacTbl Option ℝ) (v : ℝ) (hf : Gives f v)
    (hv : coefVal (name, idx) = some v) : Gives' (get name idx f) v := by
  intro s hs
  unfold get
  cases h : s.coeffs.lookup (name, idx) with
  | some w =>
    have := hs.coeffs _ _ h
    rw [hv] at this
    refine ⟨s, by simp [Option.some.inj this], hs⟩
  | none =>
    obtain ⟨t', h1, h2⟩ := hf s.facs hs.facs
    refine ⟨⟨t', setKey s.coeffs (name, idx) v⟩, by simp [h1], h2, ?_⟩
    intro key w hw
    rw [lookup_setKey] at hw
    split_ifs at hw with hk
    · rw [hk, hv, hw]
    · exact hs.coeffs _ _ hw

/-- the term that the loop of `Y` adds -/
noncomputable def yTerm (l am neg : ℕ) (e : ℕ × ℕ × ℕ × ℕ × ℕ) : Ijk × ℝ :=
  ((am - e.1 + e.2.2.1 - e.2.2.2.1, e.1 + e.2.2.2.1, e.2.2.2.2),
    (-1) ^ ((e.1 + e.2.2.1 - neg) / 2) * Alm l am * Blmjk l am e.1 e.2.1 * Cpqk e.2.2.1 e.2.2.2.1 (e.2.1 - e.2.2.2.2))

theorem yStep_gives (l am neg : ℕ) (hm : am ≤ l) (d : Dict Ijk) (e : ℕ × ℕ × ℕ × ℕ × ℕ) (he : e ∈ yLoop l am neg) :
    Gives' (yStep l am neg d e) (Dict.accum d (yTerm l am neg e).1 (yTerm l am neg e).2) := by
  obtain ⟨j, k, p, q, z⟩ := e
  have hb : j ≤ am ∧ am + k ≤ l ∧ (k - z) % 2 = 0 ∧ p % 2 = 0 ∧ q % 2 = 0 ∧ q ≤ p ∧ p ≤ k - z := by
    simp only [yLoop, List.mem_flatMap, List.mem_append, List.mem_map, Prod.mk.injEq, mem_range2] at he
    obtain ⟨j', hj', h | h⟩ := he
    · obtain ⟨k', hk', p', hp', q', hq', rfl, rfl, rfl, rfl, rfl⟩ := h
      omega
    · obtain ⟨k', hk', p', hp', q', hq', rfl, rfl, rfl, rfl, rfl⟩ := h
      omega
  obtain ⟨h1, h2, h3, h4, h5, h6, h7⟩ := hb
  unfold yStep
  refine (get_gives "A" _ _ _ (A_gives l am hm) (by simp [coefVal])).bind ?_
  refine (get_gives "B" _ _ _ (B_gives l am j k h1 h2) (by simp [coefVal])).bind ?_
  refine (get_gives "C" _ _ _ (C_gives p q (k - z) h3 h4 h5 h6 h7) (by simp [coefVal])).bind ?_
  exact Gives'.pure _

theorem fold_gives (l am neg : ℕ) (hm : am ≤ l) : ∀ (es : List (ℕ × ℕ × ℕ × ℕ × ℕ)), (∀ e ∈ es, e ∈ yLoop l am neg) →
    ∀ d, Gives' (es.foldlM (yStep l am neg) d) ((es.map (yTerm l am neg)).foldl (fun d e => Dict.accum d e.1 e.2) d)
  | [], _, d => Gives'.pure d
  | e :: es, h, d => by
    rw [List.foldlM_cons, List.map_cons, List.foldl_cons]
    exact (yStep_gives l am neg hm d e (h e List.mem_cons_self)).bind
      (fold_gives l am neg hm es (fun e' he' => h e' (List.mem_cons_of_mem _ he')) _)

/-- the value of `Y(l, m)` without tables -/
noncomputable def yVal (l : ℕ) (m : ℤ) : Dict Ijk :=
  ((yLoop l m.natAbs (if m < 0 then 1 else 0)).map (yTerm l m.natAbs (if m < 0 then 1 else 0))).foldl
    (fun d e => Dict.accum d e.1 e.2) []

theorem Y_gives (l : ℕ) (m : ℤ) (hm : m.natAbs ≤ l) : Gives (Y l m) (yVal l m) := by
  intro t ht
  obtain ⟨s', h1, h2⟩ := fold_gives l m.natAbs (if m < 0 then 1 else 0) hm _ (fun _ h => h) [] ⟨t, []⟩ ⟨ht, by simp⟩
  refine ⟨s'.facs, ?_, h2.facs⟩
  unfold Y
  simp only [h1, Option.map_some]
  rfl

theorem getD0_foldl_accum (ts : List (Ijk × ℝ)) (k : Ijk) : ∀ d : Dict Ijk,
    Dict.getD0 (ts.foldl (fun d e => Dict.accum d e.1 e.2) d) k =
      Dict.getD0 d k + (ts.map fun e => if e.1 = k then e.2 else 0).sum := by
  induction ts with
  | nil => intro d; simp
  | cons e ts ih =>
    intro d
    rw [List.foldl_cons, ih, Dict.getD0_accum, List.map_cons, List.sum_cons]
    by_cases h : e.1 = k
    · simp [h, add_assoc]
    · have : k ≠ e.1 := fun h' => h h'.symm
      simp [h, this]

/-- **C71** The dictionary of `Y(l, m)` and that of `core.basis.Ylm(l, m)` have the same coefficients (the first one may
contain zeros that the second one leaves out) -/
theorem yVal_eq (l : ℕ) (m : ℤ) (k : Ijk) : Dict.getD0 (yVal l m) k = Dict.getD0 (ylmDict l m) k := by
  unfold yVal ylmDict
  rw [getD0_foldl_accum, getD0_foldl_accum]
  congr 1
  unfold yLoop ylmTerms
  simp only
  rw [List.map_map, listSum_flatMap, listSum_flatMap]
  congr 1
  refine List.map_congr_left fun j hj => ?_
  simp only [List.sum_append, listSum_flatMap, List.map_append, List.map_map]
  congr 1
  · congr 1
    refine List.map_congr_left fun k' hk' => ?_
    by_cases hB : Blmjk l m.natAbs j k' = 0
    · rw [if_pos hB]
      simp only [List.map_nil, List.sum_nil]
      rw [List.sum_eq_zero]
      intro x hx
      simp only [List.mem_map] at hx
      obtain ⟨p, hp, rfl⟩ := hx
      rw [List.sum_eq_zero]
      intro x hx
      simp only [List.mem_map, Function.comp] at hx
      obtain ⟨q, hq, rfl⟩ := hx
      simp [yTerm, hB]
    · rw [if_neg hB]
      simp only [listSum_flatMap, List.map_map]
      congr 1
      refine List.map_congr_left fun p hp => ?_
      congr 1
      refine List.map_congr_left fun q hq => ?_
      simp only [Function.comp, yTerm, Nat.sub_zero, mul_assoc]
  · congr 1
    refine List.map_congr_left fun k' hk' => ?_
    by_cases hB : Blmjk l m.natAbs j k' = 0
    · rw [if_pos hB]
      simp only [List.map_nil, List.sum_nil]
      rw [List.sum_eq_zero]
      intro x hx
      simp only [List.mem_map] at hx
      obtain ⟨p, hp, rfl⟩ := hx
      rw [List.sum_eq_zero]
      intro x hx
      simp only [List.mem_map, Function.comp] at hx
      obtain ⟨q, hq, rfl⟩ := hx
      simp [yTerm, hB]
    · rw [if_neg hB]
      simp only [listSum_flatMap, List.map_map]
      congr 1
      refine List.map_congr_left fun p hp => ?_
      congr 1
      refine List.map_congr_left fun q hq => ?_
      simp only [Function.comp, yTerm, mul_assoc]


/-! ### the matrices -/

theorem Gives.mapM {α β : Type} {f : α → StateT FacTbl Option β} {g : α → β} : ∀ (xs : List α),
    (∀ x ∈ xs, Gives (f x) (g x)) → Gives (xs.mapM f) (xs.map g)
  | [], _ => by rw [List.mapM_nil]; exact Gives.pure _
  | x :: xs, h => by
    rw [List.mapM_cons]
    exact (h x List.mem_cons_self).bind ((Gives.mapM xs fun y hy => h y (List.mem_cons_of_mem _ hy)).bind (Gives.pure _))

theorem pCoeffs_eq (n : ℕ) : pCoeffs n = ptilde n := rfl


theorem foldl_accum_WF (ts : List (Ijk × ℝ)) : ∀ d : Dict Ijk, Dict.WF d →
    Dict.WF (ts.foldl (fun d e => Dict.accum d e.1 e.2) d) := by
  induction ts with
  | nil => exact fun d h => h
  | cons e ts ih => exact fun d h => ih _ (h.accum _ _)

theorem sum_getD0 (k : Ijk) : ∀ d : Dict Ijk, Dict.WF d →
    (d.map fun e => if e.1 = k then e.2 else 0).sum = Dict.getD0 d k
  | [], _ => rfl
  | e :: d, h => by
    rw [Dict.WF.cons_iff] at h
    rw [List.map_cons, List.sum_cons, sum_getD0 k d h.2, Dict.getD0_cons]
    by_cases he : e.1 = k
    · have : k ∉ Dict.keys d := he ▸ h.1
      rw [Dict.getD0_of_notMem this]
      simp [he]
    · have : k ≠ e.1 := fun h' => he h'.symm
      simp [he, this]

/-- **C71** `A1(l_max)` of the multi-precision package is `A1(lmax)` of the core, from every state of the tables -/
theorem A1mp_gives (lmax : ℕ) : Gives (A1mp lmax) (A1 lmax) := by
  have hA : A1 lmax = (loopLM lmax).map fun e => (List.range ((lmax + 1) ^ 2)).map fun i =>
      Dict.getD0 (yVal e.1 e.2) (pCoeffs i) * 2 / √π := by
    unfold A1
    rw [AImpl_eq, loopLM_eq, List.map_map, List.map_map]
    refine List.map_congr_left fun n hn => ?_
    simp only [Function.comp]
    have hl : (lmOfIndex n).1 ≤ lmax := lmOfIndex_le (List.mem_range.1 hn)
    have hb := lmOfIndex_bounds n
    have hkeys := ylmDict_keys (lmOfIndex n).1 (lmOfIndex n).2 (by omega)
    apply List.ext_getElem
    · simp [bcooDense_length]
    · intro i h1 h2
      have hi : i < (lmax + 1) ^ 2 := by simpa using h2
      rw [List.getElem_map, List.getElem_map, List.getElem_range]
      have := column_entry (ylmDict (lmOfIndex n).1 (lmOfIndex n).2) lmax (fun e he => ⟨(hkeys e he).1, (hkeys e he).2.trans hl⟩) i hi
      rw [List.getD_eq_getElem _ _ (by simpa [bcooDense_length] using hi)] at this
      rw [this, sum_getD0 _ (ylmDict _ _) (foldl_accum_WF _ [] List.nodup_nil), yVal_eq, pCoeffs_eq]
  rw [hA]
  refine Gives.mapM _ fun e he => ?_
  exact (Y_gives e.1 e.2 (mem_loopLM he)).bind (Gives.pure _)

theorem lookup_fold_setKey (k : ℤ × ℤ × ℤ) : ∀ (ts : List ((ℤ × ℤ × ℤ) × ℤ)) (d : List ((ℤ × ℤ × ℤ) × ℤ)),
    (ts.map Prod.fst).Nodup →
    (ts.foldl (fun d e => setKey d e.1 e.2) d).lookup k = (ts.lookup k).or (d.lookup k)
  | [], d, _ => by simp
  | e :: ts, d, h => by
    rw [List.map_cons, List.nodup_cons] at h
    rw [List.foldl_cons, lookup_fold_setKey k ts _ h.2, lookup_setKey, List.lookup_cons]
    by_cases he : k = e.1
    · have : ts.lookup k = none := by
        rw [List.lookup_eq_none_iff]
        intro p hp
        have : e.1 ≠ p.1 := fun h' => h.1 (h' ▸ List.mem_map_of_mem hp)
        simpa [he] using this
      rw [this, he]
      simp
    · have hb : (k == e.1) = false := by simpa using he
      rw [hb]
      simp [he]

theorem lookup_sum (k : Ijk) : ∀ ts : List ((ℤ × ℤ × ℤ) × ℤ), (ts.map Prod.fst).Nodup →
    (∀ t ∈ ts, t.2 ≠ 0 → 0 ≤ t.1.1 ∧ 0 ≤ t.1.2.1 ∧ 0 ≤ t.1.2.2) →
    (match ts.lookup ((k.1 : ℤ), (k.2.1 : ℤ), (k.2.2 : ℤ)) with
      | some c => (c : ℝ)
      | none => 0) = (ts.map fun t => if (t.1.1.toNat, t.1.2.1.toNat, t.1.2.2.toNat) = k then (t.2 : ℝ) else 0).sum
  | [], _, _ => by simp
  | t :: ts, h, h0 => by
    rw [List.map_cons, List.nodup_cons] at h
    have ih := lookup_sum k ts h.2 fun t ht => h0 t (List.mem_cons_of_mem _ ht)
    rw [List.map_cons, List.sum_cons, List.lookup_cons]
    by_cases he : ((k.1 : ℤ), (k.2.1 : ℤ), (k.2.2 : ℤ)) = t.1
    · have : ts.lookup t.1 = none := by
        rw [List.lookup_eq_none_iff]
        intro p hp
        have : t.1 ≠ p.1 := fun h' => h.1 (h' ▸ List.mem_map_of_mem hp)
        simpa using this
      rw [he, this] at ih
      have e2 : (t.1.1.toNat, t.1.2.1.toNat, t.1.2.2.toNat) = k := by rw [← he]; simp
      rw [← ih, if_pos e2, he]
      simp
    · have hb : (((k.1 : ℤ), (k.2.1 : ℤ), (k.2.2 : ℤ)) == t.1) = false := by simpa using he
      rw [hb]
      simp only
      rw [ih]
      split_ifs with h3
      · by_cases hz : t.2 = 0
        · simp [hz]
        · obtain ⟨a1, a2, a3⟩ := h0 t List.mem_cons_self hz
          exact absurd (by rw [← h3]; simp [a1, a2, a3]) he
      · simp

theorem gLists_terms (n : ℕ) : gLists n = (gTerms n).map fun t => ((t.1, t.2.1, t.2.2.1), t.2.2.2) := by
  obtain ⟨q, hq⟩ : ∃ q : ℕ, n = (Nat.sqrt n) ^ 2 + q := ⟨n - Nat.sqrt n ^ 2, by have := sqrt_bounds n; omega⟩
  unfold gLists gTerms
  simp only
  generalize hl : Nat.sqrt n = l at *
  have e1 : (n : ℤ) - (l : ℤ) * l - l = (q : ℤ) - l := by rw [hq]; push_cast; ring
  rw [e1]
  split_ifs with c1 c2 c3 c4
  · rfl
  · rfl
  · rfl
  · rfl
  · simp only [List.map_cons, List.map_nil]
    have t1 : -(((l : ℤ) - (q - l) - 3) / 2) = -((l : ℤ) - (q - l) - 3) / 2 := by omega
    have t2 : -(((l : ℤ) - (q - l) + 3) / 2) = -((l : ℤ) - (q - l) + 3) / 2 := by omega
    rw [t1, t2]

theorem gLists_ok (n : ℕ) : ((gLists n).map Prod.fst).Nodup ∧
    ∀ t ∈ gLists n, t.2 ≠ 0 → 0 ≤ t.1.1 ∧ 0 ≤ t.1.2.1 ∧ 0 ≤ t.1.2.2 := by
  have hb := sqrt_bounds n
  obtain ⟨q, hq⟩ : ∃ q : ℕ, n = (Nat.sqrt n) ^ 2 + q := ⟨n - Nat.sqrt n ^ 2, by omega⟩
  have h2 : q ≤ 2 * Nat.sqrt n := by omega
  unfold gLists
  simp only
  clear hb
  generalize hl : Nat.sqrt n = l at *
  have e1 : (n : ℤ) - (l : ℤ) * l - l = (q : ℤ) - l := by rw [hq]; push_cast; ring
  rw [e1]
  split_ifs with c1 c2 c3 c4
  · simp
    omega
  · simp
  · simp
    omega
  · simp
    omega
  · simp
    omega

theorem gMp_gc (n : ℕ) (k : Ijk) :
    (match (gtildeMp n).lookup ((k.1 : ℤ), (k.2.1 : ℤ), (k.2.2 : ℤ)) with
      | some c => (c : ℝ)
      | none => 0) = gc n k := by
  have h := gLists_ok n
  unfold gtildeMp
  rw [lookup_fold_setKey _ _ _ h.1]
  have := lookup_sum k (gLists n) h.1 h.2
  rw [List.lookup_nil, Option.or_none, this, gLists_terms, List.map_map]
  rfl

/-- **C71** the change of basis to the Green basis is that of the core -/
theorem A2invMp_eq (lmax : ℕ) : A2invMp lmax = A2inv lmax := by
  have hA := A2inv_getD lmax
  have hL : (A2inv lmax).length = (lmax + 1) ^ 2 := by unfold A2inv; rw [AImpl_eq]; simp
  have hC : ∀ n (h : n < (A2inv lmax).length), ((A2inv lmax)[n]).length = (lmax + 1) ^ 2 := by
    unfold A2inv
    rw [AImpl_eq]
    intro n h
    simp [bcooDense_length]
  unfold A2invMp
  apply List.ext_getElem
  · simp [hL]
  · intro n h1 h2
    rw [List.getElem_map]
    apply List.ext_getElem
    · simp [hC n h2]
    · intro i h3 h4
      rw [List.getElem_map, List.getElem_range, List.getElem_range]
      refine (gMp_gc n (pCoeffs i)).trans ?_
      rw [pCoeffs_eq]
      have := hA i n (by rw [hC] at h4; exact h4) (by rw [hL] at h2; exact h2)
      rw [← this, List.getD_eq_getElem _ _ h2, List.getD_eq_getElem _ _ h4]

/-- **C71** any sequence of requests to a fresh interpreter: every matrix `A1` that the multi-precision package computes is
the matrix of the core package -/
theorem A1mp_history (degrees : List ℕ) :
    ∃ t, (degrees.mapM A1mp).run [] = some (degrees.map A1, t) ∧ FacOk t :=
  Gives.mapM degrees (fun l _ => A1mp_gives l) [] (fun _ _ h => by simp at h)

/-- **C71** the matrix `A2` of the multi-precision package is that of the core package (`scipy.linalg.inv(A2_inv)`), and it
inverts the matrix of the Green polynomials -/
theorem A2mp_core (lmax : ℕ) : scipyInv (matOf ((lmax + 1) ^ 2) (A2inv lmax)) = .ok (A2mp lmax) ∧
    A2mp lmax * matOf ((lmax + 1) ^ 2) (A2invMp lmax) = 1 := by
  have hd := A2inv_det lmax
  unfold A2mp
  rw [A2invMp_eq]
  exact ⟨if_neg hd, Matrix.nonsing_inv_mul _ (isUnit_iff_ne_zero.2 hd)⟩

/-- a history of three requests -/
example : ∃ t, ([2, 0, 2].mapM A1mp).run [] = some ([A1 2, A1 0, A1 2], t) ∧ FacOk t := A1mp_history [2, 0, 2]

end Jaxoplanet.Starry.Mp
