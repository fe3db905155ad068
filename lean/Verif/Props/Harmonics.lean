import Verif.Proofs.Harmonics

/-!
# C38, C39, C40: spherical-harmonic maps and surfaces
-/

namespace Jaxoplanet.Starry

open Spec

/-! ## C38: index and dense form -/

/-- C38: `(l, m) ↦ l (l + 1) + m` on `|m| ≤ l` is a bijection onto the naturals; its inverse is the one
computed by `from_dense` -/
theorem ylm_index_bijective :
    Set.BijOn (fun lm : ℕ × ℤ => Ylm.index lm.1 lm.2) {lm | |lm.2| ≤ (lm.1 : ℤ)} {n : ℤ | 0 ≤ n} ∧
    (∀ n : ℕ, Ylm.index (lmOfIndex n).1 (lmOfIndex n).2 = n ∧ |(lmOfIndex n).2| ≤ ((lmOfIndex n).1 : ℤ)) ∧
    (∀ (l : ℕ) (m : ℤ), |m| ≤ (l : ℤ) → lmOfIndex (Ylm.index l m).toNat = (l, m)) := by
  have key : ∀ (l : ℕ) (m : ℤ), |m| ≤ (l : ℤ) → lmOfIndex (Ylm.index l m).toNat = (l, m) := by
    intro l m h
    refine lmOfIndex_index' h (Int.toNat_of_nonneg ?_)
    have := (index_nonneg h).1
    nlinarith
  refine ⟨⟨?_, ?_, ?_⟩, index_lmOfIndex', key⟩
  · rintro ⟨l, m⟩ h
    have := (index_nonneg h).1
    show (0 : ℤ) ≤ _
    simp only
    nlinarith
  · rintro ⟨l, m⟩ h ⟨l', m'⟩ h' he
    rw [← key l m h, ← key l' m' h']
    exact congrArg (fun n : ℤ => lmOfIndex n.toNat) he
  · rintro n hn
    obtain ⟨k, rfl⟩ := Int.eq_ofNat_of_zero_le hn
    exact ⟨lmOfIndex k, (index_lmOfIndex' k).2, (index_lmOfIndex' k).1⟩

theorem deg_spec {y : Ylm} (hy : ValidMap y) :
    (∀ e ∈ y.data, e.1.1 ≤ y.deg) ∧ ∃ e ∈ y.data, e.1.1 = y.deg := by
  obtain ⟨_, hne, _⟩ := hy
  unfold Ylm.deg
  generalize y.data = d at hne
  constructor
  · intro e he
    induction d with
    | nil => simp at he
    | cons f d ih =>
      rw [List.map_cons, List.foldr_cons]
      rcases List.mem_cons.1 he with h | h
      · rw [h]; exact le_max_left _ _
      · by_cases hd : d = []
        · simp [hd] at h
        · exact le_trans (ih hd h) (le_max_right _ _)
  · induction d with
    | nil => exact absurd rfl hne
    | cons f d ih =>
      rw [List.map_cons, List.foldr_cons]
      by_cases hd : d = []
      · exact ⟨f, by simp, by simp [hd]⟩
      · obtain ⟨e, he, h⟩ := ih hd
        rcases le_total f.1.1 ((d.map fun e => e.1.1).foldr max 0) with hm | hm
        · exact ⟨e, List.mem_cons_of_mem _ he, by rw [max_eq_right hm, h]⟩
        · exact ⟨f, by simp, by rw [max_eq_left hm]⟩

/-- C38: the dense vector has `(deg + 1)²` entries -/
theorem todense_length (y : Ylm) : y.todense.length = (y.deg + 1) ^ 2 := by
  unfold Ylm.todense
  rw [bcooDense_length]
  unfold Ylm.shape
  ring

/-- C38: entry `l (l + 1) + m` of the dense vector is the coefficient `(l, m)` -/
theorem todense_entry {y : Ylm} (hy : ValidMap y) {l : ℕ} {m : ℤ} (hm : |m| ≤ (l : ℤ)) (hl : l ≤ y.deg) :
    y.todense.getD (Ylm.index l m).toNat 0 = coef y l m := by
  have hb := index_nonneg hm
  have h0 : 0 ≤ Ylm.index l m := by nlinarith
  have hnat : ((Ylm.index l m).toNat : ℤ) = Ylm.index l m := Int.toNat_of_nonneg h0
  unfold Ylm.todense coef
  refine bcooDense_getD hy.wf (fun k : ℕ × ℤ => Ylm.index k.1 k.2) ?_ (l, m) hnat.symm ?_
  · have : Ylm.index l m < (y.shape : ℤ) := by
      unfold Ylm.shape
      have : (l : ℤ) ≤ y.deg := by exact_mod_cast hl
      push_cast
      nlinarith
    omega
  · intro e he h
    have h1 := lmOfIndex_index' (hy.order e he) (n := (Ylm.index l m).toNat) h.symm
    have h2 := lmOfIndex_index' hm hnat
    exact h1.symm.trans h2

/-- C38: subscripting `y[(l, m)]` inside the map's degree returns the coefficient -/
theorem getitem_in_range {y : Ylm} (hy : ValidMap y) {l : ℕ} {m : ℤ} (hm : |m| ≤ (l : ℤ)) (hl : l ≤ y.deg) :
    y.getitem l m = coef y l m := by
  have hb := index_nonneg hm
  have h0 : 0 ≤ Ylm.index l m := by nlinarith
  rw [← todense_entry hy hm hl]
  unfold Ylm.getitem
  simp only
  rw [if_neg (not_lt.2 h0), min_eq_left]
  rw [todense_length]
  have : Ylm.index l m < (y.deg + 1 : ℤ) ^ 2 := by
    have : (l : ℤ) ≤ y.deg := by exact_mod_cast hl
    nlinarith
  have : ((Ylm.index l m).toNat : ℤ) < ((y.deg + 1) ^ 2 : ℕ) := by
    rw [Int.toNat_of_nonneg h0]; push_cast; exact this
  have : (Ylm.index l m).toNat < (y.deg + 1) ^ 2 := by exact_mod_cast this
  omega

theorem coef_zero_of_invalid {y : Ylm} (hy : ValidMap y) {l : ℕ} {m : ℤ} (h : ¬ |m| ≤ (l : ℤ) ∨ y.deg < l) :
    coef y l m = 0 := by
  refine Dict.getD0_of_notMem fun hk => ?_
  obtain ⟨e, he, hek⟩ := List.mem_map.1 hk
  rcases h with h | h
  · have := hy.order e he
    rw [hek] at this
    exact h this
  · have := (deg_spec hy).1 e he
    rw [hek] at this
    exact absurd this (not_le.2 h)

/-- the raw result of `from_dense` -/
theorem fromDense_raw (x : List ℝ) :
    ∃ y, Ylm.fromDense x false = .ok y ∧ Dict.WF y.data ∧ (∀ e ∈ y.data, |e.1.2| ≤ (e.1.1 : ℤ)) ∧
      y.data.length = x.length ∧
      (∀ n < x.length, Dict.getD0 y.data (lmOfIndex n) = x.getD n 0 ∧ lmOfIndex n ∈ Dict.keys y.data) ∧
      (∀ k ∈ Dict.keys y.data, ∃ n < x.length, k = lmOfIndex n) := by
  have hinj : Function.Injective lmOfIndex := by
    intro a b h
    have ha := (index_lmOfIndex' a).1
    have hb := (index_lmOfIndex' b).1
    rw [h, hb] at ha
    exact_mod_cast ha.symm
  have hkeys : (x.mapIdx fun i v => (lmOfIndex i, v)).map Prod.fst = (List.range x.length).map lmOfIndex := by
    apply List.ext_getElem
    · simp
    · intro i h1 h2
      simp
  have hwf : Dict.WF (x.mapIdx fun i v => (lmOfIndex i, v)) := by
    unfold Dict.WF
    rw [hkeys]
    exact (List.nodup_range).map hinj
  refine ⟨⟨x.mapIdx fun i v => (lmOfIndex i, v)⟩, rfl, hwf, ?_, by simp, ?_, ?_⟩
  · intro e he
    have : e.1 ∈ (x.mapIdx fun i v => (lmOfIndex i, v)).map Prod.fst := List.mem_map_of_mem he
    rw [hkeys] at this
    obtain ⟨n, _, hn⟩ := List.mem_map.1 this
    rw [← hn]
    exact (index_lmOfIndex' n).2
  · intro n hn
    have hmem : (lmOfIndex n, x.getD n 0) ∈ (x.mapIdx fun i v => (lmOfIndex i, v)) := by
      rw [List.mem_iff_getElem]
      exact ⟨n, by simpa using hn, by simp [List.getD_eq_getElem?_getD, hn]⟩
    exact ⟨Dict.getD0_of_mem hwf hmem, List.mem_map_of_mem hmem⟩
  · intro k hk
    unfold Dict.keys at hk
    rw [hkeys] at hk
    obtain ⟨n, hn, rfl⟩ := List.mem_map.1 hk
    exact ⟨n, List.mem_range.1 hn, rfl⟩

theorem fromDense_valid {x : List ℝ} (hx : x ≠ []) {y : Ylm} (h : Ylm.fromDense x false = .ok y) :
    ValidMap y := by
  obtain ⟨y', hy', hwf, hord, hlen, _⟩ := fromDense_raw x
  rw [hy', Except.ok.injEq] at h
  subst h
  refine ⟨hwf, fun h0 => ?_, hord⟩
  rw [h0] at hlen
  exact hx (List.length_eq_zero_iff.1 hlen.symm)

theorem fromDense_deg {x : List ℝ} {d : ℕ} (hx : x.length = (d + 1) ^ 2) {y : Ylm}
    (h : Ylm.fromDense x false = .ok y) : y.deg = d := by
  have hne : x ≠ [] := by
    rintro rfl
    have : 0 < (d + 1) ^ 2 := by positivity
    rw [← hx] at this
    simp at this
  have hv := fromDense_valid hne h
  obtain ⟨y', hy', _, _, _, hin, hout⟩ := fromDense_raw x
  rw [hy', Except.ok.injEq] at h
  subst h
  apply le_antisymm
  · obtain ⟨e, he, hdeg⟩ := (deg_spec hv).2
    obtain ⟨n, hn, hen⟩ := hout e.1 (List.mem_map_of_mem he)
    rw [← hdeg, hen]
    show Nat.sqrt n ≤ d
    rw [hx] at hn
    have : Nat.sqrt n < d + 1 := by
      rw [Nat.sqrt_lt]; nlinarith
    omega
  · have hlast : (d + 1) ^ 2 - 1 < x.length := by
      rw [hx]
      have : 0 < (d + 1) ^ 2 := by positivity
      omega
    have hm := (hin _ hlast).2
    obtain ⟨e, he, hek⟩ := List.mem_map.1 hm
    have := (deg_spec hv).1 e he
    rw [hek] at this
    refine le_trans (le_of_eq ?_) this
    show d = Nat.sqrt _
    symm
    apply sqrt_eq_of_bounds
    · have : 1 ≤ (d + 1) ^ 2 := Nat.one_le_pow _ _ (by omega)
      have : (d + 1) ^ 2 = d ^ 2 + 2 * d + 1 := by ring
      omega
    · have : 0 < (d + 1) ^ 2 := by positivity
      omega

/-- C38: converting a dense vector of full length to a map and back gives the vector -/
theorem todense_fromDense {x : List ℝ} {d : ℕ} (hx : x.length = (d + 1) ^ 2) {y : Ylm}
    (h : Ylm.fromDense x false = .ok y) : y.todense = x := by
  have hne : x ≠ [] := by
    rintro rfl
    have : 0 < (d + 1) ^ 2 := by positivity
    rw [← hx] at this
    simp at this
  have hv := fromDense_valid hne h
  have hdeg := fromDense_deg hx h
  obtain ⟨y', hy', _, _, _, hin, hout⟩ := fromDense_raw x
  rw [hy', Except.ok.injEq] at h
  subst h
  have hlen : y'.todense.length = x.length := by rw [todense_length, hdeg, hx]
  apply List.ext_getElem hlen
  intro n h1 h2
  have hi := index_lmOfIndex' n
  have hle : (lmOfIndex n).1 ≤ y'.deg := by
    have hm := (hin n h2).2
    obtain ⟨e, he, hek⟩ := List.mem_map.1 hm
    have := (deg_spec hv).1 e he
    rwa [hek] at this
  have := todense_entry hv hi.2 hle
  rw [hi.1, Int.toNat_natCast] at this
  have e2 := (hin n h2).1
  unfold coef at this
  rw [Prod.mk.eta, e2] at this
  simpa [List.getD_eq_getElem?_getD, h1, h2] using this

/-- C38: a map survives the way to the dense vector and back, coefficient by coefficient -/
theorem fromDense_todense {y : Ylm} (hy : ValidMap y) :
    ∃ y', Ylm.fromDense y.todense false = .ok y' ∧ ∀ l m, coef y' l m = coef y l m := by
  obtain ⟨y', hy', _, _, _, hin, hout⟩ := fromDense_raw y.todense
  have hdeg := fromDense_deg (todense_length y) hy'
  have hne : y.todense ≠ [] := by
    intro h
    have := todense_length y
    rw [h] at this
    have h2 : 0 < (y.deg + 1) ^ 2 := by positivity
    rw [← this] at h2
    simp at h2
  have hv := fromDense_valid hne hy'
  refine ⟨y', hy', fun l m => ?_⟩
  by_cases h : |m| ≤ (l : ℤ) ∧ l ≤ y.deg
  · rw [← todense_entry hv h.1 (hdeg ▸ h.2), todense_fromDense (todense_length y) hy',
      todense_entry hy h.1 h.2]
  · rw [coef_zero_of_invalid hy (by omega), coef_zero_of_invalid hv (by omega)]

/-- F8: subscripting outside the degree does not fail and does not return zero: it returns the last
coefficient -/
theorem getitem_out_of_range {y : Ylm} (_hy : ValidMap y) {l : ℕ} {m : ℤ} (hm : |m| ≤ (l : ℤ))
    (hl : y.deg < l) : y.getitem l m = y.getitem y.deg y.deg := by
  have hb := index_nonneg hm
  have h0 : 0 ≤ Ylm.index l m := by nlinarith
  have hd : (0 : ℤ) ≤ Ylm.index y.deg y.deg := by unfold Ylm.index; positivity
  unfold Ylm.getitem
  simp only
  rw [if_neg (not_lt.2 h0), if_neg (not_lt.2 hd)]
  congr 1
  rw [todense_length]
  have h1 : (Ylm.index y.deg y.deg).toNat = (y.deg + 1) ^ 2 - 1 := by
    have : Ylm.index y.deg y.deg = ((y.deg + 1) ^ 2 - 1 : ℤ) := by unfold Ylm.index; ring
    rw [this]
    have h2 : 1 ≤ (y.deg + 1) ^ 2 := Nat.one_le_pow _ _ (by omega)
    zify [h2]
    rw [Int.toNat_of_nonneg]
    nlinarith
  have h3 : (y.deg + 1) ^ 2 ≤ (Ylm.index l m).toNat := by
    have : ((y.deg + 1 : ℕ) : ℤ) ^ 2 ≤ Ylm.index l m := by
      have : ((y.deg + 1 : ℕ) : ℤ) ≤ l := by exact_mod_cast hl
      have h5 : (0 : ℤ) ≤ ((y.deg + 1 : ℕ) : ℤ) := by positivity
      nlinarith
    have h4 : (((y.deg + 1) ^ 2 : ℕ) : ℤ) ≤ (Ylm.index l m).toNat := by
      rw [Int.toNat_of_nonneg h0]; push_cast at this ⊢; exact this
    exact_mod_cast h4
  rw [h1]
  omega

/-- F8, concrete: on the map `{(0,0): 1, (1,1): 0.3}` the entry `(2, 0)` reads as `0.3` -/
theorem getitem_out_of_range_example :
    Ylm.getitem ⟨[((0, 0), 1), ((1, 1), 0.3)]⟩ 2 0 = 0.3 := by
  have hv : ValidMap ⟨[((0, 0), 1), ((1, 1), 0.3)]⟩ :=
    ⟨by simp [Dict.WF], by simp, by simp⟩
  have hd : Ylm.deg ⟨[((0, 0), 1), ((1, 1), 0.3)]⟩ = 1 := by simp [Ylm.deg]
  rw [getitem_out_of_range hv (by simp) (by rw [hd]; norm_num), hd,
    getitem_in_range hv (by simp) (by rw [hd])]
  simp [coef, Dict.getD0_cons]

/-! ## C39: normalisation -/

/-- C39: normalising divides every coefficient by the `(0, 0)` coefficient and keeps the degree -/
theorem normalize_spec {y : Ylm} (h : (0, 0) ∈ Dict.keys y.data) :
    ∃ y', y.normalize = .ok y' ∧ (∀ l m, coef y' l m = coef y l m / coef y 0 0) ∧ y'.deg = y.deg ∧
      Dict.keys y'.data = Dict.keys y.data := by
  obtain ⟨v, hv⟩ := (lookup_isSome_iff _ _).2 h
  have hc : coef y 0 0 = v := by simp [coef, Dict.getD0, hv]
  refine ⟨⟨y.data.map fun e => (e.1, e.2 / v)⟩, by simp [Ylm.normalize, hv], ?_, ?_, ?_⟩
  · intro l m
    rw [hc]
    unfold coef Dict.getD0
    simp only
    rw [lookup_map_val y.data (fun x => x / v)]
    cases Dict.get1 y.data (l, m) <;> simp
  · simp [Ylm.deg, Function.comp_def]
  · simp [Dict.keys, Function.comp_def]

/-- C39: after normalisation the constant coefficient is one -/
theorem normalize_unit {y y' : Ylm} (h : y.normalize = .ok y') (h0 : coef y 0 0 ≠ 0) : coef y' 0 0 = 1 := by
  have hk : (0, 0) ∈ Dict.keys y.data := by
    by_contra hk
    exact h0 (Dict.getD0_of_notMem hk)
  obtain ⟨z, hz, hc, _⟩ := normalize_spec hk
  rw [h, Except.ok.injEq] at hz
  subst hz
  rw [hc, div_self h0]

/-- C39: normalising twice is normalising once -/
theorem normalize_idempotent {y y' : Ylm} (h : y.normalize = .ok y') (h0 : coef y 0 0 ≠ 0) :
    y'.normalize = .ok y' := by
  have h1 := normalize_unit h h0
  have hk : (0, 0) ∈ Dict.keys y'.data := by
    by_contra hk
    rw [coef, Dict.getD0_of_notMem hk] at h1
    exact zero_ne_one h1
  obtain ⟨v, hv⟩ := (lookup_isSome_iff _ _).2 hk
  have hv1 : v = 1 := by
    rw [← h1]; simp [coef, Dict.getD0, hv]
  subst hv1
  simp [Ylm.normalize, hv]

/-- C39: without a `(0, 0)` entry normalisation raises a `KeyError` (not the documented `ValueError`) -/
theorem normalize_error_iff (y : Ylm) :
    y.normalize = .error .keyError ↔ (0, 0) ∉ Dict.keys y.data := by
  rw [← lookup_isSome_iff]
  unfold Ylm.normalize
  cases h : Dict.get1 y.data (0, 0) <;> simp

/-- C39 for `from_dense(normalize=True)`: the coefficients are the entries divided by the first -/
theorem fromDense_normalized (x : List ℝ) (hx : x ≠ []) :
    ∃ y, Ylm.fromDense x true = .ok y ∧
      ∀ n < x.length, coef y (lmOfIndex n).1 (lmOfIndex n).2 = x.getD n 0 / x.getD 0 0 := by
  obtain ⟨y, hy, _, _, _, hin, _⟩ := fromDense_raw x
  have hl : 0 < x.length := List.length_pos_iff.2 hx
  have h0 : lmOfIndex 0 = (0, 0) := by simp [lmOfIndex]
  have hk := (hin 0 hl).2
  rw [h0] at hk
  obtain ⟨y', hy', hc, _⟩ := normalize_spec hk
  refine ⟨y', ?_, fun n hn => ?_⟩
  · have : Ylm.fromDense x true = y.normalize := by
      unfold Ylm.fromDense at hy ⊢
      simp only [Bool.false_eq_true, if_false, Except.ok.injEq] at hy
      subst hy
      rfl
    rw [this, hy']
  · rw [hc]
    have e1 := (hin n hn).1
    have e0 := (hin 0 hl).1
    rw [h0] at e0
    unfold coef
    rw [Prod.mk.eta, e1, e0]

/-- scaling a map scales every coefficient -/
theorem smul_coef (c : ℝ) (y : Ylm) (l : ℕ) (m : ℤ) : coef (y.smul c) l m = c * coef y l m := by
  unfold Ylm.smul coef Dict.getD0
  simp only
  rw [lookup_map_val y.data (fun x => x * c)]
  cases Dict.get1 y.data (l, m) <;> simp [mul_comm]

/-! ## C40: `Surface` -/

/-- C40: with `normalize=True` the surface keeps the physical map: `amplitude · y` is the input map, the
constant coefficient is one, the other fields are the arguments -/
theorem surface_normalized (a : SurfaceArgs) {y : Ylm} (hy : a.y = some y) (hv : ValidMap y)
    (h0 : coef y 0 0 ≠ 0) :
    ∃ s, Surface.init a true = .ok s ∧ (∀ l m, s.amplitude * coef s.y l m = coef y l m) ∧
      coef s.y 0 0 = 1 ∧ s.amplitude = coef y 0 0 ∧ s.y.deg = y.deg ∧
      s.u = a.u ∧ s.inc = a.inc ∧ s.obl = a.obl ∧ s.period = a.period ∧ s.phase = a.phase ∧
      s.radius = a.radius := by
  have hk : (0, 0) ∈ Dict.keys y.data := by
    by_contra hk
    exact h0 (Dict.getD0_of_notMem hk)
  obtain ⟨y', hy', hc, hd, _⟩ := normalize_spec hk
  have hg : y.getitem 0 0 = coef y 0 0 := getitem_in_range hv (by simp) (Nat.zero_le _)
  refine ⟨_, by simp only [Surface.init, hy, Option.getD_some, if_true, hy']; rfl, ?_, ?_, hg, hd,
    rfl, rfl, rfl, rfl, rfl, rfl⟩
  · intro l m
    show y.getitem 0 0 * coef y' l m = _
    rw [hg, hc, mul_div_cancel₀ _ h0]
  · exact normalize_unit hy' h0

/-- C40: with `normalize=False` amplitude and map are the arguments -/
theorem surface_unnormalized (a : SurfaceArgs) :
    ∃ s, Surface.init a false = .ok s ∧ s.amplitude = a.amplitude ∧ s.y = a.y.getD Ylm.default ∧
      s.u = a.u ∧ s.inc = a.inc ∧ s.obl = a.obl ∧ s.period = a.period ∧ s.phase = a.phase ∧
      s.radius = a.radius :=
  ⟨_, rfl, rfl, rfl, rfl, rfl, rfl, rfl, rfl, rfl⟩

theorem default_coef (l : ℕ) (m : ℤ) : coef Ylm.default l m = if l = 0 ∧ m = 0 then 1 else 0 := by
  unfold coef Ylm.default
  rw [Dict.getD0_cons]
  simp [Prod.ext_iff]

theorem default_valid : ValidMap Ylm.default :=
  ⟨by simp [Dict.WF, Ylm.default], by simp [Ylm.default], by simp [Ylm.default]⟩

/-- C40: a surface without a map is the uniform unit surface -/
theorem surface_default (a : SurfaceArgs) (hy : a.y = none) (n : Bool) :
    ∃ s, Surface.init a n = .ok s ∧ (∀ l m, coef s.y l m = if l = 0 ∧ m = 0 then 1 else 0) ∧ s.y.deg = 0 := by
  cases n with
  | false =>
    refine ⟨_, rfl, fun l m => ?_, ?_⟩
    · show coef (a.y.getD Ylm.default) l m = _
      rw [hy]
      exact default_coef l m
    · show (a.y.getD Ylm.default).deg = _
      rw [hy]
      rfl
  | true =>
    have hk : (0, 0) ∈ Dict.keys Ylm.default.data := by simp [Ylm.default]
    obtain ⟨y', hy', hc, hd, _⟩ := normalize_spec hk
    refine ⟨_, by simp only [Surface.init, hy, Option.getD_none, if_true, hy']; rfl, fun l m => ?_, hd⟩
    show coef y' l m = _
    rw [hc, default_coef, default_coef]
    simp

/-- C40: the normalised surface fails with a `KeyError` exactly when the map has no `(0, 0)` entry -/
theorem surface_error (a : SurfaceArgs) {y : Ylm} (hy : a.y = some y) (h : (0, 0) ∉ Dict.keys y.data) :
    Surface.init a true = .error .keyError := by
  have := (normalize_error_iff y).2 h
  simp only [Surface.init, hy, Option.getD_some, if_true, this]
  rfl

/-- F17: with the default `normalize=True` an explicit amplitude is ignored: the amplitude of the default
map is one whatever was asked for -/
theorem surface_amplitude_overwritten (A : ℝ) :
    ∃ s, Surface.init { amplitude := A } true = .ok s ∧ s.amplitude = 1 := by
  have hk : (0, 0) ∈ Dict.keys Ylm.default.data := by simp [Ylm.default]
  obtain ⟨y', hy', _⟩ := normalize_spec hk
  refine ⟨_, by simp only [Surface.init, Option.getD_none, if_true, hy']; rfl, ?_⟩
  show Ylm.default.getitem 0 0 = 1
  rw [getitem_in_range default_valid (by simp) (Nat.zero_le _), default_coef]
  simp

/-- the hypotheses of `surface_normalized` hold for a non-trivial map -/
example : ∃ y : Ylm, ValidMap y ∧ coef y 0 0 ≠ 0 ∧ coef y 1 (-1) = 0.5 ∧ y.deg = 1 :=
  ⟨⟨[((0, 0), 2), ((1, -1), 0.5)]⟩, ⟨by simp [Dict.WF], by simp, by simp⟩,
    by simp [coef, Dict.getD0_cons], by simp [coef, Dict.getD0_cons], by simp [Ylm.deg]⟩

end Jaxoplanet.Starry
