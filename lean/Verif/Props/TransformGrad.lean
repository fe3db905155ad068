import Verif.Model.TransformGrad
import Verif.Proofs.Autodiff
import Verif.Proofs.Interp
import Verif.Props.LightCurve
import Verif.Props.TransitGrad

/-!
# C106: derivatives of exposure-integrated and interpolated light curves
-/

namespace Jaxoplanet.LightCurve
open Real AD AD.Dual LimbDark Filter Topology 

/-! ## integration -/

/-- the times at which the integrated light curve is evaluated, relative to the exposure -/
noncomputable def offsets (order num_samples : ℕ) : List ℝ :=
  match stencil order num_samples with
  | .ok (dt, _) => dt
  | .error _ => []

theorem track_dot {t : ℝ} (s : List ℝ) (l : List ℝ) (F : ℝ → ℝ → ℝ) (D : ℝ → Dual) (h : ∀ x ∈ l, Tracks (F x) t (D x)) :
    Tracks (fun a => dot s (l.map fun x => F x a)) t (Dual.sum (List.zipWith (fun w r => const w * r) s (l.map D))) := by
  have := track_sum (t := t) (s.zip l) (F := fun q a => q.1 * F q.2 a) (D := fun q => const q.1 * D q.2)
    fun q hq => track_mul (track_const q.1 t) (h q.2 (List.of_mem_zip hq).2)
  simp only [dot, List.zipWith_map_right]
  simpa only [List.zip, List.map_zipWith] using this

/-- C106: the gradient of the integrated light curve is its derivative, with respect to the time, the exposure time and everything the light curve depends on, if the
gradient of the light curve is its derivative at each of the times of the stencil -/
theorem integrate_gradient_is_derivative {t : ℝ} (f : ℝ → ℝ → ℝ) (fD : Dual → Dual) {order : ℕ} (ho : order ≤ 2) (num_samples : ℕ) {time exposure : ℝ → ℝ}
    (hf : ∀ x ∈ offsets order num_samples, Tracks (fun s => f s (time s + x * exposure s)) t (fD (input t time + const x * input t exposure))) :
    ∃ (F : ℝ → ℝ → ℝ) (G : Dual → Dual), (∀ s, integrate (f s) (some (exposure s)) 0 order num_samples = .ok (F s)) ∧
      integrateD fD (some (input t exposure)) 0 order num_samples = .ok G ∧
      ∃ d, (G (input t time)).d = some d ∧ HasDerivAt (fun s => F s (time s)) d t := by
  have hst : ∃ dt w, stencil order num_samples = .ok (dt, w) := by
    obtain rfl | rfl | rfl : order = 0 ∨ order = 1 ∨ order = 2 := by omega
    all_goals exact ⟨_, _, rfl⟩
  obtain ⟨dt, w, hst⟩ := hst
  have hoff : offsets order num_samples = dt := by unfold offsets; rw [hst]
  rw [hoff] at hf
  refine ⟨_, _, fun s => by simp only [integrate, hst]; rfl, by simp only [integrateD, hst]; rfl, ?_⟩
  simp only [List.map_map]
  obtain ⟨-, d, hd, hder⟩ := track_dot (w.map (· / w.sum)) dt (fun x s => f s (time s + x * exposure s)) (fun x => fD (input t time + const x * input t exposure)) hf
  exact ⟨d, hd, hder⟩

/-- C106: it is finite if the gradient of the light curve is finite at each of these times -/
theorem integrate_gradient_finite (fD : Dual → Dual) {order : ℕ} (ho : order ≤ 2) (num_samples : ℕ) {time exposure : Dual}
    (hf : ∀ x ∈ offsets order num_samples, ∃ d, (fD (time + const x * exposure)).d = some d) :
    ∃ G, integrateD fD (some exposure) 0 order num_samples = .ok G ∧ ∃ d, (G time).d = some d := by
  have hst : ∃ dt w, stencil order num_samples = .ok (dt, w) := by
    obtain rfl | rfl | rfl : order = 0 ∨ order = 1 ∨ order = 2 := by omega
    all_goals exact ⟨_, _, rfl⟩
  obtain ⟨dt, w, hst⟩ := hst
  have hoff : offsets order num_samples = dt := by unfold offsets; rw [hst]
  rw [hoff] at hf
  refine ⟨_, by simp only [integrateD, hst]; rfl, ?_⟩
  refine fin_sum fun a ha => ?_
  obtain ⟨i, hi, rfl⟩ := List.mem_iff_getElem.1 ha
  simp only [List.getElem_zipWith, List.getElem_map]
  exact fin_mul (fin_const _) (hf _ (List.getElem_mem _))

/-! ## interpolation -/

theorem mod_line {t : ℝ} {f P : ℝ → ℝ} {a b : Dual} (hf : Tracks f t a) (hP : Tracks P t b) (h0 : b.v ≠ 0) :
    ∃ n : ℤ, Tracks (fun s => f s + n * P s) t (Dual.mod a b) := by
  refine ⟨-⌊a.v / b.v⌋, ?_⟩
  obtain ⟨hf, x, hx, hf'⟩ := hf
  obtain ⟨hP, y, hy, hP'⟩ := hP
  refine ⟨?_, x + -(⌊a.v / b.v⌋ : ℝ) * y, ?_, ?_⟩
  · simp only [Dual.mod, fmod, hf, hP]
    push_cast
    ring
  · simp [Dual.mod, h0, hx, hy, lin, plus]
  · refine (hf'.add (hP'.const_mul (-(⌊a.v / b.v⌋ : ℝ)))).congr_deriv ?_ |>.congr_of_eventuallyEq (Eventually.of_forall fun s => ?_)
    · rfl
    · push_cast
      rfl

/-- the values of a table -/
def vals (p : Dual × Dual) : ℝ × ℝ := (p.1.v, p.2.v)

theorem wrappedD_vals (P : Dual) (tab : List (Dual × Dual)) : (wrappedD P tab).map vals = wrapped P.v (tab.map vals) := by
  unfold wrappedD wrapped
  rw [List.map_mergeSort (r := fun p q : Dual × Dual => decide (p.1.v ≤ q.1.v)) (s := leFst) (f := vals) (fun a _ b _ => rfl), List.map_map, List.map_map]
  rfl

theorem paddedD_vals {P : Dual} {tab : List (Dual × Dual)} : (paddedD P tab).map vals = padded P.v (tab.map vals) := by
  simp only [paddedD, padded, ← wrappedD_vals, List.head?_map, List.getLast?_map, List.map_append, List.map_cons, List.map_nil]
  congr 1
  · congr 1
    cases (wrappedD P tab).getLast? <;> rfl
  · cases (wrappedD P tab).head? <;> rfl

theorem countLeD_vals (l : List (Dual × Dual)) (x : Dual) : countLeD l x = countLe (l.map vals) x.v := by
  unfold countLeD countLe
  rw [List.filter_map, List.length_map]
  rfl

theorem paddedD_mem {P : Dual} {tab : List (Dual × Dual)} (hne : tab ≠ []) {y : Dual × Dual} (hy : y ∈ paddedD P tab) :
    ∃ p ∈ tab, y.2 = p.2 ∧ (y.1 = Dual.mod p.1 P ∨ y.1 = Dual.mod p.1 P - P ∨ y.1 = Dual.mod p.1 P + P) := by
  have hw : ∀ z ∈ wrappedD P tab, ∃ p ∈ tab, (Dual.mod p.1 P, p.2) = z := by
    intro z hz
    unfold wrappedD at hz
    rw [(List.mergeSort_perm _ _).mem_iff, List.mem_map] at hz
    exact hz
  have hne' : wrappedD P tab ≠ [] := by
    intro h
    have := congrArg List.length h
    unfold wrappedD at this
    rw [List.length_mergeSort, List.length_map, List.length_nil] at this
    exact hne (List.eq_nil_of_length_eq_zero this)
  simp only [paddedD, List.mem_append, List.mem_cons, List.not_mem_nil, or_false] at hy
  rcases hy with (rfl | hy) | rfl
  · rw [List.getLast?_eq_some_getLast hne', Option.getD_some]
    obtain ⟨p, hp, h⟩ := hw _ (List.getLast_mem hne')
    exact ⟨p, hp, by rw [← h], .inr (.inl (by rw [← h]))⟩
  · obtain ⟨p, hp, rfl⟩ := hw y hy
    exact ⟨p, hp, rfl, .inl rfl⟩
  · rw [List.head?_eq_some_head hne', Option.getD_some]
    obtain ⟨p, hp, h⟩ := hw _ (List.head_mem hne')
    exact ⟨p, hp, by rw [← h], .inr (.inr (by rw [← h]))⟩

/-- the nodes of the cell that is looked up -/
theorem select_cell {P : ℝ} (hP : 0 < P) {table : List (ℝ × ℝ)} {p q : ℝ × ℝ} (hp : Ext P table p) (hq : Ext P table q)
    (hno : ∀ z, Ext P table z → ¬ (p.1 < z.1 ∧ z.1 < q.1)) {t : ℝ} (h1 : p.1 ≤ t) (h2 : t < q.1) :
    ∃ i : ℕ, i = max 1 (min (countLe (padded P table) (fmod t P)) ((padded P table).length - 1)) ∧ i < (padded P table).length ∧ 1 ≤ i ∧
      ∃ n : ℤ, fmod t P = t + n * P ∧ ((padded P table).getD (i - 1) 0).1 = p.1 + n * P ∧ ((padded P table).getD i 0).1 = q.1 + n * P := by
  have hne : table ≠ [] := by
    rintro rfl; obtain ⟨a, ha, -⟩ := hp; simp at ha
  obtain ⟨hinc, hext, hlow, hup⟩ := padded_spec hP hne
  obtain ⟨n, hn⟩ := fmod_eq_sub t P
  have hx0 : 0 ≤ fmod t P := fmod_nonneg t hP
  have hx1 : fmod t P < P := fmod_lt t hP
  generalize fmod t P = x at *
  have hp' := hp.shift (-n)
  have hq' := hq.shift (-n)
  have hp1 : p.1 + ((-n : ℤ) : ℝ) * P ≤ x := by push_cast; linarith
  have hq1 : x < q.1 + ((-n : ℤ) : ℝ) * P := by push_cast; linarith
  have hno' : ∀ z, Ext P table z → ¬ (p.1 + ((-n : ℤ) : ℝ) * P < z.1 ∧ z.1 < q.1 + ((-n : ℤ) : ℝ) * P) := by
    intro z hz ⟨ha, hb⟩
    refine hno _ (hz.shift n) ⟨?_, ?_⟩
    · push_cast at ha; simp only; linarith
    · push_cast at hb; simp only; linarith
  have mp : ∃ y ∈ padded P table, y.1 = p.1 + ((-n : ℤ) : ℝ) * P := by
    refine hlow _ hp' (fun z hz hz0 => ?_) (by simp only; linarith)
    by_contra hlt
    exact hno' z hz ⟨not_le.1 hlt, by linarith⟩
  have mq : ∃ y ∈ padded P table, y.1 = q.1 + ((-n : ℤ) : ℝ) * P := by
    refine hup _ hq' (fun z hz hz0 => ?_) (by simp only; linarith)
    by_contra hlt
    exact hno' z hz ⟨by linarith, not_le.1 hlt⟩
  obtain ⟨l1, a, b, l2, hl, ha, hb⟩ := adjacent hinc mp mq (by linarith) fun r hr => hno' r (hext r hr)
  rw [hl] at hinc ⊢
  have hc := countLe_cell (x := x) hinc (ha.trans_le hp1) (hq1.trans_eq hb.symm)
  have hlen : (l1 ++ a :: b :: l2).length = l1.length + 2 + l2.length := by simp; omega
  have hi : max 1 (min (countLe (l1 ++ a :: b :: l2) x) ((l1 ++ a :: b :: l2).length - 1)) = l1.length + 1 := by
    rw [hc, hlen]
    omega
  refine ⟨l1.length + 1, hi.symm, by omega, by omega, -n, by push_cast; linarith, ?_, ?_⟩
  · rw [← ha]
    simp
  · rw [← hb, List.getD_eq_getElem?_getD, List.getElem?_append_right (by omega)]
    simp
where
  countLe_cell {l1 l2 : List (ℝ × ℝ)} {p q : ℝ × ℝ} {x : ℝ} (hs : Inc (l1 ++ p :: q :: l2)) (h1 : p.1 ≤ x) (h2 : x < q.1) :
      countLe (l1 ++ p :: q :: l2) x = l1.length + 1 := by
    unfold Inc at hs
    rw [List.pairwise_append] at hs
    obtain ⟨hs1, hs2, hs3⟩ := hs
    rw [List.pairwise_cons, List.pairwise_cons] at hs2
    unfold countLe
    rw [List.filter_append, List.filter_cons, if_pos (by simpa using h1), List.filter_cons, if_neg (by simpa using h2)]
    have e1 : l1.filter (fun p => decide (p.1 ≤ x)) = l1 := by
      rw [List.filter_eq_self]
      intro a ha
      have := hs3 a ha p (by simp)
      simp; linarith
    have e2 : l2.filter (fun p => decide (p.1 ≤ x)) = [] := by
      rw [List.filter_eq_nil_iff]
      intro a ha
      have := hs2.2.1 a ha
      simp; linarith
    rw [e1, e2]; simp

/-- interpolation in a periodically repeated table whose nodes and values vary: in a cell that persists, and whose end points have no other representation -/
theorem track_interp {t : ℝ} {n : ℕ} {g F : ℕ → ℝ → ℝ} {G V : ℕ → Dual} {P X : ℝ → ℝ} {PD xD : Dual} (hP : Tracks P t PD) (hP0 : 0 < P t)
    (hg : ∀ j < n, Tracks (g j) t (G j)) (hF : ∀ j < n, Tracks (F j) t (V j)) {m : ℤ} (hX : Tracks (fun s => X s + m * P s) t xD) (hXc : ContinuousAt X t)
    {tiny : ℝ} (strict : Bool) {j0 j1 : ℕ} (hj0 : j0 < n) (hj1 : j1 < n) (m0 m1 : ℤ)
    (h0 : g j0 t + m0 * P t < X t) (h1 : X t < g j1 t + m1 * P t) (htiny : tiny < g j1 t + m1 * P t - (g j0 t + m0 * P t))
    (hno : ∀ᶠ s in 𝓝 t, ∀ j < n, ∀ k : ℤ, ¬ (g j0 s + m0 * P s < g j s + k * P s ∧ g j s + k * P s < g j1 s + m1 * P s))
    (huniq : ∀ i < n, ∀ j < n, ∀ k l : ℤ, g i t + k * P t = g j t + l * P t → ∀ᶠ s in 𝓝 t, g i s + k * P s = g j s + l * P s)
    (hcons : ∀ᶠ s in 𝓝 t, Consistent (P s) ((List.range n).map fun j => (g j s, F j s))) :
    Tracks (fun s => interpPeriodic tiny (P s) ((List.range n).map fun j => (g j s, F j s)) (X s)) t
      (interpPeriodicD tiny strict PD ((List.range n).map fun j => (G j, V j)) xD) := by
  set A := fun s => g j0 s + m0 * P s with hA
  set B := fun s => g j1 s + m1 * P s with hB
  have tP : ∀ k : ℤ, Tracks (fun s => (k : ℝ) * P s) t (const k * PD) := fun k => track_mul (track_const _ _) hP
  have hAc : ContinuousAt A t := (hg j0 hj0).cont.add (continuousAt_const.mul hP.cont)
  have hBc : ContinuousAt B t := (hg j1 hj1).cont.add (continuousAt_const.mul hP.cont)
  -- the program without derivatives
  have hreal : ∀ᶠ s in 𝓝 t, interpPeriodic tiny (P s) ((List.range n).map fun j => (g j s, F j s)) (X s) =
      F j0 s + (X s - A s) / (B s - A s) * (F j1 s - F j0 s) := by
    filter_upwards [hno, hcons, hAc.eventually_lt hXc h0, hXc.eventually_lt hBc h1, (continuousAt_const (y := tiny)).eventually_lt (hBc.sub hAc) htiny,
      (continuousAt_const (y := (0 : ℝ))).eventually_lt hP.cont hP0] with s h2 h3 h4 h5 h6 h7
    rw [interpPeriodic_cell h7 h3 tiny (p := (A s, F j0 s)) (q := (B s, F j1 s)) ⟨(g j0 s, F j0 s), List.mem_map.2 ⟨j0, List.mem_range.2 hj0, rfl⟩, m0, rfl⟩
      ⟨(g j1 s, F j1 s), List.mem_map.2 ⟨j1, List.mem_range.2 hj1, rfl⟩, m1, rfl⟩ ?_ h4.le h5]
    · rw [if_neg]
      rw [not_le]
      exact h6.trans_le (le_abs_self _)
    · rintro z ⟨p, hp, k, rfl⟩
      obtain ⟨j, hj, rfl⟩ := List.mem_map.1 hp
      exact h2 j (List.mem_range.1 hj) k
  refine Tracks.congr ?_ hreal
  -- the program with derivatives
  have hPv : PD.v = P t := hP.1.symm
  have hPa : Tracks P t PD.abs := by
    refine (track_abs hP (by rw [hPv]; exact hP0.ne')).congr ?_
    filter_upwards [(continuousAt_const (y := (0 : ℝ))).eventually_lt hP.cont hP0] with s hs
    exact (abs_of_pos hs).symm
  unfold interpPeriodicD
  generalize PD.abs = Q at hPa
  have hQv : Q.v = P t := hPa.1.symm
  have hQ0 : Q.v ≠ 0 := by rw [hQv]; exact hP0.ne'
  obtain ⟨k, hx⟩ := mod_line hX hPa hQ0
  have hxv : (Dual.mod xD Q).v = fmod (X t + m * P t) (P t) := by
    show fmod xD.v Q.v = _
    rw [← hX.1, hQv]
  generalize Dual.mod xD Q = x at hx hxv
  have hvals : ((List.range n).map fun j => (G j, V j)).map vals = (List.range n).map fun j => (g j t, F j t) := by
    rw [List.map_map]
    refine List.map_congr_left fun j hj => ?_
    simp only [Function.comp, vals, ← (hg j (List.mem_range.1 hj)).1, ← (hF j (List.mem_range.1 hj)).1]
  have hpv := paddedD_vals (P := Q) (tab := (List.range n).map fun j => (G j, V j))
  rw [hvals, hQv] at hpv
  have hext : ∀ j < n, ∀ l : ℤ, Ext (P t) ((List.range n).map fun j => (g j t, F j t)) (g j t + l * P t, F j t) := fun j hj l =>
    ⟨(g j t, F j t), List.mem_map.2 ⟨j, List.mem_range.2 hj, rfl⟩, l, rfl⟩
  obtain ⟨i, hi, hil, hi1, e, he, hp0, hp1⟩ := select_cell hP0 (hext j0 hj0 (m0 + m)) (hext j1 hj1 (m1 + m)) (fun z hz h => by
    obtain ⟨p, hp, l, rfl⟩ := hz
    obtain ⟨j, hj, rfl⟩ := List.mem_map.1 hp
    refine hno.self_of_nhds j (List.mem_range.1 hj) (l - m) ⟨?_, ?_⟩
    · have := h.1
      push_cast at this ⊢
      linarith
    · have := h.2
      push_cast at this ⊢
      linarith) (t := X t + m * P t) (by push_cast; linarith) (by push_cast; linarith)
  have hke : k = e := by
    have h2 := hx.1
    rw [hxv, he] at h2
    simp only at h2
    have : (k : ℝ) * P t = e * P t := by linarith
    exact_mod_cast mul_right_cancel₀ hP0.ne' this
  subst hke
  have hmem : ∀ y ∈ paddedD Q ((List.range n).map fun j => (G j, V j)), ∃ j < n, ∃ l : ℤ, Tracks (fun s => g j s + l * P s) t y.1 ∧ Tracks (F j) t y.2 := by
    intro y hy
    obtain ⟨p, hp, h2, h3⟩ := paddedD_mem (by
      intro h
      have := congrArg List.length h
      simp at this
      omega) hy
    obtain ⟨j, hj, rfl⟩ := List.mem_map.1 hp
    have hj := List.mem_range.1 hj
    obtain ⟨l, hl⟩ := mod_line (hg j hj) hPa hQ0
    refine ⟨j, hj, ?_⟩
    rcases h3 with h3 | h3 | h3
    · exact ⟨l, by rw [h3]; exact hl, by rw [h2]; exact hF j hj⟩
    · refine ⟨l - 1, ?_, by rw [h2]; exact hF j hj⟩
      rw [h3]
      refine (track_sub hl hPa).congr (Eventually.of_forall fun s => ?_)
      push_cast
      ring
    · refine ⟨l + 1, ?_, by rw [h2]; exact hF j hj⟩
      rw [h3]
      refine (track_add hl hPa).congr (Eventually.of_forall fun s => ?_)
      push_cast
      ring
  have hnode : ∀ a < (paddedD Q ((List.range n).map fun j => (G j, V j))).length, ∀ j' < n, ∀ l' : ℤ,
      ((padded (P t) ((List.range n).map fun j => (g j t, F j t))).getD a 0).1 = g j' t + l' * P t →
      Tracks (fun s => g j' s + l' * P s) t ((paddedD Q ((List.range n).map fun j => (G j, V j))).getD a (const 0, const 0)).1 ∧
      Tracks (F j') t ((paddedD Q ((List.range n).map fun j => (G j, V j))).getD a (const 0, const 0)).2 := by
    intro a ha j' hj' l' hv
    rw [← hpv, List.getD_eq_getElem?_getD, List.getElem?_map, List.getElem?_eq_getElem ha, Option.map_some, Option.getD_some] at hv
    rw [List.getD_eq_getElem?_getD, List.getElem?_eq_getElem ha, Option.getD_some]
    obtain ⟨j, hj, l, h2, h3⟩ := hmem _ (List.getElem_mem ha)
    generalize (paddedD Q ((List.range n).map fun j => (G j, V j)))[a] = y at hv h2 h3
    have heq : g j t + l * P t = g j' t + l' * P t := h2.1.trans hv
    have hev := huniq j hj j' hj' l l' heq
    refine ⟨h2.congr (hev.mono fun s hs => hs.symm), h3.congr ?_⟩
    filter_upwards [hev, hcons] with s h4 h5
    exact (h5 (g j s + l * P s, F j s) (g j' s + l' * P s, F j' s) ⟨(g j s, F j s), List.mem_map.2 ⟨j, List.mem_range.2 hj, rfl⟩, l, rfl⟩
      ⟨(g j' s, F j' s), List.mem_map.2 ⟨j', List.mem_range.2 hj', rfl⟩, l', rfl⟩ h4).symm
  have hlen : (paddedD Q ((List.range n).map fun j => (G j, V j))).length = (padded (P t) ((List.range n).map fun j => (g j t, F j t))).length := by
    rw [← hpv, List.length_map]
  obtain ⟨a1, a2⟩ := hnode (i - 1) (by omega) j0 hj0 (m0 + m + k) (by rw [hp0]; push_cast; ring)
  obtain ⟨b1, b2⟩ := hnode i (by omega) j1 hj1 (m1 + m + k) (by rw [hp1]; push_cast; ring)
  unfold interpSortedD
  simp only [countLeD_vals, hpv, hxv, hlen, ← hi]
  generalize (paddedD Q ((List.range n).map fun j => (G j, V j))).getD (i - 1) (const 0, const 0) = p0 at a1 a2
  generalize (paddedD Q ((List.range n).map fun j => (G j, V j))).getD i (const 0, const 0) = p1 at b1 b2
  have hdx := track_sub b1 a1
  have hdxv : (p1.1 - p0.1).v = B t - A t := by
    rw [← hdx.1]
    simp only [hA, hB]
    push_cast
    ring
  have hnot : ¬ |(p1.1 - p0.1).v| ≤ tiny := by
    rw [hdxv, not_le]
    exact htiny.trans_le (le_abs_self _)
  have hd1 := track_where_neg (st := strict) (c := |(p1.1 - p0.1).v| ≤ tiny) (p := fun _ => False) (f := fun _ => 0) (fin_const 1) hdx hnot
    (Eventually.of_forall fun _ => not_false)
  have hd1v : (Dual.where strict (|(p1.1 - p0.1).v| ≤ tiny) (const 1) (p1.1 - p0.1)).v ≠ 0 := by
    rw [← hd1.1]
    simp only [if_false]
    push_cast
    have : 0 < B t - A t := by linarith
    simp only [hA, hB] at this
    intro h
    linarith
  have hfin := track_where_neg (st := strict) (c := |(p1.1 - p0.1).v| ≤ tiny) (p := fun _ => False) (f := fun _ => 0) a2.fin
    (track_add a2 (track_mul (track_div (track_sub hx a1) hd1 hd1v) (track_sub b2 a2))) hnot (Eventually.of_forall fun _ => not_false)
  refine hfin.congr (Eventually.of_forall fun s => ?_)
  simp only [if_false, hA, hB]
  push_cast
  congr 3 <;> ring

/-- the length of the window -/
noncomputable def windowOf (P : ℝ → ℝ) (dur : Option (ℝ → ℝ)) (s : ℝ) : ℝ := (dur.map (· s)).getD (P s)

theorem exists_cell {n : ℕ} (hn : 2 ≤ n) {P t0 d time : ℝ} (hP : 0 < P) (hd : 0 < d)
    (hnode : ∀ j < n, ∀ m : ℤ, time ≠ node t0 d n j + m * P) :
    ∃ m : ℤ, (∃ k, k + 1 < n ∧ node t0 d n k + m * P < time ∧ time < node t0 d n (k + 1) + m * P) ∨
      (d < P ∧ node t0 d n (n - 1) + m * P < time ∧ time < node t0 d n 0 + ((m + 1 : ℤ) : ℝ) * P) := by
  have hn1 : (0 : ℝ) < n - 1 := by
    have : (2 : ℝ) ≤ n := by exact_mod_cast hn
    linarith
  set m := ⌊(time - (t0 - d / 2)) / P⌋ with hm
  have hm1 : m * P ≤ time - (t0 - d / 2) := (le_div_iff₀ hP).1 (Int.floor_le _)
  have hm2 : time - (t0 - d / 2) < (m + 1) * P := (div_lt_iff₀ hP).1 (Int.lt_floor_add_one _)
  refine ⟨m, ?_⟩
  have hlast : node t0 d n (n - 1) = t0 + d / 2 := node_last hn t0 d
  have hfirst : node t0 d n 0 = t0 - d / 2 := by simp [node]
  by_cases hin : time < t0 + d / 2 + m * P
  · left
    have hw : 0 < d / (n - 1) := div_pos hd hn1
    have hx0 : 0 ≤ time - (t0 - d / 2) - m * P := by linarith
    refine ⟨⌊(time - (t0 - d / 2) - m * P) / (d / (n - 1))⌋₊, ?_⟩
    set k := ⌊(time - (t0 - d / 2) - m * P) / (d / (n - 1))⌋₊ with hk
    have hk1 : (k : ℝ) * (d / (n - 1)) ≤ time - (t0 - d / 2) - m * P := (le_div_iff₀ hw).1 (Nat.floor_le (by positivity))
    have hk2 : time - (t0 - d / 2) - m * P < (k + 1) * (d / (n - 1)) := (div_lt_iff₀ hw).1 (Nat.lt_floor_add_one _)
    have hkn : k + 1 < n := by
      have h1 : (k : ℝ) * (d / (n - 1)) < (n - 1) * (d / (n - 1)) := by
        rw [mul_div_cancel₀ _ hn1.ne']
        linarith
      have h2 : (k : ℝ) < n - 1 := lt_of_mul_lt_mul_right h1 hw.le
      have h3 : ((k + 1 : ℕ) : ℝ) < n := by push_cast; linarith
      exact_mod_cast h3
    refine ⟨hkn, lt_of_le_of_ne ?_ (hnode k (by omega) m).symm, ?_⟩
    · unfold node
      linarith
    · unfold node
      push_cast
      linarith
  · right
    have h1 := lt_of_le_of_ne (not_lt.1 hin) (by rw [← hlast]; exact (hnode (n - 1) (by omega) m).symm)
    refine ⟨?_, by rw [hlast]; exact h1, by rw [hfirst]; push_cast; linarith⟩
    linarith

theorem node_unique {n : ℕ} (hn : 2 ≤ n) {t : ℝ} {P t0 : ℝ → ℝ} {dur : Option (ℝ → ℝ)} (hP : 0 < P t) (hd : ∀ f ∈ dur, 0 < f t ∧ f t < P t) {i j : ℕ} (hi : i < n) (hj : j < n)
    {k l : ℤ} (h : node (t0 t) (windowOf P dur t) n i + k * P t = node (t0 t) (windowOf P dur t) n j + l * P t) (s : ℝ) :
    node (t0 s) (windowOf P dur s) n i + k * P s = node (t0 s) (windowOf P dur s) n j + l * P s := by
  have hn1 : (0 : ℝ) < n - 1 := by
    have : (2 : ℝ) ≤ n := by exact_mod_cast hn
    linarith
  cases dur with
  | none =>
    simp only [windowOf, Option.map_none, Option.getD_none, node] at h ⊢
    have h1 : ((i : ℝ) / (n - 1) + k) * P t = (j / (n - 1) + l) * P t := by
      have e1 : ∀ a : ℝ, a * (P t / (n - 1)) = a / (n - 1) * P t := fun a => by ring
      rw [e1, e1] at h
      linarith
    have h2 := mul_right_cancel₀ hP.ne' h1
    have e1 : ∀ a : ℝ, a * (P s / (n - 1)) = a / (n - 1) * P s := fun a => by ring
    rw [e1, e1]
    linear_combination P s * h2
  | some d =>
    obtain ⟨hd0, hdP⟩ := hd d rfl
    simp only [windowOf, Option.map_some, Option.getD_some] at h ⊢
    obtain ⟨a1, a2⟩ := node_range hn (t0 := t0 t) hd0.le hi
    obtain ⟨b1, b2⟩ := node_range hn (t0 := t0 t) hd0.le hj
    have hkl : l - k = 0 := int_small hP (x := node (t0 t) (d t) n i - node (t0 t) (d t) n j) (by push_cast; linarith) (by linarith) (by linarith)
    have hkl : l = k := by omega
    subst hkl
    have h1 : node (t0 t) (d t) n i = node (t0 t) (d t) n j := by linarith
    unfold node at h1
    have h2 : (i : ℝ) * (d t / (n - 1)) = j * (d t / (n - 1)) := by linarith
    have h3 : i = j := by exact_mod_cast mul_right_cancel₀ (div_pos hd0 hn1).ne' h2
    rw [h3]

/-- C106: the gradient of the interpolated light curve is its derivative, with respect to the time, the period, the time of transit, the window and everything the light
curve depends on, if the gradient of the light curve is its derivative at each of the nodes. -/
theorem interpolate_gradient_is_derivative {t : ℝ} (f : ℝ → ℝ → ℝ) (fD : Dual → Dual) {n : ℕ} (hn : 2 ≤ n) (strict : Bool) {tiny : ℝ} {P t0 time : ℝ → ℝ}
    {dur : Option (ℝ → ℝ)} (hP : DifferentiableAt ℝ P t) (ht0 : DifferentiableAt ℝ t0 t) (htime : DifferentiableAt ℝ time t) (hdur : ∀ d ∈ dur, DifferentiableAt ℝ d t)
    -- a window shorter than the period, or a periodic light curve
    (hP0 : 0 < P t) (hwin : ∀ᶠ s in 𝓝 t, GoodWindow (f s) (t0 s) (P s) (dur.map (· s)))
    (htiny : tiny < windowOf P dur t / (n - 1)) (htiny' : dur ≠ none → tiny < P t - windowOf P dur t)
    -- the time is not that of a node
    (hnode : ∀ x ∈ linspace (-0.5) 0.5 n, ∀ m : ℤ, time t ≠ t0 t + windowOf P dur t * x + m * P t)
    (hf : ∀ x ∈ linspace (-0.5) 0.5 n, Tracks (fun s => f s (t0 s + windowOf P dur s * x)) t (fD (input t t0 + (dur.map (input t)).getD (input t P) * const x))) :
    ∃ d, (interpolateD tiny strict fD (input t P) (input t t0) n (dur.map (input t)) (input t time)).d = some d ∧
      HasDerivAt (fun s => interpolate tiny (f s) (P s) (t0 s) n (dur.map (· s)) (time s)) d t := by
  have hlin : linspace (-0.5) 0.5 n = (List.range n).map fun j : ℕ => -0.5 + (j : ℝ) * ((0.5 - -0.5) / (n - 1)) := by
    unfold linspace
    rw [if_neg (by omega)]
  have hoff : ∀ (a d : ℝ) (j : ℕ), a + d * (-0.5 + (j : ℝ) * ((0.5 - -0.5) / (n - 1))) = node a d n j := by
    intro a d j
    unfold node
    ring
  have hmemj : ∀ j < n, (-0.5 + (j : ℝ) * ((0.5 - -0.5) / (n - 1))) ∈ linspace (-0.5) 0.5 n := by
    intro j hj
    rw [hlin]
    exact List.mem_map.2 ⟨j, List.mem_range.2 hj, rfl⟩
  have tP := track_input hP
  have hd : Tracks (windowOf P dur) t ((dur.map (input t)).getD (input t P)) := by
    cases dur with
    | none => exact tP
    | some d => exact track_input (hdur d rfl)
  have hg : ∀ j : ℕ, Tracks (fun s => node (t0 s) (windowOf P dur s) n j) t
      (input t t0 + (dur.map (input t)).getD (input t P) * const (-0.5 + (j : ℝ) * ((0.5 - -0.5) / (n - 1)))) := by
    intro j
    refine (track_add (track_input ht0) (track_mul hd (track_const _ _))).congr (Eventually.of_forall fun s => ?_)
    exact (hoff _ _ j).symm
  have hF : ∀ j < n, Tracks (fun s => f s (node (t0 s) (windowOf P dur s) n j)) t
      (fD (input t t0 + (dur.map (input t)).getD (input t P) * const (-0.5 + (j : ℝ) * ((0.5 - -0.5) / (n - 1))))) := by
    intro j hj
    refine (hf _ (hmemj j hj)).congr (Eventually.of_forall fun s => ?_)
    simp only [hoff]
  have hP0e := (continuousAt_const (y := (0 : ℝ))).eventually_lt hP.continuousAt hP0
  obtain ⟨hw0, hwP, -⟩ := hwin.self_of_nhds.spec hP0
  have hdw : ∀ d ∈ dur, 0 < d t ∧ d t < P t := by
    intro d hdd
    cases dur with
    | none => cases hdd
    | some d' =>
      obtain rfl : d' = d := by simpa using hdd
      exact hwin.self_of_nhds
  have hnode' : ∀ j < n, ∀ m : ℤ, time t ≠ node (t0 t) (windowOf P dur t) n j + m * P t := by
    intro j hj m
    rw [← hoff]
    exact hnode _ (hmemj j hj) m
  -- the time
  obtain ⟨k, hk⟩ := mod_line (track_add (track_sub (track_input htime) (track_input ht0)) (track_mul (track_const 0.5 t) tP)) tP hP0.ne'
  have hX : Tracks (fun s => time s + ((k + 1 : ℤ) : ℝ) * P s) t (Dual.mod (input t time - input t t0 + const 0.5 * input t P) (input t P) + const 0.5 * input t P + input t t0) := by
    refine (track_add (track_add hk (track_mul (track_const 0.5 t) tP)) (track_input ht0)).congr (Eventually.of_forall fun s => ?_)
    push_cast
    ring
  have huniq : ∀ i < n, ∀ j < n, ∀ k l : ℤ, node (t0 t) (windowOf P dur t) n i + k * P t = node (t0 t) (windowOf P dur t) n j + l * P t →
      ∀ᶠ s in 𝓝 t, node (t0 s) (windowOf P dur s) n i + k * P s = node (t0 s) (windowOf P dur s) n j + l * P s := fun i hi j hj k l h =>
    Eventually.of_forall (node_unique hn hP0 hdw hi hj h)
  have htab : ∀ s, ((timeGrid (t0 s) (P s) (dur.map (· s)) n).map fun x => (x, f s x)) =
      (List.range n).map fun j => (node (t0 s) (windowOf P dur s) n j, f s (node (t0 s) (windowOf P dur s) n j)) := by
    intro s
    rw [timeGrid_eq hn, List.map_map]
    rfl
  have hcons : ∀ᶠ s in 𝓝 t, Consistent (P s) ((List.range n).map fun j => (node (t0 s) (windowOf P dur s) n j, f s (node (t0 s) (windowOf P dur s) n j))) := by
    filter_upwards [hP0e, hwin] with s h1 h2
    rw [← htab]
    obtain ⟨h3, -, h4⟩ := h2.spec h1
    exact grid_consistent hn h1 h3.le h4
  have htabD : ((timeGridD (input t t0) (input t P) (dur.map (input t)) n).map fun x => (x, fD x)) =
      (List.range n).map fun j : ℕ => (input t t0 + (dur.map (input t)).getD (input t P) * const (-0.5 + (j : ℝ) * ((0.5 - -0.5) / (n - 1))),
        fD (input t t0 + (dur.map (input t)).getD (input t P) * const (-0.5 + (j : ℝ) * ((0.5 - -0.5) / (n - 1))))) := by
    unfold timeGridD
    rw [hlin, List.map_map, List.map_map]
    rfl
  have hn1 : (0 : ℝ) < n - 1 := by
    have : (2 : ℝ) ≤ n := by exact_mod_cast hn
    linarith
  have key : Tracks (fun s => interpPeriodic tiny (P s) ((List.range n).map fun j => (node (t0 s) (windowOf P dur s) n j, f s (node (t0 s) (windowOf P dur s) n j)))
      (time s)) t (interpolateD tiny strict fD (input t P) (input t t0) n (dur.map (input t)) (input t time)) := by
    unfold interpolateD
    simp only [htabD]
    obtain ⟨m, ⟨c, hc, h1, h2⟩ | ⟨hlt, h1, h2⟩⟩ := exists_cell hn hP0 hw0 hnode'
    · refine track_interp (g := fun j s => node (t0 s) (windowOf P dur s) n j) (F := fun j s => f s (node (t0 s) (windowOf P dur s) n j))
        tP hP0 (fun j _ => hg j) hF hX htime.continuousAt strict (show c < n by omega) hc m m h1 h2 ?_ ?_ huniq hcons
      · have := node_spacing (n := n) (t0 t) (windowOf P dur t) c
        linarith
      · filter_upwards [hP0e, hwin] with s h3 h4 j hj l h5
        obtain ⟨h6, h7, -⟩ := h4.spec h3
        refine no_node_between (t0 := t0 s) hn h3 h6 h7 hc hj (l - m) ⟨?_, ?_⟩
        · have := h5.1
          push_cast
          show node (t0 s) (windowOf P dur s) n c < node (t0 s) (windowOf P dur s) n j + _
          linarith
        · have := h5.2
          push_cast
          show node (t0 s) (windowOf P dur s) n j + _ < node (t0 s) (windowOf P dur s) n (c + 1)
          linarith
    · cases dur with
      | none => exact absurd hlt (lt_irrefl _)
      | some d =>
        refine track_interp (g := fun j s => node (t0 s) (windowOf P (some d) s) n j) (F := fun j s => f s (node (t0 s) (windowOf P (some d) s) n j))
          tP hP0 (fun j _ => hg j) hF hX htime.continuousAt strict (show n - 1 < n by omega) (show 0 < n by omega) m (m + 1) h1 h2 ?_ ?_ huniq hcons
        · have := htiny' (by simp)
          rw [node_last hn, node_first]
          push_cast
          linarith
        · filter_upwards [hP0e, hwin] with s h3 h4 j hj l h5
          have h4 : 0 < d s ∧ d s < P s := h4
          refine no_node_outside (t0 := t0 s) hn h3 h4.1 h4.2 hj (l - m) ⟨?_, ?_⟩
          · have := h5.1
            rw [node_last hn] at this
            push_cast
            simp only [windowOf, Option.map_some, Option.getD_some] at this
            linarith
          · have := h5.2
            rw [node_first] at this
            push_cast at this ⊢
            simp only [windowOf, Option.map_some, Option.getD_some] at this
            linarith
  obtain ⟨-, d, hd, hder⟩ := key
  refine ⟨d, hd, hder.congr_of_eventuallyEq (hP0e.mono fun s hs => ?_)⟩
  show interpolate _ _ _ _ _ _ _ = _
  rw [interpolate_eq hs, htab]

/-- C106: the gradient of the interpolated light curve is finite, at every time, if the gradient of the light curve is finite at the nodes -/
theorem interpolate_gradient_finite (fD : Dual → Dual) (n : ℕ) (strict : Bool) {tiny : ℝ} (htiny : 0 ≤ tiny) {P t0 time : Dual} {dur : Option Dual}
    (hP : ∃ d, P.d = some d) (ht0 : ∃ d, t0.d = some d) (htime : ∃ d, time.d = some d) (hdur : ∀ a ∈ dur, ∃ d, a.d = some d) (hP0 : P.v ≠ 0)
    (hf : ∀ x ∈ linspace (-0.5) 0.5 n, ∃ d, (fD (t0 + dur.getD P * const x)).d = some d) :
    ∃ d, (interpolateD tiny strict fD P t0 n dur time).d = some d := by
  have hPa : P.abs.v ≠ 0 := abs_ne_zero.2 hP0
  have hd : Dual.Fin (dur.getD P) := by
    cases dur with
    | none => exact hP
    | some a => exact hdur a rfl
  have htab : ∀ p ∈ (timeGridD t0 P dur n).map fun x => (x, fD x), Dual.Fin p.1 ∧ Dual.Fin p.2 := by
    intro p hp
    obtain ⟨a, ha, rfl⟩ := List.mem_map.1 hp
    obtain ⟨x, hx, rfl⟩ := List.mem_map.1 ha
    exact ⟨fin_add ht0 (fin_mul hd (fin_const _)), hf x hx⟩
  have hw : ∀ p ∈ wrappedD P.abs ((timeGridD t0 P dur n).map fun x => (x, fD x)), Dual.Fin p.1 ∧ Dual.Fin p.2 := by
    intro p hp
    unfold wrappedD at hp
    rw [(List.mergeSort_perm _ _).mem_iff, List.mem_map] at hp
    obtain ⟨q, hq, rfl⟩ := hp
    exact ⟨fin_mod (htab q hq).1 (fin_abs hP) hPa, (htab q hq).2⟩
  have hdflt : Dual.Fin (const 0, const 0).1 ∧ Dual.Fin (const 0, const 0).2 := ⟨fin_const 0, fin_const 0⟩
  have hpad : ∀ p ∈ paddedD P.abs ((timeGridD t0 P dur n).map fun x => (x, fD x)), Dual.Fin p.1 ∧ Dual.Fin p.2 := by
    intro p hp
    have hl : Dual.Fin ((wrappedD P.abs ((timeGridD t0 P dur n).map fun x => (x, fD x))).getLast?.getD (const 0, const 0)).1 ∧
        Dual.Fin ((wrappedD P.abs ((timeGridD t0 P dur n).map fun x => (x, fD x))).getLast?.getD (const 0, const 0)).2 := by
      cases h : (wrappedD P.abs ((timeGridD t0 P dur n).map fun x => (x, fD x))).getLast? with
      | none => exact hdflt
      | some q => exact hw q (List.mem_of_getLast? h)
    have hh : Dual.Fin ((wrappedD P.abs ((timeGridD t0 P dur n).map fun x => (x, fD x))).head?.getD (const 0, const 0)).1 ∧
        Dual.Fin ((wrappedD P.abs ((timeGridD t0 P dur n).map fun x => (x, fD x))).head?.getD (const 0, const 0)).2 := by
      cases h : (wrappedD P.abs ((timeGridD t0 P dur n).map fun x => (x, fD x))).head? with
      | none => exact hdflt
      | some q => exact hw q (List.mem_of_head? h)
    simp only [paddedD, List.mem_append, List.mem_cons, List.not_mem_nil, or_false] at hp
    rcases hp with (rfl | hp) | rfl
    · exact ⟨fin_sub hl.1 (fin_abs hP), hl.2⟩
    · exact hw p hp
    · exact ⟨fin_add hh.1 (fin_abs hP), hh.2⟩
  have hget : ∀ i, Dual.Fin ((paddedD P.abs ((timeGridD t0 P dur n).map fun x => (x, fD x))).getD i (const 0, const 0)).1 ∧
      Dual.Fin ((paddedD P.abs ((timeGridD t0 P dur n).map fun x => (x, fD x))).getD i (const 0, const 0)).2 := by
    intro i
    rw [List.getD_eq_getElem?_getD]
    cases h : (paddedD P.abs ((timeGridD t0 P dur n).map fun x => (x, fD x)))[i]? with
    | none => exact hdflt
    | some q => exact hpad q (List.mem_of_getElem? h)
  unfold interpolateD interpPeriodicD interpSortedD
  simp only
  refine fin_where (hget _).2 (fin_add (hget _).2 (fin_mul (fin_div (fin_sub (fin_mod ?_ (fin_abs hP) hPa) (hget _).1) (fin_where (fin_const 1) (fin_sub (hget _).1 (hget _).1)) ?_)
    (fin_sub (hget _).2 (hget _).2)))
  · exact fin_add (fin_add (fin_mod (fin_add (fin_sub htime ht0) (fin_mul (fin_const _) hP)) hP hP0) (fin_mul (fin_const _) hP)) ht0
  · simp only [Dual.where]
    split_ifs with h
    · simp [const]
    · intro h0
      rw [h0, abs_zero] at h
      exact h htiny

/-! ## transits -/

theorem linspace_bounds (n : ℕ) : ∀ x ∈ linspace (-0.5) 0.5 n, |x| ≤ 1 / 2 := by
  intro x hx
  unfold linspace at hx
  split_ifs at hx with h
  · rw [(List.mem_replicate.1 hx).2]
    norm_num
  · obtain ⟨i, hi, rfl⟩ := List.mem_map.1 hx
    have hi := List.mem_range.1 hi
    have h1 : (0 : ℝ) < n - 1 := by
      have : (2 : ℝ) ≤ n := by exact_mod_cast (by omega : 2 ≤ n)
      linarith
    have h2 : (i : ℝ) ≤ n - 1 := by
      have : ((i + 1 : ℕ) : ℝ) ≤ n := by exact_mod_cast hi
      push_cast at this
      linarith
    have h3 : (i : ℝ) * ((0.5 - -0.5) / (n - 1)) = i / (n - 1) := by
      rw [show ((0.5 : ℝ) - -0.5) = 1 by norm_num]
      ring
    rw [h3]
    have h4 : (i : ℝ) / (n - 1) ≤ 1 := (div_le_one h1).2 h2
    have h5 : (0 : ℝ) ≤ i / (n - 1) := by positivity
    rw [abs_le]
    constructor <;> linarith

theorem offsets_bounds (order num_samples : ℕ) : ∀ x ∈ offsets order num_samples, |x| ≤ 1 / 2 := by
  intro x hx
  match order with
  | 0 =>
    have hx : x ∈ slice (linspace (-0.5) 0.5 (2 * oddSamples num_samples + 1)) 1 := hx
    unfold slice at hx
    obtain ⟨i, -, h⟩ := List.mem_filterMap.1 hx
    exact linspace_bounds _ x (List.mem_of_getElem? h)
  | 1 => exact linspace_bounds _ x hx
  | 2 => exact linspace_bounds _ x hx
  | (_ + 3) => exact absurd hx (by simp [offsets, stencil])

/-- C106: the exposure-integrated light curve of a transit: its gradient is its derivative, also with respect to the exposure time -/
theorem integrated_transit_gradient_is_derivative {t : ℝ} {eps : ℝ} (he : 0 < eps) (he1 : 10 * eps ≤ 1) (strict : Bool) (quad : List (ℝ × ℝ)) (u : List (ℝ → ℝ))
    {order : ℕ} (ho : order ≤ 2) (num_samples : ℕ) (P D t0 b r time exposure : ℝ → ℝ) (hu : ∀ f ∈ u, DifferentiableAt ℝ f t) (hP : DifferentiableAt ℝ P t)
    (hD : DifferentiableAt ℝ D t) (ht0 : DifferentiableAt ℝ t0 t) (hb : DifferentiableAt ℝ b t) (hr : DifferentiableAt ℝ r t) (hT : DifferentiableAt ℝ time t)
    (hE : DifferentiableAt ℝ exposure t)
    (htot : Jaxoplanet.Spec.totalFlux (u.map (· t)) ≠ 0) (hP0 : P t ≠ 0) (hD0 : D t ≠ 0) (hx2 : b t ^ 2 < (1 + r t) ^ 2)
    -- at each of the times of the stencil
    (hwrap : ∀ x ∈ offsets order num_samples, ∀ n : ℤ, time t + x * exposure t - t0 t ≠ (n + 0.5) * P t)
    (hedge : ∀ x ∈ offsets order num_samples, |Transit.foldTime (P t) (t0 t) (time t + x * exposure t)| ≠ 0.5 * D t)
    (hxy : ∀ x ∈ offsets order num_samples, ¬ (Transit.foldTime (P t) (t0 t) (time t + x * exposure t) = 0 ∧ b t = 0))
    (hreg : ∀ x ∈ offsets order num_samples,
      Regular eps quad (√((2 * √((1 + r t) ^ 2 - b t ^ 2) / D t * Transit.foldTime (P t) (t0 t) (time t + x * exposure t)) ^ 2 + b t ^ 2)) (r t)) :
    ∃ (F : ℝ → ℝ → ℝ) (G : Dual → Dual),
      (∀ s, integrate (Transit.transitFlux eps quad (u.map (· s)) (P s) (some (D s)) none (t0 s) (b s) (r s)) (some (exposure s)) 0 order num_samples = .ok (F s)) ∧
      integrateD (Transit.transitFluxD eps strict quad (u.map (input t)) (input t P) (some (input t D)) none (input t t0) (input t b) (input t r))
        (some (input t exposure)) 0 order num_samples = .ok G ∧
      ∃ d, (G (input t time)).d = some d ∧ HasDerivAt (fun s => F s (time s)) d t :=
  integrate_gradient_is_derivative _ _ ho num_samples fun x hx =>
    Transit.track_transit he he1 strict quad u P D t0 b r (fun s => time s + x * exposure s) hu hP hD ht0 hb hr
      (track_add (track_input hT) (track_mul (track_const x t) (track_input hE))) htot hP0 hD0 hx2 (hwrap x hx) (hedge x hx) (hxy x hx) (hreg x hx)

theorem not_half_period {P y : ℝ} (hP : 0 < P) (hy : |y| < P / 2) (m : ℤ) : y ≠ (m + 0.5) * P := by
  rintro rfl
  rw [abs_mul, abs_of_pos hP] at hy
  have h : |(m : ℝ) + 0.5| < 1 / 2 := by
    by_contra hc
    nlinarith
  obtain ⟨h1, h2⟩ := abs_lt.1 h
  have h3 : m < 0 := by
    have : (m : ℝ) < 0 := by linarith
    exact_mod_cast this
  have h4 : -1 < m := by
    have : (-1 : ℝ) < m := by linarith
    exact_mod_cast this
  omega

/-- C106: the interpolated light curve of a transit: its gradient is its derivative, also with respect to the window -/
theorem interpolated_transit_gradient_is_derivative {t : ℝ} {eps : ℝ} (he : 0 < eps) (he1 : 10 * eps ≤ 1) (strict : Bool) (quad : List (ℝ × ℝ)) (u : List (ℝ → ℝ))
    {n : ℕ} (hn : 2 ≤ n) {tiny : ℝ} (P D t0 b r time w : ℝ → ℝ) (hu : ∀ f ∈ u, DifferentiableAt ℝ f t) (hP : DifferentiableAt ℝ P t)
    (hD : DifferentiableAt ℝ D t) (ht0 : DifferentiableAt ℝ t0 t) (hb : DifferentiableAt ℝ b t) (hr : DifferentiableAt ℝ r t) (hT : DifferentiableAt ℝ time t)
    (hw : DifferentiableAt ℝ w t)
    (htot : Jaxoplanet.Spec.totalFlux (u.map (· t)) ≠ 0) (hD0 : D t ≠ 0) (hx2 : b t ^ 2 < (1 + r t) ^ 2)
    -- a window shorter than the period
    (hw0 : 0 < w t) (hwP : w t < P t) (htiny : tiny < w t / (n - 1)) (htiny' : tiny < P t - w t)
    -- the time is not that of a node, and no node is at a contact
    (hnode : ∀ x ∈ linspace (-0.5) 0.5 n, ∀ m : ℤ, time t ≠ t0 t + w t * x + m * P t)
    (hedge : ∀ x ∈ linspace (-0.5) 0.5 n, |Transit.foldTime (P t) (t0 t) (t0 t + w t * x)| ≠ 0.5 * D t) (hb0 : b t ≠ 0)
    (hreg : ∀ x ∈ linspace (-0.5) 0.5 n,
      Regular eps quad (√((2 * √((1 + r t) ^ 2 - b t ^ 2) / D t * Transit.foldTime (P t) (t0 t) (t0 t + w t * x)) ^ 2 + b t ^ 2)) (r t)) :
    ∃ d, (interpolateD tiny strict (Transit.transitFluxD eps strict quad (u.map (input t)) (input t P) (some (input t D)) none (input t t0) (input t b) (input t r))
        (input t P) (input t t0) n (some (input t w)) (input t time)).d = some d ∧
      HasDerivAt (fun s => interpolate tiny (Transit.transitFlux eps quad (u.map (· s)) (P s) (some (D s)) none (t0 s) (b s) (r s)) (P s) (t0 s) n (some (w s)) (time s)) d t := by
  have hP0 : 0 < P t := hw0.trans hwP
  have hwin : windowOf P (some w) = w := rfl
  have main := interpolate_gradient_is_derivative (f := fun s => Transit.transitFlux eps quad (u.map (· s)) (P s) (some (D s)) none (t0 s) (b s) (r s))
    (fD := Transit.transitFluxD eps strict quad (u.map (input t)) (input t P) (some (input t D)) none (input t t0) (input t b) (input t r)) (hn := hn) (strict := strict)
    (tiny := tiny) (P := P) (t0 := t0) (time := time)
    (dur := some w) hP ht0 hT (fun d hd => ?_) hP0 ?_ (by rw [hwin]; exact htiny) (fun _ => by rw [hwin]; exact htiny') (by rw [hwin]; exact hnode) ?_
  · simpa only [Option.map_some] using main
  · obtain rfl : w = d := by simpa using hd
    exact hw
  · filter_upwards [continuousAt_const.eventually_lt hw.continuousAt hw0, hw.continuousAt.eventually_lt hP.continuousAt hwP] with s h1 h2
    exact ⟨h1, h2⟩
  · intro x hx
    have hxb : |x| ≤ 1 / 2 := linspace_bounds n x hx
    rw [hwin]
    refine Transit.track_transit he he1 strict quad u P D t0 b r (fun s => t0 s + w s * x) hu hP hD ht0 hb hr
      (track_add (track_input ht0) (track_mul (track_input hw) (track_const x t))) htot hP0.ne' hD0 hx2 (fun m h => ?_) (hedge x hx) (fun h => hb0 h.2) (hreg x hx)
    refine not_half_period hP0 (y := w t * x) ?_ m (by linarith)
    rw [abs_mul, abs_of_pos hw0]
    exact (mul_le_mul_of_nonneg_left hxb hw0.le).trans_lt (by linarith)

/-- a body inside the disc, away from its centre -/
theorem regular_between (quad : List (ℝ × ℝ)) {b : ℝ} (h1 : 1 / 2 ≤ b) (h2 : b ≤ 3 / 4) : Regular (2 ^ (-52 : ℤ)) quad b (1 / 10) := by
  have hb : |b| = b := abs_of_pos (by linarith)
  have hr : |(1 / 10 : ℝ)| = 1 / 10 := by norm_num
  have h1r : |(1 - 1 / 10 : ℝ)| = 9 / 10 := by norm_num
  have he : (10 : ℝ) * 2 ^ (-52 : ℤ) < 1 / 100 := by norm_num
  refine ⟨by linarith, by norm_num, by rw [hb, hr]; linarith, by rw [hb, hr, h1r]; linarith, fun h => ?_, fun _ => ?_, fun _ xw _ => ?_⟩
  · rw [hb, hr, Lens, h1r] at h
    linarith
  · rw [hb, hr]
    intro h
    linarith
  · rw [hb, hr]
    have h3 := Real.cos_le_one (0.5 * (kappas b (1 / 10)).2.1 * xw.1 + 0.5 * (kappas b (1 / 10)).2.1)
    have h4 := Real.neg_one_le_cos (0.5 * (kappas b (1 / 10)).2.1 * xw.1 + 0.5 * (kappas b (1 / 10)).2.1)
    constructor <;> intro h <;> nlinarith

/-- the hypotheses are met, by every stencil: an exposure during a transit, differentiated with respect to the exposure time -/
example (quad : List (ℝ × ℝ)) {order : ℕ} (ho : order ≤ 2) (num_samples : ℕ) : ∃ (F : ℝ → ℝ → ℝ) (G : Dual → Dual),
      (∀ s, integrate (Transit.transitFlux (2 ^ (-52 : ℤ)) quad [] 4 (some 2) none 0 (1 / 2) (1 / 10)) (some s) 0 order num_samples = .ok (F s)) ∧
      integrateD (Transit.transitFluxD (2 ^ (-52 : ℤ)) true quad [] (input (1 / 2) fun _ => 4) (some (input (1 / 2) fun _ => 2)) none (input (1 / 2) fun _ => 0)
        (input (1 / 2) fun _ => 1 / 2) (input (1 / 2) fun _ => 1 / 10)) (some (input (1 / 2) fun s => s)) 0 order num_samples = .ok G ∧
      ∃ d, (G (input (1 / 2) fun _ => 0)).d = some d ∧ HasDerivAt (fun s => F s 0) d (1 / 2) := by
  have hfold : ∀ x : ℝ, |x| ≤ 1 / 2 → Transit.foldTime 4 0 (0 + x * (1 / 2)) = x / 2 := by
    intro x hx
    have := abs_le.1 hx
    simp only [Transit.foldTime, fmod]
    have h : ⌊(0 + x * (1 / 2) - (0 - 0.5 * 4)) / 4⌋ = 0 := by
      rw [Int.floor_eq_zero_iff, Set.mem_Ico]
      constructor <;> linarith
    rw [h]
    norm_num
    ring
  refine integrated_transit_gradient_is_derivative (t := 1 / 2) (by positivity) (by norm_num) true quad [] ho num_samples (fun _ => 4) (fun _ => 2) (fun _ => 0)
    (fun _ => 1 / 2) (fun _ => 1 / 10) (fun _ => 0) (fun s => s) (by simp) (by fun_prop) (by fun_prop) (by fun_prop) (by fun_prop) (by fun_prop) (by fun_prop) (by fun_prop)
    ?_ (by norm_num) (by norm_num) (by norm_num) ?_ ?_ ?_ ?_
  · simpa using LimbDark.totalFlux_nil_ne
  · intro x hx n h
    have hb := abs_le.1 (offsets_bounds _ _ x hx)
    have h1 : ((n : ℝ) + 0.5) < 1 / 2 := by linarith
    have h2 : -(1 / 2 : ℝ) < (n : ℝ) + 0.5 := by linarith
    have h3 : n < 0 := by
      have : (n : ℝ) < 0 := by linarith
      exact_mod_cast this
    have h4 : -1 < n := by
      have : (-1 : ℝ) < n := by linarith
      exact_mod_cast this
    omega
  · intro x hx h
    have hb := offsets_bounds _ _ x hx
    rw [hfold x hb, abs_div] at h
    norm_num at h
    linarith
  · rintro x hx ⟨-, h⟩
    norm_num at h
  · intro x hx
    have hb := offsets_bounds _ _ x hx
    have hb2 : x ^ 2 ≤ 1 / 4 := by nlinarith [abs_le.1 hb, sq_abs x]
    rw [hfold x hb]
    have hs : √((1 + 1 / 10 : ℝ) ^ 2 - (1 / 2) ^ 2) ^ 2 = 0.96 := by
      rw [Real.sq_sqrt (by norm_num)]
      norm_num
    have hexp : (2 * √((1 + 1 / 10 : ℝ) ^ 2 - (1 / 2) ^ 2) / 2 * (x / 2)) ^ 2 = 0.24 * x ^ 2 := by
      linear_combination (x ^ 2 / 4) * hs
    rw [hexp]
    refine regular_between quad (Real.le_sqrt_of_sq_le (by nlinarith [sq_nonneg x])) ?_
    rw [Real.sqrt_le_left (by norm_num)]
    nlinarith

/-- the hypotheses of the interpolation theorem are met: three nodes in a window of length 1, a period of 4 that is differentiated, a light curve that depends on the parameter -/
example : ∃ d, (interpolateD (2 ^ (-52 : ℤ)) true (fun x => input 4 (fun s => s) * x) (input 4 fun s => s) (input 4 fun _ => 0) 3 (some (input 4 fun _ => 1)) (input 4 fun _ => 17 / 4)).d = some d ∧
    HasDerivAt (fun s => interpolate (2 ^ (-52 : ℤ)) (fun x => s * x) s 0 3 (some 1) (17 / 4)) d 4 := by
  refine interpolate_gradient_is_derivative (t := 4) (fun s x => s * x) (fun x => input 4 (fun s => s) * x) (n := 3) (by norm_num) true (tiny := 2 ^ (-52 : ℤ))
    (P := fun s => s) (t0 := fun _ => 0) (time := fun _ => 17 / 4) (dur := some fun _ => 1) (by fun_prop) (by fun_prop) (by fun_prop) ?_ (by norm_num) ?_ ?_ ?_ ?_ ?_
  · intro d hd
    obtain rfl : (fun _ => (1 : ℝ)) = d := by simpa using hd
    fun_prop
  · filter_upwards [lt_mem_nhds (show (1 : ℝ) < 4 by norm_num)] with s hs
    exact ⟨one_pos, hs⟩
  · norm_num [windowOf]
  · intro _
    norm_num [windowOf]
  · intro x hx m h
    have hx' : x = -0.5 ∨ x = 0 ∨ x = 0.5 := by
      rw [linspace, if_neg (by norm_num)] at hx
      simp only [List.range_succ, List.range_zero, List.nil_append, List.cons_append, List.map_cons, List.map_nil, List.mem_cons, List.not_mem_nil, or_false] at hx
      rcases hx with h | h | h <;> rw [h] <;> norm_num
    simp only [windowOf, Option.map_some, Option.getD_some] at h
    have h1 : (m : ℝ) < 2 := by rcases hx' with rfl | rfl | rfl <;> norm_num at h <;> linarith
    have h2 : (0 : ℝ) < m := by rcases hx' with rfl | rfl | rfl <;> norm_num at h <;> linarith
    have h3 : m = 1 := by
      have h1 : m < 2 := by exact_mod_cast h1
      have h2 : 0 < m := by exact_mod_cast h2
      omega
    subst h3
    rcases hx' with rfl | rfl | rfl <;> norm_num at h
  · intro x _
    refine track_mul (track_input (by fun_prop)) ?_
    exact track_add (track_input (by fun_prop)) (track_mul (track_input (f := fun _ => 1) (by fun_prop)) (track_const x 4))

/-- the hypotheses of the finiteness theorem are met, at a node -/
example : ∃ d, (interpolateD (2 ^ (-52 : ℤ)) true (fun x => input 4 (fun s => s) * x) (input 4 fun s => s) (input 4 fun _ => 0) 3 (some (input 4 fun _ => 1)) (input 4 fun _ => 0)).d = some d :=
  interpolate_gradient_finite _ 3 true (by positivity) ⟨_, rfl⟩ ⟨_, rfl⟩ ⟨_, rfl⟩ (by rintro a ⟨⟩; exact ⟨_, rfl⟩) (by norm_num [input])
    fun x _ => fin_mul ⟨_, rfl⟩ (fin_add ⟨_, rfl⟩ (fin_mul ⟨_, rfl⟩ (fin_const _)))

end Jaxoplanet.LightCurve
