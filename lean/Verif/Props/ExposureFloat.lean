import Verif.Model.ExposureFloat
import Verif.Proofs.QuadraticSum
import Verif.Props.LightCurve

/-! # Exposure time integration in floating-point arithmetic (C119) -/

namespace Jaxoplanet.ExposureFloat

open Real KeplerFloat LightCurve LimbDarkFloat

theorem sample_time {u e t total d s w v : ℝ} {eval : ℝ → ℝ → Prop} (hu0 : 0 ≤ u) (hu : u ≤ 1 / 16)
    (r : SampleRun u e t total eval d s w v) (hd : |d| ≤ 1 / 2) : |r.time - (t + d * e)| ≤ u * (|t| + 4 * |e|) := by
  obtain ⟨dF, hdF, de, hde, time, htime, -, -⟩ := r
  show |time - (t + d * e)| ≤ _
  unfold Rnd at hde htime
  have e0 := abs_nonneg e
  have h1 : |dF| ≤ 1 / 2 + 2 * u := by
    have := abs_sub_abs_le_abs_sub dF d
    linarith
  have h2 : |dF * e - d * e| ≤ 2 * u * |e| := by
    rw [← sub_mul, abs_mul]
    exact mul_le_mul_of_nonneg_right hdF e0
  have h3 : |dF * e| ≤ 5 / 8 * |e| := by
    rw [abs_mul]
    exact mul_le_mul_of_nonneg_right (by linarith) e0
  have h4 : u * |dF * e| ≤ u * (5 / 8 * |e|) := mul_le_mul_of_nonneg_left h3 hu0
  have h5 : |de| ≤ |e| := by
    have := abs_sub_abs_le_abs_sub de (dF * e)
    have : u * |e| ≤ 1 / 16 * |e| := mul_le_mul_of_nonneg_right hu e0
    linarith
  have h6 : u * |t + de| ≤ u * (|t| + |e|) := mul_le_mul_of_nonneg_left ((abs_add_le _ _).trans (by linarith)) hu0
  rw [show time - (t + d * e) = (time - (t + de)) + ((de - dF * e) + (dF * e - d * e)) by ring]
  refine (abs_add_le _ _).trans ((add_le_add_right (abs_add_le _ _) _).trans ?_)
  have : 0 ≤ u * |e| := by positivity
  linarith

/-- the products of the computed weights and fluxes -/
theorem samples_near {u e t S total η B c : ℝ} {eval : ℝ → ℝ → Prop} {f : ℝ → ℝ} (hu0 : 0 ≤ u) (hu : u ≤ 1 / 16)
    (hS : 0 < S) (hc : c ≤ 1 / 8) (huc : u ≤ c) (htot : |total - S| ≤ 2 * (c - u) * S)
    (hη : ∀ d, |d| ≤ 1 / 2 → ∀ x v, |x - (t + d * e)| ≤ u * (|t| + 4 * |e|) → eval x v → |v - f (t + d * e)| ≤ η)
    (hB : ∀ d, |d| ≤ 1 / 2 → |f (t + d * e)| ≤ B)
    {l ws : List (ℝ × ℝ)} (hl : ∀ p ∈ l, |p.1| ≤ 1 / 2 ∧ 0 ≤ p.2)
    (h : List.Forall₂ (fun ds wv => Nonempty (SampleRun u e t total eval ds.1 ds.2 wv.1 wv.2)) l ws) :
    |(ws.map fun p => p.1 * p.2).sum - (l.map fun p => p.2 / S * f (t + p.1 * e)).sum| ≤
        (η + 3 * c * (B + η)) * (l.map fun p => p.2 / S).sum ∧
      (ws.map fun p => |p.1 * p.2|).sum ≤ 11 / 8 * (B + η) * (l.map fun p => p.2 / S).sum := by
  induction h with
  | nil => simp
  | @cons p q l ws h1 _ ih =>
    obtain ⟨i1, i2⟩ := ih fun p hp => hl p (List.mem_cons_of_mem _ hp)
    obtain ⟨r⟩ := h1
    obtain ⟨hd, hs⟩ := hl p List.mem_cons_self
    have v1 := hη p.1 hd r.time q.2 (sample_time hu0 hu r hd) r.hflux
    have b1 := hB p.1 hd
    have v2 : |q.2| ≤ B + η := by
      have := abs_sub_abs_le_abs_sub q.2 (f (t + p.1 * e))
      linarith
    have hT : 3 / 4 * S ≤ total := by
      have h1 := (abs_le.1 htot).1
      have h2 : 2 * (c - u) * S ≤ 1 / 4 * S := mul_le_mul_of_nonneg_right (by linarith) hS.le
      linarith
    have hT0 : 0 < total := by linarith
    have q0 : 0 ≤ p.2 / S := by positivity
    have w1 : |p.2 / total - p.2 / S| ≤ 8 / 3 * (c - u) * (p.2 / S) := by
      rw [show p.2 / total - p.2 / S = -(p.2 / S * ((total - S) / total)) by field_simp; ring, abs_neg, abs_mul, abs_of_nonneg q0,
        mul_comm]
      refine mul_le_mul_of_nonneg_right ?_ q0
      rw [abs_div, abs_of_pos hT0, div_le_iff₀ hT0]
      have : 8 / 3 * (c - u) * (3 / 4 * S) ≤ 8 / 3 * (c - u) * total := mul_le_mul_of_nonneg_left hT (by linarith)
      linarith
    have w2 : p.2 / total ≤ 4 / 3 * (p.2 / S) := by
      rw [← mul_div_assoc, div_le_div_iff₀ hT0 hS]
      have := mul_le_mul_of_nonneg_left hT hs
      linarith
    have w3 : |q.1 - p.2 / S| ≤ 3 * c * (p.2 / S) := by
      have h1 : |q.1 - p.2 / total| ≤ u * |p.2 / total| := r.hweight
      rw [abs_of_nonneg (by positivity : 0 ≤ p.2 / total)] at h1
      have h2 := mul_le_mul_of_nonneg_left w2 hu0
      have h3 := abs_sub_le q.1 (p.2 / total) (p.2 / S)
      have h4 : 0 ≤ c * (p.2 / S) := mul_nonneg (by linarith) q0
      have h5 : 0 ≤ u * (p.2 / S) := mul_nonneg hu0 q0
      linarith
    have w4 : |q.1| ≤ 11 / 8 * (p.2 / S) := by
      have h1 := abs_sub_abs_le_abs_sub q.1 (p.2 / S)
      rw [abs_of_nonneg q0] at h1
      have : 3 * c * (p.2 / S) ≤ 3 / 8 * (p.2 / S) := mul_le_mul_of_nonneg_right (by linarith) q0
      linarith
    simp only [List.map_cons, List.sum_cons]
    constructor
    · have a1 : |q.1 * q.2 - p.2 / S * f (t + p.1 * e)| ≤ (η + 3 * c * (B + η)) * (p.2 / S) := by
        rw [show q.1 * q.2 - p.2 / S * f (t + p.1 * e) = p.2 / S * (q.2 - f (t + p.1 * e)) + (q.1 - p.2 / S) * q.2 by ring]
        refine (abs_add_le _ _).trans ?_
        rw [abs_mul, abs_mul, abs_of_nonneg q0]
        have h1 := mul_le_mul_of_nonneg_left v1 q0
        have h2 := mul_le_mul w3 v2 (abs_nonneg _) (mul_nonneg (by linarith) q0)
        linarith
      rw [add_sub_add_comm]
      refine (abs_add_le _ _).trans ?_
      linarith
    · have a2 : |q.1 * q.2| ≤ 11 / 8 * (p.2 / S) * (B + η) := by
        rw [abs_mul]
        exact mul_le_mul w4 v2 (abs_nonneg _) (by positivity)
      linarith

theorem offset_abs {order n i : ℕ} (hi : i < n) : |offset order n i| ≤ 1 / 2 := by
  have hn : (i : ℝ) + 1 ≤ n := by exact_mod_cast hi
  have i0 : (0 : ℝ) ≤ i := i.cast_nonneg
  rw [abs_le]
  rcases order with _ | k
  · simp only [offset]
    have h1 : (0 : ℝ) ≤ (2 * i + 1) / (2 * n) := by positivity
    have h2 : (2 * (i : ℝ) + 1) / (2 * n) ≤ 1 := by rw [div_le_one (by linarith)]; linarith
    constructor <;> linarith
  · simp only [offset]
    have h1 : (0 : ℝ) ≤ i / (n - 1) := div_nonneg i0 (by linarith)
    have h2 : (i : ℝ) / (n - 1) ≤ 1 := div_le_one_of_le₀ (by linarith) (by linarith)
    constructor <;> linarith

theorem rawWeight_pos (order n i : ℕ) : 0 < rawWeight order n i := by
  unfold rawWeight
  split
  · norm_num
  · split_ifs <;> norm_num
  · split_ifs <;> norm_num

/-- C119: evaluated in floating-point arithmetic, the integrated light curve differs from the exact one by the error of the light curve
at the samples and by `6 (n + 1) u` times the size of the light curve. -/
theorem integrate_rounding {u e t η B : ℝ} {eval : ℝ → ℝ → Prop} {f g : ℝ → ℝ} {order N : ℕ} {dt s : List ℝ}
    (hu0 : 0 ≤ u) (hn : ((oddSamples N + 1 : ℕ) : ℝ) * u ≤ 1 / 8)
    (hN : order = 0 ∨ 2 ≤ N) (hst : stencil order N = .ok (dt, s)) (hg : integrate f (some e) 0 order N = .ok g)
    (hη : ∀ d, |d| ≤ 1 / 2 → ∀ x v, |x - (t + d * e)| ≤ u * (|t| + 4 * |e|) → eval x v → |v - f (t + d * e)| ≤ η)
    (hB : ∀ d, |d| ≤ 1 / 2 → |f (t + d * e)| ≤ B) (r : ExposureRun u e t eval dt s) :
    |r.out - g t| ≤ η + 6 * (oddSamples N + 1 : ℕ) * u * (B + η) := by
  have ho : order ≤ 2 := by
    by_contra hc
    obtain ⟨k, rfl⟩ : ∃ k, order = k + 3 := ⟨order - 3, by omega⟩
    simp [stencil] at hst
  obtain ⟨total, htotal, ws, hws, out, hout⟩ := r
  simp only
  rw [stencil_ok ho hN, Except.ok.injEq, Prod.mk.injEq] at hst
  obtain ⟨rfl, rfl⟩ := hst
  rw [integrate_eq ho hN, Except.ok.injEq] at hg
  subst hg
  obtain ⟨m, hm, -⟩ := oddSamples_spec N
  set n := oddSamples N with hnn
  have hn1 : 1 ≤ n := by omega
  set S := ∑ i ∈ Finset.range n, rawWeight order n i with hSd
  have hS : 0 < S := Finset.sum_pos (fun i _ => rawWeight_pos order n i) ⟨0, by simp; omega⟩
  have hnc : (2 : ℝ) ≤ ((n + 1 : ℕ) : ℝ) := by exact_mod_cast (by omega : 2 ≤ n + 1)
  have hu : u ≤ 1 / 16 := by nlinarith
  have hnu : ((n : ℕ) : ℝ) * u ≤ 1 / 2 := by push_cast at hn ⊢; linarith
  have htot : |total - S| ≤ 2 * (((n + 1 : ℕ) : ℝ) * u - u) * S := by
    have h1 := htotal.error hu0
    rw [List.length_map, List.length_range, List.map_map, sum_map_range, sum_map_range] at h1
    have h2 : ∑ i ∈ Finset.range n, (abs ∘ rawWeight order n) i = S :=
      Finset.sum_congr rfl fun i _ => abs_of_pos (rawWeight_pos order n i)
    rw [h2] at h1
    have h3 := mul_le_mul_of_nonneg_right (pow_le hu0 hnu) hS.le
    push_cast
    have : 2 * (((n : ℝ) + 1) * u - u) * S = 2 * n * u * S := by ring
    linarith
  obtain ⟨k1, k2⟩ := samples_near hu0 hu hS hn (by nlinarith) htot hη hB (by
    intro p hp
    rw [List.zip_map', List.mem_map] at hp
    obtain ⟨i, hi, rfl⟩ := hp
    exact ⟨offset_abs (List.mem_range.1 hi), (rawWeight_pos order n i).le⟩) hws
  rw [List.zip_map', List.map_map, List.map_map, sum_map_range, sum_map_range] at k1
  rw [List.zip_map', List.map_map, sum_map_range] at k2
  simp only [Function.comp] at k1 k2
  have hq : ∑ i ∈ Finset.range n, rawWeight order n i / S = 1 := by rw [← Finset.sum_div, ← hSd, div_self hS.ne']
  rw [hq] at k1 k2
  have hI : ∑ i ∈ Finset.range n, rawWeight order n i / S * f (t + offset order n i * e) =
      (∑ i ∈ Finset.range n, rawWeight order n i * f (t + offset order n i * e)) / S := by
    rw [Finset.sum_div]
    exact Finset.sum_congr rfl fun i _ => by ring
  rw [hI] at k1
  have hlen : ws.length = n := by
    rw [← hws.length_eq, List.length_zip]
    simp
  have k3 := hout.error hu0 (by rw [hlen]; linarith)
  rw [hlen] at k3
  have c0 : 0 ≤ ((n + 1 : ℕ) : ℝ) * u := by positivity
  have k4 := mul_le_mul_of_nonneg_left k2 c0
  have k5 := abs_sub_le out (ws.map fun p => p.1 * p.2).sum
    ((∑ i ∈ Finset.range n, rawWeight order n i * f (t + offset order n i * e)) / S)
  have hBη : 0 ≤ ((n + 1 : ℕ) : ℝ) * u * (B + η) := by
    have hA : 0 ≤ (ws.map fun p => |p.1 * p.2|).sum := List.sum_nonneg fun a ha => by
      obtain ⟨p, -, rfl⟩ := List.mem_map.1 ha; exact abs_nonneg _
    exact mul_nonneg c0 (by linarith)
  beta_reduce
  generalize ((n + 1 : ℕ) : ℝ) = c at *
  generalize (∑ i ∈ Finset.range n, rawWeight order n i * f (t + offset order n i * e)) / S = I at *
  generalize (ws.map fun p => p.1 * p.2).sum = A at *
  generalize (ws.map fun p => |p.1 * p.2|).sum = A' at *
  have k6 : |out - A| + |A - I| ≤ 2 * (c * u * (11 / 8 * (B + η) * 1)) + (η + 3 * (c * u) * (B + η)) * 1 := by linarith
  have k7 : 6 * c * u * (B + η) = 6 * (c * u * (B + η)) := by ring
  rw [k7]
  linarith

/-- C119: for a light curve with Lipschitz constant `K` evaluated with an error of at most `ε`, the default scheme gives the average over
the exposure. -/
theorem integrate_average {u e t ε K B : ℝ} {eval : ℝ → ℝ → Prop} {f : ℝ → ℝ} {N : ℕ} {dt s : List ℝ}
    (hu0 : 0 ≤ u) (hn : ((oddSamples N + 1 : ℕ) : ℝ) * u ≤ 1 / 8) (he : 0 < e) (hK : 0 ≤ K)
    (hst : stencil 0 N = .ok (dt, s)) (hf : ∀ x y, |f x - f y| ≤ K * |x - y|) (hB : ∀ x, |f x| ≤ B)
    (heval : ∀ x v, eval x v → |v - f x| ≤ ε) (r : ExposureRun u e t eval dt s) :
    |r.out - (∫ x in (t - e / 2)..(t + e / 2), f x) / e| ≤ K * e / (2 * oddSamples N) + (ε + K * (u * (|t| + 4 * e))) +
      6 * (oddSamples N + 1 : ℕ) * u * (B + (ε + K * (u * (|t| + 4 * e)))) := by
  have hg := integrate_eq (order := 0) (N := N) (by omega) (.inl rfl) f e
  have h1 := integrate_converges N f e K he hK t hf hg
  have h2 := integrate_rounding (η := ε + K * (u * (|t| + 4 * e))) hu0 hn (.inl rfl) hst hg (fun d _ x v hx hv => by
    have a1 := heval x v hv
    have a2 := (hf x (t + d * e)).trans (mul_le_mul_of_nonneg_left hx hK)
    rw [abs_of_pos he] at a2
    exact (abs_sub_le _ _ _).trans (add_le_add a1 a2)) (fun d _ => hB _) r
  exact (abs_sub_le _ _ _).trans (by linarith)

/-- C119: a constant light curve, computed exactly, keeps its value up to `6 (n + 1) u`. -/
theorem integrate_constant {u e t c : ℝ} {order N : ℕ} {dt s : List ℝ}
    (hu0 : 0 ≤ u) (hn : ((oddSamples N + 1 : ℕ) : ℝ) * u ≤ 1 / 8)
    (hN : order = 0 ∨ 2 ≤ N) (ho : order ≤ 2) (hst : stencil order N = .ok (dt, s))
    (r : ExposureRun u e t (fun _ v => v = c) dt s) :
    |r.out - c| ≤ 6 * (oddSamples N + 1 : ℕ) * u * |c| := by
  have h := integrate_rounding (f := fun _ => c) (η := 0) (B := |c|) hu0 hn hN hst (integrate_eq ho hN (fun _ => c) e)
    (fun d _ x v _ hv => by simp [hv]) (fun d _ => le_rfl) r
  simp only [add_zero, zero_add] at h
  rw [← Finset.sum_mul, mul_comm (∑ i ∈ _, _), mul_div_assoc, div_self, mul_one] at h
  · exact h
  · obtain ⟨m, hm, -⟩ := oddSamples_spec N
    exact (Finset.sum_pos (fun i _ => rawWeight_pos order _ i) ⟨0, by simp; omega⟩).ne'

/-! ## Runs exist -/

/-- C119: without rounding errors the run gives the value of the exact program. -/
theorem integrate_run_exact {e t B : ℝ} {f g : ℝ → ℝ} {order N : ℕ} {dt s : List ℝ} (hN : order = 0 ∨ 2 ≤ N)
    (hst : stencil order N = .ok (dt, s)) (hg : integrate f (some e) 0 order N = .ok g)
    (hB : ∀ d, |d| ≤ 1 / 2 → |f (t + d * e)| ≤ B)
    (r : ExposureRun 0 e t (fun x v => v = f x) dt s) : r.out = g t := by
  have h := integrate_rounding (u := 0) (η := 0) le_rfl (by simp) hN hst hg (fun d _ x v hx hv => by
    rw [zero_mul] at hx
    rw [hv, sub_eq_zero.1 (abs_nonpos_iff.1 hx)]
    simp) hB r
  have h0 : |r.out - g t| ≤ 0 := by simpa using h
  exact sub_eq_zero.1 (abs_nonpos_iff.1 h0)

theorem exists_floatSum {u : ℝ} (hu0 : 0 ≤ u) {l : List ℝ} (hl : l ≠ []) : FloatSum u l l.sum := by
  induction l with
  | nil => exact absurd rfl hl
  | cons a l ih =>
    rcases eq_or_ne l [] with rfl | h
    · simpa using FloatSum.single (u := u) a
    · have := FloatSum.add (FloatSum.single (u := u) a) (ih h) (Rnd.refl hu0 _)
      simpa using this

/-- C119: runs exist: the exact program is one. -/
theorem exists_exposureRun {u : ℝ} (hu0 : 0 ≤ u) (e t : ℝ) (f : ℝ → ℝ) {dt s : List ℝ} (hs : s ≠ []) (hd : dt ≠ []) :
    ∃ r : ExposureRun u e t (fun x v => v = f x) dt s,
      r.out = ((dt.zip s).map fun ds => ds.2 / s.sum * f (t + ds.1 * e)).sum := by
  have hz : dt.zip s ≠ [] := by
    cases dt <;> cases s <;> simp_all
  refine ⟨⟨s.sum, exists_floatSum hu0 hs, (dt.zip s).map fun ds => (ds.2 / s.sum, f (t + ds.1 * e)), ?_, _,
    ((dt.zip s).map fun ds => (ds.2 / s.sum, f (t + ds.1 * e))).map (fun p => p.1 * p.2), ?_, exists_floatSum hu0 (by simpa using hz)⟩, ?_⟩
  · rw [List.forall₂_map_right_iff]
    exact List.forall₂_same.2 fun ds _ => ⟨⟨ds.1, by simpa using hu0, _, Rnd.refl hu0 _, _, Rnd.refl hu0 _, rfl, Rnd.refl hu0 _⟩⟩
  · rw [List.forall₂_map_right_iff]
    exact List.forall₂_same.2 fun p _ => Rnd.refl hu0 _
  · simp [List.map_map, Function.comp_def]

/-- the hypotheses are met by the default number of samples in double precision -/
example (e t : ℝ) (f : ℝ → ℝ) : ∃ dt s, stencil 0 7 = .ok (dt, s) ∧ ((oddSamples 7 + 1 : ℕ) : ℝ) * 2 ^ (-52 : ℤ) ≤ 1 / 8 ∧
    Nonempty (ExposureRun (2 ^ (-52 : ℤ)) e t (fun x v => v = f x) dt s) := by
  refine ⟨_, _, stencil_zero 7, by norm_num [oddSamples], ?_⟩
  obtain ⟨r, -⟩ := exists_exposureRun (u := 2 ^ (-52 : ℤ)) (by positivity) e t f
    (dt := (List.range (oddSamples 7)).map (offset 0 (oddSamples 7))) (s := (List.range (oddSamples 7)).map (rawWeight 0 (oddSamples 7)))
    (by simp [oddSamples]) (by simp [oddSamples])
  exact ⟨r⟩

end Jaxoplanet.ExposureFloat
