import Verif.Model.SurfaceGrad
import Verif.Props.SolutionGrad
import Verif.Proofs.SurfaceLight
import Verif.Props.LimbMap

/-!
# Auxiliary lemmas for C93: derivatives of the light curves of surfaces
-/

namespace Jaxoplanet.Starry
open Real AD AD.Dual Filter Topology

/-- a relation between a function of a parameter and a number with derivative that all operations of the program preserve: the value and the derivative at
a parameter (`Tracks`), or the value only -/
class Closed (R : (ℝ → ℝ) → Dual → Prop) : Prop where
  const : ∀ c, R (fun _ => c) (const c)
  add : ∀ {f g a b}, R f a → R g b → R (fun s => f s + g s) (a + b)
  sub : ∀ {f g a b}, R f a → R g b → R (fun s => f s - g s) (a - b)
  neg : ∀ {f a}, R f a → R (fun s => -f s) (-a)
  mul : ∀ {f g a b}, R f a → R g b → R (fun s => f s * g s) (a * b)
  div : ∀ {f g a b}, R f a → R g b → b.v ≠ 0 → R (fun s => f s / g s) (a / b)
  cos : ∀ {f a}, R f a → R (fun s => Real.cos (f s)) a.cos
  sin : ∀ {f a}, R f a → R (fun s => Real.sin (f s)) a.sin

/-- the value and the derivative at the parameter `t` -/
def Tk (t : ℝ) (f : ℝ → ℝ) (a : Dual) : Prop := Tracks f t a

/-- the value at the parameter `t` -/
def Val (t : ℝ) (f : ℝ → ℝ) (a : Dual) : Prop := f t = a.v

instance (t : ℝ) : Closed (Tk t) where
  const := fun c => track_const c t
  add := track_add
  sub := track_sub
  neg := track_neg
  mul := track_mul
  div := track_div
  cos := track_cos
  sin := track_sin

instance (t : ℝ) : Closed (Val t) where
  const := fun _ => rfl
  add := fun h h' => by simp only [Val] at *; simp [h, h']
  sub := fun h h' => by simp only [Val] at *; simp [h, h']
  neg := fun h => by simp only [Val] at *; simp [h]
  mul := fun h h' => by simp only [Val] at *; simp [h, h']
  div := fun h h' _ => by simp only [Val] at *; simp [h, h']
  cos := fun h => by simp only [Val] at *; simp [h]
  sin := fun h => by simp only [Val] at *; simp [h]

set_option linter.unusedSectionVars false

variable {t : ℝ} {κ κ' : Type} {R : (ℝ → ℝ) → Dual → Prop} [hR : Closed R]

/-! ## Vectors, dictionaries and computations that may fail -/

/-- a vector with its derivatives -/
inductive TrL (R : (ℝ → ℝ) → Dual → Prop) : (ℝ → List ℝ) → List Dual → Prop
  | nil : TrL R (fun _ => []) []
  | cons {f : ℝ → ℝ} {a : Dual} {F : ℝ → List ℝ} {L : List Dual} (h : R f a) (hs : TrL R F L) : TrL R (fun s => f s :: F s) (a :: L)

/-- a dictionary with its derivatives -/
inductive TrD (R : (ℝ → ℝ) → Dual → Prop) : (ℝ → List (κ × ℝ)) → List (κ × Dual) → Prop
  | nil : TrD R (fun _ => []) []
  | cons {k : κ} {f : ℝ → ℝ} {a : Dual} {F : ℝ → List (κ × ℝ)} {L : List (κ × Dual)} (h : R f a) (hs : TrD R F L) :
      TrD R (fun s => (k, f s) :: F s) ((k, a) :: L)

/-- a computation that fails in the same way for all parameters, or whose result is related to that with derivatives -/
def TrE {α β : Type} (R : (ℝ → α) → β → Prop) (X : ℝ → Except PyErr α) (XD : Except PyErr β) : Prop :=
  (∃ e, XD = .error e ∧ ∀ s, X s = .error e) ∨ ∃ F a, XD = .ok a ∧ (∀ s, X s = .ok (F s)) ∧ R F a

theorem TrE.bind {α β α' β' : Type} {R : (ℝ → α) → β → Prop} {R' : (ℝ → α') → β' → Prop} {X : ℝ → Except PyErr α} {XD : Except PyErr β}
    {k : ℝ → α → Except PyErr α'} {kD : β → Except PyErr β'} (h : TrE R X XD) (hk : ∀ F a, R F a → TrE R' (fun s => k s (F s)) (kD a)) :
    TrE R' (fun s => X s >>= k s) (XD >>= kD) := by
  rcases h with ⟨e, h1, h2⟩ | ⟨F, a, h1, h2, h3⟩
  · exact Or.inl ⟨e, by rw [h1]; rfl, fun s => by simp only [h2]; rfl⟩
  · rcases hk F a h3 with ⟨e, k1, k2⟩ | ⟨F', a', k1, k2, k3⟩
    · exact Or.inl ⟨e, by rw [h1]; exact k1, fun s => by simp only [h2]; exact k2 s⟩
    · exact Or.inr ⟨F', a', by rw [h1]; exact k1, fun s => by simp only [h2]; exact k2 s, k3⟩

theorem TrE.pure {α β : Type} {R : (ℝ → α) → β → Prop} {F : ℝ → α} {a : β} (h : R F a) : TrE R (fun s => .ok (F s)) (.ok a) :=
  Or.inr ⟨F, a, rfl, fun _ => rfl, h⟩

theorem TrE.error {α β : Type} {R : (ℝ → α) → β → Prop} (e : PyErr) : TrE R (fun _ => .error e) (.error e) := Or.inl ⟨e, rfl, fun _ => rfl⟩

/-! ### vectors -/

theorem TrL.length {F : ℝ → List ℝ} {L : List Dual} (h : TrL R F L) (s : ℝ) : (F s).length = L.length := by
  induction h with
  | nil => rfl
  | cons _ _ ih => simp [ih]

theorem TrL.getD {F : ℝ → List ℝ} {L : List Dual} (h : TrL R F L) (i : ℕ) : R (fun s => (F s).getD i 0) (L.getD i (const 0)) := by
  induction h generalizing i with
  | nil => simpa using hR.const 0
  | cons h _ ih =>
    rcases i with _ | i
    · simpa using h
    · simpa using ih i

theorem TrL.append {F G : ℝ → List ℝ} {L M : List Dual} (h : TrL R F L) (h' : TrL R G M) : TrL R (fun s => F s ++ G s) (L ++ M) := by
  induction h with
  | nil => exact h'
  | cons h _ ih => exact .cons h ih

theorem trL_map {ι : Type} (l : List ι) {f : ι → ℝ → ℝ} {a : ι → Dual} (h : ∀ i ∈ l, R (f i) (a i)) :
    TrL R (fun s => l.map fun i => f i s) (l.map a) := by
  induction l with
  | nil => exact .nil
  | cons i l ih => exact .cons (h i (by simp)) (ih fun j hj => h j (by simp [hj]))

theorem trL_flatMap {ι : Type} (l : List ι) {F : ι → ℝ → List ℝ} {A : ι → List Dual} (h : ∀ i ∈ l, TrL R (F i) (A i)) :
    TrL R (fun s => l.flatMap fun i => F i s) (l.flatMap A) := by
  induction l with
  | nil => exact .nil
  | cons i l ih =>
    have := (h i (by simp)).append (ih fun j hj => h j (by simp [hj]))
    simpa [List.flatMap_cons] using this

theorem TrL.set {F : ℝ → List ℝ} {L : List Dual} (h : TrL R F L) (i : ℕ) {f : ℝ → ℝ} {a : Dual} (ha : R f a) :
    TrL R (fun s => (F s).set i (f s)) (L.set i a) := by
  induction h generalizing i with
  | nil => exact .nil
  | cons h h' ih =>
    rcases i with _ | i
    · exact .cons ha h'
    · exact .cons h (ih i)

theorem trL_const (l : List ℝ) : TrL R (fun _ => l) (l.map const) := by
  induction l with
  | nil => exact .nil
  | cons x l ih => exact .cons (hR.const x) ih

theorem trL_replicate (n : ℕ) (c : ℝ) : TrL R (fun _ => List.replicate n c) (List.replicate n (const c)) := by
  have := trL_const (R := R) (List.replicate n c)
  rwa [List.map_replicate] at this

theorem TrL.sum {F : ℝ → List ℝ} {L : List Dual} (h : TrL R F L) : R (fun s => (F s).sum) (Dual.sum L) := by
  induction h with
  | nil => exact hR.const 0
  | cons h _ ih =>
    simp only [List.sum_cons]
    exact hR.add h ih

theorem TrL.zipMul {F G : ℝ → List ℝ} {L M : List Dual} (h : TrL R F L) (h' : TrL R G M) :
    TrL R (fun s => List.zipWith (· * ·) (F s) (G s)) (List.zipWith (· * ·) L M) := by
  induction h generalizing G M with
  | nil => simpa using TrL.nil
  | cons h _ ih =>
    cases h' with
    | nil => exact .nil
    | cons h' hs' => exact .cons (hR.mul h h') (ih hs')

theorem trL_of_getD {L : List Dual} {F : ℝ → List ℝ} (hl : ∀ s, (F s).length = L.length)
    (h : ∀ i < L.length, Tracks (fun s => (F s).getD i 0) t (L.getD i (const 0))) : TrL (Tk t) F L := by
  induction L generalizing F with
  | nil =>
    have : F = fun _ => [] := funext fun s => List.length_eq_zero_iff.1 (hl s)
    rw [this]
    exact .nil
  | cons a L ih =>
    have hF : F = fun s => (F s).getD 0 0 :: (F s).tail := by
      funext s
      have := hl s
      cases hs : F s with
      | nil => rw [hs] at this; simp at this
      | cons x l => simp
    rw [hF]
    refine .cons ?_ (ih (fun s => by simp [hl s]) fun i hi => ?_)
    · have := h 0 (by simp)
      simp only [List.getD_eq_getElem?_getD, List.getElem?_cons_zero, Option.getD_some] at this ⊢
      exact this
    · have := h (i + 1) (by simpa using hi)
      refine Tracks.congr this (Eventually.of_forall fun s => ?_)
      cases hs : F s with
      | nil => simp
      | cons x l => simp

/-- a vector with finite derivatives -/
theorem fin_trL {L : List Dual} (h : ∀ a ∈ L, Fin a) : ∃ F, TrL (Tk t) F L := by
  induction L with
  | nil => exact ⟨_, .nil⟩
  | cons a L ih =>
    obtain ⟨F, hF⟩ := ih fun b hb => h b (by simp [hb])
    obtain ⟨f, hf⟩ := fin_tracks (t := t) (h a (by simp))
    exact ⟨_, .cons hf hF⟩

/-! ### dictionaries -/

theorem TrD.keys {F : ℝ → List (κ × ℝ)} {L : List (κ × Dual)} (h : TrD R F L) (s : ℝ) : (F s).map Prod.fst = L.map Prod.fst := by
  induction h with
  | nil => rfl
  | cons _ _ ih => simp [ih]

theorem TrD.values {F : ℝ → List (κ × ℝ)} {L : List (κ × Dual)} (h : TrD R F L) : TrL R (fun s => (F s).map Prod.snd) (L.map Prod.snd) := by
  induction h with
  | nil => exact .nil
  | cons h _ ih => exact .cons h ih

theorem TrD.mapKeys {F : ℝ → List (κ × ℝ)} {L : List (κ × Dual)} (h : TrD R F L) (g : κ → κ') :
    TrD R (fun s => (F s).map fun e => (g e.1, e.2)) (L.map fun e => (g e.1, e.2)) := by
  induction h with
  | nil => exact .nil
  | @cons k _ _ _ _ h _ ih => exact TrD.cons (k := g k) h ih

theorem TrD.filter {F : ℝ → List (κ × ℝ)} {L : List (κ × Dual)} (h : TrD R F L) (p : κ → Bool) :
    TrD R (fun s => (F s).filter fun e => p e.1) (L.filter fun e => p e.1) := by
  induction h with
  | nil => exact .nil
  | @cons k _ _ _ _ h _ ih =>
    by_cases hp : p k = true
    · simp only [List.filter_cons, hp, if_true]
      exact .cons h ih
    · simp only [List.filter_cons, hp]
      exact ih

theorem TrD.accum [DecidableEq κ] {F : ℝ → List (κ × ℝ)} {L : List (κ × Dual)} (h : TrD R F L) (k : κ) {f : ℝ → ℝ} {a : Dual} (ha : R f a) :
    TrD R (fun s => Dict.accum (F s) k (f s)) (DictD.accum L k a) := by
  induction h with
  | nil => exact .cons (hR.add (hR.const 0) ha) .nil
  | @cons k' _ _ _ _ h h' ih =>
    unfold Dict.accum DictD.accum
    by_cases hk : k' = k
    · simp only [hk, if_true]
      exact .cons (hR.add h ha) h'
    · simp only [hk, if_false]
      exact .cons h ih

theorem TrD.dense {F : ℝ → List (ℤ × ℝ)} {L : List (ℤ × Dual)} (h : TrD R F L) (n : ℕ) : TrL R (fun s => bcooDense (F s) n) (bcooDenseD L n) := by
  unfold bcooDense bcooDenseD
  exact trL_map (List.range n) fun i _ => ((h.filter fun k => decide (k = (i : ℤ))).values).sum

theorem TrL.mapIdx {F : ℝ → List ℝ} {L : List Dual} (h : TrL R F L) (k : ℕ → κ) :
    TrD R (fun s => (F s).mapIdx fun i v => (k i, v)) (L.mapIdx fun i v => (k i, v)) := by
  induction h generalizing k with
  | nil => exact .nil
  | cons h _ ih =>
    simp only [List.mapIdx_cons]
    exact .cons h (ih fun i => k (i + 1))

theorem TrD.mulTerm {F : ℝ → List (Ijk × ℝ)} {L : List (Ijk × Dual)} (h : TrD R F L) (k1 k2 : Ijk) {f1 f2 : ℝ → ℝ} {a1 a2 : Dual} (h1 : R f1 a1)
    (h2 : R f2 a2) : TrD R (fun s => Starry.mulTerm (F s) (k1, f1 s) (k2, f2 s)) (mulTermD L (k1, a1) (k2, a2)) := by
  have hm := hR.mul h1 h2
  unfold Starry.mulTerm mulTermD
  simp only
  by_cases hk : k1.2.2 + k2.2.2 = 2
  · simp only [hk, if_true]
    exact ((h.accum _ hm).accum _ (hR.neg hm)).accum _ (hR.neg hm)
  · simp only [hk, if_false]
    exact h.accum _ hm

theorem TrD.mulFold {D : ℝ → List (Ijk × ℝ)} {DD : List (Ijk × Dual)} (h : TrD R D DD) {F G : ℝ → List (Ijk × ℝ)} {L M : List (Ijk × Dual)}
    (hF : TrD R F L) (hG : TrD R G M) :
    TrD R (fun s => (F s).foldl (fun d e1 => (G s).foldl (fun d e2 => Starry.mulTerm d e1 e2) d) (D s))
      (L.foldl (fun d e1 => M.foldl (fun d e2 => mulTermD d e1 e2) d) DD) := by
  induction hF generalizing D DD with
  | nil => exact h
  | @cons k f a _ _ hf _ ih =>
    simp only [List.foldl_cons]
    refine ih ?_
    clear ih
    induction hG generalizing D DD with
    | nil => exact h
    | cons hg _ ih =>
      simp only [List.foldl_cons]
      exact ih (h.mulTerm _ _ hf hg)

/-- a polynomial with its derivatives -/
def TrP (R : (ℝ → ℝ) → Dual → Prop) (P : ℝ → Pijk) (PD : PijkD) : Prop := TrD R (fun s => (P s).data) PD.data ∧ ∀ s, (P s).degree = PD.degree

theorem trP_make {F : ℝ → List (Ijk × ℝ)} {L : List (Ijk × Dual)} (h : TrD R F L) (degree : Option ℕ) :
    TrE (TrP R) (fun s => Pijk.make (F s) degree) (PijkD.make L degree) := by
  have hany : ∀ s, ((F s).any fun e => e.1.2.2 > 1) = L.any fun e => e.1.2.2 > 1 := by
    intro s
    have := congrArg (fun l => l.any fun k : Ijk => k.2.2 > 1) (h.keys s)
    simpa [List.any_map, Function.comp_def] using this
  have hdeg : ∀ s, ((F s).map fun e => (ijk2lm e.1).1.toNat) = L.map fun e => (ijk2lm e.1).1.toNat := by
    intro s
    have := congrArg (fun l => l.map fun k : Ijk => (ijk2lm k).1.toNat) (h.keys s)
    simpa [List.map_map, Function.comp_def] using this
  have hemp : ∀ s, (F s).isEmpty = L.isEmpty := by
    intro s
    have := congrArg List.isEmpty (h.keys s)
    simpa using this
  unfold Pijk.make PijkD.make
  simp only [hany, hdeg, hemp]
  by_cases ha : (L.any fun e => e.1.2.2 > 1) = true
  · simp only [ha, if_true]
    exact TrE.error _
  · simp only [ha]
    cases degree with
    | some d => exact TrE.pure ⟨h, fun _ => rfl⟩
    | none =>
      by_cases he : L.isEmpty = true
      · simp only [he, if_true]
        exact TrE.error _
      · simp only [he]
        exact TrE.pure ⟨h, fun _ => rfl⟩

theorem trP_todense {P : ℝ → Pijk} {PD : PijkD} (h : TrP R P PD) : TrL R (fun s => (P s).todense) PD.todense := by
  unfold Pijk.todense PijkD.todense Pijk.shape
  simp only [h.2]
  exact (h.1.mapKeys pIndex).dense _

theorem trP_fromDense {F : ℝ → List ℝ} {L : List Dual} (h : TrL R F L) (degree : Option ℕ) :
    TrE (TrP R) (fun s => Pijk.fromDense (F s) degree) (PijkD.fromDense L degree) := trP_make (h.mapIdx n2ijk) degree

theorem trP_mul {P Q : ℝ → Pijk} {PD QD : PijkD} (h : TrP R P PD) (h' : TrP R Q QD) :
    TrE (TrP R) (fun s => (P s).mul (Q s)) (PD.mul QD) := trP_make (TrD.nil.mulFold h.1 h'.1) none

theorem trP_dot {P : ℝ → Pijk} {PD : PijkD} (h : TrP R P PD) {F : ℝ → List ℝ} {L : List Dual} (hF : TrL R F L) :
    TrE (fun f a => R f a) (fun s => (P s).dot (F s)) (PD.dot L) := by
  unfold Pijk.dot PijkD.dot Pijk.shape
  simp only [h.2, hF.length]
  by_cases hl : L.length = (PD.degree + 1) ^ 2
  · simp only [hl, if_true]
    exact TrE.pure (hF.zipMul (trP_todense h)).sum
  · simp only [hl, if_false]
    exact TrE.error _

/-! ## The parts of the program -/

theorem trL_matVec (N : ℕ) (cols : List (List ℝ)) {F : ℝ → List ℝ} {L : List Dual} (h : TrL R F L) :
    TrL R (fun s => matVec N cols (F s)) (matVecD N cols L) := by
  unfold matVec matVecD
  refine trL_map _ fun r _ => TrL.sum ?_
  induction h generalizing cols with
  | nil => simpa using TrL.nil
  | cons h _ ih =>
    cases cols with
    | nil => exact .nil
    | cons c cols => exact .cons (hR.mul (hR.const (c.getD r 0)) h) (ih cols)

theorem trL_vecMat {N : ℕ} (M : Matrix (Fin N) (Fin N) ℝ) {F : ℝ → List ℝ} {L : List Dual} (h : TrL R F L) :
    TrL R (fun s => vecMat (F s) M) (vecMatD L M) := by
  unfold vecMat vecMatD
  simp only [List.ofFn_eq_map, Fin.sum_univ_def]
  exact trL_map _ fun j _ => (trL_map _ fun (i : _root_.Fin N) _ => hR.mul (h.getD (i : ℕ)) (hR.const (M i j))).sum

theorem trL_cheb (deg : ℕ) {fa fb fc : ℝ → ℝ} {a b c : Dual} (ha : R fa a) (hb : R fb b) (hc : R fc c) :
    TrL R (fun s => chebList deg (fa s) (fb s) (fc s)) (chebListD deg a b c) := by
  unfold chebList chebListD
  induction deg - 1 with
  | zero => exact .cons ha (.cons hb .nil)
  | succ n ih =>
    simp only [List.range_succ, List.foldl_append, List.foldl_cons, List.foldl_nil]
    exact ih.append (.cons (hR.sub (hR.mul (hR.mul (hR.const 2) (ih.getD _)) hc) (ih.getD _)) .nil)

theorem trL_mt (deg : ℕ) (sgn : ℝ) {F : ℝ → List ℝ} {L : List Dual} (h : TrL R F L) : TrL R (fun s => mtList deg (F s) sgn) (mtListD deg L sgn) :=
  trL_flatMap _ fun _ _ => (trL_map _ fun _ _ => hR.mul (hR.const sgn) (h.getD _)).append (trL_map _ fun m _ => h.getD m)

theorem trL_dotRz (deg : ℕ) {f : ℝ → ℝ} {a : Dual} (hc : R (fun s => Real.cos (f s)) a.cos) (hs : R (fun s => Real.sin (f s)) a.sin)
    {F : ℝ → List ℝ} {L : List Dual} (h : TrL R F L) : TrL R (fun s => dotRz deg (f s) (F s)) (dotRzD deg a L) := by
  unfold dotRz dotRzD
  have h1 := trL_mt deg 1 (trL_cheb deg (hR.const 1) hc hc)
  have h2 := trL_mt deg (-1) (trL_cheb deg (hR.const 0) hs hc)
  simp only
  have key : ∀ (l : List (ℕ × ℕ)) {G : ℝ → List ℝ} {M : List Dual}, TrL R G M →
      TrL R (fun s => l.foldl (fun result e =>
        result.set (e.1 * e.1 + e.2)
          ((F s).getD (e.1 * e.1 + e.2) 0 * (mtList deg (chebList deg 1 (Real.cos (f s)) (Real.cos (f s))) 1).getD (e.1 * e.1 + e.2) 0 +
            (F s).getD (e.1 * e.1 + 2 * e.1 - e.2) 0 * (mtList deg (chebList deg 0 (Real.sin (f s)) (Real.cos (f s))) (-1)).getD (e.1 * e.1 + e.2) 0)) (G s))
        (l.foldl (fun result e =>
        result.set (e.1 * e.1 + e.2)
          (L.getD (e.1 * e.1 + e.2) (const 0) * (mtListD deg (chebListD deg (const 1) a.cos a.cos) 1).getD (e.1 * e.1 + e.2) (const 0) +
            L.getD (e.1 * e.1 + 2 * e.1 - e.2) (const 0) * (mtListD deg (chebListD deg (const 0) a.sin a.cos) (-1)).getD (e.1 * e.1 + e.2) (const 0))) M) := by
    intro l
    induction l with
    | nil => exact fun hG => hG
    | cons e l ih =>
      intro G M hG
      simp only [List.foldl_cons]
      exact ih (hG.set _ (hR.add (hR.mul (h.getD _) (h1.getD _)) (hR.mul (h.getD _) (h2.getD _))))
  exact key _ (trL_replicate _ 0)

theorem trL_blocks (ydeg : ℕ) (B : ℕ → ℕ → ℕ → ℝ) {F : ℝ → List ℝ} {L : List Dual} (h : TrL R F L) :
    TrL R (fun s => applyBlocks ydeg B (F s)) (applyBlocksD ydeg B L) := by
  unfold applyBlocks applyBlocksD
  refine trL_flatMap _ fun ell _ => trL_map _ fun c _ => ?_
  simp only [← LimbDark.range_sum]
  exact (trL_map _ fun r _ => hR.mul (h.getD _) (hR.const (B ell r c))).sum

theorem trE_dotRotation (asEuler : ℝ × ℝ × ℝ → ℝ × ℝ × ℝ) (ydeg : ℕ) (x y z theta : Option ℝ) {F : ℝ → List ℝ} {L : List Dual} (h : TrL R F L) :
    TrE (TrL R) (fun s => dotRotationMatrix asEuler ydeg x y z theta (F s)) (dotRotationMatrixD asEuler ydeg x y z theta L) := by
  unfold dotRotationMatrix dotRotationMatrixD
  cases theta with
  | none => exact TrE.pure h
  | some theta =>
    simp only
    split_ifs
    · exact TrE.error _
    · exact TrE.pure (trL_dotRz ydeg (hR.cos (hR.const theta)) (hR.sin (hR.const theta)) h)
    · exact TrE.pure (trL_blocks _ _ h)

/-- an optional parameter with its derivative -/
def TrO (R : (ℝ → ℝ) → Dual → Prop) (f : Option (ℝ → ℝ)) (a : Option Dual) : Prop := Option.Rel (fun f a => R f a) f a

theorem trE_leftProject (asEuler : ℝ × ℝ × ℝ → ℝ × ℝ × ℝ) (ydeg : ℕ) (inc obl : Option ℝ) {theta : Option (ℝ → ℝ)} {thetaD : Option Dual} (hth : TrO R theta thetaD)
    {f : ℝ → ℝ} {a : Dual} (hc : R (fun s => Real.cos (-f s)) (-a).cos) (hs : R (fun s => Real.sin (-f s)) (-a).sin)
    {F : ℝ → List ℝ} {L : List Dual} (h : TrL R F L) :
    TrE (TrL R) (fun s => leftProject asEuler ydeg inc obl (theta.map (· s)) (some (f s)) (F s)) (leftProjectD asEuler ydeg inc obl thetaD a L) := by
  unfold leftProject leftProjectD
  refine TrE.bind (trE_dotRotation asEuler ydeg (some 1) none none (some (-0.5 * π)) h) fun F1 L1 h1 => ?_
  have tail : ∀ {G : ℝ → List ℝ} {M : List Dual}, TrL R G M → TrE (TrL R)
      (fun s => (dotRotationMatrix asEuler ydeg (skyProjection inc obl).1 (skyProjection inc obl).2.1 (skyProjection inc obl).2.2.1 (skyProjection inc obl).2.2.2 (G s)) >>= fun y =>
        dotRotationMatrix asEuler ydeg none none (some 1) (Option.map (- ·) (some (f s))) y)
      ((dotRotationMatrixD asEuler ydeg (skyProjection inc obl).1 (skyProjection inc obl).2.1 (skyProjection inc obl).2.2.1 (skyProjection inc obl).2.2.2 M) >>= fun y =>
        .ok (dotRzD ydeg (-a) y)) := by
    intro G M hG
    refine TrE.bind (trE_dotRotation asEuler ydeg _ _ _ _ hG) fun F2 L2 h2 => ?_
    exact TrE.pure (trL_dotRz ydeg hc hs h2)
  cases hth with
  | none => exact tail h1
  | some ht =>
    have htn := hR.neg ht
    exact tail (trL_dotRz ydeg (hR.cos htn) (hR.sin htn) h1)

open _root_.Jaxoplanet.Starry.Spec _root_.Jaxoplanet.Spec

/-! ## The whole light curve -/

theorem TrE.withVal {α β : Type} {R : (ℝ → α) → β → Prop} {X : ℝ → Except PyErr α} {XD : Except PyErr β} (h : TrE R X XD) :
    TrE (fun F a => R F a ∧ ∀ s, X s = .ok (F s)) X XD := by
  rcases h with ⟨e, h1, h2⟩ | ⟨F, a, h1, h2, h3⟩
  · exact Or.inl ⟨e, h1, h2⟩
  · exact Or.inr ⟨F, a, h1, h2, h3, h2⟩

theorem arctan2_norm (x y : ℝ) : √(x ^ 2 + y ^ 2) * Real.sin (arctan2 x y) = x ∧ √(x ^ 2 + y ^ 2) * Real.cos (arctan2 x y) = y := by
  constructor
  · have := Complex.norm_mul_sin_arg ⟨y, x⟩
    rw [Complex.norm_def, Complex.normSq_mk] at this
    simpa [arctan2, show y * y + x * x = x ^ 2 + y ^ 2 by ring] using this
  · have := Complex.norm_mul_cos_arg ⟨y, x⟩
    rw [Complex.norm_def, Complex.normSq_mk] at this
    simpa [arctan2, show y * y + x * x = x ^ 2 + y ^ 2 by ring] using this

/-- the sine and the cosine of `arctan2(x, y)` are differentiable also where `arctan2` jumps -/
theorem track_trig_atan2 {fx fy : ℝ → ℝ} {x y : Dual} (hx : Tracks fx t x) (hy : Tracks fy t y) (h : ¬ (x.v = 0 ∧ y.v = 0)) :
    Tracks (fun s => Real.cos (arctan2 (fx s) (fy s))) t (Dual.atan2 x y).cos ∧ Tracks (fun s => Real.sin (arctan2 (fx s) (fy s))) t (Dual.atan2 x y).sin := by
  obtain ⟨vx, dx, ex, gx⟩ := hx
  obtain ⟨vy, dy, ey, gy⟩ := hy
  have hpos : 0 < x.v ^ 2 + y.v ^ 2 := by
    rcases not_and_or.1 h with h | h <;> positivity
  have hn := arctan2_norm x.v y.v
  set N := √(x.v ^ 2 + y.v ^ 2) with hN
  have hN0 : 0 < N := Real.sqrt_pos.2 hpos
  have hN2 : N ^ 2 = x.v ^ 2 + y.v ^ 2 := Real.sq_sqrt hpos.le
  have hsin : Real.sin (arctan2 x.v y.v) = x.v / N := by rw [eq_div_iff hN0.ne', mul_comm]; exact hn.1
  have hcos : Real.cos (arctan2 x.v y.v) = y.v / N := by rw [eq_div_iff hN0.ne', mul_comm]; exact hn.2
  have hd : (Dual.atan2 x y).d = some (y.v / (x.v ^ 2 + y.v ^ 2) * dx + -x.v / (x.v ^ 2 + y.v ^ 2) * dy) := by
    unfold Dual.atan2
    simp only
    rw [if_neg h, ex, ey]
    rfl
  have hS : HasDerivAt (fun s => fx s ^ 2 + fy s ^ 2) (2 * x.v * dx + 2 * y.v * dy) t := by
    have := (gx.pow 2).add (gy.pow 2)
    rw [vx, vy] at this
    exact this.congr_deriv (by simp)
  have hR : HasDerivAt (fun s => √(fx s ^ 2 + fy s ^ 2)) ((2 * x.v * dx + 2 * y.v * dy) / (2 * N)) t := by
    have := hS.sqrt (by simp only [vx, vy]; exact hpos.ne')
    simp only [vx, vy] at this
    exact this
  have hne : √(fx t ^ 2 + fy t ^ 2) ≠ 0 := by rw [vx, vy]; exact hN0.ne'
  have hev : ∀ᶠ s in 𝓝 t, 0 < √(fx s ^ 2 + fy s ^ 2) :=
    hR.continuousAt.eventually (lt_mem_nhds (by simp only [vx, vy]; exact hN0))
  constructor
  · refine ⟨by simp only [vx, vy]; rfl, -Real.sin (arctan2 x.v y.v) * (y.v / (x.v ^ 2 + y.v ^ 2) * dx + -x.v / (x.v ^ 2 + y.v ^ 2) * dy), ?_, ?_⟩
    · exact congrArg (AD.lin (some _)) hd
    · refine ((gy.div hR hne).congr_of_eventuallyEq (hev.mono fun s hs => ?_)).congr_deriv ?_
      · change _ = fy s / _
        rw [eq_div_iff hs.ne', mul_comm]
        exact (arctan2_norm _ _).2
      · rw [vx, vy, ← hN, hsin, ← hN2]
        field_simp
        rw [hN2]
        ring
  · refine ⟨by simp only [vx, vy]; rfl, Real.cos (arctan2 x.v y.v) * (y.v / (x.v ^ 2 + y.v ^ 2) * dx + -x.v / (x.v ^ 2 + y.v ^ 2) * dy), ?_, ?_⟩
    · exact congrArg (AD.lin (some _)) hd
    · refine ((gx.div hR hne).congr_of_eventuallyEq (hev.mono fun s hs => ?_)).congr_deriv ?_
      · change _ = fx s / _
        rw [eq_div_iff hs.ne', mul_comm]
        exact (arctan2_norm _ _).1
      · rw [vx, vy, ← hN, hcos, ← hN2]
        field_simp
        rw [hN2]
        ring

/-- a surface with its derivatives, except for the inclination and the obliquity -/
structure TrSurf0 (R : (ℝ → ℝ) → Dual → Prop) (S : ℝ → Surface) (y : DictD (ℕ × ℤ)) (u : List Dual) (amplitude : Dual) : Prop where
  y : TrD R (fun s => (S s).y.data) y
  u : TrL R (fun s => (S s).u) u
  amplitude : R (fun s => (S s).amplitude) amplitude

theorem TrSurf0.ydeg {S : ℝ → Surface} {y : DictD (ℕ × ℤ)} {u : List Dual} {amplitude : Dual} (h : TrSurf0 R S y u amplitude) (s : ℝ) : (S s).ydeg = ylmDeg y := by
  have := congrArg (fun l => (l.map fun k : ℕ × ℤ => k.1).foldr Max.max 0) (h.y.keys s)
  simpa [Surface.ydeg, Ylm.deg, ylmDeg, List.map_map, Function.comp_def] using this

theorem TrSurf0.todense {S : ℝ → Surface} {y : DictD (ℕ × ℤ)} {u : List Dual} {amplitude : Dual} (h : TrSurf0 R S y u amplitude) :
    TrL R (fun s => (S s).y.todense) (ylmTodense y) := by
  unfold Ylm.todense ylmTodense Ylm.shape
  have hd : ∀ s, (S s).y.deg = ylmDeg y := h.ydeg
  simp only [hd]
  exact (h.y.mapKeys fun k : ℕ × ℤ => Ylm.index k.1 k.2).dense _

/-- a surface with its derivatives -/
structure TrSurf (R : (ℝ → ℝ) → Dual → Prop) (S : ℝ → Surface) (SD : SurfaceD) : Prop where
  y : TrD R (fun s => (S s).y.data) SD.y
  inc : ∀ s, (S s).inc = SD.inc
  obl : ∀ s, (S s).obl = SD.obl
  u : TrL R (fun s => (S s).u) SD.u
  amplitude : R (fun s => (S s).amplitude) SD.amplitude

theorem TrSurf.base {S : ℝ → Surface} {SD : SurfaceD} (h : TrSurf R S SD) : TrSurf0 R S SD.y SD.u SD.amplitude := ⟨h.y, h.u, h.amplitude⟩

theorem TrSurf.ydeg {S : ℝ → Surface} {SD : SurfaceD} (h : TrSurf R S SD) (s : ℝ) : (S s).ydeg = ylmDeg SD.y := h.base.ydeg s

theorem TrSurf.todense {S : ℝ → Surface} {SD : SurfaceD} (h : TrSurf R S SD) : TrL R (fun s => (S s).y.todense) (ylmTodense SD.y) := h.base.todense

theorem trE_uPoly {F : ℝ → List ℝ} {L : List Dual} (h : TrL R F L) : TrE (TrP R) (fun s => uPoly (F s)) (uPolyD L) := by
  unfold uPoly uPolyD limbDarkPoly
  simp only [h.length]
  split_ifs
  · exact trP_fromDense (.cons (hR.const 1) .nil) none
  · exact trP_fromDense (trL_matVec _ _ (.cons (hR.const 1) h)) _

theorem uPoly_flux {u : List ℝ} {q : Pijk} (h : uPoly u = .ok q) {v : ℝ} (hv : q.dot (rT u.length) = .ok v) : v = totalFlux u := by
  obtain ⟨cu, q', hcu, hq, hu, hval⟩ := uPoly_spec u
  rw [h] at hu
  obtain rfl := Except.ok.inj hu
  have hqd : q.todense = cu := pijk_todense_fromDense hcu (some u.length) (Or.inr rfl) hq
  rw [dot_ok _ _ (by rw [hqd, (rT_spec u.length).1, hcu]), hqd, rT_dot _ _ hcu] at hv
  rw [← Except.ok.inj hv]
  unfold totalFlux
  exact MeasureTheory.setIntegral_congr_fun Green.measurableSet_stellarDisc fun p hp => hval _ _ _ (disc_sphere hp)

theorem trE_fluxFrom {S : ℝ → Surface} {y : DictD (ℕ × ℤ)} {u : List Dual} {amplitude : Dual} (h : TrSurf0 R S y u amplitude) (hval : ∀ {f a}, R f a → f t = a.v)
    (htot : totalFlux (S t).u ≠ 0) {asEuler : ℝ × ℝ × ℝ → ℝ × ℝ × ℝ} {theta : ℝ → Option ℝ} {f : ℝ → ℝ} {rotated : Except PyErr (List Dual)}
    (hrot : TrE (TrL R) (fun s => rotatedY asEuler (S s) (theta s) (f s)) rotated) {F : ℝ → List ℝ} {L : List Dual} (hF : TrL R F L) :
    TrE (fun f a => R f a) (fun s => projectFlux asEuler (S s) (theta s) (f s) (F s)) (fluxFromD (ylmDeg y) u amplitude rotated L) := by
  unfold projectFlux fluxFromD
  simp only [h.ydeg]
  have hud : ∀ s, (S s).udeg = u.length := h.u.length
  simp only [hud]
  refine TrE.bind hrot fun M MD hM => ?_
  refine TrE.bind (trE_uPoly h.u).withVal fun P PD hP => ?_
  refine TrE.bind (trP_fromDense (trL_matVec _ _ hM) _) fun Q QD hQ => ?_
  refine TrE.bind (trP_mul hQ hP.1) fun W WD hW => ?_
  refine TrE.bind (trP_dot hP.1 (trL_const (rT u.length))).withVal fun fu fuD hfu => ?_
  refine TrE.bind (trP_dot hW hF) fun fl flD hfl => ?_
  refine TrE.pure (hR.mul (hR.mul h.amplitude hfl) (hR.div (hR.const π) hfu.1 ?_))
  have h1 : (P t).dot (rT (S t).u.length) = .ok (fu t) := by
    rw [h.u.length t]
    exact hfu.2 t
  rw [← hval hfu.1, uPoly_flux (hP.2 t) h1]
  exact htot

theorem trE_rotatedY (asEuler : ℝ × ℝ × ℝ → ℝ × ℝ × ℝ) {S : ℝ → Surface} {SD : SurfaceD} (h : TrSurf R S SD)
    {theta : Option (ℝ → ℝ)} {thetaD : Option Dual} (hth : TrO R theta thetaD)
    {f : ℝ → ℝ} {a : Dual} (hc : R (fun s => Real.cos (-f s)) (-a).cos) (hs : R (fun s => Real.sin (-f s)) (-a).sin) :
    TrE (TrL R) (fun s => rotatedY asEuler (S s) (theta.map (· s)) (f s)) (rotatedYD asEuler SD thetaD a) := by
  unfold rotatedY rotatedYD
  simp only [h.ydeg, h.inc, h.obl]
  split_ifs
  · exact TrE.pure h.todense
  · exact trE_leftProject asEuler _ _ _ hth hc hs h.todense

theorem trE_projectFlux (asEuler : ℝ × ℝ × ℝ → ℝ × ℝ × ℝ) {S : ℝ → Surface} {SD : SurfaceD} (h : TrSurf R S SD) (hval : ∀ {f a}, R f a → f t = a.v) (htot : totalFlux (S t).u ≠ 0)
    {theta : Option (ℝ → ℝ)} {thetaD : Option Dual} (hth : TrO R theta thetaD)
    {f : ℝ → ℝ} {a : Dual} (hc : R (fun s => Real.cos (-f s)) (-a).cos) (hs : R (fun s => Real.sin (-f s)) (-a).sin)
    {F : ℝ → List ℝ} {L : List Dual} (hF : TrL R F L) :
    TrE (fun f a => R f a) (fun s => projectFlux asEuler (S s) (theta.map (· s)) (f s) (F s)) (projectFluxD asEuler SD thetaD a L) :=
  trE_fluxFrom h.base hval htot (trE_rotatedY asEuler h hth hc hs) hF

/-! ## The design vector -/

theorem Tracks.eq_input {f : ℝ → ℝ} {a : Dual} (h : Tracks f t a) : a = LimbDark.input t f ∧ DifferentiableAt ℝ f t := by
  obtain ⟨v, d, hd, hg⟩ := h
  refine ⟨?_, hg.differentiableAt⟩
  cases a
  simp only at v hd
  rw [LimbDark.input, hg.deriv, v, hd]

theorem TrL.val {F : ℝ → List ℝ} {L : List Dual} (h : TrL (Tk t) F L) : F t = L.map (·.v) := by
  induction h with
  | nil => rfl
  | cons h _ ih => simp [ih, h.1]

theorem TrL.allFin {F : ℝ → List ℝ} {L : List Dual} (h : TrL (Tk t) F L) : ∀ a ∈ L, Dual.Fin a := by
  induction h with
  | nil => simp
  | cons h _ ih =>
    intro a ha
    rcases List.mem_cons.1 ha with rfl | ha
    · exact h.fin
    · exact ih a ha

theorem TrL.congr {F G : ℝ → List ℝ} {L : List Dual} (h : TrL (Tk t) F L) (hl : ∀ s, (G s).length = L.length) (he : ∀ᶠ s in 𝓝 t, G s = F s) : TrL (Tk t) G L :=
  trL_of_getD hl fun i _ => (h.getD i).congr (he.mono fun s hs => by rw [hs])

open Classical in
theorem trL_where (st : Bool) (c : Prop) {F G : ℝ → List ℝ} {L M : List Dual} (h : TrL (Tk t) F L) (h' : TrL (Tk t) G M) (hl : L.length = M.length) :
    TrL (Tk t) (fun s => if c then F s else G s) (whereVec st c L M) := by
  unfold whereVec
  induction h generalizing G M with
  | nil =>
    cases h' with
    | nil => simpa using TrL.nil
    | cons => simp at hl
  | @cons f a F L h hs ih =>
    cases h' with
    | nil => simp at hl
    | @cons g b G M h' hs' =>
      have := ih hs' (by simpa using hl)
      have hd : Tracks (fun s => if c then f s else g s) t (Dual.where st c a b) := by
        by_cases hc : c
        · exact track_where_pos h h'.fin hc (Eventually.of_forall fun _ => hc)
        · exact track_where_neg h.fin h' hc (Eventually.of_forall fun _ => hc)
      have e : (fun s => if c then f s :: F s else g s :: G s) = fun s => (if c then f s else g s) :: (if c then F s else G s) := by
        funext s
        split_ifs <;> rfl
      rw [e]
      exact .cons hd this

theorem sq_add_pos {x y : ℝ} (h : ¬ (x = 0 ∧ y = 0)) : 0 < x ^ 2 + y ^ 2 := by
  rcases not_and_or.1 h with h | h <;> positivity

/-- the occultor is not in front of the star -/
def NotInFront (x y z r : ℝ) : Prop := √(x ^ 2 + y ^ 2) ≥ 1 + r ∨ z ≤ 0

/-- the impact parameter with derivatives -/
noncomputable def impactD (x y : Dual) : Dual := (x.square + y.square).sqrt

theorem design_form {eps : ℝ} (he : 0 < eps) (strict : Bool) (quad : ℕ → List (ℝ × ℝ)) (order : ℕ) {deg : ℕ} (hdeg : deg ≠ 0) {r x y : Dual} (z : Dual)
    (hr : Dual.Fin r) (hx : Dual.Fin x) (hy : Dual.Fin y) (h : ¬ (x.v = 0 ∧ y.v = 0)) :
    ∃ L A2, solutionVectorD eps strict quad deg order (Dual.where strict (NotInFront x.v y.v z.v r.v) (const 1) (impactD x y))
        (Dual.where strict (NotInFront x.v y.v z.v r.v) (const 1) r) = .ok L ∧ L.length = (deg + 1) ^ 2 ∧ (∀ a ∈ L, Dual.Fin a) ∧
      scipyInv (matOf ((deg + 1) ^ 2) (A2inv deg)) = .ok A2 ∧ designVectorD eps strict quad order deg r x y z =
        .ok (whereVec strict (¬ NotInFront x.v y.v z.v r.v) (vecMatD L A2) ((rT deg).map const)) := by
  classical
  have hb : Dual.Fin (impactD x y) := fin_sqrt (fin_add (fin_square hx) (fin_square hy)) (sq_add_pos h)
  have hbv : (impactD x y).v = √(x.v ^ 2 + y.v ^ 2) := rfl
  have hb0 : 0 < √(x.v ^ 2 + y.v ^ 2) := Real.sqrt_pos.2 (sq_add_pos h)
  obtain ⟨A2, hA, -⟩ := A2_spec deg
  obtain ⟨L, hL, hl, hf⟩ := solution_gradient_finite he strict quad hdeg order (Dual.where strict (NotInFront x.v y.v z.v r.v) (const 1) (impactD x y))
    (Dual.where strict (NotInFront x.v y.v z.v r.v) (const 1) r) (fin_where (fin_const 1) hb) (fin_where (fin_const 1) hr)
    (by
      rw [where_v, where_v, hbv, const_v]
      split_ifs with hrot
      · rintro ⟨h1, -⟩; norm_num at h1
      · rintro ⟨h1, -⟩; exact hb0.ne' h1)
    (by
      rw [where_v, where_v, hbv, const_v]
      split_ifs with hrot
      · rintro ⟨-, h1⟩; norm_num at h1
      · rintro ⟨h1, h2⟩
        refine hrot (Or.inl ?_)
        rw [abs_of_pos hb0] at h1
        rw [h1, h2]
        norm_num)
  refine ⟨L, A2, hL, hl, hf, hA, ?_⟩
  unfold designVectorD
  simp only
  change (solutionVectorD eps strict quad deg order (Dual.where strict (NotInFront x.v y.v z.v r.v) (const 1) (impactD x y))
        (Dual.where strict (NotInFront x.v y.v z.v r.v) (const 1) r) >>= _) = _
  rw [hL]
  simp only [hA, Bind.bind, Except.bind]
  rfl

theorem vecMatD_length {N : ℕ} (L : List Dual) (M : Matrix (_root_.Fin N) (_root_.Fin N) ℝ) : (vecMatD L M).length = N := by
  simp [vecMatD]

/-- the derivatives of the design vector are finite -/
theorem design_finite {eps : ℝ} (he : 0 < eps) (strict : Bool) (quad : ℕ → List (ℝ × ℝ)) (order : ℕ) {deg : ℕ} (hdeg : deg ≠ 0) {r x y : Dual} (z : Dual)
    (hr : Dual.Fin r) (hx : Dual.Fin x) (hy : Dual.Fin y) (h : ¬ (x.v = 0 ∧ y.v = 0)) :
    ∃ L, designVectorD eps strict quad order deg r x y z = .ok L ∧ L.length = (deg + 1) ^ 2 ∧ (∀ a ∈ L, Dual.Fin a) ∧
      designVector eps quad order deg r.v x.v y.v z.v = .ok (L.map (·.v)) := by
  classical
  obtain ⟨L, A2, hL, hl, hf, hA, hD⟩ := design_form he strict quad order hdeg z hr hx hy h
  obtain ⟨F, hF⟩ := fin_trL (t := 0) hf
  have hlen : (vecMatD L A2).length = ((rT deg).map const).length := by
    rw [vecMatD_length, List.length_map, (rT_spec deg).1]
  have hT := trL_where strict (¬ NotInFront x.v y.v z.v r.v) (trL_vecMat A2 hF) (trL_const (R := Tk 0) (rT deg)) hlen
  refine ⟨_, hD, ?_, hT.allFin, ?_⟩
  · simp [whereVec, vecMatD_length, (rT_spec deg).1]
  · rw [← hT.val]
    have hv := solutionVectorD_v eps strict quad deg order (Dual.where strict (NotInFront x.v y.v z.v r.v) (const 1) (impactD x y))
        (Dual.where strict (NotInFront x.v y.v z.v r.v) (const 1) r)
    rw [hL, where_v, where_v] at hv
    by_cases hrot : NotInFront x.v y.v z.v r.v
    · rw [if_neg (not_not.2 hrot)]
      exact designVector_rot eps quad order hdeg r.v x.v y.v z.v hrot
    · rw [if_pos hrot]
      rw [if_neg hrot, if_neg hrot] at hv
      rw [hF.val]
      exact designVector_occ hrot hv.symm hA

/-- where the derivatives of the design vector are its derivatives -/
structure RegularSky (eps : ℝ) (nodes : List (ℝ × ℝ)) (x y z r : ℝ) : Prop where
  apart : ¬ (x = 0 ∧ y = 0)
  region : 1 + r < √(x ^ 2 + y ^ 2) ∨ z < 0 ∨ (0 < z ∧ √(x ^ 2 + y ^ 2) < 1 + r ∧ RegularPoint eps nodes √(x ^ 2 + y ^ 2) r)

theorem design_tracks {eps : ℝ} (he : 0 < eps) (strict : Bool) (quad : ℕ → List (ℝ × ℝ)) (order : ℕ) {deg : ℕ} (hdeg : deg ≠ 0) {fr fx fy fz : ℝ → ℝ}
    {r x y z : Dual} (hr : Tracks fr t r) (hx : Tracks fx t x) (hy : Tracks fy t y) (hz : Tracks fz t z)
    (h : RegularSky eps (quad order) (fx t) (fy t) (fz t) (fr t)) :
    TrE (TrL (Tk t)) (fun s => designVector eps quad order deg (fr s) (fx s) (fy s) (fz s)) (designVectorD eps strict quad order deg r x y z) := by
  classical
  have hne : ¬ (x.v = 0 ∧ y.v = 0) := by rw [← hx.1, ← hy.1]; exact h.apart
  obtain ⟨L, A2, hL, hl, hf, hA, hD⟩ := design_form he strict quad order hdeg z hr.fin hx.fin hy.fin hne
  have hlen : (vecMatD L A2).length = ((rT deg).map const).length := by
    rw [vecMatD_length, List.length_map, (rT_spec deg).1]
  have hall : ∀ s, ∃ V, designVector eps quad order deg (fr s) (fx s) (fy s) (fz s) = .ok V ∧ V.length = (deg + 1) ^ 2 := by
    intro s
    by_cases hrot : NotInFront (fx s) (fy s) (fz s) (fr s)
    · exact ⟨_, designVector_rot eps quad order hdeg _ _ _ _ hrot, (rT_spec deg).1⟩
    · obtain ⟨S, hS⟩ := solutionVector_ok eps quad order hdeg √(fx s ^ 2 + fy s ^ 2) (fr s)
      exact ⟨_, designVector_occ hrot hS hA, vecMat_length _ _⟩
  choose V hV hVl using hall
  refine Or.inr ⟨V, _, hD, hV, ?_⟩
  have hVl' : ∀ s, (V s).length = (whereVec strict (¬ NotInFront x.v y.v z.v r.v) (vecMatD L A2) ((rT deg).map const)).length := by
    intro s
    rw [hVl]
    simp [whereVec, vecMatD_length, (rT_spec deg).1]
  have hbt : Tracks (fun s => √(fx s ^ 2 + fy s ^ 2)) t (impactD x y) :=
    track_sqrt (track_add (track_square hx) (track_square hy)) (sq_add_pos hne)
  have hb1 := hbt.cont
  have hr1 := hr.cont
  have hz1 := hz.cont
  have hout : (∀ᶠ s in 𝓝 t, NotInFront (fx s) (fy s) (fz s) (fr s)) → TrL (Tk t) V (whereVec strict (¬ NotInFront x.v y.v z.v r.v) (vecMatD L A2) ((rT deg).map const)) := by
    intro hev
    have hrot : NotInFront x.v y.v z.v r.v := by
      have := hev.self_of_nhds
      rwa [hx.1, hy.1, hz.1, hr.1] at this
    obtain ⟨F, hF⟩ := fin_trL (t := t) hf
    have hT := trL_where strict (¬ NotInFront x.v y.v z.v r.v) (trL_vecMat A2 hF) (trL_const (R := Tk t) (rT deg)) hlen
    refine hT.congr hVl' (hev.mono fun s hs => ?_)
    rw [if_neg (not_not.2 hrot)]
    have := designVector_rot eps quad order hdeg _ _ _ _ hs
    rw [hV s] at this
    exact Except.ok.inj this
  rcases h.region with h1 | h1 | ⟨h1, h2, h3⟩
  · refine hout ?_
    have : ContinuousAt (fun s => 1 + fr s) t := continuousAt_const.add hr1
    exact (this.eventually_lt hb1 h1).mono fun s hs => Or.inl hs.le
  · refine hout ?_
    exact (hz1.eventually_lt continuousAt_const h1).mono fun s hs => Or.inr hs.le
  · have hev : ∀ᶠ s in 𝓝 t, ¬ NotInFront (fx s) (fy s) (fz s) (fr s) := by
      have : ContinuousAt (fun s => 1 + fr s) t := continuousAt_const.add hr1
      filter_upwards [hb1.eventually_lt this h2, continuousAt_const.eventually_lt hz1 h1] with s hs hs'
      rintro (h | h)
      · exact absurd h (not_le.2 hs)
      · exact absurd h (not_le.2 hs')
    have hrot : ¬ NotInFront x.v y.v z.v r.v := by
      have := hev.self_of_nhds
      rwa [hx.1, hy.1, hz.1, hr.1] at this
    have tb : Tracks (fun s => √(fx s ^ 2 + fy s ^ 2)) t (Dual.where strict (NotInFront x.v y.v z.v r.v) (const 1) (impactD x y)) := by
      have := track_where_neg (st := strict) (c := NotInFront x.v y.v z.v r.v) (f := fun _ => 1) (p := fun _ => NotInFront x.v y.v z.v r.v) (fin_const 1) hbt hrot (Eventually.of_forall fun _ => hrot)
      exact this.congr (Eventually.of_forall fun s => by rw [if_neg hrot])
    have tr : Tracks fr t (Dual.where strict (NotInFront x.v y.v z.v r.v) (const 1) r) := by
      have := track_where_neg (st := strict) (c := NotInFront x.v y.v z.v r.v) (f := fun _ => 1) (p := fun _ => NotInFront x.v y.v z.v r.v) (fin_const 1) hr hrot (Eventually.of_forall fun _ => hrot)
      exact this.congr (Eventually.of_forall fun s => by rw [if_neg hrot])
    obtain ⟨eb, db⟩ := Tracks.eq_input tb
    obtain ⟨er, dr⟩ := Tracks.eq_input tr
    obtain ⟨L', S, hL', hll, hS, hder⟩ := solution_gradient_is_derivative he strict quad hdeg order _ _ db dr h3
    rw [eb, er, hL'] at hL
    obtain rfl := Except.ok.inj hL
    have hSl : ∀ s, (S s).length = L'.length := by
      intro s
      have := hS s
      rw [solutionVector_entry eps quad hdeg] at this
      rw [← Except.ok.inj this, hll, List.length_map, loopLM_eq]
      simp
    have hval := solutionVectorD_v eps strict quad deg order (LimbDark.input t fun s => √(fx s ^ 2 + fy s ^ 2)) (LimbDark.input t fr)
    rw [hL'] at hval
    have hval : .ok (L'.map (·.v)) = solutionVector eps quad deg order √(fx t ^ 2 + fy t ^ 2) (fr t) := hval
    rw [hS t] at hval
    have hval := Except.ok.inj hval
    have hTS : TrL (Tk t) S L' := by
      refine trL_of_getD hSl fun i hi => ?_
      obtain ⟨d, hd, hg⟩ := hder i (by rw [← hll]; exact hi)
      refine ⟨?_, d, hd, hg⟩
      change (S t).getD i 0 = _
      rw [← hval, List.getD_eq_getElem?_getD, List.getD_eq_getElem?_getD, List.getElem?_map, List.getElem?_eq_getElem hi]
      rfl
    have hT := trL_where strict (¬ NotInFront x.v y.v z.v r.v) (trL_vecMat A2 hTS) (trL_const (R := Tk t) (rT deg)) hlen
    refine hT.congr hVl' (hev.mono fun s hs => ?_)
    rw [if_pos hrot]
    have := designVector_occ hs (hS s) hA
    rw [hV s] at this
    exact Except.ok.inj this

open LimbDark (none_add_left none_add_right none_mul_left none_mul_right none_div_left none_sum none_atan2)

/-! ## Derivatives that are not finite -/

theorem none_neg {a : Dual} (h : a.d = none) : (-a).d = none := by
  have : (-a).d = AD.lin (some (-1)) a.d := rfl
  rw [this, h]; rfl

theorem chebListD_one (deg : ℕ) (a b c : Dual) : (chebListD deg a b c).getD 1 (const 0) = b := by
  unfold chebListD
  have : ∀ n : ℕ, ∃ M, (List.range n).foldl (fun L i => let n := i + 2
      L ++ [const 2 * L.getD (n - 1) (const 0) * c - L.getD (n - 2) (const 0)]) [a, b] = a :: b :: M := by
    intro n
    induction n with
    | zero => exact ⟨[], rfl⟩
    | succ n ih =>
      obtain ⟨M, hM⟩ := ih
      rw [List.range_succ, List.foldl_append, hM]
      exact ⟨_, rfl⟩
  obtain ⟨M, hM⟩ := this (deg - 1)
  rw [hM]
  rfl

theorem mtListD_one {deg : ℕ} (hd : deg ≠ 0) (nt : List Dual) (sgn : ℝ) : (mtListD deg nt sgn).getD 1 (const 0) = const sgn * nt.getD 1 (const 0) := by
  obtain ⟨n, rfl⟩ := Nat.exists_eq_succ_of_ne_zero hd
  have h : List.range (n + 1 + 1) = 0 :: 1 :: (List.range n).map (fun k => k + 2) := by
    rw [List.range_succ_eq_map, List.range_succ_eq_map]
    simp [List.map_map, Function.comp_def]
  unfold mtListD
  rw [Nat.succ_eq_add_one, h, List.flatMap_cons, List.flatMap_cons]
  rfl

/-- a rotation by an angle whose derivative is not finite -/
theorem none_dotRz {deg : ℕ} (hd : deg ≠ 0) {a : Dual} (ha : a.d = none) (M : List Dual) :
    ∃ v, (dotRzD deg a M)[1]? = some v ∧ v.d = none := by
  unfold dotRzD
  simp only
  have hc : a.cos.d = none := by
    have : a.cos.d = AD.lin (some (-Real.sin a.v)) a.d := rfl
    rw [this, ha]; rfl
  have h1 : (mtListD deg (chebListD deg (const 1) a.cos a.cos) 1).getD 1 (const 0) = const 1 * a.cos := by
    rw [mtListD_one hd, chebListD_one]
  set C := mtListD deg (chebListD deg (const 1) a.cos a.cos) 1
  set S := mtListD deg (chebListD deg (const 0) a.sin a.cos) (-1)
  have key : ∀ (l : List (ℕ × ℕ)) (G : List Dual), 1 < G.length → ((∃ e ∈ l, e.1 * e.1 + e.2 = 1) ∨ ∃ v, G[1]? = some v ∧ v.d = none) →
      ∃ v, (l.foldl (fun result e => result.set (e.1 * e.1 + e.2) (M.getD (e.1 * e.1 + e.2) (const 0) * C.getD (e.1 * e.1 + e.2) (const 0) +
        M.getD (e.1 * e.1 + 2 * e.1 - e.2) (const 0) * S.getD (e.1 * e.1 + e.2) (const 0))) G)[1]? = some v ∧ v.d = none := by
    intro l
    induction l with
    | nil =>
      intro G _ h
      rcases h with ⟨e, he, -⟩ | h
      · simp at he
      · exact h
    | cons e l ih =>
      intro G hG h
      rw [List.foldl_cons]
      refine ih _ (by simpa using hG) ?_
      by_cases h1' : e.1 * e.1 + e.2 = 1
      · right
        rw [h1', List.getElem?_set_self hG]
        refine ⟨_, rfl, none_add_left (none_mul_right ?_)⟩
        rw [h1]
        exact none_mul_right hc
      · rcases h with ⟨e', he', h'⟩ | ⟨v, hv, hn⟩
        · rcases List.mem_cons.1 he' with rfl | he'
          · exact absurd h' h1'
          · exact Or.inl ⟨e', he', h'⟩
        · right
          refine ⟨v, ?_, hn⟩
          rw [List.getElem?_set_ne h1']
          exact hv
  refine key _ _ (by rw [List.length_replicate]; have : 0 < deg := Nat.pos_of_ne_zero hd; omega) (Or.inl ⟨(1, 0), ?_, rfl⟩)
  unfold loopLJ
  rw [List.mem_flatMap]
  exact ⟨1, List.mem_range.2 (by omega), by simp⟩

theorem none_matVec {N : ℕ} {cols : List (List ℝ)} (hc : 1 < cols.length) {L : List Dual} {v : Dual} (hv : L[1]? = some v) (hn : v.d = none) :
    ∀ a ∈ matVecD N cols L, a.d = none := by
  intro a ha
  obtain ⟨r, -, rfl⟩ := List.mem_map.1 ha
  obtain ⟨h1, rfl⟩ := List.getElem?_eq_some_iff.1 hv
  refine none_sum (a := const ((cols[1]).getD r 0) * L[1]) (List.mem_map.2 ⟨(cols[1], L[1]), ?_, rfl⟩) (none_mul_right hn)
  have : (cols.zip L)[1]? = some (cols[1], L[1]) := by
    rw [List.getElem?_eq_getElem (by simp [hc, h1])]
    simp
  exact List.mem_of_getElem? this

theorem none_accum {κ : Type} [DecidableEq κ] (k : κ) {v : Dual} (hv : v.d = none) {d : DictD κ} (hd : ∀ e ∈ d, e.2.d = none) :
    (∀ e ∈ DictD.accum d k v, e.2.d = none) ∧ DictD.accum d k v ≠ [] := by
  induction d with
  | nil =>
    refine ⟨?_, by simp [DictD.accum]⟩
    intro e he
    simp only [DictD.accum, List.mem_singleton] at he
    rw [he]
    exact none_add_right hv
  | cons e' d ih =>
    obtain ⟨k', v'⟩ := e'
    unfold DictD.accum
    split_ifs
    · refine ⟨?_, by simp⟩
      intro e he
      rcases List.mem_cons.1 he with rfl | he
      · exact none_add_right hv
      · exact hd e (by simp [he])
    · refine ⟨?_, by simp⟩
      intro e he
      rcases List.mem_cons.1 he with rfl | he
      · exact hd (k', v') (by simp)
      · exact (ih fun e he => hd e (by simp [he])).1 e he

theorem none_mulTerm {d : DictD Ijk} (hd : ∀ e ∈ d, e.2.d = none) (e1 e2 : Ijk × Dual) (h : e1.2.d = none) :
    (∀ e ∈ mulTermD d e1 e2, e.2.d = none) ∧ mulTermD d e1 e2 ≠ [] := by
  have hm : (e1.2 * e2.2).d = none := none_mul_left h
  have hm' : (-(e1.2 * e2.2)).d = none := by
    exact none_neg hm
  unfold mulTermD
  simp only
  split_ifs
  · exact none_accum _ hm' (none_accum _ hm' (none_accum _ hm hd).1).1
  · exact none_accum _ hm hd

theorem none_mulFold {P Q : List (Ijk × Dual)} (hP : ∀ e ∈ P, e.2.d = none) {d : DictD Ijk} (hd : ∀ e ∈ d, e.2.d = none) :
    ∀ e ∈ P.foldl (fun d e1 => Q.foldl (fun d e2 => mulTermD d e1 e2) d) d, e.2.d = none := by
  induction P generalizing d with
  | nil => exact hd
  | cons p P ih =>
    rw [List.foldl_cons]
    refine ih (fun e he => hP e (by simp [he])) ?_
    have hp := hP p (by simp)
    clear ih
    induction Q generalizing d with
    | nil => exact hd
    | cons q Q ih => exact ih (none_mulTerm hd p q hp).1

/-- the scalar product of a polynomial none of whose coefficients has a finite derivative -/
theorem none_dot {data : DictD Ijk} (hd : ∀ e ∈ data, e.2.d = none) {p : PijkD} (hp : PijkD.make data none = .ok p) {v : List Dual} {a : Dual} (ha : p.dot v = .ok a) :
    a.d = none := by
  unfold PijkD.make at hp
  by_cases h1 : (data.any fun e => e.1.2.2 > 1) = true
  · rw [if_pos h1] at hp; cases hp
  · rw [if_neg h1] at hp
    simp only at hp
    by_cases h2 : data.isEmpty = true
    · rw [if_pos h2] at hp; cases hp
    · rw [if_neg h2] at hp
      obtain rfl := Except.ok.inj hp
      cases data with
      | nil => simp at h2
      | cons e data =>
        have hk : e.1.2.2 ≤ 1 := by
          by_contra hk
          exact h1 (by simp; left; omega)
        unfold PijkD.dot at ha
        split_ifs at ha with hl
        obtain rfl := Except.ok.inj ha
        simp only at hl
        set deg := ((e :: data).map fun e => (ijk2lm e.1).1.toNat).foldr Max.max 0 with hdeg
        have hle : e.1.1 + e.1.2.1 + e.1.2.2 ≤ deg := by
          have h3 := ijk2lm_eq e.1.1 e.1.2.1 e.1.2.2 hk
          rw [show ((e.1.1, e.1.2.1, e.1.2.2) : Ijk) = e.1 from rfl] at h3
          rw [hdeg, List.map_cons, List.foldr_cons, h3]
          refine le_trans ?_ (le_max_left _ _)
          simp only
          omega
        have hidx : pIndex e.1 = (((e.1.1 + e.1.2.1 + e.1.2.2) ^ 2 + (2 * e.1.2.1 + e.1.2.2) : ℕ) : ℤ) := pIndex_eq e.1.1 e.1.2.1 e.1.2.2 hk
        set n := (e.1.1 + e.1.2.1 + e.1.2.2) ^ 2 + (2 * e.1.2.1 + e.1.2.2)
        have hn : n < (deg + 1) ^ 2 := by
          have h3 : (e.1.1 + e.1.2.1 + e.1.2.2 + 1) ^ 2 ≤ (deg + 1) ^ 2 := Nat.pow_le_pow_left (by omega) 2
          have h4 : (e.1.1 + e.1.2.1 + e.1.2.2 + 1) ^ 2 = (e.1.1 + e.1.2.1 + e.1.2.2) ^ 2 + 2 * (e.1.1 + e.1.2.1 + e.1.2.2) + 1 := by ring
          omega
        have hden : ∃ w, (PijkD.todense ⟨e :: data, deg⟩)[n]? = some w ∧ w.d = none := by
          unfold PijkD.todense bcooDenseD
          rw [List.getElem?_map, List.getElem?_range hn]
          refine ⟨_, rfl, none_sum (a := e.2) ?_ (hd e (by simp))⟩
          refine List.mem_map.2 ⟨(pIndex e.1, e.2), ?_, rfl⟩
          rw [List.mem_filter]
          exact ⟨List.mem_map.2 ⟨e, by simp, rfl⟩, by simp [hidx]⟩
        obtain ⟨w, hw, hwn⟩ := hden
        obtain ⟨hw1, rfl⟩ := List.getElem?_eq_some_iff.1 hw
        have hz : n < (List.zipWith (· * ·) v (PijkD.todense ⟨e :: data, deg⟩)).length := by
          rw [List.length_zipWith]
          exact lt_min (by rw [hl]; exact hn) hw1
        refine none_sum (List.getElem_mem hz) ?_
        rw [List.getElem_zipWith]
        exact none_mul_right hwn

theorem none_projectFlux (asEuler : V3 → V3) {s : SurfaceD} (h0 : ylmDeg s.y ≠ 0) (theta : Option Dual) {tz : Dual} (htz : tz.d = none) (L : List Dual) {a : Dual}
    (h : projectFluxD asEuler s theta tz L = .ok a) : a.d = none := by
  have hneg : (-tz).d = none := by
    exact none_neg htz
  have hA : 1 < (A1 (ylmDeg s.y)).length := by
    rw [A1_length]
    have : 0 < ylmDeg s.y := Nat.pos_of_ne_zero h0
    nlinarith
  unfold projectFluxD fluxFromD at h
  simp only [Bind.bind, Except.bind] at h
  split at h
  · cases h
  rename_i Y hY
  split at h
  · cases h
  rename_i pu hu
  split at h
  · cases h
  rename_i py hy
  split at h
  · cases h
  rename_i pyu hyu
  split at h
  · cases h
  rename_i fu hfu
  split at h
  · cases h
  rename_i fl hfl
  obtain rfl := Except.ok.inj h
  refine none_mul_left (none_mul_right ?_)
  have hYn : ∃ v, Y[1]? = some v ∧ v.d = none := by
    unfold rotatedYD leftProjectD at hY
    rw [if_neg h0] at hY
    simp only [Bind.bind, Except.bind] at hY
    split at hY
    · cases hY
    split at hY
    · cases hY
    obtain rfl := Except.ok.inj hY
    exact none_dotRz h0 hneg _
  obtain ⟨v, hv, hvn⟩ := hYn
  have hmat := none_matVec (N := (ylmDeg s.y + 1) ^ 2) hA hv hvn
  have hpy : ∀ e ∈ py.data, e.2.d = none := by
    unfold PijkD.fromDense PijkD.make at hy
    split at hy
    · cases hy
    obtain rfl := Except.ok.inj hy
    intro e he
    obtain ⟨i, hi, rfl⟩ := List.mem_mapIdx.1 he
    exact hmat _ (List.getElem_mem _)
  unfold PijkD.mul at hyu
  exact none_dot (none_mulFold hpy (by simp)) hyu hfl

/-! ## Values -/

theorem whereVec_v (st : Bool) (c : Prop) [Decidable c] {L M : List Dual} (hl : L.length = M.length) :
    (whereVec st c L M).map (·.v) = if c then L.map (·.v) else M.map (·.v) := by
  unfold whereVec
  induction L generalizing M with
  | nil =>
    cases M with
    | nil => simp
    | cons => simp at hl
  | cons a L ih =>
    cases M with
    | nil => simp at hl
    | cons b M =>
      have := ih (M := M) (by simpa using hl)
      rw [List.zipWith_cons_cons, List.map_cons, this, where_v]
      split_ifs <;> rfl

theorem vecMatD_v {N : ℕ} (L : List Dual) (M : Matrix (_root_.Fin N) (_root_.Fin N) ℝ) : (vecMatD L M).map (·.v) = vecMat (L.map (·.v)) M := by
  have h : ∀ L : List Dual, TrL (Val 0) (fun _ => L.map (·.v)) L := by
    intro L
    induction L with
    | nil => exact .nil
    | cons a L ih => exact .cons (rfl : Val 0 (fun _ => a.v) a) ih
  have hv : ∀ {F : ℝ → List ℝ} {L : List Dual}, TrL (Val 0) F L → F 0 = L.map (·.v) := by
    intro F L h
    induction h with
    | nil => rfl
    | cons h _ ih => rw [List.map_cons, ← ih, ← (show _ = _ from h)]
  exact (hv (trL_vecMat M (h L))).symm

theorem designVectorD_v (eps : ℝ) (strict : Bool) (quad : ℕ → List (ℝ × ℝ)) (order : ℕ) {deg : ℕ} (hdeg : deg ≠ 0) (r x y z : Dual) :
    ∃ L, designVectorD eps strict quad order deg r x y z = .ok L ∧ designVector eps quad order deg r.v x.v y.v z.v = .ok (L.map (·.v)) ∧ L.length = (deg + 1) ^ 2 := by
  classical
  obtain ⟨A2, hA, -⟩ := A2_spec deg
  have hv := solutionVectorD_v eps strict quad deg order (Dual.where strict (NotInFront x.v y.v z.v r.v) (const 1) (impactD x y))
        (Dual.where strict (NotInFront x.v y.v z.v r.v) (const 1) r)
  obtain ⟨S, hS⟩ := solutionVector_ok eps quad order hdeg (Dual.where strict (NotInFront x.v y.v z.v r.v) (const 1) (impactD x y)).v
        (Dual.where strict (NotInFront x.v y.v z.v r.v) (const 1) r).v
  rw [hS] at hv
  cases hL : solutionVectorD eps strict quad deg order (Dual.where strict (NotInFront x.v y.v z.v r.v) (const 1) (impactD x y))
        (Dual.where strict (NotInFront x.v y.v z.v r.v) (const 1) r) with
  | error e => rw [hL] at hv; cases hv
  | ok L =>
    rw [hL] at hv
    have hv : L.map (·.v) = S := Except.ok.inj hv
    have hlen : (vecMatD L A2).length = ((rT deg).map const).length := by
      rw [vecMatD_length, List.length_map, (rT_spec deg).1]
    refine ⟨whereVec strict (¬ NotInFront x.v y.v z.v r.v) (vecMatD L A2) ((rT deg).map const), ?_, ?_, ?_⟩
    · unfold designVectorD
      simp only
      change (solutionVectorD eps strict quad deg order (Dual.where strict (NotInFront x.v y.v z.v r.v) (const 1) (impactD x y))
        (Dual.where strict (NotInFront x.v y.v z.v r.v) (const 1) r) >>= _) = _
      rw [hL]
      simp only [hA, Bind.bind, Except.bind]
      rfl
    · rw [whereVec_v strict _ hlen, vecMatD_v, hv]
      rw [where_v, where_v] at hS
      by_cases hrot : NotInFront x.v y.v z.v r.v
      · rw [if_neg (not_not.2 hrot), List.map_map, show ((fun d : Dual => d.v) ∘ const) = id from rfl, List.map_id]
        exact designVector_rot eps quad order hdeg r.v x.v y.v z.v hrot
      · rw [if_pos hrot]
        rw [if_neg hrot, if_neg hrot] at hS
        exact designVector_occ hrot hS hA
    · simp [whereVec, vecMatD_length, (rT_spec deg).1]

end Jaxoplanet.Starry
