import Verif.Model.Keplerian

/-!
# Model of `src/jaxoplanet/starry/ylm.py`, `starry/core/polynomials.py` and of `Surface.__init__`

Python dictionaries are association lists in insertion order; keys are distinct (`Dict.WF`).
Coefficients are scalars.
-/

namespace Jaxoplanet.Starry

/-- a Python dictionary with real values; Python dictionaries of `starry/ylm.py:65, 83, 113` and `starry/core/polynomials.py:42-49, 140-164` -/
abbrev Dict (κ : Type) := List (κ × ℝ)

/-- a Python dictionary has every key once; Python dictionaries of `starry/ylm.py:65, 83, 113` and `starry/core/polynomials.py:42-49, 140-164` -/
def Dict.WF {κ : Type} (d : Dict κ) : Prop := (d.map Prod.fst).Nodup

/-- `d.get(k)`; Python dictionaries of `starry/ylm.py:65, 83, 113` and `starry/core/polynomials.py:42-49, 140-164` -/
def Dict.get1 {κ : Type} [DecidableEq κ] (d : Dict κ) (k : κ) : Option ℝ := d.lookup k

/-- `d.get(k, 0.0)`; Python dictionaries of `starry/ylm.py:65, 83, 113` and `starry/core/polynomials.py:42-49, 140-164` -/
def Dict.getD0 {κ : Type} [DecidableEq κ] (d : Dict κ) (k : κ) : ℝ := (Dict.get1 d k).getD 0

/-- `d[k] += v` for a `defaultdict(float)`; Python dictionaries of `starry/ylm.py:65, 83, 113` and `starry/core/polynomials.py:42-49, 140-164` -/
noncomputable def Dict.accum {κ : Type} [DecidableEq κ] : Dict κ → κ → ℝ → Dict κ
  | [], k, v => [(k, 0 + v)]
  | (k', v') :: d, k, v => if k' = k then (k', v' + v) :: d else (k', v') :: Dict.accum d k v

/-- `BCOO((values, indices), shape=(n,)).todense()`: duplicates add up, indices outside are dropped
(trusted JAX behaviour; used at `starry/ylm.py:116-129`, `starry/core/polynomials.py:103-109`). -/
noncomputable def bcooDense (entries : List (ℤ × ℝ)) (n : ℕ) : List ℝ :=
  (List.range n).map fun i : ℕ => ((entries.filter fun e => e.1 = (i : ℤ)).map Prod.snd).sum

/-! ## `Ylm` -/

/-- `Ylm`, `starry/ylm.py:57-85`; `deg` and `diagonal` are computed from the data. -/
structure Ylm where
  data : Dict (ℕ × ℤ)

/-- `deg`, `starry/ylm.py:84`: `max` over the keys (an empty dictionary raises; not modelled). -/
def Ylm.deg (y : Ylm) : ℕ := (y.data.map fun e => e.1.1).foldr max 0

/-- `diagonal`, `starry/ylm.py:85` -/
def Ylm.diagonal (y : Ylm) : Bool := y.data.all fun e => e.1.2 == 0

/-- the default data `{(0, 0): 1.0}`, `starry/ylm.py:80-81` -/
def Ylm.default : Ylm := ⟨[((0, 0), 1)]⟩

/-- `shape`, `starry/ylm.py:87-91` -/
def Ylm.shape (y : Ylm) : ℕ := y.deg ^ 2 + 2 * y.deg + 1

/-- `Ylm.index`, `starry/ylm.py:98-102` -/
def Ylm.index (l : ℕ) (m : ℤ) : ℤ := l * (l + 1) + m

/-- `Ylm.normalize`, `starry/ylm.py:104-114`; a missing (0, 0) entry is a `KeyError`. Division by a zero
coefficient gives NaN/inf in floating point and is left to the caller. -/
noncomputable def Ylm.normalize (y : Ylm) : Except PyErr Ylm :=
  match Dict.get1 y.data (0, 0) with
  | none => .error .keyError
  | some y00 => .ok ⟨y.data.map fun e => (e.1, e.2 / y00)⟩

/-- `Ylm.todense`, `starry/ylm.py:116-129` -/
noncomputable def Ylm.todense (y : Ylm) : List ℝ :=
  bcooDense (y.data.map fun e => (Ylm.index e.1.1 e.1.2, e.2)) y.shape

/-- `(l, m)` of the index `i`, `starry/ylm.py:139-140` (`np.floor(np.sqrt(i))` is exact for the array
sizes that fit in memory). -/
def lmOfIndex (i : ℕ) : ℕ × ℤ := (Nat.sqrt i, (i : ℤ) - Nat.sqrt i * (Nat.sqrt i + 1))

/-- `Ylm.from_dense(y, normalize)`, `starry/ylm.py:131-146` -/
noncomputable def Ylm.fromDense (y : List ℝ) (normalize : Bool := true) : Except PyErr Ylm :=
  let r : Ylm := ⟨y.mapIdx fun i v => (lmOfIndex i, v)⟩
  if normalize then r.normalize else .ok r

/-- `Ylm * scalar` and `scalar * Ylm`, `starry/ylm.py:148-156` -/
noncomputable def Ylm.smul (c : ℝ) (y : Ylm) : Ylm := ⟨y.data.map fun e => (e.1, e.2 * c)⟩

/-- `y[(l, m)]`, `starry/ylm.py:158-160`: `todense()[index]`. JAX: a negative index counts from the end,
an index beyond the end is clamped to the last entry. -/
noncomputable def Ylm.getitem (y : Ylm) (l : ℕ) (m : ℤ) : ℝ :=
  let d := y.todense
  let i := Ylm.index l m
  let i := if i < 0 then i + d.length else i
  d.getD (min i.toNat (d.length - 1)) 0

/-! ## `Pijk` -/

/-- exponents of `x`, `y`, `z`; keys of `starry/core/polynomials.py:36-42` -/
abbrev Ijk := ℕ × ℕ × ℕ

/-- `Pijk`, `starry/core/polynomials.py:14-49`; `degree` may be given explicitly. -/
structure Pijk where
  data : Dict Ijk
  degree : ℕ

/-- `ijk2lm`, `starry/core/polynomials.py:59-73` (for `k` in `(0, 1)`) -/
def ijk2lm (ijk : Ijk) : ℤ × ℤ :=
  let (i, j, k) := ijk
  let (nu, mu) : ℤ × ℤ := if k = 0 then (2 * j, 2 * i) else (2 * j + 1, 2 * i + 1)
  -- `(l, m)`; `int(x / 2)` truncates
  ((nu + mu).tdiv 2, (nu - mu).tdiv 2)

/-- `n2lm`, `starry/core/polynomials.py:75-79` -/
def n2lm (n : ℕ) : ℕ × ℤ := (Nat.sqrt n, (n : ℤ) - (Nat.sqrt n) ^ 2 - Nat.sqrt n)

/-- `lm2n`, `starry/core/polynomials.py:81-83` -/
def lm2n (l : ℕ) (m : ℤ) : ℤ := (l : ℤ) ^ 2 + l + m

/-- `lm2ijk`, `starry/core/polynomials.py:85-93` -/
def lm2ijk (l : ℕ) (m : ℤ) : ℤ × ℤ × ℤ :=
  let mu := (l : ℤ) - m
  let nu := (l : ℤ) + m
  if nu % 2 = 0 then (mu / 2, nu / 2, 0) else ((mu - 1) / 2, (nu - 1) / 2, 1)

/-- `n2ijk`, `starry/core/polynomials.py:95-97` -/
def n2ijk (n : ℕ) : Ijk :=
  let t := lm2ijk (n2lm n).1 (n2lm n).2
  (t.1.toNat, t.2.1.toNat, t.2.2.toNat)

/-- `index`, `starry/core/polynomials.py:99-101` -/
def pIndex (ijk : Ijk) : ℤ := ((ijk2lm ijk).1 + 1) * (ijk2lm ijk).1 + (ijk2lm ijk).2

/-- `Pijk(data, degree)`, `starry/core/polynomials.py:42-49`; `assert k in (0, 1)` in `ijk2lm`; `max` of an
empty dictionary raises a `ValueError`. -/
def Pijk.make (data : Dict Ijk) (degree : Option ℕ) : Except PyErr Pijk :=
  if data.any fun e => e.1.2.2 > 1 then .error .assertionError
  else match degree with
    | some d => .ok ⟨data, d⟩
    | none =>
      if data.isEmpty then .error (.valueError "max() arg is an empty sequence")
      else .ok ⟨data, (data.map fun e => (ijk2lm e.1).1.toNat).foldr max 0⟩

/-- `shape`, `starry/core/polynomials.py:51-53` -/
def Pijk.shape (p : Pijk) : ℕ := (p.degree + 1) ^ 2

/-- `todense`, `starry/core/polynomials.py:103-109` -/
noncomputable def Pijk.todense (p : Pijk) : List ℝ :=
  bcooDense (p.data.map fun e => (pIndex e.1, e.2)) p.shape

/-- `from_dense(x, degree)`, `starry/core/polynomials.py:111-117`: `data[n2ijk(i)] = x[i]`. (The keys are
distinct, `Pijk.fromDense_wf`.) -/
def Pijk.fromDense (x : List ℝ) (degree : Option ℕ) : Except PyErr Pijk :=
  Pijk.make (x.mapIdx fun i v => (n2ijk i, v)) degree

/-- `_add`, `starry/core/polynomials.py:140-149` -/
noncomputable def Pijk.add (u v : Pijk) : Except PyErr Pijk :=
  let upv : Dict Ijk := u.data.foldl (fun d e => Dict.accum d e.1 (e.2 + Dict.getD0 v.data e.1)) []
  let upv := v.data.foldl (fun d e =>
    if e.1 ∈ d.map Prod.fst then d else Dict.accum d e.1 (e.2 + Dict.getD0 u.data e.1)) upv
  Pijk.make upv none

/-- one pair of terms of `_mul`, `starry/core/polynomials.py:155-163` -/
noncomputable def mulTerm (d : Dict Ijk) (e1 e2 : Ijk × ℝ) : Dict Ijk :=
  let (i1, j1, k1) := e1.1
  let (i2, j2, k2) := e2.1
  let v1v2 := e1.2 * e2.2
  if k1 + k2 = 2 then
    Dict.accum (Dict.accum (Dict.accum d (i1 + i2, j1 + j2, 0) v1v2) (i1 + i2 + 2, j1 + j2, 0) (-v1v2))
      (i1 + i2, j1 + j2 + 2, 0) (-v1v2)
  else Dict.accum d (i1 + i2, j1 + j2, k1 + k2) v1v2

/-- `_mul`, `starry/core/polynomials.py:152-164` -/
noncomputable def Pijk.mul (u v : Pijk) : Except PyErr Pijk :=
  Pijk.make (u.data.foldl (fun d e1 => v.data.foldl (fun d e2 => mulTerm d e1 e2) d) []) none

/-- `Pijk + scalar`, `starry/core/polynomials.py:119-123`: every stored coefficient is shifted. -/
noncomputable def Pijk.addScalar (u : Pijk) (c : ℝ) : Pijk := ⟨u.data.map fun e => (e.1, e.2 + c), u.degree⟩

/-- `Pijk * scalar`, `starry/core/polynomials.py:125-133` -/
noncomputable def Pijk.mulScalar (u : Pijk) (c : ℝ) : Pijk := ⟨u.data.map fun e => (e.1, e.2 * c), u.degree⟩

/-! ## `Surface` -/

/-- Fields of `Surface`, `starry/surface.py:57-87` -/
structure Surface where
  y : Ylm
  inc : Option ℝ
  obl : Option ℝ
  u : List ℝ
  period : Option ℝ
  amplitude : ℝ
  phase : ℝ
  radius : ℝ

/-- Keyword arguments of `Surface`, with the defaults of `starry/surface.py:89-102`
(`normalize` is an argument of `Surface.init`; `shear` is not modelled, see F14). -/
structure SurfaceArgs where
  y : Option Ylm := none
  inc : Option ℝ := some (0.5 * Real.pi)
  obl : Option ℝ := none
  u : List ℝ := []
  period : Option ℝ := none
  amplitude : ℝ := 1
  phase : ℝ := 0
  radius : ℝ := 1

/-- `Surface.__init__`, `starry/surface.py:89-119` -/
noncomputable def Surface.init (a : SurfaceArgs) (normalize : Bool := true) : Except PyErr Surface := do
  let y := a.y.getD Ylm.default
  let (y, amplitude) ← if normalize then do
      let amplitude := y.getitem 0 0
      let y' ← y.normalize
      pure (y', amplitude)
    else pure (y, a.amplitude)
  return { y, inc := a.inc, obl := a.obl, u := a.u, period := a.period, amplitude, phase := a.phase,
           radius := a.radius }

/-- `inc`, `obl`, `starry/surface.py:121-123` -/
def Surface.incVal (s : Surface) : ℝ := s.inc.getD 0
/-- `obl`, `starry/surface.py:129-131` -/
def Surface.oblVal (s : Surface) : ℝ := s.obl.getD 0

/-- degrees, `starry/surface.py:153-155` -/
def Surface.ydeg (s : Surface) : ℕ := s.y.deg
/-- `udeg`, `starry/surface.py:148-151` -/
def Surface.udeg (s : Surface) : ℕ := s.u.length
/-- `deg`, `starry/surface.py:164-167` -/
def Surface.deg (s : Surface) : ℕ := s.ydeg + s.udeg

end Jaxoplanet.Starry
