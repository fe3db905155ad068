import Verif.Model.Basis

/-!
# Model of the caches of `src/jaxoplanet/starry/multiprecision`

The tables hold the results of `_A1`, `_A2`, `R` and `sT`; these four functions are parameters (`Kernels`), with
the working precision `mp.dps` as their first argument, because the tables do not depend on what they compute.
Keys are numbers or tuples of numbers; they are lists of reals here (`obl` is `[obl]`, `(inc, obl)` is
`[inc, obl]`), compared by value like Python's numbers. `NaN` keys are outside the model.
-/

namespace Jaxoplanet.Starry.Mp

/-- the functions whose results are cached: `_A1` (`starry/multiprecision/basis.py:145-158`), `_A2`
(`basis.py:218-264`), `R` (`starry/multiprecision/rotation.py:43-171`) and `sT`
(`starry/multiprecision/solution.py:188-191`), at the precision `mp.dps` -/
structure Kernels (V : Type) where
  A1 : ℕ → ℕ → V
  A2 : ℕ → ℕ → V
  R : ℕ → ℕ → ℝ × ℝ × ℝ → ℝ → V
  sT : ℕ → ℕ → ℝ → ℝ → V

/-- a value of `cache[l_max]`: a matrix, or an inner dictionary; `starry/multiprecision/flux.py:14-20` -/
inductive Entry (V : Type) where
  | mat (v : V)
  | sub (tbl : List (List ℝ × V))

/-- what a call gives back: a value, an inner dictionary, `None`, or an error -/
inductive Out (V : Type) where
  | mat (v : V)
  | sub (tbl : List (List ℝ × V))
  | none
  | keyError
  | typeError

/-- `cache[l_max]`, a dictionary from names to entries; `starry/multiprecision/flux.py:14-20` -/
abbrev Row (V : Type) := List (String × Entry V)

/-- a `defaultdict(lambda: {...})`: the names of the inner dictionaries of a new row, and the rows;
`starry/multiprecision/basis.py:16`, `rotation.py:6-11`, `solution.py:5-9`, `flux.py:14-20` -/
structure Cache (V : Type) where
  dflt : List String
  rows : List (ℕ × Row V)

/-- `basis.CACHED_MATRICES`, `starry/multiprecision/basis.py:16` -/
def basisCache (V : Type) : Cache V := ⟨[], []⟩

/-- `rotation.CACHED_MATRICES`, `starry/multiprecision/rotation.py:6-11` -/
def rotationCache (V : Type) : Cache V := ⟨["R_obl", "R_inc"], []⟩

/-- `solution.CACHED_MATRICES`, `starry/multiprecision/solution.py:5-9` -/
def solutionCache (V : Type) : Cache V := ⟨["sT"], []⟩

/-- `flux.CACHED_MATRICES`, `starry/multiprecision/flux.py:14-20` -/
def fluxCache (V : Type) : Cache V := ⟨["R_obl", "R_inc", "sT"], []⟩

/-- assignment `d[k] = v` of a dictionary; `starry/multiprecision/basis.py:26`, `rotation.py:21, 27, 35, 38`,
`solution.py:19` -/
def setKey {κ β : Type} [DecidableEq κ] : List (κ × β) → κ → β → List (κ × β)
  | [], k, v => [(k, v)]
  | (k', v') :: d, k, v => if k' = k then (k, v) :: d else (k', v') :: setKey d k v

/-- `cache[l_max]` of a `defaultdict`: the row, created when it is missing; e.g. `starry/multiprecision/basis.py:24` -/
def Cache.row {V : Type} (c : Cache V) (l : ℕ) : Row V :=
  (c.rows.lookup l).getD (c.dflt.map fun n => (n, Entry.sub []))

/-- the cache after an assignment to `cache[l_max]`; reading `cache[l_max]` also stores the new row;
e.g. `starry/multiprecision/basis.py:24-26` -/
def Cache.setRow {V : Type} (c : Cache V) (l : ℕ) (r : Row V) : Cache V := ⟨c.dflt, setKey c.rows l r⟩

/-- the value of an entry as a result; `return cache[l_max][name]`, `starry/multiprecision/basis.py:27` -/
def Entry.out {V : Type} : Entry V → Out V
  | .mat v => .mat v
  | .sub t => .sub t

/-- `return cache[l_max][name]`: a missing name is a `KeyError`; `starry/multiprecision/rotation.py:40` -/
def Row.read {V : Type} (r : Row V) (name : String) : Out V :=
  match r.lookup name with
  | none => .keyError
  | some e => e.out

/-- `get_A(A, l_max, cache)`, `starry/multiprecision/basis.py:19-27`; `name` is `A.__name__` without underscores
and `v` the value of `A(l_max)` -/
def getA {V : Type} (name : String) (l : ℕ) (v : V) (c : Cache V) : Out V × Cache V :=
  let r := c.row l
  let r := match r.lookup name with
    | none => setKey r name (.mat v)
    | some _ => r
  (r.read name, c.setRow l r)

open Classical in
/-- `if key not in cache[l_max][name]: cache[l_max][name][key] = v` and `return cache[l_max][name][key]`,
`starry/multiprecision/rotation.py:19-22, 24-29`, `solution.py:18-20`. A missing inner dictionary is a
`KeyError`; an entry that is no dictionary is a `TypeError`. -/
noncomputable def getSub {V : Type} (name : String) (l : ℕ) (key : List ℝ) (v : V) (c : Cache V) : Out V × Cache V :=
  let r := c.row l
  match r.lookup name with
  | none => (.keyError, c.setRow l r)
  | some (.mat _) => (.typeError, c.setRow l r)
  | some (.sub t) =>
    let t := match t.lookup key with
      | none => setKey t key v
      | some _ => t
    (match t.lookup key with
      | none => .keyError
      | some v => .mat v, c.setRow l (setKey r name (.sub t)))

/-- the `else` branch of `get_R`, `starry/multiprecision/rotation.py:31-40` -/
noncomputable def getRFixed {V : Type} (K : Kernels V) (dps : ℕ) (name : String) (l : ℕ) (c : Cache V) :
    Out V × Cache V :=
  let r := c.row l
  let r := match r.lookup name with
    | some _ => r
    | none =>
      if name = "R_px" then setKey r name (.mat (K.R dps l (1, 0, 0) (-0.5 * Real.pi)))
      else if name = "R_mx" then setKey r name (.mat (K.R dps l (1, 0, 0) (0.5 * Real.pi)))
      else r
  (r.read name, c.setRow l r)

/-- `get_R(name, l_max, obl, inc, cache)`, `starry/multiprecision/rotation.py:14-40` -/
noncomputable def getR {V : Type} (K : Kernels V) (dps : ℕ) (name : String) (l : ℕ) (obl inc : Option ℝ)
    (c : Cache V) : Out V × Cache V :=
  match obl, inc with
  | some obl, some inc =>
    if name = "R_obl" then getSub name l [obl] (K.R dps l (0, 0, 1) (-obl)) c
    else if name = "R_inc" then
      getSub name l [inc, obl] (K.R dps l (-Real.cos obl, -Real.sin obl, 0) (0.5 * Real.pi - inc)) c
    else (.none, c)
  | _, _ => getRFixed K dps name l c

/-- `get_sT(l_max, b, r, cache)`, `starry/multiprecision/solution.py:12-20` -/
noncomputable def getST {V : Type} (K : Kernels V) (dps : ℕ) (l : ℕ) (b r : ℝ) (c : Cache V) : Out V × Cache V :=
  getSub "sT" l [b, r] (K.sT dps l b r) c

/-- the cached functions of the package, as operations on one cache: `A1(l_max)` and `A2(l_max)`
(`starry/multiprecision/basis.py:161-164, 267-270`), `get_R` and `get_sT` -/
inductive Op where
  | A1 (l : ℕ)
  | A2 (l : ℕ)
  | R (name : String) (l : ℕ) (obl inc : Option ℝ)
  | sT (l : ℕ) (b r : ℝ)

/-- one call; `starry/multiprecision/basis.py:19-27, 161-164, 267-270`, `rotation.py:14-40`, `solution.py:12-20` -/
noncomputable def step {V : Type} (K : Kernels V) (dps : ℕ) (c : Cache V) : Op → Out V × Cache V
  | .A1 l => getA "A1" l (K.A1 dps l) c
  | .A2 l => getA "A2" l (K.A2 dps l) c
  | .R name l obl inc => getR K dps name l obl inc c
  | .sT l b r => getST K dps l b r c

/-- a history of calls on one cache, each at its own precision `mp.dps`
(`starry/multiprecision/__init__.py:3` sets it to 30; it is a global variable): the results in order -/
noncomputable def run {V : Type} (K : Kernels V) : Cache V → List (ℕ × Op) → List (Out V)
  | _, [] => []
  | c, e :: h => (step K e.1 c e.2).1 :: run K (step K e.1 c e.2).2 h

/-- the calls made by `flux(ydeg, udeg, inc, obl, cache)` when it is built,
`starry/multiprecision/flux.py:30-39` -/
noncomputable def fluxOps (ydeg udeg : ℕ) (inc obl : ℝ) : List Op :=
  .A2 (ydeg + udeg) :: if 0 < ydeg then
    [.A1 ydeg, .R "R_px" ydeg none none, .R "R_mx" ydeg none none, .R "R_obl" ydeg (some obl) (some inc),
     .R "R_inc" ydeg (some obl) (some inc)]
  else [.A1 0]

/-- the call made by `occ_flux` for every occultation, `starry/multiprecision/flux.py:61` -/
def occOp (ydeg udeg : ℕ) (b r : ℝ) : Op := .sT (ydeg + udeg) b r

end Jaxoplanet.Starry.Mp
