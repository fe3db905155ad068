import Verif.Model.Keplerian

/-!
# Model of `src/jaxoplanet/units/`

A unit is a dimension together with its size in SI base units (pint's multiplicative units; offset units
such as °C are not modelled).  Values are JAX pytrees whose leaves are quantities or bare numbers.
`inspect.Signature.bind`, `jax.tree_util.tree_map` and `Quantity.to` are modelled by their documented
behaviour.
-/

namespace Jaxoplanet.Units

/-- exponents of length, mass and time (angles are dimensionless); units and quantities of `jpu`, as used by `units/decorator.py:179-202` -/
structure Dim where
  length : ℤ
  mass : ℤ
  time : ℤ
  deriving DecidableEq

/-- a multiplicative unit; units and quantities of `jpu`, as used by `units/decorator.py:179-202` -/
structure Unit where
  dim : Dim
  /-- size in SI base units -/
  size : ℝ

/-- a pint quantity: `_magnitude` and `_units`; units and quantities of `jpu`, as used by `units/decorator.py:179-202` -/
structure Quantity where
  magnitude : ℝ
  units : Unit

/-- a leaf of an argument: a quantity or a bare number; arguments of `jax.tree_util.tree_map`, `units/decorator.py:167-172` -/
inductive Leaf where
  | quantity (q : Quantity)
  | bare (x : ℝ)

/-- a JAX pytree; `node` carries the container type and its keys; arguments of `jax.tree_util.tree_map`, `units/decorator.py:167-172` -/
inductive Tree (α : Type) where
  | none
  | leaf (a : α)
  | node (label : String) (children : List (Tree α))

/-- exceptions; `units/decorator.py:144-148, 187-196` -/
inductive UErr where
  /-- `pint.DimensionalityError` -/
  | dimensionality
  /-- `ValueError`: bare number with `_strict` -/
  | strict
  /-- `ValueError` of `tree_map`: the trees do not match -/
  | structure
  /-- `TypeError` -/
  | type

/-- `Quantity.to(units)` of pint (trusted; used at `units/decorator.py:186`) -/
noncomputable def Quantity.to (q : Quantity) (u : Unit) : Except UErr Quantity :=
  if q.units.dim = u.dim then .ok ⟨q.magnitude * q.units.size / u.size, u⟩
  else .error .dimensionality

/-- `_apply_units(value, units, strict)` on a leaf, `units/decorator.py:179-198`; `units` is whatever
subtree the declaration has at that position. -/
noncomputable def applyUnits (strict : Bool) (value : Leaf) (units : Tree Unit) : Except UErr Leaf :=
  match units with
  | .none => .ok value
  | .leaf u =>
    match value with
    | .quantity q => (q.to u).map .quantity
    | .bare x => if strict then .error .strict else .ok (.quantity ⟨x, u⟩)
  -- `value.to` of a container of units
  | .node _ _ => match value with
    | .quantity _ => .error .type
    | .bare _ => if strict then .error .strict else .error .type

mutual
/-- `jax.tree_util.tree_map(f, value, units, is_leaf=_is_quantity)` (trusted meaning: the structure of
`value` must be a prefix of that of `units`; `None` is a container without children). arguments of `jax.tree_util.tree_map`, `units/decorator.py:167-172` -/
noncomputable def treeMap (strict : Bool) : Tree Leaf → Tree Unit → Except UErr (Tree Leaf)
  | .leaf v, u => (applyUnits strict v u).map .leaf
  | .none, .none => .ok .none
  | .none, _ => .error .structure
  | .node l cs, .node l' us =>
    if l = l' then (treeMapList strict cs us).map (.node l) else .error .structure
  | .node _ _, _ => .error .structure
/-- children, pairwise; arguments of `jax.tree_util.tree_map`, `units/decorator.py:167-172` -/
noncomputable def treeMapList (strict : Bool) :
    List (Tree Leaf) → List (Tree Unit) → Except UErr (List (Tree Leaf))
  | [], [] => .ok []
  | c :: cs, u :: us => do
    let c' ← treeMap strict c u
    let cs' ← treeMapList strict cs us
    return c' :: cs'
  | _, _ => .error .structure
end

/-- kinds of parameters of `inspect.Parameter`; trusted `inspect.signature`, `units/decorator.py:132-140` -/
inductive Kind where
  | positionalOnly
  | positionalOrKeyword
  | keywordOnly
  | varPositional
  | varKeyword
  deriving DecidableEq

/-- `inspect.Parameter`: `default` is `none` when there is no default; trusted `inspect.signature`, `units/decorator.py:132-140` -/
structure Param where
  name : String
  kind : Kind
  default : Option (Tree Leaf)

/-- can be passed by keyword; trusted `inspect.signature`, `units/decorator.py:132-140` -/
def Param.byName (p : Param) : Bool := p.kind = .positionalOrKeyword ∨ p.kind = .keywordOnly

/-- `signature.bind_partial(**decorator_kwargs)`, `units/decorator.py:133`: names of plain parameters are
bound; other names are collected by `**kwargs` if the function has it and otherwise refused. The result
is the association of parameter names to declared units; the flag says that `**kwargs` got something. -/
def bindPartial (sig : List Param) (decl : List (String × Tree Unit)) :
    Except UErr (List (String × Tree Unit) × Bool) :=
  let known := decl.filter fun d => sig.any fun p => p.byName && p.name == d.1
  let unknown := decl.filter fun d => !(sig.any fun p => p.byName && p.name == d.1)
  if unknown.isEmpty then .ok (known, false)
  else if sig.any fun p => p.kind = .varKeyword then .ok (known, true)
  else .error .type

/-- `input_unit_map`, `units/decorator.py:135-152`. -/
def inputUnitMap (sig : List Param) (decl : List (String × Tree Unit)) :
    Except UErr (List (String × Tree Unit)) := do
  let (known, collected) ← bindPartial sig decl
  if collected then .error .type
  else .ok known

/-- is the default of this parameter `None`?; `units/decorator.py:162` -/
def defaultIsNone (sig : List Param) (name : String) : Bool :=
  match sig.find? fun p => p.name == name with
  | some p => match p.default with
    | some .none => true
    | _ => false
  | none => false

/-- is the value `None`?; `units/decorator.py:162` -/
def Tree.isNone {α : Type} : Tree α → Bool
  | .none => true
  | _ => false

/-- The loop body, `units/decorator.py:159-172`. -/
noncomputable def convertArg (strict : Bool) (sig : List Param) (units : List (String × Tree Unit))
    (arg : String × Tree Leaf) : Except UErr (String × Tree Leaf) :=
  if arg.2.isNone && defaultIsNone sig arg.1 then .ok arg
  else
    match units.lookup arg.1 with
    | none => .ok arg
    -- a declared unit `None` means "not converted"
    | some .none => .ok arg
    | some u => (treeMap strict arg.2 u).map fun v => (arg.1, v)

/-- The decorated function, `units/decorator.py:131-176`, applied to arguments already bound to their
names and completed by defaults (`signature.bind`, `apply_defaults`: trusted). `decl` are the keyword
arguments of the decorator, `func` the function. -/
noncomputable def quantityInput {β : Type} (strict : Bool) (sig : List Param)
    (decl : List (String × Tree Unit)) (func : List (String × Tree Leaf) → β) :
    Except UErr (List (String × Tree Leaf) → Except UErr β) := do
  let units ← inputUnitMap sig decl
  return fun bound => do
    let args ← bound.mapM (convertArg strict sig units)
    return func args

/-- `field(units=, strict=, converter=)`, `units/field.py:10-34`: the converter of the field; `units` is
`none` when not given. -/
noncomputable def fieldConverter (strict : Bool) (units : Option (Tree Unit))
    (original : Tree Leaf → Tree Leaf) (value : Tree Leaf) : Except UErr (Tree Leaf) :=
  match units with
  | none => .ok (original value)
  | some u => if value.isNone then .ok .none else treeMap strict (original value) u

/-! ## The registry, `units/astro_constants_and_units.txt` -/

/-- metre; base units of the `jpu` registry, `units/registry.py:5` -/
def metre : Unit := ⟨⟨1, 0, 0⟩, 1⟩
/-- second; base units of the `jpu` registry, `units/registry.py:5` -/
def second : Unit := ⟨⟨0, 0, 1⟩, 1⟩
/-- day; base units of the `jpu` registry, `units/registry.py:5` -/
def day : Unit := ⟨⟨0, 0, 1⟩, 86400⟩
/-- `gravitational_constant`, l.5; `units/astro_constants_and_units.txt:5` -/
noncomputable def gravitationalConstant : Unit := ⟨⟨3, -1, -2⟩, 6.67430e-11⟩
/-- `AU`, l.4; `units/astro_constants_and_units.txt:4` -/
noncomputable def AU : Unit := ⟨⟨1, 0, 0⟩, 1.49597870700e11⟩
/-- `GM_sun`, l.11; `units/astro_constants_and_units.txt:11` -/
noncomputable def GM_sun : Unit := ⟨⟨3, 0, -2⟩, 1.3271244e20⟩
/-- division of units; unit arithmetic in `units/astro_constants_and_units.txt:4-21` -/
noncomputable def Unit.div (a b : Unit) : Unit :=
  ⟨⟨a.dim.length - b.dim.length, a.dim.mass - b.dim.mass, a.dim.time - b.dim.time⟩, a.size / b.size⟩
/-- multiplication of units; unit arithmetic in `units/astro_constants_and_units.txt:4-21` -/
noncomputable def Unit.mul (a b : Unit) : Unit :=
  ⟨⟨a.dim.length + b.dim.length, a.dim.mass + b.dim.mass, a.dim.time + b.dim.time⟩, a.size * b.size⟩
/-- `M_sun`, l.12; `units/astro_constants_and_units.txt:12` -/
noncomputable def M_sun : Unit := GM_sun.div gravitationalConstant
/-- `R_sun`, l.13; `units/astro_constants_and_units.txt:13` -/
noncomputable def R_sun : Unit := ⟨⟨1, 0, 0⟩, 6.957e8⟩
/-- `GM_jupiter`, l.16; `units/astro_constants_and_units.txt:16` -/
noncomputable def GM_jupiter : Unit := ⟨⟨3, 0, -2⟩, 1.2668653e17⟩
/-- `M_jupiter`, l.17; `units/astro_constants_and_units.txt:17` -/
noncomputable def M_jupiter : Unit := GM_jupiter.div gravitationalConstant
/-- `R_jupiter`, l.18; `units/astro_constants_and_units.txt:18` -/
noncomputable def R_jupiter : Unit := ⟨⟨1, 0, 0⟩, 7.1492e7⟩
/-- `GM_earth`, l.19; `units/astro_constants_and_units.txt:19` -/
noncomputable def GM_earth : Unit := ⟨⟨3, 0, -2⟩, 3.986004e14⟩
/-- `M_earth`, l.20; `units/astro_constants_and_units.txt:20` -/
noncomputable def M_earth : Unit := GM_earth.div gravitationalConstant

/-- `R_earth`, l.21; `units/astro_constants_and_units.txt:21` -/
noncomputable def R_earth : Unit := ⟨⟨1, 0, 0⟩, 6.3781e6⟩

/-- the number the code works with for `ureg.gravitational_constant` in `R_sun³ / (M_sun day²)`:
`orbits/keplerian.py:115, 289` -/
noncomputable def codeG : ℝ :=
  gravitationalConstant.size * M_sun.size * day.size ^ 2 / R_sun.size ^ 3

end Jaxoplanet.Units
