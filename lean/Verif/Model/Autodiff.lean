import Verif.Model.Kepler

/-!
# Model of JAX's automatic differentiation of a program

A `Dual` is a number of the program with its derivative along one direction of the inputs. The derivative is `none` if it is not a finite
number (`nan` or `±inf` in the program): derivatives are only combined linearly, so a derivative that is not finite stays not finite.

JAX computes derivatives in two modes. Forward (`jax.jvp`, `jax.jacfwd`): the derivative of `jnp.where` is that of the branch which is taken,
whatever the other one is. Reverse (`jax.grad`, `jax.jacrev`): the branch that is not taken gets the cotangent zero, and `0 * inf` is
`nan`, so the result is not finite if a local derivative in either branch is not finite. `strict = true` is the second (it may only
declare too many derivatives not finite, if the branch is cut by a further `jnp.where`).

The derivatives of the primitives are those of `jax/_src/lax/lax.py`.
-/

namespace Jaxoplanet.AD
open Real

/-- a value and its derivative (`none`: not finite) -/
@[ext] structure Dual where
  v : ℝ
  d : Option ℝ

/-- the product of a local derivative with the derivative of the argument -/
noncomputable def lin (c d : Option ℝ) : Option ℝ := Option.map₂ (· * ·) c d

/-- the sum of two derivatives -/
noncomputable def plus (a b : Option ℝ) : Option ℝ := Option.map₂ (· + ·) a b

namespace Dual

/-- a constant of the program -/
def const (c : ℝ) : Dual := ⟨c, some 0⟩

/-- `x + y` (`add_p`) -/
noncomputable instance : Add Dual := ⟨fun a b => ⟨a.v + b.v, plus a.d b.d⟩⟩

/-- `x - y` (`sub_p`) -/
noncomputable instance : Sub Dual := ⟨fun a b => ⟨a.v - b.v, plus a.d (lin (some (-1)) b.d)⟩⟩

/-- `-x` (`neg_p`) -/
noncomputable instance : Neg Dual := ⟨fun a => ⟨-a.v, lin (some (-1)) a.d⟩⟩

/-- `x * y` (`mul_p`) -/
noncomputable instance : Mul Dual := ⟨fun a b => ⟨a.v * b.v, plus (lin (some b.v) a.d) (lin (some a.v) b.d)⟩⟩

open Classical in
/-- `x / y` (`div_p`): the local derivatives are `1 / y` and `-x / y²` -/
noncomputable instance : Div Dual := ⟨fun a b => ⟨a.v / b.v,
  if b.v = 0 then none else plus (lin (some (1 / b.v)) a.d) (lin (some (-a.v / b.v ^ 2)) b.d)⟩⟩

/-- `jnp.square(x)` (`square_p`) -/
noncomputable def square (a : Dual) : Dual := ⟨a.v ^ 2, lin (some (2 * a.v)) a.d⟩

open Classical in
/-- `jnp.sqrt(x)` (`sqrt_p`): the local derivative `0.5 / sqrt(x)` is not finite at zero -/
noncomputable def sqrt (a : Dual) : Dual := ⟨√a.v, lin (if a.v ≤ 0 then none else some (0.5 / √a.v)) a.d⟩

/-- `zero_safe_sqrt(x)` with its `custom_jvp` rule, `utils.py:11-24` -/
noncomputable def zeroSafeSqrt (eps : ℝ) (a : Dual) : Dual := ⟨Kepler.zeroSafeSqrt a.v, a.d.map (Kepler.zeroSafeSqrtTangent eps a.v)⟩

/-- `jnp.cos(x)` (`cos_p`) -/
noncomputable def cos (a : Dual) : Dual := ⟨Real.cos a.v, lin (some (-Real.sin a.v)) a.d⟩

/-- `jnp.sin(x)` (`sin_p`) -/
noncomputable def sin (a : Dual) : Dual := ⟨Real.sin a.v, lin (some (Real.cos a.v)) a.d⟩

open Classical in
/-- `jnp.arctan2(y, x)` (`atan2_p`): the local derivatives are `x / (x² + y²)` and `-y / (x² + y²)` -/
noncomputable def atan2 (y x : Dual) : Dual := ⟨arctan2 y.v x.v,
  if y.v = 0 ∧ x.v = 0 then none
  else plus (lin (some (x.v / (y.v ^ 2 + x.v ^ 2))) y.d) (lin (some (-y.v / (y.v ^ 2 + x.v ^ 2))) x.d)⟩

/-- `jnp.abs(x)` (`abs_p`): the local derivative is `sign(x)`, 0 at zero -/
noncomputable def abs (a : Dual) : Dual := ⟨|a.v|, lin (some (SignType.sign a.v)) a.d⟩

open Classical in
/-- `_balanced_eq(x, z, y)` of `lax.py`: the derivative of `max` and `min`, shared equally between equal arguments -/
noncomputable def balancedEq (x z y : ℝ) : ℝ := (if x = z then 1 else 0) / (if y = z then 2 else 1)

/-- `jnp.maximum(x, y)` (`max_p`) -/
noncomputable def max (a b : Dual) : Dual := ⟨Max.max a.v b.v,
  plus (lin (some (balancedEq a.v (Max.max a.v b.v) b.v)) a.d) (lin (some (balancedEq b.v (Max.max a.v b.v) a.v)) b.d)⟩

/-- `jnp.minimum(x, y)` (`min_p`) -/
noncomputable def min (a b : Dual) : Dual := ⟨Min.min a.v b.v,
  plus (lin (some (balancedEq a.v (Min.min a.v b.v) b.v)) a.d) (lin (some (balancedEq b.v (Min.min a.v b.v) a.v)) b.d)⟩

open Classical in
/-- `x ** y` with a constant exponent (`pow_p`): the local derivative is `y * x ** (y - 1)`, not finite at zero for `y < 1` -/
noncomputable def pow (a : Dual) (y : ℝ) : Dual := ⟨a.v ^ y,
  lin (if y = 0 then some 0 else if a.v = 0 ∧ y < 1 then none else some (y * a.v ^ (y - 1))) a.d⟩

/-- `x ** n` with a constant integer exponent (`integer_pow_p`): the local derivative is `n * x ** (n - 1)` -/
noncomputable def ipow (a : Dual) (n : ℕ) : Dual := ⟨a.v ^ n, if n = 0 then some 0 else lin (some ((n : ℝ) * a.v ^ (n - 1))) a.d⟩

open Classical in
/-- `jnp.where(cond, x, y)` (`select_n_p`) -/
noncomputable def «where» (strict : Bool) (cond : Prop) (a b : Dual) : Dual := ⟨if cond then a.v else b.v,
  if strict ∧ ((if cond then b.d else a.d) = none) then none else if cond then a.d else b.d⟩

open Classical in
/-- `jnp.mod(x, y)` (`rem_p`, then `select_n_p` for the sign): the local derivatives are `1` and `-⌊x / y⌋` -/
noncomputable def mod (a b : Dual) : Dual := ⟨fmod a.v b.v,
  if b.v = 0 then none else plus a.d (lin (some (-(⌊a.v / b.v⌋ : ℝ))) b.d)⟩

/-- `jnp.sum`, and the sums of a matrix product -/
noncomputable def sum (l : List Dual) : Dual := l.foldr (· + ·) (const 0)

end Dual
end Jaxoplanet.AD
