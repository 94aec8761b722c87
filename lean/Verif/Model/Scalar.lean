import Mathlib.Analysis.Real.Sqrt
import Mathlib.Analysis.SpecialFunctions.Trigonometric.Basic
import Mathlib.Analysis.SpecialFunctions.Trigonometric.Inverse
import Mathlib.Analysis.SpecialFunctions.Pow.Real
import Mathlib.Algebra.Order.Floor.Ring
import Mathlib.Tactic.Ring
import Mathlib.Tactic.Linarith
import Mathlib.Tactic.FieldSimp
import Mathlib.Tactic.NormNum

/-!
# Scalars

Go's `float64` as used by the library. Theorems that only use the order are stated for every
`GoFloat F`; theorems that use algebra are stated for `F = ℝ` (exact arithmetic).
NaN is excluded (the order is linear).
-/

namespace CP

/-- Interface of `float64` (and of the functions of Go's `math` package used in /repo).
`lit` is a source-code literal, `trunc` is the conversion `int(f)`.
Models: the uses of `float64`, `math.Sqrt`, `math.Sin`, `math.Cos`, `math.Acos`, `math.Exp`, `math.Pow`
throughout /repo, and `INFINITY = math.MaxFloat64` (/repo/everything.go:9). -/
class GoFloat (F : Type) extends LinearOrder F, Add F, Sub F, Mul F, Div F, Neg F, Zero F, One F where
  lit : Rat → F
  maxFloat : F
  sqrt : F → F
  sin : F → F
  cos : F → F
  acos : F → F
  exp : F → F
  pow : F → F → F
  trunc : F → Int
  ofInt : Int → F

/-- Exact arithmetic. `maxFloat` is the real value of `math.MaxFloat64`. -/
noncomputable instance instGoFloatReal : GoFloat ℝ where
  lit q := (q : ℝ)
  maxFloat := (2 : ℝ) ^ 1024 - (2 : ℝ) ^ 971
  sqrt := Real.sqrt
  sin := Real.sin
  cos := Real.cos
  acos := Real.arccos
  exp := Real.exp
  pow := fun x y => x ^ y
  trunc x := if 0 ≤ x then ⌊x⌋ else ⌈x⌉
  ofInt n := (n : ℝ)

/-- Computable exact instance (used in non-vacuity examples that evaluate the model);
the transcendental functions are placeholders there. -/
instance instGoFloatRat : GoFloat Rat where
  lit q := q
  maxFloat := (2 : Rat) ^ 1024 - (2 : Rat) ^ 971
  sqrt x := x
  sin x := x
  cos x := x
  acos x := x
  exp x := x
  pow x _ := x
  trunc x := if 0 ≤ x then x.floor else x.ceil
  ofInt n := (n : Rat)

@[simp] theorem lit_real (q : Rat) : (GoFloat.lit q : ℝ) = (q : ℝ) := rfl
@[simp] theorem sqrt_real (x : ℝ) : GoFloat.sqrt x = Real.sqrt x := rfl
@[simp] theorem sin_real (x : ℝ) : GoFloat.sin x = Real.sin x := rfl
@[simp] theorem cos_real (x : ℝ) : GoFloat.cos x = Real.cos x := rfl
@[simp] theorem acos_real (x : ℝ) : GoFloat.acos x = Real.arccos x := rfl
@[simp] theorem exp_real (x : ℝ) : GoFloat.exp x = Real.exp x := rfl
@[simp] theorem pow_real (x y : ℝ) : GoFloat.pow x y = x ^ y := rfl
@[simp] theorem ofInt_real (n : Int) : (GoFloat.ofInt n : ℝ) = (n : ℝ) := rfl

theorem maxFloat_real : (GoFloat.maxFloat : ℝ) = (2 : ℝ) ^ 1024 - (2 : ℝ) ^ 971 := rfl

theorem one_lt_maxFloat : (1 : ℝ) < GoFloat.maxFloat := by
  rw [maxFloat_real]
  have h1 : (1 : ℝ) ≤ 2 ^ 971 := one_le_pow₀ (by norm_num)
  have h2 : (2 : ℝ) ^ 1024 = 2 ^ 971 * 2 ^ 53 := by rw [← pow_add]
  rw [h2]
  have h3 : (2 : ℝ) ^ 53 = 9007199254740992 := by norm_num
  rw [h3]
  generalize (2 : ℝ) ^ 971 = y at h1
  linarith

theorem maxFloat_pos : (0 : ℝ) < GoFloat.maxFloat := lt_trans one_pos one_lt_maxFloat

section
variable {F : Type} [GoFloat F]

/-- `math.Abs`. -/
def fabs (x : F) : F := if x < 0 then -x else x

/-- /repo/vector.go:104-110 `Clamp`. -/
def clamp (f mn mx : F) : F := if mn < f then min f mx else min mn mx

/-- /repo/vector.go:112-114 `Clamp01`. -/
def clamp01 (f : F) : F := max 0 (min f 1)

/-- /repo/vector.go:116-118 `Lerp`. -/
def lerp (f1 f2 t : F) : F := f1 * (1 - t) + f2 * t

/-- /repo/vector.go:120-122 `LerpConst`. -/
def lerpConst (f1 f2 d : F) : F := f1 + clamp (f2 - f1) (-d) d
end

@[simp] theorem fabs_real (x : ℝ) : fabs x = |x| := by
  unfold fabs
  split
  · rename_i h; exact (abs_of_neg h).symm
  · rename_i h; exact (abs_of_nonneg (not_lt.mp h)).symm

end CP
