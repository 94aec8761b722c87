import Verif.Model.Scalar

/-! # Rounding laws assumed of `float64` where a theorem goes beyond its order -/

namespace CP
open GoFloat

/-- Rounding laws of `float64` (all hold for IEEE 754 without NaN:
rounding is monotone and exact values are representable). -/
class FloatLaws (F : Type) [GoFloat F] : Prop where
  add_le : ∀ a b : F, b ≤ 0 → a + b ≤ a
  le_add : ∀ a b : F, 0 ≤ b → a ≤ a + b
  sub_nonneg : ∀ a b : F, b ≤ a → 0 ≤ a - b
  mul_nonneg : ∀ a b : F, 0 ≤ a → 0 ≤ b → 0 ≤ a * b
  neg_nonpos : ∀ a : F, 0 ≤ a → -a ≤ 0
  lit_nonneg : ∀ q : Rat, 0 ≤ q → (0 : F) ≤ lit q

instance : FloatLaws ℝ where
  add_le a b h := by linarith
  le_add a b h := by linarith
  sub_nonneg a b h := by linarith
  mul_nonneg a b := mul_nonneg
  neg_nonpos a h := by linarith
  lit_nonneg q h := by rw [lit_real]; exact_mod_cast h

/-- Laws of signs of `float64`: rounding to nearest is symmetric and addition is commutative. -/
class FloatSigns (F : Type) [GoFloat F] : Prop where
  add_comm : ∀ a b : F, a + b = b + a
  sub_swap : ∀ a b : F, a - b = -(b - a)
  neg_mul : ∀ a b : F, -a * b = -(a * b)
  neg_lt : ∀ a b : F, -a < -b → b < a

instance : FloatSigns ℝ where
  add_comm := _root_.add_comm
  sub_swap a b := by ring
  neg_mul := _root_.neg_mul
  neg_lt a b := neg_lt_neg_iff.1

end CP
