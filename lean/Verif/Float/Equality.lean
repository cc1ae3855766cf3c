import Verif.Float.Instance
import Verif.Model.Equality
/-!
# `==` of IEEE 754 values
-/
namespace Swrs
open Ieee

/-- `==` of `f32` and `f64`: NaN is equal to nothing, the two zeros are equal. Derived comparisons of parser/view.rs:255 and
api/block.rs:1099. -/
def Ieee.Value.rustEq {F : Format} : Value F → Value F → Bool
  | .inf a, .inf b => a == b
  | .fin a k, .fin b l => k.val == l.val && (a == b || k.val == 0)
  | _, _ => false

/-- The comparisons of `f32` and `f64`. Derived comparisons of parser/view.rs:255 and api/block.rs:1099. -/
@[reducible] def ieeeEq : @FloatEq ieeeFloats.toFloats :=
  letI := ieeeFloats
  { eq32 := Value.rustEq (F := f32), eq64 := Value.rustEq (F := f64) }

end Swrs
