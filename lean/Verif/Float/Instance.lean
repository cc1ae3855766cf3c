import Verif.Float.Single
import Verif.Base.Float
/-!
# The floating point interface of the model, with IEEE 754 values
-/
namespace Swrs
open Ieee

/-- `f32` and `f64` with the reading and printing of `serde_json` and of the standard library.
`f32` fields of parser/view.rs:260, 304-309, `f64` values of api/block.rs:704, 798, 1084 and color.rs:88. -/
@[reducible] def ieeeFloats : FloatLaws where
  F32 := Value f32
  finite x := match x with
    | .fin _ _ => true
    | _ => false
  print := printF32
  read := readF32
  f64ToI32 := readF64AsI32
  zero := .fin false ⟨0, by decide +kernel⟩
  one := .fin false ⟨2 ^ 149, by decide +kernel⟩
  F64 := Value f64
  isNaN x := match x with
    | .nan => true
    | _ => false
  show64 := showF64
  read64 := readF64
  print_num x h := by
    match x with
    | .fin neg k =>
      have hr := readF32_printF32 neg k
      rw [readF32, Option.map_eq_some_iff] at hr
      obtain ⟨n, hn, _⟩ := hr
      by_cases ht : Json.isNumTok (printF32 (.fin neg k)) = true
      · exact ht
      · rw [readNumber] at hn
        simp [ht] at hn
  read_print x h := by
    match x with
    | .fin neg k => exact readF32_printF32 neg k
  finite_zero := rfl
  finite_one := rfl
  read64_show64 x h := by
    match x with
    | .inf neg => exact readF64_showF64 _ (by simp)
    | .fin neg k => exact readF64_showF64 _ (by simp)
  show64_at x := by
    match x with
    | .nan => decide
    | .inf neg => exact readF64_at (readF64_showF64 _ (by simp))
    | .fin neg k => exact readF64_at (readF64_showF64 _ (by simp))

end Swrs
