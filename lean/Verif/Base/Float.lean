import Verif.Json.Decode
/-!
# Floating point values

The model does not compute with floating point numbers; it stores `f32` and `f64` values, prints them and reads them.
`Floats` is the interface of the printing and reading functions of `serde_json` and of the standard library; `FloatLaws` states what is
assumed of them. `Verif.Float.Instance` proves the laws for IEEE 754 numbers with the reading and printing of these libraries;
`Verif.Base.FloatInst` gives a small instance for examples.
-/

namespace Swrs

/-- `f32` values with their JSON forms, and the reading of a number token as `f64 as i32`.
`f32` fields of parser/view.rs, `f64` values of api/block.rs:704, 798 and color.rs:88. -/
class Floats where
  /-- The `f32` values. -/
  F32 : Type
  /-- Neither infinite nor NaN. -/
  finite : F32 → Bool
  /-- Text written by `serde_json` for a finite value. -/
  print : F32 → Str
  /-- `f32` value of a number token (read as `f64`, then `as f32`). -/
  read : Str → Option F32
  /-- A number token read as `f64`, then `as i32`. -/
  f64ToI32 : Str → Option Int32
  /-- The literals `0.0` and `1.0`. -/
  zero : F32
  one : F32
  /-- The `f64` values. -/
  F64 : Type
  /-- Is it NaN? -/
  isNaN : F64 → Bool
  /-- `f64::to_string`. -/
  show64 : F64 → Str
  /-- `str::parse::<f64>`. -/
  read64 : Str → Option F64

/-- What is assumed of the floating point text forms: the printed form of a finite value is a JSON number
which reads back as the same value; the text of a `f64` other than NaN parses to it and does not begin with `@`.
`f32` fields of parser/view.rs, `f64` values of api/block.rs:704, 798 and color.rs:88. -/
class FloatLaws extends Floats where
  print_num : ∀ x, finite x = true → Json.isNumTok (print x) = true
  read_print : ∀ x, finite x = true → read (print x) = some x
  finite_zero : finite zero = true
  finite_one : finite one = true
  read64_show64 : ∀ x, isNaN x = false → read64 (show64 x) = some x
  show64_at : ∀ x, (show64 x).head? ≠ some '@'

/-- `f32` field: `serde_json` writes `null` for infinities and NaN.
`f32` fields of parser/view.rs, `f64` values of api/block.rs:704, 798 and color.rs:88. -/
def encF32 [Floats] (x : Floats.F32) : Json :=
  if Floats.finite x then .num (Floats.print x) else .null

/-- `f32` field: only numbers are accepted.
`f32` fields of parser/view.rs, `f64` values of api/block.rs:704, 798 and color.rs:88. -/
def decF32 [Floats] : Json → Option Floats.F32
  | .num tok => Floats.read tok
  | _ => none

theorem decF32_encF32 [FloatLaws] (x : Floats.F32) (h : Floats.finite x = true) :
    decF32 (encF32 x) = some x := by
  simp [encF32, h, decF32, FloatLaws.read_print x h]

theorem decF32_encF32_none [Floats] (x : Floats.F32) (h : Floats.finite x = false) :
    decF32 (encF32 x) = none := by
  simp [encF32, h, decF32]

@[simp] theorem valid_encF32 [FloatLaws] (x : Floats.F32) : (encF32 x).Valid := by
  unfold encF32
  split
  next h => simp [Json.Valid, FloatLaws.print_num x h]
  next h => simp [Json.Valid]

@[simp] theorem depth_encF32 [Floats] (x : Floats.F32) : (encF32 x).depth = 0 := by
  unfold encF32; split <;> simp [Json.depth]

end Swrs
