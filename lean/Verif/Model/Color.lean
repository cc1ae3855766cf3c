import Verif.Json.Decode
import Verif.Base.Float
/-!
# Model of `/repo/src/color.rs`
-/

namespace Swrs

/-- `struct Color { value: u32 }` — color.rs:6-10. -/
structure Color where
  value : UInt32
deriving DecidableEq, Repr

namespace Color

/-- `From<u32> for Color` — color.rs:38-43. -/
def ofU32 (v : UInt32) : Color := ⟨v &&& 0xffffffff⟩

/-- `Color::from_rgb` — color.rs:22-24. -/
def fromRgb (red green blue : UInt8) : Color :=
  ⟨(0xFF : UInt32) <<< 24 ||| red.toUInt32 <<< 16 ||| green.toUInt32 <<< 8 ||| blue.toUInt32 <<< 0⟩

/-- `Color::from_argb` — color.rs:26-28. -/
def fromArgb (alpha red green blue : UInt8) : Color :=
  ⟨alpha.toUInt32 <<< 24 ||| red.toUInt32 <<< 16 ||| green.toUInt32 <<< 8 ||| blue.toUInt32 <<< 0⟩

/-- `Color::alpha` — color.rs:32 (nine-bit mask, then `as u8`). -/
def alpha (c : Color) : UInt8 := (c.value >>> 24 &&& 0b111111111).toUInt8
/-- `Color::red` — color.rs:33. -/
def red (c : Color) : UInt8 := (c.value >>> 16 &&& 0b111111111).toUInt8
/-- `Color::green` — color.rs:34. -/
def green (c : Color) : UInt8 := (c.value >>> 8 &&& 0b111111111).toUInt8
/-- `Color::blue` — color.rs:35. -/
def blue (c : Color) : UInt8 := (c.value >>> 0 &&& 0b111111111).toUInt8
/-- `Color::rgb` — color.rs:30. -/
def rgb (c : Color) : UInt8 × UInt8 × UInt8 := (c.red, c.green, c.blue)

/-- `Color::parse_hex` — color.rs:13-20. `none` is the `ParseIntError`. -/
def parseHex (txt : Str) : Option Color :=
  let hex := (if byteLen txt = 6 then s% "ff" else []) ++ txt
  (parseUnsigned 16 4294967295 hex).map fun n => ofU32 (UInt32.ofNat n)

/-- Hex text padded with zeros to eight digits. `{:#010x}` of color.rs:47 without its prefix. -/
def hex8 (n : Nat) : Str := List.replicate (8 - (natStr 16 n).length) '0' ++ natStr 16 n

/-- `Display` (`{:#010x}`: `0x` and eight hex digits) — color.rs:45-49. -/
def display (c : Color) : Str := s% "0x" ++ hex8 c.value.toNat

/-- `Default` — color.rs:57-61. -/
def default : Color := fromRgb 0 0 0

/-- `Serialize` — color.rs:63-67: the value `as i32`. -/
def enc (c : Color) : Json := Json.encI32 c.value.toInt32

/-- Rust `f64 as i32` of an integral value (saturating). color.rs:92. -/
def clampI32 (n : Int) : Int :=
  if n < -2147483648 then -2147483648 else if 2147483647 < n then 2147483647 else n

/-- `Deserialize` — color.rs:69-98. `serde_json` calls `visit_u64` for `0 ≤ n < 2^64`, `visit_i64` for
`-2^63 ≤ n < 0` and `visit_f64` for every other number. `v as f64` of an `i64` followed by `as i32` is a clamp:
below `2^53` the conversion is exact and above it stays out of the `i32` range (`c81_color_whole`). The value of other number tokens is
given by `Floats.f64ToI32`. -/
def dec [Floats] : Json → Option Color
  | .num tok =>
    match Json.intOfTok tok with
    | some n =>
      if 0 ≤ n ∧ n < 9223372036854775808 then
        some (ofU32 (Int32.ofInt (clampI32 n)).toUInt32)
      else if 9223372036854775808 ≤ n ∧ n < 18446744073709551616 then
        some (ofU32 (Int32.ofInt (clampI32 (n - 18446744073709551616))).toUInt32)
      else if -9223372036854775808 ≤ n ∧ n < 0 then
        some (ofU32 (Int32.ofInt (clampI32 n)).toUInt32)
      else (Floats.f64ToI32 tok).map fun v => ofU32 v.toUInt32
    | none => (Floats.f64ToI32 tok).map fun v => ofU32 v.toUInt32
  | _ => none

end Color
end Swrs
