import Verif.Base.Str
/-!
# UTF-8

`String::from_utf8`, used by `/repo/src/parser/mod.rs:89, 117`, and the encoding (`String::into_bytes`).
-/
namespace Swrs

/-- UTF-8 encoding of a character — RFC 3629. Texts of parser/mod.rs:89, 117. -/
def utf8Char (c : Char) : List UInt8 :=
  let n := c.toNat
  if n < 0x80 then [UInt8.ofNat n]
  else if n < 0x800 then [UInt8.ofNat (0xC0 + n / 64), UInt8.ofNat (0x80 + n % 64)]
  else if n < 0x10000 then
    [UInt8.ofNat (0xE0 + n / 4096), UInt8.ofNat (0x80 + n / 64 % 64), UInt8.ofNat (0x80 + n % 64)]
  else [UInt8.ofNat (0xF0 + n / 262144), UInt8.ofNat (0x80 + n / 4096 % 64), UInt8.ofNat (0x80 + n / 64 % 64),
    UInt8.ofNat (0x80 + n % 64)]

/-- UTF-8 encoding of a text. Texts of parser/mod.rs:89, 117. -/
def utf8 : Str → List UInt8
  | [] => []
  | c :: s => utf8Char c ++ utf8 s

/-- The byte is between the bounds. Texts of parser/mod.rs:89, 117. -/
def inRange (lo hi : Nat) (b : UInt8) : Bool := lo ≤ b.toNat && b.toNat ≤ hi

/-- `String::from_utf8` — the standard library's table of valid sequences (`core::str::validations`):
no overlong forms, no surrogates, nothing above U+10FFFF. Texts of parser/mod.rs:89, 117. -/
def fromUtf8 : List UInt8 → Option Str
  | [] => some []
  | b0 :: r0 =>
    if inRange 0x00 0x7F b0 then (fromUtf8 r0).map (Char.ofNat b0.toNat :: ·)
    else match r0 with
      | [] => none
      | b1 :: r1 =>
        if inRange 0xC2 0xDF b0 && inRange 0x80 0xBF b1 then
          (fromUtf8 r1).map (Char.ofNat ((b0.toNat - 0xC0) * 64 + (b1.toNat - 0x80)) :: ·)
        else match r1 with
          | [] => none
          | b2 :: r2 =>
            if ((inRange 0xE0 0xE0 b0 && inRange 0xA0 0xBF b1) || (inRange 0xE1 0xEC b0 && inRange 0x80 0xBF b1) ||
                (inRange 0xED 0xED b0 && inRange 0x80 0x9F b1) || (inRange 0xEE 0xEF b0 && inRange 0x80 0xBF b1)) &&
                inRange 0x80 0xBF b2 then
              (fromUtf8 r2).map
                (Char.ofNat ((b0.toNat - 0xE0) * 4096 + (b1.toNat - 0x80) * 64 + (b2.toNat - 0x80)) :: ·)
            else match r2 with
              | [] => none
              | b3 :: r3 =>
                if ((inRange 0xF0 0xF0 b0 && inRange 0x90 0xBF b1) || (inRange 0xF1 0xF3 b0 && inRange 0x80 0xBF b1) ||
                    (inRange 0xF4 0xF4 b0 && inRange 0x80 0x8F b1)) && inRange 0x80 0xBF b2 && inRange 0x80 0xBF b3 then
                  (fromUtf8 r3).map (Char.ofNat ((b0.toNat - 0xF0) * 262144 + (b1.toNat - 0x80) * 4096 +
                    (b2.toNat - 0x80) * 64 + (b3.toNat - 0x80)) :: ·)
                else none

end Swrs
