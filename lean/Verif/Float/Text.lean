import Verif.Float.Ieee
import Verif.Json.Decode
/-!
# Reading and printing of floating point numbers

* `f64::from_str` and `f64::to_string` of the standard library, which api/block.rs uses for the number arguments of blocks;
* the numbers of `serde_json` (without its feature `float_roundtrip`, see /repo/Cargo.toml), which reads `f32` fields of parser/view.rs and
  the colours of color.rs;
* the text that `serde_json` has for `f32` values (the crate `ryu`).
-/
namespace Swrs.Ieee

/-- `n / d` units as a value: infinite if it is too large after rounding.
Rounding of `f32` and `f64` — parser/view.rs:260, 304-309, api/block.rs:1084, color.rs:88. -/
def Value.round (F : Format) (hp : F.prec ≠ 0) (neg : Bool) (n d : Nat) : Value F :=
  if h : 0 < d ∧ roundTo F.prec n d < F.top then .fin neg ⟨roundTo F.prec n d, rep_roundTo hp h.1, h.2⟩
  else .inf neg

/-- Value of decimal digits. Reading of numbers — api/block.rs:704, 798, parser/view.rs:260, 304-309, color.rs:88. -/
def digitsNat (ds : Str) : Nat := ds.foldl (fun a c => a * 10 + (c.toNat - 48)) 0

/-- A number in decimal: digits before and after the point, and the exponent, if one is written.
Reading of numbers — api/block.rs:704, 798, parser/view.rs:260, 304-309, color.rs:88. -/
structure Decimal where
  int : Str
  frac : Str
  exp : Option Int
deriving DecidableEq, Repr

/-- The exponent: nothing, or `e` or `E`, perhaps a sign, and digits, up to the end.
Reading of numbers — api/block.rs:704, 798, parser/view.rs:260, 304-309, color.rs:88. -/
def readExp : Str → Option (Option Int)
  | [] => some none
  | c :: r =>
    if c = 'e' ∨ c = 'E' then
      let (neg, ds) := signSplit r
      if ds ≠ [] ∧ ds.all isDigit then some (some (if neg then -(digitsNat ds : Int) else digitsNat ds)) else none
    else none

/-- Perhaps a point and digits, and the rest. Reading of numbers — api/block.rs:704, 798, parser/view.rs:260, 304-309, color.rs:88. -/
def readFrac : Str → Str × Str
  | '.' :: r => (r.takeWhile isDigit, r.dropWhile isDigit)
  | r => ([], r)

/-- A number without sign: digits, perhaps a point and digits, perhaps an exponent; there is a digit before or after the point.
Reading of numbers — api/block.rs:704, 798, parser/view.rs:260, 304-309, color.rs:88. -/
def readDecimal (s : Str) : Option Decimal :=
  let int := s.takeWhile isDigit
  let (frac, rest) := readFrac (s.dropWhile isDigit)
  if int = [] ∧ frac = [] then none
  else (readExp rest).map fun e => ⟨int, frac, e⟩

/-- `sig * 10 ^ ex` as a ratio of natural numbers.
Reading of numbers — api/block.rs:704, 798, parser/view.rs:260, 304-309, color.rs:88. -/
def ratio (sig : Nat) (ex : Int) : Nat × Nat := (sig * 10 ^ ex.toNat, 10 ^ (-ex).toNat)

/-! ### `f64` of the standard library -/

/-- Letters to lower case (ASCII). `str::parse::<f64>` — api/block.rs:704, 798. -/
def lower (s : Str) : Str := s.map fun c => if 65 ≤ c.toNat ∧ c.toNat ≤ 90 then Char.ofNat (c.toNat + 32) else c

/-- `str::parse::<f64>` — api/block.rs:704, 798: an optional sign, then a decimal number, which gives the nearest value, or `inf`, `infinity`
or `nan` in any case. Simplified: the library takes exponents of more than 65536 for smaller ones, which shows only on texts of that length. -/
def readF64 (s : Str) : Option (Value f64) :=
  let (neg, r) := signSplit s
  match readDecimal r with
  | some d =>
    let (n, m) := ratio (digitsNat (d.int ++ d.frac)) (d.exp.getD 0 - d.frac.length)
    some (Value.round f64 (by decide) neg (n * 2 ^ 1074) m)
  | none =>
    if lower r = s% "nan" then some .nan
    else if lower r = s% "inf" ∨ lower r = s% "infinity" then some (.inf neg)
    else none

/-- Number of decimal digits. Printing of `f32` and `f64` — api/block.rs:186, parser/view.rs:260, 304-309. -/
def decLen (n : Nat) : Nat := (natStr 10 n).length

/-- The exponent `t` with `10 ^ t ≤ n / d < 10 ^ (t + 1)`. Printing of `f32` and `f64` — api/block.rs:186, parser/view.rs:260, 304-309. -/
def exp10 (n d : Nat) : Int :=
  if d ≤ n then (decLen (n / d) : Int) - 1 else -(decLen ((d + n - 1) / n - 1) : Int)

/-- The two whole numbers next to `n / d`, the nearer one first (the even one, if they are equally near).
Printing of `f32` and `f64` — api/block.rs:186, parser/view.rs:260, 304-309. -/
def neighbours (n d : Nat) : List Nat :=
  if nearest n d = n / d then [n / d, n / d + 1] else [n / d + 1, n / d]

/-- The decimals of `len` digits next to `n / d`: significand and exponent.
Printing of `f32` and `f64` — api/block.rs:186, parser/view.rs:260, 304-309. -/
def decimalsOf (n d len : Nat) : List (Nat × Int) :=
  let e : Int := exp10 n d - len + 1
  (neighbours (n * 10 ^ (-e).toNat) (d * 10 ^ e.toNat)).map fun q => (q, e)

/-- Decimals for `n / d`, shorter ones first, up to `len` digits.
Printing of `f32` and `f64` — api/block.rs:186, parser/view.rs:260, 304-309. -/
def decimals (n d len : Nat) : List (Nat × Int) :=
  (List.range len).flatMap fun i => decimalsOf n d (i + 1)

/-- Without the zeros at the end of the significand: digits and exponent.
Printing of `f32` and `f64` — api/block.rs:186, parser/view.rs:260, 304-309. -/
def stripZeros (q : Nat) (e : Int) : Str × Int :=
  let ds := natStr 10 q
  let z := (ds.reverse.takeWhile (· = '0')).length
  (ds.take (ds.length - z), e + z)

/-- Layout of `f64::to_string`: all digits around the point, no exponent, and no point in whole numbers — api/block.rs:186. -/
def layout64 (q : Nat) (e : Int) : Str :=
  let (ds, k) := stripZeros q e
  let point : Int := ds.length + k
  if 0 ≤ k then ds ++ List.replicate k.toNat '0'
  else if 0 < point then ds.take point.toNat ++ '.' :: ds.drop point.toNat
  else s% "0." ++ List.replicate (-point).toNat '0' ++ ds

/-- Any text of `sig * 10 ^ ex`. (In place of a text which is never needed.) Printing of `f32` and `f64` —
api/block.rs:186, parser/view.rs:260, 304-309. -/
def plain (sig : Nat) (ex : Int) : Str := natStr 10 sig ++ 'e' :: intStr ex

/-- Sign and text. Printing of `f32` and `f64` — api/block.rs:186, parser/view.rs:260, 304-309. -/
def signed (neg : Bool) (s : Str) : Str := if neg then '-' :: s else s

/-- `f64::to_string` — api/block.rs:186: the shortest decimal that reads back as the value, and the nearest to it of these.
(Should none of 17 digits do, the exact value.) -/
def showF64 : Value f64 → Str
  | .nan => s% "NaN"
  | .inf neg => signed neg (s% "inf")
  | .fin neg ⟨k, h⟩ =>
    if k = 0 then signed neg (s% "0")
    else
      let texts := (decimals k (2 ^ 1074) 17).map fun (q, e) => signed neg (layout64 q e)
      (texts.find? fun t => readF64 t = some (.fin neg ⟨k, h⟩)).getD (signed neg (plain (k * 5 ^ 1074) (-1074)))

/-! ### Numbers of `serde_json` -/

/-- `n / d` rounded to `f64`, in units. Numbers of `serde_json` — parser/view.rs:260, 304-309, color.rs:88. -/
def r64 (n d : Nat) : Nat := roundTo 53 (n * 2 ^ 1074) d

/-- The table of powers of ten. Numbers of `serde_json` — parser/view.rs:260, 304-309, color.rs:88. -/
def pow10 (i : Nat) : Nat := r64 (10 ^ i) 1

/-- `f64_from_parts`: the significand (in units) is multiplied or divided by a power of ten in `f64`; too large numbers are errors.
Numbers of `serde_json` — parser/view.rs:260, 304-309, color.rs:88. -/
def fromParts (fuel : Nat) (f : Nat) (ex : Int) : Option Nat :=
  if ex.natAbs ≤ 308 then
    if 0 ≤ ex then
      let g := r64 (f * pow10 ex.natAbs) (2 ^ 2148)
      if g < f64.top then some g else none
    else some (r64 f (pow10 ex.natAbs))
  else if f = 0 then some f
  else if 0 ≤ ex then none
  else match fuel with
    | 0 => none
    | fuel + 1 => fromParts fuel (r64 f (pow10 308)) (ex + 308)

/-- Digits are appended to the significand while it stays below `2^64`; the number of digits that are left.
Numbers of `serde_json` — parser/view.rs:260, 304-309, color.rs:88. -/
def pushDigits (sig : Nat) : Str → Nat × Nat
  | [] => (sig, 0)
  | c :: cs =>
    if 18446744073709551615 < sig * 10 + (c.toNat - 48) then (sig, cs.length + 1)
    else pushDigits (sig * 10 + (c.toNat - 48)) cs

/-- A number of `serde_json`: whole numbers in 64 bits, and `f64` values (sign and units).
Numbers of `serde_json` — parser/view.rs:260, 304-309, color.rs:88. -/
inductive Number where
  | u64 (n : Nat)
  | i64 (n : Int)
  | f64 (neg : Bool) (units : Nat)
deriving DecidableEq

/-- `parse_any_number` of `serde_json`: whole numbers that fit are integers (`-0` does not); of other numbers the first digits
that fit in 64 bits are taken, the others only count; then the power of ten is applied.
Numbers of `serde_json` — parser/view.rs:260, 304-309, color.rs:88. -/
def readNumber (tok : Str) : Option Number :=
  let (neg, r) := signSplit tok
  if Json.isNumTok tok then
    (readDecimal r).bind fun d =>
      let (sig, left) := pushDigits 0 d.int
      if d.frac = [] ∧ d.exp = none ∧ left = 0 then
        if neg = false then some (.u64 sig)
        else if sig = 0 ∨ 9223372036854775808 < sig then some (.f64 true (r64 sig 1))
        else some (.i64 (-sig))
      else
        let (sig, over) := pushDigits sig d.frac
        let ex : Int := (left : Int) - (d.frac.length - over : Nat)
        match d.exp with
        | none => (fromParts ((-ex).toNat / 308 + 1) (r64 sig 1) ex).map (.f64 neg)
        | some e =>
          if 2147483647 < e.natAbs then
            if sig ≠ 0 ∧ 0 < e then none else some (.f64 neg 0)
          else (fromParts ((-(ex + e)).toNat / 308 + 1) (r64 sig 1) (ex + e)).map (.f64 neg)
  else none

/-- `Deserialize` of a `f32` field from a number: converted with `as f32` — parser/view.rs:260, 304-309. -/
def readF32 (tok : Str) : Option (Value f32) :=
  (readNumber tok).map fun
    | .u64 n => Value.round f32 (by decide) false (n * 2 ^ 149) 1
    | .i64 n => Value.round f32 (by decide) true (n.natAbs * 2 ^ 149) 1
    | .f64 neg k => Value.round f32 (by decide) neg k (2 ^ (1074 - 149))

/-- `as i32` of a sign and units of `f64`: towards zero, at most as far as the range goes — color.rs:92. -/
def toI32 (neg : Bool) (units : Nat) : Int32 :=
  let n := units / 2 ^ 1074
  Int32.ofInt (if neg then -(min n 2147483648 : Nat) else (min n 2147483647 : Nat))

/-- A number read as `f64`, then `as i32` — color.rs:76-93. -/
def readF64AsI32 (tok : Str) : Option Int32 :=
  (readNumber tok).map fun
    | .u64 n => toI32 false (r64 n 1)
    | .i64 n => toI32 true (r64 n.natAbs 1)
    | .f64 neg k => toI32 neg k

/-- Layout of `serde_json` for `f32` (`ryu`): up to 13 digits before the point and up to five zeros after it, otherwise an
exponent — parser/view.rs:260, 304-309. -/
def layout32 (q : Nat) (e : Int) : Str :=
  let (ds, k) := stripZeros q e
  let point : Int := ds.length + k
  if 0 ≤ k ∧ point ≤ 13 then ds ++ List.replicate k.toNat '0' ++ s% ".0"
  else if 0 < point ∧ point ≤ 13 then ds.take point.toNat ++ '.' :: ds.drop point.toNat
  else if -6 < point ∧ point ≤ 0 then s% "0." ++ List.replicate (-point).toNat '0' ++ ds
  else if ds.length = 1 then ds ++ 'e' :: intStr (point - 1)
  else ds.take 1 ++ '.' :: ds.drop 1 ++ 'e' :: intStr (point - 1)

/-- Text that `serde_json` has for a finite `f32`: the shortest decimal that reads back as the value, and the nearest to it of
these — parser/view.rs:260, 304-309. (Should no text do, nine digits.) `ryu` takes the shortest decimal that is rounded to the value;
by `c87_f32_text` this is the same. -/
def printF32 : Value f32 → Str
  | .nan => s% "null"
  | .inf _ => s% "null"
  | .fin neg ⟨k, h⟩ =>
    if k = 0 then signed neg (s% "0.0")
    else
      let texts := (decimals k (2 ^ 149) 9).map fun (q, e) => signed neg (layout32 q e)
      let e : Int := exp10 k (2 ^ 149) - 8
      (texts.find? fun t => readF32 t = some (.fin neg ⟨k, h⟩)).getD
        (signed neg (plain (nearest (k * 10 ^ (-e).toNat) (2 ^ 149 * 10 ^ e.toNat)) e))

end Swrs.Ieee
