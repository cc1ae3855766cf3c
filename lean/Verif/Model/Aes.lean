/-!
# AES-128 (FIPS 197)

The block cipher of the `aes` crate used by `/repo/src/lib.rs:16, 21`. The crate is not in `/repo`; this is the standard:
a state of four columns, ten rounds, the key schedule, and the inverse cipher.
-/
namespace Swrs.Aes

/-- Bytes. AES is used through `Aes128Cbc` — lib.rs:21, 30-38, 61-64. -/
abbrev Byte := UInt8

/-- A column of the state, or a word of the key schedule — FIPS 197, 3.4.
AES is used through `Aes128Cbc` — lib.rs:21, 30-38, 61-64. -/
structure Col where
  a : Byte
  b : Byte
  c : Byte
  d : Byte
deriving DecidableEq, Repr

/-- The state: four columns — FIPS 197, 3.4. AES is used through `Aes128Cbc` — lib.rs:21, 30-38, 61-64. -/
structure Blk where
  w : Col
  x : Col
  y : Col
  z : Col
deriving DecidableEq, Repr

/-- The S-box — FIPS 197, figure 7. AES is used through `Aes128Cbc` — lib.rs:21, 30-38, 61-64. -/
def sboxTable : List Byte := [
  0x63, 0x7c, 0x77, 0x7b, 0xf2, 0x6b, 0x6f, 0xc5, 0x30, 0x01, 0x67, 0x2b, 0xfe, 0xd7, 0xab, 0x76,
  0xca, 0x82, 0xc9, 0x7d, 0xfa, 0x59, 0x47, 0xf0, 0xad, 0xd4, 0xa2, 0xaf, 0x9c, 0xa4, 0x72, 0xc0,
  0xb7, 0xfd, 0x93, 0x26, 0x36, 0x3f, 0xf7, 0xcc, 0x34, 0xa5, 0xe5, 0xf1, 0x71, 0xd8, 0x31, 0x15,
  0x04, 0xc7, 0x23, 0xc3, 0x18, 0x96, 0x05, 0x9a, 0x07, 0x12, 0x80, 0xe2, 0xeb, 0x27, 0xb2, 0x75,
  0x09, 0x83, 0x2c, 0x1a, 0x1b, 0x6e, 0x5a, 0xa0, 0x52, 0x3b, 0xd6, 0xb3, 0x29, 0xe3, 0x2f, 0x84,
  0x53, 0xd1, 0x00, 0xed, 0x20, 0xfc, 0xb1, 0x5b, 0x6a, 0xcb, 0xbe, 0x39, 0x4a, 0x4c, 0x58, 0xcf,
  0xd0, 0xef, 0xaa, 0xfb, 0x43, 0x4d, 0x33, 0x85, 0x45, 0xf9, 0x02, 0x7f, 0x50, 0x3c, 0x9f, 0xa8,
  0x51, 0xa3, 0x40, 0x8f, 0x92, 0x9d, 0x38, 0xf5, 0xbc, 0xb6, 0xda, 0x21, 0x10, 0xff, 0xf3, 0xd2,
  0xcd, 0x0c, 0x13, 0xec, 0x5f, 0x97, 0x44, 0x17, 0xc4, 0xa7, 0x7e, 0x3d, 0x64, 0x5d, 0x19, 0x73,
  0x60, 0x81, 0x4f, 0xdc, 0x22, 0x2a, 0x90, 0x88, 0x46, 0xee, 0xb8, 0x14, 0xde, 0x5e, 0x0b, 0xdb,
  0xe0, 0x32, 0x3a, 0x0a, 0x49, 0x06, 0x24, 0x5c, 0xc2, 0xd3, 0xac, 0x62, 0x91, 0x95, 0xe4, 0x79,
  0xe7, 0xc8, 0x37, 0x6d, 0x8d, 0xd5, 0x4e, 0xa9, 0x6c, 0x56, 0xf4, 0xea, 0x65, 0x7a, 0xae, 0x08,
  0xba, 0x78, 0x25, 0x2e, 0x1c, 0xa6, 0xb4, 0xc6, 0xe8, 0xdd, 0x74, 0x1f, 0x4b, 0xbd, 0x8b, 0x8a,
  0x70, 0x3e, 0xb5, 0x66, 0x48, 0x03, 0xf6, 0x0e, 0x61, 0x35, 0x57, 0xb9, 0x86, 0xc1, 0x1d, 0x9e,
  0xe1, 0xf8, 0x98, 0x11, 0x69, 0xd9, 0x8e, 0x94, 0x9b, 0x1e, 0x87, 0xe9, 0xce, 0x55, 0x28, 0xdf,
  0x8c, 0xa1, 0x89, 0x0d, 0xbf, 0xe6, 0x42, 0x68, 0x41, 0x99, 0x2d, 0x0f, 0xb0, 0x54, 0xbb, 0x16]

/-- The inverse S-box — FIPS 197, figure 14. AES is used through `Aes128Cbc` — lib.rs:21, 30-38, 61-64. -/
def invSboxTable : List Byte := [
  0x52, 0x09, 0x6a, 0xd5, 0x30, 0x36, 0xa5, 0x38, 0xbf, 0x40, 0xa3, 0x9e, 0x81, 0xf3, 0xd7, 0xfb,
  0x7c, 0xe3, 0x39, 0x82, 0x9b, 0x2f, 0xff, 0x87, 0x34, 0x8e, 0x43, 0x44, 0xc4, 0xde, 0xe9, 0xcb,
  0x54, 0x7b, 0x94, 0x32, 0xa6, 0xc2, 0x23, 0x3d, 0xee, 0x4c, 0x95, 0x0b, 0x42, 0xfa, 0xc3, 0x4e,
  0x08, 0x2e, 0xa1, 0x66, 0x28, 0xd9, 0x24, 0xb2, 0x76, 0x5b, 0xa2, 0x49, 0x6d, 0x8b, 0xd1, 0x25,
  0x72, 0xf8, 0xf6, 0x64, 0x86, 0x68, 0x98, 0x16, 0xd4, 0xa4, 0x5c, 0xcc, 0x5d, 0x65, 0xb6, 0x92,
  0x6c, 0x70, 0x48, 0x50, 0xfd, 0xed, 0xb9, 0xda, 0x5e, 0x15, 0x46, 0x57, 0xa7, 0x8d, 0x9d, 0x84,
  0x90, 0xd8, 0xab, 0x00, 0x8c, 0xbc, 0xd3, 0x0a, 0xf7, 0xe4, 0x58, 0x05, 0xb8, 0xb3, 0x45, 0x06,
  0xd0, 0x2c, 0x1e, 0x8f, 0xca, 0x3f, 0x0f, 0x02, 0xc1, 0xaf, 0xbd, 0x03, 0x01, 0x13, 0x8a, 0x6b,
  0x3a, 0x91, 0x11, 0x41, 0x4f, 0x67, 0xdc, 0xea, 0x97, 0xf2, 0xcf, 0xce, 0xf0, 0xb4, 0xe6, 0x73,
  0x96, 0xac, 0x74, 0x22, 0xe7, 0xad, 0x35, 0x85, 0xe2, 0xf9, 0x37, 0xe8, 0x1c, 0x75, 0xdf, 0x6e,
  0x47, 0xf1, 0x1a, 0x71, 0x1d, 0x29, 0xc5, 0x89, 0x6f, 0xb7, 0x62, 0x0e, 0xaa, 0x18, 0xbe, 0x1b,
  0xfc, 0x56, 0x3e, 0x4b, 0xc6, 0xd2, 0x79, 0x20, 0x9a, 0xdb, 0xc0, 0xfe, 0x78, 0xcd, 0x5a, 0xf4,
  0x1f, 0xdd, 0xa8, 0x33, 0x88, 0x07, 0xc7, 0x31, 0xb1, 0x12, 0x10, 0x59, 0x27, 0x80, 0xec, 0x5f,
  0x60, 0x51, 0x7f, 0xa9, 0x19, 0xb5, 0x4a, 0x0d, 0x2d, 0xe5, 0x7a, 0x9f, 0x93, 0xc9, 0x9c, 0xef,
  0xa0, 0xe0, 0x3b, 0x4d, 0xae, 0x2a, 0xf5, 0xb0, 0xc8, 0xeb, 0xbb, 0x3c, 0x83, 0x53, 0x99, 0x61,
  0x17, 0x2b, 0x04, 0x7e, 0xba, 0x77, 0xd6, 0x26, 0xe1, 0x69, 0x14, 0x63, 0x55, 0x21, 0x0c, 0x7d]

/-- Substitution of a byte. AES is used through `Aes128Cbc` — lib.rs:21, 30-38, 61-64. -/
def sbox (b : Byte) : Byte := sboxTable.getD b.toNat 0
/-- Inverse substitution of a byte. AES is used through `Aes128Cbc` — lib.rs:21, 30-38, 61-64. -/
def invSbox (b : Byte) : Byte := invSboxTable.getD b.toNat 0

/-- Multiplication by `x` in GF(2^8) — FIPS 197, 4.2.1. AES is used through `Aes128Cbc` — lib.rs:21, 30-38, 61-64. -/
def xtime (b : Byte) : Byte := (b <<< 1) ^^^ (if b &&& 0x80 = 0 then 0 else 0x1b)

/-- Multiplication by the constants of the (inverse) column mix — FIPS 197, 4.2.
AES is used through `Aes128Cbc` — lib.rs:21, 30-38, 61-64. -/
def mul2 (b : Byte) : Byte := xtime b
/-- Multiplication by 3 in GF(2^8) — FIPS 197, 4.2.1. AES is used through `Aes128Cbc` — lib.rs:21, 30-38, 61-64. -/
def mul3 (b : Byte) : Byte := xtime b ^^^ b
/-- Multiplication by 9 in GF(2^8) — FIPS 197, 4.2.1. AES is used through `Aes128Cbc` — lib.rs:21, 30-38, 61-64. -/
def mul9 (b : Byte) : Byte := xtime (xtime (xtime b)) ^^^ b
/-- Multiplication by 11 in GF(2^8) — FIPS 197, 4.2.1. AES is used through `Aes128Cbc` — lib.rs:21, 30-38, 61-64. -/
def mul11 (b : Byte) : Byte := xtime (xtime (xtime b)) ^^^ xtime b ^^^ b
/-- Multiplication by 13 in GF(2^8) — FIPS 197, 4.2.1. AES is used through `Aes128Cbc` — lib.rs:21, 30-38, 61-64. -/
def mul13 (b : Byte) : Byte := xtime (xtime (xtime b)) ^^^ xtime (xtime b) ^^^ b
/-- Multiplication by 14 in GF(2^8) — FIPS 197, 4.2.1. AES is used through `Aes128Cbc` — lib.rs:21, 30-38, 61-64. -/
def mul14 (b : Byte) : Byte := xtime (xtime (xtime b)) ^^^ xtime (xtime b) ^^^ xtime b

/-- Xor of columns. AES is used through `Aes128Cbc` — lib.rs:21, 30-38, 61-64. -/
def Col.xor (p q : Col) : Col := ⟨p.a ^^^ q.a, p.b ^^^ q.b, p.c ^^^ q.c, p.d ^^^ q.d⟩
/-- `AddRoundKey`, and the xor of CBC — FIPS 197, 5.1.4. AES is used through `Aes128Cbc` — lib.rs:21, 30-38, 61-64. -/
def Blk.xor (p q : Blk) : Blk := ⟨p.w.xor q.w, p.x.xor q.x, p.y.xor q.y, p.z.xor q.z⟩

/-- Substitution of a column. AES is used through `Aes128Cbc` — lib.rs:21, 30-38, 61-64. -/
def Col.map (f : Byte → Byte) (p : Col) : Col := ⟨f p.a, f p.b, f p.c, f p.d⟩
/-- `SubBytes`, `InvSubBytes` — FIPS 197, 5.1.1, 5.3.2. AES is used through `Aes128Cbc` — lib.rs:21, 30-38, 61-64. -/
def Blk.map (f : Byte → Byte) (s : Blk) : Blk := ⟨s.w.map f, s.x.map f, s.y.map f, s.z.map f⟩

/-- `ShiftRows` — FIPS 197, 5.1.2: row `r` is rotated by `r` to the left.
AES is used through `Aes128Cbc` — lib.rs:21, 30-38, 61-64. -/
def shiftRows (s : Blk) : Blk :=
  ⟨⟨s.w.a, s.x.b, s.y.c, s.z.d⟩, ⟨s.x.a, s.y.b, s.z.c, s.w.d⟩, ⟨s.y.a, s.z.b, s.w.c, s.x.d⟩, ⟨s.z.a, s.w.b, s.x.c, s.y.d⟩⟩
/-- `InvShiftRows` — FIPS 197, 5.3.1: rotation to the right.
AES is used through `Aes128Cbc` — lib.rs:21, 30-38, 61-64. -/
def invShiftRows (s : Blk) : Blk :=
  ⟨⟨s.w.a, s.z.b, s.y.c, s.x.d⟩, ⟨s.x.a, s.w.b, s.z.c, s.y.d⟩, ⟨s.y.a, s.x.b, s.w.c, s.z.d⟩, ⟨s.z.a, s.y.b, s.x.c, s.w.d⟩⟩

/-- `MixColumns` on a column — FIPS 197, 5.1.3. AES is used through `Aes128Cbc` — lib.rs:21, 30-38, 61-64. -/
def mixCol (p : Col) : Col :=
  ⟨mul2 p.a ^^^ mul3 p.b ^^^ p.c ^^^ p.d, p.a ^^^ mul2 p.b ^^^ mul3 p.c ^^^ p.d,
    p.a ^^^ p.b ^^^ mul2 p.c ^^^ mul3 p.d, mul3 p.a ^^^ p.b ^^^ p.c ^^^ mul2 p.d⟩
/-- `InvMixColumns` on a column — FIPS 197, 5.3.3. AES is used through `Aes128Cbc` — lib.rs:21, 30-38, 61-64. -/
def invMixCol (p : Col) : Col :=
  ⟨mul14 p.a ^^^ mul11 p.b ^^^ mul13 p.c ^^^ mul9 p.d, mul9 p.a ^^^ mul14 p.b ^^^ mul11 p.c ^^^ mul13 p.d,
    mul13 p.a ^^^ mul9 p.b ^^^ mul14 p.c ^^^ mul11 p.d, mul11 p.a ^^^ mul13 p.b ^^^ mul9 p.c ^^^ mul14 p.d⟩
/-- `MixColumns`. AES is used through `Aes128Cbc` — lib.rs:21, 30-38, 61-64. -/
def mix (s : Blk) : Blk := ⟨mixCol s.w, mixCol s.x, mixCol s.y, mixCol s.z⟩
/-- `InvMixColumns`. AES is used through `Aes128Cbc` — lib.rs:21, 30-38, 61-64. -/
def invMix (s : Blk) : Blk := ⟨invMixCol s.w, invMixCol s.x, invMixCol s.y, invMixCol s.z⟩

/-- `RotWord` — FIPS 197, 5.2. AES is used through `Aes128Cbc` — lib.rs:21, 30-38, 61-64. -/
def rotWord (p : Col) : Col := ⟨p.b, p.c, p.d, p.a⟩

/-- The next round key — FIPS 197, 5.2, figure 11. AES is used through `Aes128Cbc` — lib.rs:21, 30-38, 61-64. -/
def nextKey (rcon : Byte) (k : Blk) : Blk :=
  let t := ((rotWord k.z).map sbox).xor ⟨rcon, 0, 0, 0⟩
  let w := k.w.xor t
  let x := k.x.xor w
  let y := k.y.xor x
  let z := k.z.xor y
  ⟨w, x, y, z⟩

/-- The keys of the rounds with the given round constants.
AES is used through `Aes128Cbc` — lib.rs:21, 30-38, 61-64. -/
def expand : List Byte → Blk → List Blk
  | [], _ => []
  | r :: rs, k => nextKey r k :: expand rs (nextKey r k)

/-- Round constants — FIPS 197, 5.2. AES is used through `Aes128Cbc` — lib.rs:21, 30-38, 61-64. -/
def rcons : List Byte := [0x01, 0x02, 0x04, 0x08, 0x10, 0x20, 0x40, 0x80, 0x1b, 0x36]

/-- The rounds after the first key addition; the last one does not mix the columns — FIPS 197, figure 5.
AES is used through `Aes128Cbc` — lib.rs:21, 30-38, 61-64. -/
def rounds : List Blk → Blk → Blk
  | [], s => s
  | [k], s => (shiftRows (s.map sbox)).xor k
  | k :: ks, s => rounds ks ((mix (shiftRows (s.map sbox))).xor k)

/-- Inverses of the rounds, last round first — FIPS 197, figure 12.
AES is used through `Aes128Cbc` — lib.rs:21, 30-38, 61-64. -/
def invRounds : List Blk → Blk → Blk
  | [], s => s
  | [k], s => (invShiftRows (s.xor k)).map invSbox
  | k :: ks, s => (invShiftRows (invMix ((invRounds ks s).xor k))).map invSbox

/-- `Cipher` with a 128-bit key — FIPS 197, 5.1. AES is used through `Aes128Cbc` — lib.rs:21, 30-38, 61-64. -/
def encrypt (key : Blk) (s : Blk) : Blk := rounds (expand rcons key) (s.xor key)
/-- `InvCipher` with a 128-bit key — FIPS 197, 5.3. AES is used through `Aes128Cbc` — lib.rs:21, 30-38, 61-64. -/
def decrypt (key : Blk) (s : Blk) : Blk := (invRounds (expand rcons key) s).xor key

end Swrs.Aes
