import Verif.Proofs.Aes
/-!
# AES-128 as FIPS 197 defines it, and the model of it

The specification is by the field GF(2^8) and by rows and columns; the model (`Verif.Model.Aes`) has tables and four columns.
-/
namespace Swrs

namespace Fips197

/-- A byte is a polynomial of degree less than 8 over GF(2), bit `i` being the coefficient of `x^i`. The product of two, before
reduction — FIPS 197, 4.2. -/
def product (a b : Nat) : Nat := (List.range 8).foldl (fun p i => if b.testBit i then p ^^^ (a <<< i) else p) 0

/-- The remainder modulo `x^8 + x^4 + x^3 + x + 1` of a polynomial of degree at most 14 — FIPS 197, 4.2. -/
def remainder (p : Nat) : Nat :=
  [14, 13, 12, 11, 10, 9, 8].foldl (fun p i => if p.testBit i then p ^^^ (0x11b <<< (i - 8)) else p) p

/-- Multiplication in GF(2^8) — FIPS 197, 4.2. -/
def times (a b : UInt8) : UInt8 := UInt8.ofNat (remainder (product a.toNat b.toNat))

/-- `b^254`, which is the inverse of `b` (and 0 for 0) — FIPS 197, 4.2. -/
def inverse (b : UInt8) : UInt8 :=
  let b2 := times b b; let b4 := times b2 b2; let b8 := times b4 b4; let b16 := times b8 b8
  let b32 := times b16 b16; let b64 := times b32 b32; let b128 := times b64 b64
  times b2 (times b4 (times b8 (times b16 (times b32 (times b64 b128)))))

/-- Bit `i` of the byte 0x63, plus the bits `i`, `i+4`, ..., `i+7` (modulo 8) of `b` — FIPS 197, 5.1.1. -/
def affine (b : UInt8) : UInt8 := UInt8.ofNat ((List.range 8).foldl (fun s i =>
  if (b.toNat.testBit i ^^ b.toNat.testBit ((i + 4) % 8) ^^ b.toNat.testBit ((i + 5) % 8) ^^ b.toNat.testBit ((i + 6) % 8) ^^
    b.toNat.testBit ((i + 7) % 8) ^^ Nat.testBit 0x63 i) then s + 2 ^ i else s) 0)

/-- The substitution of a byte — FIPS 197, 5.1.1. -/
def sub (b : UInt8) : UInt8 := affine (inverse b)

/-- A state: rows and columns — FIPS 197, 3.4. -/
abbrev State := Fin 4 → Fin 4 → UInt8
/-- A word: four bytes. -/
abbrev Word := Fin 4 → UInt8

/-- `SubBytes`. -/
def subBytes (s : State) : State := fun r c => sub (s r c)
/-- `ShiftRows`: row `r` rotated by `r` to the left (addition modulo 4). -/
def shiftRows (s : State) : State := fun r c => s r (c + r)
/-- `MixColumns`: multiplication by the matrix with the rows `2 3 1 1`, `1 2 3 1`, `1 1 2 3`, `3 1 1 2`. -/
def mixColumns (s : State) : State := fun r c =>
  times 2 (s r c) ^^^ times 3 (s (r + 1) c) ^^^ s (r + 2) c ^^^ s (r + 3) c
/-- `AddRoundKey`: the words are added to the columns. -/
def addKey (s : State) (k : Fin 4 → Word) : State := fun r c => s r c ^^^ k c r

/-- `x^(j-1)`, the round constant — FIPS 197, 5.2. -/
def rcon : Nat → UInt8
  | 0 => 0
  | 1 => 1
  | j + 1 => times 2 (rcon j)

/-- Word `i` of the expanded key — FIPS 197, 5.2. -/
def word (key : Fin 4 → Word) (i : Nat) : Word :=
  if h : i < 4 then key ⟨i, h⟩
  else if i % 4 = 0 then fun r => word key (i - 4) r ^^^ (sub (word key (i - 1) (r + 1)) ^^^ (if r = 0 then rcon (i / 4) else 0))
  else fun r => word key (i - 4) r ^^^ word key (i - 1) r
termination_by i

/-- The key of a round: four words. -/
def roundKey (key : Fin 4 → Word) (round : Nat) : Fin 4 → Word := fun c => word key (4 * round + c)

/-- The state after a number of rounds with mixed columns — FIPS 197, 5.1. -/
def after (key : Fin 4 → Word) (s : State) : Nat → State
  | 0 => addKey s (roundKey key 0)
  | n + 1 => addKey (mixColumns (shiftRows (subBytes (after key s n)))) (roundKey key (n + 1))

/-- The cipher: nine rounds and a last one without mixed columns — FIPS 197, 5.1. -/
def cipher (key : Fin 4 → Word) (s : State) : State := addKey (shiftRows (subBytes (after key s 9))) (roundKey key 10)

/-- Inverses are inverses. -/
theorem times_inverse (b : UInt8) (h : b ≠ 0) : times b (inverse b) = 1 := by
  have := Aes.forall_byte (p := fun b => b ≠ 0 → times b (inverse b) = 1) (by decide +kernel) b
  exact this h

/-! ### The model -/

/-- The words of a block of the model. -/
def words (b : Aes.Blk) : Fin 4 → Word := fun c r =>
  let w := match c with | 0 => b.w | 1 => b.x | 2 => b.y | 3 => b.z
  match r with | 0 => w.a | 1 => w.b | 2 => w.c | 3 => w.d
/-- The state of a block of the model. -/
def state (b : Aes.Blk) : State := fun r c => words b c r

theorem sub_eq (b : UInt8) : sub b = Aes.sbox b := Aes.forall_byte (p := fun b => sub b = Aes.sbox b) (by decide +kernel) b
theorem times2 (b : UInt8) : times 2 b = Aes.mul2 b := Aes.forall_byte (p := fun b => times 2 b = Aes.mul2 b) (by decide +kernel) b
theorem times3 (b : UInt8) : times 3 b = Aes.mul3 b := Aes.forall_byte (p := fun b => times 3 b = Aes.mul3 b) (by decide +kernel) b

theorem forall_four {p : Fin 4 → Prop} (h0 : p 0) (h1 : p 1) (h2 : p 2) (h3 : p 3) : ∀ i, p i
  | 0 => h0 | 1 => h1 | 2 => h2 | 3 => h3

theorem state_ext {s t : State} (h : ∀ r c, s r c = t r c) : s = t := funext fun r => funext fun c => h r c

theorem subBytes_eq (b : Aes.Blk) : subBytes (state b) = state (b.map Aes.sbox) := by
  refine state_ext (forall_four ?_ ?_ ?_ ?_) <;> refine forall_four ?_ ?_ ?_ ?_ <;> exact sub_eq _

theorem shiftRows_eq (b : Aes.Blk) : shiftRows (state b) = state (Aes.shiftRows b) := by
  refine state_ext (forall_four ?_ ?_ ?_ ?_) <;> refine forall_four ?_ ?_ ?_ ?_ <;> rfl

theorem addKey_eq (b k : Aes.Blk) : addKey (state b) (words k) = state (b.xor k) := by
  refine state_ext (forall_four ?_ ?_ ?_ ?_) <;> refine forall_four ?_ ?_ ?_ ?_ <;> rfl

theorem mixColumns_eq (b : Aes.Blk) : mixColumns (state b) = state (Aes.mix b) := by
  have h : ∀ p q r s : UInt8, times 2 p ^^^ times 3 q ^^^ r ^^^ s = Aes.mul2 p ^^^ Aes.mul3 q ^^^ r ^^^ s := by
    intro p q r s; rw [times2, times3]
  have r1 : ∀ p q r s : UInt8, p ^^^ q ^^^ r ^^^ s = s ^^^ p ^^^ q ^^^ r := by intros; ac_rfl
  have r2 : ∀ p q r s : UInt8, p ^^^ q ^^^ r ^^^ s = r ^^^ s ^^^ p ^^^ q := by intros; ac_rfl
  have r3 : ∀ p q r s : UInt8, p ^^^ q ^^^ r ^^^ s = q ^^^ r ^^^ s ^^^ p := by intros; ac_rfl
  refine state_ext (forall_four ?_ ?_ ?_ ?_)
  · refine forall_four ?_ ?_ ?_ ?_ <;> exact h _ _ _ _
  · refine forall_four ?_ ?_ ?_ ?_ <;> exact (h _ _ _ _).trans (r1 _ _ _ _)
  · refine forall_four ?_ ?_ ?_ ?_ <;> exact (h _ _ _ _).trans (r2 _ _ _ _)
  · refine forall_four ?_ ?_ ?_ ?_ <;> exact (h _ _ _ _).trans (r3 _ _ _ _)

end Fips197
end Swrs
