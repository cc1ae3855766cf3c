import Verif.Base.Str
/-!
# Integers as text

Printing of integers (`to_string`, `{}`) and `FromStr` / `from_str_radix` of Rust's integer types.
-/

namespace Swrs

/-- Digit character of a number below 16, lower case.
Reading and printing of integers — color.rs:19, 47, parser/serde_util.rs:10-33, 48-52, logic.rs:434-447, 590-602, api/block.rs:186, 659-817. -/
def digitChar (n : Nat) : Char :=
  if n < 10 then Char.ofNat (48 + n) else Char.ofNat (87 + n)

/-- `char::to_digit(radix)` for radix ≤ 16 (ASCII only, both letter cases).
Reading and printing of integers — color.rs:19, 47, parser/serde_util.rs:10-33, 48-52, logic.rs:434-447, 590-602, api/block.rs:186, 659-817. -/
def digitVal (b : Nat) (c : Char) : Option Nat :=
  let n := c.toNat
  let v := if 48 ≤ n ∧ n ≤ 57 then some (n - 48)
    else if 97 ≤ n ∧ n ≤ 102 then some (n - 87)
    else if 65 ≤ n ∧ n ≤ 70 then some (n - 55)
    else none
  v.filter (· < b)

/-- Text of a natural number in base `b` without leading zeros.
Reading and printing of integers — color.rs:19, 47, parser/serde_util.rs:10-33, 48-52, logic.rs:434-447, 590-602, api/block.rs:186, 659-817. -/
def natStr (b : Nat) (n : Nat) : Str :=
  if _h : n < b ∨ b < 2 then [digitChar n]
  else natStr b (n / b) ++ [digitChar (n % b)]
termination_by n
decreasing_by
  simp only [not_or, Nat.not_lt] at _h
  exact Nat.div_lt_self (by omega) (by omega)

/-- Value of a digit sequence (`none` on a non-digit).
Reading and printing of integers — color.rs:19, 47, parser/serde_util.rs:10-33, 48-52, logic.rs:434-447, 590-602, api/block.rs:186, 659-817. -/
def digitsVal (b : Nat) (s : Str) (acc : Nat) : Option Nat :=
  match s with
  | [] => some acc
  | c :: s => match digitVal b c with
    | some d => digitsVal b s (acc * b + d)
    | none => none

/-- `u8/u16/u32::from_str_radix(s, b)`: optional `+`, at least one digit, value at most `max`.
The overflow check made at each digit by the library is made once at the end (the value only grows).
Reading and printing of integers — color.rs:19, 47, parser/serde_util.rs:10-33, 48-52, logic.rs:434-447, 590-602, api/block.rs:186, 659-817. -/
def parseUnsigned (b max : Nat) (s : Str) : Option Nat :=
  let digits := match s with
    | '+' :: r => r
    | _ => s
  if digits = [] then none
  else (digitsVal b digits 0).filter (· ≤ max)

/-- Sign and digits of a signed integer text.
Reading and printing of integers — color.rs:19, 47, parser/serde_util.rs:10-33, 48-52, logic.rs:434-447, 590-602, api/block.rs:186, 659-817. -/
def signSplit : Str → Bool × Str
  | '+' :: r => (false, r)
  | '-' :: r => (true, r)
  | s => (false, s)

/-- `i8/i32::from_str`: optional `+` or `-`, at least one digit, value in range.
Reading and printing of integers — color.rs:19, 47, parser/serde_util.rs:10-33, 48-52, logic.rs:434-447, 590-602, api/block.rs:186, 659-817. -/
def parseSigned (lo hi : Int) (s : Str) : Option Int :=
  if (signSplit s).2 = [] then none
  else match digitsVal 10 (signSplit s).2 0 with
    | none => none
    | some n =>
      let v : Int := if (signSplit s).1 then -(n : Int) else (n : Int)
      if lo ≤ v ∧ v ≤ hi then some v else none

/-- Decimal text of an integer.
Reading and printing of integers — color.rs:19, 47, parser/serde_util.rs:10-33, 48-52, logic.rs:434-447, 590-602, api/block.rs:186, 659-817. -/
def intStr (n : Int) : Str :=
  match n with
  | .ofNat n => natStr 10 n
  | .negSucc n => '-' :: natStr 10 (n + 1)

/-! ### Lemmas -/

theorem digitVal_digitChar {b n : Nat} (h : n < b) (hb : b ≤ 16) :
    digitVal b (digitChar n) = some n := by
  have h16 : n < 16 := by omega
  have key : ∀ n < 16, digitVal 16 (digitChar n) = some n := by decide
  have := key n h16
  unfold digitVal at this ⊢
  simp only [Option.filter_eq_some_iff] at this ⊢
  exact ⟨this.1, by simpa using h⟩

theorem digitsVal_append (b : Nat) (s t : Str) (acc : Nat) :
    digitsVal b (s ++ t) acc = (digitsVal b s acc).bind (digitsVal b t) := by
  induction s generalizing acc with
  | nil => rfl
  | cons c s ih =>
    simp only [List.cons_append, digitsVal]
    cases digitVal b c with
    | none => rfl
    | some d => exact ih _

theorem digitsVal_natStr_acc {b : Nat} (h2 : 2 ≤ b) (hb : b ≤ 16) (n : Nat) :
    digitsVal b (natStr b n) 0 = some n := by
  induction n using Nat.strongRecOn with
  | _ n ih =>
    rw [natStr]
    split
    next h =>
      have : n < b := by omega
      simp [digitsVal, digitVal_digitChar this hb]
    next h =>
      simp only [not_or, Nat.not_lt] at h
      rw [digitsVal_append, ih _ (Nat.div_lt_self (by omega) (by omega))]
      simp only [Option.bind_some, digitsVal]
      rw [digitVal_digitChar (Nat.mod_lt _ (by omega)) hb]
      simp only [Option.some.injEq]
      rw [Nat.mul_comm]; exact Nat.div_add_mod n b

theorem natStr_ne_nil (b n : Nat) : natStr b n ≠ [] := by
  rw [natStr]; split <;> simp

/-- Is this an ASCII decimal digit?.
Reading and printing of integers — color.rs:19, 47, parser/serde_util.rs:10-33, 48-52, logic.rs:434-447, 590-602, api/block.rs:186, 659-817. -/
def isDigit (c : Char) : Bool := 48 ≤ c.toNat && c.toNat ≤ 57

theorem isDigit_digitChar {n : Nat} (h : n < 10) : isDigit (digitChar n) = true := by
  have key : ∀ n < 10, isDigit (digitChar n) = true := by decide
  exact key n h

theorem natStr_digits {b : Nat} (hb : b = 10) (n : Nat) : ∀ c ∈ natStr b n, isDigit c = true := by
  subst hb
  induction n using Nat.strongRecOn with
  | _ n ih =>
    rw [natStr]
    split
    next h =>
      intro c hc
      simp only [List.mem_singleton] at hc; subst hc
      exact isDigit_digitChar (by omega)
    next h =>
      intro c hc
      simp only [List.mem_append, List.mem_singleton] at hc
      rcases hc with hc | rfl
      · exact ih _ (Nat.div_lt_self (by omega) (by omega)) c hc
      · exact isDigit_digitChar (Nat.mod_lt _ (by omega))

theorem natStr_head_zero {n : Nat} (h : (natStr 10 n).head? = some '0') : n = 0 := by
  induction n using Nat.strongRecOn with
  | _ n ih =>
    rw [natStr] at h
    split at h
    next hn =>
      have key : ∀ n < 10, digitChar n = '0' → n = 0 := by decide
      exact key n (by omega) (by simpa using h)
    next hn =>
      have hne := natStr_ne_nil 10 (n / 10)
      have h' : (natStr 10 (n / 10)).head? = some '0' := by
        cases hs : natStr 10 (n / 10) with
        | nil => exact absurd hs hne
        | cons c r => rw [hs] at h; simpa using h
      have := ih _ (Nat.div_lt_self (by omega) (by omega)) h'
      omega

theorem not_isDigit_plus : isDigit '+' = false := by decide
theorem not_isDigit_minus : isDigit '-' = false := by decide

theorem natStr_head_ne {c : Char} (hc : isDigit c = false) (n : Nat) (r : Str) :
    natStr 10 n ≠ c :: r := by
  intro h
  have := natStr_digits rfl n c (by rw [h]; simp)
  rw [hc] at this; exact Bool.noConfusion this

theorem parseUnsigned_natStr {max n : Nat} (h : n ≤ max) :
    parseUnsigned 10 max (natStr 10 n) = some n := by
  unfold parseUnsigned
  split
  next r hr => exact absurd hr (natStr_head_ne not_isDigit_plus _ _)
  next =>
    simp only [natStr_ne_nil, if_false, digitsVal_natStr_acc (b := 10) (by omega) (by omega)]
    simp [h]

theorem signSplit_natStr (n : Nat) : signSplit (natStr 10 n) = (false, natStr 10 n) := by
  unfold signSplit
  split
  next r hr => exact absurd hr (natStr_head_ne not_isDigit_plus _ _)
  next r hr => exact absurd hr (natStr_head_ne not_isDigit_minus _ _)
  next => rfl

theorem parseSigned_intStr {lo hi n : Int} (h1 : lo ≤ n) (h2 : n ≤ hi) :
    parseSigned lo hi (intStr n) = some n := by
  unfold parseSigned
  cases n with
  | ofNat n =>
    simp only [intStr, signSplit_natStr, natStr_ne_nil, if_false,
      digitsVal_natStr_acc (b := 10) (by omega) (by omega)]
    simp at h1 h2 ⊢
    exact ⟨h1, h2⟩
  | negSucc n =>
    simp only [intStr, signSplit, natStr_ne_nil, if_false,
      digitsVal_natStr_acc (b := 10) (by omega) (by omega), if_true]
    have e : -((n + 1 : Nat) : Int) = Int.negSucc n := rfl
    rw [e, if_pos ⟨h1, h2⟩]

end Swrs
