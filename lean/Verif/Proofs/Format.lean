import Verif.Model.Project
import Verif.Model.Resource
import Verif.Model.Library
import Verif.Model.View
import Verif.Model.Logic
/-!
# The text of records: specification and lemmas
-/
namespace Swrs
namespace Format

/-! ## Specification -/

/-- Decimal text of an integer. -/
def number (n : Int) : Str := (toString n).toList

/-- A character inside a JSON string: `"`, `\` and control characters are escaped, all others stand for themselves. -/
def character (c : Char) : Str :=
  match c with
  | '"' => ['\\', '"']
  | '\\' => ['\\', '\\']
  | '\x08' => ['\\', 'b']
  | '\t' => ['\\', 't']
  | '\n' => ['\\', 'n']
  | '\x0c' => ['\\', 'f']
  | '\r' => ['\\', 'r']
  | c => if c < ' ' then ['\\', 'u', '0', '0', (c.toNat / 16).digitChar, (c.toNat % 16).digitChar] else [c]

/-- A JSON string. -/
def string (s : Str) : Str := ['"'] ++ s.flatMap character ++ ['"']

/-- Texts with commas between them. -/
def commas : List Str → Str
  | [] => []
  | [t] => t
  | t :: ts => t ++ [','] ++ commas ts

/-- A JSON array of values given as texts. -/
def array (vs : List Str) : Str := ['['] ++ commas vs ++ [']']

/-- A JSON object, without white space, with these keys in this order and values given as texts. -/
def record (ms : List (String × Str)) : Str :=
  ['{'] ++ commas (ms.map fun m => string m.1.toList ++ [':'] ++ m.2) ++ ['}']

/-- A colour is the signed 32-bit number with the bits `0xAARRGGBB`. -/
def color (c : Color) : Str := number (if c.value.toNat < 2147483648 then c.value.toNat else (c.value.toNat : Int) - 4294967296)

/-- A flag is `1` or `0`. -/
def flag (b : Bool) : Str := if b then ['1'] else ['0']

/-- A member that is left out when it has no value. -/
def ifSome (k : String) : Option Str → List (String × Str)
  | none => []
  | some s => [(k, string s)]

/-! ## Lemmas -/

theorem natStr_eq (n : Nat) : natStr 10 n = Nat.toDigits 10 n := by
  induction n using Nat.strongRecOn with
  | ind n ih =>
    have hd : ∀ n < 10, digitChar n = n.digitChar := by decide
    rw [natStr]
    by_cases h : n < 10
    · rw [dif_pos (Or.inl h), Nat.toDigits_of_lt_base h, hd n h]
    · rw [dif_neg (by omega), Nat.toDigits_of_base_le (by omega) (by omega), ih (n / 10) (by omega),
        hd _ (Nat.mod_lt _ (by omega))]

theorem intStr_eq (n : Int) : intStr n = number n := by
  unfold number
  cases n with
  | ofNat n => exact (natStr_eq n).trans Nat.toList_repr.symm
  | negSucc n =>
    show '-' :: natStr 10 (n + 1) = ("-" ++ (n + 1).repr).toList
    rw [String.toList_append, Nat.toList_repr, natStr_eq]
    rfl

theorem print_encInt (n : Int) : (Json.encInt n).print = number n := intStr_eq n

theorem escChar_eq (c : Char) : Json.escChar c = character c := by
  by_cases h : c.toNat < 128
  · have key : ∀ n < 128, Json.escChar (Char.ofNat n) = character (Char.ofNat n) := by decide +kernel
    have := key c.toNat h
    rwa [Char.ofNat_toNat] at this
  · have hne : ∀ d : Char, d.toNat < 128 → c ≠ d := fun d hd he => h (he ▸ hd)
    have hlt : ¬ c < ' ' := by
      intro hc
      have : c.toNat < ' '.toNat := hc
      have h2 : ' '.toNat = 32 := by decide
      omega
    have h2 : character c = [c] := by
      unfold character
      split
      · exact absurd rfl (hne '"' (by decide))
      · exact absurd rfl (hne '\\' (by decide))
      · exact absurd rfl (hne '\x08' (by decide))
      · exact absurd rfl (hne '\t' (by decide))
      · exact absurd rfl (hne '\n' (by decide))
      · exact absurd rfl (hne '\x0c' (by decide))
      · exact absurd rfl (hne '\r' (by decide))
      · rw [if_neg hlt]
    rw [h2]
    unfold Json.escChar
    rw [if_neg (hne '"' (by decide)), if_neg (hne '\\' (by decide)), if_neg (by omega), if_neg (by omega), if_neg (by omega),
      if_neg (by omega), if_neg (by omega), if_neg (by omega)]

theorem quote_eq (s : Str) : Json.quote s = string s := by
  have : ∀ s, Json.escStr s = s.flatMap character := by
    intro s
    induction s with
    | nil => rfl
    | cons c s ih => simp [Json.escStr, ih, escChar_eq]
  simp [Json.quote, string, this]

theorem print_str (s : Str) : (Json.str s).print = string s := by
  rw [Json.print, quote_eq]

theorem print_arr (vs : List Json) : (Json.arr vs).print = array (vs.map Json.print) := by
  have : ∀ vs, Json.printArr vs = commas (vs.map Json.print) := by
    intro vs
    induction vs with
    | nil => rfl
    | cons v vs ih =>
      cases vs with
      | nil => rfl
      | cons w vs => rw [Json.printArr, ih]; simp [commas]
  simp [Json.print, array, this]

theorem print_obj (ms : List (Str × Json)) :
    (Json.obj ms).print = ['{'] ++ commas (ms.map fun m => string m.1 ++ [':'] ++ m.2.print) ++ ['}'] := by
  have : ∀ ms, Json.printObj ms = commas (ms.map fun m => string m.1 ++ [':'] ++ m.2.print) := by
    intro ms
    induction ms with
    | nil => rfl
    | cons m ms ih =>
      obtain ⟨k, v⟩ := m
      cases ms with
      | nil => simp [Json.printObj, commas, quote_eq]
      | cons w ms => rw [Json.printObj, ih]; simp [commas, quote_eq]
  simp [Json.print, this]

/-- An object whose members are the ones given as texts. -/
theorem print_record {ms : List (Str × Json)} {ts : List (String × Str)}
    (h : ms.map (fun m => (m.1, m.2.print)) = ts.map fun t => (t.1.toList, t.2)) : (Json.obj ms).print = record ts := by
  rw [print_obj, record]
  have e1 : (ms.map fun m => string m.1 ++ [':'] ++ m.2.print) =
      (ms.map (fun m => (m.1, m.2.print))).map fun t => string t.1 ++ [':'] ++ t.2 := by simp
  rw [e1, h, List.map_map]
  rfl

theorem print_encU8 (n : UInt8) : (Json.encU8 n).print = number n.toNat := print_encInt _
theorem print_encU32 (n : UInt32) : (Json.encU32 n).print = number n.toNat := print_encInt _
theorem print_encI8 (n : Int8) : (Json.encI8 n).print = number n.toInt := print_encInt _
theorem print_encI16 (n : Int16) : (Json.encI16 n).print = number n.toInt := print_encInt _
theorem print_encI32 (n : Int32) : (Json.encI32 n).print = number n.toInt := print_encInt _

theorem print_color (c : Color) : c.enc.print = color c := by
  unfold Color.enc color
  rw [print_encI32]
  congr 1
  have h1 : c.value.toInt32.toInt = c.value.toBitVec.toInt := rfl
  rw [h1, BitVec.toInt_eq_toNat_cond]
  have := c.value.toNat_lt
  have h2 : c.value.toBitVec.toNat = c.value.toNat := rfl
  rw [h2]
  split <;> split <;> omega

theorem print_flag (b : Bool) : (encOneZero b).print = flag b := by cases b <;> decide +kernel

theorem print_u16 (n : UInt16) : (Project.encU16Str n).print = string (number n.toNat) := by
  unfold Project.encU16Str
  rw [print_str, natStr_eq]
  unfold number
  rw [show (toString (n.toNat : Int)) = n.toNat.repr from rfl, Nat.toList_repr]

end Format
end Swrs
