import Verif.Base.Num
/-! Which texts are numbers. -/
namespace Swrs

/-- Value of a sequence of decimal digits. -/
def decimal (d : Str) : Nat := d.foldl (fun acc c => acc * 10 + (c.toNat - 48)) 0

/-- `d` is a sequence of one or more ASCII digits. -/
def Digits (d : Str) : Prop := d ≠ [] ∧ ∀ c ∈ d, isDigit c = true

theorem digitVal_ten (c : Char) : digitVal 10 c = if isDigit c = true then some (c.toNat - 48) else none := by
  unfold digitVal isDigit
  simp only [Bool.and_eq_true, decide_eq_true_eq]
  split
  next h =>
    have : c.toNat - 48 < 10 := by omega
    simp [Option.filter, this]
  next h =>
    split
    next h2 =>
      have : ¬ c.toNat - 87 < 10 := by omega
      simp [Option.filter, this]
    next h2 =>
      split
      next h3 =>
        have : ¬ c.toNat - 55 < 10 := by omega
        simp [Option.filter, this]
      next => rfl

theorem digitsVal_ten {s : Str} {acc n : Nat} : digitsVal 10 s acc = some n ↔
    (∀ c ∈ s, isDigit c = true) ∧ s.foldl (fun acc c => acc * 10 + (c.toNat - 48)) acc = n := by
  induction s generalizing acc with
  | nil => simp [digitsVal]
  | cons c s ih =>
    rw [digitsVal, digitVal_ten]
    by_cases h : isDigit c = true
    · simp [h, ih]
    · simp [h]

/-- The texts read as a number by the unsigned integer types. -/
theorem parseUnsigned_iff {max : Nat} {s : Str} {n : Nat} : parseUnsigned 10 max s = some n ↔
    n ≤ max ∧ ∃ d, Digits d ∧ decimal d = n ∧ (s = d ∨ s = '+' :: d) := by
  have key : ∀ d : Str, ((if d = [] then none else (digitsVal 10 d 0).filter (· ≤ max)) = some n ↔
      n ≤ max ∧ Digits d ∧ decimal d = n) := by
    intro d
    by_cases h : d = []
    · simp [h, Digits]
    · rw [if_neg h, Option.filter_eq_some_iff, digitsVal_ten]
      simp only [Digits, decimal, ne_eq, h, not_false_eq_true, true_and, decide_eq_true_eq]
      grind
  unfold parseUnsigned
  simp only
  rw [key]
  constructor
  · rintro ⟨h1, h2, h3⟩
    refine ⟨h1, _, h2, h3, ?_⟩
    split
    · exact .inr rfl
    · exact .inl rfl
  · rintro ⟨h1, d, h2, h3, h4⟩
    rcases h4 with rfl | rfl
    · refine ⟨h1, ?_⟩
      split
      next r =>
        have := h2.2 '+' (by simp)
        rw [not_isDigit_plus] at this; simp at this
      next => exact ⟨h2, h3⟩
    · exact ⟨h1, h2, h3⟩
end Swrs
