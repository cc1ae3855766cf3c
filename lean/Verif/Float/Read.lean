import Verif.Float.Text
import Verif.Json.Grammar
/-!
# Reading of decimal texts
-/
namespace Swrs.Ieee

theorem digitsNat_append (s : Str) (c : Char) : digitsNat (s ++ [c]) = digitsNat s * 10 + (c.toNat - 48) := by
  simp [digitsNat, List.foldl_append]

theorem digitChar_toNat {m : Nat} (h : m < 10) : (digitChar m).toNat - 48 = m := by
  have key : ∀ m < 10, (digitChar m).toNat - 48 = m := by decide
  exact key m h

theorem digitsNat_natStr (n : Nat) : digitsNat (natStr 10 n) = n := by
  induction n using Nat.strongRecOn with
  | _ n ih =>
    rw [natStr]
    split
    next h =>
      have := digitChar_toNat (m := n) (by omega)
      simpa [digitsNat] using this
    next h =>
      simp only [not_or, Nat.not_lt] at h
      rw [digitsNat_append, ih _ (Nat.div_lt_self (by omega) (by omega)), digitChar_toNat (Nat.mod_lt _ (by omega)), Nat.mul_comm]
      exact Nat.div_add_mod n 10

theorem le_foldl (ds : Str) (a : Nat) : a ≤ ds.foldl (fun a c => a * 10 + (c.toNat - 48)) a := by
  induction ds generalizing a with
  | nil => exact Nat.le_refl _
  | cons c cs ih => exact Nat.le_trans (show a ≤ a * 10 + (c.toNat - 48) by omega) (ih _)

theorem pushDigits_of_le (ds : Str) (a : Nat)
    (h : ds.foldl (fun a c => a * 10 + (c.toNat - 48)) a ≤ 18446744073709551615) :
    pushDigits a ds = (ds.foldl (fun a c => a * 10 + (c.toNat - 48)) a, 0) := by
  induction ds generalizing a with
  | nil => rfl
  | cons c cs ih =>
    have h' := Nat.le_trans (le_foldl cs (a * 10 + (c.toNat - 48))) h
    simp only [pushDigits, List.foldl_cons]
    rw [if_neg (by omega)]
    exact ih _ h

theorem pushDigits_natStr {n : Nat} (h : n ≤ 18446744073709551615) : pushDigits 0 (natStr 10 n) = (n, 0) := by
  have e : (natStr 10 n).foldl (fun a c => a * 10 + (c.toNat - 48)) 0 = n := digitsNat_natStr n
  rw [pushDigits_of_le _ _ (by rw [e]; exact h), e]

theorem natStr_all (n : Nat) : (natStr 10 n).all isDigit = true := by
  simpa [List.all_eq_true] using natStr_digits rfl n

theorem readExp_plain (e : Int) : readExp ('e' :: intStr e) = some (some e) := by
  cases e with
  | ofNat n => simp [readExp, intStr, signSplit_natStr, natStr_ne_nil, natStr_all, digitsNat_natStr]
  | negSucc n =>
    simp only [readExp, intStr, signSplit, natStr_all, digitsNat_natStr]
    simp [natStr_ne_nil, Int.negSucc_eq]

theorem takeWhile_digits {ds : Str} (h : ∀ c ∈ ds, isDigit c = true) {c : Char} (hc : isDigit c = false) (r : Str) :
    (ds ++ c :: r).takeWhile isDigit = ds ∧ (ds ++ c :: r).dropWhile isDigit = c :: r := by
  constructor
  · rw [List.takeWhile_append_of_pos h]; simp [hc]
  · rw [List.dropWhile_append_of_pos h]; simp [hc]

theorem readDecimal_plain (q : Nat) (e : Int) : readDecimal (plain q e) = some ⟨natStr 10 q, [], some e⟩ := by
  have ⟨h1, h2⟩ := takeWhile_digits (natStr_digits rfl q) (c := 'e') (by decide) (intStr e)
  unfold readDecimal plain
  simp only [h1, h2]
  simp [natStr_ne_nil, readExp_plain, readFrac]

theorem signSplit_plain (q : Nat) (e : Int) : signSplit (plain q e) = (false, plain q e) := by
  unfold plain
  cases h : natStr 10 q with
  | nil => exact absurd h (natStr_ne_nil 10 q)
  | cons c r =>
    have hc : isDigit c = true := natStr_digits rfl q c (by rw [h]; simp)
    simp only [List.cons_append]
    unfold signSplit
    split
    next h' => obtain ⟨rfl, _⟩ := List.cons.inj h'; exact absurd hc (by decide)
    next h' => obtain ⟨rfl, _⟩ := List.cons.inj h'; exact absurd hc (by decide)
    next => rfl

theorem signSplit_signed (neg : Bool) (q : Nat) (e : Int) : signSplit (signed neg (plain q e)) = (neg, plain q e) := by
  cases neg
  · exact signSplit_plain q e
  · rfl

theorem isNumTok_plain (neg : Bool) (q : Nat) (e : Int) : Json.isNumTok (signed neg (plain q e)) = true := by
  have hu : Json.UNumber (plain q e) := by
    refine ⟨natStr 10 q, [], 'e' :: intStr e, rfl, ?_, .inl rfl, .inr ?_⟩
    · by_cases h : q = 0
      · subst h; exact .inl (by decide +kernel)
      · exact .inr ⟨⟨natStr_ne_nil _ _, natStr_digits rfl q⟩, fun h' => h (natStr_head_zero h')⟩
    · cases e with
      | ofNat n => exact ⟨'e', natStr 10 n, .inl rfl, ⟨natStr_ne_nil _ _, natStr_digits rfl n⟩, .inl rfl⟩
      | negSucc n => exact ⟨'e', natStr 10 (n + 1), .inl rfl, ⟨natStr_ne_nil _ _, natStr_digits rfl _⟩, .inr (.inr rfl)⟩
  cases neg
  · exact Json.isNumTok_of_number (.inl hu)
  · exact Json.isNumTok_of_number (.inr ⟨_, hu, rfl⟩)

/-- Texts that parse to a number do not begin with `@`. -/
theorem readF64_at {s : Str} {v : Value f64} (h : readF64 s = some v) : s.head? ≠ some '@' := by
  intro hs
  obtain ⟨r, rfl⟩ : ∃ r, s = '@' :: r := by
    cases s with
    | nil => simp at hs
    | cons c r => simp at hs; subst hs; exact ⟨r, rfl⟩
  have hd : readDecimal ('@' :: r) = none := by
    have h1 : ('@' :: r).takeWhile isDigit = [] := by simp [show isDigit '@' = false by decide]
    have h2 : ('@' :: r).dropWhile isDigit = '@' :: r := by simp [show isDigit '@' = false by decide]
    simp [readDecimal, readFrac, h1, h2]
  have hl : ∃ t, lower ('@' :: r) = '@' :: t := ⟨_, rfl⟩
  obtain ⟨t, ht⟩ := hl
  simp [readF64, signSplit, hd, ht] at h

theorem round_exact {F : Format} (hp : F.prec ≠ 0) (neg : Bool) {k d : Nat} (h : Rep F.prec k ∧ k < F.top) (hd : 0 < d) :
    Value.round F hp neg (k * d) d = .fin neg ⟨k, h⟩ := by
  have hr : roundTo F.prec (k * d) d = k := roundTo_exact hd h.1
  simp only [Value.round]
  rw [dif_pos ⟨hd, by rw [hr]; exact h.2⟩]
  simp only [hr]

theorem ratio_neg (sig m : Nat) : ratio sig (-(m : Int)) = (sig, 10 ^ m) := by
  have e1 : (-(m : Int)).toNat = 0 := by omega
  have e2 : (- -(m : Int)).toNat = m := by omega
  simp only [ratio, e1, e2, Nat.pow_zero, Nat.mul_one]

theorem readF64_plain (neg : Bool) (k m : Nat) (h : Rep f64.prec k ∧ k < f64.top) (hm : m = 1074) :
    readF64 (signed neg (plain (k * 5 ^ m) (-(m : Int)))) = some (.fin neg ⟨k, h⟩) := by
  unfold readF64
  rw [signSplit_signed]
  have e0 : (-(m : Int)) - (([] : Str).length : Int) = -(m : Int) := by simp
  simp only [readDecimal_plain, List.append_nil, digitsNat_natStr, Option.getD_some, e0, ratio_neg]
  rw [← hm, Nat.mul_assoc, ← Nat.mul_pow, round_exact _ _ h (Nat.pow_pos (by decide))]

/-- The first text that reads back, or else one that does. -/
theorem find_reads {β : Type} [DecidableEq β] (l : List Str) (f : Str → Option β) (v : β) (t : Str) (h : f t = some v) :
    f ((l.find? fun t => decide (f t = some v)).getD t) = some v := by
  cases hf : l.find? (fun t => decide (f t = some v)) with
  | none => exact h
  | some u =>
    have := List.find?_some hf
    exact of_decide_eq_true this

/-- Every value other than NaN is the value of its text. -/
theorem readF64_showF64 (x : Value f64) (hx : x ≠ .nan) : readF64 (showF64 x) = some x := by
  match x with
  | .nan => exact absurd rfl hx
  | .inf true => decide +kernel
  | .inf false => decide +kernel
  | .fin neg ⟨k, h⟩ =>
    simp only [showF64]
    split
    · next h0 =>
      subst h0
      cases neg
      · have ⟨_, z⟩ : ∃ h, readF64 (s% "0") = some (.fin false ⟨0, h⟩) := ⟨by decide +kernel, by decide +kernel⟩
        exact z
      · have ⟨_, z⟩ : ∃ h, readF64 (s% "-0") = some (.fin true ⟨0, h⟩) := ⟨by decide +kernel, by decide +kernel⟩
        exact z
    · exact find_reads _ readF64 _ _ (readF64_plain neg k 1074 h rfl)

end Swrs.Ieee
