import Verif.Float.Correct
/-!
# The texts of decimals

What `layout64` and `layout32` write for a decimal, and how it is read.
-/
namespace Swrs.Ieee

/-! ### Digits -/

theorem natStr_step {n : Nat} (h : 10 ≤ n) : natStr 10 n = natStr 10 (n / 10) ++ [digitChar (n % 10)] := by
  rw [natStr, dif_neg (by omega)]

theorem digitChar_zero {m : Nat} (h : m < 10) : digitChar m = '0' ↔ m = 0 := by
  have key : ∀ m < 10, (digitChar m = '0' ↔ m = 0) := by decide
  exact key m h

theorem natStr_mul_pow {m : Nat} (hm : m ≠ 0) (z : Nat) : natStr 10 (m * 10 ^ z) = natStr 10 m ++ List.replicate z '0' := by
  induction z with
  | zero => simp
  | succ z ih =>
    have h1 : 1 ≤ m * 10 ^ z := Nat.mul_pos (Nat.pos_of_ne_zero hm) (Nat.pow_pos (by decide))
    have e : m * 10 ^ (z + 1) = m * 10 ^ z * 10 := by rw [Nat.pow_succ, Nat.mul_assoc]
    rw [natStr_step (by omega), e, Nat.mul_div_cancel _ (by decide), Nat.mul_mod_left, ih, List.append_assoc]
    congr 1
    rw [List.replicate_succ']
    rfl

theorem takeWhile_reverse_natStr {m : Nat} (h : m % 10 ≠ 0) (z : Nat) :
    ((natStr 10 m ++ List.replicate z '0').reverse.takeWhile (· = '0')).length = z := by
  rw [List.reverse_append, List.reverse_replicate]
  have hl : ∃ r, (natStr 10 m).reverse = digitChar (m % 10) :: r := by
    by_cases hm : 10 ≤ m
    · rw [natStr_step hm]; simp
    · rw [natStr, dif_pos (by omega), Nat.mod_eq_of_lt (by omega)]; simp
  obtain ⟨r, hr⟩ := hl
  rw [hr]
  have hc : decide (digitChar (m % 10) = '0') = false := by
    rw [decide_eq_false_iff_not, digitChar_zero (Nat.mod_lt _ (by decide))]; exact h
  rw [List.takeWhile_append_of_pos (by simp)]
  simp [hc]

theorem exists_strip (q : Nat) (hq : q ≠ 0) : ∃ m z, q = m * 10 ^ z ∧ m % 10 ≠ 0 := by
  induction q using Nat.strongRecOn with
  | _ q ih =>
    by_cases h : q % 10 = 0
    · obtain ⟨m, z, hm, hz⟩ := ih (q / 10) (by omega) (by omega)
      exact ⟨m, z + 1, by rw [Nat.pow_succ, ← Nat.mul_assoc, ← hm]; omega, hz⟩
    · exact ⟨q, 0, by simp, h⟩

/-- Without the zeros at the end. -/
theorem stripZeros_spec {m z : Nat} (h : m % 10 ≠ 0) (e : ℤ) : stripZeros (m * 10 ^ z) e = (natStr 10 m, e + z) := by
  have hm : m ≠ 0 := by rintro rfl; simp at h
  unfold stripZeros
  simp only [natStr_mul_pow hm, takeWhile_reverse_natStr h]
  simp

/-! ### Numbers made of their parts -/

/-- The text of an exponent. -/
def expText : Option ℤ → Str
  | none => []
  | some x => 'e' :: intStr x

/-- The text of a number without sign. -/
def number (int frac : Str) (x : Option ℤ) : Str := int ++ ((if frac = [] then [] else '.' :: frac) ++ expText x)

/-- Digits before the point, as JSON has them. -/
def IntPart (int : Str) : Prop := int = ['0'] ∨ (Json.Digs int ∧ int.head? ≠ some '0')

theorem intPart_natStr (n : Nat) : IntPart (natStr 10 n) := by
  by_cases h : n = 0
  · subst h; exact .inl (by decide +kernel)
  · exact .inr ⟨⟨natStr_ne_nil _ _, natStr_digits rfl n⟩, fun h' => h (natStr_head_zero h')⟩

theorem IntPart.digits {int : Str} (h : IntPart int) : int ≠ [] ∧ ∀ c ∈ int, isDigit c = true := by
  rcases h with rfl | h
  · exact ⟨by simp, by decide⟩
  · exact h.1

theorem readExp_number (x : Option ℤ) : readExp (expText x) = some x := by
  cases x with
  | none => rfl
  | some x => exact readExp_plain x

theorem exp_head (x : Option ℤ) : ∀ c r, expText x = c :: r → c = 'e' := by
  intro c r h
  cases x with
  | none => simp [expText] at h
  | some x => exact (List.cons.inj h).1.symm

theorem takeWhile_digits' {ds rest : Str} (h : ∀ c ∈ ds, isDigit c = true) (hr : ∀ c r, rest = c :: r → isDigit c = false) :
    (ds ++ rest).takeWhile isDigit = ds ∧ (ds ++ rest).dropWhile isDigit = rest := by
  rw [List.takeWhile_append_of_pos h, List.dropWhile_append_of_pos h]
  cases rest with
  | nil => simp
  | cons c r => simp [hr c r rfl]

theorem readDecimal_number {int frac : Str} {x : Option ℤ} (hi : IntPart int) (hf : ∀ c ∈ frac, isDigit c = true) :
    readDecimal (number int frac x) = some ⟨int, frac, x⟩ := by
  obtain ⟨hne, hd⟩ := hi.digits
  have hex := readExp_number x
  have hh := exp_head x
  unfold number
  generalize expText x = t at *
  by_cases h : frac = []
  · subst h
    have ⟨t1, t2⟩ := takeWhile_digits' (rest := t) hd (fun c r h => by rw [hh c r h]; decide)
    unfold readDecimal
    rw [if_pos rfl, List.nil_append, t1, t2]
    have hfr : readFrac t = ([], t) := by
      unfold readFrac
      split
      · next r => exact absurd (hh _ _ rfl) (by decide)
      · rfl
    simp only [hfr]
    rw [if_neg (fun h => hne h.1), hex]; rfl
  · rw [if_neg h]
    have ⟨t1, t2⟩ := takeWhile_digits' (rest := ('.' :: frac) ++ t) hd (fun c r h => by
      obtain ⟨rfl, _⟩ := List.cons.inj h; decide)
    have ⟨t3, t4⟩ := takeWhile_digits' (rest := t) hf (fun c r h => by rw [hh c r h]; decide)
    unfold readDecimal
    rw [t1, t2]
    have hfr : readFrac (('.' :: frac) ++ t) = (frac, t) := by
      show (List.takeWhile isDigit (frac ++ t), List.dropWhile isDigit (frac ++ t)) = _
      rw [t3, t4]
    simp only [hfr]
    rw [if_neg (fun h => hne h.1), hex]; rfl

theorem number_isNumber {int frac : Str} {x : Option ℤ} (hi : IntPart int) (hf : ∀ c ∈ frac, isDigit c = true) :
    Json.UNumber (number int frac x) := by
  refine ⟨int, _, _, rfl, hi, ?_, ?_⟩
  · by_cases h : frac = []
    · exact .inl (if_pos h)
    · exact .inr ⟨frac, ⟨h, hf⟩, if_neg h⟩
  · cases x with
    | none => exact .inl rfl
    | some x =>
      refine .inr ?_
      cases x with
      | ofNat n => exact ⟨'e', natStr 10 n, .inl rfl, ⟨natStr_ne_nil _ _, natStr_digits rfl n⟩, .inl rfl⟩
      | negSucc n => exact ⟨'e', natStr 10 (n + 1), .inl rfl, ⟨natStr_ne_nil _ _, natStr_digits rfl _⟩, .inr (.inr rfl)⟩

theorem signSplit_number {int frac : Str} {x : Option ℤ} (neg : Bool) (hi : IntPart int) :
    signSplit (signed neg (number int frac x)) = (neg, number int frac x) := by
  cases neg
  · obtain ⟨hne, hd⟩ := hi.digits
    cases int with
    | nil => exact absurd rfl hne
    | cons c r =>
      have hc := hd c (by simp)
      show signSplit (number (c :: r) frac x) = _
      unfold number signSplit
      simp only [List.cons_append]
      split
      next h' => obtain ⟨rfl, _⟩ := List.cons.inj h'; exact absurd hc (by decide)
      next h' => obtain ⟨rfl, _⟩ := List.cons.inj h'; exact absurd hc (by decide)
      next => rfl
  · rfl

theorem isNumTok_number {int frac : Str} {x : Option ℤ} (neg : Bool) (hi : IntPart int) (hf : ∀ c ∈ frac, isDigit c = true) :
    Json.isNumTok (signed neg (number int frac x)) = true := by
  have hu := number_isNumber (x := x) hi hf
  cases neg
  · exact Json.isNumTok_of_number (.inl hu)
  · exact Json.isNumTok_of_number (.inr ⟨_, hu, rfl⟩)

theorem digitsNat_append' (s t : Str) : digitsNat (s ++ t) = t.foldl (fun a c => a * 10 + (c.toNat - 48)) (digitsNat s) := by
  simp [digitsNat, List.foldl_append]

/-- `serde_json` on a number whose digits fit in 64 bits, and which is not a whole number. -/
theorem readNumber_number {int frac : Str} {x : Option ℤ} (neg : Bool) (hi : IntPart int) (hf : ∀ c ∈ frac, isDigit c = true)
    (hfx : frac ≠ [] ∨ x ≠ none) (hx : (x.getD 0).natAbs ≤ 2147483647) (hs : digitsNat (int ++ frac) ≤ 18446744073709551615) :
    ∃ fuel, readNumber (signed neg (number int frac x)) =
      (fromParts fuel (r64 (digitsNat (int ++ frac)) 1) (x.getD 0 - frac.length)).map (.f64 neg) := by
  refine ⟨(-(x.getD 0 - frac.length)).toNat / 308 + 1, ?_⟩
  rw [digitsNat_append'] at hs ⊢
  have h1 : pushDigits 0 int = (digitsNat int, 0) := pushDigits_of_le _ _ (Nat.le_trans (le_foldl frac _) hs)
  have h2 := pushDigits_of_le frac (digitsNat int) hs
  unfold readNumber
  rw [signSplit_number neg hi]
  simp only [isNumTok_number neg hi hf, if_true, readDecimal_number hi hf, Option.bind_some, h1]
  rw [if_neg (by rcases hfx with h | h <;> simp [h])]
  simp only [h2, Nat.sub_zero]
  cases x with
  | none =>
    simp only [Option.getD_none]
    rw [show (((0 : Nat) : ℤ) - (frac.length : ℤ)) = 0 - (frac.length : ℤ) from rfl]
  | some x =>
    simp only [Option.getD_some] at hx ⊢
    rw [if_neg (by omega), show (((0 : Nat) : ℤ) - (frac.length : ℤ)) + x = x - (frac.length : ℤ) by push_cast; ring]

/-! ### Layouts -/

theorem digits_replicate (n : Nat) : ∀ c ∈ List.replicate n '0', isDigit c = true := by
  intro c hc; rw [List.eq_of_mem_replicate hc]; decide

theorem digitsNat_zeros (n : Nat) (s : Str) : digitsNat (List.replicate n '0' ++ s) = digitsNat s := by
  induction n with
  | zero => simp
  | succ n ih => rw [List.replicate_succ, List.cons_append, ← ih]; rfl

/-- What a layout is: digits around a point, perhaps an exponent; the digits are the decimal, perhaps with zeros around it. -/
structure IsLayout (s : Str) (m : Nat) (k : ℤ) (z : Nat) (int frac : Str) (x : Option ℤ) : Prop where
  text : s = number int frac x
  intPart : IntPart int
  fracDigits : ∀ c ∈ frac, isDigit c = true
  value : digitsNat (int ++ frac) = m * 10 ^ z
  expo : x.getD 0 - frac.length = k - z

theorem intPart_take {m n : Nat} (hm : m ≠ 0) (hn : 0 < n) : IntPart ((natStr 10 m).take n) := by
  have h0 := natStr_ne_nil 10 m
  have hz : (natStr 10 m).head? ≠ some '0' := fun h => hm (natStr_head_zero h)
  have hd := natStr_digits rfl m
  refine .inr ⟨⟨?_, fun c hc => hd c (List.mem_of_mem_take hc)⟩, ?_⟩
  · cases h : natStr 10 m with
    | nil => exact absurd h h0
    | cons c r => cases n with
      | zero => omega
      | succ n => simp
  · rw [List.head?_take]
    rwa [if_neg (by omega)]

theorem getLast_natStr {m : Nat} (hm : m % 10 ≠ 0) : (natStr 10 m).getLast? ≠ some '0' := by
  have hl : ∃ r, natStr 10 m = r ++ [digitChar (m % 10)] := by
    by_cases h : 10 ≤ m
    · exact ⟨_, natStr_step h⟩
    · rw [natStr, dif_pos (by omega), Nat.mod_eq_of_lt (by omega)]; exact ⟨[], rfl⟩
  obtain ⟨r, hr⟩ := hl
  rw [hr, List.getLast?_append]
  simp only [List.getLast?_singleton]
  intro h
  have : digitChar (m % 10) = '0' := by simpa using h
  exact hm ((digitChar_zero (Nat.mod_lt _ (by decide))).mp this)

theorem getLast_drop {α : Type} (l : List α) {n : Nat} (h : n < l.length) : (l.drop n).getLast? = l.getLast? := by
  rw [List.getLast?_drop, if_neg (by omega)]

theorem digits_drop {m : Nat} (n : Nat) : ∀ c ∈ (natStr 10 m).drop n, isDigit c = true :=
  fun c hc => natStr_digits rfl m c (List.mem_of_mem_drop hc)

/-- A whole number. -/
theorem isLayout_whole {m n : Nat} (hm : m ≠ 0) : IsLayout (natStr 10 m ++ List.replicate n '0') m n n (natStr 10 m ++ List.replicate n '0') [] none := by
  rw [← natStr_mul_pow hm]
  refine ⟨by simp [number, expText], intPart_natStr _, by simp, ?_, by simp⟩
  rw [List.append_nil, digitsNat_natStr]

/-- A whole number with `.0`. -/
theorem isLayout_whole' {m n : Nat} (hm : m ≠ 0) :
    IsLayout (natStr 10 m ++ List.replicate n '0' ++ s% ".0") m n (n + 1) (natStr 10 m ++ List.replicate n '0') ['0'] none := by
  rw [← natStr_mul_pow hm]
  refine ⟨by simp [number, expText], intPart_natStr _, by decide, ?_, by simp⟩
  rw [digitsNat_append, digitsNat_natStr, Nat.pow_succ, Nat.mul_assoc]; rfl

/-- Digits before and after the point. -/
theorem isLayout_split {m n : Nat} (hm : m ≠ 0) (h0 : 0 < n) (h : n < decLen m) (x : Option ℤ) :
    IsLayout ((natStr 10 m).take n ++ '.' :: (natStr 10 m).drop n ++ expText x) m (x.getD 0 + n - decLen m) 0
      ((natStr 10 m).take n) ((natStr 10 m).drop n) x := by
  have hne : (natStr 10 m).drop n ≠ [] := by
    rw [Ne, List.drop_eq_nil_iff]; unfold decLen at h; omega
  refine ⟨by simp [number, hne], intPart_take hm h0, digits_drop n, ?_, ?_⟩
  · rw [List.take_append_drop, digitsNat_natStr]; simp
  · rw [List.length_drop]
    unfold decLen at *
    omega

/-- Zero before the point, and zeros after it. -/
theorem isLayout_small {m n : Nat} :
    IsLayout (s% "0." ++ List.replicate n '0' ++ natStr 10 m) m (-n - decLen m) 0 (s% "0") (List.replicate n '0' ++ natStr 10 m) none := by
  have hne : List.replicate n '0' ++ natStr 10 m ≠ [] := by simp [natStr_ne_nil]
  refine ⟨by simp [number, expText, natStr_ne_nil], .inl rfl, ?_, ?_, ?_⟩
  · intro c hc
    rcases List.mem_append.mp hc with h | h
    · exact digits_replicate n c h
    · exact natStr_digits rfl m c h
  · have : s% "0" = List.replicate 1 '0' := rfl
    rw [this, digitsNat_zeros, digitsNat_zeros, digitsNat_natStr]; simp
  · simp only [List.length_append, List.length_replicate]
    unfold decLen
    simp only [Option.getD_none]
    push_cast; ring

theorem getLast_small {m : Nat} (hm : m % 10 ≠ 0) (n : Nat) : (List.replicate n '0' ++ natStr 10 m).getLast? ≠ some '0' := by
  have h := getLast_natStr hm
  rw [List.getLast?_append]
  cases h' : (natStr 10 m).getLast? with
  | none => exact absurd (List.getLast?_eq_none_iff.mp h') (natStr_ne_nil 10 m)
  | some c => rw [h'] at h; simpa using h

theorem layout64_spec {m : Nat} (hm : m % 10 ≠ 0) (z : Nat) (e : ℤ) :
    ∃ z' int frac, IsLayout (layout64 (m * 10 ^ z) e) m (e + z) z' int frac none ∧ frac.getLast? ≠ some '0' := by
  have hm0 : m ≠ 0 := by rintro rfl; simp at hm
  unfold layout64
  rw [stripZeros_spec hm]
  simp only
  generalize e + z = k
  split
  · next h =>
    obtain ⟨n, rfl⟩ := Int.eq_ofNat_of_zero_le h
    exact ⟨_, _, _, isLayout_whole hm0, by simp⟩
  · split
    · next h1 h2 =>
      have hd : (decLen m : ℤ) = (natStr 10 m).length := rfl
      have := isLayout_split (n := ((natStr 10 m).length + k).toNat) hm0 (by omega) (by unfold decLen; omega) none
      rw [show (Option.none (α := ℤ)).getD 0 + ((((natStr 10 m).length + k).toNat : Nat) : ℤ) - (decLen m : ℤ) = k by
        rw [Option.getD_none, hd]; omega] at this
      simp only [expText, List.append_nil] at this
      refine ⟨_, _, _, this, ?_⟩
      rw [getLast_drop _ (by omega)]
      exact getLast_natStr hm
    · next h1 h2 =>
      have := isLayout_small (m := m) (n := (-((natStr 10 m).length + k)).toNat)
      rw [show -((((-((natStr 10 m).length + k)).toNat : Nat) : ℤ)) - (decLen m : ℤ) = k by unfold decLen; omega] at this
      exact ⟨_, _, _, this, getLast_small hm _⟩

/-- The layout of `ryu`: by the place of the point. -/
theorem layout32_spec {m : Nat} (hm : m % 10 ≠ 0) (z : Nat) (e : ℤ) :
    ∃ z' int frac x, IsLayout (layout32 (m * 10 ^ z) e) m (e + z) z' int frac x ∧
      (z' = 0 ∨ ((z' : ℤ) = e + z + 1 ∧ decLen m + (e + z) ≤ 13)) ∧
      ((x = none ∧ frac ≠ [] ∧ (frac = ['0'] ∨ frac.getLast? ≠ some '0') ∧ -5 ≤ decLen m + (e + z) ∧ decLen m + (e + z) ≤ 13) ∨
       (∃ y, x = some y ∧ int.length = 1 ∧ int ≠ ['0'] ∧ frac.getLast? ≠ some '0' ∧ y = decLen m + (e + z) - 1 ∧
         (decLen m + (e + z) < -5 ∨ 13 < decLen m + (e + z)))) := by
  have hm0 : m ≠ 0 := by rintro rfl; simp at hm
  unfold layout32
  rw [stripZeros_spec hm]
  simp only
  generalize e + z = k
  have hd : decLen m = (natStr 10 m).length := rfl
  have hp := decLen_pos m
  have hh : (natStr 10 m).head? ≠ some '0' := fun h => hm0 (natStr_head_zero h)
  split
  · next h =>
    obtain ⟨n, rfl⟩ := Int.eq_ofNat_of_zero_le h.1
    exact ⟨_, _, _, _, isLayout_whole' hm0, .inr ⟨by simp, by omega⟩, .inl ⟨rfl, by simp, .inl rfl, by omega, by omega⟩⟩
  · split
    · next h1 h2 =>
      have := isLayout_split (n := ((natStr 10 m).length + k).toNat) hm0 (by omega) (by omega) none
      rw [show (Option.none (α := ℤ)).getD 0 + ((((natStr 10 m).length + k).toNat : Nat) : ℤ) - (decLen m : ℤ) = k by
        rw [Option.getD_none, hd]; omega] at this
      simp only [expText, List.append_nil] at this
      refine ⟨_, _, _, _, this, .inl rfl, .inl ⟨rfl, ?_, .inr ?_, by omega, by omega⟩⟩
      · rw [Ne, List.drop_eq_nil_iff]; omega
      · rw [getLast_drop _ (by omega)]
        exact getLast_natStr hm
    · split
      · next h1 h2 h3 =>
        have := isLayout_small (m := m) (n := (-((natStr 10 m).length + k)).toNat)
        rw [show -((((-((natStr 10 m).length + k)).toNat : Nat) : ℤ)) - (decLen m : ℤ) = k by omega] at this
        exact ⟨_, _, _, _, this, .inl rfl, .inl ⟨rfl, by simp [natStr_ne_nil], .inr (getLast_small hm _), by omega, by omega⟩⟩
      · split
        · next h1 h2 h3 h4 =>
          refine ⟨0, natStr 10 m, [], some ((natStr 10 m).length + k - 1), ⟨by simp [number, expText], intPart_natStr m, by simp, ?_, ?_⟩, .inl rfl,
            .inr ⟨_, rfl, h4, fun h => hh (by rw [h]; rfl), by simp, by omega, by omega⟩⟩
          · rw [List.append_nil, digitsNat_natStr]; simp
          · simp only [Option.getD_some, List.length_nil]; omega
        · next h1 h2 h3 h4 =>
          have := isLayout_split (n := 1) hm0 (by omega) (by omega) (some ((natStr 10 m).length + k - 1))
          rw [show (some ((natStr 10 m).length + k - 1) : Option ℤ).getD 0 + ((1 : Nat) : ℤ) - (decLen m : ℤ) = k by
            rw [Option.getD_some, hd]; omega] at this
          simp only [expText] at this
          refine ⟨_, _, _, _, this, .inl rfl, .inr ⟨_, rfl, ?_, ?_, ?_, by omega, by omega⟩⟩
          · rw [List.length_take]; omega
          · intro h
            have h' : ((natStr 10 m).take 1).head? = some '0' := by rw [h]; rfl
            rw [List.head?_take, if_neg (by omega)] at h'
            exact hh h'
          · rw [getLast_drop _ (by omega)]
            exact getLast_natStr hm

end Swrs.Ieee
