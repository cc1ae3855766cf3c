import Verif.Base.All2
import Verif.Base.NumSpec
import Verif.Base.StrLemmas
import Verif.Model.ApiSpec
import Verif.Model.Logic
import Verif.Model.Utf8
import Verif.Proofs.Utf8
import Mathlib.Tactic.Ring
import Mathlib.Tactic.IntervalCases
/-!
# C88: how texts are taken apart

Bytes, lines, the characters that are trimmed, slices and numbers.
-/
namespace Swrs

/-! ### Bytes -/

/-- C88: the bytes of a text are those of Lean's own `String`. -/
theorem c88_utf8 (s : Str) : utf8 s = (String.ofList s).toUTF8.data.toList := by
  have hc : ∀ c, utf8Char c = String.utf8EncodeChar c := by
    intro c
    have hv := char_toNat_valid c
    unfold utf8Char String.utf8EncodeChar
    have e : c.val.toNat = c.toNat := rfl
    rw [e]
    generalize c.toNat = n at hv
    dsimp only
    by_cases h1 : n < 0x80
    · rw [if_pos h1, if_pos (by omega)]
    rw [if_neg h1, if_neg (show ¬ n ≤ 127 by omega)]
    by_cases h2 : n < 0x800
    · rw [if_pos h2, if_pos (by omega), show 0xC0 + n / 64 = n / 64 % 32 + 192 by omega, Nat.add_comm (n % 64)]
    rw [if_neg h2, if_neg (show ¬ n ≤ 2047 by omega)]
    by_cases h3 : n < 0x10000
    · rw [if_pos h3, if_pos (by omega), show 0xE0 + n / 4096 = n / 4096 % 16 + 224 by omega, Nat.add_comm (n % 64),
        Nat.add_comm (n / 64 % 64)]
    · rw [if_neg h3, if_neg (by omega), show 0xF0 + n / 262144 = n / 262144 % 8 + 240 by omega, Nat.add_comm (n % 64),
        Nat.add_comm (n / 64 % 64), Nat.add_comm (n / 4096 % 64)]
  have key : utf8 s = s.flatMap String.utf8EncodeChar := by
    induction s with
    | nil => rfl
    | cons c s ih => rw [utf8, ih, hc]; rfl
  rw [key]
  simp [String.toUTF8, List.utf8Encode]

example : utf8 (s% "aé€😀") = [0x61, 0xC3, 0xA9, 0xE2, 0x82, 0xAC, 0xF0, 0x9F, 0x98, 0x80] := by decide +kernel

/-- C88: the length of a text is the number of its bytes. -/
theorem c88_len (s : Str) : byteLen s = (utf8 s).length := by
  rw [c88_utf8]
  simp [byteLen, String.toUTF8, List.utf8Encode, String.length_utf8EncodeChar, List.length_flatMap]

/-- C88: `&s[a..b]` is the text of the bytes from `a` to `b`; there is a panic when these are no text. -/
theorem c88_slice {s t : Str} {a b : Nat} : slice s a b = some t ↔
    a ≤ b ∧ b ≤ (utf8 s).length ∧ ∃ p q, s = p ++ t ++ q ∧ (utf8 p).length = a ∧ (utf8 (p ++ t)).length = b := by
  unfold slice
  simp only [← c88_len]
  constructor
  · intro h
    split at h
    next hab =>
      obtain ⟨u, h1, h2⟩ := Option.bind_eq_some_iff.mp h
      obtain ⟨r, hr, hl⟩ := sliceTo_eq_some.mp h1
      obtain ⟨r', hr', hl'⟩ := sliceFrom_eq_some.mp h2
      subst hr' hr
      exact ⟨hab, by simp at hl ⊢; omega, r', r, rfl, hl', hl⟩
    next => cases h
  · rintro ⟨hab, hb, p, q, rfl, rfl, rfl⟩
    rw [if_pos hab, sliceTo_append]
    exact sliceFrom_append _ _

example : slice (s% "aé€") 1 3 = some (s% "é") ∧ slice (s% "aé€") 1 2 = none ∧ slice (s% "aé€") 3 1 = none := by
  decide +kernel

/-! ### Lines -/

/-- C88: the lines of a text are what stands between the line feeds. -/
theorem c88_lines {s : Str} {ls : List Str} : lines s = ls ↔
    ls ≠ [] ∧ (∀ l ∈ ls, '\n' ∉ l) ∧ s = List.intercalate ['\n'] ls := by
  have hj : ∀ ls : List Str, joinWith '\n' ls = List.intercalate ['\n'] ls := by
    intro ls
    induction ls with
    | nil => rfl
    | cons p ps ih =>
      cases ps with
      | nil => simp [joinWith, List.intercalate]
      | cons q ps => rw [joinWith, ih]; simp [List.intercalate]
  rw [← hj]
  constructor
  · rintro rfl
    exact ⟨splitOn_ne_nil _ _, fun l hl => splitOn_not_mem hl, (joinWith_splitOn _ _).symm⟩
  · rintro ⟨h1, h2, rfl⟩
    exact splitOn_joinWith h1 h2

example : lines (s% "a\n\nb\r\n") = [s% "a", [], s% "b\r", []] := by decide +kernel

/-- C88: `split_once` separates at the first occurrence. -/
theorem c88_split_once {c : Char} {s a b : Str} :
    (splitOnce c s = some (a, b) ↔ c ∉ a ∧ s = a ++ c :: b) ∧ (splitOnce c s = none ↔ c ∉ s) := by
  refine ⟨?_, splitOnce_eq_none⟩
  rw [splitOnce_eq_some]; exact And.comm

example : splitOnce ':' (s% "a:b:c") = some (s% "a", s% "b:c") := by decide +kernel

/-- C88: `split(".java_")` separates at the leftmost occurrence. -/
theorem c88_split_pattern {pat s a b : Str} (hp : pat ≠ []) :
    (splitAtPat pat s = some (a, b) ↔ s = a ++ pat ++ b ∧
      ∀ a' b', s = a' ++ pat ++ b' → a.length ≤ a'.length) ∧
    (splitAtPat pat s = none ↔ ∀ a' b', s ≠ a' ++ pat ++ b') := by
  induction s generalizing a b with
  | nil =>
    rw [splitAtPat, if_neg hp]
    have : ∀ a' b' : Str, [] ≠ a' ++ pat ++ b' := by simp [hp]
    simp only [reduceCtorEq, false_iff, true_iff]
    exact ⟨fun h => this _ _ h.1, this⟩
  | cons x xs ih =>
    rw [splitAtPat]
    split
    next h =>
      obtain ⟨r, hr⟩ := h
      rw [← hr, List.drop_left]
      refine ⟨?_, ?_⟩
      · constructor
        · intro h; cases h; exact ⟨by simp, by simp⟩
        · rintro ⟨h1, h2⟩
          have := h2 [] r (by simp)
          have ha : a = [] := List.length_eq_zero_iff.mp (by simpa using this)
          subst ha
          rw [List.nil_append] at h1
          rw [List.append_cancel_left h1]
      · constructor
        · intro h; cases h
        · intro h; exact absurd (by simp) (h [] r)
    next h =>
      have hd : ∀ a' b', x :: xs = a' ++ pat ++ b' → ∃ a'', a' = x :: a'' ∧ xs = a'' ++ pat ++ b' := by
        intro a' b' e
        cases a' with
        | nil => exact absurd ⟨b', by simpa using e.symm⟩ h
        | cons y a'' =>
          simp only [List.cons_append, List.cons.injEq] at e
          exact ⟨a'', by rw [e.1], e.2⟩
      refine ⟨?_, ?_⟩
      · rw [Option.map_eq_some_iff]
        constructor
        · rintro ⟨⟨u, v⟩, h1, h2⟩
          cases h2
          obtain ⟨h3, h4⟩ := (ih (a := u)).1.mp h1
          refine ⟨by rw [h3]; simp, fun a' b' e => ?_⟩
          obtain ⟨a'', rfl, e2⟩ := hd _ _ e
          simpa using h4 _ _ e2
        · rintro ⟨h1, h2⟩
          obtain ⟨a'', rfl, e⟩ := hd _ _ h1
          refine ⟨(a'', b), ih.1.mpr ⟨e, fun a' b' e' => ?_⟩, rfl⟩
          simpa using h2 (x :: a') b' (by rw [e']; simp)
      · rw [Option.map_eq_none_iff, (ih (a := a) (b := b)).2]
        constructor
        · intro h1 a' b' e
          obtain ⟨a'', rfl, e2⟩ := hd _ _ e
          exact h1 _ _ e2
        · intro h1 a' b' e
          exact h1 (x :: a') b' (by rw [e]; simp)

example : splitAtPat (s% ".java_") (s% "A.java_b.java_c") = some (s% "A", s% "b.java_c") := by decide +kernel

/-! ### Spaces -/

/-- The 25 characters with the Unicode property `White_Space` (PropList.txt). -/
def c88_whiteSpace : List Nat :=
  [0x0009, 0x000A, 0x000B, 0x000C, 0x000D, 0x0020, 0x0085, 0x00A0, 0x1680,
   0x2000, 0x2001, 0x2002, 0x2003, 0x2004, 0x2005, 0x2006, 0x2007, 0x2008, 0x2009, 0x200A,
   0x2028, 0x2029, 0x202F, 0x205F, 0x3000]

/-- C88: the characters that are trimmed. -/
theorem c88_space (c : Char) : isWs c = true ↔ c.toNat ∈ c88_whiteSpace := by
  simp [isWs, c88_whiteSpace]
  omega

example : isWs ' ' = true ∧ isWs '​' = false ∧ isWs '﻿' = false := by decide

/-- C88: trimming takes the spaces off both ends, and nothing else. -/
theorem c88_trim {s t : Str} : trim s = t ↔
    ∃ a b, s = a ++ t ++ b ∧ (∀ c ∈ a ++ b, c.toNat ∈ c88_whiteSpace) ∧
      (∀ c, t.head? = some c → c.toNat ∉ c88_whiteSpace) ∧ (∀ c, t.getLast? = some c → c.toNat ∉ c88_whiteSpace) := by
  simp only [← c88_space]
  constructor
  · rintro rfl
    have h1 : s = s.takeWhile isWs ++ trimStart s := (List.takeWhile_append_dropWhile ..).symm
    have h2 : trimStart s = trim s ++ ((trimStart s).reverse.takeWhile isWs).reverse := by
      have := congrArg List.reverse (List.takeWhile_append_dropWhile (p := isWs) (l := (trimStart s).reverse))
      rw [List.reverse_append, List.reverse_reverse] at this
      exact this.symm
    refine ⟨_, _, by rw [List.append_assoc, ← h2]; exact h1, ?_, ?_, ?_⟩
    · intro c hc
      rw [List.mem_append, List.mem_reverse] at hc
      rcases hc with hc | hc
      · exact List.all_eq_true.mp (List.all_takeWhile (p := isWs)) c hc
      · exact List.all_eq_true.mp (List.all_takeWhile (p := isWs)) c hc
    · intro c hc
      have h3 : (trimStart s).head? = some c := by rw [h2, List.head?_append, hc]; rfl
      have := List.head?_dropWhile_not isWs s
      rw [show s.dropWhile isWs = trimStart s from rfl, h3] at this
      simpa using this
    · intro c hc
      have := List.head?_dropWhile_not isWs (trimStart s).reverse
      rw [trim, trimEnd, List.getLast?_reverse] at hc
      rw [hc] at this
      simpa using this
  · rintro ⟨a, b, rfl, h1, h2, h3⟩
    exact trim_frame (fun c hc => h1 c (by simp [hc])) (fun c hc => h1 c (by simp [hc]))
      (fun c hc => by simpa using h2 c hc) (fun c hc => by simpa using h3 c hc)

example : trim (s% " \t　a b\u0085\r\n") = s% "a b" := by decide +kernel

/-! ### Numbers -/

/-- `c` is the digit `d`. -/
def c88_Digit (c : Char) (d : Nat) : Prop :=
  (s% "0123456789abcdef")[d]? = some c ∨ (s% "0123456789ABCDEF")[d]? = some c

/-- Value of digits, the first one counting most. -/
def c88_value (b : Nat) : List Nat → Nat
  | [] => 0
  | d :: ds => d * b ^ ds.length + c88_value b ds

theorem digitVal_iff {b d : Nat} (_hb : b ≤ 16) (c : Char) : digitVal b c = some d ↔ c88_Digit c d ∧ d < b := by
  have h16 : ∀ e, (if 48 ≤ c.toNat ∧ c.toNat ≤ 57 then some (c.toNat - 48)
    else if 97 ≤ c.toNat ∧ c.toNat ≤ 102 then some (c.toNat - 87)
    else if 65 ≤ c.toNat ∧ c.toNat ≤ 70 then some (c.toNat - 55)
    else none) = some e ↔ c88_Digit c e := by
    intro e
    constructor
    · intro h
      have key : ∀ n < 128, ∀ e < 16, (if 48 ≤ n ∧ n ≤ 57 then some (n - 48)
        else if 97 ≤ n ∧ n ≤ 102 then some (n - 87) else if 65 ≤ n ∧ n ≤ 70 then some (n - 55)
        else none) = some e →
          (s% "0123456789abcdef")[e]? = some (Char.ofNat n) ∨ (s% "0123456789ABCDEF")[e]? = some (Char.ofNat n) := by
        decide +kernel
      have hn : c.toNat < 128 := by
        by_contra hn
        rw [if_neg (by omega), if_neg (by omega), if_neg (by omega)] at h
        cases h
      have he : e < 16 := by
        split at h
        · cases h; omega
        · split at h
          · cases h; omega
          · split at h
            · cases h; omega
            · cases h
      have := key _ hn _ he h
      rwa [char_ofNat_toNat] at this
    · intro h
      have he : e < 16 := by
        rcases h with h | h <;> exact (List.getElem?_eq_some_iff.mp h).1
      rcases h with h | h <;> (interval_cases e <;> (simp at h; subst h; decide))
  unfold digitVal
  simp only [Option.filter_eq_some_iff, h16, decide_eq_true_eq]

theorem digitsVal_iff {b : Nat} (hb : b ≤ 16) {s : Str} {acc n : Nat} : digitsVal b s acc = some n ↔
    ∃ ds, All₂ c88_Digit s ds ∧ (∀ d ∈ ds, d < b) ∧ n = acc * b ^ ds.length + c88_value b ds := by
  induction s generalizing acc with
  | nil =>
    rw [digitsVal]
    constructor
    · intro h; cases h; exact ⟨[], .nil, by simp, by simp [c88_value]⟩
    · rintro ⟨ds, h, _, e⟩; cases h; simp [c88_value] at e; rw [e]
  | cons c s ih =>
    rw [digitsVal]
    constructor
    · intro h
      cases hd : digitVal b c with
      | none => rw [hd] at h; cases h
      | some d =>
        rw [hd] at h
        obtain ⟨ds, h1, h2, h3⟩ := ih.mp h
        obtain ⟨h4, h5⟩ := (digitVal_iff hb c).mp hd
        refine ⟨d :: ds, .cons h4 h1, by simpa using ⟨h5, h2⟩, ?_⟩
        rw [h3, c88_value, List.length_cons, pow_succ]; ring
    · rintro ⟨ds, h1, h2, h3⟩
      cases h1 with
      | cons h t =>
        rename_i d ds
        rw [(digitVal_iff hb c).mpr ⟨h, h2 d (by simp)⟩]
        refine ih.mpr ⟨ds, t, fun d hd => h2 d (by simp [hd]), ?_⟩
        rw [h3, c88_value, List.length_cons, pow_succ]; ring

/-- C88: which texts are unsigned numbers: at least one digit, in front of which there may be a plus sign. -/
theorem c88_unsigned {b max n : Nat} (hb : b = 10 ∨ b = 16) {s : Str} : parseUnsigned b max s = some n ↔
    ∃ t ds, (s = t ∨ s = '+' :: t) ∧ t ≠ [] ∧ All₂ c88_Digit t ds ∧ (∀ d ∈ ds, d < b) ∧ c88_value b ds = n ∧ n ≤ max := by
  have hb' : b ≤ 16 := by omega
  have plus : ∀ d, ¬ c88_Digit '+' d := by
    intro d h
    have := (digitVal_iff (b := 16) (by omega) '+').mpr ⟨h, by
      rcases h with h | h <;> exact (List.getElem?_eq_some_iff.mp h).1⟩
    rw [show digitVal 16 '+' = none by decide] at this
    cases this
  have key : ∀ t : Str, (if t = [] then none else (digitsVal b t 0).filter (· ≤ max)) = some n ↔
      t ≠ [] ∧ ∃ ds, All₂ c88_Digit t ds ∧ (∀ d ∈ ds, d < b) ∧ c88_value b ds = n ∧ n ≤ max := by
    intro t
    by_cases h : t = []
    · simp [h]
    · rw [if_neg h, Option.filter_eq_some_iff, digitsVal_iff hb']
      simp only [ne_eq, h, not_false_eq_true, true_and, decide_eq_true_eq, Nat.zero_mul, Nat.zero_add]
      constructor
      · rintro ⟨⟨ds, h1, h2, h3⟩, h4⟩; exact ⟨ds, h1, h2, h3.symm, h4⟩
      · rintro ⟨ds, h1, h2, h3, h4⟩; exact ⟨⟨ds, h1, h2, h3.symm⟩, h4⟩
  unfold parseUnsigned
  simp only
  rw [key]
  constructor
  · rintro ⟨h1, ds, h2, h3, h4, h5⟩
    refine ⟨_, ds, ?_, h1, h2, h3, h4, h5⟩
    split
    · exact .inr rfl
    · exact .inl rfl
  · rintro ⟨t, ds, h, h1, h2, h3, h4, h5⟩
    rcases h with rfl | rfl
    · split
      · cases h2 with
        | cons h _ => exact absurd h (plus _)
      · exact ⟨h1, ds, h2, h3, h4, h5⟩
    · exact ⟨h1, ds, h2, h3, h4, h5⟩

/-- C88: which texts are signed numbers. -/
theorem c88_signed {lo hi n : Int} {s : Str} : parseSigned lo hi s = some n ↔
    lo ≤ n ∧ n ≤ hi ∧ ∃ t ds, t ≠ [] ∧ All₂ c88_Digit t ds ∧ (∀ d ∈ ds, d < 10) ∧
      (((s = t ∨ s = '+' :: t) ∧ n = c88_value 10 ds) ∨ (s = '-' :: t ∧ n = -(c88_value 10 ds : Int))) := by
  have sign : ∀ c, c = '+' ∨ c = '-' → ∀ d, ¬ c88_Digit c d := by
    intro c hc d h
    have := (digitVal_iff (b := 16) (by omega) c).mpr ⟨h, by
      rcases h with h | h <;> exact (List.getElem?_eq_some_iff.mp h).1⟩
    rcases hc with rfl | rfl
    · rw [show digitVal 16 '+' = none by decide] at this; cases this
    · rw [show digitVal 16 '-' = none by decide] at this; cases this
  have hs : ∀ {t : Str} {ds}, All₂ c88_Digit t ds → signSplit t = (false, t) := by
    intro t ds h
    unfold signSplit
    split
    · cases h with
      | cons h _ => exact absurd h (sign _ (.inl rfl) _)
    · cases h with
      | cons h _ => exact absurd h (sign _ (.inr rfl) _)
    · rfl
  have hs2 : ∀ s, s = (signSplit s).2 ∧ (signSplit s).1 = false ∨ s = '+' :: (signSplit s).2 ∧ (signSplit s).1 = false ∨
      s = '-' :: (signSplit s).2 ∧ (signSplit s).1 = true := by
    intro s
    unfold signSplit
    split
    · exact .inr (.inl ⟨rfl, rfl⟩)
    · exact .inr (.inr ⟨rfl, rfl⟩)
    · exact .inl ⟨rfl, rfl⟩
  unfold parseSigned
  constructor
  · intro h
    split at h
    · cases h
    next hne =>
      cases hv : digitsVal 10 (signSplit s).2 0 with
      | none => rw [hv] at h; cases h
      | some v =>
        rw [hv] at h
        obtain ⟨ds, h1, h2, h3⟩ := (digitsVal_iff (by omega)).mp hv
        simp only [Nat.zero_mul, Nat.zero_add] at h3
        subst h3
        dsimp only at h
        generalize hw : (if (signSplit s).1 = true then -((c88_value 10 ds : Nat) : Int) else (c88_value 10 ds : Nat)) = w at h
        split at h
        next hr =>
          have h := Option.some.inj h
          rw [h] at hr
          subst h hw
          refine ⟨hr.1, hr.2, _, ds, hne, h1, h2, ?_⟩
          rcases hs2 s with ⟨e, f⟩ | ⟨e, f⟩ | ⟨e, f⟩
          · exact .inl ⟨.inl e, by rw [f]; rfl⟩
          · exact .inl ⟨.inr e, by rw [f]; rfl⟩
          · exact .inr ⟨e, by rw [f]; rfl⟩
        · cases h
  · rintro ⟨h1, h2, t, ds, hne, hd, hb, h⟩
    have hv : digitsVal 10 t 0 = some (c88_value 10 ds) := (digitsVal_iff (by omega)).mpr ⟨ds, hd, hb, by simp⟩
    rcases h with ⟨h | h, e⟩ | ⟨h, e⟩
    · subst h
      simp only [hs hd, hne, if_false, hv]
      subst e
      exact if_pos ⟨h1, h2⟩
    · subst h
      simp only [signSplit, hne, if_false, hv]
      subst e
      exact if_pos ⟨h1, h2⟩
    · subst h
      simp only [signSplit, hne, if_false, hv, if_true]
      subst e
      exact if_pos ⟨h1, h2⟩

example : parseUnsigned 10 255 (s% "+007") = some 7 ∧ parseUnsigned 10 255 (s% "256") = none ∧
    parseUnsigned 16 4294967295 (s% "fFfF") = some 65535 ∧ parseUnsigned 10 255 (s% "-0") = none ∧
    parseSigned (-128) 127 (s% "-128") = some (-128) ∧ parseSigned (-128) 127 (s% "+-1") = none := by decide +kernel

/-- C88: which texts are ids of blocks and types of variables. -/
theorem c88_ids {s : Str} : (∀ n, Api.parseU32 s = some n ↔ parseUnsigned 10 4294967295 s = some n.toNat) ∧
    (∀ n, parseU8 s = some n ↔ parseUnsigned 10 255 s = some n.toNat) := by
  constructor
  · intro n
    rw [Api.parseU32, Option.map_eq_some_iff]
    constructor
    · rintro ⟨m, h, rfl⟩
      obtain ⟨_, _, _, _, _, _, _, hm⟩ := (c88_unsigned (.inl rfl)).mp h
      rw [h, UInt32.toNat_ofNat_of_lt' (by show m < 4294967296; omega)]
    · intro h; exact ⟨_, h, by simp⟩
  · intro n
    rw [parseU8, Option.map_eq_some_iff]
    constructor
    · rintro ⟨m, h, rfl⟩
      obtain ⟨_, _, _, _, _, _, _, hm⟩ := (c88_unsigned (.inl rfl)).mp h
      rw [h, UInt8.toNat_ofNat_of_lt' (by show m < 256; omega)]
    · intro h; exact ⟨_, h, by simp⟩

example : Api.parseU32 (s% "4294967295") = some 4294967295 ∧ Api.parseU32 (s% "4294967296") = none ∧ parseU8 (s% "3") = some 3 := by
  decide +kernel

/-- C88: written numbers have no sign but the minus of negative ones, no leading zeros, and the value of the number. -/
theorem c88_written (n : Nat) : ∃ ds, ds ≠ [] ∧ natStr 10 n = ds.map (fun d => Char.ofNat (48 + d)) ∧ (∀ d ∈ ds, d < 10) ∧
    c88_value 10 ds = n ∧ (ds.head? = some 0 → n = 0 ∧ ds = [0]) := by
  have ap : ∀ ds d, c88_value 10 (ds ++ [d]) = c88_value 10 ds * 10 + d := by
    intro ds d
    induction ds with
    | nil => simp [c88_value]
    | cons e ds ih => rw [List.cons_append, c88_value, c88_value, ih, List.length_append, List.length_singleton, pow_succ]; ring
  induction n using Nat.strongRecOn with
  | _ n ih =>
    rw [natStr]
    split
    next h =>
      refine ⟨[n], by simp, ?_, by simp; omega, by simp [c88_value], by simp⟩
      rw [digitChar, if_pos (by omega)]; rfl
    next h =>
      simp only [not_or, Nat.not_lt] at h
      obtain ⟨ds, h0, h1, h2, h3, h4⟩ := ih (n / 10) (Nat.div_lt_self (by omega) (by omega))
      refine ⟨ds ++ [n % 10], by simp, ?_, ?_, ?_, ?_⟩
      · rw [h1, List.map_append, digitChar, if_pos (by omega)]; rfl
      · intro d hd
        rcases List.mem_append.mp hd with hd | hd
        · exact h2 d hd
        · simp at hd; omega
      · rw [ap, h3]; omega
      · intro hh
        have : ds.head? = some 0 := by
          cases ds with
          | nil => exact absurd rfl h0
          | cons d ds => simpa using hh
        have := (h4 this).1
        omega

/-- C88: written negative numbers. -/
theorem c88_written_int (n : Int) : intStr n = if n < 0 then '-' :: natStr 10 n.natAbs else natStr 10 n.natAbs := by
  cases n with
  | ofNat n => simp [intStr]
  | negSucc n => simp [intStr, Int.negSucc_lt_zero]

example : natStr 10 4090 = s% "4090" ∧ intStr (-120) = s% "-120" ∧ natStr 10 0 = s% "0" := by decide +kernel

end Swrs
