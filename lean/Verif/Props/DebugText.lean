import Verif.Model.DebugText
import Verif.Props.Chain
/-!
# The text of `{:?}` can be read back (C97)
-/
namespace Swrs

theorem natStr_hex (n : Nat) : ∀ c ∈ natStr 16 n, ∃ d < 16, c = digitChar d := by
  induction n using Nat.strongRecOn with
  | _ n ih =>
    rw [natStr]
    split
    next h => exact fun c hc => ⟨n, by omega, by simpa using hc⟩
    next h =>
      intro c hc
      simp only [List.mem_append, List.mem_singleton] at hc
      rcases hc with hc | rfl
      · exact ih _ (Nat.div_lt_self (by omega) (by omega)) c hc
      · exact ⟨_, Nat.mod_lt _ (by omega), rfl⟩

theorem natStr_hex_ne {c : Char} (hc : ∀ d < 16, digitChar d ≠ c) (n : Nat) : c ∉ natStr 16 n := by
  intro h
  obtain ⟨d, hd, e⟩ := natStr_hex n c h
  exact hc d hd e.symm

/-- Up to a character that does not occur before. -/
theorem until_char {c : Char} : ∀ {a b x y : Str}, c ∉ a → c ∉ b → a ++ c :: x = b ++ c :: y → a = b ∧ x = y
  | [], [], _, _, _, _, h => ⟨rfl, (List.cons.inj h).2⟩
  | [], d :: b, _, _, _, hb, h => absurd (List.cons.inj h).1 (fun e => hb (by simp [e]))
  | d :: a, [], _, _, ha, _, h => absurd (List.cons.inj h).1 (fun e => ha (by simp [e]))
  | d :: a, e :: b, x, y, ha, hb, h => by
    obtain ⟨h1, h2⟩ := List.cons.inj h
    obtain ⟨h3, h4⟩ := until_char (fun m => ha (by simp [m])) (fun m => hb (by simp [m])) h2
    exact ⟨by rw [h1, h3], h4⟩

theorem escapeUnicode_code {c d : Char} {x y : Str} (h : escapeUnicode c ++ x = escapeUnicode d ++ y) : c = d ∧ x = y := by
  simp only [escapeUnicode, List.append_assoc] at h
  have hb (n : Nat) : '}' ∉ natStr 16 n := natStr_hex_ne (by decide) n
  obtain ⟨h1, h2⟩ := until_char (hb _) (hb _) (List.append_cancel_left h)
  have := congrArg (fun s => digitsVal 16 s 0) h1
  simp only [digitsVal_natStr_acc (b := 16) (by omega) (by omega), Option.some.injEq] at this
  exact ⟨Char.toNat_inj.mp (by simpa using this), h2⟩

/-- The shapes of an escape: a backslash and a letter that stands for the character, the character itself, or its number. -/
theorem escapeDebug_shape (plain : Char → Bool) (c : Char) :
    (∃ k, escapeDebug plain c = ['\\', k] ∧ (k, c) ∈ [('0', Char.ofNat 0), ('t', '\t'), ('r', '\r'), ('n', '\n'), ('\\', '\\'), ('"', '"')]) ∨
    (escapeDebug plain c = [c] ∧ c ≠ '\\' ∧ c ≠ '"' ∧ c ≠ '\n') ∨ escapeDebug plain c = escapeUnicode c := by
  unfold escapeDebug
  repeat' split
  case isTrue h => subst h; exact .inl ⟨_, rfl, by simp⟩
  case isTrue h => subst h; exact .inl ⟨_, rfl, by simp⟩
  case isTrue h => subst h; exact .inl ⟨_, rfl, by simp⟩
  case isTrue h => subst h; exact .inl ⟨_, rfl, by simp⟩
  case isTrue h => subst h; exact .inl ⟨_, rfl, by simp⟩
  case isTrue h => subst h; exact .inl ⟨_, rfl, by simp⟩
  next h1 h2 h3 h4 => exact .inr (.inl ⟨rfl, h2, h3, ‹_›⟩)
  exact .inr (.inr rfl)

theorem letter_inj {k c d : Char} {l : List (Char × Char)} (hl : (l.map (·.1)).Nodup) (h : (k, c) ∈ l) (h' : (k, d) ∈ l) : c = d := by
  induction l with
  | nil => simp at h
  | cons e l ih =>
    rw [List.map_cons, List.nodup_cons] at hl
    rcases List.mem_cons.mp h with rfl | h1 <;> rcases List.mem_cons.mp h' with h2 | h2
    · exact (Prod.mk.inj h2).2.symm
    · exact absurd (List.mem_map_of_mem (f := (·.1)) h2) hl.1
    · subst h2; exact absurd (List.mem_map_of_mem (f := (·.1)) h1) hl.1
    · exact ih hl.2 h1 h2

theorem escapeDebug_code {plain : Char → Bool} {c d : Char} {x y : Str} (h : escapeDebug plain c ++ x = escapeDebug plain d ++ y) :
    c = d ∧ x = y := by
  rcases escapeDebug_shape plain c with ⟨k, e, hk⟩ | ⟨e, e1, -⟩ | e <;> rcases escapeDebug_shape plain d with ⟨k', e', hk'⟩ | ⟨e', e1', -⟩ | e' <;>
    rw [e, e'] at h
  · simp only [List.cons_append, List.nil_append, List.cons.injEq, true_and] at h
    obtain ⟨rfl, rfl⟩ := h
    exact ⟨letter_inj (by decide) hk hk', rfl⟩
  · exact absurd (List.cons.inj h).1.symm e1'
  · simp only [escapeUnicode, List.cons_append, List.nil_append, List.cons.injEq, true_and] at h
    obtain ⟨rfl, -⟩ := h
    simp at hk
  · exact absurd (List.cons.inj h).1 e1
  · exact ⟨(List.cons.inj h).1, (List.cons.inj h).2⟩
  · exact absurd (List.cons.inj h).1 e1
  · simp only [escapeUnicode, List.cons_append, List.nil_append, List.cons.injEq, true_and] at h
    obtain ⟨rfl, -⟩ := h
    simp at hk'
  · exact absurd (List.cons.inj h).1.symm e1'
  · exact escapeUnicode_code h

theorem escapeDebug_quote (plain : Char → Bool) (c : Char) : ∃ k r, escapeDebug plain c = k :: r ∧ k ≠ '"' := by
  rcases escapeDebug_shape plain c with ⟨k, e, -⟩ | ⟨e, -, e2, -⟩ | e
  · exact ⟨_, _, e, by decide⟩
  · exact ⟨_, _, e, e2⟩
  · exact ⟨_, _, e.trans rfl, by decide⟩

theorem escaped_code (plain : Char → Bool) : ∀ (a b x y : Str), a.flatMap (escapeDebug plain) ++ '"' :: x = b.flatMap (escapeDebug plain) ++ '"' :: y →
    a = b ∧ x = y
  | [], [], _, _, h => ⟨rfl, (List.cons.inj h).2⟩
  | [], d :: b, _, _, h => by
    obtain ⟨k, r, e, hk⟩ := escapeDebug_quote plain d
    rw [List.flatMap_cons, e] at h
    exact absurd (List.cons.inj h).1.symm hk
  | c :: a, [], _, _, h => by
    obtain ⟨k, r, e, hk⟩ := escapeDebug_quote plain c
    rw [List.flatMap_cons, e] at h
    exact absurd (List.cons.inj h).1 hk
  | c :: a, d :: b, x, y, h => by
    rw [List.flatMap_cons, List.flatMap_cons, List.append_assoc, List.append_assoc] at h
    obtain ⟨rfl, h1⟩ := escapeDebug_code h
    obtain ⟨rfl, rfl⟩ := escaped_code plain a b x y h1
    exact ⟨rfl, rfl⟩

/-- C97: a text can be told from its `{:?}` text, and where this ends, whatever follows. -/
theorem c97_read_back (plain : Char → Bool) (a b x y : Str) : debugStr plain a ++ x = debugStr plain b ++ y ↔ a = b ∧ x = y := by
  constructor
  · intro h
    simp only [debugStr, List.append_assoc] at h
    exact escaped_code plain a b x y (List.append_cancel_left h)
  · rintro ⟨rfl, rfl⟩; rfl

/-- C97: a `{:?}` text is one line. -/
theorem c97_one_line (plain : Char → Bool) (s : Str) : '\n' ∉ debugStr plain s := by
  have hc (c : Char) : '\n' ∉ escapeDebug plain c := by
    rcases escapeDebug_shape plain c with ⟨k, e, hk⟩ | ⟨e, -, -, e3⟩ | e <;> rw [e]
    · rintro h
      simp only [List.mem_cons, List.not_mem_nil, or_false] at h
      rcases h with h | rfl
      · exact absurd h (by decide)
      · simp at hk
    · simpa using Ne.symm e3
    · simp only [escapeUnicode, List.mem_append, not_or]
      exact ⟨⟨by decide, natStr_hex_ne (by decide) _⟩, by decide⟩
  simp only [debugStr, List.mem_append, List.mem_flatMap, not_or, not_exists, not_and]
  exact ⟨⟨by decide, fun c _ => hc c⟩, by decide⟩

/-- C97: what a text of plain characters without quotes and backslashes looks like. -/
theorem c97_plain (plain : Char → Bool) (s : Str)
    (h : ∀ c ∈ s, plain c = true ∧ c ∉ [Char.ofNat 0, '\t', '\r', '\n', '\\', '"']) : debugStr plain s = '"' :: (s ++ ['"']) := by
  have : s.flatMap (escapeDebug plain) = s := by
    induction s with
    | nil => rfl
    | cons c s ih =>
      rw [List.flatMap_cons, ih fun d hd => h d (by simp [hd])]
      obtain ⟨h1, h2⟩ := h c (by simp)
      simp only [List.mem_cons, List.not_mem_nil, or_false, not_or] at h2
      obtain ⟨h2, h3, h4, h5, h6, h7⟩ := h2
      simp [escapeDebug, h1, h2, h3, h4, h5, h6, h7]
  rw [debugStr, this]; simp

/-- C97: what the theorems C94 to C96 ask of `{:?}` holds of the standard library, for all tables of plain characters. -/
theorem c97_lawful (plain : Char → Bool) (path : PathBuf → Str) : @LawfulDebugText (stdText plain path) :=
  letI := stdText plain path
  ⟨fun _ => ⟨_, rfl⟩, fun a b x y h => (c97_read_back plain a b x y).mp h⟩

/-- C97: so the listings of the programs tell libraries and projects, and the chains of causes tell the errors in blocks. -/
theorem c97_tells (plain : Char → Bool) (path : PathBuf → Str) : letI := stdText plain path
    (∀ a b, Examples.libraryDebug a = Examples.libraryDebug b → a = b) ∧ (∀ a b, Examples.projectDebug a = Examples.projectDebug b → a = b) ∧
    (∀ e e' : Api.BlockConversionError, e.chain = e'.chain ↔ Api.c96_Blocks e e') ∧
    (∀ e e' : Api.ConversionError, e.chain = e'.chain ↔ Api.c96_Conversion e e') := by
  let := stdText plain path
  let := c97_lawful plain path
  exact ⟨fun a b h => c94_library_tells a b (by rw [h]), fun a b h => c94_project_tells a b (by rw [h]), Api.c96_blocks, Api.c96_conversion⟩

example : debugStr (fun c => c.toNat < 127) (s% "a\"b\\ü\n'\t") = s% "\"a\\\"b\\\\\\u{fc}\\n'\\t\"" := by decide +kernel
example : ∀ c ∈ s% "main.xml", (fun c : Char => decide (c.toNat < 127)) c = true ∧ c ∉ [Char.ofNat 0, '\t', '\r', '\n', '\\', '"'] := by
  decide
end Swrs
