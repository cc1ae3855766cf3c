import Verif.Model.Messages
import Verif.Props.Text
import Verif.Props.Color
/-!
# C89: what the messages of errors tell
-/
namespace Swrs

theorem natStr_inj {n m : Nat} (h : natStr 10 n = natStr 10 m) : n = m := by
  have h1 := parseUnsigned_natStr (max := max n m) (Nat.le_max_left n m)
  have h2 := parseUnsigned_natStr (max := max n m) (Nat.le_max_right n m)
  rw [h, h2] at h1
  exact (Option.some.inj h1).symm

theorem takeWhile_digits {d a : Str} (hd : ∀ c ∈ d, isDigit c = true) (ha : ∀ c, a.head? = some c → isDigit c = false) :
    (d ++ a).takeWhile isDigit = d := by
  induction d with
  | nil =>
    cases a with
    | nil => rfl
    | cons c a => simp [ha c rfl]
  | cons c d ih =>
    rw [List.cons_append, List.takeWhile, hd c (by simp)]
    simp only [List.cons.injEq, true_and]
    exact ih fun e he => hd e (by simp [he])

/-- A number before something that is no digit. -/
theorem num_start {n m : Nat} {a b : Str} (ha : ∀ c, a.head? = some c → isDigit c = false)
    (hb : ∀ c, b.head? = some c → isDigit c = false) : natStr 10 n ++ a = natStr 10 m ++ b ↔ n = m ∧ a = b := by
  constructor
  · intro h
    have e : natStr 10 n = natStr 10 m := by
      rw [← takeWhile_digits (natStr_digits rfl n) ha, h, takeWhile_digits (natStr_digits rfl m) hb]
    rw [e] at h
    exact ⟨natStr_inj e, List.append_cancel_left h⟩
  · rintro ⟨rfl, rfl⟩; rfl

/-- A number after something that is no digit. -/
theorem num_end {n m : Nat} {a b : Str} (ha : ∀ c, a.getLast? = some c → isDigit c = false)
    (hb : ∀ c, b.getLast? = some c → isDigit c = false) : a ++ natStr 10 n = b ++ natStr 10 m ↔ a = b ∧ n = m := by
  constructor
  · intro h
    have h := congrArg List.reverse h
    rw [List.reverse_append, List.reverse_append] at h
    have hd : ∀ k, ∀ c ∈ (natStr 10 k).reverse, isDigit c = true := fun k c hc => natStr_digits rfl k c (List.mem_reverse.mp hc)
    have e : (natStr 10 n).reverse = (natStr 10 m).reverse := by
      rw [← takeWhile_digits (hd n) (a := a.reverse) (by simpa [List.head?_reverse] using ha), h,
        takeWhile_digits (hd m) (by simpa [List.head?_reverse] using hb)]
    rw [e] at h
    exact ⟨List.reverse_inj.mp (List.append_cancel_left h), natStr_inj (List.reverse_inj.mp e)⟩
  · rintro ⟨rfl, rfl⟩; rfl

/-- The end of most messages. -/
theorem at_line {a b : Str} {n m : Nat} :
    a ++ s% " at line " ++ natStr 10 n = b ++ s% " at line " ++ natStr 10 m ↔ a = b ∧ n = m := by
  rw [num_end (by simp; decide) (by simp; decide), List.append_left_inj]

/-! ### Files of a project -/

/-- C89: an error of the file list tells the line and its content. -/
theorem c89_file (e e' : FileParseError) : e.message = e'.message ↔ match e, e' with
    | .item line content, .item line' content' => line = line' ∧ content = content' := by
  obtain ⟨line, content⟩ := e
  obtain ⟨line', content'⟩ := e'
  simp only [FileParseError.message, List.append_assoc, List.append_right_inj]
  rw [num_start (by simp; decide) (by simp; decide), List.append_right_inj]

/-- C89: an error of the library file tells its kind, the header and the line. -/
theorem c89_library (e e' : LibraryParseError) : e.message = e'.message ↔ match e, e' with
    | .eofAfterHeader h, .eofAfterHeader h' => h = h'
    | .item h line, .item h' line' => h = h' ∧ line = line'
    | .missing h, .missing h' => h = h'
    | _, _ => False := by
  cases e <;> cases e' <;> simp only [LibraryParseError.message, at_line] <;> simp

/-- C89: an error of the resource list tells the section and the line. -/
theorem c89_resource (e e' : ResourceParseError) : e.message = e'.message ↔ match e, e' with
    | .item sec line, .item sec' line' => sec = sec' ∧ line = line' := by
  obtain ⟨sec, line⟩ := e
  obtain ⟨sec', line'⟩ := e'
  simp only [ResourceParseError.message, at_line, List.append_right_inj]
  have : sec.debug = sec'.debug ↔ sec = sec' := by
    cases sec <;> cases sec' <;> simp [ResourceSection.debug]
  rw [this]

/-- C89: an error of the view file tells its kind, and the line of a bad header, the names of a layout (up to where the space between them is), the screen of a floating button, and the screen and line of a missing one. -/
theorem c89_view [Floats] (e e' : ViewParseError) : e.message = e'.message ↔ match e, e' with
    | .invalidHeader line _, .invalidHeader line' _ => line = line'
    | .layout s c _, .layout s' c' _ => s ++ s% " " ++ c = s' ++ s% " " ++ c'
    | .fab s _ _, .fab s' _ _ => s = s'
    | .eofAfterFabHeader s line, .eofAfterFabHeader s' line' => s = s' ∧ line = line'
    | _, _ => False := by
  cases e <;> cases e' <;> simp only [ViewParseError.message, at_line]
  case invalidHeader.invalidHeader =>
    simp only [List.append_assoc, List.append_right_inj]
    rw [num_start (by simp; decide) (by simp; decide)]
    simp
  all_goals simp

/-- C89: an error of a layout tells the line in the layout. -/
theorem c89_layout [Floats] (e e' : LayoutParseError) : e.message = e'.message ↔ e.line = e'.line := by
  simp only [LayoutParseError.message, List.append_assoc, List.append_right_inj]
  rw [num_start (by simp; decide) (by simp; decide)]
  simp

/-- C89: an error of the logic file tells its kind, the screen, the container (up to where the word between them is) and the line. -/
theorem c89_logic (e e' : LogicParseError) : e.message = e'.message ↔ match e, e' with
    | .variablePool s line _, .variablePool s' line' _ => s = s' ∧ line = line'
    | .listVariablePool s line _, .listVariablePool s' line' _ => s = s' ∧ line = line'
    | .componentPool s line _, .componentPool s' line' _ => s = s' ∧ line = line'
    | .eventPool s line _, .eventPool s' line' _ => s = s' ∧ line = line'
    | .moreBlockPool s line _, .moreBlockPool s' line' _ => s = s' ∧ line = line'
    | .blockContainerHeader line _, .blockContainerHeader line' _ => line = line'
    | .blockContainer s c line _, .blockContainer s' c' line' _ =>
      s ++ s% " container " ++ c = s' ++ s% " container " ++ c' ∧ line = line'
    | _, _ => False := by
  cases e <;> cases e' <;> simp only [LogicParseError.message, at_line]
  case blockContainerHeader.blockContainerHeader =>
    rw [num_end (by simp; decide) (by simp; decide)]; simp
  all_goals simp

/-- C89: an error of a pool tells the number of the line in the pool. -/
theorem c89_variable_pools : (∀ e e', variablePoolMessage e = variablePoolMessage e' ↔ e.count = e'.count) ∧
    (∀ e e', listVariablePoolMessage e = listVariablePoolMessage e' ↔ e.count = e'.count) ∧
    (∀ e e', componentPoolMessage e = componentPoolMessage e' ↔ e.count = e'.count) ∧
    (∀ e e', moreBlockPoolMessage e = moreBlockPoolMessage e' ↔ e.count = e'.count) ∧
    (∀ e e', eventPoolMessage e = eventPoolMessage e' ↔ e.count = e'.count ∧ e.content = e'.content) := by
  refine ⟨?_, ?_, ?_, ?_, ?_⟩ <;> intro e e'
  · rw [variablePoolMessage, variablePoolMessage, num_end (by simp; decide) (by simp; decide)]; simp
  · rw [listVariablePoolMessage, listVariablePoolMessage, num_end (by simp; decide) (by simp; decide)]; simp
  · simp only [componentPoolMessage, List.append_assoc, List.append_right_inj]
    rw [num_start (by simp; decide) (by simp; decide)]; simp
  · rw [moreBlockPoolMessage, moreBlockPoolMessage, num_end (by simp; decide) (by simp; decide)]; simp
  · simp only [eventPoolMessage, List.append_assoc, List.append_right_inj]
    rw [num_start (by simp; decide) (by simp; decide), List.append_right_inj]

/-- A number does not begin with a sign of quotation. -/
theorem tick_ne (n : Nat) (a b : Str) : natStr 10 n ++ a ≠ '`' :: b := by
  cases h : natStr 10 n with
  | nil => exact absurd h (natStr_ne_nil _ _)
  | cons c r =>
    intro e
    rw [List.cons_append, List.cons.injEq] at e
    exact natStr_head_ne (by decide : isDigit '`' = false) n r (by rw [h, e.1])

/-- C89: an error of a variable tells its kind and the type. -/
theorem c89_variable (e e' : VariableParseError) : e.message = e'.message ↔ match e, e' with
    | .malformedVariable _, .malformedVariable _ => True
    | .malformedVariableType t, .malformedVariableType t' => t = t'
    | .invalidVariableType v, .invalidVariableType v' => v = v'
    | _, _ => False := by
  cases e <;> cases e' <;> simp only [VariableParseError.message]
  case invalidVariableType.invalidVariableType =>
    simp only [List.append_assoc, List.append_right_inj]
    rw [num_start (by simp; decide) (by simp; decide)]
    simp [UInt8.toNat_inj]
  case malformedVariableType.invalidVariableType => simp [(tick_ne _ _ _).symm]
  case invalidVariableType.malformedVariableType => simp [tick_ne]
  all_goals simp

/-- C89: an error of a list variable tells all. -/
theorem c89_list_variable (e e' : ListVariableParseError) : e.message = e'.message ↔ e = e' := by
  have hi : ∀ n a, natStr 10 n ++ a ≠ s% "is not a valid integer" := by
    intro n a h
    cases hn : natStr 10 n with
    | nil => exact natStr_ne_nil _ _ hn
    | cons c r =>
      rw [hn, List.cons_append, List.cons.injEq] at h
      exact natStr_head_ne (by decide : isDigit 'i' = false) n r (by rw [hn, h.1])
  cases e <;> cases e' <;> simp only [ListVariableParseError.message]
  case invalidVariableType.invalidVariableType =>
    simp only [List.append_assoc, List.append_right_inj]
    rw [num_start (by simp; decide) (by simp; decide)]
    simp [UInt8.toNat_inj]
  case variableTypeIsNotInt.invalidVariableType => simpa using (hi _ _).symm
  case invalidVariableType.variableTypeIsNotInt => simpa using hi _ _
  all_goals simp

/-- C89: an unknown type of a variable is told. -/
theorem c89_type_value (v v' : UInt8) : invalidVariableTypeMessage v = invalidVariableTypeMessage v' ↔ v = v' := by
  simp only [invalidVariableTypeMessage, List.append_assoc, List.append_right_inj]
  rw [num_start (by simp; decide) (by simp; decide)]
  simp [UInt8.toNat_inj]

/-- C89: an error of a moreblock tells all. -/
theorem c89_more_block (e e' : MoreBlockParseError) : e.message = e'.message ↔ e = e' := by
  cases e; cases e'; simp [MoreBlockParseError.message]

/-- C89: an error of a header tells all. -/
theorem c89_header (e e' : BlockContainerHeaderParseError) : e.message = e'.message ↔ e = e' := by
  cases e <;> cases e' <;> simp [BlockContainerHeaderParseError.message]

/-- C89: an error of decryption tells all. -/
theorem c89_crypto (e e' : CryptoError) : e.message = e'.message ↔ e = e' := by
  cases e <;> cases e' <;> simp [CryptoError.message]

/-- C89: an error of the resource files tells its kind and the path. -/
theorem c89_resource_files [DebugText] (e e' : ResourceFilesParseError) : e.message = e'.message ↔ match e, e' with
    | .fileDoesntExist p, .fileDoesntExist p' => DebugText.path p = DebugText.path p'
    | .invalidPath p, .invalidPath p' => DebugText.path p = DebugText.path p'
    | _, _ => False := by
  cases e <;> cases e' <;> simp [ResourceFilesParseError.message]

/-- C89: an error of a project tells the file. -/
theorem c89_project [Floats] (e e' : SketchwareProjectParseError) : e.message = e'.message ↔ match e, e' with
    | .project, .project => True
    | .file _, .file _ => True
    | .library _, .library _ => True
    | .resource _, .resource _ => True
    | .view _, .view _ => True
    | .logic _, .logic _ => True
    | .resourceFiles _, .resourceFiles _ => True
    | _, _ => False := by
  cases e <;> cases e' <;> simp [SketchwareProjectParseError.message]

/-! ### Numbers that are none -/

theorem ofDigits_none {max : Nat} {s : Str} {acc : Nat} (h : acc ≤ max) :
    IntErrorKind.ofDigits max s acc = none ↔ ((digitsVal 10 s acc).filter (· ≤ max)).isSome := by
  have grow : ∀ {s : Str} {a n : Nat}, digitsVal 10 s a = some n → a ≤ n := by
    intro s
    induction s with
    | nil => intro a n h; rw [digitsVal] at h; cases h; exact Nat.le_refl _
    | cons c s ih =>
      intro a n h
      rw [digitsVal] at h
      cases hd : digitVal 10 c with
      | none => rw [hd] at h; cases h
      | some d => rw [hd] at h; have := ih h; omega
  induction s generalizing acc with
  | nil => simp [IntErrorKind.ofDigits, digitsVal, h]
  | cons c s ih =>
    rw [IntErrorKind.ofDigits, digitsVal]
    cases hd : digitVal 10 c with
    | none => simp
    | some d =>
      simp only
      split
      next hl =>
        simp only [reduceCtorEq, false_iff]
        intro hs
        obtain ⟨n, hn⟩ := Option.isSome_iff_exists.mp hs
        obtain ⟨h1, h2⟩ := Option.filter_eq_some_iff.mp hn
        have := grow h1
        simp at h2
        omega
      next hl => exact ih (by omega)

/-- C89: there is a reason exactly for the texts that are no numbers. -/
theorem c89_reason {max : Nat} (s : Str) : (IntErrorKind.ofText max s).isSome ↔ parseUnsigned 10 max s = none := by
  have key : ∀ d : Str, d ≠ [] → ((IntErrorKind.ofDigits max d 0).isSome ↔
      (if d = [] then none else (digitsVal 10 d 0).filter (· ≤ max)) = none) := by
    intro d hd
    have := ofDigits_none (max := max) (s := d) (acc := 0) (by omega)
    rw [if_neg hd]
    cases h1 : IntErrorKind.ofDigits max d 0 <;> cases h2 : (digitsVal 10 d 0).filter (· ≤ max) <;> simp_all
  unfold IntErrorKind.ofText
  split
  · simp [parseUnsigned]
  · simp [parseUnsigned]
  next r hr => exact key r (by rintro rfl; exact hr rfl)
  next h1 h2 h3 =>
    have e : parseUnsigned 10 max s = if s = [] then none else (digitsVal 10 s 0).filter (· ≤ max) := by
      unfold parseUnsigned
      dsimp only
      split
      next r => exact absurd rfl (h3 r)
      next => rfl
    rw [e]
    exact key s (fun h => h1 h)

theorem ofDigits_overflow {max : Nat} {s : Str} {acc : Nat} (hacc : acc ≤ max) :
    IntErrorKind.ofDigits max s acc = some .posOverflow ↔
      ∃ p r n, s = p ++ r ∧ digitsVal 10 p acc = some n ∧ max < n := by
  induction s generalizing acc with
  | nil =>
    simp only [IntErrorKind.ofDigits, reduceCtorEq, false_iff]
    rintro ⟨p, r, n, h1, h2, h3⟩
    obtain ⟨rfl, rfl⟩ := List.append_eq_nil_iff.mp h1.symm
    rw [digitsVal] at h2; cases h2; omega
  | cons c s ih =>
    rw [IntErrorKind.ofDigits]
    cases hd : digitVal 10 c with
    | none =>
      simp only [Option.some.injEq, reduceCtorEq, false_iff]
      rintro ⟨p, r, n, h1, h2, h3⟩
      cases p with
      | nil => rw [digitsVal] at h2; cases h2; omega
      | cons c' p =>
        simp only [List.cons_append, List.cons.injEq] at h1
        rw [digitsVal, ← h1.1, hd] at h2; cases h2
    | some d =>
      simp only
      split
      next hl =>
        refine iff_of_true rfl ⟨[c], s, _, rfl, ?_, hl⟩
        rw [digitsVal, hd]; rfl
      next hl =>
        rw [ih (by omega)]
        constructor
        · rintro ⟨p, r, n, h1, h2, h3⟩
          exact ⟨c :: p, r, n, by rw [h1]; rfl, by rw [digitsVal, hd]; exact h2, h3⟩
        · rintro ⟨p, r, n, h1, h2, h3⟩
          cases p with
          | nil => rw [digitsVal] at h2; cases h2; omega
          | cons c' p =>
            simp only [List.cons_append, List.cons.injEq] at h1
            rw [digitsVal, ← h1.1, hd] at h2
            exact ⟨p, r, n, h1.2, h2, h3⟩

/-- C89, the reasons: an empty text; a number that is too large already before anything that is no digit; everything else. -/
theorem c89_reasons {max : Nat} (s : Str) : (IntErrorKind.ofText max s = some .empty ↔ s = []) ∧
    (IntErrorKind.ofText max s = some .posOverflow ↔ ∃ p r ds, (s = p ++ r ∨ s = '+' :: (p ++ r)) ∧ All₂ c88_Digit p ds ∧
      (∀ d ∈ ds, d < 10) ∧ max < c88_value 10 ds) := by
  have ne : ∀ {d a}, IntErrorKind.ofDigits max d a ≠ some .empty := by
    intro d
    induction d with
    | nil => simp [IntErrorKind.ofDigits]
    | cons c d ih =>
      intro a
      rw [IntErrorKind.ofDigits]
      cases digitVal 10 c with
      | none => simp
      | some e => simp only; split <;> simp [ih]
  have plus : ∀ d, ¬ c88_Digit '+' d := by
    intro d h
    have := (digitVal_iff (b := 16) (by omega) '+').mpr ⟨h, by
      rcases h with h | h <;> exact (List.getElem?_eq_some_iff.mp h).1⟩
    rw [show digitVal 16 '+' = none by decide] at this
    cases this
  have key : ∀ d : Str, IntErrorKind.ofDigits max d 0 = some .posOverflow ↔ ∃ p r ds, d = p ++ r ∧ All₂ c88_Digit p ds ∧
      (∀ d ∈ ds, d < 10) ∧ max < c88_value 10 ds := by
    intro d
    rw [ofDigits_overflow (by omega)]
    constructor
    · rintro ⟨p, r, n, h1, h2, h3⟩
      obtain ⟨ds, h4, h5, h6⟩ := (digitsVal_iff (by omega)).mp h2
      exact ⟨p, r, ds, h1, h4, h5, by simp at h6; omega⟩
    · rintro ⟨p, r, ds, h1, h2, h3, h4⟩
      exact ⟨p, r, _, h1, (digitsVal_iff (by omega)).mpr ⟨ds, h2, h3, rfl⟩, by simpa using h4⟩
  have none_plus : ∀ {p r : Str} {ds : List Nat} {x : Str}, All₂ c88_Digit p ds → max < c88_value 10 ds → '+' :: x = p ++ r → False := by
    intro p r ds x h1 h2 h3
    cases h1 with
    | nil => simp [c88_value] at h2
    | cons h t =>
      rw [List.cons_append, List.cons.injEq] at h3
      rw [← h3.1] at h
      exact plus _ h
  unfold IntErrorKind.ofText
  split
  · refine ⟨by simp, ?_⟩
    simp only [Option.some.injEq, reduceCtorEq, false_iff]
    rintro ⟨p, r, ds, h | h, h2, _, h4⟩
    · obtain ⟨rfl, rfl⟩ := List.append_eq_nil_iff.mp h.symm
      cases h2; simp [c88_value] at h4
    · cases h
  · refine ⟨by simp, ?_⟩
    simp only [Option.some.injEq, reduceCtorEq, false_iff]
    rintro ⟨p, r, ds, h | h, h2, _, h4⟩
    · exact none_plus h2 h4 h
    · simp only [List.cons.injEq, true_and] at h
      obtain ⟨rfl, rfl⟩ := List.append_eq_nil_iff.mp h.symm
      cases h2; simp [c88_value] at h4
  next r hr =>
    refine ⟨by simp [ne], ?_⟩
    rw [key]
    constructor
    · rintro ⟨p, q, ds, h1, h2⟩; exact ⟨p, q, ds, .inr (by rw [h1]), h2⟩
    · rintro ⟨p, q, ds, h | h, h2, h3, h4⟩
      · exact absurd h (none_plus h2 h4)
      · exact ⟨p, q, ds, by simpa using h, h2, h3, h4⟩
  next h1 h2 h3 =>
    refine ⟨by simp [ne]; exact fun h => h1 h, ?_⟩
    rw [key]
    constructor
    · rintro ⟨p, q, ds, h1, h2⟩; exact ⟨p, q, ds, .inl h1, h2⟩
    · rintro ⟨p, q, ds, h | h, h5⟩
      · exact ⟨p, q, ds, h, h5⟩
      · exact absurd h (h3 _)

example : IntErrorKind.ofText 4294967295 (s% "42949672960x") = some .posOverflow ∧
    IntErrorKind.ofText 4294967295 (s% "4294967296") = some .posOverflow ∧
    IntErrorKind.ofText 4294967295 (s% "x4294967296") = some .invalidDigit ∧
    IntErrorKind.ofText 4294967295 [] = some .empty ∧ IntErrorKind.ofText 4294967295 (s% "+12") = none := by decide +kernel

namespace Api

/-! ### The API -/

/-- C89: an invalid type tells type and name. -/
theorem c89_block_type (e e' : InvalidBlockType) : e.message = e'.message ↔
    e.blockType ++ s% ", type name: " ++ e.typeName = e'.blockType ++ s% ", type name: " ++ e'.typeName := by
  simp [InvalidBlockType.message]

/-- C89: an error of a spec tells its kind, the block, the value or the name of the parameter. -/
theorem c89_block_content (e e' : BlockContentParseError) : e.message = e'.message ↔ match e, e' with
    | .blockNotFound id, .blockNotFound id' => id = id'
    | .invalidBlockId v, .invalidBlockId v' => v = v'
    | .unknownSpecParam name _, .unknownSpecParam name' _ => name = name'
    | .ranOutOfArgs, .ranOutOfArgs => True
    | .invalidNumberArgument v, .invalidNumberArgument v' => v = v'
    | .invalidBooleanArgument v, .invalidBooleanArgument v' => v = v'
    | _, _ => False := by
  cases e <;> cases e' <;> simp only [BlockContentParseError.message]
  case blockNotFound.blockNotFound =>
    simp only [List.append_assoc, List.append_right_inj]
    rw [num_start (by simp; decide) (by simp; decide)]
    simp [UInt32.toNat_inj]
  all_goals simp

/-- An id and the reason why it is no number: the id can be told. -/
theorem malformed_inj {a b : Str} (f g : Option IntErrorKind)
    (h : a ++ (s% ": " ++ (match f with | some k => k.debug | none => [])) =
      b ++ (s% ": " ++ (match g with | some k => k.debug | none => []))) : a = b := by
  have h' := congrArg (fun x => x.reverse.take 4) h
  have e : f = g := by
    rcases f with _ | f <;> rcases g with _ | g
    · rfl
    all_goals
      first
      | (cases f <;> cases g <;> first | rfl | (simp [IntErrorKind.debug] at h'))
      | (cases f <;> simp [IntErrorKind.debug] at h')
      | (cases g <;> simp [IntErrorKind.debug] at h')
  subst e
  exact List.append_cancel_right h

/-- C89: an error of a block container tells its kind, the block, the type, or the error of the spec. -/
theorem c89_block [DebugText] (e e' : BlockConversionError) : e.message = e'.message ↔ match e, e' with
    | .malformedBlockId id, .malformedBlockId id' => id = id'
    | .blockNotFound id, .blockNotFound id' => id = id'
    | .substack1 id _ _, .substack1 id' _ _ => id = id'
    | .substack2 id _ _, .substack2 id' _ _ => id = id'
    | .invalidType t, .invalidType t' => t.blockType = t'.blockType
    | .content c, .content c' => c.debug = c'.debug
    | _, _ => False := by
  cases e <;> cases e' <;> simp only [BlockConversionError.message]
  case malformedBlockId.malformedBlockId =>
    simp only [List.append_assoc, List.append_right_inj]
    exact ⟨malformed_inj _ _, by rintro rfl; rfl⟩
  case blockNotFound.blockNotFound =>
    simp only [List.append_assoc, List.append_right_inj]
    rw [num_start (by simp; decide) (by simp; decide)]
    simp [UInt32.toNat_inj]
  case substack1.substack1 =>
    simp only [List.append_assoc, List.append_right_inj]
    rw [num_start (by simp; decide) (by simp; decide)]
    simp [UInt32.toNat_inj]
  case substack2.substack2 =>
    simp only [List.append_assoc, List.append_right_inj]
    rw [num_start (by simp; decide) (by simp; decide)]
    simp [UInt32.toNat_inj]
  all_goals simp

/-- C89: the error of a spec as shown in the error of a block. -/
theorem c89_block_debug [DebugText] (e e' : BlockContentParseError) : e.debug = e'.debug ↔ match e, e' with
    | .blockNotFound id, .blockNotFound id' => id = id'
    | .invalidBlockId v, .invalidBlockId v' => DebugText.str v = DebugText.str v'
    | .unknownSpecParam name full, .unknownSpecParam name' full' =>
      DebugText.str name ++ s% ", full: " ++ DebugText.str full = DebugText.str name' ++ s% ", full: " ++ DebugText.str full'
    | .ranOutOfArgs, .ranOutOfArgs => True
    | .invalidNumberArgument v, .invalidNumberArgument v' => DebugText.str v = DebugText.str v'
    | .invalidBooleanArgument v, .invalidBooleanArgument v' => DebugText.str v = DebugText.str v'
    | _, _ => False := by
  cases e <;> cases e' <;> simp only [BlockContentParseError.debug]
  case blockNotFound.blockNotFound =>
    simp only [List.append_assoc, List.append_right_inj]
    rw [num_start (by simp; decide) (by simp; decide)]
    simp [UInt32.toNat_inj]
  case unknownSpecParam.unknownSpecParam =>
    rw [List.append_left_inj]; simp
  all_goals simp

/-- C89: an error of the type of a view tells all. -/
theorem c89_view_type (e e' : ViewTypeConversionError) : e.message = e'.message ↔ e = e' := by
  cases e <;> cases e' <;> simp only [ViewTypeConversionError.message]
  case unknownViewType.unknownViewType =>
    simp only [List.append_assoc, List.append_right_inj]
    rw [num_start (by simp; decide) (by simp; decide)]
    simp [UInt8.toNat_inj]
  all_goals simp

/-- C89: an error of the views of a layout tells its kind, the view and the parent. -/
theorem c89_parse_layout (e e' : ParseLayoutError) : e.message = e'.message ↔ match e, e' with
    | .noParentField id, .noParentField id' => id = id'
    | .nonexistentParent id p, .nonexistentParent id' p' =>
      id ++ s% "` (parent id: `" ++ p = id' ++ s% "` (parent id: `" ++ p'
    | _, _ => False := by
  cases e <;> cases e' <;> simp only [ParseLayoutError.message]
  case nonexistentParent.nonexistentParent => rw [List.append_left_inj]; simp
  all_goals simp

/-- C89: an unknown event tells all. -/
theorem c89_event (e e' : UnknownEventType) : e.message = e'.message ↔ e = e' := by
  obtain ⟨n, t⟩ := e
  obtain ⟨n', t'⟩ := e'
  simp only [UnknownEventType.message, List.append_assoc, List.append_right_inj]
  rw [num_start (by simp; decide) (by simp; decide)]
  simp [UInt8.toNat_inj, and_comm]

/-- C89: an unknown component tells all. -/
theorem c89_component (e e' : UnknownComponentType) : e.message = e'.message ↔ e = e' := by
  obtain ⟨n, t⟩ := e
  obtain ⟨n', t'⟩ := e'
  simp only [UnknownComponentType.message, List.append_assoc, List.append_right_inj]
  rw [num_start (by simp; decide) (by simp; decide)]
  simp [UInt8.toNat_inj]

/-- C89: an error of a screen tells its kind and the moreblock, container, event, component or error of the layout. -/
theorem c89_screen [DebugText] (e e' : ScreenConstructionError) : e.message = e'.message ↔ match e, e' with
    | .moreBlockSpecParseError id _, .moreBlockSpecParseError id' _ => id = id'
    | .blocksParseError c _, .blocksParseError c' _ => c = c'
    | .unknownEventType t, .unknownEventType t' => t = t'
    | .unknownComponentType t, .unknownComponentType t' => t = t'
    | .layoutParseError l, .layoutParseError l' => l.debug = l'.debug
    | _, _ => False := by
  cases e <;> cases e' <;> simp only [ScreenConstructionError.message]
  case unknownEventType.unknownEventType => exact c89_event _ _
  case unknownComponentType.unknownComponentType => exact c89_component _ _
  all_goals simp [UnknownEventType.message, UnknownComponentType.message]

/-- C89: an error of the conversion tells its kind and the screen, view, library and value, or resource. -/
theorem c89_conversion (e e' : ConversionError) : e.message = e'.message ↔ match e, e' with
    | .screenConstructionError _ l _, .screenConstructionError _ l' _ => l = l'
    | .missingCustomViewLayout id, .missingCustomViewLayout id' => id = id'
    | .customViewParseLayoutError id _, .customViewParseLayoutError id' _ => id = id'
    | .invalidUseYNValue l v, .invalidUseYNValue l' v' =>
      l ++ s% "` has an invalid value `" ++ v = l' ++ s% "` has an invalid value `" ++ v'
    | .missingResourceFile n _ _, .missingResourceFile n' _ _ => n = n'
    | _, _ => False := by
  cases e <;> cases e' <;> simp only [ConversionError.message]
  case invalidUseYNValue.invalidUseYNValue => rw [List.append_left_inj]; simp
  all_goals simp

/-- C89: an unknown colour is told. -/
theorem c89_color (c c' : Color) : unknownColorMessage c = unknownColorMessage c' ↔ c = c' := by
  rw [unknownColorMessage, unknownColorMessage, List.append_left_inj, List.append_right_inj]
  refine ⟨fun h => ?_, fun h => by rw [h]⟩
  obtain ⟨d, h1, _, _, h2⟩ := Color.c09_print_parse c
  obtain ⟨d', h1', _, _, h2'⟩ := Color.c09_print_parse c'
  rw [h1, h1'] at h
  simp only [List.cons.injEq, true_and] at h
  rw [h, h2'] at h2
  exact (Option.some.inj h2).symm

/-- C89: the message of a taken id does not say which one. -/
theorem c89_id_taken [DebugText] (e e' : ResourceAdditionError) : e.message = e'.message ↔ match e, e' with
    | .idTaken _, .idTaken _ => True
    | .fileDoesntExist p, .fileDoesntExist p' => DebugText.path p = DebugText.path p'
    | _, _ => False := by
  cases e <;> cases e' <;> simp [ResourceAdditionError.message]

/-- C89 is false: errors about different things have the same message. A taken id, the line of a floating button and the
number of a block are not shown, and names with a space cannot be told apart. -/
theorem c89_messages_false [DebugText] [Floats] :
    (ResourceAdditionError.idTaken (s% "a")).message = (ResourceAdditionError.idTaken (s% "b")).message ∧
    (ViewParseError.fab (s% "main") 3 []).message = (ViewParseError.fab (s% "main") 7 []).message ∧
    blockContainerMessage 0 = blockContainerMessage 1 ∧
    (LogicParseError.blockContainer (s% "A container B") (s% "C") 1 0).message =
      (LogicParseError.blockContainer (s% "A") (s% "B container C") 1 0).message := ⟨rfl, rfl, rfl, rfl⟩

/-- C89: the names in the headers of the logic file have no spaces in Sketchware; then screen and container can be told. -/
theorem c89_container_partial {s c s' c' : Str} {n n' k k' : Nat} (h : ' ' ∉ s) (h' : ' ' ∉ s')
    (e : (LogicParseError.blockContainer s c n k).message = (LogicParseError.blockContainer s' c' n' k').message) :
    s = s' ∧ c = c' ∧ n = n' := by
  obtain ⟨e, hn⟩ := (c89_logic _ _).mp e
  have h1 : splitOnce ' ' (s ++ ' ' :: (s% "container " ++ c)) = some (s, s% "container " ++ c) := splitOnce_append h
  have h2 : splitOnce ' ' (s' ++ ' ' :: (s% "container " ++ c')) = some (s', s% "container " ++ c') := splitOnce_append h'
  have e' : s ++ ' ' :: (s% "container " ++ c) = s' ++ ' ' :: (s% "container " ++ c') := by
    simpa using e
  rw [e', h2] at h1
  simp only [Option.some.injEq, Prod.mk.injEq, List.append_right_inj] at h1
  exact ⟨h1.1.symm, h1.2.symm, hn⟩

/-- C89: likewise in the view file. -/
theorem c89_screen_partial [Floats] {s c s' c' : Str} {l l' : LayoutParseError} (h : ' ' ∉ s) (h' : ' ' ∉ s')
    (e : (ViewParseError.layout s c l).message = (ViewParseError.layout s' c' l').message) : s = s' ∧ c = c' := by
  have e := (c89_view _ _).mp e
  have h1 : splitOnce ' ' (s ++ ' ' :: c) = some (s, c) := splitOnce_append h
  have h2 : splitOnce ' ' (s' ++ ' ' :: c') = some (s', c') := splitOnce_append h'
  have e' : s ++ ' ' :: c = s' ++ ' ' :: c' := by simpa using e
  rw [e', h2] at h1
  simp only [Option.some.injEq, Prod.mk.injEq] at h1
  exact ⟨h1.1.symm, h1.2.symm⟩

example : (LogicParseError.blockContainer (s% "MainActivity") (s% "onCreate_initializeLogic") 12 0).message =
    s% "error while parsing a block container of screen MainActivity container onCreate_initializeLogic at line 12" := by
  decide +kernel

example : (FileParseError.item 3 (s% "{}")).message = s% "failed to parse a file item at line 3 with the content {}" := by
  decide +kernel

end Api
end Swrs
