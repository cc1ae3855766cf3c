import Verif.Props.SpecApply
/-!
# C74: which error a spec and its arguments give
-/
namespace Swrs.Api
variable [Floats] {B : Type}

/-- What is wrong with the text given to a parameter of a kind: a reference that is not a number; no number; no boolean. -/
def textError (k : Kind) (a : Str) : Option BlockContentParseError :=
  match a with
  | '@' :: d => if (parseU32 d).isSome then none else some (.invalidBlockId a)
  | a => match k with
    | .string | .menu => none
    | .number => if (Floats.read64 a).isSome then none else some (.invalidNumberArgument a)
    | .boolean => if a = s% "true" ∨ a = s% "false" then none else some (.invalidBooleanArgument a)

/-- What is wrong with a parameter of a kind when the texts `as` are left: none is left, or the first is wrong. -/
def argError (k : Kind) : List Str → Option BlockContentParseError
  | [] => some .ranOutOfArgs
  | a :: _ => textError k a

/-- The same when the spec is read with its arguments: menus take any text. -/
def readError (k : Kind) : List Str → Option BlockContentParseError
  | [] => some .ranOutOfArgs
  | a :: _ => if k = .menu then none else textError k a

namespace BlockContent

theorem textError_plain {k : Kind} {a : Str} (h : a.head? ≠ some '@') : textError k a = match k with
    | .string | .menu => none
    | .number => if (Floats.read64 a).isSome then none else some (.invalidNumberArgument a)
    | .boolean => if a = s% "true" ∨ a = s% "false" then none else some (.invalidBooleanArgument a) := by
  unfold textError
  split
  · simp at h
  · rfl

theorem argText_err {α : Type} {f : Str → Option α} {bad : Str → BlockContentParseError} {k : Kind}
    (hf : ∀ a : Str, a.head? ≠ some '@' → textError k a = if (f a).isSome then none else some (bad a)) {a : Str}
    {e : BlockContentParseError} : (argText f bad a : Out _ (ArgValue B α)) = .err e ↔ textError k a = some e := by
  by_cases h : a.head? = some '@'
  · cases a with
    | nil => simp at h
    | cons x d =>
      simp at h; subst h
      have hs : startsWith (s% "@") ('@' :: d) = true := by simp
      obtain ⟨r, h1, h2⟩ := startsWith_at hs
      simp at h1; subst h1
      simp only [argText, hs, if_true, h2, Out.unwrap, Out.ok_bind, textError]
      cases parseU32 d <;> simp
  · rw [argText_plain h, hf a h]
    cases f a <;> simp

theorem hf_string (a : Str) (_ : a.head? ≠ some '@') : textError .string a = if (some a).isSome then none else some .ranOutOfArgs := by
  rw [textError_plain ‹_›]; rfl
theorem hf_menu (a : Str) (_ : a.head? ≠ some '@') : textError .menu a = if (some a).isSome then none else some .ranOutOfArgs := by
  rw [textError_plain ‹_›]; rfl
theorem hf_number (a : Str) (_ : a.head? ≠ some '@') :
    textError .number a = if (Floats.read64 a).isSome then none else some (.invalidNumberArgument a) := by
  rw [textError_plain ‹_›]
theorem hf_boolean (a : Str) (_ : a.head? ≠ some '@') :
    textError .boolean a = if (parseBool a).isSome then none else some (.invalidBooleanArgument a) := by
  rw [textError_plain ‹_›]
  unfold parseBool
  grind

/-- An item with a hole: the error of its argument. -/
theorem applyArg_hole {i : SpecItem B} {k : Kind} (hi : holes [i] = [k]) (args : List Str) :
    (∀ e, applyArg i args = .err e ↔ argError k args = some e) ∧ (∀ j as, applyArg i args = .ok (j, as) → as = args.tail) ∧
    applyArg i args ≠ .panic := by
  cases i with
  | text s => simp [holes] at hi
  | param p =>
    cases p with
    | string n v =>
      cases v <;> simp [holes] at hi
      subst hi
      cases args with
      | nil => simp [applyArg, fill, takeArg, argError]
      | cons a as =>
        simp only [applyArg, fill, takeArg, Out.ok_bind, Out.bind_eq_err, Out.bind_eq_ok, Out.pure_eq,
          argError, ← argText_err (B := B) hf_string]
        refine ⟨fun e => by simp, ?_, by simp [argText_ne_panic, Out.bind_eq_panic]⟩
        rintro j as' ⟨x, ⟨v, _, hx⟩, h⟩; cases hx; cases h; rfl
    | number n v =>
      cases v <;> simp [holes] at hi
      subst hi
      cases args with
      | nil => simp [applyArg, fill, takeArg, argError]
      | cons a as =>
        simp only [applyArg, fill, takeArg, Out.ok_bind, Out.bind_eq_err, Out.bind_eq_ok, Out.pure_eq,
          argError, ← argText_err (B := B) hf_number]
        refine ⟨fun e => by simp, ?_, by simp [argText_ne_panic, Out.bind_eq_panic]⟩
        rintro j as' ⟨x, ⟨v, _, hx⟩, h⟩; cases hx; cases h; rfl
    | boolean n v =>
      cases v <;> simp [holes] at hi
      subst hi
      cases args with
      | nil => simp [applyArg, fill, takeArg, argError]
      | cons a as =>
        simp only [applyArg, fill, takeArg, Out.ok_bind, Out.bind_eq_err, Out.bind_eq_ok, Out.pure_eq,
          argError, ← argText_err (B := B) hf_boolean]
        refine ⟨fun e => by simp, ?_, by simp [argText_ne_panic, Out.bind_eq_panic]⟩
        rintro j as' ⟨x, ⟨v, _, hx⟩, h⟩; cases hx; cases h; rfl
    | menu n v =>
      cases v <;> simp [holes] at hi
      subst hi
      cases args with
      | nil => simp [applyArg, fill, takeArg, argError]
      | cons a as =>
        simp only [applyArg, fill, takeArg, Out.ok_bind, Out.bind_eq_err, Out.bind_eq_ok, Out.pure_eq,
          argError, ← argText_err (B := B) hf_menu]
        refine ⟨fun e => by simp, ?_, by simp [argText_ne_panic, Out.bind_eq_panic]⟩
        rintro j as' ⟨x, ⟨v, _, hx⟩, h⟩; cases hx; cases h; rfl

theorem applyArg_full {i : SpecItem B} (hi : holes [i] = []) (args : List Str) : applyArg i args = .ok (i, args) := by
  cases i with
  | text s => rfl
  | param p => cases p with
    | string n v => cases v <;> first | rfl | simp [holes] at hi
    | number n v => cases v <;> first | rfl | simp [holes] at hi
    | boolean n v => cases v <;> first | rfl | simp [holes] at hi
    | menu n v => cases v <;> first | rfl | simp [holes] at hi

/-- The error of an item read alone, with its arguments. -/
theorem withArg_err {w : Str} {i : SpecItem B} (hi : IsWord w i) (args : List Str) (e : BlockContentParseError) :
    withArg args i = .err e ↔ ∃ k, holes [i] = [k] ∧ readError k args = some e := by
  cases hi with
  | text _ h => simp [withArg, holes]
  | string t =>
    cases args with
    | nil => simp [withArg, takeArg, holes, readError]
    | cons a as => simp [withArg, takeArg, holes, readError, Out.bind_eq_err, argText_err hf_string]
  | number t =>
    cases args with
    | nil => simp [withArg, takeArg, holes, readError]
    | cons a as => simp [withArg, takeArg, holes, readError, Out.bind_eq_err, argText_err hf_number]
  | boolean t =>
    cases args with
    | nil => simp [withArg, takeArg, holes, readError]
    | cons a as => simp [withArg, takeArg, holes, readError, Out.bind_eq_err, argText_err hf_boolean]
  | menu t n hn =>
    cases args with
    | nil => simp [withArg, takeArg, holes, readError]
    | cons a as => simp [withArg, takeArg, holes, readError]

end BlockContent

/-- C74: applying texts gives an error iff it is that of the first empty parameter that cannot be filled; the `k`-th empty
parameter is given the `k`-th text. -/
theorem c74_apply (c : BlockContent B) (args : List Str) (e : BlockContentParseError) :
    BlockContent.applyArgs c args = .err e ↔
      ∃ (k : Nat) (j : Kind), (holes c)[k]? = some j ∧ argError j (args.drop k) = some e ∧
        ∀ (k' : Nat) (j' : Kind), k' < k → (holes c)[k']? = some j' → argError j' (args.drop k') = none := by
  induction c generalizing args with
  | nil => simp [BlockContent.applyArgs, holes]
  | cons i c ih =>
    rw [BlockContent.applyArgs]
    rcases holes_cons i c with ⟨h1, h2⟩ | ⟨k, h1, h2⟩
    · rw [BlockContent.applyArg_full h2, h1, ← ih]
      simp [Out.bind_eq_err]
    · obtain ⟨he, ht, hp⟩ := BlockContent.applyArg_hole h2 args
      rw [h1]
      simp only [Out.bind_eq_err, Out.pure_eq, reduceCtorEq, and_false, exists_const, or_false, he, Prod.exists]
      constructor
      · rintro (h | ⟨j, as, hj, h⟩)
        · exact ⟨0, k, rfl, by simpa using h, by simp⟩
        · rw [ht j as hj, ih] at h
          obtain ⟨n, k', hk, hn, hb⟩ := h
          have hnone : argError k args = none := by
            cases hx : argError k args with
            | none => rfl
            | some e' => rw [(he e').mpr hx] at hj; cases hj
          refine ⟨n + 1, k', by simpa using hk, by simpa using hn, ?_⟩
          intro m j' hm hj'
          cases m with
          | zero => simp at hj'; subst hj'; simpa using hnone
          | succ m => simpa using hb m j' (by omega) (by simpa using hj')
      · rintro ⟨n, j, hj, hn, hb⟩
        cases n with
        | zero => simp at hj; subst hj; exact .inl (by simpa using hn)
        | succ n =>
          right
          have hnone : argError k args = none := by simpa using hb 0 k (by omega) (by simp)
          cases hx : BlockContent.applyArg i args with
          | panic => exact absurd hx hp
          | err e' => rw [(he e').mp hx] at hnone; cases hnone
          | ok x =>
            obtain ⟨j', as⟩ := x
            refine ⟨j', as, rfl, ?_⟩
            rw [ht j' as hx, ih]
            exact ⟨n, j, by simpa using hj, by simpa using hn, fun m q hm hq => by
              simpa using hb (m + 1) q (by omega) (by simpa using hq)⟩

/-- C74: reading a spec alone gives an error iff it is that of the first word that cannot be read: a parameter letter other
than `s`, `d`, `b` and `m`, reported with the letter and the word. -/
theorem c74_alone (s : Str) (e : BlockContentParseError) :
    (BlockContent.parseWoParams s : Out _ (BlockContent B)) = .err e ↔
      ∃ pre w post, splitOn ' ' s = pre ++ w :: post ∧ (∀ p ∈ pre, ∃ i : SpecItem B, IsWord p i) ∧ ErrWord w e := by
  unfold BlockContent.parseWoParams
  generalize splitOn ' ' s = ws
  induction ws with
  | nil => simp [BlockContent.words]
  | cons w ws ih =>
    rw [BlockContent.words]
    simp only [Out.bind_eq_err, BlockContent.word_err, BlockContent.word_ok, Out.pure_eq, reduceCtorEq, and_false,
      exists_const, or_false, ih]
    constructor
    · rintro (h | ⟨i, hi, pre, w', post, rfl, h1, h2⟩)
      · exact ⟨[], w, ws, rfl, by simp, h⟩
      · refine ⟨w :: pre, w', post, rfl, ?_, h2⟩
        intro p hp
        rcases List.mem_cons.mp hp with rfl | hp
        · exact ⟨i, hi⟩
        · exact h1 p hp
    · rintro ⟨pre, w', post, h, h1, h2⟩
      cases pre with
      | nil => simp at h; obtain ⟨rfl, rfl⟩ := h; exact .inl h2
      | cons p pre =>
        simp at h; obtain ⟨rfl, rfl⟩ := h
        obtain ⟨i, hi⟩ := h1 w (by simp)
        exact .inr ⟨i, hi, pre, w', post, rfl, fun p hp => h1 p (by simp [hp]), h2⟩

/-- C74: reading a spec with its arguments gives an error iff it is that of the first word that cannot be read or whose
argument is missing or wrong; the argument of a word is the text after those of the parameters before it. -/
theorem c74_with_args (s : Str) (args : List Str) (e : BlockContentParseError) :
    (BlockContent.parse s args : Out _ (BlockContent B)) = .err e ↔
      ∃ pre w post, splitOn ' ' s = pre ++ w :: post ∧ (∃ c : BlockContent B, Reads pre args c) ∧
        (ErrWord w e ∨ ∃ (i : SpecItem B) (k : Kind), IsWord w i ∧ holes [i] = [k] ∧
          readError k (args.drop (pre.countP fun p => p.head? = some '%')) = some e) := by
  unfold BlockContent.parse
  generalize splitOn ' ' s = ws
  have hdrop : ∀ {w : Str} {i j : SpecItem B} {args as : List Str}, IsWord w i → BlockContent.withArg args i = .ok (j, as) →
      ∀ n, as.drop n = args.drop (n + if w.head? = some '%' then 1 else 0) := by
    intro w i j args as hi h n
    cases hi with
    | text _ hw => rw [BlockContent.withArg_text] at h; simp at h; rw [if_neg hw, h.2]; rfl
    | _ =>
      have := (BlockContent.withArg_param h).1
      subst this
      cases args <;> simp
  induction ws generalizing args with
  | nil => simp [BlockContent.wordsArgs]
  | cons w ws ih =>
    rw [BlockContent.wordsArgs, BlockContent.wordArgs_eq]
    simp only [Out.bind_eq_err, Out.bind_eq_ok, BlockContent.word_err, BlockContent.word_ok, Out.pure_eq, reduceCtorEq, and_false,
      exists_const, or_false, Prod.exists]
    constructor
    · rintro ((h | ⟨i, hi, h⟩) | ⟨j, as, ⟨i, hi, hj⟩, h⟩)
      · exact ⟨[], w, ws, rfl, ⟨_, .nil _⟩, .inl h⟩
      · obtain ⟨k, h1, h2⟩ := (BlockContent.withArg_err hi args e).mp h
        exact ⟨[], w, ws, rfl, ⟨_, .nil _⟩, .inr ⟨i, k, hi, h1, by simpa using h2⟩⟩
      · obtain ⟨pre, w', post, rfl, ⟨c, hc⟩, h2⟩ := (ih as).mp h
        refine ⟨w :: pre, w', post, rfl, ⟨j :: c, ?_⟩, ?_⟩
        · rw [← BlockContent.wordsArgs_ok] at hc ⊢
          simp [BlockContent.wordsArgs, BlockContent.wordArgs_eq, BlockContent.word_ok.mpr hi, hj, hc]
        · rw [hdrop hi hj] at h2
          simpa [List.countP_cons] using h2
    · rintro ⟨pre, w', post, h, ⟨c, hc⟩, h2⟩
      cases pre with
      | nil =>
        simp at h; obtain ⟨rfl, rfl⟩ := h
        left
        rcases h2 with h2 | ⟨i, k, hi, h1, h2⟩
        · exact .inl h2
        · exact .inr ⟨i, hi, (BlockContent.withArg_err hi args e).mpr ⟨k, h1, by simpa using h2⟩⟩
      | cons p pre =>
        simp at h; obtain ⟨rfl, rfl⟩ := h
        rw [← BlockContent.wordsArgs_ok, BlockContent.wordsArgs, BlockContent.wordArgs_eq] at hc
        simp only [Out.bind_eq_ok, BlockContent.word_ok, Prod.exists, Out.pure_eq, Out.ok.injEq] at hc
        obtain ⟨j, as, ⟨i, hi, hj⟩, c', hc', rfl⟩ := hc
        refine .inr ⟨j, as, ⟨i, hi, hj⟩, (ih as).mpr ⟨pre, w', post, rfl, ⟨c', BlockContent.wordsArgs_ok.mp hc'⟩, ?_⟩⟩
        rw [hdrop hi hj]
        simpa [List.countP_cons] using h2

example : (BlockContent.parse (s% "a %s %d") [s% "x", s% "@q"] : Out _ (BlockContent B)) = .err (.invalidBlockId (s% "@q")) := rfl
example : (BlockContent.parse (s% "a %s %x") [s% "x", s% "@q"] : Out _ (BlockContent B)) =
    .err (.unknownSpecParam (s% "x") (s% "%x")) := rfl
example : (BlockContent.parse (s% "a %s %s") [s% "x"] : Out _ (BlockContent B)) = .err .ranOutOfArgs := rfl
example : (BlockContent.applyArgs [.param (.boolean none .empty), .param (.menu (s% "m") .empty)] [s% "true", s% "@"] :
    Out _ (BlockContent B)) = .err (.invalidBlockId (s% "@")) := rfl
example : ErrWord (s% "%x") (.unknownSpecParam (s% "x") (s% "%x")) :=
  ⟨'x', [], rfl, by decide, by decide, by decide, by decide, by simp, rfl⟩

end Swrs.Api
