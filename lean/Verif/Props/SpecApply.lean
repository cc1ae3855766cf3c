import Verif.Props.ApiSpec
/-!
# C71: reading a spec with its arguments, or reading it alone and applying the arguments afterwards
-/
namespace Swrs.Api
variable [Floats] {B : Type}

/-- No menu among the parameters is given a text beginning with `@`: the `k`-th parameter is given the `k`-th text. -/
def NoMenuRef (c : BlockContent B) (args : List Str) : Prop :=
  ∀ (k : Nat) (n : Str) (v : ArgValue B Str) (a : Str),
    (BlockContent.getArgs c)[k]? = some (.menu n v) → args[k]? = some a → a.head? ≠ some '@'

namespace BlockContent

omit [Floats] in
theorem argText_plain {α : Type} {f : Str → Option α} {bad : Str → BlockContentParseError} {a : Str} (h : a.head? ≠ some '@') :
    (argText f bad a : Out _ (ArgValue B α)) = (Out.ofOption (bad a) (f a) >>= fun v => pure (.value v)) := by
  have : startsWith (s% "@") a = false := by
    cases a with
    | nil => rfl
    | cons x a => simp [startsWith] at h ⊢; grind
  simp [argText, this]

omit [Floats] in
theorem argText_ref {α : Type} {f : Str → Option α} {bad : Str → BlockContentParseError} {a : Str} {v : ArgValue B α}
    (h : a.head? = some '@') (hv : argText f bad a = .ok v) : ∃ id, v = .placeholder id := by
  have : startsWith (s% "@") a = true := by
    cases a with
    | nil => simp at h
    | cons x a => simp at h; subst h; rfl
  simp only [argText, this, if_true, Out.bind_eq_ok, Out.pure_eq, Out.ok.injEq] at hv
  obtain ⟨_, _, id, _, rfl⟩ := hv
  exact ⟨id, rfl⟩

theorem noMenuRef_text {s : Str} {c : BlockContent B} {args : List Str} :
    NoMenuRef (.text s :: c) args ↔ NoMenuRef c args := by
  simp [NoMenuRef, getArgs]

theorem noMenuRef_param {p : Argument B} {c : BlockContent B} {args : List Str} :
    NoMenuRef (.param p :: c) args ↔
      (∀ n v a, p = .menu n v → args.head? = some a → a.head? ≠ some '@') ∧ NoMenuRef c args.tail := by
  constructor
  · intro h
    refine ⟨fun n v a hp ha => h 0 n v a (by simp [getArgs, hp]) (by cases args <;> simp_all), fun k n v a h1 h2 => ?_⟩
    exact h (k + 1) n v a (by simpa [getArgs] using h1) (by cases args <;> simp_all)
  · rintro ⟨h0, h⟩ k n v a h1 h2
    cases k with
    | zero => exact h0 n v a (by simpa [getArgs] using h1) (by cases args <;> simp_all)
    | succ k => exact h k n v a (by simpa [getArgs] using h1) (by cases args <;> simp_all)

/-- A parameter uses up one text, whichever way. -/
theorem withArg_param {p : Argument B} {j : SpecItem B} {args as : List Str} (h : withArg args (.param p) = .ok (j, as)) :
    as = args.tail ∧ bare j = bare (.param p) := by
  cases p <;> cases args <;>
    simp only [withArg, takeArg, Out.err_bind, Out.ok_bind, Out.bind_eq_ok, Out.pure_eq, Out.ok.injEq, Prod.mk.injEq, reduceCtorEq] at h
  · obtain ⟨_, _, rfl, rfl⟩ := h; exact ⟨rfl, rfl⟩
  · obtain ⟨_, _, rfl, rfl⟩ := h; exact ⟨rfl, rfl⟩
  · obtain ⟨_, _, rfl, rfl⟩ := h; exact ⟨rfl, rfl⟩
  · obtain ⟨rfl, rfl⟩ := h; exact ⟨rfl, rfl⟩

theorem applyArg_eq {p : Argument B} {args : List Str} (he : bare (.param p) = .param p)
    (hm : ∀ n v a, p = .menu n v → args.head? = some a → a.head? ≠ some '@') :
    applyArg (.param p) args = withArg args (.param p) := by
  cases p with
  | string n v => simp [bare] at he; subst he; cases args <;> simp [applyArg, withArg, fill, takeArg]; cases argText _ _ _ <;> rfl
  | number n v => simp [bare] at he; subst he; cases args <;> simp [applyArg, withArg, fill, takeArg]; cases argText _ _ _ <;> rfl
  | boolean n v => simp [bare] at he; subst he; cases args <;> simp [applyArg, withArg, fill, takeArg]; cases argText _ _ _ <;> rfl
  | menu n v =>
    simp [bare] at he; subst he
    cases args with
    | nil => simp [applyArg, withArg, fill, takeArg]
    | cons a as =>
      have := hm n .empty a rfl rfl
      simp [applyArg, withArg, fill, takeArg, argText_plain this]

theorem applyArg_ref {n a : Str} {v : ArgValue B Str} {args as : List Str} {j : SpecItem B} (he : bare (.param (.menu n v)) = .param (.menu n v))
    (ha : a.head? = some '@') (h : applyArg (.param (.menu n v)) (a :: args) = .ok (j, as)) :
    withArg (a :: args) (.param (.menu n v)) ≠ .ok (j, as) := by
  simp [bare] at he; subst he
  simp only [applyArg, fill, takeArg, Out.ok_bind, Out.bind_eq_ok, Out.pure_eq, Out.ok.injEq, Prod.exists, Prod.mk.injEq] at h
  obtain ⟨v, _, ⟨v', hv, rfl, rfl⟩, rfl, rfl⟩ := h
  obtain ⟨id, rfl⟩ := argText_ref ha hv
  simp [withArg, takeArg]

theorem isWord_bare {w : Str} {i : SpecItem B} (h : IsWord w i) : bare i = i := by cases h <;> rfl

theorem withArg_text (s : Str) (args : List Str) : withArg args (.text s : SpecItem B) = .ok (.text s, args) := rfl

theorem wordsArgs_eq_applyArgs {ws : List Str} {c : BlockContent B} (h : words ws = .ok c) :
    ∀ args, NoMenuRef c args → wordsArgs ws args = applyArgs c args := by
  rw [words_eq_ok] at h
  induction h with
  | nil => intro args _; rfl
  | @cons w i ws c hw _ ih =>
    intro args hn
    rw [wordsArgs, applyArgs, wordArgs_eq, word_ok.mpr hw, Out.ok_bind]
    cases i with
    | text s =>
      rw [withArg_text]
      simp only [Out.ok_bind, applyArg, ih args (noMenuRef_text.mp hn)]
    | param p =>
      rw [noMenuRef_param] at hn
      rw [applyArg_eq (isWord_bare hw) hn.1]
      cases hx : withArg args (.param p) with
      | err e => rfl
      | panic => rfl
      | ok x =>
        obtain ⟨j, as⟩ := x
        obtain ⟨rfl, _⟩ := withArg_param hx
        simp only [Out.ok_bind, ih _ hn.2]

theorem wordsArgs_ok_bare {ws args : List Str} {d : BlockContent B} (h : wordsArgs ws args = .ok d) :
    words ws = .ok (d.map bare) := by
  induction ws generalizing args d with
  | nil => simp [wordsArgs] at h; subst h; rfl
  | cons w ws ih =>
    rw [wordsArgs, wordArgs_eq] at h
    simp only [Out.bind_eq_ok, Prod.exists, Out.pure_eq, Out.ok.injEq] at h
    obtain ⟨j, as, ⟨i, hi, hj⟩, d', hd', rfl⟩ := h
    rw [words, hi, Out.ok_bind, ih hd', Out.ok_bind, List.map_cons]
    have : bare j = i := by
      have hb := isWord_bare (word_ok.mp hi)
      cases i with
      | text s => rw [withArg_text] at hj; simp at hj; rw [← hj.1]; rfl
      | param p => rw [(withArg_param hj).2, hb]
    rw [this]; rfl

theorem noMenuRef_of_same {ws : List Str} {c d : BlockContent B} (h : words ws = .ok c) :
    ∀ args, wordsArgs ws args = .ok d → applyArgs c args = .ok d → NoMenuRef c args := by
  rw [words_eq_ok] at h
  induction h generalizing d with
  | nil => intro args _ _ k n v a h; simp [getArgs] at h
  | @cons w i ws c hw _ ih =>
    intro args h1 h2
    rw [wordsArgs, wordArgs_eq, word_ok.mpr hw, Out.ok_bind] at h1
    rw [applyArgs] at h2
    simp only [Out.bind_eq_ok, Prod.exists, Out.pure_eq, Out.ok.injEq] at h1 h2
    obtain ⟨j, as, hj, d', hd, rfl⟩ := h1
    obtain ⟨j', as', hj', d'', hd', hx⟩ := h2
    rw [List.cons.injEq] at hx
    obtain ⟨rfl, rfl⟩ := hx
    cases i with
    | text s =>
      rw [withArg_text] at hj
      simp [applyArg] at hj hj'
      obtain ⟨_, rfl⟩ := hj
      obtain ⟨_, rfl⟩ := hj'
      exact noMenuRef_text.mpr (ih _ hd hd')
    | param p =>
      have hm : ∀ n v a, p = .menu n v → args.head? = some a → a.head? ≠ some '@' := by
        rintro n v a rfl ha hat
        cases args with
        | nil => simp at ha
        | cons b bs =>
          simp at ha; subst ha
          have hb : as' = bs ∧ as = bs := by
            refine ⟨?_, (withArg_param hj).1⟩
            have := isWord_bare hw
            simp [bare] at this; subst this
            simp only [applyArg, fill, takeArg, Out.ok_bind, Out.bind_eq_ok, Out.pure_eq, Out.ok.injEq, Prod.exists,
              Prod.mk.injEq] at hj'
            obtain ⟨_, _, ⟨_, _, _, rfl⟩, _, rfl⟩ := hj'
            rfl
          obtain ⟨rfl, rfl⟩ := hb
          exact applyArg_ref (isWord_bare hw) hat hj' hj
      rw [applyArg_eq (isWord_bare hw) hm, hj] at hj'
      simp at hj'
      subst hj'
      rw [(withArg_param hj).1] at hd hd'
      exact noMenuRef_param.mpr ⟨hm, ih _ hd hd'⟩

end BlockContent

/-- C71 is false: a menu given the text `@1` keeps the text when the spec is read with its arguments, and refers to block 1
when the arguments are applied afterwards. -/
theorem c71_menu_false : ∃ (spec : Str) (args : List Str) (c : BlockContent B), BlockContent.parseWoParams spec = .ok c ∧
    BlockContent.parse spec args = .ok [.param (.menu (s% "x") (.value (s% "@1")) : Argument B)] ∧
    BlockContent.applyArgs c args = .ok [.param (.menu (s% "x") (.placeholder 1))] :=
  ⟨s% "%m.x", [s% "@1"], [.param (.menu (s% "x") .empty)], rfl, rfl, rfl⟩

/-- C71 is false in the outcome too: the text `@` is a value for the one and an invalid block id for the other. -/
theorem c71_menu_error_false : ∃ (spec : Str) (args : List Str) (c : BlockContent B), BlockContent.parseWoParams spec = .ok c ∧
    BlockContent.parse spec args = .ok [.param (.menu (s% "x") (.value (s% "@")) : Argument B)] ∧
    BlockContent.applyArgs c args = .err (.invalidBlockId (s% "@")) :=
  ⟨s% "%m.x", [s% "@"], [.param (.menu (s% "x") .empty)], rfl, rfl, rfl⟩

/-- C71, all but the menus given a text beginning with `@`: for a spec that can be read alone, reading it with its arguments
has the same outcome (content, error or panic) as applying the arguments to it. -/
theorem c71_same_partial (spec : Str) (args : List Str) (c : BlockContent B) (h : BlockContent.parseWoParams spec = .ok c)
    (hn : NoMenuRef c args) : BlockContent.parse spec args = BlockContent.applyArgs c args :=
  BlockContent.wordsArgs_eq_applyArgs h args hn

/-- C71, the condition is exact: when a spec is read with its arguments as `d`, then the spec alone is read as `d` without
its arguments, and applying the arguments gives `d` iff no menu is given a text beginning with `@`. -/
theorem c71_exact_partial (spec : Str) (args : List Str) (d : BlockContent B) (h : BlockContent.parse spec args = .ok d) :
    BlockContent.parseWoParams spec = .ok (d.map bare) ∧
    (BlockContent.applyArgs (d.map bare) args = .ok d ↔ NoMenuRef d args) := by
  have h1 : BlockContent.parseWoParams spec = .ok (d.map bare) := BlockContent.wordsArgs_ok_bare h
  have hb : NoMenuRef (d.map bare) args ↔ NoMenuRef d args := by
    have : ∀ (d : BlockContent B) args, NoMenuRef (d.map bare) args ↔ NoMenuRef d args := by
      intro d
      induction d with
      | nil => intro args; rfl
      | cons i d ih =>
        intro args
        cases i with
        | text s => simp only [List.map_cons, bare, BlockContent.noMenuRef_text, ih]
        | param p =>
          cases p <;> simp only [List.map_cons, bare, BlockContent.noMenuRef_param, ih] <;> try (simp; done)
          exact and_congr_left fun _ => ⟨fun h n v a hp => h n .empty a (by cases hp; rfl),
            fun h n v a hp => h n _ a (by cases hp; rfl)⟩
    exact this d args
  refine ⟨h1, ?_⟩
  rw [← hb]
  constructor
  · exact BlockContent.noMenuRef_of_same h1 args h
  · intro hn
    rw [← c71_same_partial spec args _ h1 hn, h]

example : NoMenuRef (B := B) [.text (s% "set"), .param (.menu (s% "view") .empty), .param (.string none .empty)]
    [s% "v1", s% "@3"] := by
  intro k n v a h1 h2
  match k with
  | 0 => simp at h2; subst h2; decide
  | 1 => simp [BlockContent.getArgs] at h1
  | k + 2 => simp [BlockContent.getArgs] at h1
example : (BlockContent.parse (s% "set %m.view %s") [s% "v1", s% "@3"] : Out _ (BlockContent B)) =
    .ok [.text (s% "set"), .param (.menu (s% "view") (.value (s% "v1"))), .param (.string none (.placeholder 3))] := rfl

end Swrs.Api
