import Verif.Proofs.LogicRun
/-! What parsing a logic file does on any text. -/
set_option linter.unusedSectionVars false
namespace Swrs
variable [Floats] [MapPol]

/-- The first line that does not parse, before any blank line: its index, its text and the error. -/
def PoolBad {ε α : Type} (p : Str → Out ε α) (ls : List Str) (k : Nat) (l : Str) (e : ε) : Prop :=
  ∃ pre as rest, ls = pre ++ l :: rest ∧ PoolReads p pre as ∧ l ≠ [] ∧ p l = .err e ∧ k = pre.length

/-- The suffixes of pool headers. -/
def poolSuffixes : List Str :=
  [s% "java_var", s% "java_list", s% "java_components", s% "java_events", s% "java_func"]

/-- A pool header without a one-byte character between the `@` and the suffix: the slice of the screen name
panics on it. -/
def PanicHeader (line : Str) : Prop :=
  ∃ S ∈ poolSuffixes, ∃ mid, line = '@' :: (mid ++ S) ∧ ∀ x, mid.getLast? = some x → x.utf8Size ≠ 1

/-- `SecErr line rest n e`: the section with this header and these following lines fails with the error `e`, when
`n` sections came before. -/
inductive SecErr : Str → List Str → Nat → LogicParseError → Prop where
  | var {name : Str} {x : Char} {rest : List Str} {n k : Nat} {l : Str} {e : VariableParseError} (hx : x.utf8Size = 1)
    (h : PoolBad Variable.parse rest k l e) :
    SecErr ('@' :: (name ++ x :: s% "java_var")) rest n (.variablePool name n ⟨k, l, e⟩)
  | list {name : Str} {x : Char} {rest : List Str} {n k : Nat} {l : Str} {e : ListVariableParseError}
    (hx : x.utf8Size = 1) (h : PoolBad ListVariable.parse rest k l e) :
    SecErr ('@' :: (name ++ x :: s% "java_list")) rest n (.listVariablePool name n ⟨k, l, e⟩)
  | components {name : Str} {x : Char} {rest : List Str} {n k : Nat} {l : Str} (hx : x.utf8Size = 1)
    (h : PoolBad (lineParser Component.parse) rest k l ()) :
    SecErr ('@' :: (name ++ x :: s% "java_components")) rest n (.componentPool name n ⟨k, l, ()⟩)
  | events {name : Str} {x : Char} {rest : List Str} {n k : Nat} {l : Str} (hx : x.utf8Size = 1)
    (h : PoolBad (lineParser Event.parse) rest k l ()) :
    SecErr ('@' :: (name ++ x :: s% "java_events")) rest n (.eventPool name n ⟨k, l, ()⟩)
  | func {name : Str} {x : Char} {rest : List Str} {n k : Nat} {l : Str} {e : MoreBlockParseError}
    (hx : x.utf8Size = 1) (h : PoolBad MoreBlock.parse rest k l e) :
    SecErr ('@' :: (name ++ x :: s% "java_func")) rest n (.moreBlockPool name n ⟨k, l, e⟩)
  | header {line : Str} {rest : List Str} {n : Nat} (hn : NotPool line) (hs : ¬ javaSep <:+: line) :
    SecErr line rest n (.blockContainerHeader n .noContainerName)
  | blocks {line : Str} {hd : BlockContainerHeader} {rest : List Str} {n k : Nat} {l : Str} (hn : NotPool line)
    (hl : BlockContainerHeader.parse line = .ok hd) (h : PoolBad (lineParser Block.parse) rest k l ()) :
    SecErr line rest n (.blockContainer hd.screenName hd.containerName n k)

namespace Logic

/-- Every header line either opens a section that is read, or one that fails, or makes the parser panic. -/
theorem step_cases {line : Str} (hat : startsWith ['@'] line = true) (rest : List Str) (n : Nat)
    (l : LMap Str ScreenLogic) :
    (∃ body rest' name eff, rest = body ++ [] :: rest' ∧ Sec line body name eff) ∨
    (∃ name eff, Sec line rest name eff) ∨
    (PanicHeader line ∧ step line rest n l = .panic) ∨
    (∃ e, SecErr line rest n e ∧ step line rest n l = .err e) := by
  obtain ⟨t, rfl⟩ : ∃ t, line = '@' :: t := by
    cases line with
    | nil => simp at hat
    | cons x t => simp at hat; subst hat; exact ⟨t, rfl⟩
  -- the part of a pool header before its suffix
  have hmid : ∀ S : Str, S.head? ≠ some '@' → S ≠ [] → endsWith S ('@' :: t) = true → ∃ mid, t = mid ++ S := by
    intro S h1 h2 h3
    obtain ⟨r, hr⟩ := endsWith_iff.mp h3
    cases r with
    | nil =>
      cases S with
      | nil => exact absurd rfl h2
      | cons c S => simp at hr; exact absurd (by simp [← hr.1]) h1
    | cons c r => simp at hr; exact ⟨r, hr.2⟩
  -- the screen name is there or the slice panics
  have hcut : ∀ (S mid : Str), (∃ name x, mid = name ++ [x] ∧ x.utf8Size = 1 ∧
      screenOf ('@' :: (mid ++ S)) (byteLen S + 1) = some name) ∨
      ((∀ x, mid.getLast? = some x → x.utf8Size ≠ 1) ∧ screenOf ('@' :: (mid ++ S)) (byteLen S + 1) = none) := by
    intro S mid
    cases hs : screenOf ('@' :: (mid ++ S)) (byteLen S + 1) with
    | some name =>
      obtain ⟨x, h1, h2⟩ := screenOf_eq_some.mp hs
      exact .inl ⟨name, x, h1, h2, rfl⟩
    | none =>
      refine .inr ⟨?_, rfl⟩
      intro x hx h1
      rcases List.eq_nil_or_concat mid with rfl | ⟨ini, y, rfl⟩
      · simp at hx
      · rw [List.concat_eq_append] at *
        simp at hx; subst hx
        rw [screenOf_eq_some.mpr ⟨y, rfl, h1⟩] at hs
        simp at hs
  by_cases h1 : endsWith (s% "java_var") ('@' :: t) = true
  · obtain ⟨mid, rfl⟩ := hmid _ (by simp) (by simp) h1
    rcases hcut (s% "java_var") mid with ⟨name, x, rfl, hx, hs⟩ | ⟨hno, hs⟩
    · rw [List.append_assoc, List.singleton_append] at hs h1 ⊢
      rcases readPool_cases (PoolError.mk (ε := VariableParseError)) Variable.parse_ne_panic rest with
        ⟨pre, as, r, rfl, hr, _⟩ | ⟨as, hr, _⟩ | ⟨pre, as, ln, e, r, rfl, hr, hne, hp, hrp⟩
      · exact .inl ⟨pre, r, _, _, rfl, .var hx hr⟩
      · exact .inr (.inl ⟨_, _, .var hx hr⟩)
      · refine .inr (.inr (.inr ⟨_, .var hx ⟨pre, as, r, rfl, hr, hne, hp, rfl⟩, ?_⟩))
        rw [step, if_pos h1, show (9 : Nat) = byteLen (s% "java_var") + 1 from rfl, hs, VariablePool.parseIter, hrp]; rfl
    · refine .inr (.inr (.inl ⟨⟨s% "java_var", by simp [poolSuffixes], mid, rfl, hno⟩, ?_⟩))
      rw [step, if_pos h1, show (9 : Nat) = byteLen (s% "java_var") + 1 from rfl, hs]; rfl
  by_cases h2 : endsWith (s% "java_list") ('@' :: t) = true
  · obtain ⟨mid, rfl⟩ := hmid _ (by simp) (by simp) h2
    rcases hcut (s% "java_list") mid with ⟨name, x, rfl, hx, hs⟩ | ⟨hno, hs⟩
    · rw [List.append_assoc, List.singleton_append] at hs h1 h2 ⊢
      rcases readPool_cases (PoolError.mk (ε := ListVariableParseError)) ListVariable.parse_ne_panic rest with
        ⟨pre, as, r, rfl, hr, _⟩ | ⟨as, hr, _⟩ | ⟨pre, as, ln, e, r, rfl, hr, hne, hp, hrp⟩
      · exact .inl ⟨pre, r, _, _, rfl, .list hx hr⟩
      · exact .inr (.inl ⟨_, _, .list hx hr⟩)
      · refine .inr (.inr (.inr ⟨_, .list hx ⟨pre, as, r, rfl, hr, hne, hp, rfl⟩, ?_⟩))
        rw [step, if_neg h1, if_pos h2, show (10 : Nat) = byteLen (s% "java_list") + 1 from rfl, hs,
          ListVariablePool.parseIter, hrp]; rfl
    · refine .inr (.inr (.inl ⟨⟨s% "java_list", by simp [poolSuffixes], mid, rfl, hno⟩, ?_⟩))
      rw [step, if_neg h1, if_pos h2, show (10 : Nat) = byteLen (s% "java_list") + 1 from rfl, hs]; rfl
  by_cases h3 : endsWith (s% "java_components") ('@' :: t) = true
  · obtain ⟨mid, rfl⟩ := hmid _ (by simp) (by simp) h3
    rcases hcut (s% "java_components") mid with ⟨name, x, rfl, hx, hs⟩ | ⟨hno, hs⟩
    · rw [List.append_assoc, List.singleton_append] at hs h1 h2 h3 ⊢
      rcases readPool_cases (PoolError.mk (ε := Unit)) (lineParser_ne_panic Component.parse) rest with
        ⟨pre, as, r, rfl, hr, _⟩ | ⟨as, hr, _⟩ | ⟨pre, as, ln, e, r, rfl, hr, hne, hp, hrp⟩
      · exact .inl ⟨pre, r, _, _, rfl, .components hx hr⟩
      · exact .inr (.inl ⟨_, _, .components hx hr⟩)
      · refine .inr (.inr (.inr ⟨_, .components hx ⟨pre, as, r, rfl, hr, hne, hp, rfl⟩, ?_⟩))
        rw [step, if_neg h1, if_neg h2, if_pos h3, show (16 : Nat) = byteLen (s% "java_components") + 1 from rfl, hs,
          ComponentPool.parseIter, hrp]; rfl
    · refine .inr (.inr (.inl ⟨⟨s% "java_components", by simp [poolSuffixes], mid, rfl, hno⟩, ?_⟩))
      rw [step, if_neg h1, if_neg h2, if_pos h3, show (16 : Nat) = byteLen (s% "java_components") + 1 from rfl, hs]; rfl
  by_cases h4 : endsWith (s% "java_events") ('@' :: t) = true
  · obtain ⟨mid, rfl⟩ := hmid _ (by simp) (by simp) h4
    rcases hcut (s% "java_events") mid with ⟨name, x, rfl, hx, hs⟩ | ⟨hno, hs⟩
    · rw [List.append_assoc, List.singleton_append] at hs h1 h2 h3 h4 ⊢
      rcases readPool_cases (PoolError.mk (ε := Unit)) (lineParser_ne_panic Event.parse) rest with
        ⟨pre, as, r, rfl, hr, _⟩ | ⟨as, hr, _⟩ | ⟨pre, as, ln, e, r, rfl, hr, hne, hp, hrp⟩
      · exact .inl ⟨pre, r, _, _, rfl, .events hx hr⟩
      · exact .inr (.inl ⟨_, _, .events hx hr⟩)
      · refine .inr (.inr (.inr ⟨_, .events hx ⟨pre, as, r, rfl, hr, hne, hp, rfl⟩, ?_⟩))
        rw [step, if_neg h1, if_neg h2, if_neg h3, if_pos h4,
          show (12 : Nat) = byteLen (s% "java_events") + 1 from rfl, hs, EventPool.parseIter, hrp]; rfl
    · refine .inr (.inr (.inl ⟨⟨s% "java_events", by simp [poolSuffixes], mid, rfl, hno⟩, ?_⟩))
      rw [step, if_neg h1, if_neg h2, if_neg h3, if_pos h4,
        show (12 : Nat) = byteLen (s% "java_events") + 1 from rfl, hs]; rfl
  by_cases h5 : endsWith (s% "java_func") ('@' :: t) = true
  · obtain ⟨mid, rfl⟩ := hmid _ (by simp) (by simp) h5
    rcases hcut (s% "java_func") mid with ⟨name, x, rfl, hx, hs⟩ | ⟨hno, hs⟩
    · rw [List.append_assoc, List.singleton_append] at hs h1 h2 h3 h4 h5 ⊢
      rcases readPool_cases (PoolError.mk (ε := MoreBlockParseError)) MoreBlock.parse_ne_panic rest with
        ⟨pre, as, r, rfl, hr, _⟩ | ⟨as, hr, _⟩ | ⟨pre, as, ln, e, r, rfl, hr, hne, hp, hrp⟩
      · exact .inl ⟨pre, r, _, _, rfl, .func hx hr⟩
      · exact .inr (.inl ⟨_, _, .func hx hr⟩)
      · refine .inr (.inr (.inr ⟨_, .func hx ⟨pre, as, r, rfl, hr, hne, hp, rfl⟩, ?_⟩))
        rw [step, if_neg h1, if_neg h2, if_neg h3, if_neg h4, if_pos h5,
          show (10 : Nat) = byteLen (s% "java_func") + 1 from rfl, hs, MoreBlockPool.parseIter, hrp]; rfl
    · refine .inr (.inr (.inl ⟨⟨s% "java_func", by simp [poolSuffixes], mid, rfl, hno⟩, ?_⟩))
      rw [step, if_neg h1, if_neg h2, if_neg h3, if_neg h4, if_pos h5,
        show (10 : Nat) = byteLen (s% "java_func") + 1 from rfl, hs]; rfl
  have hn : NotPool ('@' :: t) :=
    ⟨Bool.eq_false_iff.mpr h1, Bool.eq_false_iff.mpr h2, Bool.eq_false_iff.mpr h3, Bool.eq_false_iff.mpr h4,
      Bool.eq_false_iff.mpr h5⟩
  cases hp : BlockContainerHeader.parse ('@' :: t) with
  | panic => exact absurd hp (BlockContainerHeader.parse_ne_panic _)
  | err e =>
    rcases BlockContainerHeader.parse_err_iff.mp hp with ⟨h, _⟩ | ⟨_, hs, rfl⟩
    · exact absurd (hat.symm.trans h) (by simp)
    · refine .inr (.inr (.inr ⟨_, .header hn hs, ?_⟩))
      rw [step, if_neg h1, if_neg h2, if_neg h3, if_neg h4, if_neg h5, hp]; rfl
  | ok hd =>
    rcases readPool_cases (fun n _ (_ : Unit) => n) (lineParser_ne_panic Block.parse) rest with
      ⟨pre, as, r, rfl, hr, _⟩ | ⟨as, hr, _⟩ | ⟨pre, as, ln, e, r, rfl, hr, hne, hpl, hrp⟩
    · exact .inl ⟨pre, r, _, _, rfl, .blocks hn hp hr⟩
    · exact .inr (.inl ⟨_, _, .blocks hn hp hr⟩)
    · refine .inr (.inr (.inr ⟨_, .blocks hn hp ⟨pre, as, r, rfl, hr, hne, hpl, rfl⟩, ?_⟩))
      rw [step, if_neg h1, if_neg h2, if_neg h3, if_neg h4, if_neg h5, hp, BlockContainer.parseIter]
      simp only [Out.mapErr_ok, Out.ok_bind]
      rw [hrp]; rfl

/-- What the loop does on any lines: complete sections, then the end, a line that is no header, a last section, a
section that fails, or a panic. -/
theorem run_cases (ls : List Str) (n : Nat) (l : LMap Str ScreenLogic) :
    ∃ pre es rest, ls = pre ++ rest ∧ Secs pre es ∧
      ((rest = [] ∧ run ls n l = .ok ⟨applyAll es l⟩) ∨
      (∃ line r, rest = line :: r ∧ startsWith ['@'] line = false ∧ run ls n l = .ok ⟨applyAll es l⟩) ∨
      (∃ line r name eff, rest = line :: r ∧ Sec line r name eff ∧
        run ls n l = .ok ⟨applyAll (es ++ [(name, eff)]) l⟩) ∨
      (∃ line r, rest = line :: r ∧ PanicHeader line ∧ run ls n l = .panic) ∨
      (∃ line r e, rest = line :: r ∧ startsWith ['@'] line = true ∧ SecErr line r (n + es.length) e ∧
        run ls n l = .err e)) := by
  generalize hlen : ls.length = len
  induction len using Nat.strongRecOn generalizing ls n l with
  | _ len ih =>
    cases ls with
    | nil => exact ⟨[], [], [], rfl, .nil, .inl ⟨rfl, rfl⟩⟩
    | cons line rest =>
      cases hat : startsWith ['@'] line with
      | false => exact ⟨[], [], _, rfl, .nil, .inr (.inl ⟨_, _, rfl, hat, run_stop hat _ _ _⟩)⟩
      | true =>
        rcases step_cases hat rest n l with ⟨body, rest', name, eff, rfl, hs⟩ | ⟨name, eff, hs⟩ | ⟨hp, hs⟩ | ⟨e, he, hs⟩
        · obtain ⟨pre, es, r, h1, h2, h3⟩ := ih rest'.length (by simp at hlen; omega) rest' (n + 1)
            (update l name eff) rfl
          refine ⟨line :: (body ++ [] :: pre), (name, eff) :: es, r, by simp [h1], .cons hs h2, ?_⟩
          rw [run_sec hs]
          have : n + ((name, eff) :: es).length = n + 1 + es.length := by simp; omega
          rw [this]
          exact h3
        · exact ⟨[], [], _, rfl, .nil, .inr (.inr (.inl ⟨_, _, _, _, rfl, hs, run_sec_eof hs _ _⟩))⟩
        · refine ⟨[], [], _, rfl, .nil, .inr (.inr (.inr (.inl ⟨_, _, rfl, hp, ?_⟩)))⟩
          rw [run_step hat, hs]; rfl
        · refine ⟨[], [], _, rfl, .nil, .inr (.inr (.inr (.inr ⟨_, _, e, rfl, hat, he, ?_⟩)))⟩
          rw [run_step hat, hs]; rfl

theorem step_panic {line : Str} (h : PanicHeader line) (rest : List Str) (n : Nat) (l : LMap Str ScreenLogic) :
    startsWith ['@'] line = true ∧ step line rest n l = .panic := by
  obtain ⟨S, hS, mid, rfl, hno⟩ := h
  refine ⟨by simp, ?_⟩
  have hs : screenOf ('@' :: (mid ++ S)) (byteLen S + 1) = none := by
    cases hs : screenOf ('@' :: (mid ++ S)) (byteLen S + 1) with
    | none => rfl
    | some name =>
      obtain ⟨x, rfl, h2⟩ := screenOf_eq_some.mp hs
      exact absurd h2 (hno x (by simp))
  have he : ∀ q : Str, (¬ q.reverse <+: S.reverse ∧ ¬ S.reverse <+: q.reverse) →
      endsWith q ('@' :: (mid ++ S)) = false := by
    intro q hq
    exact ends_false hq ('@' :: mid)
  have hp : endsWith S ('@' :: (mid ++ S)) = true := endsWith_iff.mpr ⟨'@' :: mid, rfl⟩
  simp only [poolSuffixes, List.mem_cons, List.not_mem_nil, or_false] at hS
  rcases hS with rfl | rfl | rfl | rfl | rfl
  · rw [step, if_pos hp, show (9 : Nat) = byteLen (s% "java_var") + 1 from rfl, hs]; rfl
  · rw [step, if_neg (by rw [he _ (by decide)]; simp), if_pos hp,
      show (10 : Nat) = byteLen (s% "java_list") + 1 from rfl, hs]; rfl
  · rw [step, if_neg (by rw [he _ (by decide)]; simp), if_neg (by rw [he _ (by decide)]; simp), if_pos hp,
      show (16 : Nat) = byteLen (s% "java_components") + 1 from rfl, hs]; rfl
  · rw [step, if_neg (by rw [he _ (by decide)]; simp), if_neg (by rw [he _ (by decide)]; simp),
      if_neg (by rw [he _ (by decide)]; simp), if_pos hp,
      show (12 : Nat) = byteLen (s% "java_events") + 1 from rfl, hs]; rfl
  · rw [step, if_neg (by rw [he _ (by decide)]; simp), if_neg (by rw [he _ (by decide)]; simp),
      if_neg (by rw [he _ (by decide)]; simp), if_neg (by rw [he _ (by decide)]; simp), if_pos hp,
      show (10 : Nat) = byteLen (s% "java_func") + 1 from rfl, hs]; rfl

/-- The exact condition for a panic. -/
theorem parse_panic_iff (s : Str) : parse s = .panic ↔
    ∃ pre es line rest, lines s = pre ++ line :: rest ∧ Secs pre es ∧ PanicHeader line := by
  rw [parse_run]
  constructor
  · intro h
    obtain ⟨pre, es, rest, h1, h2, h3⟩ := run_cases (lines s) 0 []
    rcases h3 with ⟨_, h'⟩ | ⟨_, _, _, _, h'⟩ | ⟨_, _, _, _, _, _, h'⟩ | ⟨line, r, rfl, hp, _⟩ | ⟨_, _, _, _, _, _, h'⟩
    · rw [h'] at h; simp at h
    · rw [h'] at h; simp at h
    · rw [h'] at h; simp at h
    · exact ⟨pre, es, line, r, h1, h2, hp⟩
    · rw [h'] at h; simp at h
  · rintro ⟨pre, es, line, rest, h1, h2, hp⟩
    have := step_panic hp rest (0 + es.length) (applyAll es [])
    rw [h1, run_secs h2, run_step this.1, this.2]; rfl

end Logic
end Swrs
