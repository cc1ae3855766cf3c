import Verif.Proofs.LogicCases
import Verif.Proofs.LogicRoundTrip
import Verif.Base.All2
/-! A logic file as paragraphs: reading it is reading its sections one by one. -/
set_option linter.unusedSectionVars false
namespace Swrs
variable [Floats] [MapPol]

theorem readPool_cut {ε ε' α : Type} {p : Str → Out ε α} (mk : Nat → Str → ε → ε') : ∀ (body : List Str) (n : Nat) (acc : List α), [] ∉ body →
    ∀ rest, readPool p mk (body ++ [] :: rest) n acc = ((readPool p mk body n acc) >>= fun r => .ok (r.1, rest)) ∧
      ∀ r, readPool p mk body n acc = .ok r → r.2 = [] := by
  intro body
  induction body with
  | nil =>
    intro n acc _ rest
    refine ⟨by simp [readPool], ?_⟩
    intro r hr
    simp [readPool] at hr
    rw [← hr]
  | cons l body ih =>
    intro n acc h rest
    have h1 : l ≠ [] := fun e => h (by simp [e])
    have h2 : [] ∉ body := fun e => h (by simp [e])
    rw [List.cons_append, readPool, readPool, if_neg h1, if_neg h1]
    cases p l with
    | ok a => exact ih _ _ h2 rest
    | err e => exact ⟨rfl, by simp⟩
    | panic => exact ⟨rfl, by simp⟩

namespace Logic

/-- A section of the file does not see what follows its blank line. -/
theorem step_cut (line : Str) (body : List Str) (h : [] ∉ body) (rest : List Str) (n : Nat) (l : LMap Str ScreenLogic) :
    step line (body ++ [] :: rest) n l = (step line body n l >>= fun r => .ok (r.1, rest)) := by
  unfold step
  split
  · rw [VariablePool.parseIter, VariablePool.parseIter, (readPool_cut _ body 0 [] h rest).1]
    cases screenOf line 9 <;> cases readPool Variable.parse PoolError.mk body 0 [] <;> rfl
  split
  · rw [ListVariablePool.parseIter, ListVariablePool.parseIter, (readPool_cut _ body 0 [] h rest).1]
    cases screenOf line 10 <;> cases readPool ListVariable.parse PoolError.mk body 0 [] <;> rfl
  split
  · rw [ComponentPool.parseIter, ComponentPool.parseIter, (readPool_cut _ body 0 [] h rest).1]
    cases screenOf line 16 <;> cases readPool (lineParser Component.parse) PoolError.mk body 0 [] <;> rfl
  split
  · rw [EventPool.parseIter, EventPool.parseIter, (readPool_cut _ body 0 [] h rest).1]
    cases screenOf line 12 <;> cases readPool (lineParser Event.parse) PoolError.mk body 0 [] <;> rfl
  split
  · rw [MoreBlockPool.parseIter, MoreBlockPool.parseIter, (readPool_cut _ body 0 [] h rest).1]
    cases screenOf line 10 <;> cases readPool MoreBlock.parse PoolError.mk body 0 [] <;> rfl
  · cases BlockContainerHeader.parse line with
    | ok hd =>
      simp only [Out.mapErr_ok, Out.ok_bind]
      rw [BlockContainer.parseIter, BlockContainer.parseIter, (readPool_cut _ body 0 [] h rest).1]
      cases readPool (lineParser Block.parse) (fun n _ _ => n) body 0 [] <;> rfl
    | err e => rfl
    | panic => rfl

/-- A paragraph with a header. -/
def isSection (p : List Str) : Bool := match p with | hd :: _ => startsWith ['@'] hd | [] => false

/-- Specification: the sections of a logic file. The lines are split at the blank lines into paragraphs; the sections are the first
paragraphs, as long as they begin with a line that begins with `@`. -/
def sections (ls : List Str) : List (List Str) := (ls.splitOn ([] : Str)).takeWhile isSection

/-- Reading sections one by one. -/
def runSecs : List (List Str) → Nat → LMap Str ScreenLogic → Out LogicParseError Logic
  | [], _, l => .ok ⟨l⟩
  | [] :: _, _, l => .ok ⟨l⟩
  | (hd :: body) :: ps, n, l => step hd body n l >>= fun r => runSecs ps (n + 1) r.1

omit [Floats] [MapPol] in
theorem splitOn_blank (ls : List Str) : (∃ body rest, ls = body ++ [] :: rest ∧ [] ∉ body) ∨ [] ∉ ls := by
  induction ls with
  | nil => exact .inr (by simp)
  | cons l ls ih =>
    by_cases h : l = []
    · exact .inl ⟨[], ls, by simp [h], by simp⟩
    · rcases ih with ⟨body, rest, rfl, hb⟩ | hn
      · exact .inl ⟨l :: body, rest, rfl, by simp [hb]; exact h⟩
      · exact .inr (by simp [hn]; exact h)

theorem step_rest_nil {line : Str} {body : List Str} (h : [] ∉ body) {n : Nat} {l : LMap Str ScreenLogic}
    {r : LMap Str ScreenLogic × List Str} (hr : step line body n l = .ok r) : r.2 = [] := by
  obtain ⟨l', rest'⟩ := r
  unfold step at hr
  split at hr
  · simp only [Out.bind_eq_ok, Out.mapErr_eq_ok, VariablePool.parseIter] at hr
    obtain ⟨_, _, ⟨_, _⟩, ⟨⟨_, _⟩, h3, h1⟩, h2⟩ := hr
    have := (readPool_cut _ body 0 [] h []).2 _ h3
    simp at h1 h2 this; obtain ⟨_, rfl⟩ := h1; obtain ⟨_, rfl⟩ := h2; exact this
  split at hr
  · simp only [Out.bind_eq_ok, Out.mapErr_eq_ok, ListVariablePool.parseIter] at hr
    obtain ⟨_, _, ⟨_, _⟩, ⟨⟨_, _⟩, h3, h1⟩, h2⟩ := hr
    have := (readPool_cut _ body 0 [] h []).2 _ h3
    simp at h1 h2 this; obtain ⟨_, rfl⟩ := h1; obtain ⟨_, rfl⟩ := h2; exact this
  split at hr
  · simp only [Out.bind_eq_ok, Out.mapErr_eq_ok, ComponentPool.parseIter] at hr
    obtain ⟨_, _, ⟨_, _⟩, ⟨⟨_, _⟩, h3, h1⟩, h2⟩ := hr
    have := (readPool_cut _ body 0 [] h []).2 _ h3
    simp at h1 h2 this; obtain ⟨_, rfl⟩ := h1; obtain ⟨_, rfl⟩ := h2; exact this
  split at hr
  · simp only [Out.bind_eq_ok, Out.mapErr_eq_ok, EventPool.parseIter] at hr
    obtain ⟨_, _, ⟨_, _⟩, ⟨⟨_, _⟩, h3, h1⟩, h2⟩ := hr
    have := (readPool_cut _ body 0 [] h []).2 _ h3
    simp at h1 h2 this; obtain ⟨_, rfl⟩ := h1; obtain ⟨_, rfl⟩ := h2; exact this
  split at hr
  · simp only [Out.bind_eq_ok, Out.mapErr_eq_ok, MoreBlockPool.parseIter] at hr
    obtain ⟨_, _, ⟨_, _⟩, ⟨⟨_, _⟩, h3, h1⟩, h2⟩ := hr
    have := (readPool_cut _ body 0 [] h []).2 _ h3
    simp at h1 h2 this; obtain ⟨_, rfl⟩ := h1; obtain ⟨_, rfl⟩ := h2; exact this
  · simp only [Out.bind_eq_ok, Out.mapErr_eq_ok, BlockContainer.parseIter] at hr
    obtain ⟨_, _, ⟨_, _⟩, ⟨⟨_, _⟩, h3, h1⟩, h2⟩ := hr
    have := (readPool_cut _ body 0 [] h []).2 _ h3
    simp at h1 h2 this; obtain ⟨_, rfl⟩ := h1; obtain ⟨_, rfl⟩ := h2; exact this

theorem run_eq_runSecs (ls : List Str) (n : Nat) (l : LMap Str ScreenLogic) : run ls n l = runSecs (sections ls) n l := by
  generalize hlen : ls.length = len
  induction len using Nat.strongRecOn generalizing ls n l with
  | _ len ih =>
    unfold sections
    rcases splitOn_blank ls with ⟨body, rest, rfl, hb⟩ | hn
    · rw [List.splitOn_append_cons_self, List.splitOn_eq_singleton hb, List.singleton_append, List.takeWhile_cons]
      cases body with
      | nil => rw [List.nil_append, run_stop (by rfl)]; rfl
      | cons hd body =>
        cases hat : startsWith ['@'] hd with
        | false => rw [List.cons_append, run_stop hat]; simp [isSection, hat, runSecs]
        | true =>
          have hb' : [] ∉ body := fun e => hb (by simp [e])
          rw [List.cons_append, run_step hat, step_cut hd body hb']
          simp only [isSection, hat, if_true, runSecs]
          cases step hd body n l with
          | ok r => exact ih rest.length (by simp at hlen; omega) rest (n + 1) r.1 rfl
          | err e => rfl
          | panic => rfl
    · rw [List.splitOn_eq_singleton hn, List.takeWhile_cons]
      cases ls with
      | nil => rfl
      | cons hd body =>
        cases hat : startsWith ['@'] hd with
        | false => rw [run_stop hat]; simp [isSection, hat, runSecs]
        | true =>
          have hb' : [] ∉ body := fun e => hn (by simp [e])
          rw [run_step hat]
          simp only [isSection, hat, if_true, runSecs, List.takeWhile_nil]
          cases hs : step hd body n l with
          | ok r => simp only [Out.ok_bind]; rw [step_rest_nil hb' hs]; rfl
          | err e => rfl
          | panic => rfl

/-- The reader sees only the sections. -/
theorem parse_sections (s : Str) : parse s = runSecs (sections (lines s)) 0 [] := by
  rw [parse_run, run_eq_runSecs]

theorem step_err {line : Str} {body : List Str} {n : Nat} {e : LogicParseError} (hat : startsWith ['@'] line = true)
    (h : SecErr line body n e) (l : LMap Str ScreenLogic) : step line body n l = .err e := by
  cases h with
  | var hx h =>
    obtain ⟨pre, as, r, rfl, hr, hne, hp, rfl⟩ := h
    rw [step, if_pos (ends_var _ _ _), screenOf_name (S := s% "java_var") (n := 9) hx rfl, VariablePool.parseIter, readPool_bad _ hr hne hp]; rfl
  | list hx h =>
    obtain ⟨pre, as, r, rfl, hr, hne, hp, rfl⟩ := h
    rw [step, if_neg (by rw [ends_false' (by decide)]; simp), if_pos (ends_var _ _ _), screenOf_name (S := s% "java_list") (n := 10) hx rfl,
        ListVariablePool.parseIter, readPool_bad _ hr hne hp]; rfl
  | components hx h =>
    obtain ⟨pre, as, r, rfl, hr, hne, hp, rfl⟩ := h
    rw [step, if_neg (by rw [ends_false' (by decide)]; simp), if_neg (by rw [ends_false' (by decide)]; simp),
        if_pos (ends_var _ _ _), screenOf_name (S := s% "java_components") (n := 16) hx rfl, ComponentPool.parseIter,
        readPool_bad _ hr hne hp]; rfl
  | events hx h =>
    obtain ⟨pre, as, r, rfl, hr, hne, hp, rfl⟩ := h
    rw [step, if_neg (by rw [ends_false' (by decide)]; simp), if_neg (by rw [ends_false' (by decide)]; simp),
        if_neg (by rw [ends_false' (by decide)]; simp),
        if_pos (ends_var _ _ _), screenOf_name (S := s% "java_events") (n := 12) hx rfl, EventPool.parseIter, readPool_bad _ hr hne hp]; rfl
  | func hx h =>
    obtain ⟨pre, as, r, rfl, hr, hne, hp, rfl⟩ := h
    rw [step, if_neg (by rw [ends_false' (by decide)]; simp), if_neg (by rw [ends_false' (by decide)]; simp),
        if_neg (by rw [ends_false' (by decide)]; simp), if_neg (by rw [ends_false' (by decide)]; simp),
        if_pos (ends_var _ _ _), screenOf_name (S := s% "java_func") (n := 10) hx rfl, MoreBlockPool.parseIter, readPool_bad _ hr hne hp]; rfl
  | header hn hs =>
    obtain ⟨h1, h2, h3, h4, h5⟩ := hn
    rw [step, if_neg (by rw [h1]; simp), if_neg (by rw [h2]; simp), if_neg (by rw [h3]; simp),
        if_neg (by rw [h4]; simp), if_neg (by rw [h5]; simp), BlockContainerHeader.parse_err_iff.mpr (.inr ⟨hat, hs, rfl⟩)]; rfl
  | blocks hn hl h =>
    obtain ⟨h1, h2, h3, h4, h5⟩ := hn
    obtain ⟨pre, as, r, rfl, hr, hne, hp, rfl⟩ := h
    rw [step, if_neg (by rw [h1]; simp), if_neg (by rw [h2]; simp), if_neg (by rw [h3]; simp),
        if_neg (by rw [h4]; simp), if_neg (by rw [h5]; simp), hl, BlockContainer.parseIter, readPool_bad _ hr hne hp]; rfl

/-- What a section does, exactly. -/
theorem step_section {hd : Str} {body : List Str} (hat : startsWith ['@'] hd = true) (hb : [] ∉ body) (n : Nat) (l : LMap Str ScreenLogic) :
    (∃ name eff, Sec hd body name eff ∧ step hd body n l = .ok (update l name eff, [])) ∨
    (PanicHeader hd ∧ step hd body n l = .panic) ∨ (∃ e, SecErr hd body n e ∧ step hd body n l = .err e) := by
  rcases step_cases hat body n l with ⟨b, r, name, eff, rfl, hs⟩ | ⟨name, eff, hs⟩ | ⟨hp, hs⟩ | ⟨e, he, hs⟩
  · exact absurd (by simp) hb
  · exact .inl ⟨name, eff, hs, (step_sec hs n l).2⟩
  · exact .inr (.inl ⟨hp, hs⟩)
  · exact .inr (.inr ⟨e, he, hs⟩)

/-- The section `p` is read, as an effect on a screen. -/
def SectionReads (p : List Str) (e : Str × (ScreenLogic → ScreenLogic)) : Prop := ∃ hd body, p = hd :: body ∧ Sec hd body e.1 e.2

/-- The section `p`, after `n` others, is refused with the error `e`. -/
def SectionFails (n : Nat) (p : List Str) (e : LogicParseError) : Prop := ∃ hd body, p = hd :: body ∧ SecErr hd body n e

/-- The section `p` makes the reader panic. -/
def SectionPanics (p : List Str) : Prop := ∃ hd body, p = hd :: body ∧ PanicHeader hd

theorem mem_takeWhile {α : Type} {q : α → Bool} {x : α} : ∀ {l : List α}, x ∈ l.takeWhile q → q x = true
  | [], h => by simp at h
  | y :: l, h => by
    rw [List.takeWhile_cons] at h
    split at h
    · rcases List.mem_cons.mp h with rfl | h
      · assumption
      · exact mem_takeWhile h
    · simp at h

/-- Paragraphs as `sections` makes them. -/
def AreSections (ps : List (List Str)) : Prop := ∀ p ∈ ps, isSection p = true ∧ ∀ hd body, p = hd :: body → [] ∉ body

theorem areSections (ls : List Str) : AreSections (sections ls) := by
  intro p hp
  refine ⟨mem_takeWhile hp, ?_⟩
  have hp := (List.takeWhile_sublist _).subset hp
  have key : ∀ (ls : List Str), ∀ p ∈ ls.splitOn ([] : Str), [] ∉ p := by
    intro ls
    generalize hlen : ls.length = len
    induction len using Nat.strongRecOn generalizing ls with
    | _ len ih =>
      rcases splitOn_blank ls with ⟨body, rest, rfl, hb⟩ | hn
      · rw [List.splitOn_append_cons_self, List.splitOn_eq_singleton hb, List.singleton_append]
        intro p hp
        rcases List.mem_cons.mp hp with rfl | hp
        · exact hb
        · exact ih rest.length (by simp at hlen; omega) rest rfl p hp
      · rw [List.splitOn_eq_singleton hn]
        intro p hp
        simp at hp; subst hp; exact hn
  rintro hd body rfl hb
  exact key ls _ hp (by simp [hb])

theorem runSecs_cases (ps : List (List Str)) (h : AreSections ps) (n : Nat) (l : LMap Str ScreenLogic) :
    (∃ es, All₂ SectionReads ps es ∧ runSecs ps n l = .ok ⟨applyAll es l⟩) ∨
    (∃ pre p post es, ps = pre ++ p :: post ∧ All₂ SectionReads pre es ∧ SectionPanics p ∧ runSecs ps n l = .panic) ∨
    (∃ pre p post es e, ps = pre ++ p :: post ∧ All₂ SectionReads pre es ∧ SectionFails (n + pre.length) p e ∧ runSecs ps n l = .err e) := by
  induction ps generalizing n l with
  | nil => exact .inl ⟨[], .nil, rfl⟩
  | cons p ps ih =>
    obtain ⟨hp, hb⟩ := h p (by simp)
    cases p with
    | nil => simp [isSection] at hp
    | cons hd body =>
      rcases step_section hp (hb _ _ rfl) n l with ⟨name, eff, hs, hr⟩ | ⟨hpan, hr⟩ | ⟨e, he, hr⟩
      · have e1 : runSecs ((hd :: body) :: ps) n l = runSecs ps (n + 1) (update l name eff) := by rw [runSecs, hr]; rfl
        rw [e1]
        rcases ih (fun q hq => h q (by simp [hq])) (n + 1) (update l name eff) with ⟨es, h1, h2⟩ | ⟨pre, q, post, es, h1, h2, h3, h4⟩ |
          ⟨pre, q, post, es, e, h1, h2, h3, h4⟩
        · exact .inl ⟨(name, eff) :: es, .cons ⟨_, _, rfl, hs⟩ h1, h2⟩
        · exact .inr (.inl ⟨(hd :: body) :: pre, q, post, (name, eff) :: es, by simp [h1], .cons ⟨_, _, rfl, hs⟩ h2, h3, h4⟩)
        · refine .inr (.inr ⟨(hd :: body) :: pre, q, post, (name, eff) :: es, e, by simp [h1], .cons ⟨_, _, rfl, hs⟩ h2, ?_, h4⟩)
          rw [List.length_cons, show n + (pre.length + 1) = n + 1 + pre.length by omega]
          exact h3
      · exact .inr (.inl ⟨[], _, ps, [], rfl, .nil, ⟨_, _, rfl, hpan⟩, by rw [runSecs, hr]; rfl⟩)
      · exact .inr (.inr ⟨[], _, ps, [], e, rfl, .nil, ⟨_, _, rfl, he⟩, by rw [runSecs, hr]; rfl⟩)

theorem runSecs_reads {pre : List (List Str)} {es : List (Str × (ScreenLogic → ScreenLogic))} (h : All₂ SectionReads pre es)
    (post : List (List Str)) (n : Nat) (l : LMap Str ScreenLogic) :
    runSecs (pre ++ post) n l = runSecs post (n + pre.length) (applyAll es l) := by
  induction h generalizing n l with
  | nil => rfl
  | cons h _ ih =>
    obtain ⟨hd, body, rfl, hs⟩ := h
    rw [List.cons_append, runSecs, (step_sec hs n l).2]
    simp only [Out.ok_bind]
    rw [ih, List.length_cons]
    congr 1
    omega

end Logic
end Swrs
