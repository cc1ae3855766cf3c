import Verif.Model.Readme
import Verif.Props.EditMore
/-!
# C104: the program of the README
-/
set_option linter.unusedSectionVars false
namespace Swrs.Api
section
variable [MapPol] [FloatLaws]

/-! ## C104 — The program of the README does what it says -/

/-- The block that is added: the words of its spec and the argument. -/
def c104_block : Block :=
  ⟨none, none, Color.fromRgb 0xa0 0x6f 0x3d, s% "addSourceDirectly",
    [.text (s% "add"), .text (s% "source"), .text (s% "directly"), .param (.string (some (s% "inputOnly")) (.value (s% "// Hello asd from swrs!")))],
    .regular⟩

/-- The screen has one more boolean variable `hello_world` (an old variable of that name is replaced), the code of the first event `onCreate`,
if there is one, has the new block at its end, and nothing else is different. -/
structure c104_Edited (s s' : Screen) : Prop where
  new : s'.variables.get (s% "hello_world") = some ⟨s% "hello_world", .boolean⟩
  others : ∀ k, k ≠ s% "hello_world" → s'.variables.get k = s.variables.get k
  events : (∃ a e b, s.events = a ++ e :: b ∧ (∀ x ∈ a, x.name ≠ s% "onCreate") ∧ e.name = s% "onCreate" ∧
      s'.events = a ++ { e with code := e.code ++ [c104_block] } :: b) ∨
    ((∀ x ∈ s.events, x.name ≠ s% "onCreate") ∧ s'.events = s.events)
  rest : { s' with variables := s.variables, events := s.events } = s

theorem c104_content : readmeContent = .ok c104_block.content := by
  rfl

theorem c104_events (es : List Event) : ∃ es', readmeEvents es = .ok es' ∧
    ((∃ a e b, es = a ++ e :: b ∧ (∀ x ∈ a, x.name ≠ s% "onCreate") ∧ e.name = s% "onCreate" ∧
        es' = a ++ { e with code := e.code ++ [c104_block] } :: b) ∨
      ((∀ x ∈ es, x.name ≠ s% "onCreate") ∧ es' = es)) := by
  induction es with
  | nil => exact ⟨[], rfl, .inr ⟨nofun, rfl⟩⟩
  | cons e es ih =>
    by_cases h : e.name = s% "onCreate"
    · refine ⟨{ e with code := e.code ++ [c104_block] } :: es, ?_, .inl ⟨[], e, es, rfl, nofun, h, rfl⟩⟩
      unfold readmeEvents
      rw [if_pos h, c104_content]
      rfl
    · obtain ⟨es', h1, h2⟩ := ih
      refine ⟨e :: es', ?_, ?_⟩
      · unfold readmeEvents
        rw [if_neg h, h1]
        rfl
      · rcases h2 with ⟨a, e', b, rfl, h3, h4, rfl⟩ | ⟨h3, rfl⟩
        · refine .inl ⟨e :: a, e', b, rfl, fun x hx => ?_, h4, rfl⟩
          rcases List.mem_cons.mp hx with rfl | hx
          · exact h
          · exact h3 x hx
        · refine .inr ⟨fun x hx => ?_, rfl⟩
          rcases List.mem_cons.mp hx with rfl | hx
          · exact h
          · exact h3 x hx

/-- C104: the program never panics, and it edits each screen as it should. -/
theorem c104_edits (ss : List Screen) : ∃ ss', readmeScreens ss = .ok ((ss.map readmeLine).flatten, ss') ∧ All₂ c104_Edited ss ss' := by
  induction ss with
  | nil => exact ⟨[], rfl, .nil⟩
  | cons s ss ih =>
    obtain ⟨ss', h1, h2⟩ := ih
    obtain ⟨es', h3, h4⟩ := c104_events s.events
    refine ⟨{ s with variables := s.variables.insert (s% "hello_world") readmeVariable, events := es' } :: ss', ?_, .cons ⟨?_, ?_, h4, rfl⟩ h2⟩
    · simp [readmeScreens, readmeScreen, h3, h1]
    · show (s.variables.insert _ _).get _ = _
      rw [LMap.get_insert, if_pos rfl]; rfl
    · intro k hk
      show (s.variables.insert _ _).get _ = _
      rw [LMap.get_insert, if_neg hk]

theorem c104_size (a b : List Block) : blocksSize (a ++ b) = blocksSize a + blocksSize b := by
  induction a with
  | nil => simp [blocksSize]
  | cons x a ih => simp only [List.cons_append, blocksSize, ih]; omega

theorem c104_code {code : List Block} (h : CodeSurvives code) (hsize : blocksSize code ≤ 2147483637) : CodeSurvives (code ++ [c104_block]) := by
  have hb : blocksSize [c104_block] = 1 := by
    simp [c104_block, blocksSize, blockSize, stackSize, itemsSize, itemSize, argSize, strSize]
  refine (c47_round_trip_partial _ (by rw [c104_size, hb]; omega)).mpr ?_
  have ht := (c47_round_trip_partial _ (by omega)).mp h
  intro b hb
  rcases List.mem_append.mp hb with hb | hb
  · exact ht b hb
  · rw [List.mem_singleton.mp hb]
    refine ⟨trivial, trivial, ⟨by simp [c104_block, Block.content], ?_⟩, ?_, by simp [c104_block, Block.blockType]⟩
    · intro i hi
      simp only [c104_block, Block.content, List.mem_cons, List.not_mem_nil, or_false] at hi
      rcases hi with rfl | rfl | rfl | rfl
      · simp [ItemOk]
      · simp [ItemOk]
      · simp [ItemOk]
      · simp [ItemOk]
    · intro i hi
      simp only [c104_block, Block.content, List.mem_cons, List.not_mem_nil, or_false] at hi
      rcases hi with rfl | rfl | rfl | rfl
      · trivial
      · trivial
      · trivial
      · simp [TopItem, PlainItem]

/-- What can be found in a map after `insert`, and at its end. -/
theorem c104_insert {α : Type} (m : LMap Str α) (k : Str) (v : α) : (∀ e ∈ m.insert k v, e = (k, v) ∨ e ∈ m) ∧
    ∀ e, (m.insert k v).getLast? = some e → e = (k, v) ∨ m.getLast? = some e := by
  unfold LMap.insert
  split
  next =>
    split
    next =>
      constructor
      · intro e he
        rcases List.mem_append.mp he with he | he
        · exact .inr (List.mem_filter.mp he).1
        · exact .inl (List.mem_singleton.mp he)
      · intro e he
        rw [List.getLast?_append] at he
        exact .inl (Option.some.inj he).symm
    next =>
      constructor
      · intro e he
        obtain ⟨x, hx, rfl⟩ := List.mem_map.mp he
        split
        · exact .inl rfl
        · exact .inr hx
      · intro e he
        rw [LMap.set, List.getLast?_map] at he
        obtain ⟨x, hx, rfl⟩ := Option.map_eq_some_iff.mp he
        split
        · exact .inl rfl
        · exact .inr hx
  next =>
    constructor
    · intro e he
      rcases List.mem_append.mp he with he | he
      · exact .inr he
      · exact .inl (List.mem_singleton.mp he)
    · intro e he
      rw [List.getLast?_append] at he
      exact .inl (Option.some.inj he).symm

theorem c104_screen {p : SketchwareProject} {t : Date.DateTime} (hg : c102_Good p t) {before after : List Screen} {s s' : Screen}
    (hp : p.screens = before ++ s :: after) (hsize : ∀ e ∈ s.events, blocksSize e.code ≤ 2147483637)
    (h : readmeScreen s = .ok s') : c102_Good (p.withScreen before s' after) t := by
  obtain ⟨hm, hsv, -, hss⟩ := c102_part hg (s := s) (by simp [hp])
  obtain ⟨h1, h2⟩ := c104_insert s.variables (s% "hello_world") readmeVariable
  have hg1 := (c102_variables hg hp (s.variables.insert (s% "hello_world") readmeVariable) (LMap.nodup_insert hm.1 _ _) (by
    intro e he
    rcases h1 e he with rfl | he
    · rfl
    · exact (hss.variables.1 e he).1)).1 ⟨by
      intro e he
      rcases h1 e he with rfl | he
      · show '\n' ∉ s% "hello_world"; decide
      · exact (hss.variables.1 e he).2, by
      intro e he
      rcases h2 e he with rfl | he
      · show c92_Closed (s% "hello_world"); unfold c92_Closed; decide +kernel
      · exact hss.variables.2 e he⟩
  obtain ⟨es', h3, h4⟩ := c104_events s.events
  have hs' : s' = { s with variables := s.variables.insert (s% "hello_world") readmeVariable, events := es' } := by
    simp only [readmeScreen, h3, Out.ok_bind, Out.pure_eq, Out.ok.injEq] at h
    exact h.symm
  rcases h4 with ⟨a, e, b, h5, h6, h7, h8⟩ | ⟨h5, h6⟩
  · have hin : e ∈ s.events := by simp [h5]
    have := (c102_event hg1 (s := { s with variables := s.variables.insert (s% "hello_world") readmeVariable }) rfl h5
      (e.code ++ [c104_block]) (c104_code (hsv.eventCode e hin) (hsize e hin))).1 (by simp)
    rw [hs', h8]
    exact this
  · rw [hs', h6]
    exact hg1

theorem c104_loop {p : SketchwareProject} {t : Date.DateTime} {done todo todo' : List Screen} {out : Str}
    (hg : c102_Good { p with screens := done ++ todo } t) (hsize : ∀ s ∈ todo, ∀ e ∈ s.events, blocksSize e.code ≤ 2147483637)
    (h : readmeScreens todo = .ok (out, todo')) : c102_Good { p with screens := done ++ todo' } t := by
  induction todo generalizing done todo' out with
  | nil =>
    cases h; exact hg
  | cons s todo ih =>
    simp only [readmeScreens, Out.bind_eq_ok, Out.pure_eq, Out.ok.injEq, Prod.exists] at h
    obtain ⟨s', h1, out', ss, h2, h3⟩ := h
    cases h3
    have hg' := c104_screen hg (before := done) (s := s) (after := todo) rfl (hsize s (by simp)) h1
    have := ih (done := done ++ [s']) (by
      have he : done ++ [s'] ++ todo = done ++ s' :: todo := by simp
      rw [he]; exact hg') (fun s hs => hsize s (by simp [hs])) h2
    simpa using this

/-- C104: the program of the README prints a line for each screen, never panics, makes its two edits on each screen and nothing else, and when
the project was one that survives (`c102_Good`), what it has made is still there after saving and opening. -/
theorem c104_readme {p : SketchwareProject} {t : Date.DateTime} (hg : c102_Good p t)
    (hsize : ∀ s ∈ p.screens, ∀ e ∈ s.events, blocksSize e.code ≤ 2147483637) (ex : PathBuf → Bool) (rnd : ResourceType → Nat → UInt32) :
    ∃ screens, readmeProgram p = .ok (s% "Screens:\n" ++ (p.screens.map fun s => s% " - " ++ s.layoutName ++ s% " has " ++
        natStr 10 s.events.length ++ s% " total events\n").flatten, { p with screens }) ∧
      All₂ c104_Edited p.screens screens ∧ c102_Kept ex rnd { p with screens } := by
  obtain ⟨ss', h1, h2⟩ := c104_edits p.screens
  refine ⟨ss', ?_, h2, c102_kept (t := t) (c104_loop (p := p) (done := []) hg hsize h1) ex rnd⟩
  simp only [readmeProgram, h1, Out.ok_bind, Out.pure_eq]
  rfl

/-- What `c104_readme` asks for is met: a project with two screens and a custom view, of which the first screen has an event `onCreate`. -/
example (ex : PathBuf → Bool) (rnd : ResourceType → Nat → UInt32) : ∃ out screens,
    readmeProgram (c92_project [] [] [c92_button]) = .ok (out, { c92_project [] [] [c92_button] with screens }) ∧
    out = s% "Screens:\n - main has 2 total events\n - debug_screen has 0 total events\n" ∧
    All₂ c104_Edited (c92_project [] [] [c92_button]).screens screens ∧
    c102_Kept ex rnd { c92_project [] [] [c92_button] with screens } := by
  obtain ⟨screens, h1, h2, h3⟩ := c104_readme c102_project (by
    intro s hs e he
    simp only [c92_project, List.mem_cons, List.not_mem_nil, or_false] at hs
    rcases hs with rfl | rfl
    · simp only [survivingScreen, plainScreen, List.mem_cons, List.not_mem_nil, or_false] at he
      rcases he with rfl | rfl <;> simp [exLeaf, blocksSize, blockSize, stackSize, itemsSize, itemSize]
    · cases he) ex rnd
  refine ⟨_, screens, h1, ?_, h2, h3⟩
  have hn : natStr 10 2 = s% "2" ∧ natStr 10 0 = s% "0" := by decide +kernel
  show s% "Screens:\n" ++ [s% " - " ++ s% "main" ++ s% " has " ++ natStr 10 2 ++ s% " total events\n",
    s% " - " ++ s% "debug_screen" ++ s% " has " ++ natStr 10 0 ++ s% " total events\n"].flatten = _
  rw [hn.1, hn.2]
  decide
end
end Swrs.Api
