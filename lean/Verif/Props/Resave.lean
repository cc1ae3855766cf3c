import Verif.Proofs.Resave
import Verif.Props.Raw
import Verif.Props.LogicRead
/-!
# C90: opening a project and saving it
-/
set_option linter.unusedSectionVars false
namespace Swrs

/-! ## C90 — What was read is saved -/

/-- C90: saving a project file that was read never fails, and the saved text is read back exactly when month, day, hour, minute and second
of the creation date have two digits each and the year has four. -/
theorem c90_project [FloatLaws] {s : Str} {p : Project} (h : Project.parse s = .ok p) : ∃ t : Date.DateTime, t.Valid ∧
    Date.timestamp t = p.dateCreated.toInt64.toInt ∧
    ∃ s', p.reconstruct = .ok s' ∧ (Project.parse s' = .ok p ↔ Date.FullWidth t) := by
  obtain ⟨t, h1, h2⟩ := Project.read_date h
  exact ⟨t, h1, h2, c15_project_round_trip_partial p t h1 h2⟩

/-- A view file survives: no layout but the last has views, there are FABs only after views, and no number is infinite. -/
def c90_ViewKept [Floats] (v : View) : Prop :=
  (∀ e ∈ v.layouts.dropLast, e.2.views = []) ∧
  (v.fabs ≠ [] → ∃ e, v.layouts.getLast? = some e ∧ e.2.views ≠ []) ∧
  ((∀ e ∈ v.layouts, ∀ w ∈ e.2.views, w.Finite) ∧ ∀ e ∈ v.fabs, e.2.Finite)

/-- C90: the exact condition under which a view file that was read is the same after saving. -/
theorem c90_view [FloatLaws] [MapPol] {s : Str} {v : View} (h : View.parse s = .ok v) :
    View.parse v.reconstruct = .ok v ↔ c90_ViewKept v := by
  have hr := View.read_of_parse h
  rw [c22_view_file_round_trip_partial v ⟨hr.keysL, hr.keysF⟩]
  simp only [AndroidView.parse_reconstruct_iff, AndroidView.Storable, c90_ViewKept]
  constructor
  · rintro ⟨-, h1, h2, h3, h4⟩
    exact ⟨h1, h2, fun e he w hw => (h3 e he w hw).1, fun e he => (h4 e he).1⟩
  · rintro ⟨h1, h2, h3, h4⟩
    exact ⟨⟨hr.namesL, hr.namesF⟩, h1, h2, fun e he w hw => ⟨h3 e he w hw, hr.normalL e he w hw⟩,
      fun e he => ⟨h4 e he, hr.normalF e he⟩⟩

/-- The text does not end with white space. -/
def c90_Closed (t : Str) : Prop := ∀ c, t.getLast? = some c → isWs c = false

/-- A screen that was read survives: the pools neither begin nor end with white space that is part of a name, no container has
the name of a pool. -/
structure c90_ScreenKept [Floats] (s : ScreenLogic) : Prop where
  /-- The name of the last variable does not end with white space. -/
  variables : ∀ p, s.variables = some p → ∀ e, p.map.getLast? = some e → c90_Closed e.2.name
  /-- The name of the last list variable neither. -/
  listVariables : ∀ p, s.listVariables = some p → ∀ e, p.map.getLast? = some e → c90_Closed e.2.name
  /-- The id of the first moreblock does not begin and the spec of the last one does not end with white space. -/
  moreBlocks : ∀ p, s.moreBlocks = some p → (∀ e, p.map.head? = some e → ∀ c, e.2.id.head? = some c → isWs c = false) ∧
    ∀ e, p.map.getLast? = some e → c90_Closed e.2.spec
  /-- No container has the name of a pool. -/
  containers : ∀ e ∈ s.blockContainers, ∀ w ∈ c28_poolWords, e.1 ≠ w ∧ ¬ (s% "java_" ++ w) <:+ e.1
  /-- The name of the last container does not end with white space if it has no block. -/
  lastContainer : ∀ e, s.blockContainers.getLast? = some e → e.2.blocks = [] → c90_Closed e.1

section
variable [Floats] [MapPol]

theorem c90_screenOk {s : ScreenLogic} (hc : s.Clean) : c28_ScreenOk s ↔ c90_ScreenKept s := by
  constructor
  · intro h
    exact ⟨fun p hp => (h.variables p hp).2, fun p hp => (h.listVariables p hp).2, fun p hp => (h.moreBlocks p hp).2,
      fun e he => (h.containers e he).2.2.2, h.lastContainer⟩
  · intro h
    exact ⟨hc.name, fun p hp => ⟨hc.var p hp, h.variables p hp⟩, fun p hp => ⟨hc.list p hp, h.listVariables p hp⟩,
      fun p hp => ⟨hc.func p hp, h.moreBlocks p hp⟩,
      fun e he => ⟨(hc.blocks e he).2.1, (hc.blocks e he).2.2, (hc.blocks e he).1, h.containers e he⟩, h.lastContainer⟩

theorem c90_maps {s : Str} {l : Logic} (h : Logic.parse s = .ok l) : c28_Maps l :=
  ⟨(Logic.parse_read h).1, fun e he => (Logic.parse_traced h e he).2.2.2⟩

theorem c90_logicOk {s : Str} {l : Logic} (h : Logic.parse s = .ok l) : c28_LogicOk l ↔
    (∀ e ∈ l.screens, c90_ScreenKept e.2) ∧ Logic.Tight (l.screens.map (·.2)) := by
  unfold c28_LogicOk
  refine and_congr_left fun _ => forall_congr' fun e => forall_congr' fun he => ?_
  obtain ⟨h1, h2, h3, -⟩ := Logic.parse_traced h e he
  rw [c90_screenOk h2]
  exact ⟨fun h => h.2.1, fun h => ⟨h1, h, h3⟩⟩

/-- C90: the exact condition under which a logic file that was read is the same after saving (screens are compared by name). -/
theorem c90_logic {s : Str} {l : Logic} (h : Logic.parse s = .ok l) :
    (∃ l', Logic.parse l.reconstruct = .ok l' ∧ ∀ k, l'.screens.get k = l.screens.get k) ↔
      (∀ e ∈ l.screens, c90_ScreenKept e.2) ∧ Logic.Tight (l.screens.map (·.2)) := by
  rw [c28_logic_round_trip_partial l (c90_maps h), c90_logicOk h]

/-- C90: a screen without block containers that stands between written text and later block containers makes blocks disappear without an
error: the saved text is read, and the last block container of some screen is gone. -/
theorem c90_blocks_lost {s : Str} {l : Logic} (h : Logic.parse s = .ok l) (hk : ∀ e ∈ l.screens, c90_ScreenKept e.2)
    (ht : ¬ Logic.Tight (l.screens.map (·.2))) : ∃ l', Logic.parse l.reconstruct = .ok l' ∧ ∃ name sl e,
      l.screens.get name = some sl ∧ sl.blockContainers.getLast? = some e ∧
      ∀ sl', l'.screens.get name = some sl' → sl'.blockContainers.get e.1 = none := by
  have hm := c90_maps h
  have hr := Logic.parse_traced h
  have hm' : ∀ s ∈ l.screens.map (·.2), (∀ p, s.variables = some p → p.map.keys.Nodup) ∧
      (∀ p, s.listVariables = some p → p.map.keys.Nodup) ∧ (∀ p, s.moreBlocks = some p → p.map.keys.Nodup) ∧
      s.blockContainers.keys.Nodup := by
    simp only [List.mem_map]; rintro s ⟨e, he, rfl⟩; exact hm.2 e he
  have hinv : l.Inv := ⟨fun e he => (hr e he).1, hm.1, fun s hs => (hm' s hs).1, fun s hs => (hm' s hs).2.1,
    fun s hs => (hm' s hs).2.2.1, fun s hs => (hm' s hs).2.2.2⟩
  have hp : ∀ s ∈ l.screens.map (·.2), s.PartsOk := by
    intro s hs
    refine (c28_screenOk_iff (hm' s hs).1 (hm' s hs).2.1 (hm' s hs).2.2.1 (hm' s hs).2.2.2).mpr ?_
    simp only [List.mem_map] at hs
    obtain ⟨e, he, rfl⟩ := hs
    exact (c90_screenOk (hr e he).2.1).mpr (hk e he)
  obtain ⟨l', h1, s', hs, e, h2, h3⟩ := Logic.silent_loss hinv hp ht
  exact ⟨l', h1, s'.name, s', e, hinv.get hs, h2, h3⟩

/-- A logic file: a screen with a variable and no code, and a screen with code. -/
def c90_text : Str := s% "@main.java_var\n1:a\n\n@second.java_onCreate\n"

theorem c90_main : Logic.SectionReads [s% "@main.java_var", s% "1:a"]
    (s% "main", fun s => { s with variables := some ⟨LMap.collect [(s% "a", ⟨s% "a", .integer⟩)]⟩ }) :=
  ⟨_, _, rfl, Sec.var (name := s% "main") (x := '.') (vs := [⟨s% "a", .integer⟩]) rfl
    (.cons (by simp) (by decide) .nil)⟩

theorem c90_second : Logic.SectionReads [s% "@second.java_onCreate"]
    (s% "second", fun s => { s with blockContainers := s.blockContainers.insert (s% "onCreate") ⟨[]⟩ }) :=
  ⟨_, _, rfl, Sec.blocks (line := s% "@second.java_onCreate") (hd := ⟨s% "second", s% "onCreate"⟩)
    (by unfold NotPool; decide) (by decide) .nil⟩

/-- The screens of the text. -/
def c90_read : Logic := ⟨[(s% "main", { ScreenLogic.newEmpty (s% "main") with variables := some ⟨[(s% "a", ⟨s% "a", .integer⟩)]⟩ }),
  (s% "second", { ScreenLogic.newEmpty (s% "second") with blockContainers := [(s% "onCreate", ⟨[]⟩)] })]⟩

/-- C90 is false of logic files: the text is read, with two screens; after saving one is gone, with its code. -/
theorem c90_logic_false : Logic.parse c90_text = .ok c90_read ∧
    Logic.parse c90_read.reconstruct = .ok ⟨[c90_read.screens.head (by simp [c90_read])]⟩ := by
  constructor
  · rw [Logic.c69_ok]
    exact ⟨_, .cons c90_main (.cons c90_second .nil), rfl⟩
  · rw [Logic.c69_ok]
    have : Logic.sections (lines c90_read.reconstruct) = [[s% "@main.java_var", s% "1:a"]] := by decide +kernel
    rw [this]
    exact ⟨_, .cons c90_main .nil, rfl⟩

-- the hypotheses of the theorem about lost blocks are met by this text
example : Logic.parse c90_text = .ok c90_read ∧ (∀ e ∈ c90_read.screens, c90_ScreenKept e.2) ∧
    ¬ Logic.Tight (c90_read.screens.map (·.2)) := by
  refine ⟨c90_logic_false.1, ?_, ?_⟩
  · intro e he
    simp only [c90_read, List.mem_cons, List.not_mem_nil, or_false] at he
    rcases he with rfl | rfl
    · refine ⟨?_, nofun, nofun, by simp [ScreenLogic.newEmpty], by simp [ScreenLogic.newEmpty]⟩
      intro p hp e he c hc
      simp at hp; subst hp; simp at he; subst he; simp at hc; subst hc; decide
    · refine ⟨nofun, nofun, nofun, by decide +kernel, ?_⟩
      intro e he _ c hc
      simp at he; subst he; simp at hc; subst hc; decide
  · intro h
    have := (h [] _ _ rfl rfl ⟨_, List.mem_singleton.mpr rfl, by simp⟩).2 _ (List.mem_cons_self)
    simp at this

end

section
variable [FloatLaws] [MapPol]

/-- C90 is false of view files: a file with two layouts that have views, in the form Sketchware uses, is read; the saved file is refused. -/
theorem c90_view_false : View.parse c22_witness.separated = .ok c22_witness ∧
    ∃ e, View.parse c22_witness.reconstruct = .err e := by
  have hk : c22_witness.layouts.keys.Nodup ∧ c22_witness.fabs.keys.Nodup :=
    ⟨by simp [c22_witness, LMap.keys], by simp [c22_witness, LMap.keys]⟩
  have hr := c22_reads_separated c22_witness hk (by simp [c22_witness]) (by simp [c22_witness, newEmpty_storable])
  refine ⟨hr, ?_⟩
  rcases c22_view_file_loss c22_witness hk (by simp [c22_witness]) with h | ⟨_, h, _⟩ | ⟨w, h, h1, h2⟩
  · exact h
  · simp [c22_witness] at h
  · have hnr : ¬ c22_witness.Readable := by
      intro hr
      have := hr.1 (s% "main", ⟨[AndroidView.newEmpty (s% "a") 3 (s% "root") 0]⟩) (by simp [c22_witness])
      simp at this
    rcases View.parse_not_readable c22_witness (by simp [View.NamesOk, c22_witness]) hk hnr with h | ⟨h, _⟩
    · exact h
    · simp [c22_witness] at h

omit [FloatLaws] [MapPol] in
/-- C90 is false of file lists: custom views without an activity are read, and lost in the saved file without an error. -/
theorem c90_file_false : ∃ (s : Str) (f : File), File.parse s = .ok f ∧ f.customViews ≠ [] ∧
    File.parse f.reconstruct = .ok { activities := [], customViews := [] } := by
  refine ⟨s% "@activity\n@customview\n{\"fileName\":\"drawer\",\"fileType\":1,\"keyboardSetting\":0,\"options\":0,\"orientation\":0,\"theme\":-1}",
    c17_witness, by decide +kernel, by simp [c17_witness], ?_⟩
  exact (c17_file_round_trip_partial _).2 rfl

/-- C90, proved part: opening a project and saving it. Saving never fails, and the saved texts are read as the same project exactly when the
creation date, the file list, the view file and the logic file survive. Missing: the other projects, for which the property is
false (see `c90_logic_false`, `c90_view_false`, `c90_file_false`, `c58_project_round_trip_false`). -/
theorem c90_resave_partial (ex : PathBuf → Bool) (raw : RawSketchwareProject) (p : SketchwareProject)
    (h : SketchwareProject.parseFrom ex raw = .ok p) (rs : Option (List ResourceFileWrapper)) (hrs : p.ResOrder rs) :
    ∃ (t : Date.DateTime) (raw' : RawSketchwareProject), t.Valid ∧ Date.timestamp t = p.project.dateCreated.toInt64.toInt ∧
      p.tryIntoRaw rs = .ok raw' ∧ ((∃ p', SketchwareProject.parseFrom ex raw' = .ok p' ∧ p'.Same p) ↔
        Date.FullWidth t ∧ (p.file.activities ≠ [] ∨ p.file.customViews = []) ∧ c90_ViewKept p.view ∧
        (∀ e ∈ p.logic.screens, c90_ScreenKept e.2) ∧ Logic.Tight (p.logic.screens.map (·.2))) := by
  obtain ⟨h1, h2, h3, h4, h5, h6, h7⟩ := (c58_parts ex raw p).mp h
  obtain ⟨t, hv, hts⟩ := Project.read_date h1
  have hr := View.read_of_parse h5
  obtain ⟨raw', h8, h9⟩ := c58_project_round_trip_partial ex p t hv hts ⟨hr.keysL, hr.keysF⟩ (c90_maps h6) (by
    intro r hr
    cases hw : raw.resourceFiles with
    | none => rw [hw] at h7; simp only at h7; rw [h7] at hr; simp at hr
    | some ws =>
      rw [hw] at h7; simp only at h7
      obtain ⟨r', h8, h9⟩ := h7
      rw [h9] at hr; simp at hr; subst hr
      exact ⟨ws, h8⟩) rs hrs
  refine ⟨t, raw', hv, hts, h8, ?_⟩
  rw [h9, ← c90_view h5, c22_view_file_round_trip_partial _ ⟨hr.keysL, hr.keysF⟩, c90_logicOk h6]
  rfl

end
end Swrs
