import Verif.Proofs.Reopen
import Verif.Props.Settle
/-!
# C103: whether a saved project can be opened
-/
set_option linter.unusedSectionVars false
namespace Swrs

/-! ## C103 — A saved project can be opened -/

/-- A container with this name and these blocks is written so that it can be read: if the name looks like the header of a pool, there are no
blocks or the pool is that of the moreblocks (their lines may have any form), and the character before the `java_` is an ASCII one. -/
def c103_Opens (name : Str) (blocks : List Block) : Prop :=
  ∀ w ∈ [s% "var", s% "list", s% "components", s% "events", s% "func"], (name = w ∨ (s% "java_" ++ w) <:+ name) →
    (blocks = [] ∨ w = s% "func") ∧ ∀ a c, name = a ++ c :: (s% "java_" ++ w) → c.toNat < 128

/-- The name of a container as it is written: the last header of a screen, when no block follows, loses the white space at its end. -/
def c103_written (s : ScreenLogic) (e : Str × BlockContainer) : Str :=
  if s.blockContainers.getLast? = some e ∧ e.2.blocks = [] then trimEnd e.1 else e.1

/-- The code before the first screen without code (the rest is not looked at) can be read. -/
def c103_LogicOpens (l : Logic) : Prop :=
  ∀ s ∈ (l.screens.map (·.2)).takeWhile (fun s => s.blockContainers ≠ []), ∀ e ∈ s.blockContainers,
    c103_Opens (c103_written s e) e.2.blocks

theorem c103_ascii (c : Char) : c.utf8Size = 1 ↔ c.toNat < 128 := by
  rw [Char.utf8Size_eq_one_iff]
  show c.val ≤ 127 ↔ c.val.toNat < 128
  rw [UInt32.le_iff_toNat_le]
  show c.val.toNat ≤ 127 ↔ _
  omega

/-- C103: the exact condition under which a logic file that was read can be opened after it is saved. Variables, lists, components, events
and moreblocks never get in the way. -/
theorem c103_logic [Floats] [MapPol] {s : Str} {l : Logic} (h : Logic.parse s = .ok l) :
    (∃ l', Logic.parse l.reconstruct = .ok l') ↔ c103_LogicOpens l := by
  have hm := c90_maps h
  have hr := Logic.parse_traced h
  have hcl : ∀ s ∈ l.screens.map (·.2), s.Clean := by
    simp only [List.mem_map]; rintro s ⟨e, he, rfl⟩; exact (hr e he).2.1
  have hne : ∀ s ∈ l.screens.map (·.2), ¬ s.Empty := by
    simp only [List.mem_map]; rintro s ⟨e, he, rfl⟩; exact (hr e he).2.2.1
  have hnd : ∀ s ∈ l.screens.map (·.2), s.blockContainers.keys.Nodup := by
    simp only [List.mem_map]; rintro s ⟨e, he, rfl⟩; exact (hm.2 e he).2.2.2
  rw [Logic.reopens hnd hcl hne]
  unfold c103_LogicOpens
  refine forall_congr' fun s => forall_congr' fun hs => ?_
  have hs' : s ∈ l.screens.map (·.2) := (List.takeWhile_sublist _).subset hs
  rw [(hcl s hs').blocks_open (hnd s hs')]
  refine forall_congr' fun e => forall_congr' fun _ => ?_
  simp only [c103_Opens, c103_written, ← c103_ascii]
  exact Iff.rfl

/-- A block. -/
def c103_block : Block := ⟨⟨0xFFE1A92A⟩, s% "10", -1, s% "finishActivity", [], s% "Finish Activity", -1, -1, s% "f", []⟩

/-- C103 is false of logic files: the header `@A.java_var.java_x` is read as that of a container `var`; it is saved as `@A.java_var`, and
what follows is refused as variables. -/
theorem c103_logic_false [Floats] [MapPol] : ∃ (s : Str) (l : Logic) (e : LogicParseError),
    Logic.parse s = .ok l ∧ Logic.parse l.reconstruct = .err e := by
  let l : Logic := ⟨[(s% "A", { ScreenLogic.newEmpty (s% "A") with blockContainers := [(s% "var", ⟨[c103_block]⟩)] })]⟩
  refine ⟨s% "@A.java_var.java_x\n" ++ c103_block.reconstruct, l,
    .variablePool (s% "A") 0 ⟨0, c103_block.reconstruct, .malformedVariableType (s% "{\"color\"")⟩, ?_, ?_⟩
  · rw [Logic.c69_ok]
    have : Logic.sections (lines (s% "@A.java_var.java_x\n" ++ c103_block.reconstruct)) =
      [[s% "@A.java_var.java_x", c103_block.reconstruct]] := by decide +kernel
    rw [this]
    have hs : Logic.SectionReads [s% "@A.java_var.java_x", c103_block.reconstruct]
        (s% "A", fun s => { s with blockContainers := s.blockContainers.insert (s% "var") ⟨[c103_block]⟩ }) :=
      ⟨_, _, rfl, Sec.blocks (line := s% "@A.java_var.java_x") (hd := ⟨s% "A", s% "var"⟩) (by unfold NotPool; decide) (by decide)
        (PoolReads.lineParser Block.jline Block.parse_reconstruct [c103_block])⟩
    exact ⟨_, .cons hs .nil, rfl⟩
  · rw [Logic.c69_error]
    have : Logic.sections (lines l.reconstruct) = [[s% "@A.java_var", c103_block.reconstruct]] := by decide +kernel
    rw [this]
    refine ⟨[], _, [], [], rfl, .nil, _, _, rfl, SecErr.var (name := s% "A") (x := '.') (by decide) ?_⟩
    exact ⟨[], [], [], rfl, .nil, c103_block.jline.ne_nil, by decide +kernel, rfl⟩

/-- C103 is false of logic files: the header `@A.java_éjava_var.java_x` is read as that of a container `éjava_var`; it is saved as
`@A.java_éjava_var`, and reading that panics. -/
theorem c103_panic_false [Floats] [MapPol] : ∃ (s : Str) (l : Logic), Logic.parse s = .ok l ∧ Logic.parse l.reconstruct = .panic := by
  let l : Logic := ⟨[(s% "A", { ScreenLogic.newEmpty (s% "A") with blockContainers := [(s% "éjava_var", ⟨[]⟩)] })]⟩
  refine ⟨s% "@A.java_éjava_var.java_x", l, ?_, ?_⟩
  · rw [Logic.c69_ok]
    have : Logic.sections (lines (s% "@A.java_éjava_var.java_x")) = [[s% "@A.java_éjava_var.java_x"]] := by decide +kernel
    rw [this]
    have hs : Logic.SectionReads [s% "@A.java_éjava_var.java_x"]
        (s% "A", fun s => { s with blockContainers := s.blockContainers.insert (s% "éjava_var") ⟨[]⟩ }) :=
      ⟨_, _, rfl, Sec.blocks (line := s% "@A.java_éjava_var.java_x") (hd := ⟨s% "A", s% "éjava_var"⟩) (by unfold NotPool; decide) (by decide) .nil⟩
    exact ⟨_, .cons hs .nil, rfl⟩
  · rw [Logic.c69_panic]
    have : Logic.sections (lines l.reconstruct) = [[s% "@A.java_éjava_var"]] := by decide +kernel
    rw [this]
    exact ⟨[], _, [], [], rfl, .nil, _, _, rfl, s% "java_var", by decide, s% "A.java_é", rfl, by decide⟩

-- a container `var` without blocks, and a container `func` with blocks, do not stop the file from being opened
example : c103_Opens (s% "var") [] ∧ c103_Opens (s% "func") [c103_block] ∧ ¬ c103_Opens (s% "var") [c103_block] ∧
    ¬ c103_Opens (s% "éjava_var") [] ∧ c103_Opens (s% "ejava_var") [] := by
  refine ⟨fun w _ _ => ⟨.inl rfl, fun a c h => ?_⟩, ?_, fun h => ?_, fun h => ?_, fun w hw hn => ⟨.inl rfl, fun a c h => ?_⟩⟩
  · have := congrArg List.length h
    simp at this
    omega
  · intro w hw hn
    have hw' : w = s% "func" := by
      revert hn; revert w; decide
    subst hw'
    refine ⟨.inr rfl, fun a c h => ?_⟩
    have := congrArg List.length h
    simp at this
  · have := (h (s% "var") (by simp) (.inl rfl)).1
    revert this; decide
  · have := (h (s% "var") (by simp) (.inr (by decide))).2 [] 'é' rfl
    revert this; decide
  · have hw' : w = s% "var" := by
      clear h; revert hn; revert w; decide
    subst hw'
    have : a = [] := by
      cases a with
      | nil => rfl
      | cons x a =>
        have := congrArg List.length h
        simp at this
    subst this
    simp at h
    rw [← h]; decide

section
variable [FloatLaws] [MapPol]

/-- C103: the exact condition under which a view file that was read can be opened after it is saved: it survives (C90), or it has no views
at all; then its floating buttons are lost. -/
theorem c103_view {s : Str} {v : View} (h : View.parse s = .ok v) :
    (∃ v', View.parse v.reconstruct = .ok v') ↔ c90_ViewKept v ∨ ∀ e ∈ v.layouts, e.2.views = [] := by
  have hr := View.read_of_parse h
  have hnr : ¬ c90_ViewKept v → ¬ v.Readable := by
    intro hk hre
    apply hk
    rw [← c90_view h, c22_view_file_round_trip_partial v ⟨hr.keysL, hr.keysF⟩]
    refine ⟨⟨hr.namesL, hr.namesF⟩, hre.1, hre.2.1, ?_, ?_⟩
    · intro e he w hw
      exact (AndroidView.parse_reconstruct_iff _).mpr ⟨hre.2.2.1 e he w hw, hr.normalL e he w hw⟩
    · intro e he
      exact (AndroidView.parse_reconstruct_iff _).mpr ⟨hre.2.2.2 e he, hr.normalF e he⟩
  by_cases hk : c90_ViewKept v
  · exact ⟨fun _ => .inl hk, fun _ => ⟨v, (c90_view h).mpr hk⟩⟩
  · constructor
    · rintro ⟨v', hv⟩
      rcases View.parse_not_readable v ⟨hr.namesL, hr.namesF⟩ ⟨hr.keysL, hr.keysF⟩ (hnr hk) with ⟨e, he⟩ | ⟨_, he, _⟩
      · rw [he] at hv; simp at hv
      · exact .inr he
    · rintro (hh | hh)
      · exact absurd hh hk
      · exact ⟨_, View.parse_all_empty v ⟨hr.namesL, hr.namesF⟩ ⟨hr.keysL, hr.keysF⟩ hh⟩

/-- C103: the project file can be opened after it is saved exactly when all parts of the date have their full width. -/
theorem c103_project {s : Str} {p : Project} (h : Project.parse s = .ok p) : ∃ (t : Date.DateTime) (s' : Str), t.Valid ∧
    Date.timestamp t = p.dateCreated.toInt64.toInt ∧ p.reconstruct = .ok s' ∧ ((∃ p', Project.parse s' = .ok p') ↔ Date.FullWidth t) := by
  obtain ⟨t, hv, hts, s', hs, hiff⟩ := c90_project h
  refine ⟨t, s', hv, hts, hs, ?_⟩
  rw [← hiff]
  constructor
  · rintro ⟨p', hp⟩
    rw [c101_project h hs hp] at hp
    exact hp
  · exact fun hp => ⟨p, hp⟩

/-- C103: the file list can always be opened after it is saved. -/
theorem c103_file (f : File) : ∃ f', File.parse f.reconstruct = .ok f' := by
  by_cases ha : f.activities = []
  · exact ⟨_, (c17_file_round_trip_partial f).2 ha⟩
  · exact ⟨f, (c17_file_round_trip_partial f).1.mpr (.inl ha)⟩

/-- C103, proved part: saving a project that was opened never fails, and what is saved can be opened exactly when the date has its full
width, the view file survives or has no views, and no container of the code has a name that is taken for that of a pool. Missing: the other
projects, for which the property is false. -/
theorem c103_reopen_partial (ex : PathBuf → Bool) (raw : RawSketchwareProject) (p : SketchwareProject)
    (h : SketchwareProject.parseFrom ex raw = .ok p) (rs : Option (List ResourceFileWrapper)) (hrs : p.ResOrder rs) :
    ∃ (t : Date.DateTime) (raw' : RawSketchwareProject), t.Valid ∧ Date.timestamp t = p.project.dateCreated.toInt64.toInt ∧
      p.tryIntoRaw rs = .ok raw' ∧ ((∃ p', SketchwareProject.parseFrom ex raw' = .ok p') ↔
        Date.FullWidth t ∧ (c90_ViewKept p.view ∨ ∀ e ∈ p.view.layouts, e.2.views = []) ∧ c103_LogicOpens p.logic) := by
  obtain ⟨h1, h2, h3, h4, h5, h6, h7⟩ := (c58_parts ex raw p).mp h
  obtain ⟨t, s, hv, hts, hs, hiff⟩ := c103_project h1
  refine ⟨t, ⟨s, p.file.reconstruct, p.library.reconstruct, p.resource.reconstruct, p.view.reconstruct, p.logic.reconstruct, rs⟩,
    hv, hts, by simp [SketchwareProject.tryIntoRaw, hs], ?_⟩
  rw [← hiff, ← c103_view h5, ← c103_logic h6]
  constructor
  · rintro ⟨p', hp⟩
    rw [c58_parts] at hp
    exact ⟨⟨_, hp.1⟩, ⟨_, hp.2.2.2.2.1⟩, _, hp.2.2.2.2.2.1⟩
  · rintro ⟨⟨p1, hp1⟩, ⟨v1, hv1⟩, l1, hl1⟩
    obtain ⟨f1, hf1⟩ := c103_file p.file
    have hr : ∃ o, (match rs with
          | none => o = none
          | some ws => ∃ r, ResourceFiles.tryFrom ex ws = .ok r ∧ o = some r) := by
      cases rs with
      | none => exact ⟨none, rfl⟩
      | some ws' =>
        simp only [SketchwareProject.ResOrder] at hrs
        obtain ⟨r, h8, h9⟩ := hrs
        cases hw : raw.resourceFiles with
        | none => rw [hw] at h7; simp only at h7; rw [h7] at h8; simp at h8
        | some ws =>
          rw [hw] at h7; simp only at h7
          obtain ⟨r', h10, h11⟩ := h7
          rw [h11] at h8
          obtain rfl := Option.some.inj h8
          obtain ⟨r'', h12, _⟩ := c57_round_trip ex ws r' h10 ws' h9
          exact ⟨some r'', r'', h12, rfl⟩
    obtain ⟨o, ho⟩ := hr
    refine ⟨⟨p1, f1, p.library, p.resource, v1, l1, o⟩, ?_⟩
    rw [c58_parts]
    exact ⟨hp1, hf1, c19_library_round_trip _, c18_resource_round_trip _, hv1, hl1, ho⟩

/-- C103 is false of projects, whatever the date and the views: a project that is opened, whose date is 2022-12-31 23:59:58 and that has no
views, is saved without an error, and opening what was saved panics. -/
theorem c103_reopen_false : ∃ (raw raw' : RawSketchwareProject) (p : SketchwareProject),
    SketchwareProject.parseFrom (fun _ => true) raw = .ok p ∧ p.project.dateCreated = 1672531198 ∧ p.view.layouts = [] ∧
    p.tryIntoRaw none = .ok raw' ∧ SketchwareProject.parseFrom (fun _ => true) raw' = .panic := by
  obtain ⟨s, hs, hd⟩ := c15_project_round_trip_partial (c58_witness 1672531198).project ⟨2022, 12, 31, 23, 59, 58⟩ (by decide +kernel)
    (by show _ = (1672531198 : UInt64).toInt64.toInt; decide +kernel)
  have hs' := hd.mpr (by unfold Date.FullWidth; simp)
  obtain ⟨g, l, hl, hpanic⟩ := c103_panic_false
  let w := c58_witness 1672531198
  have hf := (c17_file_round_trip_partial w.file).1.mpr (.inr rfl)
  have hw := (c22_view_file_round_trip_partial w.view ⟨List.Pairwise.nil, List.Pairwise.nil⟩).mpr c58_witness_parts.2.1
  refine ⟨⟨s, w.file.reconstruct, w.library.reconstruct, w.resource.reconstruct, w.view.reconstruct, g, none⟩,
    ⟨s, w.file.reconstruct, w.library.reconstruct, w.resource.reconstruct, w.view.reconstruct, l.reconstruct, none⟩,
    { w with logic := l }, ?_, rfl, rfl, ?_, ?_⟩
  · rw [c58_parts]
    exact ⟨hs', hf, c19_library_round_trip _, c18_resource_round_trip _, hw, hl, rfl⟩
  · unfold SketchwareProject.tryIntoRaw
    rw [show ({ w with logic := l } : SketchwareProject).project = (c58_witness 1672531198).project from rfl, hs]
    rfl
  · unfold SketchwareProject.parseFrom
    simp only [hs', hf, hw, c19_library_round_trip, c18_resource_round_trip, hpanic]
    rfl

-- the hypotheses of `c103_reopen_partial` are met, and its condition holds, by a project with a screen that has code
example : ∃ (raw : RawSketchwareProject) (p : SketchwareProject), SketchwareProject.parseFrom (fun _ => true) raw = .ok p ∧
    p.ResOrder none ∧ p.logic.screens.map (·.1) = [s% "A"] ∧ c90_ViewKept p.view ∧ c103_LogicOpens p.logic := by
  obtain ⟨s, hs, hd⟩ := c15_project_round_trip_partial (c58_witness 1672531198).project ⟨2022, 12, 31, 23, 59, 58⟩ (by decide +kernel)
    (by show _ = (1672531198 : UInt64).toInt64.toInt; decide +kernel)
  have hs' := hd.mpr (by unfold Date.FullWidth; simp)
  let w := c58_witness 1672531198
  let l : Logic := ⟨[(s% "A", { ScreenLogic.newEmpty (s% "A") with blockContainers := [(s% "onCreate", ⟨[c103_block]⟩)] })]⟩
  have hf := (c17_file_round_trip_partial w.file).1.mpr (.inr rfl)
  have hw := (c22_view_file_round_trip_partial w.view ⟨List.Pairwise.nil, List.Pairwise.nil⟩).mpr c58_witness_parts.2.1
  have hl : Logic.parse (s% "@A.java_onCreate\n" ++ c103_block.reconstruct) = .ok l := by
    rw [Logic.c69_ok]
    have : Logic.sections (lines (s% "@A.java_onCreate\n" ++ c103_block.reconstruct)) =
      [[s% "@A.java_onCreate", c103_block.reconstruct]] := by decide +kernel
    rw [this]
    have hs : Logic.SectionReads [s% "@A.java_onCreate", c103_block.reconstruct]
        (s% "A", fun s => { s with blockContainers := s.blockContainers.insert (s% "onCreate") ⟨[c103_block]⟩ }) :=
      ⟨_, _, rfl, Sec.blocks (line := s% "@A.java_onCreate") (hd := ⟨s% "A", s% "onCreate"⟩) (by unfold NotPool; decide) (by decide)
        (PoolReads.lineParser Block.jline Block.parse_reconstruct [c103_block])⟩
    exact ⟨_, .cons hs .nil, rfl⟩
  refine ⟨⟨s, w.file.reconstruct, w.library.reconstruct, w.resource.reconstruct, w.view.reconstruct,
    s% "@A.java_onCreate\n" ++ c103_block.reconstruct, none⟩, { w with logic := l }, ?_, rfl, rfl, ?_, ?_⟩
  · rw [c58_parts]
    exact ⟨hs', hf, c19_library_round_trip _, c18_resource_round_trip _, hw, hl, rfl⟩
  · exact (c90_view hw).mp hw
  · rw [← c103_logic hl]
    refine ⟨l, ?_⟩
    rw [show ({ w with logic := l } : SketchwareProject).logic.reconstruct = s% "@A.java_onCreate\n" ++ c103_block.reconstruct from ?_]
    · exact hl
    · show l.reconstruct = _
      decide +kernel

end
end Swrs
