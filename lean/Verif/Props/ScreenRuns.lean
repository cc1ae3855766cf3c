import Verif.Props.FabToggle
/-!
# C152: screens that are added or removed
-/
set_option linter.unusedSectionVars false
namespace Swrs.Api
open Format
section
variable [MapPol] [Floats]
variable (p : SketchwareProject) (rs : Option (List ResourceFileWrapper)) (raw : RawSketchwareProject)

/-- Specification: the lines of the layouts of screens. -/
def c152_layouts (ss : List Screen) : Str := ss.flatMap fun s =>
  "@".toList ++ s.layoutName ++ ".xml\n".toList ++ between "\n" ((flattenIn s.layout (s% "root") 0).map (·.reconstruct)) ++ "\n".toList

/-- Specification: the lines of the floating buttons of screens. -/
def c152_buttons (ss : List Screen) : Str := ss.flatMap fun s => c151_button s.layoutName s.fab

/-- Specification: the lines of screens in the list of the files. -/
def c152_lines (ss : List Screen) : List Str := (ss.map Screen.toFileItem).map (·.reconstruct)

/-- Specification: what is written for the code of screens, each under the name of its class. -/
def c152_Logic (ss : List Screen) (ls : LMap Str ScreenLogic) : Prop := All₂ (fun s e => e.1 = s.javaName ∧ s.toLogic = .ok e.2) ss ls

theorem c152_written (k : List Screen) :
    ((k.map fun c => (c.layoutName, c.layout)).map (fun e => (e.1, (⟨flattenViews e.2 none none⟩ : Layout)))).flatMap
      (fun e => "@".toList ++ e.1 ++ ".xml\n".toList ++ between "\n" (e.2.views.map (·.reconstruct)) ++ "\n".toList) = c152_layouts k := by
  induction k with
  | nil => rfl
  | cons c k ih =>
    simp only [List.map_cons, List.flatMap_cons, ih, c152_layouts]
    rfl

theorem c152_fabs (k : List Screen) :
    ((k.filterMap fun s => s.fab.map fun v => (s.layoutName, v)).map (fun e => (e.1, fabBack e.2))).flatMap
      (fun e => "@".toList ++ e.1 ++ ".xml_fab\n".toList ++ e.2.reconstruct ++ "\n".toList) = c152_buttons k := by
  induction k with
  | nil => rfl
  | cons s k ih =>
    unfold c152_buttons at ih ⊢
    rw [List.flatMap_cons, ← ih, List.filterMap_cons]
    cases s.fab <;> simp [c151_button]

theorem c152_view {p' : SketchwareProject} {q : Swrs.SketchwareProject} (hq : p'.toParsed = .ok q) (a m b : List Screen) (hp : p'.screens = a ++ m ++ b)
    (hl : ((layoutsOf p').map (·.1)).Nodup) (hj : (p'.screens.map (·.javaName)).Nodup) :
    q.view.reconstruct = trimEnd (c152_layouts a ++ c152_layouts m ++ (c152_layouts b ++ c151_layouts p'.customViews ++ "\n".toList ++ c152_buttons a) ++ c152_buttons m ++
      c152_buttons b) := by
  obtain ⟨v1, v2, -⟩ := toParsed_lists hq hl hj
  rw [c63_view, v1, v2, fabsOf, c152_fabs, layoutsOf, List.map_append, List.flatMap_append, c152_written, c151_written, hp]
  simp only [c152_layouts, c152_buttons, List.flatMap_append, List.append_assoc]

theorem c152_all {α β : Type} {R : α → β → Prop} {a b : List α} {l : List β} (h : All₂ R (a ++ b) l) : ∃ x y, l = x ++ y ∧ All₂ R a x ∧ All₂ R b y := by
  induction a generalizing l with
  | nil => exact ⟨[], l, rfl, .nil, h⟩
  | cons x a ih =>
    cases h with
    | cons h1 h2 =>
      obtain ⟨u, v, rfl, h3, h4⟩ := ih h2
      exact ⟨_ :: u, v, rfl, .cons h1 h3, h4⟩

theorem c152_unique {a : List Screen} {l l' : LMap Str ScreenLogic} (h : c152_Logic a l) (h' : c152_Logic a l') : l = l' := by
  unfold c152_Logic at h h'
  induction a generalizing l l' with
  | nil => cases h; cases h'; rfl
  | cons s a ih =>
    cases h with
    | @cons _ e _ t h1 h2 =>
      cases h' with
      | @cons _ e' _ t' h3 h4 =>
        rw [ih h2 h4]
        obtain ⟨n, x⟩ := e
        obtain ⟨n', x'⟩ := e'
        dsimp only at h1 h3
        rw [h1.2] at h3
        cases h3.2
        rw [h1.1, h3.1]

/-- Specification: sections of the text of the logic, each after a blank line. -/
def c152_sections (ts : List Str) : Str := ts.flatMap fun t => "\n\n".toList ++ trim t

/-- Specification: the section of a screen for one kind of definitions, if it has one. -/
def c152_section (kind : String) (name : Str) (text : Option Str) : Option Str := text.map fun t => "@".toList ++ name ++ kind.toList ++ "\n".toList ++ t

/-- Specification: the sections of screens for one kind of definitions. -/
def c152_run (l : LMap Str ScreenLogic) (f : ScreenLogic → Option Str) : Str := c152_sections ((l.map (·.2)).filterMap f)

/-- C152: the text of the logic has six runs, one for each kind of sections. In each of them the sections of a run of screens stand side by
side, and all that is around them depends on the other screens only. -/
theorem c152_logic_text (x y : LMap Str ScreenLogic) : ∃ p₀ p₁ p₂ p₃ p₄ p₅ p₆ : Str, ∀ l : LMap Str ScreenLogic,
    (⟨x ++ l ++ y⟩ : Logic).reconstruct = trim (
      p₀ ++ c152_run l (fun s => c152_section ".java_var" s.name (s.variables.map (·.reconstruct))) ++
      p₁ ++ c152_run l (fun s => c152_section ".java_list" s.name (s.listVariables.map (·.reconstruct))) ++
      p₂ ++ c152_run l (fun s => c152_section ".java_components" s.name (s.components.map (·.reconstruct))) ++
      p₃ ++ c152_run l (fun s => c152_section ".java_events" s.name (s.events.map (·.reconstruct))) ++
      p₄ ++ c152_run l (fun s => c152_section ".java_func" s.name (s.moreBlocks.map (·.reconstruct))) ++
      p₅ ++ c152_run l (fun s => some <| s.blockContainers.flatMap fun e =>
        "@".toList ++ s.name ++ ".java_".toList ++ e.1 ++ "\n".toList ++ e.2.reconstruct ++ "\n".toList) ++ p₆) := by
  have hc : ∀ l : Logic, l.reconstruct = trim (c152_sections l.chunks) := by
    intro l
    unfold Logic.reconstruct
    rw [c143_fold, List.nil_append]
    rfl
  have hs : ∀ a b : List Str, c152_sections (a ++ b) = c152_sections a ++ c152_sections b := fun a b => List.flatMap_append
  have h1 : ∀ s : ScreenLogic, (s.variables.map fun p => '@' :: (s.name ++ (s% ".java_var\n" ++ p.reconstruct))) =
      c152_section ".java_var" s.name (s.variables.map (·.reconstruct)) := by
    intro s; cases s.variables <;> simp [c152_section]
  have h2 : ∀ s : ScreenLogic, (s.listVariables.map fun p => '@' :: (s.name ++ (s% ".java_list\n" ++ p.reconstruct))) =
      c152_section ".java_list" s.name (s.listVariables.map (·.reconstruct)) := by
    intro s; cases s.listVariables <;> simp [c152_section]
  have h3 : ∀ s : ScreenLogic, (s.components.map fun p => '@' :: (s.name ++ (s% ".java_components\n" ++ p.reconstruct))) =
      c152_section ".java_components" s.name (s.components.map (·.reconstruct)) := by
    intro s; cases s.components <;> simp [c152_section]
  have h4 : ∀ s : ScreenLogic, (s.events.map fun p => '@' :: (s.name ++ (s% ".java_events\n" ++ p.reconstruct))) =
      c152_section ".java_events" s.name (s.events.map (·.reconstruct)) := by
    intro s; cases s.events <;> simp [c152_section]
  have h5 : ∀ s : ScreenLogic, (s.moreBlocks.map fun p => '@' :: (s.name ++ (s% ".java_func\n" ++ p.reconstruct))) =
      c152_section ".java_func" s.name (s.moreBlocks.map (·.reconstruct)) := by
    intro s; cases s.moreBlocks <;> simp [c152_section]
  have h6 : ∀ s : ScreenLogic, Logic.blocksText s = s.blockContainers.flatMap fun e =>
        "@".toList ++ s.name ++ ".java_".toList ++ e.1 ++ "\n".toList ++ e.2.reconstruct ++ "\n".toList := by
    intro s
    unfold Logic.blocksText
    rw [c143_fold, List.nil_append]
    congr 1
    funext e
    simp
  refine ⟨c152_run x (fun s => c152_section ".java_var" s.name (s.variables.map (·.reconstruct))),
    c152_run y (fun s => c152_section ".java_var" s.name (s.variables.map (·.reconstruct))) ++ c152_run x (fun s => c152_section ".java_list" s.name (s.listVariables.map (·.reconstruct))),
    c152_run y (fun s => c152_section ".java_list" s.name (s.listVariables.map (·.reconstruct))) ++ c152_run x (fun s => c152_section ".java_components" s.name (s.components.map (·.reconstruct))),
    c152_run y (fun s => c152_section ".java_components" s.name (s.components.map (·.reconstruct))) ++ c152_run x (fun s => c152_section ".java_events" s.name (s.events.map (·.reconstruct))),
    c152_run y (fun s => c152_section ".java_events" s.name (s.events.map (·.reconstruct))) ++ c152_run x (fun s => c152_section ".java_func" s.name (s.moreBlocks.map (·.reconstruct))),
    c152_run y (fun s => c152_section ".java_func" s.name (s.moreBlocks.map (·.reconstruct))) ++ c152_run x (fun s => some <| s.blockContainers.flatMap fun e =>
        "@".toList ++ s.name ++ ".java_".toList ++ e.1 ++ "\n".toList ++ e.2.reconstruct ++ "\n".toList),
    c152_run y (fun s => some <| s.blockContainers.flatMap fun e =>
        "@".toList ++ s.name ++ ".java_".toList ++ e.1 ++ "\n".toList ++ e.2.reconstruct ++ "\n".toList), fun l => (hc _).trans (congrArg trim ?_)⟩
  have hm : ∀ l : List ScreenLogic, l.map Logic.blocksText = l.filterMap (fun s => some <| s.blockContainers.flatMap fun e =>
        "@".toList ++ s.name ++ ".java_".toList ++ e.1 ++ "\n".toList ++ e.2.reconstruct ++ "\n".toList) := by
    intro l
    rw [funext h6]
    exact (congrFun List.filterMap_eq_map' l).symm
  unfold Logic.chunks c152_run
  simp only [h1, h2, h3, h4, h5, hm, List.map_append, List.filterMap_append, hs, List.append_assoc]

/-- C152: a run of screens is replaced by another one whose code can be written. -/
theorem c152_screens (a m m' b : List Screen) (hp : p.screens = a ++ m ++ b)
    (hl : ((layoutsOf p).map (·.1)).Nodup) (hl' : ((layoutsOf { p with screens := a ++ m' ++ b }).map (·.1)).Nodup)
    (hj : (p.screens.map (·.javaName)).Nodup) (hj' : ((a ++ m' ++ b).map (·.javaName)).Nodup) (h : c143_Saved p rs raw)
    (hok : ∀ s ∈ m', ∃ l, s.toLogic = .ok l) :
    ∃ view file logic, c143_Saved { p with screens := a ++ m' ++ b } rs { raw with view, file, logic } ∧
      (∃ x y z, raw.view = trimEnd (x ++ c152_layouts m ++ y ++ c152_buttons m ++ z) ∧ view = trimEnd (x ++ c152_layouts m' ++ y ++ c152_buttons m' ++ z)) ∧
      (∃ x y z, raw.file = "@activity\n".toList ++ between "\n" (x ++ c152_lines m ++ y) ++ z ∧ file = "@activity\n".toList ++ between "\n" (x ++ c152_lines m' ++ y) ++ z) ∧
      ∃ x l l' y, c152_Logic m l ∧ c152_Logic m' l' ∧ raw.logic = (⟨x ++ l ++ y⟩ : Logic).reconstruct ∧ logic = (⟨x ++ l' ++ y⟩ : Logic).reconstruct := by
  obtain ⟨q, hq, hr⟩ := h
  obtain ⟨lg, ls, fs, i1, s1, f1, hb, hi, hs, hfo, h1, h2, h3, h4, h5, h6⟩ := toParsed_ok hq
  have hok' : ∀ x ∈ p.screens, ∃ l, x.toLogic = .ok l := by
    intro x hx
    cases hxl : x.toLogic with
    | ok l => exact ⟨l, rfl⟩
    | err e => exact e.elim
    | panic => rw [(screensBack_panics p.screens [] [] []).mpr ⟨x, hx, hxl⟩] at hb; cases hb
  have hall : ∀ x ∈ a ++ m' ++ b, ∃ l, x.toLogic = .ok l := by
    intro x hx
    rw [hp] at hok'
    simp only [List.mem_append] at hx hok'
    rcases hx with (hx | hx) | hx
    · exact hok' x (.inl (.inl hx))
    · exact hok x hx
    · exact hok' x (.inr hx)
  obtain ⟨⟨lg', ls', fs'⟩, hb'⟩ := screensBack_total hall [] [] []
  have ht : ∃ v, ({ p with screens := a ++ m' ++ b } : SketchwareProject).toParsed =
      .ok { q with logic := ⟨lg'⟩, view := v, file := { q.file with activities := (a ++ m' ++ b).map Screen.toFileItem } } := by
    refine ⟨⟨customViewsBack p.customViews ls', fs'⟩, ?_⟩
    simp only [SketchwareProject.toParsed, hb', hi, hs, hfo, Out.ok_bind, Out.pure_eq, Out.ok.injEq]
    obtain ⟨qp, qf, ql, qr, qv, qlo, qrf⟩ := q
    dsimp only at *
    rw [h1, h2, h3, h6]
  obtain ⟨v, ht⟩ := ht
  obtain ⟨lo, ha, e⟩ := c143_logics hb (by simpa using hj)
  obtain ⟨lo', ha', e'⟩ := c143_logics hb' (by simpa using hj')
  rw [List.nil_append] at e e'
  subst e e'
  rw [hp] at ha
  obtain ⟨xm, lb, rfl, ha1, ha2⟩ := c152_all ha
  obtain ⟨la, lm, rfl, ha3, ha4⟩ := c152_all ha1
  obtain ⟨xm', lb', rfl, hb1, hb2⟩ := c152_all ha'
  obtain ⟨la', lm', rfl, hb3, hb4⟩ := c152_all hb1
  cases c152_unique ha2 hb2
  cases c152_unique ha3 hb3
  have w := c152_view hq a m b hp hl hj
  have w' := c152_view ht a m' b rfl hl' hj'
  simp only [Swrs.SketchwareProject.tryIntoRaw, Out.bind_eq_ok, Out.pure_eq, Out.ok.injEq] at hr
  obtain ⟨pr, hpr, rfl⟩ := hr
  refine ⟨v.reconstruct, ({ q.file with activities := (a ++ m' ++ b).map Screen.toFileItem } : File).reconstruct, (⟨la ++ lm' ++ lb⟩ : Logic).reconstruct, ⟨_, ht, ?_⟩,
    ⟨_, _, _, w, w'⟩, ⟨c152_lines a, c152_lines b, "\n@customview\n".toList ++ between "\n" (q.file.customViews.map (·.reconstruct)), ?_, ?_⟩,
    la, lm, lm', lb, ha4, hb4, ?_, rfl⟩
  · simp only [Swrs.SketchwareProject.tryIntoRaw, hpr, Out.ok_bind, Out.pure_eq]
  · dsimp only
    rw [c63_file, List.append_assoc _ "\n@customview\n".toList]
    have : q.file.activities.map (·.reconstruct) = c152_lines a ++ c152_lines m ++ c152_lines b := by
      rw [h2, hp]; simp only [c152_lines, List.map_append]
    rw [this]
  · rw [c63_file, List.append_assoc _ "\n@customview\n".toList]
    have : ((a ++ m' ++ b).map Screen.toFileItem).map (·.reconstruct) = c152_lines a ++ c152_lines m' ++ c152_lines b := by
      simp only [c152_lines, List.map_append]
    rw [← this]
  · dsimp only
    rw [h5]

/-- Another screen with a floating button. -/
def c152_second : Screen :=
  { plainScreen [] [] none with
    layoutName := s% "second", javaName := s% "SecondActivity", fab := some (View.ofRaw (AndroidView.newEmpty (s% "_fab") 16 (s% "root") 0)) }

-- the project of C150 with a second screen that has a floating button, too
example : ∃ raw view file logic l', c143_Saved c150_demo none raw ∧
    c143_Saved { c150_demo with screens := c150_demo.screens ++ [c152_second] } none
      { raw with view, file, logic } ∧
    c152_Logic [c152_second] l' := by
  obtain ⟨raw, h⟩ := c150_demo_saved
  have hj : (c150_demo.screens.map (·.javaName)).Nodup := by show [s% "MainActivity"].Nodup; decide
  have hl : ((layoutsOf c150_demo).map (·.1)).Nodup := by show [s% "main", s% "item"].Nodup; decide
  obtain ⟨v, f, l, hs, -, -, x, l₁, l₂, y, -, h2, -⟩ := c152_screens c150_demo none raw c150_demo.screens []
    [c152_second] [] (by simp) hl
    (by show [s% "main", s% "second", s% "item"].Nodup; decide) hj (by show [s% "MainActivity", s% "SecondActivity"].Nodup; decide) h
    (by intro s hs; cases List.mem_singleton.mp hs; exact ⟨_, rfl⟩)
  exact ⟨raw, v, f, l, l₂, h, by simpa using hs, h2⟩
end
end Swrs.Api
