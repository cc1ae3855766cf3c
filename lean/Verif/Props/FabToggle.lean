import Verif.Props.CustomView
/-!
# C151: floating buttons and custom views that are added or removed
-/
set_option linter.unusedSectionVars false
namespace Swrs.Api
open Format
section
variable [MapPol] [Floats]
variable (p : SketchwareProject) (rs : Option (List ResourceFileWrapper)) (raw : RawSketchwareProject)

/-- Specification: two texts are the same but that one has `x` where the other one has `y`; line ends at the end do not count. -/
def c151_Runs (x y s t : Str) : Prop := ∃ a b, s = trimEnd (a ++ x ++ b) ∧ t = trimEnd (a ++ y ++ b)

/-- Specification: the lines of a floating button, if there is one. -/
def c151_button (name : Str) : Option View → Str
  | none => []
  | some v => "@".toList ++ name ++ ".xml_fab\n".toList ++ (fabBack v).reconstruct ++ "\n".toList

/-- C151: the floating button of a screen is added, removed or replaced. -/
theorem c151_button_change (before after : List Screen) (s : Screen) (fab : Option View) (hp : p.screens = before ++ s :: after)
    (hl : ((layoutsOf p).map (·.1)).Nodup) (hj : (p.screens.map (·.javaName)).Nodup) (h : c143_Saved p rs raw) :
    ∃ text, c143_Saved { p with screens := before ++ { s with fab } :: after } rs { raw with view := text } ∧
      c151_Runs (c151_button s.layoutName s.fab) (c151_button s.layoutName fab) raw.view text := by
  obtain ⟨q, hq, hr⟩ := h
  obtain ⟨q', hq', hlog, hfile⟩ := c91_layout_edit p before after s s.layout fab q hp hq
  obtain ⟨lg, ls, fs, i1, s1, f1, hb, hi, hs, hfo, h1, h2, h3, h4, h5, h6⟩ := toParsed_ok hq
  obtain ⟨lg', ls', fs', i1', s1', f1', hb', hi', hs', hfo', h1', h2', h3', h4', h5', h6'⟩ := toParsed_ok hq'
  dsimp only at hi' hs' hfo' h1' h2' h3'
  rw [hi] at hi'
  rw [hs] at hs'
  rw [hfo] at hfo'
  have e1 : q'.resource = q.resource := by
    obtain ⟨qp, qf, ql, ⟨r1, r2, r3⟩, qv, qlo, qrf⟩ := q
    obtain ⟨qp', qf', ql', ⟨r1', r2', r3'⟩, qv', qlo', qrf'⟩ := q'
    dsimp only at hi' hs' hfo' ⊢
    cases hi'
    cases hs'
    cases hfo'
    rfl
  have el : ∀ (s0 : Screen), layoutsOf { p with screens := before ++ s0 :: after } = before.map (fun s => (s.layoutName, s.layout)) ++
      ((s0.layoutName, s0.layout) :: (after.map (fun s => (s.layoutName, s.layout)) ++ p.customViews.map fun c => (c.resName, c.layout))) := by
    intro s0; simp [layoutsOf]
  have ep : p = { p with screens := before ++ s :: after } := by rw [← hp]
  obtain ⟨v1, v2, -⟩ := toParsed_lists hq hl hj
  obtain ⟨v1', v2', -⟩ := toParsed_lists hq' (by rw [ep, el] at hl; rw [el]; simpa using hl) (by rw [hp] at hj; simpa using hj)
  simp only [Swrs.SketchwareProject.tryIntoRaw, Out.bind_eq_ok, Out.pure_eq, Out.ok.injEq] at hr
  obtain ⟨pr, hpr, rfl⟩ := hr
  refine ⟨q'.view.reconstruct, ⟨q', hq', ?_⟩, ?_⟩
  · rw [h1, ← h1'] at hpr
    simp only [Swrs.SketchwareProject.tryIntoRaw, hpr, Out.ok_bind, Out.pure_eq, hlog, hfile, e1, h3, h3']
  · dsimp only
    have ef : q'.view.layouts = q.view.layouts := by
      rw [v1, v1', el]
      rw [ep, el]
    have ht : ∀ (s0 : Screen), fabsOf { p with screens := before ++ s0 :: after } = before.filterMap (fun s => s.fab.map fun v => (s.layoutName, v)) ++
        ((s0.fab.map fun v => (s0.layoutName, v)).toList ++ after.filterMap (fun s => s.fab.map fun v => (s.layoutName, v))) := by
      intro s0
      simp only [fabsOf, List.filterMap_append, List.filterMap_cons]
      cases s0.fab <;> simp
    have hb : ∀ o : Option View, ((o.map fun v => (s.layoutName, v)).toList.map (fun e => (e.1, fabBack e.2))).flatMap
        (fun e => "@".toList ++ e.1 ++ ".xml_fab\n".toList ++ e.2.reconstruct ++ "\n".toList) = c151_button s.layoutName o := by
      intro o; cases o <;> simp [c151_button]
    have h0 : fabsOf p = _ := (congrArg fabsOf ep).trans (ht s)
    rw [c63_view, c63_view, ef, v2, v2', h0, ht]
    simp only [List.map_append, List.flatMap_append, hb]
    have ha : ∀ a b x c : Str, a ++ (b ++ (x ++ c)) = (a ++ b) ++ x ++ c := by intros; simp
    exact ⟨_, _, congrArg trimEnd (ha _ _ _ _), congrArg trimEnd (ha _ _ _ _)⟩

/-- Specification: the lines of the layouts of custom views. -/
def c151_layouts (cs : List CustomView) : Str := cs.flatMap fun c =>
  "@".toList ++ c.resName ++ ".xml\n".toList ++ between "\n" ((flattenIn c.layout (s% "root") 0).map (·.reconstruct)) ++ "\n".toList

theorem c151_written (k : List CustomView) :
    ((k.map fun c => (c.resName, c.layout)).map (fun e => (e.1, (⟨flattenViews e.2 none none⟩ : Layout)))).flatMap
      (fun e => "@".toList ++ e.1 ++ ".xml\n".toList ++ between "\n" (e.2.views.map (·.reconstruct)) ++ "\n".toList) = c151_layouts k := by
  induction k with
  | nil => rfl
  | cons c k ih =>
    simp only [List.map_cons, List.flatMap_cons, ih, c151_layouts]
    rfl

/-- Specification: the section of the custom views in the list of the files. -/
def c151_section (cs : List CustomView) : Str :=
  "\n@customview\n".toList ++ between "\n" ((cs.map CustomView.toFileItem).map (·.reconstruct))

theorem c151_file (f : File) (cs : List CustomView) (h : f.customViews = cs.map CustomView.toFileItem) :
    f.reconstruct = ("@activity\n".toList ++ between "\n" (f.activities.map (·.reconstruct))) ++ c151_section cs := by
  rw [c63_file, h]
  exact List.append_assoc _ _ _

/-- C151: custom views are added, removed or replaced. -/
theorem c151_custom_views (a m m' b : List CustomView) (hp : p.customViews = a ++ m ++ b)
    (hl : ((layoutsOf p).map (·.1)).Nodup) (hl' : ((layoutsOf { p with customViews := a ++ m' ++ b }).map (·.1)).Nodup)
    (hj : (p.screens.map (·.javaName)).Nodup) (h : c143_Saved p rs raw) :
    ∃ view file, c143_Saved { p with customViews := a ++ m' ++ b } rs { raw with view, file } ∧
      c151_Runs (c151_layouts m) (c151_layouts m') raw.view view ∧
      ∃ x, raw.file = x ++ c151_section (a ++ m ++ b) ∧ file = x ++ c151_section (a ++ m' ++ b) := by
  obtain ⟨q, hq, hr⟩ := h
  have hq0 := hq
  simp only [SketchwareProject.toParsed, Out.bind_eq_ok] at hq
  obtain ⟨⟨logics, layouts, fabs⟩, h1, ⟨images, imageFiles⟩, h2, ⟨sounds, soundFiles⟩, h3, ⟨fonts, fontFiles⟩, h4, h5⟩ := hq
  have hq' : ∃ q', ({ p with customViews := a ++ m' ++ b } : SketchwareProject).toParsed = .ok q' ∧
      q' = { q with view := q'.view, file := q'.file } ∧ q'.view.fabs = q.view.fabs ∧ q'.file.activities = q.file.activities ∧
      q.file.customViews = p.customViews.map CustomView.toFileItem ∧ q'.file.customViews = (a ++ m' ++ b).map CustomView.toFileItem := by
    refine ⟨{ q with view := ⟨customViewsBack (a ++ m' ++ b) layouts, fabs⟩,
                     file := { q.file with customViews := (a ++ m' ++ b).map CustomView.toFileItem } }, ?_, rfl, ?_⟩
    · cases h5
      simp only [SketchwareProject.toParsed, h1, h2, h3, h4, Out.ok_bind, Out.pure_eq]
    · cases h5
      exact ⟨rfl, rfl, rfl, rfl⟩
  clear h1 h2 h3 h4 h5
  obtain ⟨q', hq', e1, e2, e3, e4, e5⟩ := hq'
  have el : ∀ k : List CustomView, layoutsOf { p with customViews := a ++ k ++ b } = (p.screens.map (fun s => (s.layoutName, s.layout)) ++ a.map fun c => (c.resName, c.layout)) ++
      (k.map (fun c => (c.resName, c.layout)) ++ b.map fun c => (c.resName, c.layout)) := by
    intro k; simp [layoutsOf]
  have ep : p = { p with customViews := a ++ m ++ b } := by rw [← hp]
  have h0 : layoutsOf p = _ := (congrArg layoutsOf ep).trans (el m)
  obtain ⟨v1, -⟩ := toParsed_lists hq0 hl hj
  obtain ⟨v1', -⟩ := toParsed_lists hq' hl' hj
  simp only [Swrs.SketchwareProject.tryIntoRaw, Out.bind_eq_ok, Out.pure_eq, Out.ok.injEq] at hr
  obtain ⟨pr, hpr, rfl⟩ := hr
  refine ⟨q'.view.reconstruct, q'.file.reconstruct, ⟨q', hq', ?_⟩, ?_, ?_⟩
  · rw [e1]
    simp only [Swrs.SketchwareProject.tryIntoRaw, hpr, Out.ok_bind, Out.pure_eq]
  · dsimp only
    rw [c63_view, c63_view, e2, v1, v1', h0, el]
    simp only [List.map_append, List.flatMap_append]
    rw [c151_written m, c151_written m']
    have ha : ∀ a a' x b c d : Str, a ++ a' ++ (x ++ b) ++ c ++ d = (a ++ a') ++ x ++ (b ++ c ++ d) := by intros; simp
    exact ⟨_, _, congrArg trimEnd (ha _ _ _ _ _ _), congrArg trimEnd (ha _ _ _ _ _ _)⟩
  · dsimp only
    refine ⟨"@activity\n".toList ++ between "\n" (q.file.activities.map (·.reconstruct)), ?_, ?_⟩
    · exact c151_file _ _ (e4.trans (by rw [hp]))
    · rw [← e3]
      exact c151_file _ _ e5

-- the project of C150 without its floating button, and with a second custom view
example : ∃ raw text view file, c143_Saved c150_demo none raw ∧
    c151_Runs (c151_button (s% "main") (some (View.ofRaw (AndroidView.newEmpty (s% "_fab") 16 (s% "root") 0)))) [] raw.view text ∧
    c151_Runs [] (c151_layouts [⟨s% "row", []⟩]) raw.view view ∧
    ∃ x, raw.file = x ++ c151_section c150_demo.customViews ∧ file = x ++ c151_section (c150_demo.customViews ++ [⟨s% "row", []⟩]) := by
  obtain ⟨raw, h⟩ := c150_demo_saved
  have hj : (c150_demo.screens.map (·.javaName)).Nodup := by show [s% "MainActivity"].Nodup; decide
  have hl : ((layoutsOf c150_demo).map (·.1)).Nodup := by show [s% "main", s% "item"].Nodup; decide
  obtain ⟨t, -, ht⟩ := c151_button_change c150_demo none raw [] [] _ none rfl hl hj h
  obtain ⟨v, f, -, hv, x, hf, hf'⟩ := c151_custom_views c150_demo none raw c150_demo.customViews [] [⟨s% "row", []⟩] [] (by simp) hl
    (by show [s% "main", s% "item", s% "row"].Nodup; decide) hj h
  exact ⟨raw, t, v, f, h, ht, hv, x, by simpa using hf, by simpa using hf'⟩
end
end Swrs.Api
