import Verif.Props.ViewAdd
/-!
# C150: edits of custom views and of floating buttons
-/
set_option linter.unusedSectionVars false
namespace Swrs.Api
open Format
section
variable [MapPol] [Floats]
variable (p : SketchwareProject) (rs : Option (List ResourceFileWrapper)) (raw : RawSketchwareProject)

/-- What an edit of the layout of a custom view does to the saved views. -/
theorem c150_layout (a b : List CustomView) (c : CustomView) (layout : List View) (x y : Str) (hx : Tidy x) (hy : Tidy y) (hp : p.customViews = a ++ c :: b)
    (hl : ((layoutsOf p).map (·.1)).Nodup) (hj : (p.screens.map (·.javaName)).Nodup) (h : c143_Saved p rs raw)
    (hd : c143_Differ x y (between "\n" ((flattenIn c.layout (s% "root") 0).map (·.reconstruct))) (between "\n" ((flattenIn layout (s% "root") 0).map (·.reconstruct)))) :
    ∃ text, c143_Saved { p with customViews := a ++ { c with layout } :: b } rs { raw with view := text } ∧ c143_Differ x y raw.view text := by
  obtain ⟨q, hq, hr⟩ := h
  have hq0 := hq
  simp only [SketchwareProject.toParsed, Out.bind_eq_ok] at hq
  obtain ⟨⟨logics, layouts, fabs⟩, h1, ⟨images, imageFiles⟩, h2, ⟨sounds, soundFiles⟩, h3, ⟨fonts, fontFiles⟩, h4, h5⟩ := hq
  have hq' : ∃ q', ({ p with customViews := a ++ { c with layout } :: b } : SketchwareProject).toParsed = .ok q' ∧
      q' = { q with view := q'.view } ∧ q'.view.fabs = q.view.fabs := by
    refine ⟨{ q with view := ⟨customViewsBack (a ++ { c with layout } :: b) layouts, fabs⟩ }, ?_, rfl, ?_⟩
    · cases h5
      have e : (a ++ { c with layout } :: b).map CustomView.toFileItem = p.customViews.map CustomView.toFileItem := by
        rw [hp]; simp [CustomView.toFileItem]
      simp only [SketchwareProject.toParsed, h1, h2, h3, h4, Out.ok_bind, Out.pure_eq]
      rw [e]
    · cases h5
      rfl
  clear h1 h2 h3 h4 h5
  obtain ⟨q', hq', e1, e2⟩ := hq'
  have el : ∀ c0 : CustomView, layoutsOf { p with customViews := a ++ c0 :: b } = (p.screens.map (fun s => (s.layoutName, s.layout)) ++ a.map fun c => (c.resName, c.layout)) ++
      ((c0.resName, c0.layout) :: b.map fun c => (c.resName, c.layout)) := by
    intro c0; simp [layoutsOf]
  have ep : p = { p with customViews := a ++ c :: b } := by rw [← hp]
  obtain ⟨v1, -⟩ := toParsed_lists hq0 hl hj
  obtain ⟨v1', -⟩ := toParsed_lists hq' (by rw [ep, el] at hl; rw [el]; simpa using hl) hj
  simp only [Swrs.SketchwareProject.tryIntoRaw, Out.bind_eq_ok, Out.pure_eq, Out.ok.injEq] at hr
  obtain ⟨pr, hpr, rfl⟩ := hr
  refine ⟨q'.view.reconstruct, ⟨q', hq', ?_⟩, ?_⟩
  · rw [e1]
    simp only [Swrs.SketchwareProject.tryIntoRaw, hpr, Out.ok_bind, Out.pure_eq]
  · dsimp only
    rw [c63_view, c63_view, e2]
    refine c143_trimEnd hx hy (.right _ (.right _ (c143_flatMap (a := (c.resName, ⟨flattenViews c.layout none none⟩))
      (b := (c.resName, ⟨flattenViews layout none none⟩)) ?_ ?_)))
    · rw [v1, v1', el]
      rw [ep, el]
      exact c143_map (fun e : Str × List View => (e.1, (⟨flattenViews e.2 none none⟩ : Layout))) (o := [(c.resName, c.layout)]) (n := [(c.resName, layout)])
        ⟨_, _, rfl, rfl⟩
    · exact .right _ (.left _ hd)

/-- C150: an edit of a view of a custom view, at any depth, that keeps its id, its type and its children. -/
theorem c150_edit (a b : List CustomView) (c : CustomView) (v v' : View) (pid : Str) (pt : UInt8) (layout : List View) (hp : p.customViews = a ++ c :: b)
    (hl : ((layoutsOf p).map (·.1)).Nodup) (hj : (p.screens.map (·.javaName)).Nodup) (h : c143_Saved p rs raw)
    (he : c143_At v v' pid pt (s% "root") 0 c.layout layout) (hid : v'.id = v.id) (ht : v'.typeId = v.typeId) (hc : v'.children = v.children) :
    ∃ text, c143_Saved { p with customViews := a ++ { c with layout } :: b } rs { raw with view := text } ∧
      c143_Differ (v.flat pid pt).reconstruct (v'.flat pid pt).reconstruct raw.view text :=
  c150_layout p rs raw a b c layout _ _ (tidy_view _) (tidy_view _) hp hl hj h (c143_between (c143_map AndroidView.reconstruct (c143_flatten hid ht hc he)))

/-- C150: a view without children that is added to a custom view that is not empty, at any depth. -/
theorem c150_add (a b : List CustomView) (c : CustomView) (v : View) (pid : Str) (pt : UInt8) (layout : List View) (hp : p.customViews = a ++ c :: b)
    (hl : ((layoutsOf p).map (·.1)).Nodup) (hj : (p.screens.map (·.javaName)).Nodup) (h : c143_Saved p rs raw)
    (he : c149_At v pid pt (s% "root") 0 c.layout layout) (hc : v.children = []) (hne : c.layout ≠ []) :
    ∃ text, c143_Saved { p with customViews := a ++ { c with layout } :: b } rs { raw with view := text } ∧
      c149_Line (v.flat pid pt).reconstruct raw.view text := by
  obtain ⟨o, n, h1, h2, h3, h4⟩ := c149_piece (c149_nonempty _ _ hne) (c149_flatten hc he)
  obtain ⟨text, h5, h6⟩ := c150_layout p rs raw a b c layout o n h1 h2 hp hl hj h h3
  exact ⟨text, h5, h4 _ _ h6⟩

/-- C150: a view without children that is removed from a custom view and is not its only one. -/
theorem c150_remove (a b : List CustomView) (c : CustomView) (v : View) (pid : Str) (pt : UInt8) (layout : List View) (hp : p.customViews = a ++ c :: b)
    (hl : ((layoutsOf p).map (·.1)).Nodup) (hj : (p.screens.map (·.javaName)).Nodup) (h : c143_Saved p rs raw)
    (he : c149_At v pid pt (s% "root") 0 layout c.layout) (hc : v.children = []) (hne : layout ≠ []) :
    ∃ text, c143_Saved { p with customViews := a ++ { c with layout } :: b } rs { raw with view := text } ∧
      c149_Line (v.flat pid pt).reconstruct text raw.view := by
  obtain ⟨o, n, h1, h2, h3, h4⟩ := c149_piece (c149_nonempty _ _ hne) (c149_flatten hc he)
  obtain ⟨text, h5, h6⟩ := c150_layout p rs raw a b c layout n o h2 h1 hp hl hj h (c149_swap h3)
  exact ⟨text, h5, h4 _ _ (c149_swap h6)⟩

/-- C150: an edit of the floating button of a screen. -/
theorem c150_fab (before after : List Screen) (s : Screen) (v v' : View) (hp : p.screens = before ++ s :: after)
    (hl : ((layoutsOf p).map (·.1)).Nodup) (hj : (p.screens.map (·.javaName)).Nodup) (h : c143_Saved p rs raw) (hs0 : s.fab = some v) :
    ∃ text, c143_Saved { p with screens := before ++ { s with fab := some v' } :: after } rs { raw with view := text } ∧
      c143_Differ (fabBack v).reconstruct (fabBack v').reconstruct raw.view text := by
  obtain ⟨q, hq, hr⟩ := h
  obtain ⟨q', hq', hlog, hfile⟩ := c91_layout_edit p before after s s.layout (some v') q hp hq
  obtain ⟨lg, ls, fs, i1, s1, f1, hb, hi, hs, hfo, h1, h2, h3, h4, h5, h6⟩ := toParsed_ok hq
  obtain ⟨lg', ls', fs', i1', s1', f1', hb', hi', hs', hfo', h1', h2', h3', h4', h5', h6'⟩ := toParsed_ok hq'
  dsimp only at hi' hs' hfo' h1' h2' h3'
  rw [hi] at hi'
  rw [hs] at hs'
  rw [hfo] at hfo'
  have e1 : q'.resource = q.resource := by
    obtain ⟨qp, qf, ql, ⟨r1, r2, r3⟩, qv, qlo, qrf⟩ := q
    obtain ⟨qp', qf', ql', ⟨r1', r2', r3'⟩, qv', qlo', qrf'⟩ := q'
    dsimp only at hi' hs' hfo' ⊢
    cases hi'
    cases hs'
    cases hfo'
    rfl
  have el : ∀ (s0 : Screen), layoutsOf { p with screens := before ++ s0 :: after } = before.map (fun s => (s.layoutName, s.layout)) ++
      ((s0.layoutName, s0.layout) :: (after.map (fun s => (s.layoutName, s.layout)) ++ p.customViews.map fun c => (c.resName, c.layout))) := by
    intro s0; simp [layoutsOf]
  have ep : p = { p with screens := before ++ s :: after } := by rw [← hp]
  obtain ⟨v1, v2, -⟩ := toParsed_lists hq hl hj
  obtain ⟨v1', v2', -⟩ := toParsed_lists hq' (by rw [ep, el] at hl; rw [el]; simpa using hl) (by rw [hp] at hj; simpa using hj)
  simp only [Swrs.SketchwareProject.tryIntoRaw, Out.bind_eq_ok, Out.pure_eq, Out.ok.injEq] at hr
  obtain ⟨pr, hpr, rfl⟩ := hr
  refine ⟨q'.view.reconstruct, ⟨q', hq', ?_⟩, ?_⟩
  · rw [h1, ← h1'] at hpr
    simp only [Swrs.SketchwareProject.tryIntoRaw, hpr, Out.ok_bind, Out.pure_eq, hlog, hfile, e1, h3, h3']
  · dsimp only
    have ef : q'.view.layouts = q.view.layouts := by
      rw [v1, v1', el]
      rw [ep, el]
    have hf : c143_Differ [(s.layoutName, fabBack v)] [(s.layoutName, fabBack v')] q.view.fabs q'.view.fabs := by
      rw [v2, v2', fabsOf, fabsOf, hp]
      refine ⟨(before.filterMap fun s => s.fab.map fun v => (s.layoutName, v)).map (fun e => (e.1, fabBack e.2)),
        (after.filterMap fun s => s.fab.map fun v => (s.layoutName, v)).map (fun e => (e.1, fabBack e.2)), ?_, ?_⟩
      · simp [List.filterMap_append, hs0]
      · simp [List.filterMap_append]
    rw [c63_view, c63_view, ef]
    exact c143_trimEnd (tidy_view _) (tidy_view _) (.left _ (c143_flatMap hf (.right _ (.left _ .here))))

/-- A project with a floating button and a custom view that has a layout with a button. -/
def c150_demo : SketchwareProject :=
  { screensApi bareLibs [{ plainScreen [] [] none with fab := some (View.ofRaw (AndroidView.newEmpty (s% "_fab") 16 (s% "root") 0)) }] true with
    customViews := [⟨s% "item", [{ View.ofRaw (AndroidView.newEmpty (s% "linear1") 0 (s% "root") 0) with
      children := [View.ofRaw (AndroidView.newEmpty (s% "button1") 3 (s% "linear1") 0)] }]⟩] }

theorem c150_demo_saved : ∃ raw, c143_Saved c150_demo none raw := by
  have h : ∃ q, c150_demo.toParsed = .ok q := ⟨_, rfl⟩
  obtain ⟨q, hq⟩ := h
  obtain ⟨_, _, _, _, _, _, -, -, -, -, h1, -⟩ := toParsed_ok hq
  have h2 := c62_project q.project (t := ⟨1970, 1, 1, 0, 0, 0⟩) (by rw [h1]; show Date.fromTimestamp (0 : UInt64).toInt64.toInt = _; decide +kernel)
  exact ⟨_, q, hq, by unfold Swrs.SketchwareProject.tryIntoRaw; rw [h2]; rfl⟩

-- the button of the custom view becomes red, another one is added beside it, and it is removed; the floating button becomes red
example : ∃ raw text text' text'' text₄, c143_Saved c150_demo none raw ∧
    c143_Differ ((View.ofRaw (AndroidView.newEmpty (s% "button1") 3 (s% "linear1") 0)).flat (s% "linear1") 0).reconstruct
      (View.flat { View.ofRaw (AndroidView.newEmpty (s% "button1") 3 (s% "linear1") 0) with backgroundColor := Color.fromRgb 255 0 0 } (s% "linear1") 0).reconstruct
      raw.view text ∧
    c149_Line ((View.ofRaw (AndroidView.newEmpty (s% "button2") 3 (s% "linear1") 0)).flat (s% "linear1") 0).reconstruct raw.view text' ∧
    c149_Line ((View.ofRaw (AndroidView.newEmpty (s% "button1") 3 (s% "linear1") 0)).flat (s% "linear1") 0).reconstruct text'' raw.view ∧
    c143_Differ (fabBack (View.ofRaw (AndroidView.newEmpty (s% "_fab") 16 (s% "root") 0))).reconstruct
      (fabBack { View.ofRaw (AndroidView.newEmpty (s% "_fab") 16 (s% "root") 0) with backgroundColor := Color.fromRgb 255 0 0 }).reconstruct raw.view text₄ := by
  obtain ⟨raw, h⟩ := c150_demo_saved
  have hj : (c150_demo.screens.map (·.javaName)).Nodup := by show [s% "MainActivity"].Nodup; decide
  have hl : ((layoutsOf c150_demo).map (·.1)).Nodup := by show [s% "main", s% "item"].Nodup; decide
  obtain ⟨t, -, ht⟩ := c150_edit c150_demo none raw [] [] _ (View.ofRaw (AndroidView.newEmpty (s% "button1") 3 (s% "linear1") 0))
    { View.ofRaw (AndroidView.newEmpty (s% "button1") 3 (s% "linear1") 0) with backgroundColor := Color.fromRgb 255 0 0 } (s% "linear1") 0 _ rfl hl hj h
    (.inside [] [] _ _ _ _ (.here [] [])) rfl rfl rfl
  obtain ⟨t', -, ht'⟩ := c150_add c150_demo none raw [] [] _ (View.ofRaw (AndroidView.newEmpty (s% "button2") 3 (s% "linear1") 0)) (s% "linear1") 0 _
    rfl hl hj h (.inside [] [] _ _ _ _ (.here [View.ofRaw (AndroidView.newEmpty (s% "button1") 3 (s% "linear1") 0)] [])) rfl (by simp)
  obtain ⟨t'', -, ht''⟩ := c150_remove c150_demo none raw [] [] _ (View.ofRaw (AndroidView.newEmpty (s% "button1") 3 (s% "linear1") 0)) (s% "linear1") 0
    [View.ofRaw (AndroidView.newEmpty (s% "linear1") 0 (s% "root") 0)]
    rfl hl hj h (.inside [] [] _ _ _ _ (.here [] [])) rfl (by simp)
  obtain ⟨t₄, -, ht₄⟩ := c150_fab c150_demo none raw [] [] _ (View.ofRaw (AndroidView.newEmpty (s% "_fab") 16 (s% "root") 0))
    { View.ofRaw (AndroidView.newEmpty (s% "_fab") 16 (s% "root") 0) with backgroundColor := Color.fromRgb 255 0 0 } rfl hl hj h rfl
  exact ⟨raw, t, t', t'', t₄, h, ht, ht', ht'', ht₄⟩
end
end Swrs.Api
