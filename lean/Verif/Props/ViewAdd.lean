import Verif.Props.ResourceRuns
/-!
# C149: a view that is added to a layout or removed from it, at any depth, adds or removes one line
-/
set_option linter.unusedSectionVars false
namespace Swrs.Api
open Format
section
variable [MapPol] [Floats]

/-- Specification: two lists of views, with this parent and its type, are the same except that the second has one view more, at any depth; its parent has the
id `pid` and the type `pt`. -/
inductive c149_At (v : View) (pid : Str) (pt : UInt8) : Str → UInt8 → List View → List View → Prop
  | here (a b : List View) : c149_At v pid pt pid pt (a ++ b) (a ++ v :: b)
  | inside (a b : List View) (x : View) (cs : List View) (i : Str) (t : UInt8) (h : c149_At v pid pt x.id x.typeId x.children cs) :
      c149_At v pid pt i t (a ++ x :: b) (a ++ { x with children := cs } :: b)

/-- Specification: the second text has one line more: the line, with the end of the line before or after it. -/
def c149_Line (x small large : Str) : Prop := c143_Differ [] ('\n' :: x) small large ∨ c143_Differ [] (x ++ ['\n']) small large

/-! ### Proof -/

theorem c149_belowApp (a b : List View) : flattenBelow (a ++ b) = flattenBelow a ++ flattenBelow b := by
  induction a with
  | nil => simp [flattenBelow]
  | cons y a ih => simp only [List.cons_append, flattenBelow, ih, List.append_assoc]

theorem c149_flatten {v : View} {pid : Str} {pt : UInt8} (hc : v.children = []) {i : Str} {t : UInt8} {vs vs' : List View} (h : c149_At v pid pt i t vs vs') :
    c143_Differ [] [v.flat pid pt] (flattenIn vs i t) (flattenIn vs' i t) := by
  induction h with
  | here a b =>
    unfold flattenIn
    rw [c143_below, c149_belowApp, hc]
    have e : flattenIn [] v.id v.typeId = [] := by simp [flattenIn, flattenBelow]
    rw [e, List.nil_append]
    exact .right _ ⟨a.map fun v => v.flat pid pt, b.map fun v => v.flat pid pt, by simp, by simp⟩
  | inside a b x cs i t h ih =>
    have e1 : flattenIn (a ++ x :: b) i t = (a ++ x :: b).map (fun v => v.flat i t) ++ (flattenBelow a ++ (flattenIn x.children x.id x.typeId ++ flattenBelow b)) := by
      rw [← c143_below]; rfl
    have e2 : flattenIn (a ++ { x with children := cs } :: b) i t =
        (a ++ x :: b).map (fun v => v.flat i t) ++ (flattenBelow a ++ (flattenIn cs x.id x.typeId ++ flattenBelow b)) := by
      unfold flattenIn
      rw [c143_below]
      simp only [List.map_append, List.map_cons]
      rfl
    rw [e1, e2]
    exact .left _ (.left _ (.right _ ih))

/-- Beside a line there is another one. -/
theorem c149_beside {α : Type} {x : α} {l l' : List α} (hl : l ≠ []) (h : c143_Differ [] [x] l l') :
    ∃ y ∈ l, c143_Differ [y] [y, x] l l' ∨ c143_Differ [y] [x, y] l l' := by
  obtain ⟨a, b, rfl, rfl⟩ := h
  cases b with
  | cons y b => exact ⟨y, by simp, .inr ⟨a, b, by simp, by simp⟩⟩
  | nil =>
    rcases List.eq_nil_or_concat a with rfl | ⟨a, y, rfl⟩
    · exact absurd rfl hl
    · exact ⟨y, by simp, .inl ⟨a, [], by simp, by simp⟩⟩

theorem c149_swap {α : Type} {o n s s' : List α} (h : c143_Differ o n s s') : c143_Differ n o s' s := by
  obtain ⟨a, b, h1, h2⟩ := h
  exact ⟨a, b, h2, h1⟩

/-- The piece of the text of a layout that is another. -/
theorem c149_piece {x : AndroidView} {l l' : List AndroidView} (hl : l ≠ []) (h : c143_Differ [] [x] l l') :
    ∃ o n, Tidy o ∧ Tidy n ∧ c143_Differ o n (between "\n" (l.map (·.reconstruct))) (between "\n" (l'.map (·.reconstruct))) ∧
      ∀ s s', c143_Differ o n s s' → c149_Line x.reconstruct s s' := by
  obtain ⟨y, -, h⟩ := c149_beside hl h
  have t : ∀ z : List AndroidView, ∀ x ∈ z.map (·.reconstruct), Tidy x := by
    intro z x hx
    obtain ⟨v, hv, rfl⟩ := List.mem_map.mp hx
    exact tidy_view _
  rcases h with h | h
  · refine ⟨_, _, tidy_between (by simp) (t [y]), tidy_between (by simp) (t [y, x]), c148_between (by simp) (by simp) (c143_map (·.reconstruct) h), ?_⟩
    intro s s' hs
    exact .inl (hs.trans ⟨y.reconstruct, [], by simp [between], by simp [between]⟩)
  · refine ⟨_, _, tidy_between (by simp) (t [y]), tidy_between (by simp) (t [x, y]), c148_between (by simp) (by simp) (c143_map (·.reconstruct) h), ?_⟩
    intro s s' hs
    exact .inr (hs.trans ⟨[], y.reconstruct, by simp [between], by simp [between]⟩)

theorem c149_nonempty {vs : List View} (i : Str) (t : UInt8) (h : vs ≠ []) : flattenIn vs i t ≠ [] := by
  unfold flattenIn
  simp [h]

variable (p : SketchwareProject) (before after : List Screen) (s : Screen) (rs : Option (List ResourceFileWrapper)) (raw : RawSketchwareProject)
  (v : View) (pid : Str) (pt : UInt8) (layout : List View)

/-- C149: a view without children that is added to the layout of a screen, at any depth; the layout is not empty. -/
theorem c149_add (hp : p.screens = before ++ s :: after) (hl : ((layoutsOf p).map (·.1)).Nodup) (hj : (p.screens.map (·.javaName)).Nodup) (h : c143_Saved p rs raw)
    (he : c149_At v pid pt (s% "root") 0 s.layout layout) (hc : v.children = []) (hne : s.layout ≠ []) :
    ∃ text, c143_Saved { p with screens := before ++ { s with layout } :: after } rs { raw with view := text } ∧
      c149_Line (v.flat pid pt).reconstruct raw.view text := by
  obtain ⟨o, n, h1, h2, h3, h4⟩ := c149_piece (c149_nonempty _ _ hne) (c149_flatten hc he)
  obtain ⟨text, h5, h6⟩ := c143_layout p before after s rs raw layout o n h1 h2 hp hl hj h h3
  exact ⟨text, h5, h4 _ _ h6⟩

/-- C149: a view without children that is removed from the layout of a screen, at any depth; it is not the only one. -/
theorem c149_remove (hp : p.screens = before ++ s :: after) (hl : ((layoutsOf p).map (·.1)).Nodup) (hj : (p.screens.map (·.javaName)).Nodup) (h : c143_Saved p rs raw)
    (he : c149_At v pid pt (s% "root") 0 layout s.layout) (hc : v.children = []) (hne : layout ≠ []) :
    ∃ text, c143_Saved { p with screens := before ++ { s with layout } :: after } rs { raw with view := text } ∧
      c149_Line (v.flat pid pt).reconstruct text raw.view := by
  obtain ⟨o, n, h1, h2, h3, h4⟩ := c149_piece (c149_nonempty _ _ hne) (c149_flatten hc he)
  obtain ⟨text, h5, h6⟩ := c143_layout p before after s rs raw layout n o h2 h1 hp hl hj h (c149_swap h3)
  exact ⟨text, h5, h4 _ _ (c149_swap h6)⟩

-- a button is added beside the button of the layout, and this one is removed
example : ∃ raw text text', c143_Saved c143_demo none raw ∧
    c149_Line ((View.ofRaw (AndroidView.newEmpty (s% "button2") 3 (s% "linear1") 0)).flat (s% "linear1") 0).reconstruct raw.view text ∧
    c149_Line ((View.ofRaw (AndroidView.newEmpty (s% "button1") 3 (s% "linear1") 0)).flat (s% "linear1") 0).reconstruct text' raw.view := by
  obtain ⟨raw, h⟩ := c143_demo_saved
  have hj : (c143_demo.screens.map (·.javaName)).Nodup := by show [s% "MainActivity", s% "SecondActivity"].Nodup; decide
  have hl : ((layoutsOf c143_demo).map (·.1)).Nodup := by show [s% "main", s% "second"].Nodup; decide
  obtain ⟨t, -, ht⟩ := c149_add c143_demo [] [_] c143_main none raw (View.ofRaw (AndroidView.newEmpty (s% "button2") 3 (s% "linear1") 0)) (s% "linear1") 0 _
    rfl hl hj h (.inside [] [] _ _ _ _ (.here [View.ofRaw (AndroidView.newEmpty (s% "button1") 3 (s% "linear1") 0)] [])) rfl (by simp [c143_main])
  obtain ⟨t', -, ht'⟩ := c149_remove c143_demo [] [_] c143_main none raw (View.ofRaw (AndroidView.newEmpty (s% "button1") 3 (s% "linear1") 0)) (s% "linear1") 0
    [View.ofRaw (AndroidView.newEmpty (s% "linear1") 0 (s% "root") 0)]
    rfl hl hj h (.inside [] [] _ _ _ _ (.here [] [])) rfl (by simp)
  exact ⟨raw, t, t', h, ht, ht'⟩
end
end Swrs.Api
