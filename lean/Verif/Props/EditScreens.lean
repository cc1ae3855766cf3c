import Verif.Props.EditMore
/-!
# C102: screens and custom views that are removed or added
-/
set_option linter.unusedSectionVars false
namespace Swrs.Api
section
variable [MapPol] [FloatLaws]

/-! ## C102 — An edit is still there after saving and opening -/

omit [MapPol] [FloatLaws] in
theorem sublist_dropLast {α : Type} {l l' : List α} (h : List.Sublist l' l) : List.Sublist l'.dropLast l.dropLast := by
  have h1 := h.reverse.tail.reverse
  simpa using h1

/-- The layouts of some screens and custom views, in the order in which they are written. -/
def c102_layouts (screens : List Screen) (customViews : List CustomView) : List (List View) :=
  screens.map (·.layout) ++ customViews.map (·.layout)

theorem c102_layouts_of (p : SketchwareProject) : c102_layouts p.screens p.customViews = (layoutsOf p).map (·.2) := by
  rw [layoutsOf, List.map_append, List.map_map, List.map_map]; rfl

theorem c102_only_last (p : SketchwareProject) :
    (∀ l ∈ (c102_layouts p.screens p.customViews).dropLast, l = []) ↔ ∀ e ∈ (layoutsOf p).dropLast, e.2 = [] := by
  rw [c102_layouts_of, ← List.map_dropLast]
  simp only [List.mem_map, forall_exists_index, and_imp, forall_apply_eq_imp_iff₂]

theorem c102_with_fab (p : SketchwareProject) :
    ((∃ s ∈ p.screens, s.fab ≠ none) → ∃ l, (c102_layouts p.screens p.customViews).getLast? = some l ∧ l ≠ []) ↔
      (fabsOf p ≠ [] → ∃ e, (layoutsOf p).getLast? = some e ∧ e.2 ≠ []) := by
  have hf : (∃ s ∈ p.screens, s.fab ≠ none) ↔ fabsOf p ≠ [] := by
    have hF0 : fabsOf p = [] ↔ ∀ x ∈ p.screens, x.fab = none := by simp [fabsOf]
    rw [Ne, hF0]
    constructor
    · rintro ⟨s, hs, h⟩ h'
      exact h (h' s hs)
    · intro h
      refine Classical.byContradiction fun h' => h fun x hx => Classical.byContradiction fun hne => h' ⟨x, hx, hne⟩
  rw [hf, c102_layouts_of, List.getLast?_map]
  refine imp_congr_right fun _ => ?_
  constructor
  · rintro ⟨l, h1, h2⟩
    obtain ⟨e, he, rfl⟩ := Option.map_eq_some_iff.mp h1
    exact ⟨e, he, h2⟩
  · rintro ⟨e, he, h⟩
    exact ⟨e.2, by rw [he]; rfl, h⟩

/-- C102: when screens and custom views are removed, the rest is kept exactly if a screen is left or no custom view is, and the layout that
is now the last one has views if a FAB is left. -/
theorem c102_removed {p : SketchwareProject} {t : Date.DateTime} (hg : c102_Good p t) (screens : List Screen)
    (customViews : List CustomView) (hs : List.Sublist screens p.screens) (hc : List.Sublist customViews p.customViews) :
    let p' : SketchwareProject := { p with screens, customViews }
    let ok := (screens ≠ [] ∨ customViews = []) ∧
      ((∃ s ∈ screens, s.fab ≠ none) → ∃ l, (c102_layouts screens customViews).getLast? = some l ∧ l ≠ [])
    (ok → c102_Good p' t ∧ ∀ ex rnd, c102_Kept ex rnd p') ∧ (¬ ok → ∀ ex, c102_Lost ex p') := by
  intro p' ok
  have hL : List.Sublist (layoutsOf p') (layoutsOf p) := (hs.map _).append (hc.map _)
  have hF : List.Sublist (fabsOf p') (fabsOf p) := hs.filterMap _
  have surv : p'.Survives := by
    obtain ⟨⟨a1, a2⟩, a3, a4, a5, a6, a7⟩ := hg.survives
    exact ⟨⟨fun s h => a1 s (hs.subset h), a2.sublist (hs.map _)⟩, fun s h => a3 s (hs.subset h), fun c h => a4 c (hc.subset h),
      a5.sublist (hc.map _), fun c h s h' => a6 c (hc.subset h) s (hs.subset h'), a7⟩
  have dist : c92_Distinct p' := by
    obtain ⟨a1, a2, a3, a4⟩ := hg.distinct
    exact ⟨a1.sublist (hL.map _), a2.sublist (hs.map _), fun s h => a3 s (hs.subset h), fun s h => a4 s (hs.subset h)⟩
  obtain ⟨a1, a2, a3, a4, a5, a6, a7, a8, a9⟩ := hg.saved
  have hok : ok ↔ c92_Saved p' t := by
    constructor
    · rintro ⟨h1, h2⟩
      exact ⟨a1, h1, fun e he => a3 e (hL.subset he), fun e he => a4 e ((sublist_dropLast hL).subset he), (c102_with_fab p').mp h2,
        fun e he => a6 e (hL.subset he), fun e he => a7 e (hF.subset he), fun s h => a8 s (hs.subset h),
        (c102_order _).mpr (((c102_order _).mp a9).sublist hs)⟩
    · intro h
      exact ⟨h.file, (c102_with_fab p').mpr h.fabs⟩
  have hgood : ok → c102_Good p' t := fun h =>
    ⟨surv, hg.ids, hg.images, hg.sounds, hg.fonts, dist, hg.valid, hg.date, hok.mp h⟩
  exact ⟨fun h => ⟨hgood h, c102_kept (hgood h)⟩, fun h => c102_lost surv hg.ids dist hg.valid hg.date (mt hok.mpr h)⟩

/-- C102: a screen that is added after the others, with new names, a Java name that belongs to its layout name, distinct names inside and
parts that are read back (as in C61), is kept exactly if its layout name has no dot and no line break, its logic can be told apart, its code
does not come after a screen without code, its records are read back, only the last layout has views, and there is a FAB only if the last
layout has views. -/
theorem c102_screen_added {p : SketchwareProject} {t : Date.DateTime} (hg : c102_Good p t) (s : Screen)
    (hj : s.javaName = viewNameToLogic s.layoutName)
    (hnew : s.javaName ∉ p.screens.map (·.javaName) ∧ s.layoutName ∉ p.customViews.map (·.resName))
    (hm : s.variables.keys.Nodup ∧ s.listVariables.keys.Nodup ∧ s.moreBlocks.keys.Nodup ∧ s.components.keys.Nodup)
    (hsv : s.Survives) (hcode : ((codeOfScreen s).map (·.1)).Nodup) :
    let p' : SketchwareProject := { p with screens := p.screens ++ [s] }
    let layouts := c102_layouts (p.screens ++ [s]) p.customViews
    let ok := ('.' ∉ s.layoutName ∧ '\n' ∉ s.layoutName) ∧ c92_ScreenSaved s ∧
      (codeOfScreen s ≠ [] → ∀ x ∈ p.screens, codeOfScreen x ≠ []) ∧
      (∀ w ∈ flattenViews s.layout none none, AndroidView.parse w.reconstruct = some w) ∧
      (∀ v, s.fab = some v → AndroidView.parse (fabBack v).reconstruct = some (fabBack v)) ∧
      (∀ l ∈ layouts.dropLast, l = []) ∧
      ((∃ x ∈ p.screens ++ [s], x.fab ≠ none) → ∃ l, layouts.getLast? = some l ∧ l ≠ [])
    (ok → c102_Good p' t ∧ ∀ ex rnd, c102_Kept ex rnd p') ∧ (¬ ok → ∀ ex, c102_Lost ex p') := by
  intro p' layouts ok
  have hmem : ∀ x ∈ p'.screens, x = s ∨ x ∈ p.screens := fun x hx => by
    rcases List.mem_append.mp hx with h | h
    · exact .inr h
    · exact .inl (List.mem_singleton.mp h)
  have hlay : s.layoutName ∉ p.screens.map (·.layoutName) := by
    intro h
    obtain ⟨x, hx, hxs⟩ := List.mem_map.mp h
    exact hnew.1 (List.mem_map.mpr ⟨x, hx, by rw [hg.survives.names.java x hx, hj]; exact congrArg viewNameToLogic hxs⟩)
  have hjava : (p'.screens.map (·.javaName)).Nodup := by
    show ((p.screens ++ [s]).map (·.javaName)).Nodup
    rw [List.map_append, List.nodup_append]
    refine ⟨hg.distinct.logics, by simp, fun a ha b hb hab => ?_⟩
    simp only [List.map_cons, List.map_nil, List.mem_singleton] at hb
    exact hnew.1 (hb ▸ hab ▸ ha)
  have hLm : ∀ e ∈ layoutsOf p', e = (s.layoutName, s.layout) ∨ e ∈ layoutsOf p := by
    intro e he
    simp only [layoutsOf, p', List.map_append, List.map_cons, List.map_nil, List.append_assoc, List.mem_append, List.mem_singleton] at he ⊢
    rcases he with h | h | h
    · exact .inr (.inl h)
    · exact .inl h
    · exact .inr (.inr h)
  have hLs : (s.layoutName, s.layout) ∈ layoutsOf p' := by simp [layoutsOf, p']
  have surv : p'.Survives := by
    obtain ⟨⟨a1, a2⟩, a3, a4, a5, a6, a7⟩ := hg.survives
    refine ⟨⟨?_, hjava⟩, ?_, a4, a5, ?_, a7⟩
    · intro x hx
      rcases hmem x hx with rfl | hx
      · exact hj
      · exact a1 x hx
    · intro x hx
      rcases hmem x hx with rfl | hx
      · exact ⟨hm.2.2.1, hm.2.2.2, hsv⟩
      · exact a3 x hx
    · intro c hc x hx
      rcases hmem x hx with rfl | hx
      · exact fun h => hnew.2 (List.mem_map.mpr ⟨c, hc, h⟩)
      · exact a6 c hc x hx
  have dist : c92_Distinct p' := by
    obtain ⟨a1, a2, a3, a4⟩ := hg.distinct
    refine ⟨?_, hjava, ?_, ?_⟩
    · have hN : ∀ q : SketchwareProject, (layoutsOf q).map (·.1) = q.screens.map (·.layoutName) ++ q.customViews.map (·.resName) := by
        intro q
        rw [layoutsOf, List.map_append, List.map_map, List.map_map]; rfl
      rw [hN] at a1 ⊢
      show ((p.screens ++ [s]).map (·.layoutName) ++ p.customViews.map (·.resName)).Nodup
      rw [List.map_append, List.append_assoc]
      refine (List.perm_middle (l₁ := p.screens.map (·.layoutName)) (a := s.layoutName)).nodup_iff.mpr (List.nodup_cons.mpr ⟨?_, a1⟩)
      rw [List.mem_append, not_or]
      exact ⟨hlay, hnew.2⟩
    · intro x hx
      rcases hmem x hx with rfl | hx
      · exact ⟨hm.1, hm.2.1, hm.2.2.1⟩
      · exact a3 x hx
    · intro x hx
      rcases hmem x hx with rfl | hx
      · exact hcode
      · exact a4 x hx
  have hFm : ∀ v, s.fab = some v → (s.layoutName, v) ∈ fabsOf p' := fun v hv =>
    List.mem_filterMap.mpr ⟨s, by simp [p'], by rw [hv]; rfl⟩
  have hFo : ∀ e ∈ fabsOf p', (∃ v, s.fab = some v ∧ e = (s.layoutName, v)) ∨ e ∈ fabsOf p := by
    intro e he
    obtain ⟨x, hx, h⟩ := List.mem_filterMap.mp he
    rcases hmem x hx with rfl | hx
    · obtain ⟨v, hv, rfl⟩ := Option.map_eq_some_iff.mp h
      exact .inl ⟨v, hv, rfl⟩
    · exact .inr (List.mem_filterMap.mpr ⟨x, hx, h⟩)
  obtain ⟨a1, a2, a3, a4, a5, a6, a7, a8, a9⟩ := hg.saved
  have hok : ok ↔ c92_Saved p' t := by
    constructor
    · rintro ⟨h1, h2, h3, h4, h5, h6, h7⟩
      refine ⟨a1, .inl (by simp [p']), ?_, (c102_only_last p').mp h6, (c102_with_fab p').mp h7, ?_, ?_, ?_, ?_⟩
      · intro e he
        rcases hLm e he with rfl | he
        · exact h1
        · exact a3 e he
      · intro e he
        rcases hLm e he with rfl | he
        · exact h4
        · exact a6 e he
      · intro e he
        rcases hFo e he with ⟨v, hv, rfl⟩ | he
        · exact h5 v hv
        · exact a7 e he
      · intro x hx
        rcases hmem x hx with rfl | hx
        · exact h2
        · exact a8 x hx
      · refine (c102_order _).mpr (List.pairwise_append.mpr ⟨(c102_order _).mp a9, by simp, ?_⟩)
        intro x hx u hu hxe
        rw [List.mem_singleton.mp hu]
        exact Classical.byContradiction fun hne => h3 hne x hx hxe
    · intro h
      obtain ⟨b1, b2, b3, b4, b5, b6, b7, b8, b9⟩ := h
      have h9 : (p.screens ++ [s]).Pairwise fun x u => codeOfScreen x = [] → codeOfScreen u = [] := (c102_order _).mp b9
      refine ⟨b3 (s.layoutName, s.layout) hLs, b8 s (by simp [p']), ?_, b6 (s.layoutName, s.layout) hLs,
        fun v hv => b7 (s.layoutName, v) (hFm v hv), (c102_only_last p').mpr b4, (c102_with_fab p').mpr b5⟩
      intro hne x hx hxe
      exact hne ((List.pairwise_append.mp h9).2.2 x hx s (List.mem_singleton_self s) hxe)
  have hgood : ok → c102_Good p' t := fun h =>
    ⟨surv, hg.ids, hg.images, hg.sounds, hg.fonts, dist, hg.valid, hg.date, hok.mp h⟩
  exact ⟨fun h => ⟨hgood h, c102_kept (hgood h)⟩, fun h => c102_lost surv hg.ids dist hg.valid hg.date (mt hok.mpr h)⟩

/-- What `c102_removed` asks for is met: the second screen can be removed from a project with two screens and a custom view. -/
example (ex : PathBuf → Bool) (rnd : ResourceType → Nat → UInt32) :
    c102_Kept ex rnd { c92_project [] [] [c92_button] with screens := [{ survivingScreen with layout := [] }] } :=
  ((c102_removed c102_project [{ survivingScreen with layout := [] }] (c92_project [] [] [c92_button]).customViews
    (List.sublist_append_left _ [c102_second]) (List.Sublist.refl _)).1
    ⟨.inl (by simp), fun _ => ⟨[c92_button], rfl, by simp⟩⟩).2 ex rnd

/-- Neither is the other case empty: without its screens, the custom view of the project is lost. -/
example (ex : PathBuf → Bool) : c102_Lost ex { c92_project [] [] [c92_button] with screens := [] } :=
  (c102_removed c102_project [] (c92_project [] [] [c92_button]).customViews (List.nil_sublist _) (List.Sublist.refl _)).2
    (by
      rintro ⟨h | h, -⟩
      · exact h rfl
      · cases h) ex

/-- A third screen with a list. -/
def c102_third (layout : List View) : Screen :=
  { namedScreen (s% "ThirdActivity") [] with layoutName := s% "third", listVariables := [(s% "l", ⟨s% "l", .string⟩)], layout }

theorem c102_third_survives {layout : List View} (h : layout = [] ∨ layout = [c92_button]) : (c102_third layout).Survives := by
  refine ⟨?_, ?_, ?_, .inr ?_, ?_, ?_, ?_, ?_⟩
  · rcases h with rfl | rfl
    · rfl
    · exact c92_button_read
  all_goals simp [c102_third, namedScreen, plainScreen]

/-- What `c102_screen_added` asks for is met: an empty third screen is kept, and one with a button is not, since a custom view comes after
it. -/
example (ex : PathBuf → Bool) (rnd : ResourceType → Nat → UInt32) :
    c102_Kept ex rnd { c92_project [] [] [c92_button] with
      screens := (c92_project [] [] [c92_button]).screens ++ [c102_third []] } ∧
    c102_Lost ex { c92_project [] [] [c92_button] with
      screens := (c92_project [] [] [c92_button]).screens ++ [c102_third [c92_button]] } := by
  have hn : s% "ThirdActivity" ∉ [s% "MainActivity", s% "DebugScreenActivity"] ∧ s% "third" ∉ [s% "item"] := by decide
  have hm : ((c102_third []).variables.keys.Nodup ∧ (c102_third []).listVariables.keys.Nodup ∧ (c102_third []).moreBlocks.keys.Nodup ∧
      (c102_third []).components.keys.Nodup) := by
    simp [c102_third, namedScreen, plainScreen, LMap.keys]
  constructor
  · refine ((c102_screen_added c102_project (c102_third []) rfl hn hm (c102_third_survives (.inl rfl)) List.nodup_nil).1
      ⟨by show '.' ∉ s% "third" ∧ '\n' ∉ s% "third"; decide, ?_, fun h => absurd rfl h, ?_, ?_, ?_, fun _ => ⟨[c92_button], rfl, by simp⟩⟩).2
      ex rnd
    · refine ⟨by show '\n' ∉ s% "ThirdActivity"; decide, ⟨nofun, nofun⟩, ⟨?_, ?_⟩, ⟨nofun, nofun, nofun⟩, nofun, nofun⟩
      · intro e he
        cases List.mem_singleton.mp he
        exact ⟨rfl, by show '\n' ∉ s% "l"; decide⟩
      · intro e he
        cases he
        show c92_Closed (s% "l")
        unfold c92_Closed
        decide +kernel
    · intro w hw
      have hw' : w ∈ ([] : List AndroidView) := hw
      cases hw'
    · intro v hv
      have hv' : (none : Option View) = some v := hv
      cases hv'
    · intro l hl
      have hl' : l ∈ [[], [], ([] : List View)] := hl
      simpa using hl'
  · refine (c102_screen_added c102_project (c102_third [c92_button]) rfl hn hm (c102_third_survives (.inr rfl)) List.nodup_nil).2 ?_ ex
    rintro ⟨-, -, -, -, -, h, -⟩
    have h' : [c92_button] = ([] : List View) := h [c92_button] (by
      show [c92_button] ∈ [[], [], [c92_button]]
      simp)
    cases h'
end
end Swrs.Api
