import Verif.Proofs.Edits
/-!
# C91: an edit reaches only what it belongs to
-/
namespace Swrs.Api
section
variable [MapPol] [Floats]

/-! ## C91 — Editing, adding and removing a screen -/

/-- C91: editing, adding or removing screens with the layout name `n` and the class name `j` (`mid` becomes `mid'`) leaves everything
else of the saved project as it was: the settings, the libraries, the resources, the file entries of the other screens
and of the custom views, and in the same order all layouts and FABs but `n` and the logic of all classes but `j`. -/
theorem c91_screens (p p' : SketchwareProject) (before mid mid' after : List Screen) (n j : Str) (q q' : Swrs.SketchwareProject)
    (hp : p.screens = before ++ (mid ++ after)) (hp' : p' = { p with screens := before ++ (mid' ++ after) })
    (hm : ∀ s ∈ mid ++ mid', s.layoutName = n ∧ s.javaName = j) (h : p.toParsed = .ok q) (h' : p'.toParsed = .ok q') :
    q'.project = q.project ∧ q'.library = q.library ∧ q'.resource = q.resource ∧ q'.resourceFiles = q.resourceFiles ∧
    q'.file.customViews = q.file.customViews ∧
    (∃ a x x' b, q.file.activities = a ++ (x ++ b) ∧ q'.file.activities = a ++ (x' ++ b) ∧ a.length = before.length ∧
      b.length = after.length ∧ ∀ f ∈ x ++ x', f.filename = n) ∧
    Elsewhere n q'.view.layouts q.view.layouts ∧ Elsewhere n q'.view.fabs q.view.fabs ∧
    Elsewhere j q'.logic.screens q.logic.screens := by
  obtain ⟨lg, ls, fs, i1, s1, f1, hb, hi, hs, hf, h1, h2, h3, h4, h5, h6⟩ := toParsed_ok h
  obtain ⟨lg', ls', fs', i1', s1', f1', hb', hi', hs', hf', h1', h2', h3', h4', h5', h6'⟩ := toParsed_ok h'
  subst hp'
  rw [hp, screensBack_append] at hb
  obtain ⟨⟨lga, lsa, fsa⟩, hba, hb⟩ := hb
  rw [screensBack_append] at hb
  obtain ⟨⟨lgm, lsm, fsm⟩, hbm, hb⟩ := hb
  rw [screensBack_append] at hb'
  obtain ⟨⟨lga', lsa', fsa'⟩, hba', hb'⟩ := hb'
  rw [screensBack_append] at hb'
  obtain ⟨⟨lgm', lsm', fsm'⟩, hbm', hb'⟩ := hb'
  rw [hba] at hba'
  cases hba'
  obtain ⟨e1, e2, e3⟩ := screensBack_here (n := n) (j := j) (fun s hs => hm s (by simp [hs])) hbm
  obtain ⟨e1', e2', e3'⟩ := screensBack_here (n := n) (j := j) (fun s hs => hm s (by simp [hs])) hbm'
  obtain ⟨g1, g2, g3⟩ := screensBack_elsewhere (n := n) (j := j) hb' hb ⟨e1'.symm.trans e1, e2'.symm.trans e2, e3'.symm.trans e3⟩
  have hi2 := Out.ok.inj (hi.symm.trans hi')
  have hs2 := Out.ok.inj (hs.symm.trans hs')
  have hf2 := Out.ok.inj (hf.symm.trans hf')
  simp only [Prod.mk.injEq] at hi2 hs2 hf2
  have hres : q'.resource = q.resource := by
    cases hr : q.resource; cases hr' : q'.resource
    rw [hr, hr'] at hi2 hs2 hf2
    simp only at hi2 hs2 hf2
    rw [hi2.1, hs2.1, hf2.1]
  refine ⟨h1'.trans h1.symm, h3'.trans h3.symm, hres, ?_, by rw [h2, h2'], ?_, ?_, ?_, ?_⟩
  · rw [h6, h6', hi2.2, hs2.2, hf2.2]
  · refine ⟨before.map Screen.toFileItem, mid.map Screen.toFileItem, mid'.map Screen.toFileItem, after.map Screen.toFileItem, ?_, ?_, ?_, ?_, ?_⟩
    · rw [h2]; simp [hp]
    · rw [h2']; simp
    · simp
    · simp
    · intro f hf
      rw [← List.map_append] at hf
      obtain ⟨s, hs, rfl⟩ := List.mem_map.mp hf
      exact (hm s hs).1
  · rw [h4, h4']; exact customViewsBack_elsewhere _ g2
  · rw [h4, h4']; exact g3
  · rw [h5, h5']; exact g1

/-- C91: editing a screen also keeps the places of its layout and its logic among the others. -/
theorem c91_places (p p' : SketchwareProject) (before after : List Screen) (s s' : Screen) (q q' : Swrs.SketchwareProject)
    (hp : p.screens = before ++ s :: after) (hp' : p' = { p with screens := before ++ s' :: after })
    (hn : s'.layoutName = s.layoutName ∧ s'.javaName = s.javaName) (h : p.toParsed = .ok q) (h' : p'.toParsed = .ok q') :
    q'.view.layouts.keys = q.view.layouts.keys ∧ q'.logic.screens.keys = q.logic.screens.keys := by
  obtain ⟨lg, ls, fs, i1, s1, f1, hb, hi, hs, hf, h1, h2, h3, h4, h5, h6⟩ := toParsed_ok h
  obtain ⟨lg', ls', fs', i1', s1', f1', hb', hi', hs', hf', h1', h2', h3', h4', h5', h6'⟩ := toParsed_ok h'
  subst hp'
  rw [hp] at hb
  have hrefl : ∀ xs : List Screen, All₂ (fun s s₁ => s.layoutName = s₁.layoutName ∧ s.javaName = s₁.javaName) xs xs := by
    intro xs
    induction xs with
    | nil => exact .nil
    | cons x xs ih => exact .cons ⟨rfl, rfl⟩ ih
  obtain ⟨k1, k2⟩ := screensBack_keys (all₂_append (hrefl before) (.cons hn (hrefl after))) hb' hb ⟨rfl, rfl⟩
  rw [h4, h4', h5, h5']
  exact ⟨insertAll_keys (fun c : CustomView => c.resName) _ _ p.customViews k2, k1⟩

omit [MapPol] in
theorem all₂_replace {R : Screen → Screen → Prop} (hr : ∀ s, R s s) (before after : List Screen) {s s' : Screen} (h : R s s') :
    All₂ R (before ++ s :: after) (before ++ s' :: after) := by
  have hrefl : ∀ xs : List Screen, All₂ R xs xs := by
    intro xs
    induction xs with
    | nil => exact .nil
    | cons x xs ih => exact .cons (hr x) ih
  exact all₂_append (hrefl before) (.cons h (hrefl after))

/-- C91: an edit of the layout or the FAB of a screen can always be saved, and it reaches neither the logic nor the list of files. -/
theorem c91_layout_edit (p : SketchwareProject) (before after : List Screen) (s : Screen) (layout : List View) (fab : Option View)
    (q : Swrs.SketchwareProject) (hp : p.screens = before ++ s :: after) (h : p.toParsed = .ok q) :
    ∃ q', ({ p with screens := before ++ { s with layout, fab } :: after } : SketchwareProject).toParsed = .ok q' ∧
      q'.logic = q.logic ∧ q'.file = q.file := by
  have hl : ({ s with layout, fab } : Screen).toLogic = s.toLogic := rfl
  obtain ⟨lg, ls, fs, i1, s1, f1, hb, hi, hs, hf, h1, h2, h3, h4, h5, h6⟩ := toParsed_ok h
  have hall : ∀ x ∈ before ++ { s with layout, fab } :: after, ∃ l, x.toLogic = .ok l := by
    intro x hx
    have hok : ∀ x ∈ p.screens, ∃ l, x.toLogic = .ok l := by
      intro x hx
      cases hxl : x.toLogic with
      | ok l => exact ⟨l, rfl⟩
      | err e => exact e.elim
      | panic => rw [(screensBack_panics p.screens [] [] []).mpr ⟨x, hx, hxl⟩] at hb; cases hb
    rw [hp] at hok
    simp only [List.mem_append, List.mem_cons] at hx hok
    rcases hx with hx | rfl | hx
    · exact hok x (.inl hx)
    · rw [hl]; exact hok s (.inr (.inl rfl))
    · exact hok x (.inr (.inr hx))
  obtain ⟨⟨lg', ls', fs'⟩, hb'⟩ := screensBack_total hall [] [] []
  have hlog : lg' = lg := screensBack_parts hb' (hp ▸ hb) (by exact all₂_replace (fun _ => ⟨rfl, rfl⟩) before after ⟨rfl, rfl⟩)
  refine ⟨_, by simp only [SketchwareProject.toParsed, hb', hi, hs, hf, Out.ok_bind, Out.pure_eq]; rfl, ?_, ?_⟩
  · rw [h5, hlog]
  · rw [h2, hp]; simp [Screen.toFileItem]

/-- C91: an edit of the variables, moreblocks, components and events of a screen reaches neither the layouts and FABs nor the list of
files. -/
theorem c91_logic_edit (p : SketchwareProject) (before after : List Screen) (s : Screen) (variables : LMap Str Variable)
    (listVariables : LMap Str ListVariable) (moreBlocks : LMap Str MoreBlock) (components : LMap Str ComponentKind) (events : List Event)
    (q q' : Swrs.SketchwareProject) (hp : p.screens = before ++ s :: after) (h : p.toParsed = .ok q)
    (h' : ({ p with screens := before ++ { s with variables, listVariables, moreBlocks, components, events } :: after } :
      SketchwareProject).toParsed = .ok q') :
    q'.view = q.view ∧ q'.file = q.file := by
  obtain ⟨lg, ls, fs, i1, s1, f1, hb, hi, hs, hf, h1, h2, h3, h4, h5, h6⟩ := toParsed_ok h
  obtain ⟨lg', ls', fs', i1', s1', f1', hb', hi', hs', hf', h1', h2', h3', h4', h5', h6'⟩ := toParsed_ok h'
  obtain ⟨rfl, rfl⟩ := screensBack_views hb' (hp ▸ hb) (by exact all₂_replace (fun _ => ⟨rfl, rfl, rfl⟩) before after ⟨rfl, rfl, rfl⟩)
  refine ⟨by rw [h4, h4'], ?_⟩
  rw [h2, h2', hp]; simp [Screen.toFileItem]

/-- C91: an edit of the settings of a screen can always be saved and reaches neither the layouts and FABs nor the logic. -/
theorem c91_options_edit (p : SketchwareProject) (before after : List Screen) (s : Screen)
    (fullscreenEnabled toolbarEnabled drawerEnabled fabEnabled : Bool) (orientation : Orientation) (theme : Theme)
    (keyboardSetting : KeyboardSetting) (q : Swrs.SketchwareProject) (hp : p.screens = before ++ s :: after) (h : p.toParsed = .ok q) :
    ∃ q', ({ p with screens := before ++ (
        { s with fullscreenEnabled, toolbarEnabled, drawerEnabled, fabEnabled, orientation, theme, keyboardSetting } :: after) } :
      SketchwareProject).toParsed = .ok q' ∧ q'.logic = q.logic ∧ q'.view = q.view := by
  obtain ⟨lg, ls, fs, i1, s1, f1, hb, hi, hs, hf, h1, h2, h3, h4, h5, h6⟩ := toParsed_ok h
  have hok : ∀ x ∈ p.screens, ∃ l, x.toLogic = .ok l := by
    intro x hx
    cases hxl : x.toLogic with
    | ok l => exact ⟨l, rfl⟩
    | err e => exact e.elim
    | panic => rw [(screensBack_panics p.screens [] [] []).mpr ⟨x, hx, hxl⟩] at hb; cases hb
  have hall : ∀ x ∈ before ++ (
      { s with fullscreenEnabled, toolbarEnabled, drawerEnabled, fabEnabled, orientation, theme, keyboardSetting } :: after),
      ∃ l, x.toLogic = .ok l := by
    intro x hx
    rw [hp] at hok
    simp only [List.mem_append, List.mem_cons] at hx hok
    rcases hx with hx | rfl | hx
    · exact hok x (.inl hx)
    · exact hok s (.inr (.inl rfl))
    · exact hok x (.inr (.inr hx))
  obtain ⟨⟨lg', ls', fs'⟩, hb'⟩ := screensBack_total hall [] [] []
  have hlog : lg' = lg := screensBack_parts hb' (hp ▸ hb) (by exact all₂_replace (fun _ => ⟨rfl, rfl⟩) before after ⟨rfl, rfl⟩)
  obtain ⟨rfl, rfl⟩ := screensBack_views hb' (hp ▸ hb) (by exact all₂_replace (fun _ => ⟨rfl, rfl, rfl⟩) before after ⟨rfl, rfl, rfl⟩)
  refine ⟨_, by simp only [SketchwareProject.toParsed, hb', hi, hs, hf, Out.ok_bind, Out.pure_eq]; rfl, ?_, ?_⟩
  · rw [h5, hlog]
  · rw [h4]

/-- C91: an edit of the settings, colours and libraries of a project can always be saved and reaches only the project file and the list
of libraries. -/
theorem c91_settings_edit (p : SketchwareProject) (metadata : Metadata) (colors : Colors) (libraries : Libraries)
    (q : Swrs.SketchwareProject) (h : p.toParsed = .ok q) :
    ∃ project library, ({ p with metadata, colors, libraries } : SketchwareProject).toParsed = .ok { q with project, library } := by
  simp only [SketchwareProject.toParsed, Out.bind_eq_ok] at h
  obtain ⟨⟨logics, layouts, fabs⟩, h1, ⟨images, imageFiles⟩, h2, ⟨sounds, soundFiles⟩, h3, ⟨fonts, fontFiles⟩, h4, h5⟩ := h
  cases h5
  exact ⟨_, _, by simp only [SketchwareProject.toParsed, h1, h2, h3, h4, Out.ok_bind, Out.pure_eq]; rfl⟩

/-- C91: an edit of the resources reaches only the list of resources and the resource files. -/
theorem c91_resources_edit (p : SketchwareProject) (resources : Resources) (q q' : Swrs.SketchwareProject) (h : p.toParsed = .ok q)
    (h' : ({ p with resources } : SketchwareProject).toParsed = .ok q') :
    q' = { q with resource := q'.resource, resourceFiles := q'.resourceFiles } := by
  simp only [SketchwareProject.toParsed, Out.bind_eq_ok] at h h'
  obtain ⟨⟨logics, layouts, fabs⟩, h1, _, _, _, _, _, _, h5⟩ := h
  obtain ⟨⟨logics', layouts', fabs'⟩, h1', _, _, _, _, _, _, h5'⟩ := h'
  rw [h1] at h1'
  cases h1'
  cases h5
  cases h5'
  rfl

/-- C91: an edit of the custom views can always be saved and reaches only the list of custom views and the layouts that have the name of
an old or a new custom view. -/
theorem c91_custom_views_edit (p : SketchwareProject) (customViews : List CustomView) (q : Swrs.SketchwareProject) (h : p.toParsed = .ok q) :
    ∃ customViewFiles layouts, ({ p with customViews } : SketchwareProject).toParsed =
      .ok { q with file := { q.file with customViews := customViewFiles }, view := { q.view with layouts } } ∧
      ∀ n, (∀ c ∈ p.customViews ++ customViews, c.resName ≠ n) → layouts.get n = q.view.layouts.get n := by
  simp only [SketchwareProject.toParsed, Out.bind_eq_ok] at h
  obtain ⟨⟨logics, layouts, fabs⟩, h1, ⟨images, imageFiles⟩, h2, ⟨sounds, soundFiles⟩, h3, ⟨fonts, fontFiles⟩, h4, h5⟩ := h
  cases h5
  refine ⟨customViews.map CustomView.toFileItem, customViewsBack customViews layouts,
    by simp only [SketchwareProject.toParsed, h1, h2, h3, h4, Out.ok_bind, Out.pure_eq], fun n hn => ?_⟩
  have hnone : ∀ cvs : List CustomView, (∀ c ∈ cvs, c.resName ≠ n) → ∀ ls, (customViewsBack cvs ls).get n = ls.get n := by
    intro cvs hc ls
    unfold customViewsBack
    induction cvs generalizing ls with
    | nil => rfl
    | cons c cvs ih =>
      rw [List.foldl_cons, ih (fun c hc' => hc c (by simp [hc'])), LMap.get_insert, if_neg (Ne.symm (hc c (by simp)))]
  exact (hnone _ (fun c hc => hn c (by simp [hc])) _).trans (hnone _ (fun c hc => hn c (by simp [hc])) _).symm

/-! ## C91 — Editing code -/

theorem eventsBack_edit {k : Str} {es es' : List Event} {cs cs₁ cs' cs₁' : Containers} {ps ps' : List Swrs.Event}
    (he : All₂ (fun e e' => e.name = e'.name ∧ e.eventType = e'.eventType ∧ (e.code = e'.code ∨ e.containerId = k)) es es')
    (h : eventsBack es cs = .ok (ps, cs')) (h' : eventsBack es' cs₁ = .ok (ps', cs₁')) (hc : Elsewhere k cs cs₁ ∧ cs.keys = cs₁.keys) :
    ps = ps' ∧ Elsewhere k cs' cs₁' ∧ cs'.keys = cs₁'.keys := by
  induction he generalizing cs cs₁ ps ps' with
  | nil => cases h; cases h'; exact ⟨rfl, hc⟩
  | @cons e e' es es' he _ ih =>
    simp only [eventsBack, eventBack, Out.bind_eq_ok, Out.pure_eq, Out.ok.injEq, Prod.exists, Prod.mk.injEq] at h h'
    obtain ⟨x, c1, ⟨c, hcc, rfl, rfl⟩, y, c2, h, rfl, rfl⟩ := h
    obtain ⟨x', c1', ⟨c', hcc', rfl, rfl⟩, y', c2', h', rfl, rfl⟩ := h'
    obtain ⟨name, et, code⟩ := e
    obtain ⟨name', et', code'⟩ := e'
    simp only at he
    obtain ⟨rfl, rfl, he⟩ := he
    have hid : Event.containerId ⟨name, et, code'⟩ = Event.containerId ⟨name, et, code⟩ := rfl
    obtain ⟨rfl, h1⟩ := ih h h' ⟨by
      rcases he with rfl | hk
      · rw [hcc] at hcc'
        cases hcc'
        exact hc.1.insert ..
      · rw [hid, hk]; exact hc.1.insert_at .., Elsewhere.keys_insert hc.2 ..⟩
    exact ⟨rfl, h1⟩

theorem moreBlocksBack_same {k : Str} {ms : List (Str × MoreBlock)} {cs cs₁ cs' cs₁' : Containers} {ps ps' : List (Str × Swrs.MoreBlock)}
    (h : moreBlocksBack ms cs = .ok (ps, cs')) (h' : moreBlocksBack ms cs₁ = .ok (ps', cs₁')) (hc : Elsewhere k cs cs₁ ∧ cs.keys = cs₁.keys) :
    ps = ps' ∧ Elsewhere k cs' cs₁' ∧ cs'.keys = cs₁'.keys := by
  induction ms generalizing cs cs₁ ps ps' with
  | nil => cases h; cases h'; exact ⟨rfl, hc⟩
  | cons m ms ih =>
    obtain ⟨id, m⟩ := m
    simp only [moreBlocksBack, Out.bind_eq_ok, Out.pure_eq, Out.ok.injEq, Prod.exists, Prod.mk.injEq] at h h'
    obtain ⟨c, hcc, x, cs1, h, rfl, rfl⟩ := h
    obtain ⟨c', hcc', x', cs1', h', rfl, rfl⟩ := h'
    rw [hcc] at hcc'
    cases hcc'
    obtain ⟨rfl, h1⟩ := ih h h' ⟨hc.1.insert .., Elsewhere.keys_insert hc.2 ..⟩
    exact ⟨rfl, h1⟩

/-- C91: editing the code of an event reaches only its own block container, which stays in its place. -/
theorem c91_event_code (s : Screen) (a b : List Event) (e : Event) (code : List Block) (l l' : ScreenLogic)
    (hs : s.events = a ++ e :: b) (h : s.toLogic = .ok l)
    (h' : ({ s with events := a ++ { e with code } :: b } : Screen).toLogic = .ok l') :
    l' = { l with blockContainers := l'.blockContainers } ∧ Elsewhere e.containerId l'.blockContainers l.blockContainers ∧
      l'.blockContainers.keys = l.blockContainers.keys := by
  simp only [Screen.toLogic, Out.bind_eq_ok, Prod.exists, Out.pure_eq, Out.ok.injEq] at h h'
  obtain ⟨es, cs, h1, ms, cs', h2, rfl⟩ := h
  obtain ⟨es', cs₁, h1', ms', cs₁', h2', rfl⟩ := h'
  have hrefl : ∀ xs : List Event, All₂ (fun e₁ e' => e₁.name = e'.name ∧ e₁.eventType = e'.eventType ∧
      (e₁.code = e'.code ∨ e₁.containerId = e.containerId)) xs xs := by
    intro xs
    induction xs with
    | nil => exact .nil
    | cons x xs ih => exact .cons ⟨rfl, rfl, .inl rfl⟩ ih
  rw [hs] at h1
  obtain ⟨rfl, hc⟩ := eventsBack_edit (k := e.containerId)
    (all₂_append (hrefl a) (.cons (a := { e with code }) (b := e) ⟨rfl, rfl, .inr rfl⟩ (hrefl b))) h1' h1 ⟨rfl, rfl⟩
  obtain ⟨rfl, hc⟩ := moreBlocksBack_same h2' h2 hc
  exact ⟨rfl, hc⟩

theorem moreBlocksBack_edit {k : Str} {ms ms' : List (Str × MoreBlock)} {cs cs₁ cs' cs₁' : Containers} {ps ps' : List (Str × Swrs.MoreBlock)}
    (he : All₂ (fun m m' => m.1 = m'.1 ∧ m.2.name = m'.2.name ∧ m.2.spec = m'.2.spec ∧ (m.2.code = m'.2.code ∨ moreBlockId m.1 = k)) ms ms')
    (h : moreBlocksBack ms cs = .ok (ps, cs')) (h' : moreBlocksBack ms' cs₁ = .ok (ps', cs₁')) (hc : Elsewhere k cs cs₁ ∧ cs.keys = cs₁.keys) :
    ps = ps' ∧ Elsewhere k cs' cs₁' ∧ cs'.keys = cs₁'.keys := by
  induction he generalizing cs cs₁ ps ps' with
  | nil => cases h; cases h'; exact ⟨rfl, hc⟩
  | @cons m m' ms ms' he _ ih =>
    obtain ⟨id, name, spec, code⟩ := m
    obtain ⟨id', name', spec', code'⟩ := m'
    simp only at he
    obtain ⟨rfl, rfl, rfl, he⟩ := he
    simp only [moreBlocksBack, Out.bind_eq_ok, Out.pure_eq, Out.ok.injEq, Prod.exists, Prod.mk.injEq] at h h'
    obtain ⟨c, hcc, x, cs1, h, rfl, rfl⟩ := h
    obtain ⟨c', hcc', x', cs1', h', rfl, rfl⟩ := h'
    obtain ⟨rfl, h1⟩ := ih h h' ⟨by
      rcases he with rfl | hk
      · rw [hcc] at hcc'
        cases hcc'
        exact hc.1.insert ..
      · rw [hk]; exact hc.1.insert_at .., Elsewhere.keys_insert hc.2 ..⟩
    exact ⟨rfl, h1⟩

/-- C91: editing the code of a moreblock reaches only its own block container, which stays in its place. -/
theorem c91_moreblock_code (s : Screen) (a b : List (Str × MoreBlock)) (id : Str) (m : MoreBlock) (code : List Block) (l l' : ScreenLogic)
    (hs : s.moreBlocks = a ++ (id, m) :: b) (h : s.toLogic = .ok l)
    (h' : ({ s with moreBlocks := a ++ (id, { m with code }) :: b } : Screen).toLogic = .ok l') :
    l' = { l with blockContainers := l'.blockContainers } ∧
      Elsewhere (id ++ s% "_moreBlock") l'.blockContainers l.blockContainers ∧ l'.blockContainers.keys = l.blockContainers.keys := by
  simp only [Screen.toLogic, Out.bind_eq_ok, Prod.exists, Out.pure_eq, Out.ok.injEq] at h h'
  obtain ⟨es, cs, h1, ms, cs', h2, rfl⟩ := h
  obtain ⟨es', cs₁, h1', ms', cs₁', h2', rfl⟩ := h'
  have hrefl : ∀ xs : List (Str × MoreBlock), All₂ (fun m m' => m.1 = m'.1 ∧ m.2.name = m'.2.name ∧ m.2.spec = m'.2.spec ∧
      (m.2.code = m'.2.code ∨ moreBlockId m.1 = moreBlockId id)) xs xs := by
    intro xs
    induction xs with
    | nil => exact .nil
    | cons x xs ih => exact .cons ⟨rfl, rfl, rfl, .inl rfl⟩ ih
  rw [hs] at h2
  rw [h1] at h1'
  cases h1'
  obtain ⟨rfl, hc⟩ := moreBlocksBack_edit (k := moreBlockId id)
    (all₂_append (hrefl a) (.cons (a := (id, { m with code })) (b := (id, m)) ⟨rfl, rfl, rfl, .inr rfl⟩ (hrefl b))) h2' h2 ⟨rfl, rfl⟩
  exact ⟨rfl, hc⟩

/-! ## C91 — Reading -/

/-- C91: when two sets of files differ only in the layout and the FAB of the name `n` and in the logic of the class `j`, the projects made
from them have the same screens, apart from those of the name `n` and of the class `j`, the same custom views apart from those
called `n`, and the same of everything else. -/
theorem c91_read (rnd : ResourceType → Nat → UInt32) (val val' : Swrs.SketchwareProject) (n j : Str) (p p' : SketchwareProject)
    (hv : val' = { val with view := val'.view, logic := val'.logic }) (hl : ∀ k, k ≠ n → val'.view.layouts.get k = val.view.layouts.get k)
    (hf : ∀ k, k ≠ n → val'.view.fabs.get k = val.view.fabs.get k)
    (hg : ∀ k, k ≠ j → val'.logic.screens.get k = val.logic.screens.get k)
    (h : SketchwareProject.tryFrom rnd val = .ok p) (h' : SketchwareProject.tryFrom rnd val' = .ok p') :
    (∀ (i : Nat) (f : FileItem), val.file.activities[i]? = some f → f.filename ≠ n → viewNameToLogic f.filename ≠ j →
      p'.screens[i]? = p.screens[i]?) ∧
    (∀ (i : Nat) (f : FileItem), val.file.customViews[i]? = some f → f.filename ≠ n → p'.customViews[i]? = p.customViews[i]?) ∧
    p'.screens.length = p.screens.length ∧ p'.customViews.length = p.customViews.length ∧
    p' = { p with screens := p'.screens, customViews := p'.customViews } := by
  have hfile : val'.file = val.file := by rw [hv]
  obtain ⟨⟨a1, a2⟩, ⟨b1, b2⟩, -⟩ := c79_project_value rnd val p h
  obtain ⟨⟨a1', a2'⟩, ⟨b1', b2'⟩, -⟩ := c79_project_value rnd val' p' h'
  rw [hfile] at a1' a2' b1' b2'
  refine ⟨fun i f hi h1 h2 => ?_, fun i f hi h1 => ?_, by rw [a1, a1'], by rw [b1, b1'], ?_⟩
  · have hlt := (List.getElem?_eq_some_iff.mp hi).1
    have hs : p.screens[i]? = some p.screens[i] := List.getElem?_eq_getElem (by omega)
    have hs' : p'.screens[i]? = some p'.screens[i] := List.getElem?_eq_getElem (by omega)
    have e1 := a2 i f _ hi hs
    have e2 := a2' i f _ hi hs'
    have : screenFor val' (val.file.activities.take i) f = screenFor val (val.file.activities.take i) f := by
      simp only [screenFor, logicLeft, layoutLeft, fabLeft, hl _ h1, hf _ h1, hg _ h2]
    rw [this, e1] at e2
    rw [hs, hs', Out.ok.inj e2]
  · have hlt := (List.getElem?_eq_some_iff.mp hi).1
    have hs : p.customViews[i]? = some p.customViews[i] := List.getElem?_eq_getElem (by omega)
    have hs' : p'.customViews[i]? = some p'.customViews[i] := List.getElem?_eq_getElem (by omega)
    obtain ⟨n1, l1, g1, r1⟩ := b2 i f _ hi hs
    obtain ⟨n2, l2, g2, r2⟩ := b2' i f _ hi hs'
    have : layoutLeft val' (val.file.activities ++ val.file.customViews.take i) f.filename =
        layoutLeft val (val.file.activities ++ val.file.customViews.take i) f.filename := by
      simp only [layoutLeft, hl _ h1]
    rw [this, g1] at g2
    cases g2
    rw [r1] at r2
    rw [hs, hs']
    have r3 := Out.ok.inj r2
    revert n1 n2 r3
    cases p.customViews[i]; cases p'.customViews[i]
    rintro h1 h2 h3
    simp only at h1 h2 h3
    rw [h1, h2, h3]
  · rw [hv] at h'
    simp only [SketchwareProject.tryFrom, Out.bind_eq_ok] at h h'
    obtain ⟨⟨s1, l1⟩, -, c1, -, li, e1, im, e2, so, e3, fo, e4, e5⟩ := h
    obtain ⟨⟨s1', l1'⟩, -, c1', -, li', e1', im', e2', so', e3', fo', e4', e5'⟩ := h'
    cases e5
    cases e5'
    rw [e1] at e1'; rw [e2] at e2'; rw [e3] at e3'; rw [e4] at e4'
    cases e1'; cases e2'; cases e3'; cases e4'
    rfl

/-- A project with two screens. -/
def twoScreens (code : List Block) : SketchwareProject :=
  screensApi bareLibs [plainScreen [] [⟨s% "onBackPressed", .activityEvent, code⟩] none,
    { plainScreen [] [] none with layoutName := s% "second", javaName := s% "SecondActivity" }] true

-- both versions of the project can be saved, and the edit changes the file
example : ∃ q q', (twoScreens []).toParsed = .ok q ∧ (twoScreens [exLeaf (s% "a")]).toParsed = .ok q' ∧
    (q.logic.screens.get (s% "MainActivity")).map (fun l => l.blockContainers.map fun c => c.2.blocks.length) = some [0] ∧
    (q'.logic.screens.get (s% "MainActivity")).map (fun l => l.blockContainers.map fun c => c.2.blocks.length) = some [1] ∧
    q.logic.screens.keys = [s% "MainActivity", s% "SecondActivity"] ∧
    Elsewhere (s% "MainActivity") q'.logic.screens q.logic.screens :=
  ⟨_, _, rfl, rfl, rfl, rfl, rfl, (c91_screens (twoScreens []) (twoScreens [exLeaf (s% "a")]) [] [_] [_] [_] (s% "main") (s% "MainActivity") _ _
    rfl rfl (by simp [plainScreen]) rfl rfl).2.2.2.2.2.2.2.2⟩

-- files that differ in the layout of an activity only
example : ∃ p p', SketchwareProject.tryFrom (fun _ _ => 3) noLogicFile = .ok p ∧
    SketchwareProject.tryFrom (fun _ _ => 3) { noLogicFile with
      view := { noLogicFile.view with layouts := [(s% "main", ⟨[AndroidView.newEmpty (s% "a") 0 (s% "root") 0]⟩)] } } = .ok p' ∧
    p.screens.map (fun s => s.layout.length) = [0] ∧ p'.screens.map (fun s => s.layout.length) = [1] :=
  ⟨_, _, rfl, rfl, rfl, rfl⟩
end
end Swrs.Api
