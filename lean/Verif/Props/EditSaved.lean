import Verif.Props.ApiSave
/-!
# C102: edits that are saved and opened again
-/
set_option linter.unusedSectionVars false
namespace Swrs.Api
section
variable [MapPol] [FloatLaws]

/-! ## C102 — An edit is still there after saving and opening -/

/-- A project that C92 tells to be the same after saving and opening. -/
structure c102_Good (p : SketchwareProject) (t : Date.DateTime) : Prop where
  survives : p.Survives
  ids : p.automaticResFileIds = false
  images : p.resources.images.keys.Nodup
  sounds : p.resources.sounds.keys.Nodup
  fonts : p.resources.fonts.keys.Nodup
  distinct : c92_Distinct p
  valid : t.Valid
  date : Date.timestamp t = p.metadata.timeCreated.toInt64.toInt
  saved : c92_Saved p t

/-- The project is written as six texts, which are opened as the same project; only the resource files and the icon are new. -/
def c102_Kept (ex : PathBuf → Bool) (rnd : ResourceType → Nat → UInt32) (p : SketchwareProject) : Prop :=
  ∃ q raw q' r, p.toParsed = .ok q ∧ q.tryIntoRaw none = .ok raw ∧ Swrs.SketchwareProject.parseFrom ex raw = .ok q' ∧
    SketchwareProject.tryFrom rnd q' = .ok { p with customIcon := none, resources := r, automaticResFileIds := true } ∧
    c61_Renewed .image p.resources.images r.images ∧ c61_Renewed .sound p.resources.sounds r.sounds ∧
    c61_Renewed .font p.resources.fonts r.fonts

/-- The project is written as six texts without an error, but these are not read as what was written. -/
def c102_Lost (ex : PathBuf → Bool) (p : SketchwareProject) : Prop :=
  ∃ q raw, p.toParsed = .ok q ∧ q.tryIntoRaw none = .ok raw ∧ ∀ q', Swrs.SketchwareProject.parseFrom ex raw = .ok q' → ¬ q'.Same q

/-- C102: such a project is kept. -/
theorem c102_kept {p : SketchwareProject} {t : Date.DateTime} (h : c102_Good p t) (ex : PathBuf → Bool)
    (rnd : ResourceType → Nat → UInt32) : c102_Kept ex rnd p :=
  c92_round_trip ex rnd p h.survives h.ids h.images h.sounds h.fonts h.distinct t h.valid h.date h.saved

theorem c102_lost {p : SketchwareProject} {t : Date.DateTime} (hs : p.Survives) (ha : p.automaticResFileIds = false)
    (hd : c92_Distinct p) (hv : t.Valid) (ht : Date.timestamp t = p.metadata.timeCreated.toInt64.toInt) (h : ¬ c92_Saved p t)
    (ex : PathBuf → Bool) : c102_Lost ex p := by
  obtain ⟨q, h1, _⟩ := survives_parts hs
  obtain ⟨_, _, _, _, _, _, _, _, _, _, _, _, _, _, _, hres⟩ := toParsed_ok h1
  rw [ha] at hres
  simp only [Bool.false_eq_true, if_false] at hres
  obtain ⟨raw, h4, h5⟩ := c92_saved_partial ex p q h1 hd t hv ht (by rw [hres]; nofun) none hres
  exact ⟨q, raw, h1, h4, fun q' hq' hsame => h (h5.mp ⟨q', hq', hsame⟩)⟩

/-- One screen is replaced by another one. -/
def SketchwareProject.withScreen (p : SketchwareProject) (before : List Screen) (s : Screen) (after : List Screen) : SketchwareProject :=
  { p with screens := before ++ s :: after }

theorem c102_replaced {p : SketchwareProject} {t : Date.DateTime} (hg : c102_Good p t) {before after : List Screen} {s s' : Screen}
    (hp : p.screens = before ++ s :: after) (hn : s'.layoutName = s.layoutName) (hj : s'.javaName = s.javaName)
    (hm : s'.variables.keys.Nodup ∧ s'.listVariables.keys.Nodup ∧ s'.moreBlocks.keys.Nodup ∧ s'.components.keys.Nodup)
    (hs : s'.Survives) (hc : ((codeOfScreen s').map (·.1)).Nodup) (he : codeOfScreen s' = [] ↔ codeOfScreen s = []) :
    (p.withScreen before s' after).Survives ∧ c92_Distinct (p.withScreen before s' after) ∧
    (c92_ScreenSaved s' → ∀ x ∈ before ++ s' :: after, c92_ScreenSaved x) ∧
    ∀ pre x post, before ++ s' :: after = pre ++ x :: post → codeOfScreen x = [] → ∀ u ∈ post, codeOfScreen u = [] := by
  have hmem : ∀ x, x ∈ before ++ s' :: after → x = s' ∨ x ∈ p.screens := by
    intro x hx
    rw [hp]
    simp only [List.mem_append, List.mem_cons] at hx ⊢
    rcases hx with h | h | h
    · exact .inr (.inl h)
    · exact .inl h
    · exact .inr (.inr (.inr h))
  have hjs : (before ++ s' :: after).map (·.javaName) = p.screens.map (·.javaName) := by simp [hp, hj]
  have hL : (layoutsOf (p.withScreen before s' after)).map (·.1) = (layoutsOf p).map (·.1) := by
    simp [layoutsOf, SketchwareProject.withScreen, hp, hn]
  have hsin : s ∈ p.screens := by simp [hp]
  have surv : (p.withScreen before s' after).Survives := by
    obtain ⟨⟨a1, a2⟩, a3, a4, a5, a6, a7⟩ := hg.survives
    refine ⟨⟨?_, ?_⟩, ?_, a4, a5, ?_, a7⟩
    · intro x hx
      rcases hmem x hx with rfl | hx
      · rw [hj, hn]; exact a1 s hsin
      · exact a1 x hx
    · exact hjs ▸ a2
    · intro x hx
      rcases hmem x hx with rfl | hx
      · exact ⟨hm.2.2.1, hm.2.2.2, hs⟩
      · exact a3 x hx
    · intro c hc x hx
      rcases hmem x hx with rfl | hx
      · rw [hn]; exact a6 c hc s hsin
      · exact a6 c hc x hx
  have dist : c92_Distinct (p.withScreen before s' after) := by
    obtain ⟨a1, a2, a3, a4⟩ := hg.distinct
    refine ⟨hL ▸ a1, hjs ▸ a2, ?_, ?_⟩
    · intro x hx
      rcases hmem x hx with rfl | hx
      · exact ⟨hm.1, hm.2.1, hm.2.2.1⟩
      · exact a3 x hx
    · intro x hx
      rcases hmem x hx with rfl | hx
      · exact hc
      · exact a4 x hx
  obtain ⟨a1, a2, a3, a4, a5, a6, a7, a8, a9⟩ := hg.saved
  refine ⟨surv, dist, ?_, ?_⟩
  · intro hss x hx
    rcases hmem x hx with rfl | hx
    · exact hss
    · exact a8 x hx
  · intro pre x post hx hxe u hu
    have key : ∀ y y' : Screen, (y = s' ∧ y' = s ∨ y = y') → (codeOfScreen y = [] ↔ codeOfScreen y' = []) := by
      rintro y y' (⟨rfl, rfl⟩ | rfl)
      · exact he
      · rfl
    -- the same split of the screens of `p`
    have split : ∃ pre' x' post', p.screens = pre' ++ x' :: post' ∧ (x = s' ∧ x' = s ∨ x = x') ∧
        ∀ u ∈ post, ∃ u' ∈ post', u = s' ∧ u' = s ∨ u = u' := by
      rw [hp]
      rcases List.append_eq_append_iff.mp hx with ⟨l, h1, h2⟩ | ⟨l, h1, h2⟩
      · cases l with
        | nil =>
          cases h2
          exact ⟨before, s, after, by simp, .inl ⟨rfl, rfl⟩, fun u hu => ⟨u, hu, .inr rfl⟩⟩
        | cons y l =>
          cases h2
          exact ⟨before ++ s :: l, x, post, by simp, .inr rfl, fun u hu => ⟨u, hu, .inr rfl⟩⟩
      · cases l with
        | nil =>
          cases h2
          exact ⟨before, s, after, by simp, .inl ⟨rfl, rfl⟩, fun u hu => ⟨u, hu, .inr rfl⟩⟩
        | cons y l =>
          cases h2
          refine ⟨pre, x, l ++ s :: after, by simp [h1], .inr rfl, fun u hu => ?_⟩
          have hu : u ∈ l ++ s' :: after := hu
          simp only [List.mem_append, List.mem_cons] at hu
          rcases hu with hu | rfl | hu
          · exact ⟨u, by simp [hu], .inr rfl⟩
          · exact ⟨s, by simp, .inl ⟨rfl, rfl⟩⟩
          · exact ⟨u, by simp [hu], .inr rfl⟩
    obtain ⟨pre', x', post', h1, h2, h3⟩ := split
    obtain ⟨u', hu', h4⟩ := h3 u hu
    exact (key u u' h4).mpr (a9 pre' x' post' h1 ((key x x' h2).mp hxe) u' hu')

theorem c102_screen {p : SketchwareProject} {t : Date.DateTime} (hg : c102_Good p t) {before after : List Screen} {s s' : Screen}
    (hp : p.screens = before ++ s :: after) (hn : s'.layoutName = s.layoutName) (hj : s'.javaName = s.javaName)
    (hl : s'.layout = s.layout) (hf : s'.fab = s.fab)
    (hm : s'.variables.keys.Nodup ∧ s'.listVariables.keys.Nodup ∧ s'.moreBlocks.keys.Nodup ∧ s'.components.keys.Nodup)
    (hs : s'.Survives) (hc : ((codeOfScreen s').map (·.1)).Nodup) (he : codeOfScreen s' = [] ↔ codeOfScreen s = []) :
    (c92_ScreenSaved s' → c102_Good (p.withScreen before s' after) t) ∧
    (¬ c92_ScreenSaved s' → ∀ ex, c102_Lost ex (p.withScreen before s' after)) := by
  obtain ⟨surv, dist, b8, b9⟩ := c102_replaced hg hp hn hj hm hs hc he
  have hL : layoutsOf (p.withScreen before s' after) = layoutsOf p := by
    simp [layoutsOf, SketchwareProject.withScreen, hp, hn, hl]
  have hF : fabsOf (p.withScreen before s' after) = fabsOf p := by
    simp [fabsOf, SketchwareProject.withScreen, hp, List.filterMap_append, List.filterMap_cons, hn, hf]
  obtain ⟨a1, a2, a3, a4, a5, a6, a7, a8, a9⟩ := hg.saved
  exact ⟨fun h => ⟨surv, hg.ids, hg.images, hg.sounds, hg.fonts, dist, hg.valid, hg.date, a1, .inl (by simp [SketchwareProject.withScreen]),
      hL ▸ a3, hL ▸ a4, hF ▸ hL ▸ a5, hL ▸ a6, hF ▸ a7, b8 h, b9⟩,
    fun h ex => c102_lost surv hg.ids dist hg.valid hg.date (fun hsv => h (hsv.screens s' (by simp [SketchwareProject.withScreen]))) ex⟩

/-- The screens that belong to a project that is kept. -/
theorem c102_part {p : SketchwareProject} {t : Date.DateTime} (hg : c102_Good p t) {s : Screen} (hs : s ∈ p.screens) :
    (s.variables.keys.Nodup ∧ s.listVariables.keys.Nodup ∧ s.moreBlocks.keys.Nodup ∧ s.components.keys.Nodup) ∧ s.Survives ∧
    ((codeOfScreen s).map (·.1)).Nodup ∧ c92_ScreenSaved s := by
  obtain ⟨a1, a2, a3⟩ := hg.distinct.maps s hs
  obtain ⟨_, b2, b3⟩ := hg.survives.screens s hs
  exact ⟨⟨a1, a2, a3, b2⟩, b3, hg.distinct.code s hs, hg.saved.screens s hs⟩

theorem c102_variables {p : SketchwareProject} {t : Date.DateTime} (hg : c102_Good p t) {before after : List Screen} {s : Screen}
    (hp : p.screens = before ++ s :: after) (vs : LMap Str Variable) (hk : vs.keys.Nodup) (hv : ∀ e ∈ vs, e.1 = e.2.name) :
    let p' := p.withScreen before { s with variables := vs } after
    let ok := (∀ e ∈ vs, '\n' ∉ e.2.name) ∧ ∀ e, vs.getLast? = some e → c92_Closed e.2.name
    (ok → c102_Good p' t) ∧ (¬ ok → ∀ ex, c102_Lost ex p') := by
  intro p' ok
  obtain ⟨hm, hsv, hc, hss⟩ := c102_part hg (s := s) (by simp [hp])
  obtain ⟨k1, k2⟩ := c102_screen hg (s' := { s with variables := vs }) hp rfl rfl rfl rfl ⟨hk, hm.2⟩
    ⟨hsv.layout, hsv.fab, hsv.moreBlocks, hsv.onCreate, hsv.moreCode, hsv.eventCode, hsv.shared, hsv.moreShared⟩ hc Iff.rfl
  refine ⟨fun h => k1 ⟨hss.name, ⟨fun e he => ⟨hv e he, h.1 e he⟩, h.2⟩, hss.listVariables, hss.moreBlocks, hss.code, hss.lastCode⟩,
    fun h => k2 fun hs' => h ⟨fun e he => (hs'.variables.1 e he).2, hs'.variables.2⟩⟩

/-- C102, proved part: whatever is done to the variables of a screen, as long as each is filed under its name, it is still there after
saving and opening exactly if no name has a line break and the last one does not end with white space. Missing: the other names, for
which the property is false. -/
theorem c102_variables_partial {p : SketchwareProject} {t : Date.DateTime} (hg : c102_Good p t) {before after : List Screen} {s : Screen}
    (hp : p.screens = before ++ s :: after) (vs : LMap Str Variable) (hk : vs.keys.Nodup) (hv : ∀ e ∈ vs, e.1 = e.2.name) :
    let p' := p.withScreen before { s with variables := vs } after
    let ok := (∀ e ∈ vs, '\n' ∉ e.2.name) ∧ ∀ e, vs.getLast? = some e → c92_Closed e.2.name
    (ok → ∀ ex rnd, c102_Kept ex rnd p') ∧ (¬ ok → ∀ ex, c102_Lost ex p') :=
  ⟨fun h => c102_kept ((c102_variables hg hp vs hk hv).1 h), (c102_variables hg hp vs hk hv).2⟩

/-- C102: a variable that is added is kept, and everything else with it, exactly if its name has no line break and does not end with
white space. -/
theorem c102_variable_added {p : SketchwareProject} {t : Date.DateTime} (hg : c102_Good p t) {before after : List Screen} {s : Screen}
    (hp : p.screens = before ++ s :: after) (n : Str) (ty : VariableType) (hnew : n ∉ s.variables.keys) :
    let p' := p.withScreen before { s with variables := s.variables.insert n ⟨n, ty⟩ } after
    ('\n' ∉ n ∧ c92_Closed n → ∀ ex rnd, c102_Kept ex rnd p') ∧ (¬ ('\n' ∉ n ∧ c92_Closed n) → ∀ ex, c102_Lost ex p') := by
  intro p'
  obtain ⟨hm, -, -, hss⟩ := c102_part hg (s := s) (by simp [hp])
  have hi := LMap.insert_new hnew (⟨n, ty⟩ : Variable)
  obtain ⟨k1, k2⟩ := c102_variables_partial hg hp (s.variables.insert n ⟨n, ty⟩) (LMap.nodup_insert hm.1 _ _) (by
    rw [hi]
    intro e he
    rcases List.mem_append.mp he with he | he
    · exact (hss.variables.1 e he).1
    · rw [List.mem_singleton.mp he])
  have hiff : ((∀ e ∈ s.variables.insert n ⟨n, ty⟩, '\n' ∉ e.2.name) ∧
      ∀ e, (s.variables.insert n ⟨n, ty⟩).getLast? = some e → c92_Closed e.2.name) ↔ ('\n' ∉ n ∧ c92_Closed n) := by
    rw [hi]
    constructor
    · rintro ⟨h1, h2⟩
      exact ⟨h1 _ (List.mem_append_right _ (List.mem_singleton_self _)), h2 (n, ⟨n, ty⟩) (by simp)⟩
    · rintro ⟨h1, h2⟩
      refine ⟨fun e he => ?_, fun e he => ?_⟩
      · rcases List.mem_append.mp he with he | he
        · exact (hss.variables.1 e he).2
        · rw [List.mem_singleton.mp he]; exact h1
      · simp only [List.getLast?_append, List.getLast?_singleton, Option.some_or, Option.some.injEq] at he
        rw [← he]; exact h2
  rw [hiff] at k1 k2
  exact ⟨k1, k2⟩

/-- C102: the same for the list variables. -/
theorem c102_list_variables_partial {p : SketchwareProject} {t : Date.DateTime} (hg : c102_Good p t) {before after : List Screen}
    {s : Screen} (hp : p.screens = before ++ s :: after) (vs : LMap Str ListVariable) (hk : vs.keys.Nodup)
    (hv : ∀ e ∈ vs, e.1 = e.2.name) :
    let p' := p.withScreen before { s with listVariables := vs } after
    let ok := (∀ e ∈ vs, '\n' ∉ e.2.name) ∧ ∀ e, vs.getLast? = some e → c92_Closed e.2.name
    (ok → ∀ ex rnd, c102_Kept ex rnd p') ∧ (¬ ok → ∀ ex, c102_Lost ex p') := by
  intro p' ok
  obtain ⟨hm, hsv, hc, hss⟩ := c102_part hg (s := s) (by simp [hp])
  obtain ⟨k1, k2⟩ := c102_screen hg (s' := { s with listVariables := vs }) hp rfl rfl rfl rfl ⟨hm.1, hk, hm.2.2⟩
    ⟨hsv.layout, hsv.fab, hsv.moreBlocks, hsv.onCreate, hsv.moreCode, hsv.eventCode, hsv.shared, hsv.moreShared⟩ hc Iff.rfl
  refine ⟨fun h => c102_kept (k1 ⟨hss.name, hss.variables, ⟨fun e he => ⟨hv e he, h.1 e he⟩, h.2⟩, hss.moreBlocks, hss.code, hss.lastCode⟩),
    fun h => k2 fun hs' => h ⟨fun e he => (hs'.listVariables.1 e he).2, hs'.listVariables.2⟩⟩

/-- C102: whatever is done to the components and the settings of a screen is kept. -/
theorem c102_components {p : SketchwareProject} {t : Date.DateTime} (hg : c102_Good p t) {before after : List Screen} {s : Screen}
    (hp : p.screens = before ++ s :: after) (components : LMap Str ComponentKind) (hk : components.keys.Nodup)
    (fullscreenEnabled toolbarEnabled drawerEnabled fabEnabled : Bool) (orientation : Orientation) (theme : Theme)
    (keyboardSetting : KeyboardSetting) (ex : PathBuf → Bool) (rnd : ResourceType → Nat → UInt32) :
    let s' : Screen := { s with components, fullscreenEnabled, toolbarEnabled, drawerEnabled, fabEnabled, orientation, theme, keyboardSetting }
    c102_Kept ex rnd (p.withScreen before s' after) := by
  intro s'
  obtain ⟨hm, hsv, hc, hss⟩ := c102_part hg (s := s) (by simp [hp])
  exact c102_kept ((c102_screen hg (s' := s') hp rfl rfl rfl rfl ⟨hm.1, hm.2.1, hm.2.2.1, hk⟩
    ⟨hsv.layout, hsv.fab, hsv.moreBlocks, hsv.onCreate, hsv.moreCode, hsv.eventCode, hsv.shared, hsv.moreShared⟩ hc Iff.rfl).1
    ⟨hss.name, hss.variables, hss.listVariables, hss.moreBlocks, hss.code, hss.lastCode⟩) ex rnd

theorem c102_event {p : SketchwareProject} {t : Date.DateTime} (hg : c102_Good p t) {before after : List Screen} {s : Screen}
    (hp : p.screens = before ++ s :: after) {a b : List Event} {e : Event} (he : s.events = a ++ e :: b) (code : List Block)
    (hcode : CodeSurvives code) :
    let p' := p.withScreen before { s with events := a ++ { e with code } :: b } after
    let ok := code = [] → b = [] → s.moreBlocks = [] → c92_Closed e.containerId
    (ok → c102_Good p' t) ∧ (¬ ok → ∀ ex, c102_Lost ex p') := by
  intro p' ok
  obtain ⟨hm, hsv, hc, hss⟩ := c102_part hg (s := s) (by simp [hp])
  have hkeys : (codeOfScreen { s with events := a ++ { e with code } :: b }).map (·.1) = (codeOfScreen s).map (·.1) := by
    simp only [codeOfScreen, he, List.map_append, List.map_cons, List.map_map]
    rfl
  have hmem : ∀ x, x ∈ a ++ { e with code } :: b → x = { e with code } ∨ x ∈ s.events := by
    intro x hx
    rw [he]
    simp only [List.mem_append, List.mem_cons] at hx ⊢
    rcases hx with h | h | h
    · exact .inr (.inl h)
    · exact .inl h
    · exact .inr (.inr (.inr h))
  have hemem : e ∈ s.events := by simp [he]
  have hids : (s.events.map (·.containerId)).Nodup := by
    have h := hc
    rw [codeOfScreen, List.map_append, List.map_map] at h
    exact (List.nodup_append.mp h).1
  have hsv' : ({ s with events := a ++ { e with code } :: b } : Screen).Survives := by
    refine ⟨hsv.layout, hsv.fab, hsv.moreBlocks, ?_, hsv.moreCode, ?_, ?_, ?_⟩
    · rcases hsv.onCreate with ⟨c, rest, h1, h2⟩ | h
      · rw [he] at h1
        cases a with
        | nil =>
          injection h1 with h1 h3
          subst h1
          exact .inl ⟨code, b, rfl, h3 ▸ h2⟩
        | cons x a =>
          injection h1 with h1 h3
          subst h1
          refine .inl ⟨c, a ++ { e with code } :: b, rfl, fun y hy => ?_⟩
          simp only [List.mem_append, List.mem_cons] at hy
          rcases hy with hy | rfl | hy
          · exact h2 y (h3 ▸ by simp [hy])
          · exact h2 e (h3 ▸ by simp)
          · exact h2 y (h3 ▸ by simp [hy])
      · refine .inr fun x hx => ?_
        rcases hmem x hx with rfl | hx
        · exact h e hemem
        · exact h x hx
    · intro x hx
      rcases hmem x hx with rfl | hx
      · exact hcode
      · exact hsv.eventCode x hx
    · have hn : ((a ++ { e with code } :: b).map (·.containerId)).Nodup := by
        have : (a ++ { e with code } :: b).map (·.containerId) = s.events.map (·.containerId) := by
          simp only [he, List.map_append, List.map_cons]
          rfl
        rw [this]; exact hids
      rw [List.Nodup, List.pairwise_map] at hn
      exact hn.imp fun hne heq => absurd heq hne
    · intro x hx m hmm hxm
      have hd : ∀ y ∈ s.events, y.containerId ≠ m.1 ++ s% "_moreBlock" := by
        intro y hy heq
        have h := hc
        rw [codeOfScreen, List.map_append, List.map_map, List.map_map] at h
        exact (List.nodup_append.mp h).2.2 _ (List.mem_map_of_mem hy) _ (List.mem_map_of_mem hmm) heq
      rcases hmem x hx with rfl | hx
      · exact absurd hxm (hd e hemem)
      · exact absurd hxm (hd x hx)
  obtain ⟨k1, k2⟩ := c102_screen hg (s' := { s with events := a ++ { e with code } :: b }) hp rfl rfl rfl rfl hm hsv' (hkeys ▸ hc) (by
    have h := congrArg List.length hkeys
    rw [List.length_map, List.length_map] at h
    rw [← List.length_eq_zero_iff, ← List.length_eq_zero_iff, h])
  have hnames : ∀ x ∈ codeOfScreen { s with events := a ++ { e with code } :: b }, ∃ y ∈ codeOfScreen s, y.1 = x.1 := by
    intro x hx
    have : x.1 ∈ (codeOfScreen s).map (·.1) := hkeys ▸ List.mem_map_of_mem hx
    exact List.mem_map.mp this
  have hlast : ok ↔ ∀ x, (codeOfScreen { s with events := a ++ { e with code } :: b }).getLast? = some x → x.2 = [] → c92_Closed x.1 := by
    have hold := hss.lastCode
    simp only [codeOfScreen] at hold ⊢
    cases hml : s.moreBlocks.getLast? with
    | some m =>
      have hne : s.moreBlocks ≠ [] := by rintro h; rw [h] at hml; cases hml
      have hl : ∀ es : List Event, (es.map (fun e => (e.containerId, e.code)) ++
          s.moreBlocks.map fun m => (m.1 ++ s% "_moreBlock", m.2.code)).getLast? = some (m.1 ++ s% "_moreBlock", m.2.code) := by
        intro es
        rw [List.getLast?_append, List.getLast?_map, hml]
        rfl
      rw [hl] at hold ⊢
      exact ⟨fun _ => hold, fun _ _ _ h => absurd h hne⟩
    | none =>
      have hnil : s.moreBlocks = [] := List.getLast?_eq_none_iff.mp hml
      have hok : ok ↔ (code = [] → b = [] → c92_Closed e.containerId) := ⟨fun h h1 h2 => h h1 h2 hnil, fun h h1 h2 _ => h h1 h2⟩
      rw [hok]
      simp only [hnil, List.map_nil, List.append_nil, he] at hold ⊢
      cases hbl : b.getLast? with
      | some x =>
        have hne : b ≠ [] := by rintro h; rw [h] at hbl; cases hbl
        have hl : ∀ y : Event, ((a ++ y :: b).map fun e => (e.containerId, e.code)).getLast? = some (x.containerId, x.code) := by
          intro y
          rw [List.getLast?_map, List.getLast?_append, List.getLast?_cons, hbl]
          rfl
        rw [hl] at hold ⊢
        exact ⟨fun _ => hold, fun _ _ h => absurd h hne⟩
      | none =>
        have hbn : b = [] := List.getLast?_eq_none_iff.mp hbl
        subst hbn
        simp only [List.map_append, List.map_cons, List.map_nil, List.getLast?_append, List.getLast?_singleton, Option.some_or,
          Option.some.injEq]
        constructor
        · rintro h _ rfl hx
          exact h hx trivial
        · intro h hx _
          exact h (e.containerId, code) rfl hx
  rw [hlast]
  refine ⟨fun h => k1 ⟨hss.name, hss.variables, hss.listVariables, hss.moreBlocks, ?_, h⟩, fun h => k2 fun hs' => h hs'.lastCode⟩
  intro x hx
  obtain ⟨y, hy, hxy⟩ := hnames x hx
  rw [← hxy]
  exact hss.code y hy

/-- C102: new code of an event is kept if it is read back from its blocks (`c47_round_trip_partial` tells which code is); only an event that
is left without code as the last one must not have a container name that ends with white space. -/
theorem c102_event_code {p : SketchwareProject} {t : Date.DateTime} (hg : c102_Good p t) {before after : List Screen} {s : Screen}
    (hp : p.screens = before ++ s :: after) {a b : List Event} {e : Event} (he : s.events = a ++ e :: b) (code : List Block)
    (hcode : CodeSurvives code) :
    let p' := p.withScreen before { s with events := a ++ { e with code } :: b } after
    let ok := code = [] → b = [] → s.moreBlocks = [] → c92_Closed e.containerId
    (ok → ∀ ex rnd, c102_Kept ex rnd p') ∧ (¬ ok → ∀ ex, c102_Lost ex p') :=
  ⟨fun h => c102_kept ((c102_event hg hp he code hcode).1 h), (c102_event hg hp he code hcode).2⟩

/-- C102: new settings, colours and libraries of the project are kept exactly if the date of creation is one that is (`c14_date_round_trip_partial`). -/
theorem c102_settings {p : SketchwareProject} {t t' : Date.DateTime} (hg : c102_Good p t) (metadata : Metadata) (colors : Colors)
    (libraries : Libraries) (hv : t'.Valid) (ht : Date.timestamp t' = metadata.timeCreated.toInt64.toInt) :
    let p' : SketchwareProject := { p with metadata, colors, libraries }
    (Date.FullWidth t' → ∀ ex rnd, c102_Kept ex rnd p') ∧ (¬ Date.FullWidth t' → ∀ ex, c102_Lost ex p') := by
  intro p'
  have hs : p'.Survives := ⟨⟨hg.survives.names.java, hg.survives.names.distinct⟩, hg.survives.screens, hg.survives.customViews,
    hg.survives.customViewNames, hg.survives.apart, hg.survives.resources⟩
  have hd : c92_Distinct p' := ⟨hg.distinct.layouts, hg.distinct.logics, hg.distinct.maps, hg.distinct.code⟩
  refine ⟨fun h => c102_kept ⟨hs, hg.ids, hg.images, hg.sounds, hg.fonts, hd, hv, ht, ?_⟩, fun h => c102_lost hs hg.ids hd hv ht fun h' => h h'.date⟩
  obtain ⟨a1, a2, a3, a4, a5, a6, a7, a8, a9⟩ := hg.saved
  exact ⟨h, a2, a3, a4, a5, a6, a7, a8, a9⟩

/-- C102: other views on a screen that is the last one, without custom views, are kept if they are read back from their records
(`c34_round_trip`, `c36_round_trip_partial`), as long as a project with a FAB is not left without a view there. -/
theorem c102_layout_last {p : SketchwareProject} {t : Date.DateTime} (hg : c102_Good p t) {before : List Screen} {s : Screen}
    (hp : p.screens = before ++ [s]) (hcv : p.customViews = []) (layout : List View)
    (htree : parseRawLayout ⟨flattenViews layout none none⟩ = .ok layout) :
    let p' := p.withScreen before { s with layout } []
    let ok := (∀ w ∈ flattenViews layout none none, AndroidView.parse w.reconstruct = some w) ∧
      (layout = [] → ∀ x ∈ p.screens, x.fab = none)
    (ok → ∀ ex rnd, c102_Kept ex rnd p') ∧ (¬ ok → ∀ ex, c102_Lost ex p') := by
  intro p' ok
  obtain ⟨hm, hsv, hc, hss⟩ := c102_part hg (s := s) (by simp [hp])
  obtain ⟨surv, dist, b8, b9⟩ := c102_replaced hg (s' := { s with layout }) hp rfl rfl hm
    ⟨htree, hsv.fab, hsv.moreBlocks, hsv.onCreate, hsv.moreCode, hsv.eventCode, hsv.shared, hsv.moreShared⟩ hc Iff.rfl
  have hL : layoutsOf p' = (before.map fun s => (s.layoutName, s.layout)) ++ [(s.layoutName, layout)] := by
    simp [layoutsOf, p', SketchwareProject.withScreen, hcv]
  have hL0 : layoutsOf p = (before.map fun s => (s.layoutName, s.layout)) ++ [(s.layoutName, s.layout)] := by
    simp [layoutsOf, hp, hcv]
  have hF : fabsOf p' = fabsOf p := by
    simp [fabsOf, p', SketchwareProject.withScreen, hp, List.filterMap_append, List.filterMap_cons]
  have hF0 : fabsOf p = [] ↔ ∀ x ∈ p.screens, x.fab = none := by
    simp [fabsOf]
  obtain ⟨a1, a2, a3, a4, a5, a6, a7, a8, a9⟩ := hg.saved
  rw [hL0] at a3 a4 a6
  rw [List.dropLast_concat] at a4
  have hok : ok ↔ c92_Saved p' t := by
    constructor
    · rintro ⟨h1, h2⟩
      refine ⟨a1, .inl (by simp [p', SketchwareProject.withScreen]), ?_, ?_, ?_, ?_, hF ▸ a7, b8 ⟨hss.name, hss.variables, hss.listVariables,
        hss.moreBlocks, hss.code, hss.lastCode⟩, b9⟩
      · rw [hL]
        intro e he
        rcases List.mem_append.mp he with he | he
        · exact a3 e (List.mem_append_left _ he)
        · rw [List.mem_singleton.mp he]
          exact a3 (s.layoutName, s.layout) (by simp)
      · rw [hL, List.dropLast_concat]; exact a4
      · rw [hL, hF]
        intro hf
        refine ⟨(s.layoutName, layout), by simp, fun h => hf (hF0.mpr (h2 h))⟩
      · rw [hL]
        intro e he
        rcases List.mem_append.mp he with he | he
        · exact a6 e (List.mem_append_left _ he)
        · rw [List.mem_singleton.mp he]
          exact h1
    · rintro ⟨-, -, -, -, c5, c6, -, -, -⟩
      rw [hL] at c5 c6
      rw [hF] at c5
      refine ⟨c6 (s.layoutName, layout) (by simp), fun h => hF0.mp ?_⟩
      cases hf : fabsOf p with
      | nil => rfl
      | cons x xs =>
        obtain ⟨e, h3, h4⟩ := c5 (by rw [hf]; nofun)
        simp only [List.getLast?_append, List.getLast?_singleton, Option.some_or, Option.some.injEq] at h3
        rw [← h3] at h4
        exact absurd h h4
  rw [hok]
  exact ⟨fun h => c102_kept ⟨surv, hg.ids, hg.images, hg.sounds, hg.fonts, dist, hg.valid, hg.date, h⟩,
    c102_lost surv hg.ids dist hg.valid hg.date⟩

/-- C102: as soon as a view is put on a screen that is not the last one, or with a custom view in the project, what is saved can never be
opened. -/
theorem c102_view_not_last {p : SketchwareProject} {t : Date.DateTime} (hg : c102_Good p t) {before after : List Screen} {s : Screen}
    (hp : p.screens = before ++ s :: after) (hlast : after ≠ [] ∨ p.customViews ≠ [])
    (layout : List View) (hne : layout ≠ []) (htree : parseRawLayout ⟨flattenViews layout none none⟩ = .ok layout) :
    ∃ q raw, (p.withScreen before { s with layout } after).toParsed = .ok q ∧ q.tryIntoRaw none = .ok raw ∧
      ∀ ex q', Swrs.SketchwareProject.parseFrom ex raw ≠ .ok q' := by
  obtain ⟨hm, hsv, hc, hss⟩ := c102_part hg (s := s) (by simp [hp])
  obtain ⟨surv, dist, -, -⟩ := c102_replaced hg (s' := { s with layout }) hp rfl rfl hm
    ⟨htree, hsv.fab, hsv.moreBlocks, hsv.onCreate, hsv.moreCode, hsv.eventCode, hsv.shared, hsv.moreShared⟩ hc Iff.rfl
  have hnames : (layoutsOf (p.withScreen before { s with layout } after)).map (·.1) = (layoutsOf p).map (·.1) := by
    simp [layoutsOf, SketchwareProject.withScreen, hp]
  have hin : ∃ e ∈ (layoutsOf (p.withScreen before { s with layout } after)).dropLast, e.2 ≠ [] := by
    refine ⟨(s.layoutName, layout), ?_, hne⟩
    have hr : (after.map fun s => (s.layoutName, s.layout)) ++ (p.customViews.map fun c => (c.resName, c.layout)) ≠ [] := by
      rcases hlast with h | h <;> simp [h]
    have : layoutsOf (p.withScreen before { s with layout } after) = (before.map fun s => (s.layoutName, s.layout)) ++
        ((s.layoutName, layout) :: ((after.map fun s => (s.layoutName, s.layout)) ++ p.customViews.map fun c => (c.resName, c.layout))) := by
      simp [layoutsOf, SketchwareProject.withScreen]
    rw [this, List.dropLast_append_of_ne_nil (by simp), List.dropLast_cons_of_ne_nil hr]
    simp
  obtain ⟨q, raw, h1, h2, -⟩ := c102_lost surv hg.ids dist hg.valid hg.date
    (fun h => by obtain ⟨e, he, he2⟩ := hin; exact he2 (h.onlyLast e he)) (fun _ => true)
  refine ⟨q, raw, h1, h2, fun ex q' => c92_two_layouts ex _ q h1 dist.layouts dist.logics ?_ hin none raw h2 q'⟩
  intro e he
  have : e.1 ∈ (layoutsOf p).map (·.1) := hnames ▸ List.mem_map_of_mem he
  obtain ⟨e', he', hee⟩ := List.mem_map.mp this
  rw [← hee]
  exact hg.saved.names e' he'

/-! ### Projects that are edited -/

theorem c102_project : c102_Good (c92_project [] [] [c92_button]) ⟨2022, 12, 31, 23, 59, 58⟩ :=
  ⟨c92_project_survives (.inr rfl), rfl, by simp [c92_project, bareApi, LMap.keys], by simp [c92_project, bareApi, LMap.keys],
    by simp [c92_project, bareApi, LMap.keys], c92_project_distinct _ _ _, by decide +kernel,
    by show _ = (1672531198 : UInt64).toInt64.toInt; decide +kernel, c92_project_saved⟩

/-- The second screen of the project of `c102_project`. -/
def c102_second : Screen :=
  { namedScreen (s% "DebugScreenActivity") [(s% "x", ⟨s% "x", .integer⟩)] with layoutName := s% "debug_screen", layout := [] }

theorem c102_screens : (c92_project [] [] [c92_button]).screens = [{ survivingScreen with layout := [] }] ++ c102_second :: [] := rfl

/-- What `c102_variable_added` asks for is met: a variable `counter` is added to a project with two screens and a custom view, and it is there
after saving and opening. -/
example (ex : PathBuf → Bool) (rnd : ResourceType → Nat → UInt32) :
    c102_Kept ex rnd ((c92_project [] [] [c92_button]).withScreen [{ survivingScreen with layout := [] }]
      { c102_second with variables := c102_second.variables.insert (s% "counter") ⟨s% "counter", .integer⟩ } []) :=
  (c102_variable_added c102_project c102_screens (s% "counter") .integer (by
    show s% "counter" ∉ [s% "x"]
    decide)).1 ⟨by decide, by unfold c92_Closed; decide +kernel⟩ ex rnd

/-- Neither is the other case empty: a variable `c ` is not. -/
example (ex : PathBuf → Bool) :
    c102_Lost ex ((c92_project [] [] [c92_button]).withScreen [{ survivingScreen with layout := [] }]
      { c102_second with variables := c102_second.variables.insert (s% "c ") ⟨s% "c ", .integer⟩ } []) :=
  (c102_variable_added c102_project c102_screens (s% "c ") .integer (by
    show s% "c " ∉ [s% "x"]
    decide)).2 (by unfold c92_Closed; decide +kernel) ex

/-- The full property C102 is false of the code: with a button put on its first screen, a project that was fine is saved as something that can
not be opened any more. -/
theorem c102_view_false : ∃ (p : SketchwareProject) (t : Date.DateTime) (s : Screen) (after : List Screen) (q : Swrs.SketchwareProject)
    (raw : RawSketchwareProject), c102_Good p t ∧ p.screens = s :: after ∧
      (p.withScreen [] { s with layout := [c92_button] } after).toParsed = .ok q ∧ q.tryIntoRaw none = .ok raw ∧
      ∀ ex q', Swrs.SketchwareProject.parseFrom ex raw ≠ .ok q' := by
  obtain ⟨q, raw, h⟩ := c102_view_not_last c102_project (before := []) (s := { survivingScreen with layout := [] }) (after := [c102_second]) rfl
    (.inl (by simp)) [c92_button] (by simp) c92_button_read
  exact ⟨_, _, _, [c102_second], q, raw, c102_project, rfl, h⟩

/-- C102: nor is it always safe to remove something: with `x` removed from the variables `a ` and `x`, the last name is `a `, whose blank is lost. -/
theorem c102_remove_false : ∃ (p : SketchwareProject) (t : Date.DateTime) (before after : List Screen) (s : Screen),
    c102_Good p t ∧ p.screens = before ++ s :: after ∧
      ∀ ex, c102_Lost ex (p.withScreen before { s with variables := s.variables.erase (s% "x") } after) := by
  have h := (c102_variables c102_project c102_screens [(s% "a ", ⟨s% "a ", .integer⟩), (s% "x", ⟨s% "x", .integer⟩)]
    (by simp [LMap.keys]) (by simp)).1 ⟨by decide, by
      intro e he
      cases he
      show c92_Closed (s% "x")
      unfold c92_Closed
      decide +kernel⟩
  refine ⟨_, _, [{ survivingScreen with layout := [] }], [], _, h, rfl, ?_⟩
  refine (c102_variables h (before := [{ survivingScreen with layout := [] }]) (after := []) rfl [(s% "a ", ⟨s% "a ", .integer⟩)]
    (by simp [LMap.keys]) (by simp)).2 ?_
  rintro ⟨-, h2⟩
  exact absurd (h2 (s% "a ", ⟨s% "a ", .integer⟩) rfl) (by unfold c92_Closed; decide +kernel)

/-- What `c102_event_code` asks for is met: the code of `onCreate` is replaced by another block. -/
example (ex : PathBuf → Bool) (rnd : ResourceType → Nat → UInt32) : ∃ e b, survivingScreen.events = e :: b ∧
    c102_Kept ex rnd ((c92_project [] [] [c92_button]).withScreen []
      { survivingScreen with layout := [], events := { e with code := [exLeaf (s% "c")] } :: b } [c102_second]) :=
  ⟨_, _, rfl, (c102_event_code c102_project (before := []) (s := { survivingScreen with layout := [] }) (after := [c102_second]) rfl (a := []) rfl
    [exLeaf (s% "c")] (survivingScreen_survives.moreCode _ (List.mem_singleton_self _))).1 nofun ex rnd⟩

/-- The project of `c102_project` without its custom view. -/
theorem c102_plain : c102_Good { c92_project [] [] [] with customViews := [] } ⟨2022, 12, 31, 23, 59, 58⟩ := by
  obtain ⟨h1, h2, h3, h4, h5, h6, h7, h8, h9⟩ := c102_project
  refine ⟨⟨⟨h1.names.java, h1.names.distinct⟩, h1.screens, nofun, List.nodup_nil, nofun, h1.resources⟩, h2, h3, h4, h5,
    ⟨?_, h6.logics, h6.maps, h6.code⟩, h7, h8, ?_⟩
  · show [s% "main", s% "debug_screen"].Nodup
    decide
  · have hl : layoutsOf { c92_project [] [] [] with customViews := [] } = [(s% "main", []), (s% "debug_screen", [])] := rfl
    refine ⟨h9.date, .inr rfl, ?_, ?_, ?_, ?_, nofun, h9.screens, h9.code⟩
    · rw [hl]; simp
    · rw [hl]; simp
    · intro h; exact absurd rfl h
    · rw [hl]
      intro e he w hw
      simp only [List.mem_cons, List.not_mem_nil, or_false] at he
      rcases he with rfl | rfl <;> cases hw

/-- What `c102_layout_last` asks for is met: a button on the last screen is there after saving and opening. -/
example (ex : PathBuf → Bool) (rnd : ResourceType → Nat → UInt32) :
    c102_Kept ex rnd (({ c92_project [] [] [] with customViews := [] } : SketchwareProject).withScreen [{ survivingScreen with layout := [] }]
      { c102_second with layout := [c92_button] } []) :=
  (c102_layout_last c102_plain (before := [{ survivingScreen with layout := [] }]) (s := c102_second) rfl rfl [c92_button] c92_button_read).1
    ⟨by
      rw [c92_button_written]
      intro w hw
      simp only [List.mem_singleton] at hw
      subst hw
      exact (AndroidView.parse_reconstruct_iff _).mpr (newEmpty_storable _ _ _ _), nofun⟩ ex rnd

/-- What `c102_settings` asks for is met: another name and another date of creation. -/
example (ex : PathBuf → Bool) (rnd : ResourceType → Nat → UInt32) (colors : Colors) (libraries : Libraries) :
    c102_Kept ex rnd { c92_project [] [] [c92_button] with
      metadata := ⟨1, s% "other", s% "ws", s% "pkg", 1672531199, 150, s% "1.1", 2⟩, colors, libraries } :=
  (c102_settings c102_project (t' := ⟨2022, 12, 31, 23, 59, 59⟩) ⟨1, s% "other", s% "ws", s% "pkg", 1672531199, 150, s% "1.1", 2⟩ colors libraries
    (by decide +kernel) (by show _ = (1672531199 : UInt64).toInt64.toInt; decide +kernel)).1 (by unfold Date.FullWidth; simp) ex rnd
end
end Swrs.Api
