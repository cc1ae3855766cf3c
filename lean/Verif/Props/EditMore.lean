import Verif.Props.EditSaved
/-!
# C102: more edits that are saved and opened again
-/
set_option linter.unusedSectionVars false
namespace Swrs.Api
section
variable [MapPol] [FloatLaws]

/-! ## C102 — An edit is still there after saving and opening -/

/-- No screen with code comes after one without. -/
theorem c102_order (l : List Screen) :
    (∀ pre x post, l = pre ++ x :: post → codeOfScreen x = [] → ∀ u ∈ post, codeOfScreen u = []) ↔
      l.Pairwise fun x u => codeOfScreen x = [] → codeOfScreen u = [] := by
  induction l with
  | nil => simp
  | cons a l ih =>
    rw [List.pairwise_cons, ← ih]
    constructor
    · intro h
      exact ⟨fun u hu ha => h [] a l rfl ha u hu, fun pre x post hl => h (a :: pre) x post (by rw [hl]; rfl)⟩
    · rintro ⟨h1, h2⟩ pre x post hl hx u hu
      cases pre with
      | nil => cases hl; exact h1 u hu hx
      | cons y pre => cases hl; exact h2 pre x post rfl hx u hu

/-- A screen is replaced by one with other code: what is left to look at. -/
theorem c102_code {p : SketchwareProject} {t : Date.DateTime} (hg : c102_Good p t) {before after : List Screen} {s s' : Screen}
    (hp : p.screens = before ++ s :: after) (hn : s'.layoutName = s.layoutName) (hj : s'.javaName = s.javaName)
    (hl : s'.layout = s.layout) (hf : s'.fab = s.fab)
    (hm : s'.variables.keys.Nodup ∧ s'.listVariables.keys.Nodup ∧ s'.moreBlocks.keys.Nodup ∧ s'.components.keys.Nodup)
    (hs : s'.Survives) (hc : ((codeOfScreen s').map (·.1)).Nodup) (he : codeOfScreen s' ≠ []) :
    let ok := c92_ScreenSaved s' ∧ ∀ x ∈ before, codeOfScreen x ≠ []
    (ok → c102_Good (p.withScreen before s' after) t) ∧ (¬ ok → ∀ ex, c102_Lost ex (p.withScreen before s' after)) := by
  intro ok
  have hmem : ∀ x, x ∈ before ++ s' :: after → x = s' ∨ x ∈ p.screens := by
    intro x hx
    rw [hp]
    simp only [List.mem_append, List.mem_cons] at hx ⊢
    rcases hx with h | h | h
    · exact .inr (.inl h)
    · exact .inl h
    · exact .inr (.inr (.inr h))
  have hjs : (before ++ s' :: after).map (·.javaName) = p.screens.map (·.javaName) := by simp [hp, hj]
  have hL : layoutsOf (p.withScreen before s' after) = layoutsOf p := by
    simp [layoutsOf, SketchwareProject.withScreen, hp, hn, hl]
  have hF : fabsOf (p.withScreen before s' after) = fabsOf p := by
    simp [fabsOf, SketchwareProject.withScreen, hp, List.filterMap_append, List.filterMap_cons, hn, hf]
  have hsin : s ∈ p.screens := by simp [hp]
  have surv : (p.withScreen before s' after).Survives := by
    obtain ⟨⟨a1, a2⟩, a3, a4, a5, a6, a7⟩ := hg.survives
    refine ⟨⟨?_, ?_⟩, ?_, a4, a5, ?_, a7⟩
    · intro x hx
      rcases hmem x hx with rfl | hx
      · rw [hj, hn]; exact a1 s hsin
      · exact a1 x hx
    · exact hjs ▸ a2
    · intro x hx
      rcases hmem x hx with rfl | hx
      · exact ⟨hm.2.2.1, hm.2.2.2, hs⟩
      · exact a3 x hx
    · intro c hc x hx
      rcases hmem x hx with rfl | hx
      · rw [hn]; exact a6 c hc s hsin
      · exact a6 c hc x hx
  have dist : c92_Distinct (p.withScreen before s' after) := by
    obtain ⟨a1, a2, a3, a4⟩ := hg.distinct
    refine ⟨hL ▸ a1, hjs ▸ a2, ?_, ?_⟩
    · intro x hx
      rcases hmem x hx with rfl | hx
      · exact ⟨hm.1, hm.2.1, hm.2.2.1⟩
      · exact a3 x hx
    · intro x hx
      rcases hmem x hx with rfl | hx
      · exact hc
      · exact a4 x hx
  have hok : ok ↔ c92_Saved (p.withScreen before s' after) t := by
    obtain ⟨a1, a2, a3, a4, a5, a6, a7, a8, a9⟩ := hg.saved
    rw [c102_order, hp, List.pairwise_append, List.pairwise_cons] at a9
    have hord : (before ++ s' :: after).Pairwise (fun x u => codeOfScreen x = [] → codeOfScreen u = []) ↔
        ∀ x ∈ before, codeOfScreen x ≠ [] := by
      rw [List.pairwise_append, List.pairwise_cons]
      constructor
      · rintro ⟨-, -, h⟩ x hx hxe
        exact he (h x hx s' (by simp) hxe)
      · intro h
        refine ⟨a9.1, ⟨fun _ _ h => absurd h he, a9.2.1.2⟩, fun x hx u _ hxe => absurd hxe (h x hx)⟩
    constructor
    · rintro ⟨h1, h2⟩
      refine ⟨a1, .inl (by simp [SketchwareProject.withScreen]), hL ▸ a3, hL ▸ a4, hF ▸ hL ▸ a5, hL ▸ a6, hF ▸ a7, ?_,
        (c102_order _).mpr (hord.mpr h2)⟩
      intro x hx
      rcases hmem x hx with rfl | hx
      · exact h1
      · exact a8 x hx
    · intro h
      exact ⟨h.screens s' (by simp [SketchwareProject.withScreen]), hord.mp ((c102_order _).mp h.code)⟩
  exact ⟨fun h => ⟨surv, hg.ids, hg.images, hg.sounds, hg.fonts, dist, hg.valid, hg.date, hok.mp h⟩,
    fun h => c102_lost surv hg.ids dist hg.valid hg.date fun h' => h (hok.mpr h')⟩

/-- C102: an event that is added, whose code is read back from its blocks and whose container is a new one, is kept exactly if every
earlier screen has code, the name of its container is one line and cannot be taken for the header of a pool, and an event without code that
is the last one has not a name that ends with white space. -/
theorem c102_event_added {p : SketchwareProject} {t : Date.DateTime} (hg : c102_Good p t) {before after : List Screen} {s : Screen}
    (hp : p.screens = before ++ s :: after) (e : Event) (hname : e.name ≠ s% "onCreate")
    (hid : e.containerId ≠ s% "onCreate_initializeLogic") (hcode : CodeSurvives e.code)
    (hnew : e.containerId ∉ (codeOfScreen s).map (·.1)) :
    let p' := p.withScreen before { s with events := s.events ++ [e] } after
    let ok := (∀ x ∈ before, codeOfScreen x ≠ []) ∧ (¬ (s% ".java_") <:+: s.javaName ∧ ¬ (s% ".java_") <:+: e.containerId ∧
      '\n' ∉ e.containerId ∧ ∀ w ∈ [s% "var", s% "list", s% "components", s% "events", s% "func"],
        e.containerId ≠ w ∧ ¬ (s% "java_" ++ w) <:+ e.containerId) ∧
      (e.code = [] → s.moreBlocks = [] → c92_Closed e.containerId)
    (ok → ∀ ex rnd, c102_Kept ex rnd p') ∧ (¬ ok → ∀ ex, c102_Lost ex p') := by
  intro p' ok
  obtain ⟨hm, hsv, hc, hss⟩ := c102_part hg (s := s) (by simp [hp])
  have hcs : codeOfScreen { s with events := s.events ++ [e] } = s.events.map (fun e => (e.containerId, e.code)) ++
      ((e.containerId, e.code) :: s.moreBlocks.map (fun m => (m.1 ++ s% "_moreBlock", m.2.code))) := by
    simp [codeOfScreen]
  have hnew' : e.containerId ∉ s.events.map (·.containerId) ∧ ∀ m ∈ s.moreBlocks, e.containerId ≠ m.1 ++ s% "_moreBlock" := by
    rw [codeOfScreen, List.map_append, List.mem_append, List.map_map, List.map_map] at hnew
    exact ⟨fun h => hnew (.inl h), fun m hm h => hnew (.inr (List.mem_map.mpr ⟨m, hm, h.symm⟩))⟩
  have hc' : ((codeOfScreen { s with events := s.events ++ [e] }).map (·.1)).Nodup := by
    have h1 := hc
    rw [hcs]
    rw [codeOfScreen] at h1
    rw [List.map_append, List.map_cons, List.nodup_append, List.nodup_cons]
    rw [List.map_append, List.nodup_append] at h1
    obtain ⟨h1, h2, h3⟩ := h1
    refine ⟨h1, ⟨?_, h2⟩, ?_⟩
    · intro h
      rw [List.map_map] at h
      obtain ⟨m, hm, h⟩ := List.mem_map.mp h
      exact hnew'.2 m hm h.symm
    · intro a ha b hb
      rcases List.mem_cons.mp hb with rfl | hb
      · rintro rfl
        rw [List.map_map] at ha
        exact hnew'.1 ha
      · exact h3 a ha b hb
  have hsv' : ({ s with events := s.events ++ [e] } : Screen).Survives := by
    refine ⟨hsv.layout, hsv.fab, hsv.moreBlocks, ?_, hsv.moreCode, ?_, ?_, ?_⟩
    · rcases hsv.onCreate with ⟨c, rest, h1, h2⟩ | h
      · refine .inl ⟨c, rest ++ [e], by simp [h1], fun y hy => ?_⟩
        rcases List.mem_append.mp hy with hy | hy
        · exact h2 y hy
        · rw [List.mem_singleton.mp hy]; exact hname
      · refine .inr fun y hy => ?_
        rcases List.mem_append.mp hy with hy | hy
        · exact h y hy
        · rw [List.mem_singleton.mp hy]; exact ⟨hname, hid⟩
    · intro y hy
      rcases List.mem_append.mp hy with hy | hy
      · exact hsv.eventCode y hy
      · rw [List.mem_singleton.mp hy]; exact hcode
    · refine List.pairwise_append.mpr ⟨hsv.shared, by simp, fun a ha b hb hab => ?_⟩
      rw [List.mem_singleton.mp hb] at hab
      exact absurd (List.mem_map.mpr ⟨a, ha, hab⟩) hnew'.1
    · intro y hy m hmm
      rcases List.mem_append.mp hy with hy | hy
      · exact hsv.moreShared y hy m hmm
      · rw [List.mem_singleton.mp hy]
        exact fun h => absurd h (hnew'.2 m hmm)
  obtain ⟨k1, k2⟩ := c102_code hg (s' := { s with events := s.events ++ [e] }) hp rfl rfl rfl rfl hm hsv' hc' (by rw [hcs]; simp)
  have hlast : (∀ x, (codeOfScreen { s with events := s.events ++ [e] }).getLast? = some x → x.2 = [] → c92_Closed x.1) ↔
      (e.code = [] → s.moreBlocks = [] → c92_Closed e.containerId) := by
    have hold := hss.lastCode
    rw [hcs]
    rw [codeOfScreen] at hold
    cases hml : s.moreBlocks.getLast? with
    | none =>
      have hnil : s.moreBlocks = [] := List.getLast?_eq_none_iff.mp hml
      rw [hnil]
      simp only [List.map_nil, List.getLast?_append, List.getLast?_singleton, Option.some_or, Option.some.injEq]
      exact ⟨fun h h1 _ => h _ rfl h1, fun h x hx h1 => hx ▸ h (by rw [← hx] at h1; exact h1) trivial⟩
    | some m =>
      have hne : s.moreBlocks ≠ [] := by rintro h; rw [h] at hml; cases hml
      rw [List.getLast?_append, List.getLast?_map, hml] at hold
      rw [List.getLast?_append, List.getLast?_cons, List.getLast?_map, hml]
      exact ⟨fun _ _ h => absurd h hne, fun _ => hold⟩
  have hok : ok ↔ (c92_ScreenSaved { s with events := s.events ++ [e] } ∧ ∀ x ∈ before, codeOfScreen x ≠ []) := by
    constructor
    · rintro ⟨h1, h2, h3⟩
      refine ⟨⟨hss.name, hss.variables, hss.listVariables, hss.moreBlocks, ?_, hlast.mpr h3⟩, h1⟩
      intro x hx
      rw [hcs] at hx
      simp only [List.mem_append, List.mem_cons] at hx
      rcases hx with hx | rfl | hx
      · exact hss.code x (List.mem_append_left _ hx)
      · exact h2
      · exact hss.code x (List.mem_append_right _ hx)
    · rintro ⟨h1, h2⟩
      exact ⟨h2, h1.code (e.containerId, e.code) (by rw [hcs]; simp), hlast.mp h1.lastCode⟩
  rw [hok]
  exact ⟨fun h => c102_kept (k1 h), k2⟩

/-- C102: a moreblock that is added, whose spec and code are read back, is kept exactly if every earlier screen has code, its name and the
text of its spec are one line each, the name has no colon and gives a header that is told apart from others, the spec does not end with white
space, and the name does not begin with white space if it is the first moreblock. -/
theorem c102_moreblock_added {p : SketchwareProject} {t : Date.DateTime} (hg : c102_Good p t) {before after : List Screen} {s : Screen}
    (hp : p.screens = before ++ s :: after) (m : MoreBlock)
    (hspec : BlockContent.parseWoParams (BlockContent.text m.spec) = .ok m.spec) (hcode : CodeSurvives m.code)
    (hkey : m.name ∉ s.moreBlocks.keys) (hnew : m.name ++ s% "_moreBlock" ∉ (codeOfScreen s).map (·.1)) :
    let p' := p.withScreen before { s with moreBlocks := s.moreBlocks.insert m.name m } after
    let ok := (∀ x ∈ before, codeOfScreen x ≠ []) ∧ ('\n' ∉ m.name ∧ '\n' ∉ BlockContent.text m.spec ∧ ':' ∉ m.name) ∧
      (¬ (s% ".java_") <:+: s.javaName ∧ ¬ (s% ".java_") <:+: (m.name ++ s% "_moreBlock")) ∧
      c92_Closed (BlockContent.text m.spec) ∧ (s.moreBlocks = [] → ∀ c, m.name.head? = some c → isWs c = false)
    (ok → ∀ ex rnd, c102_Kept ex rnd p') ∧ (¬ ok → ∀ ex, c102_Lost ex p') := by
  intro p' ok
  obtain ⟨hm, hsv, hc, hss⟩ := c102_part hg (s := s) (by simp [hp])
  have hi := LMap.insert_new hkey m
  have hcs : codeOfScreen { s with moreBlocks := s.moreBlocks.insert m.name m } =
      codeOfScreen s ++ [(m.name ++ s% "_moreBlock", m.code)] := by
    simp [codeOfScreen, hi]
  have hmem : ∀ x, x ∈ s.moreBlocks.insert m.name m ↔ x ∈ s.moreBlocks ∨ x = (m.name, m) := by
    intro x; rw [hi, List.mem_append, List.mem_singleton]
  have hc' : ((codeOfScreen { s with moreBlocks := s.moreBlocks.insert m.name m }).map (·.1)).Nodup := by
    rw [hcs, List.map_append, List.nodup_append]
    refine ⟨hc, by simp, fun a ha b hb hab => ?_⟩
    simp only [List.map_cons, List.map_nil, List.mem_singleton] at hb
    exact hnew (hb ▸ hab ▸ ha)
  have hsv' : ({ s with moreBlocks := s.moreBlocks.insert m.name m } : Screen).Survives := by
    refine ⟨hsv.layout, hsv.fab, ?_, hsv.onCreate, ?_, hsv.eventCode, hsv.shared, ?_⟩
    · intro x hx
      rcases (hmem x).mp hx with hx | rfl
      · exact hsv.moreBlocks x hx
      · exact ⟨rfl, hspec⟩
    · intro x hx
      rcases (hmem x).mp hx with hx | rfl
      · exact hsv.moreCode x hx
      · exact hcode
    · intro e he x hx
      rcases (hmem x).mp hx with hx | rfl
      · exact hsv.moreShared e he x hx
      · intro h
        refine absurd (List.mem_map.mpr ⟨(e.containerId, e.code), ?_, h⟩) hnew
        exact List.mem_append_left _ (List.mem_map.mpr ⟨e, he, rfl⟩)
  obtain ⟨k1, k2⟩ := c102_code hg (s' := { s with moreBlocks := s.moreBlocks.insert m.name m }) hp rfl rfl rfl rfl
    ⟨hm.1, hm.2.1, LMap.nodup_insert hm.2.2.1 _ _, hm.2.2.2⟩ hsv' hc' (by rw [hcs]; simp)
  have hlastc : (m.name ++ s% "_moreBlock").getLast? = some 'k' := by simp [List.getLast?_append]
  have hpool : ∀ w ∈ c28_poolWords, m.name ++ s% "_moreBlock" ≠ w ∧ ¬ (s% "java_" ++ w) <:+ (m.name ++ s% "_moreBlock") := by
    intro w hw
    have hwl : w.getLast? ≠ some 'k' ∧ w ≠ [] := by
      revert w; decide
    refine ⟨fun h => hwl.1 (h ▸ hlastc), ?_⟩
    rintro ⟨a, ha⟩
    rw [← ha, ← List.append_assoc, List.getLast?_append] at hlastc
    cases hh : w.getLast? with
    | none => exact hwl.2 (List.getLast?_eq_none_iff.mp hh)
    | some c => rw [hh] at hlastc; exact hwl.1 (hh.trans hlastc)
  have hok : ok ↔ (c92_ScreenSaved { s with moreBlocks := s.moreBlocks.insert m.name m } ∧ ∀ x ∈ before, codeOfScreen x ≠ []) := by
    constructor
    · rintro ⟨h1, h2, h3, h4, h5⟩
      refine ⟨⟨hss.name, hss.variables, hss.listVariables, ⟨?_, ?_, ?_⟩, ?_, ?_⟩, h1⟩
      · intro x hx
        rcases (hmem x).mp hx with hx | rfl
        · exact hss.moreBlocks.1 x hx
        · exact ⟨rfl, h2⟩
      · show ∀ e, (s.moreBlocks.insert m.name m).head? = some e → _
        rw [hi]
        cases hsm : s.moreBlocks with
        | nil => intro e he; cases he; exact h5 hsm
        | cons y l => intro e he; cases he; exact hss.moreBlocks.2.1 y (by rw [hsm]; rfl)
      · show ∀ e, (s.moreBlocks.insert m.name m).getLast? = some e → _
        rw [hi, List.getLast?_append]
        intro e he
        cases he
        exact h4
      · intro x hx
        rw [hcs] at hx
        rcases List.mem_append.mp hx with hx | hx
        · exact hss.code x hx
        · rw [List.mem_singleton.mp hx]
          exact ⟨h3.1, h3.2, by simp [h2.1], hpool⟩
      · rw [hcs, List.getLast?_append]
        intro x hx _
        cases hx
        intro c hc
        have hc := hlastc.symm.trans hc
        cases hc; decide
    · rintro ⟨h1, h2⟩
      have h3 := h1.moreBlocks.1 (m.name, m) ((hmem _).mpr (.inr rfl))
      have h4 := h1.code (m.name ++ s% "_moreBlock", m.code) (by rw [hcs]; simp)
      refine ⟨h2, h3.2, ⟨h4.1, h4.2.1⟩, ?_, ?_⟩
      · refine h1.moreBlocks.2.2 (m.name, m) ?_
        show (s.moreBlocks.insert m.name m).getLast? = _
        rw [hi, List.getLast?_append]; rfl
      · intro hsm
        refine h1.moreBlocks.2.1 (m.name, m) ?_
        show (s.moreBlocks.insert m.name m).head? = _
        rw [hi, hsm]; rfl
  rw [hok]
  exact ⟨fun h => c102_kept (k1 h), k2⟩

/-- C102: a FAB that is put on a screen is kept exactly if its record is read back and the last layout of the project (the one of the last
screen, or of the last custom view if there is one) has views. -/
theorem c102_fab {p : SketchwareProject} {t : Date.DateTime} (hg : c102_Good p t) {before after : List Screen} {s : Screen}
    (hp : p.screens = before ++ s :: after) (v : View) (hv : View.ofRaw (fabBack v) = v) :
    let p' := p.withScreen before { s with fab := some v } after
    let last := (p.screens.map (·.layout) ++ p.customViews.map (·.layout)).getLast?
    let ok := AndroidView.parse (fabBack v).reconstruct = some (fabBack v) ∧ ∃ l, last = some l ∧ l ≠ []
    (ok → ∀ ex rnd, c102_Kept ex rnd p') ∧ (¬ ok → ∀ ex, c102_Lost ex p') := by
  intro p' last ok
  obtain ⟨hm, hsv, hc, hss⟩ := c102_part hg (s := s) (by simp [hp])
  obtain ⟨surv, dist, b8, b9⟩ := c102_replaced hg (s' := { s with fab := some v }) hp rfl rfl hm
    ⟨hsv.layout, fun w hw => by cases hw; exact hv, hsv.moreBlocks, hsv.onCreate, hsv.moreCode, hsv.eventCode, hsv.shared, hsv.moreShared⟩ hc Iff.rfl
  have hL : layoutsOf p' = layoutsOf p := by simp [layoutsOf, p', SketchwareProject.withScreen, hp]
  have hlast : last = (layoutsOf p).getLast?.map (·.2) := by
    rw [← List.getLast?_map, layoutsOf, List.map_append, List.map_map, List.map_map]; rfl
  have hFm : (s.layoutName, v) ∈ fabsOf p' := by
    simp only [fabsOf, p', SketchwareProject.withScreen, List.mem_filterMap]
    exact ⟨{ s with fab := some v }, by simp, rfl⟩
  have hFo : ∀ e ∈ fabsOf p', e = (s.layoutName, v) ∨ e ∈ fabsOf p := by
    intro e he
    simp only [fabsOf, p', SketchwareProject.withScreen, List.mem_filterMap] at he
    obtain ⟨x, hx, h⟩ := he
    simp only [List.mem_append, List.mem_cons] at hx
    have hin : x ∈ p.screens → e ∈ fabsOf p := fun hx => List.mem_filterMap.mpr ⟨x, hx, h⟩
    rcases hx with hx | rfl | hx
    · exact .inr (hin (by simp [hp, hx]))
    · exact .inl (by cases h; rfl)
    · exact .inr (hin (by simp [hp, hx]))
  obtain ⟨a1, a2, a3, a4, a5, a6, a7, a8, a9⟩ := hg.saved
  have hok : ok ↔ c92_Saved p' t := by
    constructor
    · rintro ⟨h1, l, h2, h3⟩
      refine ⟨a1, .inl (by simp [p', SketchwareProject.withScreen]), hL ▸ a3, hL ▸ a4, ?_, hL ▸ a6, ?_, b8 ⟨hss.name, hss.variables,
        hss.listVariables, hss.moreBlocks, hss.code, hss.lastCode⟩, b9⟩
      · intro _
        rw [hlast] at h2
        obtain ⟨e, he, rfl⟩ := Option.map_eq_some_iff.mp h2
        exact ⟨e, hL ▸ he, h3⟩
      · intro e he
        rcases hFo e he with rfl | he
        · exact h1
        · exact a7 e he
    · intro h
      obtain ⟨e, he, hne⟩ := h.fabs (List.ne_nil_of_mem hFm)
      rw [hL] at he
      refine ⟨h.fabViews (s.layoutName, v) hFm, e.2, ?_, hne⟩
      rw [hlast, he, Option.map_some]
  rw [hok]
  exact ⟨fun h => c102_kept ⟨surv, hg.ids, hg.images, hg.sounds, hg.fonts, dist, hg.valid, hg.date, h⟩,
    fun h => c102_lost surv hg.ids dist hg.valid hg.date h⟩

/-- C102: whatever is done to the images, sounds and fonts of a project, as long as no id is used twice in one of the three lists and
every file has a name, its ids are there after saving and opening, and nothing else has changed. -/
theorem c102_resources {p : SketchwareProject} {t : Date.DateTime} (hg : c102_Good p t) (resources : Resources)
    (hk : resources.images.keys.Nodup ∧ resources.sounds.keys.Nodup ∧ resources.fonts.keys.Nodup)
    (hn : ∀ m ∈ [resources.images, resources.sounds, resources.fonts], ∀ e ∈ m, ∃ n, (e.2.getFullName : Out Empty Str) = .ok n)
    (ex : PathBuf → Bool) (rnd : ResourceType → Nat → UInt32) : c102_Kept ex rnd { p with resources } := by
  refine c102_kept (p := { p with resources }) (t := t) ⟨⟨⟨hg.survives.names.java, hg.survives.names.distinct⟩, hg.survives.screens, hg.survives.customViews,
    hg.survives.customViewNames, hg.survives.apart, hn⟩, hg.ids, hk.1, hk.2.1, hk.2.2,
    ⟨hg.distinct.layouts, hg.distinct.logics, hg.distinct.maps, hg.distinct.code⟩, hg.valid, hg.date, ?_⟩ ex rnd
  obtain ⟨a1, a2, a3, a4, a5, a6, a7, a8, a9⟩ := hg.saved
  exact ⟨a1, a2, a3, a4, a5, a6, a7, a8, a9⟩

/-- C102: a custom view that is added at the end, with a new name and views that are read back as a tree, is kept exactly if there is a
screen, its name has no dot and no line break, its records are read back, it is not empty when there is a FAB, and no other layout has
views. -/
theorem c102_custom_view_added {p : SketchwareProject} {t : Date.DateTime} (hg : c102_Good p t) (c : CustomView)
    (htree : parseRawLayout ⟨flattenViews c.layout none none⟩ = .ok c.layout)
    (hnew : c.resName ∉ p.screens.map (·.layoutName) ++ p.customViews.map (·.resName)) :
    let p' : SketchwareProject := { p with customViews := p.customViews ++ [c] }
    let ok := p.screens ≠ [] ∧ ('.' ∉ c.resName ∧ '\n' ∉ c.resName) ∧
      (∀ w ∈ flattenViews c.layout none none, AndroidView.parse w.reconstruct = some w) ∧
      (c.layout = [] → ∀ s ∈ p.screens, s.fab = none) ∧ (∀ s ∈ p.screens, s.layout = []) ∧ ∀ d ∈ p.customViews, d.layout = []
    (ok → ∀ ex rnd, c102_Kept ex rnd p') ∧ (¬ ok → ∀ ex, c102_Lost ex p') := by
  intro p' ok
  have hL : layoutsOf p' = layoutsOf p ++ [(c.resName, c.layout)] := by simp [layoutsOf, p']
  have hF : fabsOf p' = fabsOf p := rfl
  have hF0 : fabsOf p = [] ↔ ∀ x ∈ p.screens, x.fab = none := by simp [fabsOf]
  have hN : (layoutsOf p).map (·.1) = p.screens.map (·.layoutName) ++ p.customViews.map (·.resName) := by
    rw [layoutsOf, List.map_append, List.map_map, List.map_map]; rfl
  rw [List.mem_append, not_or] at hnew
  have surv : p'.Survives := by
    obtain ⟨⟨a1, a2⟩, a3, a4, a5, a6, a7⟩ := hg.survives
    refine ⟨⟨a1, a2⟩, a3, ?_, ?_, ?_, a7⟩
    · intro d hd
      rcases List.mem_append.mp hd with hd | hd
      · exact a4 d hd
      · rw [List.mem_singleton.mp hd]; exact htree
    · show ((p.customViews ++ [c]).map (·.resName)).Nodup
      rw [List.map_append, List.nodup_append]
      refine ⟨a5, by simp, fun a ha b hb hab => ?_⟩
      simp only [List.map_cons, List.map_nil, List.mem_singleton] at hb
      exact hnew.2 (hb ▸ hab ▸ ha)
    · intro d hd s hs
      rcases List.mem_append.mp hd with hd | hd
      · exact a6 d hd s hs
      · rw [List.mem_singleton.mp hd]
        exact fun h => hnew.1 (List.mem_map.mpr ⟨s, hs, h.symm⟩)
  have dist : c92_Distinct p' := by
    obtain ⟨a1, a2, a3, a4⟩ := hg.distinct
    refine ⟨?_, a2, a3, a4⟩
    rw [hL, List.map_append, List.nodup_append]
    refine ⟨a1, by simp, fun a ha b hb hab => ?_⟩
    simp only [List.map_cons, List.map_nil, List.mem_singleton] at hb
    rw [hN] at ha
    rw [hab, hb] at ha
    rcases List.mem_append.mp ha with h | h
    · exact hnew.1 h
    · exact hnew.2 h
  have hempty : (∀ e ∈ layoutsOf p, e.2 = []) ↔ (∀ s ∈ p.screens, s.layout = []) ∧ ∀ d ∈ p.customViews, d.layout = [] := by
    simp only [layoutsOf, List.mem_append, List.mem_map]
    constructor
    · intro h
      exact ⟨fun s hs => h _ (.inl ⟨s, hs, rfl⟩), fun d hd => h _ (.inr ⟨d, hd, rfl⟩)⟩
    · rintro ⟨h1, h2⟩ e (⟨s, hs, rfl⟩ | ⟨d, hd, rfl⟩)
      · exact h1 s hs
      · exact h2 d hd
  obtain ⟨a1, a2, a3, a4, a5, a6, a7, a8, a9⟩ := hg.saved
  have hok : ok ↔ c92_Saved p' t := by
    constructor
    · rintro ⟨h1, h2, h3, h4, h5⟩
      refine ⟨a1, .inl h1, ?_, ?_, ?_, ?_, a7, a8, a9⟩
      · rw [hL]
        intro e he
        rcases List.mem_append.mp he with he | he
        · exact a3 e he
        · rw [List.mem_singleton.mp he]; exact h2
      · rw [hL, List.dropLast_concat]; exact hempty.mpr h5
      · rw [hL, hF]
        intro hf
        refine ⟨(c.resName, c.layout), by simp, fun h => hf (hF0.mpr (h4 h))⟩
      · rw [hL]
        intro e he
        rcases List.mem_append.mp he with he | he
        · exact a6 e he
        · rw [List.mem_singleton.mp he]; exact h3
    · intro h
      obtain ⟨b1, b2, b3, b4, b5, b6, b7, b8, b9⟩ := h
      rw [hL] at b3 b4 b5 b6
      rw [List.dropLast_concat] at b4
      refine ⟨?_, b3 (c.resName, c.layout) (by simp), b6 (c.resName, c.layout) (by simp), fun hcl => hF0.mp ?_, hempty.mp b4⟩
      · rcases b2 with b2 | b2
        · exact b2
        · exact absurd b2 (by simp [p'])
      · cases hf : fabsOf p with
        | nil => rfl
        | cons x l =>
          obtain ⟨e, he, hne⟩ := b5 (by rw [hF, hf]; simp)
          simp only [List.getLast?_append, List.getLast?_singleton, Option.some_or, Option.some.injEq] at he
          subst he
          exact absurd hcl hne
  rw [hok]
  exact ⟨fun h => c102_kept ⟨surv, hg.ids, hg.images, hg.sounds, hg.fonts, dist, hg.valid, hg.date, h⟩,
    fun h => c102_lost surv hg.ids dist hg.valid hg.date h⟩

/-! ### Projects that are edited -/

theorem c102_leaf : CodeSurvives [exLeaf (s% "c")] := survivingScreen_survives.moreCode _ (List.mem_singleton_self _)

/-- What `c102_event_added` asks for is met: an event `onClick` of `button2` is added to the first screen. -/
example (ex : PathBuf → Bool) (rnd : ResourceType → Nat → UInt32) :
    c102_Kept ex rnd ((c92_project [] [] [c92_button]).withScreen []
      { survivingScreen with layout := [], events := survivingScreen.events ++ [⟨s% "onClick", .viewEvent (s% "button2"), [exLeaf (s% "c")]⟩] }
      [c102_second]) :=
  (c102_event_added c102_project (before := []) (s := { survivingScreen with layout := [] }) (after := [c102_second]) rfl
    ⟨s% "onClick", .viewEvent (s% "button2"), [exLeaf (s% "c")]⟩ (by show s% "onClick" ≠ s% "onCreate"; decide)
    (by show s% "button2_onClick" ≠ s% "onCreate_initializeLogic"; decide) c102_leaf
    (by show s% "button2_onClick" ∉ [s% "onCreate_initializeLogic", s% "button1_onClick", s% "mb_moreBlock"]; decide)).1
    ⟨nofun, ⟨by show ¬ (s% ".java_") <:+: s% "MainActivity"; decide, by show ¬ (s% ".java_") <:+: s% "button2_onClick"; decide,
      by show '\n' ∉ s% "button2_onClick"; decide, by
        show ∀ w ∈ [s% "var", s% "list", s% "components", s% "events", s% "func"],
          s% "button2_onClick" ≠ w ∧ ¬ (s% "java_" ++ w) <:+ s% "button2_onClick"
        decide⟩, nofun⟩ ex rnd

/-- An event of a view whose name has a line break is lost. -/
example (ex : PathBuf → Bool) :
    c102_Lost ex ((c92_project [] [] [c92_button]).withScreen []
      { survivingScreen with layout := [], events := survivingScreen.events ++ [⟨s% "onClick", .viewEvent (s% "a\nb"), [exLeaf (s% "c")]⟩] }
      [c102_second]) :=
  (c102_event_added c102_project (before := []) (s := { survivingScreen with layout := [] }) (after := [c102_second]) rfl
    ⟨s% "onClick", .viewEvent (s% "a\nb"), [exLeaf (s% "c")]⟩ (by show s% "onClick" ≠ s% "onCreate"; decide)
    (by show s% "a\nb_onClick" ≠ s% "onCreate_initializeLogic"; decide) c102_leaf
    (by show s% "a\nb_onClick" ∉ [s% "onCreate_initializeLogic", s% "button1_onClick", s% "mb_moreBlock"]; decide)).2
    (fun h => absurd h.2.1.2.2.1 (by show ¬ '\n' ∉ s% "a\nb_onClick"; decide)) ex

/-- What `c102_moreblock_added` asks for is met: a moreblock `go` without parameters is added to the first screen. A colon in its name
would lose it. -/
example (ex : PathBuf → Bool) (rnd : ResourceType → Nat → UInt32) :
    c102_Kept ex rnd ((c92_project [] [] [c92_button]).withScreen []
      { survivingScreen with layout := [], moreBlocks := survivingScreen.moreBlocks.insert (s% "go") ⟨s% "go", [.text (s% "go")], [exLeaf (s% "c")]⟩ }
      [c102_second]) ∧
    c102_Lost ex ((c92_project [] [] [c92_button]).withScreen []
      { survivingScreen with layout := [], moreBlocks := survivingScreen.moreBlocks.insert (s% "g:") ⟨s% "g:", [.text (s% "go")], [exLeaf (s% "c")]⟩ }
      [c102_second]) :=
  ⟨(c102_moreblock_added c102_project (before := []) (s := { survivingScreen with layout := [] }) (after := [c102_second]) rfl
    ⟨s% "go", [.text (s% "go")], [exLeaf (s% "c")]⟩ rfl c102_leaf (by show s% "go" ∉ [s% "mb"]; decide)
    (by show s% "go_moreBlock" ∉ [s% "onCreate_initializeLogic", s% "button1_onClick", s% "mb_moreBlock"]; decide)).1
    ⟨nofun, ⟨by show '\n' ∉ s% "go"; decide, by show '\n' ∉ s% "go"; decide, by show ':' ∉ s% "go"; decide⟩,
      ⟨by show ¬ (s% ".java_") <:+: s% "MainActivity"; decide, by show ¬ (s% ".java_") <:+: s% "go_moreBlock"; decide⟩,
      by show c92_Closed (s% "go"); unfold c92_Closed; decide +kernel, nofun⟩ ex rnd,
  (c102_moreblock_added c102_project (before := []) (s := { survivingScreen with layout := [] }) (after := [c102_second]) rfl
    ⟨s% "g:", [.text (s% "go")], [exLeaf (s% "c")]⟩ rfl c102_leaf (by show s% "g:" ∉ [s% "mb"]; decide)
    (by show s% "g:_moreBlock" ∉ [s% "onCreate_initializeLogic", s% "button1_onClick", s% "mb_moreBlock"]; decide)).2
    (fun h => absurd h.2.1.2.2 (by show ¬ ':' ∉ s% "g:"; decide)) ex⟩

/-- The first custom view is kept even with a button; a second one without views then makes the whole project unreadable. -/
example (ex : PathBuf → Bool) (rnd : ResourceType → Nat → UInt32) :
    c102_Kept ex rnd { c92_project [] [] [] with customViews := [⟨s% "item", [c92_button]⟩] } ∧
    c102_Lost ex { c92_project [] [] [c92_button] with customViews := [⟨s% "item", [c92_button]⟩, ⟨s% "item2", []⟩] } :=
  ⟨(c102_custom_view_added c102_plain ⟨s% "item", [c92_button]⟩ c92_button_read (by
      show s% "item" ∉ [s% "main", s% "debug_screen"]
      decide)).1
    ⟨by simp [c92_project], ⟨by show '.' ∉ s% "item"; decide, by show '\n' ∉ s% "item"; decide⟩, by
      rw [c92_button_written]
      intro w hw
      simp only [List.mem_singleton] at hw
      subst hw
      exact (AndroidView.parse_reconstruct_iff _).mpr (newEmpty_storable _ _ _ _), nofun, by simp [c92_project], nofun⟩ ex rnd,
  (c102_custom_view_added c102_project ⟨s% "item2", []⟩ rfl (by
      show s% "item2" ∉ [s% "main", s% "debug_screen", s% "item"]
      decide)).2
    (fun h => absurd (h.2.2.2.2.2 ⟨s% "item", [c92_button]⟩ (by simp [c92_project])) (by simp)) ex⟩

/-- A floating button as Sketchware writes it. -/
def c102_fabView : AndroidView := { AndroidView.newEmpty (s% "_fab") 16 (s% "root") 0 with parent := none, parentType := -1 }

/-- What `c102_fab` asks for is met: a FAB on the first screen of a project whose last layout has a button. Without the button it is lost. -/
example (ex : PathBuf → Bool) (rnd : ResourceType → Nat → UInt32) :
    c102_Kept ex rnd ((c92_project [] [] [c92_button]).withScreen [] { survivingScreen with layout := [], fab := some (View.ofRaw c102_fabView) }
      [c102_second]) ∧
    c102_Lost ex (({ c92_project [] [] [] with customViews := [] } : SketchwareProject).withScreen []
      { survivingScreen with layout := [], fab := some (View.ofRaw c102_fabView) } [c102_second]) := by
  have hb : fabBack (View.ofRaw c102_fabView) = c102_fabView := rfl
  refine ⟨(c102_fab c102_project (before := []) (s := { survivingScreen with layout := [] }) (after := [c102_second]) rfl
    (View.ofRaw c102_fabView) (by rw [hb])).1 ⟨?_, [c92_button], rfl, by simp⟩ ex rnd,
    (c102_fab c102_plain (before := []) (s := { survivingScreen with layout := [] }) (after := [c102_second]) rfl
      (View.ofRaw c102_fabView) (by rw [hb])).2 ?_ ex⟩
  · rw [hb, AndroidView.parse_reconstruct_iff]
    exact newEmpty_storable (s% "_fab") 16 (s% "root") 0
  · rintro ⟨-, l, hl, hne⟩
    have : some [] = some l := hl
    exact hne (Option.some.inj this).symm

/-- What `c102_resources` asks for is met: an image is added. -/
example (ex : PathBuf → Bool) (rnd : ResourceType → Nat → UInt32) :
    c102_Kept ex rnd { c92_project [] [] [c92_button] with
      resources := ⟨[(s% "a", someImageFile), (s% "b", .u32Id 8 (s% "b.png") .image)], [], []⟩ } :=
  c102_resources c102_project ⟨[(s% "a", someImageFile), (s% "b", .u32Id 8 (s% "b.png") .image)], [], []⟩
    ⟨by show [s% "a", s% "b"].Nodup; decide, List.nodup_nil, List.nodup_nil⟩ (by
      intro m hm e he
      simp only [List.mem_cons, List.not_mem_nil, or_false] at hm
      rcases hm with rfl | rfl | rfl
      · simp only [List.mem_cons, List.not_mem_nil, or_false] at he
        rcases he with rfl | rfl
        · exact ⟨_, rfl⟩
        · exact ⟨_, rfl⟩
      · cases he
      · cases he) ex rnd

end
end Swrs.Api
