import Verif.Proofs.ApiRound
import Verif.Proofs.PoolSpec
import Verif.Props.ApiView
import Verif.Props.ApiRound
/-!
# C77: everything that is written for an API project
-/
namespace Swrs.Api
section
variable [MapPol] [Floats]

/-! ## C77 — What an API project is written as -/

omit [Floats] in
/-- Inserting the entries of a list: the last one with a key counts. -/
theorem get_insertAll {α β : Type} (f : β → Str × α) (xs : List β) (m : LMap Str α) (k : Str) :
    (xs.foldl (fun m x => LMap.insert m (f x).1 (f x).2) m).get k = (LMap.last (xs.map f) k).or (m.get k) := by
  rw [← List.foldl_map (f := f) (g := fun m (e : Str × α) => LMap.insert m e.1 e.2), LMap.get_foldl_insert]
  cases LMap.last (xs.map f) k <;> rfl

omit [Floats] [MapPol] in
theorem last_append {α : Type} (es fs : LMap Str α) (k : Str) : LMap.last (es ++ fs) k = (LMap.last fs k).or (LMap.last es k) := by
  unfold LMap.last
  rw [List.reverse_append, LMap.get_append]
  cases LMap.get fs.reverse k <;> rfl

omit [Floats] [MapPol] in
theorem all₂_append {α β : Type} {R : α → β → Prop} {as as' : List α} {bs bs' : List β} (h : All₂ R as bs) (h' : All₂ R as' bs') :
    All₂ R (as ++ as') (bs ++ bs') := by
  induction h with
  | nil => exact h'
  | cons h _ ih => exact .cons h ih

/-- The code of a screen with the names of its containers, in the order in which it is written. -/
def codeOfScreen (s : Screen) : List (Str × List Block) :=
  s.events.map (fun e => (e.containerId, e.code)) ++ s.moreBlocks.map (fun m => (m.1 ++ s% "_moreBlock", m.2.code))

theorem eventsBack_containers {es : List Event} {cs : Containers} {ps : List Swrs.Event} {cs' : Containers}
    (h : eventsBack es cs = .ok (ps, cs')) :
    ∃ ws : LMap Str BlockContainer, All₂ (fun x w => w.1 = x.1 ∧ toContainer x.2 = .ok w.2) (es.map fun e => (e.containerId, e.code)) ws ∧
      ∀ k, cs'.get k = (LMap.last ws k).or (cs.get k) := by
  induction es generalizing cs ps with
  | nil => cases h; exact ⟨[], .nil, fun k => rfl⟩
  | cons e es ih =>
    simp only [eventsBack, eventBack, Out.bind_eq_ok, Out.pure_eq, Out.ok.injEq, Prod.exists, Prod.mk.injEq] at h
    obtain ⟨x, cs1, ⟨c, hc, rfl, rfl⟩, y, cs2, h, rfl, rfl⟩ := h
    obtain ⟨ws, h1, h2⟩ := ih h
    refine ⟨(e.containerId, c) :: ws, .cons ⟨rfl, hc⟩ h1, fun k => ?_⟩
    rw [h2, LMap.last_cons, LMap.get_insert]
    cases LMap.last ws k with
    | some v => rfl
    | none =>
      by_cases hk : k = e.containerId
      · simp [hk]
      · simp [hk, Ne.symm hk]

theorem moreBlocksBack_containers {ms : List (Str × MoreBlock)} {cs cs' : Containers} {ps : List (Str × Swrs.MoreBlock)}
    (h : moreBlocksBack ms cs = .ok (ps, cs')) :
    ps = ms.map (fun m => (m.1, m.2.intoParser.1)) ∧
    ∃ ws : LMap Str BlockContainer,
      All₂ (fun x w => w.1 = x.1 ∧ toContainer x.2 = .ok w.2) (ms.map fun m => (m.1 ++ s% "_moreBlock", m.2.code)) ws ∧
      ∀ k, cs'.get k = (LMap.last ws k).or (cs.get k) := by
  induction ms generalizing cs ps with
  | nil => cases h; exact ⟨rfl, [], .nil, fun k => rfl⟩
  | cons m ms ih =>
    obtain ⟨id, m⟩ := m
    simp only [moreBlocksBack, Out.bind_eq_ok, Out.pure_eq, Out.ok.injEq, Prod.exists, Prod.mk.injEq] at h
    obtain ⟨c, hc, x, cs1, h, rfl, rfl⟩ := h
    obtain ⟨h0, ws, h1, h2⟩ := ih h
    refine ⟨by rw [h0]; rfl, (moreBlockId id, c) :: ws, .cons ⟨rfl, hc⟩ h1, fun k => ?_⟩
    rw [h2, LMap.last_cons, LMap.get_insert]
    cases LMap.last ws k with
    | some v => rfl
    | none =>
      by_cases hk : k = moreBlockId id
      · simp [hk]
      · simp [hk, Ne.symm hk]

/-- C77: the logic of a screen: its variables and lists as they are; its components in order with their ids; its
events in order without those called `onCreate`; for each moreblock id the name and the text of its spec; and for each
container id the container of the last code with that id, events before moreblocks. -/
theorem c77_logic (s : Screen) (l : ScreenLogic) (h : s.toLogic = .ok l) :
    l.name = s.javaName ∧ l.variables = some ⟨s.variables⟩ ∧ l.listVariables = some ⟨s.listVariables⟩ ∧
    l.components = some ⟨s.components.map fun e => e.2.intoParser e.1⟩ ∧
    l.events = some ⟨(s.events.filter fun e => e.name ≠ s% "onCreate").map (·.intoParser.1)⟩ ∧
    (∃ ms, l.moreBlocks = some ⟨ms⟩ ∧
      ∀ k, ms.get k = LMap.last (s.moreBlocks.map fun m => (m.1, (⟨m.2.name, BlockContent.text m.2.spec⟩ : Swrs.MoreBlock))) k) ∧
    ∃ ws : LMap Str BlockContainer, All₂ (fun x w => w.1 = x.1 ∧ toContainer x.2 = .ok w.2) (codeOfScreen s) ws ∧
      ∀ k, l.blockContainers.get k = LMap.last ws k := by
  simp only [Screen.toLogic, Out.bind_eq_ok, Prod.exists, Out.pure_eq, Out.ok.injEq] at h
  obtain ⟨es, cs, h1, ms, cs', h2, rfl⟩ := h
  obtain ⟨ws, h3, h4⟩ := eventsBack_containers h1
  obtain ⟨rfl, ws', h5, h6⟩ := moreBlocksBack_containers h2
  refine ⟨rfl, rfl, rfl, rfl, by rw [(eventsBack_ok h1).1], ⟨_, rfl, fun k => LMap.get_collect ..⟩, ws ++ ws', all₂_append h3 h5, fun k => ?_⟩
  rw [last_append, h6, h4]
  simp [LMap.get]

/-- C77: the logic of a screen is written iff all its code is; otherwise writing panics. -/
theorem c77_logic_panics (s : Screen) :
    ((∃ l, s.toLogic = .ok l) ↔ ∀ x ∈ codeOfScreen s, ∃ c, toContainer x.2 = .ok c) ∧
    (s.toLogic = .panic ↔ ∃ x ∈ codeOfScreen s, toContainer x.2 = .panic) := by
  have hall : ∀ {α β : Type} {R : α → β → Prop} {as : List α} {bs : List β}, All₂ R as bs → ∀ a ∈ as, ∃ b, R a b := by
    intro α β R as bs h
    induction h with
    | nil => simp
    | cons h _ ih =>
      intro a ha
      rcases List.mem_cons.mp ha with rfl | ha
      · exact ⟨_, h⟩
      · exact ih a ha
  have h1 : (∃ l, s.toLogic = .ok l) ↔ ∀ x ∈ codeOfScreen s, ∃ c, toContainer x.2 = .ok c := by
    constructor
    · rintro ⟨l, h⟩ x hx
      obtain ⟨_, _, _, _, _, _, ws, h, _⟩ := c77_logic s l h
      obtain ⟨w, _, hw⟩ := hall h x hx
      exact ⟨_, hw⟩
    · intro h
      obtain ⟨⟨es, cs⟩, h1⟩ := eventsBack_total (es := s.events)
        (fun e he => h (e.containerId, e.code) (List.mem_append_left _ (List.mem_map_of_mem (f := fun e : Event => (e.containerId, e.code)) he))) []
      obtain ⟨⟨ms, cs'⟩, h2⟩ := moreBlocksBack_total (ms := s.moreBlocks)
        (fun m hm => h (m.1 ++ s% "_moreBlock", m.2.code) (List.mem_append_right _
          (List.mem_map_of_mem (f := fun m : Str × MoreBlock => (m.1 ++ s% "_moreBlock", m.2.code)) hm))) cs
      exact ⟨_, by simp only [Screen.toLogic, h1, h2, Out.ok_bind, Out.pure_eq]; rfl⟩
  refine ⟨h1, ?_⟩
  cases hx : s.toLogic with
  | ok l =>
    simp only [reduceCtorEq, false_iff]
    rintro ⟨x, hm, hp⟩
    obtain ⟨c, hc⟩ := h1.mp ⟨l, hx⟩ x hm
    rw [hc] at hp; cases hp
  | err e => exact e.elim
  | panic =>
    simp only [true_iff]
    apply Classical.byContradiction
    intro hn
    obtain ⟨l, hl⟩ := h1.mpr fun x hm => by
      cases hc : toContainer x.2 with
      | ok c => exact ⟨c, rfl⟩
      | err e => exact e.elim
      | panic => exact absurd ⟨x, hm, hc⟩ hn
    rw [hx] at hl; cases hl

omit [MapPol] in
/-- C77: the record of a FAB: the one it was made of, with its id, the values of its kind and of its layout, without a
parent. -/
theorem c77_fab (v : View) :
    (fabBack v).id = v.id ∧ (fabBack v).type = v.raw.type ∧ (fabBack v).parent = none ∧ (fabBack v).parentType = -1 ∧
    { fabBack v with parent := some (s% "root"), parentType := 0 } = v.flat (s% "root") 0 := by
  refine ⟨flat_id .., flat_type .., rfl, rfl, ?_⟩
  have h1 := flat_parent v (s% "root") 0
  have h2 := flat_parentType v (s% "root") 0
  simp only [fabBack]
  generalize v.flat (s% "root") 0 = r at h1 h2 ⊢
  obtain ⟨⟩ := r
  simp only at h1 h2
  subst h1
  subst h2
  rfl

theorem screensBack_maps {ss : List Screen} {lg lg' : LMap Str ScreenLogic} {ls ls' : LMap Str Layout} {fs fs' : LMap Str AndroidView}
    (h : screensBack ss lg ls fs = .ok (lg', ls', fs')) :
    (∃ logics : LMap Str ScreenLogic, All₂ (fun s e => e.1 = s.javaName ∧ s.toLogic = .ok e.2) ss logics ∧
      ∀ k, lg'.get k = (LMap.last logics k).or (lg.get k)) ∧
    (∀ k, ls'.get k = (LMap.last (ss.map fun s => (s.layoutName, s.toLayout)) k).or (ls.get k)) ∧
    ∀ k, fs'.get k = (LMap.last (ss.filterMap fun s => s.fab.map fun v => (s.layoutName, fabBack v)) k).or (fs.get k) := by
  induction ss generalizing lg ls fs with
  | nil => cases h; exact ⟨⟨[], .nil, fun k => rfl⟩, fun k => rfl, fun k => rfl⟩
  | cons s ss ih =>
    simp only [screensBack, Out.bind_eq_ok] at h
    obtain ⟨l, hlog, h⟩ := h
    obtain ⟨⟨logics, h1, h2⟩, h3, h4⟩ := ih h
    refine ⟨⟨(s.javaName, l) :: logics, .cons ⟨rfl, hlog⟩ h1, fun k => ?_⟩, fun k => ?_, fun k => ?_⟩
    · rw [h2, LMap.last_cons, LMap.get_insert]
      cases LMap.last logics k with
      | some v => rfl
      | none =>
        by_cases hk : k = s.javaName
        · simp [hk]
        · simp [hk, Ne.symm hk]
    · rw [h3, List.map_cons, LMap.last_cons, LMap.get_insert]
      cases LMap.last (ss.map fun s => (s.layoutName, s.toLayout)) k with
      | some v => rfl
      | none =>
        by_cases hk : k = s.layoutName
        · simp [hk]
        · simp [hk, Ne.symm hk]
    · rw [h4]
      cases hf : s.fab with
      | none => rw [List.filterMap_cons, hf]; rfl
      | some v =>
        rw [List.filterMap_cons, hf]
        show _ = (LMap.last ((s.layoutName, fabBack v) :: _) k).or _
        rw [LMap.last_cons]
        have hg : (LMap.insert fs s.layoutName (fabBack v)).get k = if k = s.layoutName then some (fabBack v) else fs.get k :=
          LMap.get_insert ..
        rw [hg]
        cases LMap.last (ss.filterMap fun s => s.fab.map fun v => (s.layoutName, fabBack v)) k with
        | some v => rfl
        | none =>
          by_cases hk : k = s.layoutName
          · simp [hk]
          · simp [hk, Ne.symm hk]

/-- C77: everything in the written project except resources: the settings; one file entry per screen and custom view in
order; for each name the layout of the last custom view, or else the last screen, with that name; the FAB of the last
screen with that layout name that has one; the logic of the last screen with that class name. -/
theorem c77_written (p : SketchwareProject) (q : Swrs.SketchwareProject) (h : p.toParsed = .ok q) :
    q.project = ⟨p.metadata.localId, p.metadata.name, p.metadata.workspaceName, p.metadata.packageName, p.metadata.versionCode,
      p.metadata.versionName, p.metadata.timeCreated, p.customIcon.isSome,
      ⟨p.colors.colorPrimary, p.colors.colorPrimaryDark, p.colors.colorAccent, p.colors.colorControlNormal,
        p.colors.colorControlHighlight⟩, p.metadata.sketchwareVersion⟩ ∧
    q.file.activities = p.screens.map (fun s => { filename := s.layoutName, fileType := .activity
                                                  keyboardSetting := s.keyboardSetting
                                                  options := { toolbar := s.toolbarEnabled, fullscreen := s.fullscreenEnabled
                                                               drawer := s.drawerEnabled, fab := s.fabEnabled }
                                                  orientation := s.orientation, theme := s.theme }) ∧
    q.file.customViews = p.customViews.map (fun c => { filename := c.resName, fileType := .customView
                                                       keyboardSetting := .unspecified
                                                       options := { toolbar := false, fullscreen := false, drawer := false, fab := false }
                                                       orientation := .both, theme := .none }) ∧
    (∀ k, q.view.layouts.get k = LMap.last (p.screens.map (fun s => (s.layoutName, ⟨flattenViews s.layout none none⟩)) ++
      p.customViews.map (fun c => (c.resName, ⟨flattenViews c.layout none none⟩))) k) ∧
    (∀ k, q.view.fabs.get k = LMap.last (p.screens.filterMap fun s => s.fab.map fun v => (s.layoutName, fabBack v)) k) ∧
    ∃ logics : LMap Str ScreenLogic, All₂ (fun s e => e.1 = s.javaName ∧ s.toLogic = .ok e.2) p.screens logics ∧
      ∀ k, q.logic.screens.get k = LMap.last logics k := by
  obtain ⟨lg, ls, fs, _, _, _, hb, _, _, _, hp, hf, _, hv, hl, _⟩ := toParsed_ok h
  obtain ⟨⟨logics, h1, h2⟩, h3, h4⟩ := screensBack_maps hb
  refine ⟨hp, by rw [hf]; rfl, by rw [hf]; rfl, fun k => ?_, fun k => ?_, logics, h1, fun k => ?_⟩
  · rw [hv]
    refine (get_insertAll (fun c : CustomView => (c.resName, (⟨flattenViews c.layout none none⟩ : Layout))) p.customViews ls k).trans ?_
    rw [h3, last_append]
    simp [LMap.get, Screen.toLayout]
  · rw [hv, h4]; simp [LMap.get]
  · rw [hl, h2]; simp [LMap.get]

omit [MapPol] [Floats] in
theorem resourcesBack_items {auto : Bool} {es : List (Str × ResourceFileWrapper)} {files files' : HMap Str ResourceFileWrapper}
    {items : List ResourceItem} (h : resourcesBack auto es files = .ok (items, files')) :
    All₂ (fun e i => i.name = e.1 ∧ (e.2.getFullName : Out Empty Str) = .ok i.fullName ∧ i.type = 1) es items :=
  (resourcesBack_ok h).1

/-- C77: the resources: in each section one entry per resource, in order, with its id, the full name of its file and type
1; and the files themselves: none at all unless the ids are automatic, and then only the icon. -/
theorem c77_resources (p : SketchwareProject) (q : Swrs.SketchwareProject) (h : p.toParsed = .ok q) :
    All₂ (fun e i => i.name = e.1 ∧ (e.2.getFullName : Out Empty Str) = .ok i.fullName ∧ i.type = 1) p.resources.images q.resource.images ∧
    All₂ (fun e i => i.name = e.1 ∧ (e.2.getFullName : Out Empty Str) = .ok i.fullName ∧ i.type = 1) p.resources.sounds q.resource.sounds ∧
    All₂ (fun e i => i.name = e.1 ∧ (e.2.getFullName : Out Empty Str) = .ok i.fullName ∧ i.type = 1) p.resources.fonts q.resource.fonts ∧
    q.resourceFiles = if p.automaticResFileIds then some ⟨p.customIcon, [], [], []⟩ else none := by
  obtain ⟨_, _, _, _, _, _, _, h1, h2, h3, _, _, _, _, _, hr⟩ := toParsed_ok h
  refine ⟨(resourcesBack_ok h1).1, (resourcesBack_ok h2).1, (resourcesBack_ok h3).1, ?_⟩
  rw [hr]
  split
  · next ha => rw [(resourcesBack_ok h1).2 ha, (resourcesBack_ok h2).2 ha, (resourcesBack_ok h3).2 ha]
  · rfl

/-- C77: a project made with `new` from its parts is written without resource files and without an icon, and with the given parts. -/
theorem c77_new (m : Metadata) (c : Colors) (ss : List Screen) (cs : List CustomView) (ls : Libraries) (rs : Resources)
    (q : Swrs.SketchwareProject) (h : (SketchwareProject.new m c ss cs ls rs).toParsed = .ok q) :
    q.resourceFiles = none ∧ q.project.customIcon = false ∧ q.project.id = m.localId ∧ q.project.appName = m.name ∧
    q.project.colorPalette.colorAccent = c.colorAccent ∧
    q.file = ⟨ss.map Screen.toFileItem, cs.map CustomView.toFileItem⟩ ∧
    All₂ (fun e i => i.name = e.1 ∧ (e.2.getFullName : Out Empty Str) = .ok i.fullName ∧ i.type = 1) rs.images q.resource.images := by
  obtain ⟨lg, lay, fs, _, _, _, hb, _, _, _, hp, hf, _⟩ := toParsed_ok h
  obtain ⟨h1, _, _, h4⟩ := c77_resources _ q h
  exact ⟨h4, by rw [hp]; rfl, by rw [hp]; rfl, by rw [hp]; rfl, by rw [hp]; rfl, hf, h1⟩

/-- The resource is a path without a file name, or whose file name is not UTF-8. -/
def Unnamed (w : ResourceFileWrapper) : Prop :=
  ∃ p, w = .path p ∧ (p.fileName = none ∨ ∃ b, p.fileName = some b ∧ fromUtf8 b = none)

omit [MapPol] [Floats] in
theorem getFullName_panic (w : ResourceFileWrapper) :
    ((w.getFullName : Out Empty Str) = .panic ↔ Unnamed w) ∧ ((∃ n, (w.getFullName : Out Empty Str) = .ok n) ↔ ¬ Unnamed w) := by
  cases w with
  | path p =>
    simp only [ResourceFileWrapper.getFullName, Unnamed, ResourceFileWrapper.path.injEq, exists_eq_left']
    cases hp : p.fileName with
    | none => simp [Out.unwrap]
    | some b =>
      cases hb : fromUtf8 b with
      | none => simp [Out.unwrap, hb]
      | some s => simp [Out.unwrap, hb]
  | stringId _ n _ => simp [ResourceFileWrapper.getFullName, Unnamed]
  | u32Id _ n _ => simp [ResourceFileWrapper.getFullName, Unnamed]

omit [MapPol] [Floats] in
theorem resourcesBack_panics (auto : Bool) (es : List (Str × ResourceFileWrapper)) (files : HMap Str ResourceFileWrapper) :
    resourcesBack auto es files = .panic ↔ ∃ e ∈ es, Unnamed e.2 := by
  induction es generalizing files with
  | nil => simp [resourcesBack]
  | cons e es ih =>
    obtain ⟨id, w⟩ := e
    simp only [resourcesBack, Out.bind_eq_panic, (getFullName_panic w).1, ih, Out.pure_eq, reduceCtorEq, and_false, exists_false,
      or_false, List.mem_cons, exists_eq_or_imp]
    constructor
    · rintro (h | ⟨n, _, h⟩)
      · exact .inl h
      · exact .inr h
    · rintro (h | h)
      · exact .inl h
      · by_cases hu : Unnamed w
        · exact .inl hu
        · obtain ⟨n, hn⟩ := (getFullName_panic w).2.mpr hu
          exact .inr ⟨n, hn, h⟩

theorem screensBack_panics (ss : List Screen) (lg : LMap Str ScreenLogic) (ls : LMap Str Layout) (fs : LMap Str AndroidView) :
    screensBack ss lg ls fs = .panic ↔ ∃ s ∈ ss, s.toLogic = .panic := by
  induction ss generalizing lg ls fs with
  | nil => simp [screensBack]
  | cons s ss ih =>
    simp only [screensBack, Out.bind_eq_panic, ih, List.mem_cons, exists_eq_or_imp]
    cases hl : s.toLogic with
    | ok l => simp
    | err e => exact e.elim
    | panic => simp

/-- C77: writing a project panics iff the code of a screen cannot be written or a resource is a path without a file name
in UTF-8. -/
theorem c77_panics (p : SketchwareProject) :
    p.toParsed = .panic ↔ (∃ s ∈ p.screens, ∃ x ∈ codeOfScreen s, toContainer x.2 = .panic) ∨
      ∃ e ∈ p.resources.images ++ (p.resources.sounds ++ p.resources.fonts), Unnamed e.2 := by
  have hs : (∃ s ∈ p.screens, ∃ x ∈ codeOfScreen s, toContainer x.2 = .panic) ↔ ∃ s ∈ p.screens, s.toLogic = .panic := by
    constructor
    · rintro ⟨s, hm, h⟩; exact ⟨s, hm, (c77_logic_panics s).2.mpr h⟩
    · rintro ⟨s, hm, h⟩; exact ⟨s, hm, (c77_logic_panics s).2.mp h⟩
  have hok : ∀ {ε α : Type} (x : Out Empty α), x = .panic ∨ ∃ a, x = .ok a := by
    intro ε α x
    cases x with
    | ok a => exact .inr ⟨a, rfl⟩
    | err e => exact e.elim
    | panic => exact .inl rfl
  rw [hs, ← screensBack_panics p.screens [] [] []]
  simp only [List.mem_append, or_and_right, exists_or]
  rw [← resourcesBack_panics p.automaticResFileIds p.resources.images [],
    ← resourcesBack_panics p.automaticResFileIds p.resources.sounds [],
    ← resourcesBack_panics p.automaticResFileIds p.resources.fonts []]
  simp only [SketchwareProject.toParsed]
  rcases hok (ε := Empty) (screensBack p.screens [] [] []) with h1 | ⟨⟨a, b, c⟩, h1⟩ <;> simp only [h1, Out.panic_bind, Out.ok_bind]
  · simp
  rcases hok (ε := Empty) (resourcesBack p.automaticResFileIds p.resources.images []) with h2 | ⟨⟨a, b⟩, h2⟩ <;>
    simp only [h2, Out.panic_bind, Out.ok_bind]
  · simp
  rcases hok (ε := Empty) (resourcesBack p.automaticResFileIds p.resources.sounds []) with h3 | ⟨⟨a, b⟩, h3⟩ <;>
    simp only [h3, Out.panic_bind, Out.ok_bind]
  · simp
  rcases hok (ε := Empty) (resourcesBack p.automaticResFileIds p.resources.fonts []) with h4 | ⟨⟨a, b⟩, h4⟩ <;>
    simp only [h4, Out.panic_bind, Out.ok_bind]
  · simp
  · simp

/-- A project with a screen that has a FAB and code. -/
example : ∃ q, SketchwareProject.toParsed (screensApi bareLibs [plainScreen [] [⟨s% "onBackPressed", .activityEvent, [exLeaf (s% "a")]⟩]
      (some (View.ofRaw (AndroidView.newEmpty (s% "_fab") 16 (s% "root") 0)))] true) = .ok q ∧
    (q.view.fabs.get (s% "main")).map (fun r => (r.id, r.parent, r.parentType)) = some (s% "_fab", none, -1) ∧
    (q.logic.screens.get (s% "MainActivity")).map (fun l => l.blockContainers.keys) = some [s% "onBackPressed_onBackPressed"] :=
  ⟨_, rfl, rfl, rfl⟩
/-- Writing a resource that is the path `/` panics. -/
example : SketchwareProject.toParsed { bareApi bareLibs [(s% "a", .path [])] false with screens := [] } = .panic := rfl
end

end Swrs.Api
