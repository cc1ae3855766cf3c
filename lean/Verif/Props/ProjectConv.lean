import Verif.Props.ScreenRead
import Verif.Props.ApiProject
/-!
# C79: which projects are made from the files, which error is given, and what is in them
-/
namespace Swrs.Api
section
variable [MapPol] [Floats]

/-- A step of making a project that can fail. -/
inductive ProjectStep where
  | activity (f : FileItem)
  | customView (f : FileItem)
  | flag (library value : Str)
  | resource (t : ResourceType) (i : ResourceItem)

/-- The steps of making a project, in order. -/
def projectSteps (val : Swrs.SketchwareProject) : List ProjectStep :=
  val.file.activities.map .activity ++ (val.file.customViews.map .customView ++
  ([.flag (s% "firebase") val.library.firebaseDb.useYn, .flag (s% "admob") val.library.admob.useYn,
    .flag (s% "google map") val.library.googleMap.useYn] ++
  (val.resource.images.map (.resource .image) ++ (val.resource.sounds.map (.resource .sound) ++
  val.resource.fonts.map (.resource .font)))))

/-- The layout of a name, if no file entry before took it. -/
def layoutLeft (val : Swrs.SketchwareProject) (before : List FileItem) (n : Str) : Option Layout :=
  if n ∈ before.map (·.filename) then none else val.view.layouts.get n
/-- The FAB of a name, if no activity before took it. -/
def fabLeft (val : Swrs.SketchwareProject) (before : List FileItem) (n : Str) : Option AndroidView :=
  if n ∈ before.map (·.filename) then none else val.view.fabs.get n
/-- The logic of an activity, if no activity before took it. -/
def logicLeft (val : Swrs.SketchwareProject) (before : List FileItem) (n : Str) : Option ScreenLogic :=
  if n ∈ before.map (fun f => viewNameToLogic f.filename) then none else val.logic.screens.get n

/-- The screen that is made for an activity after the activities `before`. An activity without layout gets an empty one; one
without logic gets an empty one with the name of the layout. -/
def screenFor (val : Swrs.SketchwareProject) (before : List FileItem) (f : FileItem) : Out ScreenConstructionError Screen :=
  let logic := (logicLeft val before (viewNameToLogic f.filename)).getD
    ⟨f.filename, [], none, none, none, none, none⟩
  Screen.fromParsed f.filename logic.name f ((layoutLeft val before f.filename).getD ⟨[]⟩) logic
    ((fabLeft val before f.filename).map View.ofRaw)

/-- The activity of a step. -/
def ProjectStep.act : ProjectStep → Option FileItem
  | .activity f => some f
  | _ => none
/-- The file entry of a step. -/
def ProjectStep.entry : ProjectStep → Option FileItem
  | .activity f => some f
  | .customView f => some f
  | _ => none
/-- The resource of a step. -/
def ProjectStep.res (t : ResourceType) : ProjectStep → Option Str
  | .resource t' i => if t' = t then some i.fullName else none
  | _ => none

/-- The outcome of a step after the steps `earlier`. -/
def projectStep (val : Swrs.SketchwareProject) (earlier : List ProjectStep) : ProjectStep → Out ConversionError Unit
  | .activity f => (screenFor val (earlier.filterMap (·.act)) f).void.mapErr
      (.screenConstructionError (viewNameToLogic f.filename) f.filename)
  | .customView f => match layoutLeft val (earlier.filterMap (·.entry)) f.filename with
    | none => .err (.missingCustomViewLayout f.filename)
    | some l => (parseRawLayout l).void.mapErr (.customViewParseLayoutError f.filename)
  | .flag library value => if value = s% "Y" ∨ value = s% "N" then .ok () else .err (.invalidUseYNValue library value)
  | .resource t i => match val.resourceFiles with
    | none => .ok ()
    | some files =>
      if i.fullName ∈ earlier.filterMap (·.res t) ∨ (filesOf files t).get i.fullName = none then
        .err (.missingResourceFile i.name i.fullName t)
      else .ok ()

/-- The parts that are left after the activities `before`. -/
structure PartsLeft (val : Swrs.SketchwareProject) (before : List FileItem) (ls : LMap Str Layout) (lg : LMap Str ScreenLogic)
    (fs : LMap Str AndroidView) : Prop where
  layouts : ∀ n, ls.get n = layoutLeft val before n
  logics : ∀ n, lg.get n = logicLeft val before n
  fabs : ∀ n, fs.get n = fabLeft val before n

theorem PartsLeft.screen {val : Swrs.SketchwareProject} {before : List FileItem} {ls : LMap Str Layout} {lg : LMap Str ScreenLogic}
    {fs : LMap Str AndroidView} (h : PartsLeft val before ls lg fs) (f : FileItem) : screenOf ls lg fs f = screenFor val before f := by
  simp only [screenOf, screenFor, h.layouts, h.logics, h.fabs]
  rfl

omit [MapPol] in
theorem layoutLeft_snoc (val : Swrs.SketchwareProject) (before : List FileItem) {ls : LMap Str Layout} (f : FileItem)
    (h : ∀ n, ls.get n = layoutLeft val before n) (n : Str) : (ls.erase f.filename).get n = layoutLeft val (before ++ [f]) n := by
  rw [LMap.get_erase, h n]
  simp only [layoutLeft, List.map_append, List.mem_append, List.map_cons, List.map_nil, List.mem_singleton]
  grind

omit [MapPol] in
theorem PartsLeft.snoc {val : Swrs.SketchwareProject} {before : List FileItem} {ls : LMap Str Layout} {lg : LMap Str ScreenLogic}
    {fs : LMap Str AndroidView} (h : PartsLeft val before ls lg fs) (f : FileItem) :
    PartsLeft val (before ++ [f]) (ls.erase f.filename) (lg.erase (viewNameToLogic f.filename)) (fs.erase f.filename) where
  layouts := layoutLeft_snoc val before f h.layouts
  logics := by
    intro n
    rw [LMap.get_erase, h.logics n]
    simp only [logicLeft, List.map_append, List.mem_append, List.map_cons, List.map_nil, List.mem_singleton]
    grind
  fabs := by
    intro n
    rw [LMap.get_erase, h.fabs n]
    simp only [fabLeft, List.map_append, List.mem_append, List.map_cons, List.map_nil, List.mem_singleton]
    grind

theorem activities_run {val : Swrs.SketchwareProject} (items : List FileItem) {before : List FileItem} {ls : LMap Str Layout}
    {lg : LMap Str ScreenLogic} {fs : LMap Str AndroidView} (h : PartsLeft val before ls lg fs) {earlier : List ProjectStep}
    (he : earlier.filterMap (·.act) = before) :
    (activitiesConv items ls lg fs).void = runSteps (projectStep val) earlier (items.map .activity) := by
  induction items generalizing before ls lg fs earlier with
  | nil => rfl
  | cons f items ih =>
    simp only [List.map_cons, runSteps, activitiesConv]
    simp only [projectStep]
    rw [he, ← h.screen f]
    show ((screenOf ls lg fs f).mapErr _ >>= _).void = _
    cases screenOf ls lg fs f with
    | err e => rfl
    | panic => rfl
    | ok s =>
      simp only [Out.mapErr_ok, Out.ok_bind, Out.void_ok]
      have hl : (earlier ++ [ProjectStep.activity f]).filterMap (·.act) = before ++ [f] := by rw [List.filterMap_append, he]; rfl
      rw [← ih (h.snoc f) hl]
      cases activitiesConv items (ls.erase f.filename) (lg.erase (viewNameToLogic f.filename)) (fs.erase f.filename) <;> rfl

theorem activities_value {val : Swrs.SketchwareProject} {items : List FileItem} {before : List FileItem} {ls ls' : LMap Str Layout}
    {lg : LMap Str ScreenLogic} {fs : LMap Str AndroidView} (h : PartsLeft val before ls lg fs) {ss : List Screen}
    (hr : activitiesConv items ls lg fs = .ok (ss, ls')) :
    (∀ n, ls'.get n = layoutLeft val (before ++ items) n) ∧ ss.length = items.length ∧
    ∀ i f s, items[i]? = some f → ss[i]? = some s → screenFor val (before ++ items.take i) f = .ok s := by
  induction items generalizing before ls lg fs ss with
  | nil =>
    cases hr
    exact ⟨by simpa using h.layouts, rfl, by simp⟩
  | cons f items ih =>
    simp only [activitiesConv, Out.bind_eq_ok, Out.mapErr_eq_ok, Prod.exists] at hr
    obtain ⟨s, h1, ss', ls2, h2, h3⟩ := hr
    cases h3
    obtain ⟨h4, h5, h6⟩ := ih (h.snoc f) h2
    refine ⟨by simpa using h4, by simp [h5], ?_⟩
    rintro (_ | i) f' s' hf hs
    · cases hf
      cases hs
      have := h.screen f
      rw [List.take_zero, List.append_nil, ← this]
      exact h1
    · simpa using h6 i f' s' (by simpa using hf) (by simpa using hs)

omit [MapPol] in
theorem customViews_run [MapPol] {val : Swrs.SketchwareProject} (items : List FileItem) {before : List FileItem} {ls : LMap Str Layout}
    (h : ∀ n, ls.get n = layoutLeft val before n) {earlier : List ProjectStep} (he : earlier.filterMap (·.entry) = before) :
    (customViewsConv items ls).void = runSteps (projectStep val) earlier (items.map .customView) := by
  induction items generalizing before ls earlier with
  | nil => rfl
  | cons f items ih =>
    simp only [List.map_cons, runSteps, customViewsConv]
    simp only [projectStep]
    rw [he, h]
    cases layoutLeft val before f.filename with
    | none => rfl
    | some l =>
      simp only [Out.ofOption_some, Out.ok_bind]
      cases parseRawLayout l with
      | err e => rfl
      | panic => rfl
      | ok v =>
        simp only [Out.mapErr_ok, Out.ok_bind, Out.void_ok]
        have hl : (earlier ++ [ProjectStep.customView f]).filterMap (·.entry) = before ++ [f] := by rw [List.filterMap_append, he]; rfl
        rw [← ih (layoutLeft_snoc val before f h) hl]
        cases customViewsConv items (ls.erase f.filename) <;> rfl

omit [MapPol] in
theorem customViews_value {val : Swrs.SketchwareProject} {items : List FileItem} {before : List FileItem} {ls : LMap Str Layout}
    (h : ∀ n, ls.get n = layoutLeft val before n) {cvs : List CustomView} (hr : customViewsConv items ls = .ok cvs) :
    cvs.length = items.length ∧ ∀ i f c, items[i]? = some f → cvs[i]? = some c → c.resName = f.filename ∧
      ∃ l, layoutLeft val (before ++ items.take i) f.filename = some l ∧ parseRawLayout l = .ok c.layout := by
  induction items generalizing before ls cvs with
  | nil =>
    cases hr
    exact ⟨rfl, by simp⟩
  | cons f items ih =>
    simp only [customViewsConv, Out.bind_eq_ok, Out.mapErr_eq_ok, Out.ofOption_eq_ok] at hr
    obtain ⟨l, h1, v, h2, cvs', h3, h4⟩ := hr
    cases h4
    obtain ⟨h5, h6⟩ := ih (layoutLeft_snoc val before f h) h3
    refine ⟨by simp [h5], ?_⟩
    rintro (_ | i) f' c' hf hc
    · cases hf
      cases hc
      exact ⟨rfl, l, by rw [List.take_zero, List.append_nil, ← h]; exact h1, h2⟩
    · simpa using h6 i f' c' (by simpa using hf) (by simpa using hc)

theorem libraries_run {val : Swrs.SketchwareProject} (earlier : List ProjectStep) :
    (librariesConv val.library).void = runSteps (projectStep val) earlier
      [.flag (s% "firebase") val.library.firebaseDb.useYn, .flag (s% "admob") val.library.admob.useYn,
        .flag (s% "google map") val.library.googleMap.useYn] := by
  have hf : ∀ {α β : Type} (n f : Str) (a : α) (k : Option α → Out ConversionError β) (y : Out ConversionError Unit),
      (∀ o, (k o).void = y) → (libraryConv n f a >>= k).void =
        ((if f = s% "Y" ∨ f = s% "N" then Out.ok () else Out.err (.invalidUseYNValue n f)) >>= fun _ => y) := by
    intro α β n f a k y hk
    unfold libraryConv
    by_cases h1 : f = s% "Y"
    · simp [h1, hk]
    · by_cases h2 : f = s% "N"
      · rw [if_neg h1, if_pos h2, if_pos (.inr h2)]; exact hk none
      · rw [if_neg h1, if_neg h2, if_neg (by simp [h1, h2])]; rfl
  simp only [runSteps, librariesConv]
  refine hf _ _ _ _ _ fun _ => hf _ _ _ _ _ fun _ => hf _ _ _ _ _ fun _ => rfl

theorem resources_run_none {val : Swrs.SketchwareProject} (hv : val.resourceFiles = none) (rnd : Nat → UInt32) (t : ResourceType)
    (items : List ResourceItem) (earlier : List ProjectStep) :
    (resourcesConv rnd t items none).void = runSteps (projectStep val) earlier (items.map (.resource t)) := by
  induction items generalizing earlier with
  | nil => rfl
  | cons i items ih =>
    simp only [List.map_cons, runSteps, resourcesConv]
    simp only [projectStep, hv, Out.ok_bind]
    rw [← ih]
    cases resourcesConv rnd t items none <;> rfl

theorem resources_run_some {val : Swrs.SketchwareProject} {rf : ResourceFiles} (hv : val.resourceFiles = some rf) (rnd : Nat → UInt32)
    (t : ResourceType) (items : List ResourceItem) {earlier : List ProjectStep} {files : HMap Str ResourceFileWrapper}
    (h : ∀ n, files.get n = if n ∈ earlier.filterMap (·.res t) then none else (filesOf rf t).get n) :
    (resourcesConv rnd t items (some files)).void = runSteps (projectStep val) earlier (items.map (.resource t)) := by
  induction items generalizing earlier files with
  | nil => rfl
  | cons i items ih =>
    simp only [List.map_cons, runSteps, resourcesConv]
    simp only [projectStep, hv]
    rw [h]
    by_cases h1 : i.fullName ∈ earlier.filterMap (·.res t)
    · rw [if_pos h1, if_pos (.inl h1)]; rfl
    · rw [if_neg h1]
      cases h2 : (filesOf rf t).get i.fullName with
      | none => rw [if_pos (.inr rfl)]; rfl
      | some f =>
        rw [if_neg (by simp [h1])]
        simp only [Out.ofOption_some, Out.ok_bind]
        rw [← ih (files := LMap.erase files i.fullName)]
        · cases resourcesConv rnd t items (some (LMap.erase files i.fullName)) <;> rfl
        · intro n
          rw [HMap.get, LMap.get_erase]
          have := h n
          rw [HMap.get] at this
          rw [this]
          simp only [List.filterMap_append, List.mem_append]
          simp [ProjectStep.res]
          grind

theorem resources_run {val : Swrs.SketchwareProject} (rnd : Nat → UInt32) (t : ResourceType) (items : List ResourceItem)
    {earlier : List ProjectStep} (h : earlier.filterMap (·.res t) = []) :
    (resourcesConv rnd t items (val.resourceFiles.map (filesOf · t))).void = runSteps (projectStep val) earlier (items.map (.resource t)) := by
  cases hv : val.resourceFiles with
  | none => exact resources_run_none hv rnd t items earlier
  | some rf => exact resources_run_some hv rnd t items (by simp [h])

theorem tryFrom_void (rnd : ResourceType → Nat → UInt32) (val : Swrs.SketchwareProject) :
    (SketchwareProject.tryFrom rnd val).void = runSteps (projectStep val) [] (projectSteps val) := by
  have h0 : PartsLeft val [] val.view.layouts val.logic.screens val.view.fabs :=
    ⟨fun n => by simp [layoutLeft], fun n => by simp [logicLeft], fun n => by simp [fabLeft]⟩
  have hno : ∀ t, (val.file.activities.map ProjectStep.activity).filterMap (·.res t) = [] ∧
      (val.file.customViews.map ProjectStep.customView).filterMap (·.res t) = [] := by
    intro t
    simp [ProjectStep.res, List.filterMap_map, Function.comp_def]
  have hno' : ∀ (t t' : ResourceType) (is : List ResourceItem), t' ≠ t → (is.map (ProjectStep.resource t')).filterMap (·.res t) = [] := by
    intro t t' is h
    simp [ProjectStep.res, List.filterMap_map, Function.comp_def, h]
  rw [SketchwareProject.tryFrom, projectSteps]
  refine void_bind_run (activities_run _ h0 rfl) ?_
  rintro ⟨ss, ls⟩ h1
  obtain ⟨h2, -, -⟩ := activities_value h0 h1
  rw [List.nil_append]
  refine void_bind_run (customViews_run _ h2 ?_) ?_
  · simp [ProjectStep.entry, List.filterMap_map, Function.comp_def]
  intro cvs _
  refine void_bind_run (libraries_run _) ?_
  intro libs _
  refine void_bind_run (resources_run (rnd .image) .image _ ?_) ?_
  · simp only [List.filterMap_append, (hno _).1, (hno _).2]; rfl
  intro images _
  refine void_bind_run (resources_run (rnd .sound) .sound _ ?_) ?_
  · simp only [List.filterMap_append, (hno _).1, (hno _).2, hno' .sound .image _ (by simp)]; rfl
  intro sounds _
  rw [← List.append_nil (val.resource.fonts.map _)]
  refine void_bind_run (resources_run (rnd .font) .font _ ?_) ?_
  · simp only [List.filterMap_append, (hno _).1, (hno _).2, hno' .font .image _ (by simp), hno' .font .sound _ (by simp)]; rfl
  intro fonts _
  rfl

/-- C79: a project is made exactly when every step succeeds; otherwise the error, or panic, is that of the first step that
fails. -/
theorem c79_project_outcome (rnd : ResourceType → Nat → UInt32) (val : Swrs.SketchwareProject) :
    ((∃ p, SketchwareProject.tryFrom rnd val = .ok p) ↔ AllDone (projectStep val) (projectSteps val)) ∧
    (∀ e, SketchwareProject.tryFrom rnd val = .err e ↔ StopsWith (projectStep val) (projectSteps val) (.err e)) ∧
    (SketchwareProject.tryFrom rnd val = .panic ↔ StopsWith (projectStep val) (projectSteps val) .panic) :=
  outcome_of_run (tryFrom_void ..)

omit [MapPol] [Floats] in
/-- What is read of resources without files. -/
theorem resources_value_none {rnd : Nat → UInt32} {t : ResourceType} {items : List ResourceItem} {es : List (Str × ResourceFileWrapper)}
    (h : resourcesConv rnd t items none = .ok es) : es.length = items.length ∧
      ∀ (i : Nat) (r : ResourceItem) (e : Str × ResourceFileWrapper), items[i]? = some r → es[i]? = some e → e = (r.name, .u32Id (rnd (items.length - 1 - i)) r.fullName t) := by
  induction items generalizing es with
  | nil =>
    cases h
    exact ⟨rfl, by simp⟩
  | cons r items ih =>
    simp only [resourcesConv, Out.bind_eq_ok] at h
    obtain ⟨fs, h1, h2⟩ := h
    cases h2
    obtain ⟨h3, h4⟩ := ih h1
    refine ⟨by simp [h3], ?_⟩
    rintro (_ | i) r' e' hr he
    · cases hr
      cases he
      simp
    · rw [h4 i r' e' (by simpa using hr) (by simpa using he)]
      simp only [List.length_cons]
      rw [show items.length + 1 - 1 - (i + 1) = items.length - 1 - i by omega]

/-- The entries of a section of resources: with the file of the full name if files are given, and otherwise with a random id. -/
def EntriesOf (rnd : Nat → UInt32) (t : ResourceType) (files : Option (HMap Str ResourceFileWrapper)) (items : List ResourceItem)
    (es : List (Str × ResourceFileWrapper)) : Prop :=
  es.length = items.length ∧ ∀ (i : Nat) (r : ResourceItem) (e : Str × ResourceFileWrapper), items[i]? = some r → es[i]? = some e → e.1 = r.name ∧
    match files with
    | some files => files.get r.fullName = some e.2
    | none => e.2 = .u32Id (rnd (items.length - 1 - i)) r.fullName t

omit [MapPol] [Floats] in
theorem all₂_getElem {α β : Type} {R : α → β → Prop} {as : List α} {bs : List β} (h : All₂ R as bs) {i : Nat} {a : α} {b : β}
    (ha : as[i]? = some a) (hb : bs[i]? = some b) : R a b := by
  induction h generalizing i with
  | nil => simp at ha
  | cons h _ ih =>
    cases i with
    | zero =>
      cases ha
      cases hb
      exact h
    | succ i => exact ih (by simpa using ha) (by simpa using hb)

omit [MapPol] [Floats] in
theorem entriesOf_conv {rnd : Nat → UInt32} {t : ResourceType} {files : Option (HMap Str ResourceFileWrapper)} {items : List ResourceItem}
    {es : List (Str × ResourceFileWrapper)} (h : resourcesConv rnd t items files = .ok es) : EntriesOf rnd t files items es := by
  cases files with
  | none =>
    obtain ⟨h1, h2⟩ := resources_value_none h
    refine ⟨h1, fun i r e hr he => ?_⟩
    rw [h2 i r e hr he]
    exact ⟨rfl, rfl⟩
  | some files =>
    obtain ⟨h1, -⟩ := resourcesConv_some h
    exact ⟨h1.length_eq.symm, fun i r e hr he => all₂_getElem h1 hr he⟩

/-- C79: what is in a project that is made. -/
theorem c79_project_value (rnd : ResourceType → Nat → UInt32) (val : Swrs.SketchwareProject) (p : SketchwareProject)
    (h : SketchwareProject.tryFrom rnd val = .ok p) :
    (p.screens.length = val.file.activities.length ∧ ∀ i f s, val.file.activities[i]? = some f → p.screens[i]? = some s →
      screenFor val (val.file.activities.take i) f = .ok s) ∧
    (p.customViews.length = val.file.customViews.length ∧ ∀ i f c, val.file.customViews[i]? = some f → p.customViews[i]? = some c →
      c.resName = f.filename ∧ ∃ l, layoutLeft val (val.file.activities ++ val.file.customViews.take i) f.filename = some l ∧
        parseRawLayout l = .ok c.layout) ∧
    p.libraries = enabled val.library ∧
    (∃ images sounds fonts, EntriesOf (rnd .image) .image (val.resourceFiles.map (·.images)) val.resource.images images ∧
      EntriesOf (rnd .sound) .sound (val.resourceFiles.map (·.sounds)) val.resource.sounds sounds ∧
      EntriesOf (rnd .font) .font (val.resourceFiles.map (·.fonts)) val.resource.fonts fonts ∧
      p.resources = ⟨LMap.collect images, LMap.collect sounds, LMap.collect fonts⟩) ∧
    p.customIcon = val.resourceFiles.bind (·.customIcon) ∧ p.automaticResFileIds = val.resourceFiles.isNone ∧
    p.metadata = { localId := val.project.id, name := val.project.appName, workspaceName := val.project.workspaceName
                   packageName := val.project.packageName, timeCreated := val.project.dateCreated
                   sketchwareVersion := val.project.sketchwareVersion, versionName := val.project.versionName
                   versionCode := val.project.versionCode } ∧
    p.colors = { colorPrimary := val.project.colorPalette.colorPrimary, colorPrimaryDark := val.project.colorPalette.colorPrimaryDark
                 colorAccent := val.project.colorPalette.colorAccent
                 colorControlNormal := val.project.colorPalette.colorControlNormal
                 colorControlHighlight := val.project.colorPalette.colorControlHighlight } := by
  have hlib := (c53_enabled rnd val p h).2
  obtain ⟨screens, layouts, cvs, libs, images, sounds, fonts, h1, h2, h3, h4, h5, h6, rfl, rfl, rfl, h7, h8, h9, h10, h11⟩ := tryFrom_ok h
  have h0 : PartsLeft val [] val.view.layouts val.logic.screens val.view.fabs :=
    ⟨fun n => by simp [layoutLeft], fun n => by simp [logicLeft], fun n => by simp [fabLeft]⟩
  obtain ⟨ha, hb, hc⟩ := activities_value h0 h1
  exact ⟨⟨hb, by simpa using hc⟩, customViews_value ha h2, hlib,
    ⟨images, sounds, fonts, entriesOf_conv h4, entriesOf_conv h5, entriesOf_conv h6, h7⟩, h8, h9, h10, h11⟩
end

section
local instance projectConvFloats : FloatLaws := toyFloats
local instance projectConvPol : MapPol := ⟨false, false⟩

/-- An invalid flag is the first step that fails. -/
example : StopsWith (projectStep (bareProject (s% "X") [] [someImage] none)) (projectSteps (bareProject (s% "X") [] [someImage] none))
    (.err (.invalidUseYNValue (s% "firebase") (s% "X"))) :=
  ((c79_project_outcome (fun _ _ => 3) _).2.1 _).mp rfl
/-- A custom view without layout comes first. -/
example : StopsWith (projectStep (bareProject (s% "X") [someCustomView] [] none)) (projectSteps (bareProject (s% "X") [someCustomView] [] none))
    (.err (.missingCustomViewLayout (s% "item"))) :=
  ((c79_project_outcome (fun _ _ => 3) _).2.1 _).mp rfl
/-- A project that is made. -/
example : AllDone (projectStep (bareProject (s% "Y") [] [someImage] (some someFiles))) (projectSteps (bareProject (s% "Y") [] [someImage] (some someFiles))) :=
  (c79_project_outcome (fun _ _ => 3) _).1.mp ⟨_, bare_with_files⟩
end
end Swrs.Api
