import Verif.Proofs.ApiProject
import Verif.Base.FloatInst
/-!
# C52, C53, C54: settings, libraries and resources of projects of the API
-/
namespace Swrs.Api
section
variable [MapPol] [Floats]

/-! ## C52 — Project settings survive the API -/

omit [MapPol] [Floats] in
/-- C52: libraries survive. -/
theorem c52_libraries (l : Libraries) : librariesConv (librariesBack l) = .ok l := by
  obtain ⟨compat, firebase, adMob, googleMap⟩ := l
  cases compat <;> cases firebase <;> cases adMob <;> cases googleMap <;> rfl

/-- C52: metadata, colours and libraries survive. -/
theorem c52_settings (rnd : ResourceType → Nat → UInt32) (p p' : SketchwareProject) (q : Swrs.SketchwareProject)
    (h : p.toParsed = .ok q) (h' : SketchwareProject.tryFrom rnd q = .ok p') :
    p'.metadata = p.metadata ∧ p'.colors = p.colors ∧ p'.libraries = p.libraries := by
  obtain ⟨_, _, _, _, _, _, _, _, _, _, hp, _, hl, _⟩ := toParsed_ok h
  obtain ⟨_, _, _, libs, _, _, _, _, _, hlibs, _, _, _, _, _, hl', _, _, _, hm, hc⟩ := tryFrom_ok h'
  rw [hl, c52_libraries] at hlibs
  cases hlibs
  rw [hm, hc, hp, hl']
  exact ⟨rfl, rfl, rfl⟩

/-! ## C53 — Library switches are validated -/

/-- The flags of a project. -/
def flags (val : Swrs.SketchwareProject) : List (Str × Str) :=
  [(s% "firebase", val.library.firebaseDb.useYn), (s% "admob", val.library.admob.useYn),
   (s% "google map", val.library.googleMap.useYn)]

/-- A flag is valid. -/
def validFlag (f : Str) : Bool := f = s% "Y" || f = s% "N"

/-- The project with the libraries switched off. -/
def switchedOff (val : Swrs.SketchwareProject) : Swrs.SketchwareProject :=
  { val with library :=
    { val.library with
      firebaseDb := { val.library.firebaseDb with useYn := s% "N" }
      admob := { val.library.admob with useYn := s% "N" }
      googleMap := { val.library.googleMap with useYn := s% "N" } } }

omit [MapPol] [Floats] in
theorem libraryConv_cases {α : Type} (n f : Str) (a : α) :
    (f = s% "Y" ∧ libraryConv n f a = .ok (some a)) ∨ (f = s% "N" ∧ libraryConv n f a = .ok none) ∨
    (validFlag f = false ∧ libraryConv n f a = .err (.invalidUseYNValue n f)) := by
  unfold libraryConv validFlag
  split
  · exact .inl ⟨by assumption, rfl⟩
  · split
    · exact .inr (.inl ⟨by assumption, rfl⟩)
    · exact .inr (.inr ⟨by simp [*], rfl⟩)

/-- The libraries of a project whose flags are valid. -/
def enabled (l : Library) : Libraries where
  appCompatEnabled := l.compat.useYn = s% "Y"
  firebase := if l.firebaseDb.useYn = s% "Y" then
    some ⟨l.firebaseDb.data, l.firebaseDb.reserved1, l.firebaseDb.reserved2, l.firebaseDb.reserved3⟩ else none
  adMob := if l.admob.useYn = s% "Y" then some ⟨l.admob.adUnits, l.admob.testDevices⟩ else none
  googleMap := if l.googleMap.useYn = s% "Y" then some ⟨l.googleMap.data⟩ else none

omit [MapPol] in
theorem librariesConv_eq (val : Swrs.SketchwareProject) : librariesConv val.library =
    match (flags val).find? (fun e => !validFlag e.2) with
    | some (n, f) => .err (.invalidUseYNValue n f)
    | none => .ok (enabled val.library) := by
  have hY : validFlag (s% "Y") = true := by decide
  have hN : validFlag (s% "N") = true := by decide
  have hNY : ¬ (s% "N" : Str) = s% "Y" := by decide
  unfold librariesConv flags enabled
  rcases libraryConv_cases (s% "firebase") val.library.firebaseDb.useYn
    (⟨val.library.firebaseDb.data, val.library.firebaseDb.reserved1, val.library.firebaseDb.reserved2, val.library.firebaseDb.reserved3⟩ : Firebase)
    with ⟨h1, e1⟩ | ⟨h1, e1⟩ | ⟨h1, e1⟩ <;>
  rcases libraryConv_cases (s% "admob") val.library.admob.useYn (⟨val.library.admob.adUnits, val.library.admob.testDevices⟩ : AdMob)
    with ⟨h2, e2⟩ | ⟨h2, e2⟩ | ⟨h2, e2⟩ <;>
  rcases libraryConv_cases (s% "google map") val.library.googleMap.useYn (⟨val.library.googleMap.data⟩ : GoogleMap)
    with ⟨h3, e3⟩ | ⟨h3, e3⟩ | ⟨h3, e3⟩ <;>
  simp only [e1, e2, e3, Out.ok_bind, Out.err_bind] <;>
  simp [h1, h2, h3, hY, hN, hNY]

/-- C53: a project that converts has valid flags, and exactly the libraries flagged `Y` are enabled. -/
theorem c53_enabled (rnd : ResourceType → Nat → UInt32) (val : Swrs.SketchwareProject) (p : SketchwareProject)
    (h : SketchwareProject.tryFrom rnd val = .ok p) :
    (∀ e ∈ flags val, validFlag e.2 = true) ∧ p.libraries = enabled val.library := by
  obtain ⟨_, _, _, libs, _, _, _, _, _, hlibs, _, _, _, _, _, hl', _⟩ := tryFrom_ok h
  rw [librariesConv_eq] at hlibs
  split at hlibs
  · cases hlibs
  · rename_i hn
    cases hlibs
    refine ⟨fun e he => ?_, hl'⟩
    have := List.find?_eq_none.mp hn e he
    simpa using this

omit [Floats] [MapPol] in
theorem resourcesConv_shape (rnd : Nat → UInt32) (t : ResourceType) (items : List ResourceItem) (files) :
    (∃ es, resourcesConv rnd t items files = .ok es) ∨
    ∃ n m, resourcesConv rnd t items files = .err (.missingResourceFile n m t) := by
  cases files with
  | none =>
    obtain ⟨es, h, _⟩ := resourcesConv_none rnd t items
    exact .inl ⟨es, h⟩
  | some files =>
    induction items generalizing files with
    | nil => exact .inl ⟨_, rfl⟩
    | cons i items ih =>
      simp only [resourcesConv]
      cases files.get i.fullName with
      | none => exact .inr ⟨i.name, i.fullName, rfl⟩
      | some f =>
        rcases ih (LMap.erase files i.fullName) with ⟨es, h⟩ | ⟨n, m, h⟩
        · exact .inl ⟨_, by simp only [Out.ofOption, Out.ok_bind, h]; rfl⟩
        · exact .inr ⟨n, m, by simp only [Out.ofOption, Out.ok_bind, h]; rfl⟩

/-- What is converted before the libraries. -/
def beforeLibraries (val : Swrs.SketchwareProject) : Out ConversionError (List Screen × List CustomView) := do
  let (screens, layouts) ← activitiesConv val.file.activities val.view.layouts val.logic.screens val.view.fabs
  let customViews ← customViewsConv val.file.customViews layouts
  pure (screens, customViews)

theorem activitiesConv_err {items : List FileItem} {ls : LMap Str Layout} {lg : LMap Str ScreenLogic} {fs : LMap Str AndroidView}
    {e : ConversionError} (h : activitiesConv items ls lg fs = .err e) : ∃ a b c, e = .screenConstructionError a b c := by
  induction items generalizing ls lg fs with
  | nil => cases h
  | cons i items ih =>
    simp only [activitiesConv, Out.bind_eq_err] at h
    rcases h with h | ⟨s, _, h | ⟨x, _, h⟩⟩
    · rw [Out.mapErr_eq_err] at h
      obtain ⟨e', _, rfl⟩ := h
      exact ⟨_, _, _, rfl⟩
    · exact ih h
    · cases h

omit [MapPol] in
theorem customViewsConv_err {items : List FileItem} {ls : LMap Str Layout}
    {e : ConversionError} (h : customViewsConv items ls = .err e) :
    (∃ a, e = .missingCustomViewLayout a) ∨ ∃ a b, e = .customViewParseLayoutError a b := by
  induction items generalizing ls with
  | nil => cases h
  | cons i items ih =>
    simp only [customViewsConv, Out.bind_eq_err] at h
    rcases h with h | ⟨l, _, h | ⟨x, _, h | ⟨y, _, h⟩⟩⟩
    · rw [Out.ofOption_eq_err] at h
      exact .inl ⟨_, h.2.symm⟩
    · rw [Out.mapErr_eq_err] at h
      obtain ⟨e', _, rfl⟩ := h
      exact .inr ⟨_, _, rfl⟩
    · exact ih h
    · cases h

theorem tryFrom_before (rnd : ResourceType → Nat → UInt32) (val : Swrs.SketchwareProject) :
    ((∃ x, beforeLibraries val = .ok x) ∧ (flags val).find? (fun e => !validFlag e.2) = none ∧
      ((∃ p, SketchwareProject.tryFrom rnd val = .ok p) ∨
        ∃ n m t, SketchwareProject.tryFrom rnd val = .err (.missingResourceFile n m t))) ∨
    ((∃ x, beforeLibraries val = .ok x) ∧ ∃ n f, (flags val).find? (fun e => !validFlag e.2) = some (n, f) ∧
      SketchwareProject.tryFrom rnd val = .err (.invalidUseYNValue n f)) ∨
    ((¬ ∃ x, beforeLibraries val = .ok x) ∧ (∀ p, SketchwareProject.tryFrom rnd val ≠ .ok p) ∧
      (∀ n f, SketchwareProject.tryFrom rnd val ≠ .err (.invalidUseYNValue n f)) ∧
      ∀ n m t, SketchwareProject.tryFrom rnd val ≠ .err (.missingResourceFile n m t)) := by
  unfold beforeLibraries SketchwareProject.tryFrom
  cases h1 : activitiesConv val.file.activities val.view.layouts val.logic.screens val.view.fabs with
  | panic => exact .inr (.inr ⟨by simp, by simp, by simp, by simp⟩)
  | err e =>
    obtain ⟨a, b, c, rfl⟩ := activitiesConv_err h1
    exact .inr (.inr ⟨by simp, by simp, by simp, by simp⟩)
  | ok x =>
    obtain ⟨screens, layouts⟩ := x
    simp only [Out.ok_bind]
    cases h2 : customViewsConv val.file.customViews layouts with
    | panic => exact .inr (.inr ⟨by simp, by simp, by simp, by simp⟩)
    | err e =>
      rcases customViewsConv_err h2 with ⟨a, rfl⟩ | ⟨a, b, rfl⟩ <;>
      exact .inr (.inr ⟨by simp, by simp, by simp, by simp⟩)
    | ok cvs =>
      simp only [Out.ok_bind]
      rw [librariesConv_eq]
      cases h3 : (flags val).find? (fun e => !validFlag e.2) with
      | some x =>
        obtain ⟨n, f⟩ := x
        exact .inr (.inl ⟨⟨_, rfl⟩, n, f, rfl, rfl⟩)
      | none =>
        refine .inl ⟨⟨_, rfl⟩, rfl, ?_⟩
        simp only [Out.ok_bind]
        rcases resourcesConv_shape (rnd .image) .image val.resource.images (val.resourceFiles.map (·.images)) with ⟨_, h⟩ | ⟨n, m, h⟩ <;> rw [h]
        · simp only [Out.ok_bind]
          rcases resourcesConv_shape (rnd .sound) .sound val.resource.sounds (val.resourceFiles.map (·.sounds)) with ⟨_, h⟩ | ⟨n, m, h⟩ <;> rw [h]
          · simp only [Out.ok_bind]
            rcases resourcesConv_shape (rnd .font) .font val.resource.fonts (val.resourceFiles.map (·.fonts)) with ⟨_, h⟩ | ⟨n, m, h⟩ <;> rw [h]
            · exact .inl ⟨_, rfl⟩
            · exact .inr ⟨_, _, _, rfl⟩
          · exact .inr ⟨_, _, _, rfl⟩
        · exact .inr ⟨_, _, _, rfl⟩

/-- C53, what holds: `InvalidUseYNValue` is returned for the first invalid flag exactly when the project with the
libraries switched off converts, or lacks only a resource file. Missing: the screens and the custom views are converted
before, and their errors come first. -/
theorem c53_error_partial (rnd : ResourceType → Nat → UInt32) (val : Swrs.SketchwareProject) (n f : Str) :
    SketchwareProject.tryFrom rnd val = .err (.invalidUseYNValue n f) ↔
      (flags val).find? (fun e => !validFlag e.2) = some (n, f) ∧
      ((∃ p, SketchwareProject.tryFrom rnd (switchedOff val) = .ok p) ∨
        ∃ a b t, SketchwareProject.tryFrom rnd (switchedOff val) = .err (.missingResourceFile a b t)) := by
  have hb : beforeLibraries (switchedOff val) = beforeLibraries val := rfl
  have hf : (flags (switchedOff val)).find? (fun e => !validFlag e.2) = none := by
    simp [flags, switchedOff, validFlag]
  rcases tryFrom_before rnd val with ⟨hx, hv, h⟩ | ⟨hx, n', f', hv, h⟩ | ⟨hx, h1, h2, h3⟩
  · rw [hv]
    refine ⟨fun he => ?_, fun he => (by cases he.1)⟩
    rcases h with ⟨p, h⟩ | ⟨_, _, _, h⟩ <;> rw [h] at he <;> cases he
  · rw [hv, h]
    rcases tryFrom_before rnd (switchedOff val) with ⟨_, _, h'⟩ | ⟨_, _, _, hv', _⟩ | ⟨hx', _⟩
    · refine ⟨fun he => ?_, fun he => ?_⟩
      · cases he
        exact ⟨rfl, h'⟩
      · cases he.1
        rfl
    · rw [hf] at hv'
      cases hv'
    · rw [hb] at hx'
      exact absurd hx hx'
  · refine ⟨fun he => absurd he (h2 n f), ?_⟩
    rintro ⟨_, he⟩
    rcases tryFrom_before rnd (switchedOff val) with ⟨hx', _⟩ | ⟨hx', _⟩ | ⟨_, h1', _, h3'⟩
    · exact absurd hx' hx
    · exact absurd hx' hx
    · rcases he with ⟨p, he⟩ | ⟨_, _, _, he⟩
      · exact absurd he (h1' p)
      · exact absurd he (h3' _ _ _)

/-- C53: no project with an invalid flag converts. -/
theorem c53_refused (rnd : ResourceType → Nat → UInt32) (val : Swrs.SketchwareProject) (e : Str × Str) (he : e ∈ flags val)
    (hv : e.2 ≠ s% "Y" ∧ e.2 ≠ s% "N") (p : SketchwareProject) : SketchwareProject.tryFrom rnd val ≠ .ok p := by
  intro h
  have := (c53_enabled rnd val p h).1 e he
  simp only [validFlag, Bool.or_eq_true, decide_eq_true_eq] at this
  exact this.elim hv.1 hv.2

/-! ## C54 — Resource files survive the API -/

omit [MapPol] [Floats] in
/-- The resources of a section. -/
def itemsOf (r : Resource) : ResourceType → List ResourceItem
  | .image => r.images
  | .sound => r.sounds
  | .font => r.fonts
  | .customIcon => []

/-- The files of a section. -/
def filesOf (r : ResourceFiles) : ResourceType → HMap Str ResourceFileWrapper
  | .image => r.images
  | .sound => r.sounds
  | .font => r.fonts
  | .customIcon => []

/-- Files are stored under their full names. -/
def NamedByKey (r : ResourceFiles) : Prop :=
  ∀ t k f, (filesOf r t).get k = some f → (f.getFullName : Out Empty Str) = .ok k

/-- C54: of a project loaded with resource files, no resource file is written. -/
theorem c54_files_lost (rnd : ResourceType → Nat → UInt32) (val q : Swrs.SketchwareProject) (p : SketchwareProject) (r : ResourceFiles)
    (hr : val.resourceFiles = some r) (hp : SketchwareProject.tryFrom rnd val = .ok p) (hq : p.toParsed = .ok q) :
    q.resourceFiles = none := by
  obtain ⟨_, _, _, _, _, _, _, _, _, _, _, _, _, _, _, _, _, _, ha, _⟩ := tryFrom_ok hp
  obtain ⟨_, _, _, _, _, _, _, _, _, _, _, _, _, _, _, hf⟩ := toParsed_ok hq
  rw [hf, ha, hr]
  rfl

/-- C54: of a project loaded without resource files, an empty set of resource files is written. -/
theorem c54_no_files_written (rnd : ResourceType → Nat → UInt32) (val q : Swrs.SketchwareProject) (p : SketchwareProject)
    (hr : val.resourceFiles = none) (hp : SketchwareProject.tryFrom rnd val = .ok p) (hq : p.toParsed = .ok q) :
    q.resourceFiles = some ⟨none, [], [], []⟩ := by
  obtain ⟨_, _, _, _, _, _, _, _, _, _, _, _, _, _, _, _, _, hi, ha, _⟩ := tryFrom_ok hp
  obtain ⟨_, _, _, _, _, _, _, h1, h2, h3, _, _, _, _, _, hf⟩ := toParsed_ok hq
  have ha : p.automaticResFileIds = true := by rw [ha, hr]; rfl
  rw [hf, if_pos ha, (resourcesBack_ok h1).2 ha, (resourcesBack_ok h2).2 ha, (resourcesBack_ok h3).2 ha, hi, hr]
  rfl

omit [Floats] in
theorem section_names {items items' : List ResourceItem} {es : List (Str × ResourceFileWrapper)} {auto : Bool} {fs}
    (h : All₂ (fun i e => e.1 = i.name ∧ (e.2.getFullName : Out Empty Str) = .ok i.fullName) items es)
    (hn : (items.map (·.name)).Nodup) (hb : resourcesBack auto (LMap.collect es) [] = .ok (items', fs)) :
    items'.map (fun i => (i.name, i.fullName)) = items.map (fun i => (i.name, i.fullName)) := by
  have hk : LMap.keys es = items.map (·.name) := by
    clear hn hb
    induction h with
    | nil => rfl
    | cons h _ ih => simp [ih, h.1]
  rw [LMap.collect_nodup es (by rw [hk]; exact hn)] at hb
  replace hb := (resourcesBack_ok hb).1
  clear hn hk
  induction h generalizing items' with
  | nil => cases hb; rfl
  | cons h _ ih =>
    cases hb with
    | cons h' t =>
      rw [List.map_cons, List.map_cons, ih t, h'.1, h.1]
      have := h.2
      rw [h'.2.1, Out.ok.injEq] at this
      rw [this]

omit [MapPol] [Floats] in
theorem resourcesConv_names {rnd : Nat → UInt32} {t : ResourceType} {items : List ResourceItem} {es : List (Str × ResourceFileWrapper)}
    {files : Option (HMap Str ResourceFileWrapper)} (h : resourcesConv rnd t items files = .ok es)
    (hk : ∀ m, files = some m → ∀ k f, m.get k = some f → (f.getFullName : Out Empty Str) = .ok k) :
    All₂ (fun i e => e.1 = i.name ∧ (e.2.getFullName : Out Empty Str) = .ok i.fullName) items es := by
  cases files with
  | none =>
    obtain ⟨es', h', hes⟩ := resourcesConv_none rnd t items
    rw [h] at h'
    cases h'
    exact hes.imp fun i e h => ⟨h.1, by obtain ⟨n, h⟩ := h.2; rw [h]; rfl⟩
  | some m => exact (resourcesConv_some h).1.imp fun i e h => ⟨h.1, hk m rfl _ _ h.2⟩

/-- C54, what holds: the names and the full names of the resources survive. Missing: the files themselves. -/
theorem c54_names_partial (rnd : ResourceType → Nat → UInt32) (val q : Swrs.SketchwareProject) (p : SketchwareProject)
    (hn : ∀ t, ((itemsOf val.resource t).map (·.name)).Nodup) (hk : ∀ r, val.resourceFiles = some r → NamedByKey r)
    (hp : SketchwareProject.tryFrom rnd val = .ok p) (hq : p.toParsed = .ok q) (t : ResourceType) :
    (itemsOf q.resource t).map (fun i => (i.name, i.fullName)) = (itemsOf val.resource t).map (fun i => (i.name, i.fullName)) := by
  obtain ⟨_, _, _, _, _, _, _, _, _, _, hi, hs, hf, _, _, _, hr, _, _, _⟩ := tryFrom_ok hp
  obtain ⟨_, _, _, _, _, _, _, h1, h2, h3, _, _, _, _, _, _⟩ := toParsed_ok hq
  rw [hr] at h1 h2 h3
  cases t with
  | image => exact section_names (resourcesConv_names hi (by
      rintro m hm k f h
      cases hv : val.resourceFiles with
      | none => rw [hv] at hm; cases hm
      | some r => rw [hv] at hm; cases hm; exact hk r hv .image k f h)) (hn .image) h1
  | sound => exact section_names (resourcesConv_names hs (by
      rintro m hm k f h
      cases hv : val.resourceFiles with
      | none => rw [hv] at hm; cases hm
      | some r => rw [hv] at hm; cases hm; exact hk r hv .sound k f h)) (hn .sound) h2
  | font => exact section_names (resourcesConv_names hf (by
      rintro m hm k f h
      cases hv : val.resourceFiles with
      | none => rw [hv] at hm; cases hm
      | some r => rw [hv] at hm; cases hm; exact hk r hv .font k f h)) (hn .font) h3
  | customIcon => rfl

omit [Floats] in
/-- The names of a section of resources after reading and writing are those before exactly if they are distinct and the files have the
names they are stored under. -/
theorem section_names_iff {rnd : Nat → UInt32} {t : ResourceType} {items items' : List ResourceItem}
    {es : List (Str × ResourceFileWrapper)} {files : Option (HMap Str ResourceFileWrapper)} {auto : Bool} {fs}
    (h : resourcesConv rnd t items files = .ok es) (hb : resourcesBack auto (LMap.collect es) [] = .ok (items', fs)) :
    items'.map (fun i => (i.name, i.fullName)) = items.map (fun i => (i.name, i.fullName)) ↔
      (items.map (·.name)).Nodup ∧
      ∀ m, files = some m → ∀ i ∈ items, ∀ f, m.get i.fullName = some f → (f.getFullName : Out Empty Str) = .ok i.fullName := by
  have hc : All₂ (fun i e => e.1 = i.name ∧ ∀ m, files = some m → m.get i.fullName = some e.2) items es := by
    cases files with
    | none =>
      obtain ⟨es', h', hes⟩ := resourcesConv_none rnd t items
      rw [h] at h'
      cases h'
      exact hes.imp fun i e h => ⟨h.1, by simp⟩
    | some m => exact (resourcesConv_some h).1.imp fun i e h => ⟨h.1, by rintro _ ⟨⟩; exact h.2⟩
  have hk : LMap.keys es = items.map (·.name) := by
    clear hb h
    induction hc with
    | nil => rfl
    | cons h _ ih => simp [ih, h.1]
  constructor
  · intro heq
    have hn : (items.map (·.name)).Nodup := by
      have h1 : items'.map (·.name) = items.map (·.name) := by
        have := congrArg (List.map (·.1)) heq
        rw [List.map_map, List.map_map] at this
        exact this
      have h2 : LMap.keys (LMap.collect es) = items'.map (·.name) := by
        have := (resourcesBack_ok hb).1
        clear heq hb h1
        generalize LMap.collect es = cs at this
        induction this with
        | nil => rfl
        | cons h _ ih => simp [ih, h.1]
      rw [← h1, ← h2]
      exact LMap.collect_keys_nodup es
    refine ⟨hn, fun m hm => ?_⟩
    rw [LMap.collect_nodup es (by rw [hk]; exact hn)] at hb
    replace hb := (resourcesBack_ok hb).1
    clear hn hk h
    induction hc generalizing items' with
    | nil => simp
    | @cons i e items es h _ ih =>
      cases hb with
      | cons h' t =>
        simp only [List.map_cons, List.cons.injEq, Prod.mk.injEq] at heq
        intro j hj f hf
        rcases List.mem_cons.mp hj with rfl | hj
        · rw [h.2 m hm, Option.some.injEq] at hf
          rw [← hf, h'.2.1, heq.1.2]
        · exact ih heq.2 t j hj f hf
  · rintro ⟨hn, hf⟩
    refine section_names ?_ hn hb
    cases files with
    | none => exact resourcesConv_names h (by simp)
    | some m =>
      refine (resourcesConv_some h).1.imp_mem fun i hi e _ he => ⟨he.1, hf m rfl i hi e.2 he.2⟩

/-- C54, what holds, exactly: the names and the full names of the resources of a section survive exactly if the names are
distinct and every file that is used has the full name that it is stored under. -/
theorem c54_names_iff (rnd : ResourceType → Nat → UInt32) (val q : Swrs.SketchwareProject) (p : SketchwareProject)
    (hp : SketchwareProject.tryFrom rnd val = .ok p) (hq : p.toParsed = .ok q) (t : ResourceType) :
    (itemsOf q.resource t).map (fun i => (i.name, i.fullName)) = (itemsOf val.resource t).map (fun i => (i.name, i.fullName)) ↔
      ((itemsOf val.resource t).map (·.name)).Nodup ∧
      ∀ r, val.resourceFiles = some r → ∀ i ∈ itemsOf val.resource t, ∀ f, (filesOf r t).get i.fullName = some f →
        (f.getFullName : Out Empty Str) = .ok i.fullName := by
  obtain ⟨_, _, _, _, _, _, _, _, _, _, hi, hs, hf, _, _, _, hr, _, _, _⟩ := tryFrom_ok hp
  obtain ⟨_, _, _, _, _, _, _, h1, h2, h3, _, _, _, _, _, _⟩ := toParsed_ok hq
  rw [hr] at h1 h2 h3
  have key : ∀ (g : ResourceFiles → HMap Str ResourceFileWrapper) (is : List ResourceItem),
      (∀ m, val.resourceFiles.map g = some m → ∀ i ∈ is, ∀ f, m.get i.fullName = some f →
        (f.getFullName : Out Empty Str) = .ok i.fullName) ↔
      ∀ r, val.resourceFiles = some r → ∀ i ∈ is, ∀ f, (g r).get i.fullName = some f →
        (f.getFullName : Out Empty Str) = .ok i.fullName := by
    intro g is
    cases val.resourceFiles <;> simp
  cases t with
  | image => exact (section_names_iff hi h1).trans (and_congr_right fun _ => key _ _)
  | sound => exact (section_names_iff hs h2).trans (and_congr_right fun _ => key _ _)
  | font => exact (section_names_iff hf h3).trans (and_congr_right fun _ => key _ _)
  | customIcon => simp [itemsOf]

omit [MapPol] [Floats] in
theorem resourcesConv_empty {rnd : Nat → UInt32} {t : ResourceType} {items : List ResourceItem} {es : List (Str × ResourceFileWrapper)}
    (h : resourcesConv rnd t items (some []) = .ok es) : items = [] := by
  cases items with
  | nil => rfl
  | cons i items => simp [resourcesConv, HMap.get, LMap.get] at h

/-- C54: a project loaded without resource files that has a resource cannot be read back from what is written. -/
theorem c54_reload_fails (rnd rnd' : ResourceType → Nat → UInt32) (val q : Swrs.SketchwareProject) (p : SketchwareProject)
    (hr : val.resourceFiles = none) (hn : ∀ t, ((itemsOf val.resource t).map (·.name)).Nodup)
    (hp : SketchwareProject.tryFrom rnd val = .ok p) (hq : p.toParsed = .ok q) (t : ResourceType)
    (ht : itemsOf val.resource t ≠ []) (p' : SketchwareProject) : SketchwareProject.tryFrom rnd' q ≠ .ok p' := by
  intro h
  have hf := c54_no_files_written rnd val q p hr hp hq
  have hs := c54_names_partial rnd val q p hn (by rw [hr]; intro r h; cases h) hp hq t
  apply ht
  suffices hs' : itemsOf q.resource t = [] by
    rw [hs'] at hs
    exact List.map_eq_nil_iff.mp hs.symm
  obtain ⟨_, _, _, _, _, _, _, _, _, _, h1, h2, h3, _⟩ := tryFrom_ok h
  rw [hf] at h1 h2 h3
  cases t with
  | image => exact resourcesConv_empty h1
  | sound => exact resourcesConv_empty h2
  | font => exact resourcesConv_empty h3
  | customIcon => rfl
end

/-! ## Examples -/

/-- A library entry with a flag. -/
def flagged (f : Str) : LibraryItem := ⟨[], s% "data", 0, [], [], [], [], f⟩

/-- A project without screens. -/
def bareProject [Floats] (flag : Str) (customViews : List FileItem) (images : List ResourceItem) (files : Option ResourceFiles) :
    Swrs.SketchwareProject where
  project := ⟨1, s% "app", s% "ws", s% "pkg", 1, s% "1.0", 0, false, ProjectColorPalette.default, 150⟩
  file := ⟨[], customViews⟩
  library := ⟨flagged flag, flagged (s% "N"), flagged (s% "N"), flagged (s% "N")⟩
  resource := ⟨images, [], []⟩
  view := ⟨[], []⟩
  logic := ⟨[]⟩
  resourceFiles := files

/-- A custom view. -/
def someCustomView : FileItem := ⟨s% "item", .customView, .unspecified, ⟨false, false, false, false⟩, .both, .none⟩

/-- An image, and its file. -/
def someImage : ResourceItem := ⟨s% "a.png", s% "a", 1⟩
def someImageFile : ResourceFileWrapper := .u32Id 7 (s% "a.png") .image
def someFiles : ResourceFiles := ⟨none, [(s% "a.png", someImageFile)], [], []⟩

section
variable [MapPol] [Floats]

/-- What the project without screens becomes. -/
def bareApi (libraries : Libraries) (images : LMap Str ResourceFileWrapper) (auto : Bool) : SketchwareProject where
  customIcon := none
  metadata := ⟨1, s% "app", s% "ws", s% "pkg", 0, 150, s% "1.0", 1⟩
  colors := ⟨ProjectColorPalette.default.colorPrimary, ProjectColorPalette.default.colorPrimaryDark,
    ProjectColorPalette.default.colorAccent, ProjectColorPalette.default.colorControlNormal, ProjectColorPalette.default.colorControlHighlight⟩
  screens := []
  customViews := []
  libraries
  resources := ⟨images, [], []⟩
  automaticResFileIds := auto

/-- The libraries of a project with a valid flag for firebase. -/
def bareLibs : Libraries := ⟨false, some ⟨s% "data", [], [], []⟩, none, none⟩

theorem bare_with_files : SketchwareProject.tryFrom (fun _ _ => 3) (bareProject (s% "Y") [] [someImage] (some someFiles)) =
    .ok (bareApi bareLibs [(s% "a", someImageFile)] false) := rfl

theorem bare_without_files : SketchwareProject.tryFrom (fun _ _ => 3) (bareProject (s% "Y") [] [someImage] none) =
    .ok (bareApi bareLibs [(s% "a", .u32Id 3 (s% "a.png") .image)] true) := rfl

/-- What is written. -/
def bareBack (libraries : Libraries) (files : Option ResourceFiles) : Swrs.SketchwareProject where
  project := ⟨1, s% "app", s% "ws", s% "pkg", 1, s% "1.0", 0, false, ProjectColorPalette.default, 150⟩
  file := ⟨[], []⟩
  library := librariesBack libraries
  resource := ⟨[someImage], [], []⟩
  view := ⟨[], []⟩
  logic := ⟨[]⟩
  resourceFiles := files

/-- C54 is false: files are lost. -/
theorem c54_files_false : ∃ (rnd : ResourceType → Nat → UInt32) (val q : Swrs.SketchwareProject) (p : SketchwareProject),
    val.resourceFiles = some someFiles ∧ SketchwareProject.tryFrom rnd val = .ok p ∧ p.toParsed = .ok q ∧ q.resourceFiles = none :=
  ⟨fun _ _ => 3, _, bareBack bareLibs none, _, rfl, bare_with_files, rfl, rfl⟩

/-- C54 is false: a project loaded without files is not read back. -/
theorem c54_reload_false : ∃ (rnd : ResourceType → Nat → UInt32) (val q : Swrs.SketchwareProject) (p : SketchwareProject),
    val.resourceFiles = none ∧ SketchwareProject.tryFrom rnd val = .ok p ∧ p.toParsed = .ok q ∧
    SketchwareProject.tryFrom rnd q = .err (.missingResourceFile (s% "a") (s% "a.png") .image) :=
  ⟨fun _ _ => 3, _, bareBack bareLibs (some ⟨none, [], [], []⟩), _, rfl, bare_without_files, rfl, rfl⟩

/-- The files of the example are stored under their names, and the names survive. -/
example : NamedByKey someFiles ∧ (itemsOf (bareBack bareLibs none).resource .image).map (fun i => (i.name, i.fullName)) =
    [(s% "a", s% "a.png")] := by
  refine ⟨?_, rfl⟩
  intro t k f h
  cases t <;> simp only [filesOf, someFiles, HMap.get, LMap.get] at h
  · split at h
    · cases h
      rename_i hk
      rw [← hk]
      rfl
    · cases h
  all_goals cases h

/-- C53 is false: the error of a custom view without layout comes before the one of an invalid flag. -/
theorem c53_order_false : ∃ val : Swrs.SketchwareProject, (∃ e ∈ flags val, e.2 ≠ s% "Y" ∧ e.2 ≠ s% "N") ∧
    ∀ rnd n f, SketchwareProject.tryFrom rnd val ≠ .err (.invalidUseYNValue n f) :=
  ⟨bareProject (s% "X") [someCustomView] [] none, ⟨(s% "firebase", s% "X"), List.mem_cons_self, by decide, by decide⟩, fun rnd _ _ h => by
    have : SketchwareProject.tryFrom rnd (bareProject (s% "X") [someCustomView] [] none) = .err (.missingCustomViewLayout (s% "item")) := rfl
    rw [this] at h
    cases h⟩

/-- An invalid flag is reported. -/
example : SketchwareProject.tryFrom (fun _ _ => 0) (bareProject (s% "X") [] [] none) = .err (.invalidUseYNValue (s% "firebase") (s% "X")) := rfl

/-- Settings that survive. -/
example : ∃ q p', (bareApi bareLibs [(s% "a", someImageFile)] false).toParsed = .ok q ∧
    SketchwareProject.tryFrom (fun _ _ => 0) q = .ok p' ∧ p'.libraries.firebase ≠ none :=
  ⟨bareBack bareLibs none, bareApi bareLibs [(s% "a", .u32Id 0 (s% "a.png") .image)] true, rfl, rfl, by simp [bareApi, bareLibs]⟩

/-- `c53_enabled`, `c53_refused` and `c53_error_partial`: a project whose flags are valid is opened with the libraries that are switched
on; with an invalid flag it is not opened, and it is the invalid flag that is reported because the project would be opened otherwise. -/
example : (∃ p, SketchwareProject.tryFrom (fun _ _ => 3) (bareProject (s% "Y") [] [someImage] (some someFiles)) = .ok p ∧
      p.libraries = bareLibs) ∧
    (s% "firebase", s% "X") ∈ flags (bareProject (s% "X") [] [] none) ∧
    (∃ p, SketchwareProject.tryFrom (fun _ _ => 0) (switchedOff (bareProject (s% "X") [] [] none)) = .ok p) :=
  ⟨⟨_, bare_with_files, rfl⟩, List.mem_cons_self, _, rfl⟩

end
end Swrs.Api
