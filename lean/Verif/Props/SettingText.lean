import Verif.Props.MoreApi
/-!
# C141: settings are edited in the texts of the project file, the library file and the lists
-/
set_option linter.unusedSectionVars false
namespace Swrs.Api
section
variable [MapPol] [Floats]

/-! ### Specification: what the texts set -/

/-- Specification: the metadata of a project file. -/
def c141_metadata (x : Project) : Metadata where
  localId := x.id
  name := x.appName
  workspaceName := x.workspaceName
  packageName := x.packageName
  timeCreated := x.dateCreated
  sketchwareVersion := x.sketchwareVersion
  versionName := x.versionName
  versionCode := x.versionCode

/-- Specification: the colours of a project file. -/
def c141_colors (x : Project) : Colors where
  colorPrimary := x.colorPalette.colorPrimary
  colorPrimaryDark := x.colorPalette.colorPrimaryDark
  colorAccent := x.colorPalette.colorAccent
  colorControlNormal := x.colorPalette.colorControlNormal
  colorControlHighlight := x.colorPalette.colorControlHighlight

/-- Specification: the libraries of a library file. A library is there if it is marked with `Y`. -/
def c141_libraries (x : Library) : Libraries where
  appCompatEnabled := x.compat.useYn = s% "Y"
  firebase := if x.firebaseDb.useYn = s% "Y" then some ⟨x.firebaseDb.data, x.firebaseDb.reserved1, x.firebaseDb.reserved2, x.firebaseDb.reserved3⟩ else none
  adMob := if x.admob.useYn = s% "Y" then some ⟨x.admob.adUnits, x.admob.testDevices⟩ else none
  googleMap := if x.googleMap.useYn = s% "Y" then some ⟨x.googleMap.data⟩ else none

/-- Specification: a screen with the settings of an entry of the file list. -/
def c141_settings (x : FileItem) (s : Screen) : Screen :=
  { s with fullscreenEnabled := x.options.fullscreen, toolbarEnabled := x.options.toolbar, drawerEnabled := x.options.drawer, fabEnabled := x.options.fab,
           orientation := x.orientation, theme := x.theme, keyboardSetting := x.keyboardSetting }

/-! ### The project file and the library file -/

/-- C141: another project file. If it can be read, the project is still opened and converted, and has its metadata and its colours, and nothing else changes; if it can not
be read, the project is not opened. -/
theorem c141_project (ex : PathBuf → Bool) (rnd : ResourceType → Nat → UInt32) {raw : RawSketchwareProject} {p : Swrs.SketchwareProject} {P : SketchwareProject}
    (hp : Swrs.SketchwareProject.parseFrom ex raw = .ok p) (hP : SketchwareProject.tryFrom rnd p = .ok P) (project : Str) :
    (∀ x, Project.parse project = .ok x → ∃ q, Swrs.SketchwareProject.parseFrom ex { raw with project } = .ok q ∧
      SketchwareProject.tryFrom rnd q = .ok { P with metadata := c141_metadata x, colors := c141_colors x }) ∧
    ((∀ x, Project.parse project ≠ .ok x) → ∀ q, Swrs.SketchwareProject.parseFrom ex { raw with project } ≠ .ok q) := by
  obtain ⟨a1, a2, a3, a4, a5, a6, a7⟩ := (c58_parts ex _ _).mp hp
  refine ⟨fun x hx => ⟨{ p with project := x }, (c58_parts ex _ _).mpr ⟨hx, a2, a3, a4, a5, a6, a7⟩, ?_⟩, fun hx q hq => hx _ ((c58_parts ex _ _).mp hq).1⟩
  unfold SketchwareProject.tryFrom at hP ⊢
  simp only [Out.bind_eq_ok, Prod.exists] at hP ⊢
  obtain ⟨ss, ly, b1, cs, b2, lb, b3, im, b4, so, b5, fo, b6, b7⟩ := hP
  obtain rfl := Out.ok.inj b7
  exact ⟨ss, ly, b1, cs, b2, lb, b3, im, b4, so, b5, fo, b6, rfl⟩

theorem c141_conv {α : Type} (n u : Str) (r : α) (o : Option α) : libraryConv n u r = .ok o ↔ (u = s% "Y" ∨ u = s% "N") ∧ o = if u = s% "Y" then some r else none := by
  unfold libraryConv
  by_cases h1 : u = s% "Y"
  · rw [if_pos h1, if_pos h1]
    constructor
    · intro h; exact ⟨.inl h1, (Out.ok.inj h).symm⟩
    · rintro ⟨-, rfl⟩; rfl
  · rw [if_neg h1, if_neg h1]
    by_cases h2 : u = s% "N"
    · rw [if_pos h2]
      constructor
      · intro h; exact ⟨.inr h2, (Out.ok.inj h).symm⟩
      · rintro ⟨-, rfl⟩; rfl
    · rw [if_neg h2]
      constructor
      · intro h; cases h
      · rintro ⟨h | h, -⟩
        · exact absurd h h1
        · exact absurd h h2

theorem c141_libs (x : Library) (l : Libraries) : librariesConv x = .ok l ↔ (∀ u ∈ [x.firebaseDb.useYn, x.admob.useYn, x.googleMap.useYn], u = s% "Y" ∨ u = s% "N") ∧ l = c141_libraries x := by
  unfold librariesConv
  simp only [Out.bind_eq_ok, c141_conv, List.mem_cons, List.not_mem_nil, or_false]
  constructor
  · rintro ⟨f, ⟨h1, rfl⟩, a, ⟨h2, rfl⟩, g, ⟨h3, rfl⟩, h⟩
    refine ⟨?_, (Out.ok.inj h).symm⟩
    rintro u (rfl | rfl | rfl)
    · exact h1
    · exact h2
    · exact h3
  · rintro ⟨h, rfl⟩
    exact ⟨_, ⟨h _ (.inl rfl), rfl⟩, _, ⟨h _ (.inr (.inl rfl)), rfl⟩, _, ⟨h _ (.inr (.inr rfl)), rfl⟩, rfl⟩

/-- C141: another library file that can be read. The project is still opened; it is converted exactly if each library but the compatibility library is marked with `Y` or `N`,
and then only the libraries change, into those that are marked with `Y`. -/
theorem c141_library (ex : PathBuf → Bool) (rnd : ResourceType → Nat → UInt32) {raw : RawSketchwareProject} {p : Swrs.SketchwareProject} {P : SketchwareProject}
    (hp : Swrs.SketchwareProject.parseFrom ex raw = .ok p) (hP : SketchwareProject.tryFrom rnd p = .ok P) {library : Str} {x : Library} (hx : Library.parse library = .ok x) :
    ∃ q, Swrs.SketchwareProject.parseFrom ex { raw with library } = .ok q ∧ ∀ Q, SketchwareProject.tryFrom rnd q = .ok Q ↔
      (∀ u ∈ [x.firebaseDb.useYn, x.admob.useYn, x.googleMap.useYn], u = s% "Y" ∨ u = s% "N") ∧ Q = { P with libraries := c141_libraries x } := by
  obtain ⟨a1, a2, a3, a4, a5, a6, a7⟩ := (c58_parts ex _ _).mp hp
  refine ⟨{ p with library := x }, (c58_parts ex _ _).mpr ⟨a1, a2, hx, a4, a5, a6, a7⟩, fun Q => ?_⟩
  unfold SketchwareProject.tryFrom at hP ⊢
  simp only [Out.bind_eq_ok, Prod.exists] at hP ⊢
  obtain ⟨ss, ly, b1, cs, b2, lb, b3, im, b4, so, b5, fo, b6, b7⟩ := hP
  obtain rfl := Out.ok.inj b7
  simp only [c141_libs]
  constructor
  · rintro ⟨ss', ly', d1, cs', d2, lb', ⟨d3, rfl⟩, im', d4, so', d5, fo', d6, d7⟩
    obtain ⟨rfl, rfl⟩ := Prod.mk.inj (Out.ok.inj (b1.symm.trans d1))
    obtain rfl := Out.ok.inj (b2.symm.trans d2)
    obtain rfl := Out.ok.inj (b4.symm.trans d4)
    obtain rfl := Out.ok.inj (b5.symm.trans d5)
    obtain rfl := Out.ok.inj (b6.symm.trans d6)
    exact ⟨d3, (Out.ok.inj d7).symm⟩
  · rintro ⟨d3, rfl⟩
    exact ⟨ss, ly, b1, cs, b2, _, ⟨d3, rfl⟩, im, b4, so, b5, fo, b6, rfl⟩

/-! ### The list of files -/

omit [MapPol] [Floats] in
/-- The text without a line. -/
theorem c141_without {s a l : Str} {post : List Str} (hs : lines s = lines a ++ l :: post) : ∃ t, lines t = lines a ++ post := by
  refine ⟨joinWith '\n' (lines a ++ post), splitOn_joinWith (fun h => splitOn_ne_nil '\n' a (List.append_eq_nil_iff.mp h).1) fun p hp => ?_⟩
  refine splitOn_not_mem (s := s) (c := '\n') ?_
  have : p ∈ lines s := by
    rw [hs]
    simp only [List.mem_append, List.mem_cons] at hp ⊢
    exact hp.elim .inl fun h => .inr (.inr h)
  exact this

omit [MapPol] [Floats] in
theorem c141_file {s s' a l l' : Str} {post : List Str} {f : File} {x x' : FileItem} (h : File.parse s = .ok f) (hs : lines s = lines a ++ l :: post)
    (hs' : lines s' = lines a ++ l' :: post) (hx : FileItem.parse l = some x) (hx' : FileItem.parse l' = some x') :
    (c122_Under [s% "@activity", s% "@customview"] (s% "@activity") (lines a) → ∃ f₀ v, File.parse a = .ok f₀ ∧ f.activities = f₀.activities ++ x :: v ∧
      File.parse s' = .ok { f with activities := f₀.activities ++ x' :: v }) ∧
    (c122_Under [s% "@activity", s% "@customview"] (s% "@customview") (lines a) → ∃ f₀ v, File.parse a = .ok f₀ ∧ f.customViews = f₀.customViews ++ x :: v ∧
      File.parse s' = .ok { f with customViews := f₀.customViews ++ x' :: v }) := by
  obtain ⟨hl, hh⟩ := c116_noHeader (r := []) c116_fileItem hx
  obtain ⟨hl', hh'⟩ := c116_noHeader (r := []) c116_fileItem hx'
  rw [List.append_nil] at hh hh'
  obtain ⟨t, ht⟩ := c141_without hs
  obtain ⟨g, hg⟩ := c122_file_less ht hs hl hh h
  have k := c122_file ht hs hl hh hg
  have k' := c122_file ht hs' hl' hh' hg
  constructor
  · intro hu
    obtain ⟨f₀, v, b1, b2, b3, -⟩ := k.1 hu
    obtain ⟨f₁, v', c1, c2, c3, -⟩ := k'.1 hu
    obtain rfl := Out.ok.inj (b1.symm.trans c1)
    obtain rfl := List.append_cancel_left (b2.symm.trans c2)
    obtain rfl := Out.ok.inj (h.symm.trans (b3 x hx))
    exact ⟨f₀, v, b1, rfl, c3 x' hx'⟩
  · intro hu
    obtain ⟨f₀, v, b1, b2, b3, -⟩ := k.2.1 hu
    obtain ⟨f₁, v', c1, c2, c3, -⟩ := k'.2.1 hu
    obtain rfl := Out.ok.inj (b1.symm.trans c1)
    obtain rfl := List.append_cancel_left (b2.symm.trans c2)
    obtain rfl := Out.ok.inj (h.symm.trans (b3 x hx))
    exact ⟨f₀, v, b1, rfl, c3 x' hx'⟩

theorem c141_screen {ln gn : Str} {x x' : FileItem} {view : Layout} {logic : ScreenLogic} {fab : Option View} {s : Screen} (h : Screen.fromParsed ln gn x view logic fab = .ok s) :
    Screen.fromParsed ln gn x' view logic fab = .ok (c141_settings x' s) := by
  unfold Screen.fromParsed at h ⊢
  simp only [Out.bind_eq_ok, Prod.exists] at h ⊢
  obtain ⟨ly, h1, mb, cs, h2, co, h3, ev, cs', h4, h5⟩ := h
  obtain rfl := Out.ok.inj h5
  exact ⟨ly, h1, mb, cs, h2, co, h3, ev, cs', h4, rfl⟩

theorem c141_activities {x x' : FileItem} (hn : x'.filename = x.filename) {v : List FileItem} : ∀ (u : List FileItem) {ls : LMap Str Layout} {lg : LMap Str ScreenLogic}
    {fb : LMap Str AndroidView} {ss : List Screen} {ly : LMap Str Layout}, activitiesConv (u ++ x :: v) ls lg fb = .ok (ss, ly) →
    ∃ A s B, ss = A ++ s :: B ∧ A.length = u.length ∧ s.layoutName = x.filename ∧ activitiesConv (u ++ x' :: v) ls lg fb = .ok (A ++ c141_settings x' s :: B, ly)
  | [], ls, lg, fb, ss, ly, h => by
    rw [List.nil_append, activitiesConv] at h
    simp only [Out.bind_eq_ok, Out.mapErr_eq_ok, Out.pure_eq, Out.ok.injEq, Prod.mk.injEq, Prod.exists] at h
    obtain ⟨s, hs, ss', ly', h, rfl, rfl⟩ := h
    refine ⟨[], s, ss', rfl, rfl, ?_, ?_⟩
    · unfold Screen.fromParsed at hs
      simp only [Out.bind_eq_ok, Prod.exists] at hs
      obtain ⟨ly, h1, mb, cs, h2, co, h3, ev, cs', h4, h5⟩ := hs
      obtain rfl := Out.ok.inj h5
      rfl
    · rw [List.nil_append, activitiesConv]
      simp only [hn, c141_screen hs, h, Out.mapErr_ok, Out.ok_bind]
      rfl
  | f :: u, ls, lg, fb, ss, ly, h => by
    rw [List.cons_append, activitiesConv] at h
    simp only [Out.bind_eq_ok, Out.mapErr_eq_ok, Out.pure_eq, Out.ok.injEq, Prod.mk.injEq, Prod.exists] at h
    obtain ⟨s, hs, ss', ly', h, rfl, rfl⟩ := h
    obtain ⟨A, t, B, rfl, hA, hN, hB⟩ := c141_activities hn u h
    refine ⟨s :: A, t, B, rfl, by simp [hA], hN, ?_⟩
    rw [List.cons_append, activitiesConv]
    simp only [hs, hB, Out.mapErr_ok, Out.ok_bind]
    rfl

theorem c141_customs {x x' : FileItem} (hn : x'.filename = x.filename) {v : List FileItem} : ∀ (u : List FileItem) (ls : LMap Str Layout),
    customViewsConv (u ++ x' :: v) ls = customViewsConv (u ++ x :: v) ls
  | [], ls => by rw [List.nil_append, List.nil_append, customViewsConv, customViewsConv, hn]
  | f :: u, ls => by
    rw [List.cons_append, List.cons_append, customViewsConv, customViewsConv]
    simp only [c141_customs hn u]

/-- C141: the line of an activity in the file list is replaced by another one with the same name. The project is still opened and converted, and only the settings of the
screen of this activity change: they are those of the new line. -/
theorem c141_activity (ex : PathBuf → Bool) (rnd : ResourceType → Nat → UInt32) {raw : RawSketchwareProject} {p : Swrs.SketchwareProject} {P : SketchwareProject}
    (hp : Swrs.SketchwareProject.parseFrom ex raw = .ok p) (hP : SketchwareProject.tryFrom rnd p = .ok P) {file a l l' : Str} {post : List Str} {x x' : FileItem}
    (hs : lines raw.file = lines a ++ l :: post) (hs' : lines file = lines a ++ l' :: post) (hu : c122_Under [s% "@activity", s% "@customview"] (s% "@activity") (lines a))
    (hx : FileItem.parse l = some x) (hx' : FileItem.parse l' = some x') (hn : x'.filename = x.filename) :
    ∃ f₀ q A s B, File.parse a = .ok f₀ ∧ Swrs.SketchwareProject.parseFrom ex { raw with file } = .ok q ∧ P.screens = A ++ s :: B ∧ A.length = f₀.activities.length ∧
      s.layoutName = x.filename ∧ SketchwareProject.tryFrom rnd q = .ok { P with screens := A ++ c141_settings x' s :: B } := by
  obtain ⟨f₀, v, g1, g2, g3⟩ := (c141_file ((c58_parts ex _ _).mp hp).2.1 hs hs' hx hx').1 hu
  obtain ⟨ss, ly, cv, lb, im, so, fo, a1, a2, a3, a4, a5, a6, a7, a8, -⟩ := tryFrom_ok hP
  rw [g2] at a1
  obtain ⟨A, s, B, rfl, hA, hN, hB⟩ := c141_activities hn f₀.activities a1
  refine ⟨f₀, _, A, s, B, g1, c123_opened hp g3, a7, hA, hN, ?_⟩
  rw [c123_tryFrom (q := { p with file := { p.file with activities := f₀.activities ++ x' :: v } }) hP hB a2 rfl rfl rfl rfl, ← a8]

/-- C141: the line of a custom view in the file list is replaced by another one with the same name. The project is still opened and converted, and is the same. -/
theorem c141_customView (ex : PathBuf → Bool) (rnd : ResourceType → Nat → UInt32) {raw : RawSketchwareProject} {p : Swrs.SketchwareProject} {P : SketchwareProject}
    (hp : Swrs.SketchwareProject.parseFrom ex raw = .ok p) (hP : SketchwareProject.tryFrom rnd p = .ok P) {file a l l' : Str} {post : List Str} {x x' : FileItem}
    (hs : lines raw.file = lines a ++ l :: post) (hs' : lines file = lines a ++ l' :: post) (hu : c122_Under [s% "@activity", s% "@customview"] (s% "@customview") (lines a))
    (hx : FileItem.parse l = some x) (hx' : FileItem.parse l' = some x') (hn : x'.filename = x.filename) :
    ∃ q, Swrs.SketchwareProject.parseFrom ex { raw with file } = .ok q ∧ SketchwareProject.tryFrom rnd q = .ok P := by
  obtain ⟨f₀, v, g1, g2, g3⟩ := (c141_file ((c58_parts ex _ _).mp hp).2.1 hs hs' hx hx').2 hu
  obtain ⟨ss, ly, cv, lb, im, so, fo, a1, a2, a3, a4, a5, a6, a7, a8, -⟩ := tryFrom_ok hP
  refine ⟨_, c123_opened hp g3, ?_⟩
  rw [g2, ← c141_customs hn] at a2
  rw [c123_tryFrom (q := { p with file := { p.file with customViews := f₀.customViews ++ x' :: v } }) hP a1 a2 rfl rfl rfl rfl, ← a7, ← a8]

/-! ### The list of resources -/

omit [MapPol] [Floats] in
theorem c141_resource {s s' a l l' : Str} {post : List Str} {f : Resource} {x x' : ResourceItem} (h : Resource.parse s = .ok f) (hs : lines s = lines a ++ l :: post)
    (hs' : lines s' = lines a ++ l' :: post) (hx : ResourceItem.parse l = some x) (hx' : ResourceItem.parse l' = some x') :
    (c122_Under [s% "@images", s% "@sounds", s% "@fonts"] (s% "@images") (lines a) → ∃ f₀ v, Resource.parse a = .ok f₀ ∧ f.images = f₀.images ++ x :: v ∧
      Resource.parse s' = .ok { f with images := f₀.images ++ x' :: v }) ∧
    (c122_Under [s% "@images", s% "@sounds", s% "@fonts"] (s% "@sounds") (lines a) → ∃ f₀ v, Resource.parse a = .ok f₀ ∧ f.sounds = f₀.sounds ++ x :: v ∧
      Resource.parse s' = .ok { f with sounds := f₀.sounds ++ x' :: v }) ∧
    (c122_Under [s% "@images", s% "@sounds", s% "@fonts"] (s% "@fonts") (lines a) → ∃ f₀ v, Resource.parse a = .ok f₀ ∧ f.fonts = f₀.fonts ++ x :: v ∧
      Resource.parse s' = .ok { f with fonts := f₀.fonts ++ x' :: v }) := by
  obtain ⟨hl, hh⟩ := c116_noHeader (r := []) c116_resourceItem hx
  obtain ⟨hl', hh'⟩ := c116_noHeader (r := []) c116_resourceItem hx'
  rw [List.append_nil] at hh hh'
  obtain ⟨t, ht⟩ := c141_without hs
  obtain ⟨g, hg⟩ := c122_resource_less ht hs hl hh h
  have k := c122_resource ht hs hl hh hg
  have k' := c122_resource ht hs' hl' hh' hg
  refine ⟨fun hu => ?_, fun hu => ?_, fun hu => ?_⟩
  · obtain ⟨f₀, v, b1, b2, b3, -⟩ := k.1 hu
    obtain ⟨f₁, v', c1, c2, c3, -⟩ := k'.1 hu
    obtain rfl := Out.ok.inj (b1.symm.trans c1)
    obtain rfl := List.append_cancel_left (b2.symm.trans c2)
    obtain rfl := Out.ok.inj (h.symm.trans (b3 x hx))
    exact ⟨f₀, v, b1, rfl, c3 x' hx'⟩
  · obtain ⟨f₀, v, b1, b2, b3, -⟩ := k.2.1 hu
    obtain ⟨f₁, v', c1, c2, c3, -⟩ := k'.2.1 hu
    obtain rfl := Out.ok.inj (b1.symm.trans c1)
    obtain rfl := List.append_cancel_left (b2.symm.trans c2)
    obtain rfl := Out.ok.inj (h.symm.trans (b3 x hx))
    exact ⟨f₀, v, b1, rfl, c3 x' hx'⟩
  · obtain ⟨f₀, v, b1, b2, b3, -⟩ := k.2.2.1 hu
    obtain ⟨f₁, v', c1, c2, c3, -⟩ := k'.2.2.1 hu
    obtain rfl := Out.ok.inj (b1.symm.trans c1)
    obtain rfl := List.append_cancel_left (b2.symm.trans c2)
    obtain rfl := Out.ok.inj (h.symm.trans (b3 x hx))
    exact ⟨f₀, v, b1, rfl, c3 x' hx'⟩

omit [MapPol] [Floats] in
/-- One entry gets another name. -/
theorem c141_names {rnd : Nat → UInt32} {t : ResourceType} {x x' : ResourceItem} (hn : x'.fullName = x.fullName) {v : List ResourceItem} : ∀ (u : List ResourceItem)
    {files : Option (HMap Str ResourceFileWrapper)} {es : List (Str × ResourceFileWrapper)}, resourcesConv rnd t (u ++ x :: v) files = .ok es →
    ∃ e1 w e2, es = e1 ++ (x.name, w) :: e2 ∧ e1.map (·.1) = u.map (·.name) ∧ e2.map (·.1) = v.map (·.name) ∧ resourcesConv rnd t (u ++ x' :: v) files = .ok (e1 ++ (x'.name, w) :: e2)
  | [], files, es, h => by
    have keys : ∀ (v : List ResourceItem) {files : Option (HMap Str ResourceFileWrapper)} {es : List (Str × ResourceFileWrapper)}, resourcesConv rnd t v files = .ok es →
        es.map (·.1) = v.map (·.name) := by
      intro v
      induction v with
      | nil => intro files es h; cases h; rfl
      | cons i v ih =>
        intro files es h
        cases files with
        | none =>
          simp only [resourcesConv, Out.bind_eq_ok] at h
          obtain ⟨fs, h1, h2⟩ := h
          obtain rfl := Out.ok.inj h2
          simp [ih h1]
        | some fl =>
          simp only [resourcesConv, Out.bind_eq_ok] at h
          obtain ⟨f, h0, fs, h1, h2⟩ := h
          obtain rfl := Out.ok.inj h2
          simp [ih h1]
    rw [List.nil_append] at h
    cases files with
    | none =>
      simp only [resourcesConv, Out.bind_eq_ok] at h
      obtain ⟨fs, h1, h2⟩ := h
      obtain rfl := Out.ok.inj h2
      refine ⟨[], _, fs, rfl, rfl, keys v h1, ?_⟩
      simp only [List.nil_append, resourcesConv, h1, hn, Out.ok_bind]
      rfl
    | some fl =>
      simp only [resourcesConv, Out.bind_eq_ok] at h
      obtain ⟨f, h0, fs, h1, h2⟩ := h
      obtain rfl := Out.ok.inj h2
      refine ⟨[], f, fs, rfl, rfl, keys v h1, ?_⟩
      rw [Out.ofOption_eq_ok] at h0
      simp only [List.nil_append, resourcesConv, hn, h0, Out.ofOption, h1, Out.ok_bind]
      rfl
  | i :: u, files, es, h => by
    rw [List.cons_append] at h
    cases files with
    | none =>
      simp only [resourcesConv, Out.bind_eq_ok] at h
      obtain ⟨fs, h1, h2⟩ := h
      obtain rfl := Out.ok.inj h2
      obtain ⟨e1, w, e2, rfl, k1, k2, k3⟩ := c141_names hn u h1
      refine ⟨_ :: e1, w, e2, rfl, by simp [k1], k2, ?_⟩
      simp only [List.cons_append, resourcesConv, k3, Out.ok_bind, List.length_append, List.length_cons]
      rfl
    | some fl =>
      simp only [resourcesConv, Out.bind_eq_ok] at h
      obtain ⟨f, h0, fs, h1, h2⟩ := h
      obtain rfl := Out.ok.inj h2
      obtain ⟨e1, w, e2, rfl, k1, k2, k3⟩ := c141_names hn u h1
      refine ⟨_ :: e1, w, e2, rfl, by simp [k1], k2, ?_⟩
      rw [Out.ofOption_eq_ok] at h0
      simp only [List.cons_append, resourcesConv, h0, Out.ofOption, k3, Out.ok_bind]
      rfl

/-- Specification: one resource of a section has another name, at the same place. If names are used twice, this is so for the list of which the map is collected. -/
def c141_Renamed (n n' : Str) (items : List ResourceItem) (m m' : LMap Str ResourceFileWrapper) : Prop :=
  ∃ e1 w e2, e1.map (·.1) ++ n :: e2.map (·.1) = items.map (·.name) ∧ m = LMap.collect (e1 ++ (n, w) :: e2) ∧ m' = LMap.collect (e1 ++ (n', w) :: e2) ∧
    ((items.map (·.name)).Nodup → m = e1 ++ (n, w) :: e2 ∧ (n' ∉ e1.map (·.1) ++ e2.map (·.1) → m' = e1 ++ (n', w) :: e2))

omit [Floats] in
theorem c141_renamed {n n' : Str} {u v : List ResourceItem} {x : ResourceItem} (hx : x.name = n) {e1 e2 : List (Str × ResourceFileWrapper)} {w : ResourceFileWrapper}
    (h1 : e1.map (·.1) = u.map (·.name)) (h2 : e2.map (·.1) = v.map (·.name)) :
    c141_Renamed n n' (u ++ x :: v) (LMap.collect (e1 ++ (n, w) :: e2)) (LMap.collect (e1 ++ (n', w) :: e2)) := by
  have hk : (u ++ x :: v).map (·.name) = e1.map (·.1) ++ n :: e2.map (·.1) := by simp [h1, h2, hx]
  refine ⟨e1, w, e2, hk.symm, rfl, rfl, fun hd => ?_⟩
  rw [hk] at hd
  constructor
  · refine LMap.collect_nodup _ ?_
    simpa [LMap.keys] using hd
  · intro hn
    refine LMap.collect_nodup _ ?_
    obtain ⟨d1, d2, d3⟩ := List.nodup_append.mp hd
    obtain ⟨d4, d5⟩ := List.nodup_cons.mp d2
    have : (e1.map (·.1) ++ n' :: e2.map (·.1)).Nodup := by
      refine List.nodup_append.mpr ⟨d1, List.nodup_cons.mpr ⟨fun h => hn (List.mem_append_right _ h), d5⟩, ?_⟩
      rintro a ha _ hc rfl
      rcases List.mem_cons.mp hc with rfl | hc
      · exact hn (List.mem_append_left _ ha)
      · exact d3 a ha a (List.mem_cons_of_mem _ hc) rfl
    simpa [LMap.keys] using this

/-- C141: the line of an image in the resource list is replaced by another one for the same file. The project is still opened and converted, and only the name of this image
changes. -/
theorem c141_image (ex : PathBuf → Bool) (rnd : ResourceType → Nat → UInt32) {raw : RawSketchwareProject} {p : Swrs.SketchwareProject} {P : SketchwareProject}
    (hp : Swrs.SketchwareProject.parseFrom ex raw = .ok p) (hP : SketchwareProject.tryFrom rnd p = .ok P) {resource a l l' : Str} {post : List Str} {x x' : ResourceItem}
    (hs : lines raw.resource = lines a ++ l :: post) (hs' : lines resource = lines a ++ l' :: post)
    (hu : c122_Under [s% "@images", s% "@sounds", s% "@fonts"] (s% "@images") (lines a)) (hx : ResourceItem.parse l = some x) (hx' : ResourceItem.parse l' = some x')
    (hn : x'.fullName = x.fullName) : ∃ q R, Swrs.SketchwareProject.parseFrom ex { raw with resource } = .ok q ∧
      SketchwareProject.tryFrom rnd q = .ok { P with resources := { P.resources with images := R } } ∧ c141_Renamed x.name x'.name p.resource.images P.resources.images R := by
  obtain ⟨f₀, v, g1, g2, g3⟩ := (c141_resource ((c58_parts ex _ _).mp hp).2.2.2.1 hs hs' hx hx').1 hu
  unfold SketchwareProject.tryFrom at hP
  simp only [Out.bind_eq_ok, Prod.exists] at hP
  obtain ⟨ss, ly, a1, cs, a2, lb, a3, im, a4, so, a5, fo, a6, a7⟩ := hP
  obtain rfl := Out.ok.inj a7
  rw [g2] at a4
  obtain ⟨e1, w, e2, rfl, k1, k2, k3⟩ := c141_names hn f₀.images a4
  refine ⟨_, LMap.collect (e1 ++ (x'.name, w) :: e2), c123_resource_opened hp g3, ?_, ?_⟩
  · unfold SketchwareProject.tryFrom
    simp only [Out.bind_eq_ok, Prod.exists]
    exact ⟨ss, ly, a1, cs, a2, lb, a3, _, k3, so, a5, fo, a6, rfl⟩
  · rw [g2]
    exact c141_renamed rfl k1 k2

/-- C141: so with the line of a sound. -/
theorem c141_sound (ex : PathBuf → Bool) (rnd : ResourceType → Nat → UInt32) {raw : RawSketchwareProject} {p : Swrs.SketchwareProject} {P : SketchwareProject}
    (hp : Swrs.SketchwareProject.parseFrom ex raw = .ok p) (hP : SketchwareProject.tryFrom rnd p = .ok P) {resource a l l' : Str} {post : List Str} {x x' : ResourceItem}
    (hs : lines raw.resource = lines a ++ l :: post) (hs' : lines resource = lines a ++ l' :: post)
    (hu : c122_Under [s% "@images", s% "@sounds", s% "@fonts"] (s% "@sounds") (lines a)) (hx : ResourceItem.parse l = some x) (hx' : ResourceItem.parse l' = some x')
    (hn : x'.fullName = x.fullName) : ∃ q R, Swrs.SketchwareProject.parseFrom ex { raw with resource } = .ok q ∧
      SketchwareProject.tryFrom rnd q = .ok { P with resources := { P.resources with sounds := R } } ∧ c141_Renamed x.name x'.name p.resource.sounds P.resources.sounds R := by
  obtain ⟨f₀, v, g1, g2, g3⟩ := (c141_resource ((c58_parts ex _ _).mp hp).2.2.2.1 hs hs' hx hx').2.1 hu
  unfold SketchwareProject.tryFrom at hP
  simp only [Out.bind_eq_ok, Prod.exists] at hP
  obtain ⟨ss, ly, a1, cs, a2, lb, a3, im, a4, so, a5, fo, a6, a7⟩ := hP
  obtain rfl := Out.ok.inj a7
  rw [g2] at a5
  obtain ⟨e1, w, e2, rfl, k1, k2, k3⟩ := c141_names hn f₀.sounds a5
  refine ⟨_, LMap.collect (e1 ++ (x'.name, w) :: e2), c123_resource_opened hp g3, ?_, ?_⟩
  · unfold SketchwareProject.tryFrom
    simp only [Out.bind_eq_ok, Prod.exists]
    exact ⟨ss, ly, a1, cs, a2, lb, a3, im, a4, _, k3, fo, a6, rfl⟩
  · rw [g2]
    exact c141_renamed rfl k1 k2

/-- C141: so with the line of a font. -/
theorem c141_font (ex : PathBuf → Bool) (rnd : ResourceType → Nat → UInt32) {raw : RawSketchwareProject} {p : Swrs.SketchwareProject} {P : SketchwareProject}
    (hp : Swrs.SketchwareProject.parseFrom ex raw = .ok p) (hP : SketchwareProject.tryFrom rnd p = .ok P) {resource a l l' : Str} {post : List Str} {x x' : ResourceItem}
    (hs : lines raw.resource = lines a ++ l :: post) (hs' : lines resource = lines a ++ l' :: post)
    (hu : c122_Under [s% "@images", s% "@sounds", s% "@fonts"] (s% "@fonts") (lines a)) (hx : ResourceItem.parse l = some x) (hx' : ResourceItem.parse l' = some x')
    (hn : x'.fullName = x.fullName) : ∃ q R, Swrs.SketchwareProject.parseFrom ex { raw with resource } = .ok q ∧
      SketchwareProject.tryFrom rnd q = .ok { P with resources := { P.resources with fonts := R } } ∧ c141_Renamed x.name x'.name p.resource.fonts P.resources.fonts R := by
  obtain ⟨f₀, v, g1, g2, g3⟩ := (c141_resource ((c58_parts ex _ _).mp hp).2.2.2.1 hs hs' hx hx').2.2 hu
  unfold SketchwareProject.tryFrom at hP
  simp only [Out.bind_eq_ok, Prod.exists] at hP
  obtain ⟨ss, ly, a1, cs, a2, lb, a3, im, a4, so, a5, fo, a6, a7⟩ := hP
  obtain rfl := Out.ok.inj a7
  rw [g2] at a6
  obtain ⟨e1, w, e2, rfl, k1, k2, k3⟩ := c141_names hn f₀.fonts a6
  refine ⟨_, LMap.collect (e1 ++ (x'.name, w) :: e2), c123_resource_opened hp g3, ?_, ?_⟩
  · unfold SketchwareProject.tryFrom
    simp only [Out.bind_eq_ok, Prod.exists]
    exact ⟨ss, ly, a1, cs, a2, lb, a3, im, a4, so, a5, _, k3, rfl⟩
  · rw [g2]
    exact c141_renamed rfl k1 k2

end

/-! ### Examples -/

/-- `c141_project`. -/
example [MapPol] (ex : PathBuf → Bool) (rnd : ResourceType → Nat → UInt32) : let _ : Floats := toyFloats.toFloats
    ∃ (raw : RawSketchwareProject) (p : Swrs.SketchwareProject) (P : SketchwareProject) (project : Str) (x : Project), Swrs.SketchwareProject.parseFrom ex raw = .ok p ∧
    SketchwareProject.tryFrom rnd p = .ok P ∧ Project.parse project = .ok x ∧ (∀ y, Project.parse [] ≠ .ok y) ∧ c141_metadata x = P.metadata ∧ P.metadata.name = s% "A" := by
  let _ : Floats := toyFloats.toFloats
  exact ⟨_, _, _, c114_projectText, _, c120_parsed ex (v := []) (g := []) rfl rfl, rfl, c114_projectText_read, (fun y h => by cases h), rfl, rfl⟩

/-- `c141_library`: the map library is now marked with `N`; with another mark the project is not converted. -/
example [MapPol] (ex : PathBuf → Bool) (rnd : ResourceType → Nat → UInt32) : let _ : Floats := toyFloats.toFloats
    ∃ (raw : RawSketchwareProject) (p : Swrs.SketchwareProject) (P : SketchwareProject) (library library' : Str) (x y : Library), Swrs.SketchwareProject.parseFrom ex raw = .ok p ∧
    SketchwareProject.tryFrom rnd p = .ok P ∧ Library.parse library = .ok x ∧ (∀ u ∈ [x.firebaseDb.useYn, x.admob.useYn, x.googleMap.useYn], u = s% "Y" ∨ u = s% "N") ∧
    (c141_libraries x).googleMap = none ∧ P.libraries.googleMap = some ⟨[]⟩ ∧ Library.parse library' = .ok y ∧ y.googleMap.useYn = s% "y" := by
  let _ : Floats := toyFloats.toFloats
  refine ⟨_, _, _, _, _, ⟨sampleLib [], sampleLib [], sampleLib [], { sampleLib [] with useYn := s% "N" }⟩,
    ⟨sampleLib [], sampleLib [], sampleLib [], { sampleLib [] with useYn := s% "y" }⟩, c120_parsed ex (v := []) (g := []) rfl rfl, rfl, c19_library_round_trip _, ?_, rfl, rfl,
    c19_library_round_trip _, rfl⟩
  decide

/-- `c141_activity`: the screen gets a toolbar. -/
example [MapPol] (ex : PathBuf → Bool) (rnd : ResourceType → Nat → UInt32) : let _ : Floats := toyFloats.toFloats
    ∃ (raw : RawSketchwareProject) (p : Swrs.SketchwareProject) (P : SketchwareProject) (file a l l' : Str) (post : List Str) (x x' : FileItem),
    Swrs.SketchwareProject.parseFrom ex raw = .ok p ∧ SketchwareProject.tryFrom rnd p = .ok P ∧ lines raw.file = lines a ++ l :: post ∧ lines file = lines a ++ l' :: post ∧
    c122_Under [s% "@activity", s% "@customview"] (s% "@activity") (lines a) ∧ FileItem.parse l = some x ∧ FileItem.parse l' = some x' ∧ x'.filename = x.filename ∧
    x.options.toolbar = false ∧ x'.options.toolbar = true := by
  let _ : Floats := toyFloats.toFloats
  refine ⟨_, _, _, s% "@activity\n{\"fileName\":\"main\",\"fileType\":0,\"keyboardSetting\":0,\"options\":1,\"orientation\":0,\"theme\":-1}", s% "@activity", c114_fileText.drop 10,
    s% "{\"fileName\":\"main\",\"fileType\":0,\"keyboardSetting\":0,\"options\":1,\"orientation\":0,\"theme\":-1}", [],
    ⟨s% "main", .activity, .unspecified, ⟨false, false, false, false⟩, .portrait, .none⟩, ⟨s% "main", .activity, .unspecified, ⟨true, false, false, false⟩, .portrait, .none⟩,
    c120_parsed ex (v := []) (g := []) rfl rfl, rfl, by decide +kernel, by decide +kernel, ⟨⟨[], [], by decide, by simp⟩, fun a b e => ?_⟩, by decide +kernel, by decide +kernel, rfl, rfl, rfl⟩
  have : ([] : Str) ∉ lines (s% "@activity") := by decide
  exact absurd (by rw [e]; simp) this

/-- `c141_customView`: a setting of a custom view. -/
example [MapPol] (ex : PathBuf → Bool) (rnd : ResourceType → Nat → UInt32) : let _ : Floats := toyFloats.toFloats
    ∃ (raw : RawSketchwareProject) (p : Swrs.SketchwareProject) (P : SketchwareProject) (file a l l' : Str) (post : List Str) (x x' : FileItem),
    Swrs.SketchwareProject.parseFrom ex raw = .ok p ∧ SketchwareProject.tryFrom rnd p = .ok P ∧ lines raw.file = lines a ++ l :: post ∧ lines file = lines a ++ l' :: post ∧
    c122_Under [s% "@activity", s% "@customview"] (s% "@customview") (lines a) ∧ FileItem.parse l = some x ∧ FileItem.parse l' = some x' ∧ x'.filename = x.filename ∧
    x' ≠ x ∧ P.customViews.length = 1 := by
  let _ : Floats := toyFloats.toFloats
  have h0 : Swrs.SketchwareProject.parseFrom ex (c120_raw (s% "@row.xml") []) = .ok (c120_read ⟨[(s% "row", ⟨[]⟩)], []⟩ ⟨[]⟩) := c120_parsed ex rfl rfl
  have h1 : Swrs.SketchwareProject.parseFrom ex { c120_raw (s% "@row.xml") [] with
      file := c114_fileText ++ s% "\n@customview\n{\"fileName\":\"row\",\"fileType\":1,\"keyboardSetting\":0,\"options\":0,\"orientation\":0,\"theme\":-1}" } =
      .ok { c120_read ⟨[(s% "row", ⟨[]⟩)], []⟩ ⟨[]⟩ with
        file := ⟨[⟨s% "main", .activity, .unspecified, ⟨false, false, false, false⟩, .portrait, .none⟩],
          [⟨s% "row", .customView, .unspecified, ⟨false, false, false, false⟩, .portrait, .none⟩]⟩ } := c123_opened h0 (by decide +kernel)
  refine ⟨_, _, _, c114_fileText ++ s% "\n@customview\n{\"fileName\":\"row\",\"fileType\":1,\"keyboardSetting\":0,\"options\":1,\"orientation\":0,\"theme\":-1}",
    c114_fileText ++ s% "\n@customview", s% "{\"fileName\":\"row\",\"fileType\":1,\"keyboardSetting\":0,\"options\":0,\"orientation\":0,\"theme\":-1}",
    s% "{\"fileName\":\"row\",\"fileType\":1,\"keyboardSetting\":0,\"options\":1,\"orientation\":0,\"theme\":-1}",
    [], ⟨s% "row", .customView, .unspecified, ⟨false, false, false, false⟩, .portrait, .none⟩, ⟨s% "row", .customView, .unspecified, ⟨true, false, false, false⟩, .portrait, .none⟩,
    h1, rfl, by decide +kernel, by decide +kernel,
    ⟨⟨lines c114_fileText, [], by decide +kernel, by simp⟩, fun a b e => ?_⟩, by decide +kernel, by decide +kernel, rfl, by simp, rfl⟩
  have : ([] : Str) ∉ lines (c114_fileText ++ s% "\n@customview") := by decide +kernel
  exact absurd (by rw [e]; simp) this

/-- `c141_image`: the file `a.png` gets the name `b`. (The theorems for sounds and fonts have the same hypotheses.) -/
example [MapPol] (ex : PathBuf → Bool) (rnd : ResourceType → Nat → UInt32) : let _ : Floats := toyFloats.toFloats
    ∃ (raw : RawSketchwareProject) (p : Swrs.SketchwareProject) (P : SketchwareProject) (resource a l l' : Str) (post : List Str) (x x' : ResourceItem),
    Swrs.SketchwareProject.parseFrom ex raw = .ok p ∧ SketchwareProject.tryFrom rnd p = .ok P ∧ lines raw.resource = lines a ++ l :: post ∧
    lines resource = lines a ++ l' :: post ∧ c122_Under [s% "@images", s% "@sounds", s% "@fonts"] (s% "@images") (lines a) ∧ ResourceItem.parse l = some x ∧
    ResourceItem.parse l' = some x' ∧ x'.fullName = x.fullName ∧ x'.name ≠ x.name ∧ (p.resource.images.map (·.name)).Nodup ∧ p.resourceFiles ≠ none := by
  let _ : Floats := toyFloats.toFloats
  have h0 := @c120_parsed _ ex [] [] (@Swrs.View.mk toyFloats.toFloats [] []) ⟨[]⟩ rfl rfl
  obtain ⟨a1, a2, a3, -, a5, a6, -⟩ := (c58_parts ex _ _).mp h0
  have h1 : Swrs.SketchwareProject.parseFrom ex { c120_raw [] [] with resource := s% "@images\n{\"resFullName\":\"a.png\",\"resName\":\"a\",\"resType\":1}", resourceFiles := some [.u32Id 1 (s% "a.png") .image] } =
      .ok { c120_read ⟨[], []⟩ ⟨[]⟩ with resource := ⟨[⟨s% "a.png", s% "a", 1⟩], [], []⟩, resourceFiles := some ⟨none, [(s% "a.png", .u32Id 1 (s% "a.png") .image)], [], []⟩ } :=
    (c58_parts ex _ _).mpr ⟨a1, a2, a3, by decide +kernel, a5, a6, _, rfl, rfl⟩
  refine ⟨_, _, _, s% "@images\n{\"resFullName\":\"a.png\",\"resName\":\"b\",\"resType\":1}", s% "@images", s% "{\"resFullName\":\"a.png\",\"resName\":\"a\",\"resType\":1}",
    s% "{\"resFullName\":\"a.png\",\"resName\":\"b\",\"resType\":1}", [],
    ⟨s% "a.png", s% "a", 1⟩, ⟨s% "a.png", s% "b", 1⟩, h1, rfl, by decide +kernel, by decide +kernel, ⟨⟨[], [], by decide, by simp⟩, fun a b e => ?_⟩, by decide +kernel, by decide +kernel, rfl,
    by decide, by simp, by simp⟩
  have : ([] : Str) ∉ lines (s% "@images") := by decide
  exact absurd (by rw [e]; simp) this

end Swrs.Api
