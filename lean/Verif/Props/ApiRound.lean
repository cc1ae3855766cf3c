import Verif.Proofs.ApiRound
import Verif.Props.ApiScreen
import Verif.Props.Resources
import Verif.Props.ApiProject
/-!
# C55, C61: projects converted to the parser model and back
-/
namespace Swrs.Api
section
variable [MapPol] [Floats]

/-! ## C55 — Screen logic is found again -/

omit [MapPol] in
/-- The logic of every screen is where it is looked for, and no two screens share a name. -/
structure NamesMatch (p : SketchwareProject) : Prop where
  java : ∀ s ∈ p.screens, s.javaName = viewNameToLogic s.layoutName
  distinct : (p.screens.map (·.javaName)).Nodup

omit [MapPol] in
theorem NamesMatch.logic {p : SketchwareProject} (h : NamesMatch p) :
    ((p.screens.map Screen.toFileItem).map fun f => viewNameToLogic f.filename).Nodup := by
  have : (p.screens.map Screen.toFileItem).map (fun f => viewNameToLogic f.filename) = p.screens.map (·.javaName) := by
    rw [List.map_map]
    exact List.map_congr_left fun s hs => (h.java s hs).symm
  rw [this]
  exact h.distinct

omit [MapPol] in
theorem NamesMatch.layout {p : SketchwareProject} (h : NamesMatch p) : (p.screens.map (·.layoutName)).Nodup := by
  have h := h.logic
  simp only [List.Nodup, List.pairwise_map] at h ⊢
  exact h.imp fun hne he => hne (by simp only [Screen.toFileItem, he])

/-- What is read for the screens of a project that was written. -/
theorem screenOf_back {p : SketchwareProject} (hn : NamesMatch p) {lg : LMap Str ScreenLogic} {ls : LMap Str Layout}
    {fs : LMap Str AndroidView} (h : screensBack p.screens [] [] [] = .ok (lg, ls, fs)) {s : Screen} (hs : s ∈ p.screens) :
    ∃ l, s.toLogic = .ok l ∧ ∀ ls' : LMap Str Layout, screenOf ls' lg fs s.toFileItem =
        Screen.fromParsed s.layoutName l.name s.toFileItem ((ls'.get s.layoutName).getD ⟨[]⟩) l
          (s.fab.map fun v => View.ofRaw (fabBack v)) := by
  obtain ⟨h1, h2, h3, _, _⟩ := screensBack_ok hn.layout hn.distinct h
  obtain ⟨l, hl, hg⟩ := h1 s hs
  refine ⟨l, hl, fun ls' => ?_⟩
  have h3 := h3 s hs rfl
  rw [hn.java s hs] at hg
  simp only [screenOf, show s.toFileItem.filename = s.layoutName from rfl]
  rw [h3, hg]
  simp only [Option.getD_some, Option.map_map]
  rfl

/-- C55, what holds: if every screen has the name that its logic is looked up by, and the names are distinct, then every
screen has its names, variables and components again, and its events, moreblocks and code are read from its own logic.
Missing: screens with another name. -/
theorem c55_found_partial (rnd : ResourceType → Nat → UInt32) (p p' : SketchwareProject) (q : Swrs.SketchwareProject)
    (hn : NamesMatch p) (hc : ∀ s ∈ p.screens, s.components.keys.Nodup) (h : p.toParsed = .ok q)
    (h' : SketchwareProject.tryFrom rnd q = .ok p') :
    All₂ (fun s s' => s'.layoutName = s.layoutName ∧ s'.javaName = s.javaName ∧ s'.variables = s.variables ∧
      s'.listVariables = s.listVariables ∧ s'.components = s.components ∧
      ∃ l layout, s.toLogic = .ok l ∧ Screen.fromParsed s.layoutName l.name s.toFileItem layout l
        (s.fab.map fun v => View.ofRaw (fabBack v)) = .ok s') p.screens p'.screens := by
  obtain ⟨lg, ls, fs, _, _, _, hb, _, _, _, _, hf, _, hv, hl, _⟩ := toParsed_ok h
  obtain ⟨screens, layouts, _, _, _, _, _, ha, _, _, _, _, _, hs, _⟩ := tryFrom_ok h'
  rw [hf, hv, hl, activitiesConv_ok hn.logic, All₂.map_left] at ha
  rw [hs]
  refine ha.1.imp_mem fun s hs s' _ h => ?_
  obtain ⟨l, hl, hr⟩ := screenOf_back hn hb hs
  rw [hr] at h
  obtain ⟨h1, h2, h3, h4, cs, h5, h6⟩ := fromParsed_fields h
  obtain ⟨g1, g2, g3, g4⟩ := toLogic_fields hl
  rw [g4] at h5
  have := (componentsOf_back s.components).symm.trans h5
  cases this
  refine ⟨h1, h2.trans g1, by rw [h3, g2]; rfl, by rw [h4, g3]; rfl, ?_, l, _, hl, h⟩
  rw [h6, LMap.collect_nodup _ (hc s hs)]

/-- C55: a screen whose logic is not looked up under the name of any screen loses its variables, components, moreblocks
and events. -/
theorem c55_lost (rnd : ResourceType → Nat → UInt32) (p p' : SketchwareProject) (q : Swrs.SketchwareProject)
    (hn : (p.screens.map fun s => viewNameToLogic s.layoutName).Nodup) (h : p.toParsed = .ok q)
    (h' : SketchwareProject.tryFrom rnd q = .ok p') :
    All₂ (fun s s' => viewNameToLogic s.layoutName ∉ p.screens.map (·.javaName) →
      s'.javaName = s.layoutName ∧ s'.variables = [] ∧ s'.listVariables = [] ∧ s'.components = [] ∧ s'.moreBlocks = [] ∧ s'.events = [])
      p.screens p'.screens := by
  obtain ⟨lg, ls, fs, _, _, _, hb, _, _, _, _, hf, _, hv, hl, _⟩ := toParsed_ok h
  obtain ⟨screens, layouts, _, _, _, _, _, ha, _, _, _, _, _, hs, _⟩ := tryFrom_ok h'
  rw [hf, hv, hl, activitiesConv_ok (by rw [List.map_map]; exact hn), All₂.map_left] at ha
  rw [hs]
  refine ha.1.imp fun s s' h hk => ?_
  have hg := screensBack_other hb _ hk
  simp only [screenOf, show s.toFileItem.filename = s.layoutName from rfl, hg, LMap.get, Option.getD_none, Screen.fromParsed,
    Out.bind_eq_ok, Out.mapErr_eq_ok, Prod.exists, Out.ok.injEq, Out.pure_eq] at h
  obtain ⟨layout, _, mbs, cs', hmb, comps, hc, events, cs'', hev, rfl⟩ := h
  simp only [ScreenLogic.newEmpty, Option.map_none, Option.getD_none, moreBlocksOf, componentsOf, Out.ok.injEq, Prod.mk.injEq,
    parserEvents, LMap.keys_nil, List.not_mem_nil, if_false, eventsOf] at hmb hc hev
  obtain ⟨rfl, rfl⟩ := hmb
  subst hc
  obtain ⟨rfl, rfl⟩ := hev
  exact ⟨rfl, rfl, rfl, rfl, rfl, rfl⟩

omit [MapPol] [Floats] in
theorem capitalised_no_underscore (b : Bool) (s : Str) : '_' ∉ capitalised b s := by
  induction s generalizing b with
  | nil => simp [capitalised]
  | cons c s ih =>
    rw [capitalised]
    split
    · exact ih true
    · next h =>
      split
      · rw [List.mem_cons, not_or]
        refine ⟨?_, ih false⟩
        rw [asciiUpper]
        split
        · next hc =>
          intro he
          have h1 : 97 ≤ c.toNat := hc.1
          have h2 : c.toNat ≤ 122 := hc.2
          have : (95 : Nat) = (Char.ofNat (c.toNat - 32)).toNat := congrArg Char.toNat he
          rw [charToNat_ofNat (by omega)] at this
          omega
        · exact fun he => h he.symm
      · rw [List.mem_cons, not_or]
        exact ⟨fun he => h he.symm, ih false⟩

omit [MapPol] [Floats] in
theorem capitalised_length (b : Bool) (s : Str) (h : '_' ∉ s) : (capitalised b s).length = s.length := by
  induction s generalizing b with
  | nil => rfl
  | cons c s ih =>
    rw [List.mem_cons, not_or] at h
    rw [capitalised, if_neg (Ne.symm h.1)]
    split <;> simp [ih false h.2]

omit [MapPol] [Floats] in
/-- No view has the name of its logic. -/
theorem viewNameToLogic_ne (s : Str) : viewNameToLogic s ≠ s := by
  intro h
  have hu : '_' ∉ s := by
    rw [← h, viewNameToLogic, List.mem_append, not_or]
    exact ⟨capitalised_no_underscore true s, by decide⟩
  have := congrArg List.length h
  rw [viewNameToLogic, List.length_append, capitalised_length true s hu] at this
  simp at this

/-- C55: which screens of a file have a name under which their logic is found again: those that have a logic in the file. -/
theorem c55_names (rnd : ResourceType → Nat → UInt32) (val : Swrs.SketchwareProject) (p : SketchwareProject)
    (hk : ∀ k l, val.logic.screens.get k = some l → l.name = k)
    (hn : (val.file.activities.map fun f => viewNameToLogic f.filename).Nodup) (h : SketchwareProject.tryFrom rnd val = .ok p) :
    All₂ (fun f s => s.layoutName = f.filename ∧
      (s.javaName = viewNameToLogic s.layoutName ↔ viewNameToLogic f.filename ∈ val.logic.screens.keys)) val.file.activities p.screens := by
  obtain ⟨screens, layouts, _, _, _, _, _, ha, _, _, _, _, _, hs, _⟩ := tryFrom_ok h
  rw [activitiesConv_ok hn] at ha
  rw [hs]
  refine ha.1.imp fun f s h => ?_
  obtain ⟨h1, h2, _⟩ := fromParsed_fields h
  refine ⟨h1, ?_⟩
  rw [h1, h2, ← LMap.get_isSome]
  cases hg : val.logic.screens.get (viewNameToLogic f.filename) with
  | none =>
    simp only [Option.getD_none, ScreenLogic.newEmpty, reduceCtorEq, exists_false, iff_false]
    exact (viewNameToLogic_ne _).symm
  | some l => simp [hk _ _ hg]

/-! ## C61 — Projects survive the API -/

/-- What a project needs to survive, apart from its resource files. -/
structure SketchwareProject.Survives (p : SketchwareProject) : Prop where
  names : NamesMatch p
  screens : ∀ s ∈ p.screens, s.moreBlocks.keys.Nodup ∧ s.components.keys.Nodup ∧ s.Survives
  customViews : ∀ c ∈ p.customViews, parseRawLayout ⟨flattenViews c.layout none none⟩ = .ok c.layout
  customViewNames : (p.customViews.map (·.resName)).Nodup
  /-- No custom view has the name of a screen. -/
  apart : ∀ c ∈ p.customViews, ∀ s ∈ p.screens, c.resName ≠ s.layoutName
  /-- The resource files have names. -/
  resources : ∀ m ∈ [p.resources.images, p.resources.sounds, p.resources.fonts], ∀ e ∈ m,
    ∃ n, (e.2.getFullName : Out Empty Str) = .ok n

omit [MapPol] [Floats] in
theorem resourcesBack_total (auto : Bool) {es : List (Str × ResourceFileWrapper)} {files : HMap Str ResourceFileWrapper}
    (h : ∀ e ∈ es, ∃ n, (e.2.getFullName : Out Empty Str) = .ok n) : ∃ r, resourcesBack auto es files = .ok r := by
  induction es generalizing files with
  | nil => exact ⟨_, rfl⟩
  | cons e es ih =>
    obtain ⟨id, file⟩ := e
    obtain ⟨n, hn⟩ := h (id, file) (by simp)
    obtain ⟨r, hr⟩ := ih (files := if auto then files else files.insert n file) fun e he => h e (by simp [he])
    simp only at hn
    simp only [resourcesBack, hn, Out.ok_bind, hr]
    exact ⟨_, rfl⟩

omit [MapPol] [Floats] in
theorem resourcesConv_nil (rnd : Nat → UInt32) (t : ResourceType) (files) : resourcesConv rnd t [] files = .ok [] := by
  cases files <;> rfl

/-- A surviving project is written and read back, up to its resources. -/
theorem survives_parts {p : SketchwareProject} (hp : p.Survives) : ∃ q, p.toParsed = .ok q ∧
    ∃ ls, activitiesConv q.file.activities q.view.layouts q.logic.screens q.view.fabs = .ok (p.screens, ls) ∧
      customViewsConv q.file.customViews ls = .ok p.customViews := by
  have hlog : ∀ s ∈ p.screens, ∃ l, s.toLogic = .ok l := by
    intro s hs
    obtain ⟨h1, h2, h3⟩ := hp.screens s hs
    obtain ⟨l, hl, _⟩ := (c59_round_trip_partial s h1 h2).mpr h3
    exact ⟨l, hl⟩
  obtain ⟨⟨lg, ls, fs⟩, hb⟩ := screensBack_total hlog [] [] []
  obtain ⟨⟨is, ifs⟩, hi⟩ := resourcesBack_total p.automaticResFileIds (files := []) (hp.resources p.resources.images (by simp))
  obtain ⟨⟨ss, sfs⟩, hs⟩ := resourcesBack_total p.automaticResFileIds (files := []) (hp.resources p.resources.sounds (by simp))
  obtain ⟨⟨os, ofs⟩, ho⟩ := resourcesBack_total p.automaticResFileIds (files := []) (hp.resources p.resources.fonts (by simp))
  have hq : ∃ q, p.toParsed = .ok q := by
    simp only [SketchwareProject.toParsed, hb, hi, hs, ho, Out.ok_bind]
    exact ⟨_, rfl⟩
  obtain ⟨q, hq⟩ := hq
  refine ⟨q, hq, ?_⟩
  obtain ⟨lg', ls', fs', _, _, _, hb', _, _, _, _, hf, _, hv, hl, _⟩ := toParsed_ok hq
  rw [hb] at hb'
  cases hb'
  rw [hf, hv, hl]
  obtain ⟨hc1, hc2⟩ := customViewsBack_get ls hp.customViewNames
  refine ⟨_, (activitiesConv_ok hp.names.logic).mpr ⟨?_, rfl⟩, ?_⟩
  · rw [All₂.map_left]
    refine All₂.refl_of fun s hs => ?_
    obtain ⟨l, hl, hr⟩ := screenOf_back hp.names hb hs
    rw [hr, hc2, (screensBack_ok hp.names.layout hp.names.distinct hb).2.1 s hs]
    · obtain ⟨h1, h2, h3⟩ := hp.screens s hs
      obtain ⟨l', hl', h⟩ := (c59_round_trip_partial s h1 h2).mpr h3
      rw [hl] at hl'
      cases hl'
      exact h
    · intro hm
      obtain ⟨c, hc, he⟩ := List.mem_map.mp hm
      exact hp.apart c hc s hs he
  · refine customViewsConv_back hp.customViewNames (fun c hc => ?_) hp.customViews
    rw [get_foldl_erase, hc1 c hc]
    rw [List.map_map]
    intro hm
    obtain ⟨s, hs, he⟩ := List.mem_map.mp hm
    exact hp.apart c hc s hs he.symm

omit [MapPol] [Floats] in
/-- The resources `new` have the ids of the resources `old`, in their order; the files are new ones, of the kind `t`, with the names of the
old ones. -/
def c61_Renewed (t : ResourceType) (old new : LMap Str ResourceFileWrapper) : Prop :=
  All₂ (fun o n => n.1 = o.1 ∧ ∃ id name, (o.2.getFullName : Out Empty Str) = .ok name ∧ n.2 = .u32Id id name t) old new

omit [MapPol] [Floats] in
theorem c61_renewed_keys {t : ResourceType} {old new : LMap Str ResourceFileWrapper} (h : c61_Renewed t old new) : new.keys = old.keys := by
  unfold c61_Renewed at h
  induction h with
  | nil => rfl
  | cons h _ ih =>
    simp only [LMap.keys, List.map_cons] at ih ⊢
    rw [h.1, ih]

/-- C61: a project with resource files of its own is written, and it is read back with the same screens, custom views,
libraries and settings, and the same resource ids, but with new resource files and without an icon. -/
theorem c61_round_trip (rnd : ResourceType → Nat → UInt32) (p : SketchwareProject) (hp : p.Survives)
    (ha : p.automaticResFileIds = false) (hi : p.resources.images.keys.Nodup) (hs : p.resources.sounds.keys.Nodup)
    (ho : p.resources.fonts.keys.Nodup) :
    ∃ q r, p.toParsed = .ok q ∧
      SketchwareProject.tryFrom rnd q = .ok { p with customIcon := none, resources := r, automaticResFileIds := true } ∧
      c61_Renewed .image p.resources.images r.images ∧ c61_Renewed .sound p.resources.sounds r.sounds ∧
      c61_Renewed .font p.resources.fonts r.fonts := by
  obtain ⟨q, hq, ls, h1, h2⟩ := survives_parts hp
  obtain ⟨_, _, _, _, _, _, _, r1, r2, r3, hproj, _, hlib, _, _, hres⟩ := toParsed_ok hq
  rw [ha] at hres r1 r2 r3
  obtain ⟨is, hi1, hi2⟩ := resourcesConv_none (rnd .image) .image q.resource.images
  obtain ⟨ss, hs1, hs2⟩ := resourcesConv_none (rnd .sound) .sound q.resource.sounds
  obtain ⟨os, ho1, ho2⟩ := resourcesConv_none (rnd .font) .font q.resource.fonts
  have keys : ∀ {es : LMap Str ResourceFileWrapper} {items : List ResourceItem} {es' : List (Str × ResourceFileWrapper)} {t : ResourceType}
      {fs fs'}, resourcesBack false es fs = .ok (items, fs') → es.keys.Nodup →
      All₂ (fun i e => e.1 = i.name ∧ ∃ n, e.2 = .u32Id n i.fullName t) items es' → c61_Renewed t es (LMap.collect es') := by
    intro es items es' t fs fs' hr hn h
    replace hr := (resourcesBack_ok hr).1
    have e1 : items.map (·.name) = es.keys := by
      refine ((All₂.map_iff (fun e : Str × ResourceFileWrapper => e.1)).mp ?_)
      clear h hn
      induction hr with
      | nil => exact .nil
      | cons h _ ih => exact .cons h.1.symm ih
    have e2 : LMap.keys es' = items.map (·.name) := by
      refine ((All₂.map_iff (fun i : ResourceItem => i.name)).mp ?_)
      clear hr hn e1
      induction h with
      | nil => exact .nil
      | cons h _ ih => exact .cons h.1.symm ih
    rw [LMap.collect_nodup _ (by rw [e2, e1]; exact hn)]
    clear hn e1 e2
    unfold c61_Renewed
    induction hr generalizing es' with
    | nil => cases h; exact .nil
    | cons k _ ih =>
      cases h with
      | cons h1 h2 =>
        obtain ⟨n, hn⟩ := h1.2
        exact .cons ⟨h1.1.trans k.1, n, _, k.2.1, hn⟩ (ih h2)
  refine ⟨q, ⟨LMap.collect is, LMap.collect ss, LMap.collect os⟩, hq, ?_, keys r1 hi hi2, keys r2 hs hs2, keys r3 ho ho2⟩
  have hres : q.resourceFiles = none := by simpa using hres
  simp only [SketchwareProject.tryFrom, h1, h2, hlib, c52_libraries, hres, Option.map_none, hi1, hs1, ho1, Out.ok_bind, hproj,
    Out.pure_eq, Option.bind_none, Option.isNone_none]

/-- C61: a project with automatic resource files and no resources is read back as it was, with resource files of its own. -/
theorem c61_automatic (rnd : ResourceType → Nat → UInt32) (p : SketchwareProject) (hp : p.Survives)
    (ha : p.automaticResFileIds = true) (hr : p.resources = Resources.newEmpty) :
    ∃ q, p.toParsed = .ok q ∧ SketchwareProject.tryFrom rnd q = .ok { p with automaticResFileIds := false } := by
  obtain ⟨q, hq, ls, h1, h2⟩ := survives_parts hp
  obtain ⟨_, _, _, _, _, _, _, r1, r2, r3, hproj, _, hlib, _, _, hres⟩ := toParsed_ok hq
  rw [hr] at r1 r2 r3
  rw [ha, if_pos rfl] at hres
  simp only [Resources.newEmpty, resourcesBack, Out.ok.injEq, Prod.mk.injEq] at r1 r2 r3
  refine ⟨q, hq, ?_⟩
  simp only [SketchwareProject.tryFrom, h1, h2, hlib, c52_libraries, hres, ← r1.1, ← r2.1, ← r3.1, resourcesConv_nil, Out.ok_bind, hproj,
    Out.pure_eq, Option.bind_some, Option.isNone_some, hr]
  rfl

/-! ## Witnesses -/

/-- A project with these screens. -/
def screensApi (libraries : Libraries) (screens : List Screen) (auto : Bool) : SketchwareProject :=
  { bareApi libraries [] auto with screens }

/-- A screen with a name of its logic and variables. -/
def namedScreen (java : Str) (variables : LMap Str Variable) : Screen :=
  { plainScreen [] [] none with javaName := java, variables, components := [] }

/-- The file of an activity `main`, without its logic. -/
def noLogicFile : Swrs.SketchwareProject :=
  { bareProject (s% "Y") [] [] none with file := ⟨[(plainScreen [] [] none).toFileItem], []⟩ }

/-- C55 is false: a variable added to a screen that had no logic is written, but it is not found again. -/
theorem c55_found_false : ∃ (rnd : ResourceType → Nat → UInt32) (val q : Swrs.SketchwareProject) (p p' : SketchwareProject)
    (s : Screen) (v : LMap Str Variable), SketchwareProject.tryFrom rnd val = .ok p ∧ p.screens = [s] ∧ v ≠ [] ∧
    SketchwareProject.toParsed { p with screens := [{ s with variables := v }] } = .ok q ∧
    SketchwareProject.tryFrom rnd q = .ok p' ∧ p'.screens = [s] :=
  ⟨fun _ _ => 3, noLogicFile, _, screensApi bareLibs [namedScreen (s% "main") []] true,
    screensApi bareLibs [namedScreen (s% "main") []] false, namedScreen (s% "main") [], [(s% "x", ⟨s% "x", .integer⟩)], rfl, rfl,
    by simp, rfl, rfl, rfl⟩

end

section
variable [MapPol] [FloatLaws]
/-- A project that survives, with a screen that has code and a custom view. -/
example : SketchwareProject.Survives { bareApi bareLibs [(s% "a", someImageFile)] false with
    screens := [survivingScreen, { namedScreen (s% "DebugScreenActivity") [(s% "x", ⟨s% "x", .integer⟩)] with layoutName := s% "debug_screen" }],
    customViews := [⟨s% "item", []⟩] } := by
  refine ⟨⟨?_, ?_⟩, ?_, ?_, ?_, ?_, ?_⟩
  · intro s hs
    simp only [List.mem_cons, List.not_mem_nil, or_false] at hs
    rcases hs with rfl | rfl <;> rfl
  · simp [survivingScreen, plainScreen, namedScreen]
  · intro s hs
    simp only [List.mem_cons, List.not_mem_nil, or_false] at hs
    rcases hs with rfl | rfl
    · exact ⟨by simp [survivingScreen, plainScreen], by simp [survivingScreen, plainScreen], survivingScreen_survives⟩
    · refine ⟨by simp [namedScreen, plainScreen], by simp [namedScreen], rfl, ?_, ?_, .inr ?_, ?_, ?_, ?_, ?_⟩ <;> simp [namedScreen, plainScreen]
  · intro c hc
    simp only [List.mem_singleton] at hc
    subst hc
    rfl
  · simp
  · simp [survivingScreen, plainScreen, namedScreen]
  · intro m hm e he
    simp only [bareApi, List.mem_cons, List.not_mem_nil, or_false] at hm
    rcases hm with rfl | rfl | rfl
    · simp only [List.mem_singleton] at he
      subst he
      exact ⟨_, rfl⟩
    · cases he
    · cases he

/-- `c55_found_partial` and `c61_automatic`: a project with one screen that has its own logic, and what is read back. -/
example : NamesMatch (screensApi bareLibs [namedScreen (s% "MainActivity") [(s% "x", ⟨s% "x", .integer⟩)]] true) ∧
    ∃ q p', (screensApi bareLibs [namedScreen (s% "MainActivity") [(s% "x", ⟨s% "x", .integer⟩)]] true).toParsed = .ok q ∧
      SketchwareProject.tryFrom (fun _ _ => 3) q = .ok p' ∧
      p'.screens = [namedScreen (s% "MainActivity") [(s% "x", ⟨s% "x", .integer⟩)]] := by
  refine ⟨⟨?_, ?_⟩, _, _, rfl, rfl, rfl⟩
  · intro s hs
    simp only [screensApi, List.mem_singleton] at hs
    subst hs
    rfl
  · simp [screensApi]

/-- `c55_lost` and `c55_names`: the logic of this screen has another name, so it is not found again. -/
example : ∃ q p', (screensApi bareLibs [namedScreen (s% "Other") [(s% "x", ⟨s% "x", .integer⟩)]] true).toParsed = .ok q ∧
    SketchwareProject.tryFrom (fun _ _ => 3) q = .ok p' ∧ p'.screens = [namedScreen (s% "main") []] ∧
    q.logic.screens.keys = [s% "Other"] := ⟨_, _, rfl, rfl, rfl, rfl⟩

end
end Swrs.Api
