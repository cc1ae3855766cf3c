import Verif.Props.Rename
/-!
# C128: the names of the screens and custom views are only names
-/
set_option linter.unusedSectionVars false
namespace Swrs.Api
variable [MapPol] [Floats]

/-! ### Specification: a project with other names -/

/-- Specification: the entries of the file list with other names. -/
def c128_files (r : Str → Str) (fs : List FileItem) : List FileItem := fs.map fun f => { f with filename := r f.filename }

/-- Specification: entries with other keys. -/
def c128_keys {α : Type} (r : Str → Str) (m : LMap Str α) : LMap Str α := m.map fun e => (r e.1, e.2)

/-- Specification: logics with other names. -/
def c128_logics (t : Str → Str) (m : LMap Str ScreenLogic) : LMap Str ScreenLogic := m.map fun e => (t e.1, { e.2 with name := t e.2.name })

/-- Specification: a project with other names for the layouts (`r`) and for the logics (`t`). -/
def c128_parsed (r t : Str → Str) (p : Swrs.SketchwareProject) : Swrs.SketchwareProject := { p with
  file := ⟨c128_files r p.file.activities, c128_files r p.file.customViews⟩
  view := ⟨c128_keys r p.view.layouts, c128_keys r p.view.fabs⟩
  logic := ⟨c128_logics t p.logic.screens⟩ }

/-- Specification: two screens differ only in their names. The name of the code is changed like that of a logic, or, when there was no logic, like that of the
layout. -/
def c128_Screen (r t : Str → Str) (s s' : Screen) : Prop :=
  s' = { s with layoutName := r s.layoutName, javaName := s'.javaName } ∧
    (s'.javaName = t s.javaName ∨ s.javaName = s.layoutName ∧ s'.javaName = r s.layoutName)

/-- Specification: two projects differ only in the names of their screens and custom views. -/
def c128_Project (r t : Str → Str) (P P' : SketchwareProject) : Prop :=
  P' = { P with screens := P'.screens, customViews := P.customViews.map fun c => { c with resName := r c.resName } } ∧ All₂ (c128_Screen r t) P.screens P'.screens

omit [MapPol] [Floats] in
/-- Specification: an error with other names. -/
def c128_error (r t : Str → Str) : ConversionError → ConversionError
  | .screenConstructionError j n e => .screenConstructionError (t j) (r n) e
  | .missingCustomViewLayout n => .missingCustomViewLayout (r n)
  | .customViewParseLayoutError n e => .customViewParseLayoutError (r n) e
  | e => e

/-- Specification: two outcomes agree: values that are related, or an error and the error that belongs to it, or panics. -/
inductive c128_Agree {α β : Type} (R : α → β → Prop) (f : ConversionError → ConversionError) : Out ConversionError α → Out ConversionError β → Prop
  | ok {a : α} {b : β} (h : R a b) : c128_Agree R f (.ok a) (.ok b)
  | err (e : ConversionError) : c128_Agree R f (.err e) (.err (f e))
  | panic : c128_Agree R f .panic .panic

/-! ### The maps -/

omit [MapPol] [Floats] in
theorem c128_get {α β : Type} {r : Str → Str} (hr : ∀ a b, r a = r b → a = b) (g : α → β) (m : LMap Str α) (k : Str) :
    LMap.get (m.map fun e => (r e.1, g e.2)) (r k) = (m.get k).map g := by
  induction m with
  | nil => rfl
  | cons e m ih =>
    obtain ⟨n, v⟩ := e
    simp only [List.map_cons, LMap.get]
    by_cases h : n = k
    · rw [if_pos h, if_pos (by rw [h])]; rfl
    · rw [if_neg h, if_neg fun h' => h (hr _ _ h'), ih]

omit [MapPol] [Floats] in
theorem c128_erase {α β : Type} {r : Str → Str} (hr : ∀ a b, r a = r b → a = b) (g : α → β) (m : LMap Str α) (k : Str) :
    LMap.erase (m.map fun e => (r e.1, g e.2)) (r k) = (m.erase k).map fun e => (r e.1, g e.2) := by
  unfold LMap.erase
  rw [List.filter_map]
  congr 1
  refine List.filter_congr fun e _ => ?_
  simp only [Function.comp_apply, ne_eq, decide_not]
  congr 1
  exact decide_eq_decide.mpr ⟨hr _ _, fun h => by rw [h]⟩

omit [Floats] in
theorem c128_insert {α β : Type} {r : Str → Str} (hr : ∀ a b, r a = r b → a = b) (g : α → β) (m : LMap Str α) (k : Str) (v : α) :
    LMap.insert (m.map fun e => (r e.1, g e.2)) (r k) (g v) = (m.insert k v).map fun e => (r e.1, g e.2) := by
  have hk : r k ∈ LMap.keys (m.map fun e => (r e.1, g e.2)) ↔ k ∈ m.keys := by
    simp only [LMap.keys, List.mem_map]
    constructor
    · rintro ⟨e, ⟨e0, h0, rfl⟩, h⟩
      exact ⟨e0, h0, hr _ _ h⟩
    · rintro ⟨e, h0, rfl⟩
      exact ⟨_, ⟨e, h0, rfl⟩, rfl⟩
  have hs : LMap.set (m.map fun e => (r e.1, g e.2)) (r k) (g v) = (m.set k v).map fun e => (r e.1, g e.2) := by
    unfold LMap.set
    rw [List.map_map, List.map_map]
    refine List.map_congr_left fun e _ => ?_
    simp only [Function.comp_apply]
    by_cases h : e.1 = k
    · rw [if_pos h, if_pos (by rw [h])]
    · rw [if_neg h, if_neg fun h' => h (hr _ _ h')]
  unfold LMap.insert
  by_cases h : k ∈ m.keys
  · rw [if_pos h, if_pos (hk.mpr h)]
    split
    · rw [c128_erase hr, List.map_append]; rfl
    · exact hs
  · rw [if_neg h, if_neg fun h' => h (hk.mp h'), List.map_append]; rfl

/-! ### Reading -/

theorem c128_fromParsed (n n' j j' x y : Str) (f : FileItem) (l : Layout) (lg : ScreenLogic) (fab : Option View) :
    Screen.fromParsed n' j' { f with filename := x } l { lg with name := y } fab =
      (fun s => { s with layoutName := n', javaName := j' }) <$> Screen.fromParsed n j f l lg fab := by
  unfold Screen.fromParsed
  cases parseRawLayout l with
  | err e => rfl
  | panic => rfl
  | ok vs =>
    simp only [Out.mapErr_ok, Out.ok_bind]
    cases moreBlocksOf ((lg.moreBlocks.map (·.map)).getD []) lg.blockContainers with
    | err e => rfl
    | panic => rfl
    | ok mc =>
      obtain ⟨mbs, cs⟩ := mc
      simp only [Out.ok_bind]
      cases componentsOf ((lg.components.map (·.items)).getD []) with
      | err e => rfl
      | panic => rfl
      | ok ks =>
        simp only [Out.ok_bind, show parserEvents { lg with name := y } = parserEvents lg from rfl]
        cases eventsOf (parserEvents lg) cs <;> rfl

theorem c128_names {n j : Str} {f : FileItem} {l : Layout} {lg : ScreenLogic} {fab : Option View} {s : Screen} (h : Screen.fromParsed n j f l lg fab = .ok s) :
    s.layoutName = n ∧ s.javaName = j := by
  unfold Screen.fromParsed at h
  simp only [Out.bind_eq_ok, Out.mapErr_eq_ok, Prod.exists] at h
  obtain ⟨t, a1, mbs, bc, a2, comps, a3, es, bc', a4, a5⟩ := h
  cases a5
  exact ⟨rfl, rfl⟩

theorem c128_activities {r t : Str → Str} (hr : ∀ a b, r a = r b → a = b) (ht : ∀ a b, t a = t b → a = b) {items : List FileItem}
    (hn : ∀ f ∈ items, t (viewNameToLogic f.filename) = viewNameToLogic (r f.filename)) (ly : LMap Str Layout) (lg : LMap Str ScreenLogic) (fs : LMap Str AndroidView) :
    c128_Agree (fun a b => All₂ (c128_Screen r t) a.1 b.1 ∧ b.2 = c128_keys r a.2) (c128_error r t) (activitiesConv items ly lg fs)
      (activitiesConv (c128_files r items) (c128_keys r ly) (c128_logics t lg) (c128_keys r fs)) := by
  induction items generalizing ly lg fs with
  | nil => exact .ok ⟨.nil, rfl⟩
  | cons f items ih =>
    have hf := hn f (by simp)
    have ih := ih (fun g hg => hn g (by simp [hg])) (ly.erase f.filename) (lg.erase (viewNameToLogic f.filename)) (fs.erase f.filename)
    have e1 : (c128_keys r ly).get (r f.filename) = ly.get f.filename := by
      refine (c128_get hr id ly f.filename).trans ?_
      cases ly.get f.filename <;> rfl
    have e2 : (c128_keys r fs).get (r f.filename) = fs.get f.filename := by
      refine (c128_get hr id fs f.filename).trans ?_
      cases fs.get f.filename <;> rfl
    have e3 : (c128_logics t lg).get (viewNameToLogic (r f.filename)) = (lg.get (viewNameToLogic f.filename)).map fun l => { l with name := t l.name } := by
      rw [← hf]
      exact c128_get ht (fun l : ScreenLogic => { l with name := t l.name }) lg _
    have e4 : (c128_keys r ly).erase (r f.filename) = c128_keys r (ly.erase f.filename) := c128_erase hr id ly _
    have e5 : (c128_keys r fs).erase (r f.filename) = c128_keys r (fs.erase f.filename) := c128_erase hr id fs _
    have e6 : (c128_logics t lg).erase (viewNameToLogic (r f.filename)) = c128_logics t (lg.erase (viewNameToLogic f.filename)) := by
      rw [← hf]
      exact c128_erase ht (fun l : ScreenLogic => { l with name := t l.name }) lg _
    -- the logic that is used, and its name
    have key : ∃ y, ((c128_logics t lg).get (viewNameToLogic (r f.filename))).getD (ScreenLogic.newEmpty (r f.filename)) =
        { (lg.get (viewNameToLogic f.filename)).getD (ScreenLogic.newEmpty f.filename) with name := y } ∧
        (y = t ((lg.get (viewNameToLogic f.filename)).getD (ScreenLogic.newEmpty f.filename)).name ∨
          ((lg.get (viewNameToLogic f.filename)).getD (ScreenLogic.newEmpty f.filename)).name = f.filename ∧ y = r f.filename) := by
      rw [e3]
      cases lg.get (viewNameToLogic f.filename) with
      | none => exact ⟨_, rfl, .inr ⟨rfl, rfl⟩⟩
      | some l => exact ⟨_, rfl, .inl rfl⟩
    obtain ⟨y, ky, kn⟩ := key
    generalize hl : (lg.get (viewNameToLogic f.filename)).getD (ScreenLogic.newEmpty f.filename) = l0 at ky kn
    simp only [c128_files, List.map_cons, activitiesConv, e1, e2, e4, e5, e6, ky, hl]
    rw [c128_fromParsed f.filename (r f.filename) l0.name y (r f.filename) y]
    cases hs : Screen.fromParsed f.filename l0.name f ((ly.get f.filename).getD ⟨[]⟩) l0 ((fs.get f.filename).map View.ofRaw) with
    | panic => exact .panic
    | err e =>
      simp only [Out.map_err, Out.mapErr_err, Out.err_bind, ← hf]
      exact .err (.screenConstructionError (viewNameToLogic f.filename) f.filename e)
    | ok s =>
      obtain ⟨n1, n2⟩ := c128_names hs
      simp only [Out.map_ok, Out.mapErr_ok, Out.ok_bind]
      unfold c128_files at ih
      revert ih
      generalize activitiesConv items (ly.erase f.filename) (lg.erase (viewNameToLogic f.filename)) (fs.erase f.filename) = o
      generalize activitiesConv (List.map (fun f : FileItem => { f with filename := r f.filename }) items) (c128_keys r (ly.erase f.filename))
        (c128_logics t (lg.erase (viewNameToLogic f.filename))) (c128_keys r (fs.erase f.filename)) = o'
      intro ih
      cases ih with
      | panic => exact .panic
      | err e => exact .err e
      | ok h => exact .ok ⟨.cons ⟨by rw [n1], by rw [n1, n2]; exact kn⟩ h.1, h.2⟩

omit [MapPol] in
theorem c128_customs {r : Str → Str} (t : Str → Str) (hr : ∀ a b, r a = r b → a = b) (items : List FileItem) (ly : LMap Str Layout) :
    c128_Agree (fun a b => b = a.map fun c => { c with resName := r c.resName }) (c128_error r t) (customViewsConv items ly)
      (customViewsConv (c128_files r items) (c128_keys r ly)) := by
  induction items generalizing ly with
  | nil => exact .ok rfl
  | cons f items ih =>
    have ih := ih (ly.erase f.filename)
    have e1 : (c128_keys r ly).get (r f.filename) = ly.get f.filename := by
      refine (c128_get hr id ly f.filename).trans ?_
      cases ly.get f.filename <;> rfl
    have e4 : (c128_keys r ly).erase (r f.filename) = c128_keys r (ly.erase f.filename) := c128_erase hr id ly _
    simp only [c128_files, List.map_cons, customViewsConv, e1, e4]
    cases ly.get f.filename with
    | none => exact .err (.missingCustomViewLayout f.filename)
    | some l =>
      simp only [Out.ofOption_some, Out.ok_bind]
      cases parseRawLayout l with
      | panic => exact .panic
      | err e => exact .err (.customViewParseLayoutError f.filename e)
      | ok vs =>
        simp only [Out.mapErr_ok, Out.ok_bind]
        unfold c128_files at ih
        revert ih
        generalize customViewsConv items (ly.erase f.filename) = o
        generalize customViewsConv (List.map (fun f : FileItem => { f with filename := r f.filename }) items) (c128_keys r (ly.erase f.filename)) = o'
        intro ih
        cases ih with
        | panic => exact .panic
        | err e => exact .err e
        | ok h => rw [h]; exact .ok rfl

omit [MapPol] [Floats] in
theorem c128_libraries (r t : Str → Str) (l : Library) {e : ConversionError} (h : librariesConv l = .err e) : c128_error r t e = e := by
  unfold librariesConv libraryConv at h
  repeat' split at h
  all_goals first | cases h; rfl | cases h

omit [MapPol] [Floats] in
theorem c128_resources (r t : Str → Str) {rnd : Nat → UInt32} {ty : ResourceType} {items : List ResourceItem} {files : Option (HMap Str ResourceFileWrapper)}
    {e : ConversionError} (h : resourcesConv rnd ty items files = .err e) : c128_error r t e = e := by
  induction items generalizing files with
  | nil => cases h
  | cons i items ih =>
    cases files with
    | none =>
      simp only [resourcesConv] at h
      cases h1 : resourcesConv rnd ty items none with
      | ok a => rw [h1] at h; cases h
      | panic => rw [h1] at h; cases h
      | err e' => rw [h1] at h; cases h; exact ih h1
    | some files =>
      simp only [resourcesConv] at h
      cases h0 : HMap.get files i.fullName with
      | none => rw [h0] at h; cases h; rfl
      | some x =>
        rw [h0] at h
        simp only [Out.ofOption_some, Out.ok_bind] at h
        cases h1 : resourcesConv rnd ty items (some (LMap.erase files i.fullName)) with
        | ok a => rw [h1] at h; cases h
        | panic => rw [h1] at h; cases h
        | err e' => rw [h1] at h; cases h; exact ih h1

/-- C128: the layouts and the logics of a project get other names, each by a function that keeps different names different, such that the logic of every activity
is still found. The same project is read with the other names, or the same error with the other names. -/
theorem c128_read (rnd : ResourceType → Nat → UInt32) {r t : Str → Str} (hr : ∀ a b, r a = r b → a = b) (ht : ∀ a b, t a = t b → a = b)
    {p : Swrs.SketchwareProject} (hn : ∀ f ∈ p.file.activities, t (viewNameToLogic f.filename) = viewNameToLogic (r f.filename)) :
    c128_Agree (c128_Project r t) (c128_error r t) (SketchwareProject.tryFrom rnd p) (SketchwareProject.tryFrom rnd (c128_parsed r t p)) := by
  have ha := c128_activities hr ht hn p.view.layouts p.logic.screens p.view.fabs
  unfold SketchwareProject.tryFrom
  simp only [c128_parsed]
  revert ha
  generalize activitiesConv p.file.activities p.view.layouts p.logic.screens p.view.fabs = o
  generalize activitiesConv (c128_files r p.file.activities) (c128_keys r p.view.layouts) (c128_logics t p.logic.screens) (c128_keys r p.view.fabs) = o'
  intro ha
  cases ha with
  | panic => exact .panic
  | err e => exact .err e
  | @ok a b h =>
    obtain ⟨ss, ly⟩ := a
    obtain ⟨ss', ly'⟩ := b
    obtain ⟨h1, rfl⟩ := h
    simp only [Out.ok_bind]
    have hc := c128_customs t hr p.file.customViews ly
    revert hc
    generalize customViewsConv p.file.customViews ly = o
    generalize customViewsConv (c128_files r p.file.customViews) (c128_keys r ly) = o'
    intro hc
    cases hc with
    | panic => exact .panic
    | err e => exact .err e
    | @ok cs cs' h2 =>
      subst h2
      simp only [Out.ok_bind]
      have fix : ∀ {γ : Type} {a : Out ConversionError γ} {e : ConversionError}, c128_error r t e = e →
          c128_Agree (c128_Project r t) (c128_error r t) (.err e) (.err e) := by
        intro γ a e he
        have := c128_Agree.err (R := c128_Project r t) (f := c128_error r t) e
        rwa [he] at this
      cases h3 : librariesConv p.library with
      | panic => exact .panic
      | err e => exact fix (a := librariesConv p.library) (c128_libraries r t _ h3)
      | ok lb =>
        simp only [Out.ok_bind]
        cases h4 : resourcesConv (rnd .image) .image p.resource.images (p.resourceFiles.map (·.images)) with
        | panic => exact .panic
        | err e => exact fix (a := librariesConv p.library) (c128_resources r t h4)
        | ok im =>
          simp only [Out.ok_bind]
          cases h5 : resourcesConv (rnd .sound) .sound p.resource.sounds (p.resourceFiles.map (·.sounds)) with
          | panic => exact .panic
          | err e => exact fix (a := librariesConv p.library) (c128_resources r t h5)
          | ok so =>
            simp only [Out.ok_bind]
            cases h6 : resourcesConv (rnd .font) .font p.resource.fonts (p.resourceFiles.map (·.fonts)) with
            | panic => exact .panic
            | err e => exact fix (a := librariesConv p.library) (c128_resources r t h6)
            | ok fo => exact .ok ⟨rfl, h1⟩

/-! ### Writing -/

/-- Specification: a project of the API with other names for its screens, their code, and its custom views. -/
def c128_project (r t : Str → Str) (P : SketchwareProject) : SketchwareProject := { P with
  screens := P.screens.map fun s => { s with layoutName := r s.layoutName, javaName := t s.javaName }
  customViews := P.customViews.map fun c => { c with resName := r c.resName } }

theorem c128_toLogic (s : Screen) (n j : Str) :
    Screen.toLogic { s with layoutName := n, javaName := j } = (fun l : ScreenLogic => { l with name := j }) <$> s.toLogic := by
  unfold Screen.toLogic
  cases eventsBack s.events [] with
  | err e => rfl
  | panic => rfl
  | ok ec =>
    obtain ⟨es, cs⟩ := ec
    simp only [Out.ok_bind]
    cases moreBlocksBack s.moreBlocks cs <;> rfl

theorem c128_toLogic_name {s : Screen} {l : ScreenLogic} (h : s.toLogic = .ok l) : l.name = s.javaName := by
  unfold Screen.toLogic at h
  simp only [Out.bind_eq_ok, Prod.exists] at h
  obtain ⟨es, cs, h1, mbs, cs', h2, h3⟩ := h
  cases h3
  rfl

theorem c128_screensBack {r t : Str → Str} (hr : ∀ a b, r a = r b → a = b) (ht : ∀ a b, t a = t b → a = b) (ss : List Screen) (lg : LMap Str ScreenLogic)
    (ly : LMap Str Layout) (fs : LMap Str AndroidView) :
    screensBack (ss.map fun s => { s with layoutName := r s.layoutName, javaName := t s.javaName }) (c128_logics t lg) (c128_keys r ly) (c128_keys r fs) =
      (fun x => (c128_logics t x.1, c128_keys r x.2.1, c128_keys r x.2.2)) <$> screensBack ss lg ly fs := by
  induction ss generalizing lg ly fs with
  | nil => rfl
  | cons s ss ih =>
    simp only [List.map_cons, screensBack, c128_toLogic]
    cases hl : s.toLogic with
    | err e => rfl
    | panic => rfl
    | ok l =>
      simp only [Out.map_ok, Out.ok_bind]
      have e1 : LMap.insert (c128_logics t lg) (t s.javaName) { l with name := t s.javaName } = c128_logics t (lg.insert s.javaName l) := by
        rw [← c128_toLogic_name hl]
        exact c128_insert ht (fun l : ScreenLogic => { l with name := t l.name }) lg _ l
      have e2 : ∀ x : Layout, LMap.insert (c128_keys r ly) (r s.layoutName) x = c128_keys r (ly.insert s.layoutName x) := c128_insert hr id ly _
      have e3 : ∀ x : AndroidView, LMap.insert (c128_keys r fs) (r s.layoutName) x = c128_keys r (fs.insert s.layoutName x) := c128_insert hr id fs _
      rw [e1, e2]
      cases s.fab with
      | none => exact ih ..
      | some v =>
        simp only [e3]
        exact ih ..

theorem c128_customsBack {r : Str → Str} (hr : ∀ a b, r a = r b → a = b) (cs : List CustomView) (ly : LMap Str Layout) :
    customViewsBack (cs.map fun c => { c with resName := r c.resName }) (c128_keys r ly) = c128_keys r (customViewsBack cs ly) := by
  unfold customViewsBack
  induction cs generalizing ly with
  | nil => rfl
  | cons c cs ih =>
    simp only [List.map_cons, List.foldl_cons]
    have e : ∀ x : Layout, LMap.insert (c128_keys r ly) (r c.resName) x = c128_keys r (ly.insert c.resName x) := c128_insert hr id ly _
    rw [e, ih]

/-- C128: the screens, their code and the custom views of a project of the API get other names, each by a function that keeps different names different. The
same project is written with the other names. -/
theorem c128_written {r t : Str → Str} (hr : ∀ a b, r a = r b → a = b) (ht : ∀ a b, t a = t b → a = b) (P : SketchwareProject) :
    (c128_project r t P).toParsed = c128_parsed r t <$> P.toParsed := by
  unfold SketchwareProject.toParsed
  simp only [c128_project]
  have h := c128_screensBack hr ht P.screens [] [] []
  rw [show c128_logics t [] = [] from rfl, show c128_keys r ([] : LMap Str Layout) = [] from rfl, show c128_keys r ([] : LMap Str AndroidView) = [] from rfl] at h
  rw [h]
  cases screensBack P.screens [] [] [] with
  | err e => rfl
  | panic => rfl
  | ok x =>
    obtain ⟨lg, ly, fs⟩ := x
    simp only [Out.map_ok, Out.ok_bind, c128_customsBack hr]
    cases resourcesBack P.automaticResFileIds P.resources.images [] with
    | err e => rfl
    | panic => rfl
    | ok x =>
      simp only [Out.ok_bind]
      cases resourcesBack P.automaticResFileIds P.resources.sounds [] with
      | err e => rfl
      | panic => rfl
      | ok x =>
        simp only [Out.ok_bind]
        cases resourcesBack P.automaticResFileIds P.resources.fonts [] with
        | err e => rfl
        | panic => rfl
        | ok x =>
          simp only [Out.ok_bind, Out.pure_eq, Out.map_ok, c128_parsed, c128_files, List.map_map]
          rfl

end Swrs.Api

namespace Swrs.Api

/-- A function for names: two names are exchanged. When the second one is not used, this gives it to what had the first one. -/
def c128_swap (a b x : Str) : Str := if x = a then b else if x = b then a else x

theorem c128_swap_swap (a b x : Str) : c128_swap a b (c128_swap a b x) = x := by
  unfold c128_swap
  repeat' split
  all_goals simp_all

theorem c128_swap_inj (a b x y : Str) (h : c128_swap a b x = c128_swap a b y) : x = y := by
  rw [← c128_swap_swap a b x, h, c128_swap_swap]

/-- A project with one screen, with a layout and a logic. -/
def c128_main [Floats] : Swrs.SketchwareProject :=
  c120_read ⟨[(s% "main", ⟨[AndroidView.newEmpty (s% "a") 3 (s% "root") 0]⟩)], []⟩
    ⟨[(s% "MainActivity", { ScreenLogic.newEmpty (s% "MainActivity") with «variables» := some ⟨[(s% "n", ⟨s% "n", .string⟩)]⟩ })]⟩

/-- `c128_read`: the screen `main` is named `home`. -/
example [MapPol] (rnd : ResourceType → Nat → UInt32) : let _ : Floats := toyFloats.toFloats
    let r := c128_swap (s% "main") (s% "home")
    let t := c128_swap (s% "MainActivity") (s% "HomeActivity")
    (∀ a b, r a = r b → a = b) ∧ (∀ a b, t a = t b → a = b) ∧
      (∀ f ∈ c128_main.file.activities, t (viewNameToLogic f.filename) = viewNameToLogic (r f.filename)) ∧
      ((c128_parsed r t c128_main).view.layouts.map fun e => e.1) = [s% "home"] ∧ ((c128_parsed r t c128_main).logic.screens.map fun e => e.1) = [s% "HomeActivity"] ∧
      ∃ P P', SketchwareProject.tryFrom rnd c128_main = .ok P ∧ SketchwareProject.tryFrom rnd (c128_parsed r t c128_main) = .ok P' ∧
        (P.screens.map fun s => (s.layoutName, s.javaName)) = [(s% "main", s% "MainActivity")] ∧
        (P'.screens.map fun s => (s.layoutName, s.javaName)) = [(s% "home", s% "HomeActivity")] := by
  let _ : Floats := toyFloats.toFloats
  refine ⟨c128_swap_inj _ _, c128_swap_inj _ _, ?_, rfl, rfl, _, _, rfl, rfl, rfl, rfl⟩
  intro f hf
  cases hf with
  | head => rfl
  | tail _ h => cases h

/-- C128: the names of the logics must go along with those of the layouts: a screen whose layout alone is named otherwise has no variables any more. -/
theorem c128_read_false [MapPol] (rnd : ResourceType → Nat → UInt32) : let _ : Floats := toyFloats.toFloats
    ∃ (r t : Str → Str) (p : Swrs.SketchwareProject), (∀ a b, r a = r b → a = b) ∧ (∀ a b, t a = t b → a = b) ∧
      ¬ c128_Agree (c128_Project r t) (c128_error r t) (SketchwareProject.tryFrom rnd p) (SketchwareProject.tryFrom rnd (c128_parsed r t p)) := by
  let _ : Floats := toyFloats.toFloats
  refine ⟨c128_swap (s% "main") (s% "home"), id, c128_main, c128_swap_inj _ _, fun _ _ h => h, ?_⟩
  intro h
  obtain ⟨P, P', h1, h2, h3, h4⟩ : ∃ P P', SketchwareProject.tryFrom rnd c128_main = .ok P ∧
      SketchwareProject.tryFrom rnd (c128_parsed (c128_swap (s% "main") (s% "home")) id c128_main) = .ok P' ∧
      (P.screens.map fun s => s.variables.length) = [1] ∧ (P'.screens.map fun s => s.variables.length) = [0] := ⟨_, _, rfl, rfl, rfl, rfl⟩
  rw [h1, h2] at h
  cases h with
  | ok h =>
    obtain ⟨-, h⟩ := h
    revert h h3 h4
    generalize P.screens = ss
    generalize P'.screens = ss'
    intro h3 h4 h
    cases h with
    | nil => cases h3
    | cons h _ =>
      rw [h.1] at h4
      have a := (List.cons.inj h3).1
      have b := (List.cons.inj h4).1
      rw [a] at b
      cases b

/-- C128: different names must stay different: of two screens with the same name, one layout is written. -/
theorem c128_written_false [pol : MapPol] (rnd : ResourceType → Nat → UInt32) : let _ : Floats := toyFloats.toFloats
    ∃ (r t : Str → Str) (P : SketchwareProject), (∀ a b, t a = t b → a = b) ∧ (c128_project r t P).toParsed ≠ c128_parsed r t <$> P.toParsed := by
  let _ : Floats := toyFloats.toFloats
  obtain ⟨P, q, q', h1, h2, h3, h4, h5⟩ : ∃ (P : SketchwareProject) (q q' : Swrs.SketchwareProject),
      SketchwareProject.tryFrom rnd { c120_read ⟨[], []⟩ ⟨[]⟩ with file := ⟨[c124_act (s% "main") true, c124_act (s% "home") false], []⟩ } = .ok P ∧
        P.toParsed = .ok q ∧ (c128_project (fun _ => []) id P).toParsed = .ok q' ∧ q.view.layouts.length = 2 ∧ q'.view.layouts.length = 1 := by
    obtain ⟨a, b⟩ := pol
    cases a <;> cases b <;> exact ⟨_, _, _, rfl, rfl, rfl, rfl, rfl⟩
  refine ⟨fun _ => [], id, P, fun _ _ h => h, ?_⟩
  rw [h2, h3]
  intro h
  have := congrArg (fun p : Swrs.SketchwareProject => p.view.layouts.length) (Out.ok.inj h)
  simp only [c128_parsed, c128_keys, List.length_map, h4, h5] at this
  cases this

end Swrs.Api
