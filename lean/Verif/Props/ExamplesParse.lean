import Verif.Proofs.Examples
import Verif.Proofs.Utf8
import Verif.Props.Files
/-!
# The example programs `parse_*` (C94)
-/
namespace Swrs
open Examples

/-! ## C94 — The programs that parse one file and list what is in it -/

/-- `{:?}` of a text begins with a quote and can be told from what comes after it: it ends at the first quote without a backslash. -/
class LawfulDebugText [DebugText] : Prop where
  head : ∀ t, ∃ r, DebugText.str t = '"' :: r
  code : ∀ a b x y, DebugText.str a ++ x = DebugText.str b ++ y → a = b ∧ x = y

/-- A text made of lines. -/
def c94_text (lines : List Str) : Str := lines.flatMap fun l => l ++ ['\n']

/-- What a program does that parses the text of one file with `parse` and prints `lines`: it succeeds exactly if its first argument names
a file that can be read, is UTF-8 and can be parsed; in all other cases it panics before it prints anything. -/
def c94_Program {ε α : Type} (program : Fs Str → (Str → Bool) → List Str → Run) (parse : Str → Out ε α) (lines : α → List Str) : Prop :=
  ∀ (fs : Fs Str) (fails : Str → Bool) (args : List Str),
    (∃ name path rest text a, args = name :: path :: rest ∧ fails path = false ∧ fs path = some (utf8 text) ∧ parse text = .ok a ∧
      program fs fails args = ⟨c94_text (lines a), [], .success⟩) ∨
    ((∀ name path rest text a, args = name :: path :: rest → fails path = false → fs path = some (utf8 text) → parse text ≠ .ok a) ∧
      program fs fails args = ⟨[], [], .panic⟩)

theorem c94_program {ε α : Type} {parse : Str → Out ε α} {listing : α → Str} {lines : α → List Str}
    (h : ∀ a, listing a = c94_text (lines a)) : c94_Program (parseProgram parse listing) parse lines := by
  intro fs fails args
  match args with
  | [] => exact .inr ⟨by simp, rfl⟩
  | [_] => exact .inr ⟨by simp, rfl⟩
  | name :: path :: rest =>
    simp only [parseProgram, readToString]
    cases hf : fails path with
    | true =>
      refine .inr ⟨?_, by simp [panicked]⟩
      rintro _ _ _ _ _ ⟨⟩ h1; rw [hf] at h1; cases h1
    | false =>
      cases hd : fs path with
      | none =>
        refine .inr ⟨?_, by simp [panicked]⟩
        rintro _ _ _ _ _ ⟨⟩ _ h1; rw [hd] at h1; cases h1
      | some d =>
        cases hu : fromUtf8 d with
        | none =>
          refine .inr ⟨?_, by simp [hu, panicked]⟩
          rintro _ _ _ _ _ ⟨⟩ _ h1
          rw [hd] at h1
          rw [Option.some.inj h1, fromUtf8_utf8] at hu; cases hu
        | some text =>
          cases hp : parse text with
          | ok a =>
            exact .inl ⟨name, path, rest, text, a, rfl, hf, by rw [hd, fromUtf8_eq_some.mp hu], hp, by simp [hu, hp, h]⟩
          | err e =>
            refine .inr ⟨?_, by simp [hu, hp, panicked]⟩
            rintro _ _ _ t a ⟨⟩ _ h1
            rw [hd] at h1
            rw [Option.some.inj h1, fromUtf8_utf8] at hu
            rw [Option.some.inj hu, hp]; simp
          | panic =>
            refine .inr ⟨?_, by simp [hu, hp, panicked]⟩
            rintro _ _ _ t a ⟨⟩ _ h1
            rw [hd] at h1
            rw [Option.some.inj h1, fromUtf8_utf8] at hu
            rw [Option.some.inj hu, hp]; simp

theorem c94_text_append {a b : List Str} : c94_text (a ++ b) = c94_text a ++ c94_text b := by simp [c94_text]
theorem c94_text_map {α : Type} {f : α → Str} {as : List α} : c94_text (as.map f) = as.flatMap fun a => f a ++ ['\n'] := by
  simp [c94_text, List.flatMap_map]
theorem c94_text_cons {l : Str} {ls : List Str} : c94_text (l :: ls) = l ++ '\n' :: c94_text ls := by simp [c94_text]

/-! ### What is printed -/

/-- C94: `parse_file` lists the activities and the custom views, in order, each with its name and its derived `Debug`. -/
theorem c94_file [DebugText] : c94_Program parseFile File.parse fun f =>
    s% "Activities:" :: f.activities.map (fun i => s% " - " ++ i.filename ++ s% ": " ++ fileItemDebug i) ++
      [[], s% "Custom views:"] ++ f.customViews.map (fun i => s% " - " ++ i.filename ++ s% ": " ++ fileItemDebug i) :=
  c94_program fun f => by
    simp only [List.cons_append, c94_text_cons, c94_text_append, c94_text_map]
    have e : fileLine = fun i => s% " - " ++ i.filename ++ s% ": " ++ fileItemDebug i ++ ['\n'] := rfl
    simp [fileListing, e, line, c94_text]

/-- C94: `parse_resource` lists fonts, images and sounds, in this order, each with its name and its full name. -/
theorem c94_resource : c94_Program parseResource Resource.parse fun r =>
    [[], s% "Fonts:"] ++ r.fonts.map (fun i => s% " - " ++ i.name ++ s% " - " ++ i.fullName) ++
    [[], s% "Images:"] ++ r.images.map (fun i => s% " - " ++ i.name ++ s% " - " ++ i.fullName) ++
    [[], s% "Sounds:"] ++ r.sounds.map (fun i => s% " - " ++ i.name ++ s% " - " ++ i.fullName) :=
  c94_program fun r => by
    simp only [c94_text_append, c94_text_map]
    have e : resourceLine = fun i => s% " - " ++ i.name ++ s% " - " ++ i.fullName ++ ['\n'] := rfl
    simp [resourceListing, e, line, c94_text]

/-- C94: `parse_library` prints the derived `Debug` of the library. -/
theorem c94_library [DebugText] : c94_Program parseLibrary Library.parse fun l => [libraryDebug l] :=
  c94_program fun l => by simp [c94_text, line]

/-- C94: `parse_project` prints the derived `Debug` of the project. -/
theorem c94_project [Floats] [DebugText] : c94_Program parseProject Project.parse fun p => [projectDebug p] :=
  c94_program fun l => by simp [c94_text, line]

section
variable [MapPol] [Floats]

omit [MapPol] in
theorem viewLines_eq (n : Nat) (vs : List AndroidView) : viewLines n vs = c94_text ((vs.zipIdx n).map fun e =>
    s% "  " ++ natStr 10 e.2 ++ s% ". id: " ++ e.1.id ++ s% ", type: " ++ natStr 10 e.1.type.toNat) := by
  induction vs generalizing n with
  | nil => rfl
  | cons v vs ih => simp [viewLines, ih, c94_text, line]

/-- C94: `parse_view` lists the layouts in order, each with its views, numbered from 0, and an empty line. -/
theorem c94_view : c94_Program parseView View.parse fun v =>
    s% "Screens ==" :: v.layouts.flatMap fun e => (s% " Views of layout " ++ e.1 ++ s% ":") ::
      e.2.views.zipIdx.map (fun w =>
        s% "  " ++ natStr 10 w.2 ++ s% ". id: " ++ w.1.id ++ s% ", type: " ++ natStr 10 w.1.type.toNat) ++ [[]] :=
  c94_program fun v => by
    simp only [viewListing, viewLines_eq, line]
    simp [c94_text, List.flatMap_map, List.flatMap_assoc]

/-- C94: `parse_logic` lists the screens in order, each with the numbers of its parts; a part that is missing counts as empty. -/
theorem c94_logic : c94_Program parseLogic Logic.parse fun l =>
    s% "Screens:" :: l.screens.map fun e =>
      s% " - " ++ e.1 ++ s% ": has " ++ natStr 10 ((e.2.variables.map fun p => p.map.length).getD 0) ++ s% " variables, " ++
        natStr 10 ((e.2.listVariables.map fun p => p.map.length).getD 0) ++ s% " list variables, " ++
        natStr 10 ((e.2.components.map fun p => p.items.length).getD 0) ++ s% " components, " ++
        natStr 10 e.2.blockContainers.length ++ s% " block containers, " ++
        natStr 10 ((e.2.events.map fun p => p.items.length).getD 0) ++ s% " events, " ++
        natStr 10 ((e.2.moreBlocks.map fun p => p.map.length).getD 0) ++ s% " moreblocks" :=
  c94_program fun l => by
    rw [c94_text_cons, c94_text_map]
    have e : ∀ (n : Str) (s : ScreenLogic), logicLine n s = s% " - " ++ n ++ s% ": has " ++
        natStr 10 ((s.variables.map fun p => p.map.length).getD 0) ++ s% " variables, " ++
        natStr 10 ((s.listVariables.map fun p => p.map.length).getD 0) ++ s% " list variables, " ++
        natStr 10 ((s.components.map fun p => p.items.length).getD 0) ++ s% " components, " ++
        natStr 10 s.blockContainers.length ++ s% " block containers, " ++
        natStr 10 ((s.events.map fun p => p.items.length).getD 0) ++ s% " events, " ++
        natStr 10 ((s.moreBlocks.map fun p => p.map.length).getD 0) ++ s% " moreblocks" ++ ['\n'] := by
      intro n s
      have h1 : (s.variables.getD ⟨[]⟩).map.length = (s.variables.map fun p => p.map.length).getD 0 := by cases s.variables <;> rfl
      have h2 : (s.listVariables.getD ⟨[]⟩).map.length = (s.listVariables.map fun p => p.map.length).getD 0 := by
        cases s.listVariables <;> rfl
      have h3 : (s.components.getD ⟨[]⟩).items.length = (s.components.map fun p => p.items.length).getD 0 := by
        cases s.components <;> rfl
      have h4 : (s.events.getD ⟨[]⟩).items.length = (s.events.map fun p => p.items.length).getD 0 := by cases s.events <;> rfl
      have h5 : (s.moreBlocks.getD ⟨[]⟩).map.length = (s.moreBlocks.map fun p => p.map.length).getD 0 := by
        cases s.moreBlocks <;> rfl
      rw [logicLine, line, h1, h2, h3, h4, h5]
    simp only [logicListing, e]
    rfl
end

set_option maxRecDepth 20000 in
/-- C94: the derived `Debug` of the structs: the name and all fields in the order of their declaration. -/
theorem c94_debug [DebugText] :
    (∀ i : FileItem, fileItemDebug i = s% "FileItem { filename: " ++ DebugText.str i.filename ++ s% ", file_type: " ++
      fileTypeDebug i.fileType ++ s% ", keyboard_setting: " ++ keyboardDebug i.keyboardSetting ++
      s% ", options: ActivityOptions { toolbar_enabled: " ++ debugBool i.options.toolbar ++ s% ", fullscreen_enabled: " ++
      debugBool i.options.fullscreen ++ s% ", drawer_enabled: " ++ debugBool i.options.drawer ++ s% ", fab_enabled: " ++
      debugBool i.options.fab ++ s% " }, orientation: " ++ orientationDebug i.orientation ++ s% ", theme: " ++ themeDebug i.theme ++
      s% " }") ∧
    (∀ a : AdUnit, adUnitDebug a = s% "AdUnit { id: " ++ DebugText.str a.id ++ s% ", name: " ++ DebugText.str a.name ++ s% " }") ∧
    (∀ i : LibraryItem, libraryItemDebug i = s% "LibraryItem { ad_units: " ++ debugVec (i.adUnits.map adUnitDebug) ++ s% ", data: " ++
      DebugText.str i.data ++ s% ", lib_type: " ++ natStr 10 i.libType.toNat ++ s% ", reserved1: " ++ DebugText.str i.reserved1 ++
      s% ", reserved2: " ++ DebugText.str i.reserved2 ++ s% ", reserved3: " ++ DebugText.str i.reserved3 ++ s% ", test_devices: " ++
      debugVec (i.testDevices.map DebugText.str) ++ s% ", use_yn: " ++ DebugText.str i.useYn ++ s% " }") ∧
    (∀ l : Library, libraryDebug l = s% "Library { firebase_db: " ++ libraryItemDebug l.firebaseDb ++ s% ", compat: " ++
      libraryItemDebug l.compat ++ s% ", admob: " ++ libraryItemDebug l.admob ++ s% ", google_map: " ++ libraryItemDebug l.googleMap ++
      s% " }") ∧
    (∀ p : Project, projectDebug p = s% "Project { id: " ++ natStr 10 p.id.toNat ++ s% ", app_name: " ++ DebugText.str p.appName ++
      s% ", workspace_name: " ++ DebugText.str p.workspaceName ++ s% ", package_name: " ++ DebugText.str p.packageName ++
      s% ", version_code: " ++ natStr 10 p.versionCode.toNat ++ s% ", version_name: " ++ DebugText.str p.versionName ++
      s% ", date_created: " ++ natStr 10 p.dateCreated.toNat ++ s% ", custom_icon: " ++ debugBool p.customIcon ++
      s% ", color_palette: ProjectColorPalette { color_primary: " ++ p.colorPalette.colorPrimary.display ++
      s% ", color_primary_dark: " ++ p.colorPalette.colorPrimaryDark.display ++ s% ", color_accent: " ++
      p.colorPalette.colorAccent.display ++ s% ", color_control_normal: " ++ p.colorPalette.colorControlNormal.display ++
      s% ", color_control_highlight: " ++ p.colorPalette.colorControlHighlight.display ++ s% " }, sketchware_version: " ++
      natStr 10 p.sketchwareVersion.toNat ++ s% " }") := by
  refine ⟨fun i => ?_, fun a => ?_, fun i => ?_, fun l => ?_, fun p => ?_⟩
  · simp only [fileItemDebug, optionsDebug, debugStruct, debugFields, List.append_assoc]; rfl
  · simp only [adUnitDebug, debugStruct, debugFields, List.append_assoc]; rfl
  · simp only [libraryItemDebug, debugStruct, debugFields, List.append_assoc]; rfl
  · simp only [libraryDebug, debugStruct, debugFields, List.append_assoc]; rfl
  · simp only [projectDebug, paletteDebug, debugStruct, debugFields, List.append_assoc]; rfl

/-- C94: the variants of the enums, booleans, and the list of texts. -/
theorem c94_debug_parts [DebugText] :
    [FileType.activity, .customView, .drawer].map fileTypeDebug = [s% "Activity", s% "CustomView", s% "Drawer"] ∧
    [KeyboardSetting.unspecified, .visible, .hidden].map keyboardDebug = [s% "Unspecified", s% "Visible", s% "Hidden"] ∧
    [Orientation.portrait, .landscape, .both].map orientationDebug = [s% "Portrait", s% "Landscape", s% "Both"] ∧
    [Theme.none, .default, .actionbar, .fullscreen].map themeDebug = [s% "None", s% "Default", s% "Actionbar", s% "Fullscreen"] ∧
    [false, true].map debugBool = [s% "false", s% "true"] ∧
    debugVec [] = s% "[]" ∧ (∀ ts, ts ≠ [] → debugVec ts = s% "[" ++ (ts.intersperse (s% ", ")).flatten ++ s% "]") := by
  refine ⟨rfl, rfl, rfl, rfl, rfl, rfl, ?_⟩
  intro ts h
  cases ts with
  | nil => exact absurd rfl h
  | cons t ts =>
    clear h
    have : ∀ (t : Str) ts, t ++ debugRest ts = ((t :: ts).intersperse (s% ", ")).flatten ++ s% "]" := by
      intro t ts
      induction ts generalizing t with
      | nil => simp [debugRest]
      | cons u us ih =>
        have := ih u
        simp only [debugRest, List.flatMap_cons, List.append_assoc] at this ⊢
        simp only [List.intersperse, List.flatten_cons, List.append_assoc, this]
    rw [debugVec, List.append_assoc, this, List.append_assoc]

/-! ### What the output tells -/

section
variable [DebugText] [LawfulDebugText]

theorem code_str : Code DebugText.str := LawfulDebugText.code

theorem code_adUnit : Code adUnitDebug := by
  intro a b x y h
  have h := struct_fields h
  obtain ⟨h1, h⟩ := fields_step (f := DebugText.str) code_str.at h
  obtain ⟨h2, hz⟩ := fields_last (f := DebugText.str) code_str.at h
  cases a; cases b; cases h1; cases h2
  exact ⟨rfl, hz⟩

theorem code_units : Code fun us : List AdUnit => debugVec (us.map adUnitDebug) :=
  code_vec code_adUnit (by intro a x h; cases h) (by intro a h; cases h)

theorem code_strs : Code fun us : List Str => debugVec (us.map DebugText.str) :=
  code_vec code_str (by intro a x h; obtain ⟨r, e⟩ := LawfulDebugText.head a; rw [e] at h; cases h)
    (by intro a h; obtain ⟨r, e⟩ := LawfulDebugText.head a; rw [e] at h; cases h)

theorem code_libraryItem : Code libraryItemDebug := by
  intro a b x y h
  have h := struct_fields h
  obtain ⟨h1, h⟩ := fields_step (f := fun us : List AdUnit => debugVec (us.map adUnitDebug)) code_units.at h
  obtain ⟨h2, h⟩ := fields_step (f := DebugText.str) code_str.at h
  obtain ⟨h3, h⟩ := fields_step (f := fun n : UInt8 => natStr 10 n.toNat) codeAt_u8 h
  obtain ⟨h4, h⟩ := fields_step (f := DebugText.str) code_str.at h
  obtain ⟨h5, h⟩ := fields_step (f := DebugText.str) code_str.at h
  obtain ⟨h6, h⟩ := fields_step (f := DebugText.str) code_str.at h
  obtain ⟨h7, h⟩ := fields_step (f := fun us : List Str => debugVec (us.map DebugText.str)) code_strs.at h
  obtain ⟨h8, hz⟩ := fields_last (f := DebugText.str) code_str.at h
  cases a; cases b; cases h1; cases h2; cases h3; cases h4; cases h5; cases h6; cases h7; cases h8
  exact ⟨rfl, hz⟩

theorem code_library : Code libraryDebug := by
  intro a b x y h
  have h := struct_fields h
  obtain ⟨h1, h⟩ := fields_step (f := libraryItemDebug) code_libraryItem.at h
  obtain ⟨h2, h⟩ := fields_step (f := libraryItemDebug) code_libraryItem.at h
  obtain ⟨h3, h⟩ := fields_step (f := libraryItemDebug) code_libraryItem.at h
  obtain ⟨h4, hz⟩ := fields_last (f := libraryItemDebug) code_libraryItem.at h
  cases a; cases b; cases h1; cases h2; cases h3; cases h4
  exact ⟨rfl, hz⟩

omit [DebugText] [LawfulDebugText] in
theorem code_palette : Code paletteDebug := by
  intro a b x y h
  have h := struct_fields h
  obtain ⟨h1, h⟩ := fields_step (f := Color.display) code_color.at h
  obtain ⟨h2, h⟩ := fields_step (f := Color.display) code_color.at h
  obtain ⟨h3, h⟩ := fields_step (f := Color.display) code_color.at h
  obtain ⟨h4, h⟩ := fields_step (f := Color.display) code_color.at h
  obtain ⟨h5, hz⟩ := fields_last (f := Color.display) code_color.at h
  cases a; cases b; cases h1; cases h2; cases h3; cases h4; cases h5
  exact ⟨rfl, hz⟩

theorem code_project : Code projectDebug := by
  intro a b x y h
  have h := struct_fields h
  obtain ⟨h1, h⟩ := fields_step (f := fun n : UInt16 => natStr 10 n.toNat) codeAt_u16 h
  obtain ⟨h2, h⟩ := fields_step (f := DebugText.str) code_str.at h
  obtain ⟨h3, h⟩ := fields_step (f := DebugText.str) code_str.at h
  obtain ⟨h4, h⟩ := fields_step (f := DebugText.str) code_str.at h
  obtain ⟨h5, h⟩ := fields_step (f := fun n : UInt16 => natStr 10 n.toNat) codeAt_u16 h
  obtain ⟨h6, h⟩ := fields_step (f := DebugText.str) code_str.at h
  obtain ⟨h7, h⟩ := fields_step (f := fun n : UInt64 => natStr 10 n.toNat) codeAt_u64 h
  obtain ⟨h8, h⟩ := fields_step (f := debugBool) code_bool.at h
  obtain ⟨h9, h⟩ := fields_step (f := paletteDebug) code_palette.at h
  obtain ⟨h10, hz⟩ := fields_last (f := fun n : UInt8 => natStr 10 n.toNat) codeAt_u8 h
  cases a; cases b; cases h1; cases h2; cases h3; cases h4; cases h5; cases h6; cases h7; cases h8; cases h9; cases h10
  exact ⟨rfl, hz⟩

omit [DebugText] [LawfulDebugText] in
theorem code_enums : Code fileTypeDebug ∧ Code keyboardDebug ∧ Code orientationDebug ∧ Code themeDebug := by
  refine ⟨?_, ?_, ?_, ?_⟩
  · rintro (_ | _) (_ | _) x y h <;> simp [fileTypeDebug] at h ⊢ <;> exact h
  · rintro (_ | _) (_ | _) x y h <;> simp [keyboardDebug] at h ⊢ <;> exact h
  · rintro (_ | _) (_ | _) x y h <;> simp [orientationDebug] at h ⊢ <;> exact h
  · rintro (_ | _) (_ | _) x y h <;> simp [themeDebug] at h ⊢ <;> exact h

omit [DebugText] [LawfulDebugText] in
theorem code_options : Code optionsDebug := by
  intro a b x y h
  have h := struct_fields h
  obtain ⟨h1, h⟩ := fields_step (f := debugBool) code_bool.at h
  obtain ⟨h2, h⟩ := fields_step (f := debugBool) code_bool.at h
  obtain ⟨h3, h⟩ := fields_step (f := debugBool) code_bool.at h
  obtain ⟨h4, hz⟩ := fields_last (f := debugBool) code_bool.at h
  cases a; cases b; cases h1; cases h2; cases h3; cases h4
  exact ⟨rfl, hz⟩

theorem code_fileItem : Code fileItemDebug := by
  intro a b x y h
  have h := struct_fields h
  obtain ⟨h1, h⟩ := fields_step (f := DebugText.str) code_str.at h
  obtain ⟨h2, h⟩ := fields_step (f := fileTypeDebug) code_enums.1.at h
  obtain ⟨h3, h⟩ := fields_step (f := keyboardDebug) code_enums.2.1.at h
  obtain ⟨h4, h⟩ := fields_step (f := optionsDebug) code_options.at h
  obtain ⟨h5, h⟩ := fields_step (f := orientationDebug) code_enums.2.2.1.at h
  obtain ⟨h6, hz⟩ := fields_last (f := themeDebug) code_enums.2.2.2.at h
  cases a; cases b; cases h1; cases h2; cases h3; cases h4; cases h5; cases h6
  exact ⟨rfl, hz⟩

/-- C94: different libraries give different outputs of `parse_library`. -/
theorem c94_library_tells (a b : Library) (h : line (libraryDebug a) = line (libraryDebug b)) : a = b := (code_library a b _ _ h).1

/-- C94: different projects give different outputs of `parse_project`. -/
theorem c94_project_tells (a b : Project) (h : line (projectDebug a) = line (projectDebug b)) : a = b := (code_project a b _ _ h).1

/-- C94, proved part: different file lists give different outputs of `parse_file`, provided that no name has a colon, for every `{:?}` that can be read
back. Missing: names with a
colon, see `c94_file_tells`. -/
theorem c94_file_tells_partial (a b : File) (ha : ∀ i ∈ a.activities ++ a.customViews, ':' ∉ i.filename)
    (hb : ∀ i ∈ b.activities ++ b.customViews, ':' ∉ i.filename) (h : fileListing a = fileListing b) : a = b := by
  have hf : ∀ (i j : FileItem) (x y : Str), ':' ∉ i.filename → ':' ∉ j.filename → fileLine i ++ x = fileLine j ++ y →
      id i = id j ∧ x = y := by
    intro i j x y hi hj h
    simp only [fileLine, line, List.append_assoc] at h
    have h := List.append_cancel_left (as := s% " ") (first_sep hi hj (List.append_cancel_left h)).2
    obtain ⟨h1, h2⟩ := code_fileItem _ _ _ _ h
    exact ⟨h1, by simpa using h2⟩
  simp only [fileListing, List.append_assoc] at h
  have h := List.append_cancel_left h
  obtain ⟨h1, h⟩ := code_list (stop := fun s => ∃ t, s = '\n' :: t) hf (by rintro i x ⟨t, e⟩; cases e) _ _ _ _
    (fun i hi => ha i (by simp [hi])) (fun i hi => hb i (by simp [hi])) ⟨_, rfl⟩ ⟨_, rfl⟩ h
  have h := List.append_cancel_left (as := line (s% "\nCustom views:")) h
  rw [← List.append_nil (List.flatMap _ a.customViews), ← List.append_nil (List.flatMap _ b.customViews)] at h
  obtain ⟨h2, _⟩ := code_list (stop := fun s => s = []) hf (by intro i x e; cases e) _ _ _ _
    (fun i hi => ha i (by simp [hi])) (fun i hi => hb i (by simp [hi])) rfl rfl h
  simp only [List.map_id] at h1 h2
  cases a; cases b; cases h1; cases h2; rfl
end

/-- C94, proved part: the output of `parse_resource` tells the names of all fonts, images and sounds, provided that no short name has a space and no
full name a line break. Missing: the types, which are not shown, and other names, for which see `c94_tells_false`. -/
theorem c94_resource_tells_partial (a b : Resource) (ha : ∀ i ∈ a.fonts ++ a.images ++ a.sounds, ' ' ∉ i.name ∧ '\n' ∉ i.fullName)
    (hb : ∀ i ∈ b.fonts ++ b.images ++ b.sounds, ' ' ∉ i.name ∧ '\n' ∉ i.fullName) (h : resourceListing a = resourceListing b) :
    a.fonts.map (fun i => (i.name, i.fullName)) = b.fonts.map (fun i => (i.name, i.fullName)) ∧
    a.images.map (fun i => (i.name, i.fullName)) = b.images.map (fun i => (i.name, i.fullName)) ∧
    a.sounds.map (fun i => (i.name, i.fullName)) = b.sounds.map (fun i => (i.name, i.fullName)) := by
  have hf : ∀ (i j : ResourceItem) (x y : Str), (' ' ∉ i.name ∧ '\n' ∉ i.fullName) → (' ' ∉ j.name ∧ '\n' ∉ j.fullName) →
      resourceLine i ++ x = resourceLine j ++ y → (i.name, i.fullName) = (j.name, j.fullName) ∧ x = y := by
    intro i j x y hi hj h
    simp only [resourceLine, line, List.append_assoc] at h
    obtain ⟨h1, h⟩ := first_sep hi.1 hj.1 (List.append_cancel_left h)
    obtain ⟨h2, h⟩ := first_sep hi.2 hj.2 (List.append_cancel_left (as := s% "- ") h)
    exact ⟨by rw [h1, h2], h⟩
  simp only [resourceListing, List.append_assoc] at h
  have h := List.append_cancel_left h
  obtain ⟨h1, h⟩ := code_list (stop := fun s => ∃ t, s = '\n' :: t) hf (by rintro i x ⟨t, e⟩; cases e) _ _ _ _
    (fun i hi => ha i (by simp [hi])) (fun i hi => hb i (by simp [hi])) ⟨_, rfl⟩ ⟨_, rfl⟩ h
  have h := List.append_cancel_left (as := line (s% "\nImages:")) h
  obtain ⟨h2, h⟩ := code_list (stop := fun s => ∃ t, s = '\n' :: t) hf (by rintro i x ⟨t, e⟩; cases e) _ _ _ _
    (fun i hi => ha i (by simp [hi])) (fun i hi => hb i (by simp [hi])) ⟨_, rfl⟩ ⟨_, rfl⟩ h
  have h := List.append_cancel_left (as := line (s% "\nSounds:")) h
  rw [← List.append_nil (List.flatMap _ a.sounds), ← List.append_nil (List.flatMap _ b.sounds)] at h
  obtain ⟨h3, _⟩ := code_list (stop := fun s => s = []) hf (by intro i x e; cases e) _ _ _ _
    (fun i hi => ha i (by simp [hi])) (fun i hi => hb i (by simp [hi])) rfl rfl h
  exact ⟨h1, h2, h3⟩

/-- C94 is false: two resource files that are read, with different names, and the same output of `parse_resource`. -/
theorem c94_tells_false : ∃ (s s' : Str) (a b : Resource), Resource.parse s = .ok a ∧ Resource.parse s' = .ok b ∧
    resourceListing a = resourceListing b ∧ a.images.map (·.name) ≠ b.images.map (·.name) :=
  ⟨_, _, ⟨[⟨s% "c", s% "a - b", 1⟩], [], []⟩, ⟨[⟨s% "b - c", s% "a", 1⟩], [], []⟩, c18_resource_round_trip _, c18_resource_round_trip _,
    by decide, by decide⟩

section
variable [Floats]

/-- C94, proved part: the output of `parse_view` tells the layouts and the id and the type of all their views, provided that no name of a
layout and no id has a line break. Missing: everything else in the views, and the FABs, which are not shown. -/
theorem c94_view_tells_partial (a b : View) (ha : ∀ e ∈ a.layouts, '\n' ∉ e.1 ∧ ∀ v ∈ e.2.views, '\n' ∉ v.id)
    (hb : ∀ e ∈ b.layouts, '\n' ∉ e.1 ∧ ∀ v ∈ e.2.views, '\n' ∉ v.id) (h : viewListing a = viewListing b) :
    a.layouts.map (fun e => (e.1, e.2.views.map fun v => (v.id, v.type))) =
      b.layouts.map (fun e => (e.1, e.2.views.map fun v => (v.id, v.type))) := by
  have hl : ∀ (vs ws : List AndroidView) (n : Nat) (x y : Str), (∀ v ∈ vs, '\n' ∉ v.id) → (∀ v ∈ ws, '\n' ∉ v.id) →
      viewLines n vs ++ '\n' :: x = viewLines n ws ++ '\n' :: y →
      (vs.map fun v => (v.id, v.type)) = (ws.map fun v => (v.id, v.type)) ∧ x = y := by
    intro vs
    induction vs with
    | nil =>
      intro ws n x y _ _ h
      cases ws with
      | nil => simpa [viewLines] using h
      | cons w ws => simp [viewLines, line] at h
    | cons v vs ih =>
      intro ws n x y hv hw h
      cases ws with
      | nil => simp [viewLines, line] at h
      | cons w ws =>
        simp only [viewLines, line, List.append_assoc] at h
        have h := List.append_cancel_left (List.append_cancel_left (List.append_cancel_left h))
        have dig : ∀ n : Nat, '\n' ∉ natStr 10 n := fun n hn => by
          have := natStr_digits rfl n _ hn; revert this; decide
        have h : (v.id ++ s% ", type: " ++ natStr 10 v.type.toNat) ++ '\n' :: (viewLines (n + 1) vs ++ '\n' :: x) =
            (w.id ++ s% ", type: " ++ natStr 10 w.type.toNat) ++ '\n' :: (viewLines (n + 1) ws ++ '\n' :: y) := by
          simpa using h
        have nin : ∀ (u : AndroidView), '\n' ∉ u.id → '\n' ∉ u.id ++ s% ", type: " ++ natStr 10 u.type.toNat := by
          intro u hu
          simp [hu, dig]
        obtain ⟨h1, h2⟩ := first_sep (nin v (hv v (by simp))) (nin w (hw w (by simp))) h
        obtain ⟨h3, h4⟩ := num_after (by decide) (by decide) h1
        obtain ⟨h5, h6⟩ := ih ws (n + 1) x y (fun u hu => hv u (by simp [hu])) (fun u hu => hw u (by simp [hu])) h2
        exact ⟨by simp [h3, UInt8.toNat_inj.mp h4, h5], h6⟩
  simp only [viewListing] at h
  have h := List.append_cancel_left h
  rw [← List.append_nil (List.flatMap _ a.layouts), ← List.append_nil (List.flatMap _ b.layouts)] at h
  refine (code_list (P := fun e : Str × Layout => '\n' ∉ e.1 ∧ ∀ v ∈ e.2.views, '\n' ∉ v.id) (stop := fun s => s = []) ?_ ?_ _ _ _ _
    ha hb rfl rfl h).1
  · intro e f x y he hf h
    simp only [line, List.append_assoc] at h
    have h := List.append_cancel_left h
    have nin : ∀ n : Str, '\n' ∉ n → '\n' ∉ n ++ s% ":" := by intro n hn; simp [hn]
    have h : (e.1 ++ s% ":") ++ '\n' :: (viewLines 0 e.2.views ++ '\n' :: x) =
        (f.1 ++ s% ":") ++ '\n' :: (viewLines 0 f.2.views ++ '\n' :: y) := by simpa using h
    obtain ⟨h1, h2⟩ := first_sep (nin _ he.1) (nin _ hf.1) h
    obtain ⟨h3, h4⟩ := hl _ _ _ _ _ he.2 hf.2 h2
    rw [List.append_left_inj] at h1
    exact ⟨by rw [h1, h3], h4⟩
  · intro e x h; cases h

/-- The numbers that `parse_logic` shows for a screen. -/
def c94_counts (s : ScreenLogic) : List Nat :=
  [(s.variables.getD ⟨[]⟩).map.length, (s.listVariables.getD ⟨[]⟩).map.length, (s.components.getD ⟨[]⟩).items.length,
    s.blockContainers.length, (s.events.getD ⟨[]⟩).items.length, (s.moreBlocks.getD ⟨[]⟩).map.length]

omit [Floats] in
/-- C94, proved part: the output of `parse_logic` tells the names of the screens and the six numbers of each, provided that no name has a
line break. Missing: what is in the screens, which is only counted. -/
theorem c94_logic_tells_partial (a b : Logic) (ha : ∀ e ∈ a.screens, '\n' ∉ e.1) (hb : ∀ e ∈ b.screens, '\n' ∉ e.1)
    (h : logicListing a = logicListing b) :
    a.screens.map (fun e => (e.1, c94_counts e.2)) = b.screens.map (fun e => (e.1, c94_counts e.2)) := by
  simp only [logicListing] at h
  have h := List.append_cancel_left h
  rw [← List.append_nil (List.flatMap _ a.screens), ← List.append_nil (List.flatMap _ b.screens)] at h
  refine (code_list (P := fun e : Str × ScreenLogic => '\n' ∉ e.1) (stop := fun s => s = []) ?_ ?_ _ _ _ _ ha hb rfl rfl h).1
  · intro e f x y he hf h
    have dig : ∀ n : Nat, '\n' ∉ natStr 10 n := fun n hn => by
      have := natStr_digits rfl n _ hn; revert this; decide
    simp only [logicLine, line] at h
    rw [List.append_assoc, List.append_assoc _ ['\n']] at h
    obtain ⟨h1, h2⟩ := first_sep (by simp [he, dig]) (by simp [hf, dig]) h
    rw [List.append_left_inj] at h1
    obtain ⟨h1, e6⟩ := num_after (by decide) (by decide) h1
    obtain ⟨h1, e5⟩ := num_after (by decide) (by decide) h1
    obtain ⟨h1, e4⟩ := num_after (by decide) (by decide) h1
    obtain ⟨h1, e3⟩ := num_after (by decide) (by decide) h1
    obtain ⟨h1, e2⟩ := num_after (by decide) (by decide) h1
    obtain ⟨h1, e1⟩ := num_after (by decide) (by decide) h1
    have h1 := List.append_cancel_left h1
    exact ⟨by simp only [c94_counts, e1, e2, e3, e4, e5, e6, h1], by simpa using h2⟩
  · intro e x h; cases h
end

/-! ### Concrete cases -/

/-- A text in quotes, with a backslash before quotes and backslashes. -/
def quoted : Str → Str
  | [] => ['"']
  | c :: t => if c = '"' ∨ c = '\\' then '\\' :: c :: quoted t else c :: quoted t

/-- `{:?}` without the escapes for characters that cannot be printed. -/
@[reducible] def quotedText : DebugText := ⟨fun t => '"' :: quoted t, fun _ => []⟩

theorem quoted_code : ∀ (a b x y : Str), quoted a ++ x = quoted b ++ y → a = b ∧ x = y
  | [], [], x, y, h => ⟨rfl, by simpa [quoted] using h⟩
  | [], c :: b, x, y, h => by
    simp only [quoted] at h
    split at h
    · simp at h
    · rename_i hc; simp at h; exact absurd (.inl h.1.symm) hc
  | c :: a, [], x, y, h => by
    simp only [quoted] at h
    split at h
    · simp at h
    · rename_i hc; simp at h; exact absurd (.inl h.1) hc
  | c :: a, d :: b, x, y, h => by
    simp only [quoted] at h
    split at h <;> split at h
    · simp only [List.cons_append, List.cons.injEq, true_and] at h
      obtain ⟨rfl, h⟩ := h
      obtain ⟨rfl, rfl⟩ := quoted_code a b x y h
      exact ⟨rfl, rfl⟩
    · rename_i h1 h2
      simp only [List.cons_append, List.cons.injEq] at h
      exact absurd (.inr h.1.symm) h2
    · rename_i h1 h2
      simp only [List.cons_append, List.cons.injEq] at h
      exact absurd (.inr h.1) h1
    · simp only [List.cons_append, List.cons.injEq] at h
      obtain ⟨rfl, h⟩ := h
      obtain ⟨rfl, rfl⟩ := quoted_code a b x y h
      exact ⟨rfl, rfl⟩

theorem quoted_lawful : @LawfulDebugText quotedText :=
  letI := quotedText
  ⟨fun t => ⟨quoted t, rfl⟩, fun a b x y h => quoted_code a b x y (List.cons.inj h).2⟩

-- the text of a file, and one with an error
example : letI := quotedText
    parseFile (fun _ => some (utf8 ("@activity\n{\"fileName\":\"main\",\"fileType\":0,\"keyboardSetting\":0,\"options\":1," ++
      "\"orientation\":0,\"theme\":-1}\n").toList)) (fun _ => false) [s% "parse_file", s% "f"] =
    ⟨("Activities:\n - main: FileItem { filename: \"main\", file_type: Activity, keyboard_setting: Unspecified, options: " ++
      "ActivityOptions { toolbar_enabled: true, fullscreen_enabled: false, drawer_enabled: false, fab_enabled: false }, " ++
      "orientation: Portrait, theme: None }\n\nCustom views:\n").toList, [], .success⟩ := by decide +kernel
example : letI := quotedText; parseFile (fun _ => some (utf8 (s% "@activity\n{\n"))) (fun _ => false) [s% "parse_file", s% "f"] =
    ⟨[], [], .panic⟩ := by decide +kernel

end Swrs
