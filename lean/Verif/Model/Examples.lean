import Verif.Model.Crypto
import Verif.Model.Messages
/-!
# Model of the programs in `/repo/examples`

A program gets its arguments, with its own name as the first one, and the file system. Simplifications: the arguments are Unicode
texts (`env::args` panics otherwise), standard output can be written to (`println!` panics otherwise), and paths are compared as texts.
-/
namespace Swrs.Examples

/-- How a program ends: status 0, `exit(1)`, or a panic (status 101). examples/decrypt.rs:7-27. -/
inductive Exit where | success | failure | panic
deriving DecidableEq, Repr

/-- What a run of a program shows: standard output, what the program itself writes to standard error (the text of a panic
is not modelled), and how it ends. examples/encrypt.rs:7-36. -/
structure Run where
  stdout : Str
  stderr : Str
  exit : Exit
deriving DecidableEq, Repr

/-- A panic before anything is written. The `expect` and `unwrap` of examples/*.rs. -/
def panicked : Run := ⟨[], [], .panic⟩

/-- `println!("{}", s)`. examples/decrypt.rs:26. -/
def line (s : Str) : Str := s ++ ['\n']

/-- `{:?}` of a `CryptoError` — src/lib.rs:67-77 and examples/decrypt.rs:21, encrypt.rs:30. The text for an operating system error is a
parameter; the bytes in a `FromUtf8Error` are left out, since neither program can get one. -/
def cryptoDebug (io : Str) : CryptoError → Str
  | .io => s% "IOError(" ++ io ++ s% ")"
  | .decryption => s% "DecryptionError(BlockModeError)"
  | .fromUtf8 => s% "FromUtf8Error(..)"

/-- The program `decrypt` — examples/decrypt.rs:7-27. -/
def decrypt (io : Str) (fs : Fs Str) (fails : Str → Bool) : List Str → Run
  | [] => panicked
  | [_, path] => match decryptSwFile fs fails path with
    | .ok bytes => match fromUtf8 bytes with
      | some text => ⟨line text, [], .success⟩
      | none => panicked
    | .err e => ⟨line (cryptoDebug io e), [], .failure⟩
    | .panic => panicked
  | program :: _ => ⟨[], line (s% "Usage: " ++ program ++ s% " (file to decrypt)"), .failure⟩

/-- The usage text of `encrypt` — examples/encrypt.rs:11-15. -/
def encryptUsage (program : Str) : Str :=
  line (s% "Usage: " ++ program ++ s% " (FILE TO ENCRYPT) [OUTPUT]\n\nOUTPUT will be \"(FILE TO ENCRYPT)_enc\" if not specified")

/-- Input and output of `encrypt` — examples/encrypt.rs:10, 19-21. -/
def encryptFiles : List Str → Option (Str × Str)
  | [_, input] => some (input, input ++ s% "_enc")
  | [_, input, output] => some (input, output)
  | _ => none

/-- What `encrypt` shows after `encrypt_sw_file_to_file` has returned — examples/encrypt.rs:26-35. -/
def encryptRun (io input output : Str) : Out CryptoError Unit → Run
  | .ok () => ⟨line (s% "Saving as " ++ output) ++ line (s% "Successfully encrypted " ++ input), [], .success⟩
  | .err e => ⟨line (s% "Saving as " ++ output), line (s% "Failed to encrypt: " ++ cryptoDebug io e), .failure⟩
  | .panic => ⟨line (s% "Saving as " ++ output), [], .panic⟩

/-- The runs of the program `encrypt`: from the file system `fs` it ends in `fs'` — examples/encrypt.rs:7-36. -/
inductive Encrypt (io : Str) (fs : Fs Str) : List Str → Fs Str → Run → Prop where
  | noProgram : Encrypt io fs [] fs panicked
  | usage {program : Str} {args : List Str} : encryptFiles (program :: args) = none →
      Encrypt io fs (program :: args) fs ⟨[], encryptUsage program, .failure⟩
  | run {args : List Str} {input output : Str} {fs' : Fs Str} {r : Out CryptoError Unit} : encryptFiles args = some (input, output) →
      EncryptFile.Reaches input (some output) fs fs' (.done r) → Encrypt io fs args fs' (encryptRun io input output r)

/-- `fs::read_to_string(..).ok()`. examples/parse_file.rs:13. -/
def readToString (fs : Fs Str) (fails : Str → Bool) (path : Str) : Option Str :=
  if fails path then none else (fs path).bind fromUtf8

/-- The common part of the programs `parse_*`: the first argument is a file, further ones are ignored; every error panics before anything
is written. examples/parse_{file,library,logic,project,resource,view}.rs, lines 8-15. -/
def parseProgram {ε α : Type} (parse : Str → Out ε α) (listing : α → Str) (fs : Fs Str) (fails : Str → Bool) : List Str → Run
  | _ :: path :: _ => match readToString fs fails path with
    | none => panicked
    | some text => match parse text with
      | .ok a => ⟨listing a, [], .success⟩
      | _ => panicked
  | _ => panicked

/-- Derived `Debug` of a struct: name and fields with their texts. src/parser/file.rs:113, library.rs:5, 125, 153, project.rs:6, 40. -/
def debugFields : List (Str × Str) → Str
  | [] => []
  | [(n, t)] => n ++ s% ": " ++ t
  | (n, t) :: fs => n ++ s% ": " ++ t ++ s% ", " ++ debugFields fs

/-- Derived `Debug` of a struct. src/parser/file.rs:113, library.rs:5, 125, 153, project.rs:6, 40. -/
def debugStruct (name : Str) (fs : List (Str × Str)) : Str := name ++ s% " { " ++ debugFields fs ++ s% " }"

/-- The elements of a `Vec` after the first one, and the bracket. `Debug` of `Vec` in src/parser/library.rs:127, 133. -/
def debugRest (ts : List Str) : Str := ts.flatMap (fun t => s% ", " ++ t) ++ s% "]"

/-- `Debug` of a `Vec`. src/parser/library.rs:127, 133. -/
def debugVec : List Str → Str
  | [] => s% "[]"
  | t :: ts => s% "[" ++ t ++ debugRest ts

/-- `Debug` of `bool`. src/parser/file.rs:176-182, project.rs:31. -/
def debugBool (b : Bool) : Str := if b then s% "true" else s% "false"

section
variable [DebugText]

/-- Derived `Debug` — src/parser/file.rs:143-149. -/
def fileTypeDebug : FileType → Str
  | .activity => s% "Activity" | .customView => s% "CustomView" | .drawer => s% "Drawer"
/-- Derived `Debug` — src/parser/file.rs:151-157. -/
def keyboardDebug : KeyboardSetting → Str
  | .unspecified => s% "Unspecified" | .visible => s% "Visible" | .hidden => s% "Hidden"
/-- Derived `Debug` — src/parser/file.rs:159-165. -/
def orientationDebug : Orientation → Str
  | .portrait => s% "Portrait" | .landscape => s% "Landscape" | .both => s% "Both"
/-- Derived `Debug` — src/parser/file.rs:167-174. -/
def themeDebug : Theme → Str
  | .none => s% "None" | .default => s% "Default" | .actionbar => s% "Actionbar" | .fullscreen => s% "Fullscreen"
/-- Derived `Debug` — src/parser/file.rs:176-182. -/
def optionsDebug (o : ActivityOptions) : Str :=
  debugStruct (s% "ActivityOptions") [(s% "toolbar_enabled", debugBool o.toolbar),
    (s% "fullscreen_enabled", debugBool o.fullscreen), (s% "drawer_enabled", debugBool o.drawer),
    (s% "fab_enabled", debugBool o.fab)]
/-- Derived `Debug` — src/parser/file.rs:113-128. -/
def fileItemDebug (i : FileItem) : Str :=
  debugStruct (s% "FileItem") [(s% "filename", DebugText.str i.filename), (s% "file_type", fileTypeDebug i.fileType),
    (s% "keyboard_setting", keyboardDebug i.keyboardSetting), (s% "options", optionsDebug i.options),
    (s% "orientation", orientationDebug i.orientation), (s% "theme", themeDebug i.theme)]

/-- One line of `parse_file` — examples/parse_file.rs:18, 23. -/
def fileLine (i : FileItem) : Str := line (s% " - " ++ i.filename ++ s% ": " ++ fileItemDebug i)

/-- What `parse_file` prints — examples/parse_file.rs:16-24. -/
def fileListing (f : File) : Str :=
  line (s% "Activities:") ++ f.activities.flatMap fileLine ++ line (s% "\nCustom views:") ++ f.customViews.flatMap fileLine

/-- Derived `Debug` — src/parser/library.rs:153-157. -/
def adUnitDebug (a : AdUnit) : Str :=
  debugStruct (s% "AdUnit") [(s% "id", DebugText.str a.id), (s% "name", DebugText.str a.name)]
/-- Derived `Debug` — src/parser/library.rs:125-151. -/
def libraryItemDebug (i : LibraryItem) : Str :=
  debugStruct (s% "LibraryItem") [(s% "ad_units", debugVec (i.adUnits.map adUnitDebug)), (s% "data", DebugText.str i.data),
    (s% "lib_type", natStr 10 i.libType.toNat), (s% "reserved1", DebugText.str i.reserved1), (s% "reserved2", DebugText.str i.reserved2),
    (s% "reserved3", DebugText.str i.reserved3), (s% "test_devices", debugVec (i.testDevices.map DebugText.str)),
    (s% "use_yn", DebugText.str i.useYn)]
/-- Derived `Debug` — src/parser/library.rs:5-11. -/
def libraryDebug (l : Library) : Str :=
  debugStruct (s% "Library") [(s% "firebase_db", libraryItemDebug l.firebaseDb), (s% "compat", libraryItemDebug l.compat),
    (s% "admob", libraryItemDebug l.admob), (s% "google_map", libraryItemDebug l.googleMap)]

/-- Derived `Debug` — src/parser/project.rs:40-47; a color is shown as by `Display`, src/color.rs:51-55. -/
def paletteDebug (p : ProjectColorPalette) : Str :=
  debugStruct (s% "ProjectColorPalette") [(s% "color_primary", p.colorPrimary.display), (s% "color_primary_dark", p.colorPrimaryDark.display),
    (s% "color_accent", p.colorAccent.display), (s% "color_control_normal", p.colorControlNormal.display),
    (s% "color_control_highlight", p.colorControlHighlight.display)]
/-- Derived `Debug` — src/parser/project.rs:6-38. -/
def projectDebug (p : Project) : Str :=
  debugStruct (s% "Project") [(s% "id", natStr 10 p.id.toNat), (s% "app_name", DebugText.str p.appName),
    (s% "workspace_name", DebugText.str p.workspaceName), (s% "package_name", DebugText.str p.packageName),
    (s% "version_code", natStr 10 p.versionCode.toNat), (s% "version_name", DebugText.str p.versionName),
    (s% "date_created", natStr 10 p.dateCreated.toNat), (s% "custom_icon", debugBool p.customIcon),
    (s% "color_palette", paletteDebug p.colorPalette), (s% "sketchware_version", natStr 10 p.sketchwareVersion.toNat)]

/-- The program `parse_file` — examples/parse_file.rs:7-25. -/
def parseFile : Fs Str → (Str → Bool) → List Str → Run := parseProgram File.parse fileListing
/-- The program `parse_library` — examples/parse_library.rs:7-17. -/
def parseLibrary : Fs Str → (Str → Bool) → List Str → Run := parseProgram Library.parse fun l => line (libraryDebug l)
end

/-- One line of `parse_resource` — examples/parse_resource.rs:18, 23, 28. -/
def resourceLine (i : ResourceItem) : Str := line (s% " - " ++ i.name ++ s% " - " ++ i.fullName)

/-- What `parse_resource` prints — examples/parse_resource.rs:16-29. -/
def resourceListing (r : Resource) : Str :=
  line (s% "\nFonts:") ++ r.fonts.flatMap resourceLine ++ line (s% "\nImages:") ++ r.images.flatMap resourceLine ++
    line (s% "\nSounds:") ++ r.sounds.flatMap resourceLine

/-- The program `parse_resource` — examples/parse_resource.rs:7-30. -/
def parseResource : Fs Str → (Str → Bool) → List Str → Run := parseProgram Resource.parse resourceListing

section
variable [MapPol] [Floats]

omit [MapPol] in
/-- The lines for the views of a layout, counted from `n` — examples/parse_view.rs:20-22. -/
def viewLines : Nat → List AndroidView → Str
  | _, [] => []
  | n, v :: vs => line (s% "  " ++ natStr 10 n ++ s% ". id: " ++ v.id ++ s% ", type: " ++ natStr 10 v.type.toNat) ++ viewLines (n + 1) vs

omit [MapPol] in
/-- What `parse_view` prints — examples/parse_view.rs:16-25. -/
def viewListing (v : View) : Str :=
  line (s% "Screens ==") ++ v.layouts.flatMap fun e => line (s% " Views of layout " ++ e.1 ++ s% ":") ++ viewLines 0 e.2.views ++ line []

/-- The program `parse_view` — examples/parse_view.rs:7-26. -/
def parseView : Fs Str → (Str → Bool) → List Str → Run := parseProgram View.parse viewListing

omit [MapPol] in
/-- The line for a screen — examples/parse_logic.rs:18-27. -/
def logicLine (name : Str) (s : ScreenLogic) : Str :=
  line (s% " - " ++ name ++ s% ": has " ++ natStr 10 ((s.variables.getD ⟨[]⟩).map.length) ++ s% " variables, " ++
    natStr 10 ((s.listVariables.getD ⟨[]⟩).map.length) ++ s% " list variables, " ++
    natStr 10 ((s.components.getD ⟨[]⟩).items.length) ++ s% " components, " ++
    natStr 10 s.blockContainers.length ++ s% " block containers, " ++
    natStr 10 ((s.events.getD ⟨[]⟩).items.length) ++ s% " events, " ++
    natStr 10 ((s.moreBlocks.getD ⟨[]⟩).map.length) ++ s% " moreblocks")

omit [MapPol] in
/-- What `parse_logic` prints — examples/parse_logic.rs:16-28. -/
def logicListing (l : Logic) : Str := line (s% "Screens:") ++ l.screens.flatMap fun e => logicLine e.1 e.2

/-- The program `parse_logic` — examples/parse_logic.rs:7-29. -/
def parseLogic : Fs Str → (Str → Bool) → List Str → Run := parseProgram Logic.parse logicListing

/-- The program `parse_project` — examples/parse_project.rs:7-16. -/
def parseProject [DebugText] : Fs Str → (Str → Bool) → List Str → Run := parseProgram Project.parse fun p => line (projectDebug p)

/-! ### `api_demo1` -/

/-- Derived `Debug` of `EventType` — src/api/screen.rs:125-135. -/
def eventTypeDebug [DebugText] : Api.EventType → Str
  | .viewEvent id => debugStruct (s% "ViewEvent") [(s% "id", DebugText.str id)]
  | .componentEvent id t =>
    debugStruct (s% "ComponentEvent") [(s% "id", DebugText.str id), (s% "component_type", natStr 10 t.toNat)]
  | .activityEvent => s% "ActivityEvent"

/-- `" ".repeat(n)` — examples/api_demo1.rs:57, 60, 65. -/
def spaces (n : Nat) : Str := List.replicate n ' '

omit [MapPol] in
mutual
/-- `print_blocks` — examples/api_demo1.rs:55-71. Simplification: the indentation is a natural number (a `u32` would overflow
at a depth of 2³¹ - 4). -/
def printBlocks (indentation : Nat) : List Api.Block → Str
  | [] => line []
  | b :: bs => printBlock indentation b ++ printBlocks indentation bs
/-- One round of the loop of `print_blocks` — examples/api_demo1.rs:56-68. -/
def printBlock (indentation : Nat) : Api.Block → Str
  | ⟨s1, s2, _, opCode, content, _⟩ =>
    line (spaces indentation ++ s% "Block #" ++ opCode ++ s% " opcode " ++ Api.BlockContent.text content) ++
      printStack indentation (s% "substack1: ") s1 ++ printStack indentation (s% "substack2: ") s2
/-- A sub stack — examples/api_demo1.rs:59-67. -/
def printStack (indentation : Nat) (header : Str) : Option (List Api.Block) → Str
  | none => []
  | some bs => line (spaces indentation ++ header) ++ printBlocks (indentation + 2) bs
end

/-- What `api_demo1` prints for an event — examples/api_demo1.rs:52-74. -/
def eventListing [DebugText] (e : Api.Event) : Str :=
  line (s% "      - Event " ++ e.name ++ s% ", type: " ++ eventTypeDebug e.eventType ++ s% ", blocks:") ++ printBlocks 8 e.code

/-- What `api_demo1` prints for a screen — examples/api_demo1.rs:48-75. -/
def screenListing [DebugText] (s : Api.Screen) : Str :=
  line (s% "  Screen " ++ s.layoutName ++ s% " or " ++ s.javaName ++ s% ":") ++ line (s% "    Events:") ++ s.events.flatMap eventListing

/-- What `api_demo1` prints — examples/api_demo1.rs:46-75. -/
def demoListing [DebugText] (p : Api.SketchwareProject) : Str := line (s% "Screens:") ++ p.screens.flatMap screenListing

/-- `read(args.next().expect(..)).expect(..)`, six times — examples/api_demo1.rs:13-18. -/
def readFiles (fs : Fs Str) (fails : Str → Bool) : Nat → List Str → Option (List Bytes)
  | 0, _ => some []
  | _ + 1, [] => none
  | n + 1, p :: ps => if fails p then none else (fs p).bind fun b => (readFiles fs fails n ps).map (b :: ·)

/-- `decrypt_sw_encrypted(..).expect(..)` of all files — examples/api_demo1.rs:22-27. -/
def decryptAll : List Bytes → Option (List Bytes)
  | [] => some []
  | b :: bs => match decryptSwEncrypted b with
    | .ok d => (decryptAll bs).map (d :: ·)
    | _ => none

/-- `String::from_utf8(..).expect(..)` of all files — examples/api_demo1.rs:31-36. -/
def textAll : List Bytes → Option (List Str)
  | [] => some []
  | b :: bs => (fromUtf8 b).bind fun t => (textAll bs).map (t :: ·)

/-- The program `api_demo1` — examples/api_demo1.rs:9-76. The project is opened with an empty list of resource files. Every error
panics before anything is written. -/
def apiDemo1 [DebugText] (rnd : ResourceType → Nat → UInt32) (ex : PathBuf → Bool) (fs : Fs Str) (fails : Str → Bool) : List Str → Run
  | [] => panicked
  | _ :: args => match (readFiles fs fails 6 args).bind fun files => (decryptAll files).bind textAll with
    | some [project, file, library, resource, view, logic] =>
      match SketchwareProject.parseFrom ex (RawSketchwareProject.new project file library resource view logic []) with
      | .ok q => match Api.SketchwareProject.tryFrom rnd q with
        | .ok p => ⟨demoListing p, [], .success⟩
        | _ => panicked
      | _ => panicked
    | _ => panicked

end
end Swrs.Examples
