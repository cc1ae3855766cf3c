import Verif.Model.ApiScreen
import Verif.Model.Sketch
/-!
# Model of `/repo/src/api/mod.rs`
-/
namespace Swrs.Api

/-- `struct Metadata` — mod.rs:31-52. -/
structure Metadata where
  localId : UInt16
  name : Str
  workspaceName : Str
  packageName : Str
  timeCreated : UInt64
  sketchwareVersion : UInt8
  versionName : Str
  versionCode : UInt16
deriving DecidableEq, Repr

/-- `struct Colors` — mod.rs:56-62. -/
structure Colors where
  colorPrimary : Color
  colorPrimaryDark : Color
  colorAccent : Color
  colorControlNormal : Color
  colorControlHighlight : Color
deriving DecidableEq, Repr

/-- `struct Firebase` — mod.rs:75-80. -/
structure Firebase where
  projectId : Str
  appId : Str
  apiKey : Str
  storageBucket : Str
deriving DecidableEq, Repr

/-- `struct AdMob` — mod.rs:83-86. -/
structure AdMob where
  adUnits : List AdUnit
  testDevices : List Str
deriving DecidableEq, Repr

/-- `struct GoogleMap` — mod.rs:89-91. -/
structure GoogleMap where
  apiKey : Str
deriving DecidableEq, Repr

/-- `struct Libraries` — mod.rs:66-71. -/
structure Libraries where
  appCompatEnabled : Bool
  firebase : Option Firebase
  adMob : Option AdMob
  googleMap : Option GoogleMap
deriving DecidableEq, Repr

/-- `struct CustomView` — mod.rs:96-99. -/
structure CustomView [Floats] where
  resName : Str
  layout : List View

/-- `struct Resources` — mod.rs:103-107. The keys are the strings of the `ResourceId` newtype (mod.rs:122). -/
structure Resources where
  images : LMap Str ResourceFileWrapper
  sounds : LMap Str ResourceFileWrapper
  fonts : LMap Str ResourceFileWrapper
deriving DecidableEq, Repr

/-- `enum ResourceAdditionError` — mod.rs:228-234. -/
inductive ResourceAdditionError where
  | idTaken (id : Str)
  | fileDoesntExist (path : PathBuf)
deriving DecidableEq, Repr

namespace Resources
/-- `Resources::new_empty` — mod.rs:111-117. -/
def newEmpty : Resources := ⟨[], [], []⟩

/-- `Resources::get_images` — mod.rs:222. -/
def getImages (r : Resources) : LMap Str ResourceFileWrapper := r.images
/-- `Resources::get_sounds` — mod.rs:223. -/
def getSounds (r : Resources) : LMap Str ResourceFileWrapper := r.sounds
/-- `Resources::get_fonts` — mod.rs:224. -/
def getFonts (r : Resources) : LMap Str ResourceFileWrapper := r.fonts

/-- `Resources::get_resource` — mod.rs:126-140. -/
def getResource (r : Resources) (id : Str) : Option (ResourceFileWrapper × ResourceType) :=
  match r.images.get id with
  | some f => some (f, .image)
  | none => match r.sounds.get id with
    | some f => some (f, .sound)
    | none => match r.fonts.get id with
      | some f => some (f, .font)
      | none => none

/-- `Resources::remove_resource` — mod.rs:143-157: what it returns and the store after it. -/
def removeResource (r : Resources) (id : Str) : Option (ResourceFileWrapper × ResourceType) × Resources :=
  match r.images.get id with
  | some f => (some (f, .image), { r with images := r.images.erase id })
  | none => match r.sounds.get id with
    | some f => (some (f, .sound), { r with sounds := r.sounds.erase id })
    | none => match r.fonts.get id with
      | some f => (some (f, .font), { r with fonts := r.fonts.erase id })
      | none => (none, r)

/-- The file with its resource type set — mod.rs:189-207. -/
def retype (t : ResourceType) : ResourceFileWrapper → ResourceFileWrapper
  | .path p => .path p
  | .stringId id n _ => .stringId id n t
  | .u32Id id n _ => .u32Id id n t

/-- The file exists if it is a real file — mod.rs:181-185. `ex` tells which files exist. -/
def checkFile (ex : PathBuf → Bool) : ResourceFileWrapper → Out ResourceAdditionError Unit
  | .path p => if ex p then .ok () else .err (.fileDoesntExist p)
  | _ => .ok ()

/-- `Resources::put_resource` — mod.rs:170-220: the store after it. An error leaves the store as it was, since the
insertion is the last thing done. -/
def putResource [MapPol] (ex : PathBuf → Bool) (r : Resources) (id : Str) (file : ResourceFileWrapper) (t : ResourceType) :
    Out ResourceAdditionError Resources :=
  match t with
  | .customIcon => .panic
  | t => do
    let () ← checkFile ex file
    let file := retype t file
    if id ∈ r.images.keys then .err (.idTaken id)
    else match t with
      | .image => pure { r with images := r.images.insert id file }
      | .sound => pure { r with sounds := r.sounds.insert id file }
      | .font => pure { r with fonts := r.fonts.insert id file }
      | .customIcon => pure r
end Resources

/-- `struct SketchwareProject` — mod.rs:238-248. -/
structure SketchwareProject [Floats] where
  customIcon : Option ResourceFileWrapper
  metadata : Metadata
  colors : Colors
  screens : List Screen
  customViews : List CustomView
  libraries : Libraries
  resources : Resources
  automaticResFileIds : Bool

/-- `SketchwareProject::new` — mod.rs:252-264. -/
def SketchwareProject.new [Floats] (metadata : Metadata) (colors : Colors) (screens : List Screen) (customViews : List CustomView)
    (libraries : Libraries) (resources : Resources) : SketchwareProject :=
  { customIcon := none, metadata, colors, screens, customViews, libraries, resources, automaticResFileIds := false }

/-- `char::to_ascii_uppercase`. Used in api/mod.rs:282. -/
def asciiUpper (c : Char) : Char := if 'a' ≤ c ∧ c ≤ 'z' then Char.ofNat (c.toNat - 32) else c

/-- The `filter_map` of `view_name_to_logic` with its flag — mod.rs:270-287. -/
def capitalised (capitalize : Bool) : Str → Str
  | [] => []
  | c :: s =>
    if c = '_' then capitalised true s
    else if capitalize then asciiUpper c :: capitalised false s
    else c :: capitalised false s

/-- `view_name_to_logic` — mod.rs:269-289. -/
def viewNameToLogic (s : Str) : Str := capitalised true s ++ s% "Activity"

/-- `enum APISketchwareProjectConversionError` — mod.rs:453-485. -/
inductive ConversionError where
  | screenConstructionError (javaScreenName layoutScreenName : Str) (source : ScreenConstructionError)
  | missingCustomViewLayout (customViewId : Str)
  | customViewParseLayoutError (customViewId : Str) (source : ParseLayoutError)
  | invalidUseYNValue (libraryName value : Str)
  | missingResourceFile (resName resFullName : Str) (resType : ResourceType)

/-- `library_conv!` — mod.rs:307-318. -/
def libraryConv {α : Type} (name useYn : Str) (result : α) : Out ConversionError (Option α) :=
  if useYn = s% "Y" then .ok (some result)
  else if useYn = s% "N" then .ok none
  else .err (.invalidUseYNValue name useYn)

/-- The libraries — mod.rs:426-441. -/
def librariesConv (l : Library) : Out ConversionError Libraries := do
  let firebase ← libraryConv (s% "firebase") l.firebaseDb.useYn
    (⟨l.firebaseDb.data, l.firebaseDb.reserved1, l.firebaseDb.reserved2, l.firebaseDb.reserved3⟩ : Firebase)
  let adMob ← libraryConv (s% "admob") l.admob.useYn (⟨l.admob.adUnits, l.admob.testDevices⟩ : AdMob)
  let googleMap ← libraryConv (s% "google map") l.googleMap.useYn (⟨l.googleMap.data⟩ : GoogleMap)
  pure { appCompatEnabled := decide (l.compat.useYn = s% "Y"), firebase, adMob, googleMap }

/-- `resources_conv!` before collecting — mod.rs:320-340. `files` is the map of files of the section, if resource files
were given; `rnd n` is what `rand::random()` returns for the item that has `n` items after it. -/
def resourcesConv (rnd : Nat → UInt32) (t : ResourceType) : List ResourceItem → Option (HMap Str ResourceFileWrapper) →
    Out ConversionError (List (Str × ResourceFileWrapper))
  | [], _ => .ok []
  | i :: rest, some files => do
    let f ← Out.ofOption (.missingResourceFile i.name i.fullName t) (files.get i.fullName)
    let fs ← resourcesConv rnd t rest (some (LMap.erase files i.fullName))
    pure ((i.name, f) :: fs)
  | i :: rest, none => do
    let fs ← resourcesConv rnd t rest none
    pure ((i.name, .makeRandomId (rnd rest.length) i.fullName t) :: fs)

section
variable [MapPol] [Floats]

/-- The activities — mod.rs:343-377, with the layouts, logics and FABs that are left. -/
def activitiesConv : List FileItem → LMap Str Layout → LMap Str ScreenLogic → LMap Str AndroidView →
    Out ConversionError (List Screen × LMap Str Layout)
  | [], layouts, _, _ => .ok ([], layouts)
  | file :: rest, layouts, logics, fabs => do
    let name := file.filename
    let layout := (layouts.get name).getD ⟨[]⟩
    let logic := (logics.get (viewNameToLogic name)).getD (ScreenLogic.newEmpty name)
    let fab := (fabs.get name).map View.ofRaw
    let screen ← (Screen.fromParsed name logic.name file layout logic fab).mapErr
      (.screenConstructionError (viewNameToLogic name) name)
    let (screens, layouts) ← activitiesConv rest (layouts.erase name) (logics.erase (viewNameToLogic name)) (fabs.erase name)
    pure (screen :: screens, layouts)

omit [MapPol] in
/-- The custom views — mod.rs:380-399. -/
def customViewsConv : List FileItem → LMap Str Layout → Out ConversionError (List CustomView)
  | [], _ => .ok []
  | file :: rest, layouts => do
    let layout ← Out.ofOption (.missingCustomViewLayout file.filename) (layouts.get file.filename)
    let layout ← (parseRawLayout layout).mapErr (.customViewParseLayoutError file.filename)
    let cvs ← customViewsConv rest (layouts.erase file.filename)
    pure (⟨file.filename, layout⟩ :: cvs)

/-- `TryFrom<ParsedSketchwareProject> for SketchwareProject` — mod.rs:303-450. -/
def SketchwareProject.tryFrom (rnd : ResourceType → Nat → UInt32) (val : Swrs.SketchwareProject) :
    Out ConversionError SketchwareProject := do
  let (screens, layouts) ← activitiesConv val.file.activities val.view.layouts val.logic.screens val.view.fabs
  let customViews ← customViewsConv val.file.customViews layouts
  let libraries ← librariesConv val.library
  let images ← resourcesConv (rnd .image) .image val.resource.images (val.resourceFiles.map (·.images))
  let sounds ← resourcesConv (rnd .sound) .sound val.resource.sounds (val.resourceFiles.map (·.sounds))
  let fonts ← resourcesConv (rnd .font) .font val.resource.fonts (val.resourceFiles.map (·.fonts))
  pure {
    customIcon := val.resourceFiles.bind (·.customIcon)
    metadata := {
      localId := val.project.id, name := val.project.appName, workspaceName := val.project.workspaceName
      packageName := val.project.packageName, timeCreated := val.project.dateCreated
      sketchwareVersion := val.project.sketchwareVersion, versionName := val.project.versionName
      versionCode := val.project.versionCode }
    colors := {
      colorPrimary := val.project.colorPalette.colorPrimary, colorPrimaryDark := val.project.colorPalette.colorPrimaryDark
      colorAccent := val.project.colorPalette.colorAccent, colorControlNormal := val.project.colorPalette.colorControlNormal
      colorControlHighlight := val.project.colorPalette.colorControlHighlight }
    screens, customViews, libraries
    resources := { images := LMap.collect images, sounds := LMap.collect sounds, fonts := LMap.collect fonts }
    automaticResFileIds := val.resourceFiles.isNone }

omit [MapPol] in
/-- The file entry of a custom view — mod.rs:539-552. -/
def CustomView.toFileItem (c : CustomView) : FileItem where
  filename := c.resName
  fileType := .customView
  keyboardSetting := .unspecified
  options := ⟨false, false, false, false⟩
  orientation := .both
  theme := .none

/-- The loop over the screens — mod.rs:620-645. -/
def screensBack : List Screen → LMap Str ScreenLogic → LMap Str Layout → LMap Str AndroidView →
    Out Empty (LMap Str ScreenLogic × LMap Str Layout × LMap Str AndroidView)
  | [], logics, layouts, fabs => .ok (logics, layouts, fabs)
  | s :: rest, logics, layouts, fabs => do
    let fabs := match s.fab with
      | some fab => fabs.insert s.layoutName (fabBack fab)
      | none => fabs
    let logic ← s.toLogic
    screensBack rest (logics.insert s.javaName logic) (layouts.insert s.layoutName s.toLayout) fabs

/-- The loop over the custom views — mod.rs:648-653. -/
def customViewsBack (cvs : List CustomView) (layouts : LMap Str Layout) : LMap Str Layout :=
  cvs.foldl (fun layouts c => layouts.insert c.resName ⟨flattenViews c.layout none none⟩) layouts

omit [MapPol] [Floats] in
/-- `resource_conv!` — mod.rs:503-520: the items and the files of a section. -/
def resourcesBack (automatic : Bool) : List (Str × ResourceFileWrapper) → HMap Str ResourceFileWrapper →
    Out Empty (List ResourceItem × HMap Str ResourceFileWrapper)
  | [], files => .ok ([], files)
  | (id, file) :: rest, files => do
    let fullName ← file.getFullName
    let files := if automatic then files else files.insert fullName file
    let (items, files) ← resourcesBack automatic rest files
    pure (⟨fullName, id, 1⟩ :: items, files)

omit [MapPol] [Floats] in
/-- The libraries of the parser model — mod.rs:678-755. -/
def librariesBack (l : Libraries) : Library where
  firebaseDb := match l.firebase with
    | some f => ⟨[], f.projectId, 0, f.appId, f.apiKey, f.storageBucket, [], s% "Y"⟩
    | none => ⟨[], [], 0, [], [], [], [], s% "N"⟩
  compat := ⟨[], [], 1, [], [], [], [], if l.appCompatEnabled then s% "Y" else s% "N"⟩
  admob := match l.adMob with
    | some a => ⟨a.adUnits, [], 2, [], [], [], a.testDevices, s% "Y"⟩
    | none => ⟨[], [], 2, [], [], [], [], s% "N"⟩
  googleMap := match l.googleMap with
    | some g => ⟨[], g.apiKey, 3, [], [], [], [], s% "Y"⟩
    | none => ⟨[], [], 3, [], [], [], [], s% "N"⟩

/-- `From<SketchwareProject> for ParsedSketchwareProject` — mod.rs:496-775. It panics when a block or a path of a
resource file cannot be written. -/
def SketchwareProject.toParsed (val : SketchwareProject) : Out Empty Swrs.SketchwareProject := do
  let (logics, layouts, fabs) ← screensBack val.screens [] [] []
  let layouts := customViewsBack val.customViews layouts
  let (images, imageFiles) ← resourcesBack val.automaticResFileIds val.resources.images []
  let (sounds, soundFiles) ← resourcesBack val.automaticResFileIds val.resources.sounds []
  let (fonts, fontFiles) ← resourcesBack val.automaticResFileIds val.resources.fonts []
  pure {
    project := {
      id := val.metadata.localId, appName := val.metadata.name, workspaceName := val.metadata.workspaceName
      packageName := val.metadata.packageName, versionCode := val.metadata.versionCode
      versionName := val.metadata.versionName, dateCreated := val.metadata.timeCreated
      customIcon := val.customIcon.isSome
      colorPalette := {
        colorPrimary := val.colors.colorPrimary, colorPrimaryDark := val.colors.colorPrimaryDark
        colorAccent := val.colors.colorAccent, colorControlNormal := val.colors.colorControlNormal
        colorControlHighlight := val.colors.colorControlHighlight }
      sketchwareVersion := val.metadata.sketchwareVersion }
    file := { activities := val.screens.map Screen.toFileItem, customViews := val.customViews.map CustomView.toFileItem }
    library := librariesBack val.libraries
    resource := { images, sounds, fonts }
    view := { layouts, fabs }
    logic := { screens := logics }
    resourceFiles :=
      if val.automaticResFileIds then
        some { customIcon := val.customIcon, images := imageFiles, sounds := soundFiles, fonts := fontFiles }
      else none }
end
end Swrs.Api
