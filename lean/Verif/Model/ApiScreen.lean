import Verif.Model.ApiBlock
import Verif.Model.ApiEvent
import Verif.Model.ApiView
import Verif.Model.File
/-!
# Model of `/repo/src/api/screen.rs`: screens
-/
namespace Swrs.Api

/-- `struct Screen` — screen.rs:15-53. -/
structure Screen [Floats] where
  layoutName : Str
  javaName : Str
  layout : List View
  variables : LMap Str Variable
  listVariables : LMap Str ListVariable
  moreBlocks : LMap Str MoreBlock
  components : LMap Str ComponentKind
  events : List Event
  fab : Option View
  fullscreenEnabled : Bool
  toolbarEnabled : Bool
  drawerEnabled : Bool
  fabEnabled : Bool
  orientation : Orientation
  theme : Theme
  keyboardSetting : KeyboardSetting

/-- `enum ScreenConstructionError` — screen.rs:285-307. -/
inductive ScreenConstructionError where
  | moreBlockSpecParseError (moreblockId : Str) (source : BlockContentParseError)
  | blocksParseError (containerName : Str) (source : BlockConversionError)
  | unknownEventType (e : UnknownEventType)
  | unknownComponentType (e : UnknownComponentType)
  | layoutParseError (e : ParseLayoutError)

/-- The block containers of a screen.
`ScreenLogic::block_containers` of parser/logic.rs, passed on by api/screen.rs. -/
abbrev Containers := LMap Str BlockContainer

/-- The id of the container of `onCreate` — screen.rs:197. -/
def onCreateId : Str := s% "onCreate_initializeLogic"

/-- The event made for `onCreate` — screen.rs:201-206. -/
def onCreateEvent : Swrs.Event := ⟨s% "onCreate", 3, s% "onCreate", 0⟩

/-- The events of a screen, with one for `onCreate` when there is a container for it — screen.rs:197-208, 253. -/
def parserEvents (l : ScreenLogic) : List Swrs.Event :=
  let events := (l.events.map (·.items)).getD []
  if onCreateId ∈ l.blockContainers.keys then onCreateEvent :: events else events

/-- `format!("{}_moreBlock", mb_id)` — screen.rs:233. -/
def moreBlockId (id : Str) : Str := id ++ s% "_moreBlock"

section
variable [MapPol] [Floats]

/-- `Blocks::try_from(block_containers.remove(id).unwrap_or_default())` — screen.rs:231-238, 259-267. -/
def takeCode (id : Str) (cs : Containers) : Out ScreenConstructionError (List Block × Containers) := do
  let code ← (tryFrom ((cs.get id).getD ⟨[]⟩)).mapErr (.blocksParseError id)
  pure (code, cs.erase id)

/-- The closure for a moreblock — screen.rs:223-240. -/
def moreBlockOf (id : Str) (mb : Swrs.MoreBlock) (cs : Containers) : Out ScreenConstructionError (MoreBlock × Containers) := do
  let spec ← (BlockContent.parseWoParams mb.spec).mapErr (.moreBlockSpecParseError id)
  let (code, cs) ← takeCode (moreBlockId id) cs
  pure (⟨id, spec, code⟩, cs)

/-- The moreblocks before they are collected — screen.rs:221-241. -/
def moreBlocksOf : List (Str × Swrs.MoreBlock) → Containers → Out ScreenConstructionError (List (Str × MoreBlock) × Containers)
  | [], cs => .ok ([], cs)
  | (id, mb) :: rest, cs => do
    let (m, cs) ← moreBlockOf id mb cs
    let (ms, cs) ← moreBlocksOf rest cs
    pure ((id, m) :: ms, cs)

omit [MapPol] [Floats] in
/-- The components before they are collected — screen.rs:243-251. -/
def componentsOf : List Component → Out ScreenConstructionError (List (Str × ComponentKind))
  | [] => .ok []
  | c :: rest => do
    let k ← (ComponentKind.fromParser c).mapErr .unknownComponentType
    let ks ← componentsOf rest
    pure ((c.id, k) :: ks)

/-- The closure for an event — screen.rs:255-270. -/
def eventOf (e : Swrs.Event) (cs : Containers) : Out ScreenConstructionError (Event × Containers) := do
  let e ← (Event.tryFrom e).mapErr .unknownEventType
  let (code, cs) ← takeCode e.containerId cs
  pure ({ e with code }, cs)

/-- The events — screen.rs:253-271. -/
def eventsOf : List Swrs.Event → Containers → Out ScreenConstructionError (List Event × Containers)
  | [], cs => .ok ([], cs)
  | e :: rest, cs => do
    let (e, cs) ← eventOf e cs
    let (es, cs) ← eventsOf rest cs
    pure (e :: es, cs)

/-- `Screen::from_parsed` — screen.rs:182-283. -/
def Screen.fromParsed (layoutName logicName : Str) (file : FileItem) (view : Layout) (logic : ScreenLogic) (fab : Option View) :
    Out ScreenConstructionError Screen := do
  let layout ← (parseRawLayout view).mapErr .layoutParseError
  let (mbs, cs) ← moreBlocksOf ((logic.moreBlocks.map (·.map)).getD []) logic.blockContainers
  let components ← componentsOf ((logic.components.map (·.items)).getD [])
  let (events, _) ← eventsOf (parserEvents logic) cs
  pure {
    layoutName, javaName := logicName, layout
    variables := (logic.variables.map (·.map)).getD []
    listVariables := (logic.listVariables.map (·.map)).getD []
    moreBlocks := LMap.collect mbs
    components := LMap.collect components
    events, fab
    fullscreenEnabled := file.options.fullscreen
    toolbarEnabled := file.options.toolbar
    drawerEnabled := file.options.drawer
    fabEnabled := file.options.fab
    orientation := file.orientation
    theme := file.theme
    keyboardSetting := file.keyboardSetting }

/-! ## Screens to the parser model -/

/-- The closure for an event in `to_screen_logic` — mod.rs:570-583: the container is inserted; the event of `onCreate`
is dropped. -/
def eventBack (e : Event) (cs : Containers) : Out Empty (List Swrs.Event × Containers) := do
  let c ← toContainer e.code
  let cs := cs.insert e.containerId c
  pure (if e.intoParser.1.eventName = s% "onCreate" then [] else [e.intoParser.1], cs)

/-- The events of `to_screen_logic` — mod.rs:567-584. -/
def eventsBack : List Event → Containers → Out Empty (List Swrs.Event × Containers)
  | [], cs => .ok ([], cs)
  | e :: rest, cs => do
    let (e, cs) ← eventBack e cs
    let (es, cs) ← eventsBack rest cs
    pure (e ++ es, cs)

/-- The moreblocks of `to_screen_logic` — mod.rs:587-598. -/
def moreBlocksBack : List (Str × MoreBlock) → Containers → Out Empty (List (Str × Swrs.MoreBlock) × Containers)
  | [], cs => .ok ([], cs)
  | (id, m) :: rest, cs => do
    let c ← toContainer m.code
    let (ms, cs) ← moreBlocksBack rest (cs.insert (moreBlockId id) c)
    pure ((id, m.intoParser.1) :: ms, cs)

/-- `to_screen_logic` — mod.rs:556-611. -/
def Screen.toLogic (s : Screen) : Out Empty ScreenLogic := do
  let (events, cs) ← eventsBack s.events []
  let (mbs, cs) ← moreBlocksBack s.moreBlocks cs
  pure {
    name := s.javaName
    blockContainers := cs
    variables := some ⟨s.variables⟩
    listVariables := some ⟨s.listVariables⟩
    components := some ⟨s.components.map fun e => e.2.intoParser e.1⟩
    events := some ⟨events⟩
    moreBlocks := some ⟨LMap.collect mbs⟩ }

omit [MapPol] in
/-- The view written for a FAB — mod.rs:622-628: `flatten_views(..).remove(0)` with its parent cleared. -/
def fabBack (v : View) : AndroidView := { v.flat (s% "root") 0 with parent := none, parentType := -1 }

omit [MapPol] in
/-- The file entry of a screen — mod.rs:525-538. -/
def Screen.toFileItem (s : Screen) : FileItem where
  filename := s.layoutName
  fileType := .activity
  keyboardSetting := s.keyboardSetting
  options := ⟨s.toolbarEnabled, s.fullscreenEnabled, s.drawerEnabled, s.fabEnabled⟩
  orientation := s.orientation
  theme := s.theme

omit [MapPol] in
/-- The layout of a screen — mod.rs:641-644. -/
def Screen.toLayout (s : Screen) : Layout := ⟨flattenViews s.layout none none⟩
end
end Swrs.Api
