import Verif.Model.Sketch
import Verif.Model.ApiProject
/-!
# Model of the messages of errors (`#[error(..)]`, the `Display` of the error types)
-/
namespace Swrs

/-- `{:?}` of a text and of a path: quoted, with escapes taken from tables of Unicode properties. Simplification: these two
functions of the standard library are parameters. Used in parser/mod.rs:432, 436, api/block.rs:135, api/mod.rs:232, api/screen.rs:305. -/
class DebugText where
  str : Str → Str
  path : PathBuf → Str

/-- `{:?}` of the `ParseIntError` of `u32` and `u8`, the reason found first from the left — api/block.rs:105. -/
inductive IntErrorKind where | empty | invalidDigit | posOverflow
deriving DecidableEq, Repr

namespace IntErrorKind
/-- The loop over the digits in `from_str_radix(.., 10)`; `none` when it ends without an error — api/block.rs:23-27. -/
def ofDigits (max : Nat) : Str → Nat → Option IntErrorKind
  | [], _ => none
  | c :: s, acc => match digitVal 10 c with
    | none => some .invalidDigit
    | some d => if max < acc * 10 + d then some .posOverflow else ofDigits max s (acc * 10 + d)

/-- Why a text is no number of an unsigned type with maximum `max` — api/block.rs:23-27. -/
def ofText (max : Nat) (s : Str) : Option IntErrorKind :=
  match s with
  | [] => some .empty
  | ['+'] => some .invalidDigit
  | '+' :: r => ofDigits max r 0
  | s => ofDigits max s 0

/-- `Debug` of `ParseIntError` — api/block.rs:105. -/
def debug : IntErrorKind → Str
  | .empty => s% "ParseIntError { kind: Empty }"
  | .invalidDigit => s% "ParseIntError { kind: InvalidDigit }"
  | .posOverflow => s% "ParseIntError { kind: PosOverflow }"
end IntErrorKind

/-- `CryptoError` — lib.rs:67-77. -/
def CryptoError.message : CryptoError → Str
  | .io => s% "io error"
  | .decryption => s% "decryption error"
  | .fromUtf8 => s% "couldn't convert binaries into utf8"

/-- `FileParseError` — file.rs:94-102. -/
def FileParseError.message : FileParseError → Str
  | .item line content =>
    s% "failed to parse a file item at line " ++ natStr 10 line ++ s% " with the content " ++ content

/-- `LibraryParseError` — library.rs:96-113. -/
def LibraryParseError.message : LibraryParseError → Str
  | .eofAfterHeader h => s% "end of file after the header " ++ h
  | .item h line => s% "error while parsing a library item of " ++ h ++ s% " at line " ++ natStr 10 line
  | .missing h => s% "missing a library item of " ++ h

/-- `Debug` of `ResourceSection` — resource.rs:12-18. -/
def ResourceSection.debug : ResourceSection → Str
  | .images => s% "Images"
  | .sounds => s% "Sounds"
  | .fonts => s% "Fonts"
  | .none => s% "None"

/-- `ResourceParseError` — resource.rs:110-119. -/
def ResourceParseError.message : ResourceParseError → Str
  | .item sec line => s% "error while parsing a resource item of " ++ sec.debug ++ s% " at line " ++ natStr 10 line

/-- `LayoutParseError` — view.rs:199-200. -/
def LayoutParseError.message [Floats] (e : LayoutParseError) : Str :=
  s% "error while parsing the view at line " ++ natStr 10 e.line ++ s% " of a layout"

/-- `ViewParseError` — view.rs:118-147. -/
def ViewParseError.message [Floats] : ViewParseError → Str
  | .invalidHeader line _ =>
    s% "invalid view header at line " ++ natStr 10 line ++ s% ", couldn't separate screen name and container name"
  | .layout screen container _ => s% "error while parsing layout of " ++ screen ++ s% " " ++ container
  | .fab screen _ _ => s% "error while parsing a fab of screen " ++ screen
  | .eofAfterFabHeader screen line => s% "EOF after the fab header of screen " ++ screen ++ s% " at line " ++ natStr 10 line

/-- `VariableParseError` — logic.rs:451-464. -/
def VariableParseError.message : VariableParseError → Str
  | .malformedVariable _ => s% "malformed variable, couldn't find `:` to separate"
  | .malformedVariableType content => s% "variable type `" ++ content ++ s% "` is not an int"
  | .invalidVariableType v => s% "variable type " ++ natStr 10 v.toNat ++ s% " is not mapped to any value"

/-- `InvalidVariableTypeError` — logic.rs:489-493. -/
def invalidVariableTypeMessage (value : UInt8) : Str :=
  s% "the value given (" ++ natStr 10 value.toNat ++ s% ") is not mapped to any variable type"

/-- `ListVariableParseError` — logic.rs:606-616. -/
def ListVariableParseError.message : ListVariableParseError → Str
  | .missingColon => s% "couldn't find a colon, is this malformed?"
  | .variableTypeIsNotInt => s% "variable type is not a valid integer"
  | .invalidVariableType v => s% "variable type " ++ natStr 10 v.toNat ++ s% " is not a valid type"

/-- `MoreBlockParseError` — logic.rs:872-878. -/
def MoreBlockParseError.message : MoreBlockParseError → Str
  | .malformedMoreBlock content => s% "moreblock is malformed, content: " ++ content

/-- `VariablePoolParseError` — logic.rs:400-407. -/
def variablePoolMessage (e : PoolError VariableParseError) : Str :=
  s% "error while parsing a variable at count " ++ natStr 10 e.count
/-- `ListVariablePoolParseError` — logic.rs:557-564. -/
def listVariablePoolMessage (e : PoolError ListVariableParseError) : Str :=
  s% "error while parsing list variable at count " ++ natStr 10 e.count
/-- `ComponentPoolParseError` — logic.rs:683-690. -/
def componentPoolMessage (e : PoolError Unit) : Str :=
  s% "error while parsing component count " ++ natStr 10 e.count ++ s% " in a component pool"
/-- `MoreBlockPoolParseError` — logic.rs:823-830. -/
def moreBlockPoolMessage (e : PoolError MoreBlockParseError) : Str :=
  s% "error while parsing moreblock at count " ++ natStr 10 e.count
/-- `EventPoolParseError` — logic.rs:936-944. -/
def eventPoolMessage (e : PoolError Unit) : Str :=
  s% "error while parsing an event after " ++ natStr 10 e.count ++ s% " lines, content: " ++ e.content

/-- `BlockContainerHeaderParseError` — logic.rs:1011-1021. -/
def BlockContainerHeaderParseError.message : BlockContainerHeaderParseError → Str
  | .doesntStartWithAtSign => s% "header does not start with a `@`"
  | .noScreenName => s% "couldn't get the screen name"
  | .noContainerName => s% "couldn't get the container name"

/-- `BlockContainerParseError` — logic.rs:1080-1087; it has the number of the block, but does not show it. -/
def blockContainerMessage (_blockCount : Nat) : Str := s% "error while parsing a block of a block container"

/-- `LogicParseError` — logic.rs:254-304. -/
def LogicParseError.message : LogicParseError → Str
  | .variablePool screen line _ =>
    s% "error while parsing variable pool of screen " ++ screen ++ s% " at line " ++ natStr 10 line
  | .listVariablePool screen line _ =>
    s% "error while parsing list variable pool of screen " ++ screen ++ s% " at line " ++ natStr 10 line
  | .componentPool screen line _ =>
    s% "error while parsing component pool of screen " ++ screen ++ s% " at line " ++ natStr 10 line
  | .eventPool screen line _ =>
    s% "error while parsing event pool of screen " ++ screen ++ s% " at line " ++ natStr 10 line
  | .moreBlockPool screen line _ =>
    s% "error while parsing more block pool of screen " ++ screen ++ s% " at line " ++ natStr 10 line
  | .blockContainerHeader line _ => s% "error while parsing a block container header at line " ++ natStr 10 line
  | .blockContainer screen container line _ =>
    s% "error while parsing a block container of screen " ++ screen ++ s% " container " ++ container ++ s% " at line " ++
      natStr 10 line

/-- `ResourceFilesParseError` — parser/mod.rs:430-440. -/
def ResourceFilesParseError.message [DebugText] : ResourceFilesParseError → Str
  | .fileDoesntExist p => s% "file `" ++ DebugText.path p ++ s% "` does not exist"
  | .invalidPath p => s% "path given `" ++ DebugText.path p ++
    s% "` is invalid (are you sure its pointing to a sketchware's resources folder?)"

/-- `SketchwareProjectParseError` — parser/mod.rs:242-264. -/
def SketchwareProjectParseError.message [Floats] : SketchwareProjectParseError → Str
  | .project => s% "failed to parse the data file `project`"
  | .file _ => s% "failed to parse the data file `file`"
  | .library _ => s% "failed to parse the data file `library`"
  | .resource _ => s% "failed to parse the data file `resource`"
  | .view _ => s% "failed to parse the data file `view`"
  | .logic _ => s% "failed to parse the data file `logic`"
  | .resourceFiles _ => s% "failed retrieve resource files"

namespace Api

/-- `UnknownColor` — block.rs:588-592. -/
def unknownColorMessage (c : Color) : Str := s% "color " ++ c.display ++ s% " does not correlate to any block category"

/-- `InvalidBlockType` — block.rs:513-518. -/
def InvalidBlockType.message (e : InvalidBlockType) : Str :=
  s% "invalid block type / type name. block type: " ++ e.blockType ++ s% ", type name: " ++ e.typeName

/-- `BlockContentParseError` — block.rs:971-1001. -/
def BlockContentParseError.message : BlockContentParseError → Str
  | .blockNotFound id => s% "block with id " ++ natStr 10 id.toNat ++ s% " not found"
  | .invalidBlockId v => s% "invalid block id given on params while referencing a block argument: `" ++ v ++ s% "`"
  | .unknownSpecParam name _ => s% "unknown spec parameter: " ++ name
  | .ranOutOfArgs => s% "not enough arguments is given"
  | .invalidNumberArgument v => s% "invalid argument given on a number-typed parameter: " ++ v
  | .invalidBooleanArgument v => s% "invalid argument given on a boolean-typed parameter: " ++ v

/-- The derived `Debug` of `BlockContentParseError` — block.rs:971-1001. -/
def BlockContentParseError.debug [DebugText] : BlockContentParseError → Str
  | .blockNotFound id => s% "BlockNotFound { block_id: " ++ natStr 10 id.toNat ++ s% " }"
  | .invalidBlockId v => s% "InvalidBlockId { value: " ++ DebugText.str v ++ s% " }"
  | .unknownSpecParam name full =>
    s% "UnknownSpecParam { name: " ++ DebugText.str name ++ s% ", full: " ++ DebugText.str full ++ s% " }"
  | .ranOutOfArgs => s% "RanOutOfArgs"
  | .invalidNumberArgument v => s% "InvalidNumberArgument { value: " ++ DebugText.str v ++ s% " }"
  | .invalidBooleanArgument v => s% "InvalidBooleanArgument { value: " ++ DebugText.str v ++ s% " }"

/-- `BlockConversionError` — block.rs:103-139. The reason in the message of a malformed id is computed from the id, of which it
is a function; the last case (the id is a number) does not occur in an error of `try_from`. -/
def BlockConversionError.message [DebugText] : BlockConversionError → Str
  | .malformedBlockId id => s% "malformed block id: " ++ id ++ s% ": " ++
    (match IntErrorKind.ofText 4294967295 id with | some k => k.debug | none => [])
  | .blockNotFound id => s% "block with id " ++ natStr 10 id.toNat ++ s% " not found"
  | .substack1 id _ _ => s% "error while parsing substack1 of block with id `" ++ natStr 10 id.toNat ++ s% "`"
  | .substack2 id _ _ => s% "error while parsing substack2 of block with id `" ++ natStr 10 id.toNat ++ s% "`"
  | .invalidType e => s% "invalid block type: `" ++ e.blockType ++ s% "`"
  | .content e => s% "error while parsing the block content: " ++ e.debug

/-- `ViewTypeConversionError` — view.rs:459-470. -/
def ViewTypeConversionError.message : ViewTypeConversionError → Str
  | .unknownViewType ty id => s% "unknown view type `" ++ natStr 10 ty.toNat ++ s% "` on view with id `" ++ id ++ s% "`"
  | .resNameNotPresent id => s% "the field res_name on view with id `" ++ id ++
    s% "` is not present when needed as this view is either a FAB or an ImageView"

/-- `ParseLayoutError` — view.rs:502-513. -/
def ParseLayoutError.message : ParseLayoutError → Str
  | .noParentField id => s% "view with id " ++ id ++ s% " doesn't have a parent field"
  | .nonexistentParent id parent =>
    s% "couldn't find parent of view with id `" ++ id ++ s% "` (parent id: `" ++ parent ++ s% "`)"

/-- The derived `Debug` of `ParseLayoutError` — view.rs:502-513. -/
def ParseLayoutError.debug [DebugText] : ParseLayoutError → Str
  | .noParentField id => s% "NoParentField { view_id: " ++ DebugText.str id ++ s% " }"
  | .nonexistentParent id parent =>
    s% "NonexistentParent { view_id: " ++ DebugText.str id ++ s% ", parent_id: " ++ DebugText.str parent ++ s% " }"

/-- `UnknownEventType` — screen.rs:174-179. -/
def UnknownEventType.message (e : UnknownEventType) : Str :=
  s% "unknown event type `" ++ natStr 10 e.eventType.toNat ++ s% "` for event `" ++ e.eventName ++ s% "`"

/-- `UnknownComponentType` — component.rs:98-103. -/
def UnknownComponentType.message (e : UnknownComponentType) : Str :=
  s% "unknown component type `" ++ natStr 10 e.componentType.toNat ++ s% "` of component id " ++ e.componentId

/-- `ScreenConstructionError` — screen.rs:285-307. -/
def ScreenConstructionError.message [DebugText] : ScreenConstructionError → Str
  | .moreBlockSpecParseError id _ => s% "error while parsing the spec of the moreblock with id `" ++ id ++ s% "`"
  | .blocksParseError container _ => s% "error while parsing the blocks of container `" ++ container ++ s% "`"
  | .unknownEventType e => e.message
  | .unknownComponentType e => e.message
  | .layoutParseError e => s% "error while parsing the layout: `" ++ e.debug ++ s% "`"

/-- `ResourceAdditionError` — api/mod.rs:227-234. The argument of the first message is the literal `0.0`, not a field: its
text is `0`. -/
def ResourceAdditionError.message [DebugText] : ResourceAdditionError → Str
  | .idTaken _ => s% "resource id `" ++ s% "0" ++ s% "` is already taken"
  | .fileDoesntExist p => s% "file `" ++ DebugText.path p ++ s% "` does not exist"

/-- `APISketchwareProjectConversionError` — api/mod.rs:452-485. -/
def ConversionError.message : ConversionError → Str
  | .screenConstructionError _ layout _ => s% "error while reconstructing screen `" ++ layout ++ s% "`"
  | .missingCustomViewLayout id => s% "couldn't find the layout of the custom view `" ++ id ++ s% "`"
  | .customViewParseLayoutError id _ => s% "error while parsing the layout of custom view `" ++ id ++ s% "`"
  | .invalidUseYNValue lib v => s% "use_yn of library `" ++ lib ++ s% "` has an invalid value `" ++ v ++
    s% "` (expected `Y` or `N`)"
  | .missingResourceFile name _ _ => s% "couldn't find a resource file matching with id `" ++ name ++ s% "`"

end Api
end Swrs
