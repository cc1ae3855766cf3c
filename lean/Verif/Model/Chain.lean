import Verif.Model.Messages
/-!
# Model of the causes of errors (`source()` of the error types, as derived by `thiserror`)

The cause of an error is its field with the attribute `#[source]` or `#[from]`, or named `source`.
-/
namespace Swrs

/-- The errors of the libraries that are causes: `serde_json::Error` (parser/file.rs:98 and others), `ParseIntError` (parser/logic.rs:460,
612, api/block.rs:108), and those of lib.rs:69-76. -/
inductive Foreign where | json | int | io | blockMode | utf8
deriving DecidableEq, Repr

/-- A member of a chain of causes: a message of this library, or an error of another one. Simplification: the messages of the latter are not
modelled. `#[source]` in parser/{mod,file,library,resource,view,logic}.rs and api/{mod,screen,block}.rs. -/
inductive Cause where
  | text (message : Str)
  | foreign (e : Foreign)
deriving DecidableEq, Repr

/-- An error and its causes, from the outside to the inside. Iterating `source()` of the errors of parser/mod.rs:242-264 and
api/mod.rs:452-485. -/
abbrev Chain := List Cause

/-- `CryptoError` — lib.rs:67-77. -/
def CryptoError.chain (e : CryptoError) : Chain :=
  [.text e.message, match e with
    | .io => .foreign .io
    | .decryption => .foreign .blockMode
    | .fromUtf8 => .foreign .utf8]

/-- `FileParseError` — file.rs:94-102. -/
def FileParseError.chain (e : FileParseError) : Chain := [.text e.message, .foreign .json]

/-- `LibraryParseError` — library.rs:96-113. -/
def LibraryParseError.chain (e : LibraryParseError) : Chain :=
  match e with
  | .item _ _ => [.text e.message, .foreign .json]
  | _ => [.text e.message]

/-- `ResourceParseError` — resource.rs:110-119. -/
def ResourceParseError.chain (e : ResourceParseError) : Chain := [.text e.message, .foreign .json]

/-- `LayoutParseError` — view.rs:199-208. -/
def LayoutParseError.chain [Floats] (e : LayoutParseError) : Chain := [.text e.message, .foreign .json]

/-- `ViewParseError` — view.rs:118-147. -/
def ViewParseError.chain [Floats] (e : ViewParseError) : Chain :=
  match e with
  | .layout _ _ source => .text e.message :: source.chain
  | .fab _ _ _ => [.text e.message, .foreign .json]
  | _ => [.text e.message]

/-- `VariableParseError` and `InvalidVariableTypeError` — logic.rs:451-464, 489-493. -/
def VariableParseError.chain (e : VariableParseError) : Chain :=
  match e with
  | .malformedVariable _ => [.text e.message]
  | .malformedVariableType _ => [.text e.message, .foreign .int]
  | .invalidVariableType v => [.text e.message, .text (invalidVariableTypeMessage v)]

/-- `ListVariableParseError` — logic.rs:606-616. -/
def ListVariableParseError.chain (e : ListVariableParseError) : Chain :=
  match e with
  | .missingColon => [.text e.message]
  | .variableTypeIsNotInt => [.text e.message, .foreign .int]
  | .invalidVariableType v => [.text e.message, .text (invalidVariableTypeMessage v)]

/-- `LogicParseError`, with the errors of the pools (logic.rs:400-407, 557-564, 683-690, 823-830, 936-944) and of the containers
(logic.rs:1011-1021, 1080-1087) — logic.rs:254-304. -/
def LogicParseError.chain (e : LogicParseError) : Chain :=
  .text e.message :: match e with
    | .variablePool _ _ source => .text (variablePoolMessage source) :: source.source.chain
    | .listVariablePool _ _ source => .text (listVariablePoolMessage source) :: source.source.chain
    | .componentPool _ _ source => [.text (componentPoolMessage source), .foreign .json]
    | .eventPool _ _ source => [.text (eventPoolMessage source), .foreign .json]
    | .moreBlockPool _ _ source => [.text (moreBlockPoolMessage source), .text source.source.message]
    | .blockContainerHeader _ source => [.text source.message]
    | .blockContainer _ _ _ count => [.text (blockContainerMessage count), .foreign .json]

/-- `SketchwareProjectParseError` — parser/mod.rs:242-264. -/
def SketchwareProjectParseError.chain [Floats] [DebugText] (e : SketchwareProjectParseError) : Chain :=
  .text e.message :: match e with
    | .project => [.foreign .json]
    | .file source => source.chain
    | .library source => source.chain
    | .resource source => source.chain
    | .view source => source.chain
    | .logic source => source.chain
    | .resourceFiles source => [.text source.message]

namespace Api
/-- `BlockConversionError` — block.rs:103-139; its causes `InvalidBlockType` (block.rs:513-518) and `BlockContentParseError`
(block.rs:971-1001) have no cause. -/
def BlockConversionError.chain [DebugText] : BlockConversionError → Chain
  | .malformedBlockId id => [.text (BlockConversionError.malformedBlockId id).message, .foreign .int]
  | .blockNotFound id => [.text (BlockConversionError.blockNotFound id).message]
  | .substack1 id p source => .text (BlockConversionError.substack1 id p source).message :: source.chain
  | .substack2 id p source => .text (BlockConversionError.substack2 id p source).message :: source.chain
  | .invalidType source => [.text (BlockConversionError.invalidType source).message, .text source.message]
  | .content source => [.text (BlockConversionError.content source).message, .text source.message]

/-- `ScreenConstructionError` — screen.rs:285-307. -/
def ScreenConstructionError.chain [DebugText] (e : ScreenConstructionError) : Chain :=
  .text e.message :: match e with
    | .moreBlockSpecParseError _ source => [.text source.message]
    | .blocksParseError _ source => source.chain
    | .unknownEventType source => [.text source.message]
    | .unknownComponentType source => [.text source.message]
    | .layoutParseError source => [.text source.message]

/-- `APISketchwareProjectConversionError` — api/mod.rs:452-485. -/
def ConversionError.chain [DebugText] (e : ConversionError) : Chain :=
  .text e.message :: match e with
    | .screenConstructionError _ _ source => source.chain
    | .customViewParseLayoutError _ source => [.text source.message]
    | _ => []
end Api
end Swrs
