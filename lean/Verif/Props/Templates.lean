import Verif.Props.MessagesWritten
/-!
# C105: the wording of messages
-/
namespace Swrs

/-! ## C105 — A message is the template of its error, filled in -/

/-- Fills a template as in the attribute `#[error("..")]`: the text between braces is the name of a field, whose text takes its place;
every other character stays. `some n` as second argument: inside braces, with `n` read so far. -/
def c105_put (fields : List (Str × Str)) : Option Str → Str → Str
  | _, [] => []
  | none, c :: t => if c = '{' then c105_put fields (some []) t else c :: c105_put fields none t
  | some n, c :: t =>
    if c = '}' then (fields.lookup n).getD [] ++ c105_put fields none t else c105_put fields (some (n ++ [c])) t

/-- A template filled in. -/
def c105_fill (template : Str) (fields : List (Str × Str)) : Str := c105_put fields none template

/-- The derived `Debug` of a variant with named fields, or without fields. -/
def c105_variant (name : Str) (fields : List (Str × Str)) : Str :=
  if fields.isEmpty then name
  else name ++ s% " { " ++ List.intercalate (s% ", ") (fields.map fun f => f.1 ++ s% ": " ++ f.2) ++ s% " }"

example : c105_fill (s% "a {x} and {y:?}.") [(s% "x", s% "1"), (s% "y:?", s% "\"2\"")] = s% "a 1 and \"2\"." := by decide +kernel
example : c105_variant (s% "V") [(s% "a", s% "1"), (s% "b", s% "2")] = s% "V { a: 1, b: 2 }" := by decide +kernel

/-- Fills in a template. -/
syntax "c105_simp" "[" Lean.Parser.Tactic.simpLemma,* "]" : tactic
macro_rules
  | `(tactic| c105_simp [$ls,*]) => `(tactic|
    simp [$ls,*, c105_fill, c105_put, List.lookup, c89_number_eq, c105_variant, List.intercalate, List.intersperse])

/-- C105: errors of the cipher. -/
theorem c105_crypto (e : CryptoError) : e.message = match e with
    | .io => c105_fill (s% "io error") []
    | .decryption => c105_fill (s% "decryption error") []
    | .fromUtf8 => c105_fill (s% "couldn't convert binaries into utf8") [] := by
  cases e <;> rfl

/-- C105: errors of the list of screens. -/
theorem c105_file (e : FileParseError) : e.message = match e with
    | .item line content => c105_fill (s% "failed to parse a file item at line {line} with the content {content}")
        [(s% "line", c89_number line), (s% "content", content)] := by
  cases e; c105_simp [FileParseError.message]

/-- C105: errors of the libraries. -/
theorem c105_library (e : LibraryParseError) : e.message = match e with
    | .eofAfterHeader h => c105_fill (s% "end of file after the header {header}") [(s% "header", h)]
    | .item h line => c105_fill (s% "error while parsing a library item of {header} at line {line}")
        [(s% "header", h), (s% "line", c89_number line)]
    | .missing h => c105_fill (s% "missing a library item of {header}") [(s% "header", h)] := by
  cases e <;> c105_simp [LibraryParseError.message]

/-- C105: errors of the resources. -/
theorem c105_resource (e : ResourceParseError) : e.message = match e with
    | .item sec line => c105_fill (s% "error while parsing a resource item of {section:?} at line {line}")
        [(s% "section:?", match sec with
          | .images => c105_variant (s% "Images") []
          | .sounds => c105_variant (s% "Sounds") []
          | .fonts => c105_variant (s% "Fonts") []
          | .none => c105_variant (s% "None") []), (s% "line", c89_number line)] := by
  cases e with | item sec line => cases sec <;> c105_simp [ResourceParseError.message, ResourceSection.debug]

/-- C105: errors of a layout. -/
theorem c105_layout [Floats] (e : LayoutParseError) : e.message =
    c105_fill (s% "error while parsing the view at line {line} of a layout") [(s% "line", c89_number e.line)] := by
  c105_simp [LayoutParseError.message]

/-- C105: errors of the view file. -/
theorem c105_view [Floats] (e : ViewParseError) : e.message = match e with
    | .invalidHeader line content =>
      c105_fill (s% "invalid view header at line {line}, couldn't separate screen name and container name")
        [(s% "line", c89_number line), (s% "content", content)]
    | .layout screen container _ => c105_fill (s% "error while parsing layout of {screen_name} {container_name}")
        [(s% "screen_name", screen), (s% "container_name", container)]
    | .fab screen line content => c105_fill (s% "error while parsing a fab of screen {screen_name}")
        [(s% "screen_name", screen), (s% "line", c89_number line), (s% "content", content)]
    | .eofAfterFabHeader screen line => c105_fill (s% "EOF after the fab header of screen {screen_name} at line {line}")
        [(s% "screen_name", screen), (s% "line", c89_number line)] := by
  cases e <;> c105_simp [ViewParseError.message]

/-- C105: errors of variables. -/
theorem c105_variable (e : VariableParseError) : e.message = match e with
    | .malformedVariable content => c105_fill (s% "malformed variable, couldn't find `:` to separate") [(s% "content", content)]
    | .malformedVariableType content => c105_fill (s% "variable type `{content}` is not an int") [(s% "content", content)]
    | .invalidVariableType v => c105_fill (s% "variable type {} is not mapped to any value") [([], c89_number v.toNat)] := by
  cases e <;> c105_simp [VariableParseError.message]

/-- C105: errors of list variables. -/
theorem c105_list_variable (e : ListVariableParseError) : e.message = match e with
    | .missingColon => c105_fill (s% "couldn't find a colon, is this malformed?") []
    | .variableTypeIsNotInt => c105_fill (s% "variable type is not a valid integer") []
    | .invalidVariableType v => c105_fill (s% "variable type {} is not a valid type") [([], c89_number v.toNat)] := by
  cases e <;> c105_simp [ListVariableParseError.message]

/-- C105: errors of moreblocks, and of the number of a type. -/
theorem c105_lines : (∀ content, (MoreBlockParseError.malformedMoreBlock content).message =
      c105_fill (s% "moreblock is malformed, content: {content}") [(s% "content", content)]) ∧
    ∀ v, invalidVariableTypeMessage v =
      c105_fill (s% "the value given ({value}) is not mapped to any variable type") [(s% "value", c89_number v.toNat)] := by
  constructor <;> intros <;> c105_simp [MoreBlockParseError.message, invalidVariableTypeMessage]

/-- C105: errors of the pools of a logic file, and of a block container. -/
theorem c105_pools :
    (∀ e, variablePoolMessage e = c105_fill (s% "error while parsing a variable at count {count}")
      [(s% "count", c89_number e.count), (s% "content", e.content)]) ∧
    (∀ e, listVariablePoolMessage e = c105_fill (s% "error while parsing list variable at count {count}")
      [(s% "count", c89_number e.count), (s% "content", e.content)]) ∧
    (∀ e, componentPoolMessage e = c105_fill (s% "error while parsing component count {count} in a component pool")
      [(s% "count", c89_number e.count), (s% "content", e.content)]) ∧
    (∀ e, moreBlockPoolMessage e = c105_fill (s% "error while parsing moreblock at count {count}")
      [(s% "count", c89_number e.count), (s% "content", e.content)]) ∧
    (∀ e, eventPoolMessage e = c105_fill (s% "error while parsing an event after {count} lines, content: {content}")
      [(s% "count", c89_number e.count), (s% "content", e.content)]) ∧
    ∀ n, blockContainerMessage n = c105_fill (s% "error while parsing a block of a block container") [(s% "block_count", c89_number n)] := by
  refine ⟨?_, ?_, ?_, ?_, ?_, ?_⟩ <;> intros <;>
    c105_simp [variablePoolMessage, listVariablePoolMessage, componentPoolMessage, moreBlockPoolMessage, eventPoolMessage,
      blockContainerMessage]

/-- C105: errors of the header of a block container. -/
theorem c105_header (e : BlockContainerHeaderParseError) : e.message = match e with
    | .doesntStartWithAtSign => c105_fill (s% "header does not start with a `@`") []
    | .noScreenName => c105_fill (s% "couldn't get the screen name") []
    | .noContainerName => c105_fill (s% "couldn't get the container name") [] := by
  cases e <;> rfl

/-- C105: errors of a logic file. -/
theorem c105_logic (e : LogicParseError) : e.message = match e with
    | .variablePool screen line _ =>
      c105_fill (s% "error while parsing variable pool of screen {screen_name} at line {line}")
        [(s% "screen_name", screen), (s% "line", c89_number line)]
    | .listVariablePool screen line _ =>
      c105_fill (s% "error while parsing list variable pool of screen {screen_name} at line {line}")
        [(s% "screen_name", screen), (s% "line", c89_number line)]
    | .componentPool screen line _ =>
      c105_fill (s% "error while parsing component pool of screen {screen_name} at line {line}")
        [(s% "screen_name", screen), (s% "line", c89_number line)]
    | .eventPool screen line _ =>
      c105_fill (s% "error while parsing event pool of screen {screen_name} at line {line}")
        [(s% "screen_name", screen), (s% "line", c89_number line)]
    | .moreBlockPool screen line _ =>
      c105_fill (s% "error while parsing more block pool of screen {screen_name} at line {line}")
        [(s% "screen_name", screen), (s% "line", c89_number line)]
    | .blockContainerHeader line _ =>
      c105_fill (s% "error while parsing a block container header at line {line}") [(s% "line", c89_number line)]
    | .blockContainer screen container line _ =>
      c105_fill (s% "error while parsing a block container of screen {screen_name} container {container_name} at line {line}")
        [(s% "screen_name", screen), (s% "container_name", container), (s% "line", c89_number line)] := by
  cases e <;> c105_simp [LogicParseError.message]

/-- C105: errors of resource files. -/
theorem c105_resource_files [DebugText] (e : ResourceFilesParseError) : e.message = match e with
    | .fileDoesntExist p => c105_fill (s% "file `{path:?}` does not exist") [(s% "path:?", DebugText.path p)]
    | .invalidPath p =>
      c105_fill (s% "path given `{path:?}` is invalid (are you sure its pointing to a sketchware's resources folder?)")
        [(s% "path:?", DebugText.path p)] := by
  cases e <;> c105_simp [ResourceFilesParseError.message]

/-- C105: errors of opening a project. -/
theorem c105_project [Floats] (e : SketchwareProjectParseError) : e.message = match e with
    | .project => c105_fill (s% "failed to parse the data file `project`") []
    | .file _ => c105_fill (s% "failed to parse the data file `file`") []
    | .library _ => c105_fill (s% "failed to parse the data file `library`") []
    | .resource _ => c105_fill (s% "failed to parse the data file `resource`") []
    | .view _ => c105_fill (s% "failed to parse the data file `view`") []
    | .logic _ => c105_fill (s% "failed to parse the data file `logic`") []
    | .resourceFiles _ => c105_fill (s% "failed retrieve resource files") [] := by
  cases e <;> rfl

namespace Api

/-- C105: a colour that no category of blocks has. -/
theorem c105_color (c : Color) : unknownColorMessage c =
    c105_fill (s% "color {color} does not correlate to any block category") [(s% "color", c.display)] := by
  c105_simp [unknownColorMessage]

/-- C105: errors of the type of a block. -/
theorem c105_block_type (e : InvalidBlockType) : e.message =
    c105_fill (s% "invalid block type / type name. block type: {block_type}, type name: {type_name}")
      [(s% "block_type", e.blockType), (s% "type_name", e.typeName)] := by
  c105_simp [InvalidBlockType.message]

/-- C105: errors of the content of a block. -/
theorem c105_block_content (e : BlockContentParseError) : e.message = match e with
    | .blockNotFound id => c105_fill (s% "block with id {block_id} not found") [(s% "block_id", c89_number id.toNat)]
    | .invalidBlockId v =>
      c105_fill (s% "invalid block id given on params while referencing a block argument: `{value}`") [(s% "value", v)]
    | .unknownSpecParam name full => c105_fill (s% "unknown spec parameter: {name}") [(s% "name", name), (s% "full", full)]
    | .ranOutOfArgs => c105_fill (s% "not enough arguments is given") []
    | .invalidNumberArgument v => c105_fill (s% "invalid argument given on a number-typed parameter: {value}") [(s% "value", v)]
    | .invalidBooleanArgument v => c105_fill (s% "invalid argument given on a boolean-typed parameter: {value}") [(s% "value", v)] := by
  cases e <;> c105_simp [BlockContentParseError.message]

/-- C105: the same errors with `{:?}`. -/
theorem c105_block_content_debug [DebugText] (e : BlockContentParseError) : e.debug = match e with
    | .blockNotFound id => c105_variant (s% "BlockNotFound") [(s% "block_id", c89_number id.toNat)]
    | .invalidBlockId v => c105_variant (s% "InvalidBlockId") [(s% "value", DebugText.str v)]
    | .unknownSpecParam name full =>
      c105_variant (s% "UnknownSpecParam") [(s% "name", DebugText.str name), (s% "full", DebugText.str full)]
    | .ranOutOfArgs => c105_variant (s% "RanOutOfArgs") []
    | .invalidNumberArgument v => c105_variant (s% "InvalidNumberArgument") [(s% "value", DebugText.str v)]
    | .invalidBooleanArgument v => c105_variant (s% "InvalidBooleanArgument") [(s% "value", DebugText.str v)] := by
  cases e <;> c105_simp [BlockContentParseError.debug]

/-- C105: errors of the conversion of blocks. -/
theorem c105_block [DebugText] (e : BlockConversionError) : e.message = match e with
    | .malformedBlockId id => c105_fill (s% "malformed block id: {id}: {:?}") [(s% "id", id),
        (s% ":?", match IntErrorKind.ofText 4294967295 id with
          | some .empty => c105_variant (s% "ParseIntError") [(s% "kind", c105_variant (s% "Empty") [])]
          | some .invalidDigit => c105_variant (s% "ParseIntError") [(s% "kind", c105_variant (s% "InvalidDigit") [])]
          | some .posOverflow => c105_variant (s% "ParseIntError") [(s% "kind", c105_variant (s% "PosOverflow") [])]
          | none => [])]
    | .blockNotFound id => c105_fill (s% "block with id {id} not found") [(s% "id", c89_number id.toNat)]
    | .substack1 id _ _ => c105_fill (s% "error while parsing substack1 of block with id `{id}`") [(s% "id", c89_number id.toNat)]
    | .substack2 id _ _ => c105_fill (s% "error while parsing substack2 of block with id `{id}`") [(s% "id", c89_number id.toNat)]
    | .invalidType t => c105_fill (s% "invalid block type: `{}`") [([], t.blockType)]
    | .content c => c105_fill (s% "error while parsing the block content: {source:?}") [(s% "source:?", c.debug)] := by
  cases e with
  | malformedBlockId id =>
    simp only [BlockConversionError.message]
    rcases IntErrorKind.ofText 4294967295 id with _ | _ | _ | _ <;> c105_simp [IntErrorKind.debug]
  | _ => c105_simp [BlockConversionError.message]

/-- C105: errors of the type of a view. -/
theorem c105_view_type (e : ViewTypeConversionError) : e.message = match e with
    | .unknownViewType ty id => c105_fill (s% "unknown view type `{view_type}` on view with id `{view_id}`")
        [(s% "view_type", c89_number ty.toNat), (s% "view_id", id)]
    | .resNameNotPresent id => c105_fill
        (s% "the field res_name on view with id `{view_id}` is not present when needed as this view is either a FAB or an ImageView")
        [(s% "view_id", id)] := by
  cases e <;> c105_simp [ViewTypeConversionError.message]

/-- C105: errors of the tree of a layout, as they are and with `{:?}`. -/
theorem c105_tree [DebugText] (e : ParseLayoutError) : (e.message = match e with
      | .noParentField id => c105_fill (s% "view with id {view_id} doesn't have a parent field") [(s% "view_id", id)]
      | .nonexistentParent id parent =>
        c105_fill (s% "couldn't find parent of view with id `{view_id}` (parent id: `{parent_id}`)")
          [(s% "view_id", id), (s% "parent_id", parent)]) ∧
    e.debug = match e with
      | .noParentField id => c105_variant (s% "NoParentField") [(s% "view_id", DebugText.str id)]
      | .nonexistentParent id parent =>
        c105_variant (s% "NonexistentParent") [(s% "view_id", DebugText.str id), (s% "parent_id", DebugText.str parent)] := by
  cases e <;> constructor <;> c105_simp [ParseLayoutError.message, ParseLayoutError.debug]

/-- C105: errors of events and components. -/
theorem c105_unknown : (∀ e : UnknownEventType, e.message = c105_fill (s% "unknown event type `{event_type}` for event `{event_name}`")
      [(s% "event_name", e.eventName), (s% "event_type", c89_number e.eventType.toNat)]) ∧
    ∀ e : UnknownComponentType, e.message =
      c105_fill (s% "unknown component type `{component_type}` of component id {component_id}")
        [(s% "component_type", c89_number e.componentType.toNat), (s% "component_id", e.componentId)] := by
  constructor <;> intros <;> c105_simp [UnknownEventType.message, UnknownComponentType.message]

/-- C105: errors of a screen. -/
theorem c105_screen [DebugText] (e : ScreenConstructionError) : e.message = match e with
    | .moreBlockSpecParseError id _ =>
      c105_fill (s% "error while parsing the spec of the moreblock with id `{moreblock_id}`") [(s% "moreblock_id", id)]
    | .blocksParseError container _ =>
      c105_fill (s% "error while parsing the blocks of container `{container_name}`") [(s% "container_name", container)]
    | .unknownEventType u => c105_fill (s% "{0}") [(s% "0", u.message)]
    | .unknownComponentType u => c105_fill (s% "{0}") [(s% "0", u.message)]
    | .layoutParseError l => c105_fill (s% "error while parsing the layout: `{0:?}`") [(s% "0:?", l.debug)] := by
  cases e <;> c105_simp [ScreenConstructionError.message]

/-- C105: errors of the addition of a resource. The argument of the first message is the number `0.0`, not the id. -/
theorem c105_addition [DebugText] (e : ResourceAdditionError) : e.message = match e with
    | .idTaken _ => c105_fill (s% "resource id `{}` is already taken") [([], s% "0")]
    | .fileDoesntExist p => c105_fill (s% "file `{path:?}` does not exist") [(s% "path:?", DebugText.path p)] := by
  cases e <;> c105_simp [ResourceAdditionError.message]

/-- C105: errors of the conversion of a project. -/
theorem c105_conversion (e : ConversionError) : e.message = match e with
    | .screenConstructionError java layout _ => c105_fill (s% "error while reconstructing screen `{layout_screen_name}`")
        [(s% "java_screen_name", java), (s% "layout_screen_name", layout)]
    | .missingCustomViewLayout id =>
      c105_fill (s% "couldn't find the layout of the custom view `{custom_view_id}`") [(s% "custom_view_id", id)]
    | .customViewParseLayoutError id _ =>
      c105_fill (s% "error while parsing the layout of custom view `{custom_view_id}`") [(s% "custom_view_id", id)]
    | .invalidUseYNValue lib v =>
      c105_fill (s% "use_yn of library `{library_name}` has an invalid value `{value}` (expected `Y` or `N`)")
        [(s% "library_name", lib), (s% "value", v)]
    | .missingResourceFile name full _ =>
      c105_fill (s% "couldn't find a resource file matching with id `{res_name}`") [(s% "res_name", name), (s% "res_full_name", full)] := by
  cases e <;> c105_simp [ConversionError.message]

end Api

/-- The message of an error that does occur: line 2 of this file (lines count from 0) is no item. -/
example : ∃ e, File.parse (s% "@activity\n@activity\nx\n") = .err e ∧
    e.message = s% "failed to parse a file item at line 2 with the content x" := by
  refine ⟨.item 2 (s% "x"), by decide +kernel, by decide +kernel⟩

end Swrs
