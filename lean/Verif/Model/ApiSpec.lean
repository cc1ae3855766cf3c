import Verif.Base.Out
import Verif.Base.Num
import Verif.Base.Float
import Verif.Model.Color
/-!
# Model of `/repo/src/api/block.rs`: block types, categories and specs

Blocks and specs are mutually recursive types; here the type of blocks is a parameter `B`.
-/
namespace Swrs.Api

/-- `enum BlockCategory` — block.rs:538-549. -/
inductive BlockCategory where
  | variable | list | control | operator | math | file | viewFunc | componentFunc | moreBlock
deriving DecidableEq, Repr

namespace BlockCategory
/-- `Into<Color> for BlockCategory` — block.rs:551-567. -/
def color (c : BlockCategory) : Color :=
  match (match c with
    | .variable => (0xee, 0x7d, 0x16)
    | .list => (0xcc, 0x5b, 0x22)
    | .control => (0xe1, 0xa9, 0x2a)
    | .operator => (0x5c, 0xb7, 0x22)
    | .math => (0x23, 0xb9, 0xa9)
    | .file => (0xa1, 0x88, 0x7f)
    | .viewFunc => (0x4a, 0x6c, 0xd4)
    | .componentFunc => (0xfc, 0xa5, 0xe2)
    | .moreBlock => (0x8a, 0x55, 0xd7) : UInt8 × UInt8 × UInt8) with
  | (r, g, b) => Color.fromRgb r g b

/-- `TryFrom<Color> for BlockCategory` — block.rs:569-586; the error is `UnknownColor { color }`. -/
def ofColor (c : Color) : Out Color BlockCategory :=
  if c.rgb = (0xee, 0x7d, 0x16) then .ok .variable
  else if c.rgb = (0xcc, 0x5b, 0x22) then .ok .list
  else if c.rgb = (0xe1, 0xa9, 0x2a) then .ok .control
  else if c.rgb = (0x5c, 0xb7, 0x22) then .ok .operator
  else if c.rgb = (0x23, 0xb9, 0xa9) then .ok .math
  else if c.rgb = (0xa1, 0x88, 0x7f) then .ok .file
  else if c.rgb = (0x4a, 0x6c, 0xd4) then .ok .viewFunc
  else if c.rgb = (0xfc, 0xa5, 0xe2) then .ok .componentFunc
  else if c.rgb = (0x8a, 0x55, 0xd7) then .ok .moreBlock
  else .err c
end BlockCategory

/-- `enum ListItem` — block.rs:445-448. -/
inductive ListItem where | string | number
deriving DecidableEq, Repr

/-- `FromStr for ListItem` — block.rs:461-472. -/
def ListItem.parse (s : Str) : Option ListItem :=
  if s = s% "List String" then some .string
  else if s = s% "List Number" then some .number
  else none

/-- `enum ArgumentBlockReturnType` — block.rs:435-443. -/
inductive ReturnType where
  | boolean | string | number
  | view (typeName : Str)
  | component (typeName : Str)
  | list (inner : ListItem)
deriving DecidableEq, Repr

/-- `enum BlockControl` — block.rs:474-479. -/
inductive BlockControl where | oneNest | twoNest | endingBlock
deriving DecidableEq, Repr

/-- `enum BlockType` — block.rs:428-433. -/
inductive BlockType where
  | regular
  | argument (t : ReturnType)
  | control (c : BlockControl)
deriving DecidableEq, Repr

/-- `struct InvalidBlockType` — block.rs:513-518. -/
structure InvalidBlockType where
  blockType : Str
  typeName : Str
deriving DecidableEq, Repr

namespace BlockType
/-- `BlockType::from` — block.rs:482-499. -/
def parse (s typeName : Str) : Out InvalidBlockType BlockType :=
  if s = s% "v" then .ok (.argument (.view typeName))
  else if s = s% "p" then .ok (.argument (.component typeName))
  else if s = s% "b" then .ok (.argument .boolean)
  else if s = s% "s" then .ok (.argument .string)
  else if s = s% "d" then .ok (.argument .number)
  else if s = s% "l" then do
    let inner ← Out.ofOption ⟨s, typeName⟩ (ListItem.parse typeName)
    pure (.argument (.list inner))
  else if s = s% "c" then .ok (.control .oneNest)
  else if s = s% "e" then .ok (.control .twoNest)
  else if s = s% "f" then .ok (.control .endingBlock)
  else if s = s% " " then .ok .regular
  else .err ⟨s, typeName⟩

/-- `BlockType::get_typename` — block.rs:502-510. -/
def typeName : BlockType → Option Str
  | .argument (.view n) => some n
  | .argument (.component n) => some n
  | _ => none

/-- `ToString for BlockType` — block.rs:520-535. -/
def text : BlockType → Str
  | .regular => s% " "
  | .argument .boolean => s% "b"
  | .argument .string => s% "s"
  | .argument .number => s% "d"
  | .argument (.view _) => s% "v"
  | .argument (.component _) => s% "p"
  | .argument (.list _) => s% "l"
  | .control .oneNest => s% "c"
  | .control .twoNest => s% "e"
  | .control .endingBlock => s% "f"
end BlockType

/-- `enum ArgValue<T>` — block.rs:1099-1109. -/
inductive ArgValue (B α : Type) where
  | value (v : α)
  | block (b : B)
  | placeholder (blockId : UInt32)
  | empty

/-- `enum Argument` — block.rs:1074-1097. -/
inductive Argument [Floats] (B : Type) where
  | string (name : Option Str) (value : ArgValue B Str)
  | number (name : Option Str) (value : ArgValue B Floats.F64)
  | boolean (name : Option Str) (value : ArgValue B Bool)
  | menu (name : Str) (value : ArgValue B Str)

/-- `enum SpecItem` — block.rs:1037-1041. -/
inductive SpecItem [Floats] (B : Type) where
  | text (s : Str)
  | param (a : Argument B)

/-- `struct BlockContent` — block.rs:595-598: its only field. -/
abbrev BlockContent [Floats] (B : Type) := List (SpecItem B)

/-- `enum BlockContentParseError` — block.rs:971-1001. -/
inductive BlockContentParseError where
  | blockNotFound (blockId : UInt32)
  | invalidBlockId (value : Str)
  | unknownSpecParam (name full : Str)
  | ranOutOfArgs
  | invalidNumberArgument (value : Str)
  | invalidBooleanArgument (value : Str)
deriving DecidableEq, Repr

/-- `str::parse::<u32>`. Used for block ids in api/block.rs:659, 675, 698, 749, 767, 792, 817. -/
def parseU32 (s : Str) : Option UInt32 := (parseUnsigned 10 4294967295 s).map UInt32.ofNat

/-- `str::parse::<bool>`. Used in api/block.rs:681, 773. -/
def parseBool (s : Str) : Option Bool :=
  if s = s% "true" then some true else if s = s% "false" then some false else none

namespace BlockContent

/-- The name of a parameter word — block.rs:612-615 and 645-648: present if the third character is `.` and the word has
more than three bytes; it is then cut after three bytes, which panics inside a character. -/
def wordName (s : Str) : Out BlockContentParseError (Option Str) :=
  if s[2]? = some '.' ∧ 3 < byteLen s then do
    let n ← Out.unwrap (sliceFrom s 3)
    pure (some n)
  else pure none

variable [Floats] {B : Type}

/-- One word of `parse_wo_params` — block.rs:605-628. -/
def word (s : Str) : Out BlockContentParseError (SpecItem B) :=
  if startsWith (s% "%") s = false then .ok (.text s)
  else do
    let name ← wordName s
    let c ← Out.unwrap s[1]?
    if c = 's' then pure (.param (.string name .empty))
    else if c = 'b' then pure (.param (.boolean name .empty))
    else if c = 'd' then pure (.param (.number name .empty))
    else if c = 'm' then do
      let n ← Out.unwrap name
      pure (.param (.menu n .empty))
    else .err (.unknownSpecParam [c] s)

/-- The loop of `parse_wo_params` — block.rs:603-631. -/
def words : List Str → Out BlockContentParseError (BlockContent B)
  | [] => .ok []
  | s :: ss => do
    let i ← word s
    let is ← words ss
    pure (i :: is)

/-- `BlockContent::parse_wo_params` — block.rs:602-632. -/
def parseWoParams (spec : Str) : Out BlockContentParseError (BlockContent B) := words (splitOn ' ' spec)

/-- The argument text of a parameter: a block reference `@id`, or a value read by `f` — block.rs:654-665, 670-688,
693-711, 744-754, 762-779, 787-804, 812-822. -/
def argText {α : Type} (f : Str → Option α) (bad : Str → BlockContentParseError) (value : Str) :
    Out BlockContentParseError (ArgValue B α) :=
  if startsWith (s% "@") value then do
    let rest ← Out.unwrap (sliceFrom value 1)
    let id ← Out.ofOption (.invalidBlockId value) (parseU32 rest)
    pure (.placeholder id)
  else do
    let v ← Out.ofOption (bad value) (f value)
    pure (.value v)

/-- `if args.is_empty() { Err(RanOutOfArgs)? }; args.remove(0)` — block.rs:654-655. -/
def takeArg : List Str → Out BlockContentParseError (Str × List Str)
  | [] => .err .ranOutOfArgs
  | a :: as => .ok (a, as)

/-- One word of `parse` — block.rs:638-728; returns the item and the remaining arguments. -/
def wordArgs (s : Str) (args : List Str) : Out BlockContentParseError (SpecItem B × List Str) :=
  if startsWith (s% "%") s = false then .ok (.text s, args)
  else do
    let name ← wordName s
    let c ← Out.unwrap s[1]?
    if c = 's' then do
      let (a, args) ← takeArg args
      let v ← argText some (fun _ => .ranOutOfArgs) a
      pure (.param (.string name v), args)
    else if c = 'b' then do
      let (a, args) ← takeArg args
      let v ← argText parseBool .invalidBooleanArgument a
      pure (.param (.boolean name v), args)
    else if c = 'd' then do
      let (a, args) ← takeArg args
      let v ← argText Floats.read64 .invalidNumberArgument a
      pure (.param (.number name v), args)
    else if c = 'm' then do
      let n ← Out.unwrap name
      let (a, args) ← takeArg args
      pure (.param (.menu n (.value a)), args)
    else .err (.unknownSpecParam [c] s)

/-- The loop of `parse` — block.rs:636-731. -/
def wordsArgs : List Str → List Str → Out BlockContentParseError (BlockContent B)
  | [], _ => .ok []
  | s :: ss, args => do
    let (i, args) ← wordArgs s args
    let is ← wordsArgs ss args
    pure (i :: is)

/-- `BlockContent::parse` — block.rs:635-732. -/
def parse (spec : Str) (args : List Str) : Out BlockContentParseError (BlockContent B) := wordsArgs (splitOn ' ' spec) args

/-- An argument that is `Empty` takes the next text — block.rs:743-755 and the like. -/
def fill {α : Type} (f : Str → Option α) (bad : Str → BlockContentParseError) (v : ArgValue B α) (args : List Str) :
    Out BlockContentParseError (ArgValue B α × List Str) :=
  match v with
  | .empty => do
    let (a, args) ← takeArg args
    let v ← argText f bad a
    pure (v, args)
  | v => .ok (v, args)

/-- One item of `apply_args` — block.rs:738-826. -/
def applyArg (i : SpecItem B) (args : List Str) : Out BlockContentParseError (SpecItem B × List Str) :=
  match i with
  | .text s => .ok (.text s, args)
  | .param (.string n v) => do
    let (v, args) ← fill some (fun _ => .ranOutOfArgs) v args
    pure (.param (.string n v), args)
  | .param (.number n v) => do
    let (v, args) ← fill Floats.read64 .invalidNumberArgument v args
    pure (.param (.number n v), args)
  | .param (.boolean n v) => do
    let (v, args) ← fill parseBool .invalidBooleanArgument v args
    pure (.param (.boolean n v), args)
  | .param (.menu n v) => do
    let (v, args) ← fill some (fun _ => .ranOutOfArgs) v args
    pure (.param (.menu n v), args)

/-- `BlockContent::apply_args` — block.rs:735-829. -/
def applyArgs : BlockContent B → List Str → Out BlockContentParseError (BlockContent B)
  | [], _ => .ok []
  | i :: is, args => do
    let (i, args) ← applyArg i args
    let is ← applyArgs is args
    pure (i :: is)

/-- `BlockContent::get_args` — block.rs:900-910. -/
def getArgs (c : BlockContent B) : List (Argument B) :=
  c.filterMap fun
    | .text _ => none
    | .param a => some a

/-- An argument with its value removed — block.rs:939-951. -/
def emptied : Argument B → Argument B
  | .string n _ => .string n .empty
  | .number n _ => .number n .empty
  | .boolean n _ => .boolean n .empty
  | .menu n _ => .menu n .empty

/-- The content returned by `take_args` — block.rs:929-961. -/
def withoutArgs (c : BlockContent B) : BlockContent B :=
  c.map fun
    | .text s => .text s
    | .param a => .param (emptied a)

/-- `BlockContent::take_args` — block.rs:927-964. -/
def takeArgs (c : BlockContent B) : BlockContent B × List (Argument B) := (withoutArgs c, getArgs c)

/-- The dot and the name of a parameter, if it has one — block.rs:1025-1028. -/
def nameText : Option Str → Str
  | some n => '.' :: n
  | none => []

/-- The text of an item without the trailing space — block.rs:1009-1028. -/
def itemText : SpecItem B → Str
  | .text s => s
  | .param (.string n _) => s% "%s" ++ nameText n
  | .param (.number n _) => s% "%d" ++ nameText n
  | .param (.boolean n _) => s% "%b" ++ nameText n
  | .param (.menu n _) => s% "%m" ++ nameText (some n)

/-- `ToString for BlockContent` — block.rs:1003-1035: every item followed by a space, and the last character removed. -/
def text (c : BlockContent B) : Str := (c.flatMap fun i => itemText i ++ [' ']).dropLast

end BlockContent
end Swrs.Api
