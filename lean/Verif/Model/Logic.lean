import Verif.Base.LinkedMap
import Verif.Model.Color
/-!
# Model of `/repo/src/parser/logic.rs`

`serde_json::to_string` cannot fail on these types (strings, integers, lists of strings), so `reconstruct` has no
error case here. `serde_json::Error` and `ParseIntError` are one value each. The counters in errors are `u32` in the
code and natural numbers here: the same for texts of fewer than 2^32 lines.
-/
namespace Swrs

/-- What the `parse_iter` functions have in common (logic.rs:359-377, 511-535, 628-649, 767-786, 891-914,
1029-1044): `newline_iter.by_ref().take_while(|i| *i != "").enumerate()`, parsing each line. The result is the list of
parsed values and the remaining lines (`take_while` consumes the blank line); `n` is the index of the line.
On an error `mk` makes the error value from the index, the line and the source. -/
def readPool {ε ε' α : Type} (p : Str → Out ε α) (mk : Nat → Str → ε → ε') :
    List Str → Nat → List α → Out ε' (List α × List Str)
  | [], _, acc => .ok (acc, [])
  | line :: rest, n, acc =>
    if line = [] then .ok (acc, rest)
    else match p line with
      | .ok a => readPool p mk rest (n + 1) (acc ++ [a])
      | .err e => .err (mk n line e)
      | .panic => .panic

/-- An error of a pool — e.g. `VariablePoolParseError`, logic.rs:400-408 (also 557-565, 683-691, 823-831, 936-944). -/
structure PoolError (ε : Type) where
  count : Nat
  content : Str
  source : ε
deriving DecidableEq, Repr

/-! ### Variables -/

/-- `enum VariableType` — logic.rs:466-473. -/
inductive VariableType where
  | boolean | integer | string | hashMap
deriving DecidableEq, Repr

namespace VariableType
/-- `self.r#type as u8` — logic.rs:466-473. -/
def num : VariableType → UInt8
  | boolean => 0 | integer => 1 | string => 2 | hashMap => 3
/-- `TryFrom<u8>` — logic.rs:475-487. -/
def ofNum (n : UInt8) : Out UInt8 VariableType :=
  if n = 0 then .ok boolean else if n = 1 then .ok integer else if n = 2 then .ok string
  else if n = 3 then .ok hashMap else .err n
end VariableType

/-- `str::parse::<u8>`. Used in parser/logic.rs:437, 594. -/
def parseU8 (s : Str) : Option UInt8 := (parseUnsigned 10 255 s).map UInt8.ofNat

/-- `struct Variable` — logic.rs:416-420. -/
structure Variable where
  name : Str
  type : VariableType
deriving DecidableEq, Repr

/-- `enum VariableParseError` — logic.rs:451-464. -/
inductive VariableParseError where
  | malformedVariable (content : Str)
  | malformedVariableType (content : Str)
  | invalidVariableType (value : UInt8)
deriving DecidableEq, Repr

namespace Variable
/-- `Variable::parse` — logic.rs:426-444. -/
def parse (s : Str) : Out VariableParseError Variable := do
  let (ty, name) ← Out.ofOption (.malformedVariable s) (splitOnce ':' s)
  let n ← Out.ofOption (.malformedVariableType ty) (parseU8 ty)
  let t ← (VariableType.ofNum n).mapErr .invalidVariableType
  pure { name, type := t }
/-- `Variable::reconstruct` — logic.rs:446-448. -/
def reconstruct (v : Variable) : Str := natStr 10 v.type.num.toNat ++ ':' :: v.name
end Variable

/-- `fold(String::new(), |acc, i| format!("{}\n{}", acc, i))` and `trim` — logic.rs:390-396, 547-553, 813-819,
926-932. -/
def foldLines (ls : List Str) : Str := trim (ls.foldl (fun acc i => acc ++ ('\n' :: i)) [])

/-- `struct VariablePool` — logic.rs:354-355. -/
structure VariablePool where
  map : LMap Str Variable
deriving DecidableEq, Repr

namespace VariablePool
variable [MapPol]
/-- `VariablePool::parse_iter` — logic.rs:359-377. The values are inserted in the map after all lines are read, which
gives the same result since an error discards the map. -/
def parseIter (ls : List Str) : Out (PoolError VariableParseError) (VariablePool × List Str) := do
  let (vs, rest) ← readPool Variable.parse PoolError.mk ls 0 []
  pure (⟨LMap.collect (vs.map fun v => (v.name, v))⟩, rest)
/-- `VariablePool::parse` — logic.rs:385-387. -/
def parse (s : Str) : Out (PoolError VariableParseError) VariablePool := do
  let (p, _) ← parseIter (lines s)
  pure p
/-- `VariablePool::reconstruct` — logic.rs:389-397. -/
def reconstruct (p : VariablePool) : Str := foldLines (p.map.map fun e => e.2.reconstruct)
/-- `Default for VariablePool` — logic.rs:410-414. -/
def default : VariablePool := ⟨[]⟩
end VariablePool

/-! ### List variables -/

/-- `struct ListVariable` — logic.rs:573-577. -/
structure ListVariable where
  name : Str
  type : VariableType
deriving DecidableEq, Repr

/-- `enum ListVariableParseError` — logic.rs:606-616. -/
inductive ListVariableParseError where
  | missingColon
  | variableTypeIsNotInt
  | invalidVariableType (value : UInt8)
deriving DecidableEq, Repr

namespace ListVariable
/-- `ListVariable::parse` — logic.rs:583-599. -/
def parse (s : Str) : Out ListVariableParseError ListVariable := do
  let (ty, name) ← Out.ofOption .missingColon (splitOnce ':' s)
  let n ← Out.ofOption .variableTypeIsNotInt (parseU8 ty)
  let t ← (VariableType.ofNum n).mapErr .invalidVariableType
  pure { name, type := t }
/-- `ListVariable::reconstruct` — logic.rs:601-603. -/
def reconstruct (v : ListVariable) : Str := natStr 10 v.type.num.toNat ++ ':' :: v.name
end ListVariable

/-- `struct ListVariablePool` — logic.rs:506-507. -/
structure ListVariablePool where
  map : LMap Str ListVariable
deriving DecidableEq, Repr

namespace ListVariablePool
variable [MapPol]
/-- `ListVariablePool::parse_iter` — logic.rs:511-535 (inserting at the end, as for variables). -/
def parseIter (ls : List Str) : Out (PoolError ListVariableParseError) (ListVariablePool × List Str) := do
  let (vs, rest) ← readPool ListVariable.parse PoolError.mk ls 0 []
  pure (⟨LMap.collect (vs.map fun v => (v.name, v))⟩, rest)
/-- `ListVariablePool::parse` — logic.rs:542-544. -/
def parse (s : Str) : Out (PoolError ListVariableParseError) ListVariablePool := do
  let (p, _) ← parseIter (lines s)
  pure p
/-- `ListVariablePool::reconstruct` — logic.rs:546-554. -/
def reconstruct (p : ListVariablePool) : Str := foldLines (p.map.map fun e => e.2.reconstruct)
/-- `Default for ListVariablePool` — logic.rs:567-571. -/
def default : ListVariablePool := ⟨[]⟩
end ListVariablePool

/-! ### Components -/

/-- `struct Component` — logic.rs:709-719. -/
structure Component where
  id : Str
  param1 : Str
  param2 : Str
  param3 : Str
  type : UInt8
deriving DecidableEq, Repr

namespace Component
/-- `Component::new` — logic.rs:723-725. -/
def new (id param1 param2 param3 : Str) (type : UInt8) : Component := ⟨id, param1, param2, param3, type⟩
/-- `Component::new_empty` — logic.rs:728-730. -/
def newEmpty (id : Str) (type : UInt8) : Component := ⟨id, [], [], [], type⟩
/-- `Component::new_1param` — logic.rs:733-735. -/
def new1Param (id param1 : Str) (type : UInt8) : Component := ⟨id, param1, [], [], type⟩
/-- `Component::new_2params` — logic.rs:738-740. -/
def new2Params (id param1 param2 : Str) (type : UInt8) : Component := ⟨id, param1, param2, [], type⟩

/-- JSON keys in declaration order — logic.rs:709-719. -/
def fields : List Str := [s% "componentId", s% "param1", s% "param2", s% "param3", s% "type"]

/-- derived `Serialize` — logic.rs:709-719. -/
def enc (c : Component) : Json :=
  .obj [(s% "componentId", .str c.id), (s% "param1", .str c.param1), (s% "param2", .str c.param2),
    (s% "param3", .str c.param3), (s% "type", Json.encU8 c.type)]

/-- derived `Deserialize` — logic.rs:709-719. -/
def dec (j : Json) : Option Component := do
  let o ← Json.asStruct fields j
  let id ← Json.req o (s% "componentId") Json.decStr
  let param1 ← Json.req o (s% "param1") Json.decStr
  let param2 ← Json.req o (s% "param2") Json.decStr
  let param3 ← Json.req o (s% "param3") Json.decStr
  let type ← Json.req o (s% "type") Json.decU8
  pure { id, param1, param2, param3, type }

/-- `Component::parse` — logic.rs:747-749. -/
def parse (s : Str) : Option Component := Json.fromStr dec s
/-- `Component::reconstruct` — logic.rs:751-753. -/
def reconstruct (c : Component) : Str := c.enc.print
end Component

/-- A record parser as a line parser with the opaque `serde_json::Error`.
The `serde_json::from_str` of a line in the pools of parser/logic.rs. -/
def lineParser {α : Type} (p : Str → Option α) (s : Str) : Out Unit α := Out.ofOption () (p s)

/-- `struct ComponentPool` — logic.rs:624-625. -/
structure ComponentPool where
  items : List Component
deriving DecidableEq, Repr

namespace ComponentPool
/-- `ComponentPool::parse_iter` — logic.rs:628-649. -/
def parseIter (ls : List Str) : Out (PoolError Unit) (ComponentPool × List Str) := do
  let (cs, rest) ← readPool (lineParser Component.parse) PoolError.mk ls 0 []
  pure (⟨cs⟩, rest)
/-- `ComponentPool::parse` — logic.rs:656-658. -/
def parse (s : Str) : Out (PoolError Unit) ComponentPool := do
  let (p, _) ← parseIter (lines s)
  pure p
/-- `ComponentPool::reconstruct` — logic.rs:660-680. -/
def reconstruct (p : ComponentPool) : Str :=
  trimEnd (p.items.foldl (fun acc c => acc ++ (c.reconstruct ++ ['\n'])) [])
/-- `Default for ComponentPool` — logic.rs:703-707. -/
def default : ComponentPool := ⟨[]⟩
end ComponentPool

/-! ### Moreblocks -/

/-- `struct MoreBlock` — logic.rs:840-844. -/
structure MoreBlock where
  id : Str
  spec : Str
deriving DecidableEq, Repr

/-- `enum MoreBlockParseError` — logic.rs:872-878. -/
inductive MoreBlockParseError where
  | malformedMoreBlock (content : Str)
deriving DecidableEq, Repr

namespace MoreBlock
/-- `MoreBlock::parse` — logic.rs:854-864. -/
def parse (s : Str) : Out MoreBlockParseError MoreBlock := do
  let (id, spec) ← Out.ofOption (.malformedMoreBlock s) (splitOnce ':' s)
  pure { id, spec }
/-- `MoreBlock::reconstruct` — logic.rs:867-869. -/
def reconstruct (m : MoreBlock) : Str := m.id ++ ':' :: m.spec
end MoreBlock

/-- `struct MoreBlockPool` — logic.rs:762-763. -/
structure MoreBlockPool where
  map : LMap Str MoreBlock
deriving DecidableEq, Repr

namespace MoreBlockPool
variable [MapPol]
/-- `MoreBlockPool::parse_iter` — logic.rs:767-798. -/
def parseIter (ls : List Str) : Out (PoolError MoreBlockParseError) (MoreBlockPool × List Str) := do
  let (ms, rest) ← readPool MoreBlock.parse PoolError.mk ls 0 []
  pure (⟨LMap.collect (ms.map fun m => (m.id, m))⟩, rest)
/-- `MoreBlockPool::parse` — logic.rs:807-809. -/
def parse (s : Str) : Out (PoolError MoreBlockParseError) MoreBlockPool := do
  let (p, _) ← parseIter (lines s)
  pure p
/-- `MoreBlockPool::reconstruct` — logic.rs:812-820. -/
def reconstruct (p : MoreBlockPool) : Str := foldLines (p.map.map fun e => e.2.reconstruct)
/-- `Default for MoreBlockPool` — logic.rs:833-837. -/
def default : MoreBlockPool := ⟨[]⟩
end MoreBlockPool

/-! ### Events -/

/-- `struct Event` — logic.rs:952-959. -/
structure Event where
  eventName : Str
  eventType : UInt8
  targetId : Str
  targetType : UInt8
deriving DecidableEq, Repr

namespace Event
/-- JSON keys in declaration order — logic.rs:952-959. -/
def fields : List Str := [s% "eventName", s% "eventType", s% "targetId", s% "targetType"]

/-- derived `Serialize` — logic.rs:952-959. -/
def enc (e : Event) : Json :=
  .obj [(s% "eventName", .str e.eventName), (s% "eventType", Json.encU8 e.eventType),
    (s% "targetId", .str e.targetId), (s% "targetType", Json.encU8 e.targetType)]

/-- derived `Deserialize` — logic.rs:952-959. -/
def dec (j : Json) : Option Event := do
  let o ← Json.asStruct fields j
  let eventName ← Json.req o (s% "eventName") Json.decStr
  let eventType ← Json.req o (s% "eventType") Json.decU8
  let targetId ← Json.req o (s% "targetId") Json.decStr
  let targetType ← Json.req o (s% "targetType") Json.decU8
  pure { eventName, eventType, targetId, targetType }

/-- `Event::parse` — logic.rs:965-967. -/
def parse (s : Str) : Option Event := Json.fromStr dec s
/-- `Event::reconstruct` — logic.rs:969-971. -/
def reconstruct (e : Event) : Str := e.enc.print
end Event

/-- `struct EventPool` — logic.rs:886-887. -/
structure EventPool where
  items : List Event
deriving DecidableEq, Repr

namespace EventPool
/-- `EventPool::parse_iter` — logic.rs:891-914. -/
def parseIter (ls : List Str) : Out (PoolError Unit) (EventPool × List Str) := do
  let (es, rest) ← readPool (lineParser Event.parse) PoolError.mk ls 0 []
  pure (⟨es⟩, rest)
/-- `EventPool::parse` — logic.rs:921-923. -/
def parse (s : Str) : Out (PoolError Unit) EventPool := do
  let (p, _) ← parseIter (lines s)
  pure p
/-- `EventPool::reconstruct` — logic.rs:925-933. -/
def reconstruct (p : EventPool) : Str := foldLines (p.items.map Event.reconstruct)
/-- `Default for EventPool` — logic.rs:946-950. -/
def default : EventPool := ⟨[]⟩
end EventPool

/-! ### Blocks -/

/-- `struct Block` — logic.rs:1099-1112. -/
structure Block where
  color : Color
  id : Str
  nextBlock : Int32
  opCode : Str
  parameters : List Str
  spec : Str
  subStack1 : Int32
  subStack2 : Int32
  type : Str
  typeName : Str
deriving DecidableEq, Repr

namespace Block
/-- JSON keys in declaration order — logic.rs:1099-1112. -/
def fields : List Str := [s% "color", s% "id", s% "nextBlock", s% "opCode", s% "parameters", s% "spec",
  s% "subStack1", s% "subStack2", s% "type", s% "typeName"]

/-- derived `Serialize` — logic.rs:1099-1112. -/
def enc (b : Block) : Json :=
  .obj [(s% "color", b.color.enc), (s% "id", .str b.id), (s% "nextBlock", Json.encI32 b.nextBlock),
    (s% "opCode", .str b.opCode), (s% "parameters", .arr (b.parameters.map .str)), (s% "spec", .str b.spec),
    (s% "subStack1", Json.encI32 b.subStack1), (s% "subStack2", Json.encI32 b.subStack2),
    (s% "type", .str b.type), (s% "typeName", .str b.typeName)]

/-- derived `Deserialize` — logic.rs:1099-1112. -/
def dec [Floats] (j : Json) : Option Block := do
  let o ← Json.asStruct fields j
  let color ← Json.req o (s% "color") Color.dec
  let id ← Json.req o (s% "id") Json.decStr
  let nextBlock ← Json.req o (s% "nextBlock") Json.decI32
  let opCode ← Json.req o (s% "opCode") Json.decStr
  let parameters ← Json.req o (s% "parameters") (Json.decVec Json.decStr)
  let spec ← Json.req o (s% "spec") Json.decStr
  let subStack1 ← Json.req o (s% "subStack1") Json.decI32
  let subStack2 ← Json.req o (s% "subStack2") Json.decI32
  let type ← Json.req o (s% "type") Json.decStr
  let typeName ← Json.req o (s% "typeName") Json.decStr
  pure { color, id, nextBlock, opCode, parameters, spec, subStack1, subStack2, type, typeName }

/-- `Block::parse` — logic.rs:1118-1120. -/
def parse [Floats] (s : Str) : Option Block := Json.fromStr dec s
/-- `Block::reconstruct` — logic.rs:1122-1124. -/
def reconstruct (b : Block) : Str := b.enc.print
end Block

/-- `struct BlockContainer` — logic.rs:1024-1025. -/
structure BlockContainer where
  blocks : List Block
deriving DecidableEq, Repr

namespace BlockContainer
/-- `BlockContainer::parse_iter` — logic.rs:1029-1044. The error is the number of blocks before (`block_count`). -/
def parseIter [Floats] (ls : List Str) : Out Nat (BlockContainer × List Str) := do
  let (bs, rest) ← readPool (lineParser Block.parse) (fun n _ _ => n) ls 0 []
  pure (⟨bs⟩, rest)
/-- `BlockContainer::parse` — logic.rs:1052-1054. -/
def parse [Floats] (s : Str) : Out Nat BlockContainer := do
  let (p, _) ← parseIter (lines s)
  pure p
/-- `BlockContainer::reconstruct` — logic.rs:1056-1073. -/
def reconstruct (p : BlockContainer) : Str := p.blocks.foldl (fun acc b => acc ++ (b.reconstruct ++ ['\n'])) []
/-- `Default for BlockContainer` — logic.rs:1076-1078. -/
def default : BlockContainer := ⟨[]⟩
end BlockContainer

/-- `struct BlockContainerHeader` — logic.rs:977-981. -/
structure BlockContainerHeader where
  screenName : Str
  containerName : Str
deriving DecidableEq, Repr

/-- `enum BlockContainerHeaderParseError` — logic.rs:1011-1021. -/
inductive BlockContainerHeaderParseError where
  | doesntStartWithAtSign
  | noScreenName
  | noContainerName
deriving DecidableEq, Repr

namespace BlockContainerHeader
/-- `BlockContainerHeader::parse` — logic.rs:988-1004: the first two pieces of `split(".java_")`. The first piece
always exists; dropping its first byte panics when it is empty or starts with a longer character. -/
def parse (s : Str) : Out BlockContainerHeaderParseError BlockContainerHeader :=
  if startsWith ['@'] s then
    match splitAtPat (s% ".java_") s with
    | none => do
      let _ ← Out.unwrap (sliceFrom s 1)
      .err .noContainerName
    | some (a, b) => do
      let screenName ← Out.unwrap (sliceFrom a 1)
      let containerName := match splitAtPat (s% ".java_") b with
        | some (c, _) => c
        | none => b
      pure { screenName, containerName }
  else .err .doesntStartWithAtSign
/-- `BlockContainerHeader::reconstruct` — logic.rs:1006-1008. -/
def reconstruct (h : BlockContainerHeader) : Str := '@' :: (h.screenName ++ (s% ".java_" ++ h.containerName))
end BlockContainerHeader

/-! ### The logic file -/

/-- `struct ScreenLogic` — logic.rs:322-331. -/
structure ScreenLogic where
  name : Str
  blockContainers : LMap Str BlockContainer
  variables : Option VariablePool
  listVariables : Option ListVariablePool
  components : Option ComponentPool
  events : Option EventPool
  moreBlocks : Option MoreBlockPool
deriving DecidableEq, Repr

/-- `ScreenLogic::new_empty` — logic.rs:334-344. -/
def ScreenLogic.newEmpty (name : Str) : ScreenLogic := ⟨name, [], none, none, none, none, none⟩

/-- `struct Logic` — logic.rs:12-18. -/
structure Logic where
  screens : LMap Str ScreenLogic
deriving DecidableEq, Repr

/-- `enum LogicParseError` — logic.rs:254-304. -/
inductive LogicParseError where
  | variablePool (screen : Str) (line : Nat) (source : PoolError VariableParseError)
  | listVariablePool (screen : Str) (line : Nat) (source : PoolError ListVariableParseError)
  | componentPool (screen : Str) (line : Nat) (source : PoolError Unit)
  | eventPool (screen : Str) (line : Nat) (source : PoolError Unit)
  | moreBlockPool (screen : Str) (line : Nat) (source : PoolError MoreBlockParseError)
  | blockContainerHeader (line : Nat) (source : BlockContainerHeaderParseError)
  | blockContainer (screen container : Str) (line : Nat) (blockCount : Nat)
deriving DecidableEq, Repr

namespace Logic
variable [Floats] [MapPol]

/-- `(&line[1..line.len() - n]).to_string()` — logic.rs:40, 60, 79, 98, 116. `line.len() - n` does not underflow there:
the line starts with `@` and ends with a suffix of `n - 1` other characters. -/
def screenOf (line : Str) (n : Nat) : Option Str := slice line 1 (byteLen line - n)

/-- `screens.entry(name).or_insert_with(|| ScreenLogic::new_empty(name))` followed by an update — logic.rs:52-55 etc. -/
def update (l : LMap Str ScreenLogic) (name : Str) (f : ScreenLogic → ScreenLogic) : LMap Str ScreenLogic :=
  l.upsert name (ScreenLogic.newEmpty name) f

/-- One round of the loop of `Logic::parse` on a header line — logic.rs:38-157: the updated screens and the
remaining lines. `n` is `line_counter`, the number of containers read before. -/
def step (line : Str) (rest : List Str) (n : Nat) (l : LMap Str ScreenLogic) :
    Out LogicParseError (LMap Str ScreenLogic × List Str) :=
  if endsWith (s% "java_var") line then do
    let name ← Out.unwrap (screenOf line 9)
    let (p, rest) ← (VariablePool.parseIter rest).mapErr (.variablePool name n)
    pure (update l name fun s => { s with variables := some p }, rest)
  else if endsWith (s% "java_list") line then do
    let name ← Out.unwrap (screenOf line 10)
    let (p, rest) ← (ListVariablePool.parseIter rest).mapErr (.listVariablePool name n)
    pure (update l name fun s => { s with listVariables := some p }, rest)
  else if endsWith (s% "java_components") line then do
    let name ← Out.unwrap (screenOf line 16)
    let (p, rest) ← (ComponentPool.parseIter rest).mapErr (.componentPool name n)
    pure (update l name fun s => { s with components := some p }, rest)
  else if endsWith (s% "java_events") line then do
    let name ← Out.unwrap (screenOf line 12)
    let (p, rest) ← (EventPool.parseIter rest).mapErr (.eventPool name n)
    pure (update l name fun s => { s with events := some p }, rest)
  else if endsWith (s% "java_func") line then do
    let name ← Out.unwrap (screenOf line 10)
    let (p, rest) ← (MoreBlockPool.parseIter rest).mapErr (.moreBlockPool name n)
    pure (update l name fun s => { s with moreBlocks := some p }, rest)
  else do
    let h ← (BlockContainerHeader.parse line).mapErr (.blockContainerHeader n)
    let (bs, rest) ← (BlockContainer.parseIter rest).mapErr (.blockContainer h.screenName h.containerName n)
    pure (update l h.screenName fun s =>
      { s with blockContainers := s.blockContainers.insert h.containerName bs }, rest)

/-- The loop of `Logic::parse` — logic.rs:28-160. `fuel` is the number of lines plus one; every round consumes a
line. -/
def loop : Nat → List Str → Nat → LMap Str ScreenLogic → Out LogicParseError Logic
  | 0, _, _, l => .ok ⟨l⟩
  | _ + 1, [], _, l => .ok ⟨l⟩
  | fuel + 1, line :: rest, n, l =>
    if startsWith ['@'] line then do
      let (l, rest) ← step line rest n l
      loop fuel rest (n + 1) l
    else .ok ⟨l⟩

/-- `Logic::parse` — logic.rs:23-163. -/
def parse (s : Str) : Out LogicParseError Logic := loop ((lines s).length + 1) (lines s) 0 []

/-- The text of the block containers of a screen — logic.rs:216-234. -/
def blocksText (s : ScreenLogic) : Str :=
  s.blockContainers.foldl (fun acc e =>
    acc ++ ('@' :: (s.name ++ (s% ".java_" ++ (e.1 ++ ('\n' :: (e.2.reconstruct ++ ['\n']))))))) []

/-- The pushed containers of the six vectors, chained — logic.rs:166-246. Keys of `screens` are not used. -/
def chunks (l : Logic) : List Str :=
  let ss := l.screens.map (·.2)
  (ss.filterMap fun s => s.variables.map fun p => '@' :: (s.name ++ (s% ".java_var\n" ++ p.reconstruct))) ++
  (ss.filterMap fun s => s.listVariables.map fun p => '@' :: (s.name ++ (s% ".java_list\n" ++ p.reconstruct))) ++
  (ss.filterMap fun s => s.components.map fun p => '@' :: (s.name ++ (s% ".java_components\n" ++ p.reconstruct))) ++
  (ss.filterMap fun s => s.events.map fun p => '@' :: (s.name ++ (s% ".java_events\n" ++ p.reconstruct))) ++
  (ss.filterMap fun s => s.moreBlocks.map fun p => '@' :: (s.name ++ (s% ".java_func\n" ++ p.reconstruct))) ++
  ss.map blocksText

/-- `Logic::reconstruct` — logic.rs:165-251. -/
def reconstruct (l : Logic) : Str :=
  trim (l.chunks.foldl (fun acc i => acc ++ (s% "\n\n" ++ trim i)) [])

end Logic
end Swrs
