import Verif.Model.ApiSpec
import Verif.Model.Logic
/-!
# Model of `/repo/src/api/block.rs`: blocks and block containers
-/
namespace Swrs.Api

/-- `crate::parser::logic::Block as ParserBlock` — block.rs:7. -/
abbrev ParserBlock := Swrs.Block

/-- `struct Block` — block.rs:345-363; `struct Blocks` (block.rs:13) is a list of blocks. -/
inductive Block [Floats] where
  | mk (subStack1 subStack2 : Option (List Block)) (color : Color) (opCode : Str) (content : List (SpecItem Block))
    (blockType : BlockType)

namespace Block
variable [Floats]
/-- Field `sub_stack1` — block.rs:347. -/
def subStack1 : Block → Option (List Block) | ⟨s, _, _, _, _, _⟩ => s
/-- Field `sub_stack2` — block.rs:350. -/
def subStack2 : Block → Option (List Block) | ⟨_, s, _, _, _, _⟩ => s
/-- Field `color` — block.rs:353. -/
def color : Block → Color | ⟨_, _, c, _, _, _⟩ => c
/-- Field `op_code` — block.rs:356. -/
def opCode : Block → Str | ⟨_, _, _, o, _, _⟩ => o
/-- Field `content` — block.rs:359. -/
def content : Block → BlockContent Block | ⟨_, _, _, _, c, _⟩ => c
/-- Field `block_type` — block.rs:362. -/
def blockType : Block → BlockType | ⟨_, _, _, _, _, t⟩ => t

/-- `Block::new` — block.rs:367-381. -/
def new (category : BlockCategory) (opCode : Str) (content : BlockContent Block) (blockType : BlockType) : Block :=
  ⟨none, none, category.color, opCode, content, blockType⟩

/-- `Block::new_1substack` — block.rs:385-399. -/
def new1 (category : BlockCategory) (opCode : Str) (content : BlockContent Block) (subStack1 : List Block) : Block :=
  ⟨some subStack1, none, category.color, opCode, content, .control .oneNest⟩

/-- `Block::new_2substack` — block.rs:403-418. -/
def new2 (category : BlockCategory) (opCode : Str) (content : BlockContent Block) (subStack1 subStack2 : List Block) : Block :=
  ⟨some subStack1, some subStack2, category.color, opCode, content, .control .twoNest⟩

/-- `Block::category` — block.rs:421-423. -/
def category (b : Block) : Out Color BlockCategory := BlockCategory.ofColor b.color
end Block

/-- `enum BlockConversionError` — block.rs:103-137, without the `ParseIntError` of a malformed id. -/
inductive BlockConversionError where
  | malformedBlockId (id : Str)
  | blockNotFound (id : UInt32)
  | substack1 (id pointer : UInt32) (source : BlockConversionError)
  | substack2 (id pointer : UInt32) (source : BlockConversionError)
  | invalidType (source : InvalidBlockType)
  | content (source : BlockContentParseError)
deriving DecidableEq, Repr

/-- The blocks that have not been converted yet — block.rs:20-33. -/
abbrev BlockMap := LMap UInt32 ParserBlock

/-- The map of the blocks of a container by id — block.rs:20-33. -/
def blockMap [MapPol] : List ParserBlock → BlockMap → Out BlockConversionError BlockMap
  | [], acc => .ok acc
  | b :: bs, acc => do
    let id ← Out.ofOption (.malformedBlockId b.id) (parseU32 b.id)
    blockMap bs (LMap.insert acc id b)

/-- A conversion in progress. The functions below have a bound on the depth of their calls; `.err none` means that the
bound was reached. The `Result`s of api/block.rs:19-140. -/
abbrev Run (α : Type) := Out (Option BlockConversionError) α

/-- A step that is not recursive. The `map_err`s of api/block.rs:19-140 on calls that are not recursive. -/
def lift {ε α : Type} (f : ε → BlockConversionError) (x : Out ε α) : Run α := x.mapErr fun e => some (f e)

/-- `map_err` of a recursive call. api/block.rs:19-140. -/
def wrap {α : Type} (f : BlockConversionError → BlockConversionError) (x : Run α) : Run α := x.mapErr fun e => e.map f

/-- `as u32` of a pointer that is not negative — block.rs:40, 48, 88. -/
def pointerId (p : Int32) : UInt32 := p.toUInt32

section Conversion
variable [Floats]

/-- `get_block` and its error in `apply_blocks` — block.rs:840-846 and the like; the error of the block is dropped
(`.ok()`, block.rs:64). -/
def getBlock (get : UInt32 → BlockMap → Run (Block × BlockMap)) (id : UInt32) (m : BlockMap) : Run (Block × BlockMap) :=
  wrap (fun _ => .content (.blockNotFound id)) (get id m)

/-- The value of one argument in `apply_blocks` — block.rs:839-848, 853-862, 884-893. -/
def applyValue {α : Type} (get : UInt32 → BlockMap → Run (Block × BlockMap)) (v : ArgValue Block α) (m : BlockMap) :
    Run (ArgValue Block α × BlockMap) :=
  match v with
  | .placeholder id => do
    let (b, m) ← getBlock get id m
    pure (.block b, m)
  | v => .ok (v, m)

/-- The value of a boolean argument in `apply_blocks` — block.rs:869-880. -/
def applyBool (get : UInt32 → BlockMap → Run (Block × BlockMap)) (v : ArgValue Block Bool) (m : BlockMap) :
    Run (ArgValue Block Bool × BlockMap) :=
  match v with
  | .placeholder id => do
    let (b, m) ← getBlock get id m
    if b.opCode = s% "true" then pure (.value true, m)
    else if b.opCode = s% "false" then pure (.value false, m)
    else pure (.block b, m)
  | v => .ok (v, m)

/-- One item of `apply_blocks` — block.rs:836-894. -/
def applyItem (get : UInt32 → BlockMap → Run (Block × BlockMap)) (i : SpecItem Block) (m : BlockMap) :
    Run (SpecItem Block × BlockMap) :=
  match i with
  | .text s => .ok (.text s, m)
  | .param (.string n v) => do
    let (v, m) ← applyValue get v m
    pure (.param (.string n v), m)
  | .param (.number n v) => do
    let (v, m) ← applyValue get v m
    pure (.param (.number n v), m)
  | .param (.boolean n v) => do
    let (v, m) ← applyBool get v m
    pure (.param (.boolean n v), m)
  | .param (.menu n v) => do
    let (v, m) ← applyValue get v m
    pure (.param (.menu n v), m)

/-- `BlockContent::apply_blocks` — block.rs:832-897, with the map used by `get_block` passed along. -/
def applyBlocks (get : UInt32 → BlockMap → Run (Block × BlockMap)) : BlockContent Block → BlockMap →
    Run (BlockContent Block × BlockMap)
  | [], m => .ok ([], m)
  | i :: is, m => do
    let (i, m) ← applyItem get i m
    let (is, m) ← applyBlocks get is m
    pure (i :: is, m)

/-- A substack of `parse_block` — block.rs:39-54: a negative pointer is no substack. -/
def substack (go : UInt32 → BlockMap → Run (List Block × BlockMap)) (err : BlockConversionError → BlockConversionError)
    (p : Int32) (m : BlockMap) : Run (Option (List Block) × BlockMap) :=
  if p < 0 then .ok (none, m)
  else do
    let (bs, m) ← wrap err (go (pointerId p) m)
    pure (some bs, m)

mutual
/-- `parse_block` — block.rs:35-70, with calls at most `fuel` deep. -/
def parseBlock (fuel : Nat) (id : UInt32) (m : BlockMap) : Run (Block × BlockMap) :=
  match fuel with
  | 0 => .err none
  | n + 1 => do
    let p ← Out.ofOption (some (.blockNotFound id)) (m.get id)
    let m := m.erase id
    let (s1, m) ← substack (parseBlocks n) (.substack1 id (pointerId p.subStack1)) p.subStack1 m
    let (s2, m) ← substack (parseBlocks n) (.substack2 id (pointerId p.subStack2)) p.subStack2 m
    let c ← lift .content (BlockContent.parse p.spec p.parameters)
    let (c, m) ← applyBlocks (parseBlock n) c m
    let t ← lift .invalidType (BlockType.parse p.type p.typeName)
    pure (⟨s1, s2, p.color, p.opCode, c, t⟩, m)

/-- `parse_blocks` — block.rs:72-93, with calls at most `fuel` deep. -/
def parseBlocks (fuel : Nat) (id : UInt32) (m : BlockMap) : Run (List Block × BlockMap) :=
  match fuel with
  | 0 => .err none
  | n + 1 => do
    let p ← Out.ofOption (some (.blockNotFound id)) (m.get id)
    let (b, m) ← parseBlock n id m
    if p.nextBlock < 0 then pure ([b], m)
    else do
      let (bs, m) ← parseBlocks n (pointerId p.nextBlock) m
      pure (b :: bs, m)
end

/-- `TryFrom<BlockContainer> for Blocks` — block.rs:16-101, with calls at most `fuel` deep. -/
def tryFromFuel [MapPol] (fuel : Nat) (c : BlockContainer) : Run (List Block) := do
  let m ← lift id (blockMap c.blocks [])
  match m with
  | [] => pure []
  | (id, _) :: _ => do
    let (bs, _) ← parseBlocks fuel id m
    pure bs

/-- `TryFrom<BlockContainer> for Blocks` — block.rs:16-101: with a bound that is never reached (`c43_terminates`). -/
def tryFrom [MapPol] (c : BlockContainer) : Out BlockConversionError (List Block) :=
  match tryFromFuel (2 * c.blocks.length + 2) c with
  | .ok bs => .ok bs
  | .err (some e) => .err e
  | .err none => .panic
  | .panic => .panic

/-! ## Blocks to a container -/

/-- `str::parse::<i32>().unwrap()` of the id of the last block, or −1 — block.rs:181-184. -/
def lastId (ps : List ParserBlock) : Out Empty Int32 :=
  match ps.getLast? with
  | none => .ok (-1)
  | some b => do
    let n ← Out.unwrap (parseSigned (-2147483648) 2147483647 b.id)
    pure (Int32.ofInt n)

/-- The counter after a substack — block.rs:188: the id of its last block unless there is none. -/
def afterStack (last : Int32) (ctr : Nat) : Nat := if last ≠ -1 then last.toUInt32.toNat else ctr

/-- The literal block of a boolean — block.rs:266-271. -/
def boolBlock (v : Bool) : Block :=
  .new .operator (if v then s% "true" else s% "false") [.text (if v then s% "true" else s% "false")] (.argument .boolean)

/-- The block pushed by `convert_block` — block.rs:212-227. -/
def emitted (b : Block) (id : Nat) (next : Int32) (params : List Str) (s1 s2 : Int32) : ParserBlock where
  color := b.color
  id := natStr 10 id
  nextBlock := next
  opCode := b.opCode
  parameters := params
  spec := BlockContent.text (BlockContent.takeArgs b.content).1
  subStack1 := s1
  subStack2 := s2
  type := b.blockType.text
  typeName := b.blockType.typeName.getD []

/-- The `next_block` of `convert_block` — block.rs:215. -/
def nextOf (last : Bool) (ctr : Nat) : Int32 := if last then -1 else Int32.ofNat (ctr + 1)

/-- The reference to an argument block: `format!("@{}", id_counter)` — block.rs:247. -/
def refText (ctr : Nat) : Str := '@' :: natStr 10 ctr

/-- The literal block of a boolean as it is emitted by `convert_block` — block.rs:266-274: it has no arguments and no
substacks, and is the last block. -/
def emitBool (v : Bool) (ctr : Nat) : List ParserBlock := [emitted (boolBlock v) (ctr + 1) (-1) [] (-1) (-1)]

mutual
/-- `convert_block` — block.rs:164-236. Returns the blocks pushed and the counter. The counter is a natural number here; in
the code it is a `u32` (`convertBlock32`, C99). -/
def convertBlock (b : Block) (ctr : Nat) (last : Bool) : Out Empty (List ParserBlock × Nat) :=
  match b with
  | ⟨s1, s2, color, opCode, content, blockType⟩ => do
    let id := ctr + 1
    let (params, args, ctr) ← convertItems content id
    let (b1, p1, ctr) ← convertStack s1 ctr
    let (b2, p2, ctr) ← convertStack s2 ctr
    pure (emitted ⟨s1, s2, color, opCode, content, blockType⟩ id (nextOf last ctr) params p1 p2 :: args ++ (b1 ++ b2), ctr)

/-- A substack of `convert_block` — block.rs:178-206: its blocks, the pointer and the counter. -/
def convertStack (s : Option (List Block)) (ctr : Nat) : Out Empty (List ParserBlock × Int32 × Nat) :=
  match s with
  | none => .ok ([], -1, ctr)
  | some bs => do
    let (ps, _) ← convertBlocks bs ctr
    let l ← lastId ps
    pure (ps, l, afterStack l ctr)

/-- The loop of `to_block_container` — block.rs:150-156, from the counter before the first id. -/
def convertBlocks (bs : List Block) (ctr : Nat) : Out Empty (List ParserBlock × Nat) :=
  match bs with
  | [] => .ok ([], ctr)
  | b :: bs => do
    let (ps, ctr) ← convertBlock b ctr bs.isEmpty
    let (qs, ctr) ← convertBlocks bs ctr
    pure (ps ++ qs, ctr)

/-- `process_content` — block.rs:239-315: the parameters, the blocks of the arguments and the counter. Taking the
arguments and converting them is one pass here. -/
def convertItems (is : List (SpecItem Block)) (ctr : Nat) : Out Empty (List Str × List ParserBlock × Nat) :=
  match is with
  | [] => .ok ([], [], ctr)
  | i :: is => do
    let (ps, bs, ctr) ← convertItem i ctr
    let (ps', bs', ctr) ← convertItems is ctr
    pure (ps ++ ps', bs ++ bs', ctr)

/-- One item of `process_content` — block.rs:247-311. -/
def convertItem (i : SpecItem Block) (ctr : Nat) : Out Empty (List Str × List ParserBlock × Nat) :=
  match i with
  | .text _ => .ok ([], [], ctr)
  | .param a => do
    let (p, bs, ctr) ← convertArg a ctr
    pure ([p], bs, ctr)

/-- One argument of `process_content` — block.rs:247-311. -/
def convertArg (a : Argument Block) (ctr : Nat) : Out Empty (Str × List ParserBlock × Nat) :=
  match a with
  | .string _ v => convertStr v ctr
  | .number _ v => convertNum v ctr
  | .boolean _ v => convertBool v ctr
  | .menu _ v => convertStr v ctr

/-- A string or menu argument — block.rs:248-259, 296-308. -/
def convertStr (v : ArgValue Block Str) (ctr : Nat) : Out Empty (Str × List ParserBlock × Nat) :=
  match v with
  | .value s => .ok (s, [], ctr)
  | .block b => do
    let (bs, ctr) ← convertBlock b ctr true
    pure (refText ctr, bs, ctr)
  | .placeholder _ => .panic
  | .empty => .ok ([], [], ctr)

/-- A number argument — block.rs:260-272. -/
def convertNum (v : ArgValue Block Floats.F64) (ctr : Nat) : Out Empty (Str × List ParserBlock × Nat) :=
  match v with
  | .value x => .ok (Floats.show64 x, [], ctr)
  | .block b => do
    let (bs, ctr) ← convertBlock b ctr true
    pure (refText ctr, bs, ctr)
  | .placeholder _ => .panic
  | .empty => .ok ([], [], ctr)

/-- A boolean argument — block.rs:273-295. -/
def convertBool (v : ArgValue Block Bool) (ctr : Nat) : Out Empty (Str × List ParserBlock × Nat) :=
  match v with
  | .value x => .ok (refText (ctr + 1), emitBool x ctr, ctr + 1)
  | .block b => do
    let (bs, ctr) ← convertBlock b ctr true
    pure (refText ctr, bs, ctr)
  | .placeholder _ => .panic
  | .empty => .ok ([], [], ctr)
end

/-- `Blocks::new` and `Default for Blocks` — block.rs:143-145, 328-332. -/
def noBlocks : List Block := []

/-- `Into<BlockContainer> for Blocks` — block.rs:322-326: ids start at 10 (`to_block_container`, block.rs:147-319). -/
def toContainer (bs : List Block) : Out Empty BlockContainer := do
  let (ps, _) ← convertBlocks bs 9
  pure ⟨ps⟩

/-- The literal block of a boolean is what `convert_block` makes of it. -/
theorem emitBool_eq (v : Bool) (ctr : Nat) : convertBlock (boolBlock v) ctr true = .ok (emitBool v ctr, ctr + 1) := by
  cases v <;> rfl

end Conversion
end Swrs.Api
