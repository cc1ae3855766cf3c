import Verif.Model.ApiBlock
import Verif.Model.ApiView
/-!
# The recursive functions of the API with a limit on the depth of their calls

A call stack is finite. The functions of `Verif.Model.ApiBlock` and `Verif.Model.ApiView` that call themselves are written here with the
number of calls of themselves that may be active at the same time; loops of the code are loops, and do not count. C100 proves what depth
they need.
-/
namespace Swrs.Api
section
variable [Floats]

/-! ### Blocks from a container -/

/-- The loop of `parse_blocks` — block.rs:78-90, with at most `rounds` rounds; `go` is `parse_block`. Every round removes a block, so
with more rounds than blocks the bound is not reached (`blocksLoop_rounds`). -/
def blocksLoop (go : UInt32 → BlockMap → Run (Block × BlockMap)) : Nat → UInt32 → BlockMap → Run (List Block × BlockMap)
  | 0, _, _ => .err none
  | rounds + 1, id, m => do
    let p ← Out.ofOption (some (.blockNotFound id)) (m.get id)
    let (b, m) ← go id m
    if p.nextBlock < 0 then pure ([b], m)
    else do
      let (bs, m) ← blocksLoop go rounds (pointerId p.nextBlock) m
      pure (b :: bs, m)

/-- `parse_blocks` — block.rs:72-93; `go` is `parse_block`. -/
def blocksWith (go : UInt32 → BlockMap → Run (Block × BlockMap)) (id : UInt32) (m : BlockMap) : Run (List Block × BlockMap) :=
  blocksLoop go (m.length + 1) id m

/-- `parse_block` — block.rs:35-70, with at most `depth` calls of it active at a time; `.err none` is the end of the stack. -/
def blockAt : Nat → UInt32 → BlockMap → Run (Block × BlockMap)
  | 0, _, _ => .err none
  | depth + 1, id, m => do
    let p ← Out.ofOption (some (.blockNotFound id)) (m.get id)
    let m := m.erase id
    let (s1, m) ← substack (blocksWith (blockAt depth)) (.substack1 id (pointerId p.subStack1)) p.subStack1 m
    let (s2, m) ← substack (blocksWith (blockAt depth)) (.substack2 id (pointerId p.subStack2)) p.subStack2 m
    let c ← lift .content (BlockContent.parse p.spec p.parameters)
    let (c, m) ← applyBlocks (blockAt depth) c m
    let t ← lift .invalidType (BlockType.parse p.type p.typeName)
    pure (⟨s1, s2, p.color, p.opCode, c, t⟩, m)

/-- `TryFrom<BlockContainer> for Blocks` — block.rs:16-101, with at most `depth` calls of `parse_block` active at a time. -/
def tryFromAt [MapPol] (depth : Nat) (c : BlockContainer) : Run (List Block) := do
  let m ← lift id (blockMap c.blocks [])
  match m with
  | [] => pure []
  | (id, _) :: _ => do
    let (bs, _) ← blocksWith (blockAt depth) id m
    pure bs

/-! ### Blocks to a container -/

/-- An argument block in `process_content` — block.rs:251-254; `go` is `convert_block`. -/
def refWith (go : Block → Nat → Bool → Out Unit (List ParserBlock × Nat)) (b : Block) (ctr : Nat) : Out Unit (Str × List ParserBlock × Nat) := do
  let (bs, ctr) ← go b ctr true
  pure (refText ctr, bs, ctr)

/-- One argument of `process_content` — block.rs:247-311; `go` is `convert_block`. -/
def argWith (go : Block → Nat → Bool → Out Unit (List ParserBlock × Nat)) (a : Argument Block) (ctr : Nat) :
    Out Unit (Str × List ParserBlock × Nat) :=
  match a with
  | .string _ (.value s) => .ok (s, [], ctr)
  | .string _ (.block b) => refWith go b ctr
  | .string _ (.placeholder _) => .panic
  | .string _ .empty => .ok ([], [], ctr)
  | .number _ (.value x) => .ok (Floats.show64 x, [], ctr)
  | .number _ (.block b) => refWith go b ctr
  | .number _ (.placeholder _) => .panic
  | .number _ .empty => .ok ([], [], ctr)
  | .boolean _ (.value x) => refWith go (boolBlock x) ctr
  | .boolean _ (.block b) => refWith go b ctr
  | .boolean _ (.placeholder _) => .panic
  | .boolean _ .empty => .ok ([], [], ctr)
  | .menu _ (.value s) => .ok (s, [], ctr)
  | .menu _ (.block b) => refWith go b ctr
  | .menu _ (.placeholder _) => .panic
  | .menu _ .empty => .ok ([], [], ctr)

/-- `process_content` — block.rs:239-315; `go` is `convert_block`. -/
def itemsWith (go : Block → Nat → Bool → Out Unit (List ParserBlock × Nat)) : List (SpecItem Block) → Nat →
    Out Unit (List Str × List ParserBlock × Nat)
  | [], ctr => .ok ([], [], ctr)
  | .text _ :: is, ctr => itemsWith go is ctr
  | .param a :: is, ctr => do
    let (p, bs, ctr) ← argWith go a ctr
    let (ps, bs', ctr) ← itemsWith go is ctr
    pure (p :: ps, bs ++ bs', ctr)

/-- The loop of `to_block_container` — block.rs:150-156; `go` is `convert_block`. -/
def containerWith (go : Block → Nat → Bool → Out Unit (List ParserBlock × Nat)) : List Block → Nat → Out Unit (List ParserBlock × Nat)
  | [], ctr => .ok ([], ctr)
  | b :: bs, ctr => do
    let (ps, ctr) ← go b ctr bs.isEmpty
    let (qs, ctr) ← containerWith go bs ctr
    pure (ps ++ qs, ctr)

/-- A substack of `convert_block` — block.rs:178-206; `go` is `convert_block`. -/
def stackWith (go : Block → Nat → Bool → Out Unit (List ParserBlock × Nat)) (s : Option (List Block)) (ctr : Nat) :
    Out Unit (List ParserBlock × Int32 × Nat) :=
  match s with
  | none => .ok ([], -1, ctr)
  | some bs => do
    let (ps, _) ← containerWith go bs ctr
    let l ← (lastId ps).mapErr fun _ => ()
    pure (ps, l, afterStack l ctr)

/-- `convert_block` — block.rs:164-236, with at most `depth` calls of it active at a time; `.err ()` is the end of the stack. -/
def convertAt : Nat → Block → Nat → Bool → Out Unit (List ParserBlock × Nat)
  | 0, _, _, _ => .err ()
  | depth + 1, b, ctr, last => do
    let (params, args, ctr') ← itemsWith (convertAt depth) b.content (ctr + 1)
    let (b1, p1, ctr') ← stackWith (convertAt depth) b.subStack1 ctr'
    let (b2, p2, ctr') ← stackWith (convertAt depth) b.subStack2 ctr'
    pure (emitted b (ctr + 1) (nextOf last ctr') params p1 p2 :: args ++ (b1 ++ b2), ctr')

/-- `Into<BlockContainer> for Blocks` — block.rs:322-326, with at most `depth` calls of `convert_block` active at a time. -/
def toContainerAt (depth : Nat) (bs : List Block) : Out Unit BlockContainer := do
  let (ps, _) ← containerWith (convertAt depth) bs 9
  pure ⟨ps⟩

/-! ### Views -/

/-- `.iter().find_map(…)` — view.rs:71-73; `go` is `find_id`, and `none` the end of the stack. -/
def findWith (go : View → Option (Option View)) : List View → Option (Option View)
  | [] => some none
  | v :: vs => do
    match ← go v with
    | some w => some (some w)
    | none => findWith go vs

/-- `View::find_id` — view.rs:66-75, with at most `depth` calls of it active at a time; `none` is the end of the stack. -/
def findAt : Nat → Str → View → Option (Option View)
  | 0, _, _ => none
  | depth + 1, id, v => if v.id = id then some (some v) else findWith (findAt depth id) v.children

/-- `.iter_mut().find_map(…)` — view.rs:82-84, 489, as the list after an update; `go` is `find_id_mut`. -/
def modifyWith (go : View → Option (Option View)) : List View → Option (Option (List View))
  | [] => some none
  | v :: vs => do
    match ← go v with
    | some w => some (some (w :: vs))
    | none => do
      let r ← modifyWith go vs
      some (r.map (v :: ·))

/-- `View::find_id_mut` — view.rs:77-86, as the tree after an update `f`, with at most `depth` calls of it active at a time; `none` is the
end of the stack. -/
def modifyAt (f : View → View) : Nat → Str → View → Option (Option View)
  | 0, _, _ => none
  | depth + 1, id, v =>
    if v.id = id then some (some (f v))
    else do
      let r ← modifyWith (modifyAt f depth id) v.children
      some (r.map fun children => { v with children })

/-- One round of the loop of `parse_raw_layout` — view.rs:480-497, with at most `depth` calls of `find_id_mut` active at a time. -/
def placeAt (depth : Nat) (result : List View) (r : AndroidView) : Option (Out ParseLayoutError (List View)) :=
  match r.parent with
  | none => some (.err (.noParentField r.id))
  | some p =>
    if p = s% "root" then some (.ok (result ++ [View.ofRaw r]))
    else do
      match ← modifyWith (modifyAt (View.push r) depth p) result with
      | none => some (.err (.nonexistentParent r.id p))
      | some result => some (.ok result)

/-- The loop of `parse_raw_layout` — view.rs:480-497, with at most `depth` calls of `find_id_mut` active at a time. -/
def placeAllAt (depth : Nat) : List AndroidView → List View → Option (Out ParseLayoutError (List View))
  | [], result => some (.ok result)
  | r :: rs, result => do
    match ← placeAt depth result r with
    | .ok result => placeAllAt depth rs result
    | .err e => some (.err e)
    | .panic => some .panic

/-- `parse_raw_layout` — view.rs:477-500, with at most `depth` calls of `find_id_mut` active at a time. -/
def parseRawLayoutAt (depth : Nat) (l : Layout) : Option (Out ParseLayoutError (List View)) := placeAllAt depth l.views []

/-- The flattened children of a view in `flatten_views` — view.rs:573-581; `go` is `flatten_views`. -/
def childrenWith (go : List View → Str → UInt8 → Option (List AndroidView)) (v : View) : Option (List AndroidView) :=
  if v.children.isEmpty then some [] else go v.children v.id v.typeId

/-- `children_result` of the loop of `flatten_views` — view.rs:573-581; `go` is `flatten_views`. -/
def belowWith (go : List View → Str → UInt8 → Option (List AndroidView)) : List View → Option (List AndroidView)
  | [] => some []
  | v :: vs => do
    let first ← childrenWith go v
    let rest ← belowWith go vs
    some (first ++ rest)

/-- `flatten_views` with a given parent — view.rs:516-587, with at most `depth` calls of it active at a time; `none` is the end of the
stack. -/
def flattenAt : Nat → List View → Str → UInt8 → Option (List AndroidView)
  | 0, _, _, _ => none
  | depth + 1, vs, parentId, parentType => do
    let below ← belowWith (flattenAt depth) vs
    some (vs.map (fun v => v.flat parentId parentType) ++ below)
end
end Swrs.Api
