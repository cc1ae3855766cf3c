import Verif.Model.ViewCount
import Verif.Model.File
import Verif.Model.Resource
import Verif.Model.Library
import Verif.Model.Logic
import Verif.Model.ApiBlock
/-!
# The counters with their width

The other files of the model count lines and block ids with natural numbers. Here the functions with a counter are written again with
the `u32` of the code. C99 proves that they do the same on all inputs of a possible size. A counter of type `usize` (`enumerate`) is a
natural number also here; it becomes a `u32` where the code has `as u32`.
-/
namespace Swrs

/-- How the program is compiled: overflow of `+` and `-` panics (debug) or wraps around (release).
util.rs:27, file.rs:60, library.rs:57, resource.rs:65, logic.rs:159, api/block.rs:149, 172, 183, 197, 216. -/
class Overflow where
  checked : Bool

/-- `n + 1` of `u32` — util.rs:27, file.rs:60, library.rs:57, resource.rs:65, logic.rs:159, api/block.rs:172, 183, 197, 216. -/
def incr [Overflow] {ε : Type} (n : UInt32) : Out ε UInt32 :=
  if Overflow.checked && n == 4294967295 then .panic else .ok (n + 1)

/-- `n - 1` of `u32` — api/block.rs:149. -/
def decr [Overflow] {ε : Type} (n : UInt32) : Out ε UInt32 :=
  if Overflow.checked && n == 0 then .panic else .ok (n - 1)

/-- `n as u32` of a `usize` — view.rs:189, logic.rs:368, 526, 641, 782, 907, 1038. -/
def asU32 (n : Nat) : UInt32 := UInt32.ofNat n

namespace File
/-- The loop of `File::parse` with its counter — file.rs:28-61. -/
def loop32 [Overflow] : List Str → FileSection → File → UInt32 → Out FileParseError File
  | [], _, f, _ => .ok f
  | line :: rest, sec, f, n =>
    if line = s% "@activity" then do loop32 rest .activity f (← incr n)
    else if line = s% "@customview" then do loop32 rest .customView f (← incr n)
    else if sec ≠ .none then
      if line = [] then .ok f
      else match FileItem.parse line with
        | none => .err (.item n.toNat line)
        | some i => do loop32 rest sec (f.push sec i) (← incr n)
    else do loop32 rest sec f (← incr n)

/-- `File::parse` — file.rs:16-64. -/
def parse32 [Overflow] (s : Str) : Out FileParseError File :=
  loop32 (lines s) .none { activities := [], customViews := [] } 0
end File

namespace Resource
/-- The loop of `Resource::parse` with its counter — resource.rs:29-66. -/
def loop32 [Overflow] : List Str → ResourceSection → Resource → UInt32 → Out ResourceParseError Resource
  | [], _, r, _ => .ok r
  | line :: rest, sec, r, n =>
    if line = s% "@images" then do loop32 rest .images r (← incr n)
    else if line = s% "@sounds" then do loop32 rest .sounds r (← incr n)
    else if line = s% "@fonts" then do loop32 rest .fonts r (← incr n)
    else if sec ≠ .none then
      if line = [] then .ok r
      else match ResourceItem.parse line with
        | none => .err (.item sec n.toNat)
        | some i => do loop32 rest sec (r.push sec i) (← incr n)
    else do loop32 rest sec r (← incr n)

/-- `Resource::parse` — resource.rs:24-69. -/
def parse32 [Overflow] (s : Str) : Out ResourceParseError Resource :=
  loop32 (lines s) .none { images := [], sounds := [], fonts := [] } 0
end Resource

namespace Library
/-- The loop of `Library::parse` with its counter — library.rs:25-58. -/
def loop32 [Overflow] : List Str → Acc → UInt32 → Out LibraryParseError Acc
  | [], a, _ => .ok a
  | line :: rest, a, n =>
    if isHeader line then
      match rest with
      | [] => .err (.eofAfterHeader line)
      | item :: rest =>
        match LibraryItem.parse item with
        | none => .err (.item line n.toNat)
        | some i => do loop32 rest (a.set line i) (← incr n)
    else do loop32 rest a (← incr n)

/-- `Library::parse` — library.rs:17-66. -/
def parse32 [Overflow] (s : Str) : Out LibraryParseError Library := do
  let a ← loop32 (lines s) {} 0
  let firebaseDb ← Out.ofOption (.missing (s% "@firebaseDB")) a.firebaseDb
  let compat ← Out.ofOption (.missing (s% "@compat")) a.compat
  let admob ← Out.ofOption (.missing (s% "@admob")) a.admob
  let googleMap ← Out.ofOption (.missing (s% "@googleMap")) a.googleMap
  pure { firebaseDb, compat, admob, googleMap }
end Library

/-! ### The view file -/

/-- `struct CountingIterator<I>` — util.rs:4-7. -/
structure CountingIterator32 (α : Type) where
  iter : List α
  count : UInt32

namespace CountingIterator32
/-- `CountingIterator::new` — util.rs:11-16. -/
def new {α : Type} (l : List α) : CountingIterator32 α := ⟨l, 0⟩
/-- `Iterator::next` — util.rs:26-29. -/
def next [Overflow] {α ε : Type} (it : CountingIterator32 α) : Out ε (Option α × CountingIterator32 α) := do
  let count ← incr it.count
  pure (it.iter.head?, ⟨it.iter.tail, count⟩)
end CountingIterator32

namespace Layout
variable [Floats]
/-- `Layout::parse_iter` on a counting iterator — view.rs:174-196. `fuel` is more than the number of lines left. -/
def loop32 [Overflow] : Nat → CountingIterator32 Str → List AndroidView → Nat → Out LayoutParseError (Layout × CountingIterator32 Str)
  | 0, it, acc, _ => .ok (⟨acc⟩, it)
  | fuel + 1, it, acc, n => do
    match ← it.next with
    | (none, it) => .ok (⟨acc⟩, it)
    | (some line, it) =>
      if line = [] then .ok (⟨acc⟩, it)
      else match AndroidView.parse line with
        | some v => loop32 fuel it (acc ++ [v]) (n + 1)
        | none => .err { viewBefore := acc.getLast?, content := line, line := (asU32 n).toNat }

/-- `Layout::parse_iter(&mut lines)` — view.rs:174-196. -/
def parseIter32 [Overflow] (it : CountingIterator32 Str) : Out LayoutParseError (Layout × CountingIterator32 Str) :=
  loop32 (it.iter.length + 1) it [] 0
end Layout

namespace View
variable [Floats] [MapPol]
/-- The loop of `View::parse` — view.rs:27-65. `fuel` is the number of lines plus one. -/
def loop32 [Overflow] : Nat → CountingIterator32 Str → LMap Str Layout → LMap Str AndroidView → Out ViewParseError View
  | 0, _, layouts, fabs => .ok ⟨layouts, fabs⟩
  | fuel + 1, it, layouts, fabs => do
    match ← it.next with
    | (none, _) => .ok ⟨layouts, fabs⟩
    | (some line, it) =>
      if startsWith ['@'] line then
        match splitOnce '.' (line.drop 1) with
        | none => .err (.invalidHeader it.count.toNat line)
        | some (screen, container) =>
          if container = s% "xml" then do
            let (l, it) ← (Layout.parseIter32 it).mapErr (.layout screen container)
            loop32 fuel it (layouts.insert screen l) fabs
          else if container = s% "xml_fab" then do
            match ← it.next with
            | (none, it) => .err (.eofAfterFabHeader screen it.count.toNat)
            | (some l, it) =>
              match AndroidView.parse l with
              | some v => loop32 fuel it layouts (fabs.insert screen v)
              | none => .err (.fab screen it.count.toNat line)
          else loop32 fuel it layouts fabs
      else .ok ⟨layouts, fabs⟩

/-- `View::parse` — view.rs:21-68. -/
def parse32 [Overflow] (s : Str) : Out ViewParseError View := loop32 ((lines s).length + 1) (.new (lines s)) [] []
end View

/-! ### The logic file -/

/-- The error of a pool with `count as u32` — logic.rs:367-371, 525-529, 640-644, 781-785, 905-909. -/
def poolError32 {ε : Type} (n : Nat) (line : Str) (e : ε) : PoolError ε := ⟨(asU32 n).toNat, line, e⟩

namespace Logic
variable [Floats] [MapPol]
/-- One round of the loop of `Logic::parse` on a header line — logic.rs:38-157, and the pools with their counts — logic.rs:359-377,
511-535, 628-649, 767-798, 891-914, 1029-1044. -/
def step32 (line : Str) (rest : List Str) (n : UInt32) (l : LMap Str ScreenLogic) :
    Out LogicParseError (LMap Str ScreenLogic × List Str) :=
  if endsWith (s% "java_var") line then do
    let name ← Out.unwrap (screenOf line 9)
    let (vs, rest) ← (readPool Variable.parse poolError32 rest 0 []).mapErr (.variablePool name n.toNat)
    pure (update l name fun s => { s with variables := some ⟨LMap.collect (vs.map fun v => (v.name, v))⟩ }, rest)
  else if endsWith (s% "java_list") line then do
    let name ← Out.unwrap (screenOf line 10)
    let (vs, rest) ← (readPool ListVariable.parse poolError32 rest 0 []).mapErr (.listVariablePool name n.toNat)
    pure (update l name fun s => { s with listVariables := some ⟨LMap.collect (vs.map fun v => (v.name, v))⟩ }, rest)
  else if endsWith (s% "java_components") line then do
    let name ← Out.unwrap (screenOf line 16)
    let (cs, rest) ← (readPool (lineParser Component.parse) poolError32 rest 0 []).mapErr (.componentPool name n.toNat)
    pure (update l name fun s => { s with components := some ⟨cs⟩ }, rest)
  else if endsWith (s% "java_events") line then do
    let name ← Out.unwrap (screenOf line 12)
    let (es, rest) ← (readPool (lineParser Event.parse) poolError32 rest 0 []).mapErr (.eventPool name n.toNat)
    pure (update l name fun s => { s with events := some ⟨es⟩ }, rest)
  else if endsWith (s% "java_func") line then do
    let name ← Out.unwrap (screenOf line 10)
    let (ms, rest) ← (readPool MoreBlock.parse poolError32 rest 0 []).mapErr (.moreBlockPool name n.toNat)
    pure (update l name fun s => { s with moreBlocks := some ⟨LMap.collect (ms.map fun m => (m.id, m))⟩ }, rest)
  else do
    let h ← (BlockContainerHeader.parse line).mapErr (.blockContainerHeader n.toNat)
    let (bs, rest) ← (readPool (lineParser Block.parse) (fun n _ _ => (asU32 n).toNat) rest 0 []).mapErr
      (.blockContainer h.screenName h.containerName n.toNat)
    pure (update l h.screenName fun s =>
      { s with blockContainers := s.blockContainers.insert h.containerName ⟨bs⟩ }, rest)

/-- The loop of `Logic::parse` with its counter — logic.rs:27-160. `fuel` is the number of lines plus one. -/
def loop32 [Overflow] : Nat → List Str → UInt32 → LMap Str ScreenLogic → Out LogicParseError Logic
  | 0, _, _, l => .ok ⟨l⟩
  | _ + 1, [], _, l => .ok ⟨l⟩
  | fuel + 1, line :: rest, n, l =>
    if startsWith ['@'] line then do
      let (l, rest) ← step32 line rest n l
      loop32 fuel rest (← incr n) l
    else .ok ⟨l⟩

/-- `Logic::parse` — logic.rs:23-163. -/
def parse32 [Overflow] (s : Str) : Out LogicParseError Logic := loop32 ((lines s).length + 1) (lines s) 0 []
end Logic

/-! ### Block ids -/

namespace Api
section
variable [Floats] [Overflow]

mutual
/-- `convert_block` with its counter — block.rs:164-236. -/
def convertBlock32 (b : Block) (ctr : UInt32) (last : Bool) : Out Empty (List ParserBlock × UInt32) :=
  match b with
  | ⟨s1, s2, color, opCode, content, blockType⟩ => do
    let id ← incr ctr
    let (params, args, ctr) ← convertItems32 content id
    let (b1, p1, ctr) ← convertStack32 s1 ctr
    let (b2, p2, ctr) ← convertStack32 s2 ctr
    let next ← if last then pure (-1) else do pure (← incr ctr).toInt32
    pure (emitted ⟨s1, s2, color, opCode, content, blockType⟩ id.toNat next params p1 p2 :: args ++ (b1 ++ b2), ctr)

/-- A substack of `convert_block` — block.rs:181-207, with `starts_with - 1` of block.rs:149. -/
def convertStack32 (s : Option (List Block)) (ctr : UInt32) : Out Empty (List ParserBlock × Int32 × UInt32) :=
  match s with
  | none => .ok ([], -1, ctr)
  | some bs => do
    let start ← incr ctr
    let before ← decr start
    let (ps, _) ← convertBlocks32 bs before
    let l ← lastId ps
    pure (ps, l, if l ≠ -1 then l.toUInt32 else ctr)

/-- The loop of `to_block_container` — block.rs:150-156. -/
def convertBlocks32 (bs : List Block) (ctr : UInt32) : Out Empty (List ParserBlock × UInt32) :=
  match bs with
  | [] => .ok ([], ctr)
  | b :: bs => do
    let (ps, ctr) ← convertBlock32 b ctr bs.isEmpty
    let (qs, ctr) ← convertBlocks32 bs ctr
    pure (ps ++ qs, ctr)

/-- `process_content` — block.rs:239-315. -/
def convertItems32 (is : List (SpecItem Block)) (ctr : UInt32) : Out Empty (List Str × List ParserBlock × UInt32) :=
  match is with
  | [] => .ok ([], [], ctr)
  | i :: is => do
    let (ps, bs, ctr) ← convertItem32 i ctr
    let (ps', bs', ctr) ← convertItems32 is ctr
    pure (ps ++ ps', bs ++ bs', ctr)

/-- One item of `process_content` — block.rs:247-311. -/
def convertItem32 (i : SpecItem Block) (ctr : UInt32) : Out Empty (List Str × List ParserBlock × UInt32) :=
  match i with
  | .text _ => .ok ([], [], ctr)
  | .param a => do
    let (p, bs, ctr) ← convertArg32 a ctr
    pure ([p], bs, ctr)

/-- One argument of `process_content` — block.rs:247-311. -/
def convertArg32 (a : Argument Block) (ctr : UInt32) : Out Empty (Str × List ParserBlock × UInt32) :=
  match a with
  | .string _ v => convertStr32 v ctr
  | .number _ v => convertNum32 v ctr
  | .boolean _ v => convertBool32 v ctr
  | .menu _ v => convertStr32 v ctr

/-- A string or menu argument — block.rs:248-259, 296-308. -/
def convertStr32 (v : ArgValue Block Str) (ctr : UInt32) : Out Empty (Str × List ParserBlock × UInt32) :=
  match v with
  | .value s => .ok (s, [], ctr)
  | .block b => do
    let (bs, ctr) ← convertBlock32 b ctr true
    pure (refText ctr.toNat, bs, ctr)
  | .placeholder _ => .panic
  | .empty => .ok ([], [], ctr)

/-- A number argument — block.rs:260-272. -/
def convertNum32 (v : ArgValue Block Floats.F64) (ctr : UInt32) : Out Empty (Str × List ParserBlock × UInt32) :=
  match v with
  | .value x => .ok (Floats.show64 x, [], ctr)
  | .block b => do
    let (bs, ctr) ← convertBlock32 b ctr true
    pure (refText ctr.toNat, bs, ctr)
  | .placeholder _ => .panic
  | .empty => .ok ([], [], ctr)

/-- A boolean argument — block.rs:273-295. The literal block has no arguments and no substacks. -/
def convertBool32 (v : ArgValue Block Bool) (ctr : UInt32) : Out Empty (Str × List ParserBlock × UInt32) :=
  match v with
  | .value x => do
    let id ← incr ctr
    pure (refText id.toNat, [emitted (boolBlock x) id.toNat (-1) [] (-1) (-1)], id)
  | .block b => do
    let (bs, ctr) ← convertBlock32 b ctr true
    pure (refText ctr.toNat, bs, ctr)
  | .placeholder _ => .panic
  | .empty => .ok ([], [], ctr)
end

/-- `Into<BlockContainer> for Blocks` — block.rs:322-326, with `starts_with - 1` of block.rs:149. -/
def toContainer32 (bs : List Block) : Out Empty BlockContainer := do
  let before ← decr 10
  let (ps, _) ← convertBlocks32 bs before
  pure ⟨ps⟩
end
end Api
end Swrs
