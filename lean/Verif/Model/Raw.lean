import Verif.Model.Crypto
import Verif.Model.Utf8
import Verif.Base.LinkedMap
/-!
# Model of `/repo/src/parser/mod.rs`: raw projects and resource files
-/
namespace Swrs

/-- A component of a Unix path (`std::path::Component`): the names are byte strings.
Paths of parser/mod.rs:303-420. -/
inductive PathComp where
  | root
  | cur
  | parent
  | normal (name : Bytes)
deriving DecidableEq, Repr

/-- `PathBuf` up to its equality, which compares the components. Simplification: Unix paths only (no prefixes).
Paths of parser/mod.rs:303-420. -/
abbrev PathBuf := List PathComp

namespace PathBuf
/-- `Path::parent`. Used in parser/mod.rs:386-387. -/
def parent (p : PathBuf) : Option PathBuf :=
  match p.getLast? with
  | none => none
  | some .root => none
  | some _ => some p.dropLast
/-- `Path::file_name`. Used in parser/mod.rs:332, 388, 391. -/
def fileName (p : PathBuf) : Option Bytes :=
  match p.getLast? with
  | some (.normal b) => some b
  | _ => none
end PathBuf

/-- `enum ResourceType` — mod.rs:350-351. -/
inductive ResourceType where | image | sound | font | customIcon
deriving DecidableEq, Repr

/-- `enum ResourceFileWrapper` — mod.rs:296-326. -/
inductive ResourceFileWrapper where
  | path (p : PathBuf)
  | stringId (id : Str) (resFullName : Str) (resType : ResourceType)
  | u32Id (id : UInt32) (resFullName : Str) (resType : ResourceType)
deriving DecidableEq, Repr

/-- `ResourceFileWrapper::get_full_name` — mod.rs:329-338. -/
def ResourceFileWrapper.getFullName {ε : Type} : ResourceFileWrapper → Out ε Str
  | .path p => do
    let b ← Out.unwrap p.fileName
    Out.unwrap (fromUtf8 b)
  | .stringId _ n _ => .ok n
  | .u32Id _ n _ => .ok n

/-- `ResourceFileWrapper::make_random_id` — mod.rs:341-347; `id` is what `rand::random()` returns. -/
abbrev ResourceFileWrapper.makeRandomId (id : UInt32) (resFullName : Str) (resType : ResourceType) : ResourceFileWrapper :=
  .u32Id id resFullName resType

/-- `std::collections::HashMap`: entries in some order, with distinct keys.
parser/mod.rs:359-361, 368-370 and api/mod.rs:499-501. -/
abbrev HMap (κ α : Type) := List (κ × α)

namespace HMap
variable {κ α : Type} [DecidableEq κ]
/-- `get`. Used in api/mod.rs:127-135. -/
def get (m : HMap κ α) (k : κ) : Option α := LMap.get m k
/-- `insert`. Used in parser/mod.rs:397-424 and api/mod.rs:511. -/
def insert (m : HMap κ α) (k : κ) (v : α) : HMap κ α := (k, v) :: LMap.erase m k
/-- Equality of maps (`PartialEq`): the same value for every key. Derived for parser/mod.rs:357-362. -/
def Same (m n : HMap κ α) : Prop := ∀ k, get m k = get n k
end HMap

/-- `struct ResourceFiles` — mod.rs:356-362. -/
structure ResourceFiles where
  customIcon : Option ResourceFileWrapper
  images : HMap Str ResourceFileWrapper
  sounds : HMap Str ResourceFileWrapper
  fonts : HMap Str ResourceFileWrapper
deriving DecidableEq, Repr

/-- `enum ResourceFilesParseError` — mod.rs:430-440. -/
inductive ResourceFilesParseError where
  | fileDoesntExist (p : PathBuf)
  | invalidPath (p : PathBuf)
deriving DecidableEq, Repr

namespace ResourceFiles

/-- `Default for ResourceFiles` — mod.rs:458-467. -/
def empty : ResourceFiles := ⟨none, [], [], []⟩

/-- Insertion under a kind — mod.rs:396-401, 407-412, 416-421. -/
def add (r : ResourceFiles) (t : ResourceType) (name : Str) (w : ResourceFileWrapper) : ResourceFiles :=
  match t with
  | .image => { r with images := HMap.insert r.images name w }
  | .sound => { r with sounds := HMap.insert r.sounds name w }
  | .font => { r with fonts := HMap.insert r.fonts name w }
  | .customIcon => { r with customIcon := some w }

/-- One file of the loop of `try_from` — mod.rs:373-424. `ex` tells which files exist. -/
def step (ex : PathBuf → Bool) (r : ResourceFiles) (w : ResourceFileWrapper) : Out ResourceFilesParseError ResourceFiles :=
  match w with
  | .path file =>
    if ex file = false then .err (.fileDoesntExist file)
    else do
      let p1 ← Out.ofOption (.invalidPath file) file.parent
      let p2 ← Out.ofOption (.invalidPath file) p1.parent
      let b ← Out.ofOption (.invalidPath file) p2.fileName
      let resType ← Out.ofOption (.invalidPath file) (fromUtf8 b)
      let b' ← Out.ofOption (.invalidPath file) file.fileName
      let name ← Out.ofOption (.invalidPath file) (fromUtf8 b')
      if resType = s% "images" then .ok (r.add .image name w)
      else if resType = s% "sounds" then .ok (r.add .sound name w)
      else if resType = s% "fonts" then .ok (r.add .font name w)
      else if resType = s% "icons" then .ok (r.add .customIcon name w)
      else .err (.invalidPath file)
  | .stringId _ name t => .ok (r.add t name w)
  | .u32Id _ name t => .ok (r.add t name w)

/-- The loop — mod.rs:373-424. -/
def loop (ex : PathBuf → Bool) (r : ResourceFiles) : List ResourceFileWrapper → Out ResourceFilesParseError ResourceFiles
  | [] => .ok r
  | w :: ws => do
    let r ← step ex r w
    loop ex r ws

/-- `TryFrom<Vec<ResourceFileWrapper>> for ResourceFiles` — mod.rs:364-428. -/
def tryFrom (ex : PathBuf → Bool) (ws : List ResourceFileWrapper) : Out ResourceFilesParseError ResourceFiles :=
  loop ex empty ws

/-- `Into<Vec<ResourceFileWrapper>> for ResourceFiles` — mod.rs:442-456: the icon, then the values of each map in an
arbitrary order. -/
def IntoVec (r : ResourceFiles) (ws : List ResourceFileWrapper) : Prop :=
  ∃ im so fo, im.Perm (r.images.map (·.2)) ∧ so.Perm (r.sounds.map (·.2)) ∧ fo.Perm (r.fonts.map (·.2)) ∧
    ws = r.customIcon.toList ++ (im ++ (so ++ fo))

/-- Equality of resource files (derived `PartialEq`, with equality of maps) — mod.rs:356. -/
structure Same (r s : ResourceFiles) : Prop where
  icon : r.customIcon = s.customIcon
  images : HMap.Same r.images s.images
  sounds : HMap.Same r.sounds s.sounds
  fonts : HMap.Same r.fonts s.fonts

end ResourceFiles

/-- `struct RawSketchwareProject` — mod.rs:36-49. -/
structure RawSketchwareProject where
  project : Str
  file : Str
  library : Str
  resource : Str
  view : Str
  logic : Str
  resourceFiles : Option (List ResourceFileWrapper)
deriving DecidableEq, Repr

namespace RawSketchwareProject

/-- `RawSketchwareProject::new` — mod.rs:53-63. -/
def new (project file library resource view logic : Str) (resourceFiles : List ResourceFileWrapper) : RawSketchwareProject :=
  { project, file, library, resource, view, logic, resourceFiles := some resourceFiles }

/-- `RawSketchwareProject::new_wo_res` — mod.rs:67-76. -/
def newWoRes (project file library resource view logic : Str) : RawSketchwareProject :=
  { project, file, library, resource, view, logic, resourceFiles := none }

/-- The macro `decrypt!` — mod.rs:87-92, 115-120. -/
def decryptText (data : Bytes) : Out CryptoError Str := do
  let b ← decryptSwEncrypted data
  Out.ofOption .fromUtf8 (fromUtf8 b)

/-- `RawSketchwareProject::from_encrypted` — mod.rs:78-103. -/
def fromEncrypted (project file library resource view logic : Bytes) (resourceFiles : List ResourceFileWrapper) :
    Out CryptoError RawSketchwareProject := do
  let project ← decryptText project
  let file ← decryptText file
  let library ← decryptText library
  let resource ← decryptText resource
  let view ← decryptText view
  let logic ← decryptText logic
  pure { project, file, library, resource, view, logic, resourceFiles := some resourceFiles }

/-- `RawSketchwareProject::from_encrypted_wo_res` — mod.rs:107-131. -/
def fromEncryptedWoRes (project file library resource view logic : Bytes) : Out CryptoError RawSketchwareProject := do
  let project ← decryptText project
  let file ← decryptText file
  let library ← decryptText library
  let resource ← decryptText resource
  let view ← decryptText view
  let logic ← decryptText logic
  pure { project, file, library, resource, view, logic, resourceFiles := none }

end RawSketchwareProject
end Swrs
