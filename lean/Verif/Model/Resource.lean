import Verif.Json.Decode
/-!
# Model of `/repo/src/parser/resource.rs`

`serde_json::to_string` cannot fail on these types (strings, integers), so `reconstruct` has no error case here.
-/
namespace Swrs

/-- `struct ResourceItem` — resource.rs:132-145. -/
structure ResourceItem where
  fullName : Str
  name : Str
  type : UInt8
deriving DecidableEq, Repr

namespace ResourceItem
/-- JSON keys in declaration order — resource.rs:135-144. -/
def fields : List Str := [s% "resFullName", s% "resName", s% "resType"]

/-- derived `Serialize` — resource.rs:132-145. -/
def enc (i : ResourceItem) : Json :=
  .obj [(s% "resFullName", .str i.fullName), (s% "resName", .str i.name),
    (s% "resType", Json.encU8 i.type)]

/-- derived `Deserialize` — resource.rs:132-145. -/
def dec (j : Json) : Option ResourceItem := do
  let o ← Json.asStruct fields j
  let fullName ← Json.req o (s% "resFullName") Json.decStr
  let name ← Json.req o (s% "resName") Json.decStr
  let type ← Json.req o (s% "resType") Json.decU8
  pure { fullName, name, type }

/-- `ResourceItem::parse` — resource.rs:151-153. -/
def parse (s : Str) : Option ResourceItem := Json.fromStr dec s
/-- `ResourceItem::reconstruct` — resource.rs:155-157. -/
def reconstruct (i : ResourceItem) : Str := i.enc.print
end ResourceItem

/-- `struct Resource` — resource.rs:5-10. -/
structure Resource where
  images : List ResourceItem
  sounds : List ResourceItem
  fonts : List ResourceItem
deriving DecidableEq, Repr

/-- `enum ResourceSection` — resource.rs:12-18. -/
inductive ResourceSection where
  | images | sounds | fonts | none
deriving DecidableEq, Repr

/-- `enum ResourceParseError` — resource.rs:110-119. -/
inductive ResourceParseError where
  | item (sec : ResourceSection) (line : Nat)
deriving DecidableEq, Repr

namespace Resource

/-- Pushing an item to the current section — resource.rs:54-62. -/
def push (r : Resource) (sec : ResourceSection) (i : ResourceItem) : Resource :=
  match sec with
  | .images => { r with images := r.images ++ [i] }
  | .sounds => { r with sounds := r.sounds ++ [i] }
  | .fonts => { r with fonts := r.fonts ++ [i] }
  | .none => r

/-- The loop of `Resource::parse` over the remaining lines — resource.rs:31-66. -/
def loop : List Str → ResourceSection → Resource → Nat → Out ResourceParseError Resource
  | [], _, r, _ => .ok r
  | line :: rest, sec, r, n =>
    if line = s% "@images" then loop rest .images r (n + 1)
    else if line = s% "@sounds" then loop rest .sounds r (n + 1)
    else if line = s% "@fonts" then loop rest .fonts r (n + 1)
    else if sec ≠ .none then
      if line = [] then .ok r
      else match ResourceItem.parse line with
        | none => .err (.item sec n)
        | some i => loop rest sec (r.push sec i) (n + 1)
    else loop rest sec r (n + 1)

/-- `Resource::parse` — resource.rs:24-69. -/
def parse (s : Str) : Out ResourceParseError Resource :=
  loop (lines s) .none { images := [], sounds := [], fonts := [] } 0

/-- `try_fold(String::new(), |acc, i| format!("{}{}\n", acc, i.reconstruct()))` — resource.rs:75-84. -/
def section_ (items : List ResourceItem) : Str :=
  items.foldl (fun acc i => acc ++ (i.reconstruct ++ ['\n'])) []

/-- `Resource::reconstruct` — resource.rs:71-107. -/
def reconstruct (r : Resource) : Str :=
  s% "@images\n" ++ section_ r.images ++ s% "@sounds\n" ++ section_ r.sounds ++
    s% "@fonts\n" ++ trim (section_ r.fonts)

end Resource
end Swrs
