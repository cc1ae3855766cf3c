import Verif.Json.Decode
/-!
# Model of `/repo/src/parser/library.rs`

`serde_json::to_string` cannot fail on these types, so `reconstruct` has no error case here.
-/
namespace Swrs

/-- `struct AdUnit` — library.rs:151-157. -/
structure AdUnit where
  id : Str
  name : Str
deriving DecidableEq, Repr

namespace AdUnit
/-- JSON keys — library.rs:155-156. -/
def fields : List Str := [s% "id", s% "name"]
/-- derived `Serialize` — library.rs:153-157. -/
def enc (u : AdUnit) : Json := .obj [(s% "id", .str u.id), (s% "name", .str u.name)]
/-- derived `Deserialize` — library.rs:153-157. -/
def dec (j : Json) : Option AdUnit := do
  let o ← Json.asStruct fields j
  let id ← Json.req o (s% "id") Json.decStr
  let name ← Json.req o (s% "name") Json.decStr
  pure { id, name }
end AdUnit

/-- `struct LibraryItem` — library.rs:125-136. -/
structure LibraryItem where
  adUnits : List AdUnit
  data : Str
  libType : UInt8
  reserved1 : Str
  reserved2 : Str
  reserved3 : Str
  testDevices : List Str
  useYn : Str
deriving DecidableEq, Repr

namespace LibraryItem
/-- JSON keys (camelCase) — library.rs:126-135. -/
def fields : List Str := [s% "adUnits", s% "data", s% "libType", s% "reserved1", s% "reserved2",
  s% "reserved3", s% "testDevices", s% "useYn"]
/-- derived `Serialize` — library.rs:125-136. -/
def enc (i : LibraryItem) : Json :=
  .obj [(s% "adUnits", .arr (i.adUnits.map AdUnit.enc)), (s% "data", .str i.data),
    (s% "libType", Json.encU8 i.libType), (s% "reserved1", .str i.reserved1),
    (s% "reserved2", .str i.reserved2), (s% "reserved3", .str i.reserved3),
    (s% "testDevices", .arr (i.testDevices.map Json.str)), (s% "useYn", .str i.useYn)]
/-- derived `Deserialize` — library.rs:125-136. -/
def dec (j : Json) : Option LibraryItem := do
  let o ← Json.asStruct fields j
  let adUnits ← Json.req o (s% "adUnits") (Json.decVec AdUnit.dec)
  let data ← Json.req o (s% "data") Json.decStr
  let libType ← Json.req o (s% "libType") Json.decU8
  let reserved1 ← Json.req o (s% "reserved1") Json.decStr
  let reserved2 ← Json.req o (s% "reserved2") Json.decStr
  let reserved3 ← Json.req o (s% "reserved3") Json.decStr
  let testDevices ← Json.req o (s% "testDevices") (Json.decVec Json.decStr)
  let useYn ← Json.req o (s% "useYn") Json.decStr
  pure { adUnits, data, libType, reserved1, reserved2, reserved3, testDevices, useYn }

/-- `LibraryItem::parse` — library.rs:142-144. -/
def parse (s : Str) : Option LibraryItem := Json.fromStr dec s
/-- `LibraryItem::reconstruct` — library.rs:146-148. -/
def reconstruct (i : LibraryItem) : Str := i.enc.print
end LibraryItem

/-- `struct Library` — library.rs:5-11. -/
structure Library where
  firebaseDb : LibraryItem
  compat : LibraryItem
  admob : LibraryItem
  googleMap : LibraryItem
deriving DecidableEq, Repr

/-- `enum LibraryParseError` — library.rs:96-113. -/
inductive LibraryParseError where
  | eofAfterHeader (header : Str)
  | item (header : Str) (line : Nat)
  | missing (header : Str)
deriving DecidableEq, Repr

namespace Library

/-- The four mutable locals of `Library::parse` — library.rs:20-23. -/
structure Acc where
  firebaseDb : Option LibraryItem := none
  compat : Option LibraryItem := none
  admob : Option LibraryItem := none
  googleMap : Option LibraryItem := none
deriving DecidableEq, Repr

/-- Assigning the local of a header — library.rs:49-55. -/
def Acc.set (a : Acc) (header : Str) (i : LibraryItem) : Acc :=
  if header = s% "@firebaseDB" then { a with firebaseDb := some i }
  else if header = s% "@compat" then { a with compat := some i }
  else if header = s% "@admob" then { a with admob := some i }
  else { a with googleMap := some i }

/-- Is the line one of the four headers — library.rs:49-55. -/
def isHeader (line : Str) : Bool :=
  line = s% "@firebaseDB" || line = s% "@compat" || line = s% "@admob" || line = s% "@googleMap"

/-- The loop of `Library::parse` — library.rs:44-58, with the macro of library.rs:27-42. The line
counter is not advanced for the item line. -/
def loop : List Str → Acc → Nat → Out LibraryParseError Acc
  | [], a, _ => .ok a
  | line :: rest, a, n =>
    if isHeader line then
      match rest with
      | [] => .err (.eofAfterHeader line)
      | item :: rest =>
        match LibraryItem.parse item with
        | none => .err (.item line n)
        | some i => loop rest (a.set line i) (n + 1)
    else loop rest a (n + 1)

/-- `Library::parse` — library.rs:17-66. -/
def parse (s : Str) : Out LibraryParseError Library := do
  let a ← loop (lines s) {} 0
  let firebaseDb ← Out.ofOption (.missing (s% "@firebaseDB")) a.firebaseDb
  let compat ← Out.ofOption (.missing (s% "@compat")) a.compat
  let admob ← Out.ofOption (.missing (s% "@admob")) a.admob
  let googleMap ← Out.ofOption (.missing (s% "@googleMap")) a.googleMap
  pure { firebaseDb, compat, admob, googleMap }

/-- `Library::reconstruct` — library.rs:68-93. -/
def reconstruct (l : Library) : Str :=
  s% "@firebaseDB\n" ++ l.firebaseDb.reconstruct ++ s% "\n@compat\n" ++ l.compat.reconstruct ++
    s% "\n@admob\n" ++ l.admob.reconstruct ++ s% "\n@googleMap\n" ++ l.googleMap.reconstruct

end Library
end Swrs
