import Verif.Model.Library
/-!
# Model of the derived JSON form of a whole library — `/repo/src/parser/library.rs:5-11`

`Library` derives `Serialize` and `Deserialize` besides being `Parsable`. The crate itself uses only the sections of library.rs:17-93;
a program that uses the crate can use the derived form.
-/
namespace Swrs.Library

/-- JSON keys in declaration order; they are not renamed — library.rs:7-10. -/
def fields : List Str := [s% "firebase_db", s% "compat", s% "admob", s% "google_map"]

/-- derived `Serialize` — library.rs:5-11. -/
def enc (l : Library) : Json :=
  .obj [(s% "firebase_db", l.firebaseDb.enc), (s% "compat", l.compat.enc), (s% "admob", l.admob.enc),
    (s% "google_map", l.googleMap.enc)]

/-- derived `Deserialize` — library.rs:5-11. -/
def dec (j : Json) : Option Library := do
  let o ← Json.asStruct fields j
  let firebaseDb ← Json.req o (s% "firebase_db") LibraryItem.dec
  let compat ← Json.req o (s% "compat") LibraryItem.dec
  let admob ← Json.req o (s% "admob") LibraryItem.dec
  let googleMap ← Json.req o (s% "google_map") LibraryItem.dec
  pure { firebaseDb, compat, admob, googleMap }

/-- `serde_json::from_str::<Library>` with the derived `Deserialize` — library.rs:5-11. -/
def fromJson (s : Str) : Option Library := Json.fromStr dec s
/-- `serde_json::to_string` with the derived `Serialize` — library.rs:5-11. It cannot fail on this type. -/
def toJson (l : Library) : Str := l.enc.print

end Swrs.Library
