import Verif.Model.LibraryJson
import Verif.Props.Format
import Verif.Props.Records
import Verif.Props.RecordsRead
/-!
# C111: a library as one JSON value

Besides the text with the four sections (C19, C20) a library has a JSON form, because the type derives it.
-/
namespace Swrs
open Json (IsText valuesOf)

namespace Library
theorem dec_enc (l : Library) : dec l.enc = some l := by
  have h : Json.asStruct fields l.enc = some [(s% "firebase_db", l.firebaseDb.enc), (s% "compat", l.compat.enc),
    (s% "admob", l.admob.enc), (s% "google_map", l.googleMap.enc)] := Json.asStruct_sublist (by decide) (by simp [fields])
  simp [dec, h, Json.req, Json.get, LibraryItem.dec_enc]

theorem valid_enc (l : Library) : l.enc.Valid := by
  simp [enc, Json.Valid, Json.ValidObj, LibraryItem.valid_enc]

open Json in
theorem byKey : ByKey Library.dec fields fields := by
  refine ByKey.of_body (fun g => do
    let firebaseDb ← Json.reqG g (s% "firebase_db") LibraryItem.dec
    let compat ← Json.reqG g (s% "compat") LibraryItem.dec
    let admob ← Json.reqG g (s% "admob") LibraryItem.dec
    let googleMap ← Json.reqG g (s% "google_map") LibraryItem.dec
    pure { firebaseDb, compat, admob, googleMap }) (fun j => rfl) ?_ ?_ (fun k hk => hk)
  · intro g g' h
    simp only [fields, List.forall_mem_cons] at h
    simp only [reqG, h]
  · intro g k hk h
    simp only [fields, List.mem_cons, List.not_mem_nil, or_false] at hk
    rcases hk with rfl | rfl | rfl | rfl <;> simp [reqG, h]
end Library

namespace Reads
/-- The four libraries under their names. -/
def IsLibrary (l : Library) (j : Json) : Prop :=
  ∃ ms, Members [s% "firebase_db", s% "compat", s% "admob", s% "google_map"] j ms ∧
    One ms (s% "firebase_db") (IsLibraryItem l.firebaseDb) ∧ One ms (s% "compat") (IsLibraryItem l.compat) ∧
    One ms (s% "admob") (IsLibraryItem l.admob) ∧ One ms (s% "google_map") (IsLibraryItem l.googleMap)

theorem isLibrary {l : Library} {j : Json} : Library.dec j = some l ↔ IsLibrary l j := by
  unfold Library.dec IsLibrary
  refine Iff.trans (struct_iff (names := Library.fields) (by decide)) (exists_congr fun ms => and_congr_right fun _ => ?_)
  simp only [Option.bind_eq_bind, Option.bind_eq_some_iff, Option.pure_def, Option.some.injEq]
  constructor
  · rintro ⟨hl, x0, h0, x1, h1, x2, h2, x3, h3, rfl⟩
    exact ⟨one_of isLibraryItem hl (by decide) h0, one_of isLibraryItem hl (by decide) h1, one_of isLibraryItem hl (by decide) h2,
      one_of isLibraryItem hl (by decide) h3⟩
  · rintro ⟨h0, h1, h2, h3⟩
    refine ⟨?_, _, of_one isLibraryItem (by decide) h0, _, of_one isLibraryItem (by decide) h1, _, of_one isLibraryItem (by decide) h2,
      _, of_one isLibraryItem (by decide) h3, rfl⟩
    simp only [Library.fields, List.forall_mem_cons, List.not_mem_nil, false_implies, implies_true, and_true]
    exact ⟨h0.len, h1.len, h2.len, h3.len⟩
end Reads

/-! ## C111 — A library as one JSON value -/

/-- C111: the JSON form of every library is one line, from which the library is read back. -/
theorem c111_round_trip (l : Library) : '\n' ∉ l.toJson ∧ Library.fromJson l.toJson = some l :=
  ⟨(jline_obj l.valid_enc).noNl, Json.fromStr_print l.valid_enc l.dec_enc⟩

/-- C111: the text is an object with the four libraries in this order, each as it is written in its section. -/
theorem c111_text (l : Library) : l.toJson = Format.record [("firebase_db", l.firebaseDb.reconstruct),
    ("compat", l.compat.reconstruct), ("admob", l.admob.reconstruct), ("google_map", l.googleMap.reconstruct)] :=
  Format.print_record (by simp only [List.map]; rfl)

/-- C111: the JSON form is read by key. -/
theorem c111_by_key : ReadsByKey Library.fromJson [s% "firebase_db", s% "compat", s% "admob", s% "google_map"]
    [s% "firebase_db", s% "compat", s% "admob", s% "google_map"] :=
  ReadsByKey.of_byKey Library.byKey

/-- C111: a library is read exactly from the texts of such JSON values. -/
theorem c111_read (s : Str) (l : Library) : Library.fromJson s = some l ↔ ∃ j, IsText j s ∧ Reads.IsLibrary l j :=
  Reads.text_iff Reads.isLibrary

/-- A small library. -/
private def lib111 (t : UInt8) : LibraryItem := ⟨[], [], t, [], [], [], [], s% "N"⟩

-- the JSON form of the empty libraries
example : Library.toJson ⟨lib111 0, lib111 1, lib111 2, lib111 3⟩ =
    s% "{\"firebase_db\":{\"adUnits\":[],\"data\":\"\",\"libType\":0,\"reserved1\":\"\",\"reserved2\":\"\",\"reserved3\":\"\",\"testDevices\":[],\"useYn\":\"N\"}" ++
    s% ",\"compat\":{\"adUnits\":[],\"data\":\"\",\"libType\":1,\"reserved1\":\"\",\"reserved2\":\"\",\"reserved3\":\"\",\"testDevices\":[],\"useYn\":\"N\"}" ++
    s% ",\"admob\":{\"adUnits\":[],\"data\":\"\",\"libType\":2,\"reserved1\":\"\",\"reserved2\":\"\",\"reserved3\":\"\",\"testDevices\":[],\"useYn\":\"N\"}" ++
    s% ",\"google_map\":{\"adUnits\":[],\"data\":\"\",\"libType\":3,\"reserved1\":\"\",\"reserved2\":\"\",\"reserved3\":\"\",\"testDevices\":[],\"useYn\":\"N\"}}" := by
  decide +kernel
-- the text with sections is not a JSON form, nor is a library a section
example : Library.fromJson (Library.reconstruct ⟨lib111 0, lib111 1, lib111 2, lib111 3⟩) = none ∧
    Library.fromJson (lib111 0).reconstruct = none := by decide +kernel

end Swrs
