import Verif.Proofs.Reader
import Verif.Proofs.Library
/-!
# C67: what the readers of file, resource and library lists return, for every text
-/
namespace Swrs
open Sections

/-! ## C67 — Reading lists, for every text -/

/-- C67: a file list is read as follows. Lines before the first header are skipped; the lines after a header belong to its section; a
blank line of a section ends the file. Each record line is read; if one is refused, the error has the zero-based number of the first
such line and its text, else the records are those of the two sections, in order. -/
theorem c67_file (s : Str) :
    File.parse s = match result fileHeader FileItem.parse (lines s) with
      | .ok l => .ok { activities := only .activity l, customViews := only .customView l }
      | .error (n, _, line) => .err (.item n line) := by
  rw [← gloop_result fileHeader FileItem.parse rfl]
  refine (File.loop_eq_gloop (lines s) none [] 0).trans ?_
  cases gloop fileHeader FileItem.parse (lines s) none [] 0 <;> rfl

/-- C67: a resource list is read the same way; the error has the section and the zero-based number of the line. -/
theorem c67_resource (s : Str) :
    Resource.parse s = match result resourceHeader ResourceItem.parse (lines s) with
      | .ok l => .ok { images := only .images l, sounds := only .sounds l, fonts := only .fonts l }
      | .error (n, .images, _) => .err (.item .images n)
      | .error (n, .sounds, _) => .err (.item .sounds n)
      | .error (n, .fonts, _) => .err (.item .fonts n) := by
  rw [← gloop_result resourceHeader ResourceItem.parse rfl]
  refine (Resource.loop_eq_gloop (lines s) none [] 0).trans ?_
  cases gloop resourceHeader ResourceItem.parse (lines s) none [] 0 with
  | ok l => rfl
  | error e => obtain ⟨n, k, line⟩ := e; cases k <;> rfl

/-- C67: where the error of a file list points: the line exists, has that text, is not a header, is after a header, and does not
parse. -/
theorem c67_file_error {s : Str} {n : Nat} {line : Str} (h : File.parse s = .err (.item n line)) :
    (lines s)[n]? = some line ∧ line ≠ s% "@activity" ∧ line ≠ s% "@customview" ∧ FileItem.parse line = none ∧
    ∃ j < n, (lines s)[j]? = some (s% "@activity") ∨ (lines s)[j]? = some (s% "@customview") := by
  rw [c67_file] at h
  unfold result at h
  cases hf : (records fileHeader (lines s)).find? fun e => (FileItem.parse e.2.2).isNone with
  | none => rw [hf] at h; simp at h
  | some e =>
    obtain ⟨k, sec, l⟩ := e
    rw [hf] at h
    simp only [Out.err.injEq, FileParseError.item.injEq] at h
    obtain ⟨rfl, rfl⟩ := h
    have hp := List.find?_some hf
    have hm := List.mem_of_find?_eq_some hf
    unfold records at hm
    rw [List.mem_filterMap] at hm
    obtain ⟨i, -, hi⟩ := hm
    unfold recordAt at hi
    cases hl : (lines s)[i]? with
    | none => rw [hl] at hi; simp at hi
    | some l' =>
      rw [hl] at hi
      simp only at hi
      by_cases hh : (fileHeader l').isSome
      · rw [if_pos hh] at hi; simp at hi
      · rw [if_neg hh] at hi
        cases hs : sectionAt fileHeader (lines s) i with
        | none => rw [hs] at hi; simp at hi
        | some sec' =>
          rw [hs] at hi
          simp only [Option.map_some, Option.some.injEq, Prod.mk.injEq] at hi
          obtain ⟨rfl, rfl, rfl⟩ := hi
          refine ⟨hl, ?_, ?_, by simpa using hp, ?_⟩
          · rintro rfl; exact hh rfl
          · rintro rfl; exact hh rfl
          · have := List.mem_of_getLast? hs
            rw [List.mem_filterMap] at this
            obtain ⟨x, hx, hx2⟩ := this
            rw [List.mem_take_iff_getElem] at hx
            obtain ⟨j, hj, rfl⟩ := hx
            refine ⟨j, by omega, ?_⟩
            rw [List.getElem?_eq_getElem (by omega)]
            unfold fileHeader at hx2
            split at hx2
            · exact .inl (congrArg some ‹_›)
            · split at hx2
              · exact .inr (congrArg some ‹_›)
              · simp at hx2

namespace Library

/-- Specification: the sections of a library file with the zero-based line of the header, and the header on the last line, if any. -/
def scanAt : Nat → List Str → List (Nat × Str × Str) × Option Str
  | _, [] => ([], none)
  | _, [l] => if l ∈ headers then ([], some l) else ([], none)
  | n, l :: i :: rest =>
    if l ∈ headers then ((n, l, i) :: (scanAt (n + 2) rest).1, (scanAt (n + 2) rest).2)
    else scanAt (n + 1) (i :: rest)

/-- Specification: the outcome of reading: the first item that is refused (with the header, and the line of the header less the
number of items before), else a header at the end, else the first of the four headers that is missing, else the four items read
last. -/
def outcome (ls : List Str) : Out LibraryParseError Library :=
  let es := (scanAt 0 ls).1
  match es.zipIdx.find? fun e => (LibraryItem.parse e.1.2.2).isNone with
  | some ((line, h, _), k) => .err (.item h (line - k))
  | none =>
    match (scanAt 0 ls).2 with
    | some h => .err (.eofAfterHeader h)
    | none =>
      let item (h : Str) : Option LibraryItem := lastItem h (es.map fun e => (e.2.1, e.2.2))
      match item (s% "@firebaseDB"), item (s% "@compat"), item (s% "@admob"), item (s% "@googleMap") with
      | some f, some c, some a, some g => .ok ⟨f, c, a, g⟩
      | none, _, _, _ => .err (.missing (s% "@firebaseDB"))
      | _, none, _, _ => .err (.missing (s% "@compat"))
      | _, _, none, _ => .err (.missing (s% "@admob"))
      | _, _, _, none => .err (.missing (s% "@googleMap"))

theorem scanAt_eq (ls : List Str) (n : Nat) :
    ((scanAt n ls).1.map fun e => (e.2.1, e.2.2)) = (scan ls).1 ∧ (scanAt n ls).2 = (scan ls).2 := by
  induction ls using scan.induct generalizing n with
  | case1 => simp [scan, scanAt]
  | case2 l h => simp [scan, scanAt, h]
  | case3 l h => simp [scan, scanAt, h]
  | case4 l i rest h ih =>
    simp only [scan, scanAt, h, if_true, List.map_cons]
    exact ⟨by rw [(ih (n + 2)).1], (ih (n + 2)).2⟩
  | case5 l i rest h ih =>
    simp only [scan, scanAt, h]
    exact ih (n + 1)

/-- The loop against `scanAt`: `k` items were read before. -/
theorem loop_outcome (ls : List Str) (a : Acc) (n k : Nat) :
    loop ls a n = match ((scanAt (n + k) ls).1.zipIdx k).find? fun e => (LibraryItem.parse e.1.2.2).isNone with
      | some ((line, h, _), k) => .err (.item h (line - k))
      | none =>
        match (scanAt (n + k) ls).2 with
        | some h => .err (.eofAfterHeader h)
        | none => .ok (accOf a (scan ls).1) := by
  induction ls using scan.induct generalizing a n k with
  | case1 => simp [loop, scanAt, scan, accOf]
  | case2 l h => simp [loop, scanAt, h, isHeader_eq]
  | case3 l h => simp [loop, scanAt, scan, h, accOf, isHeader_eq]
  | case4 l i rest h ih =>
    simp only [loop, isHeader_eq, h, decide_true, if_true, scanAt, scan, List.zipIdx_cons, List.find?_cons]
    cases hp : LibraryItem.parse i with
    | none => simp
    | some v =>
      simp only [Option.isNone_some, accOf, hp]
      have := ih (a.set l v) (n + 1) (k + 1)
      rw [show n + 1 + (k + 1) = n + k + 2 by omega] at this
      exact this
  | case5 l i rest h ih =>
    have e : loop (l :: i :: rest) a n = loop (i :: rest) a (n + 1) := by
      rw [loop]; simp [h, isHeader_eq]
    have e2 : scanAt (n + k) (l :: i :: rest) = scanAt (n + 1 + k) (i :: rest) := by
      rw [scanAt, show n + 1 + k = n + k + 1 by omega]; simp [h]
    have e3 : scan (l :: i :: rest) = scan (i :: rest) := by rw [scan]; simp [h]
    rw [e, e2, e3]
    exact ih a (n + 1) k

end Library

open Library in
/-- C67: what a library file is read as, for every text. The number in the error of a bad item is not that of its line: it is the
zero-based number of the header less the number of sections before. -/
theorem c67_library (s : Str) : Library.parse s = outcome (lines s) := by
  unfold Library.parse outcome
  have hl := loop_outcome (lines s) {} 0 0
  rw [hl]
  simp only [Nat.add_zero]
  cases hf : (scanAt 0 (lines s)).1.zipIdx.find? fun e => (LibraryItem.parse e.1.2.2).isNone with
  | some e => obtain ⟨⟨line, h, i⟩, k⟩ := e; rfl
  | none =>
    simp only
    cases hd : (scanAt 0 (lines s)).2 with
    | some h => rfl
    | none =>
      simp only [Out.ok_bind]
      rw [hf, hd] at hl
      have h2 : ∀ e ∈ (scan (lines s)).1, (LibraryItem.parse e.2).isSome := (((loop_eq (lines s) {} 0).1 _).1 hl).2.1
      have hs := fun h hh => slot_accOf (scan (lines s)).1 {} (scan_headers _) h2 h hh
      have s1 : (accOf {} (scan (lines s)).1).firebaseDb = _ := hs (s% "@firebaseDB") (by decide)
      have s2 : (accOf {} (scan (lines s)).1).compat = _ := hs (s% "@compat") (by decide)
      have s3 : (accOf {} (scan (lines s)).1).admob = _ := hs (s% "@admob") (by decide)
      have s4 : (accOf {} (scan (lines s)).1).googleMap = _ := hs (s% "@googleMap") (by decide)
      rw [(scanAt_eq (lines s) 0).1, s1, s2, s3, s4]
      cases lastItem (s% "@firebaseDB") (scan (lines s)).1 <;> cases lastItem (s% "@compat") (scan (lines s)).1 <;>
        cases lastItem (s% "@admob") (scan (lines s)).1 <;> cases lastItem (s% "@googleMap") (scan (lines s)).1 <;> rfl

namespace Library

theorem scanAt_mem (ls : List Str) (n : Nat) : ∀ e ∈ (scanAt n ls).1,
    ∃ d, e.1 = n + d ∧ ls[d]? = some e.2.1 ∧ ls[d + 1]? = some e.2.2 := by
  induction ls using scan.induct generalizing n with
  | case1 => simp [scanAt]
  | case2 l h => simp [scanAt, h]
  | case3 l h => simp [scanAt, h]
  | case4 l i rest h ih =>
    simp only [scanAt, h, if_true, List.mem_cons, forall_eq_or_imp]
    refine ⟨⟨0, rfl, rfl, rfl⟩, fun e he => ?_⟩
    obtain ⟨d, h1, h2, h3⟩ := ih (n + 2) e he
    exact ⟨d + 2, by omega, by simpa using h2, by simpa using h3⟩
  | case5 l i rest h ih =>
    simp only [scanAt, h]
    intro e he
    obtain ⟨d, h1, h2, h3⟩ := ih (n + 1) e he
    exact ⟨d + 1, by omega, by simpa using h2, by simpa using h3⟩

theorem scanAt_line (ls : List Str) (n : Nat) : ∀ (k : Nat) e, (scanAt n ls).1[k]? = some e → n + 2 * k ≤ e.1 := by
  induction ls using scan.induct generalizing n with
  | case1 => simp [scanAt]
  | case2 l h => simp [scanAt, h]
  | case3 l h => simp [scanAt, h]
  | case4 l i rest h ih =>
    simp only [scanAt, h, if_true]
    intro k e he
    cases k with
    | zero => simp at he; subst he; simp
    | succ k =>
      have := ih (n + 2) k e (by simpa using he)
      omega
  | case5 l i rest h ih =>
    simp only [scanAt, h]
    intro k e he
    have := ih (n + 1) k e he
    omega

end Library

/-! ## C68 — The line in the error of a library file -/

/-- C68 is false: an item that does not parse is not reported with the line of its header. -/
theorem c68_library_line_false : ¬ ∀ (s h : Str) (n : Nat), Library.parse s = .err (.item h n) → (lines s)[n]? = some h := by
  intro hh
  have := hh (s% "@admob\n{\"adUnits\":[],\"data\":\"\",\"libType\":0,\"reserved1\":\"\",\"reserved2\":\"\",\"reserved3\":\"\",\"testDevices\":[],\"useYn\":\"N\"}\n@compat\n-")
    (s% "@compat") 1 (by decide +kernel)
  exact absurd this (by decide +kernel)

open Library in
/-- C68, proved part: the number reported is the zero-based line of the header less the number `k` of sections before it; the item on
the next line does not parse, and those before do. So it is the line of the header iff it is the first section. -/
theorem c68_library_line_partial {s h : Str} {n : Nat} (hp : Library.parse s = .err (.item h n)) :
    ∃ k i, (scanAt 0 (lines s)).1[k]? = some (n + k, h, i) ∧ (lines s)[n + k]? = some h ∧ (lines s)[n + k + 1]? = some i ∧
      LibraryItem.parse i = none ∧ ∀ j < k, ∀ e, (scanAt 0 (lines s)).1[j]? = some e → (LibraryItem.parse e.2.2).isSome := by
  rw [c67_library] at hp
  unfold outcome at hp
  simp only at hp
  cases hf : (scanAt 0 (lines s)).1.zipIdx.find? fun e => (LibraryItem.parse e.1.2.2).isNone with
  | none =>
    rw [hf] at hp
    simp only at hp
    split at hp
    · simp at hp
    · split at hp <;> simp at hp
  | some e =>
    obtain ⟨⟨line, h', i⟩, k⟩ := e
    rw [hf] at hp
    simp only [Out.err.injEq, LibraryParseError.item.injEq] at hp
    obtain ⟨rfl, rfl⟩ := hp
    have hp := List.find?_some hf
    have hm := List.mem_of_find?_eq_some hf
    have hk : (scanAt 0 (lines s)).1[k]? = some (line, h', i) := by
      have := List.mem_zipIdx_iff_getElem?.1 hm
      simpa using this
    have hle := scanAt_line _ _ _ _ hk
    obtain ⟨d, h1, h2, h3⟩ := scanAt_mem (lines s) 0 _ (List.mem_of_getElem? hk)
    simp only at h1 h2 h3 hle
    refine ⟨k, i, ?_, ?_, ?_, by simpa using hp, ?_⟩
    · rw [hk, show line - k + k = line by omega]
    · rw [show line - k + k = d by omega, h2]
    · rw [show line - k + k + 1 = d + 1 by omega, h3]
    · intro j hj e he
      rw [List.find?_eq_some_iff_getElem] at hf
      obtain ⟨-, m, hm1, hm2, hm3⟩ := hf
      have : k = m := by
        have := congrArg Prod.snd hm2
        simp at this; exact this.symm
      subst this
      have := hm3 j hj
      rw [List.getElem?_eq_some_iff] at he
      obtain ⟨hj', he⟩ := he
      simp [he] at this
      exact this

-- junk, a section, a header in between, a record that does not parse on line 4
example : File.parse (s% "junk\n\n@activity\n@customview\n{}\n") = .err (.item 4 (s% "{}")) := by decide +kernel
-- a blank line ends the file: what follows is not even read
example : records fileHeader [s% "@activity", s% "a", [], s% "b", s% "@customview", s% "c"] = [(1, .activity, s% "a")] := by decide
-- sections may repeat and come in any order
example : records resourceHeader [[], s% "@fonts", s% "a", s% "@images", s% "b", s% "@fonts", s% "c"] =
    [(2, .fonts, s% "a"), (4, .images, s% "b"), (6, .fonts, s% "c")] := by decide

/-- `c67_file_error`: the refused line is line 4 and a header comes before it. -/
example : (lines (s% "junk\n\n@activity\n@customview\n{}\n"))[4]? = some (s% "{}") ∧ FileItem.parse (s% "{}") = none := by decide +kernel

end Swrs
