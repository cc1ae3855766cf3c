import Verif.Model.File
import Verif.Model.Resource
/-! Files made of sections of one record per line: a description by positions, and the readers against it. -/
namespace Swrs.Sections
variable {σ α : Type}

/-- Specification: the section in which line `k` is, the one of the last header before it. `header` tells which lines are headers. -/
def sectionAt (header : Str → Option σ) (ls : List Str) (k : Nat) : Option σ := ((ls.take k).filterMap header).getLast?

/-- Specification: reading ends at line `k`: it is blank and in a section. -/
def endsAt (header : Str → Option σ) (ls : List Str) (k : Nat) : Bool :=
  (sectionAt header ls k).isSome && ls[k]? == some []

/-- Specification: the record line at position `k`, with its section: neither a header nor before the first header. -/
def recordAt (header : Str → Option σ) (ls : List Str) (k : Nat) : Option (Nat × σ × Str) :=
  match ls[k]? with
  | none => none
  | some l => if (header l).isSome then none else (sectionAt header ls k).map fun s => (k, s, l)

/-- Specification: the record lines, up to the first blank line of a section. -/
def records (header : Str → Option σ) (ls : List Str) : List (Nat × σ × Str) :=
  ((List.range ls.length).takeWhile fun k => !endsAt header ls k).filterMap (recordAt header ls)

/-- Specification: the first record line which `read` refuses, else what was read. -/
def result (header : Str → Option σ) (read : Str → Option α) (ls : List Str) : Except (Nat × σ × Str) (List (σ × α)) :=
  match (records header ls).find? fun e => (read e.2.2).isNone with
  | some e => .error e
  | none => .ok ((records header ls).filterMap fun e => (read e.2.2).map fun a => (e.2.1, a))

/-- What is read of one section. -/
def only [DecidableEq σ] (s : σ) (l : List (σ × α)) : List α := (l.filter (·.1 = s)).map (·.2)

/-- A reader of lines in a loop. -/
def gloop (header : Str → Option σ) (read : Str → Option α) : List Str → Option σ → List (σ × α) → Nat →
    Except (Nat × σ × Str) (List (σ × α))
  | [], _, acc, _ => .ok acc
  | l :: ls, sec, acc, n =>
    match header l with
    | some s => gloop header read ls (some s) acc (n + 1)
    | none =>
      match sec with
      | none => gloop header read ls none acc (n + 1)
      | some s =>
        if l = [] then .ok acc
        else match read l with
          | none => .error (n, s, l)
          | some a => gloop header read ls (some s) (acc ++ [(s, a)]) (n + 1)

theorem gloop_cons (header : Str → Option σ) (read : Str → Option α) (l : Str) (ls : List Str) (sec : Option σ) (acc : List (σ × α))
    (n : Nat) : gloop header read (l :: ls) sec acc n =
    match header l with
    | some s => gloop header read ls (some s) acc (n + 1)
    | none =>
      match sec with
      | none => gloop header read ls none acc (n + 1)
      | some s =>
        if l = [] then .ok acc
        else match read l with
          | none => .error (n, s, l)
          | some a => gloop header read ls (some s) (acc ++ [(s, a)]) (n + 1) := by
  cases sec <;> rfl

/-- The result given the record lines still to come. -/
def resultOf (read : Str → Option α) (acc : List (σ × α)) (es : List (Nat × σ × Str)) : Except (Nat × σ × Str) (List (σ × α)) :=
  match es.find? fun e => (read e.2.2).isNone with
  | some e => .error e
  | none => .ok (acc ++ es.filterMap fun e => (read e.2.2).map fun a => (e.2.1, a))

theorem resultOf_cons_some (read : Str → Option α) (acc : List (σ × α)) (e : Nat × σ × Str) (es : List (Nat × σ × Str)) (a : α)
    (h : read e.2.2 = some a) : resultOf read acc (e :: es) = resultOf read (acc ++ [(e.2.1, a)]) es := by
  unfold resultOf
  rw [List.find?_cons, h]
  simp [h]

theorem gloop_eq (header : Str → Option σ) (read : Str → Option α) (h0 : header [] = none) (ls : List Str) :
    ∀ (post pre : List Str) (acc : List (σ × α)), ls = pre ++ post →
    gloop header read post (sectionAt header ls pre.length) acc pre.length =
      resultOf read acc (((List.range' pre.length post.length).takeWhile fun k => !endsAt header ls k).filterMap (recordAt header ls)) := by
  intro post
  induction post with
  | nil => intro pre acc _; simp [gloop, resultOf]
  | cons l post ih =>
    intro pre acc e
    have hl : ls[pre.length]? = some l := by rw [e]; simp
    have hpre : ls.take pre.length = pre := by rw [e]; simp
    have hpre' : ls.take (pre.length + 1) = pre ++ [l] := by
      rw [e, show pre ++ l :: post = (pre ++ [l]) ++ post by simp, List.take_left' (by simp)]
    have hs : sectionAt header ls (pre.length + 1) = (header l).or (sectionAt header ls pre.length) := by
      unfold sectionAt
      rw [hpre', hpre, List.filterMap_append]
      cases hx : header l <;> simp [hx]
    have hi := ih (pre ++ [l])
    simp only [List.length_append, List.length_singleton, List.append_assoc, List.singleton_append] at hi
    rw [List.length_cons, List.range'_succ, gloop_cons]
    have hE : endsAt header ls pre.length = ((sectionAt header ls pre.length).isSome && l == []) := by
      unfold endsAt; rw [hl]; rfl
    have hR : recordAt header ls pre.length =
        if (header l).isSome then none else (sectionAt header ls pre.length).map fun s => (pre.length, s, l) := by
      unfold recordAt; rw [hl]
    cases hh : header l with
    | some s =>
      have hne : l ≠ [] := by rintro rfl; rw [h0] at hh; simp at hh
      simp only
      have he : endsAt header ls pre.length = false := by rw [hE]; simp [hne]
      rw [List.takeWhile_cons, he]
      have hr : recordAt header ls pre.length = none := by rw [hR, hh]; rfl
      simp only [Bool.not_false, if_true, List.filterMap_cons, hr]
      have := hi acc e
      rw [hs, hh] at this
      simpa using this
    | none =>
      rw [hh] at hs
      simp only [Option.none_or] at hs
      simp only
      cases hsec : sectionAt header ls pre.length with
      | none =>
        simp only
        have he : endsAt header ls pre.length = false := by rw [hE, hsec]; rfl
        have hr : recordAt header ls pre.length = none := by rw [hR, hh, hsec]; rfl
        rw [List.takeWhile_cons, he]
        simp only [Bool.not_false, if_true, List.filterMap_cons, hr]
        have := hi acc e
        rw [hs, hsec] at this
        exact this
      | some s =>
        simp only
        by_cases hne : l = []
        · have he : endsAt header ls pre.length = true := by rw [hE, hsec]; simp [hne]
          rw [if_pos hne, List.takeWhile_cons, he]
          simp [resultOf]
        · have he : endsAt header ls pre.length = false := by rw [hE, hsec]; simp [hne]
          have hr : recordAt header ls pre.length = some (pre.length, s, l) := by rw [hR, hh, hsec]; rfl
          rw [if_neg hne, List.takeWhile_cons, he]
          simp only [Bool.not_false, if_true, List.filterMap_cons, hr]
          cases ha : read l with
          | none => simp [resultOf, ha]
          | some a =>
            simp only
            rw [resultOf_cons_some _ _ _ _ a ha]
            have := hi (acc ++ [(s, a)]) e
            rw [hs, hsec] at this
            exact this

theorem gloop_result (header : Str → Option σ) (read : Str → Option α) (h0 : header [] = none) (ls : List Str) :
    gloop header read ls none [] 0 = result header read ls := by
  have := gloop_eq header read h0 ls ls [] [] rfl
  simp only [List.length_nil] at this
  have h : sectionAt header ls 0 = none := rfl
  rw [h] at this
  rw [this, resultOf, result, records, List.range_eq_range']
  simp

end Sections
open Sections

/-- Specification: the sections of a file list. -/
inductive FileKind where | activity | customView
deriving DecidableEq, Repr
/-- Specification: their headers. -/
def fileHeader (l : Str) : Option FileKind :=
  if l = s% "@activity" then some .activity else if l = s% "@customview" then some .customView else none

/-- The section of the model. -/
def FileKind.sec : Option FileKind → FileSection
  | none => .none | some .activity => .activity | some .customView => .customView

theorem File.loop_eq_gloop : ∀ (ls : List Str) (sec : Option FileKind) (acc : List (FileKind × FileItem)) (n : Nat),
    File.loop ls (FileKind.sec sec) ⟨only .activity acc, only .customView acc⟩ n =
      match gloop fileHeader FileItem.parse ls sec acc n with
      | .ok l => .ok ⟨only .activity l, only .customView l⟩
      | .error e => .err (.item e.1 e.2.2) := by
  intro ls
  induction ls with
  | nil => intro sec acc n; rfl
  | cons l ls ih =>
    intro sec acc n
    rw [File.loop, gloop_cons]
    rw [show fileHeader l = if l = s% "@activity" then some .activity else if l = s% "@customview" then some .customView else none from rfl]
    by_cases h1 : l = s% "@activity"
    · rw [if_pos h1, if_pos h1]; exact ih (some .activity) acc (n + 1)
    · rw [if_neg h1, if_neg h1]
      by_cases h2 : l = s% "@customview"
      · rw [if_pos h2, if_pos h2]; exact ih (some .customView) acc (n + 1)
      · rw [if_neg h2, if_neg h2]
        cases sec with
        | none => exact ih none acc (n + 1)
        | some s =>
          have hs : FileKind.sec (some s) ≠ .none := by cases s <;> simp [FileKind.sec]
          rw [if_pos hs]
          simp only
          by_cases h3 : l = []
          · rw [if_pos h3, if_pos h3]
          · rw [if_neg h3, if_neg h3]
            cases hp : FileItem.parse l with
            | none => rfl
            | some i =>
              simp only
              have := ih (some s) (acc ++ [(s, i)]) (n + 1)
              cases s <;> simpa [only, File.push, FileKind.sec] using this

/-- Specification: the sections of a resource list. -/
inductive ResourceKind where | images | sounds | fonts
deriving DecidableEq, Repr
/-- Specification: their headers. -/
def resourceHeader (l : Str) : Option ResourceKind :=
  if l = s% "@images" then some .images else if l = s% "@sounds" then some .sounds else if l = s% "@fonts" then some .fonts else none

/-- The section of the model. -/
def ResourceKind.sec : Option ResourceKind → ResourceSection
  | none => .none | some .images => .images | some .sounds => .sounds | some .fonts => .fonts

theorem Resource.loop_eq_gloop : ∀ (ls : List Str) (sec : Option ResourceKind) (acc : List (ResourceKind × ResourceItem)) (n : Nat),
    Resource.loop ls (ResourceKind.sec sec) ⟨only .images acc, only .sounds acc, only .fonts acc⟩ n =
      match gloop resourceHeader ResourceItem.parse ls sec acc n with
      | .ok l => .ok ⟨only .images l, only .sounds l, only .fonts l⟩
      | .error e => .err (.item (ResourceKind.sec (some e.2.1)) e.1) := by
  intro ls
  induction ls with
  | nil => intro sec acc n; rfl
  | cons l ls ih =>
    intro sec acc n
    rw [Resource.loop, gloop_cons]
    rw [show resourceHeader l = if l = s% "@images" then some .images else if l = s% "@sounds" then some .sounds
      else if l = s% "@fonts" then some .fonts else none from rfl]
    by_cases h1 : l = s% "@images"
    · rw [if_pos h1, if_pos h1]; exact ih (some .images) acc (n + 1)
    · rw [if_neg h1, if_neg h1]
      by_cases h2 : l = s% "@sounds"
      · rw [if_pos h2, if_pos h2]; exact ih (some .sounds) acc (n + 1)
      · rw [if_neg h2, if_neg h2]
        by_cases h4 : l = s% "@fonts"
        · rw [if_pos h4, if_pos h4]; exact ih (some .fonts) acc (n + 1)
        · rw [if_neg h4, if_neg h4]
          cases sec with
          | none => exact ih none acc (n + 1)
          | some s =>
            have hs : ResourceKind.sec (some s) ≠ .none := by cases s <;> simp [ResourceKind.sec]
            rw [if_pos hs]
            simp only
            by_cases h3 : l = []
            · rw [if_pos h3, if_pos h3]
            · rw [if_neg h3, if_neg h3]
              cases hp : ResourceItem.parse l with
              | none => rfl
              | some i =>
                simp only
                have := ih (some s) (acc ++ [(s, i)]) (n + 1)
                cases s <;> simpa [only, Resource.push, ResourceKind.sec] using this

end Swrs
