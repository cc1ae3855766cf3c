import Verif.Proofs.ViewRoundTrip
import Verif.Base.FloatInst
/-!
# C21, C22, C60: the view file
-/
set_option linter.unusedSectionVars false
namespace Swrs

/-! ## C21 — View record round trip -/
section C21
variable [FloatLaws]

/-- C21, proved part: the text of a view is one line, and it is read back as the same view exactly when the five
float fields are finite and neither width nor height is `Fixed(-1)` or `Fixed(-2)`. A view with a non-finite
float gives a text that does not parse. Missing: views with such a fixed size, for which the
property is false (see `c21_view_round_trip_false`). -/
theorem c21_view_round_trip_partial (v : AndroidView) :
    (AndroidView.parse v.reconstruct = some v ↔ v.Finite ∧
      v.layout.width ≠ .fixed (-1) ∧ v.layout.width ≠ .fixed (-2) ∧
      v.layout.height ≠ .fixed (-1) ∧ v.layout.height ≠ .fixed (-2)) ∧
    (¬ v.Finite → AndroidView.parse v.reconstruct = none) ∧ '\n' ∉ v.reconstruct := by
  refine ⟨?_, v.parse_reconstruct_none, v.jline.noNl⟩
  rw [v.parse_reconstruct_iff]
  simp only [AndroidView.Storable, AndroidView.NormalSizes, Size.Normal, and_assoc]

/-- C21: a view with finite floats always parses back, and everything but the two sizes is the same; the sizes
have the same number. -/
theorem c21_view_reads_back (v : AndroidView) (h : v.Finite) : ∃ w, AndroidView.parse v.reconstruct = some w ∧
    w.layout.width.num = v.layout.width.num ∧ w.layout.height.num = v.layout.height.num ∧
    w = { v with layout := { v.layout with width := w.layout.width, height := w.layout.height } } := by
  have key : ∀ n, (Size.ofNum n).num = n := by
    intro n
    unfold Size.ofNum
    split
    · next h => rw [h]; rfl
    · split
      · next h => rw [h]; rfl
      · rfl
  exact ⟨_, v.parse_reconstruct h, key _, key _, rfl⟩

/-- A view with a fixed width of -1. -/
def c21_witness : AndroidView :=
  let v := AndroidView.newEmpty (s% "v") 3 (s% "root") 0
  { v with layout := { v.layout with width := .fixed (-1) } }

theorem newEmpty_finite (i : Str) (t : UInt8) (p : Str) (q : Int8) : (AndroidView.newEmpty i t p q).Finite :=
  ⟨FloatLaws.finite_one, FloatLaws.finite_one, FloatLaws.finite_one, FloatLaws.finite_zero, FloatLaws.finite_zero⟩

/-- The full property C21 is false of the code: a fixed width of -1 is read back as "wrap content". -/
theorem c21_view_round_trip_false :
    ¬ ∀ v : AndroidView, v.Finite → AndroidView.parse v.reconstruct = some v := by
  intro h
  have := ((c21_view_round_trip_partial c21_witness).1.mp (h _ (newEmpty_finite (s% "v") 3 (s% "root") 0))).2.1
  exact this rfl

/-- The hypotheses of the partial theorem are met by a fresh view. -/
theorem newEmpty_storable (i : Str) (t : UInt8) (p : Str) (q : Int8) : (AndroidView.newEmpty i t p q).Storable :=
  ⟨newEmpty_finite _ _ _ _, by simp [AndroidView.NormalSizes, Size.Normal, AndroidView.newEmpty, LayoutConfig.default]⟩

example (i p : Str) : AndroidView.parse (AndroidView.newEmpty i 3 p 0).reconstruct = some (AndroidView.newEmpty i 3 p 0) :=
  (AndroidView.parse_reconstruct_iff _).mpr (newEmpty_storable _ _ _ _)
end C21

/-! ## C22 — View file round trip -/
section C22
variable [FloatLaws] [MapPol]

/-- C22, proved part: the exact condition under which a view file is read back from its own reconstruction. Missing:
the other files, for which the property is false: a non-empty layout followed by another layout gives
an error, and without a non-empty last layout the FABs are lost. -/
theorem c22_view_file_round_trip_partial (v : View) (hk : v.layouts.keys.Nodup ∧ v.fabs.keys.Nodup) :
    View.parse v.reconstruct = .ok v ↔
      ((∀ e ∈ v.layouts, '.' ∉ e.1 ∧ '\n' ∉ e.1) ∧ (∀ e ∈ v.fabs, '.' ∉ e.1 ∧ '\n' ∉ e.1)) ∧
      (∀ e ∈ v.layouts.dropLast, e.2.views = []) ∧
      (v.fabs ≠ [] → ∃ e, v.layouts.getLast? = some e ∧ e.2.views ≠ []) ∧
      ((∀ e ∈ v.layouts, ∀ w ∈ e.2.views, AndroidView.parse w.reconstruct = some w) ∧
       (∀ e ∈ v.fabs, AndroidView.parse e.2.reconstruct = some e.2)) := by
  rw [View.parse_reconstruct_iff v hk]
  simp only [View.NamesOk, View.AllStorable, AndroidView.parse_reconstruct_iff]

/-- Two layouts with one view each. -/
def c22_witness : View where
  layouts := [(s% "main", ⟨[AndroidView.newEmpty (s% "a") 3 (s% "root") 0]⟩),
    (s% "second", ⟨[AndroidView.newEmpty (s% "b") 3 (s% "root") 0]⟩)]
  fabs := []

/-- The full property C22 is false of the code: two screens with views cannot be read back. -/
theorem c22_view_file_round_trip_false :
    ¬ ∀ v : View, v.layouts.keys.Nodup → v.fabs.keys.Nodup → View.parse v.reconstruct = .ok v := by
  intro h
  have h1 := h c22_witness (by simp [c22_witness, LMap.keys]) (by simp [c22_witness, LMap.keys])
  rw [c22_view_file_round_trip_partial _ ⟨by simp [c22_witness, LMap.keys], by simp [c22_witness, LMap.keys]⟩] at h1
  have h2 := h1.2.1 (s% "main", ⟨[AndroidView.newEmpty (s% "a") 3 (s% "root") 0]⟩) (by simp [c22_witness])
  simp at h2

/-- C22: when the names are fine but the file is not readable, the loss is an error, or exactly the FABs of a file
without views. -/
theorem c22_view_file_loss (v : View) (hk : v.layouts.keys.Nodup ∧ v.fabs.keys.Nodup)
    (hn : (∀ e ∈ v.layouts, '.' ∉ e.1 ∧ '\n' ∉ e.1) ∧ (∀ e ∈ v.fabs, '.' ∉ e.1 ∧ '\n' ∉ e.1)) :
    (∃ e, View.parse v.reconstruct = .err e) ∨
    (View.parse v.reconstruct = .ok ⟨v.layouts, []⟩ ∧ v.fabs ≠ [] ∧ ∀ e ∈ v.layouts, e.2.views = []) ∨
    (∃ w, View.parse v.reconstruct = .ok w ∧ w.layouts.keys = v.layouts.keys ∧ w.fabs.keys = v.fabs.keys) := by
  by_cases hr : v.Readable
  · right; right
    exact ⟨_, View.parse_readable v hn hk hr, by simp [LMap.keys, View.normL], by simp [LMap.keys, View.normF]⟩
  · rcases View.parse_not_readable v hn hk hr with h | ⟨h1, h2, h3⟩
    · exact .inl h
    · exact .inr (.inl ⟨h3, h1, h2⟩)

/-- The text of a view file with a blank line after every layout, the form Sketchware uses. -/
def View.separated (v : View) : Str :=
  unlines ((v.layouts.flatMap fun e => ('@' :: (e.1 ++ s% ".xml")) :: (e.2.views.map AndroidView.reconstruct ++ [[]])) ++
    v.fabs.flatMap fun e => ['@' :: (e.1 ++ s% ".xml_fab"), e.2.reconstruct])

/-- C22: a file with a blank line after every layout is read back in full, however many layouts and FABs there
are: the reader is right, the writer forgets the separators. -/
theorem c22_reads_separated (v : View) (hk : v.layouts.keys.Nodup ∧ v.fabs.keys.Nodup)
    (hn : (∀ e ∈ v.layouts, '.' ∉ e.1 ∧ '\n' ∉ e.1) ∧ (∀ e ∈ v.fabs, '.' ∉ e.1 ∧ '\n' ∉ e.1))
    (hs : (∀ e ∈ v.layouts, ∀ w ∈ e.2.views, w.Storable) ∧ (∀ e ∈ v.fabs, e.2.Storable)) :
    View.parse v.separated = .ok v := by
  have hl : lines v.separated = (v.layouts.map View.secL ++ v.fabs.map View.secF).flatMap Section.toLines ++
      (View.Ending.stop [[]]).toLines := by
    unfold View.separated
    have e1 : ∀ es : List (Str × Layout), (es.flatMap fun e => ('@' :: (e.1 ++ s% ".xml")) ::
        (e.2.views.map AndroidView.reconstruct ++ [[]])) = (es.map View.secL).flatMap Section.toLines := by
      intro es; rw [List.flatMap_map]; rfl
    have e2 : ∀ es : List (Str × AndroidView), (es.flatMap fun e => ['@' :: (e.1 ++ s% ".xml_fab"), e.2.reconstruct]) =
        (es.map View.secF).flatMap Section.toLines := by
      intro es; rw [List.flatMap_map]; rfl
    rw [e1, e2, ← List.flatMap_append]
    have := lines_unlines (ps := (v.layouts.map View.secL ++ v.fabs.map View.secF).flatMap Section.toLines) (by
      intro p hp
      simp only [List.flatMap_append, List.mem_append, List.mem_flatMap, List.mem_map] at hp
      rcases hp with ⟨_, ⟨e, he, rfl⟩, hp⟩ | ⟨_, ⟨e, he, rfl⟩, hp⟩
      · simp only [View.secL, Section.toLines, List.mem_cons, List.mem_append, List.not_mem_nil, or_false] at hp
        rcases hp with rfl | hp | rfl
        · have := (hn.1 e he).2; simp [this]
        · exact (Layout.jlines _ _ hp).noNl
        · simp
      · simp only [View.secF, Section.toLines, List.mem_cons, List.not_mem_nil, or_false] at hp
        rcases hp with rfl | rfl
        · have := (hn.2 e he).2; simp [this]
        · exact e.2.jline.noNl) []
    rw [List.append_nil] at this
    rw [this]; rfl
  rw [View.parse_of_lines _ _ hl]
  · rw [List.foldl_append, View.foldl_secL _ ⟨[], []⟩ (by simpa using hk.1),
      View.foldl_secF _ _ (by simpa using hk.2)]
    simp only [View.Ending.result, List.nil_append, Out.ok.injEq]
    have h1 : v.layouts.map View.normL = v.layouts := (View.map_eq_self_iff _ _).mpr fun e he => by
      have : e.2.views.map AndroidView.norm = e.2.views :=
        (View.map_eq_self_iff _ _).mpr fun w hw => w.norm_eq_iff.mpr (hs.1 e he w hw).2
      simp [View.normL, this]
    have h2 : v.fabs.map View.normF = v.fabs := (View.map_eq_self_iff _ _).mpr fun e he => by
      simp [View.normF, e.2.norm_eq_iff.mpr (hs.2 e he).2]
    rw [h1, h2]
  · intro x hx
    simp only [List.mem_append, List.mem_map] at hx
    rcases hx with ⟨e, he, rfl⟩ | ⟨e, he, rfl⟩
    · exact View.wf_secL (hn.1 e he).1 fun w hw => (hs.1 e he w hw).1
    · exact View.wf_secF (hn.2 e he).1 (hs.2 e he).1
  · intro l hl; simp at hl; subst hl; decide

/-- The refuting file satisfies the hypotheses of the two theorems. -/
example : View.parse c22_witness.separated = .ok c22_witness :=
  c22_reads_separated _ ⟨by simp [c22_witness, LMap.keys], by simp [c22_witness, LMap.keys]⟩
    (by simp [c22_witness]) (by simp [c22_witness, newEmpty_storable])

/-- A file with one screen and a FAB satisfies the condition of the partial theorem. -/
example : View.parse (View.reconstruct ⟨[(s% "main", ⟨[AndroidView.newEmpty (s% "a") 3 (s% "root") 0]⟩)],
      [(s% "main", AndroidView.newEmpty (s% "_fab") 16 (s% "root") 0)]⟩) =
    .ok ⟨[(s% "main", ⟨[AndroidView.newEmpty (s% "a") 3 (s% "root") 0]⟩)],
      [(s% "main", AndroidView.newEmpty (s% "_fab") 16 (s% "root") 0)]⟩ := by
  rw [c22_view_file_round_trip_partial _ ⟨by simp [LMap.keys], by simp [LMap.keys]⟩]
  simp [AndroidView.parse_reconstruct_iff, newEmpty_storable]
end C22

/-! ## C60 — View parse errors report the line -/
section C60
variable [Floats] [MapPol]

/-- C60: parsing a view file never panics. -/
theorem c60_view_no_panic (s : Str) : View.parse s ≠ .panic := by
  obtain ⟨ss, e, hs, he, hl⟩ := View.decompose (lines s)
  rw [View.parse_of_lines hs he hl]
  cases e <;> simp [View.Ending.result]

theorem getElem?_mid {α : Type} (a : List α) (x : α) (b : List α) : (a ++ x :: b)[a.length]? = some x := by simp

/-- C60: a header without a dot, after any well-formed sections, is reported with its one-based line number and its text;
a FAB header on the last line with the number of lines plus one; a FAB that does not parse with the one-based
number of its line (the content reported is the header above it). -/
theorem c60_reports {s : Str} {ss : List Section} (hs : ∀ x ∈ ss, x.WF) :
    (∀ h rest, '.' ∉ h → lines s = ss.flatMap Section.toLines ++ ('@' :: h) :: rest →
      View.parse s = .err (.invalidHeader ((ss.flatMap Section.toLines).length + 1) ('@' :: h))) ∧
    (∀ name, '.' ∉ name → lines s = ss.flatMap Section.toLines ++ ['@' :: (name ++ s% ".xml_fab")] →
      View.parse s = .err (.eofAfterFabHeader name ((lines s).length + 1))) ∧
    (∀ name l rest, '.' ∉ name → AndroidView.parse l = none →
      lines s = ss.flatMap Section.toLines ++ ('@' :: (name ++ s% ".xml_fab")) :: l :: rest →
      View.parse s = .err (.fab name ((ss.flatMap Section.toLines).length + 2) ('@' :: (name ++ s% ".xml_fab")))) := by
  refine ⟨fun h rest hd hl => ?_, fun name hd hl => ?_, fun name l rest hd hp hl => ?_⟩
  · exact View.parse_of_lines (e := .noDot h rest) hs hd hl
  · rw [View.parse_of_lines (e := .noFab name) hs hd hl, hl]; simp [View.Ending.result]
  · exact View.parse_of_lines (e := .badFab name l rest) hs ⟨hd, hp⟩ hl

/-- C60: conversely, whatever the file, an error points at a line that has the fault. -/
theorem c60_error_location (s : Str) :
    (∀ n c, View.parse s = .err (.invalidHeader n c) →
      1 ≤ n ∧ (lines s)[n - 1]? = some c ∧ c.head? = some '@' ∧ '.' ∉ c) ∧
    (∀ name n, View.parse s = .err (.eofAfterFabHeader name n) →
      n = (lines s).length + 1 ∧ (lines s).getLast? = some ('@' :: (name ++ s% ".xml_fab"))) ∧
    (∀ name n c, View.parse s = .err (.fab name n c) →
      2 ≤ n ∧ c = '@' :: (name ++ s% ".xml_fab") ∧ (lines s)[n - 2]? = some c ∧
      ∃ l, (lines s)[n - 1]? = some l ∧ AndroidView.parse l = none) ∧
    (∀ name kind e, View.parse s = .err (.layout name kind e) →
      kind = s% "xml" ∧ AndroidView.parse e.content = none ∧
      ∃ k, (lines s)[k]? = some ('@' :: (name ++ s% ".xml")) ∧ (lines s)[k + 1 + e.line]? = some e.content) := by
  obtain ⟨ss, e, hs, he, hl⟩ := View.decompose (lines s)
  rw [View.parse_of_lines hs he hl, hl]
  generalize ss.flatMap Section.toLines = pre
  cases e with
  | stop | layout => simp [View.Ending.result]
  | noDot h rest =>
    simp only [View.Ending.result, View.Ending.toLines, Out.err.injEq, reduceCtorEq, false_implies, implies_true,
      and_true, ViewParseError.invalidHeader.injEq]
    rintro n c ⟨rfl, rfl⟩
    have := he
    simp only [View.Ending.WF] at this
    simp [this]
  | noFab name =>
    simp only [View.Ending.result, View.Ending.toLines, Out.err.injEq, reduceCtorEq, false_implies, implies_true,
      and_true, true_and, ViewParseError.eofAfterFabHeader.injEq]
    rintro name' n ⟨rfl, rfl⟩
    simp
  | badFab name l rest =>
    simp only [View.Ending.result, View.Ending.toLines, Out.err.injEq, reduceCtorEq, false_implies, implies_true,
      and_true, true_and, ViewParseError.fab.injEq]
    rintro name' n c ⟨rfl, rfl, rfl⟩
    refine ⟨by omega, rfl, ?_, l, ?_, he.2⟩
    · simp
    · rw [Nat.add_sub_assoc (by decide)]
      simp
  | badView name ls vs l rest =>
    simp only [View.Ending.result, View.Ending.toLines, Out.err.injEq, reduceCtorEq, false_implies, implies_true,
      true_and, ViewParseError.layout.injEq]
    rintro name' kind e' ⟨rfl, rfl, rfl⟩
    refine ⟨rfl, he.2.2.2, pre.length, by simp, ?_⟩
    have e2 : pre ++ (('@' :: (name ++ s% ".xml")) :: (ls ++ l :: rest)) =
        (pre ++ ('@' :: (name ++ s% ".xml")) :: ls) ++ l :: rest := by simp
    have e3 : pre.length + 1 + ls.length = (pre ++ ('@' :: (name ++ s% ".xml")) :: ls).length := by
      simp; omega
    simp only
    rw [e2, e3]
    exact getElem?_mid _ _ _

/-- Both kinds of error occur. -/
example : View.parse (s% "@main.xml\n\n@oops\n") = .err (.invalidHeader 3 (s% "@oops")) :=
  (c60_reports (s := s% "@main.xml\n\n@oops\n") (ss := [.layout (s% "main") [] []])
    (by simp [Section.WF]; exact .nil)).1 (s% "oops") [[]] (by decide) rfl
example : View.parse (s% "@main.xml_fab") = .err (.eofAfterFabHeader (s% "main") 2) :=
  (c60_reports (s := s% "@main.xml_fab") (ss := []) (by simp)).2.1 (s% "main") (by decide) rfl
end C60
end Swrs
