import Verif.Proofs.AndroidView
/-! The view file: sections, and the reading of reconstructed texts. -/
set_option linter.unusedSectionVars false
namespace Swrs

theorem Json.parse_at (s : Str) : Json.parse ('@' :: s) = none := by
  unfold Json.parse
  have : Json.parseVal (2 * ('@' :: s).length + 2) ('@' :: s) = none := by
    rw [Json.parseVal]
    have h : Json.skip ('@' :: s) = '@' :: s := by simp [Json.skip, Json.isSpace]
    rw [h]
    simp [Json.lexNum, Json.lexUNum, Json.lexInt, Json.lexDigits, isDigit]
  rw [this]

variable [Floats]

theorem AndroidView.parse_at (s : Str) : AndroidView.parse ('@' :: s) = none := by
  unfold AndroidView.parse Json.fromStr; rw [Json.parse_at]; rfl

namespace Layout

/-- Lines that parse to the given views. -/
abbrev Reads (ls : List Str) (vs : List AndroidView) : Prop := ReadsAll AndroidView.parse ls vs

theorem parseLoop_reads {ls : List Str} {vs : List AndroidView} (h : Reads ls vs) (rest : List Str)
    (acc : List AndroidView) (n : Nat) :
    parseLoop (ls ++ rest) acc n = parseLoop rest (acc ++ vs) (n + ls.length) := by
  induction h generalizing acc n with
  | nil => simp
  | cons hne hp _ ih =>
    rw [List.cons_append, parseLoop, if_neg hne, hp]
    simp only
    rw [ih, List.append_assoc, List.length_cons, Nat.add_assoc, Nat.add_comm 1]; rfl

theorem parseIter_blank {ls : List Str} {vs : List AndroidView} (h : Reads ls vs) (rest : List Str) :
    parseIter (ls ++ [] :: rest) = .ok (⟨vs⟩, rest) := by
  rw [parseIter, parseLoop_reads h, parseLoop]; simp

theorem parseIter_eof {ls : List Str} {vs : List AndroidView} (h : Reads ls vs) :
    parseIter ls = .ok (⟨vs⟩, []) := by
  have := parseLoop_reads h [] [] 0
  rw [List.append_nil] at this
  rw [parseIter, this, parseLoop]; simp

theorem parseIter_bad {ls : List Str} {vs : List AndroidView} (h : Reads ls vs) {l : Str} (hne : l ≠ [])
    (hl : AndroidView.parse l = none) (rest : List Str) :
    parseIter (ls ++ l :: rest) = .err ⟨vs.getLast?, l, ls.length⟩ := by
  rw [parseIter, parseLoop_reads h, parseLoop, if_neg hne, hl]; simp

/-- What `parseIter` does on any lines: the lines up to the first blank one all parse, or the first bad one is
reported. -/
theorem parseIter_cases (ls : List Str) :
    (∃ pre vs rest, ls = pre ++ [] :: rest ∧ Reads pre vs ∧ parseIter ls = .ok (⟨vs⟩, rest)) ∨
    (∃ vs, Reads ls vs ∧ parseIter ls = .ok (⟨vs⟩, [])) ∨
    (∃ pre vs l rest, ls = pre ++ l :: rest ∧ Reads pre vs ∧ l ≠ [] ∧ AndroidView.parse l = none ∧
      parseIter ls = .err ⟨vs.getLast?, l, pre.length⟩) := by
  have key : ∀ ls : List Str, (∃ pre vs rest, ls = pre ++ [] :: rest ∧ Reads pre vs) ∨ (∃ vs, Reads ls vs) ∨
      (∃ pre vs l rest, ls = pre ++ l :: rest ∧ Reads pre vs ∧ l ≠ [] ∧ AndroidView.parse l = none) := by
    intro ls
    induction ls with
    | nil => exact .inr (.inl ⟨[], .nil⟩)
    | cons l ls ih =>
      by_cases h0 : l = []
      · subst h0; exact .inl ⟨[], [], ls, rfl, .nil⟩
      · cases hp : AndroidView.parse l with
        | none => exact .inr (.inr ⟨[], [], l, ls, rfl, .nil, h0, hp⟩)
        | some v =>
          rcases ih with ⟨pre, vs, rest, rfl, hr⟩ | ⟨vs, hr⟩ | ⟨pre, vs, l', rest, rfl, hr, h1, h2⟩
          · exact .inl ⟨l :: pre, v :: vs, rest, rfl, .cons h0 hp hr⟩
          · exact .inr (.inl ⟨v :: vs, .cons h0 hp hr⟩)
          · exact .inr (.inr ⟨l :: pre, v :: vs, l', rest, rfl, .cons h0 hp hr, h1, h2⟩)
  rcases key ls with ⟨pre, vs, rest, rfl, hr⟩ | ⟨vs, hr⟩ | ⟨pre, vs, l, rest, rfl, hr, h1, h2⟩
  · exact .inl ⟨pre, vs, rest, rfl, hr, parseIter_blank hr rest⟩
  · exact .inr (.inl ⟨vs, hr, parseIter_eof hr⟩)
  · exact .inr (.inr ⟨pre, vs, l, rest, rfl, hr, h1, h2, parseIter_bad hr h1 h2 rest⟩)

theorem parseIter_length {ls : List Str} {l : Layout} {rest : List Str} (h : parseIter ls = .ok (l, rest)) :
    rest.length ≤ ls.length := by
  rcases parseIter_cases ls with ⟨pre, vs, rest', rfl, _, h'⟩ | ⟨vs, _, h'⟩ | ⟨_, _, _, _, _, _, _, _, h'⟩
  · rw [h'] at h; simp at h; obtain ⟨_, rfl⟩ := h; simp; omega
  · rw [h'] at h; simp at h; obtain ⟨_, rfl⟩ := h; simp
  · rw [h'] at h; simp at h

end Layout

namespace View
variable [MapPol]

/-- The number of rounds allowed does not matter once there are enough. -/
theorem loop_fuel (total : Nat) (f g : Nat) (ls : List Str) (n : Nat) (L : LMap Str Layout)
    (F : LMap Str AndroidView) (hf : ls.length < f) (hg : ls.length < g) :
    loop total f ls n L F = loop total g ls n L F := by
  induction f generalizing g ls n L F with
  | zero => omega
  | succ f ih =>
    cases g with
    | zero => omega
    | succ g =>
      cases ls with
      | nil => rfl
      | cons line rest =>
        simp only [List.length_cons] at hf hg
        rw [loop, loop]
        split
        · split
          · rfl
          · split
            · split
              · next rest' h =>
                have := Layout.parseIter_length h
                apply ih <;> omega
              · rfl
              · rfl
            · split
              · split
                · rfl
                · simp only [List.length_cons] at hf hg
                  split
                  · exact ih _ _ _ _ _ (by omega) (by omega)
                  · rfl
              · exact ih _ _ _ _ _ (by omega) (by omega)
        · rfl

/-- A loop with just enough rounds. -/
def run (total : Nat) (ls : List Str) (n : Nat) (L : LMap Str Layout) (F : LMap Str AndroidView) :
    Out ViewParseError View := loop total (ls.length + 1) ls n L F

theorem parse_run (s : Str) : parse s = run (lines s).length (lines s) 0 [] [] := rfl

theorem run_nil (total n : Nat) (L : LMap Str Layout) (F : LMap Str AndroidView) :
    run total [] n L F = .ok ⟨L, F⟩ := by simp [run, loop]

theorem run_stop (total n : Nat) (L : LMap Str Layout) (F : LMap Str AndroidView) {line : Str}
    (h : startsWith ['@'] line = false) (rest : List Str) :
    run total (line :: rest) n L F = .ok ⟨L, F⟩ := by
  rw [run, loop, h]; rfl

theorem run_noDot (total n : Nat) (L : LMap Str Layout) (F : LMap Str AndroidView) {h : Str}
    (hd : '.' ∉ h) (rest : List Str) :
    run total (('@' :: h) :: rest) n L F = .err (.invalidHeader (n + 1) ('@' :: h)) := by
  rw [run, loop]
  simp [splitOnce_eq_none.mpr hd]

theorem run_layout (total n : Nat) (L : LMap Str Layout) (F : LMap Str AndroidView) {name : Str} (hd : '.' ∉ name)
    {rest rest' : List Str} {l : Layout} (hl : Layout.parseIter rest = .ok (l, rest')) :
    run total (('@' :: (name ++ s% ".xml")) :: rest) n L F =
      run total rest' (total - rest'.length) (L.insert name l) F := by
  rw [run, loop]
  have hs : splitOnce '.' (name ++ s% ".xml") = some (name, s% "xml") := splitOnce_append hd
  simp only [startsWith_single, List.head?_cons, List.drop_one, List.tail_cons, hs, if_true, hl]
  have := Layout.parseIter_length hl
  exact loop_fuel _ _ _ _ _ _ _ (by simp; omega) (by omega)

theorem run_layout_err (total n : Nat) (L : LMap Str Layout) (F : LMap Str AndroidView) {name : Str} (hd : '.' ∉ name)
    {rest : List Str} {e : LayoutParseError} (hl : Layout.parseIter rest = .err e) :
    run total (('@' :: (name ++ s% ".xml")) :: rest) n L F = .err (.layout name (s% "xml") e) := by
  rw [run, loop]
  have hs : splitOnce '.' (name ++ s% ".xml") = some (name, s% "xml") := splitOnce_append hd
  simp only [startsWith_single, List.head?_cons, List.drop_one, List.tail_cons, hs, if_true, hl]

theorem run_fab (total n : Nat) (L : LMap Str Layout) (F : LMap Str AndroidView) {name : Str} (hd : '.' ∉ name)
    {rest : List Str} {l : Str} {v : AndroidView} (hl : AndroidView.parse l = some v) :
    run total (('@' :: (name ++ s% ".xml_fab")) :: l :: rest) n L F =
      run total rest (n + 2) L (F.insert name v) := by
  rw [run, loop]
  have hs : splitOnce '.' (name ++ s% ".xml_fab") = some (name, s% "xml_fab") := splitOnce_append hd
  simp only [startsWith_single, List.head?_cons, List.drop_one, List.tail_cons, hs, if_true, hl]
  rw [if_neg (by decide)]
  exact loop_fuel _ _ _ _ _ _ _ (by simp; try omega) (by omega)

theorem run_fab_err (total n : Nat) (L : LMap Str Layout) (F : LMap Str AndroidView) {name : Str} (hd : '.' ∉ name)
    {rest : List Str} {l : Str} (hl : AndroidView.parse l = none) :
    run total (('@' :: (name ++ s% ".xml_fab")) :: l :: rest) n L F =
      .err (.fab name (n + 2) ('@' :: (name ++ s% ".xml_fab"))) := by
  rw [run, loop]
  have hs : splitOnce '.' (name ++ s% ".xml_fab") = some (name, s% "xml_fab") := splitOnce_append hd
  simp only [startsWith_single, List.head?_cons, List.drop_one, List.tail_cons, hs, if_true, hl]
  rw [if_neg (by decide)]

theorem run_fab_eof (total n : Nat) (L : LMap Str Layout) (F : LMap Str AndroidView) {name : Str} (hd : '.' ∉ name) :
    run total [('@' :: (name ++ s% ".xml_fab"))] n L F = .err (.eofAfterFabHeader name (n + 2)) := by
  rw [run, loop]
  have hs : splitOnce '.' (name ++ s% ".xml_fab") = some (name, s% "xml_fab") := splitOnce_append hd
  simp only [startsWith_single, List.head?_cons, List.drop_one, List.tail_cons, hs, if_true]
  rw [if_neg (by decide)]

theorem run_other (total n : Nat) (L : LMap Str Layout) (F : LMap Str AndroidView) {name kind : Str} (hd : '.' ∉ name)
    (h1 : kind ≠ s% "xml") (h2 : kind ≠ s% "xml_fab") (rest : List Str) :
    run total (('@' :: (name ++ '.' :: kind)) :: rest) n L F = run total rest (n + 1) L F := by
  rw [run, loop]
  have hs : splitOnce '.' (name ++ '.' :: kind) = some (name, kind) := splitOnce_append hd
  simp only [startsWith_single, List.head?_cons, List.drop_one, List.tail_cons, hs, if_true]
  rw [if_neg h1, if_neg h2]
  exact loop_fuel _ _ _ _ _ _ _ (by simp; try omega) (by omega)

end View

/-- A section of a view file as its lines: a layout closed by a blank line, a FAB, or a header of another kind,
which is ignored. -/
inductive Section where
  | layout (name : Str) (ls : List Str) (vs : List AndroidView)
  | fab (name : Str) (l : Str) (v : AndroidView)
  | other (name kind : Str)

namespace Section

/-- The lines of a section. -/
def toLines : Section → List Str
  | layout name ls _ => ('@' :: (name ++ s% ".xml")) :: (ls ++ [[]])
  | fab name l _ => ['@' :: (name ++ s% ".xml_fab"), l]
  | other name kind => ['@' :: (name ++ '.' :: kind)]

/-- The section is well formed: the name has no dot and the lines are the texts of the views. -/
def WF : Section → Prop
  | layout name ls vs => '.' ∉ name ∧ Layout.Reads ls vs
  | fab name l v => '.' ∉ name ∧ AndroidView.parse l = some v
  | other name kind => '.' ∉ name ∧ kind ≠ s% "xml" ∧ kind ≠ s% "xml_fab"

/-- Effect of a section on the result. -/
def apply [MapPol] (v : View) : Section → View
  | layout name _ vs => { v with layouts := v.layouts.insert name ⟨vs⟩ }
  | fab name _ w => { v with fabs := v.fabs.insert name w }
  | other _ _ => v

end Section

namespace View
variable [MapPol]

theorem run_section {total n : Nat} {v : View} {s : Section} (hs : s.WF) {rest : List Str}
    (hn : n + (s.toLines ++ rest).length = total) :
    run total (s.toLines ++ rest) n v.layouts v.fabs =
      run total rest (n + s.toLines.length) (s.apply v).layouts (s.apply v).fabs := by
  cases s with
  | layout name ls vs =>
    obtain ⟨hd, hr⟩ := hs
    have := Layout.parseIter_blank hr rest
    simp only [Section.toLines, List.cons_append, List.append_assoc, List.nil_append]
    rw [run_layout total n _ _ hd this]
    simp only [Section.toLines, List.cons_append, List.length_cons, List.length_append, List.append_assoc,
      List.nil_append, List.length_nil] at hn ⊢
    have : total - rest.length = n + (ls.length + 1 + 1) := by omega
    rw [this]; rfl
  | fab name l w =>
    simp only [Section.toLines, List.cons_append, List.nil_append]
    rw [run_fab total n _ _ hs.1 hs.2]; rfl
  | other name kind =>
    simp only [Section.toLines, List.cons_append, List.nil_append]
    rw [run_other total n _ _ hs.1 hs.2.1 hs.2.2]; rfl

/-- Reading well-formed sections. -/
theorem run_sections {total : Nat} (ss : List Section) {n : Nat} {v : View} (hs : ∀ s ∈ ss, s.WF) {rest : List Str}
    (hn : n + (ss.flatMap Section.toLines ++ rest).length = total) :
    run total (ss.flatMap Section.toLines ++ rest) n v.layouts v.fabs =
      run total rest (n + (ss.flatMap Section.toLines).length) (ss.foldl Section.apply v).layouts
        (ss.foldl Section.apply v).fabs := by
  induction ss generalizing n v with
  | nil => simp
  | cons s ss ih =>
    rw [List.flatMap_cons, List.append_assoc] at hn ⊢
    rw [run_section (hs s (by simp)) hn, ih (fun t ht => hs t (by simp [ht]))]
    · simp [Nat.add_assoc]
    · rw [← hn]; simp; omega

/-- How the sections of a file end. -/
inductive Ending where
  /-- End of file, or a line that is no header: the rest is ignored. -/
  | stop (rest : List Str)
  /-- A last layout, closed by the end of the file. -/
  | layout (name : Str) (ls : List Str) (vs : List AndroidView)
  | noDot (h : Str) (rest : List Str)
  | badView (name : Str) (ls : List Str) (vs : List AndroidView) (l : Str) (rest : List Str)
  | badFab (name l : Str) (rest : List Str)
  | noFab (name : Str)

namespace Ending
/-- The lines of the ending. -/
def toLines : Ending → List Str
  | stop rest => rest
  | layout name ls _ => ('@' :: (name ++ s% ".xml")) :: ls
  | noDot h rest => ('@' :: h) :: rest
  | badView name ls _ l rest => ('@' :: (name ++ s% ".xml")) :: (ls ++ l :: rest)
  | badFab name l rest => ('@' :: (name ++ s% ".xml_fab")) :: l :: rest
  | noFab name => ['@' :: (name ++ s% ".xml_fab")]

/-- Well-formedness of the ending. -/
def WF : Ending → Prop
  | stop rest => ∀ l, rest.head? = some l → startsWith ['@'] l = false
  | layout name ls vs => '.' ∉ name ∧ Layout.Reads ls vs
  | noDot h _ => '.' ∉ h
  | badView name ls vs l _ => '.' ∉ name ∧ Layout.Reads ls vs ∧ l ≠ [] ∧ AndroidView.parse l = none
  | badFab name l _ => '.' ∉ name ∧ AndroidView.parse l = none
  | noFab name => '.' ∉ name

/-- The result, after `n` lines and with `v` read so far. -/
def result (n : Nat) (v : View) : Ending → Out ViewParseError View
  | stop _ => .ok v
  | layout name _ vs => .ok { v with layouts := v.layouts.insert name ⟨vs⟩ }
  | noDot h _ => .err (.invalidHeader (n + 1) ('@' :: h))
  | badView name ls vs l _ => .err (.layout name (s% "xml") ⟨vs.getLast?, l, ls.length⟩)
  | badFab name _ _ => .err (.fab name (n + 2) ('@' :: (name ++ s% ".xml_fab")))
  | noFab name => .err (.eofAfterFabHeader name (n + 2))
end Ending

theorem run_ending (total n : Nat) (v : View) {e : Ending} (he : e.WF) :
    run total e.toLines n v.layouts v.fabs = e.result n v := by
  cases e with
  | stop rest =>
    cases rest with
    | nil => exact run_nil _ _ _ _
    | cons l rest => exact run_stop _ _ _ _ (he l rfl) rest
  | layout name ls vs =>
    simp only [Ending.toLines]
    rw [run_layout total n _ _ he.1 (Layout.parseIter_eof he.2), run_nil]; rfl
  | noDot h rest => exact run_noDot _ _ _ _ he rest
  | badView name ls vs l rest =>
    exact run_layout_err _ _ _ _ he.1 (Layout.parseIter_bad he.2.1 he.2.2.1 he.2.2.2 rest)
  | badFab name l rest => exact run_fab_err _ _ _ _ he.1 he.2
  | noFab name => exact run_fab_eof _ _ _ _ he

/-- Reading a file made of sections and an ending. -/
theorem parse_of_lines {s : Str} {ss : List Section} {e : Ending} (hs : ∀ x ∈ ss, x.WF) (he : e.WF)
    (h : lines s = ss.flatMap Section.toLines ++ e.toLines) :
    parse s = e.result (ss.flatMap Section.toLines).length (ss.foldl Section.apply ⟨[], []⟩) := by
  rw [parse_run, h]
  have := run_sections ss (n := 0) (v := ⟨[], []⟩) hs (rest := e.toLines) (total := (ss.flatMap Section.toLines ++ e.toLines).length)
    (by simp)
  simp only at this
  rw [this, Nat.zero_add]
  exact run_ending _ _ _ he

/-- Every list of lines is made of sections and an ending. -/
theorem decompose (ls : List Str) : ∃ (ss : List Section) (e : Ending),
    (∀ x ∈ ss, x.WF) ∧ e.WF ∧ ls = ss.flatMap Section.toLines ++ e.toLines := by
  induction hk : ls.length using Nat.strongRecOn generalizing ls with
  | _ k ih =>
  subst hk
  cases ls with
  | nil => exact ⟨[], .stop [], by simp, by simp [Ending.WF], rfl⟩
  | cons line rest =>
    by_cases hat : startsWith ['@'] line = true
    · rw [startsWith_iff] at hat
      obtain ⟨h, rfl⟩ := hat
      cases hsp : splitOnce '.' h with
      | none => exact ⟨[], .noDot h rest, by simp, splitOnce_eq_none.mp hsp, rfl⟩
      | some p =>
        obtain ⟨name, kind⟩ := p
        obtain ⟨rfl, hd⟩ := splitOnce_eq_some.mp hsp
        by_cases h1 : kind = s% "xml"
        · subst h1
          rcases Layout.parseIter_cases rest with ⟨pre, vs, rest', rfl, hr, _⟩ | ⟨vs, hr, _⟩ | ⟨pre, vs, l, rest', rfl, hr, h1, h2, _⟩
          · obtain ⟨ss, e, h3, h4, h5⟩ := ih rest'.length (by simp; omega) rest' rfl
            exact ⟨.layout name pre vs :: ss, e, by simpa [Section.WF, hr, hd] using h3, h4,
              by simp [Section.toLines, h5]⟩
          · exact ⟨[], .layout name rest vs, by simp, ⟨hd, hr⟩, rfl⟩
          · exact ⟨[], .badView name pre vs l rest', by simp, ⟨hd, hr, h1, h2⟩, rfl⟩
        · by_cases h2 : kind = s% "xml_fab"
          · subst h2
            cases rest with
            | nil => exact ⟨[], .noFab name, by simp, hd, rfl⟩
            | cons l rest =>
              cases hp : AndroidView.parse l with
              | none => exact ⟨[], .badFab name l rest, by simp, ⟨hd, hp⟩, rfl⟩
              | some v =>
                obtain ⟨ss, e, h3, h4, h5⟩ := ih rest.length (by simp; omega) rest rfl
                exact ⟨.fab name l v :: ss, e, by simpa [Section.WF, hp, hd] using h3, h4,
                  by simp [Section.toLines, h5]⟩
          · obtain ⟨ss, e, h3, h4, h5⟩ := ih rest.length (by simp) rest rfl
            exact ⟨.other name kind :: ss, e, by simpa [Section.WF, h1, h2, hd] using h3, h4,
              by simp [Section.toLines, h5]⟩
    · refine ⟨[], .stop (line :: rest), by simp, ?_, rfl⟩
      intro l hl
      simp only [List.head?_cons, Option.some.injEq] at hl
      subst hl
      exact Bool.eq_false_iff.mpr hat

end View
end Swrs
