import Verif.Props.CutOff
/-!
# C117: blank lines at the end of the texts
-/
set_option linter.unusedSectionVars false
namespace Swrs
open Sections

/-- Specification: what may stand after the last line of a logic or view file without any effect: nothing, one or two line ends, or three line
ends — the end of the last line and two blank lines — and anything at all. -/
def c117_End (e : Str) : Prop := e = [] ∨ e = s% "\n" ∨ e = s% "\n\n" ∨ ∃ t, e = s% "\n\n\n" ++ t

/-- Any number of line ends is such an end. -/
theorem c117_end_replicate (k : Nat) : c117_End (List.replicate k '\n') := by
  match k with
  | 0 => exact .inl rfl
  | 1 => exact .inr (.inl rfl)
  | 2 => exact .inr (.inr (.inl rfl))
  | k + 3 => exact .inr (.inr (.inr ⟨List.replicate k '\n', rfl⟩))

theorem c117_lines {s e : Str} (h : c117_End e) :
    ∃ m, lines (s ++ e) = lines s ++ m ∧ (m = [] ∨ m = [[]] ∨ ∃ x, m = [] :: [] :: x) := by
  rcases h with rfl | rfl | rfl | ⟨t, rfl⟩
  · exact ⟨[], by simp, .inl rfl⟩
  · exact ⟨[[]], c116_lines_whole s [], .inr (.inl rfl)⟩
  · exact ⟨[[], []], c116_lines_whole s ['\n'], .inr (.inr ⟨[], rfl⟩)⟩
  · refine ⟨[] :: [] :: lines t, ?_, .inr (.inr ⟨_, rfl⟩)⟩
    rw [show s% "\n\n\n" ++ t = '\n' :: '\n' :: '\n' :: t from rfl, c116_lines_whole]
    rw [lines.eq_def ('\n' :: _), splitOn, if_pos rfl, splitOn, if_pos rfl]

theorem c117_lines_replicate (s : Str) : ∀ k, lines (s ++ List.replicate k '\n') = lines s ++ List.replicate k []
  | 0 => by simp
  | k + 1 => by
    rw [List.replicate_succ, c116_lines_whole]
    congr 1
    have := c117_lines_replicate [] k
    rw [List.nil_append] at this
    rw [this]
    rfl

/-! ### Logic files -/

theorem Logic.c117_sections {ls m : List Str} (hm : m = [] ∨ m = [[]] ∨ ∃ x, m = [] :: [] :: x) :
    Logic.sections (ls ++ m) = Logic.sections ls := by
  have key : ∀ (P Q : List (List Str)), (P ++ [] :: Q).takeWhile Logic.isSection = P.takeWhile Logic.isSection := by
    intro P Q
    induction P with
    | nil => rfl
    | cons p P ih =>
      rw [List.cons_append, List.takeWhile_cons, List.takeWhile_cons, ih]
  unfold Logic.sections
  rcases hm with rfl | rfl | ⟨x, rfl⟩
  · rw [List.append_nil]
  · rw [List.splitOn_append_cons_self]
    exact key _ []
  · rw [List.splitOn_append_cons_self]
    rw [show ([] : Str) :: x = [] ++ [] :: x from rfl, List.splitOn_append_cons_self]
    exact key _ _

/-- C117: the end of a logic file — line ends, or two blank lines and anything after them — has no effect on what is read or on the error. -/
theorem c117_logic [Floats] [MapPol] {s e : Str} (h : c117_End e) : Logic.parse (s ++ e) = Logic.parse s := by
  obtain ⟨m, h1, h2⟩ := c117_lines (s := s) h
  exact Logic.c69_sections_only (by rw [h1, Logic.c117_sections h2])

/-! ### View files -/

namespace View
variable [Floats] [MapPol]

theorem c117_iter (ls m : List Str) (hm : m = [] ∨ ∃ x, m = [] :: x) :
    (∃ l r, Layout.parseIter ls = .ok (l, r) ∧ Layout.parseIter (ls ++ m) = .ok (l, r ++ m)) ∨
    (∃ l, Layout.parseIter ls = .ok (l, []) ∧ Layout.parseIter (ls ++ m) = .ok (l, m.tail)) ∨
    ∃ e, Layout.parseIter ls = .err e ∧ Layout.parseIter (ls ++ m) = .err e := by
  rcases Layout.parseIter_cases ls with ⟨pre, vs, rest, rfl, hr, h⟩ | ⟨vs, hr, h⟩ | ⟨pre, vs, l, rest, rfl, hr, hne, hl, h⟩
  · refine .inl ⟨_, _, h, ?_⟩
    rw [List.append_assoc, List.cons_append, Layout.parseIter_blank hr]
  · refine .inr (.inl ⟨_, h, ?_⟩)
    rcases hm with rfl | ⟨x, rfl⟩
    · rw [List.append_nil]; exact h
    · rw [Layout.parseIter_blank hr]; rfl
  · refine .inr (.inr ⟨_, h, ?_⟩)
    rw [List.append_assoc, List.cons_append, Layout.parseIter_bad hr hne hl]

/-- The outcome is the same, or a floating button that is missing is reported as one that is not readable. -/
def c117_Same (a b : Out ViewParseError View) : Prop :=
  b = a ∨ ∃ name n line, a = .err (.eofAfterFabHeader name n) ∧ b = .err (.fab name n line)

theorem c117_androidView_nil : AndroidView.parse [] = none := by rfl

theorem c117_loop {m : List Str} (hm : m = [] ∨ m = [[]] ∨ ∃ x, m = [] :: [] :: x) (total : Nat) :
    ∀ (fuel fuel' : Nat) (ls : List Str) (n : Nat) (L : LMap Str Layout) (F : LMap Str AndroidView),
      ls.length < fuel → (ls ++ m).length < fuel' →
      c117_Same (loop total fuel ls n L F) (loop (total + m.length) fuel' (ls ++ m) n L F) := by
  have hm1 : m = [] ∨ ∃ x, m = [] :: x := by
    rcases hm with rfl | rfl | ⟨x, rfl⟩
    · exact .inl rfl
    · exact .inr ⟨_, rfl⟩
    · exact .inr ⟨_, rfl⟩
  have stop : ∀ (t f n : Nat) (L : LMap Str Layout) (F : LMap Str AndroidView) (r : List Str), r = [] ∨ (∃ x, r = [] :: x) →
      loop t f r n L F = .ok ⟨L, F⟩ := by
    intro t f n L F r hr
    cases f with
    | zero => rfl
    | succ f => rcases hr with rfl | ⟨x, rfl⟩ <;> rfl
  have ht : m.tail = [] ∨ ∃ x, m.tail = [] :: x := by
    rcases hm with rfl | rfl | ⟨x, rfl⟩
    · exact .inl rfl
    · exact .inl rfl
    · exact .inr ⟨_, rfl⟩
  intro fuel
  induction fuel with
  | zero => intro fuel' ls n L F h; omega
  | succ fuel ih =>
    intro fuel' ls n L F h h'
    cases fuel' with
    | zero => omega
    | succ fuel' =>
      cases ls with
      | nil =>
        rw [List.nil_append, stop _ _ _ _ _ m hm1]
        exact .inl rfl
      | cons line rest =>
        simp only [List.length_cons, List.length_append] at h h'
        rw [List.cons_append, loop, loop]
        split
        · split
          · exact .inl rfl
          · split
            · rcases c117_iter rest m hm1 with ⟨l, r, h1, h2⟩ | ⟨l, h1, h2⟩ | ⟨e, h1, h2⟩
              · rw [h1, h2]
                simp only
                rw [List.length_append, Nat.add_sub_add_right]
                have := Layout.parseIter_length h1
                have := Layout.parseIter_length h2
                simp only [List.length_append] at this
                exact ih _ _ _ _ _ (by omega) (by rw [List.length_append]; omega)
              · rw [h1, h2]
                simp only
                rw [stop _ _ _ _ _ _ ht, stop _ _ _ _ _ [] (.inl rfl)]
                exact .inl rfl
              · rw [h1, h2]; exact .inl rfl
            · split
              · cases rest with
                | nil =>
                  rcases hm1 with rfl | ⟨x, rfl⟩
                  · exact .inl rfl
                  · simp only [List.nil_append, c117_androidView_nil]
                    exact .inr ⟨_, _, _, rfl, rfl⟩
                | cons l rest' =>
                  simp only [List.cons_append]
                  split
                  · simp only [List.length_cons] at h h'
                    exact ih _ _ _ _ _ (by omega) (by rw [List.length_append]; omega)
                  · exact .inl rfl
              · exact ih _ _ _ _ _ (by omega) (by rw [List.length_append]; omega)
        · exact .inl rfl

/-- C117: the end of a view file — line ends, or two blank lines and anything after them — has no effect on what is read, nor on the error, except
that a floating button that is missing at the end is reported as one that is not readable. -/
theorem c117_view {s e : Str} (h : c117_End e) : c117_Same (View.parse s) (View.parse (s ++ e)) := by
  obtain ⟨m, h1, h2⟩ := c117_lines (s := s) h
  unfold View.parse
  rw [h1, List.length_append]
  exact c117_loop h2 _ _ _ _ _ _ _ (by omega) (by rw [List.length_append]; omega)

/-- C117: a view file is read with such an end as without. -/
theorem c117_view_ok {s e : Str} (h : c117_End e) (v : View) : View.parse (s ++ e) = .ok v ↔ View.parse s = .ok v := by
  rcases c117_view (s := s) h with h | ⟨_, _, _, h1, h2⟩
  · rw [h]
  · rw [h1, h2]; simp

end View

/-! ### The lists of files and resources -/

theorem c117_gloop {σ α : Type} {header : Str → Option σ} {read : Str → Option α} (h0 : header [] = none) (k : Nat) :
    ∀ (ls : List Str) (sec : Option σ) (acc : List (σ × α)) (n : Nat),
      gloop header read (ls ++ List.replicate k []) sec acc n = gloop header read ls sec acc n
  | [], sec, acc, n => by
    rw [List.nil_append]
    cases sec with
    | some s =>
      cases k with
      | zero => rfl
      | succ k => rw [List.replicate_succ, gloop_cons, h0]; simp [gloop]
    | none =>
      induction k generalizing n with
      | zero => rfl
      | succ k ih =>
        rw [List.replicate_succ, gloop_cons, h0]
        simp only
        rw [ih (n + 1)]
        rfl
  | l :: ls, sec, acc, n => by
    rw [List.cons_append, gloop_cons, gloop_cons]
    split
    · exact c117_gloop h0 k ls _ _ _
    · split
      · exact c117_gloop h0 k ls _ _ _
      · split
        · rfl
        · split
          · rfl
          · exact c117_gloop h0 k ls _ _ _

theorem c117_gloop_sec {σ α : Type} {header : Str → Option σ} {read : Str → Option α} (h0 : header [] = none) (m : List Str) :
    ∀ (ls : List Str) (sec : Option σ) (acc : List (σ × α)) (n : Nat), (sec ≠ none ∨ ∃ l ∈ ls, header l ≠ none) →
      gloop header read (ls ++ [] :: m) sec acc n = gloop header read ls sec acc n
  | [], sec, acc, n, h => by
    rw [List.nil_append, gloop_cons, h0]
    cases sec with
    | some s => simp [gloop]
    | none => rcases h with h | ⟨_, h, _⟩
              · exact absurd rfl h
              · cases h
  | l :: ls, sec, acc, n, h => by
    rw [List.cons_append, gloop_cons, gloop_cons]
    split
    · exact c117_gloop_sec h0 m ls _ _ _ (.inl (by simp))
    · rename_i hl
      split
      · refine c117_gloop_sec h0 m ls _ _ _ ?_
        rcases h with h | ⟨x, hx, hh⟩
        · exact absurd rfl h
        · rcases List.mem_cons.mp hx with rfl | hx
          · exact absurd hl hh
          · exact .inr ⟨x, hx, hh⟩
      · split
        · rfl
        · split
          · rfl
          · exact c117_gloop_sec h0 m ls _ _ _ (.inl (by simp))

/-- C117: line ends at the end of a list of files have no effect on what is read or on the error. -/
theorem c117_file (s : Str) (k : Nat) : File.parse (s ++ List.replicate k '\n') = File.parse s := by
  rw [c116_file_gloop, c116_file_gloop, c117_lines_replicate, c117_gloop (by rfl)]

/-- C117: nor has anything after a blank line, in a list that has a section. -/
theorem c117_file_rest {s : Str} (h : s% "@activity" ∈ lines s ∨ s% "@customview" ∈ lines s) (t : Str) :
    File.parse (s ++ s% "\n\n" ++ t) = File.parse s := by
  rw [List.append_assoc, show s% "\n\n" ++ t = '\n' :: '\n' :: t from rfl, c116_file_gloop, c116_file_gloop, c116_lines_whole,
    show lines ('\n' :: t) = [] :: lines t from by rw [lines, splitOn, if_pos rfl], c117_gloop_sec (by rfl)]
  rcases h with h | h
  · exact .inr ⟨_, h, by decide⟩
  · exact .inr ⟨_, h, by decide⟩

/-- C117: line ends at the end of a list of resources have no effect on what is read or on the error. -/
theorem c117_resource (s : Str) (k : Nat) : Resource.parse (s ++ List.replicate k '\n') = Resource.parse s := by
  rw [c116_resource_gloop, c116_resource_gloop, c117_lines_replicate, c117_gloop (by rfl)]

/-- C117: nor has anything after a blank line, in a list that has a section. -/
theorem c117_resource_rest {s : Str} (h : s% "@images" ∈ lines s ∨ s% "@sounds" ∈ lines s ∨ s% "@fonts" ∈ lines s) (t : Str) :
    Resource.parse (s ++ s% "\n\n" ++ t) = Resource.parse s := by
  rw [List.append_assoc, show s% "\n\n" ++ t = '\n' :: '\n' :: t from rfl, c116_resource_gloop, c116_resource_gloop, c116_lines_whole,
    show lines ('\n' :: t) = [] :: lines t from by rw [lines, splitOn, if_pos rfl], c117_gloop_sec (by rfl)]
  rcases h with h | h | h
  · exact .inr ⟨_, h, by decide⟩
  · exact .inr ⟨_, h, by decide⟩
  · exact .inr ⟨_, h, by decide⟩

/-! ### The libraries -/

namespace Library

theorem c117_loop (k : Nat) : ∀ (ls : List Str) (a : Acc) (n : Nat),
    loop (ls ++ List.replicate k []) a n = loop ls a n ∨
      ∃ h n', loop ls a n = .err (.eofAfterHeader h) ∧ loop (ls ++ List.replicate k []) a n = .err (.item h n')
  | [], a, n => by
    refine .inl ?_
    rw [List.nil_append]
    induction k generalizing n with
    | zero => rfl
    | succ k ih =>
      rw [List.replicate_succ, loop.eq_def]
      exact ih (n + 1)
  | [x], a, n => by
    rw [List.singleton_append, loop.eq_def, loop.eq_def [x]]
    simp only
    split
    · cases k with
      | zero => exact .inl rfl
      | succ k => exact .inr ⟨_, _, rfl, rfl⟩
    · exact c117_loop k [] a (n + 1)
  | x :: y :: ls, a, n => by
    rw [List.cons_append, List.cons_append, loop.eq_def, loop.eq_def (x :: y :: ls)]
    simp only
    split
    · split
      · exact .inl rfl
      · exact c117_loop k ls _ _
    · exact c117_loop k (y :: ls) _ _

end Library

/-- C117: line ends at the end of a library file have no effect on what is read, nor on the error, except that a library that is missing at the end
is reported as one that is not readable. -/
theorem c117_library (s : Str) (k : Nat) : Library.parse (s ++ List.replicate k '\n') = Library.parse s ∨
    ∃ h n, Library.parse s = .err (.eofAfterHeader h) ∧ Library.parse (s ++ List.replicate k '\n') = .err (.item h n) := by
  unfold Library.parse
  rw [c117_lines_replicate]
  rcases Library.c117_loop k (lines s) {} 0 with h | ⟨h, n, h1, h2⟩
  · rw [h]; exact .inl rfl
  · rw [h1, h2]; exact .inr ⟨_, _, rfl, rfl⟩

/-- C117: a library file is read with line ends at the end as without. -/
theorem c117_library_ok (s : Str) (k : Nat) (l : Library) : Library.parse (s ++ List.replicate k '\n') = .ok l ↔ Library.parse s = .ok l := by
  rcases c117_library s k with h | ⟨_, _, h1, h2⟩
  · rw [h]
  · rw [h1, h2]; simp

/-! ### The project -/

theorem c117_members_last : ∀ {ms : List (Option Str × Json)} {t : Str}, Json.Members ms t → t.getLast? = some '}'
  | _, _, .one .. => by simp [List.getLast?_append, List.getLast?_cons]
  | _, _, .cons _ _ _ _ _ _ hs => by
    have := c117_members_last hs
    simp [List.getLast?_append, List.getLast?_cons, this]

theorem c117_obj_last {ms : List (Str × Json)} {t : Str} (h : Json.Val (.obj ms) t) : t.getLast? = some '}' := by
  cases h with
  | obj0 _ => simp [List.getLast?_append, List.getLast?_cons]
  | obj h =>
    have := c117_members_last h
    simp [List.getLast?_cons, this]

theorem c117_lit_last {o : Option Str} {t : Str} (h : Json.Lit o t) : t.getLast? = some '"' := by
  induction h with
  | _ => simp_all [List.getLast?_append, List.getLast?_cons]

theorem c117_prefix {a r s w : Str} {c : Char} (ha : a.getLast? = some c) (hc : Json.isSpace c = false) (hw : Json.Space w) (h : a ++ r = s ++ w) :
    ∃ r', s = a ++ r' ∧ r = r' ++ w := by
  rcases List.append_eq_append_iff.mp h with ⟨x, rfl, hx⟩ | ⟨x, rfl, hx⟩
  · exact ⟨x, rfl, hx⟩
  · rcases List.eq_nil_or_concat x with rfl | ⟨y, z, rfl⟩
    · exact ⟨[], by simp, by simpa using hx.symm⟩
    · rw [List.concat_eq_append] at ha hx
      have hz : z = c := by simpa [List.getLast?_append] using ha
      have : Json.isSpace z = true := Json.isSpace_iff.mpr (hw z (by rw [hx]; simp))
      rw [hz, hc] at this
      cases this

theorem c117_isText {ms : List (Str × Json)} {s w : Str} (hw : Json.Space w) : Json.IsText (.obj ms) (s ++ w) ↔ Json.IsText (.obj ms) s := by
  constructor
  · rintro ⟨w0, t, w1, h, h0, ht, h1⟩
    have hl : (w0 ++ t).getLast? = some '}' := by simp [List.getLast?_append, c117_obj_last ht]
    obtain ⟨r, rfl, rfl⟩ := c117_prefix hl (by decide) hw (r := w1) (s := s) (by rw [h, List.append_assoc])
    exact ⟨w0, t, r, by simp, h0, ht, fun c hc => h1 c (by simp [hc])⟩
  · rintro ⟨w0, t, w1, rfl, h0, ht, h1⟩
    refine ⟨w0, t, w1 ++ w, by simp, h0, ht, fun c hc => ?_⟩
    rcases List.mem_append.mp hc with hc | hc
    · exact h1 c hc
    · exact hw c hc

theorem c117_project_iff [Floats] (s : Str) (p : Project) :
    Project.parse s = .ok p ↔ ∃ ms, Json.IsText (.obj ms) s ∧ Project.dec (.obj ms) = .ok p := by
  constructor
  · intro h
    unfold Project.parse at h
    rw [Out.bind_eq_ok] at h
    obtain ⟨_, _, h⟩ := h
    cases hj : Json.parse s with
    | none => rw [hj] at h; cases h
    | some j =>
      rw [hj] at h
      have : ∃ ms, j = .obj ms := by
        cases j with
        | obj ms => exact ⟨ms, rfl⟩
        | _ => simp [Project.dec] at h
      obtain ⟨ms, rfl⟩ := this
      exact ⟨ms, Json.parse_iff.mp hj, h⟩
  · rintro ⟨ms, h1, h2⟩
    unfold Project.parse
    rw [Project.membersRead_text h1, Json.parse_iff.mpr h1]
    have hv : Project.visit [] ms = .ok () := by
      rw [Project.dec, Out.bind_eq_ok] at h2
      exact h2.choose_spec.1
    rw [hv]
    exact h2

/-- C117: white space at the end of a project file has no effect on what is read, on whether it is refused, or on whether reading it panics. -/
theorem c117_project [Floats] (s : Str) {w : Str} (hw : Json.Space w) : Project.parse (s ++ w) = Project.parse s := by
  have hok : ∀ p, Project.parse (s ++ w) = .ok p ↔ Project.parse s = .ok p := by
    intro p
    rw [c117_project_iff, c117_project_iff]
    simp only [c117_isText hw]
  have hpanic : Project.parse (s ++ w) = .panic ↔ Project.parse s = .panic := by
    constructor
    · intro h
      obtain ⟨w0, pre, u, w', l, w1, w2, t', x, rest, he, h'⟩ := (c82_project_panics _).mp h
      have hx := c117_lit_last h'.2.2.2.2.2.2.1
      obtain ⟨r, h1, h2⟩ := c117_prefix (a := w0 ++ '{' :: (u ++ (w' ++ '"' :: (l ++ (w1 ++ ':' :: (w2 ++ '"' :: x)))))) (r := rest) (s := s)
        (c := '"') (by simp [List.getLast?_append, List.getLast?_cons, hx]) (by decide) hw (by rw [he]; simp)
      exact (c82_project_panics _).mpr ⟨w0, pre, u, w', l, w1, w2, t', x, r, by rw [h1]; simp, h'⟩
    · intro h
      obtain ⟨w0, pre, u, w', l, w1, w2, t', x, rest, he, h'⟩ := (c82_project_panics _).mp h
      exact (c82_project_panics _).mpr ⟨w0, pre, u, w', l, w1, w2, t', x, rest ++ w, by rw [he]; simp, h'⟩
  cases h : Project.parse s with
  | ok p => exact (hok p).mpr h
  | panic => exact hpanic.mpr h
  | err e =>
    cases h' : Project.parse (s ++ w) with
    | ok p => rw [(hok p).mp h'] at h; cases h
    | panic => rw [hpanic.mp h'] at h; cases h
    | err e' => rfl

/-! ### The project as a whole -/

/-- C117: a project whose texts have line ends after them is opened as without them. -/
theorem c117_opened [MapPol] [Floats] (ex : PathBuf → Bool) (r : RawSketchwareProject) (k1 k2 k3 k4 k5 k6 : Nat) (q : SketchwareProject) :
    SketchwareProject.parseFrom ex
      { project := r.project ++ List.replicate k1 '\n', file := r.file ++ List.replicate k2 '\n', library := r.library ++ List.replicate k3 '\n',
        resource := r.resource ++ List.replicate k4 '\n', view := r.view ++ List.replicate k5 '\n', logic := r.logic ++ List.replicate k6 '\n',
        resourceFiles := r.resourceFiles } = .ok q ↔
    SketchwareProject.parseFrom ex r = .ok q := by
  have hw : Json.Space (List.replicate k1 '\n') := by
    intro c hc
    rw [List.eq_of_mem_replicate hc]
    exact .inr (.inl rfl)
  simp only [SketchwareProject.parseFrom, Out.bind_eq_ok, Out.mapErr_eq_ok, c117_project _ hw, c117_file, c117_resource, c117_library_ok,
    View.c117_view_ok (c117_end_replicate k5), c117_logic (c117_end_replicate k6)]

/-! ### What is not without effect -/

/-- C117: a line with a space at the end is not without effect on a list of files or of resources, a view or a logic file: it is refused. -/
theorem c117_space_false [Floats] [MapPol] :
    (∃ s f, File.parse s = .ok f ∧ File.parse (s ++ s% "\n ") = .err (.item 1 (s% " "))) ∧
    (∃ s f, Resource.parse s = .ok f ∧ Resource.parse (s ++ s% "\n ") = .err (.item .images 1)) ∧
    (∃ s v e, View.parse s = .ok v ∧ View.parse (s ++ s% "\n ") = .err e) ∧
    (∃ s l e, Logic.parse s = .ok l ∧ Logic.parse (s ++ s% "\n ") = .err e) :=
  ⟨⟨s% "@activity", ⟨[], []⟩, by decide +kernel, by decide +kernel⟩, ⟨s% "@images", ⟨[], [], []⟩, by decide +kernel, by decide +kernel⟩,
    ⟨s% "@a.xml", ⟨[(s% "a", ⟨[]⟩)], []⟩, _, rfl, rfl⟩,
    ⟨s% "@A.java_x", ⟨[(s% "A", { ScreenLogic.newEmpty (s% "A") with blockContainers := [(s% "x", ⟨[]⟩)] })]⟩, _, rfl, rfl⟩⟩

/-- C117: what follows one blank line is read, in a view and in a logic file. -/
theorem c117_one_blank_false [Floats] [MapPol] :
    (∃ s t, View.parse (s ++ s% "\n\n" ++ t) ≠ View.parse s) ∧ ∃ s t, Logic.parse (s ++ s% "\n\n" ++ t) ≠ Logic.parse s := by
  refine ⟨⟨s% "@a.xml", s% "@b", ?_⟩, ⟨s% "@A.java_x", s% "@b", ?_⟩⟩
  · rw [show View.parse (s% "@a.xml") = .ok ⟨[(s% "a", ⟨[]⟩)], []⟩ from rfl]
    intro h
    cases h
  · rw [show Logic.parse (s% "@A.java_x") = .ok ⟨[(s% "A", { ScreenLogic.newEmpty (s% "A") with blockContainers := [(s% "x", ⟨[]⟩)] })]⟩ from rfl]
    intro h
    cases h

/-! ### Examples -/

/-- `c117_logic` and `c117_view`: two blank lines and a section that is not read. -/
example [Floats] [MapPol] : c117_End (s% "\n\n\n@b.xml") ∧
    View.parse (s% "@a.xml" ++ s% "\n\n\n@b.xml") = .ok ⟨[(s% "a", ⟨[]⟩)], []⟩ ∧
    Logic.parse (s% "@A.java_x" ++ s% "\n\n\n@b.xml") =
      .ok ⟨[(s% "A", { ScreenLogic.newEmpty (s% "A") with blockContainers := [(s% "x", ⟨[]⟩)] })]⟩ :=
  ⟨.inr (.inr (.inr ⟨s% "@b.xml", rfl⟩)), rfl, rfl⟩
/-- `View.c117_view`: the case of the floating button that is missing. -/
example [Floats] [MapPol] : View.parse (s% "@a.xml_fab") = .err (.eofAfterFabHeader (s% "a") 2) ∧
    View.parse (s% "@a.xml_fab" ++ s% "\n") = .err (.fab (s% "a") 2 (s% "@a.xml_fab")) := ⟨rfl, rfl⟩
/-- `c117_file` and `c117_file_rest`: an activity, and a section after a blank line that is not read. -/
example : ∃ f, File.parse (s% "@activity\n{\"fileName\":\"a\",\"fileType\":0,\"keyboardSetting\":0,\"options\":1,\"orientation\":0,\"theme\":-1}" ++
      s% "\n\n" ++ s% "@customview\n?") = .ok f ∧ f.activities.length = 1 ∧
    s% "@activity" ∈ lines (s% "@activity\n{\"fileName\":\"a\",\"fileType\":0,\"keyboardSetting\":0,\"options\":1,\"orientation\":0,\"theme\":-1}") :=
  ⟨⟨[⟨s% "a", .activity, .unspecified, ⟨true, false, false, false⟩, .portrait, .none⟩], []⟩, by decide +kernel⟩
/-- `c117_resource` and `c117_resource_rest`: an image, and a section after a blank line that is not read. -/
example : Resource.parse (s% "@images\n{\"resFullName\":\"a\",\"resName\":\"b\",\"resType\":1}" ++ s% "\n\n" ++ s% "@fonts\n?") =
      .ok ⟨[⟨s% "a", s% "b", 1⟩], [], []⟩ ∧
    s% "@images" ∈ lines (s% "@images\n{\"resFullName\":\"a\",\"resName\":\"b\",\"resType\":1}") := by decide +kernel
/-- `c117_library`: the libraries, and the case of the library that is missing. -/
example : Library.parse (Library.reconstruct ⟨sampleLib [], sampleLib [], sampleLib (s% "a"), sampleLib []⟩ ++ List.replicate 3 '\n') =
      .ok ⟨sampleLib [], sampleLib [], sampleLib (s% "a"), sampleLib []⟩ ∧
    Library.parse (s% "@compat") = .err (.eofAfterHeader (s% "@compat")) ∧
    Library.parse (s% "@compat" ++ List.replicate 1 '\n') = .err (.item (s% "@compat") 0) := by decide +kernel
/-- `c117_project` and `c117_opened`: the project of C114, with white space after it. -/
example : Json.Space (s% " \r\n\t\n") ∧ @Project.parse toyFloats.toFloats (c114_projectText ++ s% " \r\n\t\n") =
    .ok ⟨601, s% "A", s% "W", s% "a.b", 1, s% "1.0", 1641092645, false, .default, 150⟩ := by
  let _ : Floats := toyFloats.toFloats
  have hs : Json.Space (s% " \r\n\t\n") := by
    intro c hc
    revert c
    decide
  refine ⟨hs, ?_⟩
  rw [c117_project _ hs]
  exact c114_projectText_read

end Swrs
