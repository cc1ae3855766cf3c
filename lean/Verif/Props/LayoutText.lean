import Verif.Props.View
import Verif.Base.All2
/-!
# C133: a layout as a text of its own, and the view before an error
-/
set_option linter.unusedSectionVars false
namespace Swrs.Layout
variable [Floats]

/-- Specification: the lines of a text before its first blank line. -/
def c133_lines (s : Str) : List Str := (lines s).takeWhile fun l => l ≠ []

theorem c133_split (ls : List Str) : (∃ rest, ls = ls.takeWhile (fun l => l ≠ []) ++ [] :: rest) ∨ ls.takeWhile (fun l => l ≠ []) = ls := by
  induction ls with
  | nil => exact .inr rfl
  | cons l ls ih =>
    by_cases h : l = []
    · subst h
      exact .inl ⟨ls, by simp⟩
    · rw [List.takeWhile_cons, if_pos (by simpa using h)]
      rcases ih with ⟨rest, e⟩ | e
      · exact .inl ⟨rest, by rw [List.cons_append, ← e]⟩
      · exact .inr (by rw [e])

theorem c133_reads {ls : List Str} {vs : List AndroidView} (hl : ∀ l ∈ ls, l ≠ []) : Reads ls vs ↔ All₂ (fun l v => AndroidView.parse l = some v) ls vs := by
  constructor
  · intro h
    induction h with
    | nil => exact .nil
    | cons _ hp _ ih => exact .cons hp (ih fun l h => hl l (by simp [h]))
  · intro h
    induction h with
    | nil => exact .nil
    | cons hp _ ih => exact .cons (hl _ (by simp)) hp (ih fun l h => hl l (by simp [h]))

theorem c133_nonblank (s : Str) : ∀ l ∈ c133_lines s, l ≠ [] := by
  intro l hl
  unfold c133_lines at hl
  generalize lines s = ls at hl
  induction ls with
  | nil => cases hl
  | cons x ls ih =>
    rw [List.takeWhile_cons] at hl
    split at hl
    · rename_i h
      rcases List.mem_cons.mp hl with rfl | hl
      · simpa using h
      · exact ih hl
    · cases hl

/-- The three things that can happen are one of two. -/
theorem c133_cases (s : Str) :
    (∃ vs, All₂ (fun l v => AndroidView.parse l = some v) (c133_lines s) vs ∧ parse s = .ok ⟨vs⟩) ∨
    ∃ pre l post vs, c133_lines s = pre ++ l :: post ∧ All₂ (fun l v => AndroidView.parse l = some v) pre vs ∧ AndroidView.parse l = none ∧
      parse s = .err ⟨vs.getLast?, l, pre.length⟩ := by
  have nb := c133_nonblank s
  have key : (∃ vs, All₂ (fun l v => AndroidView.parse l = some v) (c133_lines s) vs) ∨
      ∃ pre l post vs, c133_lines s = pre ++ l :: post ∧ All₂ (fun l v => AndroidView.parse l = some v) pre vs ∧ AndroidView.parse l = none := by
    generalize c133_lines s = ls
    induction ls with
    | nil => exact .inl ⟨[], .nil⟩
    | cons l ls ih =>
      cases hp : AndroidView.parse l with
      | none => exact .inr ⟨[], l, ls, [], rfl, .nil, hp⟩
      | some v =>
        rcases ih with ⟨vs, h⟩ | ⟨pre, l', post, vs, rfl, h1, h2⟩
        · exact .inl ⟨v :: vs, .cons hp h⟩
        · exact .inr ⟨l :: pre, l', post, v :: vs, rfl, .cons hp h1, h2⟩
  rcases key with ⟨vs, h⟩ | ⟨pre, l, post, vs, e, h, hl⟩
  · refine .inl ⟨vs, h, ?_⟩
    have hr := (c133_reads nb).mpr h
    unfold parse
    rcases c133_split (lines s) with ⟨rest, e⟩ | e
    · rw [e]
      have := parseIter_blank hr rest
      unfold c133_lines at this
      rw [this]; rfl
    · have := parseIter_eof hr
      unfold c133_lines at this
      rw [e] at this
      rw [this]; rfl
  · refine .inr ⟨pre, l, post, vs, e, h, hl, ?_⟩
    have hr := (c133_reads fun l' hl' => nb l' (by rw [e]; simp [hl'])).mpr h
    have hne : l ≠ [] := nb l (by rw [e]; simp)
    obtain ⟨rest, e'⟩ : ∃ rest, lines s = pre ++ l :: rest := by
      have e2 : (lines s).takeWhile (fun l => l ≠ []) = pre ++ l :: post := e
      rcases c133_split (lines s) with ⟨rest, e3⟩ | e3
      · rw [e2] at e3
        exact ⟨post ++ [] :: rest, by rw [e3]; simp⟩
      · exact ⟨post, by rw [← e2, e3]⟩
    unfold parse
    rw [e', parseIter_bad hr hne hl]
    rfl

theorem c133_unique {ls : List Str} {vs ws : List AndroidView} (h : All₂ (fun l v => AndroidView.parse l = some v) ls vs)
    (h' : All₂ (fun l v => AndroidView.parse l = some v) ls ws) : vs = ws := by
  induction h generalizing ws with
  | nil => cases h'; rfl
  | cons h _ ih =>
    cases h' with
    | cons h1 h2 =>
      rw [h] at h1
      rw [Option.some.inj h1, ih h2]

theorem c133_all {ls : List Str} {vs : List AndroidView} (h : All₂ (fun l v => AndroidView.parse l = some v) ls vs) : ∀ l ∈ ls, AndroidView.parse l ≠ none := by
  induction h with
  | nil => simp
  | cons h _ ih =>
    intro l hl
    rcases List.mem_cons.mp hl with rfl | hl
    · rw [h]; simp
    · exact ih l hl

/-- C133: a text is read as a layout exactly if every line before the first blank one is read as a view, and the layout holds these views. -/
theorem c133_layout_reads (s : Str) (vs : List AndroidView) : parse s = .ok ⟨vs⟩ ↔ All₂ (fun l v => AndroidView.parse l = some v) (c133_lines s) vs := by
  rcases c133_cases s with ⟨ws, h, hp⟩ | ⟨pre, l, post, ws, e, h, hl, hp⟩
  · rw [hp]
    constructor
    · intro he
      cases he
      exact h
    · intro h'
      rw [c133_unique h h']
  · rw [hp]
    constructor
    · intro he; cases he
    · intro h'
      exact absurd hl (c133_all h' l (by rw [e]; simp))

/-- C133: otherwise the error tells the first line that is not a view, how many lines are before it, and the view in the line before it. -/
theorem c133_layout_error (s : Str) (err : LayoutParseError) : parse s = .err err ↔ ∃ pre post vs, c133_lines s = pre ++ err.content :: post ∧
    All₂ (fun l v => AndroidView.parse l = some v) pre vs ∧ AndroidView.parse err.content = none ∧ err.line = pre.length ∧ err.viewBefore = vs.getLast? := by
  rcases c133_cases s with ⟨ws, h, hp⟩ | ⟨pre, l, post, ws, e, h, hl, hp⟩
  · rw [hp]
    constructor
    · intro he; cases he
    · rintro ⟨pre, post, vs, e, h1, h2, -⟩
      exact absurd h2 (c133_all h _ (by rw [e]; simp))
  · rw [hp]
    constructor
    · intro he
      cases he
      exact ⟨pre, post, ws, e, h, hl, rfl, rfl⟩
    · rintro ⟨pre', post', vs, e', h1, h2, h3, h4⟩
      obtain ⟨vb, c, n⟩ := err
      simp only at e' h2 h3 h4
      have : pre = pre' ∧ l = c := by
        rw [e] at e'
        rcases List.append_eq_append_iff.mp e' with ⟨a, rfl, ha⟩ | ⟨a, rfl, ha⟩
        · cases a with
          | nil => exact ⟨by simp, (List.cons.inj ha).1⟩
          | cons x a =>
            obtain ⟨rfl, -⟩ := List.cons.inj ha
            exact absurd hl (c133_all h1 _ (by simp))
        · cases a with
          | nil => exact ⟨by simp, (List.cons.inj ha).1.symm⟩
          | cons x a =>
            obtain ⟨rfl, -⟩ := List.cons.inj ha
            exact absurd h2 (c133_all h _ (by simp))
      obtain ⟨rfl, rfl⟩ := this
      rw [c133_unique h h1, h3, h4]

/-- C133: reading a layout never panics. -/
theorem c133_layout_no_panic (s : Str) : parse s ≠ .panic := by
  rcases c133_cases s with ⟨ws, h, hp⟩ | ⟨pre, l, post, ws, e, h, hl, hp⟩ <;> rw [hp] <;> simp

end Swrs.Layout

namespace Swrs.Layout
variable [FloatLaws]

/-- The lines of a written layout. -/
theorem c133_written (l : Layout) : c133_lines l.reconstruct = l.views.map AndroidView.reconstruct := by
  unfold c133_lines
  rw [reconstruct_eq]
  by_cases hv : l.views.map AndroidView.reconstruct = []
  · rw [hv]; rfl
  · have hj := jlines l.views
    rw [lines, splitOn_joinWith hv fun p hp => (hj p hp).noNl]
    have : ∀ p ∈ l.views.map AndroidView.reconstruct, p ≠ [] := fun p hp => by
      rintro rfl
      obtain ⟨v, -, e⟩ := List.mem_map.mp hp
      have := v.jline.head
      rw [e] at this
      cases this
    generalize l.views.map AndroidView.reconstruct = ls at this
    clear hv hj
    induction ls with
    | nil => rfl
    | cons x ls ih => rw [List.takeWhile_cons, if_pos (by simpa using this x (by simp)), ih fun p hp => this p (by simp [hp])]

/-- C133: a layout that is written is read back exactly if each of its views is (C21). -/
theorem c133_layout_round_trip (l : Layout) : parse l.reconstruct = .ok l ↔ ∀ v ∈ l.views, AndroidView.parse v.reconstruct = some v := by
  obtain ⟨vs⟩ := l
  rw [c133_layout_reads, c133_written]
  simp only
  induction vs with
  | nil => simp [All₂.nil]
  | cons v vs ih =>
    constructor
    · intro h
      cases h with
      | cons h1 h2 =>
        intro w hw
        rcases List.mem_cons.mp hw with rfl | hw
        · exact h1
        · exact ih.mp h2 w hw
    · exact fun h => .cons (h v (by simp)) (ih.mpr fun w hw => h w (by simp [hw]))

end Swrs.Layout

namespace Swrs.Layout
variable [Floats] [MapPol]

/-- C133: the error for a layout in a view file tells the view in the line before the line that is not a view, or none if that is the first line of the layout. -/
theorem c133_view_before {s name kind : Str} {e : LayoutParseError} (h : View.parse s = .err (.layout name kind e)) :
    ∃ k, (lines s)[k]? = some ('@' :: (name ++ s% ".xml")) ∧ (lines s)[k + 1 + e.line]? = some e.content ∧
      match e.viewBefore with
      | none => e.line = 0
      | some v => e.line ≠ 0 ∧ ∃ l, (lines s)[k + e.line]? = some l ∧ AndroidView.parse l = some v := by
  obtain ⟨ss, en, hs, he, hl⟩ := View.decompose (lines s)
  rw [View.parse_of_lines hs he hl] at h
  rw [hl]
  generalize ss.flatMap Section.toLines = pre
  cases en with
  | badView name' ls vs l rest =>
    simp only [View.Ending.result, Out.err.injEq, ViewParseError.layout.injEq] at h
    obtain ⟨rfl, rfl, rfl⟩ := h
    simp only [View.Ending.toLines]
    have e2 : pre ++ (('@' :: (name' ++ s% ".xml")) :: (ls ++ l :: rest)) = (pre ++ ('@' :: (name' ++ s% ".xml")) :: ls) ++ l :: rest := by simp
    have e3 : pre.length + 1 + ls.length = (pre ++ ('@' :: (name' ++ s% ".xml")) :: ls).length := by simp; omega
    refine ⟨pre.length, by simp, by rw [e2, e3]; exact getElem?_mid _ _ _, ?_⟩
    have hr : Reads ls vs := he.2.1
    rcases List.eq_nil_or_concat vs with rfl | ⟨vs', v, rfl⟩
    · cases hr
      rfl
    · rw [List.concat_eq_append] at hr ⊢
      obtain ⟨ls', x, rfl, hx⟩ : ∃ ls' x, ls = ls' ++ [x] ∧ AndroidView.parse x = some v := by
        clear he hl e2 e3
        induction vs' generalizing ls with
        | nil =>
          cases hr with
          | cons _ h1 h2 => cases h2; exact ⟨[], _, rfl, h1⟩
        | cons w vs' ih =>
          cases hr with
          | cons _ _ h2 =>
            obtain ⟨ls', x, rfl, hx⟩ := ih _ h2
            exact ⟨_ :: ls', x, rfl, hx⟩
      simp only [List.getLast?_append, List.getLast?_singleton, Option.some_or]
      refine ⟨by simp, x, ?_, hx⟩
      have e4 : pre ++ ('@' :: (name' ++ s% ".xml")) :: (ls' ++ [x] ++ l :: rest) = (pre ++ ('@' :: (name' ++ s% ".xml")) :: ls') ++ x :: (l :: rest) := by simp
      have e5 : pre.length + (ls' ++ [x]).length = (pre ++ ('@' :: (name' ++ s% ".xml")) :: ls').length := by simp
      rw [e4, e5]
      exact getElem?_mid _ _ _
  | _ => simp [View.Ending.result] at h

end Swrs.Layout

namespace Swrs.Layout
variable [FloatLaws]

/-- A layout with two views is read back, and so is the empty one. -/
example (a b : Str) : parse (reconstruct ⟨[.newEmpty a 3 (s% "root") 0, .newEmpty b 0 a 3]⟩) = .ok ⟨[.newEmpty a 3 (s% "root") 0, .newEmpty b 0 a 3]⟩ :=
  (c133_layout_round_trip _).mpr (by simp [AndroidView.parse_reconstruct_iff, newEmpty_storable])
example : parse (reconstruct ⟨[]⟩) = .ok ⟨[]⟩ := (c133_layout_round_trip _).mpr (by simp)

/-- Specification: a view, a line that is none, a view, a blank line and something else. -/
def c133_text : Str := joinWith '\n' [(AndroidView.newEmpty (s% "a") 3 (s% "root") 0).reconstruct, s% "x", (AndroidView.newEmpty (s% "b") 3 (s% "root") 0).reconstruct, [], s% "y"]

theorem c133_text_lines : lines c133_text = [(AndroidView.newEmpty (s% "a") 3 (s% "root") 0).reconstruct, s% "x", (AndroidView.newEmpty (s% "b") 3 (s% "root") 0).reconstruct, [], s% "y"] := by
  unfold c133_text lines
  refine splitOn_joinWith (by simp) ?_
  intro p hp
  simp only [List.mem_cons, List.not_mem_nil, or_false] at hp
  rcases hp with rfl | rfl | rfl | rfl | rfl
  · exact (AndroidView.jline _).noNl
  · decide
  · exact (AndroidView.jline _).noNl
  · decide
  · decide

/-- The error for that text names the second line and the view in the first. -/
example : parse c133_text = .err ⟨some (.newEmpty (s% "a") 3 (s% "root") 0), s% "x", 1⟩ := by
  refine (c133_layout_error _ _).mpr ⟨[(AndroidView.newEmpty (s% "a") 3 (s% "root") 0).reconstruct], [(AndroidView.newEmpty (s% "b") 3 (s% "root") 0).reconstruct],
    [.newEmpty (s% "a") 3 (s% "root") 0], ?_, .cons ((AndroidView.parse_reconstruct_iff _).mpr (newEmpty_storable _ _ _ _)) .nil, ?_, rfl, rfl⟩
  · unfold c133_lines
    rw [c133_text_lines]
    have h : ∀ v : AndroidView, v.reconstruct ≠ [] := fun v e => by
      have := v.jline.head
      rw [e] at this
      cases this
    simp [h]
  · rfl

example [MapPol] : View.parse (s% "@main.xml\nx") = .err (.layout (s% "main") (s% "xml") ⟨none, s% "x", 0⟩) := by
  rfl
end Swrs.Layout
