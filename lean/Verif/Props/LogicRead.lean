import Verif.Proofs.LogicSections
import Verif.Base.FloatInst
/-!
# C69, C70: what the reader of a logic file returns, for every text; the lines in its errors
-/
set_option linter.unusedSectionVars false
namespace Swrs
namespace Logic

/-! ## C69 — Reading a logic file, for every text -/

/-- C69: only the sections matter: two texts with the same sections are read alike. (So everything from the first paragraph that does
not begin with a header on is ignored.) -/
theorem c69_sections_only [Floats] [MapPol] {s t : Str} (h : sections (lines s) = sections (lines t)) : parse s = parse t := by
  rw [parse_sections, parse_sections, h]

/-- C69: a text is read exactly when every section is, and the result is that of the sections in order. -/
theorem c69_ok [Floats] [MapPol] (s : Str) (r : Logic) :
    parse s = .ok r ↔ ∃ es, All₂ SectionReads (sections (lines s)) es ∧ r = ⟨applyAll es []⟩ := by
  rw [parse_sections]
  constructor
  · intro h
    rcases runSecs_cases _ (areSections (lines s)) 0 [] with ⟨es, h1, h2⟩ | ⟨_, _, _, _, _, _, _, h2⟩ | ⟨_, _, _, _, _, _, _, _, h2⟩
    · rw [h2] at h; exact ⟨es, h1, (Out.ok.inj h).symm⟩
    · rw [h2] at h; simp at h
    · rw [h2] at h; simp at h
  · rintro ⟨es, h, rfl⟩
    have := runSecs_reads h [] 0 []
    rw [List.append_nil] at this
    rw [this]; rfl

/-- C69: the screen of a name after reading: absent when no section names it, else an empty screen to which the sections of this name
are applied in order. No screen sees the sections of another. -/
theorem c69_screen [Floats] [MapPol] {s : Str} {r : Logic} {es : List (Str × (ScreenLogic → ScreenLogic))}
    (hs : All₂ SectionReads (sections (lines s)) es) (h : parse s = .ok r) (name : Str) :
    r.screens.get name = if name ∈ es.map (·.1)
      then some (((es.filter fun e => e.1 = name).map (·.2)).foldl (fun s f => f s) (ScreenLogic.newEmpty name)) else none := by
  have h1 := (c69_ok s ⟨applyAll es []⟩).mpr ⟨es, hs, rfl⟩
  rw [h] at h1
  obtain rfl := Out.ok.inj h1
  rw [get_applyAll, show LMap.get ([] : LMap Str ScreenLogic) name = none from rfl]
  split
  next hm =>
    rw [effOne_ne_nil]
    intro he
    rw [List.map_eq_nil_iff, List.filter_eq_nil_iff] at he
    obtain ⟨e, he1, he2⟩ := List.mem_map.mp hm
    exact he e he1 (by simpa using he2)
  next hm =>
    have : (es.filter fun e => e.1 = name) = [] := by
      rw [List.filter_eq_nil_iff]
      intro e he h'
      exact hm (List.mem_map.mpr ⟨e, he, by simpa using h'⟩)
    rw [this]; rfl

/-- C69: the error is that of the first section that is refused. -/
theorem c69_error [Floats] [MapPol] (s : Str) (e : LogicParseError) :
    parse s = .err e ↔ ∃ pre p post es, sections (lines s) = pre ++ p :: post ∧ All₂ SectionReads pre es ∧ SectionFails pre.length p e := by
  rw [parse_sections]
  constructor
  · intro h
    rcases runSecs_cases _ (areSections (lines s)) 0 [] with ⟨es, h1, h2⟩ | ⟨_, _, _, _, _, _, _, h2⟩ | ⟨pre, p, post, es, e', h1, h2, h3, h4⟩
    · rw [h2] at h; simp at h
    · rw [h2] at h; simp at h
    · rw [h4] at h
      obtain rfl := Out.err.inj h
      rw [Nat.zero_add] at h3
      exact ⟨pre, p, post, es, h1, h2, h3⟩
  · rintro ⟨pre, p, post, es, h1, h2, hd, body, rfl, h3⟩
    have hat := (areSections (lines s) (hd :: body) (by simp [h1])).1
    rw [h1, runSecs_reads h2, runSecs, Nat.zero_add, step_err hat h3]; rfl

/-- C69: the reader panics exactly when the sections before are read and the next one has a pool header whose last character before
the suffix is missing or not one byte long. -/
theorem c69_panic [Floats] [MapPol] (s : Str) :
    parse s = .panic ↔ ∃ pre p post es, sections (lines s) = pre ++ p :: post ∧ All₂ SectionReads pre es ∧ SectionPanics p := by
  rw [parse_sections]
  constructor
  · intro h
    rcases runSecs_cases _ (areSections (lines s)) 0 [] with ⟨es, h1, h2⟩ | ⟨pre, p, post, es, h1, h2, h3, h4⟩ | ⟨_, _, _, _, _, _, _, _, h2⟩
    · rw [h2] at h; simp at h
    · exact ⟨pre, p, post, es, h1, h2, h3⟩
    · rw [h2] at h; simp at h
  · rintro ⟨pre, p, post, es, h1, h2, hd, body, rfl, h3⟩
    rw [h1, runSecs_reads h2, runSecs, (step_panic h3 _ _ _).2]; rfl

/-! ## C70 — The line in an error of the logic file -/

/-- The number an error of the logic file calls its line. -/
def c70_line : LogicParseError → Nat
  | .variablePool _ n _ | .listVariablePool _ n _ | .componentPool _ n _ | .eventPool _ n _ | .moreBlockPool _ n _
  | .blockContainerHeader n _ | .blockContainer _ _ n _ => n

theorem SectionFails.line {n : Nat} {p : List Str} {e : LogicParseError} [Floats] (h : SectionFails n p e) : c70_line e = n := by
  obtain ⟨hd, body, rfl, h⟩ := h
  cases h <;> rfl

/-- The zero-based line of the header of the section after the sections `pre`: each takes its lines and one blank line. -/
def c70_headerLine (pre : List (List Str)) : Nat := (pre.map fun p => p.length + 1).sum

/-- The sections stand one after another in the file, as `c70_headerLine` counts. -/
theorem sections_lines (ls : List Str) (pre : List (List Str)) (p : List Str) (post : List (List Str))
    (h : sections ls = pre ++ p :: post) : ∀ j (hj : j < p.length), ls[c70_headerLine pre + j]? = some p[j] := by
  generalize hlen : ls.length = len
  induction len using Nat.strongRecOn generalizing ls pre with
  | _ len ih =>
    unfold sections at h
    rcases splitOn_blank ls with ⟨body, rest, rfl, hb⟩ | hn
    · rw [List.splitOn_append_cons_self, List.splitOn_eq_singleton hb, List.singleton_append, List.takeWhile_cons] at h
      split at h
      · cases pre with
        | nil =>
          rw [List.nil_append, List.cons.injEq] at h
          obtain ⟨rfl, _⟩ := h
          intro j hj
          simp [c70_headerLine, List.getElem?_append_left hj]
        | cons q pre =>
          rw [List.cons_append, List.cons.injEq] at h
          obtain ⟨rfl, h⟩ := h
          intro j hj
          rw [← ih rest.length (by simp at hlen; omega) rest pre h rfl j hj]
          rw [List.getElem?_append_right (by simp [c70_headerLine]; omega)]
          rw [show c70_headerLine (body :: pre) + j - body.length = (c70_headerLine pre + j) + 1 by simp [c70_headerLine]; omega]
          rfl
      · simp at h
    · rw [List.splitOn_eq_singleton hn, List.takeWhile_cons] at h
      split at h
      · cases pre with
        | nil =>
          simp at h; obtain ⟨rfl, _⟩ := h
          intro j hj
          simp [c70_headerLine]
        | cons q pre => simp at h
      · simp at h

/-- C70, proved part: the number in the error is the number of sections before the refused one. The header of that section is on the line
`c70_headerLine pre`; the two agree exactly when the refused section is the first. Missing: the other errors, where the property is
false. -/
theorem c70_logic_line_partial [Floats] [MapPol] {s : Str} {e : LogicParseError} (h : parse s = .err e) :
    ∃ pre hd body post, sections (lines s) = pre ++ (hd :: body) :: post ∧ SectionFails pre.length (hd :: body) e ∧
      c70_line e = pre.length ∧ (lines s)[c70_headerLine pre]? = some hd ∧ (c70_line e = c70_headerLine pre ↔ pre = []) := by
  obtain ⟨pre, p, post, es, h1, h2, h3⟩ := (c69_error s e).mp h
  have hl := h3.line
  obtain ⟨hd, body, rfl, h4⟩ := h3
  refine ⟨pre, hd, body, post, h1, ⟨hd, body, rfl, h4⟩, hl, ?_, ?_⟩
  · have := sections_lines (lines s) pre (hd :: body) post h1 0 (by simp)
    simpa using this
  · rw [hl]
    cases pre with
    | nil => simp [c70_headerLine]
    | cons q pre =>
      simp only [reduceCtorEq, iff_false]
      have : pre.length ≤ c70_headerLine pre := by
        clear h1 h2 h4 hl
        induction pre with
        | nil => simp [c70_headerLine]
        | cons r pre ih => simp [c70_headerLine] at ih ⊢; omega
      have e : c70_headerLine (q :: pre) = q.length + 1 + c70_headerLine pre := by simp [c70_headerLine]
      have hq : 0 < q.length := by
        have := (areSections (lines s) q (by simp [h1])).1
        cases q with
        | nil => simp [isSection] at this
        | cons _ _ => simp
      rw [e, List.length_cons]
      omega

/-- The full property C70 is false of the code: here the bad line is the fourth, below a header on the third, and the error says 1. -/
theorem c70_logic_line_false [Floats] [MapPol] : ¬ ∀ (s : Str) (e : LogicParseError), parse s = .err e →
    ∃ l, (lines s)[c70_line e]? = some l ∧ startsWith ['@'] l = true := by
  intro h
  have hp : parse (s% "@a.java_var\n\n@b.java_var\nx") = .err (.variablePool (s% "b") 1 ⟨0, s% "x", .malformedVariable (s% "x")⟩) := by rfl
  obtain ⟨l, h1, h2⟩ := h _ _ hp
  rw [show c70_line (.variablePool (s% "b") 1 ⟨0, s% "x", .malformedVariable (s% "x")⟩) = 1 from rfl,
    show (lines (s% "@a.java_var\n\n@b.java_var\nx"))[1]? = some [] from by decide +kernel] at h1
  obtain rfl := Option.some.inj h1
  simp at h2

-- Two sections of one screen and one of another; a paragraph that is not a section ends the file.
example : sections (lines (s% "@a.java_var\n1:x\n\n@b.java_list\n\n@a.java_onCreate\n\nnotes\n\n@c.java_var")) =
    [[s% "@a.java_var", s% "1:x"], [s% "@b.java_list"], [s% "@a.java_onCreate"]] := by decide +kernel
example [Floats] [MapPol] : ∃ r, parse (s% "@a.java_var\n1:x\n\n@b.java_list\n\nnotes") = .ok r ∧
    r.screens.get (s% "a") = some { ScreenLogic.newEmpty (s% "a") with variables := some ⟨[(s% "x", ⟨s% "x", .integer⟩)]⟩ } ∧
    r.screens.get (s% "b") = some { ScreenLogic.newEmpty (s% "b") with listVariables := some ⟨[]⟩ } := ⟨_, rfl, rfl, rfl⟩
example [Floats] [MapPol] : parse (s% "@java_var") = .panic := by rfl

/-- `c69_sections_only` and `c69_screen`: what follows the first paragraph that is not a section does not matter. -/
example [Floats] [MapPol] : parse (s% "@a.java_var\n1:x\n\nnotes\n\n@b.java_var") = parse (s% "@a.java_var\n1:x") :=
  c69_sections_only (by decide +kernel)

end Logic
end Swrs
