import Verif.Proofs.View
/-! The reading of a reconstructed view file. -/
set_option linter.unusedSectionVars false
namespace Swrs
variable [FloatLaws]

namespace Layout

theorem jlines (vs : List AndroidView) : ∀ p ∈ vs.map AndroidView.reconstruct, JLine p := by
  intro p hp; simp only [List.mem_map] at hp; obtain ⟨v, _, rfl⟩ := hp; exact v.jline

theorem reconstruct_eq (l : Layout) : l.reconstruct = joinWith '\n' (l.views.map AndroidView.reconstruct) := by
  unfold reconstruct body
  rw [foldl_unlines, List.nil_append, trim_unlines (jlines _)]

theorem reads_norm (vs : List AndroidView) (h : ∀ v ∈ vs, v.Finite) :
    Reads (vs.map AndroidView.reconstruct) (vs.map AndroidView.norm) := by
  induction vs with
  | nil => exact .nil
  | cons v vs ih =>
    exact .cons v.jline.ne_nil (v.parse_reconstruct (h v (by simp))) (ih fun w hw => h w (by simp [hw]))

/-- Either all views of a list are finite, or there is a first non-finite one. -/
theorem finite_split (vs : List AndroidView) : (∀ v ∈ vs, v.Finite) ∨
    ∃ a v b, vs = a ++ v :: b ∧ (∀ w ∈ a, w.Finite) ∧ ¬ v.Finite := by
  induction vs with
  | nil => left; simp
  | cons v vs ih =>
    by_cases hv : v.Finite
    · rcases ih with h | ⟨a, w, b, rfl, h1, h2⟩
      · left; simpa [hv] using h
      · right; exact ⟨v :: a, w, b, rfl, by simpa [hv] using h1, h2⟩
    · right; exact ⟨[], v, vs, rfl, by simp, hv⟩

end Layout

namespace View

/-- The lines of a layout in a reconstructed file. -/
def layoutLines (e : Str × Layout) : List Str :=
  ('@' :: (e.1 ++ s% ".xml")) :: (if e.2.views = [] then [[]] else e.2.views.map AndroidView.reconstruct)

/-- The lines of a FAB in a reconstructed file. -/
def fabLines (e : Str × AndroidView) : List Str := ['@' :: (e.1 ++ s% ".xml_fab"), e.2.reconstruct]

theorem foldl_append {α : Type} (f : α → Str) (as : List α) (acc : Str) :
    as.foldl (fun acc i => acc ++ f i) acc = acc ++ as.flatMap f := by
  induction as generalizing acc with
  | nil => simp
  | cons a as ih => simp [ih]

theorem unlines_flatMap {α : Type} (f : α → List Str) (as : List α) :
    unlines (as.flatMap f) = as.flatMap fun a => unlines (f a) := by
  induction as with
  | nil => rfl
  | cons a as ih => simp [unlines_append, ih]

theorem unlines_layoutLines (e : Str × Layout) :
    unlines (layoutLines e) = '@' :: (e.1 ++ (s% ".xml\n" ++ (e.2.reconstruct ++ ['\n']))) := by
  rw [Layout.reconstruct_eq]
  unfold layoutLines
  split
  · next h => simp [h, joinWith]
  · next h =>
    rw [unlines_cons, unlines_eq_joinWith (by simpa using h)]; simp

theorem layoutsText_eq (v : View) : v.layoutsText = unlines (v.layouts.flatMap layoutLines) := by
  unfold layoutsText
  rw [foldl_append, unlines_flatMap]
  simp [unlines_layoutLines]

theorem fabsText_eq (v : View) : v.fabsText = unlines (v.fabs.flatMap fabLines) := by
  unfold fabsText
  rw [foldl_append, unlines_flatMap]
  simp [fabLines]

theorem reconstruct_eq (v : View) : v.reconstruct =
    trimEnd (unlines (v.layouts.flatMap layoutLines ++ [] :: v.fabs.flatMap fabLines)) := by
  rw [unlines_append, unlines_cons, reconstruct, layoutsText_eq, fabsText_eq]; rfl

/-- No name contains a dot or a line break. -/
def NamesOk (v : View) : Prop :=
  (∀ e ∈ v.layouts, '.' ∉ e.1 ∧ '\n' ∉ e.1) ∧ (∀ e ∈ v.fabs, '.' ∉ e.1 ∧ '\n' ∉ e.1)

theorem layoutLines_noNl {e : Str × Layout} (h : '\n' ∉ e.1) : ∀ p ∈ layoutLines e, '\n' ∉ p := by
  intro p hp
  unfold layoutLines at hp
  rw [List.mem_cons] at hp
  rcases hp with rfl | hp
  · simp [h]
  · split at hp
    · simp at hp; subst hp; simp
    · exact (Layout.jlines _ p hp).noNl

theorem fabLines_noNl {e : Str × AndroidView} (h : '\n' ∉ e.1) : ∀ p ∈ fabLines e, '\n' ∉ p := by
  intro p hp
  simp [fabLines] at hp
  rcases hp with rfl | rfl
  · simp [h]
  · exact e.2.jline.noNl

/-- Lines of a trimmed text whose last line ends in a visible character. -/
theorem lines_trimEnd {ps : List Str} {p : Str} {w : Str} (hn : ∀ q ∈ ps ++ [p], '\n' ∉ q) (hp : p ≠ [])
    (hl : ∀ c, p.getLast? = some c → isWs c = false) (hw : ∀ c ∈ w, isWs c = true) :
    lines (trimEnd (unlines (ps ++ [p]) ++ w)) = ps ++ [p] := by
  rw [unlines_eq_joinWith (by simp), List.append_assoc, trimEnd_frame]
  · exact splitOn_joinWith (by simp) hn
  · intro c hc; simp at hc; rcases hc with rfl | hc
    · decide
    · exact hw c hc
  · rw [getLast?_joinWith_concat hp]; exact hl

/-- The header of an empty layout. -/
def hdr (name : Str) : Str := '@' :: (name ++ s% ".xml")

theorem hdr_last (name : Str) : ∀ c, (hdr name).getLast? = some c → isWs c = false := by
  intro c hc
  have : hdr name = ('@' :: name) ++ s% ".xml" := rfl
  rw [this, List.getLast?_append] at hc
  simp at hc; subst hc; decide

theorem lines_reconstruct_fabs (v : View) (hn : v.NamesOk) (hf : v.fabs ≠ []) :
    lines v.reconstruct = v.layouts.flatMap layoutLines ++ [] :: v.fabs.flatMap fabLines := by
  rw [reconstruct_eq]
  have hnn : ∀ q ∈ v.layouts.flatMap layoutLines ++ [] :: v.fabs.flatMap fabLines, '\n' ∉ q := by
    intro q hq
    simp only [List.mem_append, List.mem_cons, List.mem_flatMap] at hq
    rcases hq with ⟨e, he, hq⟩ | rfl | ⟨e, he, hq⟩
    · exact layoutLines_noNl (hn.1 e he).2 q hq
    · simp
    · exact fabLines_noNl (hn.2 e he).2 q hq
  obtain ⟨fs, e, hfe⟩ : ∃ fs e, v.fabs = fs ++ [e] := ⟨_, _, (List.dropLast_concat_getLast hf).symm⟩
  have hX : v.layouts.flatMap layoutLines ++ [] :: v.fabs.flatMap fabLines =
      (v.layouts.flatMap layoutLines ++ [] :: (fs.flatMap fabLines ++ ['@' :: (e.1 ++ s% ".xml_fab")])) ++
        [e.2.reconstruct] := by
    rw [hfe]; simp [fabLines]
  rw [hX] at hnn ⊢
  have := lines_trimEnd (w := []) hnn e.2.jline.ne_nil e.2.jline.last_not_ws (by simp)
  simpa using this

theorem lines_reconstruct_last (v : View) (hn : v.NamesOk) (hf : v.fabs = []) {es : List (Str × Layout)} {e : Str × Layout}
    (he : v.layouts = es ++ [e]) :
    lines v.reconstruct = es.flatMap layoutLines ++ hdr e.1 :: e.2.views.map AndroidView.reconstruct := by
  rw [reconstruct_eq, hf, he]
  have hnn : ∀ q ∈ es.flatMap layoutLines, '\n' ∉ q := by
    intro q hq
    simp only [List.mem_flatMap] at hq
    obtain ⟨x, hx, hq⟩ := hq
    exact layoutLines_noNl (hn.1 x (by rw [he]; simp [hx])).2 q hq
  have hne : '\n' ∉ e.1 := (hn.1 e (by rw [he]; simp)).2
  by_cases h0 : e.2.views = []
  · have hX : (es ++ [e]).flatMap layoutLines ++ [] :: ([] : List (Str × AndroidView)).flatMap fabLines =
        (es.flatMap layoutLines ++ [hdr e.1]) ++ [[], []] := by
      simp [layoutLines, h0, hdr]
    rw [hX, unlines_append]
    rw [lines_trimEnd]
    · simp [h0]
    · intro q hq
      simp only [List.mem_append, List.mem_singleton] at hq
      rcases hq with hq | rfl
      · exact hnn q hq
      · simp [hdr, hne]
    · simp [hdr]
    · exact hdr_last _
    · intro c hc
      have : unlines [[], []] = ['\n', '\n'] := rfl
      rw [this] at hc; simp at hc; subst hc; decide
  · obtain ⟨vs, w, hvw⟩ : ∃ vs w, e.2.views = vs ++ [w] := ⟨_, _, (List.dropLast_concat_getLast h0).symm⟩
    have hX : (es ++ [e]).flatMap layoutLines ++ [] :: ([] : List (Str × AndroidView)).flatMap fabLines =
        ((es.flatMap layoutLines ++ hdr e.1 :: vs.map AndroidView.reconstruct) ++ [w.reconstruct]) ++ [[]] := by
      simp [layoutLines, hdr, hvw]
    rw [hX, unlines_append]
    rw [lines_trimEnd]
    · simp [hvw]
    · intro q hq
      simp only [List.mem_append, List.mem_cons, List.not_mem_nil, or_false] at hq
      rcases hq with (hq | rfl | hq) | rfl
      · exact hnn q hq
      · simp [hdr, hne]
      · exact (Layout.jlines _ q hq).noNl
      · exact w.jline.noNl
    · exact w.jline.ne_nil
    · exact w.jline.last_not_ws
    · intro c hc
      have : unlines [[]] = ['\n'] := rfl
      rw [this] at hc; simp at hc; subst hc; decide

variable [MapPol]

/-- A layout as a section. -/
def secL (e : Str × Layout) : Section :=
  .layout e.1 (e.2.views.map AndroidView.reconstruct) (e.2.views.map AndroidView.norm)
/-- A FAB as a section. -/
def secF (e : Str × AndroidView) : Section := .fab e.1 e.2.reconstruct e.2.norm

/-- A layout as read back. -/
def normL (e : Str × Layout) : Str × Layout := (e.1, ⟨e.2.views.map AndroidView.norm⟩)
/-- A FAB as read back. -/
def normF (e : Str × AndroidView) : Str × AndroidView := (e.1, e.2.norm)

theorem foldl_secL (es : List (Str × Layout)) (v : View) (h : (LMap.keys (v.layouts ++ es)).Nodup) :
    (es.map secL).foldl Section.apply v = ⟨v.layouts ++ es.map normL, v.fabs⟩ := by
  have : ∀ (es : List (Str × Layout)) (v : View), (es.map secL).foldl Section.apply v =
      ⟨(es.map normL).foldl (fun m e => LMap.insert m e.1 e.2) v.layouts, v.fabs⟩ := by
    intro es
    induction es with
    | nil => intro v; rfl
    | cons e es ih => intro v; simp only [List.map_cons, List.foldl_cons]; rw [ih]; rfl
  rw [this, LMap.foldl_insert_nodup]
  have hk : LMap.keys (v.layouts ++ es.map normL) = LMap.keys (v.layouts ++ es) := by
    simp [LMap.keys, normL]
  rw [hk]; exact h

theorem foldl_secF (es : List (Str × AndroidView)) (v : View) (h : (LMap.keys (v.fabs ++ es)).Nodup) :
    (es.map secF).foldl Section.apply v = ⟨v.layouts, v.fabs ++ es.map normF⟩ := by
  have : ∀ (es : List (Str × AndroidView)) (v : View), (es.map secF).foldl Section.apply v =
      ⟨v.layouts, (es.map normF).foldl (fun m e => LMap.insert m e.1 e.2) v.fabs⟩ := by
    intro es
    induction es with
    | nil => intro v; rfl
    | cons e es ih => intro v; simp only [List.map_cons, List.foldl_cons]; rw [ih]; rfl
  rw [this, LMap.foldl_insert_nodup]
  have hk : LMap.keys (v.fabs ++ es.map normF) = LMap.keys (v.fabs ++ es) := by
    simp [LMap.keys, normF]
  rw [hk]; exact h

/-- Keys occur once (an invariant of linked maps). -/
def KeysNodup (v : View) : Prop := v.layouts.keys.Nodup ∧ v.fabs.keys.Nodup

/-- The layouts up to the first non-empty one. -/
theorem empty_split (es : List (Str × Layout)) : (∀ e ∈ es, e.2.views = []) ∨
    ∃ a e b, es = a ++ e :: b ∧ (∀ x ∈ a, x.2.views = []) ∧ e.2.views ≠ [] := by
  induction es with
  | nil => left; simp
  | cons e es ih =>
    by_cases he : e.2.views = []
    · rcases ih with h | ⟨a, x, b, rfl, h1, h2⟩
      · left; simpa [he] using h
      · right; exact ⟨e :: a, x, b, rfl, by simpa [he] using h1, h2⟩
    · right; exact ⟨[], e, es, rfl, by simp, he⟩

theorem toLines_secL_empty {es : List (Str × Layout)} (h : ∀ e ∈ es, e.2.views = []) :
    (es.map secL).flatMap Section.toLines = es.flatMap layoutLines := by
  induction es with
  | nil => rfl
  | cons e es ih =>
    rw [List.map_cons, List.flatMap_cons, List.flatMap_cons, ih fun x hx => h x (by simp [hx])]
    simp [secL, Section.toLines, layoutLines, h e (by simp)]

theorem toLines_secF (es : List (Str × AndroidView)) :
    (es.map secF).flatMap Section.toLines = es.flatMap fabLines := by
  induction es with
  | nil => rfl
  | cons e es ih => rw [List.map_cons, List.flatMap_cons, List.flatMap_cons, ih]; rfl

theorem wf_secL {e : Str × Layout} (h : '.' ∉ e.1) (hf : ∀ v ∈ e.2.views, v.Finite) : (secL e).WF :=
  ⟨h, Layout.reads_norm _ hf⟩
theorem wf_secF {e : Str × AndroidView} (h : '.' ∉ e.1) (hf : e.2.Finite) : (secF e).WF :=
  ⟨h, e.2.parse_reconstruct hf⟩

/-- All views of a layout are finite. -/
def LFinite (e : Str × Layout) : Prop := ∀ v ∈ e.2.views, v.Finite

theorem fabs_split (es : List (Str × AndroidView)) : (∀ e ∈ es, e.2.Finite) ∨
    ∃ a e b, es = a ++ e :: b ∧ (∀ x ∈ a, x.2.Finite) ∧ ¬ e.2.Finite := by
  induction es with
  | nil => left; simp
  | cons e es ih =>
    by_cases he : e.2.Finite
    · rcases ih with h | ⟨a, x, b, rfl, h1, h2⟩
      · left; simpa [he] using h
      · right; exact ⟨e :: a, x, b, rfl, by simpa [he] using h1, h2⟩
    · right; exact ⟨[], e, es, rfl, by simp, he⟩

/-- The structure of the file can be read back: all layouts but the last are empty, and if there is a FAB the last
layout exists and is not empty; all floats are finite. -/
def Readable (v : View) : Prop :=
  (∀ e ∈ v.layouts.dropLast, e.2.views = []) ∧
  (v.fabs ≠ [] → ∃ e, v.layouts.getLast? = some e ∧ e.2.views ≠ []) ∧
  (∀ e ∈ v.layouts, LFinite e) ∧ (∀ e ∈ v.fabs, e.2.Finite)

/-- A readable file is read back with normalised sizes. -/
theorem parse_readable (v : View) (hn : v.NamesOk) (hk : v.KeysNodup) (hr : v.Readable) :
    parse v.reconstruct = .ok ⟨v.layouts.map normL, v.fabs.map normF⟩ := by
  obtain ⟨h1, h2, h3, h4⟩ := hr
  by_cases hl : v.layouts = []
  · have hf : v.fabs = [] := by
      refine Classical.byContradiction fun hf => ?_
      obtain ⟨e, he, _⟩ := h2 hf
      rw [hl] at he; simp at he
    rw [reconstruct_eq, hl, hf]; rfl
  obtain ⟨es, e, hes⟩ : ∃ es e, v.layouts = es ++ [e] := ⟨_, _, (List.dropLast_concat_getLast hl).symm⟩
  have hes0 : ∀ x ∈ es, x.2.views = [] := by rw [hes] at h1; simpa using h1
  have hwf : ∀ x ∈ v.layouts, (secL x).WF := fun x hx => wf_secL (hn.1 x hx).1 (h3 x hx)
  by_cases hf : v.fabs = []
  · have hlines := lines_reconstruct_last v hn hf hes
    have := parse_of_lines (s := v.reconstruct) (ss := es.map secL)
      (e := .layout e.1 (e.2.views.map AndroidView.reconstruct) (e.2.views.map AndroidView.norm))
      (by
        intro x hx; simp only [List.mem_map] at hx; obtain ⟨y, hy, rfl⟩ := hx
        exact hwf y (by rw [hes]; simp [hy]))
      (hwf e (by rw [hes]; simp))
      (by rw [hlines, toLines_secL_empty hes0]; rfl)
    rw [this]
    have hk1 := hk.1
    rw [hes] at hk1
    rw [foldl_secL es ⟨[], []⟩ (by
      rw [LMap.keys_append] at hk1; simpa using (List.nodup_append.mp hk1).1)]
    simp only [Ending.result, List.nil_append]
    rw [LMap.insert_new, hes, hf]
    · simp [normL]
    · rw [LMap.keys_append, List.nodup_append] at hk1
      intro hm
      have : LMap.keys (es.map normL) = LMap.keys es := by simp [LMap.keys, normL]
      rw [this] at hm
      exact hk1.2.2 _ hm e.1 (by simp [LMap.keys]) rfl
  · have hlines := lines_reconstruct_fabs v hn hf
    obtain ⟨e', he', hne⟩ := h2 hf
    have hee : e' = e := by rw [hes] at he'; simpa using he'.symm
    subst hee
    have := parse_of_lines (s := v.reconstruct) (ss := v.layouts.map secL ++ v.fabs.map secF)
      (e := .stop [])
      (by
        intro x hx; simp only [List.mem_append, List.mem_map] at hx
        rcases hx with ⟨y, hy, rfl⟩ | ⟨y, hy, rfl⟩
        · exact hwf y hy
        · exact wf_secF (hn.2 y hy).1 (h4 y hy))
      (by simp [Ending.WF])
      (by
        rw [hlines, hes]
        simp only [List.flatMap_append, List.map_append, toLines_secF, toLines_secL_empty hes0]
        simp [layoutLines, hne, secL, Section.toLines, Ending.toLines])
    rw [this, List.foldl_append, foldl_secL _ ⟨[], []⟩ (by simpa using hk.1), foldl_secF _ _ (by simpa using hk.2)]
    rfl

theorem map_normL_empty {es : List (Str × Layout)} (h : ∀ e ∈ es, e.2.views = []) : es.map normL = es := by
  induction es with
  | nil => rfl
  | cons e es ih =>
    rw [List.map_cons, ih fun x hx => h x (by simp [hx])]
    have := h e (by simp)
    obtain ⟨n, ⟨vs⟩⟩ := e
    simp only at this; subst this; rfl

theorem insert_names {α : Type} {m : LMap Str α} {k : Str} {x : α} (h : ∀ e ∈ m, '.' ∉ e.1 ∧ '\n' ∉ e.1)
    (h1 : '.' ∉ k) (h2 : '\n' ∉ k) : ∀ e ∈ m.insert k x, '.' ∉ e.1 ∧ '\n' ∉ e.1 := by
  intro e he
  have : e.1 ∈ (m.insert k x).keys := List.mem_map_of_mem he
  rw [LMap.mem_keys_insert] at this
  rcases this with hk | hk
  · rw [hk]; exact ⟨h1, h2⟩
  · simp only [LMap.keys, List.mem_map] at hk
    obtain ⟨y, hy, hye⟩ := hk
    rw [← hye]; exact h y hy

/-- A file that is not readable, with good names, is not read back: an error, or the FABs are lost. -/
theorem parse_not_readable (v : View) (hn : v.NamesOk) (hk : v.KeysNodup) (hr : ¬ v.Readable) :
    (∃ e, parse v.reconstruct = .err e) ∨
    (v.fabs ≠ [] ∧ (∀ e ∈ v.layouts, e.2.views = []) ∧ parse v.reconstruct = .ok ⟨v.layouts, []⟩) := by
  rcases empty_split v.layouts with hall | ⟨a, e, b, hes, ha, hene⟩
  · -- all layouts are empty
    by_cases hf : v.fabs = []
    · refine absurd ⟨fun e he => hall e ((List.dropLast_sublist _).subset he), fun h => absurd hf h, ?_, ?_⟩ hr
      · intro e he w hw; rw [hall e he] at hw; simp at hw
      · rw [hf]; simp
    · right
      refine ⟨hf, hall, ?_⟩
      have := parse_of_lines (s := v.reconstruct) (ss := v.layouts.map secL)
        (e := .stop ([] :: v.fabs.flatMap fabLines))
        (by
          intro x hx; simp only [List.mem_map] at hx
          obtain ⟨y, hy, rfl⟩ := hx
          exact wf_secL (hn.1 y hy).1 (by rw [hall y hy]; simp))
        (by intro l hl; simp at hl; subst hl; decide)
        (by rw [lines_reconstruct_fabs v hn hf, toLines_secL_empty hall]; rfl)
      rw [this, foldl_secL _ ⟨[], []⟩ (by simpa using hk.1)]
      simp only [Ending.result, List.nil_append, Out.ok.injEq]
      rw [map_normL_empty hall]
  · left
    have hlay : v.layouts.flatMap layoutLines = a.flatMap layoutLines ++
        (hdr e.1 :: (e.2.views.map AndroidView.reconstruct ++ b.flatMap layoutLines)) := by
      rw [hes]; simp [layoutLines, hene, hdr]
    -- the lines start with the empty layouts, the header and the views of `e`
    obtain ⟨rest, hrest, hrest2⟩ : ∃ rest, lines v.reconstruct = a.flatMap layoutLines ++
        (hdr e.1 :: (e.2.views.map AndroidView.reconstruct ++ rest)) ∧
        (b ≠ [] → ∃ n r, rest = hdr n :: r) := by
      by_cases hf : v.fabs = []
      · obtain ⟨es, x, hx⟩ : ∃ es x, v.layouts = es ++ [x] :=
          ⟨_, _, (List.dropLast_concat_getLast (by rw [hes]; simp)).symm⟩
        have h1 := lines_reconstruct_last v hn hf hx
        by_cases hb : b = []
        · subst hb
          rw [hes] at hx
          obtain ⟨rfl, hxe⟩ := List.append_inj' hx rfl
          simp at hxe; subst hxe
          exact ⟨[], by rw [h1]; simp, by simp⟩
        · obtain ⟨b', y, hb'⟩ : ∃ es x, b = es ++ [x] := ⟨_, _, (List.dropLast_concat_getLast hb).symm⟩
          rw [hes, hb', ← List.cons_append, ← List.append_assoc] at hx
          obtain ⟨hes', hxe⟩ := List.append_inj' hx rfl
          simp at hxe; subst hxe
          refine ⟨b'.flatMap layoutLines ++ hdr y.1 :: y.2.views.map AndroidView.reconstruct, ?_, ?_⟩
          · rw [h1, ← hes']; simp [layoutLines, hene, hdr]
          · intro _
            cases b' with
            | nil => exact ⟨y.1, _, rfl⟩
            | cons z zs => exact ⟨z.1, _, rfl⟩
      · have h1 := lines_reconstruct_fabs v hn hf
        refine ⟨b.flatMap layoutLines ++ [] :: v.fabs.flatMap fabLines, ?_, ?_⟩
        · rw [h1, hlay]; simp
        · intro hb
          cases b with
          | nil => exact absurd rfl hb
          | cons z zs => exact ⟨z.1, _, rfl⟩
    have hwfa : ∀ x ∈ a.map secL, x.WF := by
      intro x hx; simp only [List.mem_map] at hx
      obtain ⟨y, hy, rfl⟩ := hx
      exact wf_secL (hn.1 y (by rw [hes]; simp [hy])).1 (by rw [ha y hy]; simp)
    have hde : '.' ∉ e.1 := (hn.1 e (by rw [hes]; simp)).1
    rcases Layout.finite_split e.2.views with hfin | ⟨va, w, vb, hvs, hva, hw⟩
    · by_cases hb : b = []
      · -- the last layout is fine: a FAB is not
        have hfab : ¬ ∀ x ∈ v.fabs, x.2.Finite := by
          intro hfab
          apply hr
          refine ⟨?_, ?_, ?_, hfab⟩
          · rw [hes, hb]; simpa using ha
          · intro _; exact ⟨e, by rw [hes, hb]; simp, hene⟩
          · intro x hx
            rw [hes, hb] at hx
            simp only [List.mem_append, List.mem_singleton] at hx
            rcases hx with hx | rfl
            · intro w hw; rw [ha x hx] at hw; simp at hw
            · exact hfin
        have hf : v.fabs ≠ [] := by intro hf; rw [hf] at hfab; simp at hfab
        rcases fabs_split v.fabs with h | ⟨fa, f, fb, hfs, hfa, hfn⟩
        · exact absurd h hfab
        have := parse_of_lines (s := v.reconstruct) (ss := a.map secL ++ secL e :: fa.map secF)
          (e := .badFab f.1 f.2.reconstruct (fb.flatMap fabLines))
          (by
            intro x hx; simp only [List.mem_append, List.mem_cons, List.mem_map] at hx
            rcases hx with ⟨y, hy, rfl⟩ | rfl | ⟨y, hy, rfl⟩
            · exact hwfa _ (by simp only [List.mem_map]; exact ⟨y, hy, rfl⟩)
            · exact wf_secL hde hfin
            · exact wf_secF (hn.2 y (by rw [hfs]; simp [hy])).1 (hfa y hy))
          ⟨(hn.2 f (by rw [hfs]; simp)).1, f.2.parse_reconstruct_none hfn⟩
          (by
            rw [lines_reconstruct_fabs v hn hf, hlay, hb, hfs]
            simp only [List.flatMap_append, List.flatMap_cons, toLines_secF, toLines_secL_empty ha]
            simp [secL, Section.toLines, Ending.toLines, hdr, fabLines])
        exact ⟨_, this⟩
      · -- the header of the next layout is read as a view
        obtain ⟨n, r, hnr⟩ := hrest2 hb
        have := parse_of_lines (s := v.reconstruct) (ss := a.map secL)
          (e := .badView e.1 (e.2.views.map AndroidView.reconstruct) (e.2.views.map AndroidView.norm) (hdr n) r)
          hwfa ⟨hde, Layout.reads_norm _ hfin, by simp [hdr], AndroidView.parse_at _⟩
          (by rw [hrest, hnr, toLines_secL_empty ha]; rfl)
        exact ⟨_, this⟩
    · have := parse_of_lines (s := v.reconstruct) (ss := a.map secL)
        (e := .badView e.1 (va.map AndroidView.reconstruct) (va.map AndroidView.norm) w.reconstruct
          (vb.map AndroidView.reconstruct ++ rest))
        hwfa ⟨hde, Layout.reads_norm _ hva, w.jline.ne_nil, w.parse_reconstruct_none hw⟩
        (by rw [hrest, hvs, toLines_secL_empty ha]; simp [Ending.toLines, hdr])
      exact ⟨_, this⟩

/-- Names that are read contain neither dots nor line breaks, and occur once. -/
theorem parse_names {s : Str} {v : View} (h : parse s = .ok v) : v.NamesOk ∧ v.KeysNodup := by
  obtain ⟨ss, e, hs, he, hl⟩ := decompose (lines s)
  rw [parse_of_lines hs he hl] at h
  have hnl : ∀ l ∈ lines s, '\n' ∉ l := fun l hl => splitOn_not_mem hl
  have good : ∀ (v : View), v.NamesOk ∧ v.KeysNodup → ∀ x : Section, x.WF → (∀ l ∈ x.toLines, '\n' ∉ l) →
      (x.apply v).NamesOk ∧ (x.apply v).KeysNodup := by
    rintro v ⟨⟨h1, h2⟩, h3, h4⟩ x hx hnl
    cases x with
    | layout name ls vs =>
      refine ⟨⟨?_, h2⟩, LMap.nodup_insert h3 _ _, h4⟩
      apply insert_names h1 hx.1
      have := hnl _ (List.mem_cons_self)
      intro hm; exact this (by simp [hm])
    | fab name l w =>
      refine ⟨⟨h1, ?_⟩, h3, LMap.nodup_insert h4 _ _⟩
      apply insert_names h2 hx.1
      have := hnl _ (List.mem_cons_self)
      intro hm; exact this (by simp [hm])
    | other => exact ⟨⟨h1, h2⟩, h3, h4⟩
  have hfold : ∀ (ss : List Section) (v : View), (∀ x ∈ ss, x.WF) → (∀ l ∈ ss.flatMap Section.toLines, '\n' ∉ l) →
      v.NamesOk ∧ v.KeysNodup → (ss.foldl Section.apply v).NamesOk ∧ (ss.foldl Section.apply v).KeysNodup := by
    intro ss
    induction ss with
    | nil => intro v _ _ h; exact h
    | cons x ss ih =>
      intro v hx hl hv
      simp only [List.foldl_cons]
      apply ih
      · exact fun y hy => hx y (by simp [hy])
      · intro l hl'; exact hl l (by rw [List.flatMap_cons]; exact List.mem_append_right _ hl')
      · exact good v hv x (hx x (by simp)) fun l hl' => hl l (by
          rw [List.flatMap_cons]; exact List.mem_append_left _ hl')
  have hbase := hfold ss ⟨[], []⟩ hs (by
    intro l hl'; exact hnl l (by rw [hl]; exact List.mem_append_left _ hl'))
    ⟨⟨by simp, by simp⟩, by simp [KeysNodup, LMap.keys]⟩
  cases e with
  | stop => simp [Ending.result] at h; rw [← h]; exact hbase
  | layout name ls vs =>
    simp only [Ending.result, Out.ok.injEq] at h
    rw [← h]
    have := good _ hbase (.layout name ls vs) he (by
      intro l hl'
      simp only [Section.toLines, List.mem_cons, List.mem_append, List.not_mem_nil, or_false] at hl'
      rcases hl' with rfl | hl' | rfl
      · exact hnl _ (by rw [hl]; simp [Ending.toLines])
      · exact hnl _ (by rw [hl]; simp [Ending.toLines, hl'])
      · simp)
    exact this
  | noDot | badView | badFab | noFab => simp [Ending.result] at h

/-- A view file all of whose views can be stored. -/
def AllStorable (v : View) : Prop :=
  (∀ e ∈ v.layouts, ∀ w ∈ e.2.views, w.Storable) ∧ (∀ e ∈ v.fabs, e.2.Storable)

theorem map_eq_self_iff {α : Type} (f : α → α) (l : List α) : l.map f = l ↔ ∀ a ∈ l, f a = a := by
  induction l with
  | nil => simp
  | cons a l ih => simp [ih]

/-- The exact condition for a view file to be read back. -/
theorem parse_reconstruct_iff (v : View) (hk : v.KeysNodup) : parse v.reconstruct = .ok v ↔
    v.NamesOk ∧ (∀ e ∈ v.layouts.dropLast, e.2.views = []) ∧
      (v.fabs ≠ [] → ∃ e, v.layouts.getLast? = some e ∧ e.2.views ≠ []) ∧ v.AllStorable := by
  by_cases hn : v.NamesOk
  · by_cases hr : v.Readable
    · rw [parse_readable v hn hk hr]
      have hsplit : (⟨v.layouts.map normL, v.fabs.map normF⟩ : View) = v ↔ v.AllStorable := by
        have e1 : (⟨v.layouts.map normL, v.fabs.map normF⟩ : View) = v ↔
            v.layouts.map normL = v.layouts ∧ v.fabs.map normF = v.fabs := by
          cases v with | mk l f => simp
        rw [e1, map_eq_self_iff, map_eq_self_iff]
        unfold AllStorable
        constructor
        · rintro ⟨h1, h2⟩
          refine ⟨fun e he w hw => ⟨hr.2.2.1 e he w hw, ?_⟩, fun e he => ⟨hr.2.2.2 e he, ?_⟩⟩
          · have := congrArg (fun x => x.2.views) (h1 e he)
            simp only [normL] at this
            exact w.norm_eq_iff.mp ((map_eq_self_iff _ _).mp this w hw)
          · exact e.2.norm_eq_iff.mp (congrArg (·.2) (h2 e he))
        · rintro ⟨h1, h2⟩
          refine ⟨fun e he => ?_, fun e he => ?_⟩
          · have : e.2.views.map AndroidView.norm = e.2.views :=
              (map_eq_self_iff _ _).mpr fun w hw => w.norm_eq_iff.mpr (h1 e he w hw).2
            simp [normL, this]
          · simp [normF, e.2.norm_eq_iff.mpr (h2 e he).2]
      rw [Out.ok.injEq, hsplit]
      simp only [hn, true_and]
      rw [and_iff_right hr.1, and_iff_right hr.2.1]
    · constructor
      · intro h
        rcases parse_not_readable v hn hk hr with ⟨e, he⟩ | ⟨hf, _, he⟩
        · rw [he] at h; simp at h
        · rw [he] at h; simp only [Out.ok.injEq] at h
          exact absurd (congrArg View.fabs h).symm hf
      · rintro ⟨_, h1, h2, h3, h4⟩
        exact absurd ⟨h1, h2, fun e he w hw => (h3 e he w hw).1, fun e he => (h4 e he).1⟩ hr
  · constructor
    · intro h; exact absurd (parse_names h).1 hn
    · intro h; exact absurd h.1 hn

end View
end Swrs
