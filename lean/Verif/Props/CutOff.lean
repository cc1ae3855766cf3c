import Verif.Props.Readers
import Verif.Props.RecordsRead
import Verif.Props.ProjectRead
import Verif.Props.SectionOrder
import Verif.Props.LineEnds
import Verif.Proofs.Cut
/-!
# C116: texts that were cut off
-/
set_option linter.unusedSectionVars false
namespace Swrs

/-! ### Lines of a beginning of a text -/

/-- The lines of a beginning are the first lines of the text, the last one perhaps cut off. -/
theorem c116_lines (t r : Str) : ∃ ls p q ls', lines t = ls ++ [p] ∧ lines r = q :: ls' ∧ lines (t ++ r) = ls ++ (p ++ q) :: ls' := by
  induction t with
  | nil =>
    have : lines r ≠ [] := splitOn_ne_nil _ _
    obtain ⟨q, ls', e⟩ := List.exists_cons_of_ne_nil this
    exact ⟨[], [], q, ls', rfl, e, e⟩
  | cons c t ih =>
    obtain ⟨ls, p, q, ls', h1, h2, h3⟩ := ih
    by_cases hc : c = '\n'
    · refine ⟨[] :: ls, p, q, ls', ?_, h2, ?_⟩
      · rw [lines, splitOn, if_pos hc]; exact congrArg _ h1
      · rw [List.cons_append, lines, splitOn, if_pos hc]; exact congrArg _ h3
    · rw [lines] at h1 h3
      cases ls with
      | nil =>
        refine ⟨[], c :: p, q, ls', ?_, h2, ?_⟩
        · rw [lines, splitOn, if_neg hc, h1]; rfl
        · rw [List.cons_append, lines, splitOn, if_neg hc, h3]; rfl
      | cons l ls =>
        refine ⟨(c :: l) :: ls, p, q, ls', ?_, h2, ?_⟩
        · rw [lines, splitOn, if_neg hc, h1]; rfl
        · rw [List.cons_append, lines, splitOn, if_neg hc, h3]; rfl

/-! ### Records -/

/-- The reader accepts only arrays and objects. -/
def c116_Closed {α : Type} (dec : Json → Option α) : Prop := ∀ j a, dec j = some a → (∃ vs, j = .arr vs) ∨ ∃ ms, j = .obj ms

theorem c116_record {α : Type} {dec : Json → Option α} (hd : c116_Closed dec) {t r : Str} {a b : α} (h : Json.fromStr dec t = some a)
    (h' : Json.fromStr dec (t ++ r) = some b) : a = b ∧ Json.Space r := by
  unfold Json.fromStr at h h'
  rw [Option.bind_eq_some_iff] at h h'
  obtain ⟨j, hj, h⟩ := h
  obtain ⟨j', hj', h'⟩ := h'
  obtain ⟨rfl, hs⟩ := Json.isText_beginning (Json.parse_iff.mp hj) (hd j a h) (Json.parse_iff.mp hj')
  rw [h] at h'
  exact ⟨Option.some.inj h', hs⟩

theorem c116_asStruct {names : List Str} {j : Json} {o : Json.Obj} (h : Json.asStruct names j = some o) :
    (∃ vs, j = .arr vs) ∨ ∃ ms, j = .obj ms := by
  cases j with
  | arr vs => exact .inl ⟨vs, rfl⟩
  | obj ms => exact .inr ⟨ms, rfl⟩
  | _ => simp [Json.asStruct] at h

theorem c116_closed_bind {α : Type} {names : List Str} {f : Json.Obj → Option α} : c116_Closed fun j => Json.asStruct names j >>= f := by
  intro j a h
  obtain ⟨o, ho, _⟩ := Option.bind_eq_some_iff.mp h
  exact c116_asStruct ho

theorem c116_fileItem : c116_Closed FileItem.dec := c116_closed_bind
theorem c116_resourceItem : c116_Closed ResourceItem.dec := c116_closed_bind
theorem c116_libraryItem : c116_Closed LibraryItem.dec := c116_closed_bind
theorem c116_androidView [Floats] : c116_Closed AndroidView.dec := c116_closed_bind

open Sections

/-! ### File lists and resource lists -/

theorem c116_gloop_acc {σ α : Type} (header : Str → Option σ) (read : Str → Option α) : ∀ (ls : List Str) (sec : Option σ) (acc : List (σ × α))
    (n : Nat) (l : List (σ × α)), gloop header read ls sec acc n = .ok l → acc <+: l := by
  intro ls
  induction ls with
  | nil =>
    intro sec acc n l h
    simp only [gloop, Except.ok.injEq] at h
    rw [h]
  | cons x ls ih =>
    intro sec acc n l h
    simp only [gloop] at h
    split at h
    · exact ih _ _ _ _ h
    · split at h
      · exact ih _ _ _ _ h
      · split at h
        · rw [Except.ok.inj h]
        · split at h
          · cases h
          · exact (List.prefix_append _ _).trans (ih _ _ _ _ h)

theorem c116_gloop {σ α : Type} {header : Str → Option σ} {read : Str → Option α}
    (hrd : ∀ {p q : Str} {a b : α}, read p = some a → read (p ++ q) = some b → a = b)
    (hh : ∀ {p q : Str} {a : α}, read p = some a → p ≠ [] ∧ header (p ++ q) = none) {p q : Str} (ls' : List Str) :
    ∀ (ls : List Str) (sec : Option σ) (acc : List (σ × α)) (n : Nat) (l l' : List (σ × α)),
      gloop header read (ls ++ (p ++ q) :: ls') sec acc n = .ok l → gloop header read (ls ++ [p]) sec acc n = .ok l' → l' <+: l := by
  intro ls
  induction ls with
  | nil =>
    intro sec acc n l l' h h'
    have hacc := c116_gloop_acc _ _ _ _ _ _ _ h
    simp only [List.nil_append, gloop] at h'
    split at h'
    · rw [← Except.ok.inj h']; exact hacc
    · split at h'
      · rw [← Except.ok.inj h']; exact hacc
      · split at h'
        · rw [← Except.ok.inj h']; exact hacc
        · split at h'
          · cases h'
          · rename_i s hp a ha
            rw [← Except.ok.inj h']
            obtain ⟨hne, hn⟩ := hh (q := q) ha
            simp only [List.nil_append, gloop, hn] at h
            rw [if_neg (by simp [hne])] at h
            split at h
            · cases h
            · rename_i b hb
              rw [← hrd ha hb] at h
              exact c116_gloop_acc _ _ _ _ _ _ _ h
  | cons x ls ih =>
    intro sec acc n l l' h h'
    simp only [List.cons_append, gloop] at h h'
    split at h
    · rename_i hx
      simp only [hx] at h'
      exact ih _ _ _ _ _ h h'
    · rename_i hx
      simp only [hx] at h'
      cases sec with
      | none => exact ih _ _ _ _ _ h h'
      | some s =>
        simp only at h h'
        split at h
        · rw [if_pos ‹_›] at h'
          rw [← Except.ok.inj h, ← Except.ok.inj h']
        · rw [if_neg ‹_›] at h'
          split at h
          · cases h
          · rename_i a ha
            simp only [ha] at h'
            exact ih _ _ _ _ _ h h'

/-- Whole lines: never refused. -/
theorem c116_gloop_whole {σ α : Type} {header : Str → Option σ} {read : Str → Option α} (ls' : List Str) :
    ∀ (ls : List Str) (sec : Option σ) (acc : List (σ × α)) (n : Nat) (l : List (σ × α)),
      gloop header read (ls ++ ls') sec acc n = .ok l → ∃ l', gloop header read ls sec acc n = .ok l' := by
  intro ls
  induction ls with
  | nil => exact fun sec acc n l _ => ⟨acc, rfl⟩
  | cons x ls ih =>
    intro sec acc n l h
    simp only [List.cons_append, gloop] at h ⊢
    split at h
    · exact ih _ _ _ _ h
    · split at h
      · exact ih _ _ _ _ h
      · split at h
        · exact ⟨_, if_pos ‹_›⟩
        · rw [if_neg ‹_›]
          split at h
          · cases h
          · exact ih _ _ _ _ h

theorem c116_only {σ α : Type} [DecidableEq σ] (s : σ) {l l' : List (σ × α)} (h : l' <+: l) : only s l' <+: only s l := by
  obtain ⟨m, rfl⟩ := h
  unfold only
  rw [List.filter_append, List.map_append]
  exact List.prefix_append _ _

/-- A JSON text of an array or object does not begin like a header. -/
theorem c116_noHeader {α : Type} {dec : Json → Option α} (hd : c116_Closed dec) {t r : Str} {a : α} (h : Json.fromStr dec t = some a) :
    t ≠ [] ∧ (t ++ r).head? ≠ some '@' := by
  unfold Json.fromStr at h
  rw [Option.bind_eq_some_iff] at h
  obtain ⟨j, hj, h⟩ := h
  obtain ⟨w, x, w', rfl, hw, hx, _⟩ := Json.parse_iff.mp hj
  obtain ⟨c, y, rfl, hc, hc'⟩ := Json.val_head hx
  refine ⟨by simp, ?_⟩
  cases w with
  | nil =>
    intro e
    simp only [List.nil_append, List.cons_append, List.head?_cons, Option.some.injEq] at e
    subst e
    cases hx with
    | num _ => rcases hd _ _ h with ⟨_, e⟩ | ⟨_, e⟩ <;> cases e
  | cons d w =>
    intro e
    simp only [List.cons_append, List.head?_cons, Option.some.injEq] at e
    subst e
    exact absurd (hw '@' (by simp)) (by decide)

theorem c116_fileHeader {l : Str} (h : l.head? ≠ some '@') : fileHeader l = none := by
  unfold fileHeader
  rw [if_neg (by rintro rfl; exact h rfl), if_neg (by rintro rfl; exact h rfl)]
theorem c116_resourceHeader {l : Str} (h : l.head? ≠ some '@') : resourceHeader l = none := by
  unfold resourceHeader
  rw [if_neg (by rintro rfl; exact h rfl), if_neg (by rintro rfl; exact h rfl), if_neg (by rintro rfl; exact h rfl)]

theorem c116_file_gloop (s : Str) : File.parse s = match gloop fileHeader FileItem.parse (lines s) none [] 0 with
    | .ok l => .ok ⟨only .activity l, only .customView l⟩
    | .error e => .err (.item e.1 e.2.2) := File.loop_eq_gloop (lines s) none [] 0
theorem c116_resource_gloop (s : Str) : Resource.parse s = match gloop resourceHeader ResourceItem.parse (lines s) none [] 0 with
    | .ok l => .ok ⟨only .images l, only .sounds l, only .fonts l⟩
    | .error e => .err (.item (ResourceKind.sec (some e.2.1)) e.1) := Resource.loop_eq_gloop (lines s) none [] 0

/-- C116: a file list that was cut off anywhere is refused, or is read as the first entries of each of its lists. -/
theorem c116_file {t r : Str} {f : File} (h : File.parse (t ++ r) = .ok f) :
    (∃ n l, File.parse t = .err (.item n l)) ∨
    ∃ f', File.parse t = .ok f' ∧ f'.activities <+: f.activities ∧ f'.customViews <+: f.customViews := by
  rw [c116_file_gloop] at h ⊢
  obtain ⟨ls, p, q, ls', h1, _, h3⟩ := c116_lines t r
  rw [h3] at h
  rw [h1]
  cases hg : gloop fileHeader FileItem.parse (ls ++ [p]) none [] 0 with
  | error e => exact .inl ⟨_, _, rfl⟩
  | ok l' =>
    cases hg' : gloop fileHeader FileItem.parse (ls ++ (p ++ q) :: ls') none [] 0 with
    | error e => rw [hg'] at h; cases h
    | ok l =>
      rw [hg'] at h
      have := c116_gloop (fun h h' => (c116_record c116_fileItem h h').1)
        (fun h => ⟨(c116_noHeader c116_fileItem (r := []) h).1, c116_fileHeader (c116_noHeader c116_fileItem h).2⟩) ls' ls none [] 0 l l' hg' hg
      refine .inr ⟨_, rfl, ?_⟩
      rw [← Out.ok.inj h]
      exact ⟨c116_only _ this, c116_only _ this⟩

/-- C116: a file list that was cut off at the end of a line is read. -/
theorem c116_file_whole {t r : Str} {f : File} (h : File.parse (t ++ '\n' :: r) = .ok f) :
    ∃ f', File.parse t = .ok f' ∧ f'.activities <+: f.activities ∧ f'.customViews <+: f.customViews := by
  rcases c116_file h with ⟨n, l, he⟩ | h'
  · exfalso
    rw [c116_file_gloop] at h he
    obtain ⟨ls, p, q, ls', h1, h2, h3⟩ := c116_lines t ('\n' :: r)
    have : q = [] := by
      rw [lines, splitOn, if_pos rfl] at h2
      exact (List.cons.inj h2).1.symm
    subst this
    rw [List.append_nil, show p :: ls' = [p] ++ ls' from rfl, ← List.append_assoc, ← h1] at h3
    rw [h3] at h
    cases hg : gloop fileHeader FileItem.parse (lines t ++ ls') none [] 0 with
    | error e => rw [hg] at h; cases h
    | ok l =>
      obtain ⟨l', hl'⟩ := c116_gloop_whole ls' _ _ _ _ _ hg
      rw [hl'] at he
      cases he
  · exact h'

/-- C116: a resource list that was cut off anywhere is refused, or is read as the first entries of each of its lists. -/
theorem c116_resource {t r : Str} {f : Resource} (h : Resource.parse (t ++ r) = .ok f) :
    (∃ s n, Resource.parse t = .err (.item s n)) ∨
    ∃ f', Resource.parse t = .ok f' ∧ f'.images <+: f.images ∧ f'.sounds <+: f.sounds ∧ f'.fonts <+: f.fonts := by
  rw [c116_resource_gloop] at h ⊢
  obtain ⟨ls, p, q, ls', h1, _, h3⟩ := c116_lines t r
  rw [h3] at h
  rw [h1]
  cases hg : gloop resourceHeader ResourceItem.parse (ls ++ [p]) none [] 0 with
  | error e => exact .inl ⟨_, _, rfl⟩
  | ok l' =>
    cases hg' : gloop resourceHeader ResourceItem.parse (ls ++ (p ++ q) :: ls') none [] 0 with
    | error e => rw [hg'] at h; cases h
    | ok l =>
      rw [hg'] at h
      have := c116_gloop (fun h h' => (c116_record c116_resourceItem h h').1)
        (fun h => ⟨(c116_noHeader c116_resourceItem (r := []) h).1, c116_resourceHeader (c116_noHeader c116_resourceItem h).2⟩) ls' ls none [] 0 l l' hg' hg
      refine .inr ⟨_, rfl, ?_⟩
      rw [← Out.ok.inj h]
      exact ⟨c116_only _ this, c116_only _ this, c116_only _ this⟩

/-- C116: a resource list that was cut off at the end of a line is read. -/
theorem c116_resource_whole {t r : Str} {f : Resource} (h : Resource.parse (t ++ '\n' :: r) = .ok f) :
    ∃ f', Resource.parse t = .ok f' ∧ f'.images <+: f.images ∧ f'.sounds <+: f.sounds ∧ f'.fonts <+: f.fonts := by
  rcases c116_resource h with ⟨n, l, he⟩ | h'
  · exfalso
    rw [c116_resource_gloop] at h he
    obtain ⟨ls, p, q, ls', h1, h2, h3⟩ := c116_lines t ('\n' :: r)
    have : q = [] := by
      rw [lines, splitOn, if_pos rfl] at h2
      exact (List.cons.inj h2).1.symm
    subst this
    rw [List.append_nil, show p :: ls' = [p] ++ ls' from rfl, ← List.append_assoc, ← h1] at h3
    rw [h3] at h
    cases hg : gloop resourceHeader ResourceItem.parse (lines t ++ ls') none [] 0 with
    | error e => rw [hg] at h; cases h
    | ok l =>
      obtain ⟨l', hl'⟩ := c116_gloop_whole ls' _ _ _ _ _ hg
      rw [hl'] at he
      cases he
  · exact h'

/-! ### The project -/

/-- C116: a project file that was cut off is refused with an error, and is read as the same project if only white space was cut. -/
theorem c116_project [Floats] {t r : Str} {p : Project} (h : Project.parse (t ++ r) = .ok p) :
    Project.parse t = .err () ∨ Project.parse t = .ok p ∧ Json.Space r := by
  cases ht : Project.parse t with
  | panic =>
    exfalso
    obtain ⟨w, pre, u, w', l, w1, w2, t', x, rest, rfl, h'⟩ := (c82_project_panics t).mp ht
    have := (c82_project_panics _).mpr ⟨w, pre, u, w', l, w1, w2, t', x, rest ++ r, rfl, h'⟩
    simp only [List.append_assoc, List.cons_append] at this h
    rw [this] at h
    cases h
  | err e => exact .inl rfl
  | ok p' =>
    refine .inr ?_
    have key : ∀ {s : Str} {p : Project}, Project.parse s = .ok p → ∃ j, Json.parse s = some j ∧ Project.dec j = .ok p := by
      intro s p h
      unfold Project.parse at h
      rw [Out.bind_eq_ok] at h
      obtain ⟨_, _, h⟩ := h
      cases hj : Json.parse s with
      | none => rw [hj] at h; cases h
      | some j => rw [hj] at h; exact ⟨j, rfl, h⟩
    obtain ⟨j, hj, hd⟩ := key ht
    obtain ⟨j', hj', hd'⟩ := key h
    have : ∃ ms, j = .obj ms := by
      cases j with
      | obj ms => exact ⟨ms, rfl⟩
      | _ => simp [Project.dec] at hd
    obtain ⟨rfl, hs⟩ := Json.isText_beginning (Json.parse_iff.mp hj) (.inr this) (Json.parse_iff.mp hj')
    rw [hd] at hd'
    exact ⟨congrArg _ (Out.ok.inj hd'), hs⟩

/-! ### The libraries -/

namespace Library

/-- The local of a header. -/
def c116_get (a : Acc) (h : Str) : Option LibraryItem :=
  if h = s% "@firebaseDB" then a.firebaseDb else if h = s% "@compat" then a.compat else if h = s% "@admob" then a.admob else a.googleMap

theorem c116_get_set {a : Acc} {h x : Str} (i : LibraryItem) (hh : h ∈ headers) (hx : x ∈ headers) :
    c116_get (a.set x i) h = if h = x then some i else c116_get a h := by
  simp only [headers, List.mem_cons, List.not_mem_nil, or_false] at hh hx
  rcases hh with rfl | rfl | rfl | rfl <;> rcases hx with rfl | rfl | rfl | rfl <;> rfl

theorem c116_isHeader {l : Str} : isHeader l = true ↔ l ∈ headers := by
  simp [isHeader, headers, or_assoc]

/-- A header that does not occur leaves its local as it is. -/
theorem c116_loop_other {h : Str} (hh : h ∈ headers) : ∀ (ls : List Str) (a b : Acc) (n : Nat), loop ls a n = .ok b → h ∉ ls →
    c116_get b h = c116_get a h
  | [], a, b, n, hl, _ => by rw [Out.ok.inj hl]
  | [x], a, b, n, hl, hm => by
    rw [loop.eq_def] at hl
    simp only at hl
    split at hl
    · cases hl
    · rw [loop, Out.ok.injEq] at hl
      rw [hl]
  | x :: y :: ls, a, b, n, hl, hm => by
    rw [loop.eq_def] at hl
    simp only at hl
    split at hl
    · rename_i hx
      split at hl
      · cases hl
      · rename_i i _
        rw [c116_loop_other hh ls _ b _ hl (fun h => hm (by simp [h])), c116_get_set i hh (c116_isHeader.mp hx),
          if_neg (fun e => hm (by simp [e]))]
    · exact c116_loop_other hh (y :: ls) a b _ hl (fun h => hm (List.mem_cons_of_mem _ h))

/-- A local that is set has its header on a line before an item. -/
theorem c116_loop_set {h : Str} (hh : h ∈ headers) : ∀ (ls : List Str) (a b : Acc) (n : Nat), loop ls a n = .ok b →
    (∃ pre i x post, ls = pre ++ h :: i :: post ∧ LibraryItem.parse i = some x) ∨ c116_get b h = c116_get a h
  | [], a, b, n, hl => by
    rw [loop, Out.ok.injEq] at hl
    rw [hl]; exact .inr rfl
  | [x], a, b, n, hl => by
    rw [loop.eq_def] at hl
    simp only at hl
    split at hl
    · cases hl
    · rw [loop, Out.ok.injEq] at hl
      rw [hl]; exact .inr rfl
  | x :: y :: ls, a, b, n, hl => by
    rw [loop.eq_def] at hl
    simp only at hl
    split at hl
    · rename_i hx
      split at hl
      · cases hl
      · rename_i i hi
        by_cases hm : h = x
        · exact .inl ⟨[], y, i, ls, by rw [hm]; rfl, hi⟩
        · rcases c116_loop_set hh ls _ b _ hl with ⟨pre, z, i', post, rfl, hi'⟩ | h
          · exact .inl ⟨x :: y :: pre, z, i', post, rfl, hi'⟩
          · rw [c116_get_set i hh (c116_isHeader.mp hx), if_neg hm] at h
            exact .inr h
    · rcases c116_loop_set hh (y :: ls) a b _ hl with ⟨pre, z, i', post, e, hi'⟩ | h
      · exact .inl ⟨x :: pre, z, i', post, by rw [e]; rfl, hi'⟩
      · exact .inr h

theorem c116_loop {h p q : Str} (hh : h ∈ headers) (ls' : List Str) : ∀ (ls : List Str) (a a' b : Acc) (n : Nat),
    loop (ls ++ [p]) a n = .ok a' → loop (ls ++ (p ++ q) :: ls') a n = .ok b → (ls ++ (p ++ q) :: ls').count h ≤ 1 →
    c116_get a' h = c116_get a h ∨ c116_get a' h = c116_get b h
  | [], a, a', b, n, h1, h2, hc => by
    rcases c116_loop_set hh _ a a' n h1 with ⟨pre, _, _, post, e, _⟩ | h
    · have := congrArg List.length e
      simp at this
      omega
    · exact .inl h
  | [x], a, a', b, n, h1, h2, hc => by
    rw [List.singleton_append, loop.eq_def] at h1 h2
    simp only at h1 h2
    split at h1
    · rename_i hx
      rw [if_pos hx] at h2
      split at h1
      · cases h1
      · rename_i i hi
        split at h2
        · cases h2
        · rename_i i' hi'
          obtain ⟨rfl, _⟩ := c116_record c116_libraryItem hi hi'
          rw [loop, Out.ok.injEq] at h1
          subst h1
          by_cases hm : h = x
          · subst hm
            refine .inr (c116_loop_other hh ls' _ b _ h2 fun hm => ?_).symm
            rw [List.singleton_append, List.count_cons_self] at hc
            have := List.one_le_count_iff.mpr (List.mem_cons_of_mem (p ++ q) hm)
            omega
          · rw [c116_get_set i hh (c116_isHeader.mp hx), if_neg hm]
            exact .inl rfl
    · rename_i hx
      rw [if_neg hx] at h2
      refine c116_loop hh ls' [] a a' b _ h1 h2 ?_
      rw [List.singleton_append] at hc
      exact (List.count_le_count_cons).trans hc
  | x :: y :: ls, a, a', b, n, h1, h2, hc => by
    rw [List.cons_append, List.cons_append, loop.eq_def] at h1 h2
    simp only at h1 h2
    split at h1
    · rename_i hx
      rw [if_pos hx] at h2
      split at h1
      · cases h1
      · rename_i i hi
        rw [hi] at h2
        simp only at h2
        have hc' : (ls ++ (p ++ q) :: ls').count h ≤ 1 :=
          (List.count_le_count_cons.trans List.count_le_count_cons).trans hc
        rcases c116_loop hh ls' ls _ a' b _ h1 h2 hc' with h3 | h3
        · by_cases hm : h = x
          · subst hm
            refine .inr (h3.trans (c116_loop_other hh _ _ b _ h2 fun hm => ?_).symm)
            rw [List.cons_append, List.count_cons_self] at hc
            have := List.one_le_count_iff.mpr (List.mem_cons_of_mem y hm)
            rw [List.cons_append] at hc
            omega
          · rw [c116_get_set i hh (c116_isHeader.mp hx), if_neg hm] at h3
            exact .inl h3
        · exact .inr h3
    · rename_i hx
      rw [if_neg hx] at h2
      refine c116_loop hh ls' (y :: ls) a a' b _ h1 h2 ?_
      exact (List.count_le_count_cons).trans hc

theorem c116_parse {s : Str} {l : Library} (h : parse s = .ok l) : ∃ a, loop (lines s) {} 0 = .ok a ∧ a = ⟨some l.firebaseDb, some l.compat, some l.admob, some l.googleMap⟩ := by
  unfold parse at h
  simp only [Out.bind_eq_ok, Out.ofOption_eq_ok, Out.pure_eq, Out.ok.injEq] at h
  obtain ⟨a, ha, f, hf, c, hc, d, hd, g, hg, rfl⟩ := h
  refine ⟨a, ha, ?_⟩
  cases a
  simp_all

end Library

open Library in
/-- C116: a library file without a section twice that was cut off is refused, or is read as the same. -/
theorem c116_library {t r : Str} {l : Library} (h : Library.parse (t ++ r) = .ok l)
    (hn : ∀ hd ∈ [s% "@firebaseDB", s% "@compat", s% "@admob", s% "@googleMap"], (lines (t ++ r)).count hd ≤ 1) :
    (∃ e, Library.parse t = .err e) ∨ Library.parse t = .ok l := by
  cases ht : Library.parse t with
  | panic =>
    exfalso
    rw [c67_library] at ht
    unfold outcome at ht
    simp only at ht
    split at ht
    · cases ht
    · split at ht
      · cases ht
      · split at ht <;> cases ht
  | err e => exact .inl ⟨e, rfl⟩
  | ok l' =>
    refine .inr ?_
    obtain ⟨a, ha, rfl⟩ := c116_parse h
    obtain ⟨a', ha', rfl⟩ := c116_parse ht
    obtain ⟨ls, p, q, ls', h1, _, h3⟩ := c116_lines t r
    rw [h3] at ha hn
    rw [h1] at ha'
    have key : ∀ hd ∈ headers, c116_get ⟨some l'.firebaseDb, some l'.compat, some l'.admob, some l'.googleMap⟩ hd =
        c116_get ⟨some l.firebaseDb, some l.compat, some l.admob, some l.googleMap⟩ hd := by
      intro hd hm
      rcases c116_loop hm ls' ls {} _ _ 0 ha' ha (hn hd hm) with h | h
      · exfalso
        simp only [headers, List.mem_cons, List.not_mem_nil, or_false] at hm
        rcases hm with rfl | rfl | rfl | rfl <;> simp [c116_get] at h
      · exact h
    have k1 := key (s% "@firebaseDB") (by decide)
    have k2 := key (s% "@compat") (by decide)
    have k3 := key (s% "@admob") (by decide)
    have k4 := key (s% "@googleMap") (by decide)
    simp [c116_get] at k1 k2 k3 k4
    cases l; cases l'; simp_all

/-- C116: a project file of which something else than white space was cut is refused. -/
theorem c116_project_cut [Floats] {t r : Str} {p : Project} (h : Project.parse (t ++ r) = .ok p) (hr : ∃ c ∈ r, c ∉ [' ', '\n', '\t', '\r']) :
    Project.parse t = .err () := by
  rcases c116_project h with h | ⟨_, hs⟩
  · exact h
  · exfalso
    obtain ⟨c, hc, hn⟩ := hr
    exact hn (by simpa using hs c hc)

theorem c116_split {α : Type} {x : α} {as bs as' bs' : List α} (h : as ++ x :: bs = as' ++ x :: bs') (ha : x ∉ as) (hb : x ∉ bs) :
    as = as' ∧ bs = bs' := by
  rcases List.append_eq_append_iff.mp h with ⟨c, rfl, hc⟩ | ⟨c, rfl, hc⟩
  · cases c with
    | nil => exact ⟨by simp, (List.cons.inj hc).2⟩
    | cons y c =>
      obtain ⟨rfl, rfl⟩ := List.cons.inj hc
      exact absurd (by simp) hb
  · cases c with
    | nil => exact ⟨by simp, (List.cons.inj hc).2.symm⟩
    | cons y c =>
      obtain ⟨rfl, rfl⟩ := List.cons.inj hc
      exact absurd (by simp) ha

theorem c116_lines_nil {r : Str} (h : lines r = [[]]) : r = [] := by
  cases r with
  | nil => rfl
  | cons c r =>
    exfalso
    rw [lines, splitOn] at h
    split at h
    · exact splitOn_ne_nil _ _ (List.cons.inj h).2
    · split at h <;> simp at h

open Library in
/-- C116: a library file as it is written is refused if any part of its end is missing. -/
theorem c116_library_written {l : Library} {t r : Str} (h : l.reconstruct = t ++ r) (hr : r ≠ []) : ∃ e, Library.parse t = .err e := by
  have hl : lines (t ++ r) = [s% "@firebaseDB", l.firebaseDb.reconstruct, s% "@compat", l.compat.reconstruct, s% "@admob", l.admob.reconstruct] ++
      s% "@googleMap" :: [l.googleMap.reconstruct] := by
    rw [← h]
    have e : l.reconstruct = joinWith '\n' [s% "@firebaseDB", l.firebaseDb.reconstruct, s% "@compat", l.compat.reconstruct, s% "@admob",
        l.admob.reconstruct, s% "@googleMap", l.googleMap.reconstruct] := by
      simp [Library.reconstruct, joinWith]
    rw [e]
    refine splitOn_joinWith (by simp) fun p hp => ?_
    simp only [List.mem_cons, List.not_mem_nil, or_false] at hp
    rcases hp with rfl | rfl | rfl | rfl | rfl | rfl | rfl | rfl
    · decide
    · exact (LibraryItem.jline _).noNl
    · decide
    · exact (LibraryItem.jline _).noNl
    · decide
    · exact (LibraryItem.jline _).noNl
    · decide
    · exact (LibraryItem.jline _).noNl
  have hne : ∀ (i : LibraryItem) (hd : Str), hd ∈ headers → i.reconstruct ≠ hd := by
    intro i hd hm
    refine (LibraryItem.jline i).ne_of_head (c := '@') ?_ (by decide)
    simp only [headers, List.mem_cons, List.not_mem_nil, or_false] at hm
    rcases hm with rfl | rfl | rfl | rfl <;> rfl
  cases ht : Library.parse t with
  | panic =>
    exfalso
    rw [c67_library] at ht
    unfold outcome at ht
    simp only at ht
    split at ht
    · cases ht
    · split at ht
      · cases ht
      · split at ht <;> cases ht
  | err e => exact ⟨e, rfl⟩
  | ok l' =>
    exfalso
    obtain ⟨a', ha', rfl⟩ := c116_parse ht
    rcases c116_loop_set (h := s% "@googleMap") (by decide) _ _ _ _ ha' with ⟨pre, i, x, post, e, hi⟩ | h'
    · obtain ⟨ls, p, q, ls', h1, h2, h3⟩ := c116_lines t r
      have hG : s% "@googleMap" ∉ [s% "@firebaseDB", l.firebaseDb.reconstruct, s% "@compat", l.compat.reconstruct, s% "@admob", l.admob.reconstruct] := by
        have := fun i => hne i (s% "@googleMap") (by decide)
        simp only [List.mem_cons, List.not_mem_nil, or_false, not_or]
        exact ⟨by decide, (this _).symm, by decide, (this _).symm, by decide, (this _).symm⟩
      have hg : s% "@googleMap" ∉ [l.googleMap.reconstruct] := by
        simpa using (hne l.googleMap (s% "@googleMap") (by decide)).symm
      rw [hl] at h3
      rw [h1] at e
      have key : ∃ post', p :: ls' ≠ [] ∧ (post = [] ∧ ls = pre ++ [s% "@googleMap"] ∧ p = i ∨
          post = post' ++ [p] ∧ ls = pre ++ s% "@googleMap" :: i :: post') := by
        rcases List.eq_nil_or_concat post with rfl | ⟨post', z, rfl⟩
        · have e' : ls ++ [p] = (pre ++ [s% "@googleMap"]) ++ [i] := by rw [e]; simp
          obtain ⟨h5, h6⟩ := List.append_inj' e' rfl
          exact ⟨[], by simp, .inl ⟨rfl, h5, (List.cons.inj h6).1⟩⟩
        · have e' : ls ++ [p] = (pre ++ s% "@googleMap" :: i :: post') ++ [z] := by rw [e]; simp
          obtain ⟨h5, h6⟩ := List.append_inj' e' rfl
          exact ⟨post', by simp, .inr ⟨by rw [(List.cons.inj h6).1]; simp, h5⟩⟩
      obtain ⟨post', -, ⟨-, rfl, rfl⟩ | ⟨-, rfl⟩⟩ := key
      · rw [List.append_assoc, List.singleton_append] at h3
        obtain ⟨-, h5⟩ := c116_split h3 hG hg
        obtain ⟨h6, h7⟩ := List.cons.inj h5
        have hq := (c116_record c116_libraryItem hi (b := l.googleMap) (by
          rw [← h6]; exact LibraryItem.parse_reconstruct _)).2
        have hlast := (LibraryItem.jline l.googleMap).last
        rw [h6, List.getLast?_append] at hlast
        have : q = [] := by
          rcases List.eq_nil_or_concat q with rfl | ⟨q', z, rfl⟩
          · rfl
          · simp only [List.concat_eq_append, List.getLast?_append, List.getLast?_singleton, Option.some_or, Option.some.injEq] at hlast
            subst hlast
            exact absurd (hq '}' (by simp)) (by decide)
        subst this
        rw [← h7] at h2
        exact hr (c116_lines_nil h2)
      · rw [List.append_assoc, List.cons_append] at h3
        obtain ⟨-, h5⟩ := c116_split h3 hG hg
        have := congrArg List.length h5
        simp at this
    · simp [c116_get] at h'

/-! ### Views -/

theorem c116_lines_whole (t r : Str) : lines (t ++ '\n' :: r) = lines t ++ lines r := by
  obtain ⟨ls, p, q, ls', h1, h2, h3⟩ := c116_lines t ('\n' :: r)
  rw [show lines ('\n' :: r) = [] :: lines r from by rw [lines, splitOn, if_pos rfl]] at h2
  obtain ⟨rfl, rfl⟩ := List.cons.inj h2
  rw [h3, h1, List.append_nil]
  simp

theorem c116_reads {α : Type} {p : Str → Option α} {ls ls' : List Str} {as : List α} (h : ReadsAll p (ls ++ ls') as) :
    ∃ bs, ReadsAll p ls bs ∧ bs <+: as := by
  induction ls generalizing as with
  | nil => exact ⟨[], .nil, List.nil_prefix⟩
  | cons l ls ih =>
    cases h with
    | @cons _ a _ as hne hl ht =>
      obtain ⟨bs, h1, h2⟩ := ih ht
      exact ⟨a :: bs, .cons hne hl h1, (List.prefix_cons_inj a).mpr h2⟩

namespace View
variable [Floats] [MapPol]

/-- The sections that are left: the first sections, the last one perhaps a layout with only its first lines. -/
def c116_Cut (ss ss' : List Section) : Prop := ss' <+: ss ∨
  ∃ ss₁ name ls vs ls' vs', ss' = ss₁ ++ [.layout name ls' vs'] ∧ ss₁ ++ [.layout name ls vs] <+: ss ∧ ls' <+: ls ∧ vs' <+: vs

theorem c116_cut_cons (x : Section) {ss ss' : List Section} (h : c116_Cut ss ss') : c116_Cut (x :: ss) (x :: ss') := by
  rcases h with h | ⟨ss₁, name, ls, vs, ls', vs', rfl, h, h'⟩
  · exact .inl ((List.prefix_cons_inj x).mpr h)
  · exact .inr ⟨x :: ss₁, name, ls, vs, ls', vs', rfl, (List.prefix_cons_inj x).mpr h, h'⟩

/-- Lines made of sections. -/
def c116_Made (k : List Str) (ss : List Section) : Prop :=
  (∀ x ∈ ss, x.WF) ∧
  ((∃ rest, k = ss.flatMap Section.toLines ++ rest ∧ ∀ l, rest.head? = some l → l.head? ≠ some '@') ∨
   ∃ ss₀ name ls vs, ss = ss₀ ++ [.layout name ls vs] ∧ k = ss₀.flatMap Section.toLines ++ ('@' :: (name ++ s% ".xml")) :: ls)

/-- Lines that end in the header of a floating button. -/
def c116_Open (k : List Str) : Prop :=
  ∃ (ss : List Section) (name : Str), (∀ x ∈ ss, x.WF) ∧ '.' ∉ name ∧ k = ss.flatMap Section.toLines ++ ['@' :: (name ++ s% ".xml_fab")]

theorem c116_made_cons {x : Section} (hx : x.WF) {k : List Str} {ss : List Section} (h : c116_Made k ss) : c116_Made (x.toLines ++ k) (x :: ss) := by
  obtain ⟨h1, h2⟩ := h
  refine ⟨fun y hy => ?_, ?_⟩
  · rcases List.mem_cons.mp hy with rfl | hy
    · exact hx
    · exact h1 y hy
  · rcases h2 with ⟨rest, rfl, h⟩ | ⟨ss₀, name, ls, vs, rfl, rfl⟩
    · exact .inl ⟨rest, by simp, h⟩
    · exact .inr ⟨x :: ss₀, name, ls, vs, rfl, by simp⟩

theorem c116_open_cons {x : Section} (hx : x.WF) {k : List Str} (h : c116_Open k) : c116_Open (x.toLines ++ k) := by
  obtain ⟨ss, name, h1, h2, rfl⟩ := h
  refine ⟨x :: ss, name, fun y hy => ?_, h2, by simp⟩
  rcases List.mem_cons.mp hy with rfl | hy
  · exact hx
  · exact h1 y hy

/-- The first lines of a section that are not all. -/
theorem c116_within {x : Section} (hx : x.WF) {k c : List Str} (hc : c ≠ []) (h : x.toLines = k ++ c) (ss : List Section) :
    c116_Open k ∨ ∃ ss', c116_Made k ss' ∧ c116_Cut (x :: ss) ss' := by
  cases k with
  | nil => exact .inr ⟨[], ⟨by simp, .inl ⟨[], rfl, by simp⟩⟩, .inl List.nil_prefix⟩
  | cons l k =>
    cases x with
    | layout name ls vs =>
      rw [Section.toLines, List.cons_append] at h
      obtain ⟨rfl, -⟩ := List.cons.inj h
      obtain ⟨c', z, rfl⟩ := (List.eq_nil_or_concat c).resolve_left hc
      rw [List.concat_eq_append, ← List.append_assoc] at h
      have h := (List.cons.inj h).2
      obtain ⟨rfl, -⟩ := List.append_inj' h rfl
      obtain ⟨vs', h1, h2⟩ := c116_reads hx.2
      refine .inr ⟨[.layout name k vs'], ⟨?_, .inr ⟨[], name, k, vs', rfl, rfl⟩⟩,
        .inr ⟨[], name, k ++ c', vs, k, vs', rfl, ?_, List.prefix_append _ _, h2⟩⟩
      · intro y hy
        rw [List.mem_singleton] at hy
        subst hy
        exact ⟨hx.1, h1⟩
      · exact (List.prefix_cons_inj _).mpr List.nil_prefix
    | fab name b v =>
      rw [Section.toLines, List.cons_append] at h
      obtain ⟨rfl, h⟩ := List.cons.inj h
      have : k = [] := by
        cases k with
        | nil => rfl
        | cons y k =>
          have h1 := congrArg List.length h
          have h2 := List.length_pos_iff.mpr hc
          simp only [List.length_cons, List.length_append, List.length_nil] at h1
          omega
      subst this
      exact .inl ⟨[], name, by simp, hx.1, rfl⟩
    | other name kind =>
      exfalso
      have h1 := congrArg List.length h
      have h2 := List.length_pos_iff.mpr hc
      rw [Section.toLines, List.length_append, List.length_singleton, List.length_cons] at h1
      omega

theorem c116_sections {k m : List Str} {ss : List Section} (h : c116_Made (k ++ m) ss) :
    c116_Open k ∨ ∃ ss', c116_Made k ss' ∧ c116_Cut ss ss' := by
  obtain ⟨hw, hs⟩ := h
  have key : ∀ (ss : List Section) (k : List Str), (∀ x ∈ ss, x.WF) → ∀ R, k ++ m = ss.flatMap Section.toLines ++ R →
      (c116_Open k ∨ ∃ ss', c116_Made k ss' ∧ c116_Cut ss ss') ∨ ∃ k', k = ss.flatMap Section.toLines ++ k' ∧ k' ++ m = R := by
    intro ss
    induction ss with
    | nil => exact fun k _ R h => .inr ⟨k, rfl, h⟩
    | cons x ss ih =>
      intro k hw R h
      rw [List.flatMap_cons, List.append_assoc] at h
      have hx := hw x (by simp)
      have hw' : ∀ y ∈ ss, y.WF := fun y hy => hw y (by simp [hy])
      rcases List.append_eq_append_iff.mp h with ⟨c, hk, hc⟩ | ⟨c, rfl, hc⟩
      · by_cases hc0 : c = []
        · subst hc0
          rw [List.append_nil] at hk
          subst hk
          rw [List.nil_append] at hc
          rcases ih [] hw' R (by rw [List.nil_append, hc]) with (h | ⟨ss', h1, h2⟩) | ⟨k', h1, h2⟩
          · have := c116_open_cons hx h
            rw [List.append_nil] at this
            exact .inl (.inl this)
          · have := c116_made_cons hx h1
            rw [List.append_nil] at this
            exact .inl (.inr ⟨_, this, c116_cut_cons x h2⟩)
          · exact .inr ⟨k', by rw [List.flatMap_cons, List.append_assoc, ← h1, List.append_nil], h2⟩
        · exact .inl (c116_within hx hc0 hk ss)
      · rcases ih c hw' R hc.symm with (h | ⟨ss', h1, h2⟩) | ⟨k', rfl, h2⟩
        · exact .inl (.inl (c116_open_cons hx h))
        · exact .inl (.inr ⟨_, c116_made_cons hx h1, c116_cut_cons x h2⟩)
        · exact .inr ⟨k', by simp, h2⟩
  rcases hs with ⟨rest, he, hr⟩ | ⟨ss₀, name, ls, vs, rfl, he⟩
  · rcases key ss k hw rest he with h | ⟨k', rfl, rfl⟩
    · exact h
    · refine .inr ⟨ss, ⟨hw, .inl ⟨k', rfl, fun l hl => hr l ?_⟩⟩, .inl (List.prefix_refl _)⟩
      cases k' with
      | nil => simp at hl
      | cons y k' => exact hl
  · have hw₀ : ∀ x ∈ ss₀, x.WF := fun x hx => hw x (by simp [hx])
    have hl : (Section.layout name ls vs).WF := hw _ (by simp)
    rcases key ss₀ k hw₀ _ he with (h | ⟨ss', h1, h2⟩) | ⟨k', rfl, h⟩
    · exact .inl h
    · refine .inr ⟨ss', h1, ?_⟩
      rcases h2 with h2 | ⟨ss₁, name, ls, vs, ls', vs', rfl, h, h'⟩
      · exact .inl (h2.trans (List.prefix_append _ _))
      · exact .inr ⟨ss₁, name, ls, vs, ls', vs', rfl, h.trans (List.prefix_append _ _), h'⟩
    · cases k' with
      | nil =>
        refine .inr ⟨ss₀, ⟨hw₀, .inl ⟨[], rfl, by simp⟩⟩, .inl (List.prefix_append _ _)⟩
      | cons y k' =>
        rw [List.cons_append] at h
        obtain ⟨rfl, rfl⟩ := List.cons.inj h
        obtain ⟨vs', h1, h2⟩ := c116_reads hl.2
        refine .inr ⟨ss₀ ++ [.layout name k' vs'], ⟨fun x hx => ?_, .inr ⟨ss₀, name, k', vs', rfl, rfl⟩⟩,
          .inr ⟨ss₀, name, k' ++ m, vs, k', vs', rfl, List.prefix_refl _, List.prefix_append _ _, h2⟩⟩
        rcases List.mem_append.mp hx with hx | hx
        · exact hw₀ x hx
        · rw [List.mem_singleton] at hx
          subst hx
          exact ⟨hl.1, h1⟩

/-- C116: a view file that was cut off at the end of a line consists of the first of its sections, the last one perhaps a layout with only its
first views; or it ends in the header of a floating button and is refused. -/
theorem c116_view {t r : Str} {ss : List Section} (h : c115_Made (t ++ '\n' :: r) ss) :
    (∃ name n, View.parse t = .err (.eofAfterFabHeader name n)) ∨ ∃ ss', c115_Made t ss' ∧ c116_Cut ss ss' := by
  have h' : c116_Made (lines t ++ lines r) ss := by rw [← c116_lines_whole]; exact h
  rcases c116_sections h' with ⟨ss', name, h1, h2, h3⟩ | h
  · exact .inl ⟨name, _, parse_of_lines (e := .noFab name) h1 h2 h3⟩
  · exact .inr h

/-- C116: what is read of a view file without a section twice that was cut off at the end of a line is in the whole file: each floating button,
and of each layout the first views. -/
theorem c116_view_read {t r : Str} {ss : List Section} {v v' : View} (h : View.parse (t ++ '\n' :: r) = .ok v) (hs : c115_Made (t ++ '\n' :: r) ss)
    (hd : c115_Apart ss) (ht : View.parse t = .ok v') :
    (∀ n w, v'.fabs.get n = some w → v.fabs.get n = some w) ∧
    ∀ n l', v'.layouts.get n = some l' → ∃ l, v.layouts.get n = some l ∧ l'.views <+: l.views := by
  rcases c116_view hs with ⟨_, _, e⟩ | ⟨ss', hm, hc⟩
  · rw [e] at ht; cases ht
  rw [c115_made_parse hs] at h
  rw [c115_made_parse hm] at ht
  obtain rfl := Out.ok.inj h
  obtain rfl := Out.ok.inj ht
  have hd' : c115_Apart ss' := by
    rcases hc with hc | ⟨ss₁, name, ls, vs, ls', vs', rfl, hc, -⟩
    · exact List.Pairwise.sublist hc.sublist hd
    · have := List.Pairwise.sublist hc.sublist hd
      unfold c115_Apart
      rw [List.pairwise_append] at this ⊢
      refine ⟨this.1, by simp, fun a ha b hb => ?_⟩
      rw [List.mem_singleton] at hb
      subst hb
      have := this.2.2 a ha (.layout name ls vs) (by simp)
      cases a <;> trivial
  constructor
  · intro n w hw
    by_cases hm : ∃ l w, .fab n l w ∈ ss'
    · obtain ⟨l, w', hm⟩ := hm
      rw [(c115_fold_fabs ss' hd' n ⟨[], []⟩).1 l w' hm] at hw
      obtain rfl := Option.some.inj hw
      refine (c115_fold_fabs ss hd n ⟨[], []⟩).1 l w' ?_
      rcases hc with hc | ⟨ss₁, name, ls, vs, ls', vs', rfl, hc, -⟩
      · exact hc.subset hm
      · refine hc.subset ?_
        simp only [List.mem_append, List.mem_singleton, reduceCtorEq, or_false] at hm ⊢
        exact hm
    · rw [(c115_fold_fabs ss' hd' n ⟨[], []⟩).2 (fun l w h => hm ⟨l, w, h⟩)] at hw
      cases hw
  · intro n l' hl'
    by_cases hm : ∃ ls vs, .layout n ls vs ∈ ss'
    · obtain ⟨k, vs, hm⟩ := hm
      rw [(c115_fold_layouts ss' hd' n ⟨[], []⟩).1 k vs hm] at hl'
      obtain rfl := Option.some.inj hl'
      rcases hc with hc | ⟨ss₁, name, ls, vs₁, ls', vs', rfl, hc, -, hv⟩
      · exact ⟨_, (c115_fold_layouts ss hd n ⟨[], []⟩).1 k vs (hc.subset hm), List.prefix_refl _⟩
      · rcases List.mem_append.mp hm with hm | hm
        · exact ⟨_, (c115_fold_layouts ss hd n ⟨[], []⟩).1 k vs (hc.subset (by simp [hm])), List.prefix_refl _⟩
        · rw [List.mem_singleton, Section.layout.injEq] at hm
          obtain ⟨rfl, rfl, rfl⟩ := hm
          exact ⟨_, (c115_fold_layouts ss hd n ⟨[], []⟩).1 ls vs₁ (hc.subset (by simp)), hv⟩
    · rw [(c115_fold_layouts ss' hd' n ⟨[], []⟩).2 (fun l w h => hm ⟨l, w, h⟩)] at hl'
      cases hl'

end View

/-! ### Logics -/

namespace Logic
variable [Floats] [MapPol]

theorem c116_paragraphs (k m : List Str) : ∃ P p q P', k.splitOn ([] : Str) = P ++ [p] ∧ m.splitOn ([] : Str) = q :: P' ∧
    (k ++ m).splitOn ([] : Str) = P ++ (p ++ q) :: P' := by
  induction h : k.length using Nat.strongRecOn generalizing k with
  | _ n ih =>
  rcases splitOn_blank k with ⟨body, rest, rfl, hb⟩ | hn
  · obtain ⟨P, p, q, P', h1, h2, h3⟩ := ih rest.length (by rw [← h]; simp; omega) rest rfl
    refine ⟨body :: P, p, q, P', ?_, h2, ?_⟩
    · rw [List.splitOn_append_cons_self, List.splitOn_eq_singleton hb, h1]; rfl
    · rw [List.append_assoc, List.cons_append, List.splitOn_append_cons_self, List.splitOn_eq_singleton hb, h3]; rfl
  · rcases splitOn_blank m with ⟨body, rest, rfl, hb⟩ | hm
    · refine ⟨[], k, body, rest.splitOn [], ?_, ?_, ?_⟩
      · rw [List.splitOn_eq_singleton hn]; rfl
      · rw [List.splitOn_append_cons_self, List.splitOn_eq_singleton hb]; rfl
      · rw [← List.append_assoc, List.splitOn_append_cons_self, List.splitOn_eq_singleton (by simp [hn, hb])]; rfl
    · refine ⟨[], k, m, [], ?_, ?_, ?_⟩
      · rw [List.splitOn_eq_singleton hn]; rfl
      · rw [List.splitOn_eq_singleton hm]
      · rw [List.splitOn_eq_singleton (by simp [hn, hm])]; rfl

/-- The sections that are left: the first sections, the last one perhaps with only its first lines. -/
def c116_Cut (ps ps' : List (List Str)) : Prop := ps' <+: ps ∨
  ∃ pre hd body body', ps' = pre ++ [hd :: body'] ∧ pre ++ [hd :: body] <+: ps ∧ body' <+: body

theorem c116_sections (k m : List Str) : c116_Cut (sections (k ++ m)) (sections k) := by
  obtain ⟨P, p, q, P', h1, -, h3⟩ := c116_paragraphs k m
  unfold sections
  rw [h1, h3]
  by_cases hP : ∀ x ∈ P, isSection x = true
  · rw [List.takeWhile_append_of_pos hP, List.takeWhile_append_of_pos hP]
    cases p with
    | nil =>
      rw [show [([] : List Str)].takeWhile isSection = [] from rfl, List.append_nil]
      exact .inl (List.prefix_append _ _)
    | cons hd body =>
      rw [List.takeWhile_cons, List.takeWhile_cons, show isSection (hd :: body ++ q) = startsWith ['@'] hd from rfl,
        show isSection (hd :: body) = startsWith ['@'] hd from rfl]
      by_cases hs : startsWith ['@'] hd = true
      · rw [if_pos hs, if_pos hs]
        refine .inr ⟨P, hd, body ++ q, body, rfl, ?_, List.prefix_append _ _⟩
        exact ⟨P'.takeWhile isSection, by simp⟩
      · rw [if_neg hs, if_neg hs]
        exact .inl (List.prefix_refl _)
  · refine .inl ?_
    have : ∀ X Y : List (List Str), (P ++ X).takeWhile isSection = (P ++ Y).takeWhile isSection := by
      intro X Y
      clear h1 h3
      induction P with
      | nil => exact absurd (by simp) hP
      | cons x P ih =>
        rw [List.cons_append, List.cons_append, List.takeWhile_cons, List.takeWhile_cons]
        by_cases hx : isSection x = true
        · rw [if_pos hx, if_pos hx, ih fun h => hP fun y hy => by
            rcases List.mem_cons.mp hy with rfl | hy
            · exact hx
            · exact h y hy]
        · rw [if_neg hx, if_neg hx]
    rw [this]

theorem c116_mk {hd : Str} {body : List Str} {n : Str} {f : ScreenLogic → ScreenLogic} (h : Sec hd body n f) : ∃ e, SectionReads (hd :: body) e :=
  ⟨(n, f), hd, body, rfl, h⟩

theorem c116_sec {hd : Str} {body body' : List Str} {e : Str × (ScreenLogic → ScreenLogic)} (h : Sec hd body e.1 e.2) (hb : body' <+: body) :
    ∃ e', SectionReads (hd :: body') e' := by
  obtain ⟨c, rfl⟩ := hb
  obtain ⟨n, f⟩ := e
  cases h with
  | var hx h => obtain ⟨bs, h', _⟩ := c116_reads h; exact c116_mk (.var hx h')
  | list hx h => obtain ⟨bs, h', _⟩ := c116_reads h; exact c116_mk (.list hx h')
  | components hx h => obtain ⟨bs, h', _⟩ := c116_reads h; exact c116_mk (.components hx h')
  | events hx h => obtain ⟨bs, h', _⟩ := c116_reads h; exact c116_mk (.events hx h')
  | func hx h => obtain ⟨bs, h', _⟩ := c116_reads h; exact c116_mk (.func hx h')
  | blocks hn hl h => obtain ⟨bs, h', _⟩ := c116_reads h; exact c116_mk (.blocks hn hl h')

/-- C116: a logic file that was cut off at the end of a line is read, and consists of the first of its sections, the last one perhaps with only
its first lines. -/
theorem c116_logic {t r : Str} {l : Logic} (h : parse (t ++ '\n' :: r) = .ok l) :
    (∃ l', parse t = .ok l') ∧ c116_Cut (sections (lines (t ++ '\n' :: r))) (sections (lines t)) := by
  have hc : c116_Cut (sections (lines (t ++ '\n' :: r))) (sections (lines t)) := by
    rw [c116_lines_whole]; exact c116_sections _ _
  refine ⟨?_, hc⟩
  obtain ⟨es, he, _⟩ := (c69_ok _ _).mp h
  obtain ⟨es', he'⟩ : ∃ es', All₂ SectionReads (sections (lines t)) es' := Api.c110_all_exists fun p hp => by
    rcases hc with hc | ⟨pre, hd, body, body', e, hc, hb⟩
    · obtain ⟨e, _, h⟩ := he.left p (hc.subset hp)
      exact ⟨e, h⟩
    · rw [e] at hp
      rcases List.mem_append.mp hp with hp | hp
      · obtain ⟨e, _, h⟩ := he.left p (hc.subset (by simp [hp]))
        exact ⟨e, h⟩
      · rw [List.mem_singleton] at hp
        subst hp
        obtain ⟨e, _, hd', body₂, e₂, h⟩ := he.left (hd :: body) (hc.subset (by simp))
        obtain ⟨rfl, rfl⟩ := List.cons.inj e₂
        exact c116_sec h hb
  exact ⟨_, (c69_ok t _).mpr ⟨es', he', rfl⟩⟩

/-- C116: what is read of a logic file without a section twice that was cut off at the end of a line is in the whole file: each screen, and each
pool and the code of each container as it is read from the first lines of its section. -/
theorem c116_logic_read {t r : Str} {l l' : Logic} (h : parse (t ++ '\n' :: r) = .ok l) (hd : c115_Apart (sections (lines (t ++ '\n' :: r))))
    (ht : parse t = .ok l') (n : Str) (s' : ScreenLogic) (hs' : l'.screens.get n = some s') :
    ∃ s, l.screens.get n = some s ∧ s'.name = s.name ∧ ∀ k v', c115_at s' k = some v' →
      ∃ body body' v, c115_at s k = some v ∧ body' <+: body ∧ c115_Reads body k v ∧ c115_Reads body' k v' := by
  have hc := (c116_logic h).2
  obtain ⟨es, he, _⟩ := (c69_ok _ _).mp h
  obtain ⟨es', he', _⟩ := (c69_ok _ _).mp ht
  have hd' : c115_Apart (sections (lines t)) := by
    rcases hc with hc | ⟨pre, hd₁, body, body', e, hc, hb⟩
    · exact List.Pairwise.sublist hc.sublist hd
    · have := List.Pairwise.sublist hc.sublist hd
      rw [e]
      unfold c115_Apart
      rw [List.pairwise_append] at this ⊢
      refine ⟨this.1, by simp, fun a ha b hb' => ?_⟩
      rw [List.mem_singleton] at hb'
      subst hb'
      intro x y x' y' m k e1 e2
      obtain ⟨rfl, rfl⟩ := List.cons.inj e2
      exact this.2.2 a ha _ (List.mem_singleton.mpr rfl) x y _ body m k e1 rfl
  have up : ∀ k body', c115_Last (sections (lines t)) n k body' → ∃ body, c115_Last (sections (lines (t ++ '\n' :: r))) n k body ∧ body' <+: body := by
    intro k body' hl
    obtain ⟨hd₁, hm, hh⟩ := (c115_last_of_apart hd' n k body').mp hl
    rcases hc with hc | ⟨pre, hd₂, body, body₂, e, hc, hb⟩
    · exact ⟨body', (c115_last_of_apart hd n k body').mpr ⟨hd₁, hc.subset hm, hh⟩, List.prefix_refl _⟩
    · rw [e] at hm
      rcases List.mem_append.mp hm with hm | hm
      · exact ⟨body', (c115_last_of_apart hd n k body').mpr ⟨hd₁, hc.subset (by simp [hm]), hh⟩, List.prefix_refl _⟩
      · obtain ⟨rfl, rfl⟩ := List.cons.inj (List.mem_singleton.mp hm)
        exact ⟨body, (c115_last_of_apart hd n k body).mpr ⟨hd₁, hc.subset (by simp), hh⟩, hb⟩
  rw [c69_screen he' ht n] at hs'
  split at hs'
  · rename_i hn'
    have hn : n ∈ es.map (·.1) := by
      obtain ⟨k, body', hl⟩ := (c115_named he' n).mp hn'
      obtain ⟨body, hl', _⟩ := up k body' hl
      exact (c115_named he n).mpr ⟨k, body, hl'⟩
    rw [c69_screen he h n, if_pos hn]
    obtain rfl := Option.some.inj hs'
    obtain ⟨p1, p2⟩ := c115_parts he n (ScreenLogic.newEmpty n)
    obtain ⟨p1', p2'⟩ := c115_parts he' n (ScreenLogic.newEmpty n)
    refine ⟨_, rfl, p1'.trans p1.symm, fun k v' hv' => ?_⟩
    rcases p2' k with ⟨body', w', hl', hr', ha'⟩ | ⟨_, ha'⟩
    · obtain ⟨body, hl, hb⟩ := up k body' hl'
      rcases p2 k with ⟨body₁, w, hl₁, hr, ha⟩ | ⟨hno, _⟩
      · obtain rfl := c115_last_unique hl hl₁
        have : w' = v' := Option.some.inj (ha'.symm.trans hv')
        subst this
        exact ⟨body, body', w, ha, hb, hr, hr'⟩
      · obtain ⟨pre, hd₁, post, e, hh, _⟩ := hl
        exact absurd hh (hno hd₁ body (by rw [e]; simp))
    · exfalso
      have e := ha'.symm.trans hv'
      cases k with
      | pool suf =>
        simp only [c115_at, ScreenLogic.newEmpty, Option.map_none] at e
        repeat' split at e
        all_goals cases e
      | code c => cases e
  · cases hs'

/-- C116: a logic file cut off within a line can be read with another content: `abc` becomes `ab`. -/
theorem c116_logic_false : ∃ t r l l', parse (t ++ r) = .ok l ∧ parse t = .ok l' ∧
    l.screens = [(s% "A", ⟨s% "A", [], some ⟨[(s% "abc", ⟨s% "abc", .boolean⟩)]⟩, none, none, none, none⟩)] ∧
    l'.screens = [(s% "A", ⟨s% "A", [], some ⟨[(s% "ab", ⟨s% "ab", .boolean⟩)]⟩, none, none, none, none⟩)] := by
  refine ⟨s% "@A.java_var\n0:ab", s% "c", ⟨_⟩, ⟨_⟩, ?_, ?_, rfl, rfl⟩
  · rename_i P
    obtain ⟨i, e⟩ := P
    cases i <;> cases e <;> rfl
  · rename_i P
    obtain ⟨i, e⟩ := P
    cases i <;> cases e <;> rfl

end Logic

/-- C116: a view file cut off within a line can be read with a layout lost: the header of its floating button, cut off, is the header of an empty
layout that takes its place. -/
theorem c116_view_false [Floats] [MapPol] (w : AndroidView) (x : Str) (hx : AndroidView.parse x = some w) (hn : '\n' ∉ x) :
    ∃ t r v v', View.parse (t ++ r) = .ok v ∧ View.parse t = .ok v' ∧ v.layouts.get (s% "a") = some ⟨[w]⟩ ∧ v.fabs.get (s% "a") = some w ∧
      v'.layouts.get (s% "a") = some ⟨[]⟩ ∧ v'.fabs.get (s% "a") = none := by
  have hne : x ≠ [] := (c116_noHeader c116_androidView (r := []) hx).1
  have h1 : Section.WF (.layout (s% "a") [x] [w]) := ⟨by decide, .cons hne hx .nil⟩
  have h2 : Section.WF (.fab (s% "a") x w) := ⟨by decide, hx⟩
  have h3 : Section.WF (.layout (s% "a") [] []) := ⟨by decide, .nil⟩
  have m1 : View.c115_Made ((s% "@a.xml\n" ++ (x ++ s% "\n\n@a.xml")) ++ (s% "_fab\n" ++ x)) [.layout (s% "a") [x] [w], .fab (s% "a") x w] := by
    refine ⟨by simp [h1, h2], .inl ⟨[], ?_, by simp⟩⟩
    show splitOn _ _ = _
    rw [show ((s% "@a.xml\n" ++ (x ++ s% "\n\n@a.xml")) ++ (s% "_fab\n" ++ x)) =
        s% "@a.xml" ++ '\n' :: (x ++ '\n' :: ([] ++ '\n' :: (s% "@a.xml_fab" ++ '\n' :: x))) by simp,
      splitOn_append_sep (by decide), splitOn_append_sep hn, splitOn_append_sep (by decide), splitOn_append_sep (by decide), splitOn_of_not_mem hn]
    rfl
  have m2 : View.c115_Made (s% "@a.xml\n" ++ (x ++ s% "\n\n@a.xml")) [.layout (s% "a") [x] [w], .layout (s% "a") [] []] := by
    refine ⟨by simp [h1, h3], .inr ⟨[.layout (s% "a") [x] [w]], s% "a", [], [], rfl, ?_⟩⟩
    show splitOn _ _ = _
    rw [show (s% "@a.xml\n" ++ (x ++ s% "\n\n@a.xml")) =
        s% "@a.xml" ++ '\n' :: (x ++ '\n' :: ([] ++ '\n' :: (s% "@a.xml"))) by simp,
      splitOn_append_sep (by decide), splitOn_append_sep hn, splitOn_append_sep (by decide), splitOn_of_not_mem (by decide)]
    rfl
  refine ⟨_, _, _, _, View.c115_made_parse m1, View.c115_made_parse m2, ?_, ?_, ?_, rfl⟩ <;>
    simp [Section.apply, LMap.get_insert]

/-! ### Examples -/

/-- `c116_file`: cut within a header, the rest is read; cut within an entry, it is refused. -/
example : ∃ f, File.parse (s% "@activity\n{\"fileName\":\"a\",\"fileType\":0,\"keyboardSetting\":0,\"options\":1,\"orientation\":0,\"theme\":-1}" ++
      s% "\n@customview") = .ok f ∧ f.activities.length = 1 ∧ File.parse (s% "@activity\n{\"fileName\":\"a\"") = .err (.item 1 (s% "{\"fileName\":\"a\"")) :=
  ⟨⟨[⟨s% "a", .activity, .unspecified, ⟨true, false, false, false⟩, .portrait, .none⟩], []⟩, by decide +kernel⟩
/-- `c116_resource`: the entries before the cut. -/
example : Resource.parse (s% "@images\n{\"resFullName\":\"a\",\"resName\":\"b\",\"resType\":1}\n@sounds" ++ s% "\n@fonts\n") =
      .ok ⟨[⟨s% "a", s% "b", 1⟩], [], []⟩ ∧
    Resource.parse (s% "@images\n{\"resFullName\":\"a\",\"resName\":\"b\",\"resType\":1}\n@sounds") = .ok ⟨[⟨s% "a", s% "b", 1⟩], [], []⟩ ∧
    Resource.parse (s% "@images\n{\"resFullName\":\"a\",\"resName\":\"b\",\"resType\":1") = .err (.item .images 1) := by decide +kernel
/-- `c116_library_written`: the last brace is missing. -/
example : ∃ (l : Library) (t r : Str), l.reconstruct = t ++ r ∧ r ≠ [] ∧ t ≠ [] :=
  ⟨⟨sampleLib [], sampleLib [], sampleLib [], sampleLib []⟩, Library.reconstruct ⟨sampleLib [], sampleLib [], sampleLib [], sampleLib []⟩ |>.dropLast, ['}'],
    by decide +kernel⟩
/-- `c116_library`: no section twice, and a line after the last that may be missing. -/
example : ∃ (l : Library) (t r : Str), Library.parse (t ++ r) = .ok l ∧ r ≠ [] ∧
    ∀ hd ∈ [s% "@firebaseDB", s% "@compat", s% "@admob", s% "@googleMap"], (lines (t ++ r)).count hd ≤ 1 :=
  ⟨⟨sampleLib [], sampleLib [], sampleLib [], sampleLib []⟩, Library.reconstruct ⟨sampleLib [], sampleLib [], sampleLib [], sampleLib []⟩, s% "\nend",
    by decide +kernel⟩
/-- `c116_project` and `c116_project_cut`: the last brace is missing. -/
example : (@Project.parse toyFloats.toFloats (c114_projectText.dropLast ++ ['}']) =
      .ok ⟨601, s% "A", s% "W", s% "a.b", 1, s% "1.0", 1641092645, false, .default, 150⟩) ∧
    @Project.parse toyFloats.toFloats c114_projectText.dropLast = .err () := by decide +kernel
/-- `c116_view` and `c116_view_read`: the floating button is missing. -/
example [Floats] [MapPol] (w : AndroidView) (x : Str) (hx : AndroidView.parse x = some w) (hn : '\n' ∉ x) : ∃ t r ss v v',
    View.c115_Made (t ++ '\n' :: r) ss ∧ View.parse (t ++ '\n' :: r) = .ok v ∧ View.c115_Apart ss ∧ View.parse t = .ok v' ∧ v'.layouts.get (s% "a") = some ⟨[]⟩ := by
  have h1 : Section.WF (.layout (s% "a") [] []) := ⟨by decide, .nil⟩
  have h2 : Section.WF (.fab (s% "a") x w) := ⟨by decide, hx⟩
  have m1 : View.c115_Made (s% "@a.xml\n" ++ '\n' :: (s% "@a.xml_fab\n" ++ x)) [.layout (s% "a") [] [], .fab (s% "a") x w] := by
    refine ⟨by simp [h1, h2], .inl ⟨[], ?_, by simp⟩⟩
    show splitOn _ _ = _
    rw [show (s% "@a.xml\n" ++ '\n' :: (s% "@a.xml_fab\n" ++ x)) = s% "@a.xml" ++ '\n' :: ([] ++ '\n' :: (s% "@a.xml_fab" ++ '\n' :: x)) from rfl,
      splitOn_append_sep (by decide), splitOn_append_sep (by decide), splitOn_append_sep (by decide), splitOn_of_not_mem hn]
    rfl
  exact ⟨_, _, _, _, ⟨[(s% "a", ⟨[]⟩)], []⟩, m1, View.c115_made_parse m1, List.pairwise_pair.mpr trivial, rfl, rfl⟩
/-- `c116_logic` and `c116_logic_read`: one of two sections is missing. -/
example [Floats] [MapPol] : ∃ t r l l', Logic.parse (t ++ '\n' :: r) = .ok l ∧ Logic.c115_Apart (Logic.sections (lines (t ++ '\n' :: r))) ∧
    Logic.parse t = .ok l' ∧ l' ≠ l ∧ l'.screens.get (s% "A") = some { ScreenLogic.newEmpty (s% "A") with blockContainers := [(s% "x", ⟨[]⟩)] } := by
  refine ⟨s% "@A.java_x\n", s% "@B.java_y",
    ⟨[(s% "A", { ScreenLogic.newEmpty (s% "A") with blockContainers := [(s% "x", ⟨[]⟩)] }),
      (s% "B", { ScreenLogic.newEmpty (s% "B") with blockContainers := [(s% "y", ⟨[]⟩)] })]⟩,
    ⟨[(s% "A", { ScreenLogic.newEmpty (s% "A") with blockContainers := [(s% "x", ⟨[]⟩)] })]⟩, rfl, ?_, rfl, by simp, rfl⟩
  rw [show Logic.sections (lines (s% "@A.java_x\n" ++ '\n' :: s% "@B.java_y")) = [[s% "@A.java_x"], [s% "@B.java_y"]] by decide +kernel]
  refine List.pairwise_pair.mpr ?_
  intro hd body hd' body' n k e1 e2 h1 h2
  obtain ⟨rfl, rfl⟩ := List.cons.inj e1
  obtain ⟨rfl, rfl⟩ := List.cons.inj e2
  have a1 : Logic.c115_Header (s% "@A.java_x") (s% "A") (.code (s% "x")) := ⟨by decide, rfl⟩
  have a2 : Logic.c115_Header (s% "@B.java_y") (s% "B") (.code (s% "y")) := ⟨by decide, rfl⟩
  have := (Logic.c115_header_unique h1 a1).1.symm.trans (Logic.c115_header_unique h2 a2).1
  simp at this
end Swrs
