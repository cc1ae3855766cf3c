import Verif.Props.OneLine
import Verif.Props.BlankEnds
/-!
# C121: files that are joined
-/
set_option linter.unusedSectionVars false
namespace Swrs
open Sections

/-! ### The lists of files and resources -/

/-- Specification: a list in which a blank line comes after a header. -/
def c121_Ended (headers : List Str) (s : Str) : Prop := ∃ pre post hd, lines s = pre ++ [] :: post ∧ hd ∈ pre ∧ hd ∈ headers

theorem c121_gloop_stop {σ α : Type} {header : Str → Option σ} {read : Str → Option α} (h0 : header [] = none) {pre post : List Str} {hd : Str} (m : List Str)
    (acc : List (σ × α)) (n : Nat) (hm : hd ∈ pre) (hh : header hd ≠ none) :
    gloop header read ((pre ++ [] :: post) ++ m) none acc n = gloop header read (pre ++ [] :: post) none acc n := by
  rw [List.append_assoc, List.cons_append, c117_gloop_sec h0 _ _ _ _ _ (.inr ⟨hd, hm, hh⟩), c117_gloop_sec h0 _ _ _ _ _ (.inr ⟨hd, hm, hh⟩)]

theorem c121_gloop_go {σ α : Type} {header : Str → Option σ} {read : Str → Option α} {l : Str} {m : List Str} (hl : header l ≠ none) :
    ∀ (ls : List Str) (sec : Option σ) (acc r : List (σ × α)) (n : Nat), (∀ pre post, ls = pre ++ [] :: post → sec = none ∧ ∀ h ∈ pre, header h = none) →
      gloop header read ls sec acc n = .ok r → gloop header read (ls ++ l :: m) sec acc n = gloop header read (l :: m) none r (n + ls.length)
  | [], sec, acc, r, n, _, h => by
    rw [gloop] at h
    obtain rfl := Except.ok.inj h
    rw [List.nil_append, gloop_cons, gloop_cons]
    cases hh : header l with
    | none => exact absurd hh hl
    | some s => rfl
  | x :: ls, sec, acc, r, n, hb, h => by
    have hn : n + (x :: ls).length = n + 1 + ls.length := by rw [List.length_cons]; omega
    rw [gloop_cons] at h
    rw [List.cons_append, gloop_cons, hn]
    cases hx : header x with
    | some k =>
      rw [hx] at h
      refine c121_gloop_go hl ls (some k) acc r (n + 1) (fun pre post e => ?_) h
      have := (hb (x :: pre) post (by rw [e]; rfl)).2 x (by simp)
      rw [hx] at this; cases this
    | none =>
      rw [hx] at h
      cases sec with
      | none =>
        refine c121_gloop_go hl ls none acc r (n + 1) (fun pre post e => ⟨rfl, fun h hh => ?_⟩) h
        exact (hb (x :: pre) post (by rw [e]; rfl)).2 h (by simp [hh])
      | some k =>
        by_cases hxe : x = []
        · have := (hb [] ls (by rw [hxe]; rfl)).1
          cases this
        · simp only [if_neg hxe] at h ⊢
          cases hr : read x with
          | none => rw [hr] at h; cases h
          | some a =>
            rw [hr] at h
            refine c121_gloop_go hl ls (some k) _ r (n + 1) (fun pre post e => ?_) h
            have := (hb (x :: pre) post (by rw [e]; rfl)).1
            cases this

theorem c121_gloop_acc {σ α : Type} {header : Str → Option σ} {read : Str → Option α} (c : List (σ × α)) :
    ∀ (ls : List Str) (sec : Option σ) (acc r : List (σ × α)) (n n' : Nat), gloop header read ls sec acc n = .ok r →
      gloop header read ls sec (c ++ acc) n' = .ok (c ++ r)
  | [], sec, acc, r, n, n', h => by
    rw [gloop] at h ⊢
    rw [Except.ok.inj h]
  | x :: ls, sec, acc, r, n, n', h => by
    rw [gloop_cons] at h ⊢
    split
    · rename_i hx
      rw [hx] at h
      exact c121_gloop_acc c ls _ _ _ _ _ h
    · rename_i hx
      rw [hx] at h
      cases sec with
      | none => exact c121_gloop_acc c ls _ _ _ _ _ h
      | some k =>
        simp only at h ⊢
        split
        · rename_i hxe
          rw [if_pos hxe] at h
          rw [Except.ok.inj h]
        · rename_i hxe
          rw [if_neg hxe] at h
          cases hr : read x with
          | none => rw [hr] at h; cases h
          | some a =>
            rw [hr] at h
            simp only [List.append_assoc]
            exact c121_gloop_acc c ls _ _ _ _ _ h

theorem c121_only {σ α : Type} [DecidableEq σ] (k : σ) (a b : List (σ × α)) : only k (a ++ b) = only k a ++ only k b := by
  simp [only]

theorem c121_gloop {σ α : Type} {header : Str → Option σ} {read : Str → Option α} {headers : List Str}
    (hh : ∀ l, header l ≠ none ↔ l ∈ headers) {s t : Str} {a b : List (σ × α)} (hs : gloop header read (lines s) none [] 0 = .ok a)
    (ht : gloop header read (lines t) none [] 0 = .ok b) (he : ¬ c121_Ended headers s) (hl : ∃ l ∈ headers, (lines t).head? = some l) :
    gloop header read (lines (s ++ '\n' :: t)) none [] 0 = .ok (a ++ b) := by
  obtain ⟨l, hl, hm⟩ := hl
  rw [c116_lines_whole]
  cases e : lines t with
  | nil => rw [e] at hm; cases hm
  | cons x m =>
    rw [e] at hm ht
    obtain rfl := Option.some.inj hm
    rw [c121_gloop_go ((hh x).mpr hl) _ _ _ _ _ (fun pre post e => ⟨rfl, fun h hm => ?_⟩) hs]
    · have := c121_gloop_acc a _ _ _ _ _ (0 + (lines s).length) ht
      rwa [List.append_nil] at this
    · cases hn : header h with
      | none => rfl
      | some k => exact absurd ⟨pre, post, h, e, hm, (hh h).mp (by rw [hn]; simp)⟩ he

theorem c121_fileHeader (l : Str) : fileHeader l ≠ none ↔ l ∈ [s% "@activity", s% "@customview"] := by
  unfold fileHeader
  split
  · simp_all
  · split
    · simp_all
    · simp_all
theorem c121_resourceHeader (l : Str) : resourceHeader l ≠ none ↔ l ∈ [s% "@images", s% "@sounds", s% "@fonts"] := by
  unfold resourceHeader
  split
  · simp_all
  · split
    · simp_all
    · split <;> simp_all

/-- C121: a list of files with another one after it, in the next line, is read as both one after the other; the second one begins with a header. If in
the first one a blank line comes after a header, then the second one has no effect. -/
theorem c121_file {s t : Str} {f f' : File} (hs : File.parse s = .ok f) (ht : File.parse t = .ok f') :
    (¬ c121_Ended [s% "@activity", s% "@customview"] s → (∃ l ∈ [s% "@activity", s% "@customview"], (lines t).head? = some l) →
      File.parse (s ++ '\n' :: t) = .ok ⟨f.activities ++ f'.activities, f.customViews ++ f'.customViews⟩) ∧
    (c121_Ended [s% "@activity", s% "@customview"] s → File.parse (s ++ '\n' :: t) = .ok f) := by
  constructor
  · intro he hl
    rw [c116_file_gloop] at hs ht ⊢
    cases ha : gloop fileHeader FileItem.parse (lines s) none [] 0 with
    | error e => rw [ha] at hs; cases hs
    | ok a =>
      cases hb : gloop fileHeader FileItem.parse (lines t) none [] 0 with
      | error e => rw [hb] at ht; cases ht
      | ok b =>
        rw [ha] at hs; rw [hb] at ht
        rw [← Out.ok.inj hs, ← Out.ok.inj ht, c121_gloop c121_fileHeader ha hb he hl]
        simp only [c121_only]
  · rintro ⟨pre, post, hd, e, hm, hh⟩
    rw [← hs, c116_file_gloop, c116_file_gloop, c116_lines_whole, e, c121_gloop_stop (by rfl) _ _ _ hm ((c121_fileHeader hd).mpr hh)]

/-- C121: so are lists of resources. -/
theorem c121_resource {s t : Str} {f f' : Resource} (hs : Resource.parse s = .ok f) (ht : Resource.parse t = .ok f') :
    (¬ c121_Ended [s% "@images", s% "@sounds", s% "@fonts"] s → (∃ l ∈ [s% "@images", s% "@sounds", s% "@fonts"], (lines t).head? = some l) →
      Resource.parse (s ++ '\n' :: t) = .ok ⟨f.images ++ f'.images, f.sounds ++ f'.sounds, f.fonts ++ f'.fonts⟩) ∧
    (c121_Ended [s% "@images", s% "@sounds", s% "@fonts"] s → Resource.parse (s ++ '\n' :: t) = .ok f) := by
  constructor
  · intro he hl
    rw [c116_resource_gloop] at hs ht ⊢
    cases ha : gloop resourceHeader ResourceItem.parse (lines s) none [] 0 with
    | error e => rw [ha] at hs; cases hs
    | ok a =>
      cases hb : gloop resourceHeader ResourceItem.parse (lines t) none [] 0 with
      | error e => rw [hb] at ht; cases ht
      | ok b =>
        rw [ha] at hs; rw [hb] at ht
        rw [← Out.ok.inj hs, ← Out.ok.inj ht, c121_gloop c121_resourceHeader ha hb he hl]
        simp only [c121_only]
  · rintro ⟨pre, post, hd, e, hm, hh⟩
    rw [← hs, c116_resource_gloop, c116_resource_gloop, c116_lines_whole, e, c121_gloop_stop (by rfl) _ _ _ hm ((c121_resourceHeader hd).mpr hh)]

/-! ### The libraries -/

namespace Library

theorem c121_append {m : List Str} : ∀ (ls : List Str) (a a' : Acc) (n : Nat), loop ls a n = .ok a' → ∃ n', loop (ls ++ m) a n = loop m a' n'
  | [], a, a', n, h => by
    rw [loop.eq_def] at h
    obtain rfl := Out.ok.inj h
    exact ⟨n, rfl⟩
  | [x], a, a', n, h => by
    rw [loop.eq_def] at h
    rw [List.singleton_append, loop.eq_def]
    simp only at h ⊢
    split
    · rename_i hx
      rw [if_pos hx] at h; cases h
    · rename_i hx
      rw [if_neg hx] at h
      exact c121_append [] a a' (n + 1) h
  | x :: y :: ls, a, a', n, h => by
    rw [loop.eq_def] at h
    rw [List.cons_append, List.cons_append, loop.eq_def]
    simp only at h ⊢
    split
    · rename_i hx
      rw [if_pos hx] at h
      split
      · rename_i hy
        rw [hy] at h; cases h
      · rename_i i hy
        rw [hy] at h
        exact c121_append ls _ _ _ h
    · rename_i hx
      rw [if_neg hx] at h
      exact c121_append (y :: ls) _ _ _ h

/-- What was read before, where nothing came after. -/
def c121_over (a b : Acc) : Acc := ⟨b.firebaseDb.or a.firebaseDb, b.compat.or a.compat, b.admob.or a.admob, b.googleMap.or a.googleMap⟩

theorem c121_set (a b : Acc) (hd : Str) (i : LibraryItem) : (c121_over a b).set hd i = c121_over a (b.set hd i) := by
  unfold Acc.set
  split
  · rfl
  split
  · rfl
  split <;> rfl

theorem c121_loop (c : Acc) : ∀ (ls : List Str) (a a' : Acc) (n n' : Nat), loop ls a n = .ok a' → loop ls (c121_over c a) n' = .ok (c121_over c a')
  | [], a, a', n, n', h => by
    rw [loop.eq_def] at h ⊢
    rw [Out.ok.inj h]
  | [x], a, a', n, n', h => by
    rw [loop.eq_def] at h ⊢
    simp only at h ⊢
    split
    · rename_i hx
      rw [if_pos hx] at h; cases h
    · rename_i hx
      rw [if_neg hx] at h
      exact c121_loop c [] _ _ _ _ h
  | x :: y :: ls, a, a', n, n', h => by
    rw [loop.eq_def] at h ⊢
    simp only at h ⊢
    split
    · rename_i hx
      rw [if_pos hx] at h
      split
      · rename_i hy
        rw [hy] at h; cases h
      · rename_i i hy
        rw [hy] at h
        rw [c121_set]
        exact c121_loop c ls _ _ _ _ h
    · rename_i hx
      rw [if_neg hx] at h
      exact c121_loop c (y :: ls) _ _ _ _ h

end Library

/-- C121: a library file with another one after it is read as the second one. -/
theorem c121_library {s t : Str} {l l' : Library} (hs : Library.parse s = .ok l) (ht : Library.parse t = .ok l') :
    Library.parse (s ++ '\n' :: t) = .ok l' := by
  unfold Library.parse at hs ht ⊢
  rw [c116_lines_whole]
  cases ha : Library.loop (lines s) {} 0 with
  | err e => rw [ha] at hs; cases hs
  | panic => rw [ha] at hs; cases hs
  | ok a =>
    obtain ⟨n, hn⟩ := Library.c121_append (m := lines t) _ _ _ _ ha
    cases hb : Library.loop (lines t) {} 0 with
    | err e => rw [hb] at ht; cases ht
    | panic => rw [hb] at ht; cases ht
    | ok b =>
      have := Library.c121_loop a _ _ _ _ n hb
      rw [show Library.c121_over a {} = a from by cases a; simp [Library.c121_over]] at this
      rw [hn, this]
      rw [hb] at ht
      simp only [Out.ok_bind] at ht ⊢
      obtain ⟨b1, b2, b3, b4⟩ := b
      cases b1 with
      | none => cases ht
      | some b1 =>
      cases b2 with
      | none => cases ht
      | some b2 =>
      cases b3 with
      | none => cases ht
      | some b3 =>
      cases b4 with
      | none => cases ht
      | some b4 => exact ht

/-! ### The project file -/

/-- C121: a project file with anything but white space after it is not read. -/
theorem c121_project [Floats] {s t : Str} {p : Project} (hs : Project.parse s = .ok p) (ht : ∃ c ∈ t, c ∉ [' ', '\n', '\t', '\r']) (q : Project) :
    Project.parse (s ++ t) ≠ .ok q := by
  intro h
  rw [c116_project_cut h ht] at hs
  cases hs

/-! ### View files -/

namespace View
variable [Floats] [MapPol]

/-- Specification: of two view files, what is in the second one or else in the first one. -/
structure c121_Over (v w r : View) : Prop where
  layouts : ∀ n, r.layouts.get n = (w.layouts.get n).or (v.layouts.get n)
  fabs : ∀ n, r.fabs.get n = (w.fabs.get n).or (v.fabs.get n)

theorem c121_apply {v w r : View} (h : c121_Over v w r) (x : Section) : c121_Over v (x.apply w) (x.apply r) := by
  cases x with
  | layout name ls vs =>
    refine ⟨fun n => ?_, h.fabs⟩
    simp only [Section.apply, LMap.get_insert]
    split
    · rfl
    · exact h.layouts n
  | fab name l y =>
    refine ⟨h.layouts, fun n => ?_⟩
    simp only [Section.apply, LMap.get_insert]
    split
    · rfl
    · exact h.fabs n
  | other name kind => exact h

theorem c121_fold (ss : List Section) : ∀ {v w r : View}, c121_Over v w r → c121_Over v (ss.foldl Section.apply w) (ss.foldl Section.apply r) := by
  induction ss with
  | nil => exact fun h => h
  | cons x ss ih => exact fun h => ih (c121_apply h x)

theorem c121_over_empty (v : View) : c121_Over v ⟨[], []⟩ v := ⟨fun _ => rfl, fun _ => rfl⟩

/-- A file of sections after other sections. -/
theorem c121_made {s t : Str} {ss ss' : List Section} (hw : ∀ x ∈ ss, x.WF) (ht : c115_Made t ss') (hl : lines s = ss.flatMap Section.toLines ++ lines t) :
    c115_Made s (ss ++ ss') := by
  obtain ⟨hw', ht⟩ := ht
  refine ⟨fun x hx => (List.mem_append.mp hx).elim (hw x) (hw' x), ?_⟩
  rcases ht with ⟨rest, h1, h2⟩ | ⟨ss₀, name, ls, vs, rfl, h1⟩
  · exact .inl ⟨rest, by rw [hl, h1, List.flatMap_append, List.append_assoc], h2⟩
  · exact .inr ⟨ss ++ ss₀, name, ls, vs, by rw [List.append_assoc], by rw [hl, h1, List.flatMap_append, List.append_assoc]⟩

theorem c121_joined {s t j : Str} {ss : List Section} {v w : View} (hs : c115_Made s ss) (hv : View.parse s = .ok v) (ht : View.parse t = .ok w)
    (hl : lines j = ss.flatMap Section.toLines ++ lines t) : ∃ r, View.parse j = .ok r ∧ c121_Over v w r := by
  obtain ⟨ss', ht'⟩ := c115_made ht
  have hj := c115_made_parse (c121_made hs.1 ht' hl)
  rw [List.foldl_append] at hj
  refine ⟨_, hj, ?_⟩
  rw [c115_made_parse hs] at hv
  rw [c115_made_parse ht'] at ht
  rw [← Out.ok.inj hv, ← Out.ok.inj ht]
  exact c121_fold ss' (c121_over_empty _)

/-- Specification: the file ends in a layout that is not closed by a blank line. -/
def c121_Open (s : Str) : Prop := ∃ ss name ls vs, (∀ x ∈ ss ++ [.layout name ls vs], x.WF) ∧
  lines s = ss.flatMap Section.toLines ++ ('@' :: (name ++ s% ".xml")) :: ls
/-- Specification: the file consists of whole sections. -/
def c121_Closed (s : Str) : Prop := ∃ ss : List Section, (∀ x ∈ ss, x.WF) ∧ lines s = ss.flatMap Section.toLines
/-- Specification: after its sections there is a line that is no header. -/
def c121_Ended (s : Str) : Prop := ∃ (ss : List Section) (l : Str) (rest : List Str), (∀ x ∈ ss, x.WF) ∧ lines s = ss.flatMap Section.toLines ++ l :: rest ∧
  l.head? ≠ some '@'

/-- C121: every view file that is read ends in one of three ways. -/
theorem c121_ends {s : Str} {v : View} (h : View.parse s = .ok v) : c121_Open s ∨ c121_Closed s ∨ c121_Ended s := by
  obtain ⟨ss, hw, ⟨rest, hl, hr⟩ | ⟨ss₀, name, ls, vs, rfl, hl⟩⟩ := c115_made h
  · cases rest with
    | nil => exact .inr (.inl ⟨ss, hw, by rw [hl, List.append_nil]⟩)
    | cons l rest => exact .inr (.inr ⟨ss, l, rest, hw, hl, hr l rfl⟩)
  · exact .inl ⟨ss₀, name, ls, vs, hw, hl⟩

/-- C121: a view file with another one after it, in the next line if the first one consists of whole sections or after a blank line if it ends in a
layout, is read as what is in the second one and, for other names, in the first one. If after the sections of the first one a line is no header, then the
second one has no effect. -/
theorem c121_view {s t : Str} {v w : View} (hs : View.parse s = .ok v) (ht : View.parse t = .ok w) :
    (c121_Open s → ∃ r, View.parse (s ++ '\n' :: '\n' :: t) = .ok r ∧ c121_Over v w r) ∧
    (c121_Closed s → ∃ r, View.parse (s ++ '\n' :: t) = .ok r ∧ c121_Over v w r) ∧
    (c121_Ended s → View.parse (s ++ '\n' :: t) = .ok v) := by
  have nl : ∀ t : Str, lines ('\n' :: t) = [] :: lines t := fun t => by rw [lines, splitOn, if_pos rfl]
  refine ⟨?_, ?_, ?_⟩
  · rintro ⟨ss, name, ls, vs, hw, hl⟩
    refine c121_joined (ss := ss ++ [.layout name ls vs]) ⟨hw, .inr ⟨ss, name, ls, vs, rfl, hl⟩⟩ hs ht ?_
    rw [c116_lines_whole, nl, hl]
    simp [Section.toLines]
  · rintro ⟨ss, hw, hl⟩
    refine c121_joined (ss := ss) ⟨hw, .inl ⟨[], by rw [hl, List.append_nil], by simp⟩⟩ hs ht ?_
    rw [c116_lines_whole, hl]
  · rintro ⟨ss, l, rest, hw, hl, hh⟩
    rw [c115_made_parse (ss := ss) ⟨hw, .inl ⟨l :: rest, hl, fun x hx => (Option.some.inj hx) ▸ hh⟩⟩] at hs
    rw [c115_made_parse (ss := ss) ⟨hw, .inl ⟨l :: rest ++ lines t, ?_, fun x hx => (Option.some.inj hx) ▸ hh⟩⟩, hs]
    rw [c116_lines_whole, hl, List.append_assoc]

end View

/-! ### Logic files -/

namespace Logic
variable [Floats] [MapPol]

/-- Specification: every paragraph of the file has a header; paragraphs are separated by blank lines. -/
def c121_Whole (s : Str) : Prop := ∀ p ∈ (lines s).splitOn ([] : Str), ∃ x b, p = ('@' :: x) :: b

/-- Specification: a part of a screen, if the screen is there. -/
def c121_part (r : Logic) (n : Str) (k : c115_Kind) : Option c115_Slot := (r.screens.get n).bind fun s => c115_at s k

/-- Specification: of two logics, what is in the second one or else in the first one, for every part of every screen. -/
structure c121_Over (a b r : Logic) : Prop where
  screens : ∀ n, (r.screens.get n).isSome ↔ (a.screens.get n).isSome ∨ (b.screens.get n).isSome
  names : ∀ n s, r.screens.get n = some s → s.name = n
  parts : ∀ n k, c121_part r n k = (c121_part b n k).or (c121_part a n k)

theorem c121_isSection (p : List Str) : isSection p = true ↔ ∃ x b, p = ('@' :: x) :: b := by
  cases p with
  | nil => simp [isSection]
  | cons l p =>
    simp only [isSection, startsWith_single]
    cases l with
    | nil => simp
    | cons c l => simp

theorem c121_takeWhile {α : Type} {p : α → Bool} {l : List α} : l.takeWhile p = l ↔ ∀ x ∈ l, p x = true := by
  induction l with
  | nil => simp
  | cons a l ih =>
    rw [List.takeWhile_cons]
    split
    · rename_i h
      simp [h, ih]
    · rename_i h
      simp [h]

theorem c121_sections (s t : Str) :
    (c121_Whole s → sections (lines (s ++ '\n' :: '\n' :: t)) = sections (lines s) ++ sections (lines t)) ∧
    (¬ c121_Whole s → sections (lines (s ++ '\n' :: '\n' :: t)) = sections (lines s)) := by
  have nl : ∀ t : Str, lines ('\n' :: t) = [] :: lines t := fun t => by rw [lines, splitOn, if_pos rfl]
  unfold sections
  rw [c116_lines_whole, nl, List.splitOn_append_cons_self]
  constructor
  · intro h
    have h' : ∀ p ∈ (lines s).splitOn ([] : Str), isSection p = true := fun p hp => (c121_isSection p).mpr (h p hp)
    rw [List.takeWhile_append_of_pos h', c121_takeWhile.mpr h']
  · intro h
    rw [List.takeWhile_append, if_neg]
    intro e
    refine h fun p hp => (c121_isSection p).mp ?_
    have : List.takeWhile isSection ((lines s).splitOn ([] : Str)) = (lines s).splitOn ([] : Str) := (List.takeWhile_prefix _).eq_of_length e
    exact c121_takeWhile.mp this p hp

theorem c121_all_append {α β : Type} {R : α → β → Prop} {as as' : List α} {bs bs' : List β} (h : All₂ R as bs) (h' : All₂ R as' bs') :
    All₂ R (as ++ as') (bs ++ bs') := by
  induction h with
  | nil => exact h'
  | cons h _ ih => exact .cons h ih

theorem c121_fold_append (es es' : List (Str × (ScreenLogic → ScreenLogic))) (n : Str) (s : ScreenLogic) :
    c115_fold (es ++ es') n s = c115_fold es' n (c115_fold es n s) := by
  simp [c115_fold]

theorem c121_empty (n : Str) (k : c115_Kind) : c115_at (ScreenLogic.newEmpty n) k = none := by
  cases k with
  | code c => rfl
  | pool suf =>
    simp only [c115_at]
    repeat' split
    all_goals rfl

/-- C121: a logic file with another one after it, after a blank line, is read as what is in the second one and, for other parts and screens, in the
first one, if every paragraph of the first one has a header; otherwise the second one has no effect. -/
theorem c121_logic {s t : Str} {a b : Logic} (hs : parse s = .ok a) (ht : parse t = .ok b) :
    (c121_Whole s → ∃ r, parse (s ++ '\n' :: '\n' :: t) = .ok r ∧ c121_Over a b r) ∧
    (¬ c121_Whole s → parse (s ++ '\n' :: '\n' :: t) = .ok a) := by
  obtain ⟨es, he, hr⟩ := (c69_ok s a).mp hs
  obtain ⟨es', he', _⟩ := (c69_ok t b).mp ht
  obtain ⟨j1, j2⟩ := c121_sections s t
  constructor
  · intro hw
    have hj : All₂ SectionReads (sections (lines (s ++ '\n' :: '\n' :: t))) (es ++ es') := by rw [j1 hw]; exact c121_all_append he he'
    have hp := (c69_ok _ ⟨applyAll (es ++ es') []⟩).mpr ⟨_, hj, rfl⟩
    have g1 := c69_screen he hs
    have g2 := c69_screen he' ht
    have g3 := c69_screen hj hp
    refine ⟨_, hp, ⟨fun n => ?_, fun n x hx => ?_, fun n k => ?_⟩⟩
    · rw [g1, g2, g3]
      by_cases h1 : n ∈ es.map (·.1) <;> by_cases h2 : n ∈ es'.map (·.1) <;>
        simp only [List.map_append, List.mem_append, h1, h2, if_true, if_false, or_true, or_false] <;> simp
    · rw [g3] at hx
      split at hx
      · rw [← Option.some.inj hx]
        exact (c115_parts hj n (ScreenLogic.newEmpty n)).1
      · cases hx
    · have p1 : c121_part a n k = c115_at (c115_fold es n (ScreenLogic.newEmpty n)) k := by
        unfold c121_part
        rw [g1]
        split
        · rfl
        · rename_i hn
          rcases (c115_parts he n (ScreenLogic.newEmpty n)).2 k with ⟨body, v, l, _⟩ | ⟨_, h⟩
          · exact absurd ((c115_named he n).mpr ⟨k, body, l⟩) hn
          · rw [h, c121_empty]; rfl
      have p2 : c121_part b n k = c115_at (c115_fold es' n (ScreenLogic.newEmpty n)) k := by
        unfold c121_part
        rw [g2]
        split
        · rfl
        · rename_i hn
          rcases (c115_parts he' n (ScreenLogic.newEmpty n)).2 k with ⟨body, v, l, _⟩ | ⟨_, h⟩
          · exact absurd ((c115_named he' n).mpr ⟨k, body, l⟩) hn
          · rw [h, c121_empty]; rfl
      have p3 : c121_part ⟨applyAll (es ++ es') []⟩ n k = c115_at (c115_fold (es ++ es') n (ScreenLogic.newEmpty n)) k := by
        unfold c121_part
        rw [g3]
        split
        · rfl
        · rename_i hn
          rcases (c115_parts hj n (ScreenLogic.newEmpty n)).2 k with ⟨body, v, l, _⟩ | ⟨_, h⟩
          · exact absurd ((c115_named hj n).mpr ⟨k, body, l⟩) hn
          · rw [h, c121_empty]; rfl
      rw [p1, p2, p3, c121_fold_append]
      rcases (c115_parts he' n (ScreenLogic.newEmpty n)).2 k with ⟨body, v, l1, l2, l3⟩ | ⟨l1, l2⟩ <;>
        rcases (c115_parts he' n (c115_fold es n (ScreenLogic.newEmpty n))).2 k with ⟨body', v', m1, m2, m3⟩ | ⟨m1, m2⟩
      · obtain rfl := c115_last_unique l1 m1
        obtain rfl := c115_reads_unique l2 m2
        rw [l3, m3]; rfl
      · obtain ⟨pre, hd, post, e, hh, _⟩ := l1
        exact absurd hh (m1 hd body (by rw [e]; simp))
      · obtain ⟨pre, hd, post, e, hh, _⟩ := m1
        exact absurd hh (l1 hd body' (by rw [e]; simp))
      · rw [l2, m2, c121_empty]; rfl
  · intro hw
    refine (c69_ok _ a).mpr ⟨es, ?_, hr⟩
    rw [j2 hw]; exact he

end Logic

/-! ### The hypotheses can be met -/

/-- `c121_file`: activities from both lists, in the order of the texts; and a list with a blank line after a header. -/
example : ∃ (a b : FileItem) (s t : Str), File.parse s = .ok ⟨[a], []⟩ ∧ File.parse t = .ok ⟨[b], []⟩ ∧ a ≠ b ∧ (lines t).head? = some (s% "@activity") ∧
    ¬ c121_Ended [s% "@activity", s% "@customview"] s ∧ File.parse (s ++ '\n' :: t) = .ok ⟨[a, b], []⟩ ∧
    c121_Ended [s% "@activity", s% "@customview"] (s ++ s% "\n") ∧ File.parse (s ++ s% "\n" ++ '\n' :: t) = .ok ⟨[a], []⟩ := by
  refine ⟨⟨s% "a", .activity, .unspecified, ⟨true, false, false, false⟩, .portrait, .none⟩, ⟨s% "b", .activity, .unspecified, ⟨true, false, false, false⟩, .portrait, .none⟩,
    s% "@activity\n" ++ FileItem.reconstruct ⟨s% "a", .activity, .unspecified, ⟨true, false, false, false⟩, .portrait, .none⟩,
    s% "@activity\n" ++ FileItem.reconstruct ⟨s% "b", .activity, .unspecified, ⟨true, false, false, false⟩, .portrait, .none⟩,
    by decide +kernel, by decide +kernel, by decide, by decide +kernel, ?_, by decide +kernel, ?_, by decide +kernel⟩
  · rintro ⟨pre, post, hd, e, _⟩
    have : ([] : Str) ∉ lines (s% "@activity\n" ++ FileItem.reconstruct ⟨s% "a", .activity, .unspecified, ⟨true, false, false, false⟩, .portrait, .none⟩) := by
      decide +kernel
    exact this (by rw [e]; simp)
  · exact ⟨[s% "@activity", FileItem.reconstruct ⟨s% "a", .activity, .unspecified, ⟨true, false, false, false⟩, .portrait, .none⟩], [], s% "@activity",
      by decide +kernel, by simp, by simp⟩
/-- `c121_resource`: an image and a font. -/
example : ∃ s t : Str, Resource.parse s = .ok ⟨[⟨s% "a", s% "b", 1⟩], [], []⟩ ∧ Resource.parse t = .ok ⟨[], [], [⟨s% "f", s% "g", 1⟩]⟩ ∧
    (lines t).head? = some (s% "@fonts") ∧ ¬ c121_Ended [s% "@images", s% "@sounds", s% "@fonts"] s ∧
    Resource.parse (s ++ '\n' :: t) = .ok ⟨[⟨s% "a", s% "b", 1⟩], [], [⟨s% "f", s% "g", 1⟩]⟩ ∧
    c121_Ended [s% "@images", s% "@sounds", s% "@fonts"] (s ++ s% "\n") ∧ Resource.parse (s ++ s% "\n" ++ '\n' :: t) = .ok ⟨[⟨s% "a", s% "b", 1⟩], [], []⟩ := by
  refine ⟨s% "@images\n" ++ ResourceItem.reconstruct ⟨s% "a", s% "b", 1⟩, s% "@fonts\n" ++ ResourceItem.reconstruct ⟨s% "f", s% "g", 1⟩,
    by decide +kernel, by decide +kernel, by decide +kernel, ?_, by decide +kernel, ?_, by decide +kernel⟩
  · rintro ⟨pre, post, hd, e, _⟩
    have : ([] : Str) ∉ lines (s% "@images\n" ++ ResourceItem.reconstruct ⟨s% "a", s% "b", 1⟩) := by decide +kernel
    exact this (by rw [e]; simp)
  · exact ⟨[s% "@images", ResourceItem.reconstruct ⟨s% "a", s% "b", 1⟩], [], s% "@images", by decide +kernel, by simp, by simp⟩
/-- `c121_library`: the second file counts. -/
example : ∃ (s t : Str) (l l' : Library), Library.parse s = .ok l ∧ Library.parse t = .ok l' ∧ l ≠ l' ∧ Library.parse (s ++ '\n' :: t) = .ok l' :=
  ⟨Library.reconstruct ⟨sampleLib [], sampleLib [], sampleLib [], sampleLib []⟩, Library.reconstruct ⟨sampleLib (s% "x"), sampleLib [], sampleLib [], sampleLib []⟩,
    ⟨sampleLib [], sampleLib [], sampleLib [], sampleLib []⟩, ⟨sampleLib (s% "x"), sampleLib [], sampleLib [], sampleLib []⟩, by decide +kernel⟩
/-- `c121_project`: the project of C114, twice. -/
example : (@Project.parse toyFloats.toFloats c114_projectText = .ok ⟨601, s% "A", s% "W", s% "a.b", 1, s% "1.0", 1641092645, false, .default, 150⟩) ∧
    ∃ c ∈ '\n' :: c114_projectText, c ∉ [' ', '\n', '\t', '\r'] := ⟨c114_projectText_read, '{', by decide +kernel, by decide⟩
/-- `View.c121_view` and `View.c121_ends`: the same layout, open, closed and with a line after it. -/
example [Floats] [MapPol] : View.c121_Open (s% "@a.xml") ∧ View.c121_Closed (s% "@a.xml\n") ∧ View.c121_Ended (s% "@a.xml\n\nend") ∧
    View.parse (s% "@a.xml" ++ '\n' :: '\n' :: s% "@b.xml") = .ok ⟨[(s% "a", ⟨[]⟩), (s% "b", ⟨[]⟩)], []⟩ ∧
    View.parse (s% "@a.xml\n" ++ '\n' :: s% "@b.xml") = .ok ⟨[(s% "a", ⟨[]⟩), (s% "b", ⟨[]⟩)], []⟩ ∧
    View.parse (s% "@a.xml\n\nend" ++ '\n' :: s% "@b.xml") = .ok ⟨[(s% "a", ⟨[]⟩)], []⟩ := by
  have h : Section.WF (.layout (s% "a") [] []) := ⟨by decide, .nil⟩
  exact ⟨⟨[], s% "a", [], [], by simp [h], rfl⟩, ⟨[.layout (s% "a") [] []], by simp [h], rfl⟩,
    ⟨[.layout (s% "a") [] []], s% "end", [], by simp [h], rfl, by decide⟩, rfl, rfl, rfl⟩
/-- `Logic.c121_logic`: the variables are those of the second file, the blocks those of the first; and a paragraph without header. -/
example [Floats] [MapPol] : ∃ s t : Str, Logic.c121_Whole s ∧ ¬ Logic.c121_Whole (s ++ s% "\n") ∧
    Logic.parse s = .ok ⟨[(s% "A", { ScreenLogic.newEmpty (s% "A") with «variables» := some ⟨[(s% "x", ⟨s% "x", .integer⟩)]⟩, blockContainers := [(s% "c", ⟨[]⟩)] })]⟩ ∧
    Logic.parse t = .ok ⟨[(s% "A", { ScreenLogic.newEmpty (s% "A") with «variables» := some ⟨[(s% "y", ⟨s% "y", .boolean⟩)]⟩ })]⟩ ∧
    Logic.parse (s ++ '\n' :: '\n' :: t) =
      .ok ⟨[(s% "A", { ScreenLogic.newEmpty (s% "A") with «variables» := some ⟨[(s% "y", ⟨s% "y", .boolean⟩)]⟩, blockContainers := [(s% "c", ⟨[]⟩)] })]⟩ := by
  refine ⟨s% "@A.java_var\n1:x\n\n@A.java_c", s% "@A.java_var\n0:y", ?_, ?_, ?_, rfl, ?_⟩
  · unfold Logic.c121_Whole
    rw [show (lines (s% "@A.java_var\n1:x\n\n@A.java_c")).splitOn ([] : Str) = [[s% "@A.java_var", s% "1:x"], [s% "@A.java_c"]] by decide +kernel]
    intro p hp
    simp only [List.mem_cons, List.not_mem_nil, or_false] at hp
    rcases hp with rfl | rfl <;> exact ⟨_, _, rfl⟩
  · intro h
    obtain ⟨x, b, e⟩ := h [] (by decide +kernel)
    cases e
  all_goals
    rename_i p
    obtain ⟨x, y⟩ := p
    cases x <;> cases y <;> rfl

end Swrs
