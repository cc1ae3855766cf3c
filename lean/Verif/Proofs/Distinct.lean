import Verif.Proofs.ViewRoundTrip
import Verif.Proofs.FileLike
/-! What of a reconstructed text can be told from its lines. -/
set_option linter.unusedSectionVars false
namespace Swrs

/-- The lines that are not blank. -/
def visible (ls : List Str) : List Str := ls.filter fun l => !l.isEmpty

theorem visible_append (a b : List Str) : visible (a ++ b) = visible a ++ visible b := by
  simp [visible]

theorem visible_of_ne {ls : List Str} (h : ∀ l ∈ ls, l ≠ []) : visible ls = ls := by
  unfold visible
  rw [List.filter_eq_self]
  intro l hl
  have := h l hl
  cases l <;> simp at this ⊢

theorem visible_replicate (n : Nat) : visible (List.replicate n []) = [] := by
  induction n with
  | zero => rfl
  | succ n ih => rw [List.replicate_succ]; simp [visible]

theorem unlines_blank (n : Nat) : ∀ c ∈ unlines (List.replicate n []), isWs c = true := by
  induction n with
  | zero => simp
  | succ n ih =>
    intro c hc
    rw [List.replicate_succ, unlines_cons] at hc
    simp only [List.nil_append, List.mem_cons] at hc
    rcases hc with rfl | hc
    · decide
    · exact ih c hc

/-- Lines end in blank ones after the last visible one. -/
theorem split_blank (X : List Str) : (∃ n, X = List.replicate n []) ∨
    ∃ ps p n, X = ps ++ [p] ++ List.replicate n [] ∧ p ≠ [] := by
  induction X with
  | nil => exact .inl ⟨0, rfl⟩
  | cons x X ih =>
    rcases ih with ⟨n, rfl⟩ | ⟨ps, p, n, rfl, hp⟩
    · by_cases hx : x = []
      · subst hx; exact .inl ⟨n + 1, rfl⟩
      · exact .inr ⟨[], x, n, rfl, hx⟩
    · exact .inr ⟨x :: ps, p, n, rfl, hp⟩

variable [FloatLaws]

/-- The visible lines of a text are kept when white space at its end is removed. -/
theorem visible_lines_trimEnd {X : List Str} (hn : ∀ l ∈ X, '\n' ∉ l)
    (hl : ∀ l ∈ X, ∀ c, l.getLast? = some c → isWs c = false) :
    visible (lines (trimEnd (unlines X))) = visible X := by
  rcases split_blank X with ⟨n, rfl⟩ | ⟨ps, p, n, rfl, hp⟩
  · have : trimEnd (unlines (List.replicate n [])) = [] := by
      have := trimEnd_frame (s := []) (w' := unlines (List.replicate n [])) (unlines_blank n) (by simp)
      simpa using this
    rw [this, visible_replicate]; rfl
  · rw [unlines_append, View.lines_trimEnd (fun q hq => hn q (by simp only [List.mem_append] at hq ⊢; exact .inl hq)) hp
      (hl p (by simp)) (unlines_blank n), visible_append _ (List.replicate n []), visible_replicate, List.append_nil]

/-- Groups of lines, each with a header that begins with `@`. -/
def groups (gs : List (Str × List Str)) : List Str := gs.flatMap fun g => g.1 :: g.2

/-- Groups can be told apart by their headers. -/
theorem groups_inj {gs hs : List (Str × List Str)}
    (hg : ∀ g ∈ gs, startsWith ['@'] g.1 = true ∧ ∀ l ∈ g.2, startsWith ['@'] l = false)
    (hh : ∀ g ∈ hs, startsWith ['@'] g.1 = true ∧ ∀ l ∈ g.2, startsWith ['@'] l = false)
    (h : groups gs = groups hs) : gs = hs := by
  have body : ∀ (b : List Str) (r : List (Str × List Str)), (∀ l ∈ b, startsWith ['@'] l = false) →
      (∀ g ∈ r, startsWith ['@'] g.1 = true ∧ ∀ l ∈ g.2, startsWith ['@'] l = false) →
      (b ++ groups r).takeWhile (fun l => !startsWith ['@'] l) = b ∧
      (b ++ groups r).dropWhile (fun l => !startsWith ['@'] l) = groups r := by
    intro b r hb hr
    induction b with
    | nil =>
      cases r with
      | nil => exact ⟨rfl, rfl⟩
      | cons g r => simp [groups, (hr g (by simp)).1]
    | cons x b ih =>
      have := ih fun l hl => hb l (by simp [hl])
      simp [hb x (by simp), this]
  induction gs generalizing hs with
  | nil =>
    cases hs with
    | nil => rfl
    | cons g hs => simp [groups] at h
  | cons g gs ih =>
    cases hs with
    | nil => simp [groups] at h
    | cons k hs =>
      have h' : g.1 :: (g.2 ++ groups gs) = k.1 :: (k.2 ++ groups hs) := h
      simp only [List.cons.injEq] at h'
      obtain ⟨h1, h2⟩ := h'
      have b1 := body g.2 gs (hg g (by simp)).2 fun x hx => hg x (by simp [hx])
      have b2 := body k.2 hs (hh k (by simp)).2 fun x hx => hh x (by simp [hx])
      rw [h2] at b1
      have e1 : g.2 = k.2 := b1.1.symm.trans b2.1
      have e2 : groups gs = groups hs := b1.2.symm.trans b2.2
      rw [ih (fun x hx => hg x (by simp [hx])) (fun x hx => hh x (by simp [hx])) e2, Prod.ext h1 e1]

namespace View

/-- A layout as a header and its lines. -/
def groupL (e : Str × Layout) : Str × List Str := ('@' :: (e.1 ++ s% ".xml"), e.2.views.map AndroidView.reconstruct)
/-- A FAB as a header and its line. -/
def groupF (e : Str × AndroidView) : Str × List Str := ('@' :: (e.1 ++ s% ".xml_fab"), [e.2.reconstruct])

theorem visible_layoutLines (e : Str × Layout) : visible (layoutLines e) = (groupL e).1 :: (groupL e).2 := by
  unfold layoutLines groupL
  split
  next h => simp [h, visible]
  next h =>
    exact visible_of_ne (by
      intro l hl
      rcases List.mem_cons.mp hl with rfl | hl
      · simp
      · exact (Layout.jlines _ l hl).ne_nil)

theorem visible_fabLines (e : Str × AndroidView) : visible (fabLines e) = (groupF e).1 :: (groupF e).2 := by
  refine visible_of_ne ?_
  intro l hl
  simp only [fabLines, List.mem_cons, List.not_mem_nil, or_false] at hl
  rcases hl with rfl | rfl
  · simp
  · exact e.2.jline.ne_nil

theorem visible_flatMap {α : Type} (f : α → List Str) (as : List α) :
    visible (as.flatMap f) = as.flatMap fun a => visible (f a) := by
  induction as with
  | nil => rfl
  | cons a as ih => simp only [List.flatMap_cons, visible_append, ih]

/-- The visible lines of a view file. -/
theorem visible_reconstruct (v : View) (hl : ∀ e ∈ v.layouts, '\n' ∉ e.1) (hf : ∀ e ∈ v.fabs, '\n' ∉ e.1) :
    visible (lines v.reconstruct) = groups (v.layouts.map groupL ++ v.fabs.map groupF) := by
  rw [reconstruct_eq, visible_lines_trimEnd]
  · have e1 : v.layouts.flatMap (fun e => visible (layoutLines e)) = groups (v.layouts.map groupL) := by
      simp only [groups, List.flatMap_map, visible_layoutLines]
    have e2 : v.fabs.flatMap (fun e => visible (fabLines e)) = groups (v.fabs.map groupF) := by
      simp only [groups, List.flatMap_map, visible_fabLines]
    have e3 : ([] : Str) :: v.fabs.flatMap fabLines = [[]] ++ v.fabs.flatMap fabLines := rfl
    rw [e3, visible_append, visible_append, visible_flatMap, visible_flatMap, e1, e2]
    simp [groups, visible]
  · intro q hq
    simp only [List.mem_append, List.mem_cons, List.mem_flatMap] at hq
    rcases hq with ⟨e, he, hq⟩ | rfl | ⟨e, he, hq⟩
    · exact layoutLines_noNl (hl e he) q hq
    · simp
    · exact fabLines_noNl (hf e he) q hq
  · intro q hq
    simp only [List.mem_append, List.mem_cons, List.mem_flatMap] at hq
    rcases hq with ⟨e, he, hq⟩ | rfl | ⟨e, he, hq⟩
    · unfold layoutLines at hq
      rcases List.mem_cons.mp hq with rfl | hq
      · exact hdr_last e.1
      · split at hq
        · simp only [List.mem_singleton] at hq; subst hq; simp
        · exact (Layout.jlines _ q hq).last_not_ws
    · simp
    · simp only [fabLines, List.mem_cons, List.not_mem_nil, or_false] at hq
      rcases hq with rfl | rfl
      · intro c hc
        have : '@' :: (e.1 ++ s% ".xml_fab") = ('@' :: e.1) ++ s% ".xml_fab" := rfl
        rw [this, List.getLast?_append] at hc
        simp at hc; subst hc; decide
      · exact e.2.jline.last_not_ws

theorem groupL_ne_groupF (e : Str × Layout) (f : Str × AndroidView) : groupL e ≠ groupF f := by
  intro h
  have h1 : ('@' :: e.1) ++ s% ".xml" = ('@' :: f.1) ++ s% ".xml_fab" := congrArg Prod.fst h
  have := congrArg List.getLast? h1
  rw [List.getLast?_append, List.getLast?_append] at this
  simp at this

theorem split_groups {ls ls' : List (Str × Layout)} {fs fs' : List (Str × AndroidView)}
    (h : ls.map groupL ++ fs.map groupF = ls'.map groupL ++ fs'.map groupF) :
    ls.map groupL = ls'.map groupL ∧ fs.map groupF = fs'.map groupF := by
  induction ls generalizing ls' with
  | nil =>
    cases ls' with
    | nil => exact ⟨rfl, h⟩
    | cons l ls' =>
      cases fs with
      | nil => simp at h
      | cons f fs =>
        simp only [List.map_nil, List.nil_append, List.map_cons, List.cons_append, List.cons.injEq] at h
        exact absurd h.1.symm (groupL_ne_groupF l f)
  | cons l ls ih =>
    cases ls' with
    | nil =>
      cases fs' with
      | nil => simp at h
      | cons f fs' =>
        simp only [List.map_nil, List.nil_append, List.map_cons, List.cons_append, List.cons.injEq] at h
        exact absurd h.1 (groupL_ne_groupF l f)
    | cons l' ls' =>
      simp only [List.map_cons, List.cons_append, List.cons.injEq] at h ⊢
      obtain ⟨h1, h2⟩ := ih h.2
      exact ⟨⟨h.1, h1⟩, h2⟩

theorem groupL_inj {e f : Str × Layout} (h : groupL e = groupL f) :
    e.1 = f.1 ∧ e.2.views.map AndroidView.reconstruct = f.2.views.map AndroidView.reconstruct := by
  have h1 : '@' :: (e.1 ++ s% ".xml") = '@' :: (f.1 ++ s% ".xml") := congrArg Prod.fst h
  simp only [List.cons.injEq, List.append_cancel_right_eq, true_and] at h1
  exact ⟨h1, congrArg Prod.snd h⟩

theorem groupF_inj {e f : Str × AndroidView} (h : groupF e = groupF f) : e.1 = f.1 ∧ e.2.reconstruct = f.2.reconstruct := by
  have h1 : '@' :: (e.1 ++ s% ".xml_fab") = '@' :: (f.1 ++ s% ".xml_fab") := congrArg Prod.fst h
  have h2 : [e.2.reconstruct] = [f.2.reconstruct] := congrArg Prod.snd h
  simp only [List.cons.injEq, List.append_cancel_right_eq, true_and, and_true] at h1 h2
  exact ⟨h1, h2⟩

end View
end Swrs
