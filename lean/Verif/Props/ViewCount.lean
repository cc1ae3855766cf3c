import Verif.Model.ViewCount
import Verif.Base.FloatInst
/-!
# C66: the counting iterator
-/
namespace Swrs

/-! ## C66 — Counting lines -/

/-- `n` calls of `next`: what they returned, and the iterator after them. -/
def CountingIterator.nexts {α : Type} : Nat → CountingIterator α → List (Option α) × CountingIterator α
  | 0, it => ([], it)
  | n + 1, it => let r := it.next; let q := nexts n r.2; (r.1 :: q.1, q.2)

/-- C66: after `n` calls the count is `n`, and the calls returned what the inner iterator yields, then nothing; the rest is yielded
by the calls to come. -/
theorem c66_count {α : Type} (l : List α) (n : Nat) :
    ((CountingIterator.new l).nexts n).2.getCount = n ∧
    ((CountingIterator.new l).nexts n).1 = (List.range n).map (l[·]?) ∧
    ((CountingIterator.new l).nexts n).2.iter = l.drop n := by
  have key : ∀ n (l : List α) k, (CountingIterator.nexts n ⟨l, k⟩).2.count = k + n ∧
      (CountingIterator.nexts n ⟨l, k⟩).1 = (List.range n).map (l[·]?) ∧ (CountingIterator.nexts n ⟨l, k⟩).2.iter = l.drop n := by
    intro n
    induction n with
    | zero => intro l k; exact ⟨rfl, rfl, by simp [CountingIterator.nexts]⟩
    | succ n ih =>
      intro l k
      obtain ⟨h1, h2, h3⟩ := ih l.tail (k + 1)
      refine ⟨?_, ?_, ?_⟩
      · show (CountingIterator.nexts n ⟨l.tail, k + 1⟩).2.count = _
        rw [h1]; omega
      · show l.head? :: (CountingIterator.nexts n ⟨l.tail, k + 1⟩).1 = _
        rw [h2, List.range_succ_eq_map, List.map_cons, List.map_map]
        cases l <;> simp [Function.comp_def]
      · show (CountingIterator.nexts n ⟨l.tail, k + 1⟩).2.iter = _
        rw [h3]
        cases l <;> simp
  obtain ⟨h1, h2, h3⟩ := key n l 0
  refine ⟨?_, h2, h3⟩
  show (CountingIterator.nexts n ⟨l, 0⟩).2.count = n
  rw [h1]; omega

variable [Floats]

theorem Layout.countLoop_eq : ∀ (fuel : Nat) (ls : List Str) (k : Nat) (acc : List AndroidView) (n : Nat), ls.length < fuel →
    (∀ e, Layout.parseLoop ls acc n = .err e → Layout.countLoop fuel ⟨ls, k⟩ acc n = .err e) ∧
    (∀ l rest, Layout.parseLoop ls acc n = .ok (l, rest) → ∃ k', Layout.countLoop fuel ⟨ls, k⟩ acc n = .ok (l, ⟨rest, k'⟩) ∧
      (rest ≠ [] → k' + rest.length = k + ls.length) ∧ rest.length ≤ ls.length) ∧
    Layout.parseLoop ls acc n ≠ .panic := by
  intro fuel
  induction fuel with
  | zero => intro ls k acc n h; omega
  | succ fuel ih =>
    intro ls k acc n h
    cases ls with
    | nil =>
      refine ⟨by simp [Layout.parseLoop], ?_, by simp [Layout.parseLoop]⟩
      intro l rest hl
      simp only [Layout.parseLoop, Out.ok.injEq, Prod.mk.injEq] at hl
      obtain ⟨rfl, rfl⟩ := hl
      exact ⟨k + 1, rfl, by simp, by simp⟩
    | cons line ls =>
      rw [Layout.countLoop, Layout.parseLoop]
      simp only [CountingIterator.next, List.head?_cons, List.tail_cons]
      by_cases h0 : line = []
      · rw [if_pos h0, if_pos h0]
        refine ⟨by simp, ?_, by simp⟩
        intro l rest hl
        simp only [Out.ok.injEq, Prod.mk.injEq] at hl
        obtain ⟨rfl, rfl⟩ := hl
        exact ⟨k + 1, rfl, by simp; omega, by simp⟩
      · rw [if_neg h0, if_neg h0]
        cases hv : AndroidView.parse line with
        | none => exact ⟨by simp, by simp, by simp⟩
        | some v =>
          obtain ⟨h1, h2, h3⟩ := ih ls (k + 1) (acc ++ [v]) (n + 1) (by simp at h; omega)
          refine ⟨h1, ?_, h3⟩
          intro l rest hl
          obtain ⟨k', e1, e2, e3⟩ := h2 l rest hl
          exact ⟨k', e1, fun hr => by have := e2 hr; simp; omega, by simp; omega⟩

variable [MapPol]

theorem View.countLoop_eq (total : Nat) : ∀ (fuel : Nat) (ls : List Str) (k : Nat) (layouts : LMap Str Layout)
    (fabs : LMap Str AndroidView), ls.length < fuel → (ls ≠ [] → k + ls.length = total) →
    View.countLoop fuel ⟨ls, k⟩ layouts fabs = View.loop total fuel ls k layouts fabs := by
  intro fuel
  induction fuel with
  | zero => intro ls k layouts fabs h; omega
  | succ fuel ih =>
    intro ls k layouts fabs h ht
    cases ls with
    | nil => rfl
    | cons line ls =>
      have ht := ht (by simp)
      simp only [List.length_cons] at ht h
      rw [View.countLoop, View.loop]
      simp only [CountingIterator.next, List.head?_cons, List.tail_cons, CountingIterator.getCount]
      split
      next hat =>
        cases hs : splitOnce '.' (line.drop 1) with
        | none => rfl
        | some sc =>
          obtain ⟨screen, container⟩ := sc
          simp only
          by_cases hx : container = s% "xml"
          · rw [if_pos hx, if_pos hx]
            obtain ⟨h1, h2, h3⟩ := Layout.countLoop_eq (ls.length + 1) ls (k + 1) [] 0 (by omega)
            unfold Layout.parseCounting Layout.parseIter
            cases hp : Layout.parseLoop ls [] 0 with
            | err e => rw [h1 e hp]; rfl
            | panic => exact absurd hp h3
            | ok q =>
              obtain ⟨l, rest⟩ := q
              obtain ⟨k', e1, e2, e3⟩ := h2 l rest hp
              rw [e1]
              show View.countLoop fuel ⟨rest, k'⟩ (layouts.insert screen l) fabs =
                View.loop total fuel rest (total - rest.length) (layouts.insert screen l) fabs
              by_cases hr : rest = []
              · subst hr
                cases fuel with
                | zero => simp at h
                | succ f => rfl
              · have hk := e2 hr
                rw [show total - rest.length = k' by omega]
                exact ih rest k' _ _ (by omega) (fun _ => by omega)
          · rw [if_neg hx, if_neg hx]
            by_cases hf : container = s% "xml_fab"
            · rw [if_pos hf, if_pos hf]
              cases ls with
              | nil => rfl
              | cons l ls =>
                simp only [List.head?_cons, List.tail_cons]
                cases hv : AndroidView.parse l with
                | none => rfl
                | some v =>
                  simp only [List.length_cons] at ht h
                  exact ih ls (k + 1 + 1) _ _ (by omega) (fun _ => by omega)
            · rw [if_neg hf, if_neg hf]
              exact ih ls (k + 1) _ _ (by omega) (fun _ => by omega)
      next => rfl

/-- C66: reading a view file with the counting iterator, call by call, is the same as `View.parse`, for which the line numbers in
errors are proved (C60). -/
theorem c66_view (s : Str) : View.parseCounting s = View.parse s :=
  View.countLoop_eq _ _ _ _ _ _ (by omega) (fun _ => by simp)

-- a header after a layout of one blank line is on line 3
example : View.parseCounting (s% "@a.xml\n\n@b") = .err (.invalidHeader 3 (s% "@b")) := rfl
-- five calls on a list of three
example : ((CountingIterator.new [1, 2, 3]).nexts 5).1 = [some 1, some 2, some 3, none, none] := rfl

end Swrs
