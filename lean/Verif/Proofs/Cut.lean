import Verif.Json.Grammar
/-!
# Beginnings of JSON texts
-/
namespace Swrs.Json

theorem elems_skip {vs : List Json} {w0 : Str} {c : Char} {r : Str} (hw0 : Space w0) (hc : isSpace c = false) {u : Str} (hu : Elems vs u)
    (he : u = w0 ++ c :: r) : Elems vs (c :: r) := by
  cases hu with
  | @one w w' t v hw1 hv h' =>
    obtain ⟨c', r', rfl, h5, _⟩ := val_head hv
    have e1 := skip_space (s := c' :: r' ++ (w' ++ [']'])) hw1 (by simp [h5])
    have e2 := skip_space (s := c :: r) hw0 (by simp [hc])
    rw [he, e2] at e1
    rw [e1]
    exact .one (w := []) (by simp [Space]) hv h'
  | @cons w w' t u v vs hw1 hv h' hs =>
    obtain ⟨c', r', rfl, h5, _⟩ := val_head hv
    have e1 := skip_space (s := c' :: r' ++ (w' ++ ',' :: u)) hw1 (by simp [h5])
    have e2 := skip_space (s := c :: r) hw0 (by simp [hc])
    rw [he, e2] at e1
    rw [e1]
    exact .cons (w := []) (by simp [Space]) hv h' hs

theorem members_skip {ms : List (Option Str × Json)} {w0 r : Str} (hw0 : Space w0) {u : Str} (hu : Members ms u)
    (he : u = w0 ++ '"' :: r) : Members ms ('"' :: r) := by
  have e2 := skip_space (s := '"' :: r) hw0 (by simp [isSpace])
  cases hu with
  | one g0 g1 g2 g3 g4 g5 =>
    have e1 : ∀ r, skip (_ ++ '"' :: r) = '"' :: r := fun r => skip_space g0 (by simp [isSpace])
    have e3 := e1 _ ▸ congrArg skip he
    rw [e2] at e3
    rw [← e3]
    exact .one (w := []) (by simp [Space]) g1 g2 g3 g4 g5
  | cons g0 g1 g2 g3 g4 g5 g6 =>
    have e1 : ∀ r, skip (_ ++ '"' :: r) = '"' :: r := fun r => skip_space g0 (by simp [isSpace])
    have e3 := e1 _ ▸ congrArg skip he
    rw [e2] at e3
    rw [← e3]
    exact .cons (w := []) (by simp [Space]) g1 g2 g3 g4 g5 g6

/-- The parser stops at the end of an array or object, whatever follows. -/
theorem parseVal_closed {j : Json} {t w : Str} (rest : Str) (h : Val j t) (hj : (∃ vs, j = .arr vs) ∨ ∃ ms, j = .obj ms) (hw : Space w) {f : Nat}
    (hf : 2 * t.length ≤ f) : parseVal (f + 1) (w ++ (t ++ rest)) = some (j, rest) := by
  have hsk : skip (w ++ (t ++ rest)) = t ++ rest := by
    obtain ⟨c, r, rfl, h1, _⟩ := val_head h
    exact skip_space hw (by simp [h1])
  rw [parseVal, hsk]
  cases h with
  | arr0 h =>
    simp only [List.cons_append, List.append_assoc]
    have h2 := skip_space (s := ']' :: rest) h (by simp [isSpace])
    simp only [h2, List.nil_append]
  | @arr vs u h =>
    simp only [List.cons_append]
    obtain ⟨w0, c, r, rfl, hw0, hc, hc'⟩ := elems_head h
    have h2 : skip (w0 ++ c :: r ++ rest) = c :: (r ++ rest) := by
      rw [List.append_assoc]; exact skip_space hw0 (by simp [hc])
    have h4 := (parse_grammar f).2.1 _ _ rest (elems_skip hw0 hc h rfl) (by simp at hf ⊢; omega)
    rw [h2]
    split
    next heq => simp at heq; exact absurd heq.1 hc'
    next => rw [← List.cons_append, h4]; rfl
  | obj0 h =>
    simp only [List.cons_append, List.append_assoc]
    have h2 := skip_space (s := '}' :: rest) h (by simp [isSpace])
    simp only [h2, List.nil_append]
  | @obj ms u h =>
    obtain ⟨w0, r, rfl, hw0⟩ := members_head h
    have h2 : skip (w0 ++ '"' :: r ++ rest) = '"' :: (r ++ rest) := by
      rw [List.append_assoc]; exact skip_space hw0 (by simp [isSpace])
    have h4 := (parse_grammar f).2.2 _ _ rest (members_skip hw0 h rfl) (by simp at hf ⊢; omega)
    simp only [List.cons_append]
    rw [h2]
    rw [List.cons_append] at h4
    show Option.map _ (parseMembers f ('"' :: (r ++ rest))) = _
    rw [h4]
    have e : objOf (ms.map fun m => (some m.1, m.2)) = obj ms := by
      have := keyed_withKeys ms
      unfold withKeys at this
      unfold objOf
      rw [this]
    simp only [Option.map_some, e]
  | null => rcases hj with ⟨_, h⟩ | ⟨_, h⟩ <;> cases h
  | tt => rcases hj with ⟨_, h⟩ | ⟨_, h⟩ <;> cases h
  | ff => rcases hj with ⟨_, h⟩ | ⟨_, h⟩ <;> cases h
  | num => rcases hj with ⟨_, h⟩ | ⟨_, h⟩ <;> cases h
  | str => rcases hj with ⟨_, h⟩ | ⟨_, h⟩ <;> cases h
  | badStr => rcases hj with ⟨_, h⟩ | ⟨_, h⟩ <;> cases h
  | badObj => rcases hj with ⟨_, h⟩ | ⟨_, h⟩ <;> cases h

/-- No text of an array or object is the beginning of another JSON text, up to white space at the end. -/
theorem isText_beginning {j j' : Json} {s r : Str} (h : IsText j s) (hj : (∃ vs, j = .arr vs) ∨ ∃ ms, j = .obj ms) (h' : IsText j' (s ++ r)) :
    j' = j ∧ Space r := by
  obtain ⟨w, t, w', rfl, hw, ht, hw'⟩ := h
  have hp := parse_iff.mpr h'
  unfold parse at hp
  rw [List.append_assoc, List.append_assoc, parseVal_closed (w' ++ r) ht hj hw (by simp; omega)] at hp
  simp only at hp
  split at hp
  · rename_i hs
    refine ⟨(Option.some.inj hp).symm, ?_⟩
    obtain ⟨w₂, hw₂, e, _⟩ := skip_split (w' ++ r)
    rw [hs, List.append_nil] at e
    rw [← e] at hw₂
    exact fun c hc => hw₂ c (by simp [hc])
  · simp at hp

end Swrs.Json
