import Verif.Base.Str
/-! Lemmas about the string operations of `Verif.Base.Str`. -/

namespace Swrs

theorem splitOn_ne_nil (c : Char) (s : Str) : splitOn c s ≠ [] := by
  induction s with
  | nil => simp [splitOn]
  | cons x xs ih =>
    unfold splitOn
    split
    · simp
    · split <;> simp

theorem splitOn_of_not_mem {c : Char} {s : Str} (h : c ∉ s) : splitOn c s = [s] := by
  induction s with
  | nil => rfl
  | cons x xs ih =>
    simp only [List.mem_cons, not_or] at h
    have hx : x ≠ c := fun e => h.1 e.symm
    simp [splitOn, hx, ih h.2]

theorem splitOn_append_sep {c : Char} {a b : Str} (h : c ∉ a) :
    splitOn c (a ++ c :: b) = a :: splitOn c b := by
  induction a with
  | nil => simp [splitOn]
  | cons x xs ih =>
    simp only [List.mem_cons, not_or] at h
    have hx : x ≠ c := fun e => h.1 e.symm
    simp [splitOn, hx, ih h.2]

theorem splitOn_joinWith {c : Char} {ps : List Str} (hne : ps ≠ []) (h : ∀ p ∈ ps, c ∉ p) :
    splitOn c (joinWith c ps) = ps := by
  induction ps with
  | nil => exact absurd rfl hne
  | cons p ps ih =>
    cases ps with
    | nil => simpa [joinWith] using splitOn_of_not_mem (h p (by simp))
    | cons q qs =>
      have hp : c ∉ p := h p (by simp)
      simp only [joinWith]
      rw [splitOn_append_sep hp, ih (by simp) (fun r hr => h r (by simp [hr]))]

theorem joinWith_splitOn (c : Char) (s : Str) : joinWith c (splitOn c s) = s := by
  induction s with
  | nil => rfl
  | cons x xs ih =>
    unfold splitOn
    split
    next h =>
      subst h
      cases hs : splitOn x xs with
      | nil => exact absurd hs (splitOn_ne_nil _ _)
      | cons p ps => rw [hs] at ih; simp [joinWith, ih]
    next h =>
      split
      next hs => exact absurd hs (splitOn_ne_nil _ _)
      next p ps hs =>
        rw [hs] at ih
        cases ps with
        | nil => simp only [joinWith] at ih ⊢; rw [ih]
        | cons q qs => simp only [joinWith] at ih ⊢; rw [← ih]; rfl

theorem splitOn_not_mem {c : Char} {s p : Str} (h : p ∈ splitOn c s) : c ∉ p := by
  induction s generalizing p with
  | nil => simp [splitOn] at h; simp [h]
  | cons x xs ih =>
    unfold splitOn at h
    split at h
    · simp only [List.mem_cons] at h
      rcases h with rfl | h
      · simp
      · exact ih h
    next hx =>
      split at h
      next hs => exact absurd hs (splitOn_ne_nil _ _)
      next q qs hs =>
        simp only [List.mem_cons] at h
        rcases h with rfl | h
        · have := @ih q (by simp [hs])
          simp only [List.mem_cons, not_or]
          exact ⟨fun e => hx e.symm, this⟩
        · exact ih (by simp [hs, h])

theorem splitOnce_append {c : Char} {a b : Str} (h : c ∉ a) :
    splitOnce c (a ++ c :: b) = some (a, b) := by
  induction a with
  | nil => simp [splitOnce]
  | cons x xs ih =>
    simp only [List.mem_cons, not_or] at h
    have hx : x ≠ c := fun e => h.1 e.symm
    simp [splitOnce, hx, ih h.2]

theorem splitOnce_eq_some {c : Char} {s a b : Str} :
    splitOnce c s = some (a, b) ↔ s = a ++ c :: b ∧ c ∉ a := by
  constructor
  · intro h
    induction s generalizing a with
    | nil => simp [splitOnce] at h
    | cons x xs ih =>
      unfold splitOnce at h
      split at h
      next hx => simp at h; obtain ⟨rfl, rfl⟩ := h; simp [hx]
      next hx =>
        cases hs : splitOnce c xs with
        | none => simp [hs] at h
        | some p =>
          obtain ⟨a', b'⟩ := p
          simp [hs] at h
          obtain ⟨rfl, rfl⟩ := h
          obtain ⟨h1, h2⟩ := ih hs
          subst h1
          simp only [List.cons_append, List.mem_cons, not_or, true_and]
          exact ⟨fun e => hx e.symm, h2⟩
  · rintro ⟨rfl, h⟩; exact splitOnce_append h

theorem splitOnce_eq_none {c : Char} {s : Str} : splitOnce c s = none ↔ c ∉ s := by
  induction s with
  | nil => simp [splitOnce]
  | cons x xs ih =>
    unfold splitOnce
    split
    next h => simp [h]
    next h =>
      simp only [Option.map_eq_none_iff, ih, List.mem_cons, not_or]
      exact ⟨fun h' => ⟨fun e => h e.symm, h'⟩, fun h' => h'.2⟩

/-! ### trim -/

theorem dropWhile_head {p : Char → Bool} {s : Str} (h : ∀ c, s.head? = some c → p c = false) :
    s.dropWhile p = s := by
  cases s with
  | nil => rfl
  | cons c s => simp [h c rfl]

theorem trimStart_eq {s : Str} (h : ∀ c, s.head? = some c → isWs c = false) : trimStart s = s :=
  dropWhile_head h

theorem trimEnd_eq {s : Str} (h : ∀ c, s.getLast? = some c → isWs c = false) : trimEnd s = s := by
  unfold trimEnd
  rw [dropWhile_head (by simpa using h)]
  simp

theorem trim_eq {s : Str} (h1 : ∀ c, s.head? = some c → isWs c = false)
    (h2 : ∀ c, s.getLast? = some c → isWs c = false) : trim s = s := by
  unfold trim; rw [trimStart_eq h1, trimEnd_eq h2]

@[simp] theorem trim_nil : trim [] = [] := rfl
@[simp] theorem trimEnd_nil : trimEnd [] = [] := rfl

theorem trimStart_ws_append {w s : Str} (h : ∀ c ∈ w, isWs c = true) :
    trimStart (w ++ s) = trimStart s := by
  induction w with
  | nil => rfl
  | cons c w ih =>
    simp only [trimStart, List.cons_append] at ih ⊢
    rw [List.dropWhile_cons_of_pos (h c (by simp))]
    exact ih (fun c hc => h c (by simp [hc]))

theorem trimEnd_append_ws {w s : Str} (h : ∀ c ∈ w, isWs c = true) :
    trimEnd (s ++ w) = trimEnd s := by
  unfold trimEnd
  rw [List.reverse_append]
  have := @trimStart_ws_append w.reverse s.reverse (by simpa using h)
  unfold trimStart at this
  rw [this]

/-- Trimming a text framed by whitespace whose core starts and ends with visible characters. -/
theorem trim_frame {w s w' : Str} (hw : ∀ c ∈ w, isWs c = true) (hw' : ∀ c ∈ w', isWs c = true)
    (h1 : ∀ c, s.head? = some c → isWs c = false)
    (h2 : ∀ c, s.getLast? = some c → isWs c = false) : trim (w ++ s ++ w') = s := by
  unfold trim
  rw [List.append_assoc, trimStart_ws_append hw]
  cases s with
  | nil =>
    have : trimStart ([] ++ w') = [] := by
      have := @trimStart_ws_append w' [] hw'
      simpa [trimStart] using this
    rw [this]; rfl
  | cons c s =>
    rw [trimStart_eq (by simpa using h1), trimEnd_append_ws hw', trimEnd_eq h2]

theorem trimEnd_frame {s w' : Str} (hw' : ∀ c ∈ w', isWs c = true)
    (h2 : ∀ c, s.getLast? = some c → isWs c = false) : trimEnd (s ++ w') = s := by
  rw [trimEnd_append_ws hw', trimEnd_eq h2]

/-! ### byte slicing -/

@[simp] theorem byteLen_nil : byteLen [] = 0 := rfl
@[simp] theorem byteLen_cons (c : Char) (s : Str) : byteLen (c :: s) = c.utf8Size + byteLen s := by
  simp [byteLen]
@[simp] theorem byteLen_append (a b : Str) : byteLen (a ++ b) = byteLen a + byteLen b := by
  simp [byteLen]

theorem sliceTo_append (a b : Str) : sliceTo (a ++ b) (byteLen a) = some a := by
  induction a with
  | nil => cases b <;> simp [sliceTo]
  | cons c a ih =>
    have hc : 0 < c.utf8Size := Char.utf8Size_pos c
    obtain ⟨n, hn⟩ : ∃ n, c.utf8Size = n + 1 := ⟨c.utf8Size - 1, by omega⟩
    simp only [List.cons_append, byteLen_cons]
    have e : c.utf8Size + byteLen a = (n + byteLen a) + 1 := by omega
    rw [e, sliceTo]
    have e2 : n + byteLen a + 1 - c.utf8Size = byteLen a := by omega
    rw [if_pos (by omega), e2, ih]
    rfl

theorem sliceFrom_append (a b : Str) : sliceFrom (a ++ b) (byteLen a) = some b := by
  induction a with
  | nil => cases b <;> simp [sliceFrom]
  | cons c a ih =>
    have hc : 0 < c.utf8Size := Char.utf8Size_pos c
    obtain ⟨n, hn⟩ : ∃ n, c.utf8Size = n + 1 := ⟨c.utf8Size - 1, by omega⟩
    simp only [List.cons_append, byteLen_cons]
    have e : c.utf8Size + byteLen a = (n + byteLen a) + 1 := by omega
    rw [e, sliceFrom]
    have e2 : n + byteLen a + 1 - c.utf8Size = byteLen a := by omega
    rw [if_pos (by omega), e2, ih]

theorem slice_append (a b c : Str) :
    slice (a ++ b ++ c) (byteLen a) (byteLen a + byteLen b) = some b := by
  unfold slice
  rw [if_pos (by omega)]
  have : byteLen a + byteLen b = byteLen (a ++ b) := by simp
  rw [this, sliceTo_append]
  simp [sliceFrom_append]

/-- Slicing succeeds exactly at character boundaries. -/
theorem sliceTo_eq_some {s t : Str} {n : Nat} :
    sliceTo s n = some t ↔ ∃ r, s = t ++ r ∧ byteLen t = n := by
  constructor
  · intro h
    induction s generalizing t n with
    | nil =>
      cases n with
      | zero => simp [sliceTo] at h; subst h; exact ⟨[], by simp⟩
      | succ n => simp [sliceTo] at h
    | cons c s ih =>
      cases n with
      | zero => simp [sliceTo] at h; subst h; exact ⟨c :: s, by simp⟩
      | succ n =>
        rw [sliceTo] at h
        split at h
        next hc =>
          cases hs : sliceTo s (n + 1 - c.utf8Size) with
          | none => simp [hs] at h
          | some u =>
            simp [hs] at h; subst h
            obtain ⟨r, h1, h2⟩ := ih hs
            exact ⟨r, by simp [h1], by simp [h2]; omega⟩
        next hc => simp at h
  · rintro ⟨r, rfl, rfl⟩; exact sliceTo_append _ _

theorem sliceFrom_eq_some {s t : Str} {n : Nat} :
    sliceFrom s n = some t ↔ ∃ r, s = r ++ t ∧ byteLen r = n := by
  constructor
  · intro h
    induction s generalizing n with
    | nil =>
      cases n with
      | zero => simp [sliceFrom] at h; subst h; exact ⟨[], by simp⟩
      | succ n => simp [sliceFrom] at h
    | cons c s ih =>
      cases n with
      | zero => simp [sliceFrom] at h; subst h; exact ⟨[], by simp⟩
      | succ n =>
        rw [sliceFrom] at h
        split at h
        next hc =>
          obtain ⟨r, h1, h2⟩ := ih h
          exact ⟨c :: r, by simp [h1], by simp [h2]; omega⟩
        next hc => simp at h
  · rintro ⟨r, rfl, rfl⟩; exact sliceFrom_append _ _

/-! ### prefix and suffix tests -/

theorem startsWith_iff {p s : Str} : startsWith p s = true ↔ ∃ r, s = p ++ r := by
  simp only [startsWith, List.isPrefixOf_iff_prefix, List.IsPrefix]
  exact ⟨fun ⟨r, h⟩ => ⟨r, h.symm⟩, fun ⟨r, h⟩ => ⟨r, h.symm⟩⟩

theorem endsWith_iff {p s : Str} : endsWith p s = true ↔ ∃ r, s = r ++ p := by
  simp only [endsWith, List.isSuffixOf_iff_suffix, List.IsSuffix]
  exact ⟨fun ⟨r, h⟩ => ⟨r, h.symm⟩, fun ⟨r, h⟩ => ⟨r, h.symm⟩⟩

@[simp] theorem startsWith_single (c : Char) (s : Str) :
    startsWith [c] s = true ↔ s.head? = some c := by
  rw [startsWith_iff]
  cases s with
  | nil => simp
  | cons x xs => simp

end Swrs
