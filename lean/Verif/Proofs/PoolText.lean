import Verif.Proofs.LogicPool
/-! The text of pools whose lines are not JSON: trimming takes blanks from the first and from the last line. -/
set_option linter.unusedSectionVars false
namespace Swrs

/-- A line with a visible character. -/
def Visible (l : Str) : Prop := ∃ c ∈ l, isWs c = false

theorem dropWhile_append_of {p : Char → Bool} {l : Str} (h : ∃ c ∈ l, p c = false) (r : Str) :
    (l ++ r).dropWhile p = l.dropWhile p ++ r := by
  induction l with
  | nil => simp at h
  | cons c l ih =>
    rw [List.cons_append, List.dropWhile_cons, List.dropWhile_cons]
    split
    next hc =>
      apply ih
      obtain ⟨d, hd, hdw⟩ := h
      simp only [List.mem_cons] at hd
      rcases hd with rfl | hd
      · rw [hc] at hdw; simp at hdw
      · exact ⟨d, hd, hdw⟩
    next => rfl

theorem trimStart_append {l : Str} (h : Visible l) (r : Str) : trimStart (l ++ r) = trimStart l ++ r :=
  dropWhile_append_of h r

theorem trimEnd_append {l : Str} (h : Visible l) (r : Str) : trimEnd (r ++ l) = r ++ trimEnd l := by
  unfold trimEnd
  rw [List.reverse_append, dropWhile_append_of (by simpa [Visible] using h)]
  simp

theorem trimStart_visible {l : Str} (h : Visible l) : Visible (trimStart l) := by
  obtain ⟨c, hc, hw⟩ := h
  refine ⟨c, ?_, hw⟩
  induction l with
  | nil => simp at hc
  | cons d l ih =>
    unfold trimStart
    rw [List.dropWhile_cons]
    split
    next hd =>
      simp only [List.mem_cons] at hc
      rcases hc with rfl | hc
      · rw [hw] at hd; simp at hd
      · exact ih hc
    next => exact hc

theorem trimEnd_visible {l : Str} (h : Visible l) : Visible (trimEnd l) := by
  have : Visible l.reverse := by simpa [Visible] using h
  have := trimStart_visible this
  simpa [Visible, trimEnd, trimStart] using this

theorem trimStart_suffix (l : Str) : trimStart l <:+ l := List.dropWhile_suffix _
theorem trimEnd_prefix (l : Str) : trimEnd l <+: l := by
  unfold trimEnd
  have := List.dropWhile_suffix (l := l.reverse) isWs
  rw [← List.reverse_suffix]; simpa

theorem trimEnd_getLast (l : Str) : ∀ c, (trimEnd l).getLast? = some c → isWs c = false := by
  intro c hc
  unfold trimEnd at hc
  rw [List.getLast?_reverse] at hc
  have := List.head?_dropWhile_not isWs l.reverse
  rw [hc] at this
  simpa using this

theorem trimStart_head (l : Str) : ∀ c, (trimStart l).head? = some c → isWs c = false := by
  intro c hc
  have := List.head?_dropWhile_not isWs l
  unfold trimStart at hc
  rw [hc] at this
  simpa using this

theorem trimEnd_eq_self {l : Str} : trimEnd l = l ↔ ∀ c, l.getLast? = some c → isWs c = false := by
  constructor
  · intro h; rw [← h]; exact trimEnd_getLast l
  · exact trimEnd_eq
theorem trimStart_eq_self {l : Str} : trimStart l = l ↔ ∀ c, l.head? = some c → isWs c = false := by
  constructor
  · intro h; rw [← h]; exact trimStart_head l
  · exact trimStart_eq

/-- Trimming applied to the last line. -/
def adjE : List Str → List Str
  | [] => []
  | [l] => [trimEnd l]
  | l :: m :: ls => l :: adjE (m :: ls)

/-- Trimming applied to the first line. -/
def adjS : List Str → List Str
  | [] => []
  | l :: ls => trimStart l :: ls

theorem adjE_concat (ls : List Str) (l : Str) : adjE (ls ++ [l]) = ls ++ [trimEnd l] := by
  induction ls with
  | nil => rfl
  | cons x ls ih =>
    cases ls with
    | nil => rfl
    | cons y ls => simp only [List.cons_append] at ih ⊢; rw [adjE, ih]

theorem adjE_ne_nil {ls : List Str} (h : ls ≠ []) : adjE ls ≠ [] := by
  cases ls with
  | nil => exact absurd rfl h
  | cons l ls => cases ls <;> simp [adjE]
theorem adjS_ne_nil {ls : List Str} (h : ls ≠ []) : adjS ls ≠ [] := by
  cases ls with
  | nil => exact absurd rfl h
  | cons l ls => simp [adjS]

theorem adjE_mem {ls : List Str} : ∀ l ∈ adjE ls, ∃ m ∈ ls, l <+: m := by
  rcases List.eq_nil_or_concat ls with rfl | ⟨ini, l, rfl⟩
  · simp [adjE]
  · rw [List.concat_eq_append, adjE_concat]
    intro x hx
    simp only [List.mem_append, List.mem_singleton] at hx
    rcases hx with hx | rfl
    · exact ⟨x, by simp [hx], List.prefix_refl _⟩
    · exact ⟨l, by simp, trimEnd_prefix l⟩
theorem adjS_mem {ls : List Str} : ∀ l ∈ adjS ls, ∃ m ∈ ls, l <:+ m := by
  cases ls with
  | nil => simp [adjS]
  | cons x ls =>
    intro y hy
    simp only [adjS, List.mem_cons] at hy
    rcases hy with rfl | hy
    · exact ⟨x, by simp, trimStart_suffix x⟩
    · exact ⟨y, by simp [hy], List.suffix_refl _⟩

theorem adjS_visible {ls : List Str} (h : ∀ l ∈ ls, Visible l) : ∀ l ∈ adjS ls, Visible l := by
  cases ls with
  | nil => simp [adjS]
  | cons x ls =>
    intro y hy
    simp only [adjS, List.mem_cons] at hy
    rcases hy with rfl | hy
    · exact trimStart_visible (h x (by simp))
    · exact h y (by simp [hy])

theorem joinWith_concat (ls : List Str) (l : Str) :
    ∃ r, joinWith '\n' (ls ++ [l]) = r ++ l ∧ ∀ l', joinWith '\n' (ls ++ [l']) = r ++ l' := by
  induction ls with
  | nil => exact ⟨[], rfl, fun _ => rfl⟩
  | cons x ls ih =>
    obtain ⟨r, h1, h2⟩ := ih
    refine ⟨x ++ '\n' :: r, ?_, ?_⟩
    · have : x :: ls ++ [l] = x :: (ls ++ [l]) := rfl
      rw [this]
      cases hls : ls ++ [l] with
      | nil => simp at hls
      | cons y ys => rw [joinWith, ← hls, h1]; simp
    · intro l'
      have : x :: ls ++ [l'] = x :: (ls ++ [l']) := rfl
      rw [this]
      cases hls : ls ++ [l'] with
      | nil => simp at hls
      | cons y ys => rw [joinWith, ← hls, h2]; simp

theorem trimEnd_joinWith {ls : List Str} (h : ∀ l ∈ ls, Visible l) :
    trimEnd (joinWith '\n' ls) = joinWith '\n' (adjE ls) := by
  rcases List.eq_nil_or_concat ls with rfl | ⟨ini, l, rfl⟩
  · rfl
  · rw [List.concat_eq_append, adjE_concat]
    obtain ⟨r, h1, h2⟩ := joinWith_concat ini l
    rw [h1, h2, trimEnd_append (h l (by simp))]

theorem trimStart_joinWith {ls : List Str} (h : ∀ l ∈ ls, Visible l) :
    trimStart (joinWith '\n' ls) = joinWith '\n' (adjS ls) := by
  cases ls with
  | nil => rfl
  | cons x ls =>
    cases ls with
    | nil => simp [joinWith, adjS]
    | cons y ls =>
      rw [joinWith, trimStart_append (h x (by simp)), adjS, joinWith]

theorem foldLines_eq (ls : List Str) (h : ∀ l ∈ ls, Visible l) :
    foldLines ls = joinWith '\n' (adjE (adjS ls)) := by
  unfold foldLines
  have := foldl_nl id ls []
  simp only [id, List.map_id, List.nil_append] at this
  rw [this]
  by_cases hne : ls = []
  · subst hne; rfl
  · rw [flatMap_nl hne, trim]
    have h1 : trimStart ('\n' :: joinWith '\n' ls) = trimStart (joinWith '\n' ls) :=
      trimStart_ws_append (w := ['\n']) (by simp [isWs])
    rw [h1, trimStart_joinWith h, trimEnd_joinWith (adjS_visible h)]

/-- The lines of a pool text: the first line loses its leading blanks, the last one its trailing blanks. -/
theorem lines_foldLines {ls : List Str} (hne : ls ≠ []) (h : ∀ l ∈ ls, Visible l) (hn : ∀ l ∈ ls, '\n' ∉ l) :
    lines (foldLines ls) = adjE (adjS ls) := by
  rw [foldLines_eq ls h, lines, splitOn_joinWith (adjE_ne_nil (adjS_ne_nil hne))]
  intro l hl hm
  obtain ⟨m, hm1, hm2⟩ := adjE_mem l hl
  obtain ⟨k, hk1, hk2⟩ := adjS_mem m hm1
  exact hn k hk1 (hk2.subset (hm2.subset hm))

/-- Lines of a parsed text have no line break. -/
theorem ReadsAll.mem {α : Type} {p : Str → Option α} {ls : List Str} {as : List α} (h : ReadsAll p ls as) :
    ∀ a ∈ as, ∃ l ∈ ls, l ≠ [] ∧ p l = some a := by
  induction h with
  | nil => simp
  | cons hne hp _ ih =>
    intro a ha
    simp only [List.mem_cons] at ha
    rcases ha with rfl | ha
    · exact ⟨_, by simp, hne, hp⟩
    · obtain ⟨l, hl, h⟩ := ih a ha; exact ⟨l, by simp [hl], h⟩

theorem ReadsAll.append {α : Type} {p : Str → Option α} {ls ls' : List Str} {as as' : List α}
    (h : ReadsAll p ls as) (h' : ReadsAll p ls' as') : ReadsAll p (ls ++ ls') (as ++ as') := by
  induction h with
  | nil => exact h'
  | cons hne hp _ ih => exact .cons hne hp ih

/-- A pool text is read as a sequence of lines, all without line break. -/
theorem readPool_lines {ε ε' α : Type} {p : Str → Out ε α} {mk : Nat → Str → ε → ε'} (hp : ∀ l, p l ≠ .panic)
    {s : Str} {as : List α} {rest : List Str} (h : readPool p mk (lines s) 0 [] = .ok (as, rest)) :
    ∀ a ∈ as, ∃ l, p l = .ok a ∧ '\n' ∉ l := by
  rcases readPool_cases mk hp (lines s) with ⟨pre, vs, r, he, hr, h'⟩ | ⟨vs, hr, h'⟩ | ⟨_, _, _, _, _, _, _, _, _, h'⟩
  · rw [h'] at h; simp at h; obtain ⟨rfl, _⟩ := h
    intro a ha
    obtain ⟨l, hl, _, h2⟩ := hr.mem a ha
    refine ⟨l, toOption_eq_some.mp h2, splitOn_not_mem (s := s) ?_⟩
    rw [show splitOn '\n' s = lines s from rfl, he]; simp [hl]
  · rw [h'] at h; simp at h; obtain ⟨rfl, _⟩ := h
    intro a ha
    obtain ⟨l, hl, _, h2⟩ := hr.mem a ha
    exact ⟨l, toOption_eq_some.mp h2, splitOn_not_mem (s := s) hl⟩
  · rw [h'] at h; simp at h

/-- Every value collected is one of the given ones, under its key. -/
theorem LMap.collect_mem {κ α : Type} [DecidableEq κ] [MapPol] (es : List (κ × α)) :
    ∀ e ∈ LMap.collect es, e ∈ es := by
  intro e he
  have h1 := LMap.get_of_mem (LMap.collect_keys_nodup es) he
  rw [LMap.get_collect] at h1
  have := LMap.get_mem h1
  simpa using this

end Swrs
