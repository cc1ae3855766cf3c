import Verif.Proofs.PoolRoundTrip
/-! What the pool parsers read and where they fail, in terms of the lines before the first blank line. -/
namespace Swrs

/-- The lines before the first blank line. -/
def entryLines (ls : List Str) : List Str := ls.takeWhile (· ≠ [])

/-- `l` is the first entry line that is not good, and its index is `k`. -/
def FirstBad (good : Str → Prop) (ls : List Str) (k : Nat) (l : Str) : Prop :=
  (entryLines ls)[k]? = some l ∧ ¬ good l ∧ ∀ j m, j < k → (entryLines ls)[j]? = some m → good m

section
variable {ε ε' α : Type} {p : Str → Out ε α} (mk : Nat → Str → ε → ε')

theorem PoolReads.mem {ls : List Str} {as : List α} (h : PoolReads p ls as) :
    ∀ l ∈ ls, l ≠ [] ∧ ∃ a, p l = .ok a := by
  intro l hl
  induction h with
  | nil => simp at hl
  | cons hne hp _ ih =>
    rcases List.mem_cons.mp hl with rfl | hl
    · exact ⟨hne, _, toOption_eq_some.mp hp⟩
    · exact ih hl

theorem PoolReads.unique {ls : List Str} {as bs : List α} (h : PoolReads p ls as) (h' : PoolReads p ls bs) :
    as = bs := by
  induction h generalizing bs with
  | nil => cases h'; rfl
  | cons hne hp _ ih =>
    cases h' with
    | cons hne' hp' h'' => rw [hp] at hp'; simp at hp'; rw [hp', ih h'']

theorem entryLines_append {pre : List Str} (h : ∀ l ∈ pre, l ≠ []) (rest : List Str) :
    entryLines (pre ++ rest) = pre ++ entryLines rest := by
  unfold entryLines
  rw [List.takeWhile_append_of_pos]
  intro l hl; simpa using h l hl

theorem entryLines_blank (rest : List Str) : entryLines ([] :: rest) = [] := by simp [entryLines]

theorem entryLines_cons {l : Str} (h : l ≠ []) (rest : List Str) : entryLines (l :: rest) = l :: entryLines rest := by
  simp [entryLines, h]

theorem readPool_ok_iff (hp : ∀ l, p l ≠ .panic) (ls : List Str) (as : List α) (rest : List Str) :
    readPool p mk ls 0 [] = .ok (as, rest) ↔
      PoolReads p (entryLines ls) as ∧ rest = ls.drop ((entryLines ls).length + 1) := by
  rcases readPool_cases mk hp ls with ⟨pre, as', r, rfl, hr, h⟩ | ⟨as', hr, h⟩ | ⟨pre, as', l, e, r, rfl, hr, hne, hl, h⟩
  · rw [h, entryLines_append (fun l hl => (hr.mem l hl).1), entryLines_blank, List.append_nil]
    have : (pre ++ [] :: r).drop (pre.length + 1) = r := by simp
    rw [this]
    simp only [Out.ok.injEq, Prod.mk.injEq]
    constructor
    · rintro ⟨rfl, rfl⟩; exact ⟨hr, rfl⟩
    · rintro ⟨h1, rfl⟩; exact ⟨hr.unique h1, rfl⟩
  · have e := entryLines_append (fun l hl => (hr.mem l hl).1) []
    have e' : entryLines ls = ls := by simpa [entryLines] using e
    rw [h, e']
    have : ls.drop (ls.length + 1) = [] := by simp
    rw [this]
    simp only [Out.ok.injEq, Prod.mk.injEq]
    constructor
    · rintro ⟨rfl, rfl⟩; exact ⟨hr, rfl⟩
    · rintro ⟨h1, rfl⟩; exact ⟨hr.unique h1, rfl⟩
  · rw [h, entryLines_append (fun l hl => (hr.mem l hl).1), entryLines_cons hne]
    simp only [reduceCtorEq, false_iff]
    rintro ⟨h1, _⟩
    obtain ⟨_, a, ha⟩ := h1.mem l (by simp)
    rw [ha] at hl; simp at hl

theorem readPool_err_iff (hp : ∀ l, p l ≠ .panic) (ls : List Str) (x : ε') :
    readPool p mk ls 0 [] = .err x ↔
      ∃ k l e, x = mk k l e ∧ p l = .err e ∧ FirstBad (fun l => ∃ a, p l = .ok a) ls k l := by
  have hgood : ∀ l : Str, ∀ e, p l = .err e → ¬ ∃ a, p l = .ok a := by
    rintro l e h ⟨a, ha⟩; rw [ha] at h; simp at h
  constructor
  · intro h
    rcases readPool_cases mk hp ls with ⟨pre, as', r, rfl, hr, h'⟩ | ⟨as', hr, h'⟩ | ⟨pre, as', l, e, r, rfl, hr, hne, hl, h'⟩
    · rw [h] at h'; simp at h'
    · rw [h] at h'; simp at h'
    · rw [h] at h'; simp only [Out.err.injEq] at h'
      refine ⟨pre.length, l, e, h', hl, ?_, hgood l e hl, ?_⟩
      · rw [entryLines_append (fun l hl => (hr.mem l hl).1), entryLines_cons hne]; simp
      · intro j m hj hm
        rw [entryLines_append (fun l hl => (hr.mem l hl).1), List.getElem?_append_left hj] at hm
        exact (hr.mem m (List.mem_of_getElem? hm)).2
  · rintro ⟨k, l, e, rfl, hl, h1, h2, h3⟩
    have hm := List.mem_of_getElem? h1
    rcases readPool_cases mk hp ls with ⟨pre, as', r, rfl, hr, h'⟩ | ⟨as', hr, h'⟩ | ⟨pre, as', l', e', r, rfl, hr, hne, hl', h'⟩
    · rw [entryLines_append (fun l hl => (hr.mem l hl).1), entryLines_blank, List.append_nil] at hm
      exact absurd (hr.mem l hm).2 h2
    · have e := entryLines_append (fun l hl => (hr.mem l hl).1) []
      have e' : entryLines ls = ls := by simpa [entryLines] using e
      rw [e'] at hm
      exact absurd (hr.mem l hm).2 h2
    · rw [entryLines_append (fun l hl => (hr.mem l hl).1), entryLines_cons hne] at h1 h3
      have hk : k = pre.length := by
        rcases Nat.lt_trichotomy k pre.length with h | h | h
        · rw [List.getElem?_append_left h] at h1
          exact absurd (hr.mem l (List.mem_of_getElem? h1)).2 h2
        · exact h
        · exact absurd (h3 pre.length l' h (by simp)) (hgood l' e' hl')
      subst hk
      simp at h1; subst h1
      rw [hl] at hl'; simp at hl'; subst hl'
      exact h'

/-- All entry lines are good: the pool is read. -/
theorem readPool_good (hp : ∀ l, p l ≠ .panic) (ls : List Str) (h : ∀ l ∈ entryLines ls, ∃ a, p l = .ok a) :
    ∃ as, readPool p mk ls 0 [] = .ok (as, ls.drop ((entryLines ls).length + 1)) := by
  cases hr : readPool p mk ls 0 [] with
  | ok x =>
    obtain ⟨as, rest⟩ := x
    have := (readPool_ok_iff mk hp ls as rest).mp hr
    exact ⟨as, by rw [this.2]⟩
  | err x =>
    obtain ⟨k, l, e, _, _, h1, h2, _⟩ := (readPool_err_iff mk hp ls x).mp hr
    exact absurd (h l (List.mem_of_getElem? h1)) h2
  | panic => exact absurd hr (readPool_ne_panic mk hp ls 0 [])

theorem LMap.last_cons {κ α : Type} [DecidableEq κ] (e : κ × α) (es : LMap κ α) (k : κ) :
    LMap.last (e :: es) k = match LMap.last es k with | some v => some v | none => if e.1 = k then some e.2 else none := by
  unfold LMap.last
  rw [List.reverse_cons, LMap.get_append]
  cases LMap.get es.reverse k with
  | some v => rfl
  | none => simp [LMap.get]

/-- The last value with a key in what the lines give. -/
theorem reads_last [MapPol] {key : α → Str} {ls : List Str} {as : List α} (h : PoolReads p ls as) (k : Str) (v : α) :
    LMap.get (LMap.collect (as.map fun a => (key a, a))) k = some v ↔
      ∃ pre line post, ls = pre ++ line :: post ∧ p line = .ok v ∧ key v = k ∧
        ∀ l ∈ post, ∀ w, p l = .ok w → key w ≠ k := by
  rw [LMap.get_collect]
  have hnone : ∀ {ls : List Str} {as : List α}, PoolReads p ls as →
      (LMap.last (as.map fun a => (key a, a)) k = none ↔ ∀ l ∈ ls, ∀ w, p l = .ok w → key w ≠ k) := by
    intro ls as h
    induction h with
    | nil => simp [LMap.last, LMap.get]
    | @cons l a ls as hne hp _ ih =>
      simp only [List.map_cons, LMap.last_cons]
      have hpa := toOption_eq_some.mp hp
      constructor
      · intro hl
        cases hl2 : LMap.last (as.map fun a => (key a, a)) k with
        | some x => rw [hl2] at hl; simp at hl
        | none =>
          rw [hl2] at hl
          simp only [List.mem_cons, forall_eq_or_imp]
          refine ⟨?_, ih.mp hl2⟩
          intro w hw
          rw [hpa] at hw; simp at hw; subst hw
          intro hk; simp [hk] at hl
      · intro hl
        rw [ih.mpr (fun l hl' => hl l (by simp [hl']))]
        have := hl l (by simp) a hpa
        simp [this]
  induction h with
  | nil => simp [LMap.last, LMap.get]
  | @cons l a ls as hne hp h ih =>
    simp only [List.map_cons, LMap.last_cons]
    have hpa := toOption_eq_some.mp hp
    constructor
    · intro hl
      cases hl2 : LMap.last (as.map fun a => (key a, a)) k with
      | some x =>
        rw [hl2] at hl; simp at hl; subst hl
        obtain ⟨pre, line, post, rfl, h1, h2, h3⟩ := ih.mp hl2
        exact ⟨l :: pre, line, post, rfl, h1, h2, h3⟩
      | none =>
        rw [hl2] at hl
        simp at hl
        obtain ⟨h1, rfl⟩ := hl
        exact ⟨[], l, ls, rfl, hpa, h1, (hnone h).mp hl2⟩
    · rintro ⟨pre, line, post, he, h1, h2, h3⟩
      cases pre with
      | nil =>
        simp at he; obtain ⟨rfl, rfl⟩ := he
        rw [(hnone h).mpr h3]
        rw [hpa] at h1; simp at h1; subst h1; simp [h2]
      | cons x pre =>
        simp at he
        obtain ⟨rfl, rfl⟩ := he
        rw [ih.mpr ⟨pre, line, post, rfl, h1, h2, h3⟩]
end
end Swrs
