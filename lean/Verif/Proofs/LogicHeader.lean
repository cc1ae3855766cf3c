import Verif.Proofs.PoolRoundTrip
/-! Headers of the logic file. -/
set_option linter.unusedSectionVars false
namespace Swrs

/-! ### splitting at a pattern -/

theorem splitAtPat_eq_none {pat s : Str} : splitAtPat pat s = none ↔ ¬ pat <:+: s := by
  induction s with
  | nil =>
    unfold splitAtPat
    split <;> simp [*]
  | cons x s ih =>
    unfold splitAtPat
    split
    next h => simp; exact h.isInfix
    next h => simp [ih, List.infix_cons_iff, h]

theorem splitAtPat_some {pat s a b : Str} (h : splitAtPat pat s = some (a, b)) : s = a ++ (pat ++ b) := by
  induction s generalizing a with
  | nil =>
    unfold splitAtPat at h
    split at h
    next hp => simp at h; obtain ⟨rfl, rfl⟩ := h; simp [hp]
    next => simp at h
  | cons x s ih =>
    unfold splitAtPat at h
    split at h
    next hp =>
      simp at h
      obtain ⟨rfl, rfl⟩ := h
      obtain ⟨r, hr⟩ := hp
      rw [← hr]; simp
    next hp =>
      simp only [Option.map_eq_some_iff, Prod.exists, Prod.mk.injEq] at h
      obtain ⟨a', b', h1, rfl, rfl⟩ := h
      rw [List.cons_append, ← ih h1]

/-- The pattern does not overlap itself. -/
theorem splitAtPat_append {c : Char} {p a b : Str} (hc : c ∉ p) (ha : ¬ (c :: p) <:+: a) :
    splitAtPat (c :: p) (a ++ (c :: p ++ b)) = some (a, b) := by
  induction a with
  | nil =>
    rw [List.nil_append, List.cons_append, splitAtPat, if_pos]
    · simp
    · exact ⟨b, rfl⟩
  | cons x a ih =>
    rw [List.infix_cons_iff, not_or] at ha
    rw [List.cons_append, splitAtPat, if_neg, ih ha.2]
    · rfl
    · rintro ⟨r, hr⟩
      simp only [List.cons_append, List.cons.injEq] at hr
      obtain ⟨rfl, hr⟩ := hr
      rw [List.append_eq_append_iff] at hr
      rcases hr with ⟨e, h1, _⟩ | ⟨e, h1, h2⟩
      · exact ha.1 ⟨e, by simp [h1]⟩
      · cases e with
        | nil => simp at h1; exact ha.1 ⟨[], by simp [h1]⟩
        | cons d e =>
          simp only [List.cons_append, List.cons.injEq] at h2
          apply hc
          rw [h1, h2.1]; simp

theorem splitAtPat_first {c : Char} {p s a b : Str} (h : splitAtPat (c :: p) s = some (a, b)) :
    ¬ (c :: p) <:+: a := by
  intro hi
  induction s generalizing a with
  | nil => simp [splitAtPat] at h
  | cons x s ih =>
    have hs := splitAtPat_some h
    unfold splitAtPat at h
    split at h
    next hp =>
      simp at h; obtain ⟨rfl, rfl⟩ := h; simp at hi
    next hp =>
      simp only [Option.map_eq_some_iff, Prod.exists, Prod.mk.injEq] at h
      obtain ⟨a', b', h1, rfl, rfl⟩ := h
      rw [List.infix_cons_iff] at hi
      rcases hi with hi | hi
      · apply hp
        rw [hs]
        exact hi.trans ⟨_, rfl⟩
      · exact ih h1 hi

/-! ### block container headers -/

/-- The separator between the screen and the container. -/
abbrev javaSep : Str := s% ".java_"

theorem sep_cons {c : Char} (hc : c ≠ '.') {s : Str} : javaSep <:+: c :: s ↔ javaSep <:+: s := by
  rw [List.infix_cons_iff]
  constructor
  · rintro (h | h)
    · rw [List.cons_prefix_cons] at h; exact absurd h.1.symm hc
    · exact h
  · exact .inr

theorem sliceFrom_at (s : Str) : sliceFrom ('@' :: s) 1 = some s := by
  have := sliceFrom_append ['@'] s
  exact this

namespace BlockContainerHeader

theorem parse_sep {n c : Str} (hn : ¬ javaSep <:+: n) :
    parse ('@' :: (n ++ (javaSep ++ c))) =
      .ok ⟨n, match splitAtPat javaSep c with | some (d, _) => d | none => c⟩ := by
  unfold parse
  rw [if_pos (by simp)]
  have : splitAtPat javaSep ('@' :: (n ++ (javaSep ++ c))) = some ('@' :: n, c) :=
    splitAtPat_append (c := '.') (p := s% "java_") (a := '@' :: n) (b := c) (by decide)
      (by rw [sep_cons (by decide)]; exact hn)
  rw [this]
  simp only [sliceFrom_at]
  rfl

theorem parse_ok_iff {s n c : Str} : parse s = .ok ⟨n, c⟩ ↔
    ¬ javaSep <:+: n ∧ ¬ javaSep <:+: c ∧
      (s = '@' :: (n ++ (javaSep ++ c)) ∨ ∃ r, s = '@' :: (n ++ (javaSep ++ (c ++ (javaSep ++ r))))) := by
  constructor
  · intro h
    unfold parse at h
    split at h
    next hat =>
      cases hs : splitAtPat javaSep s with
      | none =>
        rw [hs] at h
        simp only at h
        cases hsl : sliceFrom s 1 <;> rw [hsl] at h <;> simp at h
      | some ab =>
        obtain ⟨a, b⟩ := ab
        rw [hs] at h
        simp only [Out.bind_eq_ok, Out.unwrap_eq_ok] at h
        obtain ⟨sc, h1, h2⟩ := h
        simp only [Out.pure_eq, Out.ok.injEq, mk.injEq] at h2
        obtain ⟨rfl, h2⟩ := h2
        have hsa := splitAtPat_some hs
        have hfa := splitAtPat_first hs
        have ha : a = '@' :: sc := by
          cases a with
          | nil => simp [sliceFrom] at h1
          | cons x a =>
            have : x = '@' := by rw [hsa] at hat; simpa using hat
            subst this
            rw [sliceFrom_at] at h1; simp at h1; rw [h1]
        subst ha
        rw [sep_cons (by decide)] at hfa
        refine ⟨hfa, ?_⟩
        cases hb : splitAtPat javaSep b with
        | none =>
          rw [hb] at h2; simp only at h2; subst h2
          exact ⟨splitAtPat_eq_none.mp hb, .inl hsa⟩
        | some de =>
          obtain ⟨d, e⟩ := de
          rw [hb] at h2; simp only at h2; subst h2
          refine ⟨splitAtPat_first hb, .inr ⟨e, ?_⟩⟩
          rw [hsa, splitAtPat_some hb]; rfl
    next => simp at h
  · rintro ⟨hn, hc, rfl | ⟨r, rfl⟩⟩
    · rw [parse_sep hn, splitAtPat_eq_none.mpr hc]
    · rw [parse_sep hn]
      have : splitAtPat javaSep (c ++ (javaSep ++ r)) = some (c, r) :=
        splitAtPat_append (c := '.') (p := s% "java_") (by decide) hc
      rw [this]

theorem parse_ne_panic (s : Str) : parse s ≠ .panic := by
  unfold parse
  split
  next hat =>
    obtain ⟨t, rfl⟩ : ∃ t, s = '@' :: t := by
      cases s with
      | nil => simp at hat
      | cons x t => simp at hat; subst hat; exact ⟨t, rfl⟩
    cases hs : splitAtPat javaSep ('@' :: t) with
    | none => simp [sliceFrom_at]
    | some ab =>
      obtain ⟨a, b⟩ := ab
      have hsa := splitAtPat_some hs
      cases a with
      | nil => simp at hsa
      | cons x a =>
        simp only [List.cons_append, List.cons.injEq] at hsa
        obtain ⟨rfl, _⟩ := hsa
        simp [sliceFrom_at]
  next => simp

theorem parse_err_iff {s : Str} {e : BlockContainerHeaderParseError} : parse s = .err e ↔
    (startsWith ['@'] s = false ∧ e = .doesntStartWithAtSign) ∨
    (startsWith ['@'] s = true ∧ ¬ javaSep <:+: s ∧ e = .noContainerName) := by
  unfold parse
  split
  next hat =>
    obtain ⟨t, rfl⟩ : ∃ t, s = '@' :: t := by
      cases s with
      | nil => simp at hat
      | cons x t => simp at hat; subst hat; exact ⟨t, rfl⟩
    cases hs : splitAtPat javaSep ('@' :: t) with
    | none =>
      have := splitAtPat_eq_none.mp hs
      simp only [sliceFrom_at, Out.unwrap_some, Out.ok_bind, Out.err.injEq]
      constructor
      · rintro rfl; exact .inr ⟨by simp, this, rfl⟩
      · rintro (⟨h, _⟩ | ⟨_, _, h⟩)
        · exact absurd (hat.symm.trans h) (by simp)
        · exact h.symm
    | some ab =>
      obtain ⟨a, b⟩ := ab
      have hsa := splitAtPat_some hs
      have hi : javaSep <:+: '@' :: t := by rw [hsa]; exact ⟨a, b, by simp⟩
      cases a with
      | nil => simp at hsa
      | cons x a =>
        have hx : '@' = x := by simpa using congrArg List.head? hsa
        subst hx
        simp only [sliceFrom_at, Out.unwrap_some, Out.ok_bind, Out.pure_eq]
        constructor
        · intro h; simp at h
        · rintro (⟨h, _⟩ | ⟨_, h, _⟩)
          · exact absurd (hat.symm.trans h) (by simp)
          · exact absurd hi h
  next hat =>
    simp only [Out.err.injEq]
    constructor
    · rintro rfl; exact .inl ⟨Bool.eq_false_iff.mpr hat, rfl⟩
    · rintro (⟨_, h⟩ | ⟨h, _⟩)
      · exact h.symm
      · exact absurd h hat

end BlockContainerHeader

/-! ### pool headers -/

theorem byteLen_eq_one {s : Str} (h : byteLen s = 1) : ∃ c, s = [c] ∧ c.utf8Size = 1 := by
  cases s with
  | nil => simp [byteLen] at h
  | cons c s =>
    cases s with
    | nil => exact ⟨c, rfl, by simpa [byteLen] using h⟩
    | cons d s =>
      have h1 := Char.utf8Size_pos c
      have h2 := Char.utf8Size_pos d
      simp [byteLen] at h; omega

theorem byteLen_append' (a b : Str) : byteLen (a ++ b) = byteLen a + byteLen b := by simp [byteLen]

theorem suffix_of_byteLen {a r b S : Str} (h : a ++ r = b ++ S) (hl : byteLen S ≤ byteLen r) : ∃ w, r = w ++ S := by
  rw [List.append_eq_append_iff] at h
  rcases h with ⟨e, _, h2⟩ | ⟨e, h1, h2⟩
  · exact ⟨e, h2⟩
  · rw [h2, byteLen_append'] at hl
    have : byteLen e = 0 := by omega
    cases e with
    | nil => exact ⟨[], by simpa using h2.symm⟩
    | cons c e =>
      have := Char.utf8Size_pos c
      simp [byteLen] at *; omega

/-- The name cut out of a pool header: what is between `@` and one byte before the suffix. -/
theorem screenOf_eq_some {mid S name : Str} :
    Logic.screenOf ('@' :: (mid ++ S)) (byteLen S + 1) = some name ↔
      ∃ x : Char, mid = name ++ [x] ∧ x.utf8Size = 1 := by
  unfold Logic.screenOf slice
  constructor
  · intro h
    split at h
    next hle =>
      simp only [Option.bind_eq_some_iff, sliceTo_eq_some, sliceFrom_eq_some] at h
      obtain ⟨t, ⟨r, h1, h2⟩, q, rfl, hq⟩ := h
      obtain ⟨c, rfl, hc⟩ := byteLen_eq_one hq
      simp only [List.cons_append, List.nil_append, List.cons.injEq] at h1
      obtain ⟨rfl, h1⟩ := h1
      have e1 : byteLen ('@' :: (mid ++ S)) = 1 + byteLen mid + byteLen S := by
        simp [byteLen, show Char.utf8Size '@' = 1 from rfl, Nat.add_assoc]
      have e2 : byteLen (['@'] ++ name) = 1 + byteLen name := by
        simp [byteLen, show Char.utf8Size '@' = 1 from rfl]
      have e3 : byteLen mid + byteLen S = byteLen name + byteLen r := by
        rw [← byteLen_append', ← byteLen_append', h1]
      rw [e1, e2] at h2
      rw [e1] at hle
      obtain ⟨w, rfl⟩ := suffix_of_byteLen h1.symm (by omega)
      rw [byteLen_append'] at e3
      obtain ⟨x, rfl, hx⟩ := byteLen_eq_one (s := w) (by omega)
      refine ⟨x, ?_, hx⟩
      rw [← List.append_assoc] at h1
      exact List.append_cancel_right h1
    next => simp at h
  · rintro ⟨x, rfl, hx⟩
    have e1 : byteLen ('@' :: (name ++ [x] ++ S)) - (byteLen S + 1) = byteLen ['@'] + byteLen name := by
      simp [byteLen, show Char.utf8Size '@' = 1 from rfl, hx]; omega
    rw [e1]
    have := slice_append ['@'] name (x :: S)
    unfold slice at this
    simpa [show byteLen ['@'] = 1 from rfl] using this

end Swrs
