import Verif.Props.Resources
/-!
# C42: which layout names have the same activity name
-/
namespace Swrs.Api

/-- The names that stand for all others: no upper-case letters, every underscore between a character and a lower-case
letter. -/
def c42_Canonical (t : Str) : Prop :=
  (∀ c ∈ t, ¬ isUpper c) ∧ t.head? ≠ some '_' ∧ ∀ a b, t = a ++ '_' :: b → ∃ c, b.head? = some c ∧ isLower c

instance (c : Char) : Decidable (isUpper c) := inferInstanceAs (Decidable (_ ∧ _))
instance (c : Char) : Decidable (isLower c) := inferInstanceAs (Decidable (_ ∧ _))

/-- The lower-case form of an ASCII letter. -/
def lowerOf (c : Char) : Char := if isUpper c then Char.ofNat (c.toNat + 32) else c

/-- The name after its first character, taken back: an underscore before each upper-case letter. -/
def decTail : Str → Str
  | [] => []
  | c :: u => if isUpper c then '_' :: lowerOf c :: decTail u else c :: decTail u

/-- The name taken back. -/
def decName : Str → Str
  | [] => []
  | c :: u => lowerOf c :: decTail u

theorem lowerOf_upper {c : Char} (h : isUpper c) : isLower (lowerOf c) ∧ asciiUpper (lowerOf c) = c := by
  have h1 : 65 ≤ c.toNat := h.1
  have h2 : c.toNat ≤ 90 := h.2
  have e : (lowerOf c).toNat = c.toNat + 32 := by rw [lowerOf, if_pos h, charToNat_ofNat (by omega)]
  have hl : isLower (lowerOf c) := ⟨show 97 ≤ (lowerOf c).toNat by omega, show (lowerOf c).toNat ≤ 122 by omega⟩
  refine ⟨hl, ?_⟩
  have := (upper_lower hl).2
  exact Char.toNat_inj.mp (by omega)

theorem lowerOf_asciiUpper {c : Char} (h : isLower c) : lowerOf (asciiUpper c) = c := by
  obtain ⟨h1, h2⟩ := upper_lower h
  obtain ⟨h3, h4⟩ := lowerOf_upper h1
  exact upper_inj h3 h (by rw [h4])

theorem asciiUpper_of_not {c : Char} (h : ¬ isLower c) : asciiUpper c = c := if_neg h

theorem not_upper_lower {c : Char} (h : isLower c) : ¬ isUpper c := by
  have h1 : 97 ≤ c.toNat := h.1
  rintro ⟨_, h2⟩
  have h2 : c.toNat ≤ 90 := h2
  omega

theorem lower_ne {c : Char} (h : isLower c) : c ≠ '_' := by
  rintro rfl; exact absurd h (by decide)

/-- After the first character: no upper-case letters, a lower-case letter after every underscore. -/
def TailOk (t : Str) : Prop := (∀ c ∈ t, ¬ isUpper c) ∧ ∀ a b, t = a ++ '_' :: b → ∃ c, b.head? = some c ∧ isLower c

theorem TailOk.tail {c : Char} {t : Str} (h : TailOk (c :: t)) : TailOk t :=
  ⟨fun d hd => h.1 d (by simp [hd]), fun a b e => h.2 (c :: a) b (by simp [e])⟩

theorem decTail_enc : (t : Str) → TailOk t → decTail (capitalised false t) = t
  | [], _ => rfl
  | c :: t, h => by
    by_cases hc : c = '_'
    · subst hc
      obtain ⟨d, hd, hl⟩ := h.2 [] t rfl
      match t, hd, h with
      | e :: t, hd, h =>
        cases hd
        have ih := decTail_enc t h.tail.tail
        rw [capitalised, if_pos rfl, capitalised, if_neg (lower_ne hl), if_pos rfl, decTail, if_pos (upper_lower hl).1,
          lowerOf_asciiUpper hl, ih]
    · have ih := decTail_enc t h.tail
      rw [capitalised, if_neg hc, if_neg (by simp), decTail, if_neg (h.1 c (by simp)), ih]

theorem decName_enc {t : Str} (h : c42_Canonical t) : decName (capitalised true t) = t := by
  cases t with
  | nil => rfl
  | cons c t =>
    have hc : c ≠ '_' := by simpa using h.2.1
    have ht : TailOk (c :: t) := ⟨h.1, h.2.2⟩
    rw [capitalised, if_neg hc, if_pos rfl, decName, decTail_enc _ ht.tail]
    by_cases hl : isLower c
    · rw [lowerOf_asciiUpper hl]
    · rw [asciiUpper_of_not hl, lowerOf, if_neg (h.1 c (by simp))]

theorem enc_decTail {u : Str} (h : '_' ∉ u) : capitalised false (decTail u) = u := by
  induction u with
  | nil => rfl
  | cons c u ih =>
    simp only [List.mem_cons, not_or] at h
    rw [decTail]
    split
    next hu =>
      obtain ⟨h1, h2⟩ := lowerOf_upper hu
      rw [capitalised, if_pos rfl, capitalised, if_neg (lower_ne h1), if_pos rfl, h2, ih h.2]
    next hu => rw [capitalised, if_neg (Ne.symm h.1), if_neg (by simp), ih h.2]

theorem enc_decName {u : Str} (h : '_' ∉ u) (hl : ∀ c, u.head? = some c → ¬ isLower c) : capitalised true (decName u) = u := by
  cases u with
  | nil => rfl
  | cons c u =>
    simp only [List.mem_cons, not_or] at h
    have e : asciiUpper (lowerOf c) = c ∧ lowerOf c ≠ '_' := by
      by_cases hu : isUpper c
      · exact ⟨(lowerOf_upper hu).2, lower_ne (lowerOf_upper hu).1⟩
      · rw [lowerOf, if_neg hu]; exact ⟨asciiUpper_of_not (hl c rfl), Ne.symm h.1⟩
    rw [decName, capitalised, if_neg e.2, if_pos rfl, e.1, enc_decTail h.2]

theorem enc_no_underscore (b : Bool) (s : Str) : '_' ∉ capitalised b s := by
  induction s generalizing b with
  | nil => simp [capitalised]
  | cons c s ih =>
    rw [capitalised]
    split
    · exact ih _
    next hc =>
      split
      · simp only [List.mem_cons, not_or]; exact ⟨Ne.symm (asciiUpper_ne hc), ih _⟩
      · simp only [List.mem_cons, not_or]; exact ⟨Ne.symm hc, ih _⟩

theorem enc_head {s : Str} {c : Char} (h : (capitalised true s).head? = some c) : ¬ isLower c := by
  induction s with
  | nil => simp [capitalised] at h
  | cons d s ih =>
    rw [capitalised] at h
    split at h
    · exact ih h
    · rw [if_pos rfl] at h
      cases h
      intro hl
      by_cases hd : isLower d
      · exact not_upper_lower hl (upper_lower hd).1
      · rw [asciiUpper_of_not hd] at hl; exact hd hl

theorem tailOk_decTail {u : Str} (h : '_' ∉ u) : TailOk (decTail u) := by
  induction u with
  | nil => exact ⟨by simp [decTail], by simp [decTail]⟩
  | cons c u ih =>
    simp only [List.mem_cons, not_or] at h
    obtain ⟨i1, i2⟩ := ih h.2
    rw [decTail]
    split
    next hu =>
      obtain ⟨h1, h2⟩ := lowerOf_upper hu
      refine ⟨?_, ?_⟩
      · intro d hd
        simp only [List.mem_cons] at hd
        rcases hd with rfl | rfl | hd
        · decide
        · exact not_upper_lower h1
        · exact i1 d hd
      · intro a b e
        match a, e with
        | [], e => cases e; exact ⟨_, rfl, h1⟩
        | [x], e =>
          simp only [List.cons_append, List.nil_append, List.cons.injEq] at e
          exact absurd e.2.1 (lower_ne h1)
        | x :: y :: a, e =>
          simp only [List.cons_append, List.cons.injEq] at e
          exact i2 a b e.2.2
    next hu =>
      refine ⟨?_, ?_⟩
      · intro d hd
        rcases List.mem_cons.mp hd with rfl | hd
        · exact hu
        · exact i1 d hd
      · intro a b e
        match a, e with
        | [], e => cases e; exact absurd rfl h.1
        | x :: a, e =>
          simp only [List.cons_append, List.cons.injEq] at e
          exact i2 a b e.2

theorem canonical_decName {u : Str} (h : '_' ∉ u) : c42_Canonical (decName u) := by
  cases u with
  | nil => exact ⟨by simp [decName], by simp [decName], by simp [decName]⟩
  | cons c u =>
    simp only [List.mem_cons, not_or] at h
    obtain ⟨i1, i2⟩ := tailOk_decTail h.2
    have hc : ¬ isUpper (lowerOf c) ∧ lowerOf c ≠ '_' := by
      by_cases hu : isUpper c
      · exact ⟨not_upper_lower (lowerOf_upper hu).1, lower_ne (lowerOf_upper hu).1⟩
      · rw [lowerOf, if_neg hu]; exact ⟨hu, Ne.symm h.1⟩
    refine ⟨?_, ?_, ?_⟩
    · intro d hd
      rcases List.mem_cons.mp hd with rfl | hd
      · exact hc.1
      · exact i1 d hd
    · simpa [decName] using hc.2
    · intro a b e
      match a, e with
      | [], e => simp only [decName, List.nil_append, List.cons.injEq] at e; exact absurd e.1 hc.2
      | x :: a, e =>
        simp only [decName, List.cons_append, List.cons.injEq] at e
        exact i2 a b e.2

/-- C42, exactly: every layout name has the activity name of one canonical name, and of no other one. So two names are
confused exactly when they stand for the same canonical name. -/
theorem c42_canonical (s : Str) : ∃ t, (c42_Canonical t ∧ viewNameToLogic t = viewNameToLogic s) ∧
    ∀ t', c42_Canonical t' → viewNameToLogic t' = viewNameToLogic s → t' = t := by
  refine ⟨decName (capitalised true s), ⟨canonical_decName (enc_no_underscore _ _), ?_⟩, ?_⟩
  · rw [viewNameToLogic, enc_decName (enc_no_underscore _ _) fun _ h => enc_head h]; rfl
  · intro t' h e
    rw [← List.append_cancel_right e, decName_enc h]

/-- C42: no name is safe from confusion, an underscore at its end makes no difference. -/
theorem c42_underscore (s : Str) : viewNameToLogic (s ++ s% "_") = viewNameToLogic s ∧ s ++ s% "_" ≠ s := by
  refine ⟨?_, by simp⟩
  have : ∀ b, capitalised b (s ++ s% "_") = capitalised b s := by
    induction s with
    | nil => intro b; rfl
    | cons c s ih =>
      intro b
      rw [List.cons_append, capitalised, capitalised, ih, ih]
  rw [viewNameToLogic, this]; rfl

/-- C42: the activity names are the texts without underscore that do not begin with a lower-case letter, followed by
`Activity`. -/
theorem c42_names (u : Str) : (∃ s, viewNameToLogic s = u ++ s% "Activity") ↔
    '_' ∉ u ∧ ∀ c, u.head? = some c → ¬ isLower c := by
  constructor
  · rintro ⟨s, h⟩
    have h := List.append_cancel_right h
    subst h
    exact ⟨enc_no_underscore _ _, fun c h => enc_head h⟩
  · rintro ⟨h1, h2⟩
    exact ⟨decName u, by rw [viewNameToLogic, enc_decName h1 h2]⟩

example : c42_Canonical (s% "1a_b2") ∧ viewNameToLogic (s% "__1a__B2_") = viewNameToLogic (s% "1a_b2") := by
  refine ⟨?_, by decide⟩
  have := canonical_decName (u := s% "1aB2") (by decide)
  rwa [show decName (s% "1aB2") = s% "1a_b2" by decide] at this

end Swrs.Api
