import Verif.Props.Logic
/-!
# C23, C25, C27: which error a line of the logic file gives
-/
namespace Swrs

/-- `t` is a decimal number (a sign `+` is allowed) whose value is `n`. -/
def c23_IsNumber (t : Str) (n : Nat) : Prop := ∃ d, Digits d ∧ decimal d = n ∧ (t = d ∨ t = '+' :: d)

theorem ofNum_eq_err {n m : UInt8} : VariableType.ofNum n = .err m ↔ 3 < n ∧ m = n := by
  revert n m
  intro n m
  have key : ∀ n : UInt8, 3 < n ↔ n ≠ 0 ∧ n ≠ 1 ∧ n ≠ 2 ∧ n ≠ 3 := by
    intro n
    constructor
    · intro h; refine ⟨?_, ?_, ?_, ?_⟩ <;> rintro rfl <;> revert h <;> decide
    · rintro ⟨h0, h1, h2, h3⟩
      rw [UInt8.lt_iff_toNat_lt]
      have e0 : n.toNat ≠ 0 := fun h => h0 (UInt8.toNat.inj h)
      have e1 : n.toNat ≠ 1 := fun h => h1 (UInt8.toNat.inj h)
      have e2 : n.toNat ≠ 2 := fun h => h2 (UInt8.toNat.inj h)
      have e3 : n.toNat ≠ 3 := fun h => h3 (UInt8.toNat.inj h)
      show 3 < n.toNat
      omega
  rw [key]
  unfold VariableType.ofNum
  repeat' split
  all_goals simp_all [eq_comm]

theorem parseU8_number {t : Str} {n : UInt8} : parseU8 t = some n ↔ c23_IsNumber t n.toNat := parseU8_iff

theorem parseU8_none {t : Str} : parseU8 t = none ↔ ∀ n ≤ 255, ¬ c23_IsNumber t n := by
  constructor
  · intro h n hn hi
    have : parseU8 t = some (UInt8.ofNat n) := parseU8_number.mpr (by rw [UInt8.toNat_ofNat_of_lt' (by show n < 256; omega)]; exact hi)
    rw [h] at this; simp at this
  · intro h
    cases hp : parseU8 t with
    | none => rfl
    | some n =>
      have := n.toNat_lt
      exact absurd (parseU8_number.mp hp) (h _ (by omega))

/-- C23: which error is given: no colon; no number (up to 255) before the first colon; or a number over 3. -/
theorem c23_variable_error (s : Str) (e : VariableParseError) :
    Variable.parse s = .err e ↔
      (':' ∉ s ∧ e = .malformedVariable s) ∨
      ∃ t name, s = t ++ ':' :: name ∧ ':' ∉ t ∧
        (((∀ n ≤ 255, ¬ c23_IsNumber t n) ∧ e = .malformedVariableType t) ∨
          ∃ n : UInt8, c23_IsNumber t n.toNat ∧ 3 < n.toNat ∧ e = .invalidVariableType n) := by
  unfold Variable.parse
  cases hs : splitOnce ':' s with
  | none =>
    have h := splitOnce_eq_none.mp hs
    simp only [Out.ofOption_none, Out.err_bind, Out.err.injEq]
    constructor
    · rintro rfl; exact .inl ⟨h, rfl⟩
    · rintro (⟨_, rfl⟩ | ⟨t, name, rfl, _⟩)
      · rfl
      · simp at h
  | some q =>
    obtain ⟨t, name⟩ := q
    obtain ⟨rfl, ht⟩ := splitOnce_eq_some.mp hs
    simp only [Out.ofOption_some, Out.ok_bind]
    have huniq : ∀ t' name', t ++ ':' :: name = t' ++ ':' :: name' → ':' ∉ t' → t' = t := by
      intro t' name' he ht'
      have := splitOnce_append (c := ':') (a := t') (b := name') ht'
      rw [← he, hs] at this
      simp at this; exact this.1.symm
    constructor
    · intro h
      refine .inr ⟨t, name, rfl, ht, ?_⟩
      cases hp : parseU8 t with
      | none =>
        rw [hp] at h
        simp at h
        exact .inl ⟨parseU8_none.mp hp, h.symm⟩
      | some n =>
        rw [hp] at h
        cases ho : VariableType.ofNum n with
        | ok ty => rw [Out.ofOption_some, Out.ok_bind, ho] at h; simp at h
        | err m =>
          rw [Out.ofOption_some, Out.ok_bind, ho] at h; simp at h
          obtain ⟨h3, rfl⟩ := ofNum_eq_err.mp ho
          exact .inr ⟨_, parseU8_number.mp hp, UInt8.lt_iff_toNat_lt.mp h3, h.symm⟩
        | panic => exact absurd ho (VariableType.ofNum_ne_panic n)
    · rintro (⟨h, _⟩ | ⟨t', name', he, ht', h⟩)
      · simp at h
      · obtain rfl := huniq _ _ he ht'
        rcases h with ⟨h, rfl⟩ | ⟨n, h1, h2, rfl⟩
        · rw [parseU8_none.mpr h]; rfl
        · rw [parseU8_number.mpr h1, Out.ofOption_some, Out.ok_bind, ofNum_eq_err.mpr ⟨UInt8.lt_iff_toNat_lt.mpr h2, rfl⟩]; rfl

/-- C23: the same for list variables. -/
theorem c23_list_variable_error (s : Str) (e : ListVariableParseError) :
    ListVariable.parse s = .err e ↔
      (':' ∉ s ∧ e = .missingColon) ∨
      ∃ t name, s = t ++ ':' :: name ∧ ':' ∉ t ∧
        (((∀ n ≤ 255, ¬ c23_IsNumber t n) ∧ e = .variableTypeIsNotInt) ∨
          ∃ n : UInt8, c23_IsNumber t n.toNat ∧ 3 < n.toNat ∧ e = .invalidVariableType n) := by
  unfold ListVariable.parse
  cases hs : splitOnce ':' s with
  | none =>
    have h := splitOnce_eq_none.mp hs
    simp only [Out.ofOption_none, Out.err_bind, Out.err.injEq]
    constructor
    · rintro rfl; exact .inl ⟨h, rfl⟩
    · rintro (⟨_, rfl⟩ | ⟨t, name, rfl, _⟩)
      · rfl
      · simp at h
  | some q =>
    obtain ⟨t, name⟩ := q
    obtain ⟨rfl, ht⟩ := splitOnce_eq_some.mp hs
    simp only [Out.ofOption_some, Out.ok_bind]
    have huniq : ∀ t' name', t ++ ':' :: name = t' ++ ':' :: name' → ':' ∉ t' → t' = t := by
      intro t' name' he ht'
      have := splitOnce_append (c := ':') (a := t') (b := name') ht'
      rw [← he, hs] at this
      simp at this; exact this.1.symm
    constructor
    · intro h
      refine .inr ⟨t, name, rfl, ht, ?_⟩
      cases hp : parseU8 t with
      | none =>
        rw [hp] at h
        simp at h
        exact .inl ⟨parseU8_none.mp hp, h.symm⟩
      | some n =>
        rw [hp] at h
        cases ho : VariableType.ofNum n with
        | ok ty => rw [Out.ofOption_some, Out.ok_bind, ho] at h; simp at h
        | err m =>
          rw [Out.ofOption_some, Out.ok_bind, ho] at h; simp at h
          obtain ⟨h3, rfl⟩ := ofNum_eq_err.mp ho
          exact .inr ⟨_, parseU8_number.mp hp, UInt8.lt_iff_toNat_lt.mp h3, h.symm⟩
        | panic => exact absurd ho (VariableType.ofNum_ne_panic n)
    · rintro (⟨h, _⟩ | ⟨t', name', he, ht', h⟩)
      · simp at h
      · obtain rfl := huniq _ _ he ht'
        rcases h with ⟨h, rfl⟩ | ⟨n, h1, h2, rfl⟩
        · rw [parseU8_none.mpr h]; rfl
        · rw [parseU8_number.mpr h1, Out.ofOption_some, Out.ok_bind, ofNum_eq_err.mpr ⟨UInt8.lt_iff_toNat_lt.mpr h2, rfl⟩]; rfl

/-- C25: a moreblock without a colon is refused with its text, and nothing else is. -/
theorem c25_moreblock_error (s : Str) (e : MoreBlockParseError) :
    MoreBlock.parse s = .err e ↔ ':' ∉ s ∧ e = .malformedMoreBlock s := by
  unfold MoreBlock.parse
  cases hs : splitOnce ':' s with
  | none =>
    have h := splitOnce_eq_none.mp hs
    simp [h, eq_comm]
  | some q =>
    obtain ⟨t, name⟩ := q
    obtain ⟨rfl, ht⟩ := splitOnce_eq_some.mp hs
    simp

/-- C27: which error a header gives: it does not begin with `@`, or it has no `.java_`; every other line is read. -/
theorem c27_header_error (s : Str) (e : BlockContainerHeaderParseError) :
    BlockContainerHeader.parse s = .err e ↔
      (s.head? ≠ some '@' ∧ e = .doesntStartWithAtSign) ∨
      (s.head? = some '@' ∧ ¬ (s% ".java_") <:+: s ∧ e = .noContainerName) := by
  rw [BlockContainerHeader.parse_err_iff]
  have h1 : startsWith ['@'] s = true ↔ s.head? = some '@' := by
    cases s with
    | nil => simp
    | cons c s => simp
  rw [← Bool.not_eq_true, h1]

example : Variable.parse (s% "x") = .err (.malformedVariable (s% "x")) := by decide
example : Variable.parse (s% "300:x") = .err (.malformedVariableType (s% "300")) := by decide
example : Variable.parse (s% "4:x") = .err (.invalidVariableType 4) := by decide
example : ListVariable.parse (s% "-1:x") = .err .variableTypeIsNotInt := by decide
example : MoreBlock.parse (s% "go") = .err (.malformedMoreBlock (s% "go")) := by decide
example : BlockContainerHeader.parse (s% "main.java_a") = .err .doesntStartWithAtSign := by decide
example : BlockContainerHeader.parse (s% "@main") = .err .noContainerName := by decide

end Swrs
