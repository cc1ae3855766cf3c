import Verif.Json.Text
import Verif.Base.StrLemmas
/-! Printing then parsing a JSON value gives it back. -/

namespace Swrs.Json

/-- Text after a number that cannot be read as part of it. -/
def Stop (rest : Str) : Prop :=
  ∀ c, rest.head? = some c → isDigit c = false ∧ c ≠ '.' ∧ c ≠ 'e' ∧ c ≠ 'E'

theorem stop_nil : Stop [] := by intro c h; simp at h
theorem stop_comma (r : Str) : Stop (',' :: r) := by
  intro c h; simp at h; subst h; decide
theorem stop_rbrack (r : Str) : Stop (']' :: r) := by
  intro c h; simp at h; subst h; decide
theorem stop_rbrace (r : Str) : Stop ('}' :: r) := by
  intro c h; simp at h; subst h; decide

/-! ### numbers -/

theorem takeWhile_stop {p : Char → Bool} {d r : Str} (hd : ∀ c ∈ d, p c = true)
    (hr : ∀ c, r.head? = some c → p c = false) :
    (d ++ r).takeWhile p = d ∧ (d ++ r).dropWhile p = r := by
  induction d with
  | nil =>
    cases r with
    | nil => simp
    | cons c r => simp [hr c rfl]
  | cons c d ih =>
    have := ih (fun x hx => hd x (by simp [hx]))
    simp [hd c (by simp), this]

theorem lexDigits_eq_some {s d r : Str} (h : lexDigits s = some (d, r)) :
    s = d ++ r ∧ d ≠ [] ∧ (∀ c ∈ d, isDigit c = true) ∧ ∀ c, r.head? = some c → isDigit c = false := by
  unfold lexDigits at h
  split at h
  · simp at h
  next x xs hx =>
    simp only [Option.some.injEq, Prod.mk.injEq] at h
    obtain ⟨rfl, rfl⟩ := h
    refine ⟨?_, by simp, ?_, ?_⟩
    · rw [← hx]; exact (List.takeWhile_append_dropWhile).symm
    · intro c hc; rw [← hx] at hc
      exact (List.all_eq_true.mp (List.all_takeWhile)) c hc
    · intro c hc
      have := List.head?_dropWhile_not isDigit s
      rw [hc] at this; simpa using this

theorem lexDigits_append {d r : Str} (hne : d ≠ []) (hd : ∀ c ∈ d, isDigit c = true)
    (hr : ∀ c, r.head? = some c → isDigit c = false) : lexDigits (d ++ r) = some (d, r) := by
  obtain ⟨h1, h2⟩ := takeWhile_stop hd hr
  unfold lexDigits
  rw [h1, h2]
  cases d with
  | nil => exact absurd rfl hne
  | cons c d => rfl

theorem lexDigits_extend {s d rest : Str} (h : lexDigits s = some (d, [])) (hr : Stop rest) :
    lexDigits (s ++ rest) = some (d, rest) := by
  obtain ⟨h1, h2, h3, _⟩ := lexDigits_eq_some h
  simp only [List.append_nil] at h1; subst h1
  exact lexDigits_append h2 h3 fun c hc => (hr c hc).1

theorem lexDigits_extend' {s d r rest : Str} (h : lexDigits s = some (d, r)) (hne : r ≠ []) :
    lexDigits (s ++ rest) = some (d, r ++ rest) := by
  obtain ⟨h1, h2, h3, h4⟩ := lexDigits_eq_some h
  subst h1
  rw [List.append_assoc]
  refine lexDigits_append h2 h3 fun c hc => h4 c ?_
  cases r with
  | nil => exact absurd rfl hne
  | cons x r => simpa using hc

theorem lexDigits_any {s d r rest : Str} (h : lexDigits s = some (d, r)) (hr : Stop rest) :
    lexDigits (s ++ rest) = some (d, r ++ rest) := by
  by_cases hne : r = []
  · subst hne; simpa using lexDigits_extend h hr
  · exact lexDigits_extend' h hne

theorem lexInt_any {s d r rest : Str} (h : lexInt s = some (d, r)) (hr : Stop rest) :
    lexInt (s ++ rest) = some (d, r ++ rest) := by
  unfold lexInt at h
  split at h
  next x => simp at h; obtain ⟨rfl, rfl⟩ := h; simp [lexInt]
  next x hx =>
    have h' := lexDigits_any h hr
    unfold lexInt
    split
    next y hy =>
      exfalso
      cases s with
      | nil => simp [lexDigits] at h
      | cons c s =>
        simp only [List.cons_append, List.cons.injEq] at hy
        exact hx s (by rw [hy.1])
    next => exact h'

theorem lexFrac_any {s d r rest : Str} (h : lexFrac s = some (d, r)) (hr : Stop rest) :
    lexFrac (s ++ rest) = some (d, r ++ rest) := by
  unfold lexFrac at h
  split at h
  next x =>
    cases hd : lexDigits x with
    | none => simp [hd] at h
    | some p =>
      obtain ⟨d', r'⟩ := p
      simp [hd] at h; obtain ⟨rfl, rfl⟩ := h
      simp [lexFrac, lexDigits_any hd hr]
  next x hx =>
    simp at h; obtain ⟨rfl, rfl⟩ := h
    unfold lexFrac
    split
    next y hy =>
      exfalso
      cases s with
      | nil =>
        simp only [List.nil_append] at hy
        exact (hr '.' (by rw [hy]; rfl)).2.1 rfl
      | cons c s =>
        simp only [List.cons_append, List.cons.injEq] at hy
        exact hx s (by rw [hy.1])
    next => rfl

theorem lexExp_any {s d r rest : Str} (h : lexExp s = some (d, r)) (hr : Stop rest) :
    lexExp (s ++ rest) = some (d, r ++ rest) := by
  cases s with
  | nil =>
    simp [lexExp] at h; obtain ⟨rfl, rfl⟩ := h
    cases rest with
    | nil => rfl
    | cons c rest =>
      obtain ⟨_, _, h3, h4⟩ := hr c rfl
      simp [lexExp, h3, h4]
  | cons c s =>
    simp only [lexExp, List.cons_append] at h ⊢
    by_cases hc : c = 'e' ∨ c = 'E'
    · rw [if_pos hc] at h ⊢
      split at h
      next x =>
        cases hd : lexDigits x with
        | none => simp [hd] at h
        | some p =>
          obtain ⟨d', r'⟩ := p
          simp [hd] at h; obtain ⟨rfl, rfl⟩ := h
          simp [lexDigits_any hd hr]
      next x =>
        cases hd : lexDigits x with
        | none => simp [hd] at h
        | some p =>
          obtain ⟨d', r'⟩ := p
          simp [hd] at h; obtain ⟨rfl, rfl⟩ := h
          simp [lexDigits_any hd hr]
      next x h1 h2 =>
        cases hd : lexDigits s with
        | none => simp [hd] at h
        | some p =>
          obtain ⟨d', r'⟩ := p
          simp [hd] at h; obtain ⟨rfl, rfl⟩ := h
          have := lexDigits_any hd hr
          split
          next y hy =>
            exfalso
            cases s with
            | nil => simp [lexDigits] at hd
            | cons a s =>
              simp only [List.cons_append, List.cons.injEq] at hy
              exact h1 s (by rw [hy.1])
          next y hy =>
            exfalso
            cases s with
            | nil => simp [lexDigits] at hd
            | cons a s =>
              simp only [List.cons_append, List.cons.injEq] at hy
              exact h2 s (by rw [hy.1])
          next => simp [this]
    · rw [if_neg hc] at h ⊢
      simp at h; obtain ⟨rfl, rfl⟩ := h; rfl

theorem lexUNum_any {s d r rest : Str} (h : lexUNum s = some (d, r)) (hr : Stop rest) :
    lexUNum (s ++ rest) = some (d, r ++ rest) := by
  unfold lexUNum at h ⊢
  cases h1 : lexInt s with
  | none => simp [h1] at h
  | some p =>
    obtain ⟨i, r1⟩ := p
    simp only [h1, Option.bind_some] at h
    rw [lexInt_any h1 hr]
    simp only [Option.bind_some]
    cases h2 : lexFrac r1 with
    | none => simp [h2] at h
    | some p =>
      obtain ⟨f, r2⟩ := p
      simp only [h2, Option.bind_some] at h
      rw [lexFrac_any h2 hr]
      simp only [Option.bind_some]
      cases h3 : lexExp r2 with
      | none => simp [h3] at h
      | some p =>
        obtain ⟨e, r3⟩ := p
        simp only [h3, Option.map_some, Option.some.injEq, Prod.mk.injEq] at h
        obtain ⟨rfl, rfl⟩ := h
        rw [lexExp_any h3 hr]; rfl

theorem lexUNum_head {s d r : Str} (h : lexUNum s = some (d, r)) :
    ∃ c t, s = c :: t ∧ isDigit c = true := by
  unfold lexUNum at h
  cases h1 : lexInt s with
  | none => simp [h1] at h
  | some p =>
    obtain ⟨i, r1⟩ := p
    unfold lexInt at h1
    split at h1
    next x => exact ⟨'0', x, rfl, by decide⟩
    next x =>
      obtain ⟨e, hne, hd, _⟩ := lexDigits_eq_some h1
      cases i with
      | nil => exact absurd rfl hne
      | cons c i => exact ⟨c, i ++ r1, e, hd c (by simp)⟩

theorem lexNum_any {s d r rest : Str} (h : lexNum s = some (d, r)) (hr : Stop rest) :
    lexNum (s ++ rest) = some (d, r ++ rest) := by
  unfold lexNum at h
  split at h
  next x =>
    cases h1 : lexUNum x with
    | none => simp [h1] at h
    | some p =>
      obtain ⟨d', r'⟩ := p
      simp [h1] at h; obtain ⟨rfl, rfl⟩ := h
      simp [lexNum, lexUNum_any h1 hr]
  next x hx =>
    have h' := lexUNum_any h hr
    obtain ⟨c, t, rfl, hc⟩ := lexUNum_head h
    unfold lexNum
    split
    next y hy =>
      simp only [List.cons_append, List.cons.injEq] at hy
      exact (hx t (by rw [hy.1])).elim
    next => exact h'

theorem numTok_head {tok : Str} (h : isNumTok tok = true) :
    ∃ c t, tok = c :: t ∧ (c = '-' ∨ isDigit c = true) := by
  simp only [isNumTok, decide_eq_true_eq] at h
  unfold lexNum at h
  split at h
  next x => exact ⟨'-', x, rfl, Or.inl rfl⟩
  next x hx =>
    obtain ⟨c, t, rfl, hc⟩ := lexUNum_head h
    exact ⟨c, t, rfl, Or.inr hc⟩

theorem lexNum_tok {tok rest : Str} (h : isNumTok tok = true) (hr : Stop rest) :
    lexNum (tok ++ rest) = some (tok, rest) := by
  simp only [isNumTok, decide_eq_true_eq] at h
  simpa using lexNum_any h hr

/-! ### strings -/

theorem hex4_ctl {n : Nat} (h : n < 32) :
    hex4 '0' '0' (digitChar (n / 16)) (digitChar (n % 16)) = some n := by
  have key : ∀ n < 32, hex4 '0' '0' (digitChar (n / 16)) (digitChar (n % 16)) = some n := by decide
  exact key n h

theorem lexStr_esc (s rest : Str) (n : Nat) (hn : s.length < n) :
    lexStr n (escStr s ++ '"' :: rest) = some (some s, rest) := by
  induction s generalizing n with
  | nil =>
    obtain ⟨m, rfl⟩ : ∃ m, n = m + 1 := ⟨n - 1, by simp at hn; omega⟩
    simp [escStr, lexStr]
  | cons c s ih =>
    obtain ⟨m, rfl⟩ : ∃ m, n = m + 1 := ⟨n - 1, by simp at hn; omega⟩
    have ih' := ih m (by simp at hn; omega)
    have hch : ∀ k : Nat, c.toNat = k → c = Char.ofNat k := by
      intro k hk; rw [← hk]; exact (Char.ofNat_toNat c).symm
    simp only [escStr]
    unfold escChar
    split
    next h => subst h; simp [lexStr, escVal, ih', consLit]
    split
    next h => subst h; simp [lexStr, escVal, ih', consLit]
    split
    next h => rw [hch _ h]; simp [lexStr, escVal, ih', consLit]
    split
    next h => rw [hch _ h]; simp [lexStr, escVal, ih', consLit]
    split
    next h => rw [hch _ h]; simp [lexStr, escVal, ih', consLit]
    split
    next h => rw [hch _ h]; simp [lexStr, escVal, ih', consLit]
    split
    next h => rw [hch _ h]; simp [lexStr, escVal, ih', consLit]
    split
    next h =>
      have h2 := hex4_ctl h
      simp only [List.cons_append, List.nil_append, lexStr]
      simp only [h2, ih']
      have a1 : ¬ (0xD800 ≤ c.toNat ∧ c.toNat < 0xE000) := by omega
      simp [a1, Char.ofNat_toNat, consLit]
    next h1 h2 h3 h4 h5 h6 h7 h8 =>
      simp only [List.cons_append, List.nil_append, lexStr, h1, h2, h8, if_false, ih']
      rfl

theorem escStr_length_le (s : Str) : s.length ≤ (escStr s).length := by
  induction s with
  | nil => simp
  | cons c s ih =>
    have : 1 ≤ (escChar c).length := by
      unfold escChar
      repeat' split
      all_goals simp
    simp only [escStr, List.length_cons, List.length_append]; omega

theorem lexString_esc (s rest : Str) : lexString (escStr s ++ '"' :: rest) = some (some s, rest) := by
  unfold lexString
  apply lexStr_esc
  have := escStr_length_le s
  simp; omega

theorem lexString_quote (s rest : Str) : ∃ t, quote s ++ rest = '"' :: t ∧ lexString t = some (some s, rest) :=
  ⟨escStr s ++ '"' :: rest, by simp [quote], lexString_esc s rest⟩

/-! ### values -/

mutual
/-- Every number in the value is a JSON number. -/
def Valid : Json → Prop
  | null => True
  | bool _ => True
  | num tok => isNumTok tok = true
  | str _ => True
  | arr vs => ValidArr vs
  | obj kvs => ValidObj kvs
  | bad => False
/-- All elements are valid. -/
def ValidArr : List Json → Prop
  | [] => True
  | v :: vs => Valid v ∧ ValidArr vs
/-- All member values are valid. -/
def ValidObj : List (Str × Json) → Prop
  | [] => True
  | (_, v) :: ms => Valid v ∧ ValidObj ms
end

mutual
/-- Fuel used by the parser on the printed value. -/
def need : Json → Nat
  | arr vs => needArr vs + 1
  | obj kvs => needObj kvs + 1
  | _ => 1
/-- Fuel for the elements. -/
def needArr : List Json → Nat
  | [] => 0
  | v :: vs => need v + needArr vs + 1
/-- Fuel for the members. -/
def needObj : List (Str × Json) → Nat
  | [] => 0
  | (_, v) :: ms => need v + needObj ms + 1
end

theorem skip_cons {c : Char} {r : Str} (h : isSpace c = false) : skip (c :: r) = c :: r := by
  simp [skip, h]

/-- First character of a printed value: visible, and not a closing bracket. -/
theorem print_head (j : Json) (hv : j.Valid) :
    ∃ c t, j.print = c :: t ∧ isSpace c = false ∧ c ≠ ']' ∧ c ≠ '}' := by
  cases j with
  | null => exact ⟨'n', _, rfl, by decide⟩
  | bool b => cases b with
    | true => exact ⟨'t', s% "rue", by simp [print], by decide⟩
    | false => exact ⟨'f', s% "alse", by simp [print], by decide⟩
  | num tok =>
    obtain ⟨c, t, rfl, hc⟩ := numTok_head (by simpa [Valid] using hv)
    refine ⟨c, t, by simp [print], ?_⟩
    rcases hc with rfl | hc
    · decide
    · refine ⟨?_, ?_, ?_⟩
      · cases h : isSpace c with
        | false => rfl
        | true =>
          simp only [isSpace, Bool.or_eq_true, decide_eq_true_eq] at h
          rcases h with ((rfl | rfl) | rfl) | rfl <;> exact absurd hc (by decide)
      · rintro rfl; exact absurd hc (by decide)
      · rintro rfl; exact absurd hc (by decide)
  | str s => exact ⟨'"', escStr s ++ ['"'], by simp only [print, quote], by decide⟩
  | arr vs => exact ⟨'[', printArr vs ++ [']'], by simp only [print], by decide⟩
  | obj kvs => exact ⟨'{', printObj kvs ++ ['}'], by simp only [print], by decide⟩
  | bad => exact absurd hv (by simp [Valid])

theorem parseVal_num {f : Nat} {tok rest : Str} (h : isNumTok tok = true) (hr : Stop rest) :
    parseVal (f + 1) (tok ++ rest) = some (num tok, rest) := by
  have hl := lexNum_tok h hr
  obtain ⟨c, t, rfl, hc⟩ := numTok_head h
  have hsp : isSpace c = false := by
    rcases hc with rfl | hc
    · decide
    · cases h : isSpace c with
      | false => rfl
      | true =>
        simp only [isSpace, Bool.or_eq_true, decide_eq_true_eq] at h
        rcases h with ((rfl | rfl) | rfl) | rfl <;> exact absurd hc (by decide)
  have hsk : skip (c :: t ++ rest) = c :: t ++ rest := skip_cons hsp
  unfold parseVal
  rw [hsk]
  split
  case h_7 => rw [hl]; rfl
  all_goals
    next heq =>
      simp only [List.cons_append, List.cons.injEq] at heq
      rw [heq.1] at hc
      exact absurd hc (by decide)

theorem print_quote_head (k : Str) (rest : Str) : skip (quote k ++ rest) = quote k ++ rest := by
  simp [quote, skip, isSpace]

theorem printArr_cons_cons (v w : Json) (vs : List Json) :
    printArr (v :: w :: vs) = print v ++ ',' :: printArr (w :: vs) := by
  rw [printArr]

theorem printObj_cons_cons (k : Str) (v : Json) (m : Str × Json) (ms : List (Str × Json)) :
    printObj ((k, v) :: m :: ms) = quote k ++ ':' :: (print v ++ ',' :: printObj (m :: ms)) := by
  rw [printObj]

theorem printArr_head (vs : List Json) (hne : vs ≠ []) (hv : ValidArr vs) :
    ∃ c t, printArr vs = c :: t ∧ isSpace c = false ∧ c ≠ ']' := by
  cases vs with
  | nil => exact absurd rfl hne
  | cons v vs =>
    obtain ⟨c, t, h, h1, h2, _⟩ := print_head v (by simp [ValidArr] at hv; exact hv.1)
    cases vs with
    | nil => exact ⟨c, t, by simp [printArr, h], h1, h2⟩
    | cons w vs => exact ⟨c, t ++ ',' :: printArr (w :: vs), by simp [printArr, h], h1, h2⟩

theorem printObj_head (ms : List (Str × Json)) (hne : ms ≠ []) :
    ∃ t, printObj ms = '"' :: t := by
  cases ms with
  | nil => exact absurd rfl hne
  | cons m ms =>
    obtain ⟨k, v⟩ := m
    cases ms with
    | nil => exact ⟨escStr k ++ '"' :: (':' :: print v), by simp [printObj, quote]⟩
    | cons w ms => exact ⟨escStr k ++ ['"'] ++ ':' :: (print v ++ ',' :: printObj (w :: ms)),
        by rw [printObj_cons_cons]; simp only [quote, List.cons_append]⟩

/-- Members whose keys have a value. -/
def withKeys (ms : List (Str × Json)) : List (Option Str × Json) := ms.map fun m => (some m.1, m.2)

theorem keyed_withKeys (ms : List (Str × Json)) : keyed (withKeys ms) = some ms := by
  induction ms with
  | nil => rfl
  | cons m ms ih => simp only [withKeys] at ih; simp [withKeys, keyed, ih]

theorem keyed_eq {ms : List (Option Str × Json)} {ns : List (Str × Json)} (h : keyed ms = some ns) : ms = withKeys ns := by
  induction ms generalizing ns with
  | nil => simp [keyed] at h; subst h; rfl
  | cons m ms ih =>
    obtain ⟨k, v⟩ := m
    cases k with
    | none => simp [keyed] at h
    | some k =>
      simp only [keyed, Option.map_eq_some_iff] at h
      obtain ⟨ns', h1, rfl⟩ := h
      rw [ih h1]; rfl

mutual
theorem parseVal_print (j : Json) (hv : j.Valid) (f : Nat) (rest : Str)
    (hf : j.need ≤ f) (hr : Stop rest) :
    parseVal f (j.print ++ rest) = some (j, rest) := by
  match f, j, hv, hf with
  | 0, j, _, hf => exact absurd hf (by cases j <;> simp [need])
  | _ + 1, null, _, _ => simp [print, parseVal, skip, isSpace]
  | _ + 1, bool true, _, _ => simp [print, parseVal, skip, isSpace]
  | _ + 1, bool false, _, _ => simp [print, parseVal, skip, isSpace]
  | _ + 1, num tok, hv, _ => simpa [print] using parseVal_num (by simpa [Valid] using hv) hr
  | _ + 1, bad, hv, _ => exact absurd hv (by simp [Valid])
  | _ + 1, str s, _, _ =>
    obtain ⟨t, h1, h2⟩ := lexString_quote s rest
    have hs : skip ('"' :: t) = '"' :: t := skip_cons (by decide)
    simp only [print, h1, parseVal, hs, h2, Option.map_some, strOf]
  | _ + 1, arr [], _, _ =>
    simp [print, printArr, parseVal, skip, isSpace]
  | g + 1, arr (v :: vs), hv, hf =>
    have hva : ValidArr (v :: vs) := by simpa [Valid] using hv
    have ih := parseElems_print (v :: vs) (by simp) hva g rest
      (by simp [need] at hf; omega)
    obtain ⟨c, t, h1, h2, h3⟩ := printArr_head (v :: vs) (by simp) hva
    have e : print (arr (v :: vs)) ++ rest = '[' :: (printArr (v :: vs) ++ ']' :: rest) := by
      simp [print]
    have hs : skip ('[' :: (printArr (v :: vs) ++ ']' :: rest)) = '[' :: (printArr (v :: vs) ++ ']' :: rest) :=
      skip_cons (by decide)
    rw [e]
    simp only [parseVal, hs]
    rw [h1] at ih ⊢
    have hs2 : skip (c :: t ++ ']' :: rest) = c :: t ++ ']' :: rest := skip_cons h2
    rw [hs2]
    split
    next heq => simp at heq; exact absurd heq.1 h3
    next => rw [ih]; rfl
  | _ + 1, obj [], _, _ =>
    simp [print, printObj, parseVal, skip, isSpace]
  | g + 1, obj (m :: ms), hv, hf =>
    have hva : ValidObj (m :: ms) := by simpa [Valid] using hv
    have ih := parseMembers_print (m :: ms) (by simp) hva g rest
      (by simp [need] at hf; omega)
    obtain ⟨t, h1⟩ := printObj_head (m :: ms) (by simp)
    have e : print (obj (m :: ms)) ++ rest = '{' :: (printObj (m :: ms) ++ '}' :: rest) := by
      simp [print]
    have hs : skip ('{' :: (printObj (m :: ms) ++ '}' :: rest)) = '{' :: (printObj (m :: ms) ++ '}' :: rest) :=
      skip_cons (by decide)
    rw [e]
    simp only [parseVal, hs]
    rw [h1] at ih ⊢
    have hs2 : skip ('"' :: t ++ '}' :: rest) = '"' :: t ++ '}' :: rest := skip_cons (by decide)
    rw [hs2]
    split
    next heq => simp at heq
    next => rw [ih]; simp only [Option.map_some, objOf, keyed_withKeys]
termination_by sizeOf j

theorem parseElems_print (vs : List Json) (hne : vs ≠ []) (hv : ValidArr vs) (f : Nat) (rest : Str)
    (hf : needArr vs ≤ f) :
    parseElems f (printArr vs ++ ']' :: rest) = some (vs, rest) := by
  match f, vs, hne, hv, hf with
  | 0, _ :: _, _, _, hf => exact absurd hf (by simp [needArr])
  | g + 1, [v], _, hv, hf =>
    have ih := parseVal_print v (by simp [ValidArr] at hv; exact hv) g (']' :: rest)
      (by simp [needArr] at hf; omega) (stop_rbrack rest)
    simp [printArr, parseElems, ih, skip, isSpace]
  | g + 1, v :: w :: vs, _, hv, hf =>
    have hv' : Valid v ∧ ValidArr (w :: vs) := by rw [ValidArr] at hv; exact hv
    have hf' : need v + needArr (w :: vs) ≤ g := by rw [needArr] at hf; omega
    have ih1 := parseVal_print v hv'.1 g (',' :: (printArr (w :: vs) ++ ']' :: rest))
      (by omega) (stop_comma _)
    have ih2 := parseElems_print (w :: vs) (by simp) hv'.2 g rest (by omega)
    have e : printArr (v :: w :: vs) ++ ']' :: rest
        = print v ++ ',' :: (printArr (w :: vs) ++ ']' :: rest) := by
      rw [printArr_cons_cons]; simp
    rw [e]
    simp only [parseElems, ih1]
    rw [skip_cons (by decide)]
    simp only [ih2, Option.map_some]
termination_by sizeOf vs

theorem parseMembers_print (ms : List (Str × Json)) (hne : ms ≠ []) (hv : ValidObj ms) (f : Nat)
    (rest : Str) (hf : needObj ms ≤ f) :
    parseMembers f (printObj ms ++ '}' :: rest) = some (withKeys ms, rest) := by
  match f, ms, hne, hv, hf with
  | 0, (_, _) :: _, _, _, hf => exact absurd hf (by simp [needObj])
  | g + 1, [(k, v)], _, hv, hf =>
    have ih := parseVal_print v (by simp [ValidObj] at hv; exact hv) g ('}' :: rest)
      (by simp [needObj] at hf; omega) (stop_rbrace rest)
    obtain ⟨t, h1, h2⟩ := lexString_quote k (':' :: (print v ++ '}' :: rest))
    have e : printObj [(k, v)] ++ '}' :: rest = quote k ++ ':' :: (print v ++ '}' :: rest) := by
      simp [printObj]
    rw [e, h1]
    simp only [parseMembers]
    rw [skip_cons (by decide)]
    simp only [h2]
    rw [skip_cons (by decide)]
    simp only [ih]
    rw [skip_cons (by decide)]
    rfl
  | g + 1, (k, v) :: m :: ms, _, hv, hf =>
    have hv' : Valid v ∧ ValidObj (m :: ms) := by rw [ValidObj] at hv; exact hv
    have hf' : need v + needObj (m :: ms) ≤ g := by rw [needObj] at hf; omega
    have ih1 := parseVal_print v hv'.1 g (',' :: (printObj (m :: ms) ++ '}' :: rest))
      (by omega) (stop_comma _)
    have ih2 := parseMembers_print (m :: ms) (by simp) hv'.2 g rest (by omega)
    obtain ⟨t, h1, h2⟩ := lexString_quote k (':' :: (print v ++ ',' :: (printObj (m :: ms) ++ '}' :: rest)))
    have e : printObj ((k, v) :: m :: ms) ++ '}' :: rest
        = quote k ++ ':' :: (print v ++ ',' :: (printObj (m :: ms) ++ '}' :: rest)) := by
      rw [printObj_cons_cons]; simp
    rw [e, h1]
    simp only [parseMembers]
    rw [skip_cons (by decide)]
    simp only [h2]
    rw [skip_cons (by decide)]
    simp only [ih1]
    rw [skip_cons (by decide)]
    simp only [ih2, Option.map_some]
    rfl
termination_by sizeOf ms
end

mutual
theorem need_le (j : Json) (hv : j.Valid) : j.need ≤ 2 * j.print.length := by
  match j, hv with
  | null, _ => simp [need, print]
  | bool true, _ => simp [need, print]
  | bool false, _ => simp [need, print]
  | num tok, hv =>
    obtain ⟨c, t, rfl, _⟩ := numTok_head (by simpa [Valid] using hv)
    simp [need, print]; omega
  | bad, hv => exact absurd hv (by simp [Valid])
  | str s, _ => simp [need, print, quote]; omega
  | arr vs, hv =>
    have := needArr_le vs (by simpa [Valid] using hv)
    simp [need, print]; omega
  | obj ms, hv =>
    have := needObj_le ms (by simpa [Valid] using hv)
    simp [need, print]; omega
termination_by sizeOf j
theorem needArr_le (vs : List Json) (hv : ValidArr vs) : needArr vs ≤ 2 * (printArr vs).length + 1 := by
  match vs, hv with
  | [], _ => simp [needArr]
  | [v], hv =>
    have := need_le v (by simp [ValidArr] at hv; exact hv)
    simp [needArr, printArr]; omega
  | v :: w :: vs, hv =>
    have hv' : Valid v ∧ ValidArr (w :: vs) := by rw [ValidArr] at hv; exact hv
    have h1 := need_le v hv'.1
    have h2 := needArr_le (w :: vs) hv'.2
    rw [needArr, printArr_cons_cons]
    simp only [List.length_append, List.length_cons]; omega
termination_by sizeOf vs
theorem needObj_le (ms : List (Str × Json)) (hv : ValidObj ms) :
    needObj ms ≤ 2 * (printObj ms).length + 1 := by
  match ms, hv with
  | [], _ => simp [needObj]
  | [(k, v)], hv =>
    have := need_le v (by simp [ValidObj] at hv; exact hv)
    simp [needObj, printObj]; omega
  | (k, v) :: m :: ms, hv =>
    have hv' : Valid v ∧ ValidObj (m :: ms) := by rw [ValidObj] at hv; exact hv
    have h1 := need_le v hv'.1
    have h2 := needObj_le (m :: ms) hv'.2
    rw [needObj, printObj_cons_cons]
    simp only [List.length_append, List.length_cons]; omega
termination_by sizeOf ms
end

/-- Parsing the printed form of a value gives the value back. -/
theorem parse_print (j : Json) (hv : j.Valid) : parse j.print = some j := by
  unfold parse
  have := need_le j hv
  have h := parseVal_print j hv (2 * j.print.length + 2) [] (by omega) stop_nil
  simp only [List.append_nil] at h
  rw [h]; rfl

/-! ### the printed form is one line -/

theorem numTok_chars {s d r : Str} (h : lexNum s = some (d, r)) : '\n' ∉ d := by
  have hdig : ∀ {s d r : Str}, lexDigits s = some (d, r) → '\n' ∉ d := by
    intro s d r h hm
    have := (lexDigits_eq_some h).2.2.1 _ hm
    exact absurd this (by decide)
  have hint : ∀ {s d r : Str}, lexInt s = some (d, r) → '\n' ∉ d := by
    intro s d r h
    unfold lexInt at h
    split at h
    · simp at h; obtain ⟨rfl, _⟩ := h; decide
    · exact hdig h
  have hfrac : ∀ {s d r : Str}, lexFrac s = some (d, r) → '\n' ∉ d := by
    intro s d r h
    unfold lexFrac at h
    split at h
    next x =>
      cases hd : lexDigits x with
      | none => simp [hd] at h
      | some p =>
        simp [hd] at h; obtain ⟨rfl, _⟩ := h
        simp only [List.mem_cons, not_or]
        exact ⟨by decide, hdig (s := x) (r := p.2) (by rw [hd])⟩
    · simp at h; obtain ⟨rfl, _⟩ := h; simp
  have hexp : ∀ {s d r : Str}, lexExp s = some (d, r) → '\n' ∉ d := by
    intro s d r h
    cases s with
    | nil => simp [lexExp] at h; simp [h.1]
    | cons c s =>
      simp only [lexExp] at h
      by_cases hc : c = 'e' ∨ c = 'E'
      · have hcn : '\n' ≠ c := by rintro rfl; exact absurd hc (by decide)
        rw [if_pos hc] at h
        split at h
        next x =>
          cases hd : lexDigits x with
          | none => simp [hd] at h
          | some p =>
            simp [hd] at h; obtain ⟨rfl, _⟩ := h
            simp only [List.mem_cons, not_or]
            exact ⟨hcn, by decide, hdig (s := x) (r := p.2) (by rw [hd])⟩
        next x =>
          cases hd : lexDigits x with
          | none => simp [hd] at h
          | some p =>
            simp [hd] at h; obtain ⟨rfl, _⟩ := h
            simp only [List.mem_cons, not_or]
            exact ⟨hcn, by decide, hdig (s := x) (r := p.2) (by rw [hd])⟩
        next x =>
          cases hd : lexDigits s with
          | none => simp [hd] at h
          | some p =>
            simp [hd] at h; obtain ⟨rfl, _⟩ := h
            simp only [List.mem_cons, not_or]
            exact ⟨hcn, hdig (s := s) (r := p.2) (by rw [hd])⟩
      · rw [if_neg hc] at h
        simp at h; obtain ⟨rfl, _⟩ := h; simp
  have hu : ∀ {s d r : Str}, lexUNum s = some (d, r) → '\n' ∉ d := by
    intro s d r h
    unfold lexUNum at h
    cases h1 : lexInt s with
    | none => simp [h1] at h
    | some p =>
      simp only [h1, Option.bind_some] at h
      cases h2 : lexFrac p.2 with
      | none => simp [h2] at h
      | some q =>
        simp only [h2, Option.bind_some] at h
        cases h3 : lexExp q.2 with
        | none => simp [h3] at h
        | some t =>
          simp only [h3, Option.map_some, Option.some.injEq, Prod.mk.injEq] at h
          obtain ⟨rfl, _⟩ := h
          simp only [List.mem_append, not_or]
          exact ⟨hint (r := p.2) (by rw [h1]), hfrac (r := q.2) (by rw [h2]),
            hexp (r := t.2) (by rw [h3])⟩
  unfold lexNum at h
  split at h
  next x =>
    cases hd : lexUNum x with
    | none => simp [hd] at h
    | some p =>
      simp [hd] at h; obtain ⟨rfl, _⟩ := h
      simp only [List.mem_cons, not_or]
      exact ⟨by decide, hu (s := x) (r := p.2) (by rw [hd])⟩
  next x => exact hu h

theorem escChar_no_nl (c : Char) : '\n' ∉ escChar c := by
  unfold escChar
  split
  · decide
  split
  · decide
  split
  · decide
  split
  · decide
  split
  · decide
  split
  · decide
  split
  · decide
  split
  next h =>
    have key : ∀ n < 32, '\n' ∉ s% "\\u00" ++ [digitChar (n / 16), digitChar (n % 16)] := by decide
    exact key _ h
  next h1 h2 h3 h4 h5 h6 h7 h8 =>
    simp only [List.mem_singleton]
    rintro rfl; exact h5 rfl

theorem escStr_no_nl (s : Str) : '\n' ∉ escStr s := by
  induction s with
  | nil => simp [escStr]
  | cons c s ih =>
    simp only [escStr, List.mem_append, not_or]; exact ⟨escChar_no_nl c, ih⟩

theorem quote_no_nl (s : Str) : '\n' ∉ quote s := by
  have := escStr_no_nl s
  simp [quote, this]

mutual
theorem print_no_nl (j : Json) (hv : j.Valid) : '\n' ∉ j.print := by
  match j, hv with
  | null, _ => simp [print]
  | bool true, _ => simp [print]
  | bool false, _ => simp [print]
  | num tok, hv =>
    have : isNumTok tok = true := by simpa [Valid] using hv
    simp only [isNumTok, decide_eq_true_eq] at this
    simpa [print] using numTok_chars this
  | str s, _ => simpa [print] using quote_no_nl s
  | arr vs, hv =>
    have := printArr_no_nl vs (by simpa [Valid] using hv)
    simp [print, this]
  | obj ms, hv =>
    have := printObj_no_nl ms (by simpa [Valid] using hv)
    simp [print, this]
termination_by sizeOf j
theorem printArr_no_nl (vs : List Json) (hv : ValidArr vs) : '\n' ∉ printArr vs := by
  match vs, hv with
  | [], _ => simp [printArr]
  | [v], hv => simpa [printArr] using print_no_nl v (by simp [ValidArr] at hv; exact hv)
  | v :: w :: vs, hv =>
    have hv' : Valid v ∧ ValidArr (w :: vs) := by rw [ValidArr] at hv; exact hv
    have h1 := print_no_nl v hv'.1
    have h2 := printArr_no_nl (w :: vs) hv'.2
    rw [printArr_cons_cons]; simp [h1, h2]
termination_by sizeOf vs
theorem printObj_no_nl (ms : List (Str × Json)) (hv : ValidObj ms) : '\n' ∉ printObj ms := by
  match ms, hv with
  | [], _ => simp [printObj]
  | [(k, v)], hv =>
    have := print_no_nl v (by simp [ValidObj] at hv; exact hv)
    simp [printObj, this, quote_no_nl]
  | (k, v) :: m :: ms, hv =>
    have hv' : Valid v ∧ ValidObj (m :: ms) := by rw [ValidObj] at hv; exact hv
    have h1 := print_no_nl v hv'.1
    have h2 := printObj_no_nl (m :: ms) hv'.2
    rw [printObj_cons_cons]; simp [h1, h2, quote_no_nl]
termination_by sizeOf ms
end

end Swrs.Json
