import Verif.Model.Examples
import Verif.Props.Messages
/-!
# Texts that can be taken apart again
-/
namespace Swrs
open Examples

/-- A text of `f` can be told from what comes after it. -/
def Code {α : Type} (f : α → Str) : Prop := ∀ a b x y, f a ++ x = f b ++ y → a = b ∧ x = y

/-- The text does not begin with a digit. -/
def NoDigit (x : Str) : Prop := ∀ c, x.head? = some c → isDigit c = false

/-- A text of `f` can be told from what comes after it if that does not begin with a digit. -/
def CodeAt {α : Type} (f : α → Str) : Prop := ∀ a b x y, NoDigit x → NoDigit y → f a ++ x = f b ++ y → a = b ∧ x = y

theorem Code.at {α : Type} {f : α → Str} (h : Code f) : CodeAt f := fun a b x y _ _ e => h a b x y e

theorem noDigit_cons {c : Char} {x : Str} (h : isDigit c = false) : NoDigit (c :: x) := by
  intro d hd; cases hd; exact h

theorem codeAt_nat : CodeAt (natStr 10) := fun _ _ _ _ hx hy e => (num_start hx hy).mp e

theorem codeAt_comp {α β : Type} {f : β → Str} (h : CodeAt f) {g : α → β} (hg : ∀ a b, g a = g b → a = b) :
    CodeAt fun a => f (g a) := fun a b _ _ hx hy e => ⟨hg a b (h _ _ _ _ hx hy e).1, (h _ _ _ _ hx hy e).2⟩

theorem codeAt_u8 : CodeAt fun n : UInt8 => natStr 10 n.toNat := codeAt_comp codeAt_nat fun _ _ h => UInt8.toNat_inj.mp h
theorem codeAt_u16 : CodeAt fun n : UInt16 => natStr 10 n.toNat := codeAt_comp codeAt_nat fun _ _ h => UInt16.toNat_inj.mp h
theorem codeAt_u64 : CodeAt fun n : UInt64 => natStr 10 n.toNat := codeAt_comp codeAt_nat fun _ _ h => UInt64.toNat_inj.mp h

theorem code_bool : Code debugBool := by
  rintro (_ | _) (_ | _) x y h <;> simp [debugBool] at h ⊢ <;> exact h

theorem code_color : Code Color.display := by
  intro a b x y h
  obtain ⟨d, h1, h2, _, h3⟩ := Color.c09_print_parse a
  obtain ⟨e, g1, g2, _, g3⟩ := Color.c09_print_parse b
  rw [h1, g1] at h
  simp only [List.cons_append, List.cons.injEq, true_and] at h
  obtain ⟨rfl, rfl⟩ := List.append_inj h (h2.trans g2.symm)
  rw [h3] at g3
  exact ⟨Option.some.inj g3, rfl⟩

/-- What comes after the first place of a character. -/
theorem first_sep {c : Char} {a b x y : Str} (ha : c ∉ a) (hb : c ∉ b) (h : a ++ c :: x = b ++ c :: y) : a = b ∧ x = y := by
  induction a generalizing b with
  | nil =>
    cases b with
    | nil => simpa using h
    | cons d b => simp at h hb; exact absurd h.1 hb.1
  | cons d a ih =>
    cases b with
    | nil => simp at h ha; exact absurd h.1.symm ha.1
    | cons e b =>
      simp only [List.cons_append, List.cons.injEq, List.mem_cons, not_or] at h ha hb
      obtain ⟨rfl, h⟩ := h
      obtain ⟨rfl, rfl⟩ := ih ha.2 hb.2 h
      exact ⟨rfl, rfl⟩

/-- A number after a text that does not end with a digit. -/
theorem num_after {a b l : Str} {n m : Nat} (hl : l ≠ []) (hd : (l.getLast?.all fun c => !isDigit c) = true)
    (h : a ++ l ++ natStr 10 n = b ++ l ++ natStr 10 m) : a = b ∧ n = m := by
  have key : ∀ a : Str, ∀ c, (a ++ l).getLast? = some c → isDigit c = false := by
    intro a c hc
    cases e : l.getLast? with
    | none => exact absurd (List.getLast?_eq_none_iff.mp e) hl
    | some d =>
      rw [List.getLast?_append, e] at hc
      rw [e] at hd
      cases hc
      simpa using hd
  obtain ⟨h1, h2⟩ := (num_end (key a) (key b)).mp h
  exact ⟨List.append_cancel_right h1, h2⟩

/-- A list of texts up to something that cannot begin one of them. -/
theorem code_list {α β : Type} {f : α → Str} {g : α → β} {P : α → Prop} {stop : Str → Prop}
    (hf : ∀ a b x y, P a → P b → f a ++ x = f b ++ y → g a = g b ∧ x = y) (hs : ∀ a x, ¬ stop (f a ++ x)) :
    ∀ (as bs : List α) (x y : Str), (∀ a ∈ as, P a) → (∀ a ∈ bs, P a) → stop x → stop y →
      as.flatMap f ++ x = bs.flatMap f ++ y → as.map g = bs.map g ∧ x = y
  | [], [], x, y, _, _, _, _, h => ⟨rfl, by simpa using h⟩
  | [], b :: bs, x, y, _, _, hx, _, h => by
    simp only [List.flatMap_nil, List.nil_append, List.flatMap_cons, List.append_assoc] at h
    exact absurd (h ▸ hx) (hs b _)
  | a :: as, [], x, y, _, _, _, hy, h => by
    simp only [List.flatMap_nil, List.nil_append, List.flatMap_cons, List.append_assoc] at h
    exact absurd (h ▸ hy) (hs a _)
  | a :: as, b :: bs, x, y, ha, hb, hx, hy, h => by
    simp only [List.flatMap_cons, List.append_assoc] at h
    obtain ⟨h1, h2⟩ := hf a b _ _ (ha a (by simp)) (hb b (by simp)) h
    obtain ⟨h3, h4⟩ := code_list hf hs as bs x y (fun c hc => ha c (by simp [hc])) (fun c hc => hb c (by simp [hc])) hx hy h2
    exact ⟨by simp [h1, h3], h4⟩

theorem fields_step {α : Type} {f : α → Str} (hf : CodeAt f) {n : Str} {a b : α} {p q : Str × Str} {ps qs : List (Str × Str)} {x y : Str}
    (h : debugFields ((n, f a) :: p :: ps) ++ x = debugFields ((n, f b) :: q :: qs) ++ y) :
    a = b ∧ debugFields (p :: ps) ++ x = debugFields (q :: qs) ++ y := by
  simp only [debugFields, List.append_assoc] at h
  have h := List.append_cancel_left (List.append_cancel_left h)
  obtain ⟨e, h'⟩ := hf a b _ _ (noDigit_cons (by decide)) (noDigit_cons (by decide)) h
  exact ⟨e, by simpa using h'⟩

theorem fields_last {α : Type} {f : α → Str} (hf : CodeAt f) {n : Str} {a b : α} {x y : Str}
    (h : debugFields [(n, f a)] ++ (s% " }" ++ x) = debugFields [(n, f b)] ++ (s% " }" ++ y)) : a = b ∧ x = y := by
  simp only [debugFields, List.append_assoc] at h
  have h := List.append_cancel_left (List.append_cancel_left h)
  obtain ⟨e, h'⟩ := hf a b _ _ (noDigit_cons (by decide)) (noDigit_cons (by decide)) h
  exact ⟨e, by simpa using h'⟩

theorem struct_fields {name : Str} {fs gs : List (Str × Str)} {x y : Str} (h : debugStruct name fs ++ x = debugStruct name gs ++ y) :
    debugFields fs ++ (s% " }" ++ x) = debugFields gs ++ (s% " }" ++ y) := by
  simp only [debugStruct, List.append_assoc] at h
  exact List.append_cancel_left (List.append_cancel_left h)

theorem code_vec {α : Type} {f : α → Str} (hf : Code f) (h0 : ∀ a x, f a ≠ ']' :: x) (h1 : ∀ a, f a ≠ []) :
    Code fun as : List α => debugVec (as.map f) := by
  have head : ∀ a x, ¬ ∃ y, f a ++ x = ']' :: y := by
    rintro a x ⟨y, h⟩
    cases e : f a with
    | nil => exact h1 a e
    | cons c t =>
      rw [e] at h; simp at h
      exact h0 a t (by rw [e, h.1])
  have rest : ∀ (as bs : List α) x y, debugRest (as.map f) ++ x = debugRest (bs.map f) ++ y → as = bs ∧ x = y := by
    intro as bs x y h
    simp only [debugRest, List.flatMap_map, List.append_assoc] at h
    have := code_list (f := fun a => s% ", " ++ f a) (g := id) (P := fun _ => True) (stop := fun s => ∃ t, s = ']' :: t)
      (by
        intro a b x y _ _ h
        simp only [List.append_assoc] at h
        exact hf _ _ _ _ (List.append_cancel_left h))
      (by rintro a x ⟨t, h⟩; cases h) as bs _ _ (fun _ _ => trivial) (fun _ _ => trivial) ⟨_, rfl⟩ ⟨_, rfl⟩ h
    simp only [List.map_id] at this
    exact ⟨this.1, by simpa using this.2⟩
  intro as bs x y h
  cases as with
  | nil =>
    cases bs with
    | nil => exact ⟨rfl, List.append_cancel_left h⟩
    | cons b bs =>
      simp only [List.map_nil, List.map_cons, debugVec, List.cons_append, List.nil_append, List.cons.injEq, true_and,
        List.append_assoc] at h
      exact absurd ⟨_, h.symm⟩ (head b _)
  | cons a as =>
    cases bs with
    | nil =>
      simp only [List.map_nil, List.map_cons, debugVec, List.cons_append, List.nil_append, List.cons.injEq, true_and,
        List.append_assoc] at h
      exact absurd ⟨_, h⟩ (head a _)
    | cons b bs =>
      simp only [List.map_cons, debugVec, List.append_assoc] at h
      obtain ⟨rfl, h'⟩ := hf _ _ _ _ (List.append_cancel_left h)
      obtain ⟨rfl, rfl⟩ := rest _ _ _ _ h'
      exact ⟨rfl, rfl⟩

end Swrs
