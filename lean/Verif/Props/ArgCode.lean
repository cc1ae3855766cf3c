import Verif.Props.DeepCode
/-!
# C140: an argument of a block at any depth of the code is edited
-/
set_option linter.unusedSectionVars false
namespace Swrs.Api
variable [MapPol] [Floats]

/-! ### Specification: the arguments in the text of a block -/

/-- Specification: the number of arguments in the text of a block. -/
def c140_count : List (SpecItem Block) → Nat
  | [] => 0
  | .text _ :: is => c140_count is
  | .param _ :: is => c140_count is + 1

/-- Specification: an argument with the value that a text stands for. A text with `@` in front is a value only for menus. -/
def c140_literal : SpecItem Block → Str → Option (SpecItem Block)
  | .text _, _ => none
  | .param (.string n _), s => if s.head? = some '@' then none else some (.param (.string n (.value s)))
  | .param (.number n _), s => if s.head? = some '@' then none else (Floats.read64 s).map fun x => .param (.number n (.value x))
  | .param (.boolean n _), s => if s.head? = some '@' then none else (parseBool s).map fun x => .param (.boolean n (.value x))
  | .param (.menu n _), s => some (.param (.menu n (.value s)))

/-- Specification: an argument with a block in it. There are no blocks in menus, and the blocks called `true` and `false` are values. -/
def c140_block : SpecItem Block → Block → Option (SpecItem Block)
  | .param (.string n _), y => some (.param (.string n (.block y)))
  | .param (.number n _), y => some (.param (.number n (.block y)))
  | .param (.boolean n _), y => some (.param (.boolean n (if y.opCode = s% "true" then .value true else if y.opCode = s% "false" then .value false else .block y)))
  | _, _ => none

/-- Specification: a text that refers to the block of a number. -/
def c140_Ref (s : Str) (n : UInt32) : Prop := ∃ r, s = '@' :: r ∧ parseU32 r = some n

/-- Specification: a block with another text and other arguments. -/
def c140_with (t : BlockContent Block) : Block → Block | ⟨s1, s2, c, o, _, k⟩ => ⟨s1, s2, c, o, t, k⟩

/-! ### Items -/

/-- Items of the same kind and name. -/
def c140_Same (i j : SpecItem Block) : Prop := (∀ s, c140_literal i s = c140_literal j s) ∧ (∀ y, c140_block i y = c140_block j y) ∧ ∀ is, c140_count (i :: is) = c140_count (j :: is)

/-- The first of the items with references. -/
theorem c140_first {g : UInt32 → Option ParserBlock} {j : SpecItem Block} {c0 c : List (SpecItem Block)} {u : List UInt32} (h : Tree g (.items (j :: c0) c) u) :
    ∃ j' cs uj u', c = j' :: cs ∧ u = uj ++ u' ∧ Tree g (.items c0 cs) u' ∧ c140_Same j j' ∧
      ∀ (g' : UInt32 → Option ParserBlock) is is' v, (∀ k ∈ uj, g' k = g k) → Tree g' (.items is is') v → Tree g' (.items (j :: is) (j' :: is')) (uj ++ v) := by
  cases h with
  | keep h t => exact ⟨j, _, [], _, rfl, rfl, t, ⟨fun _ => rfl, fun _ => rfl, fun _ => rfl⟩, fun g' is is' v _ ht => .keep h ht⟩
  | string hb t => exact ⟨_, _, _, _, rfl, rfl, t, ⟨fun _ => rfl, fun _ => rfl, fun _ => rfl⟩, fun g' is is' v e ht => .string (hb.congr e) ht⟩
  | number hb t => exact ⟨_, _, _, _, rfl, rfl, t, ⟨fun _ => rfl, fun _ => rfl, fun _ => rfl⟩, fun g' is is' v e ht => .number (hb.congr e) ht⟩
  | boolean hb t => exact ⟨_, _, _, _, rfl, rfl, t, ⟨fun _ => rfl, fun _ => rfl, fun _ => rfl⟩, fun g' is is' v e ht => .boolean (hb.congr e) ht⟩
  | menu hb t => exact ⟨_, _, _, _, rfl, rfl, t, ⟨fun _ => rfl, fun _ => rfl, fun _ => rfl⟩, fun g' is is' v e ht => .menu (hb.congr e) ht⟩

/-- What is known of the text `p` behind the texts `l`, and of other texts in its place. -/
def c140_At (g : UInt32 → Option ParserBlock) (ws l r : List Str) (c0 c : List (SpecItem Block)) (u : List UInt32) : Prop :=
  (c140_count c ≤ l.length ∧ ∀ p', Reads ws (l ++ p' :: r) c0) ∨
  ∃ cl i cr u1 u2 u3, c = cl ++ i :: cr ∧ c140_count cl = l.length ∧ c140_count [i] = 1 ∧ u = u1 ++ (u2 ++ u3) ∧
    (∀ p' i', c140_literal i p' = some i' → ∃ c0', Reads ws (l ++ p' :: r) c0' ∧
      ∀ g' : UInt32 → Option ParserBlock, (∀ k ∈ u1 ++ u3, g' k = g k) → Tree g' (.items c0' (cl ++ i' :: cr)) (u1 ++ u3)) ∧
    (∀ p' n y i' v, c140_Ref p' n → c140_block i y = some i' → ∃ c0', Reads ws (l ++ p' :: r) c0' ∧
      ∀ g' : UInt32 → Option ParserBlock, (∀ k ∈ u1 ++ u3, g' k = g k) → Tree g' (.block n y) v → Tree g' (.items c0' (cl ++ i' :: cr)) (u1 ++ (v ++ u3))) ∧
    ∀ p' c1, Reads ws (l ++ p' :: r) c1 → (∃ i', c140_literal i p' = some i') ∨
      ∃ n, c140_Ref p' n ∧ ∀ g' c2 w, Tree g' (.items c1 c2) w → ∃ y v, Tree g' (.block n y) v

/-- The text in front. -/
theorem c140_here {g : UInt32 → Option ParserBlock} {w : Str} {ws r : List Str} {j : SpecItem Block} {c0 c : List (SpecItem Block)} {u : List UInt32}
    (h : Tree g (.items (j :: c0) c) u) (hc : c140_count [j] = 1)
    (h1 : ∀ p' i', c140_literal j p' = some i' → NoRef i' ∧ Reads (w :: ws) (p' :: r) (i' :: c0))
    (h2 : ∀ p' n y i', c140_Ref p' n → c140_block j y = some i' → ∃ j', Reads (w :: ws) (p' :: r) (j' :: c0) ∧
      ∀ (g' : UInt32 → Option ParserBlock) is is' u v, Tree g' (.block n y) u → Tree g' (.items is is') v → Tree g' (.items (j' :: is) (i' :: is')) (u ++ v))
    (h3 : ∀ p' c1, Reads (w :: ws) (p' :: r) c1 → (∃ i', c140_literal j p' = some i') ∨
      ∃ n, c140_Ref p' n ∧ ∀ (g' : UInt32 → Option ParserBlock) c2 w, Tree g' (.items c1 c2) w → ∃ y v, Tree g' (.block n y) v) :
    c140_At g (w :: ws) [] r (j :: c0) c u := by
  obtain ⟨j', cs, uj, u', rfl, rfl, ht, ⟨s1, s2, s3⟩, hh⟩ := c140_first h
  refine .inr ⟨[], j', cs, [], uj, u', rfl, rfl, (s3 []).symm.trans hc, rfl, ?_, ?_, ?_⟩
  · intro p' i' hi
    obtain ⟨a, b⟩ := h1 p' i' ((s1 p').trans hi)
    exact ⟨_, b, fun g' e => .keep a (ht.congr e)⟩
  · intro p' n y i' v hp hi
    obtain ⟨jj, a, b⟩ := h2 p' n y i' hp ((s2 y).trans hi)
    exact ⟨_, a, fun g' e hy => b g' _ _ v u' hy (ht.congr e)⟩
  · intro p' c1 hc1
    rcases h3 p' c1 hc1 with ⟨i', hi⟩ | h
    · exact .inl ⟨i', (s1 p').symm.trans hi⟩
    · exact .inr h

/-- A text further behind. -/
theorem c140_there {g : UInt32 → Option ParserBlock} {w : Str} {ws l r q : List Str} {j : SpecItem Block} {c0 c : List (SpecItem Block)} {u : List UInt32}
    (h : Tree g (.items (j :: c0) c) u) (hc : c140_count [j] = q.length) (hr : ∀ as c1, Reads ws as c1 → Reads (w :: ws) (q ++ as) (j :: c1))
    (hi : ∀ as c1, Reads (w :: ws) (q ++ as) c1 → ∃ c2, c1 = j :: c2 ∧ Reads ws as c2) (ih : ∀ c u, Tree g (.items c0 c) u → c140_At g ws l r c0 c u) :
    c140_At g (w :: ws) (q ++ l) r (j :: c0) c u := by
  obtain ⟨j', cs, uj, u', rfl, rfl, ht, ⟨s1, s2, s3⟩, hh⟩ := c140_first h
  have hcons : ∀ is, c140_count (j' :: is) = q.length + c140_count is := by
    intro is
    rw [← s3, ← hc]
    cases j <;> simp only [c140_count] <;> omega
  have hass : ∀ p' : Str, q ++ l ++ p' :: r = q ++ (l ++ p' :: r) := fun p' => List.append_assoc ..
  rcases ih _ _ ht with ⟨a, b⟩ | ⟨cl, i, cr, u1, u2, u3, rfl, a, a', rfl, k1, k2, k3⟩
  · refine .inl ⟨by rw [hcons, List.length_append]; omega, fun p' => ?_⟩
    rw [hass]
    exact hr _ _ (b p')
  · refine .inr ⟨j' :: cl, i, cr, uj ++ u1, u2, u3, rfl, by rw [hcons, List.length_append]; omega, a', by simp, ?_, ?_, ?_⟩
    · intro p' i' hp
      obtain ⟨c0', m1, m2⟩ := k1 p' i' hp
      refine ⟨_, hass p' ▸ hr _ _ m1, fun g' e => ?_⟩
      rw [List.append_assoc]
      exact hh g' _ _ _ (fun k hk => e k (by simp [hk])) (m2 g' fun k hk => e k (by simp only [List.mem_append] at hk ⊢; exact hk.elim (fun h => .inl (.inr h)) .inr))
    · intro p' n y i' v hp hb
      obtain ⟨c0', m1, m2⟩ := k2 p' n y i' v hp hb
      refine ⟨_, hass p' ▸ hr _ _ m1, fun g' e hy => ?_⟩
      rw [List.append_assoc]
      exact hh g' _ _ _ (fun k hk => e k (by simp [hk])) (m2 g' (fun k hk => e k (by simp only [List.mem_append] at hk ⊢; exact hk.elim (fun h => .inl (.inr h)) .inr)) hy)
    · intro p' c1 hc1
      rw [hass] at hc1
      obtain ⟨c2, rfl, hc2⟩ := hi _ _ hc1
      rcases k3 p' c2 hc2 with h | ⟨n, m1, m2⟩
      · exact .inl h
      · refine .inr ⟨n, m1, fun g' c3 w hw => ?_⟩
        obtain ⟨_, _, _, _, -, -, ht', -⟩ := c140_first hw
        exact m2 g' _ _ ht'

theorem c140_isArg {α : Type} {f : Str → Option α} {a : Str} {v v' : ArgValue Block α} (h : IsArg f a v) (h' : IsArg f a v') : v = v' := by
  cases h with
  | ref r id h =>
    cases h' with
    | ref r' id' h' => rw [h] at h'; cases h'; rfl
    | val _ x h' hx => exact absurd rfl h'
  | val _ x h hx =>
    cases h' with
    | ref r' id' h' => exact absurd rfl h
    | val _ x' h' hx' => rw [hx] at hx'; cases hx'; rfl

/-- The text at a place. -/
theorem c140_items {g : UInt32 → Option ParserBlock} {p : Str} {r : List Str} {ws as : List Str} {c0 : List (SpecItem Block)} (hr : Reads ws as c0) :
    ∀ {l : List Str} {c : List (SpecItem Block)} {u : List UInt32}, as = l ++ p :: r → Tree g (.items c0 c) u → c140_At g ws l r c0 c u := by
  induction hr with
  | nil as =>
    intro l c u _ ht
    cases ht
    exact .inl ⟨Nat.zero_le _, fun p' => .nil _⟩
  | text w h t ih =>
    intro l c u e ht
    refine c140_there (q := []) ht rfl (fun as c1 h1 => .text w h h1) (fun as c1 h1 => ?_) fun c u h => ih e h
    cases h1 with
    | text _ _ t => exact ⟨_, rfl, t⟩
    | string => exact absurd rfl h
    | number => exact absurd rfl h
    | boolean => exact absurd rfl h
    | menu => exact absurd rfl h
  | string t a h rr ih =>
    intro l c u e ht
    cases l with
    | nil =>
      cases e
      refine c140_here ht rfl ?_ ?_ ?_
      · intro p' i' hi
        simp only [c140_literal] at hi
        split at hi
        · cases hi
        · next hp => cases hi; exact ⟨trivial, .string t p' (.val _ _ hp rfl) rr⟩
      · rintro p' n y i' ⟨rest, rfl, hn⟩ hi
        cases hi
        exact ⟨_, .string t _ (.ref rest n hn) rr, fun g' is is' u v hy hv => .string hy hv⟩
      · intro p' c1 hc1
        cases hc1 with
        | text _ hw => exact absurd rfl hw
        | string _ _ ha =>
          cases ha with
          | ref rest id hid => exact .inr ⟨id, ⟨rest, rfl, hid⟩, fun g' c2 w hw => by cases hw with | keep h => exact h.elim | string hb _ => exact ⟨_, _, hb⟩⟩
          | val _ x hx hf => exact .inl ⟨_, by simp only [c140_literal]; rw [if_neg hx]⟩
    | cons q l =>
      cases e
      refine c140_there (q := [a]) ht rfl (fun as c1 h1 => .string t a h h1) (fun as c1 h1 => ?_) fun c u h => ih rfl h
      cases h1 with
      | text _ hw => exact absurd rfl hw
      | string _ _ h' t' => exact ⟨_, by rw [c140_isArg h h'], t'⟩
  | number t a h rr ih =>
    intro l c u e ht
    cases l with
    | nil =>
      cases e
      refine c140_here ht rfl ?_ ?_ ?_
      · intro p' i' hi
        simp only [c140_literal] at hi
        split at hi
        · cases hi
        · next hp =>
          cases hf : Floats.read64 p' with
          | none => rw [hf] at hi; cases hi
          | some x => rw [hf] at hi; cases hi; exact ⟨trivial, .number t p' (.val _ _ hp hf) rr⟩
      · rintro p' n y i' ⟨rest, rfl, hn⟩ hi
        cases hi
        exact ⟨_, .number t _ (.ref rest n hn) rr, fun g' is is' u v hy hv => .number hy hv⟩
      · intro p' c1 hc1
        cases hc1 with
        | text _ hw => exact absurd rfl hw
        | number _ _ ha =>
          cases ha with
          | ref rest id hid => exact .inr ⟨id, ⟨rest, rfl, hid⟩, fun g' c2 w hw => by cases hw with | keep h => exact h.elim | number hb _ => exact ⟨_, _, hb⟩⟩
          | val _ x hx hf => exact .inl ⟨_, by simp only [c140_literal]; rw [if_neg hx, hf]; rfl⟩
    | cons q l =>
      cases e
      refine c140_there (q := [a]) ht rfl (fun as c1 h1 => .number t a h h1) (fun as c1 h1 => ?_) fun c u h => ih rfl h
      cases h1 with
      | text _ hw => exact absurd rfl hw
      | number _ _ h' t' => exact ⟨_, by rw [c140_isArg h h'], t'⟩
  | boolean t a h rr ih =>
    intro l c u e ht
    cases l with
    | nil =>
      cases e
      refine c140_here ht rfl ?_ ?_ ?_
      · intro p' i' hi
        simp only [c140_literal] at hi
        split at hi
        · cases hi
        · next hp =>
          cases hf : parseBool p' with
          | none => rw [hf] at hi; cases hi
          | some x => rw [hf] at hi; cases hi; exact ⟨trivial, .boolean t p' (.val _ _ hp hf) rr⟩
      · rintro p' n y i' ⟨rest, rfl, hn⟩ hi
        cases hi
        exact ⟨_, .boolean t _ (.ref rest n hn) rr, fun g' is is' u v hy hv => .boolean hy hv⟩
      · intro p' c1 hc1
        cases hc1 with
        | text _ hw => exact absurd rfl hw
        | boolean _ _ ha =>
          cases ha with
          | ref rest id hid => exact .inr ⟨id, ⟨rest, rfl, hid⟩, fun g' c2 w hw => by cases hw with | keep h => exact h.elim | boolean hb _ => exact ⟨_, _, hb⟩⟩
          | val _ x hx hf => exact .inl ⟨_, by simp only [c140_literal]; rw [if_neg hx, hf]; rfl⟩
    | cons q l =>
      cases e
      refine c140_there (q := [a]) ht rfl (fun as c1 h1 => .boolean t a h h1) (fun as c1 h1 => ?_) fun c u h => ih rfl h
      cases h1 with
      | text _ hw => exact absurd rfl hw
      | boolean _ _ h' t' => exact ⟨_, by rw [c140_isArg h h'], t'⟩
  | menu t n a h rr ih =>
    intro l c u e ht
    cases l with
    | nil =>
      cases e
      refine c140_here ht rfl ?_ ?_ ?_
      · intro p' i' hi
        cases hi
        exact ⟨trivial, .menu t n p' h rr⟩
      · intro p' n y i' _ hi
        cases hi
      · intro p' c1 _
        exact .inl ⟨_, rfl⟩
    | cons q l =>
      cases e
      refine c140_there (q := [a]) ht rfl (fun as c1 h1 => .menu t n a h h1) (fun as c1 h1 => ?_) fun c u h => ih rfl h
      cases h1 with
      | text _ hw => exact absurd rfl hw
      | menu _ n' _ h' t' => rw [h] at h'; cases h'; exact ⟨_, rfl, t'⟩

/-! ### What is read is determined -/

/-- The same thing is to be read. -/
def c140_In : Goal → Goal → Prop
  | .block i _, .block j _ => i = j
  | .stack p _, .stack q _ => p = q
  | .blocks i _, .blocks j _ => i = j
  | .items is _, .items js _ => is = js
  | _, _ => False

theorem c140_reads {ws as : List Str} {c c' : BlockContent Block} (h : Reads ws as c) (h' : Reads ws as c') : c = c' :=
  Out.ok.inj ((BlockContent.wordsArgs_ok.mpr h).symm.trans (BlockContent.wordsArgs_ok.mpr h'))

theorem c140_det {g : UInt32 → Option ParserBlock} {G : Goal} {u : List UInt32} (h : Tree g G u) : ∀ {G' : Goal} {u' : List UInt32}, Tree g G' u' → c140_In G G' → G = G' ∧ u = u' := by
  induction h with
  | block h0 h1 h2 hr hi hty ih1 ih2 ih3 =>
    intro G' u' h' hin
    cases h' with
    | block h0' h1' h2' hr' hi' hty' =>
      cases hin
      rw [h0] at h0'
      cases h0'
      cases c140_reads hr hr'
      obtain ⟨e1, rfl⟩ := ih1 h1' rfl
      obtain ⟨e2, rfl⟩ := ih2 h2' rfl
      obtain ⟨e3, rfl⟩ := ih3 hi' rfl
      cases e1
      cases e2
      cases e3
      rw [hty] at hty'
      cases hty'
      exact ⟨rfl, rfl⟩
    | _ => exact hin.elim
  | noStack hp =>
    intro G' u' h' hin
    cases h' with
    | noStack => cases hin; exact ⟨rfl, rfl⟩
    | stack hp' => cases hin; exact absurd hp hp'
    | _ => exact hin.elim
  | stack hp hb ih =>
    intro G' u' h' hin
    cases h' with
    | noStack hp' => cases hin; exact absurd hp' hp
    | stack hp' hb' => cases hin; obtain ⟨e, rfl⟩ := ih hb' rfl; cases e; exact ⟨rfl, rfl⟩
    | _ => exact hin.elim
  | last h0 hn hb ih =>
    intro G' u' h' hin
    cases h' with
    | last h0' hn' hb' => cases hin; obtain ⟨e, rfl⟩ := ih hb' rfl; cases e; exact ⟨rfl, rfl⟩
    | next h0' hn' hb' hbs' => cases hin; rw [h0] at h0'; cases h0'; exact absurd hn hn'
    | _ => exact hin.elim
  | next h0 hn hb hbs ih1 ih2 =>
    intro G' u' h' hin
    cases h' with
    | last h0' hn' hb' => cases hin; rw [h0] at h0'; cases h0'; exact absurd hn' hn
    | next h0' hn' hb' hbs' =>
      cases hin
      rw [h0] at h0'
      cases h0'
      obtain ⟨e, rfl⟩ := ih1 hb' rfl
      obtain ⟨e', rfl⟩ := ih2 hbs' rfl
      cases e
      cases e'
      exact ⟨rfl, rfl⟩
    | _ => exact hin.elim
  | nil =>
    intro G' u' h' hin
    cases h' with
    | nil => exact ⟨rfl, rfl⟩
    | keep => cases hin
    | string => cases hin
    | number => cases hin
    | boolean => cases hin
    | menu => cases hin
    | _ => exact hin.elim
  | keep hk t ih =>
    intro G' u' h' hin
    cases h' with
    | nil => cases hin
    | keep hk' t' => cases hin; obtain ⟨e, rfl⟩ := ih t' rfl; cases e; exact ⟨rfl, rfl⟩
    | string => cases hin; exact hk.elim
    | number => cases hin; exact hk.elim
    | boolean => cases hin; exact hk.elim
    | menu => cases hin; exact hk.elim
    | _ => exact hin.elim
  | string hb t ih1 ih2 =>
    intro G' u' h' hin
    cases h' with
    | nil => cases hin
    | keep hk => cases hin; exact hk.elim
    | string hb' t' => cases hin; obtain ⟨e, rfl⟩ := ih1 hb' rfl; obtain ⟨e', rfl⟩ := ih2 t' rfl; cases e; cases e'; exact ⟨rfl, rfl⟩
    | number => cases hin
    | boolean => cases hin
    | menu => cases hin
    | _ => exact hin.elim
  | number hb t ih1 ih2 =>
    intro G' u' h' hin
    cases h' with
    | nil => cases hin
    | keep hk => cases hin; exact hk.elim
    | number hb' t' => cases hin; obtain ⟨e, rfl⟩ := ih1 hb' rfl; obtain ⟨e', rfl⟩ := ih2 t' rfl; cases e; cases e'; exact ⟨rfl, rfl⟩
    | string => cases hin
    | boolean => cases hin
    | menu => cases hin
    | _ => exact hin.elim
  | boolean hb t ih1 ih2 =>
    intro G' u' h' hin
    cases h' with
    | nil => cases hin
    | keep hk => cases hin; exact hk.elim
    | boolean hb' t' => cases hin; obtain ⟨e, rfl⟩ := ih1 hb' rfl; obtain ⟨e', rfl⟩ := ih2 t' rfl; cases e; cases e'; exact ⟨rfl, rfl⟩
    | string => cases hin
    | number => cases hin
    | menu => cases hin
    | _ => exact hin.elim
  | menu hb t ih1 ih2 =>
    intro G' u' h' hin
    cases h' with
    | nil => cases hin
    | keep hk => cases hin; exact hk.elim
    | menu hb' t' => cases hin; obtain ⟨e, rfl⟩ := ih1 hb' rfl; obtain ⟨e', rfl⟩ := ih2 t' rfl; cases e; cases e'; exact ⟨rfl, rfl⟩
    | string => cases hin
    | number => cases hin
    | boolean => cases hin
    | _ => exact hin.elim

/-- A block that is in the code is read also when it is replaced by another one of its number, if anything is read. -/
theorem c140_met {bs bs' : List ParserBlock} {b b' f : ParserBlock} {rest : List ParserBlock} {n i : UInt32} (hd : c129_Distinct bs) (hn : parseU32 b.id = some n)
    (hf : bs = f :: rest) (hi : parseU32 f.id = some i) {code : List Block} {u : List UInt32} (ht : Tree (c129_tab bs) (.blocks i code) u) (hnu : n ∈ u)
    (hp : c132_Put b b' bs bs') {code' : List Block} (h : tryFrom ⟨bs'⟩ = .ok code') : ∃ x v, Tree (c129_tab bs') (.block n x) v ∧ c129_tab bs' n = some b' := by
  have hd' : c129_Distinct bs' := c129_distinct_of hd (by rw [c132_numbers hp])
  obtain ⟨t1, t2⟩ := c132_tab hd hd' hp hn (fun _ h => h) ht
  obtain ⟨f', rest', hb', hff⟩ := c132_head hp hf
  obtain ⟨u', ht', hu'⟩ := (c129_accepts (hb' ▸ hd') (hff.trans hi) code').mp (hb' ▸ h)
  rw [← hb'] at ht'
  by_cases hnu' : n ∈ u'
  · obtain ⟨x, u0, p, q, -, hx, -⟩ := c134_split t2 ht' hu' hnu'
    exact ⟨x, u0, hx, t2⟩
  · have : ∀ k ∈ u', c129_tab bs k = c129_tab bs' k := by
      intro k hk
      have hkn : k ≠ n := by rintro rfl; exact hnu' hk
      have := ht'.dom k hk
      cases hz : c129_tab bs' k with
      | none => rw [hz] at this; cases this
      | some z =>
        obtain ⟨a1, a2⟩ := (c129_tab_iff hd' k z).mp hz
        refine (c129_tab_iff hd k z).mpr ⟨?_, a2⟩
        obtain ⟨e, l, w, rfl, rfl⟩ := hp
        simp only [List.mem_append, List.mem_cons] at a1 ⊢
        rcases a1 with h | rfl | h
        · exact .inl h
        · rw [e, hn] at a2
          exact absurd (Option.some.inj a2).symm hkn
        · exact .inr (.inr h)
    obtain ⟨-, e⟩ := c140_det ht (ht'.congr this) rfl
    exact absurd (e ▸ hnu) hnu'

/-- C140: an argument text `p` of a block of a container that is read, whatever the place of the block is. Either the block is not in the code, and any other block of its
number can be in its place. Or it is in the code at some place, where it is read as it is read alone. Then either there are fewer arguments than texts up to this one: the
same code is read with any other text in its place. Or it is the text of an argument: with another text that stands for a value, the same code is read with this value in this
place; with a reference to the first block of another container with other numbers, the same code is read with what is read of this block in this place; and with any other
text that is no reference to a block of the container, nothing is read. -/
theorem c140_argument {bs : List ParserBlock} {b : ParserBlock} (hd : c129_Distinct bs) (hb : b ∈ bs) {code : List Block} (h : tryFrom ⟨bs⟩ = .ok code)
    {l r : List Str} {p : Str} (hl : b.parameters = l ++ p :: r) :
    (∀ b' bs', c132_Put b b' bs bs' → tryFrom ⟨bs'⟩ = .ok code) ∨
    ∃ C x, c134_Place C ∧ code = C x ∧ (∀ q : Int32, q < 0 → tryFrom ⟨{ b with nextBlock := q } :: c134_others b bs⟩ = .ok [x]) ∧
      ((c140_count x.content ≤ l.length ∧ ∀ p' bs', c132_Put b { b with parameters := l ++ p' :: r } bs bs' → tryFrom ⟨bs'⟩ = .ok code) ∨
      ∃ cl i cr, x.content = cl ++ i :: cr ∧ c140_count cl = l.length ∧ c140_count [i] = 1 ∧
        (∀ p' i' bs', c140_literal i p' = some i' → c132_Put b { b with parameters := l ++ p' :: r } bs bs' → tryFrom ⟨bs'⟩ = .ok (C (c140_with (cl ++ i' :: cr) x))) ∧
        (∀ p' n d ds y ys i' bs', c129_Distinct (bs ++ d :: ds) → parseU32 d.id = some n → c140_Ref p' n → tryFrom ⟨d :: ds⟩ = .ok (y :: ys) → c140_block i y = some i' →
          c132_Put b { b with parameters := l ++ p' :: r } bs bs' → tryFrom ⟨bs' ++ d :: ds⟩ = .ok (C (c140_with (cl ++ i' :: cr) x))) ∧
        ∀ p' bs' code', c140_literal i p' = none → (∀ n, c140_Ref p' n → ∀ a ∈ bs, parseU32 a.id ≠ some n) →
          c132_Put b { b with parameters := l ++ p' :: r } bs bs' → tryFrom ⟨bs'⟩ ≠ .ok code') := by
  cases hbs : bs with
  | nil => subst hbs; cases hb
  | cons f rest =>
  have hm : f ∈ bs := by rw [hbs]; simp
  have hn := hd.1 b hb
  cases hnn : parseU32 b.id with
  | none => exact absurd hnn hn
  | some n =>
  cases hii : parseU32 f.id with
  | none => exact absurd hii (hd.1 f hm)
  | some i =>
  obtain ⟨u, ht, hu⟩ := (c129_accepts (hbs ▸ hd) hii code).mp (hbs ▸ h)
  rw [← hbs] at ht
  by_cases hnu : n ∈ u
  · right
    rw [← hbs]
    obtain ⟨C, x, u0, hC, hcode, hu0, hx, e0, hsub, key⟩ := c134_core hd hb hnn hbs hii ht hu hnu
    refine ⟨C, x, hC, hcode, ?_, ?_⟩
    · intro q hq
      have hd' : c129_Distinct ({ b with nextBlock := q } :: c134_others b bs) := by
        have ho := c134_others_distinct (b := b) hd
        refine ⟨fun a ha => ?_, ?_⟩
        · rcases List.mem_cons.mp ha with rfl | ha
          · exact hn
          · exact ho.1 a ha
        · rw [List.map_cons, List.nodup_cons]
          refine ⟨fun hm => ?_, ho.2⟩
          obtain ⟨a, ha, hab⟩ := List.mem_map.mp hm
          have := (List.mem_filter.mp ha).2
          simp only [ne_eq, decide_eq_true_eq] at this
          exact this hab
      have hself : c129_tab ({ b with nextBlock := q } :: c134_others b bs) n = some { b with nextBlock := q } := (c129_tab_iff hd' n _).mpr ⟨by simp, hnn⟩
      refine (c129_accepts hd' (i := n) hnn _).mpr ⟨u0, .last hself hq (c129_block hx hu0 e0 hself fun k hk hkn => ?_), hu0⟩
      have := hx.dom k hk
      cases hz : c129_tab bs k with
      | none => rw [hz] at this; cases this
      | some z =>
        rw [← hz]
        obtain ⟨a1, a2⟩ := (c129_tab_iff hd k z).mp hz
        refine c129_tab_congr hd hd' hz (List.mem_cons_of_mem _ (List.mem_filter.mpr ⟨a1, ?_⟩))
        simp only [ne_eq, decide_eq_true_eq, a2, hnn]
        exact fun e => hkn (Option.some.inj e)
    · cases hx with
      | @block _ p0 s1 s2 c0 c t u1 u2 u3 h0 h1 h2 hr hi hty =>
      rw [e0] at h0
      cases h0
      obtain ⟨m1, m2⟩ := List.nodup_cons.mp hu0
      obtain ⟨m3, m4, m5⟩ := List.nodup_append.mp m2
      obtain ⟨m6, m7, m8⟩ := List.nodup_append.mp m4
      rcases c140_items hr hl hi with ⟨a1, a2⟩ | ⟨cl, j, cr, v1, v2, v3, rfl, a1, a2, rfl, k1, k2, k3⟩
      · refine .inl ⟨a1, fun p' bs' hp => ?_⟩
        obtain ⟨-, t2, t3, t4⟩ := key _ bs' [] hp rfl (by rw [List.append_nil]; exact hd)
        rw [List.append_nil] at t2 t3 t4
        have hk : ∀ k ∈ u1 ++ (u2 ++ u3), c129_tab bs' k = c129_tab bs k := fun k hk => t3 k (List.mem_cons_of_mem _ hk) (by rintro rfl; exact m1 hk)
        rw [hcode]
        exact t4 _ _ (.block (p := { b with parameters := l ++ p' :: r }) t2 (h1.congr fun k h => hk k (by simp [h])) (h2.congr fun k h => hk k (by simp [h])) (a2 p')
          (hi.congr fun k h => hk k (by simp [h])) hty) hu0 fun k hk => .inl hk
      · obtain ⟨n1, n2, n3⟩ := List.nodup_append.mp m7
        obtain ⟨n4, n5, n6⟩ := List.nodup_append.mp n2
        have v13 : ∀ k, k ∈ v1 ++ v3 → k ∈ v1 ++ (v2 ++ v3) := fun k hk => by
          simp only [List.mem_append] at hk ⊢
          exact hk.elim .inl fun h => .inr (.inr h)
        refine .inr ⟨cl, j, cr, rfl, a1, a2, ?_, ?_, ?_⟩
        · intro p' i' bs' hlit hp
          obtain ⟨-, t2, t3, t4⟩ := key _ bs' [] hp rfl (by rw [List.append_nil]; exact hd)
          rw [List.append_nil] at t2 t3 t4
          have hk : ∀ k ∈ u1 ++ (u2 ++ (v1 ++ (v2 ++ v3))), c129_tab bs' k = c129_tab bs k := fun k hk => t3 k (List.mem_cons_of_mem _ hk) (by rintro rfl; exact m1 hk)
          obtain ⟨c0', b1, b2⟩ := k1 p' i' hlit
          have hh : ∀ k, k ∈ n :: (u1 ++ (u2 ++ (v1 ++ v3))) → k ∈ n :: (u1 ++ (u2 ++ (v1 ++ (v2 ++ v3)))) := fun k hk => by
            simp only [List.mem_cons, List.mem_append] at hk ⊢
            rcases hk with h | h | h | h | h
            · exact .inl h
            · exact .inr (.inl h)
            · exact .inr (.inr (.inl h))
            · exact .inr (.inr (.inr (.inl h)))
            · exact .inr (.inr (.inr (.inr (.inr h))))
          refine t4 _ (n :: (u1 ++ (u2 ++ (v1 ++ v3)))) (.block (p := { b with parameters := l ++ p' :: r }) t2 (h1.congr fun k h => hk k (by simp [h]))
            (h2.congr fun k h => hk k (by simp [h])) b1 (b2 _ fun k h => hk k ?_) hty) ?_ fun k hk => .inl (hh k hk)
          · exact List.mem_append_right _ (List.mem_append_right _ (v13 k h))
          · refine hu0.sublist (.cons_cons _ (.append (.refl _) (.append (.refl _) (.append (.refl _) (List.sublist_append_right ..)))))
        · intro p' m d ds y ys i' bs' hd2 hdm href hy hblk hp
          obtain ⟨hd', t2, t3, t4⟩ := key _ bs' (d :: ds) hp rfl hd2
          obtain ⟨v, hv, hvn⟩ := (c129_accepts (c129_distinct_right hd2) hdm _).mp hy
          have hap : ∀ k ∈ v, k ∉ u := fun k hk hku => c132_apart hd2 ht hv k hku k hk rfl
          obtain ⟨w, hw, hwn, hwv⟩ : ∃ w, Tree (c129_tab (d :: ds)) (.block m y) w ∧ w.Nodup ∧ ∀ k ∈ w, k ∈ v := by
            cases hv with
            | last _ _ hb => exact ⟨_, hb, hvn, fun k hk => hk⟩
            | next _ _ hb _ => exact ⟨_, hb, (List.nodup_append.mp hvn).1, fun k hk => List.mem_append_left _ hk⟩
          have hw' := c132_tab_all (c129_distinct_right hd2) hd' (fun x hx => List.mem_append_right _ hx) hw
          have hk : ∀ k ∈ u1 ++ (u2 ++ (v1 ++ (v2 ++ v3))), c129_tab (bs' ++ d :: ds) k = c129_tab bs k := fun k hk => t3 k (List.mem_cons_of_mem _ hk) (by rintro rfl; exact m1 hk)
          obtain ⟨c0', b1, b2⟩ := k2 p' m y i' w href hblk
          have hperm : (n :: (u1 ++ (u2 ++ (v1 ++ (w ++ v3))))).Perm (w ++ (n :: (u1 ++ (u2 ++ (v1 ++ v3))))) := by
            have e1 : n :: (u1 ++ (u2 ++ (v1 ++ (w ++ v3)))) = (n :: (u1 ++ (u2 ++ v1))) ++ (w ++ v3) := by simp
            have e2 : w ++ (n :: (u1 ++ (u2 ++ (v1 ++ v3)))) = w ++ ((n :: (u1 ++ (u2 ++ v1))) ++ v3) := by simp
            rw [e1, e2]
            exact List.perm_append_comm_assoc ..
          have hold : (n :: (u1 ++ (u2 ++ (v1 ++ v3)))).Sublist (n :: (u1 ++ (u2 ++ (v1 ++ (v2 ++ v3))))) :=
            .cons_cons _ (.append (.refl _) (.append (.refl _) (.append (.refl _) (List.sublist_append_right ..))))
          refine t4 _ (n :: (u1 ++ (u2 ++ (v1 ++ (w ++ v3))))) (.block (p := { b with parameters := l ++ p' :: r }) t2 (h1.congr fun k h => hk k (by simp [h]))
            (h2.congr fun k h => hk k (by simp [h])) b1 (b2 _ (fun k h => hk k ?_) hw') hty) ?_ fun k hk => ?_
          · exact List.mem_append_right _ (List.mem_append_right _ (v13 k h))
          · refine hperm.nodup_iff.mpr (List.nodup_append.mpr ⟨hwn, hu0.sublist hold, ?_⟩)
            rintro a ha _ hc rfl
            exact hap a (hwv a ha) (hsub a (hold.subset hc))
          · rcases List.mem_append.mp (hperm.mem_iff.mp hk) with hk | hk
            · exact .inr (hap k (hwv k hk))
            · exact .inl (hold.subset hk)
        · intro p' bs' code' hlit href hp hok
          obtain ⟨x', v, hx', e1⟩ := c140_met hd hnn hbs hii ht hnu hp hok
          cases hx' with
          | block h0' h1' h2' hr' hi' hty' =>
          rw [e1] at h0'
          cases h0'
          rcases k3 p' _ hr' with ⟨i', hi'⟩ | ⟨m, g1, g2⟩
          · rw [hlit] at hi'
            cases hi'
          · obtain ⟨y, w, hw⟩ := g2 _ _ _ hi'
            have := hw.dom m hw.head
            cases hz : c129_tab bs' m with
            | none => rw [hz] at this; cases this
            | some z =>
              obtain ⟨z1, z2⟩ := (c129_tab_iff (c129_distinct_of hd (by rw [c132_numbers hp])) m z).mp hz
              have : parseU32 z.id ∈ bs'.map fun b => parseU32 b.id := List.mem_map.mpr ⟨z, z1, rfl⟩
              rw [c132_numbers hp] at this
              obtain ⟨a, ha, hza⟩ := List.mem_map.mp this
              exact href m g1 a ha (hza.trans z2)
  · left
    intro b' bs' hp
    rw [← hbs] at hp
    have hd' : c129_Distinct bs' := c129_distinct_of hd (by rw [c132_numbers hp])
    obtain ⟨t1, -⟩ := c132_tab hd hd' hp hnn (fun _ h => h) ht
    obtain ⟨f', rest', rfl, hf⟩ := c132_head hp hbs
    exact (c129_accepts hd' (hf.trans hii) _).mpr ⟨u, ht.congr fun k hk => t1 k hk (by rintro rfl; exact hnu hk), hu⟩

end Swrs.Api

namespace Swrs.Api

/-- `c140_argument`: the second of two blocks is in the substack of the first one, and has two arguments and three texts. All the cases occur: a value, a reference to the
first block of another container, a text that is neither, and a text too many. -/
example [pol : MapPol] : let _ : Floats := toyFloats.toFloats
    let b := exBlock (s% "1") (-1) (-1) (s% "a %s b %b.n") [s% "x", s% "true", s% "y"]
    let d := exBlock (s% "7") (-1) (-1) (s% "d") []
    let bs := [exBlock (s% "0") (-1) 1 (s% "c") [], b]
    let edit := fun p => [exBlock (s% "0") (-1) 1 (s% "c") [], { b with parameters := [s% "x", p, s% "y"] }]
    c129_Distinct (bs ++ [d]) ∧ b ∈ bs ∧ (∀ p, c132_Put b { b with parameters := [s% "x"] ++ p :: [s% "y"] } bs (edit p)) ∧ c140_Ref (s% "@7") 7 ∧
      (∃ c o k i y, tryFrom ⟨bs⟩ = .ok [⟨some [⟨none, none, c, o, [.text (s% "a"), .param (.string none (.value (s% "x"))), .text (s% "b"), i], k⟩], none, c, o, [.text (s% "c")], k⟩] ∧
        i = .param (.boolean (some (s% "n")) (.value true)) ∧ (∃ i', c140_literal i (s% "false") = some i' ∧ tryFrom ⟨edit (s% "false")⟩ = .ok
          [⟨some [⟨none, none, c, o, [.text (s% "a"), .param (.string none (.value (s% "x"))), .text (s% "b"), i'], k⟩], none, c, o, [.text (s% "c")], k⟩]) ∧
        tryFrom ⟨[d]⟩ = .ok [y] ∧ (∃ i', c140_block i y = some i') ∧ c140_literal i (s% "no") = none ∧ ∃ e, tryFrom ⟨edit (s% "no")⟩ = .err e) := by
  let _ : Floats := toyFloats.toFloats
  refine ⟨⟨by decide, by decide⟩, .tail _ (.head _), fun p => ⟨rfl, [_], [], rfl, rfl⟩, ⟨s% "7", rfl, by decide⟩, ?_⟩
  obtain ⟨a, b⟩ := pol
  cases a <;> cases b <;> exact ⟨_, _, _, _, _, rfl, rfl, ⟨_, rfl, rfl⟩, rfl, ⟨_, rfl⟩, rfl, _, rfl⟩

end Swrs.Api
