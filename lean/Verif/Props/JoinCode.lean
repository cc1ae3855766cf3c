import Verif.Props.ScreenNames
/-!
# C129: code is joined, cut and shortened by changing one pointer
-/
set_option linter.unusedSectionVars false
namespace Swrs.Api
variable [MapPol] [Floats]

/-! ### Specification: the blocks that follow each other -/

/-- Specification: the blocks of a container have numbers, and different ones. -/
def c129_Distinct (bs : List ParserBlock) : Prop := (∀ b ∈ bs, parseU32 b.id ≠ none) ∧ (bs.map fun b => parseU32 b.id).Nodup

/-- Specification: from a number on, these are the blocks of a container that follow each other. -/
inductive c129_Chain (bs : List ParserBlock) : UInt32 → List ParserBlock → Prop
  | stop {b : ParserBlock} {i : UInt32} (hb : b ∈ bs) (hi : parseU32 b.id = some i) (hn : b.nextBlock < 0) : c129_Chain bs i [b]
  | step {b : ParserBlock} {i : UInt32} {l : List ParserBlock} (hb : b ∈ bs) (hi : parseU32 b.id = some i) (hn : ¬ b.nextBlock < 0)
      (h : c129_Chain bs (pointerId b.nextBlock) l) : c129_Chain bs i (b :: l)

/-- Specification: these are the blocks that follow each other from the first block of a container on. -/
def c129_Row (bs l : List ParserBlock) : Prop := ∃ f rest i, bs = f :: rest ∧ parseU32 f.id = some i ∧ c129_Chain bs i l

/-- Specification: a pointer to a block. -/
def c129_To (q : Int32) (b : ParserBlock) : Prop := ¬ q < 0 ∧ parseU32 b.id = some (pointerId q)

/-- Specification: one block of a container gets another pointer to the next block. -/
def c129_Edit (b : ParserBlock) (q : Int32) (bs bs' : List ParserBlock) : Prop := ∃ u w, bs = u ++ b :: w ∧ bs' = u ++ { b with nextBlock := q } :: w

/-! ### The table of the blocks -/

/-- The block with a number. -/
def c129_tab (bs : List ParserBlock) (k : UInt32) : Option ParserBlock := bs.find? fun b => parseU32 b.id == some k

theorem c129_tab_iff {bs : List ParserBlock} (h : c129_Distinct bs) (k : UInt32) (b : ParserBlock) : c129_tab bs k = some b ↔ b ∈ bs ∧ parseU32 b.id = some k := by
  constructor
  · intro hb
    exact ⟨List.mem_of_find?_eq_some hb, by simpa using List.find?_some hb⟩
  · rintro ⟨hb, hk⟩
    obtain ⟨-, h⟩ := h
    induction bs with
    | nil => cases hb
    | cons x bs ih =>
      rw [List.map_cons, List.nodup_cons] at h
      unfold c129_tab
      rw [List.find?_cons]
      rcases List.mem_cons.mp hb with rfl | hb'
      · rw [hk]; simp
      · have : parseU32 x.id ≠ some k := by
          intro he
          exact h.1 (List.mem_map.mpr ⟨b, hb', by rw [hk, he]⟩)
        rw [show (parseU32 x.id == some k) = false by simpa using this]
        exact ih hb' h.2

theorem c129_tab_congr {bs bs' : List ParserBlock} (h : c129_Distinct bs) (h' : c129_Distinct bs') {k : UInt32} {b : ParserBlock} (hk : c129_tab bs k = some b)
    (hb : b ∈ bs') : c129_tab bs' k = c129_tab bs k := by
  rw [hk]
  exact (c129_tab_iff h' k b).mpr ⟨hb, ((c129_tab_iff h k b).mp hk).2⟩

theorem c129_get {bs : List ParserBlock} {es : List (UInt32 × ParserBlock)}
    (h : All₂ (fun (b : ParserBlock) (e : UInt32 × ParserBlock) => parseU32 b.id = some e.1 ∧ e.2 = b) bs es) (k : UInt32) : LMap.get es k = c129_tab bs k := by
  induction h with
  | nil => rfl
  | @cons b e bs es he _ ih =>
    obtain ⟨i, x⟩ := e
    obtain ⟨h1, h2⟩ := he
    simp only at h1 h2
    subst h2
    unfold c129_tab LMap.get
    rw [List.find?_cons, h1]
    by_cases hk : i = k
    · subst hk; simp
    · rw [if_neg hk, show (some i == some k) = false by simpa using hk]
      exact ih

theorem c129_keys {bs : List ParserBlock} {es : List (UInt32 × ParserBlock)}
    (h : All₂ (fun (b : ParserBlock) (e : UInt32 × ParserBlock) => parseU32 b.id = some e.1 ∧ e.2 = b) bs es) :
    (bs.map fun b => parseU32 b.id) = (LMap.keys es).map some := by
  induction h with
  | nil => rfl
  | cons he _ ih => simp only [List.map_cons, LMap.keys_cons, ih, he.1]

/-- What is read from a container whose blocks have different numbers. -/
theorem c129_accepts {f : ParserBlock} {bs : List ParserBlock} {i : UInt32} (hd : c129_Distinct (f :: bs)) (hi : parseU32 f.id = some i) (code : List Block) :
    tryFrom ⟨f :: bs⟩ = .ok code ↔ ∃ u, Tree (c129_tab (f :: bs)) (.blocks i code) u ∧ u.Nodup := by
  have hes : ∀ es, Numbered ⟨f :: bs⟩ es → LMap.collect es = es ∧ LMap.last es = c129_tab (f :: bs) := by
    intro es hes
    have hk := c129_keys hes
    have hn := hd.2
    rw [hk] at hn
    have hc := LMap.collect_nodup es (List.Nodup.of_map _ hn)
    refine ⟨hc, ?_⟩
    funext k
    rw [← LMap.get_collect, hc, c129_get hes]
  rw [c43_accepts]
  constructor
  · rintro ⟨es, h1, h2⟩
    obtain ⟨hc, hl⟩ := hes es h1
    rcases h2 with ⟨rfl, -⟩ | ⟨id, p, rest, u, h3, h4, h5⟩
    · cases h1
    · rw [hc] at h3
      subst h3
      cases h1 with
      | cons he _ =>
        rw [hi] at he
        cases he.1
        exact ⟨u, hl ▸ h4, h5⟩
  · rintro ⟨u, h1, h2⟩
    have : ∀ l : List ParserBlock, (∀ b ∈ l, parseU32 b.id ≠ none) →
        All₂ (fun (b : ParserBlock) (e : UInt32 × ParserBlock) => parseU32 b.id = some e.1 ∧ e.2 = b) l (l.map fun b => ((parseU32 b.id).getD 0, b)) := by
      intro l hl
      induction l with
      | nil => exact .nil
      | cons b l ih =>
        refine .cons ⟨?_, rfl⟩ (ih fun b' hb' => hl b' (by simp [hb']))
        cases hb : parseU32 b.id with
        | none => exact absurd hb (hl b (by simp))
        | some k => simp [hb]
    have h0 := this (f :: bs) hd.1
    obtain ⟨hc, hl⟩ := hes _ h0
    refine ⟨_, h0, .inr ⟨i, f, bs.map fun b => ((parseU32 b.id).getD 0, b), u, ?_, hl ▸ h1, h2⟩⟩
    rw [hc]
    simp [hi]

/-! ### Following the pointers -/

section
variable {g g' : UInt32 → Option ParserBlock}

/-- A block is read as before when only its pointer to the next block is another one. -/
theorem c129_block {n : UInt32} {p : ParserBlock} {q : Int32} {b : Block} {u : List UInt32} (h : Tree g (.block n b) u) (hu : u.Nodup) (hp : g n = some p)
    (hp' : g' n = some { p with nextBlock := q }) (hg : ∀ k ∈ u, k ≠ n → g' k = g k) : Tree g' (.block n b) u := by
  cases h with
  | @block _ p0 s1 s2 c0 c t u1 u2 u3 h0 h1 h2 hr hi ht =>
    rw [hp] at h0
    cases h0
    rw [List.nodup_cons] at hu
    have hk : ∀ k ∈ u1 ++ (u2 ++ u3), g' k = g k := fun k hk => hg k (by simp only [List.mem_cons]; exact .inr hk) (by rintro rfl; exact hu.1 hk)
    exact .block (p := { p with nextBlock := q }) hp' (h1.congr fun k h => hk k (by simp [h])) (h2.congr fun k h => hk k (by simp [h])) hr
      (hi.congr fun k h => hk k (by simp [h])) ht

variable {bs : List ParserBlock} (hg : ∀ k b, g k = some b ↔ b ∈ bs ∧ parseU32 b.id = some k)
include hg

/-- The code from a block of the chain on. -/
theorem c129_from {l1 l2 : List ParserBlock} {b : ParserBlock} {n : UInt32} (hb : parseU32 b.id = some n) : ∀ {i : UInt32} {code : List Block} {u : List UInt32},
    c129_Chain bs i (l1 ++ b :: l2) → Tree g (.blocks i code) u → ∃ xs ys u1 u2, code = xs ++ ys ∧ u = u1 ++ u2 ∧ xs.length = l1.length ∧
      Tree g (.blocks n ys) u2 := by
  induction l1 with
  | nil =>
    intro i code u hc ht
    refine ⟨[], code, [], u, rfl, rfl, rfl, ?_⟩
    rw [List.nil_append] at hc
    cases hc with
    | stop _ hi _ => rw [hb] at hi; cases hi; exact ht
    | step _ hi _ _ => rw [hb] at hi; cases hi; exact ht
  | cons x l1 ih =>
    intro i code u hc ht
    rw [List.cons_append] at hc
    generalize hl : x :: (l1 ++ b :: l2) = l at hc
    cases hc with
    | stop _ _ _ =>
      obtain ⟨-, h⟩ := List.cons.inj hl
      simp at h
    | @step x' _ l' hx hi hn hc =>
      obtain ⟨rfl, rfl⟩ := List.cons.inj hl
      have hx' := (hg i x).mpr ⟨hx, hi⟩
      cases ht with
      | last h0 hn' _ => rw [hx'] at h0; cases h0; exact absurd hn' hn
      | @next _ p y code' u0 u' h0 hn' hy ht =>
        rw [hx'] at h0
        cases h0
        obtain ⟨xs, ys, u1, u2, rfl, rfl, h3, h4⟩ := ih hc ht
        exact ⟨y :: xs, ys, u0 ++ u1, u2, rfl, by rw [List.append_assoc], by simp [h3], h4⟩

/-- The code up to a block of the chain, when the pointer of that block is another one. -/
theorem c129_upto {l1 l2 : List ParserBlock} {b : ParserBlock} {n : UInt32} (hb : parseU32 b.id = some n) : ∀ {i : UInt32} {code : List Block} {u : List UInt32},
    c129_Chain bs i (l1 ++ b :: l2) → Tree g (.blocks i code) u → u.Nodup → ∃ xs ys u1 u2, code = xs ++ ys ∧ u = u1 ++ u2 ∧ xs.length = l1.length + 1 ∧ n ∈ u1 ∧
      (l2 = [] → ys = []) ∧ (∀ b2 l3 n2, l2 = b2 :: l3 → parseU32 b2.id = some n2 → c129_Chain bs n2 l2 ∧ Tree g (.blocks n2 ys) u2) ∧
      ∀ (g' : UInt32 → Option ParserBlock) (q : Int32), (∀ k ∈ u1, k ≠ n → g' k = g k) → g' n = some { b with nextBlock := q } →
        (q < 0 → Tree g' (.blocks i xs) u1) ∧ ∀ zs v, ¬ q < 0 → Tree g' (.blocks (pointerId q) zs) v → Tree g' (.blocks i (xs ++ zs)) (u1 ++ v) := by
  induction l1 with
  | nil =>
    intro i code u hc ht hu
    rw [List.nil_append] at hc
    have hm : b ∈ bs := by cases hc <;> assumption
    have hin : i = n := by
      cases hc with
      | stop _ hi _ => rw [hb] at hi; exact (Option.some.inj hi).symm
      | step _ hi _ _ => rw [hb] at hi; exact (Option.some.inj hi).symm
    subst hin
    have hx' := (hg i b).mpr ⟨hm, hb⟩
    have first : ∀ {y : Block} {u0 : List UInt32}, Tree g (.block i y) u0 → u0.Nodup → ∀ (g' : UInt32 → Option ParserBlock) (q : Int32), (∀ k ∈ u0, k ≠ i → g' k = g k) →
        g' i = some { b with nextBlock := q } → (q < 0 → Tree g' (.blocks i [y]) u0) ∧ ∀ zs v, ¬ q < 0 → Tree g' (.blocks (pointerId q) zs) v →
          Tree g' (.blocks i ([y] ++ zs)) (u0 ++ v) := by
      intro y u0 hy hu0 g' q h1 h2
      have := c129_block hy hu0 hx' h2 h1
      exact ⟨fun hq => .last h2 hq this, fun zs v hq hz => .next h2 hq this hz⟩
    cases ht with
    | last h0 hn hy =>
      rw [hx'] at h0
      cases h0
      refine ⟨[_], [], u, [], rfl, by simp, rfl, hy.head, fun _ => rfl, ?_, first hy hu⟩
      rintro b2 l3 n2 rfl -
      cases hc with
      | step _ _ hn' _ => exact absurd hn hn'
    | @next _ p y code' u0 u' h0 hn hy ht =>
      rw [hx'] at h0
      cases h0
      refine ⟨[y], code', u0, u', rfl, rfl, rfl, hy.head, ?_, ?_, first hy (List.nodup_append.mp hu).1⟩
      · rintro rfl
        cases hc with
        | stop _ _ hn' => exact absurd hn' hn
        | step _ _ _ hc => cases hc
      · rintro b2 l3 n2 rfl h2
        cases hc with
        | step _ _ _ hc =>
          have : pointerId b.nextBlock = n2 := by
            cases hc with
            | stop _ hi _ => rw [h2] at hi; exact (Option.some.inj hi).symm
            | step _ hi _ _ => rw [h2] at hi; exact (Option.some.inj hi).symm
          rw [this] at hc ht
          exact ⟨hc, ht⟩
  | cons x l1 ih =>
    intro i code u hc ht hu
    rw [List.cons_append] at hc
    generalize hl : x :: (l1 ++ b :: l2) = l at hc
    cases hc with
    | stop _ _ _ =>
      obtain ⟨-, h⟩ := List.cons.inj hl
      simp at h
    | @step x' _ l' hx hi hn hc =>
      obtain ⟨rfl, rfl⟩ := List.cons.inj hl
      have hx' := (hg i x).mpr ⟨hx, hi⟩
      cases ht with
      | last h0 hn' _ => rw [hx'] at h0; cases h0; exact absurd hn' hn
      | @next _ p y code' u0 u' h0 hn' hy ht =>
        rw [hx'] at h0
        cases h0
        obtain ⟨hu0, hu', hd⟩ := List.nodup_append.mp hu
        obtain ⟨xs, ys, u1, u2, rfl, rfl, h3, h4, h5, h6, h7⟩ := ih hc ht hu'
        refine ⟨y :: xs, ys, u0 ++ u1, u2, rfl, by rw [List.append_assoc], by simp [h3], by simp [h4], h5, h6, ?_⟩
        intro g' q hk hq
        have hn0 : n ∉ u0 := fun h => hd n h n (by simp [h4]) rfl
        obtain ⟨a1, a2⟩ := h7 g' q (fun k hk' => hk k (by simp [hk'])) hq
        have hk0 : ∀ k ∈ u0, g' k = g k := fun k hk' => hk k (by simp [hk']) (by rintro rfl; exact hn0 hk')
        have hy' := hy.congr hk0
        have hi' : g' i = some x := by rw [hk0 i hy.head, hx']
        refine ⟨fun hq => .next hi' hn hy' (a1 hq), fun zs v hq hz => ?_⟩
        rw [List.append_assoc]
        exact .next hi' hn hy' (a2 zs v hq hz)

end

/-! ### Changing one pointer -/

theorem c129_edit_numbers {b : ParserBlock} {q : Int32} {bs bs' : List ParserBlock} (h : c129_Edit b q bs bs') :
    (bs'.map fun b => parseU32 b.id) = bs.map fun b => parseU32 b.id := by
  obtain ⟨u, w, rfl, rfl⟩ := h
  simp

theorem c129_distinct_of {bs bs' : List ParserBlock} (h : c129_Distinct bs) (he : (bs'.map fun b => parseU32 b.id).Perm (bs.map fun b => parseU32 b.id)) : c129_Distinct bs' := by
  refine ⟨fun b hb hn => ?_, he.nodup_iff.mpr h.2⟩
  have : none ∈ bs'.map fun b => parseU32 b.id := List.mem_map.mpr ⟨b, hb, hn⟩
  obtain ⟨b', hb', hn'⟩ := List.mem_map.mp (he.mem_iff.mp this)
  exact h.1 b' hb' hn'

theorem c129_distinct_left {bs ds : List ParserBlock} (h : c129_Distinct (bs ++ ds)) : c129_Distinct bs :=
  ⟨fun b hb => h.1 b (by simp [hb]), by have := h.2; rw [List.map_append] at this; exact (List.nodup_append.mp this).1⟩

theorem c129_distinct_right {bs ds : List ParserBlock} (h : c129_Distinct (bs ++ ds)) : c129_Distinct ds :=
  ⟨fun b hb => h.1 b (by simp [hb]), by have := h.2; rw [List.map_append] at this; exact (List.nodup_append.mp this).2.1⟩

/-- A block that is not the one that is changed is still there. -/
theorem c129_edit_mem {b x : ParserBlock} {q : Int32} {bs bs' : List ParserBlock} (h : c129_Edit b q bs bs') (hx : x ∈ bs) (hn : parseU32 x.id ≠ parseU32 b.id) : x ∈ bs' := by
  obtain ⟨u, w, rfl, rfl⟩ := h
  simp only [List.mem_append, List.mem_cons] at hx ⊢
  rcases hx with h | rfl | h
  · exact .inl h
  · exact absurd rfl hn
  · exact .inr (.inr h)

theorem c129_edit_self {b : ParserBlock} {q : Int32} {bs bs' : List ParserBlock} (h : c129_Edit b q bs bs') : { b with nextBlock := q } ∈ bs' := by
  obtain ⟨u, w, rfl, rfl⟩ := h
  simp

theorem c129_edit_head {b : ParserBlock} {q : Int32} {bs bs' rest : List ParserBlock} {f : ParserBlock} (h : c129_Edit b q bs bs') (hf : bs = f :: rest) :
    ∃ f' rest', bs' = f' :: rest' ∧ parseU32 f'.id = parseU32 f.id := by
  obtain ⟨u, w, h1, rfl⟩ := h
  subst hf
  cases u with
  | nil =>
    obtain ⟨rfl, rfl⟩ := List.cons.inj h1
    exact ⟨_, _, rfl, rfl⟩
  | cons x u =>
    obtain ⟨rfl, rfl⟩ := List.cons.inj h1
    exact ⟨_, _, rfl, rfl⟩

theorem c129_chain_number {bs : List ParserBlock} {l1 l2 : List ParserBlock} {b : ParserBlock} : ∀ {i : UInt32}, c129_Chain bs i (l1 ++ b :: l2) →
    b ∈ bs ∧ ∃ n, parseU32 b.id = some n := by
  induction l1 with
  | nil =>
    intro i h
    rw [List.nil_append] at h
    cases h with
    | stop hb hi _ => exact ⟨hb, _, hi⟩
    | step hb hi _ _ => exact ⟨hb, _, hi⟩
  | cons x l1 ih =>
    intro i h
    rw [List.cons_append] at h
    generalize hl : x :: (l1 ++ b :: l2) = l at h
    cases h with
    | stop _ _ _ =>
      obtain ⟨-, h⟩ := List.cons.inj hl
      simp at h
    | step _ _ _ h =>
      obtain ⟨rfl, rfl⟩ := List.cons.inj hl
      exact ih h

/-- C129: what is read from a container whose blocks have different numbers has one block for each block of the row that begins with the first one, with the
same colour and operation. -/
theorem c129_row {bs : List ParserBlock} (hd : c129_Distinct bs) (hb : bs ≠ []) {code : List Block} (h : tryFrom ⟨bs⟩ = .ok code) :
    ∃ l, c129_Row bs l ∧ All₂ (fun (p : ParserBlock) (b : Block) => b.color = p.color ∧ b.opCode = p.opCode) l code := by
  cases bs with
  | nil => exact absurd rfl hb
  | cons f rest =>
    cases hi : parseU32 f.id with
    | none => exact absurd hi (hd.1 f (by simp))
    | some i =>
      obtain ⟨u, ht, -⟩ := (c129_accepts hd hi code).mp h
      suffices ∀ (G : Goal) (u : List UInt32), Tree (c129_tab (f :: rest)) G u → ∀ i code, G = .blocks i code →
          ∃ l, c129_Chain (f :: rest) i l ∧ All₂ (fun (p : ParserBlock) (b : Block) => b.color = p.color ∧ b.opCode = p.opCode) l code by
        obtain ⟨l, h1, h2⟩ := this _ _ ht _ _ rfl
        exact ⟨l, ⟨f, rest, i, rfl, hi, h1⟩, h2⟩
      intro G u ht
      have same : ∀ {i : UInt32} {p : ParserBlock} {b : Block} {u : List UInt32}, c129_tab (f :: rest) i = some p → Tree (c129_tab (f :: rest)) (.block i b) u →
          b.color = p.color ∧ b.opCode = p.opCode := by
        intro i p b u hp hb
        cases hb with
        | block h0 => rw [hp] at h0; cases h0; exact ⟨rfl, rfl⟩
      induction ht with
      | last h0 hn hb =>
        intro i code hG
        cases hG
        obtain ⟨h1, h2⟩ := (c129_tab_iff hd _ _).mp h0
        exact ⟨_, .stop h1 h2 hn, .cons (same h0 hb) .nil⟩
      | next h0 hn hb _ _ ih =>
        intro i code hG
        cases hG
        obtain ⟨h1, h2⟩ := (c129_tab_iff hd _ _).mp h0
        obtain ⟨l, h3, h4⟩ := ih _ _ rfl
        exact ⟨_, .step h1 h2 hn h3, .cons (same h0 hb) h4⟩
      | _ => intro i code hG; cases hG

/-- C129: the pointer of a block of the row is set to no block. The code up to this block is read. -/
theorem c129_cut {bs bs' l1 l2 : List ParserBlock} {b : ParserBlock} {q : Int32} (hd : c129_Distinct bs) (hr : c129_Row bs (l1 ++ b :: l2)) (he : c129_Edit b q bs bs')
    (hq : q < 0) {code : List Block} (h : tryFrom ⟨bs⟩ = .ok code) : tryFrom ⟨bs'⟩ = .ok (code.take (l1.length + 1)) := by
  obtain ⟨f, rest, i, rfl, hi, hc⟩ := hr
  obtain ⟨-, n, hn⟩ := c129_chain_number hc
  have hd' : c129_Distinct bs' := c129_distinct_of hd (by rw [c129_edit_numbers he])
  obtain ⟨u, ht, hu⟩ := (c129_accepts hd hi code).mp h
  obtain ⟨xs, ys, u1, u2, rfl, rfl, h3, h4, -, -, h7⟩ := c129_upto (c129_tab_iff hd) hn hc ht hu
  have h8 := (h7 (c129_tab bs') q (fun k hk hkn => by
    have := ht.dom k (by simp [hk])
    cases hx : c129_tab (f :: rest) k with
    | none => rw [hx] at this; cases this
    | some x =>
      rw [← hx]
      obtain ⟨a1, a2⟩ := (c129_tab_iff hd k x).mp hx
      exact c129_tab_congr hd hd' hx (c129_edit_mem he a1 (by rw [a2, hn]; exact fun h => hkn (Option.some.inj h)))) ((c129_tab_iff hd' n _).mpr ⟨c129_edit_self he, hn⟩)).1 hq
  obtain ⟨f', rest', rfl, hf⟩ := c129_edit_head he rfl
  rw [← h3, List.take_left]
  exact (c129_accepts hd' (hf.trans hi) xs).mpr ⟨u1, h8, (List.nodup_append.mp hu).1⟩

/-- C129: a block of the row is put first. The code from this block on is read. -/
theorem c129_rest {bs rest l1 l2 : List ParserBlock} {b : ParserBlock} (hd : c129_Distinct bs) (hr : c129_Row bs (l1 ++ b :: l2)) (hp : bs.Perm (b :: rest))
    {code : List Block} (h : tryFrom ⟨bs⟩ = .ok code) : tryFrom ⟨b :: rest⟩ = .ok (code.drop l1.length) := by
  obtain ⟨f, r, i, rfl, hi, hc⟩ := hr
  obtain ⟨-, n, hn⟩ := c129_chain_number hc
  have hd' : c129_Distinct (b :: rest) := c129_distinct_of hd (hp.symm.map _)
  obtain ⟨u, ht, hu⟩ := (c129_accepts hd hi code).mp h
  obtain ⟨xs, ys, u1, u2, rfl, rfl, h3, h4⟩ := c129_from (c129_tab_iff hd) hn hc ht
  rw [← h3, List.drop_left]
  refine (c129_accepts hd' hn ys).mpr ⟨u2, h4.congr fun k hk => ?_, (List.nodup_append.mp hu).2.1⟩
  cases hx : c129_tab (f :: r) k with
  | none => have := h4.dom k hk; rw [hx] at this; cases this
  | some x =>
    rw [← hx]
    exact c129_tab_congr hd hd' hx (hp.mem_iff.mp ((c129_tab_iff hd k x).mp hx).1)

/-- C129: the pointer of a block of the row is set to a later block of the row. The code is read without the blocks between them. -/
theorem c129_skip {bs bs' l1 l2 l3 : List ParserBlock} {b b2 : ParserBlock} {q : Int32} (hd : c129_Distinct bs) (hr : c129_Row bs (l1 ++ b :: (l2 ++ b2 :: l3)))
    (he : c129_Edit b q bs bs') (hq : c129_To q b2) {code : List Block} (h : tryFrom ⟨bs⟩ = .ok code) :
    tryFrom ⟨bs'⟩ = .ok (code.take (l1.length + 1) ++ code.drop (l1.length + 1 + l2.length)) := by
  obtain ⟨f, rest, i, rfl, hi, hc⟩ := hr
  obtain ⟨-, n, hn⟩ := c129_chain_number hc
  have hd' : c129_Distinct bs' := c129_distinct_of hd (by rw [c129_edit_numbers he])
  obtain ⟨u, ht, hu⟩ := (c129_accepts hd hi code).mp h
  obtain ⟨xs, ys, u1, u2, rfl, rfl, h3, h4, -, h6, h7⟩ := c129_upto (c129_tab_iff hd) hn hc ht hu
  obtain ⟨hu1, hu2, hdis⟩ := List.nodup_append.mp hu
  have tab : ∀ k ∈ u1 ++ u2, k ≠ n → c129_tab bs' k = c129_tab (f :: rest) k := by
    intro k hk hkn
    have := ht.dom k hk
    cases hx : c129_tab (f :: rest) k with
    | none => rw [hx] at this; cases this
    | some x =>
      rw [← hx]
      obtain ⟨a1, a2⟩ := (c129_tab_iff hd k x).mp hx
      exact c129_tab_congr hd hd' hx (c129_edit_mem he a1 (by rw [a2, hn]; exact fun h => hkn (Option.some.inj h)))
  have later : ∃ ys1 ys2 v1 v2, ys = ys1 ++ ys2 ∧ u2 = v1 ++ v2 ∧ ys1.length = l2.length ∧ Tree (c129_tab (f :: rest)) (.blocks (pointerId q) ys2) v2 := by
    cases hl : l2 ++ b2 :: l3 with
    | nil => simp at hl
    | cons x l =>
      have hx : ∃ k, parseU32 x.id = some k := by
        have : c129_Chain (f :: rest) i ((l1 ++ [b]) ++ x :: l) := by rw [List.append_assoc, ← hl]; exact hc
        exact (c129_chain_number this).2
      obtain ⟨k, hk⟩ := hx
      obtain ⟨a1, a2⟩ := h6 x l k hl hk
      exact c129_from (c129_tab_iff hd) hq.2 a1 a2
  obtain ⟨ys1, ys2, v1, v2, rfl, rfl, h8, h9⟩ := later
  have h10 := (h7 (c129_tab bs') q (fun k hk => tab k (by simp [hk])) ((c129_tab_iff hd' n _).mpr ⟨c129_edit_self he, hn⟩)).2 ys2 v2 hq.1
    (h9.congr fun k hk => tab k (by simp [hk]) (by rintro rfl; exact hdis k h4 k (by simp [hk]) rfl))
  obtain ⟨f', rest', rfl, hf⟩ := c129_edit_head he rfl
  have e1 : (xs ++ (ys1 ++ ys2)).take (l1.length + 1) = xs := by rw [← h3, List.take_left]
  have e2 : (xs ++ (ys1 ++ ys2)).drop (l1.length + 1 + l2.length) = ys2 := by
    rw [← h3, ← h8, ← List.length_append, ← List.append_assoc, List.drop_left]
  rw [e1, e2]
  refine (c129_accepts hd' (hf.trans hi) _).mpr ⟨_, h10, ?_⟩
  rw [← List.append_assoc] at hu
  refine List.nodup_append.mpr ⟨hu1, (List.nodup_append.mp hu2).2.1, fun a ha b hb => hdis a ha b (by simp [hb])⟩

/-- C129: two containers with different numbers. When the last block of the row of the first one gets a pointer to the first block of the second one, the code of
both is read, one after the other. -/
theorem c129_join {bs bs' ds l : List ParserBlock} {b d : ParserBlock} {q : Int32} (hd : c129_Distinct (bs ++ d :: ds)) (hr : c129_Row bs (l ++ [b]))
    (he : c129_Edit b q bs bs') (hq : c129_To q d) {x y : List Block} (hx : tryFrom ⟨bs⟩ = .ok x) (hy : tryFrom ⟨d :: ds⟩ = .ok y) :
    tryFrom ⟨bs' ++ d :: ds⟩ = .ok (x ++ y) := by
  obtain ⟨f, rest, i, rfl, hi, hc⟩ := hr
  obtain ⟨hbm, n, hn⟩ := c129_chain_number hc
  have hd1 := c129_distinct_left hd
  have hd2 := c129_distinct_right hd
  have hd' : c129_Distinct (bs' ++ d :: ds) := c129_distinct_of hd (by rw [List.map_append, List.map_append, c129_edit_numbers he])
  obtain ⟨u, ht, hu⟩ := (c129_accepts hd1 hi x).mp hx
  obtain ⟨v, hv, hvn⟩ := (c129_accepts hd2 hq.2 y).mp hy
  obtain ⟨xs, ys, u1, u2, rfl, rfl, h3, h4, h5, -, h7⟩ := c129_upto (c129_tab_iff hd1) hn hc ht hu
  obtain rfl := h5 rfl
  have apart : ∀ k x y, c129_tab (f :: rest) k = some x → c129_tab (d :: ds) k = some y → False := by
    intro k x y h1 h2
    obtain ⟨a1, a2⟩ := (c129_tab_iff hd1 k x).mp h1
    obtain ⟨b1, b2⟩ := (c129_tab_iff hd2 k y).mp h2
    have := hd.2
    rw [List.map_append] at this
    exact (List.nodup_append.mp this).2.2 _ (List.mem_map.mpr ⟨x, a1, rfl⟩) _ (List.mem_map.mpr ⟨y, b1, rfl⟩) (by rw [a2, b2])
  have h10 := (h7 (c129_tab (bs' ++ d :: ds)) q (fun k hk hkn => by
    have := ht.dom k (by simp [hk])
    cases hx : c129_tab (f :: rest) k with
    | none => rw [hx] at this; cases this
    | some x =>
      rw [← hx]
      obtain ⟨a1, a2⟩ := (c129_tab_iff hd1 k x).mp hx
      exact c129_tab_congr hd1 hd' hx (List.mem_append_left _ (c129_edit_mem he a1 (by rw [a2, hn]; exact fun h => hkn (Option.some.inj h)))))
    ((c129_tab_iff hd' n _).mpr ⟨List.mem_append_left _ (c129_edit_self he), hn⟩)).2 y v hq.1 (hv.congr fun k hk => by
    have := hv.dom k hk
    cases hx : c129_tab (d :: ds) k with
    | none => rw [hx] at this; cases this
    | some x =>
      rw [← hx]
      exact c129_tab_congr hd2 hd' hx (List.mem_append_right _ ((c129_tab_iff hd2 k x).mp hx).1))
  obtain ⟨f', rest', rfl, hf⟩ := c129_edit_head he rfl
  rw [List.append_nil]
  refine (c129_accepts hd' (hf.trans hi) _).mpr ⟨_, h10, List.nodup_append.mpr ⟨(List.nodup_append.mp hu).1, hvn, ?_⟩⟩
  rintro a ha _ hb rfl
  have h1 := ht.dom a (by simp [ha])
  have h2 := hv.dom a hb
  cases e1 : c129_tab (f :: rest) a with
  | none => rw [e1] at h1; cases h1
  | some x =>
    cases e2 : c129_tab (d :: ds) a with
    | none => rw [e2] at h2; cases h2
    | some y => exact apart a x y e1 e2

end Swrs.Api

namespace Swrs.Api

/-- Three blocks in a row, the third one with an argument. -/
def c129_three : List ParserBlock := [exBlock (s% "0") 3 (-1) (s% "a") [], exBlock (s% "1") (-1) (-1) (s% "b") [], exBlock (s% "2") (-1) (-1) (s% "c %s") [s% "@1"],
  exBlock (s% "3") 2 (-1) (s% "d") []]

theorem c129_three_distinct : c129_Distinct c129_three := ⟨by decide, by decide⟩

theorem c129_three_row : c129_Row c129_three [exBlock (s% "0") 3 (-1) (s% "a") [], exBlock (s% "3") 2 (-1) (s% "d") [], exBlock (s% "2") (-1) (-1) (s% "c %s") [s% "@1"]] :=
  ⟨_, _, 0, rfl, by decide, .step (by decide) (by decide) (by decide) (.step (by decide) (by decide) (by decide) (.stop (by decide) (by decide) (by decide)))⟩

/-- `c129_row`, `c129_cut`, `c129_rest` and `c129_skip`: three blocks are read in a row; cut after the second one, from the second one on, and without it. -/
example [pol : MapPol] : let _ : Floats := toyFloats.toFloats
    c129_Distinct c129_three ∧ (∃ l, c129_Row c129_three l ∧ l.length = 3) ∧
      (∃ bs', c129_Edit (exBlock (s% "3") 2 (-1) (s% "d") []) (-1) c129_three bs') ∧
      (∃ rest, c129_three.Perm (exBlock (s% "3") 2 (-1) (s% "d") [] :: rest)) ∧
      c129_To 2 (exBlock (s% "2") (-1) (-1) (s% "c %s") [s% "@1"]) ∧ ∃ code, tryFrom ⟨c129_three⟩ = .ok code ∧ code.length = 3 := by
  let _ : Floats := toyFloats.toFloats
  refine ⟨c129_three_distinct, ⟨_, c129_three_row, rfl⟩, ⟨_, [_, _, _], [], rfl, rfl⟩, ⟨_, List.perm_append_comm (l₁ := c129_three.take 3) (l₂ := c129_three.drop 3)⟩, ⟨by decide, by decide⟩, ?_⟩
  obtain ⟨a, b⟩ := pol
  cases a <;> cases b <;> exact ⟨_, rfl, rfl⟩

/-- `c129_join`: three blocks and one block. -/
example [pol : MapPol] : let _ : Floats := toyFloats.toFloats
    c129_Distinct (c129_three ++ [exBlock (s% "7") (-1) (-1) (s% "e") []]) ∧ c129_To 7 (exBlock (s% "7") (-1) (-1) (s% "e") []) ∧
      (∃ l bs', c129_Row c129_three (l ++ [exBlock (s% "2") (-1) (-1) (s% "c %s") [s% "@1"]]) ∧
        c129_Edit (exBlock (s% "2") (-1) (-1) (s% "c %s") [s% "@1"]) 7 c129_three bs') ∧
      (∃ x, tryFrom ⟨c129_three⟩ = .ok x) ∧ ∃ y, tryFrom ⟨[exBlock (s% "7") (-1) (-1) (s% "e") []]⟩ = .ok y := by
  let _ : Floats := toyFloats.toFloats
  refine ⟨⟨by decide, by decide⟩, ⟨by decide, by decide⟩, ⟨[_, _], _, c129_three_row, ⟨[_, _], [_], rfl, rfl⟩⟩, ?_⟩
  obtain ⟨a, b⟩ := pol
  cases a <;> cases b <;> exact ⟨⟨_, rfl⟩, _, rfl⟩

/-- C129: the numbers must differ: of two blocks with the same number one is lost. -/
theorem c129_join_false [pol : MapPol] : let _ : Floats := toyFloats.toFloats
    ∃ (bs bs' ds : List ParserBlock) (b d : ParserBlock) (q : Int32) (x y : List Block), c129_Distinct bs ∧ c129_Distinct (d :: ds) ∧ c129_Row bs [b] ∧ c129_Edit b q bs bs' ∧
      c129_To q d ∧ tryFrom ⟨bs⟩ = .ok x ∧ tryFrom ⟨d :: ds⟩ = .ok y ∧ tryFrom ⟨bs' ++ d :: ds⟩ = .ok y ∧ x.length = 1 ∧ y.length = 1 := by
  let _ : Floats := toyFloats.toFloats
  refine ⟨[exBlock (s% "0") (-1) (-1) (s% "a") []], _, [], exBlock (s% "0") (-1) (-1) (s% "a") [], exBlock (s% "0") (-1) (-1) (s% "b") [], 0,
    [⟨none, none, Color.fromRgb 1 2 3, s% "op", [.text (s% "a")], .regular⟩], [⟨none, none, Color.fromRgb 1 2 3, s% "op", [.text (s% "b")], .regular⟩], ⟨by decide, by decide⟩,
    ⟨by decide, by decide⟩, ⟨_, _, 0, rfl, by decide, .stop (by decide) (by decide) (by decide)⟩, ⟨[], [], rfl, rfl⟩, ⟨by decide, by decide⟩, ?_⟩
  obtain ⟨a, b⟩ := pol
  cases a <;> cases b <;> exact ⟨rfl, rfl, rfl, rfl, rfl⟩

end Swrs.Api
