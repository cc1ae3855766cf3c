import Verif.Proofs.BlockEmit
import Verif.Base.All2
import Verif.Base.FloatInst
import Verif.Base.NumSpec
import Verif.Props.ApiSpec
/-!
# C44, C45, C46: the container made of a list of blocks
-/
namespace Swrs.Api
variable [Floats]

omit [Floats] in
theorem natStr_inj {m n : Nat} (h : natStr 10 m = natStr 10 n) : m = n := by
  have h1 := parseUnsigned_natStr (max := max m n) (n := m) (by omega)
  have h2 := parseUnsigned_natStr (max := max m n) (n := n) (by omega)
  rw [h, h2] at h1
  exact (Option.some.inj h1).symm

theorem toContainer_ok {bs : List Block} {c : BlockContainer} :
    toContainer bs = .ok c ↔ ∃ n, convertBlocks bs 9 = .ok (c.blocks, n) := by
  simp only [toContainer, Out.bind_eq_ok, Prod.exists, Out.pure_eq, Out.ok.injEq]
  constructor
  · rintro ⟨ps, n, h, rfl⟩; exact ⟨n, h⟩
  · rintro ⟨n, h⟩; exact ⟨c.blocks, n, h, rfl⟩

/-! ## C44 — Generated ids -/

/-- C44: the blocks of a generated container have the ids 10, 11, 12, …. -/
theorem c44_ids (bs : List Block) (c : BlockContainer) (h : toContainer bs = .ok c) :
    c.blocks.map (·.id) = (List.range c.blocks.length).map fun i => natStr 10 (10 + i) := by
  obtain ⟨n, h⟩ := toContainer_ok.mp h
  obtain ⟨_, h2⟩ := convertBlocks_seq _ _ _ _ h
  rw [h2, idsFrom, List.range'_eq_map_range, List.map_map]
  rfl

/-- C44: so no id occurs twice. -/
theorem c44_distinct (bs : List Block) (c : BlockContainer) (h : toContainer bs = .ok c) :
    (c.blocks.map (·.id)).Nodup := by
  rw [c44_ids bs c h]
  refine List.Pairwise.map _ ?_ List.nodup_range
  intro a b hab heq
  exact hab (by have := natStr_inj heq; omega)

/-- C44: which lists of blocks have a container, and how many blocks it has: all but those with an argument whose block
was never looked up, on which the conversion panics. -/
theorem c44_converts (bs : List Block) :
    (blocksReady bs → blocksSize bs ≤ 2147483638 → ∃ c, toContainer bs = .ok c ∧ c.blocks.length = blocksSize bs) ∧
    (¬ blocksReady bs → toContainer bs = .panic) := by
  constructor
  · intro hr hs
    obtain ⟨ps, h⟩ := convertBlocks_size bs 9 hr (by omega)
    refine ⟨⟨ps⟩, toContainer_ok.mpr ⟨_, h⟩, ?_⟩
    have := (convertBlocks_seq _ _ _ _ h).1
    simp only
    omega
  · intro hr
    cases h : toContainer bs with
    | ok c =>
      obtain ⟨n, h⟩ := toContainer_ok.mp h
      exact absurd (convertBlocks_ready _ _ _ _ h).1 hr
    | err e => exact e.elim
    | panic => rfl

/-! ## C45 — Next pointers -/

/-- The generated block that stands for a block: with its colour, opcode, spec and type. -/
def Written (b : Block) (p : ParserBlock) : Prop :=
  p.color = b.color ∧ p.opCode = b.opCode ∧ p.spec = BlockContent.text b.content ∧ p.type = b.blockType.text ∧
  p.typeName = b.blockType.typeName.getD []

/-- The blocks visited from an id by following next pointers until −1. -/
inductive Follow (ps : List ParserBlock) : Str → List ParserBlock → Prop
  | last (p : ParserBlock) (hp : p ∈ ps) (hn : p.nextBlock = -1) : Follow ps p.id [p]
  | next (p : ParserBlock) {qs} (hp : p ∈ ps) (hn : p.nextBlock ≠ -1) (t : Follow ps (intStr p.nextBlock.toInt) qs) :
      Follow ps p.id (p :: qs)

omit [Floats] in
theorem Follow.mono {ps qs : List ParserBlock} (h : ∀ p ∈ ps, p ∈ qs) {id : Str} {hs : List ParserBlock} (H : Follow ps id hs) :
    Follow qs id hs := by
  induction H with
  | last p hp hn => exact .last p (h p hp) hn
  | next p hp hn _ ih => exact .next p (h p hp) hn ih

omit [Floats] in
theorem mem_unique {ps : List ParserBlock} (hd : (ps.map (·.id)).Nodup) {p q : ParserBlock} (hp : p ∈ ps) (hq : q ∈ ps)
    (h : p.id = q.id) : p = q := by
  induction ps with
  | nil => simp at hp
  | cons x ps ih =>
    simp only [List.map_cons, List.nodup_cons] at hd
    simp only [List.mem_cons] at hp hq
    rcases hp with rfl | hp <;> rcases hq with rfl | hq
    · rfl
    · exact absurd (List.mem_map.mpr ⟨q, hq, h.symm⟩) hd.1
    · exact absurd (List.mem_map.mpr ⟨p, hp, h⟩) hd.1
    · exact ih hd.2 hp hq

omit [Floats] in
theorem Follow.unique {ps : List ParserBlock} (hd : (ps.map (·.id)).Nodup) {id : Str} {hs hs' : List ParserBlock}
    (H : Follow ps id hs) (H' : Follow ps id hs') : hs = hs' := by
  induction H generalizing hs' with
  | last p hp hn =>
    generalize he : p.id = id' at H'
    cases H' with
    | last q hq hn' => rw [mem_unique hd hp hq he]
    | next q hq hn' _ => rw [mem_unique hd hp hq he] at hn; exact absurd hn hn'
  | next p hp hn _ ih =>
    generalize he : p.id = id' at H'
    cases H' with
    | last q hq hn' => rw [mem_unique hd hp hq he] at hn; exact absurd hn' hn
    | next q hq hn' t' =>
      have := mem_unique hd hp hq he
      subst this
      rw [ih t']

theorem emitted_written (b : Block) (id : Nat) (next : Int32) (params : List Str) (s1 s2 : Int32) :
    Written b (emitted b id next params s1 s2) :=
  ⟨rfl, rfl, (c49_take b.content).2.1, rfl, rfl⟩

theorem convertBlock_head {b : Block} {ctr : Nat} {last : Bool} {ps : List ParserBlock} {c : Nat}
    (h : convertBlock b ctr last = .ok (ps, c)) :
    ∃ p rest, ps = p :: rest ∧ Written b p ∧ p.id = natStr 10 (ctr + 1) ∧ p.nextBlock = nextOf last c := by
  obtain ⟨s1, s2, color, op, content, t⟩ := b
  simp only [convertBlock, Out.bind_eq_ok, Prod.exists, Out.pure_eq, Out.ok.injEq, Prod.mk.injEq] at h
  obtain ⟨params, args, c1, h1, b1, p1, c2, h2, b2, p2, c3, h3, rfl, rfl⟩ := h
  exact ⟨_, _, rfl, emitted_written _ _ _ _ _ _, rfl, rfl⟩

theorem convertBlocks_follow {bs : List Block} {ctr : Nat} {ps : List ParserBlock} {c : Nat}
    (h : convertBlocks bs ctr = .ok (ps, c)) (hc : c ≤ 2147483647) (hne : bs ≠ []) :
    ∃ hs, Follow ps (natStr 10 (ctr + 1)) hs ∧ All₂ Written bs hs ∧ hs.head? = ps.head? := by
  induction bs generalizing ctr ps c with
  | nil => exact absurd rfl hne
  | cons b bs ih =>
    simp only [convertBlocks, Out.bind_eq_ok, Prod.exists, Out.pure_eq, Out.ok.injEq, Prod.mk.injEq] at h
    obtain ⟨qs, c1, h1, rs, c2, h2, rfl, rfl⟩ := h
    obtain ⟨p, rest, rfl, hw, hid, hnext⟩ := convertBlock_head h1
    cases bs with
    | nil =>
      refine ⟨[p], hid ▸ .last p (by simp) (by rw [hnext]; rfl), .cons hw .nil, rfl⟩
    | cons b' bs =>
      obtain ⟨hs, h3, h4, _⟩ := ih h2 hc (by simp)
      have hle : c1 + 1 ≤ c2 := by
        obtain ⟨e1, _⟩ := convertBlocks_seq _ _ _ _ h2
        have : 0 < rs.length := by
          rw [List.length_pos_iff]
          rintro rfl
          simp only [convertBlocks, Out.bind_eq_ok, Prod.exists, Out.pure_eq, Out.ok.injEq, Prod.mk.injEq] at h2
          obtain ⟨qs, _, h1, _, _, _, h5, _⟩ := h2
          obtain ⟨p', rest', rfl, _⟩ := convertBlock_head h1
          simp at h5
        omega
      have hn : p.nextBlock = Int32.ofNat (c1 + 1) := hnext
      refine ⟨p :: hs, hid ▸ .next p (by simp) ?_ ?_, .cons hw h4, rfl⟩
      · rw [hn]; exact ofNat_ne (by omega)
      · rw [hn, Int32.toInt_ofNat_of_lt (by omega)]
        exact h3.mono fun q hq => by simp [hq]

/-- C45, the part that holds: following the next pointers from the first block of a container of up to 2³¹ − 10 blocks visits exactly
the blocks of the list, in order, and ends with −1. Missing: larger containers, whose ids do not fit in an `i32`
(`c45_chain_false`). -/
theorem c45_chain_partial (bs : List Block) (c : BlockContainer) (h : toContainer bs = .ok c) (hne : bs ≠ [])
    (hsize : c.blocks.length ≤ 2147483638) :
    ∃ first rest, c.blocks = first :: rest ∧ ∃ hs, All₂ Written bs hs ∧ hs.head? = some first ∧
      ∀ hs', Follow c.blocks first.id hs' ↔ hs' = hs := by
  have hd := c44_distinct bs c h
  obtain ⟨n, h⟩ := toContainer_ok.mp h
  have hn := (convertBlocks_seq _ _ _ _ h).1
  obtain ⟨hs, h1, h2, h3⟩ := convertBlocks_follow h (by omega) hne
  cases hc : c.blocks with
  | nil =>
    rw [hc] at h1
    have : ∀ {id hs}, ¬ Follow [] id hs := by
      intro id hs h
      cases h with
      | last _ hp => simp at hp
      | next _ hp => simp at hp
    exact absurd h1 this
  | cons first rest =>
    have hid : first.id = natStr 10 (9 + 1) := by
      have := (convertBlocks_seq _ _ _ _ h).2
      rw [hc] at this
      simp only [List.map_cons, List.length_cons, idsFrom, List.range'_succ] at this
      exact (List.cons.inj this).1
    rw [hc] at h3 h1 hd
    refine ⟨first, rest, rfl, hs, h2, h3, fun hs' => ⟨fun h' => ?_, ?_⟩⟩
    · rw [hid] at h'
      exact (h1.unique hd h').symm
    · rintro rfl
      rw [hid]; exact h1

/-- A block without arguments and substacks. -/
def c45_block : Block := .new .operator (s% "x") [] .regular

theorem c45_many (k ctr : Nat) : ∃ ps, convertBlocks (List.replicate k c45_block) ctr = .ok (ps, ctr + k) ∧
    ∀ p ∈ ps, ∃ i, ctr < i ∧ i ≤ ctr + k ∧ p.id = natStr 10 i ∧ (i < ctr + k → p.nextBlock = Int32.ofNat (i + 1)) := by
  induction k generalizing ctr with
  | zero => exact ⟨[], rfl, by simp⟩
  | succ k ih =>
    obtain ⟨ps, h, hp⟩ := ih (ctr + 1)
    have h1 : ∀ last, convertBlock c45_block ctr last =
        .ok ([emitted c45_block (ctr + 1) (nextOf last (ctr + 1)) [] (-1) (-1)], ctr + 1) := fun _ => by
      simp [convertBlock, c45_block, Block.new, convertItems, convertStack]
    refine ⟨_, by rw [List.replicate_succ, convertBlocks, h1, Out.ok_bind]; simp only [h, Out.ok_bind, Out.pure_eq]; rw [show ctr + 1 + k = ctr + (k + 1) by omega], ?_⟩
    intro p hpm
    simp only [List.cons_append, List.nil_append, List.mem_cons] at hpm
    rcases hpm with rfl | hpm
    · refine ⟨ctr + 1, by omega, by omega, rfl, fun hlt => ?_⟩
      have : (List.replicate k c45_block).isEmpty = false := by
        cases k with
        | zero => omega
        | succ k => rfl
      rw [this]; rfl
    · obtain ⟨i, a, b, c, d⟩ := hp p hpm
      exact ⟨i, by omega, by omega, c, fun h => d (by omega)⟩

omit [Floats] in
theorem Follow.mem {ps hs : List ParserBlock} {id : Str} (h : Follow ps id hs) : ∃ p ∈ ps, p.id = id ∧
    (p.nextBlock = -1 ∨ ∃ hs', Follow ps (intStr p.nextBlock.toInt) hs') := by
  cases h with
  | last p hp hn => exact ⟨p, hp, rfl, .inl hn⟩
  | next p hp hn t => exact ⟨p, hp, rfl, .inr ⟨_, t⟩⟩

/-- The full property C45 is false of the code: with 2³¹ blocks the next pointer of the block 2147483647 is negative, and following the
pointers does not get to the end. -/
theorem c45_chain_false : ¬ ∀ (bs : List Block) (c : BlockContainer), toContainer bs = .ok c → bs ≠ [] →
    ∃ first rest, c.blocks = first :: rest ∧ ∃ hs, All₂ Written bs hs ∧ hs.head? = some first ∧
      ∀ hs', Follow c.blocks first.id hs' ↔ hs' = hs := by
  intro hall
  obtain ⟨k, hk⟩ : ∃ k : Nat, k = 2147483648 := ⟨_, rfl⟩
  obtain ⟨ps, h, hp⟩ := c45_many k 9
  have hc : toContainer (List.replicate k c45_block) = .ok ⟨ps⟩ := toContainer_ok.mpr ⟨_, h⟩
  have hnone : ∀ d n, n + d = 2147483647 → 10 ≤ n → ∀ hs, ¬ Follow ps (natStr 10 n) hs := by
    intro d
    induction d with
    | zero =>
      intro n hn _ hs hf
      obtain ⟨p, hpm, hid, hnext⟩ := hf.mem
      obtain ⟨i, _, _, hi, hx⟩ := hp p hpm
      have hin : i = n := natStr_inj (hi.symm.trans hid)
      subst hin
      have hx := hx (by omega)
      rw [show i + 1 = 2147483648 by omega] at hx
      rw [hx] at hnext
      rcases hnext with hnext | ⟨hs', hf⟩
      · exact absurd hnext (by decide)
      · obtain ⟨q, hq, hid, _⟩ := hf.mem
        obtain ⟨j, _, _, hj, _⟩ := hp q hq
        rw [hj] at hid
        have hd := natStr_digits rfl j
        have hv : (Int32.ofNat 2147483648).toInt = Int.negSucc 2147483647 := by decide
        rw [hid, hv] at hd
        exact absurd (hd '-' (by simp only [intStr]; exact List.mem_cons_self)) (by decide)
    | succ d ih =>
      intro n hn h10 hs hf
      obtain ⟨p, hpm, hid, hnext⟩ := hf.mem
      obtain ⟨i, _, _, hi, hx⟩ := hp p hpm
      have hin : i = n := natStr_inj (hi.symm.trans hid)
      subst hin
      have hx := hx (by omega)
      have hv : (Int32.ofNat (i + 1)).toInt = ((i + 1 : Nat) : Int) := Int32.toInt_ofNat_of_lt (by omega)
      rw [hx] at hnext
      rcases hnext with hnext | ⟨hs', hf⟩
      · have := congrArg Int32.toInt hnext
        rw [hv] at this
        have e : (-1 : Int32).toInt = -1 := rfl
        omega
      · rw [hv] at hf
        exact ih (i + 1) (by omega) (by omega) hs' hf
  have hne : List.replicate k c45_block ≠ [] := by
    intro h0
    have := congrArg List.length h0
    rw [List.length_replicate, List.length_nil] at this
    omega
  obtain ⟨first, rest, e1, hs, _, _, hf⟩ := hall _ _ hc hne
  have hid := c44_ids _ _ hc
  simp only at e1 hid
  have hf0 := (hf hs).mpr rfl
  rw [e1] at hid
  simp only [List.map_cons, List.length_cons, List.range_succ_eq_map] at hid
  have h10 := (List.cons.inj hid).1
  rw [h10] at hf0
  exact hnone 2147483637 10 (by omega) (by omega) hs hf0
/-! ## C46 — Substack and argument pointers -/

/-- C46, what holds of substacks: the blocks made of a block are its own, those of its arguments, those of its first and
those of its second substack; the pointer to a substack is the id of the *last* of its blocks, so it is the first one
iff there is only one. Missing: substacks of several blocks. -/
theorem c46_substacks_partial (b : Block) (ctr : Nat) (last : Bool) (ps : List ParserBlock) (n : Nat)
    (h : convertBlock b ctr last = .ok (ps, n)) :
    ∃ head args st1 st2, ps = head :: args ++ (st1 ++ st2) ∧ Written b head ∧
      st1.length = stackSize b.subStack1 ∧ st2.length = stackSize b.subStack2 ∧
      (st1 = [] ∧ head.subStack1 = -1 ∨ ∃ p q, st1.head? = some p ∧ st1.getLast? = some q ∧
        intStr head.subStack1.toInt = q.id ∧ (intStr head.subStack1.toInt = p.id ↔ st1.length = 1)) ∧
      (st2 = [] ∧ head.subStack2 = -1 ∨ ∃ p q, st2.head? = some p ∧ st2.getLast? = some q ∧
        intStr head.subStack2.toInt = q.id ∧ (intStr head.subStack2.toInt = p.id ↔ st2.length = 1)) := by
  obtain ⟨s1, s2, color, op, content, t⟩ := b
  simp only [convertBlock, Out.bind_eq_ok, Prod.exists, Out.pure_eq, Out.ok.injEq, Prod.mk.injEq] at h
  obtain ⟨params, args, c1, h1, b1, p1, c2, h2, b2, p2, c3, h3, rfl, rfl⟩ := h
  have key : ∀ {s : Option (List Block)} {a c : Nat} {st : List ParserBlock} {p : Int32}, convertStack s a = .ok (st, p, c) →
      st.length = stackSize s ∧ (st = [] ∧ p = -1 ∨ ∃ p' q, st.head? = some p' ∧ st.getLast? = some q ∧
        intStr p.toInt = q.id ∧ (intStr p.toInt = p'.id ↔ st.length = 1)) := by
    intro s a c st p hs
    have e := convertStack_seq _ _ _ _ _ hs
    have e2 := convertStack_ready _ _ _ _ _ hs
    have e1 := e.1.1
    refine ⟨by omega, ?_⟩
    rcases e.2 with h | ⟨hne, hc, rfl⟩
    · exact .inl h
    · right
      cases hst : st with
      | nil => exact absurd hst hne
      | cons x xs =>
        have hl := List.getLast?_eq_some_getLast hne
        have hlast := e.1.last hl
        refine ⟨x, st.getLast hne, rfl, hst ▸ hl, ?_, ?_⟩
        · rw [Int32.toInt_ofNat_of_lt (by omega), hlast]; rfl
        · have hx : x.id = natStr 10 (a + 1) := by
            have := e.1.2
            rw [hst] at this
            simp only [List.map_cons, List.length_cons, idsFrom, List.range'_succ] at this
            exact (List.cons.inj this).1
          rw [Int32.toInt_ofNat_of_lt (by omega), hx]
          have hi : intStr (c : Int) = natStr 10 c := rfl
          rw [hi]
          have hlen : st.length = (x :: xs).length := by rw [hst]
          constructor
          · intro h; have := natStr_inj h; omega
          · intro h; congr 1; omega
  obtain ⟨l1, k1⟩ := key h2
  obtain ⟨l2, k2⟩ := key h3
  exact ⟨_, args, b1, b2, rfl, emitted_written _ _ _ _ _ _, l1, l2, k1, k2⟩

/-- C46, what holds of arguments: the reference to an argument block is to the *last* of the blocks made of it, so it
is to the block itself iff that is the only one. Missing: argument blocks with arguments of their own. -/
theorem c46_arguments_partial (b : Block) (n : Option Str) (m : Str) (a : Argument Block)
    (ha : a = .string n (.block b) ∨ a = .number n (.block b) ∨ a = .boolean n (.block b) ∨ a = .menu m (.block b))
    (ctr : Nat) (p : Str) (ps : List ParserBlock) (k : Nat) (h : convertArg a ctr = .ok (p, ps, k)) :
    ∃ head tail, ps.head? = some head ∧ Written b head ∧ ps.getLast? = some tail ∧ ps.length = blockSize b ∧
      p = '@' :: tail.id ∧ (p = '@' :: head.id ↔ blockSize b = 1) := by
  have hb : ∃ c, convertBlock b ctr true = .ok (ps, c) ∧ p = refText c ∧ k = c := by
    rcases ha with rfl | rfl | rfl | rfl <;>
      (simp only [convertArg, convertStr, convertNum, convertBool, Out.bind_eq_ok, Prod.exists, Out.pure_eq, Out.ok.injEq,
        Prod.mk.injEq] at h
       obtain ⟨bs1, c1, h1, rfl, rfl, rfl⟩ := h
       exact ⟨_, h1, rfl, rfl⟩)
  clear h
  obtain ⟨c, h, rfl, rfl⟩ := hb
  obtain ⟨head, rest, rfl, hw, hid, _⟩ := convertBlock_head h
  have e := convertBlock_seq _ _ _ _ _ h
  have e2 := (convertBlock_ready _ _ _ _ _ h).2
  have hl := List.getLast?_eq_some_getLast (l := head :: rest) (by simp)
  have hlast := e.last hl
  have e1 := e.1
  refine ⟨head, _, rfl, hw, hl, by omega, by rw [hlast]; rfl, ?_⟩
  rw [hid, refText]
  constructor
  · intro h; simp only [List.cons.injEq, true_and] at h; have := natStr_inj h; omega
  · intro h; congr 2; omega

section Examples

/-- A block without arguments. -/
def exLeaf (op : Str) : Block := ⟨none, none, Color.fromRgb 1 2 3, op, [.text op], .regular⟩

/-- A tree with a substack of two blocks. -/
def exIf : Block :=
  ⟨some [exLeaf (s% "a"), exLeaf (s% "b")], none, Color.fromRgb 1 2 3, s% "if", [.text (s% "if")], .control .oneNest⟩

/-- A tree with an argument block that has an argument block. -/
def exNested : Block :=
  ⟨none, none, Color.fromRgb 1 2 3, s% "x", [.param (.string none (.block ⟨none, none, Color.fromRgb 1 2 3, s% "outer",
    [.param (.string none (.block (exLeaf (s% "inner"))))], .argument .string⟩))], .regular⟩

omit [Floats] in
theorem exDigits : natStr 10 10 = s% "10" ∧ natStr 10 11 = s% "11" ∧ natStr 10 12 = s% "12" ∧ natStr 10 13 = s% "13" := by
  decide +kernel

omit [Floats] in
theorem exLast : parseSigned (-2147483648) 2147483647 (s% "12") = some 12 := by decide +kernel

/-- C46 is false of substacks: the pointer to a substack with two blocks is to the second one. -/
theorem c46_substacks_false : ∃ (bs : List Block) (b1 b2 b3 : ParserBlock), toContainer bs = .ok ⟨[b1, b2, b3]⟩ ∧
    b2.nextBlock = 12 ∧ b3.nextBlock = -1 ∧ b1.subStack1 = 12 := by
  refine ⟨[exIf], emitted exIf 10 (-1) [] 12 (-1), emitted (exLeaf (s% "a")) 11 12 [] (-1) (-1),
    emitted (exLeaf (s% "b")) 12 (-1) [] (-1) (-1), ?_, rfl, rfl, rfl⟩
  simp [toContainer, convertBlocks, convertBlock, convertItems, convertItem, convertStack, exIf, exLeaf, lastId, nextOf,
    emitted, exDigits, exLast]

/-- C46 is false of arguments: the reference to an argument block with an argument is to the inner one. -/
theorem c46_arguments_false : ∃ (bs : List Block) (b1 b2 b3 : ParserBlock), toContainer bs = .ok ⟨[b1, b2, b3]⟩ ∧
    b2.opCode = s% "outer" ∧ b2.id = s% "11" ∧ b1.parameters = [s% "@12"] :=
  ⟨[exNested], _, _, _, rfl, rfl, exDigits.2.1, congrArg (fun s : Str => ['@' :: s]) exDigits.2.2.1⟩

/-- A tree with a chain, a substack and an argument. -/
example : ∃ c, toContainer [⟨some [exLeaf (s% "a")], none, Color.fromRgb 1 2 3, s% "if",
      [.param (.boolean none (.value true))], .control .oneNest⟩, exLeaf (s% "b")] = .ok c ∧
    c.blocks.map (·.id) = [s% "10", s% "11", s% "12", s% "13"] ∧ c.blocks.map (·.nextBlock) = [13, -1, -1, -1] := by
  simp [toContainer, convertBlocks, convertBlock, convertItems, convertItem, convertArg, convertBool, convertStack, exLeaf,
    lastId, nextOf, emitted, emitBool, exDigits, exLast]
  exact ⟨exDigits.2.2.2, rfl⟩
example : ¬ blocksReady [⟨none, none, Color.fromRgb 1 2 3, s% "x", [.param (.string none (.placeholder 3))], .regular⟩] := by
  simp [blocksReady, blockReady, itemsReady, itemReady, argReady, strReady]

/-- `c44_converts`, `c44_ids`, `c44_distinct` and `c45_chain_partial` on a tree with a substack: their hypotheses are met. -/
example : blocksReady [exIf, exLeaf (s% "c")] ∧ blocksSize [exIf, exLeaf (s% "c")] = 4 ∧
    ∃ c, toContainer [exIf, exLeaf (s% "c")] = .ok c ∧ c.blocks.length = 4 := by
  have h1 : blocksReady [exIf, exLeaf (s% "c")] := by simp [blocksReady, blockReady, itemsReady, itemReady, stackReady, exIf, exLeaf]
  have h2 : blocksSize [exIf, exLeaf (s% "c")] = 4 := by simp [blocksSize, blockSize, itemsSize, itemSize, stackSize, exIf, exLeaf]
  obtain ⟨c, hc, hl⟩ := (c44_converts _).1 h1 (by omega)
  exact ⟨h1, h2, c, hc, by omega⟩
end Examples

end Swrs.Api
