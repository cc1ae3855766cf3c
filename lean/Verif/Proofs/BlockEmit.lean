import Verif.Model.ApiBlock
import Verif.Base.StrLemmas
/-!
# The container made of a list of blocks: ids, pointers
-/
namespace Swrs.Api
variable [Floats]

/-- The texts of `n` consecutive numbers after `ctr`. -/
def idsFrom (ctr n : Nat) : List Str := (List.range' (ctr + 1) n).map (natStr 10)

omit [Floats] in
theorem idsFrom_append (ctr m n : Nat) : idsFrom ctr (m + n) = idsFrom ctr m ++ idsFrom (ctr + m) n := by
  unfold idsFrom
  rw [← List.map_append, ← List.range'_append_1]
  congr 3
  omega

/-- The blocks have the ids after `ctr`, and `ctr'` is the last one. -/
def Seq (ctr : Nat) (ps : List ParserBlock) (ctr' : Nat) : Prop := ctr' = ctr + ps.length ∧ ps.map (·.id) = idsFrom ctr ps.length

omit [Floats] in
theorem Seq.nil (ctr : Nat) : Seq ctr [] ctr := ⟨rfl, rfl⟩

omit [Floats] in
theorem Seq.append {a b c : Nat} {ps qs : List ParserBlock} (h : Seq a ps b) (h' : Seq b qs c) : Seq a (ps ++ qs) c := by
  obtain ⟨h1, h2⟩ := h
  obtain ⟨h3, h4⟩ := h'
  subst h1
  refine ⟨by rw [h3, List.length_append]; omega, ?_⟩
  rw [List.map_append, h2, h4, List.length_append, idsFrom_append]

omit [Floats] in
theorem Seq.single {a : Nat} {p : ParserBlock} (h : p.id = natStr 10 (a + 1)) : Seq a [p] (a + 1) := ⟨rfl, by simp [h, idsFrom]⟩

omit [Floats] in
theorem parseSigned_natStr {hi n : Nat} : parseSigned (-2147483648) hi (natStr 10 n) = if n ≤ hi then some (n : Int) else none := by
  unfold parseSigned
  rw [signSplit_natStr]
  have hd : digitsVal 10 (natStr 10 n) 0 = some n := by
    have := digitsVal_natStr_acc (b := 10) (by decide) (by decide) n
    simpa using this
  simp only [natStr_ne_nil, if_false, hd]
  by_cases h : n ≤ hi
  · simp [h]
  · simp [h]

omit [Floats] in
theorem Seq.last {a c : Nat} {ps : List ParserBlock} {p : ParserBlock} (h : Seq a ps c) (hp : ps.getLast? = some p) :
    p.id = natStr 10 c := by
  obtain ⟨h1, h2⟩ := h
  have h3 : (ps.map (·.id)).getLast? = some p.id := by rw [List.getLast?_map, hp]; rfl
  rw [h2] at h3
  have hne : ps ≠ [] := by rintro rfl; simp at hp
  have hl : 0 < ps.length := List.length_pos_iff.mpr hne
  unfold idsFrom at h3
  rw [List.getLast?_map, List.getLast?_range'] at h3
  rw [if_neg (by omega)] at h3
  simp only [Option.map_some, Option.some.injEq] at h3
  rw [← h3, h1]
  congr 1
  omega

omit [Floats] in
theorem lastId_ok {a c : Nat} {ps : List ParserBlock} {p : Int32} (h : Seq a ps c) :
    lastId ps = .ok p ↔ (ps = [] ∧ p = -1) ∨ (ps ≠ [] ∧ c ≤ 2147483647 ∧ p = Int32.ofNat c) := by
  unfold lastId
  cases hp : ps.getLast? with
  | none =>
    rw [List.getLast?_eq_none_iff] at hp
    simp [hp, eq_comm]
  | some b =>
    have hne : ps ≠ [] := by rintro rfl; simp at hp
    have hb := h.last hp
    have := parseSigned_natStr (hi := 2147483647) (n := c)
    simp only [hb]
    rw [show ((2147483647 : Int)) = ((2147483647 : Nat) : Int) from rfl, this]
    by_cases hc : c ≤ 2147483647
    · simp [hc, hne, eq_comm, Int32.ofNat, Int32.ofInt]
    · simp [hc, hne]

omit [Floats] in
theorem ofNat_ne {c : Nat} (h : c ≤ 2147483647) : Int32.ofNat c ≠ -1 := by
  intro h'
  have := congrArg Int32.toInt h'
  rw [Int32.toInt_ofNat_of_lt (by omega)] at this
  have e : Int32.toInt (-1) = -1 := by decide
  rw [e] at this
  omega

omit [Floats] in
theorem pointerId_ofNat {c : Nat} : pointerId (Int32.ofNat c) = UInt32.ofNat c := by
  rfl

omit [Floats] in
theorem afterStack_ofNat {c ctr : Nat} (h : c ≤ 2147483647) : afterStack (Int32.ofNat c) ctr = c := by
  unfold afterStack
  rw [if_pos (ofNat_ne h)]
  have := pointerId_ofNat (c := c)
  unfold pointerId at this
  rw [this]
  simp
  omega

mutual
theorem convertBlock_seq : ∀ (b : Block) (ctr : Nat) (last : Bool) (ps : List ParserBlock) (c : Nat),
    convertBlock b ctr last = .ok (ps, c) → Seq ctr ps c
  | ⟨s1, s2, color, op, content, t⟩, ctr, last, ps, c, h => by
    simp only [convertBlock, Out.bind_eq_ok, Prod.exists, Out.pure_eq, Out.ok.injEq, Prod.mk.injEq] at h
    obtain ⟨params, args, c1, h1, b1, p1, c2, h2, b2, p2, c3, h3, rfl, rfl⟩ := h
    have e1 := convertItems_seq content _ _ _ _ h1
    have e2 := (convertStack_seq s1 _ _ _ _ h2).1
    have e3 := (convertStack_seq s2 _ _ _ _ h3).1
    exact (Seq.single (p := emitted _ _ _ _ _ _) rfl).append (e1.append (e2.append e3))
theorem convertStack_seq : ∀ (s : Option (List Block)) (ctr : Nat) (ps : List ParserBlock) (p : Int32) (c : Nat),
    convertStack s ctr = .ok (ps, p, c) → Seq ctr ps c ∧
      ((ps = [] ∧ p = -1) ∨ (ps ≠ [] ∧ c ≤ 2147483647 ∧ p = Int32.ofNat c))
  | none, ctr, ps, p, c, h => by
    simp only [convertStack, Out.ok.injEq, Prod.mk.injEq] at h
    obtain ⟨rfl, rfl, rfl⟩ := h
    exact ⟨.nil _, .inl ⟨rfl, rfl⟩⟩
  | some bs, ctr, ps, p, c, h => by
    simp only [convertStack, Out.bind_eq_ok, Prod.exists, Out.pure_eq, Out.ok.injEq, Prod.mk.injEq] at h
    obtain ⟨qs, c', h1, l, h2, rfl, rfl, rfl⟩ := h
    have e := convertBlocks_seq bs _ _ _ h1
    rcases (lastId_ok e).mp h2 with ⟨rfl, rfl⟩ | ⟨h3, h4, rfl⟩
    · exact ⟨by simpa [afterStack] using Seq.nil ctr, .inl ⟨rfl, rfl⟩⟩
    · rw [afterStack_ofNat h4]
      exact ⟨e, .inr ⟨h3, h4, rfl⟩⟩
theorem convertBlocks_seq : ∀ (bs : List Block) (ctr : Nat) (ps : List ParserBlock) (c : Nat),
    convertBlocks bs ctr = .ok (ps, c) → Seq ctr ps c
  | [], ctr, ps, c, h => by
    simp only [convertBlocks, Out.ok.injEq, Prod.mk.injEq] at h
    obtain ⟨rfl, rfl⟩ := h
    exact .nil _
  | b :: bs, ctr, ps, c, h => by
    simp only [convertBlocks, Out.bind_eq_ok, Prod.exists, Out.pure_eq, Out.ok.injEq, Prod.mk.injEq] at h
    obtain ⟨qs, c1, h1, rs, c2, h2, rfl, rfl⟩ := h
    exact (convertBlock_seq b _ _ _ _ h1).append (convertBlocks_seq bs _ _ _ h2)
theorem convertItems_seq : ∀ (is : List (SpecItem Block)) (ctr : Nat) (ps : List Str) (bs : List ParserBlock) (c : Nat),
    convertItems is ctr = .ok (ps, bs, c) → Seq ctr bs c
  | [], ctr, ps, bs, c, h => by
    simp only [convertItems, Out.ok.injEq, Prod.mk.injEq] at h
    obtain ⟨rfl, rfl, rfl⟩ := h
    exact .nil _
  | i :: is, ctr, ps, bs, c, h => by
    simp only [convertItems, Out.bind_eq_ok, Prod.exists, Out.pure_eq, Out.ok.injEq, Prod.mk.injEq] at h
    obtain ⟨ps1, bs1, c1, h1, ps2, bs2, c2, h2, rfl, rfl, rfl⟩ := h
    exact (convertItem_seq i _ _ _ _ h1).append (convertItems_seq is _ _ _ _ h2)
theorem convertItem_seq : ∀ (i : SpecItem Block) (ctr : Nat) (ps : List Str) (bs : List ParserBlock) (c : Nat),
    convertItem i ctr = .ok (ps, bs, c) → Seq ctr bs c
  | .text _, ctr, ps, bs, c, h => by
    simp only [convertItem, Out.ok.injEq, Prod.mk.injEq] at h
    obtain ⟨rfl, rfl, rfl⟩ := h
    exact .nil _
  | .param a, ctr, ps, bs, c, h => by
    simp only [convertItem, Out.bind_eq_ok, Prod.exists, Out.pure_eq, Out.ok.injEq, Prod.mk.injEq] at h
    obtain ⟨p, bs1, c1, h1, rfl, rfl, rfl⟩ := h
    exact convertArg_seq a _ _ _ _ h1
theorem convertArg_seq : ∀ (a : Argument Block) (ctr : Nat) (p : Str) (bs : List ParserBlock) (c : Nat),
    convertArg a ctr = .ok (p, bs, c) → Seq ctr bs c
  | .string _ v, ctr, p, bs, c, h => convertStr_seq v ctr p bs c (by simpa only [convertArg] using h)
  | .number _ v, ctr, p, bs, c, h => convertNum_seq v ctr p bs c (by simpa only [convertArg] using h)
  | .boolean _ v, ctr, p, bs, c, h => convertBool_seq v ctr p bs c (by simpa only [convertArg] using h)
  | .menu _ v, ctr, p, bs, c, h => convertStr_seq v ctr p bs c (by simpa only [convertArg] using h)
theorem convertStr_seq : ∀ (v : ArgValue Block Str) (ctr : Nat) (p : Str) (bs : List ParserBlock) (c : Nat),
    convertStr v ctr = .ok (p, bs, c) → Seq ctr bs c
  | .value _, ctr, p, bs, c, h => by
    simp only [convertStr, Out.ok.injEq, Prod.mk.injEq] at h
    obtain ⟨rfl, rfl, rfl⟩ := h
    exact .nil _
  | .empty, ctr, p, bs, c, h => by
    simp only [convertStr, Out.ok.injEq, Prod.mk.injEq] at h
    obtain ⟨rfl, rfl, rfl⟩ := h
    exact .nil _
  | .placeholder _, ctr, p, bs, c, h => by simp [convertStr] at h
  | .block b, ctr, p, bs, c, h => by
    simp only [convertStr, Out.bind_eq_ok, Prod.exists, Out.pure_eq, Out.ok.injEq, Prod.mk.injEq] at h
    obtain ⟨bs1, c1, h1, rfl, rfl, rfl⟩ := h
    exact convertBlock_seq b _ _ _ _ h1
theorem convertNum_seq : ∀ (v : ArgValue Block Floats.F64) (ctr : Nat) (p : Str) (bs : List ParserBlock) (c : Nat),
    convertNum v ctr = .ok (p, bs, c) → Seq ctr bs c
  | .value _, ctr, p, bs, c, h => by
    simp only [convertNum, Out.ok.injEq, Prod.mk.injEq] at h
    obtain ⟨rfl, rfl, rfl⟩ := h
    exact .nil _
  | .empty, ctr, p, bs, c, h => by
    simp only [convertNum, Out.ok.injEq, Prod.mk.injEq] at h
    obtain ⟨rfl, rfl, rfl⟩ := h
    exact .nil _
  | .placeholder _, ctr, p, bs, c, h => by simp [convertNum] at h
  | .block b, ctr, p, bs, c, h => by
    simp only [convertNum, Out.bind_eq_ok, Prod.exists, Out.pure_eq, Out.ok.injEq, Prod.mk.injEq] at h
    obtain ⟨bs1, c1, h1, rfl, rfl, rfl⟩ := h
    exact convertBlock_seq b _ _ _ _ h1
theorem convertBool_seq : ∀ (v : ArgValue Block Bool) (ctr : Nat) (p : Str) (bs : List ParserBlock) (c : Nat),
    convertBool v ctr = .ok (p, bs, c) → Seq ctr bs c
  | .value _, ctr, p, bs, c, h => by
    simp only [convertBool, Out.ok.injEq, Prod.mk.injEq] at h
    obtain ⟨rfl, rfl, rfl⟩ := h
    exact .single rfl
  | .empty, ctr, p, bs, c, h => by
    simp only [convertBool, Out.ok.injEq, Prod.mk.injEq] at h
    obtain ⟨rfl, rfl, rfl⟩ := h
    exact .nil _
  | .placeholder _, ctr, p, bs, c, h => by simp [convertBool] at h
  | .block b, ctr, p, bs, c, h => by
    simp only [convertBool, Out.bind_eq_ok, Prod.exists, Out.pure_eq, Out.ok.injEq, Prod.mk.injEq] at h
    obtain ⟨bs1, c1, h1, rfl, rfl, rfl⟩ := h
    exact convertBlock_seq b _ _ _ _ h1
end

mutual
/-- There is no argument whose block is still to be found. -/
def blockReady : Block → Prop
  | ⟨s1, s2, _, _, content, _⟩ => itemsReady content ∧ stackReady s1 ∧ stackReady s2
/-- See `blockReady`. -/
def stackReady : Option (List Block) → Prop
  | none => True
  | some bs => blocksReady bs
/-- See `blockReady`. -/
def blocksReady : List Block → Prop
  | [] => True
  | b :: bs => blockReady b ∧ blocksReady bs
/-- See `blockReady`. -/
def itemsReady : List (SpecItem Block) → Prop
  | [] => True
  | i :: is => itemReady i ∧ itemsReady is
/-- See `blockReady`. -/
def itemReady : SpecItem Block → Prop
  | .text _ => True
  | .param a => argReady a
/-- See `blockReady`. -/
def argReady : Argument Block → Prop
  | .string _ v => strReady v
  | .number _ v => numReady v
  | .boolean _ v => boolReady v
  | .menu _ v => strReady v
/-- See `blockReady`. -/
def strReady : ArgValue Block Str → Prop
  | .block b => blockReady b
  | .placeholder _ => False
  | _ => True
/-- See `blockReady`. -/
def numReady : ArgValue Block Floats.F64 → Prop
  | .block b => blockReady b
  | .placeholder _ => False
  | _ => True
/-- See `blockReady`. -/
def boolReady : ArgValue Block Bool → Prop
  | .block b => blockReady b
  | .placeholder _ => False
  | _ => True
end

mutual
/-- The number of blocks in a tree, with one for each boolean literal. -/
def blockSize : Block → Nat
  | ⟨s1, s2, _, _, content, _⟩ => 1 + (itemsSize content + (stackSize s1 + stackSize s2))
/-- See `blockSize`. -/
def stackSize : Option (List Block) → Nat
  | none => 0
  | some bs => blocksSize bs
/-- See `blockSize`. -/
def blocksSize : List Block → Nat
  | [] => 0
  | b :: bs => blockSize b + blocksSize bs
/-- See `blockSize`. -/
def itemsSize : List (SpecItem Block) → Nat
  | [] => 0
  | i :: is => itemSize i + itemsSize is
/-- See `blockSize`. -/
def itemSize : SpecItem Block → Nat
  | .text _ => 0
  | .param a => argSize a
/-- See `blockSize`. -/
def argSize : Argument Block → Nat
  | .string _ v => strSize v
  | .number _ v => numSize v
  | .boolean _ v => boolSize v
  | .menu _ v => strSize v
/-- See `blockSize`. -/
def strSize : ArgValue Block Str → Nat
  | .value _ => 0
  | .block b => blockSize b
  | _ => 0
/-- See `blockSize`. -/
def numSize : ArgValue Block Floats.F64 → Nat
  | .value _ => 0
  | .block b => blockSize b
  | _ => 0
/-- See `blockSize`. -/
def boolSize : ArgValue Block Bool → Nat
  | .value _ => 1
  | .block b => blockSize b
  | _ => 0
end

mutual
theorem convertBlock_size : ∀ (b : Block) (ctr : Nat) (last : Bool), blockReady b → ctr + blockSize b ≤ 2147483647 →
    ∃ ps, convertBlock b ctr last = .ok (ps, ctr + blockSize b)
  | ⟨s1, s2, color, op, content, t⟩, ctr, last, hr, hs => by
    simp only [blockReady, blockSize] at hr hs ⊢
    obtain ⟨hr1, hr2, hr3⟩ := hr
    obtain ⟨params, args, h1⟩ := convertItems_size content (ctr + 1) hr1 (by omega)
    obtain ⟨b1, p1, h2⟩ := convertStack_size s1 (ctr + 1 + itemsSize content) hr2 (by omega)
    obtain ⟨b2, p2, h3⟩ := convertStack_size s2 (ctr + 1 + itemsSize content + stackSize s1) hr3 (by omega)
    rw [show ctr + (1 + (itemsSize content + (stackSize s1 + stackSize s2))) =
      ctr + 1 + itemsSize content + stackSize s1 + stackSize s2 by omega]
    simp only [convertBlock, h1, h2, h3, Out.ok_bind, Out.pure_eq]
    exact ⟨_, rfl⟩
theorem convertStack_size : ∀ (s : Option (List Block)) (ctr : Nat), stackReady s → ctr + stackSize s ≤ 2147483647 →
    ∃ ps p, convertStack s ctr = .ok (ps, p, ctr + stackSize s)
  | none, ctr, _, _ => by simp only [convertStack, stackSize, Nat.add_zero]; exact ⟨_, _, rfl⟩
  | some bs, ctr, hr, hs => by
    simp only [stackReady, stackSize] at hr hs ⊢
    obtain ⟨ps, h⟩ := convertBlocks_size bs ctr hr hs
    have e := convertBlocks_seq _ _ _ _ h
    by_cases hn : ps = []
    · subst hn
      have e1 := e.1
      refine ⟨[], -1, ?_⟩
      simp only [convertStack, h, Out.ok_bind, lastId, List.getLast?_nil, Out.pure_eq, afterStack, ne_eq, not_true, if_false]
      simp at e1
      simp [e1]
    · have := (lastId_ok (p := Int32.ofNat (ctr + blocksSize bs)) e).mpr (.inr ⟨hn, hs, rfl⟩)
      refine ⟨ps, Int32.ofNat (ctr + blocksSize bs), ?_⟩
      simp only [convertStack, h, Out.ok_bind, this, Out.pure_eq, afterStack_ofNat hs]
theorem convertBlocks_size : ∀ (bs : List Block) (ctr : Nat), blocksReady bs → ctr + blocksSize bs ≤ 2147483647 →
    ∃ ps, convertBlocks bs ctr = .ok (ps, ctr + blocksSize bs)
  | [], ctr, _, _ => by simp only [convertBlocks, blocksSize, Nat.add_zero]; exact ⟨_, rfl⟩
  | b :: bs, ctr, hr, hs => by
    simp only [blocksReady, blocksSize] at hr hs ⊢
    obtain ⟨ps, h1⟩ := convertBlock_size b ctr bs.isEmpty hr.1 (by omega)
    obtain ⟨qs, h2⟩ := convertBlocks_size bs (ctr + blockSize b) hr.2 (by omega)
    rw [← Nat.add_assoc]
    simp only [convertBlocks, h1, h2, Out.ok_bind, Out.pure_eq]
    exact ⟨_, rfl⟩
theorem convertItems_size : ∀ (is : List (SpecItem Block)) (ctr : Nat), itemsReady is → ctr + itemsSize is ≤ 2147483647 →
    ∃ ps bs, convertItems is ctr = .ok (ps, bs, ctr + itemsSize is)
  | [], ctr, _, _ => by simp only [convertItems, itemsSize, Nat.add_zero]; exact ⟨_, _, rfl⟩
  | i :: is, ctr, hr, hs => by
    simp only [itemsReady, itemsSize] at hr hs ⊢
    obtain ⟨ps, bs, h1⟩ := convertItem_size i ctr hr.1 (by omega)
    obtain ⟨qs, cs, h2⟩ := convertItems_size is (ctr + itemSize i) hr.2 (by omega)
    rw [← Nat.add_assoc]
    simp only [convertItems, h1, h2, Out.ok_bind, Out.pure_eq]
    exact ⟨_, _, rfl⟩
theorem convertItem_size : ∀ (i : SpecItem Block) (ctr : Nat), itemReady i → ctr + itemSize i ≤ 2147483647 →
    ∃ ps bs, convertItem i ctr = .ok (ps, bs, ctr + itemSize i)
  | .text _, ctr, _, _ => by simp only [convertItem, itemSize, Nat.add_zero]; exact ⟨_, _, rfl⟩
  | .param a, ctr, hr, hs => by
    simp only [itemReady, itemSize] at hr hs ⊢
    obtain ⟨p, bs, h⟩ := convertArg_size a ctr hr hs
    simp only [convertItem, h, Out.ok_bind, Out.pure_eq]
    exact ⟨_, _, rfl⟩
theorem convertArg_size : ∀ (a : Argument Block) (ctr : Nat), argReady a → ctr + argSize a ≤ 2147483647 →
    ∃ p bs, convertArg a ctr = .ok (p, bs, ctr + argSize a)
  | .string _ v, ctr, hr, hs => by
    simp only [argReady, argSize, convertArg] at hr hs ⊢; exact convertStr_size v ctr hr hs
  | .number _ v, ctr, hr, hs => by
    simp only [argReady, argSize, convertArg] at hr hs ⊢; exact convertNum_size v ctr hr hs
  | .boolean _ v, ctr, hr, hs => by
    simp only [argReady, argSize, convertArg] at hr hs ⊢; exact convertBool_size v ctr hr hs
  | .menu _ v, ctr, hr, hs => by
    simp only [argReady, argSize, convertArg] at hr hs ⊢; exact convertStr_size v ctr hr hs
theorem convertStr_size : ∀ (v : ArgValue Block Str) (ctr : Nat), strReady v → ctr + strSize v ≤ 2147483647 →
    ∃ p bs, convertStr v ctr = .ok (p, bs, ctr + strSize v)
  | .value _, ctr, _, _ => by simp only [convertStr, strSize, Nat.add_zero]; exact ⟨_, _, rfl⟩
  | .empty, ctr, _, _ => by simp only [convertStr, strSize, Nat.add_zero]; exact ⟨_, _, rfl⟩
  | .placeholder _, ctr, hr, _ => by simp [strReady] at hr
  | .block b, ctr, hr, hs => by
    simp only [strReady, strSize] at hr hs ⊢
    obtain ⟨ps, h⟩ := convertBlock_size b ctr true hr hs
    simp only [convertStr, h, Out.ok_bind, Out.pure_eq]
    exact ⟨_, _, rfl⟩
theorem convertNum_size : ∀ (v : ArgValue Block Floats.F64) (ctr : Nat), numReady v → ctr + numSize v ≤ 2147483647 →
    ∃ p bs, convertNum v ctr = .ok (p, bs, ctr + numSize v)
  | .value _, ctr, _, _ => by simp only [convertNum, numSize, Nat.add_zero]; exact ⟨_, _, rfl⟩
  | .empty, ctr, _, _ => by simp only [convertNum, numSize, Nat.add_zero]; exact ⟨_, _, rfl⟩
  | .placeholder _, ctr, hr, _ => by simp [numReady] at hr
  | .block b, ctr, hr, hs => by
    simp only [numReady, numSize] at hr hs ⊢
    obtain ⟨ps, h⟩ := convertBlock_size b ctr true hr hs
    simp only [convertNum, h, Out.ok_bind, Out.pure_eq]
    exact ⟨_, _, rfl⟩
theorem convertBool_size : ∀ (v : ArgValue Block Bool) (ctr : Nat), boolReady v → ctr + boolSize v ≤ 2147483647 →
    ∃ p bs, convertBool v ctr = .ok (p, bs, ctr + boolSize v)
  | .value _, ctr, _, _ => by simp only [convertBool, boolSize]; exact ⟨_, _, rfl⟩
  | .empty, ctr, _, _ => by simp only [convertBool, boolSize, Nat.add_zero]; exact ⟨_, _, rfl⟩
  | .placeholder _, ctr, hr, _ => by simp [boolReady] at hr
  | .block b, ctr, hr, hs => by
    simp only [boolReady, boolSize] at hr hs ⊢
    obtain ⟨ps, h⟩ := convertBlock_size b ctr true hr hs
    simp only [convertBool, h, Out.ok_bind, Out.pure_eq]
    exact ⟨_, _, rfl⟩
end

mutual
theorem convertBlock_ready : ∀ (b : Block) (ctr : Nat) (last : Bool) (ps : List ParserBlock) (c : Nat),
    convertBlock b ctr last = .ok (ps, c) → blockReady b ∧ c = ctr + blockSize b
  | ⟨s1, s2, color, op, content, t⟩, ctr, last, ps, c, h => by
    simp only [convertBlock, Out.bind_eq_ok, Prod.exists, Out.pure_eq, Out.ok.injEq, Prod.mk.injEq] at h
    obtain ⟨params, args, c1, h1, b1, p1, c2, h2, b2, p2, c3, h3, rfl, rfl⟩ := h
    have e1 := convertItems_ready content _ _ _ _ h1
    have e2 := convertStack_ready s1 _ _ _ _ h2
    have e3 := convertStack_ready s2 _ _ _ _ h3
    exact ⟨by simp only [blockReady]; exact ⟨e1.1, e2.1, e3.1⟩, by simp only [blockSize]; omega⟩
theorem convertStack_ready : ∀ (s : Option (List Block)) (ctr : Nat) (ps : List ParserBlock) (p : Int32) (c : Nat),
    convertStack s ctr = .ok (ps, p, c) → stackReady s ∧ c = ctr + stackSize s
  | none, ctr, ps, p, c, h => by
    simp only [convertStack, Out.ok.injEq, Prod.mk.injEq] at h
    simp [stackReady, stackSize, h.2.2]
  | some bs, ctr, ps, p, c, h => by
    have e := convertStack_seq _ _ _ _ _ h
    simp only [convertStack, Out.bind_eq_ok, Prod.exists, Out.pure_eq, Out.ok.injEq, Prod.mk.injEq] at h
    obtain ⟨qs, c', h1, l, h2, rfl, rfl, h3⟩ := h
    have e' := convertBlocks_ready bs _ _ _ h1
    have e1 := convertBlocks_seq bs _ _ _ h1
    simp only [stackReady, stackSize]
    refine ⟨e'.1, ?_⟩
    have := e1.1
    have := e.1.1
    omega
theorem convertBlocks_ready : ∀ (bs : List Block) (ctr : Nat) (ps : List ParserBlock) (c : Nat),
    convertBlocks bs ctr = .ok (ps, c) → blocksReady bs ∧ c = ctr + blocksSize bs
  | [], ctr, ps, c, h => by
    simp only [convertBlocks, Out.ok.injEq, Prod.mk.injEq] at h
    simp [blocksReady, blocksSize, h.2]
  | b :: bs, ctr, ps, c, h => by
    simp only [convertBlocks, Out.bind_eq_ok, Prod.exists, Out.pure_eq, Out.ok.injEq, Prod.mk.injEq] at h
    obtain ⟨qs, c1, h1, rs, c2, h2, rfl, rfl⟩ := h
    have e1 := convertBlock_ready b _ _ _ _ h1
    have e2 := convertBlocks_ready bs _ _ _ h2
    exact ⟨by simp only [blocksReady]; exact ⟨e1.1, e2.1⟩, by simp only [blocksSize]; omega⟩
theorem convertItems_ready : ∀ (is : List (SpecItem Block)) (ctr : Nat) (ps : List Str) (bs : List ParserBlock) (c : Nat),
    convertItems is ctr = .ok (ps, bs, c) → itemsReady is ∧ c = ctr + itemsSize is
  | [], ctr, ps, bs, c, h => by
    simp only [convertItems, Out.ok.injEq, Prod.mk.injEq] at h
    simp [itemsReady, itemsSize, h.2.2]
  | i :: is, ctr, ps, bs, c, h => by
    simp only [convertItems, Out.bind_eq_ok, Prod.exists, Out.pure_eq, Out.ok.injEq, Prod.mk.injEq] at h
    obtain ⟨ps1, bs1, c1, h1, ps2, bs2, c2, h2, rfl, rfl, rfl⟩ := h
    have e1 := convertItem_ready i _ _ _ _ h1
    have e2 := convertItems_ready is _ _ _ _ h2
    exact ⟨by simp only [itemsReady]; exact ⟨e1.1, e2.1⟩, by simp only [itemsSize]; omega⟩
theorem convertItem_ready : ∀ (i : SpecItem Block) (ctr : Nat) (ps : List Str) (bs : List ParserBlock) (c : Nat),
    convertItem i ctr = .ok (ps, bs, c) → itemReady i ∧ c = ctr + itemSize i
  | .text _, ctr, ps, bs, c, h => by
    simp only [convertItem, Out.ok.injEq, Prod.mk.injEq] at h
    simp [itemReady, itemSize, h.2.2]
  | .param a, ctr, ps, bs, c, h => by
    simp only [convertItem, Out.bind_eq_ok, Prod.exists, Out.pure_eq, Out.ok.injEq, Prod.mk.injEq] at h
    obtain ⟨p, bs1, c1, h1, rfl, rfl, rfl⟩ := h
    simp only [itemReady, itemSize]
    exact convertArg_ready a _ _ _ _ h1
theorem convertArg_ready : ∀ (a : Argument Block) (ctr : Nat) (p : Str) (bs : List ParserBlock) (c : Nat),
    convertArg a ctr = .ok (p, bs, c) → argReady a ∧ c = ctr + argSize a
  | .string _ v, ctr, p, bs, c, h => by
    simp only [argReady, argSize]; exact convertStr_ready v ctr p bs c (by simpa only [convertArg] using h)
  | .number _ v, ctr, p, bs, c, h => by
    simp only [argReady, argSize]; exact convertNum_ready v ctr p bs c (by simpa only [convertArg] using h)
  | .boolean _ v, ctr, p, bs, c, h => by
    simp only [argReady, argSize]; exact convertBool_ready v ctr p bs c (by simpa only [convertArg] using h)
  | .menu _ v, ctr, p, bs, c, h => by
    simp only [argReady, argSize]; exact convertStr_ready v ctr p bs c (by simpa only [convertArg] using h)
theorem convertStr_ready : ∀ (v : ArgValue Block Str) (ctr : Nat) (p : Str) (bs : List ParserBlock) (c : Nat),
    convertStr v ctr = .ok (p, bs, c) → strReady v ∧ c = ctr + strSize v
  | .value _, ctr, p, bs, c, h => by
    simp only [convertStr, Out.ok.injEq, Prod.mk.injEq] at h
    simp [strReady, strSize, h.2.2]
  | .empty, ctr, p, bs, c, h => by
    simp only [convertStr, Out.ok.injEq, Prod.mk.injEq] at h
    simp [strReady, strSize, h.2.2]
  | .placeholder _, ctr, p, bs, c, h => by simp [convertStr] at h
  | .block b, ctr, p, bs, c, h => by
    simp only [convertStr, Out.bind_eq_ok, Prod.exists, Out.pure_eq, Out.ok.injEq, Prod.mk.injEq] at h
    obtain ⟨bs1, c1, h1, rfl, rfl, rfl⟩ := h
    simp only [strReady, strSize]
    exact convertBlock_ready b _ _ _ _ h1
theorem convertNum_ready : ∀ (v : ArgValue Block Floats.F64) (ctr : Nat) (p : Str) (bs : List ParserBlock) (c : Nat),
    convertNum v ctr = .ok (p, bs, c) → numReady v ∧ c = ctr + numSize v
  | .value _, ctr, p, bs, c, h => by
    simp only [convertNum, Out.ok.injEq, Prod.mk.injEq] at h
    simp [numReady, numSize, h.2.2]
  | .empty, ctr, p, bs, c, h => by
    simp only [convertNum, Out.ok.injEq, Prod.mk.injEq] at h
    simp [numReady, numSize, h.2.2]
  | .placeholder _, ctr, p, bs, c, h => by simp [convertNum] at h
  | .block b, ctr, p, bs, c, h => by
    simp only [convertNum, Out.bind_eq_ok, Prod.exists, Out.pure_eq, Out.ok.injEq, Prod.mk.injEq] at h
    obtain ⟨bs1, c1, h1, rfl, rfl, rfl⟩ := h
    simp only [numReady, numSize]
    exact convertBlock_ready b _ _ _ _ h1
theorem convertBool_ready : ∀ (v : ArgValue Block Bool) (ctr : Nat) (p : Str) (bs : List ParserBlock) (c : Nat),
    convertBool v ctr = .ok (p, bs, c) → boolReady v ∧ c = ctr + boolSize v
  | .value _, ctr, p, bs, c, h => by
    simp only [convertBool, Out.ok.injEq, Prod.mk.injEq] at h
    simp [boolReady, boolSize, h.2.2]
  | .empty, ctr, p, bs, c, h => by
    simp only [convertBool, Out.ok.injEq, Prod.mk.injEq] at h
    simp [boolReady, boolSize, h.2.2]
  | .placeholder _, ctr, p, bs, c, h => by simp [convertBool] at h
  | .block b, ctr, p, bs, c, h => by
    simp only [convertBool, Out.bind_eq_ok, Prod.exists, Out.pure_eq, Out.ok.injEq, Prod.mk.injEq] at h
    obtain ⟨bs1, c1, h1, rfl, rfl, rfl⟩ := h
    simp only [boolReady, boolSize]
    exact convertBlock_ready b _ _ _ _ h1
end

end Swrs.Api
