import Verif.Model.Depth
/-!
# The depth of the calls when blocks are written
-/
namespace Swrs.Api
section
variable [Floats]

mutual
/-- The number of levels of a block: how deep it has blocks in its substacks and arguments. A boolean literal is a block. -/
def blockLevels : Block → Nat
  | ⟨s1, s2, _, _, content, _⟩ => max (itemsLevels content) (max (stackLevels s1) (stackLevels s2)) + 1
/-- See `blockLevels`. -/
def stackLevels : Option (List Block) → Nat
  | none => 0
  | some bs => blocksLevels bs
/-- See `blockLevels`. -/
def blocksLevels : List Block → Nat
  | [] => 0
  | b :: bs => max (blockLevels b) (blocksLevels bs)
/-- See `blockLevels`. -/
def itemsLevels : List (SpecItem Block) → Nat
  | [] => 0
  | i :: is => max (itemLevels i) (itemsLevels is)
/-- See `blockLevels`. -/
def itemLevels : SpecItem Block → Nat
  | .text _ => 0
  | .param a => argLevels a
/-- See `blockLevels`. -/
def argLevels : Argument Block → Nat
  | .string _ v => strLevels v
  | .number _ v => numLevels v
  | .boolean _ v => boolLevels v
  | .menu _ v => strLevels v
/-- See `blockLevels`. -/
def strLevels : ArgValue Block Str → Nat
  | .block b => blockLevels b
  | _ => 0
/-- See `blockLevels`. -/
def numLevels : ArgValue Block Floats.F64 → Nat
  | .block b => blockLevels b
  | _ => 0
/-- See `blockLevels`. -/
def boolLevels : ArgValue Block Bool → Nat
  | .value _ => 1
  | .block b => blockLevels b
  | _ => 0
end

theorem blockLevels_eq (b : Block) :
    blockLevels b = max (itemsLevels b.content) (max (stackLevels b.subStack1) (stackLevels b.subStack2)) + 1 := by
  cases b
  rw [blockLevels]
  rfl

theorem boolBlock_levels (x : Bool) : blockLevels (boolBlock x) = 1 := by
  cases x <;>
  · rw [blockLevels_eq]
    unfold boolBlock Block.new Block.content Block.subStack1 Block.subStack2
    simp only [itemsLevels, itemLevels, stackLevels]
    rfl

theorem convertBlock_eq (b : Block) (ctr : Nat) (last : Bool) : convertBlock b ctr last = (do
    let (params, args, ctr') ← convertItems b.content (ctr + 1)
    let (b1, p1, ctr') ← convertStack b.subStack1 ctr'
    let (b2, p2, ctr') ← convertStack b.subStack2 ctr'
    pure (emitted b (ctr + 1) (nextOf last ctr') params p1 p2 :: args ++ (b1 ++ b2), ctr')) := by
  cases b
  rw [convertBlock]
  rfl

/-- `go` is `convertBlock` for blocks of at most `d` levels, and fails for others. -/
def GoesTo (go : Block → Nat → Bool → Out Unit (List ParserBlock × Nat)) (d : Nat) : Prop :=
  ∀ b ctr last r, go b ctr last = .ok r ↔ convertBlock b ctr last = .ok r ∧ blockLevels b ≤ d

variable {go : Block → Nat → Bool → Out Unit (List ParserBlock × Nat)} {d : Nat}

theorem refWith_iff (h : GoesTo go d) (b : Block) (ctr : Nat) (r : Str × List ParserBlock × Nat) :
    refWith go b ctr = .ok r ↔ (∃ bs c, convertBlock b ctr true = .ok (bs, c) ∧ r = (refText c, bs, c)) ∧ blockLevels b ≤ d := by
  unfold refWith
  simp only [Out.bind_eq_ok, Prod.exists, h b ctr true, Out.pure_eq, Out.ok.injEq]
  constructor
  · rintro ⟨bs, c, ⟨h1, h2⟩, rfl⟩; exact ⟨⟨bs, c, h1, rfl⟩, h2⟩
  · rintro ⟨⟨bs, c, h1, rfl⟩, h2⟩; exact ⟨bs, c, ⟨h1, h2⟩, rfl⟩

theorem refBlock_iff (b : Block) (ctr : Nat) (r : Str × List ParserBlock × Nat) :
    ((do let (bs, ctr) ← convertBlock b ctr true; pure (refText ctr, bs, ctr) : Out Empty _) = .ok r) ↔
      ∃ bs c, convertBlock b ctr true = .ok (bs, c) ∧ r = (refText c, bs, c) := by
  simp only [Out.bind_eq_ok, Prod.exists, Out.pure_eq, Out.ok.injEq, eq_comm (b := r)]

theorem argWith_iff (h : GoesTo go d) (a : Argument Block) (ctr : Nat) (r : Str × List ParserBlock × Nat) :
    argWith go a ctr = .ok r ↔ convertArg a ctr = .ok r ∧ argLevels a ≤ d := by
  have hv : ∀ (x : Out Unit (Str × List ParserBlock × Nat)) (y : Out Empty (Str × List ParserBlock × Nat)) (a : Str × List ParserBlock × Nat),
      x = .ok a → y = .ok a → (x = .ok r ↔ y = .ok r ∧ 0 ≤ d) := by
    intro x y a hx hy
    rw [hx, hy]
    simp
  rcases a with ⟨n, v⟩ | ⟨n, v⟩ | ⟨n, v⟩ | ⟨n, v⟩ <;> cases v
  all_goals simp only [convertArg, argLevels, strLevels, numLevels, boolLevels, convertStr, convertNum, convertBool, argWith]
  all_goals first
    | exact hv _ _ _ rfl rfl
    | (simp; done)
    | (rw [refWith_iff h, refBlock_iff]; done)
    | skip
  next x =>
    rw [refWith_iff h, boolBlock_levels]
    have := emitBool_eq x ctr
    simp only [this, Out.ok.injEq, Prod.mk.injEq]
    constructor
    · rintro ⟨⟨bs, c, ⟨rfl, rfl⟩, rfl⟩, h2⟩; exact ⟨rfl, h2⟩
    · rintro ⟨rfl, h2⟩; exact ⟨⟨_, _, ⟨rfl, rfl⟩, rfl⟩, h2⟩

theorem itemsWith_iff (h : GoesTo go d) : ∀ (is : List (SpecItem Block)) (ctr : Nat) (r : List Str × List ParserBlock × Nat),
    itemsWith go is ctr = .ok r ↔ convertItems is ctr = .ok r ∧ itemsLevels is ≤ d
  | [], ctr, r => by
    rw [itemsWith, convertItems, itemsLevels]
    simp
  | .text s :: is, ctr, r => by
    rw [itemsWith, convertItems, itemsLevels, itemLevels, itemsWith_iff h is, convertItem, Out.ok_bind]
    dsimp only
    cases convertItems is ctr with
    | err e => exact e.elim
    | panic => simp
    | ok x =>
      obtain ⟨x1, x2, x3⟩ := x
      simp
  | .param a :: is, ctr, r => by
    rw [itemsWith, convertItems, itemsLevels, itemLevels, convertItem]
    simp only [Out.bind_eq_ok, Prod.exists, Out.pure_eq, Out.ok.injEq, Prod.mk.injEq, argWith_iff h a, itemsWith_iff h is]
    constructor
    · rintro ⟨p, bs, c, ⟨h1, h2⟩, ps, bs', c', ⟨h3, h4⟩, rfl⟩
      exact ⟨⟨[p], bs, c, ⟨p, bs, c, h1, rfl, rfl, rfl⟩, ps, bs', c', h3, rfl⟩, by omega⟩
    · rintro ⟨⟨_, _, _, ⟨p, bs, c, h1, rfl, rfl, rfl⟩, ps, bs', c', h3, rfl⟩, h2⟩
      exact ⟨p, bs, c, ⟨h1, by omega⟩, ps, bs', c', ⟨h3, by omega⟩, rfl⟩

theorem containerWith_iff (h : GoesTo go d) : ∀ (bs : List Block) (ctr : Nat) (r : List ParserBlock × Nat),
    containerWith go bs ctr = .ok r ↔ convertBlocks bs ctr = .ok r ∧ blocksLevels bs ≤ d
  | [], ctr, r => by
    rw [containerWith, convertBlocks, blocksLevels]
    simp
  | b :: bs, ctr, r => by
    rw [containerWith, convertBlocks, blocksLevels]
    simp only [Out.bind_eq_ok, Prod.exists, Out.pure_eq, Out.ok.injEq, h b ctr, containerWith_iff h bs]
    constructor
    · rintro ⟨ps, c, ⟨h1, h2⟩, qs, c', ⟨h3, h4⟩, rfl⟩
      exact ⟨⟨ps, c, h1, qs, c', h3, rfl⟩, by omega⟩
    · rintro ⟨⟨ps, c, h1, qs, c', h3, rfl⟩, h2⟩
      exact ⟨ps, c, ⟨h1, by omega⟩, qs, c', ⟨h3, by omega⟩, rfl⟩

theorem stackWith_iff (h : GoesTo go d) (s : Option (List Block)) (ctr : Nat) (r : List ParserBlock × Int32 × Nat) :
    stackWith go s ctr = .ok r ↔ convertStack s ctr = .ok r ∧ stackLevels s ≤ d := by
  cases s with
  | none =>
    rw [stackWith, convertStack, stackLevels]
    simp
  | some bs =>
    rw [stackWith, convertStack, stackLevels]
    simp only [Out.bind_eq_ok, Prod.exists, Out.pure_eq, Out.ok.injEq, containerWith_iff h bs, Out.mapErr_eq_ok]
    constructor
    · rintro ⟨ps, c, ⟨h1, h2⟩, l, h3, rfl⟩; exact ⟨⟨ps, c, h1, l, h3, rfl⟩, h2⟩
    · rintro ⟨⟨ps, c, h1, l, h3, rfl⟩, h2⟩; exact ⟨ps, c, ⟨h1, h2⟩, l, h3, rfl⟩

theorem convertAt_goes : ∀ d, GoesTo (convertAt d) d
  | 0 => fun b ctr last r => by
    rw [convertAt, blockLevels_eq]
    simp
  | d + 1 => fun b ctr last r => by
    have h := convertAt_goes d
    rw [convertAt, convertBlock_eq, blockLevels_eq]
    simp only [Out.bind_eq_ok, Prod.exists, Out.pure_eq, Out.ok.injEq, itemsWith_iff h, stackWith_iff h]
    constructor
    · rintro ⟨a1, a2, a3, ⟨h1, l1⟩, b1, b2, b3, ⟨h2, l2⟩, c1, c2, c3, ⟨h3, l3⟩, rfl⟩
      exact ⟨⟨a1, a2, a3, h1, b1, b2, b3, h2, c1, c2, c3, h3, rfl⟩, by omega⟩
    · rintro ⟨⟨a1, a2, a3, h1, b1, b2, b3, h2, c1, c2, c3, h3, rfl⟩, l⟩
      exact ⟨a1, a2, a3, ⟨h1, by omega⟩, b1, b2, b3, ⟨h2, by omega⟩, c1, c2, c3, ⟨h3, by omega⟩, rfl⟩
end
end Swrs.Api
