import Verif.Props.Blocks
import Verif.Props.BlocksOut
/-!
# C75: blocks made with the constructors, and the parameters that are written for arguments
-/
namespace Swrs.Api
variable [Floats]

/-! ## C75 — Constructors of blocks and written parameters -/

/-- C75: what the constructors make: the fields given, the substacks in order, the colour of the category's palette, and
with substacks the type of a block that nests as many of them. -/
theorem c75_constructors (cat : BlockCategory) (op : Str) (c : BlockContent Block) (t : BlockType) (s1 s2 : List Block) :
    (∀ b ∈ [Block.new cat op c t, Block.new1 cat op c s1, Block.new2 cat op c s1 s2],
      b.opCode = op ∧ b.content = c ∧ b.color.alpha = 255 ∧ b.color.rgb = c11_palette cat) ∧
    ((Block.new cat op c t).subStack1 = none ∧ (Block.new cat op c t).subStack2 = none ∧
      (Block.new cat op c t).blockType = t) ∧
    ((Block.new1 cat op c s1).subStack1 = some s1 ∧ (Block.new1 cat op c s1).subStack2 = none ∧
      (Block.new1 cat op c s1).blockType = .control .oneNest) ∧
    (Block.new2 cat op c s1 s2).subStack1 = some s1 ∧ (Block.new2 cat op c s1 s2).subStack2 = some s2 ∧
      (Block.new2 cat op c s1 s2).blockType = .control .twoNest := by
  have h := c11_category_of_color cat
  refine ⟨?_, ⟨rfl, rfl, rfl⟩, ⟨rfl, rfl, rfl⟩, rfl, rfl, rfl⟩
  intro b hb
  simp only [List.mem_cons, List.not_mem_nil, or_false] at hb
  rcases hb with rfl | rfl | rfl <;> exact ⟨rfl, rfl, h.1, h.2.1⟩

/-- The word of a boolean. -/
def boolWord : Bool → Str
  | true => s% "true"
  | false => s% "false"

/-- The parameter `p` and the blocks `ps` are those of an argument: text as it is, a number as it is shown, nothing as
the empty text, a boolean as a reference to a green block called `true` or `false`, and a block as a reference to the
last of the blocks made of it. -/
inductive ParamOf : Argument Block → Str → List ParserBlock → Prop
  | string (n : Option Str) (s : Str) : ParamOf (.string n (.value s)) s []
  | stringEmpty (n : Option Str) : ParamOf (.string n .empty) [] []
  | stringBlock (n : Option Str) {b : Block} {ps : List ParserBlock} {head tail : ParserBlock} (hh : ps.head? = some head)
      (hw : Written b head) (ht : ps.getLast? = some tail) (hl : ps.length = blockSize b) :
      ParamOf (.string n (.block b)) ('@' :: tail.id) ps
  | number (n : Option Str) (x : Floats.F64) : ParamOf (.number n (.value x)) (Floats.show64 x) []
  | numberEmpty (n : Option Str) : ParamOf (.number n .empty) [] []
  | numberBlock (n : Option Str) {b : Block} {ps : List ParserBlock} {head tail : ParserBlock} (hh : ps.head? = some head)
      (hw : Written b head) (ht : ps.getLast? = some tail) (hl : ps.length = blockSize b) :
      ParamOf (.number n (.block b)) ('@' :: tail.id) ps
  | boolean (n : Option Str) (v : Bool) (id : Str) : ParamOf (.boolean n (.value v)) ('@' :: id)
      [⟨Color.fromArgb 255 0x5c 0xb7 0x22, id, -1, boolWord v, [], boolWord v, -1, -1, s% "b", []⟩]
  | booleanEmpty (n : Option Str) : ParamOf (.boolean n .empty) [] []
  | booleanBlock (n : Option Str) {b : Block} {ps : List ParserBlock} {head tail : ParserBlock} (hh : ps.head? = some head)
      (hw : Written b head) (ht : ps.getLast? = some tail) (hl : ps.length = blockSize b) :
      ParamOf (.boolean n (.block b)) ('@' :: tail.id) ps
  | menu (n : Str) (s : Str) : ParamOf (.menu n (.value s)) s []
  | menuEmpty (n : Str) : ParamOf (.menu n .empty) [] []
  | menuBlock (n : Str) {b : Block} {ps : List ParserBlock} {head tail : ParserBlock} (hh : ps.head? = some head)
      (hw : Written b head) (ht : ps.getLast? = some tail) (hl : ps.length = blockSize b) :
      ParamOf (.menu n (.block b)) ('@' :: tail.id) ps

theorem convertArg_paramOf {a : Argument Block} {ctr : Nat} {p : Str} {ps : List ParserBlock} {k : Nat}
    (h : convertArg a ctr = .ok (p, ps, k)) : ParamOf a p ps := by
  have hblock : ∀ {b : Block} (n : Option Str) (m : Str) (a : Argument Block),
      (a = .string n (.block b) ∨ a = .number n (.block b) ∨ a = .boolean n (.block b) ∨ a = .menu m (.block b)) →
      convertArg a ctr = .ok (p, ps, k) → ∃ head tail, ps.head? = some head ∧ Written b head ∧ ps.getLast? = some tail ∧
        ps.length = blockSize b ∧ p = '@' :: tail.id := by
    intro b n m a ha h
    obtain ⟨hd, tl, h1, h2, h3, h4, h5, _⟩ := c46_arguments_partial b n m a ha ctr p ps k h
    exact ⟨hd, tl, h1, h2, h3, h4, h5⟩
  cases a with
  | string n v =>
    cases v with
    | value s => simp [convertArg, convertStr] at h; obtain ⟨rfl, rfl, rfl⟩ := h; exact .string _ _
    | block b =>
      obtain ⟨hd, tl, h1, h2, h3, h4, rfl⟩ := hblock n [] _ (.inl rfl) h
      exact .stringBlock _ h1 h2 h3 h4
    | placeholder id => simp [convertArg, convertStr] at h
    | empty => simp [convertArg, convertStr] at h; obtain ⟨rfl, rfl, rfl⟩ := h; exact .stringEmpty _
  | number n v =>
    cases v with
    | value s => simp [convertArg, convertNum] at h; obtain ⟨rfl, rfl, rfl⟩ := h; exact .number _ _
    | block b =>
      obtain ⟨hd, tl, h1, h2, h3, h4, rfl⟩ := hblock n [] _ (.inr (.inl rfl)) h
      exact .numberBlock _ h1 h2 h3 h4
    | placeholder id => simp [convertArg, convertNum] at h
    | empty => simp [convertArg, convertNum] at h; obtain ⟨rfl, rfl, rfl⟩ := h; exact .numberEmpty _
  | boolean n v =>
    cases v with
    | value s =>
      simp [convertArg, convertBool] at h; obtain ⟨rfl, rfl, rfl⟩ := h
      have := ParamOf.boolean n s (natStr 10 (ctr + 1))
      cases s <;> exact this
    | block b =>
      obtain ⟨hd, tl, h1, h2, h3, h4, rfl⟩ := hblock n [] _ (.inr (.inr (.inl rfl))) h
      exact .booleanBlock _ h1 h2 h3 h4
    | placeholder id => simp [convertArg, convertBool] at h
    | empty => simp [convertArg, convertBool] at h; obtain ⟨rfl, rfl, rfl⟩ := h; exact .booleanEmpty _
  | menu n v =>
    cases v with
    | value s => simp [convertArg, convertStr] at h; obtain ⟨rfl, rfl, rfl⟩ := h; exact .menu _ _
    | block b =>
      obtain ⟨hd, tl, h1, h2, h3, h4, rfl⟩ := hblock none n _ (.inr (.inr (.inr rfl))) h
      exact .menuBlock _ h1 h2 h3 h4
    | placeholder id => simp [convertArg, convertStr] at h
    | empty => simp [convertArg, convertStr] at h; obtain ⟨rfl, rfl, rfl⟩ := h; exact .menuEmpty _

/-- The arguments of a spec in order. -/
def argumentsOf (c : BlockContent Block) : List (Argument Block) :=
  c.filterMap fun
    | .param a => some a
    | .text _ => none

theorem convertItems_params {c : BlockContent Block} {ctr k : Nat} {ps : List Str} {bs : List ParserBlock}
    (h : convertItems c ctr = .ok (ps, bs, k)) : ∃ ts : List (Str × List ParserBlock), ps = ts.map (·.1) ∧
      bs = (ts.map (·.2)).flatten ∧ All₂ (fun a t => ParamOf a t.1 t.2) (argumentsOf c) ts := by
  induction c generalizing ctr k ps bs with
  | nil => simp [convertItems] at h; obtain ⟨rfl, rfl, rfl⟩ := h; exact ⟨[], rfl, rfl, .nil⟩
  | cons i is ih =>
    simp only [convertItems, Out.bind_eq_ok, Prod.exists, Out.pure_eq, Out.ok.injEq, Prod.mk.injEq] at h
    obtain ⟨p1, b1, c1, h1, p2, b2, c2, h2, rfl, rfl, rfl⟩ := h
    obtain ⟨ts, rfl, rfl, ht⟩ := ih h2
    cases i with
    | text s => simp [convertItem] at h1; obtain ⟨rfl, rfl, rfl⟩ := h1; exact ⟨ts, rfl, rfl, ht⟩
    | param a =>
      simp only [convertItem, Out.bind_eq_ok, Prod.exists, Out.pure_eq, Out.ok.injEq, Prod.mk.injEq] at h1
      obtain ⟨p, b, c3, h3, rfl, rfl, rfl⟩ := h1
      exact ⟨(p, b) :: ts, rfl, rfl, .cons (convertArg_paramOf h3) ht⟩

/-- C75: the parameters of the block made of a block: one for each argument, in order; the blocks of the arguments
follow the block itself, in order. -/
theorem c75_parameters (b : Block) (ctr : Nat) (last : Bool) (ps : List ParserBlock) (n : Nat)
    (h : convertBlock b ctr last = .ok (ps, n)) :
    ∃ (head : ParserBlock) (ts : List (Str × List ParserBlock)) (stacks : List ParserBlock),
      ps = head :: (ts.map (·.2)).flatten ++ stacks ∧ Written b head ∧ head.parameters = ts.map (·.1) ∧
      stacks.length = stackSize b.subStack1 + stackSize b.subStack2 ∧
      All₂ (fun a t => ParamOf a t.1 t.2) (argumentsOf b.content) ts := by
  obtain ⟨s1, s2, color, op, content, t⟩ := b
  simp only [convertBlock, Out.bind_eq_ok, Prod.exists, Out.pure_eq, Out.ok.injEq, Prod.mk.injEq] at h
  obtain ⟨params, args, c1, h1, b1, p1, c2, h2, b2, p2, c3, h3, rfl, rfl⟩ := h
  obtain ⟨ts, rfl, rfl, ht⟩ := convertItems_params h1
  have e1 := convertStack_seq _ _ _ _ _ h2
  have e1' := convertStack_ready _ _ _ _ _ h2
  have e2 := convertStack_seq _ _ _ _ _ h3
  have e2' := convertStack_ready _ _ _ _ _ h3
  refine ⟨_, ts, b1 ++ b2, rfl, emitted_written _ _ _ _ _ _, rfl, ?_, ht⟩
  have := e1.1.1
  have := e2.1.1
  simp only [List.length_append, Block.subStack1, Block.subStack2]
  omega

section Examples
local instance blockMakeFloats : FloatLaws := toyFloats
/-- A block with a text, a boolean and an argument block. -/
example : ∃ ps n, convertBlock (.new .control (s% "f") [.text (s% "f"), .param (.string none (.value (s% "a"))),
      .param (.boolean none (.value true)), .param (.string none (.block (exLeaf (s% "x"))))] .regular) 9 true = .ok (ps, n) ∧
    ps.map (·.parameters) = [[s% "a", s% "@11", s% "@12"], [], []] ∧ ps.map (·.opCode) = [s% "f", s% "true", s% "x"] := by
  refine ⟨_, _, rfl, ?_, rfl⟩
  simp only [emitted, emitBool, List.map_cons, List.map_nil, List.append_nil, List.cons_append, List.nil_append, refText]
  decide +kernel
end Examples

end Swrs.Api
