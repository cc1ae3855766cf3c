import Verif.Props.EditText
/-!
# C144: an edit of a block changes only its own line of the text

The blocks of the code are written one after the other, the blocks of the arguments and of the substacks of a block after the block itself, and they
get their numbers in this order. An edit of a block that keeps the blocks in it leaves all other lines as they are.
-/
set_option linter.unusedSectionVars false
namespace Swrs.Api
open Format
section
variable [Floats]

/-- Specification: an item of a spec that is written without a block of its own: a text, or an argument that is a text or a number or empty. -/
def c144_Plain : SpecItem Block → Prop
  | .text _ => True
  | .param (.string _ (.value _)) => True
  | .param (.number _ (.value _)) => True
  | .param (.menu _ (.value _)) => True
  | .param (.string _ .empty) => True
  | .param (.number _ .empty) => True
  | .param (.boolean _ .empty) => True
  | .param (.menu _ .empty) => True
  | _ => False

/-- Specification: specs that have the same items, in the same order, except for items without a block. -/
inductive c144_Items : List (SpecItem Block) → List (SpecItem Block) → Prop
  | nil : c144_Items [] []
  | same (i : SpecItem Block) {is is' : List (SpecItem Block)} (h : c144_Items is is') : c144_Items (i :: is) (i :: is')
  | drop {i : SpecItem Block} {is is' : List (SpecItem Block)} (hi : c144_Plain i) (h : c144_Items is is') : c144_Items (i :: is) is'
  | add {i : SpecItem Block} {is is' : List (SpecItem Block)} (hi : c144_Plain i) (h : c144_Items is is') : c144_Items is (i :: is')

/-- Specification: an edit of a block that keeps the blocks in it: the colour, the operation, the type, the texts of the spec, and the arguments that are
texts or numbers. -/
structure c144_Own (x x' : Block) : Prop where
  sub1 : x'.subStack1 = x.subStack1
  sub2 : x'.subStack2 = x.subStack2
  items : c144_Items x.content x'.content

/-- Specification: the same argument with another block in it; the literals `true` and `false` are blocks. -/
inductive c144_Arg : Block → Block → Argument Block → Argument Block → Prop
  | string (n : Option Str) (y y' : Block) : c144_Arg y y' (.string n (.block y)) (.string n (.block y'))
  | number (n : Option Str) (y y' : Block) : c144_Arg y y' (.number n (.block y)) (.number n (.block y'))
  | boolean (n : Option Str) (y y' : Block) : c144_Arg y y' (.boolean n (.block y)) (.boolean n (.block y'))
  | menu (n : Str) (y y' : Block) : c144_Arg y y' (.menu n (.block y)) (.menu n (.block y'))
  | literal (n : Option Str) (v v' : Bool) : c144_Arg (boolBlock v) (boolBlock v') (.boolean n (.value v)) (.boolean n (.value v'))

/-- Specification: code that is the same except for one block, at any depth of the substacks and arguments. -/
inductive c144_Code (x x' : Block) : List Block → List Block → Prop
  | here (a b : List Block) : c144_Code x x' (a ++ x :: b) (a ++ x' :: b)
  | sub1 (a b s s' : List Block) (s2 : Option (List Block)) (color : Color) (op : Str) (content : List (SpecItem Block)) (t : BlockType) (h : c144_Code x x' s s') :
      c144_Code x x' (a ++ ⟨some s, s2, color, op, content, t⟩ :: b) (a ++ ⟨some s', s2, color, op, content, t⟩ :: b)
  | sub2 (a b s s' : List Block) (s1 : Option (List Block)) (color : Color) (op : Str) (content : List (SpecItem Block)) (t : BlockType) (h : c144_Code x x' s s') :
      c144_Code x x' (a ++ ⟨s1, some s, color, op, content, t⟩ :: b) (a ++ ⟨s1, some s', color, op, content, t⟩ :: b)
  | arg (a b : List Block) (s1 s2 : Option (List Block)) (color : Color) (op : Str) (u w : List (SpecItem Block)) (t : BlockType) (y y' : Block) (g g' : Argument Block)
      (hg : c144_Arg y y' g g') (h : c144_Code x x' [y] [y']) :
      c144_Code x x' (a ++ ⟨s1, s2, color, op, u ++ .param g :: w, t⟩ :: b) (a ++ ⟨s1, s2, color, op, u ++ .param g' :: w, t⟩ :: b)

/-- Specification: the texts with which an item is written. -/
def c144_Text : SpecItem Block → List Str → Prop
  | .text _, ts => ts = []
  | .param (.string _ (.value s)), ts => ts = [s]
  | .param (.number _ (.value n)), ts => ts = [Floats.show64 n]
  | .param (.menu _ (.value s)), ts => ts = [s]
  | .param (.string _ .empty), ts => ts = [[]]
  | .param (.number _ .empty), ts => ts = [[]]
  | .param (.boolean _ .empty), ts => ts = [[]]
  | .param (.menu _ .empty), ts => ts = [[]]
  | .param _, ts => ∃ n : Nat, ts = ['@' :: number n]

/-- Specification: the texts of the arguments of a spec. -/
inductive c144_Texts : List (SpecItem Block) → List Str → Prop
  | nil : c144_Texts [] []
  | cons {i : SpecItem Block} {ts : List Str} {is : List (SpecItem Block)} {ps : List Str} (h : c144_Text i ts) (hs : c144_Texts is ps) : c144_Texts (i :: is) (ts ++ ps)

/-- Specification: the line of a block with these arguments, this number, the number of the next one and those of its substacks. -/
def c144_line (b : Block) (params : List Str) (id : Nat) (next s1 s2 : Int) : Str := record [
  ("color", Format.color b.color), ("id", string (number id)), ("nextBlock", number next), ("opCode", string b.opCode),
  ("parameters", array (params.map string)), ("spec", string (BlockContent.text b.content)), ("subStack1", number s1),
  ("subStack2", number s2), ("type", string b.blockType.text), ("typeName", string (b.blockType.typeName.getD []))]

theorem c144_emitted (b : Block) (params : List Str) (id : Nat) (nx s1 s2 : Int32) :
    (emitted b id nx params s1 s2).reconstruct = c144_line b params id nx.toInt s1.toInt s2.toInt := by
  have h : natStr 10 id = number id := intStr_eq (.ofNat id)
  rw [c62_block, c144_line]
  unfold emitted
  dsimp only
  rw [(c49_take b.content).2.1, h]

/-! ### Proof -/

theorem c144_text {i : SpecItem Block} {ctr : Nat} {ts : List Str} {bs : List ParserBlock} {c : Nat} (h : convertItem i ctr = .ok (ts, bs, c)) : c144_Text i ts := by
  have hn : ∀ k : Nat, natStr 10 k = number k := fun k => intStr_eq (.ofNat k)
  cases i with
  | text s => simp only [convertItem, Out.ok.injEq, Prod.mk.injEq] at h; exact h.1.symm
  | param a =>
    simp only [convertItem, Out.bind_eq_ok, Prod.exists, Out.pure_eq, Out.ok.injEq, Prod.mk.injEq] at h
    obtain ⟨p, qs, c', h, rfl, rfl, rfl⟩ := h
    cases a with
    | string n v =>
      cases v <;> simp only [convertArg, convertStr, Out.bind_eq_ok, Prod.exists, Out.pure_eq, Out.ok.injEq, Prod.mk.injEq, reduceCtorEq] at h
      · simp [c144_Text, h.1]
      · obtain ⟨_, k, _, rfl, _⟩ := h; exact ⟨k, by rw [refText, hn]⟩
      · simp [c144_Text, ← h.1]
    | number n v =>
      cases v <;> simp only [convertArg, convertNum, Out.bind_eq_ok, Prod.exists, Out.pure_eq, Out.ok.injEq, Prod.mk.injEq, reduceCtorEq] at h
      · simp [c144_Text, h.1]
      · obtain ⟨_, k, _, rfl, _⟩ := h; exact ⟨k, by rw [refText, hn]⟩
      · simp [c144_Text, ← h.1]
    | boolean n v =>
      cases v <;> simp only [convertArg, convertBool, Out.bind_eq_ok, Prod.exists, Out.pure_eq, Out.ok.injEq, Prod.mk.injEq, reduceCtorEq] at h
      · exact ⟨ctr + 1, by rw [← h.1, refText, hn]⟩
      · obtain ⟨_, k, _, rfl, _⟩ := h; exact ⟨k, by rw [refText, hn]⟩
      · simp [c144_Text, ← h.1]
    | menu n v =>
      cases v <;> simp only [convertArg, convertStr, Out.bind_eq_ok, Prod.exists, Out.pure_eq, Out.ok.injEq, Prod.mk.injEq, reduceCtorEq] at h
      · simp [c144_Text, h.1]
      · obtain ⟨_, k, _, rfl, _⟩ := h; exact ⟨k, by rw [refText, hn]⟩
      · simp [c144_Text, ← h.1]

theorem c144_texts {is : List (SpecItem Block)} {ctr : Nat} {ts : List Str} {bs : List ParserBlock} {c : Nat} (h : convertItems is ctr = .ok (ts, bs, c)) : c144_Texts is ts := by
  induction is generalizing ctr ts bs c with
  | nil => simp only [convertItems, Out.ok.injEq, Prod.mk.injEq] at h; rw [← h.1]; exact .nil
  | cons i is ih =>
    simp only [convertItems, Out.bind_eq_ok, Prod.exists, Out.pure_eq, Out.ok.injEq, Prod.mk.injEq] at h
    obtain ⟨p, qs, c', h1, p', qs', c'', h2, rfl, rfl, rfl⟩ := h
    exact .cons (c144_text h1) (ih h2)

theorem c144_plain {i : SpecItem Block} (hi : c144_Plain i) : ∃ ts, ∀ ctr, convertItem i ctr = .ok (ts, [], ctr) := by
  unfold c144_Plain at hi
  split at hi
  all_goals first
    | exact hi.elim
    | exact ⟨_, fun _ => rfl⟩

theorem c144_items {is is' : List (SpecItem Block)} (hi : c144_Items is is') {ctr : Nat} {ts : List Str} {bs : List ParserBlock} {c : Nat}
    (h : convertItems is ctr = .ok (ts, bs, c)) : ∃ ts', convertItems is' ctr = .ok (ts', bs, c) := by
  induction hi generalizing ctr ts bs c with
  | nil => exact ⟨ts, h⟩
  | same i _ ih =>
    simp only [convertItems, Out.bind_eq_ok, Prod.exists, Out.pure_eq, Out.ok.injEq, Prod.mk.injEq] at h
    obtain ⟨p, qs, c', h1, p', qs', c'', h2, rfl, rfl, rfl⟩ := h
    obtain ⟨ts', h3⟩ := ih h2
    exact ⟨p ++ ts', by simp only [convertItems, h1, h3, Out.ok_bind, Out.pure_eq]⟩
  | drop hp _ ih =>
    obtain ⟨t, ht⟩ := c144_plain hp
    simp only [convertItems, ht, Out.ok_bind, Out.bind_eq_ok, Prod.exists, Out.pure_eq, Out.ok.injEq, Prod.mk.injEq, List.nil_append] at h
    obtain ⟨p', qs', c'', h2, rfl, rfl, rfl⟩ := h
    exact ih h2
  | add hp _ ih =>
    obtain ⟨t, ht⟩ := c144_plain hp
    obtain ⟨ts', h3⟩ := ih h
    exact ⟨t ++ ts', by simp only [convertItems, ht, h3, Out.ok_bind, Out.pure_eq, List.nil_append]⟩

/-- What is written is the same but for the block. -/
def c144_W (x x' : Block) (ps ps' : List ParserBlock) : Prop := ∃ (id : Nat) (nx : Int32) (params params' : List Str) (p1 p2 : Int32),
  c144_Texts x.content params ∧ c144_Texts x'.content params' ∧ c143_Differ [emitted x id nx params p1 p2] [emitted x' id nx params' p1 p2] ps ps'

theorem c144_W.left {x x' : Block} {ps ps' : List ParserBlock} (a : List ParserBlock) (h : c144_W x x' ps ps') : c144_W x x' (a ++ ps) (a ++ ps') := by
  obtain ⟨id, nx, q, q', p1, p2, h1, h2, h3⟩ := h
  exact ⟨id, nx, q, q', p1, p2, h1, h2, h3.left a⟩
theorem c144_W.right {x x' : Block} {ps ps' : List ParserBlock} (a : List ParserBlock) (h : c144_W x x' ps ps') : c144_W x x' (ps ++ a) (ps' ++ a) := by
  obtain ⟨id, nx, q, q', p1, p2, h1, h2, h3⟩ := h
  exact ⟨id, nx, q, q', p1, p2, h1, h2, h3.right a⟩

theorem c144_lastId {x x' : Block} {ps ps' : List ParserBlock} (h : c144_W x x' ps ps') : lastId ps' = lastId ps := by
  obtain ⟨id, nx, q, q', p1, p2, -, -, a, b, rfl, rfl⟩ := h
  unfold lastId
  cases hb : b.getLast? with
  | none => rw [List.getLast?_eq_none_iff.mp hb]; simp [emitted]
  | some c => simp [List.getLast?_append, List.getLast?_cons, hb]

variable {x x' : Block}

/-- The claim for a block. -/
def c144_Q (x x' y y' : Block) : Prop := ∀ ctr last qs c, convertBlock y ctr last = .ok (qs, c) → ∃ qs', convertBlock y' ctr last = .ok (qs', c) ∧ c144_W x x' qs qs'

theorem c144_split {y y' : Block} (hq : c144_Q x x' y y') (a b : List Block) {ctr : Nat} {ps : List ParserBlock} {k : Nat} (h : convertBlocks (a ++ y :: b) ctr = .ok (ps, k)) :
    ∃ ps', convertBlocks (a ++ y' :: b) ctr = .ok (ps', k) ∧ c144_W x x' ps ps' := by
  induction a generalizing ctr ps k with
  | nil =>
    simp only [List.nil_append, convertBlocks, Out.bind_eq_ok, Prod.exists, Out.pure_eq, Out.ok.injEq, Prod.mk.injEq] at h
    obtain ⟨qs, c, h1, rs, c', h2, rfl, rfl⟩ := h
    obtain ⟨qs', h3, hw⟩ := hq _ _ _ _ h1
    exact ⟨qs' ++ rs, by simp only [List.nil_append, convertBlocks, h3, h2, Out.ok_bind, Out.pure_eq], hw.right rs⟩
  | cons t a ih =>
    have e : ∀ z : Block, (a ++ z :: b).isEmpty = false := fun z => by cases a <;> rfl
    simp only [List.cons_append, convertBlocks, e, Out.bind_eq_ok, Prod.exists, Out.pure_eq, Out.ok.injEq, Prod.mk.injEq] at h
    obtain ⟨qs, c, h1, rs, c', h2, rfl, rfl⟩ := h
    obtain ⟨rs', h3, hw⟩ := ih h2
    exact ⟨qs ++ rs', by simp only [List.cons_append, convertBlocks, e, h3, h1, Out.ok_bind, Out.pure_eq], hw.left qs⟩

theorem c144_own (h : c144_Own x x') : c144_Q x x' x x' := by
  intro ctr last qs c hc
  obtain ⟨s1, s2, color, op, content, t⟩ := x
  obtain ⟨s1', s2', color', op', content', t'⟩ := x'
  obtain ⟨e1, e2, hi⟩ := h
  simp only [Block.subStack1, Block.subStack2, Block.content] at e1 e2 hi
  subst e1 e2
  simp only [convertBlock, Out.bind_eq_ok, Prod.exists, Out.pure_eq, Out.ok.injEq, Prod.mk.injEq] at hc
  obtain ⟨params, args, c1, h1, b1, p1, c2, h2, b2, p2, c3, h3, rfl, rfl⟩ := hc
  obtain ⟨params', h1'⟩ := c144_items hi h1
  refine ⟨_, by simp only [convertBlock, h1', h2, h3, Out.ok_bind, Out.pure_eq]; rfl, ctr + 1, nextOf last c3, params, params', p1, p2, c144_texts h1, c144_texts h1', [], args ++ (b1 ++ b2), rfl, rfl⟩

/-- The claim for code. -/
def c144_P (x x' : Block) (bs bs' : List Block) : Prop := ∀ ctr ps k, convertBlocks bs ctr = .ok (ps, k) → ∃ ps', convertBlocks bs' ctr = .ok (ps', k) ∧ c144_W x x' ps ps'

theorem c144_stack {s s' : List Block} (hp : c144_P x x' s s') {ctr : Nat} {b : List ParserBlock} {p : Int32} {c : Nat} (h : convertStack (some s) ctr = .ok (b, p, c)) :
    ∃ b', convertStack (some s') ctr = .ok (b', p, c) ∧ c144_W x x' b b' := by
  simp only [convertStack, Out.bind_eq_ok, Prod.exists, Out.pure_eq, Out.ok.injEq, Prod.mk.injEq] at h
  obtain ⟨qs, c', h1, l, h2, rfl, rfl, rfl⟩ := h
  obtain ⟨qs', h3, hw⟩ := hp _ _ _ h1
  exact ⟨qs', by simp only [convertStack, h3, c144_lastId hw, h2, Out.ok_bind, Out.pure_eq], hw⟩

theorem c144_alone {y y' : Block} (hp : c144_P x x' [y] [y']) {ctr : Nat} {qs : List ParserBlock} {c : Nat} (h : convertBlock y ctr true = .ok (qs, c)) :
    ∃ qs', convertBlock y' ctr true = .ok (qs', c) ∧ c144_W x x' qs qs' := by
  have one : ∀ (z : Block) r k, convertBlocks [z] ctr = .ok (r, k) ↔ convertBlock z ctr true = .ok (r, k) := by
    intro z r k
    simp [convertBlocks, Out.bind_eq_ok]
  obtain ⟨qs', h1, hw⟩ := hp ctr qs c ((one y qs c).mpr h)
  exact ⟨qs', (one y' qs' c).mp h1, hw⟩

theorem c144_arg {y y' : Block} {g g' : Argument Block} (hg : c144_Arg y y' g g') (hp : c144_P x x' [y] [y']) {ctr : Nat} {p : Str} {bs : List ParserBlock} {c : Nat}
    (h : convertArg g ctr = .ok (p, bs, c)) : ∃ bs', convertArg g' ctr = .ok (p, bs', c) ∧ c144_W x x' bs bs' := by
  cases hg with
  | literal n v v' =>
    simp only [convertArg, convertBool, Out.ok.injEq, Prod.mk.injEq] at h
    obtain ⟨rfl, rfl, rfl⟩ := h
    obtain ⟨qs', h1, hw⟩ := c144_alone hp (emitBool_eq v ctr)
    rw [emitBool_eq] at h1
    cases h1
    exact ⟨_, by simp only [convertArg, convertBool], hw⟩
  | string n | number n | boolean n | menu n =>
    simp only [convertArg, convertStr, convertNum, convertBool, Out.bind_eq_ok, Prod.exists, Out.pure_eq, Out.ok.injEq, Prod.mk.injEq] at h
    obtain ⟨qs, k, h1, rfl, rfl, rfl⟩ := h
    obtain ⟨qs', h2, hw⟩ := c144_alone hp h1
    exact ⟨qs', by simp only [convertArg, convertStr, convertNum, convertBool, h2, Out.ok_bind, Out.pure_eq], hw⟩

theorem c144_inner {y y' : Block} {g g' : Argument Block} (hg : c144_Arg y y' g g') (hp : c144_P x x' [y] [y']) (u w : List (SpecItem Block)) {ctr : Nat} {ts : List Str}
    {bs : List ParserBlock} {c : Nat} (h : convertItems (u ++ .param g :: w) ctr = .ok (ts, bs, c)) :
    ∃ bs', convertItems (u ++ .param g' :: w) ctr = .ok (ts, bs', c) ∧ c144_W x x' bs bs' := by
  induction u generalizing ctr ts bs c with
  | nil =>
    simp only [List.nil_append, convertItems, convertItem, Out.bind_eq_ok, Prod.exists, Out.pure_eq, Out.ok.injEq, Prod.mk.injEq] at h
    obtain ⟨_, qs, k, ⟨p, _, _, h1, rfl, rfl, rfl⟩, ps', qs', k', h2, rfl, rfl, rfl⟩ := h
    obtain ⟨rs, h3, hw⟩ := c144_arg hg hp h1
    exact ⟨rs ++ qs', by simp only [List.nil_append, convertItems, convertItem, h3, h2, Out.ok_bind, Out.pure_eq], hw.right qs'⟩
  | cons i u ih =>
    simp only [List.cons_append, convertItems, Out.bind_eq_ok, Prod.exists, Out.pure_eq, Out.ok.injEq, Prod.mk.injEq] at h
    obtain ⟨p, qs, k, h1, ps', qs', k', h2, rfl, rfl, rfl⟩ := h
    obtain ⟨rs, h3, hw⟩ := ih h2
    exact ⟨qs ++ rs, by simp only [List.cons_append, convertItems, h3, h1, Out.ok_bind, Out.pure_eq], hw.left qs⟩

theorem c144_spec {y y' : Block} {g g' : Argument Block} (hg : c144_Arg y y' g g') (u w : List (SpecItem Block)) :
    BlockContent.text (u ++ .param g :: w) = BlockContent.text (u ++ .param g' :: w) := by
  cases hg <;> simp [BlockContent.text, BlockContent.itemText]

theorem c144_code {bs bs' : List Block} (hx : c144_Own x x') (h : c144_Code x x' bs bs') : c144_P x x' bs bs' := by
  induction h with
  | here a b => exact fun ctr ps k hk => c144_split (c144_own hx) a b hk
  | sub1 a b s s' s2 color op content t _ ih =>
    refine fun ctr ps k hk => c144_split (fun ctr last qs c hc => ?_) a b hk
    simp only [convertBlock, Out.bind_eq_ok, Prod.exists, Out.pure_eq, Out.ok.injEq, Prod.mk.injEq] at hc
    obtain ⟨params, args, c1, h1, b1, p1, c2, h2, b2, p2, c3, h3, rfl, rfl⟩ := hc
    obtain ⟨b1', h2', hw⟩ := c144_stack ih h2
    exact ⟨_, by simp only [convertBlock, h1, h2', h3, Out.ok_bind, Out.pure_eq]; rfl, ((hw.right b2).left args).left [_]⟩
  | sub2 a b s s' s1 color op content t _ ih =>
    refine fun ctr ps k hk => c144_split (fun ctr last qs c hc => ?_) a b hk
    simp only [convertBlock, Out.bind_eq_ok, Prod.exists, Out.pure_eq, Out.ok.injEq, Prod.mk.injEq] at hc
    obtain ⟨params, args, c1, h1, b1, p1, c2, h2, b2, p2, c3, h3, rfl, rfl⟩ := hc
    obtain ⟨b2', h3', hw⟩ := c144_stack ih h3
    exact ⟨_, by simp only [convertBlock, h1, h2, h3', Out.ok_bind, Out.pure_eq]; rfl, ((hw.left b1).left args).left [_]⟩
  | arg a b s1 s2 color op u w t y y' g g' hg _ ih =>
    refine fun ctr ps k hk => c144_split (fun ctr last qs c hc => ?_) a b hk
    simp only [convertBlock, Out.bind_eq_ok, Prod.exists, Out.pure_eq, Out.ok.injEq, Prod.mk.injEq] at hc
    obtain ⟨params, args, c1, h1, b1, p1, c2, h2, b2, p2, c3, h3, rfl, rfl⟩ := hc
    obtain ⟨args', h1', hw⟩ := c144_inner hg ih u w h1
    refine ⟨_, by simp only [convertBlock, h1', h2, h3, Out.ok_bind, Out.pure_eq]; rfl, ?_⟩
    have e : emitted ⟨s1, s2, color, op, u ++ .param g' :: w, t⟩ (ctr + 1) (nextOf last c3) params p1 p2 =
        emitted ⟨s1, s2, color, op, u ++ .param g :: w, t⟩ (ctr + 1) (nextOf last c3) params p1 p2 := by
      unfold emitted
      rw [(c49_take _).2.1, (c49_take _).2.1]
      show ({ .. } : ParserBlock) = _
      simp only [Block.content, c144_spec hg u w]
      rfl
    rw [e]
    exact (hw.right (b1 ++ b2)).left [_]

/-- C144: what is written of code that is edited in one block, at any depth: the same blocks, with the same numbers, except for this one. -/
theorem c144_container {code code' : List Block} {c : BlockContainer} (hx : c144_Own x x') (h : c144_Code x x' code code') (hc : toContainer code = .ok c) :
    ∃ c', toContainer code' = .ok c' ∧ ∃ (id : Nat) (next : Int32) (params params' : List Str) (s1 s2 : Int32), c144_Texts x.content params ∧
      c144_Texts x'.content params' ∧ c143_Differ [emitted x id next params s1 s2] [emitted x' id next params' s1 s2] c.blocks c'.blocks := by
  simp only [toContainer, Out.bind_eq_ok, Prod.exists, Out.pure_eq, Out.ok.injEq] at hc
  obtain ⟨ps, k, h1, rfl⟩ := hc
  obtain ⟨ps', h2, hw⟩ := c144_code hx h _ _ _ h1
  exact ⟨⟨ps'⟩, by simp only [toContainer, h2, Out.ok_bind, Out.pure_eq], hw⟩

end

section
variable [MapPol] [Floats]

theorem c144_converts {p : SketchwareProject} {rs : Option (List ResourceFileWrapper)} {raw : RawSketchwareProject} {s : Screen} {k : Str} {code : List Block}
    (h : c143_Saved p rs raw) (hs : s ∈ p.screens) (hc : (k, code) ∈ codeOfScreen s) : ∃ c, toContainer code = .ok c := by
  obtain ⟨q, hq, -⟩ := h
  obtain ⟨lg, ls, fs, i1, s1, f1, hb, -⟩ := toParsed_ok hq
  cases hxl : toContainer code with
  | ok c => exact ⟨c, rfl⟩
  | err e => exact e.elim
  | panic =>
    have hsp : s.toLogic = .panic := (c77_logic_panics s).2.mpr ⟨_, hc, hxl⟩
    rw [(screensBack_panics p.screens [] [] []).mpr ⟨s, hs, hsp⟩] at hb
    cases hb

variable (p : SketchwareProject) (before after : List Screen) (s : Screen) (rs : Option (List ResourceFileWrapper)) (raw : RawSketchwareProject) (x x' : Block)

/-- C144: an edit of a block of an event, at any depth, changes only the line of this block. -/
theorem c144_event (a b : List Event) (e : Event) (code : List Block) (hp : p.screens = before ++ s :: after) (hj : (p.screens.map (·.javaName)).Nodup)
    (h : c143_Saved p rs raw) (hm : s.moreBlocks.keys.Nodup) (hn : ((codeOfScreen s).map (·.1)).Nodup) (hs : s.events = a ++ e :: b)
    (hx : c144_Own x x') (hc : c144_Code x x' e.code code) :
    ∃ text, c143_Saved { p with screens := before ++ { s with events := a ++ { e with code } :: b } :: after } rs { raw with logic := text } ∧
      ∃ (id : Nat) (next s1 s2 : Int) (params params' : List Str), c144_Texts x.content params ∧ c144_Texts x'.content params' ∧
        c143_Differ (c144_line x params id next s1 s2) (c144_line x' params' id next s1 s2) raw.logic text := by
  obtain ⟨c, h1⟩ := c144_converts (k := e.containerId) (code := e.code) h (s := s) (by simp [hp]) (by simp [codeOfScreen, hs])
  obtain ⟨c', h2, id, nx, q, q', p1, p2, t1, t2, hd⟩ := c144_container hx hc h1
  obtain ⟨text, h3, h4⟩ := c143_event_code p before after s rs raw a b e code c c' _ _ hp hj h hm hn hs h1 h2 hd
  rw [c144_emitted, c144_emitted] at h4
  exact ⟨text, h3, id, _, _, _, q, q', t1, t2, h4⟩

/-- C144: an edit of a block of a moreblock, at any depth, changes only the line of this block. -/
theorem c144_moreblock (a b : List (Str × MoreBlock)) (id : Str) (m : MoreBlock) (code : List Block) (hp : p.screens = before ++ s :: after)
    (hj : (p.screens.map (·.javaName)).Nodup) (h : c143_Saved p rs raw) (hm : s.moreBlocks.keys.Nodup) (hn : ((codeOfScreen s).map (·.1)).Nodup)
    (hs : s.moreBlocks = a ++ (id, m) :: b) (hx : c144_Own x x') (hc : c144_Code x x' m.code code) :
    ∃ text, c143_Saved { p with screens := before ++ { s with moreBlocks := a ++ (id, { m with code }) :: b } :: after } rs { raw with logic := text } ∧
      ∃ (id : Nat) (next s1 s2 : Int) (params params' : List Str), c144_Texts x.content params ∧ c144_Texts x'.content params' ∧
        c143_Differ (c144_line x params id next s1 s2) (c144_line x' params' id next s1 s2) raw.logic text := by
  obtain ⟨c, h1⟩ := c144_converts (k := id ++ s% "_moreBlock") (code := m.code) h (s := s) (by simp [hp]) (by simp [codeOfScreen, hs])
  obtain ⟨c', h2, n, nx, q, q', p1, p2, t1, t2, hd⟩ := c144_container hx hc h1
  obtain ⟨text, h3, h4⟩ := c143_moreblock_code p before after s rs raw a b id m code c c' _ _ hp hj h hm hn hs h1 h2 hd
  rw [c144_emitted, c144_emitted] at h4
  exact ⟨text, h3, n, _, _, _, q, q', t1, t2, h4⟩

-- the operation of the block of the event, and the colour and the spec of the block of the moreblock; the spec gets an argument
example : ∃ raw text text', c143_Saved c143_demo none raw ∧
    (∃ (id : Nat) (next s1 s2 : Int), c143_Differ (c144_line (exLeaf (s% "a")) [] id next s1 s2)
      (c144_line ⟨none, none, Color.fromRgb 1 2 3, s% "z", [.text (s% "a")], .regular⟩ [] id next s1 s2) raw.logic text) ∧
    (∃ (id : Nat) (next s1 s2 : Int), c143_Differ (c144_line (exLeaf (s% "b")) [] id next s1 s2)
      (c144_line ⟨none, none, Color.fromRgb 9 9 9, s% "b", [.text (s% "say"), .param (.string none (.value (s% "hi")))], .regular⟩ [s% "hi"] id next s1 s2) raw.logic text') := by
  obtain ⟨raw, h⟩ := c143_demo_saved
  have hj : (c143_demo.screens.map (·.javaName)).Nodup := by show [s% "MainActivity", s% "SecondActivity"].Nodup; decide
  have hm : c143_main.moreBlocks.keys.Nodup := by show [s% "m"].Nodup; decide
  have hn : ((codeOfScreen c143_main).map (·.1)).Nodup := by show [s% "onBackPressed_onBackPressed", s% "m_moreBlock"].Nodup; decide
  obtain ⟨t, -, id, n, u, v, q, q', h1, h2, ht⟩ := c144_event c143_demo [] [_] c143_main none raw (exLeaf (s% "a"))
    ⟨none, none, Color.fromRgb 1 2 3, s% "z", [.text (s% "a")], .regular⟩ [] [] ⟨s% "onBackPressed", .activityEvent, [exLeaf (s% "a")]⟩ _ rfl hj h hm hn rfl
    ⟨rfl, rfl, .same _ .nil⟩ (.here [] [])
  obtain ⟨t', -, id', n', u', v', r, r', h1', h2', ht'⟩ := c144_moreblock c143_demo [] [_] c143_main none raw (exLeaf (s% "b"))
    ⟨none, none, Color.fromRgb 9 9 9, s% "b", [.text (s% "say"), .param (.string none (.value (s% "hi")))], .regular⟩ [] [] (s% "m")
    ⟨s% "m", [.text (s% "m")], [exLeaf (s% "b")]⟩ _ rfl hj h hm hn rfl ⟨rfl, rfl, .drop trivial (.add trivial (.add trivial .nil))⟩ (.here [] [])
  refine ⟨raw, t, t', h, ⟨id, n, u, v, ?_⟩, ⟨id', n', u', v', ?_⟩⟩
  · cases h1 with | cons a b => cases h2 with | cons c d => cases b; cases d; cases a; cases c; exact ht
  · cases h1' with
    | cons a b => cases h2' with
      | cons c d => cases d with
        | cons e f => cases b; cases f; cases a; cases c; cases e; exact ht'

-- a block inside an argument inside an argument, a block of a substack, and a literal
example : ∃ c, toContainer [exNested, exIf, ⟨none, none, Color.fromRgb 1 2 3, s% "y", [.param (.boolean none (.value true))], .regular⟩] = .ok c ∧
    (∃ code', c144_Code (exLeaf (s% "inner")) ⟨none, none, Color.fromRgb 1 2 3, s% "z", [.text (s% "inner")], .regular⟩
      [exNested, exIf, ⟨none, none, Color.fromRgb 1 2 3, s% "y", [.param (.boolean none (.value true))], .regular⟩] code') ∧
    (∃ code', c144_Code (exLeaf (s% "b")) ⟨none, none, Color.fromRgb 1 2 3, s% "z", [.text (s% "b")], .regular⟩
      [exNested, exIf, ⟨none, none, Color.fromRgb 1 2 3, s% "y", [.param (.boolean none (.value true))], .regular⟩] code') ∧
    c144_Code (boolBlock true) (boolBlock false) [exNested, exIf, ⟨none, none, Color.fromRgb 1 2 3, s% "y", [.param (.boolean none (.value true))], .regular⟩]
      [exNested, exIf, ⟨none, none, Color.fromRgb 1 2 3, s% "y", [.param (.boolean none (.value false))], .regular⟩] ∧
    c144_Own (boolBlock true) (boolBlock false) := by
  have h1 : blocksReady [exNested, exIf, ⟨none, none, Color.fromRgb 1 2 3, s% "y", [.param (.boolean none (.value true))], .regular⟩] := by
    simp [blocksReady, blockReady, itemsReady, itemReady, argReady, strReady, boolReady, stackReady, exIf, exLeaf, exNested]
  have h2 : blocksSize [exNested, exIf, ⟨none, none, Color.fromRgb 1 2 3, s% "y", [.param (.boolean none (.value true))], .regular⟩] = 8 := by
    simp [blocksSize, blockSize, itemsSize, itemSize, argSize, strSize, boolSize, stackSize, exIf, exLeaf, exNested]
  obtain ⟨c, hc, -⟩ := (c44_converts _).1 h1 (by omega)
  exact ⟨c, hc, ⟨_, .arg [] _ _ _ _ _ [] [] _ _ _ _ _ (.string none _ _) (.arg [] [] _ _ _ _ [] [] _ _ _ _ _ (.string none _ _) (.here [] []))⟩,
    ⟨_, .sub1 [exNested] _ _ _ _ _ _ _ _ (.here [exLeaf (s% "a")] [])⟩,
    .arg [exNested, exIf] [] _ _ _ _ [] [] _ _ _ _ _ (.literal none true false) (.here [] []), ⟨rfl, rfl, .drop trivial (.add trivial .nil)⟩⟩
end
end Swrs.Api
