import Verif.Model.Equality
/-!
# Lemmas about `==`

`Block.Number` tells which `f64` values occur in a block and `View.Float` which `f32` values occur in a view.
-/
namespace Swrs

/-- What is used of `==` of floating point values: a value is equal to itself exactly if it is not NaN, the comparison is symmetric and
transitive, and the only values that are equal without being the same are the two zeros. A number token is never read as NaN.
`Verif.Proofs.EqualityIeee` proves this for IEEE 754. -/
class FloatEqLaws [Floats] [FloatEq] where
  nan32 : Floats.F32 → Bool
  negZero32 : Floats.F32 → Bool
  negZero64 : Floats.F64 → Bool
  self32 : ∀ x, FloatEq.eq32 x x = !nan32 x
  self64 : ∀ x, FloatEq.eq64 x x = !Floats.isNaN x
  symm32 : ∀ x y, FloatEq.eq32 x y = true → FloatEq.eq32 y x = true
  symm64 : ∀ x y, FloatEq.eq64 x y = true → FloatEq.eq64 y x = true
  trans32 : ∀ x y z, FloatEq.eq32 x y = true → FloatEq.eq32 y z = true → FloatEq.eq32 x z = true
  trans64 : ∀ x y z, FloatEq.eq64 x y = true → FloatEq.eq64 y z = true → FloatEq.eq64 x z = true
  same32 : ∀ x y, FloatEq.eq32 x y = true → negZero32 x = negZero32 y → x = y
  same64 : ∀ x y, FloatEq.eq64 x y = true → negZero64 x = negZero64 y → x = y
  read_nan : ∀ tok x, Floats.read tok = some x → nan32 x = false

/-- The `f32` values of a raw view. -/
def AndroidView.Float [Floats] (v : AndroidView) (x : Floats.F32) : Prop :=
  x = v.alpha ∨ x = v.scaleX ∨ x = v.scaleY ∨ x = v.translationX ∨ x = v.translationY

namespace Api
section
variable [Floats]

/-- The `f32` values of a view and of the views in it. -/
inductive View.Float : View → Floats.F32 → Prop
  | raw {v : View} {x : Floats.F32} : v.raw.Float x → View.Float v x
  | child {v c : View} {x : Floats.F32} : c ∈ v.children → View.Float c x → View.Float v x

/-- The argument is the given block. -/
def Argument.IsBlock (a : Argument Block) (b : Block) : Prop :=
  (∃ n, a = .string n (.block b)) ∨ (∃ n, a = .number n (.block b)) ∨ (∃ n, a = .boolean n (.block b)) ∨
  (∃ n, a = .menu n (.block b))

/-- The numbers written in a block and in the blocks in it. -/
inductive Block.Number : Block → Floats.F64 → Prop
  | own {b : Block} {n : Option Str} {x : Floats.F64} : SpecItem.param (.number n (.value x)) ∈ b.content → Block.Number b x
  | arg {b c : Block} {a : Argument Block} {x : Floats.F64} : SpecItem.param a ∈ b.content → a.IsBlock c → Block.Number c x →
      Block.Number b x
  | stack1 {b c : Block} {l : List Block} {x : Floats.F64} : b.subStack1 = some l → c ∈ l → Block.Number c x → Block.Number b x
  | stack2 {b c : Block} {l : List Block} {x : Floats.F64} : b.subStack2 = some l → c ∈ l → Block.Number c x → Block.Number b x

/-- The numbers written in a block content and in the blocks in it. -/
def ContentNumber (is : List (SpecItem Block)) (x : Floats.F64) : Prop :=
  (∃ n, SpecItem.param (.number n (.value x)) ∈ is) ∨
  ∃ a c, SpecItem.param a ∈ is ∧ Argument.IsBlock a c ∧ c.Number x

theorem Block.number_iff (b : Block) (x : Floats.F64) : b.Number x ↔ ContentNumber b.content x ∨
    (∃ l c, b.subStack1 = some l ∧ c ∈ l ∧ c.Number x) ∨ ∃ l c, b.subStack2 = some l ∧ c ∈ l ∧ c.Number x := by
  constructor
  · intro h
    cases h with
    | own h => exact .inl (.inl ⟨_, h⟩)
    | arg h h' h'' => exact .inl (.inr ⟨_, _, h, h', h''⟩)
    | stack1 h h' h'' => exact .inr (.inl ⟨_, _, h, h', h''⟩)
    | stack2 h h' h'' => exact .inr (.inr ⟨_, _, h, h', h''⟩)
  · rintro ((⟨n, h⟩ | ⟨a, c, h, h', h''⟩) | ⟨l, c, h, h', h''⟩ | ⟨l, c, h, h', h''⟩)
    · exact .own h
    · exact .arg h h' h''
    · exact .stack1 h h' h''
    · exact .stack2 h h' h''
end

section
set_option linter.unusedSectionVars false
variable [Floats] [FloatEq] [FloatEqLaws]

omit [FloatEq] [FloatEqLaws] in
theorem contentNumber_head {i : SpecItem Block} {l : List (SpecItem Block)} {x : Floats.F64} (hx : ContentNumber [i] x) :
    ContentNumber (i :: l) x := by
  rcases hx with ⟨n, hn⟩ | ⟨a, c, ha, hc⟩
  · exact .inl ⟨n, by simp [List.mem_singleton.1 hn]⟩
  · exact .inr ⟨a, c, by simp [List.mem_singleton.1 ha], hc⟩

omit [FloatEq] [FloatEqLaws] in
theorem contentNumber_tail {i : SpecItem Block} {l : List (SpecItem Block)} {x : Floats.F64} (hx : ContentNumber l x) :
    ContentNumber (i :: l) x := by
  rcases hx with ⟨n, hn⟩ | ⟨a, c, ha, hc⟩
  · exact .inl ⟨n, by simp [hn]⟩
  · exact .inr ⟨a, c, by simp [ha], hc⟩

omit [FloatEqLaws] in
theorem blocks_mem : ∀ {l : List Block}, blocksEq l l → ∀ b ∈ l, b.RustEq b
  | [], _ => by simp
  | b :: l, h => by
    rw [blocksEq] at h
    intro c hc
    rcases List.mem_cons.1 hc with rfl | hc
    · exact h.1
    · exact blocks_mem h.2 c hc

omit [FloatEqLaws] in
theorem content_mem : ∀ {l : List (SpecItem Block)}, contentEq l l → ∀ i ∈ l, itemEq i i
  | [], _ => by simp
  | b :: l, h => by
    rw [contentEq] at h
    intro c hc
    rcases List.mem_cons.1 hc with rfl | hc
    · exact h.1
    · exact content_mem h.2 c hc

omit [FloatEqLaws] in
theorem argBlock_self {a : Argument Block} {b : Block} (h : a.IsBlock b) (he : argEq a a) : b.RustEq b := by
  rcases h with ⟨n, rfl⟩ | ⟨n, rfl⟩ | ⟨n, rfl⟩ | ⟨n, rfl⟩ <;> rw [argEq] at he
  · have := he.2; rwa [stringEq] at this
  · have := he.2; rwa [numberEq] at this
  · have := he.2; rwa [booleanEq] at this
  · have := he.2; rwa [stringEq] at this

/-- A block that is equal to itself has no NaN. -/
theorem Block.number_of_self {b : Block} {x : Floats.F64} (h : b.Number x) (he : b.RustEq b) : Floats.isNaN x = false := by
  induction h with
  | @own b n x h =>
    obtain ⟨s, t, c, o, is, ty⟩ := b
    rw [Block.RustEq] at he
    have := content_mem he.2.2.2.2.1 _ h
    rw [itemEq, argEq, numberEq, FloatEqLaws.self64] at this
    simpa using this.2
  | @arg b c a x h ha _ ih =>
    obtain ⟨s, t, c, o, is, ty⟩ := b
    rw [Block.RustEq] at he
    have := content_mem he.2.2.2.2.1 _ h
    rw [itemEq] at this
    exact ih (argBlock_self ha this)
  | @stack1 b c l x h hc _ ih =>
    obtain ⟨s, t, c, o, is, ty⟩ := b
    rw [Block.RustEq] at he
    have e : s = some l := h
    have := he.1
    rw [e, stackEq] at this
    exact ih (blocks_mem this _ hc)
  | @stack2 b c l x h hc _ ih =>
    obtain ⟨s, t, c, o, is, ty⟩ := b
    rw [Block.RustEq] at he
    have e : t = some l := h
    have := he.2.1
    rw [e, stackEq] at this
    exact ih (blocks_mem this _ hc)

theorem contentNumber_of_self {l : List (SpecItem Block)} {x : Floats.F64} (h : ContentNumber l x) (he : contentEq l l) :
    Floats.isNaN x = false := by
  rcases h with ⟨n, hn⟩ | ⟨a, c, ha, hc, hx⟩
  · have := content_mem he _ hn
    rw [itemEq, argEq, numberEq, FloatEqLaws.self64] at this
    simpa using this.2
  · have := content_mem he _ ha
    rw [itemEq] at this
    exact Block.number_of_self hx (argBlock_self hc this)

mutual
theorem Block.symm_aux : ∀ a b : Block, a.RustEq b → b.RustEq a
  | ⟨s, t, c, o, is, ty⟩, ⟨s', t', c', o', is', ty'⟩ => by
    intro h
    rw [Block.RustEq] at h ⊢
    exact ⟨stack_symm s s' h.1, stack_symm t t' h.2.1, h.2.2.1.symm, h.2.2.2.1.symm, content_symm is is' h.2.2.2.2.1,
      h.2.2.2.2.2.symm⟩
theorem stack_symm : ∀ a b : Option (List Block), stackEq a b → stackEq b a
  | none, none => id
  | some x, some y => by intro h; rw [stackEq] at h ⊢; exact blocks_symm x y h
  | some _, none | none, some _ => by intro h; simp [stackEq] at h
theorem blocks_symm : ∀ a b : List Block, blocksEq a b → blocksEq b a
  | [], [] => id
  | x :: xs, y :: ys => by intro h; rw [blocksEq] at h ⊢; exact ⟨Block.symm_aux x y h.1, blocks_symm xs ys h.2⟩
  | [], _ :: _ | _ :: _, [] => by intro h; simp [blocksEq] at h
theorem content_symm : ∀ a b : List (SpecItem Block), contentEq a b → contentEq b a
  | [], [] => id
  | x :: xs, y :: ys => by intro h; rw [contentEq] at h ⊢; exact ⟨item_symm x y h.1, content_symm xs ys h.2⟩
  | [], _ :: _ | _ :: _, [] => by intro h; simp [contentEq] at h
theorem item_symm : ∀ a b : SpecItem Block, itemEq a b → itemEq b a
  | .text _, .text _ => fun h => by rw [itemEq] at h ⊢; exact h.symm
  | .param a, .param b => fun h => by rw [itemEq] at h ⊢; exact arg_symm a b h
  | .text _, .param _ | .param _, .text _ => by intro h; simp [itemEq] at h
theorem arg_symm : ∀ a b : Argument Block, argEq a b → argEq b a
  | .string _ v, b => fun h => by
    cases b <;> simp only [argEq] at h ⊢
    exact ⟨h.1.symm, string_symm v _ h.2⟩
  | .number _ v, b => fun h => by
    cases b <;> simp only [argEq] at h ⊢
    exact ⟨h.1.symm, number_symm v _ h.2⟩
  | .boolean _ v, b => fun h => by
    cases b <;> simp only [argEq] at h ⊢
    exact ⟨h.1.symm, boolean_symm v _ h.2⟩
  | .menu _ v, b => fun h => by
    cases b <;> simp only [argEq] at h ⊢
    exact ⟨h.1.symm, string_symm v _ h.2⟩
theorem string_symm : ∀ a b : ArgValue Block Str, stringEq a b → stringEq b a
  | .block c, b => fun h => by
    cases b <;> simp only [stringEq] at h ⊢
    exact Block.symm_aux c _ h
  | .value _, b => fun h => by
    cases b <;> simp only [stringEq] at h ⊢
    exact h.symm
  | .placeholder _, b | .empty, b => fun h => by
    cases b <;> simp_all [stringEq]
theorem number_symm : ∀ a b : ArgValue Block Floats.F64, numberEq a b → numberEq b a
  | .block c, b => fun h => by
    cases b <;> simp only [numberEq] at h ⊢
    exact Block.symm_aux c _ h
  | .value _, b => fun h => by
    cases b <;> simp only [numberEq] at h ⊢
    exact FloatEqLaws.symm64 _ _ h
  | .placeholder _, b | .empty, b => fun h => by
    cases b <;> simp_all [numberEq]
theorem boolean_symm : ∀ a b : ArgValue Block Bool, booleanEq a b → booleanEq b a
  | .block c, b => fun h => by
    cases b <;> simp only [booleanEq] at h ⊢
    exact Block.symm_aux c _ h
  | .value _, b => fun h => by
    cases b <;> simp only [booleanEq] at h ⊢
    exact h.symm
  | .placeholder _, b | .empty, b => fun h => by
    cases b <;> simp_all [booleanEq]
end

mutual
theorem Block.trans_aux : ∀ a b c : Block, a.RustEq b → b.RustEq c → a.RustEq c
  | ⟨s, t, c, o, is, ty⟩, ⟨s', t', c', o', is', ty'⟩, ⟨s'', t'', c'', o'', is'', ty''⟩ => by
    intro h h'
    rw [Block.RustEq] at h h' ⊢
    exact ⟨stack_trans s s' s'' h.1 h'.1, stack_trans t t' t'' h.2.1 h'.2.1, h.2.2.1.trans h'.2.2.1, h.2.2.2.1.trans h'.2.2.2.1,
      content_trans is is' is'' h.2.2.2.2.1 h'.2.2.2.2.1, h.2.2.2.2.2.trans h'.2.2.2.2.2⟩
theorem stack_trans : ∀ a b c : Option (List Block), stackEq a b → stackEq b c → stackEq a c
  | none, b, c => fun h h' => by cases b <;> cases c <;> simp_all [stackEq]
  | some x, some y, some z => by intro h h'; rw [stackEq] at h h' ⊢; exact blocks_trans x y z h h'
  | some _, none, _ => by intro h; simp [stackEq] at h
  | some _, some _, none => by intro _ h; simp [stackEq] at h
theorem blocks_trans : ∀ a b c : List Block, blocksEq a b → blocksEq b c → blocksEq a c
  | [], b, c => fun h h' => by cases b <;> cases c <;> simp_all [blocksEq]
  | x :: xs, y :: ys, z :: zs => by
    intro h h'; rw [blocksEq] at h h' ⊢; exact ⟨Block.trans_aux x y z h.1 h'.1, blocks_trans xs ys zs h.2 h'.2⟩
  | _ :: _, [], _ => by intro h; simp [blocksEq] at h
  | _ :: _, _ :: _, [] => by intro _ h; simp [blocksEq] at h
theorem content_trans : ∀ a b c : List (SpecItem Block), contentEq a b → contentEq b c → contentEq a c
  | [], b, c => fun h h' => by cases b <;> cases c <;> simp_all [contentEq]
  | x :: xs, y :: ys, z :: zs => by
    intro h h'; rw [contentEq] at h h' ⊢; exact ⟨item_trans x y z h.1 h'.1, content_trans xs ys zs h.2 h'.2⟩
  | _ :: _, [], _ => by intro h; simp [contentEq] at h
  | _ :: _, _ :: _, [] => by intro _ h; simp [contentEq] at h
theorem item_trans : ∀ a b c : SpecItem Block, itemEq a b → itemEq b c → itemEq a c
  | .text _, b, c => fun h h' => by cases b <;> cases c <;> simp_all [itemEq]
  | .param a, .param b, .param c => fun h h' => by rw [itemEq] at h h' ⊢; exact arg_trans a b c h h'
  | .param _, .text _, _ => by intro h; simp [itemEq] at h
  | .param _, .param _, .text _ => by intro _ h; simp [itemEq] at h
theorem arg_trans : ∀ a b c : Argument Block, argEq a b → argEq b c → argEq a c
  | .string _ v, b, c => fun h h' => by
    cases b <;> simp only [argEq] at h
    cases c <;> simp only [argEq] at h' ⊢
    exact ⟨h.1.trans h'.1, string_trans v _ _ h.2 h'.2⟩
  | .number _ v, b, c => fun h h' => by
    cases b <;> simp only [argEq] at h
    cases c <;> simp only [argEq] at h' ⊢
    exact ⟨h.1.trans h'.1, number_trans v _ _ h.2 h'.2⟩
  | .boolean _ v, b, c => fun h h' => by
    cases b <;> simp only [argEq] at h
    cases c <;> simp only [argEq] at h' ⊢
    exact ⟨h.1.trans h'.1, boolean_trans v _ _ h.2 h'.2⟩
  | .menu _ v, b, c => fun h h' => by
    cases b <;> simp only [argEq] at h
    cases c <;> simp only [argEq] at h' ⊢
    exact ⟨h.1.trans h'.1, string_trans v _ _ h.2 h'.2⟩
theorem string_trans : ∀ a b c : ArgValue Block Str, stringEq a b → stringEq b c → stringEq a c
  | .block d, b, c => fun h h' => by
    cases b <;> simp only [stringEq] at h
    cases c <;> simp only [stringEq] at h' ⊢
    exact Block.trans_aux d _ _ h h'
  | .value _, b, c => fun h h' => by
    cases b <;> simp only [stringEq] at h
    cases c <;> simp only [stringEq] at h' ⊢
    exact h.trans h'
  | .placeholder _, b, c | .empty, b, c => fun h h' => by
    cases b <;> cases c <;> simp_all [stringEq]
theorem number_trans : ∀ a b c : ArgValue Block Floats.F64, numberEq a b → numberEq b c → numberEq a c
  | .block d, b, c => fun h h' => by
    cases b <;> simp only [numberEq] at h
    cases c <;> simp only [numberEq] at h' ⊢
    exact Block.trans_aux d _ _ h h'
  | .value _, b, c => fun h h' => by
    cases b <;> simp only [numberEq] at h
    cases c <;> simp only [numberEq] at h' ⊢
    exact FloatEqLaws.trans64 _ _ _ h h'
  | .placeholder _, b, c | .empty, b, c => fun h h' => by
    cases b <;> cases c <;> simp_all [numberEq]
theorem boolean_trans : ∀ a b c : ArgValue Block Bool, booleanEq a b → booleanEq b c → booleanEq a c
  | .block d, b, c => fun h h' => by
    cases b <;> simp only [booleanEq] at h
    cases c <;> simp only [booleanEq] at h' ⊢
    exact Block.trans_aux d _ _ h h'
  | .value _, b, c => fun h h' => by
    cases b <;> simp only [booleanEq] at h
    cases c <;> simp only [booleanEq] at h' ⊢
    exact h.trans h'
  | .placeholder _, b, c | .empty, b, c => fun h h' => by
    cases b <;> cases c <;> simp_all [booleanEq]
end

mutual
theorem Block.self_aux : ∀ b : Block, (∀ x, b.Number x → Floats.isNaN x = false) → b.RustEq b
  | ⟨s, t, c, o, is, ty⟩ => by
    intro h
    rw [Block.RustEq]
    refine ⟨stack_self s ?_, stack_self t ?_, rfl, rfl, content_self is ?_, rfl⟩
    · exact fun l hl b hb x hx => h x (.stack1 hl hb hx)
    · exact fun l hl b hb x hx => h x (.stack2 hl hb hx)
    · exact fun x hx => h x ((Block.number_iff _ x).2 (.inl hx))
theorem stack_self : ∀ o : Option (List Block), (∀ l, o = some l → ∀ b ∈ l, ∀ x, b.Number x → Floats.isNaN x = false) → stackEq o o
  | none => fun _ => by rw [stackEq]; trivial
  | some l => fun h => by rw [stackEq]; exact blocks_self l (h l rfl)
theorem blocks_self : ∀ l : List Block, (∀ b ∈ l, ∀ x, b.Number x → Floats.isNaN x = false) → blocksEq l l
  | [] => fun _ => by rw [blocksEq]; trivial
  | b :: l => fun h => by
    rw [blocksEq]
    exact ⟨Block.self_aux b (h b (by simp)), blocks_self l fun b hb => h b (by simp [hb])⟩
theorem content_self : ∀ l : List (SpecItem Block), (∀ x, ContentNumber l x → Floats.isNaN x = false) → contentEq l l
  | [] => fun _ => by rw [contentEq]; trivial
  | i :: l => fun h => by
    rw [contentEq]
    refine ⟨item_self i fun x hx => h x ?_, content_self l fun x hx => h x ?_⟩
    · rcases hx with ⟨n, hn⟩ | ⟨a, c, ha, hc⟩
      · exact .inl ⟨n, by simp [List.mem_singleton.1 hn]⟩
      · exact .inr ⟨a, c, by simp [List.mem_singleton.1 ha], hc⟩
    · rcases hx with ⟨n, hn⟩ | ⟨a, c, ha, hc⟩
      · exact .inl ⟨n, by simp [hn]⟩
      · exact .inr ⟨a, c, by simp [ha], hc⟩
theorem item_self : ∀ i : SpecItem Block, (∀ x, ContentNumber [i] x → Floats.isNaN x = false) → itemEq i i
  | .text _ => fun _ => by rw [itemEq]
  | .param a => fun h => by rw [itemEq]; exact arg_self a h
theorem arg_self : ∀ a : Argument Block, (∀ x, ContentNumber [.param a] x → Floats.isNaN x = false) → argEq a a
  | .string n v => fun h => by
    rw [argEq]
    exact ⟨rfl, string_self v (fun b hb x hx => h x (.inr ⟨_, b, List.mem_singleton.2 rfl, .inl ⟨n, by rw [hb]⟩, hx⟩))⟩
  | .number n v => fun h => by
    rw [argEq]
    exact ⟨rfl, number_self v (fun b hb x hx => h x (.inr ⟨_, b, List.mem_singleton.2 rfl, .inr <| .inl ⟨n, by rw [hb]⟩, hx⟩)) (fun y hy => h y (.inl ⟨n, by rw [hy]; simp⟩))⟩
  | .boolean n v => fun h => by
    rw [argEq]
    exact ⟨rfl, boolean_self v (fun b hb x hx => h x (.inr ⟨_, b, List.mem_singleton.2 rfl, .inr <| .inr <| .inl ⟨n, by rw [hb]⟩, hx⟩))⟩
  | .menu n v => fun h => by
    rw [argEq]
    exact ⟨rfl, string_self v (fun b hb x hx => h x (.inr ⟨_, b, List.mem_singleton.2 rfl, .inr <| .inr <| .inr ⟨n, by rw [hb]⟩, hx⟩))⟩
theorem string_self : ∀ v : ArgValue Block Str, (∀ b, v = .block b → ∀ x, b.Number x → Floats.isNaN x = false) → stringEq v v
  | .block b => fun h => by rw [stringEq]; exact Block.self_aux b (h b rfl)
  | .value x => fun _ => by rw [stringEq]
  | .placeholder _ => fun _ => by rw [stringEq]
  | .empty => fun _ => by rw [stringEq]; trivial
theorem number_self : ∀ v : ArgValue Block Floats.F64, (∀ b, v = .block b → ∀ x, b.Number x → Floats.isNaN x = false) → (∀ x, v = .value x → Floats.isNaN x = false) → numberEq v v
  | .block b => fun h _ => by rw [numberEq]; exact Block.self_aux b (h b rfl)
  | .value x => fun _ h => by rw [numberEq]; rw [FloatEqLaws.self64, h x rfl]; rfl
  | .placeholder _ => fun _ _ => by rw [numberEq]
  | .empty => fun _ _ => by rw [numberEq]; trivial
theorem boolean_self : ∀ v : ArgValue Block Bool, (∀ b, v = .block b → ∀ x, b.Number x → Floats.isNaN x = false) → booleanEq v v
  | .block b => fun h => by rw [booleanEq]; exact Block.self_aux b (h b rfl)
  | .value x => fun _ => by rw [booleanEq]
  | .placeholder _ => fun _ => by rw [booleanEq]
  | .empty => fun _ => by rw [booleanEq]; trivial
end

mutual
theorem Block.exact_aux : ∀ a b : Block, (∀ x, a.Number x → FloatEqLaws.negZero64 x = false) → (∀ x, b.Number x → FloatEqLaws.negZero64 x = false) → a.RustEq b → a = b
  | ⟨s, t, c, o, is, ty⟩, ⟨s', t', c', o', is', ty'⟩ => by
    intro ha hb h
    rw [Block.RustEq] at h
    obtain ⟨h1, h2, rfl, rfl, h5, rfl⟩ := h
    rw [stack_exact s s' (fun l hl b hb x hx => ha x (.stack1 hl hb hx)) (fun l hl b h x hx => hb x (.stack1 hl h hx)) h1,
      stack_exact t t' (fun l hl b hb x hx => ha x (.stack2 hl hb hx)) (fun l hl b h x hx => hb x (.stack2 hl h hx)) h2,
      content_exact is is' (fun x hx => ha x ((Block.number_iff _ x).2 (.inl hx)))
        (fun x hx => hb x ((Block.number_iff _ x).2 (.inl hx))) h5]
theorem stack_exact : ∀ a b : Option (List Block), (∀ l, a = some l → ∀ b ∈ l, ∀ x, b.Number x → FloatEqLaws.negZero64 x = false) →
    (∀ l, b = some l → ∀ b ∈ l, ∀ x, b.Number x → FloatEqLaws.negZero64 x = false) → stackEq a b → a = b
  | none, b => fun _ _ h => by cases b <;> simp_all [stackEq]
  | some x, some y => fun ha hb h => by rw [stackEq] at h; rw [blocks_exact x y (ha x rfl) (hb y rfl) h]
  | some _, none => fun _ _ h => by simp [stackEq] at h
theorem blocks_exact : ∀ a b : List Block, (∀ c ∈ a, ∀ x, c.Number x → FloatEqLaws.negZero64 x = false) →
    (∀ c ∈ b, ∀ x, c.Number x → FloatEqLaws.negZero64 x = false) → blocksEq a b → a = b
  | [], b => fun _ _ h => by cases b <;> simp_all [blocksEq]
  | x :: xs, y :: ys => fun ha hb h => by
    rw [blocksEq] at h
    rw [Block.exact_aux x y (ha x (by simp)) (hb y (by simp)) h.1,
      blocks_exact xs ys (fun c hc => ha c (by simp [hc])) (fun c hc => hb c (by simp [hc])) h.2]
  | _ :: _, [] => fun _ _ h => by simp [blocksEq] at h
theorem content_exact : ∀ a b : List (SpecItem Block), (∀ x, ContentNumber a x → FloatEqLaws.negZero64 x = false) →
    (∀ x, ContentNumber b x → FloatEqLaws.negZero64 x = false) → contentEq a b → a = b
  | [], b => fun _ _ h => by cases b <;> simp_all [contentEq]
  | x :: xs, y :: ys => fun ha hb h => by
    rw [contentEq] at h
    rw [item_exact x y (fun z hz => ha z (contentNumber_head hz)) (fun z hz => hb z (contentNumber_head hz)) h.1,
      content_exact xs ys (fun z hz => ha z (contentNumber_tail hz)) (fun z hz => hb z (contentNumber_tail hz)) h.2]
  | _ :: _, [] => fun _ _ h => by simp [contentEq] at h
theorem item_exact : ∀ a b : SpecItem Block, (∀ x, ContentNumber [a] x → FloatEqLaws.negZero64 x = false) →
    (∀ x, ContentNumber [b] x → FloatEqLaws.negZero64 x = false) → itemEq a b → a = b
  | .text _, b => fun _ _ h => by cases b <;> simp_all [itemEq]
  | .param a, .param b => fun ha hb h => by rw [itemEq] at h; rw [arg_exact a b ha hb h]
  | .param _, .text _ => fun _ _ h => by simp [itemEq] at h
theorem arg_exact : ∀ a b : Argument Block, (∀ x, ContentNumber [.param a] x → FloatEqLaws.negZero64 x = false) →
    (∀ x, ContentNumber [.param b] x → FloatEqLaws.negZero64 x = false) → argEq a b → a = b
  | .string n v, b => fun ha hb h => by
    cases b <;> simp only [argEq] at h
    obtain ⟨rfl, h⟩ := h
    rw [string_exact v _ (fun b e x hx => ha x (.inr ⟨_, b, List.mem_singleton.2 rfl, .inl ⟨n, by rw [e]⟩, hx⟩))
      (fun b e x hx => hb x (.inr ⟨_, b, List.mem_singleton.2 rfl, .inl ⟨n, by rw [e]⟩, hx⟩)) h]
  | .number n v, b => fun ha hb h => by
    cases b <;> simp only [argEq] at h
    obtain ⟨rfl, h⟩ := h
    rw [number_exact v _ (fun b e x hx => ha x (.inr ⟨_, b, List.mem_singleton.2 rfl, .inr <| .inl ⟨n, by rw [e]⟩, hx⟩))
      (fun b e x hx => hb x (.inr ⟨_, b, List.mem_singleton.2 rfl, .inr <| .inl ⟨n, by rw [e]⟩, hx⟩))
      (fun y hy => ha y (.inl ⟨n, by rw [hy]; simp⟩))
      (fun y hy => hb y (.inl ⟨n, by rw [hy]; simp⟩)) h]
  | .boolean n v, b => fun ha hb h => by
    cases b <;> simp only [argEq] at h
    obtain ⟨rfl, h⟩ := h
    rw [boolean_exact v _ (fun b e x hx => ha x (.inr ⟨_, b, List.mem_singleton.2 rfl, .inr <| .inr <| .inl ⟨n, by rw [e]⟩, hx⟩))
      (fun b e x hx => hb x (.inr ⟨_, b, List.mem_singleton.2 rfl, .inr <| .inr <| .inl ⟨n, by rw [e]⟩, hx⟩)) h]
  | .menu n v, b => fun ha hb h => by
    cases b <;> simp only [argEq] at h
    obtain ⟨rfl, h⟩ := h
    rw [string_exact v _ (fun b e x hx => ha x (.inr ⟨_, b, List.mem_singleton.2 rfl, .inr <| .inr <| .inr ⟨n, by rw [e]⟩, hx⟩))
      (fun b e x hx => hb x (.inr ⟨_, b, List.mem_singleton.2 rfl, .inr <| .inr <| .inr ⟨n, by rw [e]⟩, hx⟩)) h]
theorem string_exact : ∀ v w : ArgValue Block Str, (∀ b, v = .block b → ∀ x, b.Number x → FloatEqLaws.negZero64 x = false) →
    (∀ b, w = .block b → ∀ x, b.Number x → FloatEqLaws.negZero64 x = false) → stringEq v w → v = w
  | .block b, w => fun hv hw h => by
    cases w <;> simp only [stringEq] at h
    rw [Block.exact_aux b _ (hv b rfl) (hw _ rfl) h]
  | .value x, w => fun _ _ h => by
    cases w <;> simp only [stringEq] at h
    rw [h]
  | .placeholder _, w | .empty, w => fun _ _ h => by
    cases w <;> simp_all [stringEq]
theorem number_exact : ∀ v w : ArgValue Block Floats.F64, (∀ b, v = .block b → ∀ x, b.Number x → FloatEqLaws.negZero64 x = false) →
    (∀ b, w = .block b → ∀ x, b.Number x → FloatEqLaws.negZero64 x = false) →
    (∀ x, v = .value x → FloatEqLaws.negZero64 x = false) →
    (∀ x, w = .value x → FloatEqLaws.negZero64 x = false) → numberEq v w → v = w
  | .block b, w => fun hv hw _ _ h => by
    cases w <;> simp only [numberEq] at h
    rw [Block.exact_aux b _ (hv b rfl) (hw _ rfl) h]
  | .value x, w => fun _ _ hv hw h => by
    cases w <;> simp only [numberEq] at h
    rw [FloatEqLaws.same64 _ _ h ((hv _ rfl).trans (hw _ rfl).symm)]
  | .placeholder _, w | .empty, w => fun _ _ _ _ h => by
    cases w <;> simp_all [numberEq]
theorem boolean_exact : ∀ v w : ArgValue Block Bool, (∀ b, v = .block b → ∀ x, b.Number x → FloatEqLaws.negZero64 x = false) →
    (∀ b, w = .block b → ∀ x, b.Number x → FloatEqLaws.negZero64 x = false) → booleanEq v w → v = w
  | .block b, w => fun hv hw h => by
    cases w <;> simp only [booleanEq] at h
    rw [Block.exact_aux b _ (hv b rfl) (hw _ rfl) h]
  | .value x, w => fun _ _ h => by
    cases w <;> simp only [booleanEq] at h
    rw [h]
  | .placeholder _, w | .empty, w => fun _ _ h => by
    cases w <;> simp_all [booleanEq]
end


/-! ### Raw views -/

theorem rawView_self (v : AndroidView) : v.RustEq v ↔ ∀ x, v.Float x → FloatEqLaws.nan32 x = false := by
  unfold AndroidView.RustEq AndroidView.Float
  simp only [FloatEqLaws.self32, Bool.not_eq_true', true_and, forall_eq_or_imp, forall_eq]

theorem rawView_symm {a b : AndroidView} (h : a.RustEq b) : b.RustEq a := by
  obtain ⟨h, h1, h2, h3, h4, h5⟩ := h
  refine ⟨?_, FloatEqLaws.symm32 _ _ h1, FloatEqLaws.symm32 _ _ h2, FloatEqLaws.symm32 _ _ h3, FloatEqLaws.symm32 _ _ h4,
    FloatEqLaws.symm32 _ _ h5⟩
  rw [← h]

theorem rawView_trans {a b c : AndroidView} (h : a.RustEq b) (h' : b.RustEq c) : a.RustEq c := by
  obtain ⟨h, h1, h2, h3, h4, h5⟩ := h
  obtain ⟨h', h1', h2', h3', h4', h5'⟩ := h'
  refine ⟨?_, FloatEqLaws.trans32 _ _ _ h1 h1', FloatEqLaws.trans32 _ _ _ h2 h2', FloatEqLaws.trans32 _ _ _ h3 h3',
    FloatEqLaws.trans32 _ _ _ h4 h4', FloatEqLaws.trans32 _ _ _ h5 h5'⟩
  rw [← h', ← h]

theorem rawView_exact {a b : AndroidView} (ha : ∀ x, a.Float x → FloatEqLaws.negZero32 x = false)
    (hb : ∀ x, b.Float x → FloatEqLaws.negZero32 x = false) (h : a.RustEq b) : a = b := by
  obtain ⟨h, h1, h2, h3, h4, h5⟩ := h
  have e {x y} (hx : a.Float x) (hy : b.Float y) (h : FloatEq.eq32 x y = true) : x = y :=
    FloatEqLaws.same32 _ _ h ((ha x hx).trans (hb y hy).symm)
  rw [← e (.inl rfl) (.inl rfl) h1, ← e (.inr (.inl rfl)) (.inr (.inl rfl)) h2,
    ← e (.inr (.inr (.inl rfl))) (.inr (.inr (.inl rfl))) h3, ← e (.inr (.inr (.inr (.inl rfl)))) (.inr (.inr (.inr (.inl rfl)))) h4,
    ← e (.inr (.inr (.inr (.inr rfl)))) (.inr (.inr (.inr (.inr rfl)))) h5] at h
  exact h

/-! ### Views -/

theorem views_mem : ∀ {l : List View}, viewsEq l l → ∀ b ∈ l, b.RustEq b
  | [], _ => by simp
  | b :: l, h => by
    rw [viewsEq] at h
    intro c hc
    rcases List.mem_cons.1 hc with rfl | hc
    · exact h.1
    · exact views_mem h.2 c hc

theorem view_float_of_self {v : View} {x : Floats.F32} (h : v.Float x) (he : v.RustEq v) : FloatEqLaws.nan32 x = false := by
  induction h with
  | @raw v x h =>
    obtain ⟨i, bg, hh, w, p, m, we, ws, g, vi, r, c⟩ := v
    rw [View.RustEq] at he
    exact (rawView_self r).1 he.2.2.2.2.2.2.2.2.2.2.1 x h
  | @child v c x hc _ ih =>
    obtain ⟨i, bg, hh, w, p, m, we, ws, g, vi, r, cs⟩ := v
    rw [View.RustEq] at he
    exact ih (views_mem he.2.2.2.2.2.2.2.2.2.2.2 _ hc)

mutual
theorem View.self_aux : ∀ v : View, (∀ x, v.Float x → FloatEqLaws.nan32 x = false) → v.RustEq v
  | ⟨i, bg, h, w, p, m, we, ws, g, vi, r, c⟩ => by
    intro h
    rw [View.RustEq]
    exact ⟨rfl, rfl, rfl, rfl, rfl, rfl, rfl, rfl, rfl, rfl, (rawView_self r).2 fun x hx => h x (.raw hx),
      views_self c fun v hv x hx => h x (.child hv hx)⟩
theorem views_self : ∀ l : List View, (∀ v ∈ l, ∀ x, v.Float x → FloatEqLaws.nan32 x = false) → viewsEq l l
  | [] => fun _ => by rw [viewsEq]; trivial
  | v :: l => fun h => by
    rw [viewsEq]
    exact ⟨View.self_aux v (h v (by simp)), views_self l fun b hb => h b (by simp [hb])⟩
end

mutual
theorem View.symm_aux : ∀ a b : View, a.RustEq b → b.RustEq a
  | ⟨i, bg, h, w, p, m, we, ws, g, vi, r, c⟩, ⟨i', bg', h', w', p', m', we', ws', g', vi', r', c'⟩ => by
    intro h
    rw [View.RustEq] at h ⊢
    obtain ⟨h1, h2, h3, h4, h5, h6, h7, h8, h9, h10, h11, h12⟩ := h
    exact ⟨h1.symm, h2.symm, h3.symm, h4.symm, h5.symm, h6.symm, h7.symm, h8.symm, h9.symm, h10.symm, rawView_symm h11,
      views_symm c c' h12⟩
theorem views_symm : ∀ a b : List View, viewsEq a b → viewsEq b a
  | [], [] => id
  | x :: xs, y :: ys => by intro h; rw [viewsEq] at h ⊢; exact ⟨View.symm_aux x y h.1, views_symm xs ys h.2⟩
  | [], _ :: _ | _ :: _, [] => by intro h; simp [viewsEq] at h
end

mutual
theorem View.trans_aux : ∀ a b c : View, a.RustEq b → b.RustEq c → a.RustEq c
  | ⟨i, bg, h, w, p, m, we, ws, g, vi, r, c⟩, ⟨i', bg', h', w', p', m', we', ws', g', vi', r', c'⟩,
    ⟨i'', bg'', h'', w'', p'', m'', we'', ws'', g'', vi'', r'', c''⟩ => by
    intro h k
    rw [View.RustEq] at h k ⊢
    obtain ⟨h1, h2, h3, h4, h5, h6, h7, h8, h9, h10, h11, h12⟩ := h
    obtain ⟨k1, k2, k3, k4, k5, k6, k7, k8, k9, k10, k11, k12⟩ := k
    exact ⟨h1.trans k1, h2.trans k2, h3.trans k3, h4.trans k4, h5.trans k5, h6.trans k6, h7.trans k7, h8.trans k8, h9.trans k9,
      h10.trans k10, rawView_trans h11 k11, views_trans c c' c'' h12 k12⟩
theorem views_trans : ∀ a b c : List View, viewsEq a b → viewsEq b c → viewsEq a c
  | [], b, c => fun h h' => by cases b <;> cases c <;> simp_all [viewsEq]
  | x :: xs, y :: ys, z :: zs => by
    intro h h'; rw [viewsEq] at h h' ⊢; exact ⟨View.trans_aux x y z h.1 h'.1, views_trans xs ys zs h.2 h'.2⟩
  | _ :: _, [], _ => by intro h; simp [viewsEq] at h
  | _ :: _, _ :: _, [] => by intro _ h; simp [viewsEq] at h
end

mutual
theorem View.exact_aux : ∀ a b : View, (∀ x, a.Float x → FloatEqLaws.negZero32 x = false) →
    (∀ x, b.Float x → FloatEqLaws.negZero32 x = false) → a.RustEq b → a = b
  | ⟨i, bg, h, w, p, m, we, ws, g, vi, r, c⟩, ⟨i', bg', h', w', p', m', we', ws', g', vi', r', c'⟩ => by
    intro ha hb h
    rw [View.RustEq] at h
    obtain ⟨rfl, rfl, rfl, rfl, rfl, rfl, rfl, rfl, rfl, rfl, h11, h12⟩ := h
    rw [rawView_exact (a := r) (b := r') (fun x hx => ha x (.raw hx)) (fun x hx => hb x (.raw hx)) h11,
      views_exact c c' (fun v hv x hx => ha x (.child hv hx)) (fun v hv x hx => hb x (.child hv hx)) h12]
theorem views_exact : ∀ a b : List View, (∀ c ∈ a, ∀ x, c.Float x → FloatEqLaws.negZero32 x = false) →
    (∀ c ∈ b, ∀ x, c.Float x → FloatEqLaws.negZero32 x = false) → viewsEq a b → a = b
  | [], b => fun _ _ h => by cases b <;> simp_all [viewsEq]
  | x :: xs, y :: ys => fun ha hb h => by
    rw [viewsEq] at h
    rw [View.exact_aux x y (ha x (by simp)) (hb y (by simp)) h.1,
      views_exact xs ys (fun c hc => ha c (by simp [hc])) (fun c hc => hb c (by simp [hc])) h.2]
  | _ :: _, [] => fun _ _ h => by simp [viewsEq] at h
end

end
end Api
end Swrs
