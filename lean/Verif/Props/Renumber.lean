import Verif.Props.OneLess
import Verif.Proofs.ResettleSteps
/-!
# C126: the numbers of the blocks are only names
-/
set_option linter.unusedSectionVars false
namespace Swrs.Api
variable [MapPol] [Floats]

/-! ### Specification: a container with other numbers -/

/-- Specification: a pointer to a block, before and after: negative ones point nowhere. -/
def c126_Pointer (r : UInt32 → UInt32) (p p' : Int32) : Prop := (p < 0 ∧ p' < 0) ∨ (¬ p < 0 ∧ ¬ p' < 0 ∧ pointerId p' = r (pointerId p))

/-- Specification: a parameter of a block, before and after; a text after `@` is a number, except in a menu. -/
def c126_Param (r : UInt32 → UInt32) (menu : Bool) (a a' : Str) : Prop :=
  (a' = a ∧ (menu = true ∨ ∀ t n, a = '@' :: t → parseU32 t ≠ some n)) ∨
  (menu = false ∧ ∃ t t' n, a = '@' :: t ∧ a' = '@' :: t' ∧ parseU32 t = some n ∧ parseU32 t' = some (r n))

/-- Specification: the parameters of a block, before and after: one for each word of the spec that begins with `%`. -/
inductive c126_Params (r : UInt32 → UInt32) : List Str → List Str → List Str → Prop
  | done (ps ps' : List Str) : c126_Params r [] ps ps'
  | text {w : Str} {ws ps ps' : List Str} (hw : w.head? ≠ some '%') (h : c126_Params r ws ps ps') : c126_Params r (w :: ws) ps ps'
  | param {w a a' : Str} {ws ps ps' : List Str} (hw : w.head? = some '%') (ha : c126_Param r (w[1]? = some 'm') a a') (h : c126_Params r ws ps ps') :
      c126_Params r (w :: ws) (a :: ps) (a' :: ps')
  | out {w : Str} {ws : List Str} (hw : w.head? = some '%') : c126_Params r (w :: ws) [] []

/-- Specification: a block, before and after. -/
structure c126_Renumbered (r : UInt32 → UInt32) (b b' : ParserBlock) : Prop where
  id : (∃ n, parseU32 b.id = some n ∧ parseU32 b'.id = some (r n)) ∨ (parseU32 b.id = none ∧ b'.id = b.id)
  next : c126_Pointer r b.nextBlock b'.nextBlock
  stack1 : c126_Pointer r b.subStack1 b'.subStack1
  stack2 : c126_Pointer r b.subStack2 b'.subStack2
  params : c126_Params r (splitOn ' ' b.spec) b.parameters b'.parameters
  color : b'.color = b.color
  opCode : b'.opCode = b.opCode
  spec : b'.spec = b.spec
  type : b'.type = b.type
  typeName : b'.typeName = b.typeName

/-- Specification: an error with other numbers. -/
def c126_error (r : UInt32 → UInt32) : BlockConversionError → BlockConversionError
  | .malformedBlockId id => .malformedBlockId id
  | .blockNotFound id => .blockNotFound (r id)
  | .substack1 id p e => .substack1 (r id) (r p) (c126_error r e)
  | .substack2 id p e => .substack2 (r id) (r p) (c126_error r e)
  | .invalidType e => .invalidType e
  | .content (.blockNotFound id) => .content (.blockNotFound (r id))
  | .content e => .content e

/-! ### The simulation -/

/-- The outcomes agree, up to the numbers in an error. -/
inductive c126_Out (r : UInt32 → UInt32) {α : Type} (R : α → α → Prop) : Run α → Run α → Prop
  | ok {a b : α} (h : R a b) : c126_Out r R (.ok a) (.ok b)
  | err (e : Option BlockConversionError) : c126_Out r R (.err e) (.err (e.map (c126_error r)))
  | panic : c126_Out r R .panic .panic

/-- The maps agree, up to the numbers. -/
def c126_Maps (r : UInt32 → UInt32) (m m' : BlockMap) : Prop := All₂ (fun e e' : UInt32 × ParserBlock => e'.1 = r e.1 ∧ c126_Renumbered r e.2 e'.2) m m'

/-- The same value, and maps that agree. -/
def c126_Left (r : UInt32 → UInt32) {α : Type} (x y : α × BlockMap) : Prop := x.1 = y.1 ∧ c126_Maps r x.2 y.2

/-- An argument with other numbers. -/
def c126_value (r : UInt32 → UInt32) {B α : Type} : ArgValue B α → ArgValue B α
  | .placeholder id => .placeholder (r id)
  | v => v

/-- An item of a spec with other numbers. -/
def c126_item (r : UInt32 → UInt32) {B : Type} : SpecItem B → SpecItem B
  | .text s => .text s
  | .param (.string n v) => .param (.string n (c126_value r v))
  | .param (.number n v) => .param (.number n (c126_value r v))
  | .param (.boolean n v) => .param (.boolean n (c126_value r v))
  | .param (.menu n v) => .param (.menu n (c126_value r v))

section
variable {r : UInt32 → UInt32}

omit [MapPol] [Floats] in
theorem c126_bind {α β : Type} {R : α → α → Prop} {S : β → β → Prop} {x y : Run α} {f g : α → Run β} (h : c126_Out r R x y)
    (hf : ∀ a b, R a b → c126_Out r S (f a) (g b)) : c126_Out r S (x >>= f) (y >>= g) := by
  cases h with
  | ok h => exact hf _ _ h
  | err e => exact .err e
  | panic => exact .panic

omit [MapPol] [Floats] in
theorem c126_argText {B α : Type} {f : Str → Option α} {bad : Str → BlockContentParseError} {a a' : Str} (h : c126_Param r false a a') :
    BlockContent.argText (B := B) f bad a' = c126_value r <$> BlockContent.argText f bad a := by
  rcases h with ⟨rfl, h⟩ | ⟨-, t, t', n, rfl, rfl, h1, h2⟩
  · unfold BlockContent.argText
    split
    · rename_i hs
      obtain ⟨t, rfl, ht⟩ := BlockContent.startsWith_at hs
      rw [ht]
      simp only [Out.unwrap_some, Out.ok_bind]
      cases hp : parseU32 t with
      | none => rfl
      | some n => rcases h with h | h
                  · cases h
                  · exact absurd hp (h t n rfl)
    · cases f a' <;> rfl
  · unfold BlockContent.argText
    have e : ∀ t : Str, startsWith (s% "@") ('@' :: t) = true := fun t => by simp
    simp only [e, if_true, sliceFrom_at, Out.unwrap_some, Out.ok_bind, h1, h2, Out.ofOption_some, Out.pure_eq, Out.map_ok, c126_value]

omit [MapPol] in
theorem c126_wordsArgs {B : Type} {ws ps ps' : List Str} (h : c126_Params r ws ps ps') :
    BlockContent.wordsArgs (B := B) ws ps' = List.map (c126_item r) <$> BlockContent.wordsArgs ws ps := by
  induction h with
  | done => rfl
  | @text w ws ps ps' hw h ih =>
    have e : startsWith (s% "%") w = false := by
      rw [Bool.eq_false_iff]; intro h; exact hw ((startsWith_single ..).mp h)
    simp only [BlockContent.wordsArgs, BlockContent.wordArgs, e, if_true, Out.ok_bind, ih]
    cases BlockContent.wordsArgs (B := B) ws ps <;> rfl
  | @param w a a' ws ps ps' hw ha h ih =>
    have e : ¬ startsWith (s% "%") w = false := by
      rw [(startsWith_single ..).mpr hw]; simp
    unfold BlockContent.wordsArgs BlockContent.wordArgs
    rw [if_neg e, if_neg e]
    cases BlockContent.wordName w with
    | err _ => rfl
    | panic => rfl
    | ok name =>
      simp only [Out.ok_bind]
      cases hc : w[1]? with
      | none => rfl
      | some c =>
        simp only [Out.unwrap_some, Out.ok_bind, BlockContent.takeArg]
        by_cases h1 : c = 's'
        · subst h1
          rw [hc] at ha
          rw [if_pos rfl, if_pos rfl, c126_argText (f := some) (bad := fun _ => .ranOutOfArgs) (show c126_Param r false a a' from ha)]
          cases BlockContent.argText (B := B) some (fun _ => .ranOutOfArgs) a <;> try rfl
          simp only [Out.map_ok, Out.ok_bind, Out.pure_eq, ih]
          cases BlockContent.wordsArgs (B := B) ws ps <;> rfl
        rw [if_neg h1, if_neg h1]
        by_cases h2 : c = 'b'
        · subst h2
          rw [hc] at ha
          rw [if_pos rfl, if_pos rfl, c126_argText (f := parseBool) (bad := .invalidBooleanArgument) (show c126_Param r false a a' from ha)]
          cases BlockContent.argText (B := B) parseBool .invalidBooleanArgument a <;> try rfl
          simp only [Out.map_ok, Out.ok_bind, Out.pure_eq, ih]
          cases BlockContent.wordsArgs (B := B) ws ps <;> rfl
        rw [if_neg h2, if_neg h2]
        by_cases h3 : c = 'd'
        · subst h3
          rw [hc] at ha
          rw [if_pos rfl, if_pos rfl, c126_argText (f := Floats.read64) (bad := .invalidNumberArgument) (show c126_Param r false a a' from ha)]
          cases BlockContent.argText (B := B) Floats.read64 .invalidNumberArgument a <;> try rfl
          simp only [Out.map_ok, Out.ok_bind, Out.pure_eq, ih]
          cases BlockContent.wordsArgs (B := B) ws ps <;> rfl
        rw [if_neg h3, if_neg h3]
        by_cases h4 : c = 'm'
        · subst h4
          rw [hc] at ha
          rw [if_pos rfl, if_pos rfl]
          cases name with
          | none => rfl
          | some name =>
            rcases ha with ⟨rfl, -⟩ | ⟨ha, -⟩
            · simp only [Out.unwrap_some, Out.ok_bind, Out.pure_eq, ih]
              cases BlockContent.wordsArgs (B := B) ws ps <;> rfl
            · simp at ha
        rw [if_neg h4, if_neg h4]
        rfl
  | @out w ws hw =>
    have e : ¬ startsWith (s% "%") w = false := by
      rw [(startsWith_single ..).mpr hw]; simp
    unfold BlockContent.wordsArgs BlockContent.wordArgs
    rw [if_neg e]
    cases BlockContent.wordName w with
    | err _ => rfl
    | panic => rfl
    | ok name =>
      simp only [Out.ok_bind, BlockContent.takeArg, Out.err_bind]
      cases hc : w[1]? with
      | none => rfl
      | some c =>
        simp only [Out.unwrap_some, Out.ok_bind]
        split
        · rfl
        split
        · rfl
        split
        · rfl
        split
        · cases name <;> rfl
        · rfl

omit [MapPol] [Floats] in
theorem c126_get (hr : ∀ a b, r a = r b → a = b) {m m' : BlockMap} (h : c126_Maps r m m') (k : UInt32) :
    (m.get k = none ∧ m'.get (r k) = none) ∨ ∃ b b', m.get k = some b ∧ m'.get (r k) = some b' ∧ c126_Renumbered r b b' := by
  unfold c126_Maps at h
  induction h with
  | nil => exact .inl ⟨rfl, rfl⟩
  | @cons e e' m m' h t ih =>
    obtain ⟨e, b⟩ := e
    obtain ⟨e', b'⟩ := e'
    obtain ⟨h1, h2⟩ := h
    simp only at h1 h2
    subst h1
    by_cases hk : e = k
    · subst hk
      exact .inr ⟨b, b', by simp [LMap.get], by simp [LMap.get], h2⟩
    · have hk' : r e ≠ r k := fun h => hk (hr _ _ h)
      simp only [LMap.get, if_neg hk, if_neg hk']
      exact ih

omit [MapPol] [Floats] in
theorem c126_erase (hr : ∀ a b, r a = r b → a = b) {m m' : BlockMap} (h : c126_Maps r m m') (k : UInt32) : c126_Maps r (m.erase k) (m'.erase (r k)) := by
  unfold c126_Maps LMap.erase at *
  induction h with
  | nil => exact .nil
  | @cons e e' m m' h t ih =>
    by_cases hk : e.1 = k
    · have hk' : e'.1 = r k := by rw [h.1, hk]
      simp only [List.filter_cons, hk, hk', ne_eq, not_true, decide_false, Bool.false_eq_true, if_false]
      exact ih
    · have hk' : ¬ e'.1 = r k := by rw [h.1]; exact fun h => hk (hr _ _ h)
      simp only [List.filter_cons, ne_eq, hk, hk', not_false_iff, decide_true, if_true]
      exact .cons h ih

omit [Floats] in
theorem c126_insert (hr : ∀ a b, r a = r b → a = b) {m m' : BlockMap} (h : c126_Maps r m m') (k : UInt32) {b b' : ParserBlock} (hb : c126_Renumbered r b b') :
    c126_Maps r (LMap.insert m k b) (LMap.insert m' (r k) b') := by
  have hk : k ∈ LMap.keys m ↔ r k ∈ LMap.keys m' := by
    rw [← not_iff_not, ← LMap.get_eq_none, ← LMap.get_eq_none]
    rcases c126_get hr h k with ⟨h1, h2⟩ | ⟨b, b', h1, h2, -⟩ <;> simp [h1, h2]
  have one : c126_Maps r [(k, b)] [(r k, b')] := .cons ⟨rfl, hb⟩ .nil
  unfold LMap.insert
  by_cases h1 : k ∈ LMap.keys m
  · rw [if_pos h1, if_pos (hk.mp h1)]
    split
    · exact (c126_erase hr h k).append one
    · unfold LMap.set
      unfold c126_Maps at *
      clear hk h1
      induction h with
      | nil => exact .nil
      | @cons e e' m m' h t ih =>
        refine .cons ?_ ih
        by_cases hk : e.1 = k
        · have hk' : e'.1 = r k := by rw [h.1, hk]
          simp only [if_pos hk, if_pos hk']
          exact ⟨trivial, hb⟩
        · have hk' : ¬ e'.1 = r k := by rw [h.1]; exact fun h => hk (hr _ _ h)
          simp only [if_neg hk, if_neg hk']
          exact h
  · rw [if_neg h1, if_neg (fun h => h1 (hk.mpr h))]
    exact h.append one

variable {get get' : UInt32 → BlockMap → Run (Block × BlockMap)}

theorem c126_getBlock (hg : ∀ id m m', c126_Maps r m m' → c126_Out r (c126_Left r) (get id m) (get' (r id) m')) (id : UInt32) {m m' : BlockMap}
    (h : c126_Maps r m m') : c126_Out r (c126_Left r) (getBlock get id m) (getBlock get' (r id) m') := by
  unfold getBlock
  have := hg id _ _ h
  generalize get id m = x at this
  generalize get' (r id) m' = y at this
  cases this with
  | ok h => exact .ok h
  | err e => cases e with
    | none => exact .err none
    | some e => exact .err (some (.content (.blockNotFound id)))
  | panic => exact .panic

theorem c126_applyValue {α : Type} (hg : ∀ id m m', c126_Maps r m m' → c126_Out r (c126_Left r) (get id m) (get' (r id) m')) (v : ArgValue Block α)
    {m m' : BlockMap} (h : c126_Maps r m m') : c126_Out r (c126_Left r) (applyValue get v m) (applyValue get' (c126_value r v) m') := by
  cases v with
  | placeholder id =>
    refine c126_bind (c126_getBlock hg _ h) fun x y hxy => ?_
    obtain ⟨x, m1⟩ := x
    obtain ⟨y, m2⟩ := y
    obtain ⟨h1, h2⟩ := hxy
    cases h1
    exact .ok ⟨rfl, h2⟩
  | _ => exact .ok ⟨rfl, h⟩

theorem c126_applyBool (hg : ∀ id m m', c126_Maps r m m' → c126_Out r (c126_Left r) (get id m) (get' (r id) m')) (v : ArgValue Block Bool)
    {m m' : BlockMap} (h : c126_Maps r m m') : c126_Out r (c126_Left r) (applyBool get v m) (applyBool get' (c126_value r v) m') := by
  cases v with
  | placeholder id =>
    refine c126_bind (c126_getBlock hg _ h) fun x y hxy => ?_
    obtain ⟨x, m1⟩ := x
    obtain ⟨y, m2⟩ := y
    obtain ⟨h1, h2⟩ := hxy
    cases h1
    show c126_Out r (c126_Left r) (if _ then _ else if _ then _ else _) (if _ then _ else if _ then _ else _)
    split
    · exact .ok ⟨rfl, h2⟩
    · split
      · exact .ok ⟨rfl, h2⟩
      · exact .ok ⟨rfl, h2⟩
  | _ => exact .ok ⟨rfl, h⟩

theorem c126_applyItem (hg : ∀ id m m', c126_Maps r m m' → c126_Out r (c126_Left r) (get id m) (get' (r id) m')) (i : SpecItem Block)
    {m m' : BlockMap} (h : c126_Maps r m m') : c126_Out r (c126_Left r) (applyItem get i m) (applyItem get' (c126_item r i) m') := by
  unfold applyItem c126_item
  split
  · exact .ok ⟨rfl, h⟩
  all_goals
    first
      | refine c126_bind (c126_applyValue hg _ h) fun x y hxy => ?_
      | refine c126_bind (c126_applyBool hg _ h) fun x y hxy => ?_
    obtain ⟨x, m1⟩ := x
    obtain ⟨y, m2⟩ := y
    obtain ⟨h1, h2⟩ := hxy
    cases h1
    exact .ok ⟨rfl, h2⟩

theorem c126_applyBlocks (hg : ∀ id m m', c126_Maps r m m' → c126_Out r (c126_Left r) (get id m) (get' (r id) m')) (c : BlockContent Block)
    {m m' : BlockMap} (h : c126_Maps r m m') : c126_Out r (c126_Left r) (applyBlocks get c m) (applyBlocks get' (c.map (c126_item r)) m') := by
  induction c generalizing m m' with
  | nil => exact .ok ⟨rfl, h⟩
  | cons i is ih =>
    rw [List.map_cons]
    unfold applyBlocks
    refine c126_bind (c126_applyItem hg i h) fun x y hxy => ?_
    obtain ⟨x, m1⟩ := x
    obtain ⟨y, m2⟩ := y
    obtain ⟨h1, h2⟩ := hxy
    cases h1
    refine c126_bind (ih h2) fun x y hxy => ?_
    obtain ⟨x, m3⟩ := x
    obtain ⟨y, m4⟩ := y
    obtain ⟨h1, h2⟩ := hxy
    cases h1
    exact .ok ⟨rfl, h2⟩

theorem c126_substack {go go' : UInt32 → BlockMap → Run (List Block × BlockMap)}
    (hg : ∀ id m m', c126_Maps r m m' → c126_Out r (c126_Left r) (go id m) (go' (r id) m')) {p p' : Int32} (hp : c126_Pointer r p p')
    {err err' : BlockConversionError → BlockConversionError} (he : ¬ p < 0 → ∀ e, c126_error r (err e) = err' (c126_error r e))
    {m m' : BlockMap} (h : c126_Maps r m m') : c126_Out r (c126_Left r) (substack go err p m) (substack go' err' p' m') := by
  unfold substack
  rcases hp with ⟨h1, h2⟩ | ⟨h1, h2, h3⟩
  · rw [if_pos h1, if_pos h2]
    exact .ok ⟨rfl, h⟩
  · rw [if_neg h1, if_neg h2, h3]
    have hw : c126_Out r (c126_Left r) (wrap err (go (pointerId p) m)) (wrap err' (go' (r (pointerId p)) m')) := by
      unfold wrap
      have := hg (pointerId p) _ _ h
      generalize go (pointerId p) m = x at this
      generalize go' (r (pointerId p)) m' = y at this
      cases this with
      | ok h => exact .ok h
      | err e => cases e with
        | none => exact .err none
        | some e =>
          show c126_Out r _ (.err (some (err e))) (.err (some (err' (c126_error r e))))
          rw [← he h1]
          exact .err _
      | panic => exact .panic
    refine c126_bind hw fun x y hxy => ?_
    obtain ⟨x, m1⟩ := x
    obtain ⟨y, m2⟩ := y
    obtain ⟨h1, h2⟩ := hxy
    cases h1
    exact .ok ⟨rfl, h2⟩

omit [MapPol] [Floats] in
theorem c126_take (hr : ∀ a b, r a = r b → a = b) {m m' : BlockMap} (h : c126_Maps r m m') (id : UInt32) :
    c126_Out r (c126_Renumbered r) (Out.ofOption (some (BlockConversionError.blockNotFound id)) (m.get id))
      (Out.ofOption (some (BlockConversionError.blockNotFound (r id))) (m'.get (r id))) := by
  rcases c126_get hr h id with ⟨h1, h2⟩ | ⟨b, b', h1, h2, h3⟩
  · rw [h1, h2]; exact .err (some (.blockNotFound id))
  · rw [h1, h2]; exact .ok h3

omit [MapPol] [Floats] in
theorem c126_lift_type (s t : Str) : c126_Out r Eq (lift .invalidType (BlockType.parse s t)) (lift .invalidType (BlockType.parse s t)) := by
  unfold lift
  cases BlockType.parse s t with
  | ok t => exact .ok rfl
  | err e => exact .err (some (.invalidType e))
  | panic => exact .panic

omit [MapPol] in
theorem c126_parse_err {B : Type} {ws ps : List Str} {n : UInt32} : BlockContent.wordsArgs (B := B) ws ps ≠ .err (.blockNotFound n) := by
  have ha : ∀ {α : Type} {f : Str → Option α} {bad : Str → BlockContentParseError} {a : Str}, (∀ a, bad a ≠ .blockNotFound n) →
      BlockContent.argText (B := B) f bad a ≠ .err (.blockNotFound n) := by
    intro α f bad a hb h
    unfold BlockContent.argText at h
    split at h
    · cases h1 : sliceFrom a 1 with
      | none => rw [h1] at h; cases h
      | some t =>
        rw [h1, Out.unwrap_some, Out.ok_bind] at h
        cases h2 : parseU32 t with
        | none => rw [h2] at h; cases h
        | some n => rw [h2] at h; cases h
    · cases h1 : f a with
      | none => rw [h1] at h; exact hb a (Out.err.inj h)
      | some v => rw [h1] at h; cases h
  have hw : ∀ {w : Str} {ps : List Str}, BlockContent.wordArgs (B := B) w ps ≠ .err (.blockNotFound n) := by
    intro w ps h
    unfold BlockContent.wordArgs at h
    split at h
    · cases h
    · have hn : ∀ e, BlockContent.wordName w ≠ .err e := by
        intro e h
        unfold BlockContent.wordName at h
        split at h
        · cases h1 : sliceFrom w 3 <;> rw [h1] at h <;> cases h
        · cases h
      cases h1 : BlockContent.wordName w with
      | err e => exact hn e h1
      | panic => rw [h1] at h; cases h
      | ok name =>
        rw [h1, Out.ok_bind] at h
        cases h2 : w[1]? with
        | none => rw [h2] at h; cases h
        | some c =>
          rw [h2, Out.unwrap_some, Out.ok_bind] at h
          cases ps with
          | nil =>
            simp only [BlockContent.takeArg, Out.err_bind] at h
            split at h
            · cases h
            split at h
            · cases h
            split at h
            · cases h
            split at h
            · cases name <;> cases h
            · cases h
          | cons a ps =>
            simp only [BlockContent.takeArg, Out.ok_bind] at h
            split at h
            · cases h3 : BlockContent.argText (B := B) some (fun _ => .ranOutOfArgs) a with
              | ok v => rw [h3] at h; cases h
              | err e => rw [h3] at h; cases h; exact ha (fun _ => by simp) h3
              | panic => rw [h3] at h; cases h
            split at h
            · cases h3 : BlockContent.argText (B := B) parseBool .invalidBooleanArgument a with
              | ok v => rw [h3] at h; cases h
              | err e => rw [h3] at h; cases h; exact ha (fun _ => by simp) h3
              | panic => rw [h3] at h; cases h
            split at h
            · cases h3 : BlockContent.argText (B := B) Floats.read64 .invalidNumberArgument a with
              | ok v => rw [h3] at h; cases h
              | err e => rw [h3] at h; cases h; exact ha (fun _ => by simp) h3
              | panic => rw [h3] at h; cases h
            split at h
            · cases name <;> cases h
            · cases h
  induction ws generalizing ps with
  | nil => intro h; cases h
  | cons w ws ih =>
    intro h
    rw [BlockContent.wordsArgs] at h
    cases h1 : BlockContent.wordArgs (B := B) w ps with
    | err e => rw [h1] at h; cases h; exact hw h1
    | panic => rw [h1] at h; cases h
    | ok x =>
      obtain ⟨i, ps'⟩ := x
      rw [h1] at h
      simp only [Out.ok_bind] at h
      cases h2 : BlockContent.wordsArgs (B := B) ws ps' with
      | err e => rw [h2] at h; cases h; exact ih h2
      | panic => rw [h2] at h; cases h
      | ok x => rw [h2] at h; cases h

omit [MapPol] in
theorem c126_content {b b' : ParserBlock} (h : c126_Renumbered r b b') : c126_Out r (fun c c' => c' = c.map (c126_item r))
    (lift .content (BlockContent.parse b.spec b.parameters)) (lift .content (BlockContent.parse (B := Block) b'.spec b'.parameters)) := by
  unfold lift BlockContent.parse
  rw [h.spec, c126_wordsArgs h.params]
  have := fun n => c126_parse_err (B := Block) (ws := splitOn ' ' b.spec) (ps := b.parameters) (n := n)
  generalize BlockContent.wordsArgs (B := Block) (splitOn ' ' b.spec) b.parameters = x at this ⊢
  cases x with
  | ok c => exact .ok rfl
  | err e =>
    have e1 : c126_error r (.content e) = .content e := by
      cases e with
      | blockNotFound n => exact absurd rfl (this n)
      | _ => rfl
    show c126_Out r _ (.err (some (.content e))) (.err (some (.content e)))
    have := c126_Out.err (r := r) (R := fun c c' : BlockContent Block => c' = c.map (c126_item r)) (some (.content e))
    rwa [Option.map_some, e1] at this
  | panic => exact .panic

theorem c126_parse (hr : ∀ a b, r a = r b → a = b) (fuel : Nat) :
    (∀ id m m', c126_Maps r m m' → c126_Out r (c126_Left r) (parseBlock fuel id m) (parseBlock fuel (r id) m')) ∧
    (∀ id m m', c126_Maps r m m' → c126_Out r (c126_Left r) (parseBlocks fuel id m) (parseBlocks fuel (r id) m')) := by
  induction fuel with
  | zero =>
    constructor <;> intro id m m' _
    · unfold parseBlock; exact .err none
    · unfold parseBlocks; exact .err none
  | succ f ih =>
    obtain ⟨ih1, ih2⟩ := ih
    constructor
    · intro id m m' h
      unfold parseBlock
      refine c126_bind (c126_take hr h id) fun p p' hp => ?_
      have h := c126_erase hr h id
      refine c126_bind (c126_substack (err := .substack1 id (pointerId p.subStack1)) (err' := .substack1 (r id) (pointerId p'.subStack1)) ih2 hp.stack1
        (fun hn e => ?_) h) fun x y hxy => ?_
      · rcases hp.stack1 with ⟨h1, -⟩ | ⟨-, -, h1⟩
        · exact absurd h1 hn
        · rw [h1]; rfl
      obtain ⟨x, m1⟩ := x
      obtain ⟨y, m2⟩ := y
      obtain ⟨h1, h⟩ := hxy
      cases h1
      refine c126_bind (c126_substack (err := .substack2 id (pointerId p.subStack2)) (err' := .substack2 (r id) (pointerId p'.subStack2)) ih2 hp.stack2
        (fun hn e => ?_) h) fun x y hxy => ?_
      · rcases hp.stack2 with ⟨h1, -⟩ | ⟨-, -, h1⟩
        · exact absurd h1 hn
        · rw [h1]; rfl
      obtain ⟨x, m1⟩ := x
      obtain ⟨y, m2⟩ := y
      obtain ⟨h1, h⟩ := hxy
      cases h1
      refine c126_bind (c126_content hp) fun c c' hc => ?_
      subst hc
      refine c126_bind (c126_applyBlocks ih1 _ h) fun x y hxy => ?_
      obtain ⟨x, m1⟩ := x
      obtain ⟨y, m2⟩ := y
      obtain ⟨h1, h⟩ := hxy
      cases h1
      rw [hp.type, hp.typeName, hp.color, hp.opCode]
      refine c126_bind (c126_lift_type _ _) fun t t' ht => ?_
      subst ht
      exact .ok ⟨rfl, h⟩
    · intro id m m' h
      unfold parseBlocks
      refine c126_bind (c126_take hr h id) fun p p' hp => ?_
      refine c126_bind (ih1 id _ _ h) fun x y hxy => ?_
      obtain ⟨x, m1⟩ := x
      obtain ⟨y, m2⟩ := y
      obtain ⟨h1, h⟩ := hxy
      cases h1
      show c126_Out r (c126_Left r) (if _ then _ else _) (if _ then _ else _)
      rcases hp.next with ⟨h1, h2⟩ | ⟨h1, h2, h3⟩
      · rw [if_pos h1, if_pos h2]
        exact .ok ⟨rfl, h⟩
      · rw [if_neg h1, if_neg h2, h3]
        refine c126_bind (ih2 _ _ _ h) fun x y hxy => ?_
        obtain ⟨x, m1⟩ := x
        obtain ⟨y, m2⟩ := y
        obtain ⟨h1, h⟩ := hxy
        cases h1
        exact .ok ⟨rfl, h⟩

omit [Floats] in
theorem c126_blockMap (hr : ∀ a b, r a = r b → a = b) {bs bs' : List ParserBlock} (hb : All₂ (c126_Renumbered r) bs bs') : ∀ {m m' : BlockMap}, c126_Maps r m m' →
    (∃ i, blockMap bs m = .err (.malformedBlockId i) ∧ blockMap bs' m' = .err (.malformedBlockId i)) ∨
      ∃ n n', blockMap bs m = .ok n ∧ blockMap bs' m' = .ok n' ∧ c126_Maps r n n' := by
  induction hb with
  | nil => exact fun h => .inr ⟨_, _, rfl, rfl, h⟩
  | @cons b b' bs bs' hb t ih =>
    intro m m' h
    rw [blockMap, blockMap]
    rcases hb.id with ⟨n, h1, h2⟩ | ⟨h1, h2⟩
    · rw [h1, h2]
      exact ih (c126_insert hr h n hb)
    · rw [h2, h1]
      exact .inl ⟨_, rfl, rfl⟩

/-- C126: a container is read with other numbers for its blocks, given by a function that gives different numbers to different numbers, in every place that
holds the number of a block. The same code is read; an error is the same with the other numbers. -/
theorem c126_code (hr : ∀ a b, r a = r b → a = b) {c c' : BlockContainer} (h : All₂ (c126_Renumbered r) c.blocks c'.blocks) :
    tryFrom c' = (tryFrom c).mapErr (c126_error r) := by
  have key : ∀ fuel, c126_Out r Eq (tryFromFuel fuel c) (tryFromFuel fuel c') := by
    intro fuel
    unfold tryFromFuel
    rcases c126_blockMap hr h (m := []) (m' := []) .nil with ⟨i, h1, h2⟩ | ⟨m, m', h1, h2, h3⟩
    · rw [h1, h2]
      exact .err (some (.malformedBlockId i))
    · simp only [h1, h2, lift, Out.mapErr_ok, Out.ok_bind]
      cases h3 with
      | nil => exact .ok rfl
      | @cons e e' m m' h t =>
        obtain ⟨e, b⟩ := e
        obtain ⟨e', b'⟩ := e'
        have h1 : e' = r e := h.1
        subst h1
        refine c126_bind ((c126_parse hr _).2 e _ _ (.cons h t)) fun x y hxy => ?_
        obtain ⟨x, m1⟩ := x
        obtain ⟨y, m2⟩ := y
        obtain ⟨h1, -⟩ := hxy
        cases h1
        exact .ok rfl
  have key := key (2 * c.blocks.length + 2)
  rw [c43_terminates c _ (Nat.le_refl _), c43_terminates c' _ (by rw [h.length_eq])] at key
  generalize tryFrom c = x at key ⊢
  generalize tryFrom c' = y at key ⊢
  cases x with
  | ok x => cases y with
    | ok y => cases key with | ok h => rw [h]; rfl
    | err e => cases key
    | panic => cases key
  | err e => cases y with
    | ok y => cases key
    | err e' =>
      simp only [Out.mapErr_err] at key
      generalize hz : (Out.err (some e') : Run (List Block)) = z at key
      cases key with
      | err e'' => cases hz; rfl
    | panic => cases key
  | panic => cases y with
    | ok y => cases key
    | err e => cases key
    | panic => rfl
end

omit [MapPol] [Floats] in
theorem c126_pointer_lt (p : Int32) (hp : ¬ p < 0) : pointerId p < 2147483648 := by
  unfold pointerId
  rw [Int32.lt_iff_toInt_lt] at hp
  rw [UInt32.lt_iff_toNat_lt]
  have h1 : p.toUInt32.toNat = p.toBitVec.toNat := rfl
  have h2 : p.toInt = p.toBitVec.toInt := rfl
  rw [h2, BitVec.toInt_eq_toNat_cond] at hp
  rw [h1]
  have : p.toBitVec.toNat < 2^32 := p.toBitVec.isLt
  have h0 : Int32.toInt 0 = 0 := rfl
  rw [h0] at hp
  have h3 : UInt32.toNat 2147483648 = 2147483648 := rfl
  rw [h3]
  split at hp <;> omega

omit [MapPol] [Floats] in
theorem c126_number_nonneg (q : UInt32) (h : q < 2147483648) : ¬ q.toInt32 < 0 := by
  rw [Int32.lt_iff_toInt_lt]
  rw [UInt32.lt_iff_toNat_lt] at h
  have h2 : q.toInt32.toInt = q.toBitVec.toInt := rfl
  rw [h2, BitVec.toInt_eq_toNat_cond]
  have h1 : q.toNat = q.toBitVec.toNat := rfl
  rw [h1] at h
  have h0 : Int32.toInt 0 = 0 := rfl
  rw [h0]
  have h3 : UInt32.toNat 2147483648 = 2147483648 := rfl
  rw [h3] at h
  split <;> omega

/-- C126: every function that gives numbers below 2³¹ to numbers below 2³¹ can be applied to the blocks of a container. -/
theorem c126_exists {r : UInt32 → UInt32} (hr : ∀ a : UInt32, a < 2147483648 → r a < 2147483648) (bs : List ParserBlock) : ∃ bs', All₂ (c126_Renumbered r) bs bs' := by
  have ptr : ∀ p : Int32, ∃ p', c126_Pointer r p p' := by
    intro p
    by_cases hp : p < 0
    · exact ⟨p, .inl ⟨hp, hp⟩⟩
    · refine ⟨(r (pointerId p)).toInt32, .inr ⟨hp, ?_, ?_⟩⟩
      · exact c126_number_nonneg _ (hr _ (c126_pointer_lt p hp))
      · simp [pointerId]
  have param : ∀ menu a, ∃ a', c126_Param r menu a a' := by
    intro menu a
    by_cases hm : menu = true
    · exact ⟨a, .inl ⟨rfl, .inl hm⟩⟩
    · by_cases ha : ∃ t n, a = '@' :: t ∧ parseU32 t = some n
      · obtain ⟨t, n, rfl, hn⟩ := ha
        refine ⟨'@' :: natStr 10 (r n).toNat, .inr ⟨by simpa using hm, t, _, n, rfl, rfl, hn, ?_⟩⟩
        rw [parseU32_natStr (r n).toNat_lt]
        simp
      · exact ⟨a, .inl ⟨rfl, .inr fun t n h1 h2 => ha ⟨t, n, h1, h2⟩⟩⟩
  have params : ∀ ws ps, ∃ ps', c126_Params r ws ps ps' := by
    intro ws
    induction ws with
    | nil => exact fun ps => ⟨ps, .done ..⟩
    | cons w ws ih =>
      intro ps
      by_cases hw : w.head? = some '%'
      · cases ps with
        | nil => exact ⟨[], .out hw⟩
        | cons a ps =>
          obtain ⟨a', ha⟩ := param (w[1]? = some 'm') a
          obtain ⟨ps', hps⟩ := ih ps
          exact ⟨a' :: ps', .param hw ha hps⟩
      · obtain ⟨ps', hps⟩ := ih ps
        exact ⟨ps', .text hw hps⟩
  induction bs with
  | nil => exact ⟨[], .nil⟩
  | cons b bs ih =>
    obtain ⟨bs', ih⟩ := ih
    obtain ⟨n', h1⟩ := ptr b.nextBlock
    obtain ⟨s1, h2⟩ := ptr b.subStack1
    obtain ⟨s2, h3⟩ := ptr b.subStack2
    obtain ⟨ps, h4⟩ := params (splitOn ' ' b.spec) b.parameters
    cases hi : parseU32 b.id with
    | none => exact ⟨{ b with nextBlock := n', subStack1 := s1, subStack2 := s2, parameters := ps } :: bs',
        .cons ⟨.inr ⟨hi, rfl⟩, h1, h2, h3, h4, rfl, rfl, rfl, rfl, rfl⟩ ih⟩
    | some n => exact ⟨{ b with id := natStr 10 (r n).toNat, nextBlock := n', subStack1 := s1, subStack2 := s2, parameters := ps } :: bs',
        .cons ⟨.inl ⟨n, hi, by rw [parseU32_natStr (r n).toNat_lt]; simp⟩, h1, h2, h3, h4, rfl, rfl, rfl, rfl, rfl⟩ ih⟩

/-! ### The code of a project, container by container -/

/-- Specification: wherever code is read from the first containers, the same is read from the second ones. -/
def c126_Codes (cs cs' : Containers) : Prop := (onCreateId ∈ cs.keys ↔ onCreateId ∈ cs'.keys) ∧
  ∀ id code, tryFrom ((cs.get id).getD ⟨[]⟩) = .ok code → tryFrom ((cs'.get id).getD ⟨[]⟩) = .ok code

theorem c126_takeCode {cs cs' : Containers} (h : ∀ id code, tryFrom ((cs.get id).getD ⟨[]⟩) = .ok code → tryFrom ((cs'.get id).getD ⟨[]⟩) = .ok code) {id : Str}
    {code : List Block} {left : Containers} (ht : takeCode id cs = .ok (code, left)) :
    ∃ left', takeCode id cs' = .ok (code, left') ∧ ∀ id code, tryFrom ((left.get id).getD ⟨[]⟩) = .ok code → tryFrom ((left'.get id).getD ⟨[]⟩) = .ok code := by
  unfold takeCode at ht ⊢
  simp only [Out.bind_eq_ok, Out.mapErr_eq_ok] at ht
  obtain ⟨x, h1, h2⟩ := ht
  cases h2
  refine ⟨cs'.erase id, by rw [h id code h1]; rfl, fun k c hc => ?_⟩
  rw [LMap.get_erase] at hc ⊢
  split at hc
  · rename_i hk; rw [if_pos hk]; exact hc
  · rename_i hk; rw [if_neg hk]; exact h k c hc

theorem c126_moreBlocks {mbs : List (Str × Swrs.MoreBlock)} {cs cs' left : Containers} {out : List (Str × MoreBlock)}
    (h : ∀ id code, tryFrom ((cs.get id).getD ⟨[]⟩) = .ok code → tryFrom ((cs'.get id).getD ⟨[]⟩) = .ok code) (hm : moreBlocksOf mbs cs = .ok (out, left)) :
    ∃ left', moreBlocksOf mbs cs' = .ok (out, left') ∧ ∀ id code, tryFrom ((left.get id).getD ⟨[]⟩) = .ok code → tryFrom ((left'.get id).getD ⟨[]⟩) = .ok code := by
  induction mbs generalizing cs cs' out with
  | nil => cases hm; exact ⟨cs', rfl, h⟩
  | cons x mbs ih =>
    obtain ⟨id, mb⟩ := x
    simp only [moreBlocksOf, moreBlockOf, Out.bind_eq_ok, Prod.exists] at hm
    obtain ⟨m, cs1, ⟨sp, h1, code, cs2, h2, h3⟩, ms, cs3, h4, h5⟩ := hm
    cases h3
    cases h5
    obtain ⟨l1, g1, g2⟩ := c126_takeCode h h2
    obtain ⟨l2, g3, g4⟩ := ih g2 h4
    refine ⟨l2, ?_, g4⟩
    simp only [moreBlocksOf, moreBlockOf, h1, Out.ok_bind, g1, Out.pure_eq, g3]

theorem c126_events {evs : List Swrs.Event} {cs cs' left : Containers} {out : List Event}
    (h : ∀ id code, tryFrom ((cs.get id).getD ⟨[]⟩) = .ok code → tryFrom ((cs'.get id).getD ⟨[]⟩) = .ok code) (hm : eventsOf evs cs = .ok (out, left)) :
    ∃ left', eventsOf evs cs' = .ok (out, left') := by
  induction evs generalizing cs cs' out with
  | nil => cases hm; exact ⟨cs', rfl⟩
  | cons x evs ih =>
    simp only [eventsOf, eventOf, Out.bind_eq_ok, Prod.exists] at hm
    obtain ⟨m, cs1, ⟨sp, h1, code, cs2, h2, h3⟩, ms, cs3, h4, h5⟩ := hm
    cases h3
    cases h5
    obtain ⟨l1, g1, g2⟩ := c126_takeCode h h2
    obtain ⟨l2, g3⟩ := ih g2 h4
    refine ⟨l2, ?_⟩
    simp only [eventsOf, eventOf, h1, Out.ok_bind, g1, Out.pure_eq, g3]

/-- C126: a screen is read from its containers, and other containers are put in their place, from which the same code is read. The same screen is read. -/
theorem c126_screen {ln gn : Str} {file : FileItem} {view : Layout} {logic : ScreenLogic} {fab : Option View} {s : Screen}
    (h : Screen.fromParsed ln gn file view logic fab = .ok s) {cs : Containers} (hc : c126_Codes logic.blockContainers cs) :
    Screen.fromParsed ln gn file view { logic with blockContainers := cs } fab = .ok s := by
  unfold Screen.fromParsed at h ⊢
  simp only [Out.bind_eq_ok, Out.mapErr_eq_ok, Prod.exists] at h
  obtain ⟨t, a1, mbs, bc, a2, comps, a3, es, bc', a4, a5⟩ := h
  obtain ⟨l1, g1, g2⟩ := c126_moreBlocks hc.2 a2
  obtain ⟨l2, g3⟩ := c126_events g2 a4
  have e : parserEvents { logic with blockContainers := cs } = parserEvents logic := by
    unfold parserEvents
    simp only [hc.1]
  rw [e]
  simp only [a1, Out.mapErr_ok, Out.ok_bind, g1, a3, g3]
  exact a5

/-- Specification: the logics agree, up to containers from which the same code is read. -/
def c126_Logics (lg lg' : LMap Str ScreenLogic) : Prop := ∀ n, match lg.get n, lg'.get n with
  | none, none => True
  | some a, some b => b = { a with blockContainers := b.blockContainers } ∧ c126_Codes a.blockContainers b.blockContainers
  | _, _ => False

theorem c126_activities {items : List FileItem} {ly : LMap Str Layout} {lg lg' : LMap Str ScreenLogic} {fs : LMap Str AndroidView} {out : List Screen × LMap Str Layout}
    (hl : c126_Logics lg lg') (h : activitiesConv items ly lg fs = .ok out) : activitiesConv items ly lg' fs = .ok out := by
  induction items generalizing ly lg lg' fs out with
  | nil => exact h
  | cons f items ih =>
    simp only [activitiesConv, Out.bind_eq_ok, Out.mapErr_eq_ok, Prod.exists] at h
    obtain ⟨s, h1, ss, ly', h2, h3⟩ := h
    have h4 : ∃ g g' : ScreenLogic, (lg.get (viewNameToLogic f.filename)).getD (ScreenLogic.newEmpty f.filename) = g ∧
        (lg'.get (viewNameToLogic f.filename)).getD (ScreenLogic.newEmpty f.filename) = g' ∧
        g' = { g with blockContainers := g'.blockContainers } ∧ c126_Codes g.blockContainers g'.blockContainers := by
      have := hl (viewNameToLogic f.filename)
      cases e1 : lg.get (viewNameToLogic f.filename) with
      | none => cases e2 : lg'.get (viewNameToLogic f.filename) with
        | none => exact ⟨_, _, rfl, rfl, rfl, Iff.rfl, fun _ _ h => h⟩
        | some b => rw [e1, e2] at this; exact this.elim
      | some a => cases e2 : lg'.get (viewNameToLogic f.filename) with
        | none => rw [e1, e2] at this; exact this.elim
        | some b => rw [e1, e2] at this; exact ⟨_, _, rfl, rfl, this⟩
    obtain ⟨g, g', e1, e2, e3, hc⟩ := h4
    rw [e1] at h1
    simp only [activitiesConv, e2]
    have h5 := c126_screen h1 hc
    rw [← e3] at h5
    have e4 : g'.name = g.name := by rw [e3]
    rw [e4, h5]
    have h6 : c126_Logics (lg.erase (viewNameToLogic f.filename)) (lg'.erase (viewNameToLogic f.filename)) := by
      intro n
      rw [LMap.get_erase, LMap.get_erase]
      by_cases hn : n = viewNameToLogic f.filename
      · rw [if_pos hn, if_pos hn]; trivial
      · rw [if_neg hn, if_neg hn]; exact hl n
    simp only [Out.mapErr_ok, Out.ok_bind, ih h6 h2]
    exact h3

/-- C126: a project that is converted is converted to the same project when other containers are put in the place of its containers, from which the same code
is read. -/
theorem c126_project (rnd : ResourceType → Nat → UInt32) {p : Swrs.SketchwareProject} {P : SketchwareProject} (hP : SketchwareProject.tryFrom rnd p = .ok P)
    {logic : Logic} (hl : c126_Logics p.logic.screens logic.screens) : SketchwareProject.tryFrom rnd { p with logic } = .ok P := by
  unfold SketchwareProject.tryFrom at hP ⊢
  simp only [Out.bind_eq_ok, Prod.exists] at hP
  obtain ⟨ss', ly', a1, cs', a2, lb, a3, im, a4, so, a5, fo, a6, a7⟩ := hP
  simp only [c126_activities hl a1, Out.ok_bind, a2, a3, a4, a5, a6]
  exact a7

/-- Specification: two containers from which the same code is read, for one of three reasons: the blocks have other numbers, or the blocks after the first are
in another order, or there is a block more after the first, with a new number. -/
inductive c126_Same : BlockContainer → BlockContainer → Prop
  | refl (c : BlockContainer) : c126_Same c c
  | renumbered (r : UInt32 → UInt32) (hr : ∀ a b, r a = r b → a = b) {c c' : BlockContainer} (h : All₂ (c126_Renumbered r) c.blocks c'.blocks) : c126_Same c c'
  | order {b : ParserBlock} {bs bs' : List ParserBlock} (h : bs.Perm bs') (hn : ∀ b' ∈ b :: bs, ∃ n, parseU32 b'.id = some n)
      (hd : ((b :: bs).map fun b => parseU32 b.id).Nodup) : c126_Same ⟨b :: bs⟩ ⟨b :: bs'⟩
  | more {f b : ParserBlock} {a c : List ParserBlock} {n : UInt32} (hn : parseU32 b.id = some n) (hb : ∀ b' ∈ f :: (a ++ c), parseU32 b'.id ≠ some n)
      (hf : ∀ b' ∈ a ++ c, parseU32 b'.id ≠ parseU32 f.id) : c126_Same ⟨f :: (a ++ c)⟩ ⟨f :: (a ++ b :: c)⟩
  | trans {c c' c'' : BlockContainer} (h : c126_Same c c') (h' : c126_Same c' c'') : c126_Same c c''

theorem c126_same_code {c c' : BlockContainer} (h : c126_Same c c') : ∀ {code : List Block}, tryFrom c = .ok code → tryFrom c' = .ok code := by
  induction h with
  | refl => exact id
  | renumbered r hr h => intro code hc; rw [c126_code hr h, hc]; rfl
  | order h hn hd => intro code hc; rw [← c124_blocks h hn hd]; exact hc
  | more hn hb hf => exact c125_block_more hn hb hf
  | trans _ _ ih1 ih2 => exact fun h => ih2 (ih1 h)

/-- C126: so a project is converted to the same project whatever the numbers of the blocks of each container are, in whatever order the blocks after the first
are, and whatever blocks with new numbers are put behind the first. -/
theorem c126_same (rnd : ResourceType → Nat → UInt32) {p : Swrs.SketchwareProject} {P : SketchwareProject} (hP : SketchwareProject.tryFrom rnd p = .ok P)
    {logic : Logic} (hl : All₂ (fun e e' : Str × ScreenLogic => e'.1 = e.1 ∧ e'.2 = { e.2 with blockContainers := e'.2.blockContainers } ∧
      All₂ (fun c c' : Str × BlockContainer => c'.1 = c.1 ∧ c126_Same c.2 c'.2) e.2.blockContainers e'.2.blockContainers) p.logic.screens logic.screens) :
    SketchwareProject.tryFrom rnd { p with logic } = .ok P := by
  have key : ∀ {cs cs' : Containers}, All₂ (fun c c' : Str × BlockContainer => c'.1 = c.1 ∧ c126_Same c.2 c'.2) cs cs' → c126_Codes cs cs' := by
    intro cs cs' h
    induction h with
    | nil => exact ⟨Iff.rfl, fun _ _ h => h⟩
    | @cons c c' cs cs' h t ih =>
      obtain ⟨k, c⟩ := c
      obtain ⟨k', c'⟩ := c'
      obtain ⟨h1, h2⟩ := h
      simp only at h1 h2
      subst h1
      refine ⟨?_, fun id code hc => ?_⟩
      · have := ih.1
        simp only [LMap.keys, List.map_cons, List.mem_cons] at this ⊢
        rw [this]
      · simp only [LMap.get] at hc ⊢
        split at hc
        · rename_i hk; rw [if_pos hk]; exact c126_same_code h2 hc
        · rename_i hk; rw [if_neg hk]; exact ih.2 id code hc
  refine c126_project rnd hP fun n => ?_
  generalize p.logic.screens = lg at hl
  generalize logic.screens = lg' at hl
  induction hl with
  | nil => trivial
  | @cons e e' lg lg' h t ih =>
    obtain ⟨k, e⟩ := e
    obtain ⟨k', e'⟩ := e'
    obtain ⟨h1, h2, h3⟩ := h
    simp only at h1 h2 h3
    subst h1
    simp only [LMap.get]
    by_cases hk : k' = n
    · rw [if_pos hk, if_pos hk]; exact ⟨h2, key h3⟩
    · rw [if_neg hk, if_neg hk]; exact ih

end Swrs.Api

namespace Swrs.Api

/-- The numbers of three blocks that are linked, one of them in an argument. -/
def c126_old : List ParserBlock := [exBlock (s% "0") 2 (-1) (s% "a") [], exBlock (s% "1") (-1) (-1) (s% "b") [], exBlock (s% "2") (-1) (-1) (s% "c %s") [s% "@1"]]

/-- Ten is added to the numbers. -/
def c126_new : List ParserBlock := [exBlock (s% "10") 12 (-1) (s% "a") [], exBlock (s% "11") (-1) (-1) (s% "b") [], exBlock (s% "12") (-1) (-1) (s% "c %s") [s% "@11"]]

/-- Ten is added to the numbers, everywhere. -/
theorem c126_shifted : All₂ (c126_Renumbered (· + 10)) c126_old c126_new := by
  refine .cons ⟨.inl ⟨0, by decide, by decide⟩, .inr (by decide), .inl (by decide), .inl (by decide), ?_, rfl, rfl, rfl, rfl, rfl⟩ (.cons
    ⟨.inl ⟨1, by decide, by decide⟩, .inl (by decide), .inl (by decide), .inl (by decide), ?_, rfl, rfl, rfl, rfl, rfl⟩ (.cons
    ⟨.inl ⟨2, by decide, by decide⟩, .inl (by decide), .inl (by decide), .inl (by decide), ?_, rfl, rfl, rfl, rfl, rfl⟩ .nil))
  · exact .text (by decide) (.done ..)
  · exact .text (by decide) (.done ..)
  · exact .text (by decide) (.param (by decide) (.inr ⟨by decide, _, _, 1, rfl, rfl, by decide, by decide⟩) (.done ..))

/-- `c126_code`: ten is added to the numbers of three blocks, one of which is an argument. -/
example [MapPol] : let _ : Floats := toyFloats.toFloats
    (∀ a b : UInt32, a + 10 = b + 10 → a = b) ∧ All₂ (c126_Renumbered (· + 10)) c126_old c126_new ∧ (∃ code, tryFrom ⟨c126_old⟩ = .ok code ∧ code.length = 2) := by
  let _ : Floats := toyFloats.toFloats
  exact ⟨fun a b h => by simpa using h, c126_shifted, _, rfl, rfl⟩

/-- C126: different numbers must stay different: when two blocks get the same number, one of them is lost. -/
theorem c126_code_false [pol : MapPol] : let _ : Floats := toyFloats.toFloats
    ∃ (r : UInt32 → UInt32) (c c' : BlockContainer) (x y : List Block), All₂ (c126_Renumbered r) c.blocks c'.blocks ∧ tryFrom c = .ok x ∧ tryFrom c' = .ok y ∧
      x.length = 2 ∧ y.length = 1 := by
  let _ : Floats := toyFloats.toFloats
  refine ⟨fun _ => 0, ⟨[exBlock (s% "0") 1 (-1) (s% "a") [], exBlock (s% "1") (-1) (-1) (s% "b") []]⟩,
    ⟨[exBlock (s% "0") 0 (-1) (s% "a") [], exBlock (s% "0") (-1) (-1) (s% "b") []]⟩, _, [⟨none, none, Color.fromRgb 1 2 3, s% "op", [.text (s% "b")], .regular⟩], ?_, rfl, ?_, rfl, rfl⟩
  · exact .cons ⟨.inl ⟨0, by decide, by decide⟩, .inr (by decide), .inl (by decide), .inl (by decide), .text (by decide) (.done ..), rfl, rfl, rfl, rfl, rfl⟩ (.cons
      ⟨.inl ⟨1, by decide, by decide⟩, .inl (by decide), .inl (by decide), .inl (by decide), .text (by decide) (.done ..), rfl, rfl, rfl, rfl, rfl⟩ .nil)
  · obtain ⟨a, b⟩ := pol
    cases a <;> cases b <;> rfl

/-- `c126_same`: ten is added to the numbers of the blocks of a project. -/
example [MapPol] (rnd : ResourceType → Nat → UInt32) : let _ : Floats := toyFloats.toFloats
    ∃ (p : Swrs.SketchwareProject) (P : SketchwareProject) (logic : Logic), SketchwareProject.tryFrom rnd p = .ok P ∧ p.logic ≠ logic ∧
      All₂ (fun e e' : Str × ScreenLogic => e'.1 = e.1 ∧ e'.2 = { e.2 with blockContainers := e'.2.blockContainers } ∧
      All₂ (fun c c' : Str × BlockContainer => c'.1 = c.1 ∧ c126_Same c.2 c'.2) e.2.blockContainers e'.2.blockContainers) p.logic.screens logic.screens ∧
      (P.screens.map fun s => s.events.map fun e => e.code.length) = [[2]] := by
  let _ : Floats := toyFloats.toFloats
  refine ⟨{ c120_read ⟨[], []⟩ ⟨[(s% "MainActivity", { ScreenLogic.newEmpty (s% "MainActivity") with blockContainers := [(onCreateId, ⟨c126_old⟩)] })]⟩ with
    file := ⟨[c124_act (s% "main") true], []⟩ }, _, ⟨[(s% "MainActivity", { ScreenLogic.newEmpty (s% "MainActivity") with blockContainers := [(onCreateId, ⟨c126_new⟩)] })]⟩,
    rfl, ?_, .cons ⟨rfl, rfl, .cons ⟨rfl, .renumbered (· + 10) (fun a b h => by simpa using h) c126_shifted⟩ .nil⟩ .nil, rfl⟩
  intro h
  have : [[[s% "0", s% "1", s% "2"]]] = [[[s% "10", s% "11", s% "12"]]] :=
    congrArg (fun l : Logic => l.screens.map fun e : Str × ScreenLogic => e.2.blockContainers.map fun c : Str × BlockContainer => c.2.blocks.map Swrs.Block.id) h
  revert this
  decide

end Swrs.Api
