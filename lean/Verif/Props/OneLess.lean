import Verif.Props.EntryOrder
/-!
# C125: one entry less
-/
set_option linter.unusedSectionVars false
namespace Swrs.Api
variable [MapPol] [Floats]

/-! ### A block less -/

/-- Specification: the error says that a block was not found. -/
def c125_NotFound : BlockConversionError → Prop
  | .blockNotFound _ => True
  | .substack1 _ _ e => c125_NotFound e
  | .substack2 _ _ e => c125_NotFound e
  | .content (.blockNotFound _) => True
  | _ => False

/-- The second map is the first one without the key. -/
def c125_Minus (n : UInt32) (m m' : BlockMap) : Prop := ∀ k, m'.get k = if k = n then none else m.get k

/-- The second outcome is like the first one, or a block was not found. -/
inductive c125_Out {α : Type} (R : α → α → Prop) : Run α → Run α → Prop
  | ok {a b : α} (h : R a b) : c125_Out R (.ok a) (.ok b)
  | err (e : Option BlockConversionError) : c125_Out R (.err e) (.err e)
  | panic : c125_Out R .panic .panic
  | lost {x : Run α} {e : BlockConversionError} (h : c125_NotFound e) : c125_Out R x (.err (some e))

/-- The same value, and maps that differ by the key. -/
def c125_Left (n : UInt32) {α : Type} (x y : α × BlockMap) : Prop := x.1 = y.1 ∧ c125_Minus n x.2 y.2

omit [MapPol] [Floats] in
theorem c125_bind {α β : Type} {R : α → α → Prop} {S : β → β → Prop} {x y : Run α} {f g : α → Run β} (h : c125_Out R x y)
    (hf : ∀ a b, R a b → c125_Out S (f a) (g b)) : c125_Out S (x >>= f) (y >>= g) := by
  cases h with
  | ok h => exact hf _ _ h
  | err e => exact .err e
  | panic => exact .panic
  | lost h => exact .lost h

omit [MapPol] [Floats] in
theorem c125_same {α : Type} (x : Run α) : c125_Out Eq x x := by
  cases x with
  | ok a => exact .ok rfl
  | err e => exact .err e
  | panic => exact .panic

omit [MapPol] [Floats] in
theorem c125_erase {n : UInt32} {m m' : BlockMap} (h : c125_Minus n m m') (k : UInt32) : c125_Minus n (m.erase k) (m'.erase k) := by
  intro k'
  rw [LMap.get_erase, LMap.get_erase, h k']
  by_cases h1 : k' = k <;> by_cases h2 : k' = n <;> simp [h1, h2]

section
variable {n : UInt32} {get get' : UInt32 → BlockMap → Run (Block × BlockMap)}

theorem c125_getBlock (hg : ∀ id m m', c125_Minus n m m' → c125_Out (c125_Left n) (get id m) (get' id m')) (id : UInt32) {m m' : BlockMap}
    (h : c125_Minus n m m') : c125_Out (c125_Left n) (getBlock get id m) (getBlock get' id m') := by
  unfold getBlock
  have := hg id _ _ h
  generalize get id m = x at this
  generalize get' id m' = y at this
  cases this with
  | ok h => exact .ok h
  | err e => exact .err _
  | panic => exact .panic
  | lost h => exact .lost trivial

theorem c125_applyValue {α : Type} (hg : ∀ id m m', c125_Minus n m m' → c125_Out (c125_Left n) (get id m) (get' id m')) (v : ArgValue Block α)
    {m m' : BlockMap} (h : c125_Minus n m m') : c125_Out (c125_Left n) (applyValue get v m) (applyValue get' v m') := by
  unfold applyValue
  split
  · refine c125_bind (c125_getBlock hg _ h) fun x y hxy => ?_
    obtain ⟨x, m1⟩ := x
    obtain ⟨y, m2⟩ := y
    obtain ⟨h1, h2⟩ := hxy
    cases h1
    exact .ok ⟨rfl, h2⟩
  · exact .ok ⟨rfl, h⟩

theorem c125_applyBool (hg : ∀ id m m', c125_Minus n m m' → c125_Out (c125_Left n) (get id m) (get' id m')) (v : ArgValue Block Bool)
    {m m' : BlockMap} (h : c125_Minus n m m') : c125_Out (c125_Left n) (applyBool get v m) (applyBool get' v m') := by
  unfold applyBool
  split
  · refine c125_bind (c125_getBlock hg _ h) fun x y hxy => ?_
    obtain ⟨x, m1⟩ := x
    obtain ⟨y, m2⟩ := y
    obtain ⟨h1, h2⟩ := hxy
    cases h1
    show c125_Out (c125_Left n) (if _ then _ else if _ then _ else _) (if _ then _ else if _ then _ else _)
    split
    · exact .ok ⟨rfl, h2⟩
    · split
      · exact .ok ⟨rfl, h2⟩
      · exact .ok ⟨rfl, h2⟩
  · exact .ok ⟨rfl, h⟩

theorem c125_applyItem (hg : ∀ id m m', c125_Minus n m m' → c125_Out (c125_Left n) (get id m) (get' id m')) (i : SpecItem Block)
    {m m' : BlockMap} (h : c125_Minus n m m') : c125_Out (c125_Left n) (applyItem get i m) (applyItem get' i m') := by
  unfold applyItem
  split
  · exact .ok ⟨rfl, h⟩
  all_goals
    first
      | refine c125_bind (c125_applyValue hg _ h) fun x y hxy => ?_
      | refine c125_bind (c125_applyBool hg _ h) fun x y hxy => ?_
    obtain ⟨x, m1⟩ := x
    obtain ⟨y, m2⟩ := y
    obtain ⟨h1, h2⟩ := hxy
    cases h1
    exact .ok ⟨rfl, h2⟩

theorem c125_applyBlocks (hg : ∀ id m m', c125_Minus n m m' → c125_Out (c125_Left n) (get id m) (get' id m')) (c : BlockContent Block)
    {m m' : BlockMap} (h : c125_Minus n m m') : c125_Out (c125_Left n) (applyBlocks get c m) (applyBlocks get' c m') := by
  induction c generalizing m m' with
  | nil => exact .ok ⟨rfl, h⟩
  | cons i is ih =>
    unfold applyBlocks
    refine c125_bind (c125_applyItem hg i h) fun x y hxy => ?_
    obtain ⟨x, m1⟩ := x
    obtain ⟨y, m2⟩ := y
    obtain ⟨h1, h2⟩ := hxy
    cases h1
    refine c125_bind (ih h2) fun x y hxy => ?_
    obtain ⟨x, m3⟩ := x
    obtain ⟨y, m4⟩ := y
    obtain ⟨h1, h2⟩ := hxy
    cases h1
    exact .ok ⟨rfl, h2⟩

theorem c125_substack {go go' : UInt32 → BlockMap → Run (List Block × BlockMap)}
    (hg : ∀ id m m', c125_Minus n m m' → c125_Out (c125_Left n) (go id m) (go' id m')) {err : BlockConversionError → BlockConversionError}
    (he : ∀ e, c125_NotFound e → c125_NotFound (err e)) (p : Int32) {m m' : BlockMap} (h : c125_Minus n m m') :
    c125_Out (c125_Left n) (substack go err p m) (substack go' err p m') := by
  unfold substack
  split
  · exact .ok ⟨rfl, h⟩
  · have hw : c125_Out (c125_Left n) (wrap err (go (pointerId p) m)) (wrap err (go' (pointerId p) m')) := by
      unfold wrap
      have := hg (pointerId p) _ _ h
      generalize go (pointerId p) m = x at this
      generalize go' (pointerId p) m' = y at this
      cases this with
      | ok h => exact .ok h
      | err e => exact .err _
      | panic => exact .panic
      | lost h => exact .lost (he _ h)
    refine c125_bind hw fun x y hxy => ?_
    obtain ⟨x, m1⟩ := x
    obtain ⟨y, m2⟩ := y
    obtain ⟨h1, h2⟩ := hxy
    cases h1
    exact .ok ⟨rfl, h2⟩
end

omit [MapPol] in
theorem c125_take {n : UInt32} {m m' : BlockMap} (h : c125_Minus n m m') (id : UInt32) :
    c125_Out Eq (Out.ofOption (some (BlockConversionError.blockNotFound id)) (m.get id)) (Out.ofOption (some (BlockConversionError.blockNotFound id)) (m'.get id)) := by
  rw [h id]
  split
  · exact .lost trivial
  · exact c125_same _

theorem c125_parse (n : UInt32) (fuel : Nat) :
    (∀ id m m', c125_Minus n m m' → c125_Out (c125_Left n) (parseBlock fuel id m) (parseBlock fuel id m')) ∧
    (∀ id m m', c125_Minus n m m' → c125_Out (c125_Left n) (parseBlocks fuel id m) (parseBlocks fuel id m')) := by
  induction fuel with
  | zero =>
    constructor <;> intro id m m' _
    · unfold parseBlock; exact .err _
    · unfold parseBlocks; exact .err _
  | succ f ih =>
    obtain ⟨ih1, ih2⟩ := ih
    constructor
    · intro id m m' h
      unfold parseBlock
      refine c125_bind (c125_take h id) fun p p' hp => ?_
      subst hp
      have h := c125_erase h id
      refine c125_bind (c125_substack (err := .substack1 id (pointerId p.subStack1)) ih2 (fun _ h => h) _ h) fun x y hxy => ?_
      obtain ⟨x, m1⟩ := x
      obtain ⟨y, m2⟩ := y
      obtain ⟨h1, h⟩ := hxy
      cases h1
      refine c125_bind (c125_substack (err := .substack2 id (pointerId p.subStack2)) ih2 (fun _ h => h) _ h) fun x y hxy => ?_
      obtain ⟨x, m1⟩ := x
      obtain ⟨y, m2⟩ := y
      obtain ⟨h1, h⟩ := hxy
      cases h1
      refine c125_bind (c125_same _) fun c c' hc => ?_
      subst hc
      refine c125_bind (c125_applyBlocks ih1 _ h) fun x y hxy => ?_
      obtain ⟨x, m1⟩ := x
      obtain ⟨y, m2⟩ := y
      obtain ⟨h1, h⟩ := hxy
      cases h1
      refine c125_bind (c125_same _) fun t t' ht => ?_
      subst ht
      exact .ok ⟨rfl, h⟩
    · intro id m m' h
      unfold parseBlocks
      refine c125_bind (c125_take h id) fun p p' hp => ?_
      subst hp
      refine c125_bind (ih1 id _ _ h) fun x y hxy => ?_
      obtain ⟨x, m1⟩ := x
      obtain ⟨y, m2⟩ := y
      obtain ⟨h1, h⟩ := hxy
      cases h1
      show c125_Out (c125_Left n) (if _ then _ else _) (if _ then _ else _)
      split
      · exact .ok ⟨rfl, h⟩
      · refine c125_bind (ih2 _ _ _ h) fun x y hxy => ?_
        obtain ⟨x, m1⟩ := x
        obtain ⟨y, m2⟩ := y
        obtain ⟨h1, h⟩ := hxy
        cases h1
        exact .ok ⟨rfl, h⟩

/-- The map of blocks with and without a block of a new number. -/
theorem c125_blockMap {n : UInt32} : ∀ (bs : List ParserBlock) {m m' : BlockMap}, (∀ b ∈ bs, parseU32 b.id ≠ some n) → c125_Minus n m m' →
    (∃ e, blockMap bs m = .err e ∧ blockMap bs m' = .err e) ∨ ∃ r r', blockMap bs m = .ok r ∧ blockMap bs m' = .ok r' ∧ c125_Minus n r r'
  | [], m, m', _, h => .inr ⟨m, m', rfl, rfl, h⟩
  | b :: bs, m, m', hb, h => by
    unfold blockMap
    cases hi : parseU32 b.id with
    | none => exact .inl ⟨_, rfl, rfl⟩
    | some i =>
      have hne : i ≠ n := by rintro rfl; exact hb b (by simp) hi
      refine c125_blockMap bs (fun b' hb' => hb b' (by simp [hb'])) fun k => ?_
      rw [LMap.get_insert, LMap.get_insert, h k]
      by_cases h1 : k = i
      · subst h1; simp [hne]
      · simp [h1]

theorem c125_blockMap_snoc {n : UInt32} {b : ParserBlock} (hn : parseU32 b.id = some n) {c : List ParserBlock} (hc : ∀ b ∈ c, parseU32 b.id ≠ some n) :
    ∀ (a : List ParserBlock) {m : BlockMap}, (∀ b ∈ a, parseU32 b.id ≠ some n) → m.get n = none →
    (∃ e, blockMap (a ++ b :: c) m = .err e ∧ blockMap (a ++ c) m = .err e) ∨
      ∃ r r', blockMap (a ++ b :: c) m = .ok r ∧ blockMap (a ++ c) m = .ok r' ∧ c125_Minus n r r'
  | [], m, _, h => by
    rw [List.nil_append, List.nil_append]
    have : blockMap (b :: c) m = blockMap c (LMap.insert m n b) := by rw [blockMap, hn]; rfl
    rw [this]
    refine c125_blockMap c hc fun k => ?_
    rw [LMap.get_insert]
    by_cases h1 : k = n
    · subst h1; simp [h]
    · simp [h1]
  | x :: a, m, ha, h => by
    simp only [List.cons_append, blockMap]
    cases hi : parseU32 x.id with
    | none => exact .inl ⟨_, rfl, rfl⟩
    | some i =>
      have hne : i ≠ n := by rintro rfl; exact ha x (by simp) hi
      exact c125_blockMap_snoc hn hc a (fun b' hb' => ha b' (by simp [hb'])) (by rw [LMap.get_insert, if_neg (Ne.symm hne)]; exact h)

/-- C125: a block whose number no other block has is taken out of a container, not the first one, whose number is not used again either. The code that is read
is the same, or the same error, or it is an error that a block was not found. No other code is ever read. -/
theorem c125_block {f b : ParserBlock} {a c : List ParserBlock} {n : UInt32} (hn : parseU32 b.id = some n) (hb : ∀ b' ∈ f :: (a ++ c), parseU32 b'.id ≠ some n)
    (hf : ∀ b' ∈ a ++ c, parseU32 b'.id ≠ parseU32 f.id) :
    tryFrom ⟨f :: (a ++ c)⟩ = tryFrom ⟨f :: (a ++ b :: c)⟩ ∨ ∃ e, tryFrom ⟨f :: (a ++ c)⟩ = .err e ∧ c125_NotFound e := by
  have key : c125_Out Eq (tryFromFuel (2 * (a.length + c.length + 2) + 2) ⟨f :: (a ++ b :: c)⟩) (tryFromFuel (2 * (a.length + c.length + 2) + 2) ⟨f :: (a ++ c)⟩) := by
    unfold tryFromFuel
    rcases c125_blockMap_snoc hn (c := c) (fun b' hb' => hb b' (by simp [hb'])) (f :: a) (m := [])
      (fun b' hb' => hb b' (by rcases List.mem_cons.mp hb' with rfl | h <;> simp_all)) rfl with ⟨e, h1, h2⟩ | ⟨r, r', h1, h2, h3⟩
    · rw [List.cons_append] at h1 h2
      simp only [h1, h2, lift, Out.mapErr_err]
      exact .err _
    · rw [List.cons_append] at h1 h2
      simp only [h1, h2, lift, Out.mapErr_ok, Out.ok_bind]
      cases hi : parseU32 f.id with
      | none => simp [blockMap, hi] at h1
      | some i =>
        rw [blockMap, hi] at h1 h2
        simp only [Out.ofOption_some, Out.ok_bind] at h1 h2
        have hin : n ≠ i := by rintro rfl; exact hb f (by simp) hi
        obtain ⟨t, rfl⟩ := c110_head _ (a ++ b :: c) (m := []) (p := f) (fun b' hb' => by
          rcases List.mem_append.mp hb' with h | h
          · rw [← hi]; exact hf b' (by simp [h])
          · rcases List.mem_cons.mp h with rfl | h
            · rw [hn]; exact fun h => hin (Option.some.inj h)
            · rw [← hi]; exact hf b' (by simp [h])) h1
        obtain ⟨t', rfl⟩ := c110_head _ (a ++ c) (m := []) (p := f) (fun b' hb' => by rw [← hi]; exact hf b' hb') h2
        refine c125_bind ((c125_parse n _).2 i _ _ h3) fun x y hxy => ?_
        obtain ⟨x, m1⟩ := x
        obtain ⟨y, m2⟩ := y
        obtain ⟨h1, -⟩ := hxy
        cases h1
        exact .ok rfl
  rw [c43_terminates _ _ (by simp only [List.length_cons, List.length_append]; omega),
    c43_terminates _ _ (by simp only [List.length_cons, List.length_append]; omega)] at key
  generalize tryFrom ⟨f :: (a ++ b :: c)⟩ = x at key ⊢
  generalize tryFrom ⟨f :: (a ++ c)⟩ = y at key ⊢
  cases y with
  | ok y => cases x with
    | ok x => cases key with | ok h => exact .inl (by rw [h])
    | err e => cases key
    | panic => cases key
  | err e => cases x with
    | ok x => cases key with | lost h => exact .inr ⟨e, rfl, h⟩
    | err e' =>
      simp only [Out.mapErr_err] at key
      generalize hz : (Out.err (some e) : Run (List Block)) = z at key
      cases key with
      | err e'' => cases hz; exact .inl rfl
      | lost h => cases hz; exact .inr ⟨e, rfl, h⟩
    | panic => cases key with | lost h => exact .inr ⟨e, rfl, h⟩
  | panic => cases x with
    | ok x => cases key
    | err e => cases key
    | panic => exact .inl rfl

/-- C125: so a block with a new number that is put behind the first one changes nothing of code that can be read. -/
theorem c125_block_more {f b : ParserBlock} {a c : List ParserBlock} {n : UInt32} (hn : parseU32 b.id = some n)
    (hb : ∀ b' ∈ f :: (a ++ c), parseU32 b'.id ≠ some n) (hf : ∀ b' ∈ a ++ c, parseU32 b'.id ≠ parseU32 f.id) {code : List Block}
    (h : tryFrom ⟨f :: (a ++ c)⟩ = .ok code) : tryFrom ⟨f :: (a ++ b :: c)⟩ = .ok code := by
  rcases c125_block hn hb hf with e | ⟨e, h', -⟩
  · rw [← e, h]
  · rw [h] at h'; cases h'

/-! ### A view less -/

/-- C125: a view that is nobody's parent is taken out of a layout; no other view has its id. The layout is still a tree, the same one without this leaf. -/
theorem c125_leaf {u w : List AndroidView} {x : AndroidView} {vs' : List View} (h : parseRawLayout ⟨u ++ x :: w⟩ = .ok vs') (hx : ∀ r ∈ u ++ w, r.id ≠ x.id)
    (hp : ∀ r ∈ w, r.parent ≠ some x.id) : ∃ vs, parseRawLayout ⟨u ++ w⟩ = .ok vs ∧ c123_Added x (s% "root") vs vs' := by
  have hg : Grounded (u ++ x :: w) := (c33_accepts ⟨u ++ x :: w⟩).mp ⟨vs', h⟩
  have hg' : Grounded (u ++ w) := by
    intro pre r post e
    rcases List.append_eq_append_iff.mp e with ⟨c, rfl, hc⟩ | ⟨c, rfl, hc⟩
    · obtain ⟨p, h1, h2⟩ := hg (u ++ x :: c) r post (by rw [hc]; simp)
      refine ⟨p, h1, h2.imp id fun h2 => ?_⟩
      rw [List.map_append, List.map_cons, List.mem_append, List.mem_cons] at h2
      rw [List.map_append, List.mem_append]
      rcases h2 with h2 | h2 | h2
      · exact .inl h2
      · exact absurd (h2 ▸ h1) (hp r (by rw [hc]; simp))
      · exact .inr h2
    · cases c with
      | nil =>
        rw [List.nil_append] at hc
        obtain ⟨p, h1, h2⟩ := hg (pre ++ [x]) r post (by rw [← hc]; simp)
        refine ⟨p, h1, h2.imp id fun h2 => ?_⟩
        rw [List.map_append, List.mem_append, List.map_cons, List.map_nil, List.mem_singleton] at h2
        rcases h2 with h2 | h2
        · exact h2
        · exact absurd (h2 ▸ h1) (hp r (by rw [← hc]; simp))
      | cons z c =>
        obtain ⟨rfl, rfl⟩ := List.cons.inj hc
        exact hg pre r (c ++ x :: w) (by simp)
  obtain ⟨vs, hv⟩ := (c33_accepts ⟨u ++ w⟩).mpr hg'
  obtain ⟨p, h1, h2⟩ := hg u x w rfl
  obtain ⟨vs'', h3, h4⟩ := c123_tree hv hx h1 h2
  rw [h] at h3
  rw [Out.ok.inj h3]
  exact ⟨vs, hv, h4⟩

/-- C125: a view that is the parent of a later one is taken out of a layout; no other view has its id. The layout is refused: the error names the first view that lost
its parent, and this parent. -/
theorem c125_parent {u w : List AndroidView} {x : AndroidView} {vs' : List View} (h : parseRawLayout ⟨u ++ x :: w⟩ = .ok vs') (hx : ∀ r ∈ u ++ w, r.id ≠ x.id)
    (hr : x.id ≠ s% "root") (hp : ∃ r ∈ w, r.parent = some x.id) :
    ∃ a r b, w = a ++ r :: b ∧ r.parent = some x.id ∧ (∀ r' ∈ a, r'.parent ≠ some x.id) ∧ parseRawLayout ⟨u ++ w⟩ = .err (.nonexistentParent r.id x.id) := by
  have hg : Grounded (u ++ x :: w) := (c33_accepts ⟨u ++ x :: w⟩).mp ⟨vs', h⟩
  have hng : ¬ Grounded (u ++ w) := by
    intro hg'
    obtain ⟨r, hrw, hrp⟩ := hp
    obtain ⟨a, b, rfl⟩ := List.append_of_mem hrw
    obtain ⟨p, h1, h2⟩ := hg' (u ++ a) r b (by simp)
    rw [hrp] at h1
    obtain rfl := Option.some.inj h1
    rcases h2 with h2 | h2
    · exact hr h2
    · obtain ⟨y, hy, e⟩ := List.mem_map.mp h2
      exact hx y (by rcases List.mem_append.mp hy with h | h <;> simp [h]) e
  obtain ⟨pre, r, post, e, h1, h2, h3, h4⟩ := c33_error ⟨u ++ w⟩ hng
  have hsplit : (∃ c, pre = u ++ c ∧ w = c ++ r :: post) ∨ ∃ c, u = pre ++ r :: c := by
    rcases List.append_eq_append_iff.mp h1 with ⟨c, rfl, hc⟩ | ⟨c, rfl, hc⟩
    · exact .inl ⟨c, rfl, hc⟩
    · cases c with
      | nil => exact .inl ⟨[], by simp, hc.symm⟩
      | cons z c =>
        obtain ⟨rfl, rfl⟩ := List.cons.inj hc
        exact .inr ⟨c, rfl⟩
  rcases hsplit with ⟨c, rfl, hc⟩ | ⟨c, rfl⟩
  · obtain ⟨p, g1, g2⟩ := hg (u ++ x :: c) r post (by rw [hc]; simp)
    rcases h4 with ⟨h4, -⟩ | ⟨q, h4, h5, h6, rfl⟩
    · rw [g1] at h4; cases h4
    · rw [g1] at h4
      obtain rfl := Option.some.inj h4
      have hpx : p = x.id := by
        rcases g2 with g2 | g2
        · exact absurd g2 h5
        · rw [List.map_append, List.map_cons, List.mem_append, List.mem_cons] at g2
          rw [List.map_append, List.mem_append, not_or] at h6
          rcases g2 with g2 | g2 | g2
          · exact absurd g2 h6.1
          · exact g2
          · exact absurd g2 h6.2
      subst hpx
      refine ⟨c, r, post, hc, g1, fun r' hr' e' => ?_, h3⟩
      obtain ⟨c1, c2, rfl⟩ := List.append_of_mem hr'
      obtain ⟨q, k1, k2⟩ := h2 (u ++ c1) r' c2 (by simp)
      rw [e'] at k1
      obtain rfl := Option.some.inj k1
      rcases k2 with k2 | k2
      · exact hr k2
      · exact h6 (by
          rw [List.map_append, List.mem_append] at k2 ⊢
          rcases k2 with k2 | k2
          · exact .inl k2
          · exact .inr (by rw [List.map_append]; exact List.mem_append_left _ k2))
  · exfalso
    obtain ⟨p, g1, g2⟩ := hg pre r (c ++ x :: w) (by simp)
    rcases h4 with ⟨h4, -⟩ | ⟨q, h4, h5, h6, -⟩
    · rw [g1] at h4; cases h4
    · rw [g1] at h4
      obtain rfl := Option.some.inj h4
      rcases g2 with g2 | g2
      · exact h5 g2
      · exact h6 g2

/-! ### An entry of the file list less -/

theorem c125_all_remove {α β : Type} {R : α → β → Prop} : ∀ {u : List α} {x : α} {v : List α} {bs : List β}, All₂ R (u ++ x :: v) bs →
    ∃ A b B, bs = A ++ b :: B ∧ A.length = u.length ∧ R x b ∧ All₂ R (u ++ v) (A ++ B)
  | [], x, v, bs, h => by
    cases h with
    | cons h t => exact ⟨[], _, _, rfl, rfl, h, t⟩
  | y :: u, x, v, bs, h => by
    cases h with
    | cons h t =>
      obtain ⟨A, b, B, rfl, h1, h2, h3⟩ := c125_all_remove t
      exact ⟨_ :: A, b, B, rfl, by simp [h1], h2, .cons h h3⟩

theorem c125_nodup {α : Type} {u v : List α} {x : α} (h : (u ++ x :: v).Nodup) : (u ++ v).Nodup := h.sublist (by simp)

/-- C125: an activity is taken out of the file list, when no two activities have the same name for their logic. The project is converted as well; its screen
is missing, and nothing else changes. -/
theorem c125_activity (rnd : ResourceType → Nat → UInt32) {p : Swrs.SketchwareProject} {P : SketchwareProject} (hP : SketchwareProject.tryFrom rnd p = .ok P)
    {u v : List FileItem} {f : FileItem} (ha : p.file.activities = u ++ f :: v) (hn : (p.file.activities.map fun f => viewNameToLogic f.filename).Nodup) :
    ∃ A s B, P.screens = A ++ s :: B ∧ A.length = u.length ∧
      SketchwareProject.tryFrom rnd { p with file := { p.file with activities := u ++ v } } = .ok { P with screens := A ++ B } := by
  obtain ⟨ss, ly, cv, lb, im, so, fo, a1, a2, a3, a4, a5, a6, a7, a8, -⟩ := tryFrom_ok hP
  obtain ⟨h1, h2⟩ := (activitiesConv_ok hn).mp a1
  rw [ha] at h1 hn
  obtain ⟨A, s, B, rfl, h3, -, h4⟩ := c125_all_remove h1
  rw [List.map_append, List.map_cons] at hn
  have hn' : ((u ++ v).map fun f => viewNameToLogic f.filename).Nodup := by rw [List.map_append]; exact c125_nodup hn
  have h5 := (activitiesConv_ok (ls := p.view.layouts) (lg := p.logic.screens) (fs := p.view.fabs) hn').mpr ⟨h4, rfl⟩
  obtain ⟨h6, h7⟩ := c124_customs.mp a2
  have h8 := c124_customs.mpr ⟨c124_all_mono h6 fun g c h => (by
    obtain ⟨e, l, hl, ht⟩ := h
    refine ⟨e, l, ?_, ht⟩
    rw [c123_activities_left a1] at hl
    rw [c123_activities_left h5]
    split at hl
    · cases hl
    · rename_i hm
      rw [if_neg (fun h => hm (by rw [ha]; simp only [List.map_append, List.map_cons, List.mem_append, List.mem_cons] at h ⊢; rcases h with h | h <;> simp [h]))]
      exact hl : c.resName = g.filename ∧ ∃ l, (((u ++ v).map (·.filename)).foldl LMap.erase p.view.layouts).get g.filename = some l ∧ parseRawLayout l = .ok c.layout), h7⟩
  refine ⟨A, s, B, a7, h3, ?_⟩
  rw [c123_tryFrom (q := { p with file := { p.file with activities := u ++ v } }) hP h5 h8 rfl rfl rfl rfl, ← a8]

/-- C125: a custom view is taken out of the file list. The project is converted as well, without this custom view, and nothing else changes. -/
theorem c125_customView (rnd : ResourceType → Nat → UInt32) {p : Swrs.SketchwareProject} {P : SketchwareProject} (hP : SketchwareProject.tryFrom rnd p = .ok P)
    {u v : List FileItem} {f : FileItem} (ha : p.file.customViews = u ++ f :: v) :
    ∃ A c B, P.customViews = A ++ c :: B ∧ A.length = u.length ∧ c.resName = f.filename ∧
      SketchwareProject.tryFrom rnd { p with file := { p.file with customViews := u ++ v } } = .ok { P with customViews := A ++ B } := by
  obtain ⟨ss, ly, cv, lb, im, so, fo, a1, a2, a3, a4, a5, a6, a7, a8, -⟩ := tryFrom_ok hP
  obtain ⟨h6, h7⟩ := c124_customs.mp a2
  rw [ha] at h6 h7
  obtain ⟨A, c, B, rfl, h3, h4, h5⟩ := c125_all_remove h6
  rw [List.map_append, List.map_cons] at h7
  have h8 := c124_customs.mpr ⟨h5, by rw [List.map_append]; exact c125_nodup h7⟩
  refine ⟨A, c, B, a8, h3, h4.1, ?_⟩
  rw [c123_tryFrom (q := { p with file := { p.file with customViews := u ++ v } }) hP a1 h8 rfl rfl rfl rfl, ← a7]

/-! ### A resource less -/

theorem c125_resource {rnd : Nat → UInt32} {t : ResourceType} {u v : List ResourceItem} {i : ResourceItem} {files : HMap Str ResourceFileWrapper}
    {es : List (Str × ResourceFileWrapper)} (hn : ((u ++ i :: v).map (·.name)).Nodup) (hr : resourcesConv rnd t (u ++ i :: v) (some files) = .ok es) :
    ∃ A w B, LMap.collect es = A ++ (i.name, w) :: B ∧ A.length = u.length ∧ ∃ es', resourcesConv rnd t (u ++ v) (some files) = .ok es' ∧ LMap.collect es' = A ++ B := by
  obtain ⟨h1, h2⟩ := resourcesConv_some hr
  have hk : LMap.keys es = (u ++ i :: v).map (·.name) := by
    clear hr h2 hn
    generalize u ++ i :: v = is at h1
    induction h1 with
    | nil => rfl
    | cons h _ ih => simp only [LMap.keys, List.map_cons, h.1] at ih ⊢; rw [ih]
  have hk' : (LMap.keys es).Nodup := by rw [hk]; exact hn
  obtain ⟨A, e, B, rfl, h3, h4, h5⟩ := c125_all_remove h1
  rw [List.map_append, List.map_cons] at h2
  have h6 : resourcesConv rnd t (u ++ v) (some files) = .ok (A ++ B) := c124_resourcesConv h5 (by rw [List.map_append]; exact c125_nodup h2)
  have hk'' : (LMap.keys (A ++ B)).Nodup := by
    simp only [LMap.keys, List.map_append, List.map_cons] at hk' ⊢
    exact c125_nodup hk'
  refine ⟨A, e.2, B, ?_, h3, _, h6, LMap.collect_nodup _ hk''⟩
  rw [LMap.collect_nodup _ hk', ← h4.1]

/-- C125: an image is taken out of the resource list, when the files are given and no two images have the same name. The project is converted as well, without
this image, and nothing else changes. -/
theorem c125_image (rnd : ResourceType → Nat → UInt32) {p : Swrs.SketchwareProject} {P : SketchwareProject} (hP : SketchwareProject.tryFrom rnd p = .ok P)
    (hf : p.resourceFiles ≠ none) {u v : List ResourceItem} {i : ResourceItem} (hi : p.resource.images = u ++ i :: v) (hn : (p.resource.images.map (·.name)).Nodup) :
    ∃ A w B, P.resources.images = A ++ (i.name, w) :: B ∧ A.length = u.length ∧
      SketchwareProject.tryFrom rnd { p with resource := { p.resource with images := u ++ v } } = .ok { P with resources := { P.resources with images := A ++ B } } := by
  obtain ⟨fs, hfs⟩ := Option.ne_none_iff_exists'.mp hf
  unfold SketchwareProject.tryFrom at hP ⊢
  simp only [Out.bind_eq_ok, Prod.exists] at hP
  obtain ⟨ss', ly', a1, cs', a2, lb, a3, im, a4, so, a5, fo, a6, a7⟩ := hP
  obtain rfl := Out.ok.inj a7
  rw [hi] at hn
  rw [hfs, hi, Option.map_some] at a4
  obtain ⟨A, w, B, h1, h2, es', h3, h4⟩ := c125_resource hn a4
  refine ⟨A, w, B, h1, h2, ?_⟩
  rw [← h4]
  rw [hfs, Option.map_some] at a5 a6
  simp only [hfs, Option.map_some, a1, Out.ok_bind, a2, a3, h3, a5, a6]
  rfl

/-- C125: so with a sound. -/
theorem c125_sound (rnd : ResourceType → Nat → UInt32) {p : Swrs.SketchwareProject} {P : SketchwareProject} (hP : SketchwareProject.tryFrom rnd p = .ok P)
    (hf : p.resourceFiles ≠ none) {u v : List ResourceItem} {i : ResourceItem} (hi : p.resource.sounds = u ++ i :: v) (hn : (p.resource.sounds.map (·.name)).Nodup) :
    ∃ A w B, P.resources.sounds = A ++ (i.name, w) :: B ∧ A.length = u.length ∧
      SketchwareProject.tryFrom rnd { p with resource := { p.resource with sounds := u ++ v } } = .ok { P with resources := { P.resources with sounds := A ++ B } } := by
  obtain ⟨fs, hfs⟩ := Option.ne_none_iff_exists'.mp hf
  unfold SketchwareProject.tryFrom at hP ⊢
  simp only [Out.bind_eq_ok, Prod.exists] at hP
  obtain ⟨ss', ly', a1, cs', a2, lb, a3, im, a4, so, a5, fo, a6, a7⟩ := hP
  obtain rfl := Out.ok.inj a7
  rw [hi] at hn
  rw [hfs, hi, Option.map_some] at a5
  obtain ⟨A, w, B, h1, h2, es', h3, h4⟩ := c125_resource hn a5
  refine ⟨A, w, B, h1, h2, ?_⟩
  rw [← h4]
  rw [hfs, Option.map_some] at a4 a6
  simp only [hfs, Option.map_some, a1, Out.ok_bind, a2, a3, h3, a4, a6]
  rfl

/-- C125: so with a font. -/
theorem c125_font (rnd : ResourceType → Nat → UInt32) {p : Swrs.SketchwareProject} {P : SketchwareProject} (hP : SketchwareProject.tryFrom rnd p = .ok P)
    (hf : p.resourceFiles ≠ none) {u v : List ResourceItem} {i : ResourceItem} (hi : p.resource.fonts = u ++ i :: v) (hn : (p.resource.fonts.map (·.name)).Nodup) :
    ∃ A w B, P.resources.fonts = A ++ (i.name, w) :: B ∧ A.length = u.length ∧
      SketchwareProject.tryFrom rnd { p with resource := { p.resource with fonts := u ++ v } } = .ok { P with resources := { P.resources with fonts := A ++ B } } := by
  obtain ⟨fs, hfs⟩ := Option.ne_none_iff_exists'.mp hf
  unfold SketchwareProject.tryFrom at hP ⊢
  simp only [Out.bind_eq_ok, Prod.exists] at hP
  obtain ⟨ss', ly', a1, cs', a2, lb, a3, im, a4, so, a5, fo, a6, a7⟩ := hP
  obtain rfl := Out.ok.inj a7
  rw [hi] at hn
  rw [hfs, hi, Option.map_some] at a6
  obtain ⟨A, w, B, h1, h2, es', h3, h4⟩ := c125_resource hn a6
  refine ⟨A, w, B, h1, h2, ?_⟩
  rw [← h4]
  rw [hfs, Option.map_some] at a4 a5
  simp only [hfs, Option.map_some, a1, Out.ok_bind, a2, a3, h3, a4, a5]
  rfl

/-! ### An event or a component less -/

theorem c125_containerId {ps : List Swrs.Event} {es : List Event} (h1 : All₂ (fun p (e : Event) => Event.tryFrom p = .ok { e with code := [] }) ps es) :
    es.map (·.containerId) = ps.map containerName ∧ ∀ (p : Swrs.Event) (e : Event), Event.tryFrom p = .ok { e with code := [] } → e.containerId = containerName p := by
  have key : ∀ (p : Swrs.Event) (e : Event), Event.tryFrom p = .ok { e with code := [] } → e.containerId = containerName p := by
    intro p e h
    rcases event_read p with ⟨e', he, -, -, h3, h6, h7⟩ | ⟨he, -⟩
    · rw [he] at h
      cases h
      exact h3
    · rw [he] at h
      cases h
  refine ⟨?_, key⟩
  induction h1 with
  | nil => rfl
  | cons h _ ih => rw [List.map_cons, List.map_cons, ih, key _ _ h]

theorem c125_events {u v : List Swrs.Event} {x : Swrs.Event} (hn : ((u ++ x :: v).map containerName).Nodup) {cs cs' : Containers} {es : List Event}
    (hr : eventsOf (u ++ x :: v) cs = .ok (es, cs')) :
    ∃ A e B cs'', es = A ++ e :: B ∧ A.length = u.length ∧ e.containerId = containerName x ∧ eventsOf (u ++ v) cs = .ok (A ++ B, cs'') := by
  obtain ⟨h1, h2⟩ := eventsOf_ok.mp ⟨_, hr⟩
  obtain ⟨hid, hk⟩ := c125_containerId h1
  rw [← hid] at hn
  have h5 := (c124_readsBack hn).mp h2
  obtain ⟨A, e, B, rfl, h3, h4, h6⟩ := c125_all_remove h1
  rw [List.map_append, List.map_cons] at hn
  obtain ⟨cs'', h7⟩ := eventsOf_ok.mpr ⟨h6, (c124_readsBack (cs := cs) (by rw [List.map_append]; exact c125_nodup hn)).mpr fun y hy =>
    h5 y (by rcases List.mem_append.mp hy with h | h <;> simp [h])⟩
  exact ⟨A, e, B, cs'', rfl, h3, hk _ _ h4, h7⟩

/-- C125: an event is taken out of a screen whose events have different containers. The screen is read as well, without this event, and nothing else changes. -/
theorem c125_event {ln gn : Str} {file : FileItem} {view : Layout} {logic : ScreenLogic} {fab : Option View} {s : Screen}
    (h : Screen.fromParsed ln gn file view logic fab = .ok s) {u v : List Swrs.Event} {x : Swrs.Event} (he : logic.events = some ⟨u ++ x :: v⟩)
    (hn : ((parserEvents logic).map containerName).Nodup) :
    ∃ A e B, s.events = A ++ e :: B ∧ e.containerId = containerName x ∧
      Screen.fromParsed ln gn file view { logic with events := some ⟨u ++ v⟩ } fab = .ok { s with events := A ++ B } := by
  unfold Screen.fromParsed at h ⊢
  simp only [Out.bind_eq_ok, Out.mapErr_eq_ok, Prod.exists] at h
  obtain ⟨t, a1, mbs, bc, a2, comps, a3, es, bc', a4, a5⟩ := h
  obtain rfl := Out.ok.inj a5
  obtain ⟨u', e1, e2⟩ : ∃ u', parserEvents logic = u' ++ x :: v ∧ parserEvents { logic with events := some ⟨u ++ v⟩ } = u' ++ v := by
    unfold parserEvents
    simp only [he, Option.map_some, Option.getD_some]
    split
    · exact ⟨onCreateEvent :: u, rfl, rfl⟩
    · exact ⟨u, rfl, rfl⟩
  rw [e1] at a4 hn
  obtain ⟨A, e, B, bc'', h1, -, h3, h4⟩ := c125_events hn a4
  refine ⟨A, e, B, h1, h3, ?_⟩
  rw [e2]
  simp only [a1, Out.mapErr_ok, Out.ok_bind, a2, a3, h4]
  rfl

/-- C125: a component is taken out of a screen whose components have different names. The screen is read as well, without this component, and nothing else
changes. -/
theorem c125_component {ln gn : Str} {file : FileItem} {view : Layout} {logic : ScreenLogic} {fab : Option View} {s : Screen}
    (h : Screen.fromParsed ln gn file view logic fab = .ok s) {u v : List Component} {x : Component} (hc : logic.components = some ⟨u ++ x :: v⟩)
    (hn : ((u ++ x :: v).map (·.id)).Nodup) :
    ∃ A k B, s.components = A ++ (x.id, k) :: B ∧ A.length = u.length ∧
      Screen.fromParsed ln gn file view { logic with components := some ⟨u ++ v⟩ } fab = .ok { s with components := A ++ B } := by
  unfold Screen.fromParsed at h ⊢
  simp only [Out.bind_eq_ok, Out.mapErr_eq_ok, Prod.exists] at h
  obtain ⟨t, a1, mbs, bc, a2, comps, a3, es, bc', a4, a5⟩ := h
  obtain rfl := Out.ok.inj a5
  rw [hc] at a3
  have h4 := c124_componentsOf.mp a3
  simp only [Option.map_some, Option.getD_some] at h4
  have hk : LMap.keys comps = (u ++ x :: v).map (·.id) := by
    clear hn a3 hc a5
    generalize u ++ x :: v = ci at h4
    induction h4 with
    | nil => rfl
    | cons h _ ih => simp only [LMap.keys, List.map_cons, h.1] at ih ⊢; rw [ih]
  have hk' : (LMap.keys comps).Nodup := by rw [hk]; exact hn
  obtain ⟨A, e, B, rfl, h3, h5, h6⟩ := c125_all_remove h4
  have hk'' : (LMap.keys (A ++ B)).Nodup := by
    simp only [LMap.keys, List.map_append, List.map_cons] at hk' ⊢
    exact c125_nodup hk'
  refine ⟨A, e.2, B, ?_, h3, ?_⟩
  · rw [← h5.1]; exact LMap.collect_nodup _ hk'
  · simp only [a1, Out.mapErr_ok, Out.ok_bind, a2, Option.map_some, Option.getD_some, c124_componentsOf.mpr h6]
    rw [show parserEvents { logic with components := some ⟨u ++ v⟩ } = parserEvents logic from rfl, a4]
    simp only [Out.ok_bind, LMap.collect_nodup _ hk'']
    rfl

end Swrs.Api

namespace Swrs.Api

/-- `c125_block`: the middle one of three blocks is taken out, and it is not found. -/
example [MapPol] : let _ : Floats := toyFloats.toFloats
    let f := exBlock (s% "0") 2 (-1) (s% "a") []
    let b := exBlock (s% "2") 1 (-1) (s% "c") []
    let c := [exBlock (s% "1") (-1) (-1) (s% "b") []]
    parseU32 b.id = some 2 ∧ (∀ b' ∈ f :: ([] ++ c), parseU32 b'.id ≠ some 2) ∧ tryFrom ⟨f :: ([] ++ c)⟩ = .err (.blockNotFound 2) ∧
      (∃ code, tryFrom ⟨f :: ([] ++ b :: c)⟩ = .ok code) ∧ ∀ b' ∈ [] ++ c, parseU32 b'.id ≠ parseU32 f.id := by
  let _ : Floats := toyFloats.toFloats
  refine ⟨by decide, ?_, rfl, ⟨_, rfl⟩, ?_⟩ <;> simp only [List.nil_append, List.mem_cons, List.not_mem_nil, or_false, forall_eq_or_imp, forall_eq]
  · exact ⟨by decide, by decide⟩
  · decide

/-- C125: the block that is taken out must not be the first one: the code then begins with another block. -/
theorem c125_block_false [MapPol] : let _ : Floats := toyFloats.toFloats
    ∃ (b : ParserBlock) (c : List ParserBlock) (x y : List Block), (∀ b' ∈ c, parseU32 b'.id ≠ parseU32 b.id) ∧
      tryFrom ⟨b :: c⟩ = .ok x ∧ tryFrom ⟨c⟩ = .ok y ∧ x ≠ y := by
  let _ : Floats := toyFloats.toFloats
  refine ⟨exBlock (s% "0") 1 (-1) (s% "a") [], [exBlock (s% "1") (-1) (-1) (s% "b") []], _, _, ?_, rfl, rfl, ?_⟩
  · simp only [List.mem_cons, List.not_mem_nil, or_false, forall_eq]
    decide
  · intro h
    have := congrArg List.length h
    revert this
    decide

/-- `c125_activity` and `c125_customView`: a project with two activities and two custom views. -/
example [MapPol] (rnd : ResourceType → Nat → UInt32) : let _ : Floats := toyFloats.toFloats
    ∃ (p : Swrs.SketchwareProject) (P : SketchwareProject) (u v u' v' : List FileItem) (f f' : FileItem), SketchwareProject.tryFrom rnd p = .ok P ∧
      p.file.activities = u ++ f :: v ∧ p.file.customViews = u' ++ f' :: v' ∧ u ≠ [] ∧ v' ≠ [] ∧ (p.file.activities.map fun f => viewNameToLogic f.filename).Nodup := by
  let _ : Floats := toyFloats.toFloats
  exact ⟨{ c120_read ⟨[(s% "row", ⟨[]⟩), (s% "cell", ⟨[]⟩)], []⟩ ⟨[]⟩ with
    file := ⟨[c124_act (s% "main") true, c124_act (s% "next") false], [c124_act (s% "row") false, c124_act (s% "cell") false]⟩ }, _,
    [_], [], [], [_], _, _, rfl, rfl, rfl, by simp, by simp, by decide⟩

/-- C125: the names of the logics must differ: when the first one of two activities with the same name is taken out, the second one gets the logic. -/
theorem c125_activity_false [MapPol] (rnd : ResourceType → Nat → UInt32) : let _ : Floats := toyFloats.toFloats
    ∃ (p : Swrs.SketchwareProject) (P Q : SketchwareProject) (f : FileItem) (v : List FileItem) (s : Screen) (B : List Screen), p.file.activities = f :: v ∧
      SketchwareProject.tryFrom rnd p = .ok P ∧ P.screens = s :: B ∧
      SketchwareProject.tryFrom rnd { p with file := { p.file with activities := v } } = .ok Q ∧ Q.screens ≠ B := by
  let _ : Floats := toyFloats.toFloats
  refine ⟨{ c120_read ⟨[], []⟩ ⟨[(s% "MainActivity", ScreenLogic.newEmpty (s% "MainActivity"))]⟩ with
    file := ⟨[c124_act (s% "main") true, c124_act (s% "main") false], []⟩ }, _, _, _, _, _, _, rfl, rfl, rfl, rfl, ?_⟩
  intro h
  have : [s% "MainActivity"] = [s% "main"] := congrArg (List.map Screen.javaName) h
  revert this
  decide

/-- `c125_image`, `c125_sound` and `c125_font`: a project with two images, a sound and a font. -/
example [MapPol] (rnd : ResourceType → Nat → UInt32) : let _ : Floats := toyFloats.toFloats
    ∃ (p : Swrs.SketchwareProject) (P : SketchwareProject) (i j s t : ResourceItem), SketchwareProject.tryFrom rnd p = .ok P ∧ p.resourceFiles ≠ none ∧
      p.resource.images = [i] ++ j :: [] ∧ p.resource.sounds = [] ++ s :: [] ∧ p.resource.fonts = [] ++ t :: [] ∧ (p.resource.images.map (·.name)).Nodup ∧
      (p.resource.sounds.map (·.name)).Nodup ∧ (p.resource.fonts.map (·.name)).Nodup := by
  let _ : Floats := toyFloats.toFloats
  exact ⟨{ c120_read ⟨[], []⟩ ⟨[]⟩ with
    resource := ⟨[⟨s% "a.png", s% "a", 1⟩, ⟨s% "b.png", s% "b", 1⟩], [⟨s% "s.mp3", s% "s", 1⟩], [⟨s% "t.ttf", s% "t", 1⟩]⟩
    resourceFiles := some ⟨none, [(s% "a.png", .u32Id 1 (s% "a.png") .image), (s% "b.png", .u32Id 2 (s% "b.png") .image)], [(s% "s.mp3", .u32Id 3 (s% "s.mp3") .sound)],
      [(s% "t.ttf", .u32Id 4 (s% "t.ttf") .font)]⟩ }, _,
    _, _, _, _, rfl, by simp, rfl, rfl, rfl, by decide, by decide, by decide⟩

/-- C125: the names of the resources must differ: when the later one of two entries with the same name is taken out, the earlier one is found again. -/
theorem c125_image_false [pol : MapPol] (rnd : ResourceType → Nat → UInt32) : let _ : Floats := toyFloats.toFloats
    ∃ (p : Swrs.SketchwareProject) (P Q : SketchwareProject) (i j : ResourceItem), p.resourceFiles ≠ none ∧ p.resource.images = [i, j] ∧
      SketchwareProject.tryFrom rnd p = .ok P ∧ SketchwareProject.tryFrom rnd { p with resource := { p.resource with images := [i] } } = .ok Q ∧
      P.resources.images.length = 1 ∧ Q.resources.images.length = 1 ∧ P.resources.images ≠ Q.resources.images := by
  let _ : Floats := toyFloats.toFloats
  refine ⟨{ c120_read ⟨[], []⟩ ⟨[]⟩ with
    resource := ⟨[⟨s% "a.png", s% "a", 1⟩, ⟨s% "b.png", s% "a", 1⟩], [], []⟩
    resourceFiles := some ⟨none, [(s% "a.png", .u32Id 1 (s% "a.png") .image), (s% "b.png", .u32Id 2 (s% "b.png") .image)], [], []⟩ }, _, _, _, _,
    by simp, rfl, rfl, rfl, ?_⟩
  obtain ⟨a, b⟩ := pol
  cases a <;> cases b <;> exact ⟨rfl, rfl, by decide⟩

/-- `c125_event` and `c125_component`: a screen with two events and two components. -/
example [MapPol] : let _ : Floats := toyFloats.toFloats
    ∃ (logic : ScreenLogic) (s : Screen) (x y : Swrs.Event) (c d : Component),
      Screen.fromParsed (s% "main") (s% "MainActivity") (c124_act (s% "main") true) ⟨[]⟩ logic none = .ok s ∧ logic.events = some ⟨[x] ++ y :: []⟩ ∧
      logic.components = some ⟨[] ++ c :: [d]⟩ ∧ ((parserEvents logic).map containerName).Nodup ∧ (([] ++ c :: [d]).map Component.id).Nodup ∧ s.events.length = 3 := by
  let _ : Floats := toyFloats.toFloats
  exact ⟨{ ScreenLogic.newEmpty (s% "MainActivity") with
      blockContainers := [(s% "onCreate_initializeLogic", ⟨[exBlock (s% "0") (-1) (-1) (s% "a") []]⟩)]
      events := some ⟨[⟨s% "onClick", 1, s% "button1", 3⟩, ⟨s% "onClick", 1, s% "button2", 3⟩]⟩
      components := some ⟨[⟨s% "net", [], [], [], 17⟩, ⟨s% "net2", [], [], [], 17⟩]⟩ }, _, _, _, _, _, rfl, rfl, rfl, by decide +kernel, by decide, rfl⟩

/-- C125: the containers must differ: when the first one of two events with the same container is taken out, the second one gets the code. -/
theorem c125_event_false [MapPol] : let _ : Floats := toyFloats.toFloats
    ∃ (logic : ScreenLogic) (s s' : Screen) (x y : Swrs.Event) (e e' : Event), logic.events = some ⟨[x, y]⟩ ∧
      Screen.fromParsed (s% "main") (s% "MainActivity") (c124_act (s% "main") true) ⟨[]⟩ logic none = .ok s ∧ s.events = [e, e'] ∧
      Screen.fromParsed (s% "main") (s% "MainActivity") (c124_act (s% "main") true) ⟨[]⟩ { logic with events := some ⟨[y]⟩ } none = .ok s' ∧ s'.events ≠ [e'] := by
  let _ : Floats := toyFloats.toFloats
  refine ⟨{ ScreenLogic.newEmpty (s% "MainActivity") with
      blockContainers := [(s% "web_onLoad", ⟨[exBlock (s% "0") (-1) (-1) (s% "a") []]⟩)]
      events := some ⟨[⟨s% "onLoad", 1, s% "web", 3⟩, ⟨s% "onLoad", 2, s% "web", 3⟩]⟩ }, _, _, _, _, _, _, rfl, rfl, rfl, rfl, ?_⟩
  intro h
  have : [1] = [0] := congrArg (List.map fun e : Event => e.code.length) h
  revert this
  decide

/-- `c125_leaf` and `c125_parent`: a view, a view in it, and a view in that one. -/
example [Floats] : let v := fun (i p : Str) => AndroidView.newEmpty i 3 p 0
    ∃ vs, parseRawLayout ⟨[v (s% "a") (s% "root")] ++ v (s% "b") (s% "a") :: [v (s% "c") (s% "b")]⟩ = .ok vs ∧
      parseRawLayout ⟨[v (s% "a") (s% "root")] ++ [v (s% "c") (s% "b")]⟩ = .err (.nonexistentParent (s% "c") (s% "b")) ∧
      ∃ vs', parseRawLayout ⟨[v (s% "a") (s% "root")] ++ [v (s% "b") (s% "a")]⟩ = .ok vs' :=
  ⟨_, rfl, rfl, _, rfl⟩

end Swrs.Api
