import Verif.Proofs.BlockEmit
import Verif.Proofs.BlockParse
import Verif.Props.ApiSpec
/-!
# Reading back the container made of a list of blocks
-/
namespace Swrs.Api

section
variable [Floats]

/-- An item without nested blocks whose argument reads back. -/
def PlainItem : SpecItem Block → Prop
  | .text _ => True
  | .param (.string _ (.value v)) => v.head? ≠ some '@'
  | .param (.number _ (.value x)) => Floats.read64 (Floats.show64 x) = some x
  | .param (.menu _ (.value _)) => True
  | _ => False

/-- A spec whose text is read as its items. -/
def ContentOk (c : BlockContent Block) : Prop := c ≠ [] ∧ ∀ i ∈ c, ItemOk i

/-- A block without nested blocks that reads back. -/
def Leaf (b : Block) : Prop :=
  b.subStack1 = none ∧ b.subStack2 = none ∧ ContentOk b.content ∧ (∀ i ∈ b.content, PlainItem i) ∧
  ∀ t, b.blockType ≠ .argument (.list t)

/-- An item that reads back: its argument is a value, or a block without nested blocks. -/
def TopItem : SpecItem Block → Prop
  | .param (.string _ (.block b)) => Leaf b
  | .param (.number _ (.block b)) => Leaf b
  | .param (.boolean _ (.value _)) => True
  | .param (.boolean _ (.block b)) => Leaf b ∧ b.opCode ≠ s% "true" ∧ b.opCode ≠ s% "false"
  | i => PlainItem i

/-- A substack that reads back: one block without nested blocks. -/
def TopStack : Option (List Block) → Prop
  | none => True
  | some [b] => Leaf b
  | some _ => False

/-- A block that reads back. -/
def Top (b : Block) : Prop :=
  TopStack b.subStack1 ∧ TopStack b.subStack2 ∧ ContentOk b.content ∧ (∀ i ∈ b.content, TopItem i) ∧
  ∀ t, b.blockType ≠ .argument (.list t)

/-- The table has the blocks, with ids from `ctr + 1`. -/
def At (g : UInt32 → Option ParserBlock) (ctr : Nat) (ps : List ParserBlock) : Prop :=
  ∀ i p, ps[i]? = some p → g (UInt32.ofNat (ctr + 1 + i)) = some p

/-- The ids of `n` blocks from `ctr + 1`. -/
def idsOf (ctr n : Nat) : List UInt32 := (List.range' (ctr + 1) n).map UInt32.ofNat

omit [Floats] in
theorem idsOf_append (ctr m n : Nat) : idsOf ctr (m + n) = idsOf ctr m ++ idsOf (ctr + m) n := by
  unfold idsOf
  rw [← List.map_append, ← List.range'_append_1]
  congr 3
  omega

omit [Floats] in
theorem At.append {g : UInt32 → Option ParserBlock} {ctr : Nat} {ps qs : List ParserBlock} (h : At g ctr (ps ++ qs)) :
    At g ctr ps ∧ At g (ctr + ps.length) qs := by
  constructor
  · intro i p hp
    refine h i p ?_
    obtain ⟨hi, _⟩ := List.getElem?_eq_some_iff.mp hp
    rw [List.getElem?_append_left hi]; exact hp
  · intro i p hp
    have := h (ps.length + i) p (by rw [List.getElem?_append_right (by omega)]; simpa using hp)
    rw [show ctr + ps.length + 1 + i = ctr + 1 + (ps.length + i) by omega]
    exact this

omit [Floats] in
theorem At.head {g : UInt32 → Option ParserBlock} {ctr : Nat} {p : ParserBlock} {qs : List ParserBlock} (h : At g ctr (p :: qs)) :
    g (UInt32.ofNat (ctr + 1)) = some p := h 0 p rfl

omit [Floats] in
theorem At.last {g : UInt32 → Option ParserBlock} {a c : Nat} {ps : List ParserBlock} {q : ParserBlock} (h : At g a ps)
    (hs : Seq a ps c) (hq : ps.getLast? = some q) : g (UInt32.ofNat c) = some q := by
  have hne : ps ≠ [] := by rintro rfl; simp at hq
  have hl := List.length_pos_iff.mpr hne
  rw [List.getLast?_eq_getElem?] at hq
  have := h _ _ hq
  have e := hs.1
  rw [show a + 1 + (ps.length - 1) = c by omega] at this
  exact this

/-! ### The spec that is read -/

theorem splitOn_text {c : BlockContent Block} (h : ContentOk c) :
    splitOn ' ' (BlockContent.text (BlockContent.takeArgs c).1) = c.map BlockContent.itemText := by
  rw [(c49_take c).2.1, BlockContent.text_eq_joinWith]
  exact splitOn_joinWith (by simpa using h.1) (by
    intro p hp
    obtain ⟨i, hi, rfl⟩ := List.mem_map.mp hp
    exact itemOk_no_space (h.2 i hi))

omit [Floats] in
theorem nameOf_nameText {n : Option Str} (h : ∀ m, n = some m → m ≠ [] ∧ ' ' ∉ m) : nameOf (BlockContent.nameText n) = n := by
  cases n with
  | none => rfl
  | some m => exact nameOf_dot (h m rfl).1

theorem reads_string {n : Option Str} {v v0 : ArgValue Block Str} {a : Str} {ws as : List Str} {is : BlockContent Block}
    (hn : ItemOk (.param (.string n v))) (h : IsArg some a v0) (r : Reads ws as is) :
    Reads (BlockContent.itemText (.param (.string n v)) :: ws) (a :: as) (.param (.string n v0) :: is) := by
  have := Reads.string (BlockContent.nameText n) a h r
  rw [nameOf_nameText hn] at this
  exact this

theorem reads_number {n : Option Str} {v v0 : ArgValue Block Floats.F64} {a : Str} {ws as : List Str} {is : BlockContent Block}
    (hn : ItemOk (.param (.number n v))) (h : IsArg Floats.read64 a v0) (r : Reads ws as is) :
    Reads (BlockContent.itemText (.param (.number n v)) :: ws) (a :: as) (.param (.number n v0) :: is) := by
  have := Reads.number (BlockContent.nameText n) a h r
  rw [nameOf_nameText hn] at this
  exact this

theorem reads_boolean {n : Option Str} {v v0 : ArgValue Block Bool} {a : Str} {ws as : List Str} {is : BlockContent Block}
    (hn : ItemOk (.param (.boolean n v))) (h : IsArg parseBool a v0) (r : Reads ws as is) :
    Reads (BlockContent.itemText (.param (.boolean n v)) :: ws) (a :: as) (.param (.boolean n v0) :: is) := by
  have := Reads.boolean (BlockContent.nameText n) a h r
  rw [nameOf_nameText hn] at this
  exact this

theorem reads_menu {n : Str} {v : ArgValue Block Str} {a : Str} {ws as : List Str} {is : BlockContent Block}
    (hn : ItemOk (.param (.menu n v))) (r : Reads ws as is) :
    Reads (BlockContent.itemText (.param (.menu n v)) :: ws) (a :: as) (.param (.menu n (.value a)) :: is) :=
  Reads.menu (BlockContent.nameText (some n)) n a (nameOf_dot hn.1) r

theorem Reads.text_inv {w : Str} (hw : w.head? ≠ some '%') {ws as : List Str} {c0 : BlockContent Block} (h : Reads (w :: ws) as c0) :
    ∃ is, c0 = .text w :: is ∧ Reads ws as is := by
  cases h with
  | text _ _ t => exact ⟨_, rfl, t⟩
  | string => simp at hw
  | number => simp at hw
  | boolean => simp at hw
  | menu => simp at hw

theorem Reads.string_inv {n : Option Str} {v : ArgValue Block Str} (hn : ItemOk (.param (.string n v))) {ws as : List Str}
    {c0 : BlockContent Block} (h : Reads (BlockContent.itemText (.param (.string n v)) :: ws) as c0) :
    ∃ a as' v0 is, as = a :: as' ∧ c0 = .param (.string n v0) :: is ∧ IsArg some a v0 ∧ Reads ws as' is := by
  have e : BlockContent.itemText (.param (.string n v)) = '%' :: 's' :: BlockContent.nameText n := rfl
  rw [e] at h
  cases h with
  | text _ h => simp at h
  | string t a h r => exact ⟨_, _, _, _, rfl, by rw [nameOf_nameText hn], h, r⟩

theorem Reads.number_inv {n : Option Str} {v : ArgValue Block Floats.F64} (hn : ItemOk (.param (.number n v))) {ws as : List Str}
    {c0 : BlockContent Block} (h : Reads (BlockContent.itemText (.param (.number n v)) :: ws) as c0) :
    ∃ a as' v0 is, as = a :: as' ∧ c0 = .param (.number n v0) :: is ∧ IsArg Floats.read64 a v0 ∧ Reads ws as' is := by
  have e : BlockContent.itemText (.param (.number n v)) = '%' :: 'd' :: BlockContent.nameText n := rfl
  rw [e] at h
  cases h with
  | text _ h => simp at h
  | number t a h r => exact ⟨_, _, _, _, rfl, by rw [nameOf_nameText hn], h, r⟩

theorem Reads.boolean_inv {n : Option Str} {v : ArgValue Block Bool} (hn : ItemOk (.param (.boolean n v))) {ws as : List Str}
    {c0 : BlockContent Block} (h : Reads (BlockContent.itemText (.param (.boolean n v)) :: ws) as c0) :
    ∃ a as' v0 is, as = a :: as' ∧ c0 = .param (.boolean n v0) :: is ∧ IsArg parseBool a v0 ∧ Reads ws as' is := by
  have e : BlockContent.itemText (.param (.boolean n v)) = '%' :: 'b' :: BlockContent.nameText n := rfl
  rw [e] at h
  cases h with
  | text _ h => simp at h
  | boolean t a h r => exact ⟨_, _, _, _, rfl, by rw [nameOf_nameText hn], h, r⟩

theorem Reads.menu_inv {n : Str} {v : ArgValue Block Str} (hn : ItemOk (.param (.menu n v))) {ws as : List Str}
    {c0 : BlockContent Block} (h : Reads (BlockContent.itemText (.param (.menu n v)) :: ws) as c0) :
    ∃ a as' is, as = a :: as' ∧ c0 = .param (.menu n (.value a)) :: is ∧ Reads ws as' is := by
  have e : BlockContent.itemText (.param (.menu n v)) = '%' :: 'm' :: BlockContent.nameText (some n) := rfl
  rw [e] at h
  cases h with
  | text _ h => simp at h
  | menu t n' a h r =>
    have := nameOf_dot hn.1
    simp only [BlockContent.nameText] at h
    rw [this] at h
    cases h
    exact ⟨_, _, _, rfl, rfl, r⟩

omit [Floats] in
theorem parseU32_natStr {k : Nat} (h : k < 4294967296) : parseU32 (natStr 10 k) = some (UInt32.ofNat k) := by
  unfold parseU32
  rw [parseUnsigned_natStr (by omega)]; rfl

end

/-! ### Blocks that read back -/

section
variable [FloatLaws]

theorem plainItems {g : UInt32 → Option ParserBlock} {c : BlockContent Block} (ho : ∀ i ∈ c, ItemOk i) (hp : ∀ i ∈ c, PlainItem i)
    (ctr : Nat) : ∃ params, convertItems c ctr = .ok (params, [], ctr) ∧ Reads (c.map BlockContent.itemText) params c ∧
      Tree g (.items c c) [] := by
  induction c with
  | nil => exact ⟨[], by simp [convertItems], .nil _, .nil⟩
  | cons i c ih =>
    obtain ⟨params, h1, h2, h3⟩ := ih (fun i hi => ho i (by simp [hi])) (fun i hi => hp i (by simp [hi]))
    have hoi := ho i (by simp)
    have hpi := hp i (by simp)
    match i, hoi, hpi with
    | .text s, hoi, _ =>
      exact ⟨params, by simp [convertItems, convertItem, h1], .text s hoi.2 h2, .keep trivial h3⟩
    | .param (.string n (.value v)), hoi, hpi =>
      exact ⟨v :: params, by simp [convertItems, convertItem, convertArg, convertStr, h1],
        reads_string hoi (.val v v hpi rfl) h2, .keep trivial h3⟩
    | .param (.number n (.value x)), hoi, hpi =>
      exact ⟨Floats.show64 x :: params, by simp [convertItems, convertItem, convertArg, convertNum, h1],
        reads_number hoi (.val _ x (FloatLaws.show64_at x) hpi) h2, .keep trivial h3⟩
    | .param (.menu n (.value v)), hoi, _ =>
      exact ⟨v :: params, by simp [convertItems, convertItem, convertArg, convertStr, h1], reads_menu hoi h2, .keep trivial h3⟩

omit [FloatLaws] in
theorem minus_one_neg : (-1 : Int32) < 0 := by decide

theorem leaf_tree {g : UInt32 → Option ParserBlock} {b : Block} (hl : Leaf b) {ctr : Nat} {last : Bool} {ps : List ParserBlock} {k : Nat}
    (h : convertBlock b ctr last = .ok (ps, k)) (ha : At g ctr ps) :
    k = ctr + 1 ∧ ps.length = 1 ∧ Tree g (.block (UInt32.ofNat (ctr + 1)) b) [UInt32.ofNat (ctr + 1)] := by
  obtain ⟨s1, s2, color, op, content, t⟩ := b
  obtain ⟨rfl, rfl, hc, hp, ht⟩ := hl
  obtain ⟨params, h1, h2, h3⟩ := plainItems (g := g) hc.2 hp (ctr + 1)
  simp only [Block.content] at h1
  simp only [convertBlock, h1, convertStack, Out.ok_bind, Out.pure_eq, Out.ok.injEq, Prod.mk.injEq] at h
  obtain ⟨rfl, rfl⟩ := h
  refine ⟨rfl, rfl, ?_⟩
  have hg := ha.head
  refine Tree.block (u1 := []) (u2 := []) (u3 := []) hg (.noStack minus_one_neg) (.noStack minus_one_neg) (c0 := content) ?_ h3 ?_
  · have := splitOn_text hc
    simp only [Block.content] at this
    simp only [emitted, Block.content, this]
    exact h2
  · exact (c51_round_trip_partial t).mpr ht

theorem topStack_tree {g : UInt32 → Option ParserBlock} {s : Option (List Block)} (hs : TopStack s) {ctr : Nat} {ps : List ParserBlock}
    {p : Int32} {k : Nat} (h : convertStack s ctr = .ok (ps, p, k)) (ha : At g ctr ps) :
    Tree g (.stack p s) (idsOf ctr ps.length) := by
  match s, hs with
  | none, _ =>
    simp only [convertStack, Out.ok.injEq, Prod.mk.injEq] at h
    obtain ⟨rfl, rfl, rfl⟩ := h
    exact .noStack (by decide)
  | some [b], hl =>
    have e := (convertStack_seq _ _ _ _ _ h).2
    simp only [convertStack, convertBlocks, Out.bind_eq_ok, Prod.exists, Out.pure_eq, Out.ok.injEq, Prod.mk.injEq] at h
    obtain ⟨_, _, ⟨qs, k1, h1, _, _, ⟨rfl, rfl⟩, rfl, rfl⟩, l, h2, h3, rfl, hk⟩ := h
    rw [List.append_nil] at h3 h2
    subst h3
    obtain ⟨rfl, hl1, ht⟩ := leaf_tree hl h1 ha
    have hne : qs ≠ [] := by rintro rfl; simp at hl1
    rcases e with ⟨h, _⟩ | ⟨_, hc, hp⟩
    · exact absurd h hne
    · rcases (lastId_ok (convertBlock_seq _ _ _ _ _ h1)).mp h2 with ⟨h, _⟩ | ⟨_, hc', hp'⟩
      · exact absurd h hne
      · subst hp'
        rw [hl1]
        refine .stack ?_ ?_
        · intro hlt
          have := Int32.lt_iff_toInt_lt.mp hlt
          rw [Int32.toInt_ofNat_of_lt (by omega)] at this
          have e0 : Int32.toInt 0 = 0 := rfl
          omega
        · rw [pointerId_ofNat]
          have hg : ∃ p, g (UInt32.ofNat (ctr + 1)) = some p ∧ p.nextBlock < 0 := by
            obtain ⟨s1, s2, color, op, content, t⟩ := b
            simp only [convertBlock, Out.bind_eq_ok, Prod.exists, Out.pure_eq, Out.ok.injEq, Prod.mk.injEq] at h1
            obtain ⟨params, args, c1, h1, b1, p1, c2, h2, b2, p2, c3, h3, rfl, rfl⟩ := h1
            exact ⟨_, ha.head, by simp only [emitted, nextOf, List.isEmpty_nil, if_true]; decide⟩
          obtain ⟨p, hg, hn⟩ := hg
          exact .last hg hn ht
  | some [], hl => exact absurd hl id
  | some (_ :: _ :: _), hl => exact absurd hl id

theorem leaf_boolBlock (v : Bool) : Leaf (boolBlock v) := by
  refine ⟨rfl, rfl, ⟨by simp [boolBlock, Block.new, Block.content], ?_⟩, ?_, ?_⟩
  · cases v <;> simp [boolBlock, Block.new, Block.content, ItemOk]
  · cases v <;> simp [boolBlock, Block.new, Block.content, PlainItem]
  · cases v <;> simp [boolBlock, Block.new, Block.blockType]

theorem boolValue_boolBlock (v : Bool) : boolValue (boolBlock v) = .value v := by
  cases v <;> rfl

theorem topItems {g : UInt32 → Option ParserBlock} {c : BlockContent Block} (ho : ∀ i ∈ c, ItemOk i) (hp : ∀ i ∈ c, TopItem i)
    {ctr : Nat} {params : List Str} {args : List ParserBlock} {k : Nat} (h : convertItems c ctr = .ok (params, args, k))
    (ha : At g ctr args) (hk : k < 4294967296) :
    ∃ c0, Reads (c.map BlockContent.itemText) params c0 ∧ Tree g (.items c0 c) (idsOf ctr args.length) := by
  induction c generalizing ctr params args with
  | nil =>
    simp only [convertItems, Out.ok.injEq, Prod.mk.injEq] at h
    obtain ⟨rfl, rfl, rfl⟩ := h
    exact ⟨[], .nil _, .nil⟩
  | cons i c ih =>
    simp only [convertItems, Out.bind_eq_ok, Prod.exists, Out.pure_eq, Out.ok.injEq, Prod.mk.injEq] at h
    obtain ⟨ps1, bs1, c1, h1, ps2, bs2, c2, h2, rfl, rfl, rfl⟩ := h
    have hs1 := convertItem_seq _ _ _ _ _ h1
    have hs2 := convertItems_seq _ _ _ _ _ h2
    obtain ⟨ha1, ha2⟩ := ha.append
    rw [← hs1.1] at ha2
    obtain ⟨c0, hr, ht⟩ := ih (fun i hi => ho i (by simp [hi])) (fun i hi => hp i (by simp [hi])) h2 ha2
    have hoi := ho i (by simp)
    have hpi := hp i (by simp)
    rw [List.length_append, idsOf_append, ← hs1.1, List.map_cons]
    have hc2 := hs2.1
    have nested : ∀ {b : Block} {bs : List ParserBlock} {k' : Nat}, Leaf b → convertBlock b ctr true = .ok (bs, k') → At g ctr bs →
        k' ≤ c2 → k' = ctr + 1 ∧ idsOf ctr bs.length = [UInt32.ofNat (ctr + 1)] ∧
        Tree g (.block (UInt32.ofNat (ctr + 1)) b) [UInt32.ofNat (ctr + 1)] ∧
        parseU32 (natStr 10 k') = some (UInt32.ofNat (ctr + 1)) := by
      intro b bs k' hl hb hab hk'
      obtain ⟨rfl, hl1, ht⟩ := leaf_tree hl hb hab
      exact ⟨rfl, by rw [hl1]; rfl, ht, parseU32_natStr (by omega)⟩
    match i, hoi, hpi with
    | .text s, hoi, _ =>
      simp only [convertItem, Out.ok.injEq, Prod.mk.injEq] at h1
      obtain ⟨rfl, rfl, rfl⟩ := h1
      exact ⟨_, .text s hoi.2 hr, .keep trivial ht⟩
    | .param (.string n (.value v)), hoi, hpi =>
      simp only [convertItem, convertArg, convertStr, Out.ok_bind, Out.pure_eq, Out.ok.injEq, Prod.mk.injEq] at h1
      obtain ⟨rfl, rfl, rfl⟩ := h1
      exact ⟨_, reads_string hoi (.val v v hpi rfl) hr, .keep trivial ht⟩
    | .param (.number n (.value x)), hoi, hpi =>
      simp only [convertItem, convertArg, convertNum, Out.ok_bind, Out.pure_eq, Out.ok.injEq, Prod.mk.injEq] at h1
      obtain ⟨rfl, rfl, rfl⟩ := h1
      exact ⟨_, reads_number hoi (.val _ x (FloatLaws.show64_at x) hpi) hr, .keep trivial ht⟩
    | .param (.menu n (.value v)), hoi, _ =>
      simp only [convertItem, convertArg, convertStr, Out.ok_bind, Out.pure_eq, Out.ok.injEq, Prod.mk.injEq] at h1
      obtain ⟨rfl, rfl, rfl⟩ := h1
      exact ⟨_, reads_menu hoi hr, .keep trivial ht⟩
    | .param (.boolean n (.value v)), hoi, _ =>
      simp only [convertItem, convertArg, convertBool, Out.ok_bind, Out.pure_eq, Out.ok.injEq, Prod.mk.injEq] at h1
      obtain ⟨rfl, rfl, rfl⟩ := h1
      obtain ⟨e1, e2, e3, e4⟩ := nested (leaf_boolBlock v) (emitBool_eq v ctr) ha1 (by omega)
      refine ⟨_, reads_boolean hoi (.ref _ _ e4) hr, ?_⟩
      rw [e2, ← boolValue_boolBlock v]
      exact .boolean e3 ht
    | .param (.string n (.block b)), hoi, hpi =>
      simp only [convertItem, convertArg, convertStr, Out.bind_eq_ok, Prod.exists, Out.pure_eq, Out.ok.injEq, Prod.mk.injEq] at h1
      obtain ⟨_, _, _, ⟨_, _, h1, rfl, rfl, rfl⟩, rfl, rfl, rfl⟩ := h1
      obtain ⟨e1, e2, e3, e4⟩ := nested hpi h1 ha1 (by omega)
      refine ⟨_, reads_string hoi (.ref _ _ e4) hr, ?_⟩
      rw [e2]
      exact .string e3 ht
    | .param (.number n (.block b)), hoi, hpi =>
      simp only [convertItem, convertArg, convertNum, Out.bind_eq_ok, Prod.exists, Out.pure_eq, Out.ok.injEq, Prod.mk.injEq] at h1
      obtain ⟨_, _, _, ⟨_, _, h1, rfl, rfl, rfl⟩, rfl, rfl, rfl⟩ := h1
      obtain ⟨e1, e2, e3, e4⟩ := nested hpi h1 ha1 (by omega)
      refine ⟨_, reads_number hoi (.ref _ _ e4) hr, ?_⟩
      rw [e2]
      exact .number e3 ht
    | .param (.boolean n (.block b)), hoi, hpi =>
      simp only [convertItem, convertArg, convertBool, Out.bind_eq_ok, Prod.exists, Out.pure_eq, Out.ok.injEq, Prod.mk.injEq] at h1
      obtain ⟨_, _, _, ⟨_, _, h1, rfl, rfl, rfl⟩, rfl, rfl, rfl⟩ := h1
      obtain ⟨e1, e2, e3, e4⟩ := nested hpi.1 h1 ha1 (by omega)
      refine ⟨_, reads_boolean hoi (.ref _ _ e4) hr, ?_⟩
      have hb : boolValue b = .block b := by
        unfold boolValue; rw [if_neg hpi.2.1, if_neg hpi.2.2]
      rw [e2, ← hb]
      exact .boolean e3 ht

theorem top_tree {g : UInt32 → Option ParserBlock} {b : Block} (hb : Top b) {ctr : Nat} {last : Bool} {ps : List ParserBlock} {k : Nat}
    (h : convertBlock b ctr last = .ok (ps, k)) (ha : At g ctr ps) (hk : k < 4294967296) :
    ∃ u, Tree g (.block (UInt32.ofNat (ctr + 1)) b) u ∧ u.Perm (idsOf ctr ps.length) := by
  obtain ⟨s1, s2, color, op, content, t⟩ := b
  obtain ⟨hs1, hs2, hc, hi, ht⟩ := hb
  simp only [convertBlock, Out.bind_eq_ok, Prod.exists, Out.pure_eq, Out.ok.injEq, Prod.mk.injEq] at h
  obtain ⟨params, args, c1, h1, b1, p1, c2, h2, b2, p2, c3, h3, rfl, rfl⟩ := h
  have hg := ha.head
  have ha' := (At.append (ps := [_]) (qs := args ++ (b1 ++ b2)) ha).2
  obtain ⟨a1, ha'⟩ := ha'.append
  obtain ⟨a2, a3⟩ := ha'.append
  have q1 := convertItems_seq _ _ _ _ _ h1
  have q2 := (convertStack_seq _ _ _ _ _ h2).1
  have q3 := (convertStack_seq _ _ _ _ _ h3).1
  have z1 := q1.1
  have z2 := q2.1
  have z3 := q3.1
  simp only [List.length_singleton] at a1 a2 a3
  rw [← z1] at a2 a3
  rw [← z2] at a3
  obtain ⟨c0, hr, ti⟩ := topItems hc.2 hi h1 a1 (by omega)
  have t1 := topStack_tree hs1 h2 a2
  have t2 := topStack_tree hs2 h3 a3
  refine ⟨_, Tree.block hg t1 t2 (c0 := c0) ?_ ti ?_, ?_⟩
  · have := splitOn_text hc
    simp only [Block.content] at this hr
    simp only [emitted, Block.content, this]
    exact hr
  · exact (c51_round_trip_partial t).mpr ht
  · have e : (emitted ⟨s1, s2, color, op, content, t⟩ (ctr + 1) (nextOf last c3) params p1 p2 :: args ++ (b1 ++ b2)).length =
        1 + (args.length + (b1.length + b2.length)) := by simp; omega
    rw [e, idsOf_append, idsOf_append, idsOf_append]
    rw [← z1, ← z2]
    have e1 : idsOf ctr 1 = [UInt32.ofNat (ctr + 1)] := rfl
    rw [e1, List.singleton_append]
    refine List.Perm.cons _ ?_
    rw [← List.append_assoc]
    exact List.perm_append_comm

omit [FloatLaws] in
theorem nextOf_true (ctr : Nat) : nextOf true ctr < 0 := by
  simp only [nextOf, if_true]; decide

omit [FloatLaws] in
theorem ofNat_not_neg {c : Nat} (h : c ≤ 2147483647) : ¬ Int32.ofNat c < 0 := by
  intro hlt
  have := Int32.lt_iff_toInt_lt.mp hlt
  rw [Int32.toInt_ofNat_of_lt (by omega)] at this
  have e0 : Int32.toInt 0 = 0 := rfl
  omega

theorem convertBlock_first {g : UInt32 → Option ParserBlock} {b : Block} {ctr : Nat} {last : Bool} {ps : List ParserBlock} {k : Nat}
    (h : convertBlock b ctr last = .ok (ps, k)) (ha : At g ctr ps) :
    ∃ p, g (UInt32.ofNat (ctr + 1)) = some p ∧ p.nextBlock = nextOf last k := by
  obtain ⟨s1, s2, color, op, content, t⟩ := b
  simp only [convertBlock, Out.bind_eq_ok, Prod.exists, Out.pure_eq, Out.ok.injEq, Prod.mk.injEq] at h
  obtain ⟨params, args, c1, h1, b1, p1, c2, h2, b2, p2, c3, h3, rfl, rfl⟩ := h
  exact ⟨_, ha.head, rfl⟩

theorem convertBlocks_pos {b : Block} {bs : List Block} {ctr : Nat} {ps : List ParserBlock} {k : Nat}
    (h : convertBlocks (b :: bs) ctr = .ok (ps, k)) : ctr + 1 ≤ k := by
  have := (convertBlocks_ready _ _ _ _ h).2
  obtain ⟨s1, s2, color, op, content, t⟩ := b
  simp only [blocksSize, blockSize] at this
  omega

theorem topBlocks_tree {g : UInt32 → Option ParserBlock} {bs : List Block} (hb : ∀ b ∈ bs, Top b) (hne : bs ≠ []) {ctr : Nat}
    {ps : List ParserBlock} {k : Nat} (h : convertBlocks bs ctr = .ok (ps, k)) (ha : At g ctr ps) (hk : k ≤ 2147483647) :
    ∃ u, Tree g (.blocks (UInt32.ofNat (ctr + 1)) bs) u ∧ u.Perm (idsOf ctr ps.length) := by
  induction bs generalizing ctr ps with
  | nil => exact absurd rfl hne
  | cons b bs ih =>
    simp only [convertBlocks, Out.bind_eq_ok, Prod.exists, Out.pure_eq, Out.ok.injEq, Prod.mk.injEq] at h
    obtain ⟨qs, c1, h1, rs, c2, h2, rfl, rfl⟩ := h
    obtain ⟨a1, a2⟩ := ha.append
    have z1 := convertBlock_seq _ _ _ _ _ h1
    have z2 := convertBlocks_seq _ _ _ _ h2
    have w1 := z1.1
    have w2 := z2.1
    rw [← w1] at a2
    obtain ⟨u, ht, hu⟩ := top_tree (hb b (by simp)) h1 a1 (by omega)
    obtain ⟨p, hg, hn⟩ := convertBlock_first h1 a1
    cases bs with
    | nil =>
      simp only [convertBlocks, Out.ok.injEq, Prod.mk.injEq] at h2
      obtain ⟨rfl, rfl⟩ := h2
      rw [List.append_nil]
      exact ⟨u, .last hg (by rw [hn]; exact nextOf_true _) ht, hu⟩
    | cons b' bs =>
      obtain ⟨u', ht', hu'⟩ := ih (fun b hb' => hb b (by simp [hb'])) (by simp) h2 a2
      have hpos := convertBlocks_pos h2
      have hn' : p.nextBlock = Int32.ofNat (c1 + 1) := hn
      refine ⟨u ++ u', .next hg ?_ ht ?_, ?_⟩
      · rw [hn']; exact ofNat_not_neg (by omega)
      · rw [hn', pointerId_ofNat]; exact ht'
      · rw [List.length_append, idsOf_append, ← w1]
        exact hu.append hu'

end
end Swrs.Api
