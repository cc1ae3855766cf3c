import Verif.Proofs.BlockRound
/-!
# The blocks that are read back unchanged
-/
namespace Swrs.Api

section
variable [Floats]

mutual
/-- What holds of every block that is read: its spec has an item, every item is one word, no string begins with `@`,
every argument is given, and menus have values. -/
def goodBlock : Block → Prop
  | ⟨s1, s2, _, _, content, _⟩ => goodStack s1 ∧ goodStack s2 ∧ content ≠ [] ∧ goodItems content
/-- See `goodBlock`. -/
def goodStack : Option (List Block) → Prop
  | none => True
  | some bs => goodBlocks bs
/-- See `goodBlock`. -/
def goodBlocks : List Block → Prop
  | [] => True
  | b :: bs => goodBlock b ∧ goodBlocks bs
/-- See `goodBlock`. -/
def goodItems : List (SpecItem Block) → Prop
  | [] => True
  | i :: is => (ItemOk i ∧ goodItem i) ∧ goodItems is
/-- See `goodBlock`. -/
def goodItem : SpecItem Block → Prop
  | .text _ => True
  | .param a => goodArg a
/-- See `goodBlock`. -/
def goodArg : Argument Block → Prop
  | .string _ v => goodStr v
  | .number _ v => goodNum v
  | .boolean _ v => goodBool v
  | .menu _ v => ∃ x, v = .value x
/-- See `goodBlock`. -/
def goodStr : ArgValue Block Str → Prop
  | .value v => v.head? ≠ some '@'
  | .block b => goodBlock b
  | _ => False
/-- See `goodBlock`. -/
def goodNum : ArgValue Block Floats.F64 → Prop
  | .value _ => True
  | .block b => goodBlock b
  | _ => False
/-- See `goodBlock`. -/
def goodBool : ArgValue Block Bool → Prop
  | .value _ => True
  | .block b => goodBlock b
  | _ => False
end

theorem goodItems_ok {c : BlockContent Block} (h : goodItems c) : ∀ i ∈ c, ItemOk i := by
  induction c with
  | nil => simp
  | cons i c ih =>
    simp only [goodItems] at h
    intro j hj
    rcases List.mem_cons.mp hj with rfl | hj
    · exact h.1.1
    · exact ih h.2 j hj

/-- An item as it is read from a spec and its arguments. -/
def FreshItem : SpecItem Block → Prop
  | .text _ => True
  | .param (.string _ (.value v)) => v.head? ≠ some '@'
  | .param (.string _ (.placeholder _)) => True
  | .param (.number _ (.value _)) => True
  | .param (.number _ (.placeholder _)) => True
  | .param (.boolean _ (.value _)) => True
  | .param (.boolean _ (.placeholder _)) => True
  | .param (.menu _ (.value _)) => True
  | _ => False

/-- Items as they are read. -/
def Fresh (c : BlockContent Block) : Prop := ∀ i ∈ c, ItemOk i ∧ FreshItem i

omit [Floats] in
theorem nameOf_ok {t : Str} (h : ' ' ∉ t) : ∀ m, nameOf t = some m → m ≠ [] ∧ ' ' ∉ m := by
  intro m hm
  obtain ⟨rfl, hn⟩ := nameOf_eq_some.mp hm
  exact ⟨hn, fun h' => h (by simp [h'])⟩

theorem reads_fresh {ws as : List Str} {c : BlockContent Block} (h : Reads ws as c) (hw : ∀ w ∈ ws, ' ' ∉ w) : Fresh c := by
  induction h with
  | nil => intro i hi; simp at hi
  | text w h1 _ ih =>
    intro i hi
    rcases List.mem_cons.mp hi with rfl | hi
    · exact ⟨⟨hw _ (by simp), h1⟩, trivial⟩
    · exact ih (fun w h => hw w (by simp [h])) i hi
  | string t a h1 _ ih =>
    intro i hi
    rcases List.mem_cons.mp hi with rfl | hi
    · refine ⟨nameOf_ok fun h => hw _ (List.mem_cons_self ..) (by simp [h]), ?_⟩
      cases h1 with
      | ref => trivial
      | val _ x h hx => simp at hx; subst hx; exact h
    · exact ih (fun w h => hw w (by simp [h])) i hi
  | number t a h1 _ ih =>
    intro i hi
    rcases List.mem_cons.mp hi with rfl | hi
    · refine ⟨nameOf_ok fun h => hw _ (List.mem_cons_self ..) (by simp [h]), ?_⟩
      cases h1 <;> trivial
    · exact ih (fun w h => hw w (by simp [h])) i hi
  | boolean t a h1 _ ih =>
    intro i hi
    rcases List.mem_cons.mp hi with rfl | hi
    · refine ⟨nameOf_ok fun h => hw _ (List.mem_cons_self ..) (by simp [h]), ?_⟩
      cases h1 <;> trivial
    · exact ih (fun w h => hw w (by simp [h])) i hi
  | menu t n a h1 _ ih =>
    intro i hi
    rcases List.mem_cons.mp hi with rfl | hi
    · refine ⟨nameOf_ok (t := t) (fun h => hw _ (List.mem_cons_self ..) (by simp [h])) n h1, trivial⟩
    · exact ih (fun w h => hw w (by simp [h])) i hi

/-- What is read is good. -/
def Goal.Good : Goal → Prop
  | .block _ b => goodBlock b
  | .stack _ s => goodStack s
  | .blocks _ bs => goodBlocks bs
  | .items is is' => Fresh is → goodItems is' ∧ (is ≠ [] → is' ≠ [])

theorem reads_ne_nil {ws as : List Str} {c : BlockContent Block} (h : Reads ws as c) (hw : ws ≠ []) : c ≠ [] := by
  cases h <;> simp at hw ⊢

theorem tree_good {g : UInt32 → Option ParserBlock} {G : Goal} {u : List UInt32} (h : Tree g G u) : G.Good := by
  induction h with
  | block hg h1 h2 hr hi ht ih1 ih2 ih3 =>
    simp only [Goal.Good, goodBlock] at ih1 ih2 ih3 ⊢
    obtain ⟨h3, h4⟩ := ih3 (reads_fresh hr fun w hw => splitOn_not_mem hw)
    exact ⟨ih1, ih2, h4 (reads_ne_nil hr (splitOn_ne_nil _ _)), h3⟩
  | noStack => simp [Goal.Good, goodStack]
  | stack _ _ ih => simpa only [Goal.Good, goodStack] using ih
  | last _ _ _ ih => simpa only [Goal.Good, goodBlocks, and_true] using ih
  | next _ _ _ _ ih1 ih2 =>
    simp only [Goal.Good, goodBlocks] at ih1 ih2 ⊢
    exact ⟨ih1, ih2⟩
  | nil => simp [Goal.Good, goodItems]
  | @keep i is is' u hn _ ih =>
    simp only [Goal.Good, goodItems] at ih ⊢
    intro hf
    have h1 := hf i (by simp)
    refine ⟨⟨⟨h1.1, ?_⟩, (ih fun j hj => hf j (by simp [hj])).1⟩, by simp⟩
    have h2 := h1.2
    clear ih hf h1
    match i, hn, h2 with
    | .text _, _, _ => simp only [goodItem]
    | .param (.string _ (.value v)), _, h => simp only [goodItem, goodArg, goodStr]; exact h
    | .param (.number _ (.value v)), _, h => simp only [goodItem, goodArg, goodNum]
    | .param (.boolean _ (.value v)), _, h => simp only [goodItem, goodArg, goodBool]
    | .param (.menu _ (.value v)), _, h => exact ⟨v, rfl⟩
  | string _ _ ih1 ih2 =>
    simp only [Goal.Good, goodItems, goodItem, goodArg, goodStr] at ih1 ih2 ⊢
    intro hf
    exact ⟨⟨⟨(hf _ (List.mem_cons_self ..)).1, ih1⟩, (ih2 fun j hj => hf j (by simp [hj])).1⟩, by simp⟩
  | number _ _ ih1 ih2 =>
    simp only [Goal.Good, goodItems, goodItem, goodArg, goodNum] at ih1 ih2 ⊢
    intro hf
    exact ⟨⟨⟨(hf _ (List.mem_cons_self ..)).1, ih1⟩, (ih2 fun j hj => hf j (by simp [hj])).1⟩, by simp⟩
  | @boolean n id b u is is' u' _ _ ih1 ih2 =>
    simp only [Goal.Good, goodItems, goodItem, goodArg] at ih1 ih2 ⊢
    intro hf
    refine ⟨⟨⟨(hf _ (List.mem_cons_self ..)).1, ?_⟩, (ih2 fun j hj => hf j (by simp [hj])).1⟩, by simp⟩
    unfold boolValue
    repeat' split
    · simp only [goodBool]
    · simp only [goodBool]
    · simpa only [goodBool] using ih1
  | menu _ _ ih1 ih2 =>
    simp only [Goal.Good]
    intro hf
    exact absurd (hf _ (List.mem_cons_self ..)).2 id

/-- An item without nested blocks. -/
def Flat : SpecItem Block → Prop
  | .text _ => True
  | .param (.string _ (.value _)) => True
  | .param (.number _ (.value _)) => True
  | .param (.menu _ (.value _)) => True
  | _ => False

/-- A block of a container that refers to no other block. -/
def Alone (q : ParserBlock) : Prop :=
  q.subStack1 < 0 ∧ q.subStack2 < 0 ∧ q.nextBlock < 0 ∧
  ∀ c0 : BlockContent Block, Reads (splitOn ' ' q.spec) q.parameters c0 → ∀ i ∈ c0, Flat i

theorem blockSize_pos (b : Block) : 0 < blockSize b := by
  obtain ⟨s1, s2, color, op, content, t⟩ := b
  simp only [blockSize]; omega

theorem flat_of_size {c : BlockContent Block} (hg : goodItems c) (hs : itemsSize c = 0) : ∀ i ∈ c, Flat i := by
  induction c with
  | nil => simp
  | cons i c ih =>
    simp only [goodItems, itemsSize] at hg hs
    intro j hj
    rcases List.mem_cons.mp hj with rfl | hj
    · have h0 : itemSize j = 0 := by omega
      have h1 := hg.1.2
      clear ih hg hs
      cases j with
      | text _ => trivial
      | param a =>
        simp only [itemSize, goodItem] at h0 h1
        cases a with
        | string n v => cases v with
          | value _ => trivial
          | block b => simp only [argSize, strSize] at h0; have := blockSize_pos b; omega
          | placeholder _ => simp [goodArg, goodStr] at h1
          | empty => simp [goodArg, goodStr] at h1
        | number n v => cases v with
          | value _ => trivial
          | block b => simp only [argSize, numSize] at h0; have := blockSize_pos b; omega
          | placeholder _ => simp [goodArg, goodNum] at h1
          | empty => simp [goodArg, goodNum] at h1
        | boolean n v => cases v with
          | value _ => simp [argSize, boolSize] at h0
          | block b => simp only [argSize, boolSize] at h0; have := blockSize_pos b; omega
          | placeholder _ => simp [goodArg, goodBool] at h1
          | empty => simp [goodArg, goodBool] at h1
        | menu n v => cases v with
          | value _ => trivial
          | block b => simp [goodArg] at h1
          | placeholder _ => simp [goodArg] at h1
          | empty => simp [goodArg] at h1
    · exact ih hg.2 (by omega) j hj

theorem flat_size {c : BlockContent Block} (h : ∀ i ∈ c, Flat i) : itemsSize c = 0 := by
  induction c with
  | nil => simp only [itemsSize]
  | cons i c ih =>
    simp only [itemsSize, ih fun j hj => h j (by simp [hj])]
    have := h i (by simp)
    match i, this with
    | .text _, _ => simp only [itemSize]
    | .param (.string _ (.value _)), _ => simp only [itemSize, argSize, strSize]
    | .param (.number _ (.value _)), _ => simp only [itemSize, argSize, numSize]
    | .param (.menu _ (.value _)), _ => simp only [itemSize, argSize, strSize]
end

section
variable [FloatLaws]

theorem flat_reads {c c0 : BlockContent Block} (hg : goodItems c) (hf : ∀ i ∈ c, Flat i) {ctr k : Nat} {params : List Str}
    {args : List ParserBlock} (h : convertItems c ctr = .ok (params, args, k)) (hr : Reads (c.map BlockContent.itemText) params c0) :
    (∀ i ∈ c0, Flat i) ∧ (c0 = c → ∀ i ∈ c, PlainItem i) := by
  induction c generalizing ctr params args c0 with
  | nil =>
    cases hr
    simp
  | cons i c ih =>
    simp only [convertItems, Out.bind_eq_ok, Prod.exists, Out.pure_eq, Out.ok.injEq, Prod.mk.injEq] at h
    obtain ⟨ps1, bs1, c1, h1, ps2, bs2, c2, h2, rfl, rfl, rfl⟩ := h
    simp only [goodItems] at hg
    obtain ⟨⟨ho, hgi⟩, hgs⟩ := hg
    have hfi := hf i (by simp)
    have ih' := fun {c0} => @ih c0 hgs (fun j hj => hf j (by simp [hj])) _ _ _ h2
    rw [List.map_cons] at hr
    clear ih
    match i, ho, hgi, hfi with
    | .text s, ho, _, _ =>
      simp only [convertItem, Out.ok.injEq, Prod.mk.injEq] at h1
      obtain ⟨rfl, rfl, rfl⟩ := h1
      obtain ⟨is, rfl, hr'⟩ := Reads.text_inv ho.2 hr
      obtain ⟨e1, e2⟩ := ih' hr'
      refine ⟨?_, ?_⟩
      · intro j hj; rcases List.mem_cons.mp hj with rfl | hj
        · trivial
        · exact e1 j hj
      · intro he j hj
        rcases List.mem_cons.mp hj with rfl | hj
        · trivial
        · exact e2 (List.cons.inj he).2 j hj
    | .param (.string n (.value v)), ho, hgi, _ =>
      simp only [convertItem, convertArg, convertStr, Out.ok_bind, Out.pure_eq, Out.ok.injEq, Prod.mk.injEq] at h1
      obtain ⟨rfl, rfl, rfl⟩ := h1
      obtain ⟨a, as, v0, is, he, rfl, ha, hr'⟩ := Reads.string_inv ho hr
      simp only [List.singleton_append, List.cons.injEq] at he
      obtain ⟨rfl, rfl⟩ := he
      obtain ⟨e1, e2⟩ := ih' hr'
      simp only [goodItem, goodArg, goodStr] at hgi
      cases ha with
      | ref => simp at hgi
      | val _ x hx hv =>
        refine ⟨?_, ?_⟩
        · intro j hj; rcases List.mem_cons.mp hj with rfl | hj
          · trivial
          · exact e1 j hj
        · intro he j hj
          rcases List.mem_cons.mp hj with rfl | hj
          · exact hgi
          · exact e2 (List.cons.inj he).2 j hj
    | .param (.number n (.value v)), ho, hgi, _ =>
      simp only [convertItem, convertArg, convertNum, Out.ok_bind, Out.pure_eq, Out.ok.injEq, Prod.mk.injEq] at h1
      obtain ⟨rfl, rfl, rfl⟩ := h1
      obtain ⟨a, as, v0, is, he, rfl, ha, hr'⟩ := Reads.number_inv ho hr
      simp only [List.singleton_append, List.cons.injEq] at he
      obtain ⟨rfl, rfl⟩ := he
      obtain ⟨e1, e2⟩ := ih' hr'
      generalize hsh : Floats.show64 v = sv at ha
      cases ha with
      | ref d => have := FloatLaws.show64_at v; rw [hsh] at this; simp at this
      | val _ x hx hv =>
        refine ⟨?_, ?_⟩
        · intro j hj; rcases List.mem_cons.mp hj with rfl | hj
          · trivial
          · exact e1 j hj
        · intro he j hj
          rcases List.mem_cons.mp hj with rfl | hj
          · have := (List.cons.inj he).1
            simp only [SpecItem.param.injEq, Argument.number.injEq, ArgValue.value.injEq, true_and] at this
            subst this
            show Floats.read64 (Floats.show64 _) = _
            rw [hsh]; exact hv
          · exact e2 (List.cons.inj he).2 j hj
    | .param (.menu n (.value v)), ho, _, _ =>
      simp only [convertItem, convertArg, convertStr, Out.ok_bind, Out.pure_eq, Out.ok.injEq, Prod.mk.injEq] at h1
      obtain ⟨rfl, rfl, rfl⟩ := h1
      obtain ⟨a, as, is, he, rfl, hr'⟩ := Reads.menu_inv ho hr
      simp only [List.singleton_append, List.cons.injEq] at he
      obtain ⟨rfl, rfl⟩ := he
      obtain ⟨e1, e2⟩ := ih' hr'
      refine ⟨?_, ?_⟩
      · intro j hj; rcases List.mem_cons.mp hj with rfl | hj
        · trivial
        · exact e1 j hj
      · intro he j hj
        rcases List.mem_cons.mp hj with rfl | hj
        · trivial
        · exact e2 (List.cons.inj he).2 j hj

theorem alone_emitted {s1 s2 : Option (List Block)} {color : Color} {op : Str} {content : BlockContent Block} {t : BlockType}
    (hne : content ≠ []) (hg : goodItems content) (hf : ∀ i ∈ content, Flat i) {ctr k id : Nat} {params : List Str}
    {args : List ParserBlock} (h : convertItems content ctr = .ok (params, args, k)) :
    Alone (emitted ⟨s1, s2, color, op, content, t⟩ id (-1) params (-1) (-1)) := by
  refine ⟨minus_one_neg, minus_one_neg, minus_one_neg, ?_⟩
  intro c0 hr
  have := splitOn_text ⟨hne, goodItems_ok hg⟩
  simp only [emitted, Block.content, this] at hr
  exact (flat_reads hg hf h hr).1

omit [FloatLaws] in
theorem getLast?_append_some {α : Type} {l r : List α} {q : α} (h : r.getLast? = some q) : (l ++ r).getLast? = some q := by
  rw [List.getLast?_append, h]; rfl

/-- The last block made is alone. -/
def LastAlone (ps : List ParserBlock) : Prop := ps ≠ [] → ∃ q, ps.getLast? = some q ∧ Alone q

theorem LastAlone.append {ps qs : List ParserBlock} (h : LastAlone ps) (h' : LastAlone qs) : LastAlone (ps ++ qs) := by
  intro hne
  by_cases hq : qs = []
  · subst hq
    rw [List.append_nil] at hne ⊢
    exact h hne
  · obtain ⟨q, h1, h2⟩ := h' hq
    exact ⟨q, getLast?_append_some h1, h2⟩

theorem LastAlone.nil : LastAlone [] := fun h => absurd rfl h

mutual
theorem convertBlock_alone : ∀ (b : Block) (ctr : Nat) (ps : List ParserBlock) (k : Nat), goodBlock b →
    convertBlock b ctr true = .ok (ps, k) → LastAlone ps
  | ⟨s1, s2, color, op, content, t⟩, ctr, ps, k, hg, h => by
    simp only [convertBlock, Out.bind_eq_ok, Prod.exists, Out.pure_eq, Out.ok.injEq, Prod.mk.injEq] at h
    obtain ⟨params, args, c1, h1, b1, p1, c2, h2, b2, p2, c3, h3, rfl, rfl⟩ := h
    simp only [goodBlock] at hg
    obtain ⟨g1, g2, hne, g3⟩ := hg
    have e1 := convertItems_alone content _ _ _ _ g3 h1
    have e2 := convertStack_alone s1 _ _ _ _ g1 h2
    have e3 := convertStack_alone s2 _ _ _ _ g2 h3
    intro _
    by_cases he : args ++ (b1 ++ b2) = []
    · simp only [List.append_eq_nil_iff] at he
      obtain ⟨rfl, rfl, rfl⟩ := he
      refine ⟨_, rfl, ?_⟩
      have q2 := (convertStack_seq _ _ _ _ _ h2).2
      have q3 := (convertStack_seq _ _ _ _ _ h3).2
      simp only [true_and, ne_eq, not_true, false_and, or_false] at q2 q3
      subst q2 q3
      have hs : itemsSize content = 0 := by
        have := (convertItems_ready _ _ _ _ _ h1).2
        have := (convertItems_seq _ _ _ _ _ h1).1
        simp only [List.length_nil] at this
        omega
      exact alone_emitted hne g3 (flat_of_size g3 hs) h1
    · obtain ⟨q, hq, ha⟩ := (e1.append (e2.append e3)) he
      exact ⟨q, getLast?_append_some (l := [_]) hq, ha⟩
theorem convertStack_alone : ∀ (s : Option (List Block)) (ctr : Nat) (ps : List ParserBlock) (p : Int32) (k : Nat), goodStack s →
    convertStack s ctr = .ok (ps, p, k) → LastAlone ps
  | none, ctr, ps, p, k, _, h => by
    simp only [convertStack, Out.ok.injEq, Prod.mk.injEq] at h
    obtain ⟨rfl, rfl, rfl⟩ := h
    exact .nil
  | some bs, ctr, ps, p, k, hg, h => by
    simp only [convertStack, Out.bind_eq_ok, Prod.exists, Out.pure_eq, Out.ok.injEq, Prod.mk.injEq] at h
    obtain ⟨qs, c', h1, l, h2, rfl, rfl, rfl⟩ := h
    simp only [goodStack] at hg
    exact convertBlocks_alone bs _ _ _ hg h1
theorem convertBlocks_alone : ∀ (bs : List Block) (ctr : Nat) (ps : List ParserBlock) (k : Nat), goodBlocks bs →
    convertBlocks bs ctr = .ok (ps, k) → LastAlone ps
  | [], ctr, ps, k, _, h => by
    simp only [convertBlocks, Out.ok.injEq, Prod.mk.injEq] at h
    obtain ⟨rfl, rfl⟩ := h
    exact .nil
  | [b], ctr, ps, k, hg, h => by
    simp only [convertBlocks, Out.bind_eq_ok, Prod.exists, Out.pure_eq, Out.ok.injEq, Prod.mk.injEq] at h
    obtain ⟨qs, c1, h1, rs, c2, ⟨rfl, rfl⟩, rfl, rfl⟩ := h
    simp only [goodBlocks] at hg
    rw [List.append_nil]
    exact convertBlock_alone b _ _ _ hg.1 h1
  | b :: b' :: bs, ctr, ps, k, hg, h => by
    rw [convertBlocks] at h
    simp only [Out.bind_eq_ok, Prod.exists, Out.pure_eq, Out.ok.injEq, Prod.mk.injEq] at h
    obtain ⟨qs, c1, h1, rs, c2, h2, rfl, rfl⟩ := h
    rw [goodBlocks] at hg
    have e := convertBlocks_alone (b' :: bs) _ _ _ hg.2 h2
    have hpos := convertBlocks_pos h2
    have := (convertBlocks_seq _ _ _ _ h2).1
    have hne : rs ≠ [] := by rintro rfl; simp at this; omega
    obtain ⟨q, hq, ha⟩ := e hne
    exact fun _ => ⟨q, getLast?_append_some hq, ha⟩
theorem convertItems_alone : ∀ (is : List (SpecItem Block)) (ctr : Nat) (ps : List Str) (bs : List ParserBlock) (k : Nat),
    goodItems is → convertItems is ctr = .ok (ps, bs, k) → LastAlone bs
  | [], ctr, ps, bs, c, _, h => by
    simp only [convertItems, Out.ok.injEq, Prod.mk.injEq] at h
    obtain ⟨rfl, rfl, rfl⟩ := h
    exact .nil
  | i :: is, ctr, ps, bs, c, hg, h => by
    simp only [convertItems, Out.bind_eq_ok, Prod.exists, Out.pure_eq, Out.ok.injEq, Prod.mk.injEq] at h
    obtain ⟨ps1, bs1, c1, h1, ps2, bs2, c2, h2, rfl, rfl, rfl⟩ := h
    simp only [goodItems] at hg
    exact (convertItem_alone i _ _ _ _ hg.1.2 h1).append (convertItems_alone is _ _ _ _ hg.2 h2)
theorem convertItem_alone : ∀ (i : SpecItem Block) (ctr : Nat) (ps : List Str) (bs : List ParserBlock) (k : Nat),
    goodItem i → convertItem i ctr = .ok (ps, bs, k) → LastAlone bs
  | .text _, ctr, ps, bs, c, _, h => by
    simp only [convertItem, Out.ok.injEq, Prod.mk.injEq] at h
    obtain ⟨rfl, rfl, rfl⟩ := h
    exact .nil
  | .param a, ctr, ps, bs, c, hg, h => by
    simp only [convertItem, Out.bind_eq_ok, Prod.exists, Out.pure_eq, Out.ok.injEq, Prod.mk.injEq] at h
    obtain ⟨p, bs1, c1, h1, rfl, rfl, rfl⟩ := h
    simp only [goodItem] at hg
    exact convertArg_alone a _ _ _ _ hg h1
theorem convertArg_alone : ∀ (a : Argument Block) (ctr : Nat) (p : Str) (bs : List ParserBlock) (k : Nat),
    goodArg a → convertArg a ctr = .ok (p, bs, k) → LastAlone bs
  | .string _ v, ctr, p, bs, c, hg, h =>
    convertStr_alone v ctr p bs c (by simpa only [goodArg] using hg) (by simpa only [convertArg] using h)
  | .number _ v, ctr, p, bs, c, hg, h =>
    convertNum_alone v ctr p bs c (by simpa only [goodArg] using hg) (by simpa only [convertArg] using h)
  | .boolean _ v, ctr, p, bs, c, hg, h =>
    convertBool_alone v ctr p bs c (by simpa only [goodArg] using hg) (by simpa only [convertArg] using h)
  | .menu _ v, ctr, p, bs, c, hg, h => by
    simp only [goodArg] at hg
    obtain ⟨x, rfl⟩ := hg
    simp only [convertArg, convertStr, Out.ok.injEq, Prod.mk.injEq] at h
    obtain ⟨rfl, rfl, rfl⟩ := h
    exact .nil
theorem convertStr_alone : ∀ (v : ArgValue Block Str) (ctr : Nat) (p : Str) (bs : List ParserBlock) (k : Nat),
    goodStr v → convertStr v ctr = .ok (p, bs, k) → LastAlone bs
  | .value v, ctr, p, bs, c, _, h => by
    simp only [convertStr, Out.ok.injEq, Prod.mk.injEq] at h
    obtain ⟨rfl, rfl, rfl⟩ := h
    exact .nil
  | .empty, ctr, p, bs, c, hg, h => by simp [goodStr] at hg
  | .placeholder _, ctr, p, bs, c, hg, h => by simp [goodStr] at hg
  | .block b, ctr, p, bs, c, hg, h => by
    simp only [convertStr, Out.bind_eq_ok, Prod.exists, Out.pure_eq, Out.ok.injEq, Prod.mk.injEq] at h
    obtain ⟨bs1, c1, h1, rfl, rfl, rfl⟩ := h
    simp only [goodStr] at hg
    exact convertBlock_alone b _ _ _ hg h1
theorem convertNum_alone : ∀ (v : ArgValue Block Floats.F64) (ctr : Nat) (p : Str) (bs : List ParserBlock) (k : Nat),
    goodNum v → convertNum v ctr = .ok (p, bs, k) → LastAlone bs
  | .value v, ctr, p, bs, c, _, h => by
    simp only [convertNum, Out.ok.injEq, Prod.mk.injEq] at h
    obtain ⟨rfl, rfl, rfl⟩ := h
    exact .nil
  | .empty, ctr, p, bs, c, hg, h => by simp [goodNum] at hg
  | .placeholder _, ctr, p, bs, c, hg, h => by simp [goodNum] at hg
  | .block b, ctr, p, bs, c, hg, h => by
    simp only [convertNum, Out.bind_eq_ok, Prod.exists, Out.pure_eq, Out.ok.injEq, Prod.mk.injEq] at h
    obtain ⟨bs1, c1, h1, rfl, rfl, rfl⟩ := h
    simp only [goodNum] at hg
    exact convertBlock_alone b _ _ _ hg h1
theorem convertBool_alone : ∀ (v : ArgValue Block Bool) (ctr : Nat) (p : Str) (bs : List ParserBlock) (k : Nat),
    goodBool v → convertBool v ctr = .ok (p, bs, k) → LastAlone bs
  | .value v, ctr, p, bs, c, _, h => by
    simp only [convertBool, Out.ok.injEq, Prod.mk.injEq] at h
    obtain ⟨rfl, rfl, rfl⟩ := h
    intro _
    refine ⟨_, rfl, ?_⟩
    refine alone_emitted (content := [.text (if v then s% "true" else s% "false")]) (ctr := ctr) (args := []) (k := ctr) (by simp) ?_ ?_ ?_
    · cases v <;> simp [goodItems, goodItem, ItemOk]
    · simp [Flat]
    · simp [convertItems, convertItem]
  | .empty, ctr, p, bs, c, hg, h => by simp [goodBool] at hg
  | .placeholder _, ctr, p, bs, c, hg, h => by simp [goodBool] at hg
  | .block b, ctr, p, bs, c, hg, h => by
    simp only [convertBool, Out.bind_eq_ok, Prod.exists, Out.pure_eq, Out.ok.injEq, Prod.mk.injEq] at h
    obtain ⟨bs1, c1, h1, rfl, rfl, rfl⟩ := h
    simp only [goodBool] at hg
    exact convertBlock_alone b _ _ _ hg h1
end

omit [FloatLaws] in
theorem tree_flat [Floats] {g : UInt32 → Option ParserBlock} {c0 c : BlockContent Block} {u : List UInt32} (hf : ∀ i ∈ c0, Flat i)
    (h : Tree g (.items c0 c) u) : c = c0 := by
  induction c0 generalizing c u with
  | nil => cases h; rfl
  | cons i c0 ih =>
    cases h with
    | keep _ t => rw [ih (fun j hj => hf j (by simp [hj])) t]
    | string => exact absurd (hf _ (List.mem_cons_self ..)) id
    | number => exact absurd (hf _ (List.mem_cons_self ..)) id
    | boolean => exact absurd (hf _ (List.mem_cons_self ..)) id
    | menu => exact absurd (hf _ (List.mem_cons_self ..)) id

omit [FloatLaws] in
theorem tree_stack_neg [Floats] {g : UInt32 → Option ParserBlock} {p : Int32} {s : Option (List Block)} {u : List UInt32}
    (hp : p < 0) (h : Tree g (.stack p s) u) : s = none := by
  cases h with
  | noStack => rfl
  | stack h => exact absurd hp h

/-- A block that is read from the last of the blocks made of it has no nested blocks. -/
theorem leaf_of_tree {g : UInt32 → Option ParserBlock} {b : Block} {ctr k : Nat} {ps : List ParserBlock} {u : List UInt32}
    (h : convertBlock b ctr true = .ok (ps, k)) (ha : At g ctr ps) (ht : Tree g (.block (UInt32.ofNat k) b) u) : Leaf b := by
  have hg : goodBlock b := tree_good ht
  have hseq := convertBlock_seq _ _ _ _ _ h
  have hrd := (convertBlock_ready _ _ _ _ _ h).2
  have hpos := blockSize_pos b
  have hne : ps ≠ [] := by
    rintro rfl
    have := hseq.1
    simp only [List.length_nil] at this
    omega
  obtain ⟨q, hq, hal⟩ := convertBlock_alone b _ _ _ hg h hne
  have hgq := ha.last hseq hq
  generalize hid : UInt32.ofNat k = id at ht hgq
  cases ht with
  | @block _ p s1 s2 c0 c t u1 u2 u3 hgp t1 t2 hr ti htp =>
    rw [hgq] at hgp
    cases hgp
    obtain ⟨a1, a2, a3, a4⟩ := hal
    have := tree_stack_neg a1 t1
    subst this
    have := tree_stack_neg a2 t2
    subst this
    have hflat := a4 c0 hr
    have := tree_flat hflat ti
    subst this
    simp only [convertBlock, convertStack, Out.bind_eq_ok, Prod.exists, Out.pure_eq, Out.ok.injEq, Prod.mk.injEq] at h
    obtain ⟨params, args, c1, h1, b1, p1, c2, ⟨rfl, rfl, rfl⟩, b2, p2, c3, ⟨rfl, rfl, rfl⟩, rfl, rfl⟩ := h
    have hz := (convertItems_seq _ _ _ _ _ h1).1
    have hz' := (convertItems_ready _ _ _ _ _ h1).2
    rw [flat_size hflat] at hz'
    have : args = [] := List.length_eq_zero_iff.mp (by omega)
    subst this
    simp only [List.append_nil, List.getLast?_singleton, Option.some.injEq] at hq
    simp only [goodBlock] at hg
    have hco : ContentOk c := ⟨hg.2.2.1, goodItems_ok hg.2.2.2⟩
    have hsp := splitOn_text hco
    rw [← hq] at hr htp
    simp only [emitted, Block.content, hsp] at hr
    exact ⟨rfl, rfl, hco, (flat_reads hg.2.2.2 hflat h1 hr).2 rfl, (c51_round_trip_partial t).mp htp⟩

theorem topStack_of_tree {g : UInt32 → Option ParserBlock} {s : Option (List Block)} {ctr k : Nat} {ps : List ParserBlock} {p : Int32}
    {u : List UInt32} (h : convertStack s ctr = .ok (ps, p, k)) (ha : At g ctr ps) (ht : Tree g (.stack p s) u) : TopStack s := by
  have hg : goodStack s := tree_good ht
  have hseq := convertStack_seq _ _ _ _ _ h
  cases ht with
  | noStack => trivial
  | @stack _ bs _ hp hb =>
    rcases hseq.2 with ⟨rfl, rfl⟩ | ⟨hne, hk, rfl⟩
    · exact absurd minus_one_neg hp
    · obtain ⟨q, hq, hal⟩ := convertStack_alone _ _ _ _ _ hg h hne
      have hgq := ha.last hseq.1 hq
      rw [pointerId_ofNat] at hb
      simp only [convertStack, Out.bind_eq_ok, Prod.exists, Out.pure_eq, Out.ok.injEq, Prod.mk.injEq] at h
      obtain ⟨qs, c', h1, l, h2, rfl, h3, h4⟩ := h
      have hs1 := convertBlocks_seq _ _ _ _ h1
      have hk' : c' = k := by have := hs1.1; have := hseq.1.1; omega
      generalize hid : UInt32.ofNat k = id at hb hgq
      cases hb with
      | @last _ p b u hg' hn hb =>
        rw [hgq] at hg'
        cases hg'
        simp only [convertBlocks, Out.bind_eq_ok, Prod.exists, Out.pure_eq, Out.ok.injEq, Prod.mk.injEq] at h1
        obtain ⟨rs, k1, h1, _, _, ⟨rfl, rfl⟩, h5, rfl⟩ := h1
        rw [List.append_nil] at h5
        subst h5
        rw [← hid, ← hk'] at hb
        exact leaf_of_tree h1 ha hb
      | next hg' hn =>
        rw [hgq] at hg'
        cases hg'
        exact absurd hal.2.2.1 hn

theorem topItems_of_tree {g : UInt32 → Option ParserBlock} {c c0 : BlockContent Block} (ho : ∀ i ∈ c, ItemOk i) {ctr k : Nat}
    {params : List Str} {args : List ParserBlock} {u : List UInt32} (h : convertItems c ctr = .ok (params, args, k)) (ha : At g ctr args)
    (hk : k < 4294967296) (hr : Reads (c.map BlockContent.itemText) params c0) (ht : Tree g (.items c0 c) u) : ∀ i ∈ c, TopItem i := by
  induction c generalizing ctr params args c0 u with
  | nil => simp
  | cons i c ih =>
    simp only [convertItems, Out.bind_eq_ok, Prod.exists, Out.pure_eq, Out.ok.injEq, Prod.mk.injEq] at h
    obtain ⟨ps1, bs1, c1, h1, ps2, bs2, c2, h2, rfl, rfl, rfl⟩ := h
    have hs1 := convertItem_seq _ _ _ _ _ h1
    have hs2 := convertItems_seq _ _ _ _ _ h2
    have z1 := hs1.1
    have z2 := hs2.1
    obtain ⟨ha1, ha2⟩ := ha.append
    rw [← z1] at ha2
    have hoi := ho i (by simp)
    rw [List.map_cons] at hr
    have ih' := fun {c0 u} => @ih c0 (fun j hj => ho j (by simp [hj])) _ _ _ u h2 ha2
    clear ih
    suffices H : TopItem i ∧ ∀ j ∈ c, TopItem j by
      intro j hj
      rcases List.mem_cons.mp hj with rfl | hj
      · exact H.1
      · exact H.2 j hj
    cases i with
    | text s =>
      simp only [convertItem, Out.ok.injEq, Prod.mk.injEq] at h1
      obtain ⟨rfl, rfl, rfl⟩ := h1
      obtain ⟨is, rfl, hr'⟩ := Reads.text_inv hoi.2 hr
      cases ht with
      | keep _ t => exact ⟨trivial, ih' hr' t⟩
    | param a =>
      cases a with
      | string n v =>
        obtain ⟨a, as, v0, is, he, rfl, hia, hr'⟩ := Reads.string_inv hoi hr
        cases v with
        | value v =>
          simp only [convertItem, convertArg, convertStr, Out.ok_bind, Out.pure_eq, Out.ok.injEq, Prod.mk.injEq] at h1
          obtain ⟨rfl, rfl, rfl⟩ := h1
          simp only [List.singleton_append, List.cons.injEq] at he
          obtain ⟨rfl, rfl⟩ := he
          cases ht with
          | keep _ t =>
            cases hia with
            | val _ _ h _ => exact ⟨h, ih' hr' t⟩
        | block b =>
          simp only [convertItem, convertArg, convertStr, Out.bind_eq_ok, Prod.exists, Out.pure_eq, Out.ok.injEq, Prod.mk.injEq] at h1
          obtain ⟨_, _, _, ⟨bs1, c1, h1, rfl, rfl, rfl⟩, rfl, rfl, rfl⟩ := h1
          simp only [List.singleton_append, List.cons.injEq] at he
          obtain ⟨rfl, rfl⟩ := he
          generalize hrt : refText c1 = rt at hia
          cases ht with
          | keep _ t => cases hia
          | string hb t =>
            cases hia with
            | ref d id hd =>
              have e : natStr 10 c1 = d := (List.cons.inj hrt).2
              rw [← e, parseU32_natStr (by omega)] at hd
              cases hd
              exact ⟨leaf_of_tree h1 ha1 hb, ih' hr' t⟩
        | placeholder _ => simp [convertItem, convertArg, convertStr] at h1
        | empty =>
          simp only [convertItem, convertArg, convertStr, Out.ok_bind, Out.pure_eq, Out.ok.injEq, Prod.mk.injEq] at h1
          obtain ⟨rfl, rfl, rfl⟩ := h1
          simp only [List.singleton_append, List.cons.injEq] at he
          obtain ⟨rfl, rfl⟩ := he
          cases ht with
          | keep _ t => cases hia
      | number n v =>
        obtain ⟨a, as, v0, is, he, rfl, hia, hr'⟩ := Reads.number_inv hoi hr
        cases v with
        | value v =>
          simp only [convertItem, convertArg, convertNum, Out.ok_bind, Out.pure_eq, Out.ok.injEq, Prod.mk.injEq] at h1
          obtain ⟨rfl, rfl, rfl⟩ := h1
          simp only [List.singleton_append, List.cons.injEq] at he
          obtain ⟨rfl, rfl⟩ := he
          cases ht with
          | keep _ t =>
            generalize hsh : Floats.show64 v = sv at hia
            cases hia with
            | val _ _ h hv => exact ⟨by show Floats.read64 (Floats.show64 v) = some v; rw [hsh]; exact hv, ih' hr' t⟩
        | block b =>
          simp only [convertItem, convertArg, convertNum, Out.bind_eq_ok, Prod.exists, Out.pure_eq, Out.ok.injEq, Prod.mk.injEq] at h1
          obtain ⟨_, _, _, ⟨bs1, c1, h1, rfl, rfl, rfl⟩, rfl, rfl, rfl⟩ := h1
          simp only [List.singleton_append, List.cons.injEq] at he
          obtain ⟨rfl, rfl⟩ := he
          generalize hrt : refText c1 = rt at hia
          cases ht with
          | keep _ t => cases hia
          | number hb t =>
            cases hia with
            | ref d id hd =>
              have e : natStr 10 c1 = d := (List.cons.inj hrt).2
              rw [← e, parseU32_natStr (by omega)] at hd
              cases hd
              exact ⟨leaf_of_tree h1 ha1 hb, ih' hr' t⟩
        | placeholder _ => simp [convertItem, convertArg, convertNum] at h1
        | empty =>
          simp only [convertItem, convertArg, convertNum, Out.ok_bind, Out.pure_eq, Out.ok.injEq, Prod.mk.injEq] at h1
          obtain ⟨rfl, rfl, rfl⟩ := h1
          simp only [List.singleton_append, List.cons.injEq] at he
          obtain ⟨rfl, rfl⟩ := he
          cases ht with
          | keep _ t => cases hia
      | boolean n v =>
        obtain ⟨a, as, v0, is, he, rfl, hia, hr'⟩ := Reads.boolean_inv hoi hr
        have rest : ∃ u', Tree g (.items is c) u' := by
          cases ht with
          | keep _ t => exact ⟨_, t⟩
          | boolean _ t => exact ⟨_, t⟩
        obtain ⟨u', t⟩ := rest
        cases v with
        | value v =>
          simp only [convertItem, convertArg, convertBool, Out.ok_bind, Out.pure_eq, Out.ok.injEq, Prod.mk.injEq] at h1
          obtain ⟨rfl, rfl, rfl⟩ := h1
          simp only [List.singleton_append, List.cons.injEq] at he
          obtain ⟨rfl, rfl⟩ := he
          exact ⟨trivial, ih' hr' t⟩
        | block b =>
          simp only [convertItem, convertArg, convertBool, Out.bind_eq_ok, Prod.exists, Out.pure_eq, Out.ok.injEq, Prod.mk.injEq] at h1
          obtain ⟨_, _, _, ⟨bs1, c1, h1, rfl, rfl, rfl⟩, rfl, rfl, rfl⟩ := h1
          simp only [List.singleton_append, List.cons.injEq] at he
          obtain ⟨rfl, rfl⟩ := he
          generalize hrt : refText c1 = rt at hia
          generalize hbv : (ArgValue.block b : ArgValue Block Bool) = bv at ht
          cases ht with
          | keep _ t => subst hbv; cases hia
          | @boolean _ _ b' _ _ _ _ hb t =>
            cases hia with
            | ref d id hd =>
              have e : natStr 10 c1 = d := (List.cons.inj hrt).2
              rw [← e, parseU32_natStr (by omega)] at hd
              cases hd
              unfold boolValue at hbv
              by_cases hx : b'.opCode = s% "true"
              · rw [if_pos hx] at hbv; cases hbv
              · rw [if_neg hx] at hbv
                by_cases hy : b'.opCode = s% "false"
                · rw [if_pos hy] at hbv; cases hbv
                · rw [if_neg hy] at hbv
                  cases hbv
                  refine ⟨?_, ih' hr' t⟩
                  have e : boolValue b = .block b := by simp only [boolValue, if_neg hx, if_neg hy]
                  rw [e]
                  exact ⟨leaf_of_tree h1 ha1 hb, hx, hy⟩
        | placeholder _ => simp [convertItem, convertArg, convertBool] at h1
        | empty =>
          simp only [convertItem, convertArg, convertBool, Out.ok_bind, Out.pure_eq, Out.ok.injEq, Prod.mk.injEq] at h1
          obtain ⟨rfl, rfl, rfl⟩ := h1
          simp only [List.singleton_append, List.cons.injEq] at he
          obtain ⟨rfl, rfl⟩ := he
          cases hia with
          | val _ _ _ hx => simp [parseBool] at hx
      | menu n v =>
        obtain ⟨a, as, is, he, rfl, hr'⟩ := Reads.menu_inv hoi hr
        cases ht with
        | keep _ t =>
          simp only [convertItem, convertArg, convertStr, Out.ok_bind, Out.pure_eq, Out.ok.injEq, Prod.mk.injEq] at h1
          obtain ⟨rfl, rfl, rfl⟩ := h1
          simp only [List.singleton_append, List.cons.injEq] at he
          obtain ⟨_, rfl⟩ := he
          exact ⟨trivial, ih' hr' t⟩

theorem top_of_tree {g : UInt32 → Option ParserBlock} {b : Block} {ctr k : Nat} {last : Bool} {ps : List ParserBlock} {u : List UInt32}
    (h : convertBlock b ctr last = .ok (ps, k)) (ha : At g ctr ps) (hk : k < 4294967296)
    (ht : Tree g (.block (UInt32.ofNat (ctr + 1)) b) u) : Top b := by
  have hg : goodBlock b := tree_good ht
  obtain ⟨s1, s2, color, op, content, t⟩ := b
  simp only [convertBlock, Out.bind_eq_ok, Prod.exists, Out.pure_eq, Out.ok.injEq, Prod.mk.injEq] at h
  obtain ⟨params, args, c1, h1, b1, p1, c2, h2, b2, p2, c3, h3, rfl, rfl⟩ := h
  have hgh := ha.head
  have ha' := (At.append (ps := [_]) (qs := args ++ (b1 ++ b2)) ha).2
  obtain ⟨a1, ha'⟩ := ha'.append
  obtain ⟨a2, a3⟩ := ha'.append
  have z1 := (convertItems_seq _ _ _ _ _ h1).1
  have z2 := (convertStack_seq _ _ _ _ _ h2).1.1
  have z3 := (convertStack_seq _ _ _ _ _ h3).1.1
  simp only [List.length_singleton] at a1 a2 a3
  rw [← z1] at a2 a3
  rw [← z2] at a3
  simp only [goodBlock] at hg
  have hco : ContentOk content := ⟨hg.2.2.1, goodItems_ok hg.2.2.2⟩
  have hsp := splitOn_text hco
  generalize hb : (Block.mk s1 s2 color op content t : Block) = b at ht
  cases ht with
  | @block _ p s1' s2' c0 c' t' u1 u2 u3 hgp t1 t2 hr ti htp =>
    rw [hgh] at hgp
    cases hgp
    cases hb
    simp only [emitted, Block.content, hsp] at hr
    exact ⟨topStack_of_tree h2 a2 t1, topStack_of_tree h3 a3 t2, hco, topItems_of_tree hco.2 h1 a1 (by omega) hr ti,
      (c51_round_trip_partial t).mp htp⟩

theorem topBlocks_of_tree {g : UInt32 → Option ParserBlock} {bs : List Block} {ctr k : Nat} {ps : List ParserBlock} {u : List UInt32}
    (h : convertBlocks bs ctr = .ok (ps, k)) (ha : At g ctr ps) (hk : k ≤ 2147483647)
    (ht : Tree g (.blocks (UInt32.ofNat (ctr + 1)) bs) u) : ∀ b ∈ bs, Top b := by
  induction bs generalizing ctr ps u with
  | nil => simp
  | cons b bs ih =>
    simp only [convertBlocks, Out.bind_eq_ok, Prod.exists, Out.pure_eq, Out.ok.injEq, Prod.mk.injEq] at h
    obtain ⟨qs, c1, h1, rs, c2, h2, rfl, rfl⟩ := h
    obtain ⟨a1, a2⟩ := ha.append
    have w1 := (convertBlock_seq _ _ _ _ _ h1).1
    have w2 := (convertBlocks_seq _ _ _ _ h2).1
    rw [← w1] at a2
    obtain ⟨p, hg, hn⟩ := convertBlock_first h1 a1
    suffices H : Top b ∧ ∀ j ∈ bs, Top j by
      intro j hj
      rcases List.mem_cons.mp hj with rfl | hj
      · exact H.1
      · exact H.2 j hj
    cases ht with
    | last _ _ hb => exact ⟨top_of_tree h1 a1 (by omega) hb, by simp⟩
    | @next _ p' _ _ _ _ hg' hn' hb hbs =>
      rw [hg] at hg'
      cases hg'
      refine ⟨top_of_tree h1 a1 (by omega) hb, ?_⟩
      cases bs with
      | nil => simp
      | cons b' bs =>
        have e : p.nextBlock = Int32.ofNat (c1 + 1) := hn
        rw [e, pointerId_ofNat] at hbs
        exact ih h2 a2 hbs

end
end Swrs.Api
