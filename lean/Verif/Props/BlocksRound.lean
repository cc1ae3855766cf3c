import Verif.Proofs.BlockBack
import Verif.Props.Blocks
import Verif.Props.BlocksOut
/-!
# C47: blocks converted to a container and back
-/
namespace Swrs.Api

theorem numbered_zip {ps : List ParserBlock} {ctr : Nat} (h : ps.map (·.id) = idsFrom ctr ps.length) (hk : ctr + ps.length < 4294967296)
    (es : List (UInt32 × ParserBlock)) :
    All₂ (fun (b : ParserBlock) (e : UInt32 × ParserBlock) => parseU32 b.id = some e.1 ∧ e.2 = b) ps es ↔
      es = (idsOf ctr ps.length).zip ps := by
  induction ps generalizing ctr es with
  | nil =>
    constructor
    · intro h; cases h; rfl
    · rintro rfl; exact .nil
  | cons p ps ih =>
    simp only [List.map_cons, List.length_cons, idsFrom, List.range'_succ, List.cons.injEq] at h hk
    have hp : parseU32 p.id = some (UInt32.ofNat (ctr + 1)) := by rw [h.1, parseU32_natStr (by omega)]
    have ih' := fun es => ih (ctr := ctr + 1) (by unfold idsFrom; exact h.2) (by omega) es
    have hz : (idsOf ctr (ps.length + 1)).zip (p :: ps) = (UInt32.ofNat (ctr + 1), p) :: (idsOf (ctr + 1) ps.length).zip ps := by
      simp [idsOf, List.range'_succ]
    rw [List.length_cons, hz]
    constructor
    · intro H
      cases H with
      | @cons _ e _ _ h t =>
        obtain ⟨e1, e2⟩ := e
        simp only [hp, Option.some.injEq] at h
        obtain ⟨rfl, rfl⟩ := h
        rw [(ih' _).mp t]
    · rintro rfl
      exact .cons ⟨hp, rfl⟩ ((ih' _).mpr rfl)

theorem zip_keys {ctr : Nat} {ps : List ParserBlock} : LMap.keys ((idsOf ctr ps.length).zip ps) = idsOf ctr ps.length := by
  unfold LMap.keys
  exact List.map_fst_zip (by simp [idsOf])

theorem idsOf_nodup {ctr n : Nat} (h : ctr + n < 4294967296) : (idsOf ctr n).Nodup := by
  unfold idsOf
  rw [List.nodup_iff_pairwise_ne, List.pairwise_map]
  refine List.Pairwise.imp_of_mem ?_ List.nodup_range'
  intro a b ha hb hab he
  simp only [List.mem_range'_1] at ha hb
  have := congrArg UInt32.toNat he
  rw [UInt32.toNat_ofNat_of_lt' (by show _ < 4294967296; omega), UInt32.toNat_ofNat_of_lt' (by show _ < 4294967296; omega)] at this
  exact hab this

theorem at_zip [MapPol] {ctr : Nat} {ps : List ParserBlock} (h : ctr + ps.length < 4294967296) :
    At (LMap.last ((idsOf ctr ps.length).zip ps)) ctr ps := by
  intro i p hp
  have hn : (LMap.keys ((idsOf ctr ps.length).zip ps)).Nodup := by rw [zip_keys]; exact idsOf_nodup h
  rw [← LMap.get_collect, LMap.collect_nodup _ hn]
  refine LMap.get_of_mem hn ?_
  obtain ⟨hi, rfl⟩ := List.getElem?_eq_some_iff.mp hp
  refine List.mem_iff_getElem?.mpr ⟨i, ?_⟩
  rw [List.getElem?_zip_eq_some]
  exact ⟨by simp [idsOf, hi], hp⟩

section
variable [Floats]

theorem itemsReady_of {c : BlockContent Block} (h : ∀ i ∈ c, itemReady i) : itemsReady c := by
  induction c with
  | nil => simp only [itemsReady]
  | cons i c ih =>
    simp only [itemsReady]
    exact ⟨h i (by simp), ih fun j hj => h j (by simp [hj])⟩

theorem plainItem_ready : ∀ i : SpecItem Block, PlainItem i → itemReady i
  | .text _, _ => by simp only [itemReady]
  | .param (.string _ (.value _)), _ => by simp only [itemReady, argReady, strReady]
  | .param (.number _ (.value _)), _ => by simp only [itemReady, argReady, numReady]
  | .param (.menu _ (.value _)), _ => by simp only [itemReady, argReady, strReady]

theorem leaf_ready {b : Block} (h : Leaf b) : blockReady b := by
  obtain ⟨s1, s2, color, op, content, t⟩ := b
  obtain ⟨h1, h2, _, h3, _⟩ := h
  simp only [Block.subStack1, Block.subStack2, Block.content] at h1 h2 h3
  subst h1 h2
  simp only [blockReady, stackReady, and_true]
  exact itemsReady_of fun i hi => plainItem_ready i (h3 i hi)

theorem topItem_ready : ∀ i : SpecItem Block, TopItem i → itemReady i
  | .text _, _ => by simp only [itemReady]
  | .param (.string _ (.value _)), _ => by simp only [itemReady, argReady, strReady]
  | .param (.number _ (.value _)), _ => by simp only [itemReady, argReady, numReady]
  | .param (.boolean _ (.value _)), _ => by simp only [itemReady, argReady, boolReady]
  | .param (.menu _ (.value _)), _ => by simp only [itemReady, argReady, strReady]
  | .param (.string _ (.block _)), h => by simp only [itemReady, argReady, strReady]; exact leaf_ready h
  | .param (.number _ (.block _)), h => by simp only [itemReady, argReady, numReady]; exact leaf_ready h
  | .param (.boolean _ (.block _)), h => by simp only [itemReady, argReady, boolReady]; exact leaf_ready h.1

theorem topStack_ready : ∀ s : Option (List Block), TopStack s → stackReady s
  | none, _ => by simp only [stackReady]
  | some [b], h => by simp only [stackReady, blocksReady, and_true]; exact leaf_ready h

theorem blocksReady_of_top {bs : List Block} (h : ∀ b ∈ bs, Top b) : blocksReady bs := by
  induction bs with
  | nil => simp only [blocksReady]
  | cons b bs ih =>
    simp only [blocksReady]
    refine ⟨?_, ih fun j hj => h j (by simp [hj])⟩
    obtain ⟨h1, h2, _, h3, _⟩ := h b (by simp)
    obtain ⟨s1, s2, color, op, content, t⟩ := b
    simp only [blockReady]
    exact ⟨itemsReady_of fun i hi => topItem_ready i (h3 i hi), topStack_ready _ h1, topStack_ready _ h2⟩
end

variable [FloatLaws] [MapPol]

/-- C47, what holds: exactly the lists of blocks that read back. `Top` says that substacks have one block, that neither
that block nor an argument block has blocks of its own, that specs and values are written unambiguously, and that the
type is no list. Missing: all other lists, for which `c47_round_trip_false` has an instance. -/
theorem c47_round_trip_partial (bs : List Block) (hsize : blocksSize bs ≤ 2147483638) :
    (∃ c, toContainer bs = .ok c ∧ tryFrom c = .ok bs) ↔ ∀ b ∈ bs, Top b := by
  have key : ∀ (c : BlockContainer) n, convertBlocks bs 9 = .ok (c.blocks, n) → (tryFrom c = .ok bs ↔ ∀ b ∈ bs, Top b) := by
    intro c n hc
    have hseq := convertBlocks_seq _ _ _ _ hc
    have hsz := (convertBlocks_ready _ _ _ _ hc).2
    have hlen := hseq.1
    have hnum := numbered_zip hseq.2 (by omega)
    have hat := at_zip (ctr := 9) (ps := c.blocks) (by omega)
    have hnd := idsOf_nodup (ctr := 9) (n := c.blocks.length) (by omega)
    rw [c43_accepts]
    by_cases hb : bs = []
    · subst hb
      simp only [convertBlocks, Out.ok.injEq, Prod.mk.injEq] at hc
      constructor
      · intro _; simp
      · intro _
        refine ⟨[], ?_, .inl ⟨rfl, rfl⟩⟩
        unfold Numbered
        rw [← hc.1]; exact .nil
    · have hcol : LMap.collect ((idsOf 9 c.blocks.length).zip c.blocks) = (idsOf 9 c.blocks.length).zip c.blocks :=
        LMap.collect_nodup _ (by rw [zip_keys]; exact hnd)
      have hpos : 9 < n := by
        cases bs with
        | nil => exact absurd rfl hb
        | cons => exact convertBlocks_pos hc
      have hcons : ∃ p rest, (idsOf 9 c.blocks.length).zip c.blocks = (UInt32.ofNat (9 + 1), p) :: rest := by
        cases hcb : c.blocks with
        | nil => rw [hcb] at hlen; simp at hlen; omega
        | cons p ps => exact ⟨p, _, by simp only [idsOf, List.length_cons, List.range'_succ, List.map_cons, List.zip_cons_cons]; rfl⟩
      constructor
      · rintro ⟨es, hes, ⟨_, h⟩ | ⟨id, p, rest, u, h1, h2, _⟩⟩
        · exact absurd h hb
        · rw [(hnum es).mp hes] at h1 h2
          obtain ⟨p', rest', h3⟩ := hcons
          rw [hcol, h3] at h1
          cases h1
          exact topBlocks_of_tree hc hat (by omega) h2
      · intro ht
        obtain ⟨u, hu, hp⟩ := topBlocks_tree ht hb hc hat (by omega)
        obtain ⟨p', rest', h3⟩ := hcons
        exact ⟨_, (hnum _).mpr rfl, .inr ⟨_, p', rest', u, by rw [hcol, h3], hu, hp.nodup_iff.mpr hnd⟩⟩
  constructor
  · rintro ⟨c, h1, h2⟩
    obtain ⟨n, h1⟩ := toContainer_ok.mp h1
    exact (key c n h1).mp h2
  · intro ht
    have hr : blocksReady bs := blocksReady_of_top ht
    obtain ⟨ps, h⟩ := convertBlocks_size bs 9 hr (by omega)
    exact ⟨⟨ps⟩, toContainer_ok.mpr ⟨_, h⟩, (key ⟨ps⟩ _ h).mpr ht⟩

section Examples

/-- C47 is false: a block with a substack of two blocks is written to a container that reads as something else. -/
theorem c47_round_trip_false : ∃ (bs : List Block) (c : BlockContainer), toContainer bs = .ok c ∧ tryFrom c ≠ .ok bs := by
  have hr : blocksReady [exIf] := by simp [exIf, exLeaf, blocksReady, blockReady, stackReady, itemsReady, itemReady]
  have hs : blocksSize [exIf] ≤ 2147483638 := by simp [exIf, exLeaf, blocksSize, blockSize, stackSize, itemsSize, itemSize]
  obtain ⟨c, h, _⟩ := (c44_converts [exIf]).1 hr hs
  refine ⟨[exIf], c, h, fun h' => ?_⟩
  exact ((c47_round_trip_partial [exIf] hs).mp ⟨c, h, h'⟩ exIf (by simp)).1

omit [MapPol] in
theorem exLeaf_top {op : Str} (h : ItemOk (.text op : SpecItem Block)) : Leaf (exLeaf op) := by
  refine ⟨rfl, rfl, ⟨by simp [exLeaf, Block.content], ?_⟩, ?_, ?_⟩
  · intro i hi; simp only [exLeaf, Block.content, List.mem_singleton] at hi; subst hi; exact h
  · intro i hi; simp only [exLeaf, Block.content, List.mem_singleton] at hi; subst hi; trivial
  · simp [exLeaf, Block.blockType]

/-- A chain of two blocks of which the first has a substack and three arguments. -/
example : ∃ c, toContainer [⟨some [exLeaf (s% "a")], none, Color.fromRgb 1 2 3, s% "if",
      [.text (s% "if"), .param (.boolean none (.value true)), .param (.string none (.block (exLeaf (s% "c")))),
        .param (.string (some (s% "n")) (.value (s% "x y")))], .control .oneNest⟩, exLeaf (s% "b")] = .ok c ∧
    tryFrom c = .ok [⟨some [exLeaf (s% "a")], none, Color.fromRgb 1 2 3, s% "if",
      [.text (s% "if"), .param (.boolean none (.value true)), .param (.string none (.block (exLeaf (s% "c")))),
        .param (.string (some (s% "n")) (.value (s% "x y")))], .control .oneNest⟩, exLeaf (s% "b")] := by
  have ht : ∀ op ∈ [s% "a", s% "b", s% "c", s% "if"], ItemOk (.text op : SpecItem Block) := by
    simp [ItemOk]
  refine (c47_round_trip_partial _ ?_).mpr ?_
  · simp [exLeaf, blocksSize, blockSize, stackSize, itemsSize, itemSize, argSize, strSize, boolSize]
  · intro b hb
    simp only [List.mem_cons, List.not_mem_nil, or_false] at hb
    rcases hb with rfl | rfl
    · refine ⟨exLeaf_top (ht _ (by simp)), trivial, ⟨by simp [Block.content], ?_⟩, ?_, by simp [Block.blockType]⟩
      · intro i hi
        simp only [Block.content, List.mem_cons, List.not_mem_nil, or_false] at hi
        rcases hi with rfl | rfl | rfl | rfl
        · exact ht _ (by simp)
        · simp [ItemOk]
        · simp [ItemOk]
        · simp [ItemOk]
      · intro i hi
        simp only [Block.content, List.mem_cons, List.not_mem_nil, or_false] at hi
        rcases hi with rfl | rfl | rfl | rfl
        · trivial
        · trivial
        · exact exLeaf_top (ht _ (by simp))
        · simp [TopItem, PlainItem]
    · have := exLeaf_top (ht (s% "b") (by simp))
      exact ⟨trivial, trivial, this.2.2.1, fun i hi => by simp only [exLeaf, Block.content, List.mem_singleton] at hi; subst hi; trivial, this.2.2.2.2⟩
end Examples

end Swrs.Api
