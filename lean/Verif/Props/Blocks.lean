import Verif.Proofs.BlockParse
import Verif.Base.FloatInst
import Verif.Props.ApiSpec
/-!
# C11, C43: blocks from a block container
-/
namespace Swrs.Api
variable [Floats]

/-- C11: the category of a block made with a category is that category. -/
theorem c11_block_category (cat : BlockCategory) (op : Str) (c : BlockContent Block) (t : BlockType) (s1 s2 : List Block) :
    (Block.new cat op c t).category = .ok cat ∧ (Block.new1 cat op c s1).category = .ok cat ∧
    (Block.new2 cat op c s1 s2).category = .ok cat := by
  have h := (c11_category_of_color cat).2.2
  exact ⟨h, h, h⟩

/-! ## C43 — Converting blocks terminates and uses each block at most once -/

/-- The blocks of a container with their ids as numbers. -/
def Numbered (c : BlockContainer) (es : List (UInt32 × ParserBlock)) : Prop :=
  All₂ (fun b e => parseU32 b.id = some e.1 ∧ e.2 = b) c.blocks es

omit [Floats] in
theorem blockMap_ok [MapPol] (bs : List ParserBlock) (acc m : BlockMap) : blockMap bs acc = .ok m ↔
    ∃ es, All₂ (fun (b : ParserBlock) (e : UInt32 × ParserBlock) => parseU32 b.id = some e.1 ∧ e.2 = b) bs es ∧
      es.foldl (fun m e => LMap.insert m e.1 e.2) acc = m := by
  induction bs generalizing acc with
  | nil =>
    constructor
    · intro h; simp [blockMap] at h; exact ⟨[], .nil, h⟩
    · rintro ⟨es, h, rfl⟩; cases h; rfl
  | cons b bs ih =>
    rw [blockMap]
    simp only [Out.bind_eq_ok, Out.ofOption_eq_ok, ih]
    constructor
    · rintro ⟨id, h1, es, h2, rfl⟩
      exact ⟨(id, b) :: es, .cons ⟨h1, rfl⟩ h2, rfl⟩
    · rintro ⟨es, h, rfl⟩
      cases h with
      | cons h t =>
        next e es =>
        obtain ⟨h1, h2⟩ := h
        exact ⟨e.1, h1, es, t, by rw [← h2]; rfl⟩

omit [Floats] in
theorem blockMap_length [MapPol] (bs : List ParserBlock) (acc m : BlockMap) (h : blockMap bs acc = .ok m) :
    m.length ≤ acc.length + bs.length := by
  induction bs generalizing acc with
  | nil => simp [blockMap] at h; subst h; simp
  | cons b bs ih =>
    rw [blockMap] at h
    simp only [Out.bind_eq_ok, Out.ofOption_eq_ok] at h
    obtain ⟨id, _, h⟩ := h
    have hi : (LMap.insert acc id b).length ≤ acc.length + 1 := by
      unfold LMap.insert
      split
      · split
        · simp only [List.length_append, LMap.erase]
          have := List.length_filter_le (fun e : UInt32 × ParserBlock => decide (e.1 ≠ id)) acc
          simp only [List.length_cons, List.length_nil]
          omega
        · simp [LMap.set]
      · simp
    have := ih _ h
    simp only [List.length_cons]
    omega

omit [Floats] in
theorem blockMap_ne_panic [MapPol] (bs : List ParserBlock) (acc : BlockMap) : blockMap bs acc ≠ .panic := by
  induction bs generalizing acc with
  | nil => simp [blockMap]
  | cons b bs ih =>
    rw [blockMap]
    cases parseU32 b.id with
    | none => simp
    | some id => exact ih _

theorem tryFromFuel_ne [MapPol] (c : BlockContainer) {n : Nat} (h : 2 * c.blocks.length + 2 ≤ n) :
    tryFromFuel n c ≠ .err none := by
  unfold tryFromFuel
  refine bind_eq_err_none lift_ne fun m hm => ?_
  rw [lift_ok] at hm
  have hl := blockMap_length _ _ _ hm
  simp only [List.length_nil, Nat.zero_add] at hl
  split
  · simp
  · exact bind_eq_err_none ((parse_enough n).2 _ _ (by omega)) fun _ _ => by simp

theorem tryFromFuel_mono [MapPol] (c : BlockContainer) {n n' : Nat} (h : n ≤ n') : Le (tryFromFuel n c) (tryFromFuel n' c) := by
  unfold tryFromFuel
  refine Le.bind (.refl _) fun m => ?_
  split
  · exact .refl _
  · exact Le.bind ((parse_mono h).2 _ _) fun _ => .refl _

/-- C43: the conversion terminates on every container: with calls of depth at most twice the number of blocks plus two
it has its result, and a greater depth does not change it. -/
theorem c43_terminates [MapPol] (c : BlockContainer) (fuel : Nat) (h : 2 * c.blocks.length + 2 ≤ fuel) :
    tryFromFuel fuel c = (tryFrom c).mapErr some := by
  rcases tryFromFuel_mono c h with he | he
  · exact absurd he (tryFromFuel_ne c (Nat.le_refl _))
  · rw [← he]
    have := tryFromFuel_ne c (Nat.le_refl (2 * c.blocks.length + 2))
    unfold tryFrom
    cases hx : tryFromFuel (2 * c.blocks.length + 2) c with
    | ok bs => rfl
    | err e =>
      cases e with
      | none => exact absurd hx this
      | some e => rfl
    | panic => rfl

/-- C43: exactly what the conversion accepts: ids that are numbers, and from the first block a tree of pointers in
which no id occurs twice. -/
theorem c43_accepts [MapPol] (c : BlockContainer) (bs : List Block) :
    tryFrom c = .ok bs ↔ ∃ es, Numbered c es ∧ ((es = [] ∧ bs = []) ∨
      ∃ id p rest u, LMap.collect es = (id, p) :: rest ∧ Tree (LMap.last es) (.blocks id bs) u ∧ u.Nodup) := by
  have hok : tryFrom c = .ok bs ↔ ∃ n, tryFromFuel n c = .ok bs := by
    constructor
    · intro h
      refine ⟨2 * c.blocks.length + 2, ?_⟩
      rw [c43_terminates c _ (Nat.le_refl _), h]; rfl
    · rintro ⟨n, h⟩
      rcases tryFromFuel_mono c (Nat.le_max_left n (2 * c.blocks.length + 2)) with he | he
      · rw [h] at he; simp at he
      · rw [h, c43_terminates c _ (Nat.le_max_right _ _)] at he
        exact Out.mapErr_eq_ok.mp he.symm
  rw [hok]
  have hget : ∀ es : List (UInt32 × ParserBlock), LMap.get (LMap.collect es) = LMap.last es := by
    intro es; funext k; exact LMap.get_collect es k
  constructor
  · rintro ⟨n, h⟩
    unfold tryFromFuel at h
    simp only [Out.bind_eq_ok, lift_ok, blockMap_ok] at h
    obtain ⟨m, ⟨es, hes, hm⟩, h⟩ := h
    have hm : LMap.collect es = m := hm
    refine ⟨es, hes, ?_⟩
    split at h
    · simp at h
      left
      refine ⟨?_, h⟩
      cases es with
      | nil => rfl
      | cons e es =>
        exfalso
        have : e.1 ∈ LMap.keys (LMap.collect (e :: es)) := by
          rw [← LMap.get_isSome, LMap.get_collect]
          unfold LMap.last
          rw [LMap.get_isSome]
          simp [LMap.keys]
        rw [hm] at this
        simp at this
    · next id p rest _ =>
      simp only [Out.bind_eq_ok, Prod.exists, Out.pure_eq, Out.ok.injEq] at h
      obtain ⟨bs', m', h1, rfl⟩ := h
      obtain ⟨u, ht, hu, _⟩ := (parse_sound n).2 _ _ _ _ h1
      rw [← hm, hget] at ht
      exact .inr ⟨id, p, rest, u, hm, ht, hu⟩
  · rintro ⟨es, hes, h⟩
    have hmap : blockMap c.blocks [] = .ok (LMap.collect es) := (blockMap_ok _ _ _).mpr ⟨es, hes, rfl⟩
    rcases h with ⟨rfl, rfl⟩ | ⟨id, p, rest, u, hc, ht, hu⟩
    · refine ⟨0, ?_⟩
      simp [tryFromFuel, hmap, lift, LMap.collect]
    · obtain ⟨N, hN⟩ := parse_complete ht hu
      refine ⟨N, ?_⟩
      have := hN N (Nat.le_refl _) (LMap.collect es) fun k _ => by rw [hget]
      simp only [Computes] at this
      unfold tryFromFuel
      rw [hmap]
      simp only [lift, Out.mapErr_ok, Out.ok_bind]
      rw [hc] at this ⊢
      simp [this]

mutual
/-- The colours and opcodes of the blocks of a tree: a block, its substacks, its arguments. -/
def labels : Block → List (Color × Str)
  | ⟨s1, s2, color, op, content, _⟩ => (color, op) :: (stackLabels s1 ++ (stackLabels s2 ++ itemsLabels content))
/-- See `labels`. -/
def stackLabels : Option (List Block) → List (Color × Str)
  | none => []
  | some bs => blocksLabels bs
/-- See `labels`. -/
def blocksLabels : List Block → List (Color × Str)
  | [] => []
  | b :: bs => labels b ++ blocksLabels bs
/-- See `labels`. -/
def itemsLabels : List (SpecItem Block) → List (Color × Str)
  | [] => []
  | i :: is => itemLabels i ++ itemsLabels is
/-- See `labels`. -/
def itemLabels : SpecItem Block → List (Color × Str)
  | .text _ => []
  | .param a => argLabels a
/-- See `labels`. -/
def argLabels : Argument Block → List (Color × Str)
  | .string _ v => strLabels v
  | .number _ v => numLabels v
  | .boolean _ v => boolLabels v
  | .menu _ v => strLabels v
/-- See `labels`. -/
def strLabels : ArgValue Block Str → List (Color × Str)
  | .block b => labels b
  | _ => []
/-- See `labels`. -/
def numLabels : ArgValue Block Floats.F64 → List (Color × Str)
  | .block b => labels b
  | _ => []
/-- See `labels`. -/
def boolLabels : ArgValue Block Bool → List (Color × Str)
  | .block b => labels b
  | _ => []
end

/-- The labels of what was read are some of the given ones. -/
def Goal.Labelled (l : List (Color × Str)) : Goal → Prop
  | .block _ b => (labels b).Sublist l
  | .stack _ s => (stackLabels s).Sublist l
  | .blocks _ bs => (blocksLabels bs).Sublist l
  | .items is is' => itemsLabels is = [] → (itemsLabels is').Sublist l

theorem reads_no_blocks {ws args : List Str} {c : BlockContent Block} (h : Reads ws args c) : itemsLabels c = [] := by
  have arg : ∀ {a : Str} {v : ArgValue Block Str}, IsArg some a v → strLabels v = [] := by
    intro a v h; cases h <;> simp [strLabels]
  have num : ∀ {a : Str} {v : ArgValue Block Floats.F64}, IsArg Floats.read64 a v → numLabels v = [] := by
    intro a v h; cases h <;> simp [numLabels]
  have bool : ∀ {a : Str} {v : ArgValue Block Bool}, IsArg parseBool a v → boolLabels v = [] := by
    intro a v h; cases h <;> simp [boolLabels]
  induction h with
  | nil => rfl
  | text w _ _ ih => simp [itemsLabels, itemLabels, ih]
  | string t a h _ ih => simp [itemsLabels, itemLabels, argLabels, arg h, ih]
  | number t a h _ ih => simp [itemsLabels, itemLabels, argLabels, num h, ih]
  | boolean t a h _ ih => simp [itemsLabels, itemLabels, argLabels, bool h, ih]
  | menu t n a h _ ih => simp [itemsLabels, itemLabels, argLabels, strLabels, ih]

theorem tree_labels {g : UInt32 → Option ParserBlock} {G : Goal} {u : List UInt32} (h : Tree g G u) :
    G.Labelled (u.filterMap fun k => (g k).map fun p => (p.color, p.opCode)) := by
  induction h with
  | @block id p s1 s2 c0 c t u1 u2 u3 hg h1 h2 hr hi ht ih1 ih2 ih3 =>
    simp only [Goal.Labelled, labels] at ih1 ih2 ih3 ⊢
    rw [List.filterMap_cons, hg]
    simp only [Option.map_some, List.filterMap_append]
    exact (List.Sublist.append ih1 (List.Sublist.append ih2 (ih3 (reads_no_blocks hr)))).cons_cons _
  | noStack => simp [Goal.Labelled, stackLabels]
  | stack _ _ ih => simpa [Goal.Labelled, stackLabels] using ih
  | last _ _ _ ih => simpa [Goal.Labelled, blocksLabels] using ih
  | next _ _ _ _ ih1 ih2 =>
    simp only [Goal.Labelled, blocksLabels, List.filterMap_append] at ih1 ih2 ⊢
    exact ih1.append ih2
  | nil => simp [Goal.Labelled, itemsLabels]
  | keep hn _ ih =>
    simp only [Goal.Labelled, itemsLabels, List.append_eq_nil_iff] at ih ⊢
    intro h
    rw [h.1]
    exact ih h.2
  | string _ _ ih1 ih2 =>
    simp only [Goal.Labelled, itemsLabels, itemLabels, argLabels, strLabels, List.nil_append, List.filterMap_append] at ih1 ih2 ⊢
    exact fun h => ih1.append (ih2 h)
  | number _ _ ih1 ih2 =>
    simp only [Goal.Labelled, itemsLabels, itemLabels, argLabels, numLabels, List.nil_append, List.filterMap_append] at ih1 ih2 ⊢
    exact fun h => ih1.append (ih2 h)
  | menu _ _ ih1 ih2 =>
    simp only [Goal.Labelled, itemsLabels, itemLabels, argLabels, strLabels, List.nil_append, List.filterMap_append] at ih1 ih2 ⊢
    exact fun h => ih1.append (ih2 h)
  | boolean _ _ ih1 ih2 =>
    simp only [Goal.Labelled, itemsLabels, itemLabels, argLabels, boolLabels, List.nil_append, List.filterMap_append] at ih1 ih2 ⊢
    refine fun h => List.Sublist.append ?_ (ih2 h)
    unfold boolValue
    repeat' split
    · simp [boolLabels]
    · simp [boolLabels]
    · simpa [boolLabels] using ih1

/-- C43: on success the blocks of the tree are blocks of the container, with distinct ids: each is used at most once. -/
theorem c43_once [MapPol] (c : BlockContainer) (bs : List Block) (h : tryFrom c = .ok bs) :
    ∃ used : List (UInt32 × ParserBlock), (used.map (·.1)).Nodup ∧
      (∀ e ∈ used, e.2 ∈ c.blocks ∧ parseU32 e.2.id = some e.1) ∧
      (blocksLabels bs).Sublist (used.map fun e => (e.2.color, e.2.opCode)) := by
  obtain ⟨es, hes, h⟩ := (c43_accepts c bs).mp h
  rcases h with ⟨rfl, rfl⟩ | ⟨id, p, rest, u, hc, ht, hu⟩
  · exact ⟨[], by simp, by simp, by simp [blocksLabels]⟩
  · have hd := ht.dom
    have hl := tree_labels ht
    refine ⟨u.filterMap fun k => (LMap.last es k).map fun p => (k, p), ?_, ?_, ?_⟩
    · rw [List.map_filterMap]
      have : (u.filterMap fun k => Option.map (fun e : UInt32 × ParserBlock => e.1) ((LMap.last es k).map fun p => (k, p))) = u := by
        have hall : ∀ k ∈ u, Option.map (fun e : UInt32 × ParserBlock => e.1) ((LMap.last es k).map fun p => (k, p)) = some k := by
          intro k hk
          obtain ⟨p, hp⟩ := Option.isSome_iff_exists.mp (hd k hk)
          simp [hp]
        clear hl hd ht hu
        induction u with
        | nil => rfl
        | cons k u ih =>
          rw [List.filterMap_cons, hall k (by simp)]
          simp only
          rw [ih fun k hk => hall k (by simp [hk])]
      rw [this]; exact hu
    · intro e he
      obtain ⟨k, hk, hek⟩ := List.mem_filterMap.mp he
      obtain ⟨p, hp, rfl⟩ := Option.map_eq_some_iff.mp hek
      have hm := LMap.get_mem hp
      rw [List.mem_reverse] at hm
      obtain ⟨b, hb, h1, h2⟩ := All₂.right hes _ hm
      simp only at h1 h2
      subst h2
      exact ⟨hb, h1⟩
    · rw [List.map_filterMap]
      simp only [Goal.Labelled] at hl
      refine hl.trans ?_
      refine Eq.subst (motive := fun x => List.Sublist _ x) ?_ (List.Sublist.refl _)
      congr 1
      funext k
      cases LMap.last es k <;> rfl

/-- C43: in particular the tree has at most as many blocks as the container. -/
theorem c43_size [MapPol] (c : BlockContainer) (bs : List Block) (h : tryFrom c = .ok bs) :
    (blocksLabels bs).length ≤ c.blocks.length := by
  obtain ⟨used, h1, h2, h3⟩ := c43_once c bs h
  have hl := h3.length_le
  rw [List.length_map] at hl
  have hs : used.map (·.1) ⊆ c.blocks.filterMap fun b => parseU32 b.id := by
    intro k hk
    obtain ⟨e, he, rfl⟩ := List.mem_map.mp hk
    exact List.mem_filterMap.mpr ⟨e.2, h2 e he⟩
  have h4 := h1.length_le_of_subset hs
  rw [List.length_map] at h4
  exact Nat.le_trans hl (Nat.le_trans h4 (List.length_filterMap_le _ _))

section Examples
/-- A block with the given id and pointers. -/
def exBlock (id : Str) (next s1 : Int32) (spec : Str) (params : List Str) : ParserBlock :=
  ⟨Color.fromRgb 1 2 3, id, next, s% "op", params, spec, s1, -1, s% " ", []⟩

local instance : MapPol := ⟨false, false⟩

/-- A cycle of next pointers is an error. -/
example : tryFrom ⟨[exBlock (s% "10") 11 (-1) (s% "a") [], exBlock (s% "11") 10 (-1) (s% "b") []]⟩ =
    .err (.blockNotFound 10) := rfl
/-- A chain with a substack and an argument block. -/
example : tryFrom ⟨[exBlock (s% "10") 11 12 (s% "a %s") [s% "@13"], exBlock (s% "11") (-1) (-1) (s% "b") [],
      exBlock (s% "12") (-1) (-1) (s% "c") [], exBlock (s% "13") (-1) (-1) (s% "d") []]⟩ =
    .ok [⟨some [⟨none, none, Color.fromRgb 1 2 3, s% "op", [.text (s% "c")], .regular⟩], none, Color.fromRgb 1 2 3, s% "op",
        [.text (s% "a"), .param (.string none (.block ⟨none, none, Color.fromRgb 1 2 3, s% "op", [.text (s% "d")], .regular⟩))],
        .regular⟩,
      ⟨none, none, Color.fromRgb 1 2 3, s% "op", [.text (s% "b")], .regular⟩] := rfl
end Examples

end Swrs.Api
