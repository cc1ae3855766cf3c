import Verif.Proofs.DepthIn
import Verif.Proofs.DepthOut
import Verif.Proofs.DepthSearch
import Verif.Proofs.BlockRound
/-!
# C100 — The call stack that the conversions need

`find_id`, `find_id_mut`, `flatten_views`, `parse_block` and `convert_block` call themselves. The calls that are active at the same time
are as many as the tree has levels; no function bounds them.
-/
namespace Swrs.Api
section C100
variable [Floats]

/-! ### Blocks from a container -/

/-- C100: a limit on the depth changes nothing but whether there is a result: the results are those without a limit, errors included. -/
theorem c100_read_same [MapPol] (d : Nat) (c : BlockContainer) :
    tryFromAt d c = .err none ∨ tryFromAt d c = (tryFrom c).mapErr some := by
  have hne := tryFromFuel_ne c (Nat.le_refl _)
  have ha : Agree (tryFromAt d c) (tryFromFuel (2 * c.blocks.length + 2) c) := by
    unfold tryFromAt tryFromFuel
    refine Agree.bind (.refl _) fun m => ?_
    split
    · exact .refl _
    · exact Agree.bind (blocksLoop_agree (blockAt_agree d) _ _ _ _) fun _ => .refl _
  rcases ha with h | h | h
  · exact .inl h
  · exact absurd h hne
  · exact .inr (h.trans (c43_terminates c _ (Nat.le_refl _)))

/-- C100: a depth greater than the number of blocks is enough for every container. -/
theorem c100_read_enough [MapPol] (d : Nat) (c : BlockContainer) (h : c.blocks.length < d) :
    tryFromAt d c = (tryFrom c).mapErr some := by
  refine (c100_read_same d c).resolve_left ?_
  unfold tryFromAt
  refine bind_eq_err_none lift_ne fun m hm => ?_
  rw [lift_ok] at hm
  have hl := blockMap_length _ _ _ hm
  simp only [List.length_nil, Nat.zero_add] at hl
  split
  · simp
  · exact bind_eq_err_none (blocksWith_enough _ _ _ (by omega)) fun _ _ => by simp

/-- C100, proved part: the exact depth that a container needs which is converted: that of the blocks inside one another, in substacks and
parameters, counted from the blocks of the first chain. Missing: a bound that does not depend on the container, for which see
`c100_read_bounded_false`. -/
theorem c100_read_partial [MapPol] (d : Nat) (c : BlockContainer) (bs : List Block) (es : List (UInt32 × ParserBlock))
    (hes : Numbered c es) (h : tryFrom c = .ok bs) : tryFromAt d c = .ok bs ↔
      ∀ first p rest, LMap.collect es = (first, p) :: rest →
        ∀ id, Leads (LMap.last es) first id → ∀ n, Deep (LMap.last es) n id → n ≤ d := by
  have hmap : blockMap c.blocks [] = .ok (LMap.collect es) := (blockMap_ok _ _ _).mpr ⟨es, hes, rfl⟩
  obtain ⟨es', hes', h'⟩ := (c43_accepts c bs).mp h
  have huniq : es' = es := by
    have : ∀ (cs : List ParserBlock) (xs ys : List (UInt32 × ParserBlock)),
        All₂ (fun (b : ParserBlock) (e : UInt32 × ParserBlock) => parseU32 b.id = some e.1 ∧ e.2 = b) cs xs →
        All₂ (fun (b : ParserBlock) (e : UInt32 × ParserBlock) => parseU32 b.id = some e.1 ∧ e.2 = b) cs ys → xs = ys := by
      intro cs xs ys hx
      induction hx generalizing ys with
      | nil => intro hy; cases hy; rfl
      | @cons b x cs xs hx _ ih =>
        intro hy
        cases hy with
        | @cons _ y _ ys hy ht =>
          rw [ih _ ht]
          obtain ⟨x1, x2⟩ := x
          obtain ⟨y1, y2⟩ := y
          have e1 := hx.1.symm.trans hy.1
          have e2 := hx.2.trans hy.2.symm
          simp only [Option.some.injEq] at e1 e2
          rw [e1, e2]
    exact this _ _ _ hes' hes
  subst huniq
  unfold tryFromAt
  rw [hmap]
  rcases h' with ⟨rfl, rfl⟩ | ⟨id, p, rest, u, hc, ht, hu⟩
  · simp [LMap.collect, lift]
  · rw [hc]
    simp only [lift, Out.mapErr_ok, Out.ok_bind]
    have hm : ∀ k ∈ u, LMap.get (LMap.collect es') k = LMap.last es' k := fun k _ => LMap.get_collect es' k
    have hr := ran_iff ht hu d _ hm
    have ho := ran_or ht hu d _ hm
    simp only [Ran, NestsWithin, hc] at hr ho
    rw [bind_or ho, hr]
    constructor
    · rintro ⟨x, _⟩ first p' rest' e
      cases e
      exact x
    · exact fun x => ⟨x _ _ _ rfl, rfl⟩

/-- A block that has the next one in its substack, `d` of them. -/
def nestedEntry (d i : Nat) : ParserBlock := exBlock (natStr 10 i) (-1) (if i < d then Int32.ofNat (i + 1) else -1) (s% "a") []

/-- One block inside another, `d + 1` of them. -/
def nestedEntries (d : Nat) : BlockContainer := ⟨(List.range (d + 1)).map (nestedEntry d)⟩

/-- The table of `nestedEntries`. -/
def nestedTable (d : Nat) : List (UInt32 × ParserBlock) := (List.range (d + 1)).map fun i => (UInt32.ofNat i, nestedEntry d i)

/-- The blocks that `nestedEntries` is converted to. -/
def nestedBlock : Nat → Block
  | 0 => ⟨none, none, Color.fromRgb 1 2 3, s% "op", [.text (s% "a")], .regular⟩
  | k + 1 => ⟨some [nestedBlock k], none, Color.fromRgb 1 2 3, s% "op", [.text (s% "a")], .regular⟩

omit [Floats] in
theorem nested_keys (d : Nat) (h : d < 2 ^ 31 - 1) : (LMap.keys (nestedTable d)).Nodup := by
  unfold nestedTable LMap.keys
  rw [List.map_map]
  refine List.pairwise_map.mpr (List.nodup_range.imp_of_mem ?_)
  intro i j hi hj hne e
  refine hne ?_
  rw [List.mem_range] at hi hj
  have := congrArg UInt32.toNat (show UInt32.ofNat i = UInt32.ofNat j from e)
  rwa [UInt32.toNat_ofNat_of_lt' (by simp [UInt32.size]; omega), UInt32.toNat_ofNat_of_lt' (by simp [UInt32.size]; omega)] at this

omit [Floats] in
theorem nested_numbered (d : Nat) (h : d < 2 ^ 31 - 1) : Numbered (nestedEntries d) (nestedTable d) := by
  unfold Numbered nestedEntries nestedTable
  have : ∀ l : List Nat, (∀ i ∈ l, i ≤ d) → All₂ (fun (b : ParserBlock) (e : UInt32 × ParserBlock) => parseU32 b.id = some e.1 ∧ e.2 = b)
      (l.map (nestedEntry d)) (l.map fun i => (UInt32.ofNat i, nestedEntry d i)) := by
    intro l hl
    induction l with
    | nil => exact .nil
    | cons i l ih =>
      have := hl i (by simp)
      exact .cons ⟨parseU32_natStr (by omega), rfl⟩ (ih fun j hj => hl j (by simp [hj]))
  exact this _ fun i hi => by rw [List.mem_range] at hi; omega

omit [Floats] in
theorem nested_last [MapPol] (d : Nat) (h : d < 2 ^ 31 - 1) (i : Nat) (hi : i ≤ d) :
    LMap.last (nestedTable d) (UInt32.ofNat i) = some (nestedEntry d i) := by
  have hk := nested_keys d h
  rw [← LMap.get_collect, LMap.collect_nodup _ hk]
  exact LMap.get_of_mem hk (List.mem_map.mpr ⟨i, by rw [List.mem_range]; omega, rfl⟩)

theorem nested_tree [MapPol] (d : Nat) (h : d < 2 ^ 31 - 1) : ∀ (k i : Nat), i + k = d →
    Tree (LMap.last (nestedTable d)) (.block (UInt32.ofNat i) (nestedBlock k)) ((List.range' i (k + 1)).map UInt32.ofNat)
  | 0, i, hi => by
    have hg := nested_last d h i (by omega)
    have hs : (nestedEntry d i).subStack1 = -1 := by
      show (if i < d then Int32.ofNat (i + 1) else -1) = -1
      rw [if_neg (by omega)]
    have hr : Reads (splitOn ' ' (nestedEntry d i).spec) (nestedEntry d i).parameters ([.text (s% "a")] : BlockContent Block) :=
      BlockContent.wordsArgs_ok.mp rfl
    exact .block hg (u1 := []) (u2 := []) (u3 := []) (hs ▸ .noStack (by decide)) (.noStack (by show (-1 : Int32) < 0; decide)) hr
      (.keep trivial .nil) rfl
  | k + 1, i, hi => by
    have ih := nested_tree d h k (i + 1) (by omega)
    have hg := nested_last d h i (by omega)
    have hg' := nested_last d h (i + 1) (by omega)
    have hs : (nestedEntry d i).subStack1 = Int32.ofNat (i + 1) := by
      show (if i < d then Int32.ofNat (i + 1) else -1) = _
      rw [if_pos (by omega)]
    have hr : Reads (splitOn ' ' (nestedEntry d i).spec) (nestedEntry d i).parameters ([.text (s% "a")] : BlockContent Block) :=
      BlockContent.wordsArgs_ok.mp rfl
    have h1 : Tree (LMap.last (nestedTable d)) (.stack (nestedEntry d i).subStack1 (some [nestedBlock k]))
        ((List.range' (i + 1) (k + 1)).map UInt32.ofNat) := by
      rw [hs]
      refine .stack (ofNat_not_neg (by omega)) ?_
      rw [pointerId_ofNat]
      exact .last hg' (by show (-1 : Int32) < 0; decide) ih
    have := Tree.block hg (u2 := []) (u3 := []) h1 (.noStack (by show (-1 : Int32) < 0; decide)) hr (.keep trivial .nil) (t := .regular) rfl
    rw [List.range'_succ, List.map_cons]
    rw [List.append_nil, List.append_nil] at this
    exact this

omit [Floats] in
theorem nested_first [MapPol] (d : Nat) (h : d < 2 ^ 31 - 1) : ∃ rest, LMap.collect (nestedTable d) = (0, nestedEntry d 0) :: rest := by
  rw [LMap.collect_nodup _ (nested_keys d h)]
  unfold nestedTable
  rw [List.range_succ_eq_map]
  exact ⟨_, rfl⟩

/-- The conversion accepts blocks that are nested deep. -/
theorem nested_reads [MapPol] (d : Nat) (h : d < 2 ^ 31 - 1) : tryFrom (nestedEntries d) = .ok [nestedBlock d] := by
  obtain ⟨rest, hc⟩ := nested_first d h
  refine (c43_accepts _ _).mpr ⟨_, nested_numbered d h, .inr ⟨_, _, _, _, hc, .last (nested_last d h 0 (by omega))
    (by show (-1 : Int32) < 0; decide) (nested_tree d h d 0 (by omega)), ?_⟩⟩
  have := nested_keys d h
  unfold nestedTable LMap.keys at this
  rw [List.map_map] at this
  rw [← List.range_eq_range']
  exact this

theorem nested_deep [MapPol] (d : Nat) (h : d < 2 ^ 31 - 1) : ∀ (k i : Nat), i + k = d →
    Deep (LMap.last (nestedTable d)) (k + 1) (UInt32.ofNat i)
  | 0, i, hi => .one
  | k + 1, i, hi => by
    have hs : (nestedEntry d i).subStack1 = Int32.ofNat (i + 1) := by
      show (if i < d then Int32.ofNat (i + 1) else -1) = _
      rw [if_pos (by omega)]
    refine .inside (nested_last d h i (by omega)) (.stack1 (hs ▸ ofNat_not_neg (by omega)) ?_) (nested_deep d h k (i + 1) (by omega))
    rw [hs, pointerId_ofNat]
    exact .here

/-- The full property C100 is false of the code: for every depth (that ids can reach) there is a container which is converted and which
needs more. -/
theorem c100_read_bounded_false [MapPol] : ¬ ∃ d, d < 2 ^ 31 - 1 ∧ ∀ (c : BlockContainer) (bs : List Block),
    tryFrom c = .ok bs → tryFromAt d c = .ok bs := by
  rintro ⟨d, hd, h⟩
  have h1 := (c100_read_partial d _ _ _ (nested_numbered d hd) (nested_reads d hd)).mp (h _ _ (nested_reads d hd))
  obtain ⟨rest, hc⟩ := nested_first d hd
  have := h1 _ _ _ hc 0 .here _ (nested_deep d hd d 0 (by omega))
  omega

/-! ### Blocks to a container -/

/-- C100, proved part: the exact depth that is needed to write blocks: the number of their levels. Missing: a bound that does not depend on
the blocks, for which see `c100_write_bounded_false`. -/
theorem c100_write_partial (d : Nat) (bs : List Block) (c : BlockContainer) :
    toContainerAt d bs = .ok c ↔ toContainer bs = .ok c ∧ blocksLevels bs ≤ d := by
  unfold toContainerAt toContainer
  simp only [Out.bind_eq_ok, Prod.exists, Out.pure_eq, Out.ok.injEq, containerWith_iff (convertAt_goes d)]
  constructor
  · rintro ⟨ps, n, ⟨h1, h2⟩, h3⟩; exact ⟨⟨ps, n, h1, h3⟩, h2⟩
  · rintro ⟨⟨ps, n, h1, h3⟩, h2⟩; exact ⟨ps, n, ⟨h1, h2⟩, h3⟩

/-- A block that is the argument of another one, `k` times. -/
def nestedArgument : Nat → Block
  | 0 => ⟨none, none, Color.fromRgb 1 2 3, s% "op", [.text (s% "a")], .regular⟩
  | k + 1 => ⟨none, none, Color.fromRgb 1 2 3, s% "op", [.param (.string none (.block (nestedArgument k)))], .regular⟩

theorem nestedArgument_levels : ∀ k, blockLevels (nestedArgument k) = k + 1
  | 0 => by rw [nestedArgument, blockLevels]; rfl
  | k + 1 => by
    rw [nestedArgument, blockLevels]
    simp only [itemsLevels, itemLevels, argLevels, strLevels, stackLevels, nestedArgument_levels k]
    omega

theorem nestedArgument_writes : ∀ (k ctr : Nat) (last : Bool), ∃ r, convertBlock (nestedArgument k) ctr last = .ok r
  | 0, ctr, last => ⟨_, rfl⟩
  | k + 1, ctr, last => by
    obtain ⟨⟨ps, n⟩, h⟩ := nestedArgument_writes k (ctr + 1) true
    rw [nestedArgument, convertBlock]
    simp only [convertItems, convertItem, convertArg, convertStr, convertStack, h, Out.ok_bind, Out.pure_eq]
    exact ⟨_, rfl⟩

/-- The full property C100 is false of the code: for every depth there are blocks which are converted and which need more. -/
theorem c100_write_bounded_false : ¬ ∃ d, ∀ (bs : List Block) (c : BlockContainer), toContainer bs = .ok c → toContainerAt d bs = .ok c := by
  rintro ⟨d, h⟩
  obtain ⟨⟨ps, n⟩, hw⟩ := nestedArgument_writes d 9 true
  have hc : toContainer [nestedArgument d] = .ok ⟨ps ++ []⟩ := by
    unfold toContainer
    rw [convertBlocks]
    show (convertBlock (nestedArgument d) 9 true >>= _) >>= _ = _
    rw [hw]
    rfl
  have := ((c100_write_partial d _ _).mp (h _ _ hc)).2
  rw [blocksLevels, nestedArgument_levels] at this
  omega

/-! ### Views -/

/-- C100: the exact depth that `flatten_views` needs: the number of levels of the views, at least one call. -/
theorem c100_flatten (d : Nat) (vs : List View) (p : Str) (t : UInt8) (r : List AndroidView) :
    flattenAt d vs p t = some r ↔ r = flattenViews vs (some p) (some t) ∧ max 1 (viewsLevels vs) ≤ d := flattenAt_iff d vs p t r

/-- C100: a result of `find_id` within a depth is its result; a depth of the levels of the view is enough, and if there is no such view it
is needed. -/
theorem c100_find (d : Nat) (id : Str) (v : View) :
    (∀ r, findAt d id v = some r → r = v.findId id) ∧ (viewLevels v ≤ d → findAt d id v = some (v.findId id)) ∧
    (v.findId id = none → (findAt d id v = some none ↔ viewLevels v ≤ d)) := by
  refine ⟨fun r h => (findAt_sound id d v r h).1, findAt_enough id d v, fun hn => ⟨fun h => (findAt_sound id d v _ h).2 rfl, fun h => ?_⟩⟩
  rw [findAt_enough id d v h, hn]

/-- C100: the exact depth that `find_id` needs: the deepest level among the views it looks at, which are those that come before the first
view with the id in depth-first order, and that view. -/
theorem c100_find_exact (d : Nat) (id : Str) (v : View) (r : Option View) :
    findAt d id v = some r ↔ r = v.findId id ∧ ∀ x ∈ lookedAt id (preorder 1 v), x.1 ≤ d := by
  rw [findAt_iff id d 1 v]
  exact and_congr_right fun _ => forall_congr' fun x => forall_congr' fun _ => by omega

/-- C100: the exact depth that `parse_raw_layout` needs, errors included: the deepest level that is looked at when the parent of a view is
searched in the tree made of the views before it. -/
theorem c100_layout_exact (d : Nat) (l : Layout) (x : Out ParseLayoutError (List View)) :
    parseRawLayoutAt d l = some x ↔ x = parseRawLayout l ∧
      ∀ k r p vs, l.views[k]? = some r → r.parent = some p → p ≠ s% "root" → parseRawLayout ⟨l.views.take k⟩ = .ok vs →
        ∀ y ∈ lookedAt p (preorders 1 vs), y.1 ≤ d := by
  refine (placeAllAt_iff d l.views [] x).trans (and_congr_right fun _ => ?_)
  exact ⟨fun h k r p vs h1 h2 h3 h4 => h k r p vs h1 h4 h2 h3, fun h k r p vs h1 h4 h2 h3 => h k r p vs h1 h2 h3 h4⟩

/-- C100: a result of `parse_raw_layout` within a depth is its result, errors included, and a depth of one less than the number of views is
enough. -/
theorem c100_layout (d : Nat) (l : Layout) :
    (∀ x, parseRawLayoutAt d l = some x → x = parseRawLayout l) ∧
    (l.views.length ≤ d + 1 → parseRawLayoutAt d l = some (parseRawLayout l)) := by
  refine ⟨fun x h => (placeAllAt_sound h).1, fun h => placeAllAt_few ?_⟩
  rw [viewsLevels]
  omega

/-- C100, proved part: the depth that `parse_raw_layout` needs is the number of levels of the tree or one less. Missing: a bound that does
not depend on the layout, for which see `c100_layout_bounded_false`. -/
theorem c100_layout_partial (d : Nat) (l : Layout) (vs : List View) (h : parseRawLayout l = .ok vs) :
    (viewsLevels vs ≤ d → parseRawLayoutAt d l = some (.ok vs)) ∧ (parseRawLayoutAt d l = some (.ok vs) → viewsLevels vs ≤ d + 1) := by
  refine ⟨placeAllAt_enough h, fun h => ?_⟩
  have := (placeAllAt_sound h).2 vs rfl
  rw [viewsLevels] at this
  omega

/-- The view number `i` of a chain; its parent is the one before. -/
def chainView (i : Nat) : AndroidView :=
  AndroidView.newEmpty (List.replicate (i + 1) 'a') 0 (if i = 0 then s% "root" else List.replicate i 'a') 0

/-- A chain of views is made a tree of one branch. -/
theorem chainView_layout (k : Nat) : parseRawLayout ⟨(List.range (k + 1)).map chainView⟩ =
    .ok [spine (chainView 0) ((List.range' 1 k).map chainView)] := by
  have hid : ∀ i, (chainView i).id = List.replicate (i + 1) 'a' := fun i => rfl
  unfold parseRawLayout
  rw [List.range_eq_range', List.range'_succ, List.map_cons, placeViews]
  show placeViews ((List.range' 1 k).map chainView) [spine (chainView 0) []] = _
  rw [placeViews_spine ((List.range' 1 k).map chainView) (chainView 0) (chainView 0) [] rfl]
  · rfl
  · rw [List.cons_append, List.nil_append, ← List.map_cons (f := chainView) (a := 0), List.map_map]
    have hc : (0 : Nat) :: List.range' 1 k = List.range (k + 1) := by rw [List.range_eq_range', List.range'_succ]
    rw [hc]
    refine List.pairwise_map.mpr (List.nodup_range.imp_of_mem ?_)
    intro i j _ _ hne e
    have := congrArg List.length (show List.replicate (i + 1) 'a' = List.replicate (j + 1) 'a' from e)
    simp only [List.length_replicate] at this
    omega
  · intro x hx e
    have hx : x ∈ chainView 0 :: (List.range' 1 k).map chainView := hx
    have hr : ∃ i, x = chainView i := by
      rcases List.mem_cons.mp hx with rfl | hx
      · exact ⟨0, rfl⟩
      · obtain ⟨i, _, rfl⟩ := List.mem_map.mp hx
        exact ⟨i, rfl⟩
    obtain ⟨i, rfl⟩ := hr
    rw [hid] at e
    have : 'r' ∈ List.replicate (i + 1) 'a' := by rw [e]; simp
    have := List.eq_of_mem_replicate this
    revert this
    decide
  · intro j a b ha hb
    have hc : chainView 0 :: (List.range' 1 k).map chainView = (List.range (k + 1)).map chainView := by
      rw [List.range_eq_range', List.range'_succ, List.map_cons]
    rw [hc, List.getElem?_map] at ha
    rw [List.getElem?_map] at hb
    obtain ⟨i, hi, rfl⟩ := Option.map_eq_some_iff.mp ha
    obtain ⟨i', hi', rfl⟩ := Option.map_eq_some_iff.mp hb
    obtain ⟨_, rfl⟩ := List.getElem?_eq_some_iff.mp hi
    obtain ⟨_, rfl⟩ := List.getElem?_eq_some_iff.mp hi'
    rw [List.getElem_range, List.getElem_range']
    show some (if 1 + 1 * j = 0 then s% "root" else List.replicate (1 + 1 * j) 'a') = some (List.replicate (j + 1) 'a')
    rw [if_neg (by omega)]
    congr 2
    omega

/-- The full property C100 is false of the code: for every depth there is a layout which is converted and which needs more. -/
theorem c100_layout_bounded_false : ¬ ∃ d, ∀ (l : Layout) (vs : List View), parseRawLayout l = .ok vs →
    parseRawLayoutAt d l = some (.ok vs) := by
  rintro ⟨d, h⟩
  have h1 := (c100_layout_partial d _ _ (chainView_layout (d + 1))).2 (h _ _ (chainView_layout (d + 1)))
  rw [viewsLevels, spine_levels, List.length_map, List.length_range'] at h1
  omega

/-- The full property C100 is false of the code: for every depth there are views for which `flatten_views` needs more. -/
theorem c100_flatten_bounded_false : ¬ ∃ d, ∀ (vs : List View) (p : Str) (t : UInt8),
    flattenAt d vs p t = some (flattenViews vs (some p) (some t)) := by
  rintro ⟨d, h⟩
  have h1 := ((c100_flatten d _ _ _ _).mp (h [spine (chainView 0) ((List.range' 1 d).map chainView)] [] 0)).2
  rw [viewsLevels, spine_levels, List.length_map, List.length_range'] at h1
  omega

/-! ### Examples -/

-- a block in a block: one call is not enough, three are
example [MapPol] : tryFromAt 1 (nestedEntries 1) = .err none ∧ tryFromAt 3 (nestedEntries 1) = .ok [nestedBlock 1] := by
  have h1 := nested_reads 1 (by decide)
  have h3 := c100_read_partial 1 _ _ _ (nested_numbered 1 (by decide)) h1
  constructor
  · refine (c100_read_same 1 _).resolve_right fun e => ?_
    rw [h1] at e
    obtain ⟨rest, hc⟩ := nested_first 1 (by decide)
    have := h3.mp e _ _ _ hc 0 .here _ (nested_deep 1 (by decide) 1 0 rfl)
    omega
  · rw [c100_read_enough 3 (nestedEntries 1) (by decide), h1]
    rfl
-- a view in a view
example : ∃ vs, parseRawLayout ⟨(List.range 3).map chainView⟩ = .ok vs ∧ viewsLevels vs = 3 :=
  ⟨_, chainView_layout 2, by rw [viewsLevels, spine_levels]; rfl⟩
-- a view is found before the deeper ones are looked at
example : findAt 1 (s% "a") (spine (chainView 0) [chainView 1, chainView 2]) = some (some (spine (chainView 0) [chainView 1, chainView 2])) ∧
    findAt 1 (s% "aa") (spine (chainView 0) [chainView 1, chainView 2]) = none := by
  constructor
  · rw [findAt, if_pos (by rw [spine_id]; rfl)]
  · rw [findAt, if_neg (by rw [spine_id]; exact (by decide : ¬ List.replicate 1 'a' = s% "aa"))]
    rfl
-- no view of that id
example : (spine (chainView 0) [chainView 1]).findId (s% "b") = none := by
  simp [spine, chainView, View.findId, findIdIn, View.ofRaw, AndroidView.newEmpty]

end C100
end Swrs.Api
