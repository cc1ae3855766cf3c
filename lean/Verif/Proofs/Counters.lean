import Verif.Model.Counters
import Verif.Proofs.LogicRun
import Verif.Proofs.BlockEmit
import Verif.Proofs.ApiSpec
/-!
# Lemmas about the counters (C99)
-/
namespace Swrs
section
variable [Overflow]

theorem incr_eq {ε : Type} {n : Nat} (h : n + 1 < 4294967296) :
    (incr (UInt32.ofNat n) : Out ε UInt32) = .ok (UInt32.ofNat (n + 1)) := by
  have hn : UInt32.ofNat n ≠ 4294967295 := by
    intro h'
    have := congrArg UInt32.toNat h'
    rw [UInt32.toNat_ofNat_of_lt' (show n < 4294967296 by omega)] at this
    have e : (4294967295 : UInt32).toNat = 4294967295 := rfl
    omega
  unfold incr
  rw [if_neg (by simp [hn])]
  congr 1
  rw [UInt32.ofNat_add]
  rfl

theorem decr_eq {ε : Type} {n : Nat} (h : n + 1 < 4294967296) :
    (decr (UInt32.ofNat (n + 1)) : Out ε UInt32) = .ok (UInt32.ofNat n) := by
  have hn : UInt32.ofNat (n + 1) ≠ 0 := by
    intro h'
    have := congrArg UInt32.toNat h'
    rw [UInt32.toNat_ofNat_of_lt' (show n + 1 < 4294967296 by omega)] at this
    have e : (0 : UInt32).toNat = 0 := rfl
    omega
  unfold decr
  rw [if_neg (by rw [beq_eq_false_iff_ne.mpr hn]; simp)]
  congr 1
  rw [UInt32.ofNat_add]
  exact UInt32.add_sub_cancel _ _

omit [Overflow] in
theorem toNat_eq {n : Nat} (h : n < 4294967296) : (UInt32.ofNat n).toNat = n :=
  UInt32.toNat_ofNat_of_lt' h

theorem File.loop32_eq : ∀ (ls : List Str) (sec : FileSection) (f : File) (n : Nat), n + ls.length < 4294967296 →
    loop32 ls sec f (UInt32.ofNat n) = loop ls sec f n
  | [], _, _, _, _ => rfl
  | line :: rest, sec, f, n, h => by
    rw [List.length_cons] at h
    have ih := fun sec f => loop32_eq rest sec f (n + 1) (by omega)
    unfold loop32 loop
    rw [incr_eq (by omega), toNat_eq (by omega)]
    simp only [Out.ok_bind, ih]
    rfl

theorem Resource.loop32_eq : ∀ (ls : List Str) (sec : ResourceSection) (r : Resource) (n : Nat), n + ls.length < 4294967296 →
    loop32 ls sec r (UInt32.ofNat n) = loop ls sec r n
  | [], _, _, _, _ => rfl
  | line :: rest, sec, r, n, h => by
    rw [List.length_cons] at h
    have ih := fun sec r => loop32_eq rest sec r (n + 1) (by omega)
    unfold loop32 loop
    rw [incr_eq (by omega), toNat_eq (by omega)]
    simp only [Out.ok_bind, ih]
    rfl

theorem Library.loop32_eq : ∀ (ls : List Str) (a : Acc) (n : Nat), n + ls.length < 4294967296 →
    loop32 ls a (UInt32.ofNat n) = loop ls a n
  | [], _, _, _ => by unfold loop32 loop; rfl
  | [line], a, n, h => by
    rw [List.length_singleton] at h
    unfold loop32 loop
    rw [incr_eq (by omega)]
    simp only [Out.ok_bind, loop32_eq [] _ (n + 1) (by simp; omega)]
  | line :: item :: rest, a, n, h => by
    simp only [List.length_cons] at h
    have ih := fun a => loop32_eq rest a (n + 1) (by omega)
    have ih' := fun a => loop32_eq (item :: rest) a (n + 1) (by simp only [List.length_cons]; omega)
    unfold loop32 loop
    rw [incr_eq (by omega), toNat_eq (by omega)]
    simp only [Out.ok_bind, ih, ih']
    rfl

omit [Overflow] in
theorem readPool_mk {ε ε' α : Type} {p : Str → Out ε α} {mk mk' : Nat → Str → ε → ε'} : ∀ (ls : List Str) (n : Nat) (acc : List α),
    (∀ k < n + ls.length, mk k = mk' k) → readPool p mk ls n acc = readPool p mk' ls n acc
  | [], _, _, _ => rfl
  | line :: rest, n, acc, h => by
    rw [List.length_cons] at h
    have ih := fun acc => readPool_mk (p := p) rest (n + 1) acc fun k hk => h k (by omega)
    unfold readPool
    rw [h n (by omega)]
    simp only [ih]

/-! ### The logic file -/

namespace Logic
variable [Floats] [MapPol]

omit [Overflow] [Floats] [MapPol] in
theorem poolError32_eq {ε : Type} {k : Nat} (h : k < 4294967296) : (poolError32 k : Str → ε → PoolError ε) = PoolError.mk k := by
  funext line e
  unfold poolError32 asU32
  rw [toNat_eq h]

omit [Overflow] in
theorem step32_eq (line : Str) (rest : List Str) (n : Nat) (l : LMap Str ScreenLogic) (hn : n < 4294967296)
    (hr : rest.length ≤ 4294967296) : step32 line rest (UInt32.ofNat n) l = step line rest n l := by
  have h : ∀ {ε α : Type} (p : Str → Out ε α), readPool p poolError32 rest 0 [] = readPool p PoolError.mk rest 0 [] := fun p =>
    readPool_mk rest 0 [] fun k hk => poolError32_eq (by omega)
  have h' : ∀ {ε α : Type} (p : Str → Out ε α), readPool p (fun n _ _ => (asU32 n).toNat) rest 0 [] = readPool p (fun n _ _ => n) rest 0 [] :=
    fun p => readPool_mk rest 0 [] fun k hk => by unfold asU32; rw [toNat_eq (by omega)]
  unfold step32 step
  rw [toNat_eq hn]
  simp only [h, h', VariablePool.parseIter, ListVariablePool.parseIter, ComponentPool.parseIter, EventPool.parseIter,
    MoreBlockPool.parseIter, BlockContainer.parseIter]
  split
  · cases screenOf line 9 <;> cases readPool Variable.parse PoolError.mk rest 0 [] <;> rfl
  split
  · cases screenOf line 10 <;> cases readPool ListVariable.parse PoolError.mk rest 0 [] <;> rfl
  split
  · cases screenOf line 16 <;> cases readPool (lineParser Component.parse) PoolError.mk rest 0 [] <;> rfl
  split
  · cases screenOf line 12 <;> cases readPool (lineParser Event.parse) PoolError.mk rest 0 [] <;> rfl
  split
  · cases screenOf line 10 <;> cases readPool MoreBlock.parse PoolError.mk rest 0 [] <;> rfl
  · cases BlockContainerHeader.parse line <;> cases readPool (lineParser Block.parse) (fun n _ _ => n) rest 0 [] <;> rfl

theorem loop32_eq : ∀ (fuel : Nat) (ls : List Str) (n : Nat) (l : LMap Str ScreenLogic), n + ls.length < 4294967296 →
    loop32 fuel ls (UInt32.ofNat n) l = loop fuel ls n l
  | 0, _, _, _, _ => rfl
  | _ + 1, [], _, _, _ => rfl
  | fuel + 1, line :: rest, n, l, h => by
    rw [List.length_cons] at h
    unfold loop32 loop
    split
    · rw [step32_eq line rest n l (by omega) (by omega), incr_eq (by omega)]
      cases hs : step line rest n l with
      | err e => rfl
      | panic => rfl
      | ok r =>
        obtain ⟨l', rest'⟩ := r
        have := step_length hs
        exact loop32_eq fuel rest' (n + 1) l' (by omega)
    · rfl
end Logic

/-! ### The view file -/

/-- The iterator with the count as a `u32`. -/
def CountingIterator.to32 {α : Type} (it : CountingIterator α) : CountingIterator32 α := ⟨it.iter, UInt32.ofNat it.count⟩

/-- Where the iterator can be in a text of `total` lines: the lines are counted, and one call at the end. -/
def CountingIterator.Inv {α : Type} (total : Nat) (it : CountingIterator α) : Prop :=
  it.count + it.iter.length ≤ total ∨ (it.iter = [] ∧ it.count ≤ total + 1)

theorem next32_eq {α ε : Type} {it : CountingIterator α} (h : it.count + 1 < 4294967296) :
    (it.to32.next : Out ε _) = .ok (it.next.1, it.next.2.to32) := by
  unfold CountingIterator32.next CountingIterator.to32
  rw [incr_eq h]
  rfl

theorem Layout.loop32_eq [Floats] (total : Nat) (ht : total + 2 < 4294967296) : ∀ (fuel : Nat) (ls : List Str) (k : Nat)
    (acc : List AndroidView) (n : Nat), k + ls.length ≤ total → n + ls.length ≤ total →
    Layout.loop32 fuel ⟨ls, UInt32.ofNat k⟩ acc n = (Layout.countLoop fuel ⟨ls, k⟩ acc n >>= fun r => pure (r.1, r.2.to32)) ∧
    ∀ l it', Layout.countLoop fuel ⟨ls, k⟩ acc n = .ok (l, it') → it'.Inv total
  | 0, ls, k, acc, n, h, _ => ⟨rfl, fun _ _ e => by cases e; exact .inl h⟩
  | fuel + 1, [], k, acc, n, h, _ => by
    unfold Layout.loop32 Layout.countLoop CountingIterator32.next
    rw [incr_eq (by simp only [List.length_nil] at h; omega)]
    refine ⟨rfl, fun _ _ e => ?_⟩
    cases e
    exact .inr ⟨rfl, by simp only [List.length_nil] at h; exact Nat.add_le_add_right h 1⟩
  | fuel + 1, line :: ls, k, acc, n, h, hn => by
    rw [List.length_cons] at h hn
    unfold Layout.loop32 Layout.countLoop CountingIterator32.next
    rw [incr_eq (by show k + 1 < _; omega)]
    obtain ih := fun v => Layout.loop32_eq total ht fuel ls (k + 1) (acc ++ [v]) (n + 1) (by omega) (by omega)
    simp only [Out.ok_bind, Out.pure_eq, CountingIterator.next, List.head?_cons, List.tail_cons]
    by_cases hl : line = []
    · simp only [if_pos hl]
      refine ⟨rfl, fun _ _ e => ?_⟩
      cases e
      exact .inl (by show k + 1 + ls.length ≤ total; omega)
    · simp only [if_neg hl]
      cases AndroidView.parse line with
      | some v => exact ih v
      | none =>
        refine ⟨?_, fun _ _ e => by cases e⟩
        show Out.err _ = Out.err _
        unfold asU32
        rw [toNat_eq (by omega)]

theorem View.loop32_eq [Floats] [MapPol] (total : Nat) (ht : total + 2 < 4294967296) : ∀ (fuel : Nat) (it : CountingIterator Str)
    (layouts : LMap Str Layout) (fabs : LMap Str AndroidView), it.Inv total →
    View.loop32 fuel it.to32 layouts fabs = View.countLoop fuel it layouts fabs
  | 0, _, _, _, _ => rfl
  | fuel + 1, ⟨[], k⟩, layouts, fabs, h => by
    have hk : k + 1 < 4294967296 := by
      rcases h with h | ⟨_, h⟩
      · have : k + 0 ≤ total := h
        omega
      · have : k ≤ total + 1 := h
        omega
    unfold View.loop32 View.countLoop
    rw [next32_eq hk]
    rfl
  | fuel + 1, ⟨line :: ls, k⟩, layouts, fabs, h => by
    have hk : k + (ls.length + 1) ≤ total := by
      rcases h with h | ⟨h, _⟩
      · exact h
      · cases h
    have ih := fun it layouts fabs => View.loop32_eq total ht fuel it layouts fabs
    unfold View.loop32 View.countLoop
    rw [next32_eq (by show k + 1 < _; omega)]
    show (if startsWith ['@'] line then _ else _) = (if startsWith ['@'] line then _ else _)
    split
    case isFalse => rfl
    cases splitOnce '.' (line.drop 1) with
    | none =>
      show Out.err (ViewParseError.invalidHeader (UInt32.ofNat (k + 1)).toNat line) = _
      rw [toNat_eq (by omega)]
      rfl
    | some sc =>
      obtain ⟨screen, container⟩ := sc
      show (if container = s% "xml" then _ else if container = s% "xml_fab" then _ else _) = (if container = s% "xml" then _ else if container = s% "xml_fab" then _ else _)
      split
      · obtain ⟨h1, h2⟩ := Layout.loop32_eq total ht (ls.length + 1) ls (k + 1) [] 0 (by omega) (by omega)
        show ((Layout.loop32 (ls.length + 1) ⟨ls, UInt32.ofNat (k + 1)⟩ [] 0).mapErr _ >>= _) =
          ((Layout.countLoop (ls.length + 1) ⟨ls, k + 1⟩ [] 0).mapErr _ >>= _)
        rw [h1]
        cases hc : Layout.countLoop (ls.length + 1) ⟨ls, k + 1⟩ [] 0 with
        | err e => rfl
        | panic => rfl
        | ok r => exact ih r.2 _ _ (h2 r.1 r.2 hc)
      · split
        · rw [next32_eq (by show k + 1 + 1 < _; omega)]
          cases ls with
          | nil =>
            show Out.err (ViewParseError.eofAfterFabHeader screen (UInt32.ofNat (k + 1 + 1)).toNat) = _
            rw [toNat_eq (by omega)]
            rfl
          | cons l2 ls =>
            rw [List.length_cons] at hk
            show (match AndroidView.parse l2 with | some _ => _ | none => _) = (match AndroidView.parse l2 with | some _ => _ | none => _)
            cases AndroidView.parse l2 with
            | some v => exact ih ⟨ls, k + 1 + 1⟩ _ _ (.inl (by show k + 1 + 1 + ls.length ≤ total; omega))
            | none =>
              show Out.err (ViewParseError.fab screen (UInt32.ofNat (k + 1 + 1)).toNat line) = _
              rw [toNat_eq (by omega)]
              rfl
        · exact ih ⟨ls, k + 1⟩ _ _ (.inl (by show k + 1 + ls.length ≤ total; omega))

/-! ### Block ids -/

namespace Api
variable [Floats]

/-- The counter of a result as a `u32`. -/
def low {α : Type} (x : Out Empty (α × Nat)) : Out Empty (α × UInt32) := x >>= fun r => pure (r.1, UInt32.ofNat r.2)
/-- The counter of a result as a `u32`. -/
def low3 {α β : Type} (x : Out Empty (α × β × Nat)) : Out Empty (α × β × UInt32) := x >>= fun r => pure (r.1, r.2.1, UInt32.ofNat r.2.2)

mutual
theorem convertBlock32_eq : ∀ (b : Block) (ctr : Nat) (last : Bool), ctr + blockSize b + 1 < 4294967296 →
    convertBlock32 b (UInt32.ofNat ctr) last = low (convertBlock b ctr last)
  | ⟨s1, s2, color, op, content, t⟩, ctr, last, h => by
    simp only [blockSize] at h
    unfold convertBlock32 convertBlock
    rw [incr_eq (by omega), Out.ok_bind, convertItems32_eq content (ctr + 1) (by omega), toNat_eq (by omega)]
    show _ = low (convertItems content (ctr + 1) >>= _)
    cases h1 : convertItems content (ctr + 1) with
    | err e => rfl
    | panic => rfl
    | ok r =>
      obtain ⟨params, args, c1⟩ := r
      obtain ⟨_, rfl⟩ := convertItems_ready _ _ _ _ _ h1
      have e2 := convertStack32_eq s1 (ctr + 1 + itemsSize content) (by omega)
      show (convertStack32 s1 (UInt32.ofNat (ctr + 1 + itemsSize content)) >>= _) =
        low (convertStack s1 (ctr + 1 + itemsSize content) >>= _)
      rw [e2]
      cases h2 : convertStack s1 (ctr + 1 + itemsSize content) with
      | err e => rfl
      | panic => rfl
      | ok r =>
        obtain ⟨b1, p1, c2⟩ := r
        obtain ⟨_, rfl⟩ := convertStack_ready _ _ _ _ _ h2
        have e3 := convertStack32_eq s2 (ctr + 1 + itemsSize content + stackSize s1) (by omega)
        show (convertStack32 s2 (UInt32.ofNat (ctr + 1 + itemsSize content + stackSize s1)) >>= _) =
          low (convertStack s2 (ctr + 1 + itemsSize content + stackSize s1) >>= _)
        rw [e3]
        cases h3 : convertStack s2 (ctr + 1 + itemsSize content + stackSize s1) with
        | err e => rfl
        | panic => rfl
        | ok r =>
          obtain ⟨b2, p2, c3⟩ := r
          obtain ⟨_, rfl⟩ := convertStack_ready _ _ _ _ _ h3
          cases last with
          | true => rfl
          | false =>
            show (incr (UInt32.ofNat (ctr + 1 + itemsSize content + stackSize s1 + stackSize s2)) >>= _) = _
            rw [incr_eq (by omega)]
            rfl
theorem convertStack32_eq : ∀ (s : Option (List Block)) (ctr : Nat), ctr + stackSize s + 1 < 4294967296 →
    convertStack32 s (UInt32.ofNat ctr) = low3 (convertStack s ctr)
  | none, _, _ => by unfold convertStack32 convertStack; rfl
  | some bs, ctr, h => by
    simp only [stackSize] at h
    unfold convertStack32 convertStack
    rw [incr_eq (by omega), Out.ok_bind, decr_eq (by omega), Out.ok_bind, convertBlocks32_eq bs ctr h]
    cases h1 : convertBlocks bs ctr with
    | err e => rfl
    | panic => rfl
    | ok r =>
      obtain ⟨ps, c⟩ := r
      have e := convertBlocks_seq _ _ _ _ h1
      show (lastId ps >>= _) = low3 (lastId ps >>= _)
      cases h2 : lastId ps with
      | err e => rfl
      | panic => rfl
      | ok l =>
        show Out.ok (ps, l, if l ≠ -1 then l.toUInt32 else UInt32.ofNat ctr) = Out.ok (ps, l, UInt32.ofNat (afterStack l ctr))
        unfold afterStack
        split
        · rw [UInt32.ofNat_toNat]
        · rfl
theorem convertBlocks32_eq : ∀ (bs : List Block) (ctr : Nat), ctr + blocksSize bs + 1 < 4294967296 →
    convertBlocks32 bs (UInt32.ofNat ctr) = low (convertBlocks bs ctr)
  | [], _, _ => by unfold convertBlocks32 convertBlocks; rfl
  | b :: bs, ctr, h => by
    simp only [blocksSize] at h
    unfold convertBlocks32 convertBlocks
    rw [convertBlock32_eq b ctr bs.isEmpty (by omega)]
    cases h1 : convertBlock b ctr bs.isEmpty with
    | err e => rfl
    | panic => rfl
    | ok r =>
      obtain ⟨ps, c⟩ := r
      obtain ⟨_, rfl⟩ := convertBlock_ready _ _ _ _ _ h1
      show (convertBlocks32 bs (UInt32.ofNat (ctr + blockSize b)) >>= _) = low (convertBlocks bs (ctr + blockSize b) >>= _)
      rw [convertBlocks32_eq bs (ctr + blockSize b) (by omega)]
      cases convertBlocks bs (ctr + blockSize b) <;> rfl
theorem convertItems32_eq : ∀ (is : List (SpecItem Block)) (ctr : Nat), ctr + itemsSize is + 1 < 4294967296 →
    convertItems32 is (UInt32.ofNat ctr) = low3 (convertItems is ctr)
  | [], _, _ => by unfold convertItems32 convertItems; rfl
  | i :: is, ctr, h => by
    simp only [itemsSize] at h
    unfold convertItems32 convertItems
    rw [convertItem32_eq i ctr (by omega)]
    cases h1 : convertItem i ctr with
    | err e => rfl
    | panic => rfl
    | ok r =>
      obtain ⟨ps, bs, c⟩ := r
      obtain ⟨_, rfl⟩ := convertItem_ready _ _ _ _ _ h1
      show (convertItems32 is (UInt32.ofNat (ctr + itemSize i)) >>= _) = low3 (convertItems is (ctr + itemSize i) >>= _)
      rw [convertItems32_eq is (ctr + itemSize i) (by omega)]
      cases convertItems is (ctr + itemSize i) <;> rfl
theorem convertItem32_eq : ∀ (i : SpecItem Block) (ctr : Nat), ctr + itemSize i + 1 < 4294967296 →
    convertItem32 i (UInt32.ofNat ctr) = low3 (convertItem i ctr)
  | .text _, _, _ => by unfold convertItem32 convertItem; rfl
  | .param a, ctr, h => by
    simp only [itemSize] at h
    unfold convertItem32 convertItem
    rw [convertArg32_eq a ctr h]
    cases convertArg a ctr <;> rfl
theorem convertArg32_eq : ∀ (a : Argument Block) (ctr : Nat), ctr + argSize a + 1 < 4294967296 →
    convertArg32 a (UInt32.ofNat ctr) = low3 (convertArg a ctr)
  | .string _ v, ctr, h => by
    simp only [argSize] at h; unfold convertArg32 convertArg; exact convertStr32_eq v ctr h
  | .number _ v, ctr, h => by
    simp only [argSize] at h; unfold convertArg32 convertArg; exact convertNum32_eq v ctr h
  | .boolean _ v, ctr, h => by
    simp only [argSize] at h; unfold convertArg32 convertArg; exact convertBool32_eq v ctr h
  | .menu _ v, ctr, h => by
    simp only [argSize] at h; unfold convertArg32 convertArg; exact convertStr32_eq v ctr h
theorem convertStr32_eq : ∀ (v : ArgValue Block Str) (ctr : Nat), ctr + strSize v + 1 < 4294967296 →
    convertStr32 v (UInt32.ofNat ctr) = low3 (convertStr v ctr)
  | .value _, _, _ => by unfold convertStr32 convertStr; rfl
  | .empty, _, _ => by unfold convertStr32 convertStr; rfl
  | .placeholder _, _, _ => by unfold convertStr32 convertStr; rfl
  | .block b, ctr, h => by
    simp only [strSize] at h
    unfold convertStr32 convertStr
    rw [convertBlock32_eq b ctr true h]
    cases hc : convertBlock b ctr true with
    | err e => rfl
    | panic => rfl
    | ok r =>
      obtain ⟨ps, c⟩ := r
      obtain ⟨_, rfl⟩ := convertBlock_ready b ctr true ps c hc
      show Out.ok (refText (UInt32.ofNat (ctr + blockSize b)).toNat, ps, UInt32.ofNat (ctr + blockSize b)) = _
      rw [toNat_eq (by omega)]
      rfl
theorem convertNum32_eq : ∀ (v : ArgValue Block Floats.F64) (ctr : Nat), ctr + numSize v + 1 < 4294967296 →
    convertNum32 v (UInt32.ofNat ctr) = low3 (convertNum v ctr)
  | .value _, _, _ => by unfold convertNum32 convertNum; rfl
  | .empty, _, _ => by unfold convertNum32 convertNum; rfl
  | .placeholder _, _, _ => by unfold convertNum32 convertNum; rfl
  | .block b, ctr, h => by
    simp only [numSize] at h
    unfold convertNum32 convertNum
    rw [convertBlock32_eq b ctr true h]
    cases hc : convertBlock b ctr true with
    | err e => rfl
    | panic => rfl
    | ok r =>
      obtain ⟨ps, c⟩ := r
      obtain ⟨_, rfl⟩ := convertBlock_ready b ctr true ps c hc
      show Out.ok (refText (UInt32.ofNat (ctr + blockSize b)).toNat, ps, UInt32.ofNat (ctr + blockSize b)) = _
      rw [toNat_eq (by omega)]
      rfl
theorem convertBool32_eq : ∀ (v : ArgValue Block Bool) (ctr : Nat), ctr + boolSize v + 1 < 4294967296 →
    convertBool32 v (UInt32.ofNat ctr) = low3 (convertBool v ctr)
  | .value x, ctr, h => by
    simp only [boolSize] at h
    unfold convertBool32 convertBool emitBool
    rw [incr_eq (by omega), Out.ok_bind, toNat_eq (by omega)]
    rfl
  | .empty, _, _ => by unfold convertBool32 convertBool; rfl
  | .placeholder _, _, _ => by unfold convertBool32 convertBool; rfl
  | .block b, ctr, h => by
    simp only [boolSize] at h
    unfold convertBool32 convertBool
    rw [convertBlock32_eq b ctr true h]
    cases hc : convertBlock b ctr true with
    | err e => rfl
    | panic => rfl
    | ok r =>
      obtain ⟨ps, c⟩ := r
      obtain ⟨_, rfl⟩ := convertBlock_ready b ctr true ps c hc
      show Out.ok (refText (UInt32.ofNat (ctr + blockSize b)).toNat, ps, UInt32.ofNat (ctr + blockSize b)) = _
      rw [toNat_eq (by omega)]
      rfl
end
end Api

end
end Swrs
