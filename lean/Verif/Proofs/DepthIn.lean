import Verif.Model.Depth
import Verif.Props.Blocks
/-!
# The depth of the calls of `parse_block`
-/
namespace Swrs.Api
section
variable [Floats]

/-! ### Blocks inside blocks -/

/-- The ids of the blocks that the parameters refer to. -/
def refsOf : BlockContent Block → List UInt32
  | [] => []
  | .param (.string _ (.placeholder id)) :: is => id :: refsOf is
  | .param (.number _ (.placeholder id)) :: is => id :: refsOf is
  | .param (.boolean _ (.placeholder id)) :: is => id :: refsOf is
  | .param (.menu _ (.placeholder id)) :: is => id :: refsOf is
  | _ :: is => refsOf is

/-- From the block `id` the pointers to the next block lead to the block `id'`. -/
inductive Leads (g : UInt32 → Option ParserBlock) : UInt32 → UInt32 → Prop
  | here {id} : Leads g id id
  | next {id id' p} (hg : g id = some p) (hn : ¬ p.nextBlock < 0) (h : Leads g (pointerId p.nextBlock) id') : Leads g id id'

/-- The block `id'` is directly inside the block with the entry `p`: in one of its substacks, or a parameter of it. -/
inductive Inside (g : UInt32 → Option ParserBlock) (p : ParserBlock) : UInt32 → Prop
  | stack1 {id'} (h : ¬ p.subStack1 < 0) (hl : Leads g (pointerId p.subStack1) id') : Inside g p id'
  | stack2 {id'} (h : ¬ p.subStack2 < 0) (hl : Leads g (pointerId p.subStack2) id') : Inside g p id'
  | param {id' c} (hr : Reads (splitOn ' ' p.spec) p.parameters c) (hi : id' ∈ refsOf c) : Inside g p id'

/-- There are `n` blocks each directly inside the one before, the first of them the block `id`. -/
inductive Deep (g : UInt32 → Option ParserBlock) : Nat → UInt32 → Prop
  | one {id} : Deep g 1 id
  | inside {n id id' p} (hg : g id = some p) (hi : Inside g p id') (h : Deep g n id') : Deep g (n + 1) id

/-! ### A limit changes nothing but whether there is a result -/

/-- Two results are equal unless one of them is that a bound was reached. -/
def Agree {α : Type} (x y : Run α) : Prop := x = .err none ∨ y = .err none ∨ x = y

omit [Floats] in
theorem Agree.refl {α : Type} (x : Run α) : Agree x x := .inr (.inr rfl)

omit [Floats] in
theorem Agree.bind {α β : Type} {x y : Run α} {f g : α → Run β} (h : Agree x y) (hf : ∀ a, Agree (f a) (g a)) :
    Agree (x >>= f) (y >>= g) := by
  rcases h with rfl | rfl | rfl
  · exact .inl rfl
  · exact .inr (.inl rfl)
  · cases x with
    | ok a => exact hf a
    | err e => exact .refl _
    | panic => exact .refl _

omit [Floats] in
theorem Agree.wrap {α : Type} {f : BlockConversionError → BlockConversionError} {x y : Run α} (h : Agree x y) :
    Agree (wrap f x) (Api.wrap f y) := by
  rcases h with rfl | rfl | rfl
  · exact .inl rfl
  · exact .inr (.inl rfl)
  · exact .refl _

theorem substack_agree {go go' : UInt32 → BlockMap → Run (List Block × BlockMap)} (h : ∀ id m, Agree (go id m) (go' id m))
    (err : BlockConversionError → BlockConversionError) (p : Int32) (m : BlockMap) : Agree (substack go err p m) (substack go' err p m) := by
  unfold substack
  split
  · exact .refl _
  · exact Agree.bind (h _ _).wrap fun a => .refl _

theorem applyBlocks_agree {get get' : UInt32 → BlockMap → Run (Block × BlockMap)} (h : ∀ id m, Agree (get id m) (get' id m))
    (is : BlockContent Block) (m : BlockMap) : Agree (applyBlocks get is m) (applyBlocks get' is m) := by
  have hv : ∀ {α : Type} (v : ArgValue Block α) (m : BlockMap), Agree (applyValue get v m) (applyValue get' v m) := by
    intro α v m
    cases v with
    | placeholder id => exact Agree.bind (h _ _).wrap fun a => .refl _
    | _ => exact .refl _
  have hb : ∀ (v : ArgValue Block Bool) (m : BlockMap), Agree (applyBool get v m) (applyBool get' v m) := by
    intro v m
    cases v with
    | placeholder id => exact Agree.bind (h _ _).wrap fun a => .refl _
    | _ => exact .refl _
  induction is generalizing m with
  | nil => exact .refl _
  | cons i is ih =>
    rw [applyBlocks, applyBlocks]
    refine Agree.bind ?_ fun a => Agree.bind (ih _) fun _ => .refl _
    cases i with
    | text s => exact .refl _
    | param p =>
      cases p with
      | string n v => exact Agree.bind (hv _ _) fun _ => .refl _
      | number n v => exact Agree.bind (hv _ _) fun _ => .refl _
      | boolean n v => exact Agree.bind (hb _ _) fun _ => .refl _
      | menu n v => exact Agree.bind (hv _ _) fun _ => .refl _

theorem blocksLoop_agree {go : UInt32 → BlockMap → Run (Block × BlockMap)} (h : ∀ n id m, Agree (go id m) (parseBlock n id m))
    (rounds n : Nat) (id : UInt32) (m : BlockMap) : Agree (blocksLoop go rounds id m) (parseBlocks n id m) := by
  induction rounds generalizing n id m with
  | zero => exact .inl rfl
  | succ rounds ih =>
    cases n with
    | zero => exact .inr (.inl (by rw [parseBlocks]))
    | succ n =>
      rw [blocksLoop, parseBlocks]
      refine Agree.bind (.refl _) fun p => ?_
      refine Agree.bind (h _ _ _) fun a => ?_
      dsimp only
      split
      · exact .refl _
      · exact Agree.bind (ih _ _ _) fun _ => .refl _

theorem blockAt_agree (d n : Nat) (id : UInt32) (m : BlockMap) : Agree (blockAt d id m) (parseBlock n id m) := by
  induction d generalizing n id m with
  | zero => exact .inl rfl
  | succ d ih =>
    cases n with
    | zero => exact .inr (.inl (by rw [parseBlock]))
    | succ n =>
      rw [blockAt, parseBlock]
      refine Agree.bind (.refl _) fun p => ?_
      refine Agree.bind (substack_agree (fun _ _ => blocksLoop_agree ih _ _ _ _) _ _ _) fun a => ?_
      refine Agree.bind (substack_agree (fun _ _ => blocksLoop_agree ih _ _ _ _) _ _ _) fun a => ?_
      refine Agree.bind (.refl _) fun c => ?_
      exact Agree.bind (applyBlocks_agree (ih n) _ _) fun a => .refl _

/-- A result of `parse_block` within the limit is a result without a limit. -/
theorem blockAt_sound {d : Nat} {id : UInt32} {m m' : BlockMap} {b : Block} (h : blockAt d id m = .ok (b, m')) :
    Found m (.block id b) m' := by
  have ha := blockAt_agree d (2 * m.length + 1) id m
  rcases ha with ha | ha | ha
  · rw [h] at ha; cases ha
  · exact absurd ha ((parse_enough _).1 id m (Nat.le_refl _))
  · exact (parse_sound _).1 _ _ _ _ (ha.symm.trans h)

theorem blocksWith_sound {d : Nat} {id : UInt32} {m m' : BlockMap} {bs : List Block} (h : blocksWith (blockAt d) id m = .ok (bs, m')) :
    Found m (.blocks id bs) m' := by
  have ha := blocksLoop_agree (blockAt_agree d) (m.length + 1) (2 * m.length + 2) id m
  rcases ha with ha | ha | ha
  · exact absurd (h.symm.trans ha) (by simp)
  · exact absurd ha ((parse_enough _).2 id m (Nat.le_refl _))
  · exact (parse_sound _).2 _ _ _ _ (ha.symm.trans h)

theorem blockAt_shrinks {d : Nat} {id : UInt32} {m m' : BlockMap} {b : Block} (h : blockAt d id m = .ok (b, m')) :
    m'.length < m.length := by
  obtain ⟨u, ht, hu, rfl⟩ := blockAt_sound h
  obtain ⟨p, hp⟩ := Option.isSome_iff_exists.mp (ht.dom _ ht.head)
  exact length_without_lt hp ht.head

/-- The number of rounds does not matter if it is greater than the number of blocks left. -/
theorem blocksLoop_rounds {go : UInt32 → BlockMap → Run (Block × BlockMap)}
    (hs : ∀ id m b m', go id m = .ok (b, m') → m'.length < m.length) (r r' : Nat) (id : UInt32) (m : BlockMap)
    (h : m.length < r) (h' : m.length < r') : blocksLoop go r id m = blocksLoop go r' id m := by
  induction r generalizing r' id m with
  | zero => omega
  | succ r ih =>
    cases r' with
    | zero => omega
    | succ r' =>
      rw [blocksLoop, blocksLoop]
      cases m.get id with
      | none => rfl
      | some p =>
        simp only [Out.ofOption_some, Out.ok_bind]
        cases hg : go id m with
        | ok a =>
          obtain ⟨b, m'⟩ := a
          have := hs _ _ _ _ hg
          simp only [Out.ok_bind]
          rw [ih r' _ m' (by omega) (by omega)]
        | err e => rfl
        | panic => rfl

theorem blocksWith_step (d : Nat) (id : UInt32) (m : BlockMap) : blocksWith (blockAt d) id m = (do
    let p ← Out.ofOption (some (.blockNotFound id)) (m.get id)
    let (b, m) ← blockAt d id m
    if p.nextBlock < 0 then pure ([b], m)
    else do
      let (bs, m) ← blocksWith (blockAt d) (pointerId p.nextBlock) m
      pure (b :: bs, m)) := by
  unfold blocksWith
  rw [blocksLoop]
  cases m.get id with
  | none => rfl
  | some p =>
    simp only [Out.ofOption_some, Out.ok_bind]
    cases hg : blockAt d id m with
    | ok a =>
      obtain ⟨b, m'⟩ := a
      have := blockAt_shrinks hg
      simp only [Out.ok_bind]
      rw [blocksLoop_rounds (fun _ _ _ _ => blockAt_shrinks) m.length (m'.length + 1) _ m' this (Nat.lt_succ_self _)]
    | err e => rfl
    | panic => rfl

/-! ### One more call than blocks is enough -/

theorem blockAt_enough (d : Nat) (id : UInt32) (m : BlockMap) (h : m.length < d) : blockAt d id m ≠ .err none := by
  induction d generalizing id m with
  | zero => omega
  | succ d ih =>
    have hloop : ∀ k id (m : BlockMap), m.length ≤ k → m.length < d → blocksWith (blockAt d) id m ≠ .err none := by
      intro k
      induction k with
      | zero =>
        intro id m hk _
        have : m = [] := List.eq_nil_of_length_eq_zero (by omega)
        subst this
        rw [blocksWith_step]
        simp [LMap.get]
      | succ k ihk =>
        intro id m hk hd
        rw [blocksWith_step]
        refine bind_eq_err_none (by cases m.get id <;> simp) fun p hp => ?_
        refine bind_eq_err_none (ih _ _ hd) fun a ha => ?_
        obtain ⟨b, m1⟩ := a
        have hlt := blockAt_shrinks ha
        dsimp only
        split
        · simp
        · exact bind_eq_err_none (ihk _ _ (by omega) (by omega)) fun _ _ => by simp
    rw [blockAt]
    refine bind_eq_err_none (by cases m.get id <;> simp) fun p hp => ?_
    rw [Out.ofOption_eq_ok] at hp
    have hlt : (LMap.erase m id).length < m.length := by
      rw [erase_eq_without]; exact length_without_lt hp (by simp)
    refine bind_eq_err_none (substack_ne (hloop _ _ _ (Nat.le_refl _) (by omega))) fun a ha => ?_
    obtain ⟨s1, m1⟩ := a
    have h1 := (substack_sound (fun _ _ _ _ => blocksWith_sound) ha).length
    refine bind_eq_err_none (substack_ne (hloop _ _ _ (Nat.le_refl _) (by omega))) fun a ha => ?_
    obtain ⟨s2, m2⟩ := a
    have h2 := (substack_sound (fun _ _ _ _ => blocksWith_sound) ha).length
    refine bind_eq_err_none lift_ne fun c _ => ?_
    refine bind_eq_err_none (applyBlocks_ne (L := m2.length) (fun id m' hm' => ih id m' (by omega))
      (fun id m b m' h => (blockAt_sound h).length) _ _ (Nat.le_refl _)) fun a _ => ?_
    exact bind_eq_err_none lift_ne fun _ _ => by simp

theorem blocksWith_enough (d : Nat) (id : UInt32) (m : BlockMap) (h : m.length < d) : blocksWith (blockAt d) id m ≠ .err none := by
  generalize hk : m.length = k at h
  induction k using Nat.strongRecOn generalizing id m with
  | ind k ihk =>
    rw [blocksWith_step]
    refine bind_eq_err_none (by cases m.get id <;> simp) fun p hp => ?_
    refine bind_eq_err_none (blockAt_enough _ _ _ (by omega)) fun a ha => ?_
    obtain ⟨b, m1⟩ := a
    have hlt := blockAt_shrinks ha
    dsimp only
    split
    · simp
    · exact bind_eq_err_none (ihk m1.length (by omega) _ _ rfl (by omega)) fun _ _ => by simp

/-! ### The depth needed -/

/-- What the conversion with a limit computes for a goal. -/
def Ran (d : Nat) (m : BlockMap) (G : Goal) (m' : BlockMap) : Prop :=
  match G with
  | .block id b => blockAt d id m = .ok (b, m')
  | .stack p s => ∀ err, substack (blocksWith (blockAt d)) err p m = .ok (s, m')
  | .blocks id bs => blocksWith (blockAt d) id m = .ok (bs, m')
  | .items is is' => applyBlocks (blockAt d) is m = .ok (is', m')

/-- The blocks of a goal are nested at most `d` deep. -/
def NestsWithin (g : UInt32 → Option ParserBlock) (d : Nat) (G : Goal) : Prop :=
  match G with
  | .block id _ => ∀ n, Deep g n id → n ≤ d
  | .stack p _ => ¬ p < 0 → ∀ id, Leads g (pointerId p) id → ∀ n, Deep g n id → n ≤ d
  | .blocks id _ => ∀ id', Leads g id id' → ∀ n, Deep g n id' → n ≤ d
  | .items is _ => ∀ id ∈ refsOf is, ∀ n, Deep g n id → n ≤ d

/-- Where the conversion without a limit has a result, the one with a limit has the same or none. -/
theorem ran_or {g : UInt32 → Option ParserBlock} {G : Goal} {u : List UInt32} (h : Tree g G u) (hn : u.Nodup) (d : Nat)
    (m : BlockMap) (hm : ∀ k ∈ u, m.get k = g k) :
    match G with
    | .block id b => blockAt d id m = .err none ∨ blockAt d id m = .ok (b, without m u)
    | .stack p s => ∀ err, substack (blocksWith (blockAt d)) err p m = .err none ∨
        substack (blocksWith (blockAt d)) err p m = .ok (s, without m u)
    | .blocks id bs => blocksWith (blockAt d) id m = .err none ∨ blocksWith (blockAt d) id m = .ok (bs, without m u)
    | .items is is' => applyBlocks (blockAt d) is m = .err none ∨ applyBlocks (blockAt d) is m = .ok (is', without m u) := by
  obtain ⟨N, hN⟩ := parse_complete h hn
  have hc := hN N (Nat.le_refl _) m hm
  have fin : ∀ {α : Type} {x y : Run α} {a : α}, Agree x y → y = .ok a → x = .err none ∨ x = .ok a := by
    intro α x y a ha hy
    rcases ha with h | h | h
    · exact .inl h
    · rw [hy] at h; cases h
    · exact .inr (h.trans hy)
  cases G with
  | block id b => exact fin (blockAt_agree _ _ _ _) hc
  | stack p s => exact fun err => fin (substack_agree (fun _ _ => blocksLoop_agree (blockAt_agree d) _ _ _ _) _ _ _) (hc err)
  | blocks id bs => exact fin (blocksLoop_agree (blockAt_agree d) _ _ _ _) hc
  | items is is' => exact fin (applyBlocks_agree (blockAt_agree d _) _ _) hc

omit [Floats] in
theorem bind_or {α β : Type} {x : Run α} {f : α → Run β} {a : α} {r : β} (h : x = .err none ∨ x = .ok a) :
    (x >>= f) = .ok r ↔ x = .ok a ∧ f a = .ok r := by
  rcases h with rfl | rfl <;> simp

theorem substack_any {go : UInt32 → BlockMap → Run (List Block × BlockMap)} {p : Int32} {m : BlockMap}
    {r : Option (List Block) × BlockMap} (err err' : BlockConversionError → BlockConversionError)
    (h : substack go err p m = .ok r) : substack go err' p m = .ok r := by
  unfold substack at h ⊢
  split at h
  · rename_i hp; rw [if_pos hp]; exact h
  · rename_i hp
    rw [if_neg hp]
    simp only [Out.bind_eq_ok, wrap_ok] at h ⊢
    exact h

omit [Floats] in
theorem leads_iff {g : UInt32 → Option ParserBlock} {id id' : UInt32} {p : ParserBlock} (hg : g id = some p) :
    Leads g id id' ↔ id' = id ∨ (¬ p.nextBlock < 0 ∧ Leads g (pointerId p.nextBlock) id') := by
  constructor
  · intro h
    cases h with
    | here => exact .inl rfl
    | next hg' hn h => rw [hg] at hg'; cases hg'; exact .inr ⟨hn, h⟩
  · rintro (rfl | ⟨hn, h⟩)
    · exact .here
    · exact .next hg hn h

theorem within_block {g : UInt32 → Option ParserBlock} {d : Nat} {id : UInt32} {p : ParserBlock} {b : Block} {s1 s2 c0 c}
    (hg : g id = some p) (hr : Reads (splitOn ' ' p.spec) p.parameters c0) :
    NestsWithin g (d + 1) (.block id b) ↔ NestsWithin g d (.stack p.subStack1 s1) ∧ NestsWithin g d (.stack p.subStack2 s2) ∧
      NestsWithin g d (.items c0 c) := by
  simp only [NestsWithin]
  constructor
  · intro h
    refine ⟨fun hp id' hl n hd => ?_, fun hp id' hl n hd => ?_, fun id' hi n hd => ?_⟩
    · exact Nat.le_of_succ_le_succ (h _ (.inside hg (.stack1 hp hl) hd))
    · exact Nat.le_of_succ_le_succ (h _ (.inside hg (.stack2 hp hl) hd))
    · exact Nat.le_of_succ_le_succ (h _ (.inside hg (.param hr hi) hd))
  · rintro ⟨h1, h2, h3⟩ n hd
    cases hd with
    | one => omega
    | inside hg' hi hd =>
      rw [hg] at hg'; cases hg'
      refine Nat.succ_le_succ ?_
      cases hi with
      | stack1 hp hl => exact h1 hp _ hl _ hd
      | stack2 hp hl => exact h2 hp _ hl _ hd
      | param hr' hi =>
        have e : BlockContent.parse p.spec p.parameters = .ok c0 := BlockContent.wordsArgs_ok.mpr hr
        have e' := BlockContent.wordsArgs_ok.mpr hr'
        rw [BlockContent.parse] at e
        rw [e] at e'
        cases e'
        exact h3 _ hi _ hd

theorem ran_iff {g : UInt32 → Option ParserBlock} {G : Goal} {u : List UInt32} (h : Tree g G u) :
    u.Nodup → ∀ d m, (∀ k ∈ u, LMap.get m k = g k) → (Ran d m G (without m u) ↔ NestsWithin g d G) := by
  have agree : ∀ {m : BlockMap} {v w : List UInt32}, (v ++ w).Nodup → (∀ k ∈ v ++ w, m.get k = g k) →
      ∀ k ∈ w, (without m v).get k = g k := by
    intro m v w hn hg k hk
    rw [List.nodup_append] at hn
    rw [get_without, if_neg fun hv => hn.2.2 k hv k hk rfl, hg k (by simp [hk])]
  induction h with
  | @block id p s1 s2 c0 c t u1 u2 u3 hg h1 h2 hr hi ht ih1 ih2 ih3 =>
    intro hn d m hm
    cases d with
    | zero => simpa [Ran, blockAt, NestsWithin] using ⟨1, .one, Nat.one_ne_zero⟩
    | succ d =>
      have hn' : ([id] ++ (u1 ++ (u2 ++ u3))).Nodup := hn
      have hn1 := (List.nodup_append.mp hn').2.1
      have hn2 := (List.nodup_append.mp hn1).2.1
      have m1 := (List.nodup_append.mp hn1).1
      have m2 := (List.nodup_append.mp hn2).1
      have m3 := (List.nodup_append.mp hn2).2.1
      have a1 := agree (v := [id]) hn' hm
      have a2 := agree hn1 a1
      have a3 := agree hn2 a2
      have b1 : ∀ k ∈ u1, LMap.get (without m [id]) k = g k := fun k hk => a1 k (by simp [hk])
      have b2 : ∀ k ∈ u2, LMap.get (without (without m [id]) u1) k = g k := fun k hk => a2 k (by simp [hk])
      have e1 := ih1 m1 d _ b1
      have e2 := ih2 m2 d _ b2
      have e3 := ih3 m3 d _ a3
      have o1 := ran_or h1 m1 d _ b1
      have o2 := ran_or h2 m2 d _ b2
      have o3 := ran_or hi m3 d _ a3
      rw [within_block hg hr, ← e1, ← e2, ← e3]
      simp only [Ran] at o1 o2 o3 ⊢
      have hp : m.get id = some p := by rw [hm id (by simp), hg]
      have hc : BlockContent.parse p.spec p.parameters = .ok c0 := BlockContent.wordsArgs_ok.mpr hr
      rw [blockAt, hp]
      simp only [Out.ofOption_some, Out.ok_bind, erase_eq_without]
      rw [bind_or (o1 _)]
      dsimp only
      rw [bind_or (o2 _)]
      simp only [hc, lift, Out.mapErr_ok, Out.ok_bind]
      rw [bind_or o3]
      simp only [ht, Out.mapErr_ok, Out.ok_bind, Out.pure_eq, without_append]
      constructor
      · rintro ⟨x1, x2, x3, _⟩
        exact ⟨fun err => substack_any _ _ x1, fun err => substack_any _ _ x2, x3⟩
      · rintro ⟨x1, x2, x3⟩
        exact ⟨x1 _, x2 _, x3, by simp⟩
  | noStack h => exact fun _ d m _ => by simp [Ran, NestsWithin, substack, h, without_nil]
  | @stack p bs u h hb ih =>
    intro hn d m hm
    have e := ih hn d m hm
    have o := ran_or hb hn d m hm
    simp only [Ran, NestsWithin] at e o ⊢
    rw [show (¬p < 0 → ∀ id, Leads g (pointerId p) id → ∀ n, Deep g n id → n ≤ d) ↔
      (∀ id, Leads g (pointerId p) id → ∀ n, Deep g n id → n ≤ d) from ⟨fun x => x h, fun x _ => x⟩, ← e]
    simp only [substack, if_neg h]
    rcases o with o | o
    · rw [o]
      simpa [wrap] using ⟨id, trivial⟩
    · rw [o]
      simp [wrap]
  | @last id p b u hg hneg hb ih =>
    intro hn d m hm
    have e := ih hn d m hm
    have o := ran_or hb hn d m hm
    simp only [Ran, NestsWithin] at e o ⊢
    rw [blocksWith_step, hm _ hb.head, hg]
    simp only [Out.ofOption_some, Out.ok_bind]
    rw [bind_or o, e]
    dsimp only
    rw [if_pos hneg]
    simp only [leads_iff hg, hneg, not_true, false_and, or_false, forall_eq, Out.pure_eq, and_true]
  | @next id p b bs u u' hg hneg hb hbs ih1 ih2 =>
    intro hn d m hm
    have n1 := (List.nodup_append.mp hn).1
    have n2 := (List.nodup_append.mp hn).2.1
    have a1 : ∀ k ∈ u, LMap.get m k = g k := fun k hk => hm k (by simp [hk])
    have e1 := ih1 n1 d m a1
    have e2 := ih2 n2 d _ (agree hn hm)
    have o1 := ran_or hb n1 d m a1
    have o2 := ran_or hbs n2 d _ (agree hn hm)
    simp only [Ran, NestsWithin] at e1 e2 o1 o2 ⊢
    rw [blocksWith_step, hm _ (by simp [hb.head]), hg]
    simp only [Out.ofOption_some, Out.ok_bind]
    rw [bind_or o1, e1]
    dsimp only
    rw [if_neg hneg, bind_or o2, e2]
    simp only [without_append, Out.pure_eq, and_true, leads_iff hg, hneg, not_false_eq_true, true_and]
    constructor
    · rintro ⟨x, y⟩ id' (rfl | hl)
      · exact x
      · exact y _ hl
    · exact fun x => ⟨x _ (.inl rfl), fun id' hl => x _ (.inr hl)⟩
  | nil => exact fun _ d m _ => by simp [Ran, NestsWithin, refsOf, applyBlocks, without_nil]
  | @keep i is is' u h t ih =>
    intro hn d m hm
    have e := ih hn d m hm
    simp only [Ran, NestsWithin] at e ⊢
    have keep : ∀ get, applyItem get i m = .ok (i, m) ∧ refsOf (i :: is) = refsOf is := by
      intro get
      cases i with
      | text s => exact ⟨rfl, rfl⟩
      | param p =>
        cases p with
        | string n v => cases v <;> first | exact ⟨rfl, rfl⟩ | exact absurd h id
        | number n v => cases v <;> first | exact ⟨rfl, rfl⟩ | exact absurd h id
        | boolean n v => cases v <;> first | exact ⟨rfl, rfl⟩ | exact absurd h id
        | menu n v => cases v <;> first | exact ⟨rfl, rfl⟩ | exact absurd h id
    rw [applyBlocks, (keep (blockAt d)).1, (keep (blockAt d)).2, ← e]
    rcases ran_or t hn d m hm with o | o <;> simp [o]
  | @string nm id b u is is' u' hb t ih1 ih2 =>
    intro hn d m hm
    have n1 := (List.nodup_append.mp hn).1
    have n2 := (List.nodup_append.mp hn).2.1
    have a1 : ∀ k ∈ u, LMap.get m k = g k := fun k hk => hm k (by simp [hk])
    have e1 := ih1 n1 d m a1
    have e2 := ih2 n2 d _ (agree hn hm)
    have o1 := ran_or hb n1 d m a1
    have o2 := ran_or t n2 d _ (agree hn hm)
    simp only [Ran, NestsWithin] at e1 e2 o1 o2 ⊢
    simp only [refsOf, List.mem_cons, forall_eq_or_imp, ← e1, ← e2]
    rw [applyBlocks]
    simp only [applyItem, applyValue, getBlock]
    rcases o1 with o1 | o1
    · simp [o1, wrap]
    · rcases o2 with o2 | o2 <;> simp [o1, o2, wrap, without_append]
  | @number nm id b u is is' u' hb t ih1 ih2 =>
    intro hn d m hm
    have n1 := (List.nodup_append.mp hn).1
    have n2 := (List.nodup_append.mp hn).2.1
    have a1 : ∀ k ∈ u, LMap.get m k = g k := fun k hk => hm k (by simp [hk])
    have e1 := ih1 n1 d m a1
    have e2 := ih2 n2 d _ (agree hn hm)
    have o1 := ran_or hb n1 d m a1
    have o2 := ran_or t n2 d _ (agree hn hm)
    simp only [Ran, NestsWithin] at e1 e2 o1 o2 ⊢
    simp only [refsOf, List.mem_cons, forall_eq_or_imp, ← e1, ← e2]
    rw [applyBlocks]
    simp only [applyItem, applyValue, getBlock]
    rcases o1 with o1 | o1
    · simp [o1, wrap]
    · rcases o2 with o2 | o2 <;> simp [o1, o2, wrap, without_append]
  | @menu nm id b u is is' u' hb t ih1 ih2 =>
    intro hn d m hm
    have n1 := (List.nodup_append.mp hn).1
    have n2 := (List.nodup_append.mp hn).2.1
    have a1 : ∀ k ∈ u, LMap.get m k = g k := fun k hk => hm k (by simp [hk])
    have e1 := ih1 n1 d m a1
    have e2 := ih2 n2 d _ (agree hn hm)
    have o1 := ran_or hb n1 d m a1
    have o2 := ran_or t n2 d _ (agree hn hm)
    simp only [Ran, NestsWithin] at e1 e2 o1 o2 ⊢
    simp only [refsOf, List.mem_cons, forall_eq_or_imp, ← e1, ← e2]
    rw [applyBlocks]
    simp only [applyItem, applyValue, getBlock]
    rcases o1 with o1 | o1
    · simp [o1, wrap]
    · rcases o2 with o2 | o2 <;> simp [o1, o2, wrap, without_append]
  | @boolean nm id b u is is' u' hb t ih1 ih2 =>
    intro hn d m hm
    have n1 := (List.nodup_append.mp hn).1
    have n2 := (List.nodup_append.mp hn).2.1
    have a1 : ∀ k ∈ u, LMap.get m k = g k := fun k hk => hm k (by simp [hk])
    have e1 := ih1 n1 d m a1
    have e2 := ih2 n2 d _ (agree hn hm)
    have o1 := ran_or hb n1 d m a1
    have o2 := ran_or t n2 d _ (agree hn hm)
    simp only [Ran, NestsWithin] at e1 e2 o1 o2 ⊢
    simp only [refsOf, List.mem_cons, forall_eq_or_imp, ← e1, ← e2]
    rw [applyBlocks]
    simp only [applyItem]
    rcases o1 with o1 | o1
    · simp [o1, applyBool, getBlock, wrap]
    · have eb : applyBool (blockAt d) (.placeholder id) m = .ok (boolValue b, without m u) := by
        simp only [applyBool, getBlock, wrap, o1, Out.mapErr_ok, Out.ok_bind, boolValue, Out.pure_eq]
        repeat' split
        all_goals rfl
      rcases o2 with o2 | o2 <;> simp [o1, o2, eb, without_append]

end
end Swrs.Api
