import Verif.Model.ApiBlock
import Verif.Proofs.ApiSpec
/-!
# The trees that a block container stands for
-/
namespace Swrs.Api
variable [Floats]

/-- The value of a boolean argument that refers to a block: literals are blocks called `true` and `false`. -/
def boolValue (b : Block) : ArgValue Block Bool :=
  if b.opCode = s% "true" then .value true else if b.opCode = s% "false" then .value false else .block b

/-- The item does not refer to a block. -/
def NoRef : SpecItem Block → Prop
  | .param (.string _ (.placeholder _)) => False
  | .param (.number _ (.placeholder _)) => False
  | .param (.boolean _ (.placeholder _)) => False
  | .param (.menu _ (.placeholder _)) => False
  | _ => True

/-- What is read from a container: a block with its id, a substack with its pointer, a chain of blocks with its first
id, the items of a spec with those in which the references are resolved. -/
inductive Goal where
  | block (id : UInt32) (b : Block)
  | stack (p : Int32) (s : Option (List Block))
  | blocks (id : UInt32) (bs : List Block)
  | items (is is' : List (SpecItem Block))

/-- The tree found by following the pointers in a table of blocks, with the ids of all the blocks on the way. -/
inductive Tree (g : UInt32 → Option ParserBlock) : Goal → List UInt32 → Prop
  | block {id : UInt32} {p : ParserBlock} {s1 s2 c0 c t u1 u2 u3} (hg : g id = some p)
      (h1 : Tree g (.stack p.subStack1 s1) u1) (h2 : Tree g (.stack p.subStack2 s2) u2)
      (hr : Reads (splitOn ' ' p.spec) p.parameters c0) (hi : Tree g (.items c0 c) u3)
      (ht : BlockType.parse p.type p.typeName = .ok t) :
      Tree g (.block id ⟨s1, s2, p.color, p.opCode, c, t⟩) (id :: (u1 ++ (u2 ++ u3)))
  | noStack {p : Int32} (h : p < 0) : Tree g (.stack p none) []
  | stack {p : Int32} {bs u} (h : ¬ p < 0) (hb : Tree g (.blocks (pointerId p) bs) u) : Tree g (.stack p (some bs)) u
  | last {id : UInt32} {p : ParserBlock} {b u} (hg : g id = some p) (hn : p.nextBlock < 0) (hb : Tree g (.block id b) u) :
      Tree g (.blocks id [b]) u
  | next {id : UInt32} {p : ParserBlock} {b bs u u'} (hg : g id = some p) (hn : ¬ p.nextBlock < 0)
      (hb : Tree g (.block id b) u) (hbs : Tree g (.blocks (pointerId p.nextBlock) bs) u') :
      Tree g (.blocks id (b :: bs)) (u ++ u')
  | nil : Tree g (.items [] []) []
  | keep {i is is' u} (h : NoRef i) (t : Tree g (.items is is') u) : Tree g (.items (i :: is) (i :: is')) u
  | string {n id b u is is' u'} (hb : Tree g (.block id b) u) (t : Tree g (.items is is') u') :
      Tree g (.items (.param (.string n (.placeholder id)) :: is) (.param (.string n (.block b)) :: is')) (u ++ u')
  | number {n id b u is is' u'} (hb : Tree g (.block id b) u) (t : Tree g (.items is is') u') :
      Tree g (.items (.param (.number n (.placeholder id)) :: is) (.param (.number n (.block b)) :: is')) (u ++ u')
  | boolean {n id b u is is' u'} (hb : Tree g (.block id b) u) (t : Tree g (.items is is') u') :
      Tree g (.items (.param (.boolean n (.placeholder id)) :: is) (.param (.boolean n (boolValue b)) :: is')) (u ++ u')
  | menu {n id b u is is' u'} (hb : Tree g (.block id b) u) (t : Tree g (.items is is') u') :
      Tree g (.items (.param (.menu n (.placeholder id)) :: is) (.param (.menu n (.block b)) :: is')) (u ++ u')

/-! ### Removing ids from the table -/

/-- The table without some ids. -/
def without (m : BlockMap) (u : List UInt32) : BlockMap := m.filter fun e => e.1 ∉ u

omit [Floats] in
theorem without_nil (m : BlockMap) : without m [] = m := by simp [without]

omit [Floats] in
theorem without_append (m : BlockMap) (u v : List UInt32) : without (without m u) v = without m (u ++ v) := by
  simp only [without, List.filter_filter, List.mem_append, not_or]
  congr 1
  funext e
  simp [Bool.and_comm]

omit [Floats] in
theorem erase_eq_without (m : BlockMap) (id : UInt32) : LMap.erase m id = without m [id] := by
  simp [LMap.erase, without]

omit [Floats] in
theorem get_without (m : BlockMap) (u : List UInt32) (k : UInt32) :
    LMap.get (without m u) k = if k ∈ u then none else LMap.get m k := by
  induction m with
  | nil => simp [without, LMap.get]
  | cons e m ih =>
    obtain ⟨k', v⟩ := e
    unfold without at ih ⊢
    rw [List.filter_cons]
    by_cases hk : k' ∈ u
    · rw [if_neg (by simpa using hk), ih]
      by_cases hkk : k ∈ u
      · simp [hkk]
      · have : k' ≠ k := by rintro rfl; exact hkk hk
        simp [hkk, LMap.get, this]
    · rw [if_pos (by simpa using hk)]
      simp only [LMap.get]
      by_cases h : k' = k
      · subst h; simp [hk]
      · rw [if_neg h, if_neg h, ih]

omit [Floats] in
theorem length_without (m : BlockMap) (u : List UInt32) : (without m u).length ≤ m.length := List.length_filter_le _ _

omit [Floats] in
theorem length_without_lt {m : BlockMap} {u : List UInt32} {k : UInt32} {p : ParserBlock} (h : LMap.get m k = some p) (hk : k ∈ u) :
    (without m u).length < m.length := by
  have hm := LMap.get_mem h
  unfold without
  refine Nat.lt_of_le_of_ne (List.length_filter_le _ _) fun he => ?_
  have := List.length_filter_eq_length_iff.mp he _ hm
  simp at this
  exact this hk

/-! ### Only the ids on the way matter -/

theorem Tree.dom {g : UInt32 → Option ParserBlock} {G : Goal} {u : List UInt32} (h : Tree g G u) : ∀ k ∈ u, (g k).isSome := by
  induction h with
  | block hg _ _ _ _ _ ih1 ih2 ih3 =>
    intro k hk
    simp only [List.mem_cons, List.mem_append] at hk
    rcases hk with rfl | hk | hk | hk
    · rw [hg]; rfl
    · exact ih1 k hk
    · exact ih2 k hk
    · exact ih3 k hk
  | noStack => simp
  | stack _ _ ih => exact ih
  | last _ _ _ ih => exact ih
  | next _ _ _ _ ih1 ih2 => intro k hk; exact (List.mem_append.mp hk).elim (ih1 k) (ih2 k)
  | nil => simp
  | keep _ _ ih => exact ih
  | string _ _ ih1 ih2 => intro k hk; exact (List.mem_append.mp hk).elim (ih1 k) (ih2 k)
  | number _ _ ih1 ih2 => intro k hk; exact (List.mem_append.mp hk).elim (ih1 k) (ih2 k)
  | boolean _ _ ih1 ih2 => intro k hk; exact (List.mem_append.mp hk).elim (ih1 k) (ih2 k)
  | menu _ _ ih1 ih2 => intro k hk; exact (List.mem_append.mp hk).elim (ih1 k) (ih2 k)

theorem Tree.head {g : UInt32 → Option ParserBlock} {id : UInt32} {b : Block} {u : List UInt32} (h : Tree g (.block id b) u) :
    id ∈ u := by cases h; simp

theorem Tree.congr {g g' : UInt32 → Option ParserBlock} {G : Goal} {u : List UInt32} (h : Tree g G u)
    (hg : ∀ k ∈ u, g' k = g k) : Tree g' G u := by
  induction h with
  | block h0 _ _ hr _ ht ih1 ih2 ih3 =>
    exact .block (by rw [hg _ (by simp), h0]) (ih1 fun k hk => hg k (by simp [hk])) (ih2 fun k hk => hg k (by simp [hk])) hr
      (ih3 fun k hk => hg k (by simp [hk])) ht
  | noStack h => exact .noStack h
  | stack h _ ih => exact .stack h (ih hg)
  | last h0 hn hb ih => exact .last (by rw [hg _ hb.head, h0]) hn (ih hg)
  | next h0 hn hb _ ih1 ih2 =>
    exact .next (by rw [hg _ (by simp [hb.head]), h0]) hn (ih1 fun k hk => hg k (by simp [hk])) (ih2 fun k hk => hg k (by simp [hk]))
  | nil => exact .nil
  | keep h _ ih => exact .keep h (ih hg)
  | string _ _ ih1 ih2 => exact .string (ih1 fun k hk => hg k (by simp [hk])) (ih2 fun k hk => hg k (by simp [hk]))
  | number _ _ ih1 ih2 => exact .number (ih1 fun k hk => hg k (by simp [hk])) (ih2 fun k hk => hg k (by simp [hk]))
  | boolean _ _ ih1 ih2 => exact .boolean (ih1 fun k hk => hg k (by simp [hk])) (ih2 fun k hk => hg k (by simp [hk]))
  | menu _ _ ih1 ih2 => exact .menu (ih1 fun k hk => hg k (by simp [hk])) (ih2 fun k hk => hg k (by simp [hk]))

theorem Tree.of_without {m : BlockMap} {v : List UInt32} {G : Goal} {u : List UInt32} (h : Tree (LMap.get (without m v)) G u) :
    Tree (LMap.get m) G u ∧ ∀ k ∈ u, k ∉ v := by
  have hd : ∀ k ∈ u, k ∉ v := by
    intro k hk hv
    have := h.dom k hk
    rw [get_without, if_pos hv] at this
    simp at this
  refine ⟨h.congr fun k hk => ?_, hd⟩
  rw [get_without, if_neg (hd k hk)]

/-- A result that stands for a tree with distinct ids, all of which were removed. -/
def Found (m : BlockMap) (G : Goal) (m' : BlockMap) : Prop :=
  ∃ u, Tree (LMap.get m) G u ∧ u.Nodup ∧ m' = without m u

/-! ### The conversion only finds such trees -/

omit [Floats] in
theorem wrap_ok {α : Type} {f : BlockConversionError → BlockConversionError} {x : Run α} {a : α} : wrap f x = .ok a ↔ x = .ok a := by
  cases x <;> simp [wrap, Out.mapErr]

omit [Floats] in
theorem lift_ok {ε α : Type} {f : ε → BlockConversionError} {x : Out ε α} {a : α} : lift f x = .ok a ↔ x = .ok a := by
  cases x <;> simp [lift, Out.mapErr]

theorem substack_sound {go : UInt32 → BlockMap → Run (List Block × BlockMap)} {err : BlockConversionError → BlockConversionError}
    {p : Int32} {m m' : BlockMap} {s : Option (List Block)}
    (hgo : ∀ id m bs m', go id m = .ok (bs, m') → Found m (.blocks id bs) m')
    (h : substack go err p m = .ok (s, m')) : Found m (.stack p s) m' := by
  unfold substack at h
  split at h
  · next hp =>
    simp at h; obtain ⟨rfl, rfl⟩ := h
    exact ⟨[], .noStack hp, by simp, (without_nil m).symm⟩
  · next hp =>
    simp only [Out.bind_eq_ok, Prod.exists, Out.pure_eq, Out.ok.injEq, Prod.mk.injEq, wrap_ok] at h
    obtain ⟨bs, m1, h1, rfl, rfl⟩ := h
    obtain ⟨u, ht, hu, rfl⟩ := hgo _ _ _ _ h1
    exact ⟨u, .stack hp ht, hu, rfl⟩

theorem Found.join {m m1 m2 : BlockMap} {u v : List UInt32} {G : Goal} (hu : u.Nodup)
    (h1 : m1 = without m u) (h2 : Tree (LMap.get m1) G v) (hv : v.Nodup) (h3 : m2 = without m1 v) :
    Tree (LMap.get m) G v ∧ (u ++ v).Nodup ∧ m2 = without m (u ++ v) := by
  subst h1
  obtain ⟨ht, hd⟩ := h2.of_without
  refine ⟨ht, ?_, by rw [h3, without_append]⟩
  rw [List.nodup_append]
  exact ⟨hu, hv, fun a ha b hb hab => hd b hb (hab ▸ ha)⟩

theorem applyBlocks_sound {get : UInt32 → BlockMap → Run (Block × BlockMap)}
    (hget : ∀ id m b m', get id m = .ok (b, m') → Found m (.block id b) m')
    {is is' : BlockContent Block} {m m' : BlockMap} (h : applyBlocks get is m = .ok (is', m')) : Found m (.items is is') m' := by
  induction is generalizing is' m m' with
  | nil =>
    simp [applyBlocks] at h; obtain ⟨rfl, rfl⟩ := h
    exact ⟨[], .nil, by simp, (without_nil m).symm⟩
  | cons i is ih =>
    rw [applyBlocks] at h
    simp only [Out.bind_eq_ok, Prod.exists, Out.pure_eq, Out.ok.injEq, Prod.mk.injEq] at h
    obtain ⟨i', m1, hi, is1, m2, his, rfl, rfl⟩ := h
    obtain ⟨v, hv, hvn, hm2⟩ := ih his
    have keep : NoRef i → applyItem get i m = .ok (i, m) := by
      intro hn
      cases i with
      | text s => rfl
      | param p =>
        cases p with
        | string n v => cases v <;> first | rfl | exact absurd hn id
        | number n v => cases v <;> first | rfl | exact absurd hn id
        | boolean n v => cases v <;> first | rfl | exact absurd hn id
        | menu n v => cases v <;> first | rfl | exact absurd hn id
    have keep' : NoRef i → Found m (.items (i :: is) (i' :: is1)) m2 := by
      intro hn
      rw [keep hn] at hi; simp at hi; obtain ⟨rfl, rfl⟩ := hi
      exact ⟨v, .keep hn hv, hvn, hm2⟩
    have value : ∀ {α : Type} {x y : ArgValue Block α} {id : UInt32} {m1 : BlockMap}, x = .placeholder id →
        applyValue get x m = .ok (y, m1) → ∃ b u, y = .block b ∧ Tree (LMap.get m) (.block id b) u ∧ u.Nodup ∧ m1 = without m u := by
      intro α x y id m1 hx h
      subst hx
      simp only [applyValue, getBlock, Out.bind_eq_ok, Prod.exists, wrap_ok, Out.pure_eq, Out.ok.injEq, Prod.mk.injEq] at h
      obtain ⟨b, m', hb, rfl, rfl⟩ := h
      obtain ⟨u, h1, h2, h3⟩ := hget _ _ _ _ hb
      exact ⟨b, u, rfl, h1, h2, h3⟩
    cases i with
    | text s => exact keep' trivial
    | param p =>
      cases p with
      | string n x =>
        cases x with
        | placeholder id =>
          simp only [applyItem, Out.bind_eq_ok, Prod.exists, Out.pure_eq, Out.ok.injEq, Prod.mk.injEq] at hi
          obtain ⟨y, m', hy, rfl, rfl⟩ := hi
          obtain ⟨b, u, rfl, hu, hun, hm⟩ := value rfl hy
          obtain ⟨h1, h2, h3⟩ := Found.join hun hm hv hvn hm2
          exact ⟨u ++ v, .string hu h1, h2, h3⟩
        | _ => exact keep' trivial
      | number n x =>
        cases x with
        | placeholder id =>
          simp only [applyItem, Out.bind_eq_ok, Prod.exists, Out.pure_eq, Out.ok.injEq, Prod.mk.injEq] at hi
          obtain ⟨y, m', hy, rfl, rfl⟩ := hi
          obtain ⟨b, u, rfl, hu, hun, hm⟩ := value rfl hy
          obtain ⟨h1, h2, h3⟩ := Found.join hun hm hv hvn hm2
          exact ⟨u ++ v, .number hu h1, h2, h3⟩
        | _ => exact keep' trivial
      | menu n x =>
        cases x with
        | placeholder id =>
          simp only [applyItem, Out.bind_eq_ok, Prod.exists, Out.pure_eq, Out.ok.injEq, Prod.mk.injEq] at hi
          obtain ⟨y, m', hy, rfl, rfl⟩ := hi
          obtain ⟨b, u, rfl, hu, hun, hm⟩ := value rfl hy
          obtain ⟨h1, h2, h3⟩ := Found.join hun hm hv hvn hm2
          exact ⟨u ++ v, .menu hu h1, h2, h3⟩
        | _ => exact keep' trivial
      | boolean n x =>
        cases x with
        | placeholder id =>
          simp only [applyItem, applyBool, getBlock, Out.bind_eq_ok, Prod.exists, Out.pure_eq, Out.ok.injEq, Prod.mk.injEq, wrap_ok] at hi
          obtain ⟨y, m', ⟨b, m3, hb, hy⟩, rfl, rfl⟩ := hi
          obtain ⟨u, hu, hun, hm⟩ := hget _ _ _ _ hb
          have hy' : y = boolValue b ∧ m' = m3 := by
            unfold boolValue
            repeat' split at hy
            all_goals simp_all
          obtain ⟨rfl, rfl⟩ := hy'
          obtain ⟨h1, h2, h3⟩ := Found.join hun hm hv hvn hm2
          exact ⟨u ++ v, .boolean hu h1, h2, h3⟩
        | _ => exact keep' trivial

theorem parse_sound (n : Nat) :
    (∀ id m b m', parseBlock n id m = .ok (b, m') → Found m (.block id b) m') ∧
    (∀ id m bs m', parseBlocks n id m = .ok (bs, m') → Found m (.blocks id bs) m') := by
  induction n with
  | zero => constructor <;> (intro id m b m' h; simp [parseBlock, parseBlocks] at h)
  | succ n ih =>
    constructor
    · intro id m b m' h
      rw [parseBlock] at h
      simp only [Out.bind_eq_ok, Prod.exists, Out.ofOption_eq_ok, Out.pure_eq, Out.ok.injEq, Prod.mk.injEq, lift_ok,
        BlockContent.parse, BlockContent.wordsArgs_ok, erase_eq_without] at h
      obtain ⟨p, hp, s1, m1, h1, s2, m2, h2, c0, hc, c, m3, h3, t, ht, rfl, rfl⟩ := h
      obtain ⟨u1, t1, n1, e1⟩ := substack_sound ih.2 h1
      obtain ⟨t1, n1, e1⟩ := Found.join (m := m) (u := [id]) (by simp) rfl t1 n1 e1
      obtain ⟨u2, t2, n2, e2⟩ := substack_sound ih.2 h2
      obtain ⟨t2, n2, e2⟩ := Found.join n1 e1 t2 n2 e2
      obtain ⟨u3, t3, n3, e3⟩ := applyBlocks_sound ih.1 h3
      obtain ⟨t3, n3, e3⟩ := Found.join n2 e2 t3 n3 e3
      refine ⟨_, .block hp t1 t2 hc t3 ht, ?_, ?_⟩
      · simpa using n3
      · simpa using e3
    · intro id m bs m' h
      rw [parseBlocks] at h
      simp only [Out.bind_eq_ok, Prod.exists, Out.ofOption_eq_ok] at h
      obtain ⟨p, hp, b, m1, hb, h⟩ := h
      obtain ⟨u, t, hn, he⟩ := ih.1 _ _ _ _ hb
      split at h
      · next hneg =>
        simp at h; obtain ⟨rfl, rfl⟩ := h
        exact ⟨u, .last hp hneg t, hn, he⟩
      · next hneg =>
        simp only [Out.bind_eq_ok, Prod.exists, Out.pure_eq, Out.ok.injEq, Prod.mk.injEq] at h
        obtain ⟨bs', m2, hbs, rfl, rfl⟩ := h
        obtain ⟨u', t', hn', he'⟩ := ih.2 _ _ _ _ hbs
        obtain ⟨t', hn', he'⟩ := Found.join hn he t' hn' he'
        exact ⟨_, .next hp hneg t t', hn', he'⟩

/-! ### More fuel does not change a result -/

/-- Ran out of fuel, or the same. -/
def Le {α : Type} (x y : Run α) : Prop := x = .err none ∨ x = y

omit [Floats] in
theorem Le.bind {α β : Type} {x y : Run α} {f g : α → Run β} (h : Le x y) (hf : ∀ a, Le (f a) (g a)) :
    Le (x >>= f) (y >>= g) := by
  rcases h with rfl | rfl
  · exact .inl rfl
  · cases x with
    | ok a => exact hf a
    | err e => exact .inr rfl
    | panic => exact .inr rfl

omit [Floats] in
theorem Le.refl {α : Type} (x : Run α) : Le x x := .inr rfl

omit [Floats] in
theorem Le.wrap {α : Type} {f : BlockConversionError → BlockConversionError} {x y : Run α} (h : Le x y) :
    Le (wrap f x) (Api.wrap f y) := by
  rcases h with rfl | rfl
  · exact .inl rfl
  · exact .inr rfl

omit [Floats] in
theorem Le.trans {α : Type} {x y z : Run α} (h : Le x y) (h' : Le y z) : Le x z := by
  rcases h with rfl | rfl
  · exact .inl rfl
  · exact h'

theorem substack_le {go go' : UInt32 → BlockMap → Run (List Block × BlockMap)} (h : ∀ id m, Le (go id m) (go' id m))
    (err : BlockConversionError → BlockConversionError) (p : Int32) (m : BlockMap) : Le (substack go err p m) (substack go' err p m) := by
  unfold substack
  split
  · exact .refl _
  · exact Le.bind (h _ _).wrap fun a => .refl _

theorem applyBlocks_le {get get' : UInt32 → BlockMap → Run (Block × BlockMap)} (h : ∀ id m, Le (get id m) (get' id m))
    (is : BlockContent Block) (m : BlockMap) : Le (applyBlocks get is m) (applyBlocks get' is m) := by
  have hv : ∀ {α : Type} (v : ArgValue Block α) (m : BlockMap), Le (applyValue get v m) (applyValue get' v m) := by
    intro α v m
    cases v with
    | placeholder id => exact Le.bind (h _ _).wrap fun a => .refl _
    | _ => exact .refl _
  have hb : ∀ (v : ArgValue Block Bool) (m : BlockMap), Le (applyBool get v m) (applyBool get' v m) := by
    intro v m
    cases v with
    | placeholder id => exact Le.bind (h _ _).wrap fun a => .refl _
    | _ => exact .refl _
  induction is generalizing m with
  | nil => exact .refl _
  | cons i is ih =>
    rw [applyBlocks, applyBlocks]
    refine Le.bind ?_ fun a => Le.bind (ih _) fun _ => .refl _
    cases i with
    | text s => exact .refl _
    | param p =>
      cases p with
      | string n v => exact Le.bind (hv _ _) fun _ => .refl _
      | number n v => exact Le.bind (hv _ _) fun _ => .refl _
      | boolean n v => exact Le.bind (hb _ _) fun _ => .refl _
      | menu n v => exact Le.bind (hv _ _) fun _ => .refl _

theorem parse_le (n : Nat) : (∀ id m, Le (parseBlock n id m) (parseBlock (n + 1) id m)) ∧
    (∀ id m, Le (parseBlocks n id m) (parseBlocks (n + 1) id m)) := by
  induction n with
  | zero => constructor <;> (intro id m; left; simp [parseBlock, parseBlocks])
  | succ n ih =>
    constructor
    · intro id m
      rw [parseBlock, parseBlock]
      refine Le.bind (.refl _) fun p => ?_
      refine Le.bind (substack_le ih.2 _ _ _) fun a => ?_
      refine Le.bind (substack_le ih.2 _ _ _) fun a => ?_
      refine Le.bind (.refl _) fun c => ?_
      refine Le.bind (applyBlocks_le ih.1 _ _) fun a => .refl _
    · intro id m
      rw [parseBlocks, parseBlocks]
      refine Le.bind (.refl _) fun p => ?_
      refine Le.bind (ih.1 _ _) fun a => ?_
      dsimp only
      split
      · exact .refl _
      · exact Le.bind (ih.2 _ _) fun _ => .refl _

theorem parse_mono {n n' : Nat} (h : n ≤ n') : (∀ id m, Le (parseBlock n id m) (parseBlock n' id m)) ∧
    (∀ id m, Le (parseBlocks n id m) (parseBlocks n' id m)) := by
  induction h with
  | refl => exact ⟨fun _ _ => .refl _, fun _ _ => .refl _⟩
  | step _ ih => exact ⟨fun id m => (ih.1 id m).trans ((parse_le _).1 id m), fun id m => (ih.2 id m).trans ((parse_le _).2 id m)⟩

/-! ### Enough fuel -/

omit [Floats] in
theorem bind_eq_err_none {α β : Type} {x : Run α} {f : α → Run β} (hx : x ≠ .err none) (hf : ∀ a, x = .ok a → f a ≠ .err none) :
    (x >>= f) ≠ .err none := by
  cases x with
  | ok a => exact hf a rfl
  | err e => intro h; simp at h; subst h; exact hx rfl
  | panic => simp

omit [Floats] in
theorem wrap_ne {α : Type} {f : BlockConversionError → BlockConversionError} {x : Run α} (h : x ≠ .err none) : wrap f x ≠ .err none := by
  cases x with
  | ok a => simp [wrap]
  | err e => cases e with
    | none => exact absurd rfl h
    | some e => simp [wrap]
  | panic => simp [wrap]

omit [Floats] in
theorem lift_ne {ε α : Type} {f : ε → BlockConversionError} {x : Out ε α} : lift f x ≠ .err none := by
  cases x <;> simp [lift]

theorem applyBlocks_ne {get : UInt32 → BlockMap → Run (Block × BlockMap)} {L : Nat}
    (h : ∀ id m, m.length ≤ L → get id m ≠ .err none) (hl : ∀ id m b m', get id m = .ok (b, m') → m'.length ≤ m.length)
    (is : BlockContent Block) (m : BlockMap) (hm : m.length ≤ L) : applyBlocks get is m ≠ .err none := by
  have hg : ∀ id m, m.length ≤ L → getBlock get id m ≠ .err none := fun id m hm => wrap_ne (h id m hm)
  have hv : ∀ {α : Type} (v : ArgValue Block α) (m : BlockMap), m.length ≤ L → applyValue get v m ≠ .err none := by
    intro α v m hm
    cases v with
    | placeholder id => exact bind_eq_err_none (hg _ _ hm) fun a _ => by simp
    | _ => simp [applyValue]
  have hb : ∀ (v : ArgValue Block Bool) (m : BlockMap), m.length ≤ L → applyBool get v m ≠ .err none := by
    intro v m hm
    cases v with
    | placeholder id =>
      refine bind_eq_err_none (hg _ _ hm) fun a _ => ?_
      dsimp only
      repeat' split
      all_goals simp
    | _ => simp [applyBool]
  have hvl : ∀ {α : Type} (v w : ArgValue Block α) (m m' : BlockMap), applyValue get v m = .ok (w, m') → m'.length ≤ m.length := by
    intro α v w m m' h
    cases v with
    | placeholder id =>
      simp only [applyValue, getBlock, Out.bind_eq_ok, Prod.exists, wrap_ok, Out.pure_eq, Out.ok.injEq, Prod.mk.injEq] at h
      obtain ⟨b, m1, h1, _, rfl⟩ := h
      exact hl _ _ _ _ h1
    | _ => simp [applyValue] at h; obtain ⟨_, rfl⟩ := h; exact Nat.le_refl _
  have hbl : ∀ (v w : ArgValue Block Bool) (m m' : BlockMap), applyBool get v m = .ok (w, m') → m'.length ≤ m.length := by
    intro v w m m' h
    cases v with
    | placeholder id =>
      simp only [applyBool, getBlock, Out.bind_eq_ok, Prod.exists, wrap_ok, Out.pure_eq] at h
      obtain ⟨b, m1, h1, h2⟩ := h
      have : m' = m1 := by
        repeat' split at h2
        all_goals simp_all
      rw [this]
      exact hl _ _ _ _ h1
    | _ => simp [applyBool] at h; obtain ⟨_, rfl⟩ := h; exact Nat.le_refl _
  induction is generalizing m with
  | nil => simp [applyBlocks]
  | cons i is ih =>
    rw [applyBlocks]
    refine bind_eq_err_none ?_ fun a ha => bind_eq_err_none (ih _ ?_) fun _ _ => by simp
    · cases i with
      | text s => simp [applyItem]
      | param p =>
        cases p with
        | string n v => exact bind_eq_err_none (hv _ _ hm) fun _ _ => by simp
        | number n v => exact bind_eq_err_none (hv _ _ hm) fun _ _ => by simp
        | boolean n v => exact bind_eq_err_none (hb _ _ hm) fun _ _ => by simp
        | menu n v => exact bind_eq_err_none (hv _ _ hm) fun _ _ => by simp
    · obtain ⟨i', m'⟩ := a
      refine Nat.le_trans ?_ hm
      cases i with
      | text s => simp [applyItem] at ha; obtain ⟨_, rfl⟩ := ha; exact Nat.le_refl _
      | param p =>
        cases p with
        | string n v =>
          simp only [applyItem, Out.bind_eq_ok, Prod.exists, Out.pure_eq, Out.ok.injEq, Prod.mk.injEq] at ha
          obtain ⟨w, m1, h1, _, rfl⟩ := ha; exact hvl _ _ _ _ h1
        | number n v =>
          simp only [applyItem, Out.bind_eq_ok, Prod.exists, Out.pure_eq, Out.ok.injEq, Prod.mk.injEq] at ha
          obtain ⟨w, m1, h1, _, rfl⟩ := ha; exact hvl _ _ _ _ h1
        | boolean n v =>
          simp only [applyItem, Out.bind_eq_ok, Prod.exists, Out.pure_eq, Out.ok.injEq, Prod.mk.injEq] at ha
          obtain ⟨w, m1, h1, _, rfl⟩ := ha; exact hbl _ _ _ _ h1
        | menu n v =>
          simp only [applyItem, Out.bind_eq_ok, Prod.exists, Out.pure_eq, Out.ok.injEq, Prod.mk.injEq] at ha
          obtain ⟨w, m1, h1, _, rfl⟩ := ha; exact hvl _ _ _ _ h1

theorem Found.length {m m' : BlockMap} {G : Goal} (h : Found m G m') : m'.length ≤ m.length := by
  obtain ⟨u, _, _, rfl⟩ := h
  exact length_without _ _

theorem substack_ne {go : UInt32 → BlockMap → Run (List Block × BlockMap)} {err : BlockConversionError → BlockConversionError}
    {p : Int32} {m : BlockMap} (h : go (pointerId p) m ≠ .err none) : substack go err p m ≠ .err none := by
  unfold substack
  split
  · simp
  · exact bind_eq_err_none (wrap_ne h) fun _ _ => by simp

theorem parse_enough (n : Nat) :
    (∀ id (m : BlockMap), 2 * m.length + 1 ≤ n → parseBlock n id m ≠ .err none) ∧
    (∀ id (m : BlockMap), 2 * m.length + 2 ≤ n → parseBlocks n id m ≠ .err none) := by
  induction n with
  | zero => constructor <;> (intro id m h; omega)
  | succ n ih =>
    constructor
    · intro id m hn
      rw [parseBlock]
      refine bind_eq_err_none (by cases m.get id <;> simp) fun p hp => ?_
      rw [Out.ofOption_eq_ok] at hp
      have hlt : (LMap.erase m id).length < m.length := by
        rw [erase_eq_without]; exact length_without_lt hp (by simp)
      refine bind_eq_err_none (substack_ne (ih.2 _ _ (by omega))) fun a ha => ?_
      obtain ⟨s1, m1⟩ := a
      have h1 := (substack_sound (parse_sound n).2 ha).length
      refine bind_eq_err_none (substack_ne (ih.2 _ _ (by omega))) fun a ha => ?_
      obtain ⟨s2, m2⟩ := a
      have h2 := (substack_sound (parse_sound n).2 ha).length
      refine bind_eq_err_none lift_ne fun c _ => ?_
      refine bind_eq_err_none (applyBlocks_ne (L := m2.length) (fun id m' hm' => ih.1 id m' (by omega))
        (fun id m b m' h => ((parse_sound n).1 _ _ _ _ h).length) _ _ (Nat.le_refl _)) fun a _ => ?_
      exact bind_eq_err_none lift_ne fun _ _ => by simp
    · intro id m hn
      rw [parseBlocks]
      refine bind_eq_err_none (by cases m.get id <;> simp) fun p hp => ?_
      rw [Out.ofOption_eq_ok] at hp
      refine bind_eq_err_none (ih.1 _ _ (by omega)) fun a ha => ?_
      obtain ⟨b, m1⟩ := a
      obtain ⟨u, ht, hu, rfl⟩ := (parse_sound n).1 _ _ _ _ ha
      have hlt := length_without_lt hp ht.head
      dsimp only
      split
      · simp
      · exact bind_eq_err_none (ih.2 _ _ (by omega)) fun _ _ => by simp

/-! ### The conversion finds every such tree -/

/-- What the conversion computes for a goal. -/
def Computes (n : Nat) (m : BlockMap) (G : Goal) (m' : BlockMap) : Prop :=
  match G with
  | .block id b => parseBlock n id m = .ok (b, m')
  | .stack p s => ∀ err, substack (parseBlocks n) err p m = .ok (s, m')
  | .blocks id bs => parseBlocks n id m = .ok (bs, m')
  | .items is is' => applyBlocks (parseBlock n) is m = .ok (is', m')

theorem parse_complete {g : UInt32 → Option ParserBlock} {G : Goal} {u : List UInt32} (h : Tree g G u) :
    u.Nodup → ∃ N, ∀ n, N ≤ n → ∀ m : BlockMap, (∀ k ∈ u, m.get k = g k) → Computes n m G (without m u) := by
  have agree : ∀ {m : BlockMap} {v w : List UInt32}, (v ++ w).Nodup → (∀ k ∈ v ++ w, m.get k = g k) →
      ∀ k ∈ w, (without m v).get k = g k := by
    intro m v w hn hg k hk
    rw [List.nodup_append] at hn
    rw [get_without, if_neg fun hv => hn.2.2 k hv k hk rfl, hg k (by simp [hk])]
  induction h with
  | @block id p s1 s2 c0 c t u1 u2 u3 hg h1 h2 hr hi ht ih1 ih2 ih3 =>
    intro hn
    have hn' : ([id] ++ (u1 ++ (u2 ++ u3))).Nodup := hn
    have hn1 := (List.nodup_append.mp hn').2.1
    have hn2 := (List.nodup_append.mp hn1).2.1
    obtain ⟨N1, ih1⟩ := ih1 (List.nodup_append.mp hn1).1
    obtain ⟨N2, ih2⟩ := ih2 (List.nodup_append.mp hn2).1
    obtain ⟨N3, ih3⟩ := ih3 (List.nodup_append.mp hn2).2.1
    refine ⟨N1 + N2 + N3 + 1, fun n hle m hm => ?_⟩
    obtain ⟨n, rfl⟩ : ∃ k, n = k + 1 := ⟨n - 1, by omega⟩
    have a1 := agree (v := [id]) hn' hm
    have a2 := agree hn1 a1
    have a3 := agree hn2 a2
    have e1 := ih1 n (by omega) _ fun k hk => a1 k (by simp [hk])
    have e2 := ih2 n (by omega) _ fun k hk => a2 k (by simp [hk])
    have e3 := ih3 n (by omega) _ a3
    simp only [Computes] at e1 e2 e3 ⊢
    rw [parseBlock]
    have hp : m.get id = some p := by rw [hm id (by simp), hg]
    have hc : BlockContent.parse p.spec p.parameters = .ok c0 := BlockContent.wordsArgs_ok.mpr hr
    rw [hp]
    simp only [Out.ofOption_some, Out.ok_bind, erase_eq_without, e1, e2, hc, lift, Out.mapErr_ok, e3, ht, Out.pure_eq]
    simp only [without_append]
    simp
  | noStack h => exact fun _ => ⟨0, fun n _ m _ => by simp [Computes, substack, h, without_nil]⟩
  | stack h _ ih =>
    intro hn
    obtain ⟨N, ih⟩ := ih hn
    refine ⟨N, fun n hle m hm err => ?_⟩
    have := ih n hle m hm
    simp only [Computes] at this
    simp [substack, h, this, wrap]
  | last hg hneg hb ih =>
    intro hn
    obtain ⟨N, ih⟩ := ih hn
    refine ⟨N + 1, fun n hle m hm => ?_⟩
    obtain ⟨n, rfl⟩ : ∃ k, n = k + 1 := ⟨n - 1, by omega⟩
    have := ih n (by omega) m hm
    simp only [Computes] at this ⊢
    rw [parseBlocks, hm _ hb.head, hg, Out.ofOption_some]
    simp [this, hneg]
  | next hg hneg hb _ ih1 ih2 =>
    intro hn
    obtain ⟨N1, ih1⟩ := ih1 (List.nodup_append.mp hn).1
    obtain ⟨N2, ih2⟩ := ih2 (List.nodup_append.mp hn).2.1
    refine ⟨N1 + N2 + 1, fun n hle m hm => ?_⟩
    obtain ⟨n, rfl⟩ : ∃ k, n = k + 1 := ⟨n - 1, by omega⟩
    have e1 := ih1 n (by omega) m fun k hk => hm k (by simp [hk])
    have e2 := ih2 n (by omega) _ (agree hn hm)
    simp only [Computes] at e1 e2 ⊢
    rw [parseBlocks, hm _ (by simp [hb.head]), hg, Out.ofOption_some]
    simp [e1, hneg, e2, without_append]
  | nil => exact fun _ => ⟨0, fun n _ m _ => by simp [Computes, applyBlocks, without_nil]⟩
  | @keep i is is' u h _ ih =>
    intro hn
    obtain ⟨N, ih⟩ := ih hn
    refine ⟨N, fun n hle m hm => ?_⟩
    have := ih n hle m hm
    simp only [Computes] at this ⊢
    have keep : ∀ get, applyItem get i m = .ok (i, m) := by
      intro get
      cases i with
      | text s => rfl
      | param p =>
        cases p with
        | string n v => cases v <;> first | rfl | exact absurd h id
        | number n v => cases v <;> first | rfl | exact absurd h id
        | boolean n v => cases v <;> first | rfl | exact absurd h id
        | menu n v => cases v <;> first | rfl | exact absurd h id
    simp [applyBlocks, keep, this]
  | string hb _ ih1 ih2 =>
    intro hn
    obtain ⟨N1, ih1⟩ := ih1 (List.nodup_append.mp hn).1
    obtain ⟨N2, ih2⟩ := ih2 (List.nodup_append.mp hn).2.1
    refine ⟨N1 + N2, fun n hle m hm => ?_⟩
    have e1 := ih1 n (by omega) m fun k hk => hm k (by simp [hk])
    have e2 := ih2 n (by omega) _ (agree hn hm)
    simp only [Computes] at e1 e2 ⊢
    simp [applyBlocks, applyItem, applyValue, getBlock, wrap, e1, e2, without_append]
  | number hb _ ih1 ih2 =>
    intro hn
    obtain ⟨N1, ih1⟩ := ih1 (List.nodup_append.mp hn).1
    obtain ⟨N2, ih2⟩ := ih2 (List.nodup_append.mp hn).2.1
    refine ⟨N1 + N2, fun n hle m hm => ?_⟩
    have e1 := ih1 n (by omega) m fun k hk => hm k (by simp [hk])
    have e2 := ih2 n (by omega) _ (agree hn hm)
    simp only [Computes] at e1 e2 ⊢
    simp [applyBlocks, applyItem, applyValue, getBlock, wrap, e1, e2, without_append]
  | menu hb _ ih1 ih2 =>
    intro hn
    obtain ⟨N1, ih1⟩ := ih1 (List.nodup_append.mp hn).1
    obtain ⟨N2, ih2⟩ := ih2 (List.nodup_append.mp hn).2.1
    refine ⟨N1 + N2, fun n hle m hm => ?_⟩
    have e1 := ih1 n (by omega) m fun k hk => hm k (by simp [hk])
    have e2 := ih2 n (by omega) _ (agree hn hm)
    simp only [Computes] at e1 e2 ⊢
    simp [applyBlocks, applyItem, applyValue, getBlock, wrap, e1, e2, without_append]
  | @boolean nm id b u is is' u' hb _ ih1 ih2 =>
    intro hn
    obtain ⟨N1, ih1⟩ := ih1 (List.nodup_append.mp hn).1
    obtain ⟨N2, ih2⟩ := ih2 (List.nodup_append.mp hn).2.1
    refine ⟨N1 + N2, fun n hle m hm => ?_⟩
    have e1 := ih1 n (by omega) m fun k hk => hm k (by simp [hk])
    have e2 := ih2 n (by omega) _ (agree hn hm)
    simp only [Computes] at e1 e2 ⊢
    have eb : applyBool (parseBlock n) (.placeholder id) m = .ok (boolValue b, without m u) := by
      simp only [applyBool, getBlock, wrap, e1, Out.mapErr_ok, Out.ok_bind, boolValue, Out.pure_eq]
      repeat' split
      all_goals rfl
    simp [applyBlocks, applyItem, eb, e2, without_append]

end Swrs.Api
