import Verif.Proofs.BlockParse
/-!
# How reading a block container fails
-/
namespace Swrs.Api
variable [Floats]

/-- How a conversion fails: with an error or a panic. -/
inductive Failure where
  | error (e : BlockConversionError)
  | panic

/-- The failure with a description added to its error. -/
def Failure.map (f : BlockConversionError → BlockConversionError) : Failure → Failure
  | .error e => .error (f e)
  | .panic => .panic

/-- A table of blocks without some ids. -/
def drop (g : UInt32 → Option ParserBlock) (u : List UInt32) : UInt32 → Option ParserBlock :=
  fun k => if k ∈ u then none else g k

/-- A tree is found in the table, in which no id occurs twice, and its blocks are taken out of the table. -/
def Took (g : UInt32 → Option ParserBlock) (G : Goal) (g' : UInt32 → Option ParserBlock) : Prop :=
  ∃ u, Tree g G u ∧ u.Nodup ∧ g' = drop g u

/-- What is looked for: the block with an id, the chain of blocks from an id, the blocks that items refer to. -/
inductive Search where
  | block (id : UInt32)
  | blocks (id : UInt32)
  | items (is : List (SpecItem Block))

/-- The id of the block that an item refers to. -/
def refOf : SpecItem Block → Option UInt32
  | .param (.string _ (.placeholder id)) => some id
  | .param (.number _ (.placeholder id)) => some id
  | .param (.boolean _ (.placeholder id)) => some id
  | .param (.menu _ (.placeholder id)) => some id
  | _ => none

/-- The first failure met when following the pointers in a table of blocks: the block itself, its first substack, its
second substack, its spec, the blocks its arguments refer to, its type, the next block. The blocks found before are no
longer in the table. -/
inductive Fail : (UInt32 → Option ParserBlock) → Search → Failure → Prop
  /-- There is no block with that id, or no longer. -/
  | missing {g id} (hg : g id = none) : Fail g (.block id) (.error (.blockNotFound id))
  | sub1 {g id} {p : ParserBlock} {f} (hg : g id = some p) (h : ¬ p.subStack1 < 0)
      (F : Fail (drop g [id]) (.blocks (pointerId p.subStack1)) f) :
      Fail g (.block id) (f.map (.substack1 id (pointerId p.subStack1)))
  | sub2 {g id} {p : ParserBlock} {s1 g1 f} (hg : g id = some p) (T1 : Took (drop g [id]) (.stack p.subStack1 s1) g1)
      (h : ¬ p.subStack2 < 0) (F : Fail g1 (.blocks (pointerId p.subStack2)) f) :
      Fail g (.block id) (f.map (.substack2 id (pointerId p.subStack2)))
  | spec {g id} {p : ParserBlock} {s1 g1 s2 g2 e} (hg : g id = some p) (T1 : Took (drop g [id]) (.stack p.subStack1 s1) g1)
      (T2 : Took g1 (.stack p.subStack2 s2) g2)
      (hc : (BlockContent.parse p.spec p.parameters : Out _ (BlockContent Block)) = .err e) :
      Fail g (.block id) (.error (.content e))
  | specPanic {g id} {p : ParserBlock} {s1 g1 s2 g2} (hg : g id = some p)
      (T1 : Took (drop g [id]) (.stack p.subStack1 s1) g1) (T2 : Took g1 (.stack p.subStack2 s2) g2)
      (hc : (BlockContent.parse p.spec p.parameters : Out _ (BlockContent Block)) = .panic) : Fail g (.block id) .panic
  | args {g id} {p : ParserBlock} {s1 g1 s2 g2 c f} (hg : g id = some p)
      (T1 : Took (drop g [id]) (.stack p.subStack1 s1) g1) (T2 : Took g1 (.stack p.subStack2 s2) g2)
      (hc : BlockContent.parse p.spec p.parameters = .ok c) (F : Fail g2 (.items c) f) : Fail g (.block id) f
  | type {g id} {p : ParserBlock} {s1 g1 s2 g2 c c' g3 e} (hg : g id = some p)
      (T1 : Took (drop g [id]) (.stack p.subStack1 s1) g1) (T2 : Took g1 (.stack p.subStack2 s2) g2)
      (hc : BlockContent.parse p.spec p.parameters = .ok c) (T3 : Took g2 (.items c c') g3)
      (ht : BlockType.parse p.type p.typeName = .err e) : Fail g (.block id) (.error (.invalidType e))
  | first {g id f} (F : Fail g (.block id) f) : Fail g (.blocks id) f
  | later {g id} {p : ParserBlock} {b g' f} (hg : g id = some p) (T : Took g (.block id b) g') (h : ¬ p.nextBlock < 0)
      (F : Fail g' (.blocks (pointerId p.nextBlock)) f) : Fail g (.blocks id) f
  /-- The error of the block of an argument is lost. -/
  | arg {g i id is f} (hi : refOf i = some id) (F : Fail g (.block id) f) :
      Fail g (.items (i :: is)) (f.map fun _ => .content (.blockNotFound id))
  | nextArg {g i i' is g' f} (T : Took g (.items [i] [i']) g') (F : Fail g' (.items is) f) : Fail g (.items (i :: is)) f

/-! ### The conversion fails only so -/

/-- The failure as a result. -/
def bad {α : Type} : Failure → Run α
  | .error e => .err (some e)
  | .panic => .panic

omit [Floats] in
theorem bind_bad {α β : Type} {x : Run α} {k : α → Run β} {f : Failure} :
    (x >>= k) = bad f ↔ x = bad f ∨ ∃ a, x = .ok a ∧ k a = bad f := by
  cases f with
  | error e => exact Out.bind_eq_err
  | panic => exact Out.bind_eq_panic

omit [Floats] in
theorem ok_ne_bad {α : Type} {a : α} {f : Failure} : (Out.ok a : Run α) ≠ bad f := by cases f <;> simp [bad]

omit [Floats] in
theorem wrap_bad {α : Type} {w : BlockConversionError → BlockConversionError} {x : Run α} {f : Failure} :
    wrap w x = bad f ↔ ∃ f', x = bad f' ∧ f = f'.map w := by
  cases x with
  | ok a =>
    constructor
    · intro h; exact absurd h ok_ne_bad
    · rintro ⟨f', h, _⟩; exact absurd h ok_ne_bad
  | err e =>
    cases e with
    | none =>
      constructor
      · intro h; cases f <;> simp [wrap, bad, Out.mapErr] at h
      · rintro ⟨f', h, _⟩; cases f' <;> simp [bad] at h
    | some e =>
      constructor
      · intro h
        cases f with
        | error e' => simp [wrap, bad, Out.mapErr] at h; exact ⟨.error e, rfl, by rw [← h]; rfl⟩
        | panic => simp [wrap, bad, Out.mapErr] at h
      · rintro ⟨f', h, rfl⟩
        cases f' with
        | error e' => simp [bad] at h; subst h; rfl
        | panic => simp [bad] at h
  | panic =>
    constructor
    · intro h
      cases f with
      | error e' => simp [wrap, bad, Out.mapErr] at h
      | panic => exact ⟨.panic, rfl, rfl⟩
    · rintro ⟨f', h, rfl⟩
      cases f' with
      | error e' => simp [bad] at h
      | panic => rfl

omit [Floats] in
theorem lift_bad {ε α : Type} {w : ε → BlockConversionError} {x : Out ε α} {f : Failure} :
    lift w x = bad f ↔ (∃ e, x = .err e ∧ f = .error (w e)) ∨ (x = .panic ∧ f = .panic) := by
  cases x <;> cases f <;> simp [lift, bad, Out.mapErr, eq_comm]

omit [Floats] in
theorem get_drop (m : BlockMap) (u : List UInt32) : LMap.get (without m u) = drop (LMap.get m) u := by
  funext k; exact get_without m u k

theorem Found.took {m m' : BlockMap} {G : Goal} (h : Found m G m') : Took (LMap.get m) G (LMap.get m') := by
  obtain ⟨u, h1, h2, rfl⟩ := h
  exact ⟨u, h1, h2, get_drop m u⟩

theorem substack_bad {go : UInt32 → BlockMap → Run (List Block × BlockMap)} {err : BlockConversionError → BlockConversionError}
    {p : Int32} {m : BlockMap} {f : Failure} :
    substack go err p m = bad f ↔ ¬ p < 0 ∧ ∃ f', go (pointerId p) m = bad f' ∧ f = f'.map err := by
  unfold substack
  split
  · next h =>
    constructor
    · intro h'; exact absurd h' ok_ne_bad
    · exact fun h' => absurd h h'.1
  · next h =>
    rw [bind_bad, wrap_bad]
    constructor
    · rintro (h' | ⟨a, _, h'⟩)
      · exact ⟨h, h'⟩
      · exact absurd h' ok_ne_bad
    · exact fun h' => .inl h'.2

theorem applyItem_bad {get : UInt32 → BlockMap → Run (Block × BlockMap)} {i : SpecItem Block} {m : BlockMap} {f : Failure} :
    applyItem get i m = bad f ↔ ∃ id f', refOf i = some id ∧ get id m = bad f' ∧
      f = f'.map fun _ => .content (.blockNotFound id) := by
  have hnone : ∀ {x : Run (SpecItem Block × BlockMap)} {y}, x = .ok y → refOf i = none → (x = bad f ↔ ∃ id f', refOf i = some id ∧ get id m = bad f' ∧
      f = f'.map fun _ => .content (.blockNotFound id)) := by
    intro x y hx hr
    rw [hx, hr]
    constructor
    · intro h; exact absurd h ok_ne_bad
    · rintro ⟨_, _, h, _⟩; simp at h
  have hsome : ∀ {α : Type} {id : UInt32} (k : ArgValue Block α × BlockMap → Run (SpecItem Block × BlockMap)),
      (∀ a, k a ≠ bad f) → refOf i = some id → ((applyValue get (.placeholder id) m >>= k) = bad f ↔
        ∃ id f', refOf i = some id ∧ get id m = bad f' ∧ f = f'.map fun _ => .content (.blockNotFound id)) := by
    intro α id k hk hr
    rw [bind_bad, applyValue, bind_bad, getBlock, wrap_bad, hr]
    constructor
    · rintro ((⟨f', h1, h2⟩ | ⟨a, _, h⟩) | ⟨a, _, h⟩)
      · exact ⟨id, f', rfl, h1, h2⟩
      · exact absurd h ok_ne_bad
      · exact absurd h (hk a)
    · rintro ⟨id', f', h, h1, h2⟩
      cases h
      exact .inl (.inl ⟨f', h1, h2⟩)
  cases i with
  | text s => exact hnone rfl rfl
  | param a =>
    cases a with
    | string n v =>
      cases v with
      | placeholder id => exact hsome (α := Str) _ (fun _ => ok_ne_bad) rfl
      | _ => exact hnone rfl rfl
    | number n v =>
      cases v with
      | placeholder id => exact hsome (α := Floats.F64) _ (fun _ => ok_ne_bad) rfl
      | _ => exact hnone rfl rfl
    | menu n v =>
      cases v with
      | placeholder id => exact hsome (α := Str) _ (fun _ => ok_ne_bad) rfl
      | _ => exact hnone rfl rfl
    | boolean n v =>
      cases v with
      | placeholder id =>
        rw [applyItem, bind_bad, applyBool, bind_bad, getBlock, wrap_bad]
        constructor
        · rintro ((⟨f', h1, h2⟩ | ⟨a, _, h⟩) | ⟨a, _, h⟩)
          · exact ⟨id, f', rfl, h1, h2⟩
          · dsimp only at h
            repeat' split at h
            all_goals exact absurd h ok_ne_bad
          · exact absurd h ok_ne_bad
        · rintro ⟨id', f', h, h1, h2⟩
          cases h
          exact .inl (.inl ⟨f', h1, h2⟩)
      | _ => exact hnone rfl rfl

theorem applyBlocks_fail {get : UInt32 → BlockMap → Run (Block × BlockMap)}
    (hget : ∀ id m b m', get id m = .ok (b, m') → Found m (.block id b) m')
    (hbad : ∀ id m f, get id m = bad f → Fail (LMap.get m) (.block id) f)
    {is : BlockContent Block} {m : BlockMap} {f : Failure} (h : applyBlocks get is m = bad f) :
    Fail (LMap.get m) (.items is) f := by
  induction is generalizing m f with
  | nil => exact absurd h ok_ne_bad
  | cons i is ih =>
    rw [applyBlocks, bind_bad] at h
    rcases h with h | ⟨⟨i', m1⟩, h1, h⟩
    · obtain ⟨id, f', hi, hf, rfl⟩ := applyItem_bad.mp h
      exact .arg hi (hbad _ _ _ hf)
    · dsimp only at h
      rw [bind_bad] at h
      rcases h with h | ⟨a, _, h⟩
      · have h2 : applyBlocks get [i] m = .ok ([i'], m1) := by
          rw [applyBlocks, h1]; rfl
        exact .nextArg (applyBlocks_sound hget h2).took (ih h)
      · exact absurd h ok_ne_bad

theorem parse_fail (n : Nat) :
    (∀ id m f, parseBlock n id m = bad f → Fail (LMap.get m) (.block id) f) ∧
    (∀ id m f, parseBlocks n id m = bad f → Fail (LMap.get m) (.blocks id) f) := by
  induction n with
  | zero => constructor <;> (intro id m f h; cases f <;> simp [parseBlock, parseBlocks, bad] at h)
  | succ n ih =>
    constructor
    · intro id m f h
      rw [parseBlock, bind_bad] at h
      rcases h with h | ⟨p, hp, h⟩
      · cases hm : LMap.get m id with
        | none =>
          rw [hm] at h
          cases f with
          | error e => simp [bad] at h; subst h; exact .missing hm
          | panic => simp [bad] at h
        | some p => rw [hm] at h; exact absurd h ok_ne_bad
      rw [Out.ofOption_eq_ok] at hp
      have he : LMap.get (LMap.erase m id) = drop (LMap.get m) [id] := by rw [erase_eq_without, get_drop]
      dsimp only at h
      rw [bind_bad] at h
      rcases h with h | ⟨⟨s1, m1⟩, h1, h⟩
      · obtain ⟨hn, f', hf, rfl⟩ := substack_bad.mp h
        exact .sub1 hp hn (he ▸ ih.2 _ _ _ hf)
      have T1 := (substack_sound (parse_sound n).2 h1).took
      rw [he] at T1
      dsimp only at h
      rw [bind_bad] at h
      rcases h with h | ⟨⟨s2, m2⟩, h2, h⟩
      · obtain ⟨hn, f', hf, rfl⟩ := substack_bad.mp h
        exact .sub2 hp T1 hn (ih.2 _ _ _ hf)
      have T2 := (substack_sound (parse_sound n).2 h2).took
      dsimp only at h
      rw [bind_bad] at h
      rcases h with h | ⟨c, h3, h⟩
      · rcases lift_bad.mp h with ⟨e, h3, rfl⟩ | ⟨h3, rfl⟩
        · exact .spec hp T1 T2 h3
        · exact .specPanic hp T1 T2 h3
      rw [lift_ok] at h3
      rw [bind_bad] at h
      rcases h with h | ⟨⟨c', m3⟩, h4, h⟩
      · exact .args hp T1 T2 h3 (applyBlocks_fail (parse_sound n).1 ih.1 h)
      have T3 := (applyBlocks_sound (parse_sound n).1 h4).took
      dsimp only at h
      rw [bind_bad] at h
      rcases h with h | ⟨t, _, h⟩
      · rcases lift_bad.mp h with ⟨e, h5, rfl⟩ | ⟨h5, rfl⟩
        · exact .type hp T1 T2 h3 T3 h5
        · exfalso
          unfold BlockType.parse at h5
          repeat' split at h5
          all_goals first | (cases hl : ListItem.parse p.typeName <;> simp_all; done) | simp_all
      · exact absurd h ok_ne_bad
    · intro id m f h
      rw [parseBlocks, bind_bad] at h
      rcases h with h | ⟨p, hp, h⟩
      · cases hm : LMap.get m id with
        | none =>
          rw [hm] at h
          cases f with
          | error e => simp [bad] at h; subst h; exact .first (.missing hm)
          | panic => simp [bad] at h
        | some p => rw [hm] at h; exact absurd h ok_ne_bad
      rw [Out.ofOption_eq_ok] at hp
      rw [bind_bad] at h
      rcases h with h | ⟨⟨b, m1⟩, h1, h⟩
      · exact .first (ih.1 _ _ _ h)
      dsimp only at h
      split at h
      · exact absurd h ok_ne_bad
      · next hneg =>
        rw [bind_bad] at h
        rcases h with h | ⟨a, _, h⟩
        · exact .later hp ((parse_sound n).1 _ _ _ _ h1).took hneg (ih.2 _ _ _ h)
        · exact absurd h ok_ne_bad

/-! ### The conversion fails whenever so -/

/-- The conversion fails in a search. -/
def Fails (n : Nat) (m : BlockMap) (S : Search) (f : Failure) : Prop :=
  match S with
  | .block id => parseBlock n id m = bad f
  | .blocks id => parseBlocks n id m = bad f
  | .items is => applyBlocks (parseBlock n) is m = bad f

theorem Took.complete {g g' : UInt32 → Option ParserBlock} {G : Goal} (h : Took g G g') :
    ∃ N, ∀ n, N ≤ n → ∀ m : BlockMap, LMap.get m = g → ∃ m', Computes n m G m' ∧ LMap.get m' = g' := by
  obtain ⟨u, ht, hn, rfl⟩ := h
  obtain ⟨N, hN⟩ := parse_complete ht hn
  exact ⟨N, fun n hle m hm => ⟨_, hN n hle m fun k _ => by rw [hm], by rw [get_drop, hm]⟩⟩

theorem fail_complete {g : UInt32 → Option ParserBlock} {S : Search} {f : Failure} (h : Fail g S f) :
    ∃ N, ∀ n, N ≤ n → ∀ m : BlockMap, LMap.get m = g → Fails n m S f := by
  have he : ∀ (m : BlockMap) (id : UInt32), LMap.get (LMap.erase m id) = drop (LMap.get m) [id] := by
    intro m id; rw [erase_eq_without, get_drop]
  induction h with
  | @missing g id hg =>
    refine ⟨1, fun n hn m hm => ?_⟩
    obtain ⟨n, rfl⟩ : ∃ k, n = k + 1 := ⟨n - 1, by omega⟩
    subst hm
    simp only [Fails]
    rw [parseBlock, hg]; rfl
  | @sub1 g id p f hg hneg _ ih =>
    obtain ⟨N, ih⟩ := ih
    refine ⟨N + 1, fun n hn m hm => ?_⟩
    obtain ⟨n, rfl⟩ : ∃ k, n = k + 1 := ⟨n - 1, by omega⟩
    subst hm
    simp only [Fails] at ih ⊢
    rw [parseBlock, hg, Out.ofOption_some, Out.ok_bind]
    exact bind_bad.mpr (.inl (substack_bad.mpr ⟨hneg, f, ih n (by omega) _ (he m id), rfl⟩))
  | @sub2 g id p s1 g1 f hg T1 hneg _ ih =>
    obtain ⟨N1, hT1⟩ := T1.complete
    obtain ⟨N, ih⟩ := ih
    refine ⟨N1 + N + 1, fun n hn m hm => ?_⟩
    obtain ⟨n, rfl⟩ : ∃ k, n = k + 1 := ⟨n - 1, by omega⟩
    subst hm
    simp only [Fails] at ih ⊢
    obtain ⟨m1, hc1, hm1⟩ := hT1 n (by omega) _ (he m id)
    rw [parseBlock, hg, Out.ofOption_some, Out.ok_bind]
    dsimp only
    rw [hc1, Out.ok_bind]
    exact bind_bad.mpr (.inl (substack_bad.mpr ⟨hneg, f, ih n (by omega) _ hm1, rfl⟩))
  | @spec g id p s1 g1 s2 g2 e hg T1 T2 hc =>
    obtain ⟨N1, hT1⟩ := T1.complete
    obtain ⟨N2, hT2⟩ := T2.complete
    refine ⟨N1 + N2 + 1, fun n hn m hm => ?_⟩
    obtain ⟨n, rfl⟩ : ∃ k, n = k + 1 := ⟨n - 1, by omega⟩
    subst hm
    simp only [Fails]
    obtain ⟨m1, hc1, hm1⟩ := hT1 n (by omega) _ (he m id)
    obtain ⟨m2, hc2, hm2⟩ := hT2 n (by omega) _ hm1
    rw [parseBlock, hg, Out.ofOption_some, Out.ok_bind]
    dsimp only
    rw [hc1, Out.ok_bind]
    dsimp only
    rw [hc2, Out.ok_bind]
    exact bind_bad.mpr (.inl (lift_bad.mpr (.inl ⟨e, hc, rfl⟩)))
  | @specPanic g id p s1 g1 s2 g2 hg T1 T2 hc =>
    obtain ⟨N1, hT1⟩ := T1.complete
    obtain ⟨N2, hT2⟩ := T2.complete
    refine ⟨N1 + N2 + 1, fun n hn m hm => ?_⟩
    obtain ⟨n, rfl⟩ : ∃ k, n = k + 1 := ⟨n - 1, by omega⟩
    subst hm
    simp only [Fails]
    obtain ⟨m1, hc1, hm1⟩ := hT1 n (by omega) _ (he m id)
    obtain ⟨m2, hc2, hm2⟩ := hT2 n (by omega) _ hm1
    rw [parseBlock, hg, Out.ofOption_some, Out.ok_bind]
    dsimp only
    rw [hc1, Out.ok_bind]
    dsimp only
    rw [hc2, Out.ok_bind]
    exact bind_bad.mpr (.inl (lift_bad.mpr (.inr ⟨hc, rfl⟩)))
  | @args g id p s1 g1 s2 g2 c f hg T1 T2 hc _ ih =>
    obtain ⟨N1, hT1⟩ := T1.complete
    obtain ⟨N2, hT2⟩ := T2.complete
    obtain ⟨N3, ih⟩ := ih
    refine ⟨N1 + N2 + N3 + 1, fun n hn m hm => ?_⟩
    obtain ⟨n, rfl⟩ : ∃ k, n = k + 1 := ⟨n - 1, by omega⟩
    subst hm
    simp only [Fails] at ih ⊢
    obtain ⟨m1, hc1, hm1⟩ := hT1 n (by omega) _ (he m id)
    obtain ⟨m2, hc2, hm2⟩ := hT2 n (by omega) _ hm1
    rw [parseBlock, hg, Out.ofOption_some, Out.ok_bind]
    dsimp only
    rw [hc1, Out.ok_bind]
    dsimp only
    rw [hc2, Out.ok_bind, lift_ok.mpr hc, Out.ok_bind]
    exact bind_bad.mpr (.inl (ih n (by omega) _ hm2))
  | @type g id p s1 g1 s2 g2 c c' g3 e hg T1 T2 hc T3 ht =>
    obtain ⟨N1, hT1⟩ := T1.complete
    obtain ⟨N2, hT2⟩ := T2.complete
    obtain ⟨N3, hT3⟩ := T3.complete
    refine ⟨N1 + N2 + N3 + 1, fun n hn m hm => ?_⟩
    obtain ⟨n, rfl⟩ : ∃ k, n = k + 1 := ⟨n - 1, by omega⟩
    subst hm
    simp only [Fails]
    obtain ⟨m1, hc1, hm1⟩ := hT1 n (by omega) _ (he m id)
    obtain ⟨m2, hc2, hm2⟩ := hT2 n (by omega) _ hm1
    obtain ⟨m3, hc3, hm3⟩ := hT3 n (by omega) _ hm2
    have hc3 : applyBlocks (parseBlock n) c m2 = .ok (c', m3) := hc3
    rw [parseBlock, hg, Out.ofOption_some, Out.ok_bind]
    dsimp only
    rw [hc1, Out.ok_bind]
    dsimp only
    rw [hc2, Out.ok_bind, lift_ok.mpr hc, Out.ok_bind, hc3, Out.ok_bind]
    exact bind_bad.mpr (.inl (lift_bad.mpr (.inl ⟨e, ht, rfl⟩)))
  | @first g id f F ih =>
    obtain ⟨N, ih⟩ := ih
    refine ⟨N + 1, fun n hn m hm => ?_⟩
    obtain ⟨n, rfl⟩ : ∃ k, n = k + 1 := ⟨n - 1, by omega⟩
    have h := ih n (by omega) m hm
    simp only [Fails] at h ⊢
    rw [parseBlocks]
    cases hg : LMap.get m id with
    | none =>
      cases n with
      | zero => simp only [parseBlock] at h; cases f <;> simp [bad] at h
      | succ n =>
        rw [parseBlock, hg, Out.ofOption_none, Out.err_bind] at h
        rw [Out.ofOption_none, Out.err_bind]
        cases f <;> simp_all [bad]
    | some p =>
      rw [Out.ofOption_some, Out.ok_bind]
      exact bind_bad.mpr (.inl h)
  | @later g id p b g' f hg T hneg _ ih =>
    obtain ⟨N1, hT⟩ := T.complete
    obtain ⟨N, ih⟩ := ih
    refine ⟨N1 + N + 1, fun n hn m hm => ?_⟩
    obtain ⟨n, rfl⟩ : ∃ k, n = k + 1 := ⟨n - 1, by omega⟩
    obtain ⟨m1, hc1, hm1⟩ := hT n (by omega) m hm
    have h := ih n (by omega) m1 hm1
    subst hm
    simp only [Fails, Computes] at h hc1 ⊢
    rw [parseBlocks, hg, Out.ofOption_some, Out.ok_bind, hc1, Out.ok_bind]
    dsimp only
    rw [if_neg hneg]
    exact bind_bad.mpr (.inl h)
  | @arg g i id is f hi _ ih =>
    obtain ⟨N, ih⟩ := ih
    refine ⟨N, fun n hn m hm => ?_⟩
    have h := ih n hn m hm
    simp only [Fails] at h ⊢
    rw [applyBlocks]
    exact bind_bad.mpr (.inl (applyItem_bad.mpr ⟨id, f, hi, h, rfl⟩))
  | @nextArg g i i' is g' f T _ ih =>
    obtain ⟨N1, hT⟩ := T.complete
    obtain ⟨N, ih⟩ := ih
    refine ⟨N1 + N, fun n hn m hm => ?_⟩
    obtain ⟨m1, hc1, hm1⟩ := hT n (by omega) m hm
    have h := ih n (by omega) m1 hm1
    simp only [Fails, Computes] at h hc1 ⊢
    rw [applyBlocks, Out.bind_eq_ok] at hc1
    obtain ⟨⟨i1, m2⟩, h1, h2⟩ := hc1
    simp [applyBlocks] at h2
    obtain ⟨rfl, rfl⟩ := h2
    rw [applyBlocks, h1, Out.ok_bind]
    exact bind_bad.mpr (.inl h)

end Swrs.Api
