import Verif.Proofs.BlockFail
import Verif.Props.Blocks
/-!
# C76: the errors of converting a block container
-/
namespace Swrs.Api
variable [Floats]

/-! ## C76 — Which error a block container gives -/

omit [Floats] in
theorem blockMap_err [MapPol] (bs : List ParserBlock) (acc : BlockMap) (e : BlockConversionError) : blockMap bs acc = .err e ↔
    ∃ pre b post, bs = pre ++ b :: post ∧ (∀ p ∈ pre, (parseU32 p.id).isSome) ∧ parseU32 b.id = none ∧
      e = .malformedBlockId b.id := by
  induction bs generalizing acc with
  | nil => simp [blockMap]
  | cons b bs ih =>
    rw [blockMap]
    cases hb : parseU32 b.id with
    | none =>
      constructor
      · intro h
        simp at h
        exact ⟨[], b, bs, rfl, by simp, hb, h.symm⟩
      · rintro ⟨pre, b', post, h1, h2, h3, rfl⟩
        cases pre with
        | nil => simp at h1; simp [h1.1]
        | cons p pre =>
          have := h2 p (by simp)
          simp at h1
          rw [← h1.1, hb] at this; simp at this
    | some id =>
      rw [Out.ofOption_some, Out.ok_bind, ih]
      constructor
      · rintro ⟨pre, b', post, rfl, h2, h3, rfl⟩
        exact ⟨b :: pre, b', post, rfl, by simpa [hb] using h2, h3, rfl⟩
      · rintro ⟨pre, b', post, h1, h2, h3, rfl⟩
        cases pre with
        | nil => simp at h1; rw [h1.1, h3] at hb; simp at hb
        | cons p pre =>
          simp at h1
          exact ⟨pre, b', post, h1.2, fun q hq => h2 q (by simp [hq]), h3, rfl⟩

theorem tryFrom_bad [MapPol] (c : BlockContainer) (f : Failure) :
    (∃ n, ∀ k, n ≤ k → tryFromFuel k c = bad f) ↔ (∃ e, blockMap c.blocks [] = .err e ∧ f = .error e) ∨
      ∃ es id p rest, Numbered c es ∧ LMap.collect es = (id, p) :: rest ∧ Fail (LMap.last es) (.blocks id) f := by
  have hget : ∀ es : List (UInt32 × ParserBlock), LMap.get (LMap.collect es) = LMap.last es := by
    intro es; funext k; exact LMap.get_collect es k
  constructor
  · rintro ⟨n, h⟩
    have h := h n (Nat.le_refl _)
    rw [tryFromFuel, bind_bad] at h
    rcases h with h | ⟨m, hm, h⟩
    · rcases lift_bad.mp h with ⟨e, h1, h2⟩ | ⟨h1, _⟩
      · exact .inl ⟨e, h1, h2⟩
      · exact absurd h1 (blockMap_ne_panic _ _)
    · rw [lift_ok] at hm
      obtain ⟨es, hes, hm⟩ := (blockMap_ok _ _ _).mp hm
      have hm : LMap.collect es = m := hm
      split at h
      · exact absurd h ok_ne_bad
      · next id p rest _ _ =>
        rw [bind_bad] at h
        rcases h with h | ⟨a, _, h⟩
        · have := (parse_fail n).2 _ _ _ h
          rw [← hm, hget] at this
          exact .inr ⟨es, id, p, rest, hes, hm, this⟩
        · exact absurd h ok_ne_bad
  · rintro (⟨e, h, rfl⟩ | ⟨es, id, p, rest, hes, hm, h⟩)
    · refine ⟨0, fun k _ => ?_⟩
      rw [tryFromFuel, h]; rfl
    · obtain ⟨N, hN⟩ := fail_complete h
      refine ⟨N, fun k hk => ?_⟩
      have h1 : blockMap c.blocks [] = .ok (LMap.collect es) := (blockMap_ok _ _ _).mpr ⟨es, hes, rfl⟩
      have h2 := hN k hk (LMap.collect es) (hget es)
      rw [hm] at h1 h2
      rw [tryFromFuel, h1]
      show (parseBlocks k id _ >>= _) = _
      exact bind_bad.mpr (.inl h2)

theorem tryFrom_bad' [MapPol] (c : BlockContainer) (f : Failure) :
    (tryFrom c).mapErr some = bad f ↔ ∃ n, ∀ k, n ≤ k → tryFromFuel k c = bad f := by
  constructor
  · intro h
    exact ⟨2 * c.blocks.length + 2, fun k hk => by rw [c43_terminates c k hk, h]⟩
  · rintro ⟨n, h⟩
    rw [← c43_terminates c _ (Nat.le_max_right n _)]
    exact h _ (Nat.le_max_left _ _)

/-- C76: the conversion gives an error iff an id is not a number, and then the error names the first such id, or it is
the first failure met when following the pointers from the first block. -/
theorem c76_error [MapPol] (c : BlockContainer) (e : BlockConversionError) :
    tryFrom c = .err e ↔
      (∃ pre b post, c.blocks = pre ++ b :: post ∧ (∀ p ∈ pre, (parseU32 p.id).isSome) ∧ parseU32 b.id = none ∧
        e = .malformedBlockId b.id) ∨
      ∃ es id p rest, Numbered c es ∧ LMap.collect es = (id, p) :: rest ∧ Fail (LMap.last es) (.blocks id) (.error e) := by
  have h := (tryFrom_bad' c (.error e)).trans (tryFrom_bad c (.error e))
  rw [← blockMap_err c.blocks []]
  have h1 : (tryFrom c).mapErr some = (bad (.error e) : Run (List Block)) ↔ tryFrom c = .err e := by
    cases tryFrom c <;> simp [bad, Out.mapErr]
  rw [← h1, h]
  constructor
  · rintro (⟨e', h2, h3⟩ | h2)
    · cases h3; exact .inl h2
    · exact .inr h2
  · rintro (h2 | h2)
    · exact .inl ⟨e, h2, rfl⟩
    · exact .inr h2

/-- C76: the conversion panics iff a spec on which reading panics is the first failure met. -/
theorem c76_panic [MapPol] (c : BlockContainer) :
    tryFrom c = .panic ↔
      ∃ es id p rest, Numbered c es ∧ LMap.collect es = (id, p) :: rest ∧ Fail (LMap.last es) (.blocks id) .panic := by
  have h := (tryFrom_bad' c .panic).trans (tryFrom_bad c .panic)
  have h1 : (tryFrom c).mapErr some = (bad .panic : Run (List Block)) ↔ tryFrom c = .panic := by
    cases tryFrom c <;> simp [bad, Out.mapErr]
  rw [← h1, h]
  constructor
  · rintro (⟨e', _, h3⟩ | h2)
    · cases h3
    · exact h2
  · exact .inr

/-- One of the pointers of the block is to the id. -/
def PointsTo (b : ParserBlock) (id : UInt32) : Prop :=
  ∃ p ∈ [b.nextBlock, b.subStack1, b.subStack2], ¬ p < 0 ∧ pointerId p = id

/-- What an error says is so of some blocks. -/
def Truthful (bs : List ParserBlock) : BlockConversionError → Prop
  | .malformedBlockId s => (∃ b ∈ bs, b.id = s) ∧ parseU32 s = none
  | .blockNotFound id => ∃ b ∈ bs, PointsTo b id
  | .substack1 id ptr e => (∃ b ∈ bs, parseU32 b.id = some id ∧ ¬ b.subStack1 < 0 ∧ pointerId b.subStack1 = ptr) ∧ Truthful bs e
  | .substack2 id ptr e => (∃ b ∈ bs, parseU32 b.id = some id ∧ ¬ b.subStack2 < 0 ∧ pointerId b.subStack2 = ptr) ∧ Truthful bs e
  | .invalidType e => ∃ b ∈ bs, b.type = e.blockType ∧ b.typeName = e.typeName ∧ ∀ t, BlockType.parse b.type b.typeName ≠ .ok t
  | .content e => ∃ b ∈ bs, (BlockContent.parse b.spec b.parameters : Out _ (BlockContent Block)) = .err e ∨
      ∃ id c, e = .blockNotFound id ∧ BlockContent.parse b.spec b.parameters = .ok c ∧ ∃ i ∈ c, refOf i = some id

/-- The blocks looked for are pointed to. -/
def Wanted (bs : List ParserBlock) (g : UInt32 → Option ParserBlock) : Search → Prop
  | .block id => (∃ b ∈ bs, PointsTo b id) ∨ (g id).isSome ∨
      ∃ b ∈ bs, ∃ c, BlockContent.parse b.spec b.parameters = .ok c ∧ ∃ i ∈ c, refOf i = some id
  | .blocks id => (∃ b ∈ bs, PointsTo b id) ∨ (g id).isSome
  | .items is => ∃ b ∈ bs, ∃ pre, BlockContent.parse b.spec b.parameters = .ok (pre ++ is)

/-- An error of the search says what is so; that of a block an argument refers to is lost. -/
theorem fail_truthful {bs : List ParserBlock} {g : UInt32 → Option ParserBlock} {S : Search} {f : Failure} (h : Fail g S f)
    (hg : ∀ k p, g k = some p → p ∈ bs ∧ parseU32 p.id = some k) (hw : Wanted bs g S) :
    ∀ e, f = .error e → Truthful bs e ∨ ∃ id, S = .block id ∧ e = .blockNotFound id ∧ g id = none := by
  have hdrop : ∀ {g : UInt32 → Option ParserBlock} {u : List UInt32},
      (∀ k p, g k = some p → p ∈ bs ∧ parseU32 p.id = some k) →
      ∀ k p, drop g u k = some p → p ∈ bs ∧ parseU32 p.id = some k := by
    intro g u hg k p h
    unfold drop at h
    split at h
    · simp at h
    · exact hg k p h
  have htook : ∀ {g g' : UInt32 → Option ParserBlock} {G : Goal}, Took g G g' →
      (∀ k p, g k = some p → p ∈ bs ∧ parseU32 p.id = some k) →
      ∀ k p, g' k = some p → p ∈ bs ∧ parseU32 p.id = some k := by
    rintro g g' G ⟨u, _, _, rfl⟩ hg
    exact hdrop hg
  have hmap : ∀ {f : Failure} {w : BlockConversionError → BlockConversionError} {e : BlockConversionError},
      f.map w = .error e → ∃ e', f = .error e' ∧ e = w e' := by
    intro f w e h
    cases f with
    | error e' => simp only [Failure.map, Failure.error.injEq] at h; exact ⟨e', rfl, h.symm⟩
    | panic => simp [Failure.map] at h
  have hblocks : ∀ {g : UInt32 → Option ParserBlock} {id : UInt32} {e : BlockConversionError},
      (Truthful bs e ∨ ∃ id', Search.blocks id = .block id' ∧ e = .blockNotFound id' ∧ g id' = none) → Truthful bs e := by
    rintro g id e (h | ⟨_, h, _⟩)
    · exact h
    · simp at h
  induction h with
  | @missing g id h0 =>
    intro e he
    cases he
    exact .inr ⟨id, rfl, rfl, h0⟩
  | @sub1 g id p f h0 hn F ih =>
    intro e he
    obtain ⟨e', rfl, rfl⟩ := hmap he
    obtain ⟨hp, hid⟩ := hg _ _ h0
    exact .inl ⟨⟨p, hp, hid, hn, rfl⟩, hblocks (ih (hdrop hg) (.inl ⟨p, hp, _, by simp, hn, rfl⟩) e' rfl)⟩
  | @sub2 g id p s1 g1 f h0 T1 hn F ih =>
    intro e he
    obtain ⟨e', rfl, rfl⟩ := hmap he
    obtain ⟨hp, hid⟩ := hg _ _ h0
    exact .inl ⟨⟨p, hp, hid, hn, rfl⟩, hblocks (ih (htook T1 (hdrop hg)) (.inl ⟨p, hp, _, by simp, hn, rfl⟩) e' rfl)⟩
  | @spec g id p s1 g1 s2 g2 e h0 T1 T2 hc =>
    intro e' he
    cases he
    exact .inl ⟨p, (hg _ _ h0).1, .inl hc⟩
  | specPanic => intro e he; cases he
  | @args g id p s1 g1 s2 g2 c f h0 T1 T2 hc F ih =>
    intro e he
    rcases ih (htook T2 (htook T1 (hdrop hg))) ⟨p, (hg _ _ h0).1, [], by simpa using hc⟩ e he with h | ⟨_, h, _⟩
    · exact .inl h
    · simp at h
  | @type g id p s1 g1 s2 g2 c c' g3 e h0 T1 T2 hc T3 ht =>
    intro e' he
    cases he
    have : e = ⟨p.type, p.typeName⟩ := by
      rcases c51_refused p.type p.typeName with ⟨t, h⟩ | h
      · rw [h] at ht; simp at ht
      · rw [h] at ht; simp at ht; exact ht.symm
    exact .inl ⟨p, (hg _ _ h0).1, by rw [this], by rw [this], fun t h => by rw [h] at ht; simp at ht⟩
  | @first g id f F ih =>
    intro e he
    rcases ih hg (hw.elim .inl fun h => .inr (.inl h)) e he with h | ⟨id', h1, h2, h3⟩
    · exact .inl h
    · cases h1
      rcases hw with hw | hw
      · subst h2; exact .inl hw
      · rw [h3] at hw; simp at hw
  | @later g id p b g' f h0 T hn F ih =>
    intro e he
    have hp := (hg _ _ h0).1
    rcases ih (htook T hg) (.inl ⟨p, hp, _, by simp, hn, rfl⟩) e he with h | ⟨_, h, _⟩
    · exact .inl h
    · simp at h
  | @arg g i id is f hi F ih =>
    intro e he
    obtain ⟨e', _, rfl⟩ := hmap he
    obtain ⟨b, hb, pre, hc⟩ := hw
    exact .inl ⟨b, hb, .inr ⟨id, _, rfl, hc, i, by simp, hi⟩⟩
  | @nextArg g i i' is g' f T F ih =>
    intro e he
    obtain ⟨b, hb, pre, hc⟩ := hw
    rcases ih (htook T hg) ⟨b, hb, pre ++ [i], by simpa using hc⟩ e he with h | ⟨_, h, _⟩
    · exact .inl h
    · simp at h

/-- C76: what the error says is so of the container: the id is no number, the missing block is pointed to, the block
whose substack is wrong has that id and pointer, the spec or the type that cannot be read is that of a block. -/
theorem c76_truthful [MapPol] (c : BlockContainer) (e : BlockConversionError) (h : tryFrom c = .err e) :
    Truthful c.blocks e := by
  rcases (c76_error c e).mp h with ⟨pre, b, post, h1, h2, h3, rfl⟩ | ⟨es, id, p, rest, hes, hm, F⟩
  · exact ⟨⟨b, by simp [h1], rfl⟩, h3⟩
  · have hlast : ∀ k p, LMap.last es k = some p → p ∈ c.blocks ∧ parseU32 p.id = some k := by
      intro k p hk
      have hmem : (k, p) ∈ es := by
        unfold LMap.last at hk
        exact List.mem_reverse.mp (LMap.get_mem hk)
      exact all₂_mem hes hmem
    have hsome : (LMap.last es id).isSome := by
      rw [← LMap.get_collect, hm]
      simp [LMap.get]
    rcases fail_truthful F hlast (.inr hsome) e rfl with h | ⟨_, h, _⟩
    · exact h
    · simp at h
where
  all₂_mem {bs : List ParserBlock} {es : List (UInt32 × ParserBlock)}
      (h : All₂ (fun (b : ParserBlock) (e : UInt32 × ParserBlock) => parseU32 b.id = some e.1 ∧ e.2 = b) bs es)
      {k : UInt32} {p : ParserBlock} (hm : (k, p) ∈ es) : p ∈ bs ∧ parseU32 p.id = some k := by
    induction h with
    | nil => simp at hm
    | cons h _ ih =>
      simp only [List.mem_cons] at hm
      rcases hm with rfl | hm
      · obtain ⟨h1, h2⟩ := h
        simp only at h2
        subst h2
        exact ⟨by simp, h1⟩
      · exact ⟨by simp [(ih hm).1], (ih hm).2⟩

theorem fail_panic {g : UInt32 → Option ParserBlock} {S : Search} {f : Failure} (h : Fail g S f) (hf : f = .panic) :
    ∃ k p, g k = some p ∧ (BlockContent.parse p.spec p.parameters : Out _ (BlockContent Block)) = .panic := by
  have hmap : ∀ {f : Failure} {w : BlockConversionError → BlockConversionError}, f.map w = .panic → f = .panic := by
    intro f w h
    cases f with
    | error e' => simp [Failure.map] at h
    | panic => rfl
  have hdrop : ∀ {g : UInt32 → Option ParserBlock} {u : List UInt32} {Q : ParserBlock → Prop},
      (∃ k p, drop g u k = some p ∧ Q p) → ∃ k p, g k = some p ∧ Q p := by
    rintro g u Q ⟨k, p, h, hq⟩
    unfold drop at h
    split at h
    · simp at h
    · exact ⟨k, p, h, hq⟩
  have htook : ∀ {g g' : UInt32 → Option ParserBlock} {G : Goal} {Q : ParserBlock → Prop}, Took g G g' →
      (∃ k p, g' k = some p ∧ Q p) → ∃ k p, g k = some p ∧ Q p := by
    rintro g g' G Q ⟨u, _, _, rfl⟩ h
    exact hdrop h
  induction h with
  | missing => cases hf
  | sub1 _ _ _ ih => exact hdrop (ih (hmap hf))
  | sub2 _ T1 _ _ ih => exact hdrop (htook T1 (ih (hmap hf)))
  | spec => cases hf
  | specPanic hg _ _ hc => exact ⟨_, _, hg, hc⟩
  | args _ T1 T2 _ _ ih => exact hdrop (htook T1 (htook T2 (ih hf)))
  | type => cases hf
  | first _ ih => exact ih hf
  | later _ T _ _ ih => exact htook T (ih hf)
  | arg _ _ ih => exact ih (hmap hf)
  | nextArg T _ ih => exact htook T (ih hf)

/-- C76: the conversion panics only on a container in which reading the spec of a block panics. -/
theorem c76_panic_spec [MapPol] (c : BlockContainer) (h : tryFrom c = .panic) :
    ∃ b ∈ c.blocks, (BlockContent.parse b.spec b.parameters : Out _ (BlockContent Block)) = .panic := by
  obtain ⟨es, id, p, rest, hes, hm, F⟩ := (c76_panic c).mp h
  obtain ⟨k, p, hk, hp⟩ := fail_panic F rfl
  have hmem : (k, p) ∈ es := by
    unfold LMap.last at hk
    exact List.mem_reverse.mp (LMap.get_mem hk)
  exact ⟨p, (c76_truthful.all₂_mem hes hmem).1, hp⟩

section Examples
local instance blockErrorsPol : MapPol := ⟨false, false⟩

/-- The second block has a substack that does not exist. -/
example : tryFrom ⟨[exBlock (s% "10") 11 (-1) (s% "a") [], exBlock (s% "11") (-1) 15 (s% "b") []]⟩ =
    .err (.substack1 11 15 (.blockNotFound 15)) := rfl
/-- An argument refers to a block whose own spec is wrong: only its id is reported. -/
example : tryFrom ⟨[exBlock (s% "10") (-1) (-1) (s% "a %s") [s% "@11"], exBlock (s% "11") (-1) (-1) (s% "b %x") []]⟩ =
    .err (.content (.blockNotFound 11)) := rfl
/-- A parameter without a letter. -/
example : tryFrom ⟨[exBlock (s% "10") (-1) (-1) (s% "a %") [s% "b"]]⟩ = .panic := rfl
end Examples

end Swrs.Api
