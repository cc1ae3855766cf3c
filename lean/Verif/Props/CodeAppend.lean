import Verif.Props.BlockEdit
/-!
# C145: code that is added at the end of other code

The blocks get their numbers in the order in which they are written, so that blocks at the end of the code come after all others: nothing is renumbered, and of
the lines that were there only that of the block before the new ones is another, by the number of the block after it.
-/
set_option linter.unusedSectionVars false
namespace Swrs.Api
open Format
section
variable [Floats]

theorem c145_block {l : Block} {ctr : Nat} {qs : List ParserBlock} {k : Nat} (h : convertBlock l ctr true = .ok (qs, k)) :
    ∃ params s1 s2 w, c144_Texts l.content params ∧ qs = emitted l (ctr + 1) (-1) params s1 s2 :: w ∧
      convertBlock l ctr false = .ok (emitted l (ctr + 1) (Int32.ofNat (k + 1)) params s1 s2 :: w, k) := by
  obtain ⟨s1, s2, color, op, content, t⟩ := l
  simp only [convertBlock, Out.bind_eq_ok, Prod.exists, Out.pure_eq, Out.ok.injEq, Prod.mk.injEq] at h
  obtain ⟨params, args, c1, h1, b1, p1, c2, h2, b2, p2, c3, h3, rfl, rfl⟩ := h
  exact ⟨params, p1, p2, args ++ (b1 ++ b2), c144_texts h1, rfl, by simp only [convertBlock, h1, h2, h3, Out.ok_bind, Out.pure_eq]; rfl⟩

theorem c145_blocks {as bs : List Block} {l : Block} {ctr : Nat} {ps ps' : List ParserBlock} {k k' : Nat} (hb : bs ≠ [])
    (h : convertBlocks (as ++ [l]) ctr = .ok (ps, k)) (h' : convertBlocks (as ++ l :: bs) ctr = .ok (ps', k')) :
    ∃ id params s1 s2 u w qs, c144_Texts l.content params ∧ ps = u ++ emitted l id (-1) params s1 s2 :: w ∧ id + w.length = k ∧
      ps' = u ++ emitted l id (Int32.ofNat (k + 1)) params s1 s2 :: (w ++ qs) ∧ convertBlocks bs k = .ok (qs, k') := by
  induction as generalizing ctr ps ps' with
  | nil =>
    have e : bs.isEmpty = false := by cases bs with | nil => exact absurd rfl hb | cons => rfl
    simp only [List.nil_append, convertBlocks, e, Out.bind_eq_ok, Prod.exists, Out.pure_eq, Out.ok.injEq, Prod.mk.injEq] at h h'
    obtain ⟨qs, c, h1, _, _, ⟨rfl, rfl⟩, rfl, rfl⟩ := h
    obtain ⟨qs', c', h2, rs, _, h3, rfl, rfl⟩ := h'
    have hq := convertBlock_seq _ _ _ _ _ h1
    obtain ⟨params, s1, s2, w, ht, rfl, h4⟩ := c145_block h1
    rw [h4] at h2
    cases h2
    have := hq.1
    simp only [List.length_cons] at this
    exact ⟨ctr + 1, params, s1, s2, [], w, rs, ht, by simp, by omega, rfl, h3⟩
  | cons t as ih =>
    have e : ∀ (z : Block) (b : List Block), (as ++ z :: b).isEmpty = false := fun z b => by cases as <;> rfl
    simp only [List.cons_append, convertBlocks, e, Out.bind_eq_ok, Prod.exists, Out.pure_eq, Out.ok.injEq, Prod.mk.injEq] at h h'
    obtain ⟨qs, c, h1, rs, _, h2, rfl, rfl⟩ := h
    obtain ⟨qs', c', h1', rs', _, h2', rfl, rfl⟩ := h'
    rw [h1] at h1'
    cases h1'
    obtain ⟨id, params, s1, s2, u, w, x, ht, rfl, hk, rfl, hx⟩ := ih h2 h2'
    exact ⟨id, params, s1, s2, qs ++ u, w, x, ht, by simp, hk, by simp, hx⟩

theorem c145_head {b : Block} {bs : List Block} {ctr : Nat} {ps : List ParserBlock} {k : Nat} (h : convertBlocks (b :: bs) ctr = .ok (ps, k)) :
    ∃ params next s1 s2 w, c144_Texts b.content params ∧ ps = emitted b (ctr + 1) next params s1 s2 :: w := by
  obtain ⟨t1, t2, color, op, content, t⟩ := b
  simp only [convertBlocks, convertBlock, Out.bind_eq_ok, Prod.exists, Out.pure_eq, Out.ok.injEq, Prod.mk.injEq] at h
  obtain ⟨_, _, ⟨params, args, c1, h1, b1, p1, c2, h2, b2, p2, c3, h3, rfl, rfl⟩, rs, c, h4, rfl, rfl⟩ := h
  exact ⟨params, _, p1, p2, _, c144_texts h1, rfl⟩

/-- C145: what is written of code with more blocks at its end: the same blocks with the same numbers, then the new ones with the numbers after them; the block
before the new ones gets the number of the first of them as the next one. -/
theorem c145_container (as bs : List Block) (l b : Block) (c c' : BlockContainer) (h : toContainer (as ++ [l]) = .ok c)
    (h' : toContainer (as ++ l :: b :: bs) = .ok c') :
    ∃ (id k : Nat) (params params' : List Str) (next s1 s2 t1 t2 : Int32) (u w v : List ParserBlock), c144_Texts l.content params ∧
      c144_Texts b.content params' ∧ k = 10 + c.blocks.length ∧ c.blocks = u ++ emitted l id (-1) params s1 s2 :: w ∧
      c'.blocks = u ++ emitted l id (Int32.ofNat k) params s1 s2 :: (w ++ emitted b k next params' t1 t2 :: v) ∧
      v.map (·.id) = (List.range v.length).map fun i : Nat => number ((k + 1 + i : Nat) : Int) := by
  simp only [toContainer, Out.bind_eq_ok, Prod.exists, Out.pure_eq, Out.ok.injEq] at h h'
  obtain ⟨ps, k, h1, rfl⟩ := h
  obtain ⟨ps', k', h2, rfl⟩ := h'
  obtain ⟨id, params, s1, s2, u, w, qs, ht, rfl, -, rfl, hq⟩ := c145_blocks (by simp) h1 h2
  have hs := (convertBlocks_seq _ _ _ _ h1).1
  obtain ⟨-, hq2⟩ := convertBlocks_seq _ _ _ _ hq
  obtain ⟨params', next, t1, t2, v, ht', rfl⟩ := c145_head hq
  have hn : ∀ k : Nat, natStr 10 k = number k := fun k => intStr_eq (.ofNat k)
  refine ⟨id, k + 1, params, params', next, s1, s2, t1, t2, u, w, v, ht, ht', by dsimp only; omega, rfl, rfl, ?_⟩
  rw [idsFrom, List.length_cons, List.range'_succ, List.map_cons, List.map_cons, List.cons.injEq] at hq2
  rw [hq2.2, List.range'_eq_map_range, List.map_map]
  exact List.map_congr_left fun i _ => hn _

theorem c145_joined {ts : List Str} (h : ts ≠ []) : ts.flatMap (fun t => t ++ ['\n']) = between "\n" ts ++ ['\n'] := by
  induction ts with
  | nil => exact absurd rfl h
  | cons t ts ih =>
    cases ts with
    | nil => simp [between]
    | cons u ts => rw [List.flatMap_cons, ih (by simp)]; simp [between]

/-- The texts of containers that are the same but for some blocks. -/
theorem c145_reconstruct {c c' : BlockContainer} {o n : List ParserBlock} (ho : o ≠ []) (hn : n ≠ []) (h : c143_Differ o n c.blocks c'.blocks) :
    c143_Differ (between "\n" (o.map (·.reconstruct))) (between "\n" (n.map (·.reconstruct))) c.reconstruct c'.reconstruct := by
  obtain ⟨a, b, h1, h2⟩ := h
  unfold BlockContainer.reconstruct
  rw [c143_fold (fun b : ParserBlock => b.reconstruct ++ ['\n']), c143_fold (fun b : ParserBlock => b.reconstruct ++ ['\n']), h1, h2]
  have e : ∀ l : List ParserBlock, l.flatMap (fun b => b.reconstruct ++ ['\n']) = (l.map (·.reconstruct)).flatMap (fun t => t ++ ['\n']) := fun l => by
    rw [List.flatMap_map]
  rw [List.flatMap_append, List.flatMap_append, List.flatMap_append, List.flatMap_append, e o, e n, c145_joined (by simpa using ho), c145_joined (by simpa using hn)]
  exact .left _ (.left _ (.right _ (.right _ .here)))

end

section
variable [MapPol] [Floats]

/-- Specification: of two texts that are the same but for one place, the first has the line of the last block and those of the blocks in it, and the second has
these lines, with the number of the next block, and after them the line of the new block and more lines. -/
def c145_Longer (l b : Block) (old new : Str) : Prop :=
  ∃ (id k : Nat) (params params' : List Str) (s1 s2 next t1 t2 : Int) (w v : List Str), c144_Texts l.content params ∧ c144_Texts b.content params' ∧
    c143_Differ (between "\n" (c144_line l params id (-1) s1 s2 :: w))
      (between "\n" (c144_line l params id (Int32.ofNat k).toInt s1 s2 :: (w ++ c144_line b params' k next t1 t2 :: v))) old new

theorem c145_text {as bs : List Block} {l b : Block} {c c' : BlockContainer} (h : toContainer (as ++ [l]) = .ok c) (h' : toContainer (as ++ l :: b :: bs) = .ok c') :
    ∃ x y, Tidy x ∧ Tidy y ∧ c143_Differ x y c.reconstruct c'.reconstruct ∧ ∀ s s', c143_Differ x y s s' → c145_Longer l b s s' := by
  obtain ⟨id, k, params, params', next, s1, s2, t1, t2, u, w, v, ht, ht', -, h1, h2, -⟩ := c145_container as bs l b c c' h h'
  refine ⟨_, _, ?_, ?_, c145_reconstruct (o := emitted l id (-1) params s1 s2 :: w)
    (n := emitted l id (Int32.ofNat k) params s1 s2 :: (w ++ emitted b k next params' t1 t2 :: v)) (by simp) (by simp) ⟨u, [], by simp [h1], by simp [h2]⟩, ?_⟩
  · exact tidy_between (by simp) fun t ht => by obtain ⟨q, -, rfl⟩ := List.mem_map.mp ht; exact c143_tidy q
  · exact tidy_between (by simp) fun t ht => by obtain ⟨q, -, rfl⟩ := List.mem_map.mp ht; exact c143_tidy q
  · intro s s' hd
    refine ⟨id, k, params, params', s1.toInt, s2.toInt, next.toInt, t1.toInt, t2.toInt, w.map (·.reconstruct), v.map (·.reconstruct), ht, ht', ?_⟩
    simpa only [List.map_cons, List.map_append, c144_emitted, show (-1 : Int32).toInt = -1 from rfl] using hd

variable (p : SketchwareProject) (before after : List Screen) (s : Screen) (rs : Option (List ResourceFileWrapper)) (raw : RawSketchwareProject) (l x : Block)
  (as bs : List Block)

/-- C145: blocks at the end of the code of an event. -/
theorem c145_event (a b : List Event) (e : Event) (c' : BlockContainer) (hp : p.screens = before ++ s :: after) (hj : (p.screens.map (·.javaName)).Nodup)
    (h : c143_Saved p rs raw) (hm : s.moreBlocks.keys.Nodup) (hn : ((codeOfScreen s).map (·.1)).Nodup) (hs : s.events = a ++ e :: b)
    (he : e.code = as ++ [l]) (hc : toContainer (as ++ l :: x :: bs) = .ok c') :
    ∃ text, c143_Saved { p with screens := before ++ { s with events := a ++ { e with code := as ++ l :: x :: bs } :: b } :: after } rs { raw with logic := text } ∧
      c145_Longer l x raw.logic text := by
  obtain ⟨c, h1⟩ := c144_converts (k := e.containerId) (code := e.code) h (s := s) (by simp [hp]) (by simp [codeOfScreen, hs])
  obtain ⟨t, t', ht, ht', hd, hl⟩ := c145_text (he ▸ h1) hc
  obtain ⟨text, h3, h4⟩ := c143_coded p before after s rs raw { s with events := a ++ { e with code := as ++ l :: x :: bs } :: b } (a.map fun e => (e.containerId, e.code))
    (b.map (fun e => (e.containerId, e.code)) ++ s.moreBlocks.map fun m => (m.1 ++ s% "_moreBlock", m.2.code)) e.containerId e.code (as ++ l :: x :: bs) c c' t t' ht ht'
    hp hj h hm hm hn (by simp [codeOfScreen, hs]) (by simp [codeOfScreen, Event.containerId]) h1 hc hd rfl ⟨rfl, rfl, rfl⟩ rfl
    fun l₁ l₂ h1 h2 => (c91_event_code s a b e _ l₁ l₂ hs h1 h2).1
  exact ⟨text, h3, hl _ _ h4⟩

/-- C145: blocks at the end of the code of a moreblock. -/
theorem c145_moreblock (a b : List (Str × MoreBlock)) (id : Str) (m : MoreBlock) (c' : BlockContainer) (hp : p.screens = before ++ s :: after)
    (hj : (p.screens.map (·.javaName)).Nodup) (h : c143_Saved p rs raw) (hm : s.moreBlocks.keys.Nodup) (hn : ((codeOfScreen s).map (·.1)).Nodup)
    (hs : s.moreBlocks = a ++ (id, m) :: b) (he : m.code = as ++ [l]) (hc : toContainer (as ++ l :: x :: bs) = .ok c') :
    ∃ text, c143_Saved { p with screens := before ++ { s with moreBlocks := a ++ (id, { m with code := as ++ l :: x :: bs }) :: b } :: after } rs
        { raw with logic := text } ∧ c145_Longer l x raw.logic text := by
  obtain ⟨c, h1⟩ := c144_converts (k := id ++ s% "_moreBlock") (code := m.code) h (s := s) (by simp [hp]) (by simp [codeOfScreen, hs])
  obtain ⟨t, t', ht, ht', hd, hl⟩ := c145_text (he ▸ h1) hc
  obtain ⟨text, h3, h4⟩ := c143_coded p before after s rs raw { s with moreBlocks := a ++ (id, { m with code := as ++ l :: x :: bs }) :: b }
    (s.events.map (fun e => (e.containerId, e.code)) ++ a.map fun m => (m.1 ++ s% "_moreBlock", m.2.code)) (b.map fun m => (m.1 ++ s% "_moreBlock", m.2.code))
    (id ++ s% "_moreBlock") m.code (as ++ l :: x :: bs) c c' t t' ht ht' hp hj h hm (by rw [hs] at hm; simpa [LMap.keys] using hm) hn
    (by simp [codeOfScreen, hs]) (by simp [codeOfScreen]) h1 hc hd rfl ⟨rfl, rfl, rfl⟩ rfl
    fun l₁ l₂ h1 h2 => (c91_moreblock_code s a b id m _ l₁ l₂ hs h1 h2).1
  exact ⟨text, h3, hl _ _ h4⟩

-- a block is added to the code of the event, and another one to the code of the moreblock
example : ∃ raw text text', c143_Saved c143_demo none raw ∧ c145_Longer (exLeaf (s% "a")) (exLeaf (s% "z")) raw.logic text ∧
    c145_Longer (exLeaf (s% "b")) (exLeaf (s% "y")) raw.logic text' := by
  obtain ⟨raw, h⟩ := c143_demo_saved
  have hj : (c143_demo.screens.map (·.javaName)).Nodup := by show [s% "MainActivity", s% "SecondActivity"].Nodup; decide
  have hm : c143_main.moreBlocks.keys.Nodup := by show [s% "m"].Nodup; decide
  have hn : ((codeOfScreen c143_main).map (·.1)).Nodup := by show [s% "onBackPressed_onBackPressed", s% "m_moreBlock"].Nodup; decide
  obtain ⟨t, -, ht⟩ := c145_event c143_demo [] [_] c143_main none raw (exLeaf (s% "a")) (exLeaf (s% "z")) [] [] [] []
    ⟨s% "onBackPressed", .activityEvent, [exLeaf (s% "a")]⟩ _ rfl hj h hm hn rfl rfl rfl
  obtain ⟨t', -, ht'⟩ := c145_moreblock c143_demo [] [_] c143_main none raw (exLeaf (s% "b")) (exLeaf (s% "y")) [] [] [] [] (s% "m")
    ⟨s% "m", [.text (s% "m")], [exLeaf (s% "b")]⟩ _ rfl hj h hm hn rfl rfl rfl
  exact ⟨raw, t, t', h, ht, ht'⟩

-- the code before has a block with a substack at its end
example : ∃ c c', toContainer ([exLeaf (s% "x")] ++ [exIf]) = .ok c ∧ toContainer ([exLeaf (s% "x")] ++ exIf :: exLeaf (s% "c") :: []) = .ok c' ∧ c.blocks.length = 4 := by
  have r : blocksReady [exLeaf (s% "x"), exIf] ∧ blocksReady [exLeaf (s% "x"), exIf, exLeaf (s% "c")] := by
    simp [blocksReady, blockReady, itemsReady, itemReady, stackReady, exIf, exLeaf]
  have z : blocksSize [exLeaf (s% "x"), exIf] = 4 ∧ blocksSize [exLeaf (s% "x"), exIf, exLeaf (s% "c")] = 5 := by
    simp [blocksSize, blockSize, itemsSize, itemSize, stackSize, exIf, exLeaf]
  obtain ⟨c, hc, hl⟩ := (c44_converts _).1 r.1 (by omega)
  obtain ⟨c', hc', -⟩ := (c44_converts _).1 r.2 (by omega)
  exact ⟨c, c', hc, hc', by omega⟩
end
end Swrs.Api
