import Verif.Props.FileFormat
import Verif.Proofs.PoolSpec
import Verif.Props.LogicRead
import Verif.Base.Steps
import Verif.Base.FloatInst
import Verif.Proofs.BlockEmit
/-!
# C80: empty collections

What is written for an empty collection, which collections are written as nothing, and which texts are read as an empty
collection.
-/
namespace Swrs

/-! ## C80 — Empty collections -/

theorem dropWhile_isWs_nil {s : Str} : s.dropWhile isWs = [] ↔ ∀ c ∈ s, isWs c = true := by
  induction s with
  | nil => simp
  | cons a s ih =>
    rw [List.dropWhile_cons]
    by_cases h : isWs a = true
    · rw [if_pos h, ih]; simp [h]
    · rw [if_neg h]; simp [h]

theorem trimEnd_eq_nil_iff {s : Str} : trimEnd s = [] ↔ ∀ c ∈ s, isWs c = true := by
  unfold trimEnd
  rw [List.reverse_eq_nil_iff, dropWhile_isWs_nil]
  simp

theorem trim_eq_nil_iff {s : Str} : trim s = [] ↔ ∀ c ∈ s, isWs c = true := by
  unfold trim
  rw [trimEnd_eq_nil_iff]
  constructor
  · intro h
    cases hd : trimStart s with
    | nil => exact dropWhile_isWs_nil.mp hd
    | cons a t =>
      have h1 : isWs a = true := h a (by rw [hd]; simp)
      have h2 := List.head?_dropWhile_not isWs s
      have h3 : (s.dropWhile isWs).head? = some a := by rw [show s.dropWhile isWs = a :: t from hd]; rfl
      rw [h3] at h2; simp [h1] at h2
  · intro h c hc
    exact h c ((List.dropWhile_sublist _).mem hc)

theorem mem_foldl_lines {α : Type} {f : α → Str} {as : List α} {c : Char} :
    ∀ {acc : Str}, c ∈ as.foldl (fun acc a => acc ++ f a) acc ↔ c ∈ acc ∨ ∃ a ∈ as, c ∈ f a := by
  induction as with
  | nil => simp
  | cons a as ih => intro acc; rw [List.foldl_cons, ih]; simp [or_assoc]

theorem foldLines_nil {ls : List Str} (h : ∀ l ∈ ls, ∃ c ∈ l, isWs c = false) : foldLines ls = [] ↔ ls = [] := by
  unfold foldLines
  rw [trim_eq_nil_iff]
  constructor
  · intro hw
    cases ls with
    | nil => rfl
    | cons l ls =>
      obtain ⟨c, hc, hn⟩ := h l (by simp)
      have := hw c (mem_foldl_lines.mpr (Or.inr ⟨l, by simp, by simp [hc]⟩))
      rw [hn] at this; cases this
  · rintro rfl; simp

theorem brace_mem {kvs : List (String × Str)} : ∃ c ∈ Format.record kvs, isWs c = false :=
  ⟨'{', by simp [Format.record], by decide⟩

/-- C80: an empty pool is written as nothing, and it is the only one. -/
theorem c80_written_empty :
    (∀ p : VariablePool, p.reconstruct = [] ↔ p = VariablePool.default) ∧
    (∀ p : ListVariablePool, p.reconstruct = [] ↔ p = ListVariablePool.default) ∧
    (∀ p : ComponentPool, p.reconstruct = [] ↔ p = ComponentPool.default) ∧
    (∀ p : EventPool, p.reconstruct = [] ↔ p = EventPool.default) ∧
    (∀ p : MoreBlockPool, p.reconstruct = [] ↔ p = MoreBlockPool.default) ∧
    (∀ p : BlockContainer, p.reconstruct = [] ↔ p = BlockContainer.default) := by
  have colon : isWs ':' = false := by decide
  refine ⟨fun ⟨m⟩ => ?_, fun ⟨m⟩ => ?_, fun ⟨m⟩ => ?_, fun ⟨m⟩ => ?_, fun ⟨m⟩ => ?_, fun ⟨m⟩ => ?_⟩
  · rw [show VariablePool.reconstruct ⟨m⟩ = foldLines (m.map fun e => e.2.reconstruct) from rfl, foldLines_nil]
    · simp [VariablePool.default]
    · intro l hl; simp only [List.mem_map] at hl; obtain ⟨e, _, rfl⟩ := hl
      exact ⟨':', by simp [Variable.reconstruct], colon⟩
  · rw [show ListVariablePool.reconstruct ⟨m⟩ = foldLines (m.map fun e => e.2.reconstruct) from rfl, foldLines_nil]
    · simp [ListVariablePool.default]
    · intro l hl; simp only [List.mem_map] at hl; obtain ⟨e, _, rfl⟩ := hl
      exact ⟨':', by simp [ListVariable.reconstruct], colon⟩
  · cases m with
    | nil => simp [ComponentPool.default, ComponentPool.reconstruct, trimEnd]
    | cons c m =>
      simp only [ComponentPool.default, ComponentPool.mk.injEq, reduceCtorEq, iff_false]
      intro h
      obtain ⟨x, hx, hn⟩ : ∃ x ∈ c.reconstruct, isWs x = false := by rw [c62_component]; exact brace_mem
      have := trimEnd_eq_nil_iff.mp h x (mem_foldl_lines.mpr (Or.inr ⟨c, by simp, by simp [hx]⟩))
      rw [hn] at this; cases this
  · rw [show EventPool.reconstruct ⟨m⟩ = foldLines (m.map Event.reconstruct) from rfl, foldLines_nil]
    · simp [EventPool.default]
    · intro l hl; simp only [List.mem_map] at hl; obtain ⟨e, _, rfl⟩ := hl
      rw [c62_event]; exact brace_mem
  · rw [show MoreBlockPool.reconstruct ⟨m⟩ = foldLines (m.map fun e => e.2.reconstruct) from rfl, foldLines_nil]
    · simp [MoreBlockPool.default]
    · intro l hl; simp only [List.mem_map] at hl; obtain ⟨e, _, rfl⟩ := hl
      exact ⟨':', by simp [MoreBlock.reconstruct], colon⟩
  · cases m with
    | nil => simp [BlockContainer.default, BlockContainer.reconstruct]
    | cons b m =>
      simp only [BlockContainer.default, BlockContainer.mk.injEq, reduceCtorEq, iff_false]
      intro h
      have : '\n' ∈ BlockContainer.reconstruct ⟨b :: m⟩ := mem_foldl_lines.mpr (Or.inr ⟨b, by simp, by simp⟩)
      rw [h] at this; simp at this

theorem lines_entry_nil (s : Str) : entryLines (lines s) = [] ↔ s = [] ∨ s.head? = some '\n' := by
  cases s with
  | nil => simp [lines, splitOn, entryLines]
  | cons a s =>
    by_cases h : a = '\n'
    · subst h; simp [lines, splitOn, entryLines]
    · have : ∃ l ls, lines (a :: s) = (a :: l) :: ls := by
        unfold lines splitOn
        rw [if_neg h]
        cases splitOn '\n' s <;> simp
      obtain ⟨l, ls, hl⟩ := this
      rw [hl]; simp [entryLines, h]

theorem collect_nil [MapPol] {α : Type} (es : List (Str × α)) : LMap.collect es = [] ↔ es = [] := by
  constructor
  · intro h
    cases es with
    | nil => rfl
    | cons e es =>
      have h1 := LMap.get_collect (e :: es) e.1
      rw [h, LMap.last_cons] at h1
      cases h2 : LMap.last es e.1 <;> rw [h2] at h1 <;> simp [LMap.get] at h1
  · rintro rfl; rfl

theorem readPool_empty {ε ε' α β : Type} {p : Str → Out ε α} {mk : Nat → Str → ε → ε'} (hp : ∀ l, p l ≠ .panic) (s : Str)
    (f : List α → β) (d : β) (hf : ∀ as, f as = d ↔ as = []) :
    (readPool p mk (lines s) 0 [] >>= fun r => pure (f r.1) : Out ε' β) = .ok d ↔ s = [] ∨ s.head? = some '\n' := by
  rw [← lines_entry_nil]
  constructor
  · intro h
    obtain ⟨⟨as, rest⟩, h1, h2⟩ := Out.bind_eq_ok.mp h
    obtain rfl := (hf as).mp (Out.ok.inj h2)
    have := ((readPool_ok_iff mk hp _ _ _).mp h1).1
    generalize entryLines (lines s) = ls at this
    cases this; rfl
  · intro h
    have h1 := (readPool_ok_iff mk hp (lines s) [] _).mpr ⟨by rw [h]; exact .nil, rfl⟩
    rw [h1]
    exact congrArg Out.ok ((hf []).mpr rfl)

/-- C80: a text is read as an empty pool exactly when it is empty or begins with a line end. -/
theorem c80_read_empty [MapPol] [Floats] (s : Str) :
    (VariablePool.parse s = .ok VariablePool.default ↔ s = [] ∨ s.head? = some '\n') ∧
    (ListVariablePool.parse s = .ok ListVariablePool.default ↔ s = [] ∨ s.head? = some '\n') ∧
    (ComponentPool.parse s = .ok ComponentPool.default ↔ s = [] ∨ s.head? = some '\n') ∧
    (EventPool.parse s = .ok EventPool.default ↔ s = [] ∨ s.head? = some '\n') ∧
    (MoreBlockPool.parse s = .ok MoreBlockPool.default ↔ s = [] ∨ s.head? = some '\n') ∧
    (BlockContainer.parse s = .ok BlockContainer.default ↔ s = [] ∨ s.head? = some '\n') := by
  refine ⟨?_, ?_, ?_, ?_, ?_, ?_⟩
  · rw [← readPool_empty (mk := PoolError.mk) Variable.parse_ne_panic s
      (fun vs => (⟨LMap.collect (vs.map fun v => (v.name, v))⟩ : VariablePool)) VariablePool.default
      (fun as => by simp [VariablePool.default, collect_nil])]
    simp only [VariablePool.parse, VariablePool.parseIter, Out.bind_assoc, Out.pure_eq, Out.ok_bind]
  · rw [← readPool_empty (mk := PoolError.mk) ListVariable.parse_ne_panic s
      (fun vs => (⟨LMap.collect (vs.map fun v => (v.name, v))⟩ : ListVariablePool)) ListVariablePool.default
      (fun as => by simp [ListVariablePool.default, collect_nil])]
    simp only [ListVariablePool.parse, ListVariablePool.parseIter, Out.bind_assoc, Out.pure_eq, Out.ok_bind]
  · rw [← readPool_empty (mk := PoolError.mk) (lineParser_ne_panic Component.parse) s ComponentPool.mk ComponentPool.default
      (fun as => by simp [ComponentPool.default])]
    simp only [ComponentPool.parse, ComponentPool.parseIter, Out.bind_assoc, Out.pure_eq, Out.ok_bind]
  · rw [← readPool_empty (mk := PoolError.mk) (lineParser_ne_panic Event.parse) s EventPool.mk EventPool.default
      (fun as => by simp [EventPool.default])]
    simp only [EventPool.parse, EventPool.parseIter, Out.bind_assoc, Out.pure_eq, Out.ok_bind]
  · rw [← readPool_empty (mk := PoolError.mk) MoreBlock.parse_ne_panic s
      (fun vs => (⟨LMap.collect (vs.map fun v => (v.id, v))⟩ : MoreBlockPool)) MoreBlockPool.default
      (fun as => by simp [MoreBlockPool.default, collect_nil])]
    simp only [MoreBlockPool.parse, MoreBlockPool.parseIter, Out.bind_assoc, Out.pure_eq, Out.ok_bind]
  · rw [← readPool_empty (mk := fun n _ _ => n) (lineParser_ne_panic Block.parse) s BlockContainer.mk BlockContainer.default
      (fun as => by simp [BlockContainer.default])]
    simp only [BlockContainer.parse, BlockContainer.parseIter, Out.bind_assoc, Out.pure_eq, Out.ok_bind]

theorem mem_dropWhile {p : Char → Bool} {s : Str} {c : Char} (hc : c ∈ s) (h : p c = false) : c ∈ s.dropWhile p := by
  induction s with
  | nil => simp at hc
  | cons a s ih =>
    rw [List.dropWhile_cons]
    split
    · rcases List.mem_cons.mp hc with rfl | hc
      · rw [h] at *; contradiction
      · exact ih hc
    · exact hc

theorem mem_trim_of {s : Str} {c : Char} (hc : c ∈ s) (h : isWs c = false) : c ∈ trim s := by
  unfold trim trimEnd trimStart
  rw [List.mem_reverse]
  exact mem_dropWhile (List.mem_reverse.mpr (mem_dropWhile hc h)) h

theorem chunk_mem {l : Logic} {t : Str} (h : t ∈ l.chunks) (hat : '@' ∈ t) : l.reconstruct ≠ [] := by
  intro he
  have := trim_eq_nil_iff.mp he '@' (mem_foldl_lines.mpr (Or.inr ⟨t, h, by simp [mem_trim_of hat (by decide)]⟩))
  exact absurd this (by decide)

/-- C80: a logic file is written as nothing exactly when every screen in it is empty. -/
theorem c80_logic_written (l : Logic) : l.reconstruct = [] ↔ ∀ e ∈ l.screens, e.2 = ScreenLogic.newEmpty e.2.name := by
  constructor
  · intro h e he
    have hs : e.2 ∈ l.screens.map (·.2) := List.mem_map.mpr ⟨e, he, rfl⟩
    have out : ∀ t ∈ l.chunks, '@' ∉ t := fun t ht hat => chunk_mem ht hat h
    obtain ⟨k, name, bc, v, lv, c, ev, mb⟩ := e
    simp only [Logic.chunks, List.mem_append] at out
    have h1 : v = none := by
      cases v with
      | none => rfl
      | some p => exact absurd (by simp) (out _ (.inl (.inl (.inl (.inl (.inl (List.mem_filterMap.mpr ⟨_, hs, rfl⟩)))))))
    have h2 : lv = none := by
      cases lv with
      | none => rfl
      | some p => exact absurd (by simp) (out _ (.inl (.inl (.inl (.inl (.inr (List.mem_filterMap.mpr ⟨_, hs, rfl⟩)))))))
    have h3 : c = none := by
      cases c with
      | none => rfl
      | some p => exact absurd (by simp) (out _ (.inl (.inl (.inl (.inr (List.mem_filterMap.mpr ⟨_, hs, rfl⟩))))))
    have h4 : ev = none := by
      cases ev with
      | none => rfl
      | some p => exact absurd (by simp) (out _ (.inl (.inl (.inr (List.mem_filterMap.mpr ⟨_, hs, rfl⟩)))))
    have h5 : mb = none := by
      cases mb with
      | none => rfl
      | some p => exact absurd (by simp) (out _ (.inl (.inr (List.mem_filterMap.mpr ⟨_, hs, rfl⟩))))
    have h6 : bc = [] := by
      cases bc with
      | nil => rfl
      | cons b bc =>
        refine absurd ?_ (out _ (.inr (List.mem_map.mpr ⟨_, hs, rfl⟩)))
        exact mem_foldl_lines.mpr (Or.inr ⟨b, by simp, by simp⟩)
    subst h1 h2 h3 h4 h5 h6
    rfl
  · intro h
    have hs : ∀ s ∈ l.screens.map (·.2), s = ScreenLogic.newEmpty s.name := by
      intro s hs; obtain ⟨e, he, rfl⟩ := List.mem_map.mp hs; exact h e he
    have hc : ∀ t ∈ l.chunks, t = [] := by
      intro t ht
      simp only [Logic.chunks, List.mem_append, List.mem_filterMap, List.mem_map (f := Logic.blocksText)] at ht
      rcases ht with ((((⟨s, h1, h2⟩ | ⟨s, h1, h2⟩) | ⟨s, h1, h2⟩) | ⟨s, h1, h2⟩) | ⟨s, h1, h2⟩) | ⟨s, h1, rfl⟩
      all_goals rw [hs s h1] at *
      · simp [ScreenLogic.newEmpty] at h2
      · simp [ScreenLogic.newEmpty] at h2
      · simp [ScreenLogic.newEmpty] at h2
      · simp [ScreenLogic.newEmpty] at h2
      · simp [ScreenLogic.newEmpty] at h2
      · rfl
    unfold Logic.reconstruct
    rw [trim_eq_nil_iff]
    intro c hm
    rcases mem_foldl_lines.mp hm with hm | ⟨t, ht, hm⟩
    · simp at hm
    · rw [hc t ht] at hm
      simp [trim, trimEnd, trimStart] at hm
      subst hm; decide

theorem update_ne_nil [MapPol] (l : LMap Str ScreenLogic) (name : Str) (f : ScreenLogic → ScreenLogic) :
    Logic.update l name f ≠ [] := by
  intro h
  have := LMap.get_upsert l name name (ScreenLogic.newEmpty name) f
  rw [show LMap.upsert l name (ScreenLogic.newEmpty name) f = [] from h] at this
  simp [LMap.get] at this

theorem step_ne_nil [MapPol] [Floats] {line : Str} {rest : List Str} {n : Nat} {l l' : LMap Str ScreenLogic} {rest' : List Str}
    (h : Logic.step line rest n l = .ok (l', rest')) : l' ≠ [] := by
  unfold Logic.step at h
  repeat' split at h
  all_goals
    simp only [Out.bind_eq_ok, Out.pure_eq, Out.ok.injEq, Prod.mk.injEq, Prod.exists] at h
    obtain ⟨_, _, _, _, _, rfl, _⟩ := h
    exact update_ne_nil _ _ _

theorem loop_ne_nil [MapPol] [Floats] (fuel : Nat) {ls : List Str} {n : Nat} {l : LMap Str ScreenLogic} {r : Logic}
    (hl : l ≠ []) (h : Logic.loop fuel ls n l = .ok r) : r.screens ≠ [] := by
  induction fuel generalizing ls n l with
  | zero => simp only [Logic.loop, Out.ok.injEq] at h; subst h; exact hl
  | succ fuel ih =>
    cases ls with
    | nil => simp only [Logic.loop, Out.ok.injEq] at h; subst h; exact hl
    | cons line rest =>
      simp only [Logic.loop] at h
      split at h
      · obtain ⟨⟨l', rest'⟩, h1, h2⟩ := Out.bind_eq_ok.mp h
        exact ih (step_ne_nil h1) h2
      · simp only [Out.ok.injEq] at h; subst h; exact hl

/-- C80: a logic file is read as one without screens exactly when its text does not begin with `@`. -/
theorem c80_logic_read [MapPol] [Floats] (s : Str) : Logic.parse s = .ok ⟨[]⟩ ↔ s.head? ≠ some '@' := by
  have hl : ∃ l ls, lines s = l :: ls ∧ (startsWith ['@'] l = true ↔ s.head? = some '@') := by
    cases s with
    | nil => exact ⟨[], [], rfl, by simp [startsWith]⟩
    | cons a s =>
      by_cases h : a = '\n'
      · subst h; exact ⟨[], lines s, by simp [lines, splitOn], by simp [startsWith]⟩
      · unfold lines splitOn
        rw [if_neg h]
        cases splitOn '\n' s with
        | nil => exact ⟨_, _, rfl, by simp [startsWith, List.isPrefixOf]; exact eq_comm⟩
        | cons p ps => exact ⟨_, _, rfl, by simp [startsWith, List.isPrefixOf]; exact eq_comm⟩
  obtain ⟨l, ls, hl, hat⟩ := hl
  unfold Logic.parse
  rw [hl, Logic.loop]
  constructor
  · intro h hc
    rw [if_pos (hat.mpr hc)] at h
    obtain ⟨⟨l', rest'⟩, h1, h2⟩ := Out.bind_eq_ok.mp h
    exact loop_ne_nil _ (step_ne_nil h1) h2 rfl
  · intro h
    rw [if_neg (fun hc => h (hat.mp hc))]

/-- C80: a view file is written as nothing exactly when it has no layout and no FAB. -/
theorem c80_view_written [Floats] (v : View) : v.reconstruct = [] ↔ v.layouts = [] ∧ v.fabs = [] := by
  unfold View.reconstruct
  rw [trimEnd_eq_nil_iff]
  constructor
  · intro h
    constructor
    · cases hl : v.layouts with
      | nil => rfl
      | cons e es =>
        have := h '@' (by
          refine List.mem_append_left _ (mem_foldl_lines.mpr (Or.inr ⟨e, by rw [hl]; simp, by simp⟩)))
        exact absurd this (by decide)
    · cases hl : v.fabs with
      | nil => rfl
      | cons e es =>
        have := h '@' (by
          refine List.mem_append_right _ (List.mem_cons_of_mem _ (mem_foldl_lines.mpr (Or.inr ⟨e, by rw [hl]; simp, by simp⟩))))
        exact absurd this (by decide)
  · rintro ⟨h1, h2⟩
    simp [View.layoutsText, View.fabsText, h1, h2, (by decide : isWs '\n' = true)]

/-- C80: no blocks are written as an empty container, and no other list of blocks is. -/
theorem c80_blocks [Floats] (bs : List Api.Block) : Api.toContainer bs = .ok BlockContainer.default ↔ bs = Api.noBlocks := by
  constructor
  · intro h
    cases bs with
    | nil => rfl
    | cons b bs =>
      obtain ⟨s1, s2, color, opCode, content, blockType⟩ := b
      simp only [Api.toContainer, Api.convertBlocks, Api.convertBlock, Out.bind_eq_ok, Out.pure_eq, Prod.exists] at h
      obtain ⟨_, _, ⟨_, _, ⟨_, _, _, _, _, _, _, _, _, _, _, _, h1⟩, _, _, _, h2⟩, h3⟩ := h
      obtain ⟨rfl, _⟩ := Prod.mk.inj (Out.ok.inj h1)
      obtain ⟨rfl, _⟩ := Prod.mk.inj (Out.ok.inj h2)
      simp [BlockContainer.default] at h3
  · rintro rfl; rfl

/-- C80: the constructors of components leave out the last parameters. -/
theorem c80_components (id p1 p2 : Str) (t : UInt8) :
    Component.newEmpty id t = Component.new id [] [] [] t ∧ Component.new1Param id p1 t = Component.new id p1 [] [] t ∧
    Component.new2Params id p1 p2 t = Component.new id p1 p2 [] t ∧
    ∀ p3 : Str, (Component.new id p1 p2 p3 t).reconstruct = Format.record [("componentId", Format.string id), ("param1", Format.string p1),
      ("param2", Format.string p2), ("param3", Format.string p3), ("type", Format.number t.toNat)] :=
  ⟨rfl, rfl, rfl, fun _ => c62_component _⟩

section
local instance emptyFloats : FloatLaws := toyFloats
local instance emptyMapPol : MapPol := ⟨false, false⟩
/-- Not vacuous: a blank line is read as an empty pool, a text of one space is not and is refused. -/
example : VariablePool.parse (s% "\n1:x") = .ok VariablePool.default ∧
    VariablePool.parse (s% " ") ≠ .ok VariablePool.default ∧ EventPool.parse [] = .ok EventPool.default := by
  refine ⟨((c80_read_empty _).1).mpr (by decide), fun h => absurd ((c80_read_empty _).1.mp h) (by decide),
    (c80_read_empty _).2.2.2.1.mpr (by decide)⟩
/-- Not vacuous: a screen with an empty pool is written as something, an empty screen is not. -/
example : Logic.reconstruct ⟨[([], { ScreenLogic.newEmpty (s% "A") with variables := some VariablePool.default })]⟩ ≠ [] ∧
    Logic.reconstruct ⟨[([], ScreenLogic.newEmpty (s% "A"))]⟩ = [] := by decide +kernel
example : Logic.parse (s% "\n@MainActivity.java_var\n1:x") = .ok ⟨[]⟩ := (c80_logic_read _).mpr (by decide)
example : Api.toContainer [Api.boolBlock true] ≠ .ok BlockContainer.default := by
  rw [Ne, c80_blocks]; intro h; cases h
end

end Swrs
