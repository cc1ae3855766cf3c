import Verif.Proofs.LogicSections
/-! The logic file: where the parts of a screen that was read come from. -/
set_option linter.unusedSectionVars false
namespace Swrs
variable [Floats] [MapPol]

/-- The parts of the screen come from sections (header and lines) with the property `P`. -/
structure Traced (P : Str → List Str → Prop) (k : Str) (s : ScreenLogic) : Prop where
  name : s.name = k
  var : ∀ p, s.variables = some p → ∃ (x : Char) (body : List Str) (vs : List Variable), x.utf8Size = 1 ∧
    P ('@' :: (k ++ x :: s% "java_var")) body ∧ PoolReads Variable.parse body vs ∧
    p = ⟨LMap.collect (vs.map fun v => (v.name, v))⟩
  list : ∀ p, s.listVariables = some p → ∃ (x : Char) (body : List Str) (vs : List ListVariable), x.utf8Size = 1 ∧
    P ('@' :: (k ++ x :: s% "java_list")) body ∧ PoolReads ListVariable.parse body vs ∧
    p = ⟨LMap.collect (vs.map fun v => (v.name, v))⟩
  func : ∀ p, s.moreBlocks = some p → ∃ (x : Char) (body : List Str) (vs : List MoreBlock), x.utf8Size = 1 ∧
    P ('@' :: (k ++ x :: s% "java_func")) body ∧ PoolReads MoreBlock.parse body vs ∧
    p = ⟨LMap.collect (vs.map fun v => (v.id, v))⟩
  blocks : ∀ id bc, s.blockContainers.get id = some bc → ∃ (hd : Str) (body : List Str) (bs : List Block),
    P hd body ∧ NotPool hd ∧ BlockContainerHeader.parse hd = .ok ⟨k, id⟩ ∧
    PoolReads (lineParser Block.parse) body bs ∧ bc = ⟨bs⟩

namespace Traced
variable {P : Str → List Str → Prop}

theorem newEmpty (k : Str) : Traced P k (ScreenLogic.newEmpty k) :=
  ⟨rfl, nofun, nofun, nofun, nofun⟩

theorem step {k hd : Str} {body : List Str} {eff : ScreenLogic → ScreenLogic} {s : ScreenLogic} (h : Traced P k s)
    (hs : Sec hd body k eff) (hP : P hd body) : Traced P k (eff s) := by
  cases hs with
  | var hx hr =>
    refine ⟨h.name, ?_, h.list, h.func, h.blocks⟩
    intro p hp; simp at hp; subst hp
    exact ⟨_, _, _, hx, hP, hr, rfl⟩
  | list hx hr =>
    refine ⟨h.name, h.var, ?_, h.func, h.blocks⟩
    intro p hp; simp at hp; subst hp
    exact ⟨_, _, _, hx, hP, hr, rfl⟩
  | components hx hr => exact ⟨h.name, h.var, h.list, h.func, h.blocks⟩
  | events hx hr => exact ⟨h.name, h.var, h.list, h.func, h.blocks⟩
  | func hx hr =>
    refine ⟨h.name, h.var, h.list, ?_, h.blocks⟩
    intro p hp; simp at hp; subst hp
    exact ⟨_, _, _, hx, hP, hr, rfl⟩
  | blocks hn hl hr =>
    refine ⟨h.name, h.var, h.list, h.func, ?_⟩
    intro id bc hg
    simp only [LMap.get_insert] at hg
    split at hg
    next h0 => subst h0; simp at hg; subst hg; exact ⟨_, _, _, hP, hn, hl, hr, rfl⟩
    next h0 => exact h.blocks id bc hg

end Traced

namespace Logic
variable {P : Str → List Str → Prop}

theorem traced_applyAll {ps : List (List Str)} {es : List (Str × (ScreenLogic → ScreenLogic))}
    (h : All₂ SectionReads ps es) (hP : ∀ hd body, hd :: body ∈ ps → P hd body) (l : LMap Str ScreenLogic)
    (hl : ∀ k s, LMap.get l k = some s → Traced P k s ∧ ∃ hd body eff, P hd body ∧ Sec hd body k eff) :
    ∀ k s, LMap.get (applyAll es l) k = some s → Traced P k s ∧ ∃ hd body eff, P hd body ∧ Sec hd body k eff := by
  induction h generalizing l with
  | nil => exact hl
  | cons hab _ ih =>
    rename_i p e _ _ _
    obtain ⟨hd, body, rfl, hs⟩ := hab
    refine ih (fun hd' body' h' => hP hd' body' (by simp [h'])) (update l e.1 e.2) ?_
    intro k s hg
    simp only [update, LMap.get_upsert] at hg
    have hp := hP hd body (by simp)
    split at hg
    next h0 =>
      subst h0
      simp only [Option.some.injEq] at hg
      subst hg
      refine ⟨Traced.step ?_ hs hp, hd, body, _, hp, hs⟩
      cases hg' : LMap.get l e.1 with
      | none => exact .newEmpty _
      | some s' => exact (hl _ _ hg').1
    next h0 => exact hl k s hg

/-- Everything that is read comes from a section of the text. -/
theorem traced_parse {t : Str} {l : Logic} (h : parse t = .ok l)
    (hP : ∀ hd body, hd :: body ∈ sections (lines t) → P hd body) {k : Str} {s : ScreenLogic}
    (hg : l.screens.get k = some s) : Traced P k s ∧ ∃ hd body eff, P hd body ∧ Sec hd body k eff := by
  rw [parse_sections] at h
  rcases runSecs_cases _ (areSections (lines t)) 0 [] with ⟨es, h1, h2⟩ | ⟨pre, q, post, es, h1, h2, h3, h4⟩ |
    ⟨pre, q, post, es, e, h1, h2, h3, h4⟩
  · rw [h2] at h
    simp only [Out.ok.injEq] at h
    subst h
    exact traced_applyAll h1 hP [] (by intro k s h; simp [LMap.get] at h) k s hg
  · rw [h4] at h; simp at h
  · rw [h4] at h; simp at h

theorem mem_splitOn {p : List Str} {l : Str} {ls : List Str} (hp : p ∈ ls.splitOn ([] : Str)) (hl : l ∈ p) : l ∈ ls := by
  generalize hlen : ls.length = len
  induction len using Nat.strongRecOn generalizing ls with
  | _ len ih =>
    rcases splitOn_blank ls with ⟨body, rest, rfl, hb⟩ | hn
    · rw [List.splitOn_append_cons_self, List.splitOn_eq_singleton hb, List.singleton_append] at hp
      rcases List.mem_cons.mp hp with rfl | hp
      · simp [hl]
      · have := ih rest.length (by simp at hlen; omega) hp rfl
        simp [this]
    · rw [List.splitOn_eq_singleton hn] at hp
      simp at hp; subst hp; exact hl

theorem sections_noNl {t : Str} {p : List Str} (hp : p ∈ sections (lines t)) : ∀ l ∈ p, '\n' ∉ l := by
  intro l hl
  exact splitOn_not_mem (mem_splitOn ((List.takeWhile_sublist _).subset hp) hl)

end Logic

/-! ### what a screen that was read looks like -/

/-- No line break in a name; entries are under their names; names of containers can be told apart. -/
structure ScreenLogic.Clean (s : ScreenLogic) : Prop where
  name : '\n' ∉ s.name
  var : ∀ p, s.variables = some p → ∀ e ∈ p.map, e.1 = e.2.name ∧ '\n' ∉ e.2.name
  list : ∀ p, s.listVariables = some p → ∀ e ∈ p.map, e.1 = e.2.name ∧ '\n' ∉ e.2.name
  func : ∀ p, s.moreBlocks = some p → ∀ e ∈ p.map, e.1 = e.2.id ∧ '\n' ∉ e.2.id ∧ '\n' ∉ e.2.spec ∧ ':' ∉ e.2.id
  blocks : ∀ e ∈ s.blockContainers, '\n' ∉ e.1 ∧ ¬ javaSep <:+: s.name ∧ ¬ javaSep <:+: e.1

theorem header_noNl {hd n c : Str} (h : BlockContainerHeader.parse hd = .ok ⟨n, c⟩) (hn : '\n' ∉ hd) :
    '\n' ∉ n ∧ '\n' ∉ c := by
  obtain ⟨_, _, rfl | ⟨r, rfl⟩⟩ := BlockContainerHeader.parse_ok_iff.mp h
  · simp at hn; exact ⟨hn.1, hn.2⟩
  · simp at hn; exact ⟨hn.1, hn.2.1⟩

theorem PoolReads.mem_right {ε α : Type} {p : Str → Out ε α} {ls : List Str} {as : List α} (h : PoolReads p ls as) :
    ∀ a ∈ as, ∃ l ∈ ls, p l = .ok a := by
  intro a ha
  induction h with
  | nil => simp at ha
  | cons hne hp _ ih =>
    rcases List.mem_cons.mp ha with rfl | ha
    · exact ⟨_, by simp, toOption_eq_some.mp hp⟩
    · obtain ⟨l, hl, h⟩ := ih ha
      exact ⟨l, by simp [hl], h⟩

theorem collect_reads {ε α : Type} {p : Str → Out ε α} {key : α → Str} {body : List Str} {vs : List α}
    (h : PoolReads p body vs) {e : Str × α} (he : e ∈ LMap.collect (vs.map fun v => (key v, v))) :
    e.1 = key e.2 ∧ ∃ l ∈ body, p l = .ok e.2 := by
  have := LMap.collect_mem _ e he
  simp only [List.mem_map] at this
  obtain ⟨v, hv, rfl⟩ := this
  obtain ⟨l, hl, h1⟩ := PoolReads.mem_right h v hv
  exact ⟨rfl, l, hl, h1⟩

theorem Traced.clean {s : ScreenLogic} {k : Str}
    (h : Traced (fun hd body => ∀ l ∈ hd :: body, '\n' ∉ l) k s)
    (ht : ∃ hd body eff, (∀ l ∈ hd :: body, '\n' ∉ l) ∧ Sec hd body k eff)
    (hnd : s.blockContainers.keys.Nodup) : s.Clean := by
  refine ⟨?_, ?_, ?_, ?_, ?_⟩
  · rw [h.name]
    obtain ⟨hd, body, eff, hn, hs⟩ := ht
    have hn := hn hd (by simp)
    cases hs with
    | blocks _ hl _ => exact (header_noNl hl hn).1
    | _ => simp at hn; exact hn.1
  · intro p hp e he
    obtain ⟨x, body, vs, _, hn, hr, rfl⟩ := h.var p hp
    obtain ⟨h1, l, hl, h2⟩ := collect_reads (key := fun v : Variable => v.name) hr he
    exact ⟨h1, Variable.suffixNamed.noNl l e.2 h2 (hn l (by simp [hl]))⟩
  · intro p hp e he
    obtain ⟨x, body, vs, _, hn, hr, rfl⟩ := h.list p hp
    obtain ⟨h1, l, hl, h2⟩ := collect_reads (key := fun v : ListVariable => v.name) hr he
    exact ⟨h1, ListVariable.suffixNamed.noNl l e.2 h2 (hn l (by simp [hl]))⟩
  · intro p hp e he
    obtain ⟨x, body, vs, _, hn, hr, rfl⟩ := h.func p hp
    obtain ⟨h1, l, hl, h2⟩ := collect_reads (key := fun v : MoreBlock => v.id) hr he
    have h3 := MoreBlock.parse_noNl h2 (hn l (by simp [hl]))
    exact ⟨h1, h3⟩
  · intro e he
    obtain ⟨hd, body, bs, hn, _, hl, _⟩ := h.blocks e.1 e.2 (LMap.get_of_mem hnd he)
    have hi := BlockContainerHeader.parse_ok_iff.mp hl
    rw [h.name]
    exact ⟨(header_noNl hl (hn hd (by simp))).2, hi.1, hi.2.1⟩

end Swrs
