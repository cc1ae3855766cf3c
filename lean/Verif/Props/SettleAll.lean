import Verif.Proofs.ResettleSteps
/-!
# C101, all names: however often a project is saved, the changes come to an end
-/
set_option linter.unusedSectionVars false
namespace Swrs
section
variable [Floats] [MapPol]

/-- Saved and opened `n` times, the logic file `l` has become `l'`. -/
inductive c101_Saves : Nat → Logic → Logic → Prop
  | zero (l : Logic) : c101_Saves 0 l l
  | succ {n : Nat} {l l₁ l' : Logic} (h : Logic.parse l.reconstruct = .ok l₁) (t : c101_Saves n l₁ l') : c101_Saves (n + 1) l l'

/-- Saving and opening the logic file changes nothing, or the saved file cannot be opened. -/
def c101_End (l : Logic) : Prop := ∀ l', Logic.parse l.reconstruct = .ok l' → l' = l

theorem c101_inv {s : Str} {l : Logic} (h : Logic.parse s = .ok l) : l.Inv ∧ (∀ s ∈ l.screens.map (·.2), s.Clean) ∧
    ∀ s ∈ l.screens.map (·.2), ¬ s.Empty := by
  have hm := c90_maps h
  have hr := Logic.parse_traced h
  have hm' : ∀ s ∈ l.screens.map (·.2), (∀ p, s.variables = some p → p.map.keys.Nodup) ∧
      (∀ p, s.listVariables = some p → p.map.keys.Nodup) ∧ (∀ p, s.moreBlocks = some p → p.map.keys.Nodup) ∧
      s.blockContainers.keys.Nodup := by
    simp only [List.mem_map]; rintro s ⟨e, he, rfl⟩; exact hm.2 e he
  refine ⟨⟨fun e he => (hr e he).1, hm.1, fun s hs => (hm' s hs).1, fun s hs => (hm' s hs).2.1,
    fun s hs => (hm' s hs).2.2.1, fun s hs => (hm' s hs).2.2.2⟩, ?_, ?_⟩
  · simp only [List.mem_map]; rintro s ⟨e, he, rfl⟩; exact (hr e he).2.1
  · simp only [List.mem_map]; rintro s ⟨e, he, rfl⟩; exact (hr e he).2.2.1

theorem c101_by_weight (w : Nat) {s : Str} {l : Logic} (h : Logic.parse s = .ok l) (hw : l.weight ≤ w) :
    ∃ n ≤ w + 2, ∃ l', c101_Saves n l l' ∧ c101_End l' := by
  induction w generalizing s l with
  | zero =>
    by_cases he : c101_End l
    · exact ⟨0, by omega, l, .zero l, he⟩
    · simp only [c101_End, Classical.not_forall] at he
      obtain ⟨l', hp, _⟩ := he
      obtain ⟨h1, h2, _⟩ := c101_inv h
      rcases (Logic.save_shortens h1 h2 hp).1 with hlt | hk
      · omega
      · obtain ⟨l₁, l₂, g1, g2, g3⟩ := c101_logic_partial h fun e he => hk _ (List.mem_map_of_mem he)
        exact ⟨2, by omega, l₂, .succ g1 (.succ g2 (.zero _)), fun l' hl => Out.ok.inj (hl.symm.trans g3)⟩
  | succ w ih =>
    by_cases he : c101_End l
    · exact ⟨0, by omega, l, .zero l, he⟩
    · simp only [c101_End, Classical.not_forall] at he
      obtain ⟨l', hp, _⟩ := he
      obtain ⟨h1, h2, _⟩ := c101_inv h
      rcases (Logic.save_shortens h1 h2 hp).1 with hlt | hk
      · obtain ⟨n, hn, l'', hs, he⟩ := ih hp (by omega)
        exact ⟨n + 1, by omega, l'', .succ hp hs, he⟩
      · obtain ⟨l₁, l₂, g1, g2, g3⟩ := c101_logic_partial h fun e he => hk _ (List.mem_map_of_mem he)
        exact ⟨2, by omega, l₂, .succ g1 (.succ g2 (.zero _)), fun l' hl => Out.ok.inj (hl.symm.trans g3)⟩

theorem c101_leading {l : Logic} (he : ∀ s ∈ l.screens.map (·.2), ¬ s.Empty) (h : Logic.leading (Logic.itemsR (l.screens.map (·.2))) = []) :
    l = ⟨[]⟩ := by
  have hnone : ∀ i ∈ Logic.itemsR (l.screens.map (·.2)), i = none := by
    intro i hi
    cases hi' : i with
    | none => rfl
    | some t =>
      exfalso
      subst hi'
      have hdw : (Logic.itemsR (l.screens.map (·.2))).dropWhile Option.isNone ≠ [] := by
        intro h0
        rw [Settle.dropWhile_eq_nil_iff] at h0
        have := h0 _ hi
        simp at this
      cases hd : (Logic.itemsR (l.screens.map (·.2))).dropWhile Option.isNone with
      | nil => exact hdw hd
      | cons x xs =>
        have hx := List.head_dropWhile_not (p := Option.isNone) (l := Logic.itemsR (l.screens.map (·.2))) hdw
        simp only [hd, List.head_cons] at hx
        cases x with
        | none => simp at hx
        | some y =>
          unfold Logic.leading at h
          rw [hd] at h
          simp at h
  have hsec : ((Logic.itemsR (l.screens.map (·.2))).filterMap id) = [] := by
    rw [List.filterMap_eq_nil_iff]
    intro i hi; exact hnone i hi
  rw [Logic.itemsR_secs] at hsec
  simp only [List.append_eq_nil_iff, List.filterMap_eq_nil_iff, List.flatMap_eq_nil_iff] at hsec
  obtain ⟨⟨⟨⟨⟨q1, q2⟩, q3⟩, q4⟩, q5⟩, q6⟩ := hsec
  obtain ⟨ss⟩ := l
  cases ss with
  | nil => rfl
  | cons e ss =>
    exfalso
    have hm : e.2 ∈ (e :: ss).map (·.2) := by simp
    apply he e.2 hm
    have b6 := q6 e.2 hm
    simp only [ScreenLogic.varR, ScreenLogic.listR, ScreenLogic.compR, ScreenLogic.eventR, ScreenLogic.funcR, Option.map_eq_none_iff] at q1 q2 q3 q4 q5
    refine ⟨q1 _ hm, q2 _ hm, q3 _ hm, q4 _ hm, q5 _ hm, ?_⟩
    rcases List.eq_nil_or_concat e.2.blockContainers with h0 | ⟨ini, x, h0⟩
    · exact h0
    · rw [ScreenLogic.blocksR, h0, List.concat_eq_append, List.map_append, List.map_singleton, closeLast_concat] at b6
      simp at b6

/-- C101: however a logic file that was read is saved again and again, the changes come to an end: after at most as many saves as the
first saved text has characters, the file stays the same, or it cannot be opened any more. -/
theorem c101_logic_ends {s : Str} {l : Logic} (h : Logic.parse s = .ok l) :
    ∃ n ≤ l.reconstruct.length, ∃ l', c101_Saves n l l' ∧ c101_End l' := by
  by_cases he : c101_End l
  · exact ⟨0, by omega, l, .zero l, he⟩
  · have hne := he
    simp only [c101_End, Classical.not_forall] at he
    obtain ⟨l₁, hp, hl⟩ := he
    obtain ⟨h1, h2, h3⟩ := c101_inv h
    by_cases hlead : Logic.leading (Logic.itemsR (l.screens.map (·.2))) = []
    · have := c101_leading h3 hlead
      subst this
      refine ⟨0, by omega, _, .zero _, fun l' hl' => ?_⟩
      have e : Logic.parse (Logic.mk []).reconstruct = .ok ⟨[]⟩ := by
        rw [Logic.c69_ok]
        have : Logic.sections (lines (Logic.mk []).reconstruct) = [] := by decide +kernel
        rw [this]
        exact ⟨_, .nil, rfl⟩
      exact Out.ok.inj (hl'.symm.trans e)
    · have hw := (Logic.save_shortens h1 h2 hp).2 hlead
      obtain ⟨n, hn, l', hs, he⟩ := c101_by_weight l₁.weight hp (Nat.le_refl _)
      exact ⟨n + 1, by omega, l', .succ hp hs, he⟩

/-- The five containers, without blocks. Their names end with a blank. -/
def c101_names : LMap Str BlockContainer :=
  [(s% "var ", ⟨[]⟩), (s% "list ", ⟨[]⟩), (s% "components ", ⟨[]⟩), (s% "events ", ⟨[]⟩), (s% "func ", ⟨[]⟩)]

/-- A screen with the first `k` containers and, instead of the others, empty pools. -/
def c101_stage (k : Nat) : Logic := ⟨[(s% "m", ⟨s% "m", c101_names.take k, if k < 1 then some ⟨[]⟩ else none,
  if k < 2 then some ⟨[]⟩ else none, if k < 3 then some ⟨[]⟩ else none, if k < 4 then some ⟨[]⟩ else none,
  if k < 5 then some ⟨[]⟩ else none⟩)]⟩

theorem c101_update (k : Str) (s : ScreenLogic) (f : ScreenLogic → ScreenLogic) : Logic.update [(k, s)] k f = [(k, f s)] := by
  unfold Logic.update LMap.upsert
  simp [LMap.get, LMap.erase, LMap.set]

theorem c101_applyAll (k : Str) (f₁ f₂ f₃ f₄ f₅ : ScreenLogic → ScreenLogic) :
    Logic.applyAll [(k, f₁), (k, f₂), (k, f₃), (k, f₄), (k, f₅)] [] = [(k, f₅ (f₄ (f₃ (f₂ (f₁ (ScreenLogic.newEmpty k))))))] := by
  have h0 : Logic.update [] k f₁ = [(k, f₁ (ScreenLogic.newEmpty k))] := rfl
  simp only [Logic.applyAll, List.foldl_cons, List.foldl_nil, h0, c101_update]

theorem c101_pool_var : Logic.SectionReads [s% "@m.java_var"] (s% "m", fun s => { s with variables := some ⟨[]⟩ }) :=
  ⟨_, _, rfl, Sec.var (name := s% "m") (x := '.') (vs := []) rfl .nil⟩

theorem c101_pool_list : Logic.SectionReads [s% "@m.java_list"] (s% "m", fun s => { s with listVariables := some ⟨[]⟩ }) :=
  ⟨_, _, rfl, Sec.list (name := s% "m") (x := '.') (vs := []) rfl .nil⟩

theorem c101_pool_components : Logic.SectionReads [s% "@m.java_components"] (s% "m", fun s => { s with components := some ⟨[]⟩ }) :=
  ⟨_, _, rfl, Sec.components (name := s% "m") (x := '.') (vs := []) rfl .nil⟩

theorem c101_pool_events : Logic.SectionReads [s% "@m.java_events"] (s% "m", fun s => { s with events := some ⟨[]⟩ }) :=
  ⟨_, _, rfl, Sec.events (name := s% "m") (x := '.') (vs := []) rfl .nil⟩

theorem c101_pool_func : Logic.SectionReads [s% "@m.java_func"] (s% "m", fun s => { s with moreBlocks := some ⟨[]⟩ }) :=
  ⟨_, _, rfl, Sec.func (name := s% "m") (x := '.') (vs := []) rfl .nil⟩

theorem c101_block {line : Str} {name : Str} (hn : NotPool line) (hl : BlockContainerHeader.parse line = .ok ⟨s% "m", name⟩) :
    Logic.SectionReads [line] (s% "m", fun s => { s with blockContainers := s.blockContainers.insert name ⟨[]⟩ }) :=
  ⟨_, _, rfl, Sec.blocks (hd := ⟨s% "m", name⟩) hn hl .nil⟩

theorem c101_stage_0 : Logic.parse (c101_stage 0).reconstruct = .ok (c101_stage 0) := by
  rw [Logic.c69_ok]
  have : Logic.sections (lines (c101_stage 0).reconstruct) = [[s% "@m.java_var"], [s% "@m.java_list"], [s% "@m.java_components"], [s% "@m.java_events"], [s% "@m.java_func"]] := by
    decide +kernel
  rw [this]
  refine ⟨_, .cons c101_pool_var <| .cons c101_pool_list <| .cons c101_pool_components <| .cons c101_pool_events <| .cons c101_pool_func <| .nil, ?_⟩
  rw [c101_applyAll]
  rfl

theorem c101_stage_1 : Logic.parse (c101_stage 1).reconstruct = .ok (c101_stage 0) := by
  rw [Logic.c69_ok]
  have : Logic.sections (lines (c101_stage 1).reconstruct) = [[s% "@m.java_list"], [s% "@m.java_components"], [s% "@m.java_events"], [s% "@m.java_func"], [s% "@m.java_var"]] := by
    decide +kernel
  rw [this]
  refine ⟨_, .cons c101_pool_list <| .cons c101_pool_components <| .cons c101_pool_events <| .cons c101_pool_func <| .cons c101_pool_var <| .nil, ?_⟩
  rw [c101_applyAll]
  rfl

theorem c101_stage_2 : Logic.parse (c101_stage 2).reconstruct = .ok (c101_stage 1) := by
  rw [Logic.c69_ok]
  have : Logic.sections (lines (c101_stage 2).reconstruct) = [[s% "@m.java_components"], [s% "@m.java_events"], [s% "@m.java_func"], [s% "@m.java_var "], [s% "@m.java_list"]] := by
    decide +kernel
  rw [this]
  refine ⟨_, .cons c101_pool_components <| .cons c101_pool_events <| .cons c101_pool_func <| .cons (c101_block (name := s% "var ") (by unfold NotPool; decide) (by decide)) <| .cons c101_pool_list <| .nil, ?_⟩
  rw [c101_applyAll]
  rfl

theorem c101_stage_3 : Logic.parse (c101_stage 3).reconstruct = .ok (c101_stage 2) := by
  rw [Logic.c69_ok]
  have : Logic.sections (lines (c101_stage 3).reconstruct) = [[s% "@m.java_events"], [s% "@m.java_func"], [s% "@m.java_var "], [s% "@m.java_list "], [s% "@m.java_components"]] := by
    decide +kernel
  rw [this]
  refine ⟨_, .cons c101_pool_events <| .cons c101_pool_func <| .cons (c101_block (name := s% "var ") (by unfold NotPool; decide) (by decide)) <| .cons (c101_block (name := s% "list ") (by unfold NotPool; decide) (by decide)) <| .cons c101_pool_components <| .nil, ?_⟩
  rw [c101_applyAll]
  rfl

theorem c101_stage_4 : Logic.parse (c101_stage 4).reconstruct = .ok (c101_stage 3) := by
  rw [Logic.c69_ok]
  have : Logic.sections (lines (c101_stage 4).reconstruct) = [[s% "@m.java_func"], [s% "@m.java_var "], [s% "@m.java_list "], [s% "@m.java_components "], [s% "@m.java_events"]] := by
    decide +kernel
  rw [this]
  refine ⟨_, .cons c101_pool_func <| .cons (c101_block (name := s% "var ") (by unfold NotPool; decide) (by decide)) <| .cons (c101_block (name := s% "list ") (by unfold NotPool; decide) (by decide)) <| .cons (c101_block (name := s% "components ") (by unfold NotPool; decide) (by decide)) <| .cons c101_pool_events <| .nil, ?_⟩
  rw [c101_applyAll]
  rfl

theorem c101_stage_5 : Logic.parse (c101_stage 5).reconstruct = .ok (c101_stage 4) := by
  rw [Logic.c69_ok]
  have : Logic.sections (lines (c101_stage 5).reconstruct) = [[s% "@m.java_var "], [s% "@m.java_list "], [s% "@m.java_components "], [s% "@m.java_events "], [s% "@m.java_func"]] := by
    decide +kernel
  rw [this]
  refine ⟨_, .cons (c101_block (name := s% "var ") (by unfold NotPool; decide) (by decide)) <| .cons (c101_block (name := s% "list ") (by unfold NotPool; decide) (by decide)) <| .cons (c101_block (name := s% "components ") (by unfold NotPool; decide) (by decide)) <| .cons (c101_block (name := s% "events ") (by unfold NotPool; decide) (by decide)) <| .cons c101_pool_func <| .nil, ?_⟩
  rw [c101_applyAll]
  rfl

/-- A logic file with the five containers. -/
def c101_five : Str := s% "@m.java_var \n\n@m.java_list \n\n@m.java_components \n\n@m.java_events \n\n@m.java_func \n"

/-- C101 is false of logic files, whatever small number of saves is allowed: this one changes in each of the first five saves, because
each save takes one container for a pool, and then never again. -/
theorem c101_five_saves : Logic.parse c101_five = .ok (c101_stage 5) ∧
    ∀ n l, c101_Saves n (c101_stage 5) l → (c101_End l ↔ 5 ≤ n) := by
  constructor
  · rw [Logic.c69_ok]
    have : Logic.sections (lines c101_five) = [[s% "@m.java_var "], [s% "@m.java_list "], [s% "@m.java_components "],
      [s% "@m.java_events "], [s% "@m.java_func "]] := by decide +kernel
    rw [this]
    refine ⟨_, .cons (c101_block (name := s% "var ") (by unfold NotPool; decide) (by decide)) <|
      .cons (c101_block (name := s% "list ") (by unfold NotPool; decide) (by decide)) <|
      .cons (c101_block (name := s% "components ") (by unfold NotPool; decide) (by decide)) <|
      .cons (c101_block (name := s% "events ") (by unfold NotPool; decide) (by decide)) <|
      .cons (c101_block (name := s% "func ") (by unfold NotPool; decide) (by decide)) <| .nil, ?_⟩
    rw [c101_applyAll]
    rfl
  · have hz : ∀ n l, c101_Saves n (c101_stage 0) l → l = c101_stage 0 := by
      intro n
      induction n with
      | zero => intro l h; cases h; rfl
      | succ n ih =>
        intro l h
        cases h with
        | succ h t =>
          have := Out.ok.inj (h.symm.trans c101_stage_0)
          subst this
          exact ih l t
    have step : ∀ {a b : Logic}, Logic.parse a.reconstruct = .ok b → ∀ {n l}, c101_Saves n a l → (n = 0 ∧ l = a) ∨ ∃ m, n = m + 1 ∧ c101_Saves m b l := by
      intro a b hab n l h
      cases h with
      | zero => exact .inl ⟨rfl, rfl⟩
      | succ h t =>
        have := Out.ok.inj (h.symm.trans hab)
        subst this
        exact .inr ⟨_, rfl, t⟩
    have notEnd : ∀ {a b : Logic}, Logic.parse a.reconstruct = .ok b → b ≠ a → ¬ c101_End a := fun h hne he => hne (he _ h)
    intro n l h
    rcases step c101_stage_5 h with ⟨rfl, rfl⟩ | ⟨n0, rfl, h0⟩
    · exact iff_of_false (notEnd c101_stage_5 (by decide)) (by omega)
    rcases step c101_stage_4 h0 with ⟨rfl, rfl⟩ | ⟨n1, rfl, h1⟩
    · exact iff_of_false (notEnd c101_stage_4 (by decide)) (by omega)
    rcases step c101_stage_3 h1 with ⟨rfl, rfl⟩ | ⟨n2, rfl, h2⟩
    · exact iff_of_false (notEnd c101_stage_3 (by decide)) (by omega)
    rcases step c101_stage_2 h2 with ⟨rfl, rfl⟩ | ⟨n3, rfl, h3⟩
    · exact iff_of_false (notEnd c101_stage_2 (by decide)) (by omega)
    rcases step c101_stage_1 h3 with ⟨rfl, rfl⟩ | ⟨n4, rfl, h4⟩
    · exact iff_of_false (notEnd c101_stage_1 (by decide)) (by omega)
    have := hz _ _ h4
    subst this
    exact iff_of_true (fun l' hl => Out.ok.inj (hl.symm.trans c101_stage_0)) (by omega)

end

/-- C101: a project that is opened and saved again and again, and that can be opened every time, settles: from some round on, not later
than the number of characters of the logic file saved first, opening and saving gives the same project, with the screens of the
logic file in the same order. -/
theorem c101_project_settles [FloatLaws] [MapPol] (ex : PathBuf → Bool) (raw : Nat → RawSketchwareProject) (p : Nat → SketchwareProject)
    (rs : Nat → Option (List ResourceFileWrapper)) (ho : ∀ n, SketchwareProject.parseFrom ex (raw n) = .ok (p n))
    (hr : ∀ n, (p n).ResOrder (rs n)) (hs : ∀ n, (p n).tryIntoRaw (rs n) = .ok (raw (n + 1))) :
    ∃ N ≤ (raw 1).logic.length + 1, ∀ n, N ≤ n → (p (n + 1)).Same (p n) ∧ (p (n + 1)).logic = (p n).logic := by
  have save : ∀ n, (p n).project.reconstruct = .ok (raw (n + 1)).project ∧ (raw (n + 1)).file = (p n).file.reconstruct ∧
      (raw (n + 1)).view = (p n).view.reconstruct ∧ (raw (n + 1)).logic = (p n).logic.reconstruct := by
    intro n
    have h := hs n
    unfold SketchwareProject.tryIntoRaw at h
    simp only [Out.bind_eq_ok, Out.pure_eq, Out.ok.injEq] at h
    obtain ⟨s, h1, h⟩ := h
    rw [← h]
    exact ⟨h1, rfl, rfl, rfl⟩
  have parts := fun n => (c58_parts ex (raw n) (p n)).mp (ho n)
  have hl : ∀ n, Logic.parse (raw n).logic = .ok (p n).logic := fun n => (parts n).2.2.2.2.2.1
  have hstep : ∀ n, Logic.parse (p n).logic.reconstruct = .ok (p (n + 1)).logic := by
    intro n; rw [← (save n).2.2.2]; exact hl (n + 1)
  have hreach : ∀ n l a, c101_Saves n (p a).logic l → l = (p (a + n)).logic := by
    intro n
    induction n with
    | zero => intro l a h; cases h; rfl
    | succ n ih =>
      intro l a h
      cases h with
      | succ h t =>
        have := Out.ok.inj (h.symm.trans (hstep a))
        subst this
        rw [ih l (a + 1) t]
        congr 2; omega
  obtain ⟨N, hN, l, hsv, hend⟩ := c101_logic_ends (hl 0)
  have e := hreach N l 0 hsv
  rw [Nat.zero_add] at e
  subst e
  have hfix : ∀ n, N ≤ n → (p n).logic = (p N).logic := by
    intro n hn
    induction n with
    | zero => have : N = 0 := by omega
              rw [this]
    | succ n ih =>
      by_cases hc : N = n + 1
      · rw [hc]
      · have := ih (by omega)
        have h2 := hstep n
        rw [this] at h2
        exact hend _ h2
  refine ⟨N + 1, by rw [(save 0).2.2.2]; omega, fun n hn => ?_⟩
  obtain ⟨m, rfl⟩ : ∃ m, n = m + 1 := ⟨n - 1, by omega⟩
  have hlog : (p (m + 1 + 1)).logic = (p (m + 1)).logic := by rw [hfix (m + 1 + 1) (by omega), hfix (m + 1) (by omega)]
  obtain ⟨a1, a2, a3, a4, a5, a6, a7⟩ := parts m
  obtain ⟨b1, b2, b3, b4, b5, b6, b7⟩ := parts (m + 1)
  obtain ⟨x1, x2, x3, x4⟩ := save m
  obtain ⟨y1, y2, y3, y4⟩ := save (m + 1)
  obtain ⟨c1, c2, c3, c4, c5, c6, c7⟩ := parts (m + 1 + 1)
  have ep : (p (m + 1)).project = (p m).project := c101_project a1 x1 b1
  obtain ⟨t, raw₃, hv, hts, hsv3, hiff⟩ := c90_resave_partial ex (raw (m + 1)) (p (m + 1)) (ho _) (rs (m + 1)) (hr _)
  have e3 : raw₃ = raw (m + 1 + 1) := Out.ok.inj (hsv3.symm.trans (hs (m + 1)))
  subst e3
  have hp3 : ∃ p₃, SketchwareProject.parseFrom ex (raw (m + 1 + 1)) = .ok p₃ ∧ p₃.Same (p (m + 1)) := by
    rw [hiff]
    refine ⟨?_, ?_, ?_, ?_⟩
    · obtain ⟨s', hs', hfw⟩ := c15_project_round_trip_partial (p (m + 1)).project t hv hts
      rw [ep, x1] at hs'
      rw [← hfw, ← Out.ok.inj hs']
      exact b1
    · rw [← (c17_file_round_trip_partial (p (m + 1)).file).1]
      exact c101_file (p m).file (p (m + 1)).file (x2 ▸ b2)
    · rw [← c90_view b5]
      exact c101_view a5 (x3 ▸ b5)
    · rw [← c90_logic b6]
      refine ⟨(p (m + 1 + 1)).logic, hstep (m + 1), ?_⟩
      rw [hlog]; exact fun _ => rfl
  obtain ⟨p₃, h3, hsame⟩ := hp3
  have : p₃ = p (m + 1 + 1) := Out.ok.inj (h3.symm.trans (ho _))
  subst this
  exact ⟨hsame, hlog⟩

-- the logic file with the five containers meets the hypothesis of `c101_logic_ends`
example [Floats] [MapPol] : ∃ n ≤ (c101_stage 5).reconstruct.length, ∃ l, c101_Saves n (c101_stage 5) l ∧ c101_End l :=
  c101_logic_ends c101_five_saves.1

/-- The project after `n` saves in the example below. -/
def c101_round [Floats] (n : Nat) : SketchwareProject := { c58_witness 1672531198 with logic := c101_stage (5 - n) }

/-- The date of that project. -/
def c101_date : Date.DateTime := ⟨2022, 12, 31, 23, 59, 58⟩

-- a project with the five containers, opened and saved for ever, meets the hypotheses of `c101_project_settles`, and
-- changes in each of the first five rounds
example [FloatLaws] [MapPol] : ∃ (raw : Nat → RawSketchwareProject) (rs : Nat → Option (List ResourceFileWrapper)),
    (∀ n, SketchwareProject.parseFrom (fun _ => true) (raw n) = .ok (c101_round n)) ∧
    (∀ n, (c101_round n).ResOrder (rs n)) ∧ (∀ n, (c101_round n).tryIntoRaw (rs n) = .ok (raw (n + 1))) ∧
    ∀ n < 5, (c101_round (n + 1)).logic ≠ (c101_round n).logic := by
  obtain ⟨s, hs, hd⟩ := c15_project_round_trip_partial (c58_witness 1672531198).project c101_date (by decide +kernel)
    (by show _ = (1672531198 : UInt64).toInt64.toInt; decide +kernel)
  have hs' := hd.mpr (by unfold Date.FullWidth; simp [c101_date])
  let w := c58_witness 1672531198
  let text : Nat → Str := fun n => match n with
    | 0 => c101_five
    | n + 1 => (c101_stage (5 - n)).reconstruct
  have hl : ∀ n, Logic.parse (text n) = .ok (c101_stage (5 - n))
    | 0 => c101_five_saves.1
    | 1 => c101_stage_5
    | 2 => c101_stage_4
    | 3 => c101_stage_3
    | 4 => c101_stage_2
    | 5 => c101_stage_1
    | n + 6 => by
      show Logic.parse (c101_stage (5 - (n + 5))).reconstruct = _
      rw [show 5 - (n + 5) = 0 by omega, show 5 - (n + 6) = 0 by omega]
      exact c101_stage_0
  refine ⟨fun n => ⟨s, w.file.reconstruct, w.library.reconstruct, w.resource.reconstruct, w.view.reconstruct, text n, none⟩,
    fun _ => none, fun n => ?_, fun n => rfl, fun n => ?_, fun n hn => ?_⟩
  · rw [c58_parts]
    exact ⟨hs', (c17_file_round_trip_partial w.file).1.mpr (.inr rfl), c19_library_round_trip _, c18_resource_round_trip _,
      (c22_view_file_round_trip_partial w.view ⟨List.Pairwise.nil, List.Pairwise.nil⟩).mpr c58_witness_parts.2.1, hl n, rfl⟩
  · unfold SketchwareProject.tryIntoRaw
    rw [show (c101_round n).project = (c58_witness 1672531198).project from rfl, hs]
    rfl
  · rcases n with _ | _ | _ | _ | _ | n
    all_goals first | omega | (intro h; revert h; show c101_stage _ ≠ c101_stage _; simp [c101_stage, c101_names])

end Swrs
