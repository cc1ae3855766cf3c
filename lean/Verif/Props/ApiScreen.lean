import Verif.Proofs.ApiScreen
import Verif.Base.FloatInst
import Verif.Props.BlocksRound
import Verif.Props.ApiView
/-!
# C56, C59: the code of screens, and screens converted to the parser model and back
-/
namespace Swrs.Api
section
variable [MapPol] [Floats]

/-! ## C59 — Screens survive the API -/

/-- Blocks that are read back from their container. `c47_round_trip_partial` tells which ones are. -/
def CodeSurvives (code : List Block) : Prop := ∃ c, toContainer code = .ok c ∧ tryFrom c = .ok code

omit [MapPol] in
/-- The event of `onCreate`, if there is one, is of the activity and comes first, and no other event uses its name. -/
def OnCreateFirst (es : List Event) : Prop :=
  (∃ code rest, es = ⟨s% "onCreate", .activityEvent, code⟩ :: rest ∧ ∀ e ∈ rest, e.name ≠ s% "onCreate") ∨
  ∀ e ∈ es, e.name ≠ s% "onCreate" ∧ e.containerId ≠ s% "onCreate_initializeLogic"

/-- What a screen needs to survive. -/
structure Screen.Survives (s : Screen) : Prop where
  /-- Its views are read back (`c34_round_trip` tells when). -/
  layout : parseRawLayout s.toLayout = .ok s.layout
  /-- Its FAB is read back. -/
  fab : ∀ v, s.fab = some v → View.ofRaw (fabBack v) = v
  /-- Its moreblocks have their names as keys, and their specs are read back (`c48_text_then_parse_partial`). -/
  moreBlocks : ∀ m ∈ s.moreBlocks, m.2.name = m.1 ∧ BlockContent.parseWoParams (BlockContent.text m.2.spec) = .ok m.2.spec
  onCreate : OnCreateFirst s.events
  moreCode : ∀ m ∈ s.moreBlocks, CodeSurvives m.2.code
  eventCode : ∀ e ∈ s.events, CodeSurvives e.code
  /-- Events that share a container have no code. -/
  shared : s.events.Pairwise fun x y => x.containerId = y.containerId → x.code = [] ∧ y.code = []
  /-- An event that shares the container of a moreblock has no code. -/
  moreShared : ∀ e ∈ s.events, ∀ m ∈ s.moreBlocks, e.containerId = m.1 ++ s% "_moreBlock" → e.code = []

/-- A screen is written and read back. -/
def Screen.RoundTrips (s : Screen) : Prop :=
  ∃ logic, s.toLogic = .ok logic ∧
    Screen.fromParsed s.layoutName logic.name s.toFileItem s.toLayout logic (s.fab.map fun v => View.ofRaw (fabBack v)) = .ok s

omit [MapPol] [Floats] in
theorem onCreateId_ne (a : Str) : moreBlockId a ≠ onCreateId := by
  intro h
  have h := congrArg List.reverse h
  simp [moreBlockId, onCreateId] at h

omit [MapPol] in
theorem keys_written (ms : List (Str × MoreBlock)) : LMap.keys (ms.map fun m => (m.1, m.2.intoParser.1)) = LMap.keys ms := by
  rw [LMap.keys, LMap.keys, List.map_map]
  rfl

theorem toLogic_ok {s : Screen} {logic : ScreenLogic} (hm : s.moreBlocks.keys.Nodup) (h : s.toLogic = .ok logic) :
    ∃ cs1, eventsBack s.events [] = .ok ((s.events.filter fun e => e.name ≠ s% "onCreate").map (·.intoParser.1), cs1) ∧
      moreBlocksBack s.moreBlocks cs1 = .ok (s.moreBlocks.map (fun m => (m.1, m.2.intoParser.1)), logic.blockContainers) ∧
      logic = { name := s.javaName, blockContainers := logic.blockContainers, variables := some ⟨s.variables⟩,
                listVariables := some ⟨s.listVariables⟩, components := some ⟨s.components.map fun e => e.2.intoParser e.1⟩,
                events := some ⟨(s.events.filter fun e => e.name ≠ s% "onCreate").map (·.intoParser.1)⟩,
                moreBlocks := some ⟨s.moreBlocks.map (fun m => (m.1, m.2.intoParser.1))⟩ } := by
  simp only [Screen.toLogic, Out.bind_eq_ok, Out.pure_eq, Out.ok.injEq, Prod.exists] at h
  obtain ⟨ps, cs1, h1, mbs, cs2, h2, rfl⟩ := h
  obtain ⟨rfl, _⟩ := eventsBack_ok h1
  obtain ⟨rfl, _⟩ := moreBlocksBack_ok hm h2
  refine ⟨cs1, h1, h2, ?_⟩
  have : LMap.collect (s.moreBlocks.map (fun m => (m.1, m.2.intoParser.1))) = s.moreBlocks.map (fun m => (m.1, m.2.intoParser.1)) := by
    apply LMap.collect_nodup
    rw [keys_written]; exact hm
  simp only [this]

/-- The containers of a written screen. -/
theorem written_containers {s : Screen} (hm : s.moreBlocks.keys.Nodup) {cs1 cs2 : Containers} {ps mbs}
    (h1 : eventsBack s.events [] = .ok (ps, cs1)) (h2 : moreBlocksBack s.moreBlocks cs1 = .ok (mbs, cs2)) :
    (onCreateId ∈ cs2.keys ↔ ∃ e ∈ s.events, e.containerId = onCreateId) := by
  obtain ⟨_, _, h3⟩ := eventsBack_ok h1
  obtain ⟨_, _, h4⟩ := moreBlocksBack_ok hm h2
  rw [← LMap.get_isSome, h4 onCreateId]
  · rcases h3 onCreateId with ⟨h, h'⟩ | ⟨pre, e, post, h, h', _, c, _, hc⟩
    · rw [h']
      constructor
      · rintro ⟨_, h⟩
        cases h
      · rintro ⟨e, he, hk⟩
        exact absurd hk (h e he)
    · rw [hc]
      exact ⟨fun _ => ⟨e, by simp [h], h'⟩, fun _ => ⟨c, rfl⟩⟩
  · intro hk
    obtain ⟨m, _, hk⟩ := List.mem_map.mp hk
    exact onCreateId_ne _ hk

omit [MapPol] in
theorem parserForms (es : List Event) (L : List Event) :
    All₂ (fun (p : Swrs.Event) (e : Event) => Event.tryFrom p = .ok { e with code := [] }) (L.map (·.intoParser.1)) es ↔
      es.map (fun e => (e.name, e.eventType)) = L.map (fun e => (e.name, e.eventType)) := by
  induction L generalizing es with
  | nil =>
    constructor
    · intro h; cases h; rfl
    · intro h
      rw [List.map_nil, List.map_eq_nil_iff] at h
      subst h; exact .nil
  | cons x L ih =>
    constructor
    · intro h
      cases h with
      | @cons _ e _ _ h t =>
        rw [event_back] at h
        have h := Out.ok.inj h
        simp only [Event.mk.injEq] at h
        simp only [List.map_cons]
        rw [(ih _).mp t, h.1, h.2.1]
    · intro h
      cases es with
      | nil => cases h
      | cons e es =>
        simp only [List.map_cons, List.cons.injEq, Prod.mk.injEq] at h
        refine .cons ?_ ((ih _).mpr h.2)
        rw [event_back, h.1.1, h.1.2]

omit [MapPol] in
theorem filter_all_of_length {es L : List Event} (h : es.map (fun e => (e.name, e.eventType)) = (L.filter fun e => e.name ≠ s% "onCreate").map (fun e => (e.name, e.eventType)))
    (hl : es.length = L.length) : ∀ e ∈ L, e.name ≠ s% "onCreate" := by
  have h := congrArg List.length h
  rw [List.length_map, List.length_map, hl] at h
  have := List.length_filter_eq_length_iff.mp h.symm
  intro e he
  simpa using this e he

omit [MapPol] in
/-- The events are listed again iff `onCreate` comes first. -/
theorem events_listed {es : List Event} {b : Prop} [Decidable b] (hb : b ↔ ∃ e ∈ es, e.containerId = onCreateId) :
    All₂ (fun (p : Swrs.Event) (e : Event) => Event.tryFrom p = .ok { e with code := [] })
      (if b then onCreateEvent :: (es.filter fun e => e.name ≠ s% "onCreate").map (·.intoParser.1)
        else (es.filter fun e => e.name ≠ s% "onCreate").map (·.intoParser.1)) es ↔ OnCreateFirst es := by
  have hoc : Event.tryFrom onCreateEvent = .ok (⟨s% "onCreate", .activityEvent, []⟩ : Event) := rfl
  split
  · rename_i hb'
    constructor
    · intro h
      generalize hL : (es.filter fun e => e.name ≠ s% "onCreate").map (·.intoParser.1) = L at h
      cases h with
      | @cons _ e _ rest h t =>
        rw [hoc] at h
        obtain ⟨n, ty, code⟩ := e
        have h := Out.ok.inj h
        simp only [Event.mk.injEq] at h
        obtain ⟨rfl, rfl, _⟩ := h
        refine .inl ⟨code, rest, rfl, ?_⟩
        subst hL
        rw [List.filter_cons_of_neg (by simp), parserForms] at t
        exact filter_all_of_length t rfl
    · rintro (⟨code, rest, rfl, h⟩ | h)
      · refine .cons hoc ?_
        rw [List.filter_cons_of_neg (by simp), parserForms, List.filter_eq_self.mpr]
        intro e he
        simpa using h e he
      · obtain ⟨e, he, hk⟩ := hb.mp hb'
        exact absurd hk (h e he).2
  · rename_i hb'
    rw [parserForms]
    constructor
    · intro h
      refine .inr fun e he => ⟨filter_all_of_length h rfl e he, fun hk => hb' (hb.mpr ⟨e, he, hk⟩)⟩
    · rintro (⟨code, rest, rfl, h⟩ | h)
      · exact absurd (hb.mpr ⟨⟨s% "onCreate", .activityEvent, code⟩, by simp, rfl⟩) hb'
      · rw [List.filter_eq_self.mpr]
        intro e he
        simpa using (h e he).1

/-- C59, exactly which screens survive: those of `Screen.Survives`. The keys of a `LinkedHashMap` are distinct.
Missing: the others, and there are such. -/
theorem c59_round_trip_partial (s : Screen) (hm : s.moreBlocks.keys.Nodup) (hc : s.components.keys.Nodup) :
    s.RoundTrips ↔ s.Survives := by
  constructor
  · rintro ⟨logic, hl, h⟩
    obtain ⟨cs1, h1, h2, hl⟩ := toLogic_ok hm hl
    obtain ⟨_, h3, h4⟩ := eventsBack_ok h1
    obtain ⟨_, h5, h6⟩ := moreBlocksBack_ok hm h2
    have hw := written_containers hm h1 h2
    generalize logic.blockContainers = cs at *
    subst hl
    simp only [Screen.fromParsed, Out.bind_eq_ok, Out.mapErr_eq_ok, Prod.exists, Option.map_some, Option.getD_some, componentsOf_back,
      Out.ok.injEq, Out.pure_eq] at h
    obtain ⟨layout, hlay, mbs, cs', hmb, comps, rfl, events, cs'', hev, hs⟩ := h
    rw [moreBlocksOf_ok (by rw [keys_written]; exact hm)] at hmb
    obtain ⟨hmb, rfl⟩ := hmb
    have hmb' : mbs = s.moreBlocks := by
      have hk : LMap.keys mbs = LMap.keys s.moreBlocks := by
        have : ∀ (es : List (Str × MoreBlock)) (mbs : List (Str × MoreBlock)), All₂ (fun (e : Str × Swrs.MoreBlock) (m : Str × MoreBlock) => m.1 = e.1 ∧ m.2.name = e.1 ∧
          BlockContent.parseWoParams e.2.spec = .ok m.2.spec ∧ codeOf cs (moreBlockId e.1) = .ok m.2.code) (es.map (fun m => (m.1, m.2.intoParser.1))) mbs →
          LMap.keys mbs = LMap.keys es := by
          intro es
          induction es with
          | nil => intro mbs h; cases h; rfl
          | cons e es ih =>
            intro mbs h
            cases h with
            | cons h t => rw [LMap.keys_cons, LMap.keys_cons, ih _ t, h.1]
        exact this _ _ hmb
      have : LMap.collect mbs = s.moreBlocks := by rw [← hs]
      rw [← this, LMap.collect_nodup mbs (by rw [hk]; exact hm)]
    have hev' : events = s.events := by rw [← hs]
    have hlay' : layout = s.layout := by rw [← hs]
    have hfab : (s.fab.map fun v => View.ofRaw (fabBack v)) = s.fab := by
      have := congrArg Screen.fab hs
      exact this
    subst hmb' hev' hlay'
    clear hs
    have hev := eventsOf_ok.mp ⟨_, hev⟩
    obtain ⟨hlist, hread⟩ := hev
    have hpw := readsBack_pairwise hread
    have hmc : ∀ m ∈ s.moreBlocks, m.2.name = m.1 ∧ BlockContent.parseWoParams (BlockContent.text m.2.spec) = .ok m.2.spec ∧ codeOf cs (moreBlockId m.1) = .ok m.2.code := by
      have : ∀ (es : List (Str × MoreBlock)), All₂ (fun (e : Str × Swrs.MoreBlock) (m : Str × MoreBlock) => m.1 = e.1 ∧ m.2.name = e.1 ∧
          BlockContent.parseWoParams e.2.spec = .ok m.2.spec ∧ codeOf cs (moreBlockId e.1) = .ok m.2.code) (es.map (fun m => (m.1, m.2.intoParser.1))) es →
          ∀ m ∈ es, m.2.name = m.1 ∧ BlockContent.parseWoParams (BlockContent.text m.2.spec) = .ok m.2.spec ∧ codeOf cs (moreBlockId m.1) = .ok m.2.code := by
        intro es h m hm
        have := All₂.mem_map (fun m : Str × MoreBlock => (m.1, m.2.intoParser.1)) id (by simpa using h) m hm
        exact this.2
      exact this _ hmb
    -- events sharing the container of a moreblock
    have hms : ∀ e ∈ s.events, ∀ m ∈ s.moreBlocks, e.containerId = moreBlockId m.1 → e.code = [] := by
      intro e he m hm' hk
      refine readsBack_none hread he ?_
      rw [get_after, if_pos]
      rw [hk, List.map_map]
      exact List.mem_map.mpr ⟨m, hm', rfl⟩
    -- what the first event with a container reads
    have hfirst : ∀ pre e post, s.events = pre ++ e :: post → (∀ x ∈ pre, x.containerId ≠ e.containerId) →
        (∀ m ∈ s.moreBlocks, e.containerId ≠ moreBlockId m.1) → codeOf cs1 e.containerId = .ok e.code := by
      intro pre e post he hpre hne
      rw [he] at hread
      have := readsBack_first hread hpre
      rw [codeOf, get_after, if_neg, h6] at this
      · exact this
      · intro hk
        obtain ⟨m, hm', hk⟩ := List.mem_map.mp hk
        exact hne m hm' hk.symm
      · intro hk
        rw [List.map_map] at hk
        obtain ⟨m, hm', hk⟩ := List.mem_map.mp hk
        exact hne m hm' hk.symm
    -- an event after which the container is written again has no code
    have hagain : ∀ pre e post, s.events = pre ++ e :: post → (∃ y ∈ post, y.containerId = e.containerId) → e.code = [] := by
      intro pre e post he ⟨y, hy, hk⟩
      by_cases hpre : ∃ x ∈ pre, x.containerId = e.containerId
      · obtain ⟨x, hx, hxk⟩ := hpre
        rw [he] at hpw
        exact (List.pairwise_append.mp hpw).2.2 x hx e (by simp) hxk
      by_cases hmb : ∃ m ∈ s.moreBlocks, e.containerId = moreBlockId m.1
      · obtain ⟨m, hm', hk'⟩ := hmb
        exact hms e (by simp [he]) m hm' hk'
      have hr := hfirst pre e post he (fun x hx hxk => hpre ⟨x, hx, hxk⟩) (fun m hm' hk' => hmb ⟨m, hm', hk'⟩)
      rcases h4 e.containerId with ⟨hn, _⟩ | ⟨pre', z, post', he', hz, hpost, c, hc', hget⟩
      · exact absurd rfl (hn e (by simp [he]))
      · have hzc : z.code = [] := by
          -- z comes after e
          have : z ∈ post := by
            rw [he] at he'
            rcases List.append_eq_append_iff.mp he' with ⟨l, h1, h2⟩ | ⟨l, h1, h2⟩
            · cases l with
              | nil =>
                simp only [List.nil_append, List.cons.injEq] at h2
                obtain ⟨rfl, rfl⟩ := h2
                exact absurd hk (hpost y hy)
              | cons a l =>
                simp only [List.cons_append, List.cons.injEq] at h2
                rw [h2.2]
                simp
            · cases l with
              | nil =>
                simp only [List.nil_append, List.cons.injEq] at h2
                obtain ⟨rfl, rfl⟩ := h2
                exact absurd hk (hpost y hy)
              | cons a l =>
                simp only [List.cons_append, List.cons.injEq] at h2
                exact absurd hk (hpost y (by rw [h2.2]; simp [hy]))
          rw [he] at hpw
          exact (List.pairwise_cons.mp (List.pairwise_append.mp hpw).2.1).1 z this hz.symm
        rw [hzc, toContainer_empty] at hc'
        cases hc'
        rw [codeOf, hget] at hr
        exact (Out.ok.inj hr).symm
    refine ⟨hlay, ?_, fun m h => ⟨(hmc m h).1, (hmc m h).2.1⟩, ?_, ?_, ?_, ?_, hms⟩
    · intro v hv
      rw [hv] at hfab
      exact Option.some.inj hfab
    · rw [parserEvents] at hlist
      simp only [Option.map_some, Option.getD_some] at hlist
      exact (events_listed hw).mp hlist
    · intro m hm'
      obtain ⟨c, hc', hget⟩ := h5 m hm'
      refine ⟨c, hc', ?_⟩
      have := (hmc m hm').2.2
      rw [codeOf, hget] at this
      exact this
    · intro e he
      obtain ⟨c, hc'⟩ := h3 e he
      by_cases he0 : e.code = []
      · rw [he0]
        exact ⟨_, toContainer_empty, tryFrom_empty⟩
      obtain ⟨pre, post, hpp⟩ := List.append_of_mem he
      have hpre : ∀ x ∈ pre, x.containerId ≠ e.containerId := by
        intro x hx hxk
        rw [hpp] at hpw
        exact he0 ((List.pairwise_append.mp hpw).2.2 x hx e (by simp) hxk)
      have hpost : ∀ x ∈ post, x.containerId ≠ e.containerId := fun x hx hxk => he0 (hagain pre e post hpp ⟨x, hx, hxk⟩)
      have hr := hfirst pre e post hpp hpre (fun m hm' hk => he0 (hms e he m hm' hk))
      refine ⟨c, hc', ?_⟩
      rcases h4 e.containerId with ⟨hn, _⟩ | ⟨pre', z, post', he', hz, _, c', hzc, hget⟩
      · exact absurd rfl (hn e he)
      · have : z = e := by
          have hzm : z ∈ pre ++ e :: post := by rw [← hpp, he']; simp
          rcases List.mem_append.mp hzm with h | h
          · exact absurd hz (hpre z h)
          · rcases List.mem_cons.mp h with h | h
            · exact h
            · exact absurd hz (hpost z h)
        subst this
        rw [hzc] at hc'
        cases hc'
        rw [codeOf, hget] at hr
        exact hr
    · have : ∀ pre x mid y post, s.events = pre ++ x :: (mid ++ y :: post) → x.containerId = y.containerId → x.code = [] ∧ y.code = [] := by
        intro pre x mid y post h hk
        refine ⟨hagain pre x _ h ⟨y, by simp, hk.symm⟩, ?_⟩
        rw [h] at hpw
        exact (List.pairwise_cons.mp (List.pairwise_append.mp hpw).2.1).1 y (by simp) hk
      clear hfirst hagain hms hread hpw hlist hw hfab hmb hmc h1 h2 h3 h4 h5 h6 hlay hm hc
      generalize s.events = es at this
      induction es with
      | nil => exact .nil
      | cons x es ih =>
        refine .cons ?_ (ih fun pre a mid b post h => this (x :: pre) a mid b post (by rw [h]; rfl))
        intro y hy
        obtain ⟨mid, post, rfl⟩ := List.append_of_mem hy
        exact this [] x mid y post rfl
  · intro hs
    obtain ⟨⟨ps, cs1⟩, h1⟩ := eventsBack_total (fun e he => (hs.eventCode e he).imp fun _ h => h.1) ([] : Containers)
    obtain ⟨⟨mbs, cs2⟩, h2⟩ := moreBlocksBack_total (fun m hm => (hs.moreCode m hm).imp fun _ h => h.1) cs1
    have hw := written_containers hm h1 h2
    obtain ⟨hps, h3, h4⟩ := eventsBack_ok h1
    obtain ⟨hmbs, h5, h6⟩ := moreBlocksBack_ok hm h2
    have hk : (LMap.keys mbs).Nodup := by rw [hmbs, keys_written]; exact hm
    have hl : s.toLogic = .ok (
        { name := s.javaName, blockContainers := cs2, variables := some ⟨s.variables⟩,
          listVariables := some ⟨s.listVariables⟩, components := some ⟨s.components.map fun e => e.2.intoParser e.1⟩,
          events := some ⟨ps⟩, moreBlocks := some ⟨mbs⟩ } : ScreenLogic) := by
      simp only [Screen.toLogic, h1, h2, Out.ok_bind, Out.pure_eq, LMap.collect_nodup mbs hk]
    refine ⟨_, hl, ?_⟩
    have hmb : moreBlocksOf mbs cs2 = .ok (s.moreBlocks, afterMoreBlocks mbs cs2) := by
      rw [moreBlocksOf_ok hk]
      refine ⟨?_, rfl⟩
      rw [hmbs]
      have : All₂ (fun (e : Str × Swrs.MoreBlock) (m : Str × MoreBlock) => m.1 = e.1 ∧ m.2.name = e.1 ∧
          BlockContent.parseWoParams e.2.spec = .ok m.2.spec ∧ codeOf cs2 (moreBlockId e.1) = .ok m.2.code)
          (s.moreBlocks.map (fun m => (m.1, m.2.intoParser.1))) (s.moreBlocks.map id) := by
        apply All₂.of_map
        intro m hm'
        refine ⟨rfl, (hs.moreBlocks m hm').1, (hs.moreBlocks m hm').2, ?_⟩
        obtain ⟨c, hc1, hc2⟩ := h5 m hm'
        obtain ⟨c', hc1', hc2'⟩ := hs.moreCode m hm'
        rw [hc1] at hc1'
        cases hc1'
        rw [codeOf, hc2]
        exact hc2'
      simpa using this
    have hev : ∃ cs', eventsOf (if onCreateId ∈ cs2.keys then onCreateEvent :: ps else ps) (afterMoreBlocks mbs cs2) = .ok (s.events, cs') := by
      rw [eventsOf_ok]
      refine ⟨by rw [hps]; exact (events_listed hw).mpr hs.onCreate, readsBack_of ?_ (hs.shared.imp fun h hk => (h hk).2)⟩
      intro e he
      have hids : mbs.map (fun e => moreBlockId e.1) = s.moreBlocks.map (fun e => moreBlockId e.1) := by
        rw [hmbs, List.map_map]; rfl
      rw [codeOf, get_after, hids]
      split
      · rename_i hk'
        obtain ⟨m, hm', hk'⟩ := List.mem_map.mp hk'
        rw [hs.moreShared e he m hm' hk'.symm]
        rfl
      · rename_i hk'
        rw [h6 _ hk']
        rcases h4 e.containerId with ⟨hn, _⟩ | ⟨pre', z, post', he', hz, _, c', hzc, hget⟩
        · exact absurd rfl (hn e he)
        · rw [hget]
          by_cases hze : z = e
          · subst hze
            obtain ⟨c, hc1, hc2⟩ := hs.eventCode z he
            rw [hzc] at hc1
            cases hc1
            exact hc2
          · have hboth : z.code = [] ∧ e.code = [] := by
              have hsh := hs.shared
              rw [he'] at hsh he
              rcases List.mem_append.mp he with h | h
              · exact ((List.pairwise_append.mp hsh).2.2 e h z (by simp) hz.symm).symm
              · rcases List.mem_cons.mp h with h | h
                · exact absurd h.symm hze
                · exact (List.pairwise_cons.mp (List.pairwise_append.mp hsh).2.1).1 e h hz
            rw [hboth.1, toContainer_empty] at hzc
            cases hzc
            rw [hboth.2]
            rfl
    obtain ⟨cs', hev⟩ := hev
    have hfab : (s.fab.map fun v => View.ofRaw (fabBack v)) = s.fab := by
      cases hf : s.fab with
      | none => rfl
      | some v => exact congrArg some (hs.fab v hf)
    simp only [Screen.fromParsed, hs.layout, Out.mapErr_ok, Out.ok_bind, Option.map_some, Option.getD_some, hmb, componentsOf_back,
      parserEvents, hev, Out.pure_eq, LMap.collect_nodup _ hm, LMap.collect_nodup _ hc, hfab]
    rfl

omit [MapPol] in
/-- C59: a FAB that survives has no children. -/
theorem c59_fab_children (v : View) (h : View.ofRaw (fabBack v) = v) : v.children = [] := by rw [← h]; rfl

/-- A screen without views. -/
def plainScreen (moreBlocks : LMap Str MoreBlock) (events : List Event) (fab : Option View) : Screen where
  layoutName := s% "main"
  javaName := s% "MainActivity"
  layout := []
  variables := []
  listVariables := []
  moreBlocks
  components := [(s% "t", .timer)]
  events
  fab
  fullscreenEnabled := false
  toolbarEnabled := true
  drawerEnabled := false
  fabEnabled := false
  orientation := .portrait
  theme := .default
  keyboardSetting := .unspecified

/-- C59 is false: the event of `onCreate` moves to the front, and a view below a FAB is lost. -/
theorem c59_round_trip_false :
    (∃ (s s' : Screen) (logic : ScreenLogic), s.toLogic = .ok logic ∧
      Screen.fromParsed s.layoutName logic.name s.toFileItem s.toLayout logic none = .ok s' ∧ s.fab = none ∧ s'.events ≠ s.events) ∧
    (∃ (s s' : Screen) (logic : ScreenLogic) (v : View), s.fab = some v ∧ s.toLogic = .ok logic ∧
      Screen.fromParsed s.layoutName logic.name s.toFileItem s.toLayout logic (some (View.ofRaw (fabBack v))) = .ok s' ∧ s'.fab ≠ s.fab) := by
  refine ⟨⟨plainScreen [] [⟨s% "onBackPressed", .activityEvent, []⟩, ⟨s% "onCreate", .activityEvent, []⟩] none,
      plainScreen [] [⟨s% "onCreate", .activityEvent, []⟩, ⟨s% "onBackPressed", .activityEvent, []⟩] none, _, rfl, rfl, rfl, ?_⟩, ?_⟩
  · simp [plainScreen]
  · refine ⟨plainScreen [] [] (some { View.ofRaw (AndroidView.newEmpty (s% "_fab") 16 (s% "root") 0) with
        children := [View.ofRaw (AndroidView.newEmpty (s% "a") 3 (s% "_fab") 16)] }), plainScreen [] [] (some _), _, _, rfl, rfl, rfl, ?_⟩
    simp only [plainScreen, ne_eq, Option.some.injEq]
    intro h
    have := congrArg View.children h
    simp [View.ofRaw] at this

end

section
variable [MapPol] [FloatLaws]
/-- A screen with code in two events and a moreblock. -/
def survivingScreen : Screen :=
  plainScreen [(s% "mb", ⟨s% "mb", [.text (s% "do"), .param (.string (some (s% "x")) .empty)], [exLeaf (s% "c")]⟩)]
    [⟨s% "onCreate", .activityEvent, [exLeaf (s% "a")]⟩, ⟨s% "onClick", .viewEvent (s% "button1"), [exLeaf (s% "b")]⟩] none

theorem survivingScreen_survives : survivingScreen.Survives := by
  have hleaf : ∀ op ∈ [s% "a", s% "b", s% "c"], CodeSurvives [exLeaf op] := by
    intro op hop
    refine (c47_round_trip_partial _ ?_).mpr ?_
    · simp [exLeaf, blocksSize, blockSize, stackSize, itemsSize, itemSize]
    · intro b hb
      simp only [List.mem_singleton] at hb
      subst hb
      have hi : ItemOk (.text op : SpecItem Block) := by
        simp only [List.mem_cons, List.not_mem_nil, or_false] at hop
        rcases hop with rfl | rfl | rfl <;> simp [ItemOk]
      have := exLeaf_top hi
      exact ⟨trivial, trivial, this.2.2.1, fun i hi => by simp only [exLeaf, Block.content, List.mem_singleton] at hi; subst hi; trivial,
        this.2.2.2.2⟩
  unfold survivingScreen
  refine ⟨rfl, by simp [plainScreen], ?_, ?_, ?_, ?_, ?_, ?_⟩
  · intro m hm
    simp only [plainScreen, List.mem_singleton] at hm
    subst hm
    exact ⟨rfl, rfl⟩
  · exact .inl ⟨_, _, rfl, by simp⟩
  · intro m hm
    simp only [plainScreen, List.mem_singleton] at hm
    subst hm
    exact hleaf _ (by simp)
  · intro e he
    simp only [plainScreen, List.mem_cons, List.not_mem_nil, or_false] at he
    rcases he with rfl | rfl <;> exact hleaf _ (by simp)
  · simp [plainScreen, Event.containerId]
  · simp [plainScreen, Event.containerId]

/-- It is read back. -/
example : survivingScreen.RoundTrips :=
  (c59_round_trip_partial _ (by simp [survivingScreen, plainScreen]) (by simp [survivingScreen, plainScreen])).mpr survivingScreen_survives
end

/-! ## C56 — No code is dropped -/
section
variable [MapPol] [Floats]

/-- A moreblock or an event of the screen refers to a container. -/
def Refers (logic : ScreenLogic) (id : Str) : Prop :=
  (∃ m ∈ (logic.moreBlocks.map (·.map)).getD [], m.1 ++ s% "_moreBlock" = id) ∨ id = s% "onCreate_initializeLogic" ∨
  ∃ p ∈ (logic.events.map (·.items)).getD [], ∃ e, Event.tryFrom p = .ok e ∧ e.containerId = id

/-- The code of a container is attached to a moreblock or an event of the screen. -/
def Attached (s : Screen) (id : Str) (c : BlockContainer) : Prop :=
  (∃ m ∈ s.moreBlocks, m.1 ++ s% "_moreBlock" = id ∧ tryFrom c = .ok m.2.code) ∨
  ∃ e ∈ s.events, e.containerId = id ∧ tryFrom c = .ok e.code

theorem readsBack_attached {es : List Event} {cs : Containers} (h : ReadsBack es cs) {id : Str} {c : BlockContainer}
    (hc : cs.get id = some c) (he : ∃ e ∈ es, e.containerId = id) : ∃ e ∈ es, e.containerId = id ∧ tryFrom c = .ok e.code := by
  induction es generalizing cs with
  | nil => simp at he
  | cons x es ih =>
    by_cases hx : x.containerId = id
    · refine ⟨x, by simp, hx, ?_⟩
      have := h.1
      rw [codeOf, hx, hc] at this
      exact this
    · obtain ⟨e, he, hk⟩ := he
      rcases List.mem_cons.mp he with rfl | he
      · exact absurd hk hx
      · obtain ⟨y, hy, h1, h2⟩ := ih h.2 (by rw [LMap.get_erase, if_neg (Ne.symm hx)]; exact hc) ⟨e, he, hk⟩
        exact ⟨y, by simp [hy], h1, h2⟩

omit [MapPol] in
theorem tryFrom_container {p : Swrs.Event} {e e' : Event} (h : Event.tryFrom p = .ok e) (h' : Event.tryFrom p = .ok { e' with code := [] }) :
    e.containerId = e'.containerId := by
  rw [h] at h'
  have := Out.ok.inj h'
  subst this
  rfl

/-- C56, what holds: the code of a container is attached to a moreblock or an event exactly if one refers to the container.
Missing: the other containers. -/
theorem c56_attached_partial (layoutName logicName : Str) (file : FileItem) (view : Layout) (logic : ScreenLogic) (fab : Option View)
    (s : Screen) (hn : (((logic.moreBlocks.map (·.map)).getD []).map (·.1)).Nodup)
    (h : Screen.fromParsed layoutName logicName file view logic fab = .ok s) (id : Str) (c : BlockContainer)
    (hc : logic.blockContainers.get id = some c) : Attached s id c ↔ Refers logic id := by
  simp only [Screen.fromParsed, Out.bind_eq_ok, Out.mapErr_eq_ok, Prod.exists, Out.ok.injEq, Out.pure_eq] at h
  obtain ⟨layout, _, mbs, cs', hmb, comps, _, events, cs'', hev, hs⟩ := h
  rw [moreBlocksOf_ok hn] at hmb
  obtain ⟨hmb, rfl⟩ := hmb
  have hk : LMap.keys mbs = ((logic.moreBlocks.map (·.map)).getD []).map (·.1) := by
    clear hn hev hs
    generalize (logic.moreBlocks.map (·.map)).getD [] = ms at hmb
    induction hmb with
    | nil => rfl
    | cons h _ ih => rw [LMap.keys_cons, List.map_cons, ih, h.1]
  have hmbs : s.moreBlocks = mbs := by
    rw [← hs]
    exact LMap.collect_nodup mbs (by rw [hk]; exact hn)
  have hevs : s.events = events := by rw [← hs]
  obtain ⟨hlist, hread⟩ := eventsOf_ok.mp ⟨_, hev⟩
  unfold Attached
  rw [hmbs, hevs]
  constructor
  · rintro (⟨m, hm, hid, _⟩ | ⟨e, he, hid, _⟩)
    · obtain ⟨m', hm', h1, _⟩ := hmb.right m hm
      exact .inl ⟨m', hm', by rw [← h1]; exact hid⟩
    · obtain ⟨p, hp, h⟩ := hlist.right e he
      have hp : p = onCreateEvent ∨ p ∈ (logic.events.map (·.items)).getD [] := by
        rw [parserEvents] at hp
        split at hp
        · exact List.mem_cons.mp hp
        · exact .inr hp
      rcases hp with rfl | hp
      · right; left
        rw [← hid, ← tryFrom_container (show Event.tryFrom onCreateEvent = .ok (⟨s% "onCreate", .activityEvent, []⟩ : Event) from rfl) h]
        rfl
      · exact .inr (.inr ⟨p, hp, _, h, hid⟩)
  intro hr
  by_cases hm : ∃ m ∈ (logic.moreBlocks.map (·.map)).getD [], m.1 ++ s% "_moreBlock" = id
  · left
    obtain ⟨m, hm, hid⟩ := hm
    obtain ⟨m', hm', h1, _, _, h2⟩ := hmb.left m hm
    refine ⟨m', hm', by rw [h1]; exact hid, ?_⟩
    rw [codeOf, show moreBlockId m.1 = id from hid, hc] at h2
    exact h2
  · right
    refine readsBack_attached hread ?_ ?_
    · rw [get_after, if_neg]
      · exact hc
      · intro hk
        obtain ⟨m, hm', hid⟩ := List.mem_map.mp hk
        exact hm ⟨m, hm', hid⟩
    · rw [parserEvents] at hlist
      rcases hr with hr | rfl | ⟨p, hp, e, he, hid⟩
      · exact absurd hr hm
      · rw [if_pos (show onCreateId ∈ logic.blockContainers.keys from LMap.get_isSome.mp ⟨c, hc⟩)] at hlist
        obtain ⟨e, he, h⟩ := hlist.left onCreateEvent (by simp)
        refine ⟨e, he, ?_⟩
        rw [← tryFrom_container (show Event.tryFrom onCreateEvent = .ok (⟨s% "onCreate", .activityEvent, []⟩ : Event) from rfl) h]
        rfl
      · obtain ⟨e', he', h⟩ := hlist.left p (by split <;> first | exact List.mem_cons_of_mem _ hp | exact hp)
        exact ⟨e', he', by rw [← tryFrom_container he h]; exact hid⟩

omit [MapPol] [Floats] in
theorem erase_comm {κ α : Type} [DecidableEq κ] (m : LMap κ α) (a b : κ) : (m.erase a).erase b = (m.erase b).erase a := by
  simp only [LMap.erase, List.filter_filter, Bool.and_comm]

theorem takeCode_erase {id k : Str} (h : id ≠ k) (cs : Containers) :
    takeCode id (cs.erase k) = (do let (x, cs') ← takeCode id cs; pure (x, cs'.erase k)) := by
  unfold takeCode
  rw [LMap.get_erase, if_neg h, erase_comm]
  cases (tryFrom ((cs.get id).getD ⟨[]⟩)) <;> rfl

theorem moreBlocksOf_erase {k : Str} (ms : List (Str × Swrs.MoreBlock)) (h : ∀ m ∈ ms, moreBlockId m.1 ≠ k) (cs : Containers) :
    moreBlocksOf ms (cs.erase k) = (do let (x, cs') ← moreBlocksOf ms cs; pure (x, cs'.erase k)) := by
  induction ms generalizing cs with
  | nil => rfl
  | cons m ms ih =>
    obtain ⟨id, mb⟩ := m
    simp only [moreBlocksOf, moreBlockOf]
    cases BlockContent.parseWoParams mb.spec with
    | panic => rfl
    | err e => rfl
    | ok spec =>
      simp only [Out.mapErr_ok, Out.ok_bind]
      rw [takeCode_erase (h (id, mb) (by simp))]
      cases takeCode (moreBlockId id) cs with
      | panic => rfl
      | err e => rfl
      | ok x =>
        obtain ⟨x, cs'⟩ := x
        simp only [Out.ok_bind, Out.pure_eq]
        rw [ih fun m hm => h m (by simp [hm])]
        cases moreBlocksOf ms cs' <;> rfl

theorem eventsOf_erase {k : Str} (ps : List Swrs.Event) (h : ∀ p ∈ ps, ∀ e, Event.tryFrom p = .ok e → e.containerId ≠ k) (cs : Containers) :
    eventsOf ps (cs.erase k) = (do let (x, cs') ← eventsOf ps cs; pure (x, cs'.erase k)) := by
  induction ps generalizing cs with
  | nil => rfl
  | cons p ps ih =>
    simp only [eventsOf, eventOf]
    cases he : Event.tryFrom p with
    | panic => rfl
    | err e => rfl
    | ok e =>
      simp only [Out.mapErr_ok, Out.ok_bind]
      rw [takeCode_erase (h p (by simp) e he)]
      cases takeCode e.containerId cs with
      | panic => rfl
      | err e => rfl
      | ok x =>
        obtain ⟨x, cs'⟩ := x
        simp only [Out.ok_bind, Out.pure_eq]
        rw [ih fun p hp => h p (by simp [hp])]
        cases eventsOf ps cs' <;> rfl

/-- C56: a container that nothing refers to makes no difference, whatever is in it. -/
theorem c56_dropped (layoutName logicName : Str) (file : FileItem) (view : Layout) (logic : ScreenLogic) (fab : Option View) (id : Str)
    (hr : ¬ Refers logic id) :
    Screen.fromParsed layoutName logicName file view { logic with blockContainers := logic.blockContainers.erase id } fab =
      Screen.fromParsed layoutName logicName file view logic fab := by
  have h1 : ∀ m ∈ (logic.moreBlocks.map (·.map)).getD [], moreBlockId m.1 ≠ id := fun m hm hk => hr (.inl ⟨m, hm, hk⟩)
  have h2 : id ≠ onCreateId := fun hk => hr (.inr (.inl hk))
  have h3 : ∀ p ∈ parserEvents logic, ∀ e, Event.tryFrom p = .ok e → e.containerId ≠ id := by
    intro p hp e he hk
    rw [parserEvents] at hp
    have : p = onCreateEvent ∨ p ∈ (logic.events.map (·.items)).getD [] := by
      split at hp
      · exact List.mem_cons.mp hp
      · exact .inr hp
    rcases this with rfl | hp
    · have : e = (⟨s% "onCreate", .activityEvent, []⟩ : Event) := (Out.ok.inj he).symm
      subst this
      exact h2 hk.symm
    · exact hr (.inr (.inr ⟨p, hp, e, he, hk⟩))
  have hp : parserEvents { logic with blockContainers := logic.blockContainers.erase id } = parserEvents logic := by
    have : onCreateId ∈ (logic.blockContainers.erase id).keys ↔ onCreateId ∈ logic.blockContainers.keys := by
      rw [LMap.keys_erase, List.mem_filter]
      simp [Ne.symm h2]
    simp only [parserEvents, this]
  unfold Screen.fromParsed
  rw [hp]
  simp only
  rw [moreBlocksOf_erase _ h1]
  cases (parseRawLayout view).mapErr ScreenConstructionError.layoutParseError with
  | panic => rfl
  | err e => rfl
  | ok layout =>
    simp only [Out.ok_bind]
    cases moreBlocksOf ((logic.moreBlocks.map (·.map)).getD []) logic.blockContainers with
    | panic => rfl
    | err e => rfl
    | ok x =>
      obtain ⟨mbs, cs⟩ := x
      simp only [Out.ok_bind, Out.pure_eq]
      rw [eventsOf_erase _ h3]
      cases componentsOf ((logic.components.map (·.items)).getD []) with
      | panic => rfl
      | err e => rfl
      | ok comps =>
        simp only [Out.ok_bind]
        cases eventsOf (parserEvents logic) cs <;> rfl

/-- The logic of a screen with one event and two containers. -/
def orphanLogic : ScreenLogic where
  name := s% "MainActivity"
  blockContainers := [(s% "button1_onClick", ⟨[]⟩), (s% "button2_onClick", ⟨[exBlock (s% "10") (-1) (-1) (s% "go") []]⟩)]
  variables := none
  listVariables := none
  components := none
  events := some ⟨[⟨s% "onClick", 1, s% "button1", 0⟩]⟩
  moreBlocks := none

/-- C56 is false: a container of which no event is listed is dropped. -/
theorem c56_dropped_false : ∃ (logic : ScreenLogic) (id : Str) (c : BlockContainer) (s : Screen) (code : List Block),
    logic.blockContainers.get id = some c ∧ tryFrom c = .ok code ∧ code ≠ [] ∧
    Screen.fromParsed (s% "main") logic.name (plainScreen [] [] none).toFileItem ⟨[]⟩ logic none = .ok s ∧ ¬ Attached s id c := by
  refine ⟨orphanLogic, s% "button2_onClick", _, { plainScreen [] [⟨s% "onClick", .viewEvent (s% "button1"), []⟩] none with components := [] }, _,
    rfl, rfl, by simp, rfl, ?_⟩
  rintro (⟨m, hm, _⟩ | ⟨e, he, hk, _⟩)
  · simp [plainScreen] at hm
  · simp only [plainScreen, List.mem_singleton] at he
    subst he
    exact absurd (show s% "button1_onClick" = s% "button2_onClick" from hk) (by decide)

/-- The first container of that screen is referred to, the second one is not. -/
example : Refers orphanLogic (s% "button1_onClick") ∧ ¬ Refers orphanLogic (s% "button2_onClick") := by
  refine ⟨.inr (.inr ⟨_, by simp [orphanLogic]; rfl, ⟨s% "onClick", .viewEvent (s% "button1"), []⟩, rfl, rfl⟩), ?_⟩
  rintro (⟨m, hm, _⟩ | h | ⟨p, hp, e, he, hk⟩)
  · simp [orphanLogic] at hm
  · exact absurd h (by decide)
  · simp only [orphanLogic, Option.map_some, Option.getD_some, List.mem_singleton] at hp
    subst hp
    have : e = ⟨s% "onClick", .viewEvent (s% "button1"), []⟩ := (Out.ok.inj he).symm
    subst this
    exact absurd (show s% "button1_onClick" = s% "button2_onClick" from hk) (by decide)

end
end Swrs.Api
