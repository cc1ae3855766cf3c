import Verif.Base.Steps
import Verif.Proofs.ApiRound
import Verif.Props.Events
import Verif.Base.FloatInst
/-!
# C78: which screens are made from the files, which error is given, and what is in them
-/
namespace Swrs.Api

/-- A step of making a screen that can fail. -/
inductive ScreenStep [Floats] where
  | layout (l : Layout)
  | spec (moreBlock text : Str)
  | code (container : Str)
  | component (c : Component)
  | event (e : Swrs.Event)

/-- The container of the code of an event. -/
def containerName (e : Swrs.Event) : Str :=
  if e.eventType = 3 then
    if e.eventName = s% "onCreate" then s% "onCreate_initializeLogic" else e.eventName ++ s% "_" ++ e.eventName
  else e.targetId ++ s% "_" ++ e.eventName

/-- What an event of type 1, 2 or 3 happens to. -/
def eventTypeOf (p : Swrs.Event) : EventType :=
  if p.eventType = 1 then .viewEvent p.targetId else if p.eventType = 2 then .componentEvent p.targetId p.targetType else .activityEvent

/-- The moreblocks of a screen. -/
def listedMoreBlocks (logic : ScreenLogic) : List (Str × Swrs.MoreBlock) := (logic.moreBlocks.map (·.map)).getD []
/-- The components of a screen. -/
def listedComponents (logic : ScreenLogic) : List Component := (logic.components.map (·.items)).getD []
/-- The events of a screen: those of its list, after one for `onCreate` if there is code for that. -/
def listedEvents (logic : ScreenLogic) : List Swrs.Event :=
  (if (logic.blockContainers.get (s% "onCreate_initializeLogic")).isSome then [⟨s% "onCreate", 3, s% "onCreate", 0⟩] else []) ++
  (logic.events.map (·.items)).getD []

/-- The steps of making a screen, in order. -/
def screenSteps [Floats] (view : Layout) (logic : ScreenLogic) : List ScreenStep :=
  [.layout view] ++
  (listedMoreBlocks logic).flatMap (fun m => [.spec m.1 m.2.spec, .code (m.1 ++ s% "_moreBlock")]) ++
  (listedComponents logic).map .component ++
  (listedEvents logic).flatMap (fun e => [.event e, .code (containerName e)])

/-- The container that is taken by a step. -/
def ScreenStep.takes [Floats] : ScreenStep → Option Str
  | .code n => some n
  | _ => none

section
variable [MapPol] [Floats]

omit [MapPol] [Floats] in
/-- The container of a name, if it is not taken yet; otherwise an empty one. -/
def containerLeft (logic : ScreenLogic) (taken : List Str) (n : Str) : BlockContainer :=
  if n ∈ taken then ⟨[]⟩ else (logic.blockContainers.get n).getD ⟨[]⟩

/-- The outcome of a step after the steps `earlier`. -/
def screenStep (logic : ScreenLogic) (earlier : List ScreenStep) : ScreenStep → Out ScreenConstructionError Unit
  | .layout l => (parseRawLayout l).void.mapErr .layoutParseError
  | .spec id text => (BlockContent.parseWoParams text : Out _ (BlockContent Block)).void.mapErr (.moreBlockSpecParseError id)
  | .code n => (tryFrom (containerLeft logic (earlier.filterMap (·.takes)) n)).void.mapErr (.blocksParseError n)
  | .component c => if 1 ≤ c.type ∧ c.type ≤ 21 then .ok () else .err (.unknownComponentType ⟨c.type, c.id⟩)
  | .event e => if 1 ≤ e.eventType ∧ e.eventType ≤ 3 then .ok () else .err (.unknownEventType ⟨e.eventName, e.eventType⟩)

omit [MapPol] [Floats] in
theorem component_step (c : Component) : ((ComponentKind.fromParser c).mapErr ScreenConstructionError.unknownComponentType).void =
    if 1 ≤ c.type ∧ c.type ≤ 21 then .ok () else .err (.unknownComponentType ⟨c.type, c.id⟩) := by
  rcases c37_refused c with ⟨⟨k, h⟩, h1, h2⟩ | ⟨h, h1⟩
  · rw [h, if_pos ⟨h1, h2⟩]; rfl
  · rw [h, if_neg h1]; rfl

omit [MapPol] in
/-- What is read of an event. -/
theorem event_read (p : Swrs.Event) :
    (∃ e : Event, Event.tryFrom p = .ok e ∧ 1 ≤ p.eventType ∧ p.eventType ≤ 3 ∧ e.containerId = containerName p ∧
      e.name = p.eventName ∧
      e.eventType = eventTypeOf p) ∨
    (Event.tryFrom p : Out _ Event) = .err ⟨p.eventName, p.eventType⟩ ∧ ¬ (1 ≤ p.eventType ∧ p.eventType ≤ 3) := by
  rcases c38_refused p with ⟨⟨e, h⟩, h1⟩ | ⟨h, h1⟩
  · left
    refine ⟨e, h, ?_⟩
    obtain ⟨n, t, i, tt⟩ := p
    simp only [List.mem_cons, List.not_mem_nil, or_false] at h1
    rcases h1 with rfl | rfl | rfl
    · cases h
      exact ⟨(by decide : (1 : UInt8) ≤ 1), (by decide : (1 : UInt8) ≤ 3), by simp [Event.containerId, containerName], rfl, rfl⟩
    · cases h
      exact ⟨(by decide : (1 : UInt8) ≤ 2), (by decide : (2 : UInt8) ≤ 3), by simp [Event.containerId, containerName], rfl, rfl⟩
    · cases h
      refine ⟨(by decide : (1 : UInt8) ≤ 3), (by decide : (3 : UInt8) ≤ 3), ?_, rfl, rfl⟩
      simp only [Event.containerId, containerName]
      by_cases hn : n = s% "onCreate"
      · subst hn; rfl
      · simp [hn]
  · refine .inr ⟨h, fun ⟨h2, h3⟩ => h1 ?_⟩
    simp only [UInt8.le_iff_toNat_le, List.mem_cons, List.not_mem_nil, or_false, ← UInt8.toNat_inj] at h2 h3 ⊢
    have h2 : 1 ≤ p.eventType.toNat := h2
    have h3 : p.eventType.toNat ≤ 3 := h3
    show p.eventType.toNat = 1 ∨ p.eventType.toNat = 2 ∨ p.eventType.toNat = 3
    omega

/-- The containers that are left. -/
def Left (logic : ScreenLogic) (taken : List Str) (cs : Containers) : Prop :=
  ∀ n, cs.get n = if n ∈ taken then none else logic.blockContainers.get n

omit [MapPol] [Floats] in
theorem Left.erase {logic : ScreenLogic} {taken : List Str} {cs : Containers} (h : Left logic taken cs) (n : Str) :
    Left logic (taken ++ [n]) (cs.erase n) := by
  intro k
  rw [LMap.get_erase, h k]
  simp only [List.mem_append, List.mem_singleton]
  grind

omit [MapPol] [Floats] in
theorem Left.container {logic : ScreenLogic} {taken : List Str} {cs : Containers} (h : Left logic taken cs) (n : Str) :
    (cs.get n).getD ⟨[]⟩ = containerLeft logic taken n := by
  rw [h n, containerLeft]
  split <;> rfl

theorem takeCode_step {logic : ScreenLogic} {taken : List Str} {cs : Containers} (h : Left logic taken cs) (n : Str) {β : Type}
    (k : List Block × Containers → Out ScreenConstructionError β) (y : Out ScreenConstructionError Unit)
    (hk : ∀ code cs', Left logic (taken ++ [n]) cs' → (k (code, cs')).void = y) :
    (takeCode n cs >>= k).void = ((tryFrom (containerLeft logic taken n)).void.mapErr (.blocksParseError n) >>= fun _ => y) := by
  simp only [takeCode, h.container]
  cases tryFrom (containerLeft logic taken n) with
  | ok c => simpa using hk c _ (h.erase n)
  | err e => rfl
  | panic => rfl

theorem moreBlocks_steps {logic : ScreenLogic} (ms : List (Str × Swrs.MoreBlock)) {earlier : List ScreenStep} {cs : Containers}
    (h : Left logic (earlier.filterMap (·.takes)) cs) (rest : List ScreenStep) {β : Type}
    (k : List (Str × MoreBlock) × Containers → Out ScreenConstructionError β)
    (hk : ∀ ms' cs' earlier', Left logic (earlier'.filterMap (·.takes)) cs' → (k (ms', cs')).void = runSteps (screenStep logic) earlier' rest) :
    (moreBlocksOf ms cs >>= k).void =
      runSteps (screenStep logic) earlier (ms.flatMap (fun m => [.spec m.1 m.2.spec, .code (m.1 ++ s% "_moreBlock")]) ++ rest) := by
  induction ms generalizing earlier cs β with
  | nil => exact hk [] cs earlier h
  | cons m ms ih =>
    obtain ⟨id, mb⟩ := m
    simp only [List.flatMap_cons, List.cons_append, List.nil_append, runSteps, moreBlocksOf, moreBlockOf]
    simp only [screenStep]
    cases (BlockContent.parseWoParams mb.spec : Out _ (BlockContent Block)) with
    | err e => rfl
    | panic => rfl
    | ok spec =>
      simp only [Out.mapErr_ok, Out.ok_bind, Out.void_ok]
      have h' : Left logic ((earlier ++ [ScreenStep.spec id mb.spec]).filterMap (·.takes)) cs := by
        simpa [ScreenStep.takes] using h
      rw [Out.bind_assoc, Out.bind_assoc]
      refine takeCode_step h' (moreBlockId id) _ _ ?_
      intro code cs' hl
      simp only [Out.pure_eq, Out.ok_bind, Out.bind_assoc]
      refine ih (earlier := earlier ++ [.spec id mb.spec] ++ [.code (moreBlockId id)]) ?_ _ ?_
      · simpa [ScreenStep.takes] using hl
      · intro ms' cs'' earlier' hl'
        exact hk _ _ _ hl'

theorem components_steps {logic : ScreenLogic} (cs : List Component) (earlier rest : List ScreenStep) {β : Type}
    (k : List (Str × ComponentKind) → Out ScreenConstructionError β)
    (hk : ∀ ks, (k ks).void = runSteps (screenStep logic) (earlier ++ cs.map .component) rest) :
    (componentsOf cs >>= k).void = runSteps (screenStep logic) earlier (cs.map .component ++ rest) := by
  induction cs generalizing earlier β with
  | nil =>
    have := hk []
    rw [List.map_nil, List.append_nil] at this
    exact this
  | cons c cs ih =>
    simp only [List.map_cons, List.cons_append, runSteps, componentsOf]
    simp only [screenStep]
    rw [← component_step]
    cases ComponentKind.fromParser c with
    | err e => rfl
    | panic => rfl
    | ok x =>
      simp only [Out.mapErr_ok, Out.ok_bind, Out.void_ok]
      rw [Out.bind_assoc]
      refine ih _ _ fun ks => ?_
      have := hk ((c.id, x) :: ks)
      simpa using this

theorem events_steps {logic : ScreenLogic} (es : List Swrs.Event) {earlier : List ScreenStep} {cs : Containers}
    (h : Left logic (earlier.filterMap (·.takes)) cs) {β : Type} (k : List Event × Containers → β) :
    (eventsOf es cs >>= fun x => Out.ok (k x)).void =
      runSteps (screenStep logic) earlier (es.flatMap (fun e => [.event e, .code (containerName e)])) := by
  induction es generalizing earlier cs β with
  | nil => rfl
  | cons p es ih =>
    simp only [List.flatMap_cons, List.cons_append, List.nil_append, runSteps, eventsOf, eventOf]
    simp only [screenStep]
    rcases event_read p with ⟨e, he, h1, h2, h3, -, -⟩ | ⟨he, h1⟩
    · rw [he, if_pos ⟨h1, h2⟩]
      simp only [Out.mapErr_ok, Out.ok_bind]
      have h' : Left logic ((earlier ++ [ScreenStep.event p]).filterMap (·.takes)) cs := by
        simpa [ScreenStep.takes] using h
      rw [Out.bind_assoc, h3, Out.bind_assoc]
      refine takeCode_step h' _ _ _ ?_
      intro code cs' hl
      simp only [Out.pure_eq, Out.ok_bind, Out.bind_assoc]
      refine ih (earlier := earlier ++ [.event p] ++ [.code (containerName p)]) ?_ _
      simpa [ScreenStep.takes] using hl
    · rw [he, if_neg h1]
      rfl

omit [MapPol] [Floats] in
theorem parserEvents_eq (logic : ScreenLogic) : parserEvents logic = listedEvents logic := by
  simp only [parserEvents, listedEvents]
  have : onCreateId ∈ logic.blockContainers.keys ↔ (logic.blockContainers.get (s% "onCreate_initializeLogic")).isSome := by
    rw [← LMap.get_isSome, Option.isSome_iff_exists]
    rfl
  by_cases h : onCreateId ∈ logic.blockContainers.keys
  · rw [if_pos h, if_pos (this.mp h)]; rfl
  · rw [if_neg h, if_neg (fun h' => h (this.mpr h'))]; rfl

theorem fromParsed_void (layoutName logicName : Str) (file : FileItem) (view : Layout) (logic : ScreenLogic) (fab : Option View) :
    (Screen.fromParsed layoutName logicName file view logic fab).void = runSteps (screenStep logic) [] (screenSteps view logic) := by
  simp only [Screen.fromParsed, screenSteps, List.cons_append, List.nil_append, List.append_assoc, runSteps]
  simp only [screenStep]
  cases parseRawLayout view with
  | err e => rfl
  | panic => rfl
  | ok l =>
    simp only [Out.mapErr_ok, Out.ok_bind, Out.void_ok]
    refine moreBlocks_steps _ (fun n => by simp [ScreenStep.takes]) _ _ fun ms cs earlier hl => ?_
    refine components_steps _ _ _ _ fun ks => ?_
    rw [parserEvents_eq]
    refine events_steps (listedEvents logic) (earlier := earlier ++ (listedComponents logic).map ScreenStep.component) ?_ _
    have : (earlier ++ (listedComponents logic).map ScreenStep.component).filterMap (·.takes) = earlier.filterMap (·.takes) := by
      simp [ScreenStep.takes, List.filterMap_map, Function.comp_def]
    rw [this]
    exact hl

/-- C78: a screen is made exactly when every step succeeds; otherwise the error, or panic, is that of the first step that
fails. -/
theorem c78_screen_outcome (layoutName logicName : Str) (file : FileItem) (view : Layout) (logic : ScreenLogic) (fab : Option View) :
    ((∃ s, Screen.fromParsed layoutName logicName file view logic fab = .ok s) ↔ AllDone (screenStep logic) (screenSteps view logic)) ∧
    (∀ e, Screen.fromParsed layoutName logicName file view logic fab = .err e ↔
      StopsWith (screenStep logic) (screenSteps view logic) (.err e)) ∧
    (Screen.fromParsed layoutName logicName file view logic fab = .panic ↔
      StopsWith (screenStep logic) (screenSteps view logic) .panic) :=
  outcome_of_run (fromParsed_void ..)

/-- What is read of the moreblocks, the i-th with the container of its name if no earlier one took it. -/
theorem moreBlocks_value {logic : ScreenLogic} {ms : List (Str × Swrs.MoreBlock)} {ms' : List (Str × MoreBlock)} {taken : List Str}
    {cs cs' : Containers} (h : Left logic taken cs) (hr : moreBlocksOf ms cs = .ok (ms', cs')) :
    Left logic (taken ++ ms.map fun m => m.1 ++ s% "_moreBlock") cs' ∧ ms'.length = ms.length ∧
    ∀ i m m', ms[i]? = some m → ms'[i]? = some m' → m'.1 = m.1 ∧ m'.2.name = m.1 ∧
      BlockContent.parseWoParams m.2.spec = .ok m'.2.spec ∧
      tryFrom (containerLeft logic (taken ++ (ms.take i).map fun m => m.1 ++ s% "_moreBlock") (m.1 ++ s% "_moreBlock")) = .ok m'.2.code := by
  induction ms generalizing taken cs ms' with
  | nil =>
    cases hr
    exact ⟨by simpa using h, rfl, by simp⟩
  | cons m ms ih =>
    obtain ⟨id, mb⟩ := m
    simp only [moreBlocksOf, Out.bind_eq_ok, Prod.exists, moreBlockOf_ok] at hr
    obtain ⟨m, cs1, ⟨h1, h2, h3, rfl⟩, ms2, cs2, h4, h5⟩ := hr
    cases h5
    obtain ⟨h6, h7, h8⟩ := ih (h.erase (moreBlockId id)) h4
    refine ⟨by simpa [moreBlockId] using h6, by simp [h7], ?_⟩
    rintro (_ | i) m1 m1' hm hm'
    · cases hm
      cases hm'
      refine ⟨rfl, h1, h2, ?_⟩
      rw [codeOf, h.container] at h3
      simpa [moreBlockId] using h3
    · simpa [moreBlockId] using h8 i m1 m1' (by simpa using hm) (by simpa using hm')

/-- What is read of the events. -/
theorem events_value {logic : ScreenLogic} {ps : List Swrs.Event} {es : List Event} {taken : List Str} {cs cs' : Containers}
    (h : Left logic taken cs) (hr : eventsOf ps cs = .ok (es, cs')) :
    es.length = ps.length ∧ ∀ i p e, ps[i]? = some p → es[i]? = some e → e.name = p.eventName ∧
      e.eventType = eventTypeOf p ∧
      tryFrom (containerLeft logic (taken ++ (ps.take i).map containerName) (containerName p)) = .ok e.code := by
  induction ps generalizing taken cs es with
  | nil =>
    cases hr
    exact ⟨rfl, by simp⟩
  | cons p ps ih =>
    simp only [eventsOf, Out.bind_eq_ok, Prod.exists, eventOf_ok] at hr
    obtain ⟨e, cs1, ⟨h1, h2, rfl⟩, es2, cs2, h4, h5⟩ := hr
    cases h5
    have he : e.containerId = containerName p ∧ e.name = p.eventName ∧ e.eventType = eventTypeOf p := by
      rcases event_read p with ⟨e', he, -, -, h3, h6, h7⟩ | ⟨he, -⟩
      · rw [he] at h1
        cases h1
        exact ⟨h3, h6, h7⟩
      · rw [he] at h1
        cases h1
    rw [he.1] at h2 h4
    obtain ⟨h6, h7⟩ := ih (h.erase (containerName p)) h4
    refine ⟨by simp [h6], ?_⟩
    rintro (_ | i) p1 e1 hp he1
    · cases hp
      cases he1
      refine ⟨he.2.1, he.2.2, ?_⟩
      rw [codeOf, h.container] at h2
      simpa using h2
    · simpa using h7 i p1 e1 (by simpa using hp) (by simpa using he1)

omit [MapPol] [Floats] in
theorem components_value {cs : List Component} {ks : List (Str × ComponentKind)} (h : componentsOf cs = .ok ks) :
    All₂ (fun c k => k.1 = c.id ∧ ComponentKind.fromParser c = .ok k.2) cs ks := by
  induction cs generalizing ks with
  | nil => cases h; exact .nil
  | cons c cs ih =>
    simp only [componentsOf, Out.bind_eq_ok, Out.mapErr_eq_ok] at h
    obtain ⟨k, h1, ks', h2, h3⟩ := h
    cases h3
    exact .cons ⟨rfl, h1⟩ (ih h2)

/-- C78: what is in a screen that is made. Each moreblock and each event has the code of the container of its name, unless
one before it took the container; then it has no code. -/
theorem c78_screen_value (layoutName logicName : Str) (file : FileItem) (view : Layout) (logic : ScreenLogic) (fab : Option View)
    (s : Screen) (h : Screen.fromParsed layoutName logicName file view logic fab = .ok s) :
    s.layoutName = layoutName ∧ s.javaName = logicName ∧ s.fab = fab ∧
    s.fullscreenEnabled = file.options.fullscreen ∧ s.toolbarEnabled = file.options.toolbar ∧
    s.drawerEnabled = file.options.drawer ∧ s.fabEnabled = file.options.fab ∧
    s.orientation = file.orientation ∧ s.theme = file.theme ∧ s.keyboardSetting = file.keyboardSetting ∧
    parseRawLayout view = .ok s.layout ∧
    s.variables = (logic.variables.map (·.map)).getD [] ∧ s.listVariables = (logic.listVariables.map (·.map)).getD [] ∧
    (∃ ks, All₂ (fun c k => k.1 = c.id ∧ ComponentKind.fromParser c = .ok k.2) (listedComponents logic) ks ∧
      s.components = LMap.collect ks) ∧
    (∃ ms, ms.length = (listedMoreBlocks logic).length ∧ s.moreBlocks = LMap.collect ms ∧
      ∀ i m m', (listedMoreBlocks logic)[i]? = some m → ms[i]? = some m' → m'.1 = m.1 ∧ m'.2.name = m.1 ∧
        BlockContent.parseWoParams m.2.spec = .ok m'.2.spec ∧
        tryFrom (containerLeft logic (((listedMoreBlocks logic).take i).map fun m => m.1 ++ s% "_moreBlock")
          (m.1 ++ s% "_moreBlock")) = .ok m'.2.code) ∧
    (s.events.length = (listedEvents logic).length ∧
      ∀ i p e, (listedEvents logic)[i]? = some p → s.events[i]? = some e → e.name = p.eventName ∧
        e.eventType = eventTypeOf p ∧
        tryFrom (containerLeft logic (((listedMoreBlocks logic).map fun m => m.1 ++ s% "_moreBlock") ++
          ((listedEvents logic).take i).map containerName) (containerName p)) = .ok e.code) := by
  simp only [Screen.fromParsed, Out.bind_eq_ok, Out.mapErr_eq_ok, Prod.exists, Out.ok.injEq, Out.pure_eq] at h
  obtain ⟨layout, hl, mbs, cs', hmb, comps, hc, events, cs'', hev, rfl⟩ := h
  obtain ⟨h1, h2, h3⟩ := moreBlocks_value (logic := logic) (ms := listedMoreBlocks logic) (taken := []) (fun n => by simp) hmb
  rw [parserEvents_eq] at hev
  obtain ⟨h4, h5⟩ := events_value h1 hev
  exact ⟨rfl, rfl, rfl, rfl, rfl, rfl, rfl, rfl, rfl, rfl, hl, rfl, rfl, ⟨comps, components_value hc, rfl⟩,
    ⟨mbs, h2, rfl, fun i m m' hm hm' => by simpa using h3 i m m' hm hm'⟩, h4, fun i p e hp he => by simpa using h5 i p e hp he⟩
end

section
local instance screenReadFloats : FloatLaws := toyFloats
local instance screenReadPol : MapPol := ⟨false, false⟩

/-- A screen with a moreblock, code of `onCreate` and an event of an unknown type. -/
def strangeLogic (t : UInt8) : ScreenLogic where
  name := s% "MainActivity"
  blockContainers := [(s% "onCreate_initializeLogic", ⟨[]⟩), (s% "hello_moreBlock", ⟨[]⟩)]
  variables := none
  listVariables := none
  components := some ⟨[⟨s% "t", [], [], [], 5⟩]⟩
  events := some ⟨[⟨s% "onClick", t, s% "b", 0⟩]⟩
  moreBlocks := some ⟨[(s% "hello", ⟨s% "hello", s% "hello"⟩)]⟩

/-- The steps of such a screen. -/
example : (screenSteps ⟨[]⟩ (strangeLogic 9)).length = 8 := by decide
/-- The event of an unknown type is the first that fails. -/
example : StopsWith (screenStep (strangeLogic 9)) (screenSteps ⟨[]⟩ (strangeLogic 9)) (.err (.unknownEventType ⟨s% "onClick", 9⟩)) :=
  ((c78_screen_outcome (s% "main") (s% "MainActivity")
    ⟨s% "main", .activity, .unspecified, ⟨false, false, false, false⟩, .both, .none⟩ ⟨[]⟩ (strangeLogic 9) none).2.1 _).mp rfl
/-- With a known type, the screen is made. -/
example : ∃ s, Screen.fromParsed (s% "main") (s% "MainActivity")
    ⟨s% "main", .activity, .unspecified, ⟨false, false, false, false⟩, .both, .none⟩ ⟨[]⟩ (strangeLogic 1) none = .ok s ∧
    s.events.map (·.name) = [s% "onCreate", s% "onClick"] := ⟨_, rfl, rfl⟩
end
end Swrs.Api
