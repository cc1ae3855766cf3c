import Verif.Props.Policies
import Verif.Props.EqualityFloat
import Verif.Proofs.Resave
/-!
# C110: what is read through the API does not depend on the order that the linked maps keep
-/
set_option linter.unusedSectionVars false
namespace Swrs.Api
section
variable [Floats] (A B : MapPol)

/-! ## C110 — What is read does not depend on the order that the linked maps keep -/

/-- The number of the first block of a container is not used by another block of it. -/
def c110_FirstOnce (c : BlockContainer) : Prop := ∀ b rest, c.blocks = b :: rest → ∀ b' ∈ rest, parseU32 b'.id ≠ parseU32 b.id

/-- The same value, and maps with the same entries. -/
def c110_Left {α κ β : Type} [DecidableEq κ] (x y : α × LMap κ β) : Prop := x.1 = y.1 ∧ c110_Maps Eq x.2 y.2

theorem c110_maps_eq {κ α : Type} [DecidableEq κ] {m m' : LMap κ α} : c110_Maps Eq m m' ↔ ∀ k, m.get k = m'.get k := by
  refine forall_congr' fun k => ?_
  constructor
  · intro h
    cases hm : m.get k with
    | none =>
      rw [hm] at h
      cases hm' : m'.get k with
      | none => rfl
      | some b => rw [hm'] at h; cases h
    | some a =>
      rw [hm] at h
      cases hm' : m'.get k with
      | none => rw [hm'] at h; cases h
      | some b =>
        rw [hm'] at h
        cases h with
        | some h => rw [h]
  · intro h
    rw [h]
    cases m'.get k with
    | none => exact .none
    | some b => exact .some rfl

theorem c110_erase {κ α : Type} [DecidableEq κ] {R : α → α → Prop} {m m' : LMap κ α} (h : c110_Maps R m m') (k : κ) :
    c110_Maps R (m.erase k) (m'.erase k) := by
  intro k'
  rw [LMap.get_erase, LMap.get_erase]
  split
  · exact .none
  · exact h k'

theorem c110_same {ε α : Type} (x : Out ε α) : c110_Outcome Eq x x := c110_outcome_refl (fun _ => rfl) x

/-! ### Code -/

section
variable {get get' : UInt32 → BlockMap → Run (Block × BlockMap)}

theorem c110_getBlock (hg : ∀ id m m', c110_Maps Eq m m' → c110_Outcome c110_Left (get id m) (get' id m')) (id : UInt32) {m m' : BlockMap}
    (h : c110_Maps Eq m m') : c110_Outcome c110_Left (getBlock get id m) (getBlock get' id m') := c110_mapErr (hg id _ _ h) _

theorem c110_applyValue {α : Type} (hg : ∀ id m m', c110_Maps Eq m m' → c110_Outcome c110_Left (get id m) (get' id m')) (v : ArgValue Block α)
    {m m' : BlockMap} (h : c110_Maps Eq m m') : c110_Outcome c110_Left (applyValue get v m) (applyValue get' v m') := by
  unfold applyValue
  split
  · refine c110_bind (c110_getBlock hg _ h) fun x y hxy => ?_
    obtain ⟨x, m1⟩ := x
    obtain ⟨y, m2⟩ := y
    obtain ⟨h1, h2⟩ := hxy
    cases h1
    exact .ok ⟨rfl, h2⟩
  · exact .ok ⟨rfl, h⟩

theorem c110_applyBool (hg : ∀ id m m', c110_Maps Eq m m' → c110_Outcome c110_Left (get id m) (get' id m')) (v : ArgValue Block Bool)
    {m m' : BlockMap} (h : c110_Maps Eq m m') : c110_Outcome c110_Left (applyBool get v m) (applyBool get' v m') := by
  unfold applyBool
  split
  · refine c110_bind (c110_getBlock hg _ h) fun x y hxy => ?_
    obtain ⟨x, m1⟩ := x
    obtain ⟨y, m2⟩ := y
    obtain ⟨h1, h2⟩ := hxy
    cases h1
    show c110_Outcome c110_Left (if _ then _ else if _ then _ else _) (if _ then _ else if _ then _ else _)
    split
    · exact .ok ⟨rfl, h2⟩
    · split
      · exact .ok ⟨rfl, h2⟩
      · exact .ok ⟨rfl, h2⟩
  · exact .ok ⟨rfl, h⟩

theorem c110_applyItem (hg : ∀ id m m', c110_Maps Eq m m' → c110_Outcome c110_Left (get id m) (get' id m')) (i : SpecItem Block)
    {m m' : BlockMap} (h : c110_Maps Eq m m') : c110_Outcome c110_Left (applyItem get i m) (applyItem get' i m') := by
  unfold applyItem
  split
  · exact .ok ⟨rfl, h⟩
  all_goals
    first
      | refine c110_bind (c110_applyValue hg _ h) fun x y hxy => ?_
      | refine c110_bind (c110_applyBool hg _ h) fun x y hxy => ?_
    obtain ⟨x, m1⟩ := x
    obtain ⟨y, m2⟩ := y
    obtain ⟨h1, h2⟩ := hxy
    cases h1
    exact .ok ⟨rfl, h2⟩

theorem c110_applyBlocks (hg : ∀ id m m', c110_Maps Eq m m' → c110_Outcome c110_Left (get id m) (get' id m')) (c : BlockContent Block)
    {m m' : BlockMap} (h : c110_Maps Eq m m') : c110_Outcome c110_Left (applyBlocks get c m) (applyBlocks get' c m') := by
  induction c generalizing m m' with
  | nil => exact .ok ⟨rfl, h⟩
  | cons i is ih =>
    unfold applyBlocks
    refine c110_bind (c110_applyItem hg i h) fun x y hxy => ?_
    obtain ⟨x, m1⟩ := x
    obtain ⟨y, m2⟩ := y
    obtain ⟨h1, h2⟩ := hxy
    cases h1
    refine c110_bind (ih h2) fun x y hxy => ?_
    obtain ⟨x, m3⟩ := x
    obtain ⟨y, m4⟩ := y
    obtain ⟨h1, h2⟩ := hxy
    cases h1
    exact .ok ⟨rfl, h2⟩

theorem c110_substack {go go' : UInt32 → BlockMap → Run (List Block × BlockMap)}
    (hg : ∀ id m m', c110_Maps Eq m m' → c110_Outcome c110_Left (go id m) (go' id m')) (err : BlockConversionError → BlockConversionError)
    (p : Int32) {m m' : BlockMap} (h : c110_Maps Eq m m') : c110_Outcome c110_Left (substack go err p m) (substack go' err p m') := by
  unfold substack
  split
  · exact .ok ⟨rfl, h⟩
  · refine c110_bind (c110_mapErr (hg _ _ _ h) _) fun x y hxy => ?_
    obtain ⟨x, m1⟩ := x
    obtain ⟨y, m2⟩ := y
    obtain ⟨h1, h2⟩ := hxy
    cases h1
    exact .ok ⟨rfl, h2⟩
end

theorem c110_parse (fuel : Nat) :
    (∀ id m m', c110_Maps Eq m m' → c110_Outcome c110_Left (parseBlock fuel id m) (parseBlock fuel id m')) ∧
    (∀ id m m', c110_Maps Eq m m' → c110_Outcome c110_Left (parseBlocks fuel id m) (parseBlocks fuel id m')) := by
  induction fuel with
  | zero =>
    constructor <;> intro id m m' _
    · unfold parseBlock; exact .err _
    · unfold parseBlocks; exact .err _
  | succ n ih =>
    obtain ⟨ih1, ih2⟩ := ih
    constructor
    · intro id m m' h
      unfold parseBlock
      rw [c110_maps_eq.mp h id]
      refine c110_bind (c110_same _) fun p p' hp => ?_
      subst hp
      have h := c110_erase h id
      refine c110_bind (c110_substack ih2 _ _ h) fun x y hxy => ?_
      obtain ⟨x, m1⟩ := x
      obtain ⟨y, m2⟩ := y
      obtain ⟨h1, h⟩ := hxy
      cases h1
      refine c110_bind (c110_substack ih2 _ _ h) fun x y hxy => ?_
      obtain ⟨x, m1⟩ := x
      obtain ⟨y, m2⟩ := y
      obtain ⟨h1, h⟩ := hxy
      cases h1
      refine c110_bind (c110_same _) fun c c' hc => ?_
      subst hc
      refine c110_bind (c110_applyBlocks ih1 _ h) fun x y hxy => ?_
      obtain ⟨x, m1⟩ := x
      obtain ⟨y, m2⟩ := y
      obtain ⟨h1, h⟩ := hxy
      cases h1
      refine c110_bind (c110_same _) fun t t' ht => ?_
      subst ht
      exact .ok ⟨rfl, h⟩
    · intro id m m' h
      unfold parseBlocks
      rw [c110_maps_eq.mp h id]
      refine c110_bind (c110_same _) fun p p' hp => ?_
      subst hp
      refine c110_bind (ih1 id _ _ h) fun x y hxy => ?_
      obtain ⟨x, m1⟩ := x
      obtain ⟨y, m2⟩ := y
      obtain ⟨h1, h⟩ := hxy
      cases h1
      show c110_Outcome c110_Left (if _ then _ else _) (if _ then _ else _)
      split
      · exact .ok ⟨rfl, h⟩
      · refine c110_bind (ih2 _ _ _ h) fun x y hxy => ?_
        obtain ⟨x, m1⟩ := x
        obtain ⟨y, m2⟩ := y
        obtain ⟨h1, h⟩ := hxy
        cases h1
        exact .ok ⟨rfl, h⟩

theorem c110_blockMap (bs : List ParserBlock) {m m' : BlockMap} (h : c110_Maps Eq m m') :
    c110_Outcome (c110_Maps Eq) (@blockMap A bs m) (@blockMap B bs m') := by
  induction bs generalizing m m' with
  | nil => exact .ok h
  | cons b bs ih =>
    unfold blockMap
    refine c110_bind (c110_same _) fun i i' hi => ?_
    subst hi
    exact ih (c110_insert A B h i rfl)

theorem c110_head (bs : List ParserBlock) {k : UInt32} {p : ParserBlock} {m m' : BlockMap} (hb : ∀ b ∈ bs, parseU32 b.id ≠ some k)
    (h : @blockMap A bs ((k, p) :: m) = .ok m') : ∃ m'', m' = (k, p) :: m'' := by
  induction bs generalizing m with
  | nil => cases h; exact ⟨m, rfl⟩
  | cons b bs ih =>
    unfold blockMap at h
    simp only [Out.bind_eq_ok] at h
    obtain ⟨i, hi, h⟩ := h
    have hne : k ≠ i := by
      rintro rfl
      refine hb b (by simp) ?_
      cases hp : parseU32 b.id with
      | none => rw [hp] at hi; cases hi
      | some j => rw [hp] at hi; cases hi; rfl
    have hins : ∃ m₁, @LMap.insert _ _ _ A ((k, p) :: m) i b = (k, p) :: m₁ := by
      unfold LMap.insert
      split
      · split
        · refine ⟨LMap.erase m i ++ [(i, b)], ?_⟩
          simp [LMap.erase, hne]
        · refine ⟨LMap.set m i b, ?_⟩
          simp [LMap.set, hne]
      · exact ⟨m ++ [(i, b)], rfl⟩
    obtain ⟨m₁, hm₁⟩ := hins
    rw [hm₁] at h
    exact ih (fun b' hb' => hb b' (List.mem_cons_of_mem _ hb')) h

/-- C110: the code of a container is the same, or the same error, whatever order the linked maps keep, if the number of its first block is
not used by another one. -/
theorem c110_code (c : BlockContainer) (h : c110_FirstOnce c) : @tryFrom _ A c = @tryFrom _ B c := by
  have key : c110_Outcome Eq (@tryFromFuel _ A (2 * c.blocks.length + 2) c) (@tryFromFuel _ B (2 * c.blocks.length + 2) c) := by
    unfold tryFromFuel
    have hm := c110_blockMap A B c.blocks (m := []) (m' := []) fun _ => .none
    cases ha : @blockMap A c.blocks [] with
    | err e => rw [ha] at hm; generalize @blockMap B c.blocks [] = y at hm; cases hm; exact .err _
    | panic => rw [ha] at hm; generalize @blockMap B c.blocks [] = y at hm; cases hm; exact .panic
    | ok m =>
      cases hb : @blockMap B c.blocks [] with
      | err e => rw [ha, hb] at hm; cases hm
      | panic => rw [ha, hb] at hm; cases hm
      | ok m' =>
        rw [ha, hb] at hm
        cases hm with
        | ok hm =>
          show c110_Outcome Eq (match m with | [] => _ | (id, _) :: _ => _) (match m' with | [] => _ | (id, _) :: _ => _)
          cases hc : c.blocks with
          | nil =>
            rw [hc] at ha hb
            cases ha
            cases hb
            exact .ok rfl
          | cons b rest =>
            have hfirst : ∃ k p t t', m = (k, p) :: t ∧ m' = (k, p) :: t' := by
              rw [hc] at ha hb
              unfold blockMap at ha hb
              simp only [Out.bind_eq_ok] at ha hb
              obtain ⟨i, hi, ha⟩ := ha
              obtain ⟨j, hj, hb⟩ := hb
              rw [hi] at hj
              cases hj
              have hp : parseU32 b.id = some i := by
                cases hp : parseU32 b.id with
                | none => rw [hp] at hi; cases hi
                | some j => rw [hp] at hi; cases hi; rfl
              have hr : ∀ b' ∈ rest, parseU32 b'.id ≠ some i := fun b' hb' => hp ▸ h b rest hc b' hb'
              obtain ⟨t, rfl⟩ := c110_head A rest hr (by simpa [LMap.insert] using ha)
              obtain ⟨t', rfl⟩ := c110_head B rest hr (by simpa [LMap.insert] using hb)
              exact ⟨i, b, t, t', rfl, rfl⟩
            obtain ⟨k, p, t, t', rfl, rfl⟩ := hfirst
            rw [← hc]
            refine c110_bind ((c110_parse _).2 k _ _ hm) fun x y hxy => ?_
            obtain ⟨x, m1⟩ := x
            obtain ⟨y, m2⟩ := y
            obtain ⟨h1, -⟩ := hxy
            cases h1
            exact .ok rfl
  unfold tryFrom
  generalize @tryFromFuel _ A (2 * c.blocks.length + 2) c = x at key
  generalize @tryFromFuel _ B (2 * c.blocks.length + 2) c = y at key
  cases key with
  | ok h => subst h; rfl
  | err e => rfl
  | panic => rfl

/-! ### Screens -/

/-- Two screens are the same but for the order in which maps keep their entries. -/
structure c110_ApiScreens (s s' : Screen) : Prop where
  layoutName : s.layoutName = s'.layoutName
  javaName : s.javaName = s'.javaName
  layout : s.layout = s'.layout
  «variables» : c110_Maps Eq s.variables s'.variables
  listVariables : c110_Maps Eq s.listVariables s'.listVariables
  moreBlocks : c110_Maps Eq s.moreBlocks s'.moreBlocks
  components : c110_Maps Eq s.components s'.components
  events : s.events = s'.events
  fab : s.fab = s'.fab
  fullscreenEnabled : s.fullscreenEnabled = s'.fullscreenEnabled
  toolbarEnabled : s.toolbarEnabled = s'.toolbarEnabled
  drawerEnabled : s.drawerEnabled = s'.drawerEnabled
  fabEnabled : s.fabEnabled = s'.fabEnabled
  orientation : s.orientation = s'.orientation
  theme : s.theme = s'.theme
  keyboardSetting : s.keyboardSetting = s'.keyboardSetting

/-- Two projects of the API are the same but for the order in which maps keep their entries. -/
structure c110_ApiProjects (p p' : SketchwareProject) : Prop where
  customIcon : p.customIcon = p'.customIcon
  metadata : p.metadata = p'.metadata
  colors : p.colors = p'.colors
  screens : All₂ c110_ApiScreens p.screens p'.screens
  customViews : p.customViews = p'.customViews
  libraries : p.libraries = p'.libraries
  images : c110_Maps Eq p.resources.images p'.resources.images
  sounds : c110_Maps Eq p.resources.sounds p'.resources.sounds
  fonts : c110_Maps Eq p.resources.fonts p'.resources.fonts
  automaticResFileIds : p.automaticResFileIds = p'.automaticResFileIds

/-- All containers of a screen have a first block whose number is not used again. -/
def c110_CodeOk (cs : Containers) : Prop := ∀ k c, cs.get k = some c → c110_FirstOnce c

theorem c110_codeOk_erase {cs : Containers} (h : c110_CodeOk cs) (k : Str) : c110_CodeOk (cs.erase k) := by
  intro k' c hc
  rw [LMap.get_erase] at hc
  split at hc
  · cases hc
  · exact h k' c hc

theorem c110_codeOf {cs cs' : Containers} (h : c110_Maps Eq cs cs') (hc : c110_CodeOk cs) (k : Str) : @codeOf A _ cs k = @codeOf B _ cs' k := by
  unfold codeOf
  rw [← c110_maps_eq.mp h k]
  refine c110_code A B _ ?_
  cases hk : cs.get k with
  | none => intro b rest hb; cases hb
  | some c => exact hc k c hk

theorem c110_readsBack (es : List Event) {cs cs' : Containers} (h : c110_Maps Eq cs cs') (hc : c110_CodeOk cs)
    (hr : @ReadsBack A _ es cs) : @ReadsBack B _ es cs' := by
  induction es generalizing cs cs' with
  | nil => trivial
  | cons e es ih =>
    obtain ⟨h1, h2⟩ := hr
    exact ⟨c110_codeOf A B h hc _ ▸ h1, ih (c110_erase h _) (c110_codeOk_erase hc _) h2⟩

theorem c110_get_all {α β : Type} {P : Str × α → Str × β → Prop} (hP : ∀ e m, P e m → m.1 = e.1) {es : LMap Str α} {ms : LMap Str β}
    (h : All₂ P es ms) (k : Str) : (es.get k = none → ms.get k = none) ∧ ∀ a, es.get k = some a → ∃ b, ms.get k = some b ∧ P (k, a) (k, b) := by
  induction h with
  | nil => exact ⟨fun _ => rfl, nofun⟩
  | @cons e m es ms he _ ih =>
    obtain ⟨i, a⟩ := e
    obtain ⟨j, b⟩ := m
    have := hP _ _ he
    simp only at this
    subst this
    simp only [LMap.get]
    by_cases hk : j = k
    · subst hk
      simp only [if_true]
      exact ⟨nofun, fun a' ha => by cases ha; exact ⟨b, rfl, he⟩⟩
    · simp only [if_neg hk]
      exact ih

theorem c110_all_exists {α β : Type} {P : α → β → Prop} {as : List α} (h : ∀ a ∈ as, ∃ b, P a b) : ∃ bs, All₂ P as bs := by
  induction as with
  | nil => exact ⟨[], .nil⟩
  | cons a as ih =>
    obtain ⟨b, hb⟩ := h a (by simp)
    obtain ⟨bs, hbs⟩ := ih fun a ha => h a (List.mem_cons_of_mem _ ha)
    exact ⟨b :: bs, .cons hb hbs⟩

theorem c110_moreBlocksOf {es es' : LMap Str Swrs.MoreBlock} {cs cs' cs₁ : Containers} {ms : List (Str × MoreBlock)}
    (hn : es.keys.Nodup) (hn' : es'.keys.Nodup) (he : c110_Maps Eq es es') (h : c110_Maps Eq cs cs') (hc : c110_CodeOk cs)
    (hm : @moreBlocksOf A _ es cs = .ok (ms, cs₁)) :
    ∃ ms' cs₁', @moreBlocksOf B _ es' cs' = .ok (ms', cs₁') ∧ c110_Maps Eq (@LMap.collect _ _ _ A ms) (@LMap.collect _ _ _ B ms') ∧
      c110_Maps Eq cs₁ cs₁' ∧ c110_CodeOk cs₁ := by
  obtain ⟨ha, rfl⟩ := (@moreBlocksOf_ok A _ _ _ _ _ hn).mp hm
  have hB : ∃ ms', All₂ (fun (e : Str × Swrs.MoreBlock) (m : Str × MoreBlock) => m.1 = e.1 ∧ m.2.name = e.1 ∧
      BlockContent.parseWoParams e.2.spec = .ok m.2.spec ∧ @codeOf B _ cs' (moreBlockId e.1) = .ok m.2.code) es' ms' := by
    refine c110_all_exists fun e hmem => ?_
    have hg := LMap.get_of_mem (k := e.1) (v := e.2) hn' hmem
    rw [← c110_maps_eq.mp he] at hg
    obtain ⟨m, -, h1, h2, h3, h4⟩ := All₂.left ha (e.1, e.2) (LMap.get_mem hg)
    exact ⟨m, h1, h2, h3, c110_codeOf A B h hc _ ▸ h4⟩
  obtain ⟨ms', hb⟩ := hB
  refine ⟨ms', afterMoreBlocks es' cs', (@moreBlocksOf_ok B _ _ _ _ _ hn').mpr ⟨hb, rfl⟩, ?_, ?_, ?_⟩
  · have keysA : ∀ {α β : Type} {P : Str × α → Str × β → Prop} {es : LMap Str α} {ms : LMap Str β}, (∀ e m, P e m → m.1 = e.1) → All₂ P es ms →
        LMap.keys ms = LMap.keys es := by
      intro α β P es ms hP hall
      induction hall with
      | nil => rfl
      | cons h0 _ ih => rw [LMap.keys_cons, LMap.keys_cons, ih, hP _ _ h0]
    rw [@LMap.collect_nodup _ _ _ A ms (by rw [keysA (fun _ _ h => h.1) ha]; exact hn),
      @LMap.collect_nodup _ _ _ B ms' (by rw [keysA (fun _ _ h => h.1) hb]; exact hn')]
    rw [c110_maps_eq]
    intro k
    have gA := c110_get_all (fun _ _ h => h.1) ha k
    have gB := c110_get_all (fun _ _ h => h.1) hb k
    cases hk : es.get k with
    | none =>
      rw [gA.1 hk, gB.1 (by rw [← c110_maps_eq.mp he]; exact hk)]
    | some mb =>
      obtain ⟨m, hm1, -, h1, h2, h3⟩ := gA.2 mb hk
      obtain ⟨m', hm1', -, h1', h2', h3'⟩ := gB.2 mb (by rw [← c110_maps_eq.mp he]; exact hk)
      rw [hm1, hm1']
      obtain ⟨n, sp, c⟩ := m
      obtain ⟨n', sp', c'⟩ := m'
      simp only at h1 h1' h2 h2' h3 h3'
      rw [c110_codeOf A B h hc, h3'] at h3
      rw [h2'] at h2
      cases h1; cases h1'; cases h2; cases h3; rfl
  · rw [c110_maps_eq]
    intro k
    rw [get_after, get_after, c110_maps_eq.mp h k]
    have hk : k ∈ es.map (fun e => moreBlockId e.1) ↔ k ∈ es'.map (fun e => moreBlockId e.1) := by
      have key : ∀ x, x ∈ LMap.keys es ↔ x ∈ LMap.keys es' := by
        intro x
        rw [← LMap.get_isSome, ← LMap.get_isSome, c110_maps_eq.mp he]
      simp only [List.mem_map]
      constructor
      · rintro ⟨e, hmem, rfl⟩
        obtain ⟨e', hmem', h'⟩ := List.mem_map.mp ((key e.1).mp (List.mem_map.mpr ⟨e, hmem, rfl⟩))
        exact ⟨e', hmem', by rw [h']⟩
      · rintro ⟨e, hmem, rfl⟩
        obtain ⟨e', hmem', h'⟩ := List.mem_map.mp ((key e.1).mpr (List.mem_map.mpr ⟨e, hmem, rfl⟩))
        exact ⟨e', hmem', by rw [h']⟩
    by_cases h0 : k ∈ es.map (fun e => moreBlockId e.1)
    · rw [if_pos h0, if_pos (hk.mp h0)]
    · rw [if_neg h0, if_neg (fun h1 => h0 (hk.mpr h1))]
  · intro k c hk
    rw [get_after] at hk
    split at hk
    · cases hk
    · exact hc k c hk

/-- A screen that was read has moreblocks with distinct names. -/
def c110_Names (l : ScreenLogic) : Prop := ∀ p, l.moreBlocks = some p → p.map.keys.Nodup

theorem c110_screen (ln gn : Str) (file : FileItem) (view : Layout) {l l' : ScreenLogic} (fab : Option View) (h : c110_Screens l l')
    (hn : c110_Names l) (hn' : c110_Names l') (hc : c110_CodeOk l.blockContainers) {s : Screen}
    (hs : @Screen.fromParsed A _ ln gn file view l fab = .ok s) :
    ∃ s', @Screen.fromParsed B _ ln gn file view l' fab = .ok s' ∧ c110_ApiScreens s s' := by
  simp only [Screen.fromParsed, Out.bind_eq_ok, Out.mapErr_eq_ok, Prod.exists, Out.ok.injEq, Out.pure_eq] at hs
  obtain ⟨layout, hl, mbs, cs', hmb, comps, hcomp, events, cs'', hev, rfl⟩ := hs
  have hmaps : c110_Maps Eq ((l.moreBlocks.map (·.map)).getD []) ((l'.moreBlocks.map (·.map)).getD []) := by
    have := h.moreBlocks
    cases h1 : l.moreBlocks with
    | none => rw [h1] at this; cases h2 : l'.moreBlocks with
      | none => exact fun _ => .none
      | some q => rw [h2] at this; cases this
    | some p => rw [h1] at this; cases h2 : l'.moreBlocks with
      | none => rw [h2] at this; cases this
      | some q => rw [h2] at this; cases this with
        | some h => exact h
  have hvars : c110_Maps Eq ((l.variables.map (·.map)).getD []) ((l'.variables.map (·.map)).getD []) := by
    have := h.variables
    cases h1 : l.variables with
    | none => rw [h1] at this; cases h2 : l'.variables with
      | none => exact fun _ => .none
      | some q => rw [h2] at this; cases this
    | some p => rw [h1] at this; cases h2 : l'.variables with
      | none => rw [h2] at this; cases this
      | some q => rw [h2] at this; cases this with
        | some h => exact h
  have hlists : c110_Maps Eq ((l.listVariables.map (·.map)).getD []) ((l'.listVariables.map (·.map)).getD []) := by
    have := h.listVariables
    cases h1 : l.listVariables with
    | none => rw [h1] at this; cases h2 : l'.listVariables with
      | none => exact fun _ => .none
      | some q => rw [h2] at this; cases this
    | some p => rw [h1] at this; cases h2 : l'.listVariables with
      | none => rw [h2] at this; cases this
      | some q => rw [h2] at this; cases this with
        | some h => exact h
  have nd : ∀ l : ScreenLogic, c110_Names l → (LMap.keys ((l.moreBlocks.map (·.map)).getD [])).Nodup := by
    intro l hl
    cases h1 : l.moreBlocks with
    | none => exact .nil
    | some p => exact hl p h1
  obtain ⟨ms', cs₁', hm', hcol, hcs, hok⟩ := c110_moreBlocksOf A B (nd l hn) (nd l' hn') hmaps h.blockContainers hc hmb
  have hpe : parserEvents l = parserEvents l' := by
    unfold parserEvents
    have : onCreateId ∈ l.blockContainers.keys ↔ onCreateId ∈ l'.blockContainers.keys := by
      rw [← LMap.get_isSome, ← LMap.get_isSome, c110_maps_eq.mp h.blockContainers]
    rw [h.events]
    by_cases h0 : onCreateId ∈ l.blockContainers.keys
    · rw [if_pos h0, if_pos (this.mp h0)]
    · rw [if_neg h0, if_neg fun h1 => h0 (this.mpr h1)]
  obtain ⟨he1, he2⟩ := (@eventsOf_ok A _ _ _ _).mp ⟨_, hev⟩
  obtain ⟨cs₂', hev'⟩ := (@eventsOf_ok B _ _ _ _).mpr ⟨he1, c110_readsBack A B events hcs hok he2⟩
  rw [hpe] at hev'
  simp only [Screen.fromParsed, hl, Out.mapErr_ok, Out.ok_bind, hm', ← h.components, hcomp, hev', Out.pure_eq, Out.ok.injEq, exists_eq_left']
  exact ⟨rfl, rfl, rfl, hvars, hlists, hcol, c110_collect A B comps, rfl, rfl, rfl, rfl, rfl, rfl, rfl, rfl, rfl⟩

/-- What is asked of the screens that are read: distinct names of moreblocks, first blocks whose number is not used again. -/
def c110_ScreensOk (m : LMap Str ScreenLogic) : Prop := ∀ k l, m.get k = some l → c110_Names l ∧ c110_CodeOk l.blockContainers

theorem c110_screensOk_erase {m : LMap Str ScreenLogic} (h : c110_ScreensOk m) (k : Str) : c110_ScreensOk (m.erase k) := by
  intro k' c hc
  rw [LMap.get_erase] at hc
  split at hc
  · cases hc
  · exact h k' c hc

theorem c110_activities (items : List FileItem) {ls ls' ls₁ : LMap Str Layout} {lg lg' : LMap Str ScreenLogic} {fs fs' : LMap Str AndroidView}
    {screens : List Screen} (h1 : c110_Maps Eq ls ls') (h2 : c110_Maps c110_Screens lg lg') (h3 : c110_Maps Eq fs fs')
    (hok : c110_ScreensOk lg) (hn' : ∀ k l, lg'.get k = some l → c110_Names l) (h : @activitiesConv A _ items ls lg fs = .ok (screens, ls₁)) :
    ∃ screens' ls₁', @activitiesConv B _ items ls' lg' fs' = .ok (screens', ls₁') ∧ All₂ c110_ApiScreens screens screens' ∧
      c110_Maps Eq ls₁ ls₁' := by
  induction items generalizing ls ls' lg lg' fs fs' screens with
  | nil =>
    cases h
    exact ⟨[], ls', rfl, .nil, h1⟩
  | cons f items ih =>
    simp only [activitiesConv, Out.bind_eq_ok, Out.mapErr_eq_ok, Prod.exists, Out.pure_eq, Out.ok.injEq, Prod.mk.injEq] at h
    obtain ⟨s, hs, ss, l, hrest, rfl, rfl⟩ := h
    have hl : ∃ s', @Screen.fromParsed B _ f.filename ((lg'.get (viewNameToLogic f.filename)).getD (ScreenLogic.newEmpty f.filename)).name f
        ((ls'.get f.filename).getD ⟨[]⟩) ((lg'.get (viewNameToLogic f.filename)).getD (ScreenLogic.newEmpty f.filename))
        ((fs'.get f.filename).map View.ofRaw) = .ok s' ∧ c110_ApiScreens s s' := by
      rw [← c110_maps_eq.mp h1, ← c110_maps_eq.mp h3]
      have hr := h2 (viewNameToLogic f.filename)
      cases hg : lg.get (viewNameToLogic f.filename) with
      | none =>
        rw [hg] at hr hs
        cases hg' : lg'.get (viewNameToLogic f.filename) with
        | none => exact c110_screen A B _ _ _ _ _ (c110_screens_refl _) nofun nofun (by intro k c hc; cases hc) hs
        | some x => rw [hg'] at hr; cases hr
      | some l =>
        rw [hg] at hr hs
        cases hg' : lg'.get (viewNameToLogic f.filename) with
        | none => rw [hg'] at hr; cases hr
        | some l' =>
          rw [hg'] at hr
          cases hr with
          | some hr =>
            have := c110_screen A B _ _ _ _ _ hr (hok _ _ hg).1 (hn' _ _ hg') (hok _ _ hg).2 hs
            rw [show (Option.getD (some l) (ScreenLogic.newEmpty f.filename)).name = l'.name from hr.name] at this
            exact this
    obtain ⟨s', hs', hss⟩ := hl
    have h2e : c110_Maps c110_Screens (lg.erase (viewNameToLogic f.filename)) (lg'.erase (viewNameToLogic f.filename)) := c110_erase h2 _
    have hne : ∀ k l, (lg'.erase (viewNameToLogic f.filename)).get k = some l → c110_Names l := by
      intro k l hk
      rw [LMap.get_erase] at hk
      split at hk
      · cases hk
      · exact hn' k l hk
    obtain ⟨ss', ls₁', hr', hall, hm⟩ := ih (c110_erase h1 _) h2e (c110_erase h3 _) (c110_screensOk_erase hok _) hne hrest
    refine ⟨s' :: ss', ls₁', ?_, .cons hss hall, hm⟩
    simp only [activitiesConv, Out.bind_eq_ok, Out.mapErr_eq_ok, Prod.exists, Out.pure_eq]
    exact ⟨s', hs', ss', ls₁', hr', rfl⟩

theorem c110_customViews (items : List FileItem) {ls ls' : LMap Str Layout} (h : c110_Maps Eq ls ls') :
    customViewsConv items ls = customViewsConv items ls' := by
  induction items generalizing ls ls' with
  | nil => rfl
  | cons f items ih => rw [customViewsConv, customViewsConv, c110_maps_eq.mp h, ih (c110_erase h _)]

theorem c110_conv (rnd : ResourceType → Nat → UInt32) {p p' : Swrs.SketchwareProject} (h : c110_Projects p p')
    (hok : c110_ScreensOk p.logic.screens) (hn' : ∀ k l, p'.logic.screens.get k = some l → c110_Names l) {q : SketchwareProject}
    (hq : @SketchwareProject.tryFrom A _ rnd p = .ok q) :
    ∃ q', @SketchwareProject.tryFrom B _ rnd p' = .ok q' ∧ c110_ApiProjects q q' := by
  obtain ⟨pr, fi, li, re, vi, lg, rf⟩ := p
  obtain ⟨pr', fi', li', re', vi', lg', rf'⟩ := p'
  obtain ⟨e1, e2, e3, e4, hv, hl, e5⟩ := h
  simp only at e1 e2 e3 e4 e5 hv hl hok hn'
  subst e1 e2 e3 e4 e5
  simp only [SketchwareProject.tryFrom, Out.bind_eq_ok, Prod.exists, Out.pure_eq, Out.ok.injEq] at hq
  obtain ⟨ss, ls, hact, cvs, hcv, libs, hlib, im, him, so, hso, fo, hfo, rfl⟩ := hq
  obtain ⟨ss', ls', hact', hall, hm⟩ := c110_activities A B _ hv.1 hl hv.2 hok hn' hact
  rw [c110_customViews _ hm] at hcv
  simp only [SketchwareProject.tryFrom, hact', Out.ok_bind, hcv, hlib, him, hso, hfo, Out.pure_eq, Out.ok.injEq, exists_eq_left']
  exact ⟨rfl, rfl, rfl, hall, rfl, rfl, c110_collect A B im, c110_collect A B so, c110_collect A B fo, rfl⟩

/-- C110: a project that can be opened through the API with maps of one kind is opened as the same project with maps of any other kind, if the
number of the first block of every container is not used by another block of it. -/
theorem c110_api (ex : PathBuf → Bool) (rnd : ResourceType → Nat → UInt32) (raw : RawSketchwareProject) (p : Swrs.SketchwareProject)
    (q : SketchwareProject) (hp : @Swrs.SketchwareProject.parseFrom A _ ex raw = .ok p) (hq : @SketchwareProject.tryFrom A _ rnd p = .ok q)
    (hc : ∀ e ∈ p.logic.screens, ∀ c ∈ e.2.blockContainers, c110_FirstOnce c.2) :
    ∃ p' q', @Swrs.SketchwareProject.parseFrom B _ ex raw = .ok p' ∧ @SketchwareProject.tryFrom B _ rnd p' = .ok q' ∧
      c110_Projects p p' ∧ c110_ApiProjects q q' := by
  have h := c110_project A B ex raw
  have names : ∀ (M : MapPol) (r : Swrs.SketchwareProject), @Swrs.SketchwareProject.parseFrom M _ ex raw = .ok r →
      ∀ k l, r.logic.screens.get k = some l → c110_Names l := by
    intro M r hr k l hk
    simp only [Swrs.SketchwareProject.parseFrom, Out.bind_eq_ok, Out.mapErr_eq_ok, Out.pure_eq, Out.ok.injEq] at hr
    obtain ⟨_, _, _, _, _, _, _, _, _, _, g, hg, _, _, rfl⟩ := hr
    exact (@Logic.parse_traced _ M _ _ hg (k, l) (LMap.get_mem hk)).2.2.2.2.2.1
  cases hp' : @Swrs.SketchwareProject.parseFrom B _ ex raw with
  | err e => rw [hp, hp'] at h; cases h
  | panic => rw [hp, hp'] at h; cases h
  | ok p' =>
    rw [hp, hp'] at h
    cases h with
    | ok h =>
      obtain ⟨q', h1, h2⟩ := c110_conv A B rnd h
        (fun k l hk => ⟨names A p hp k l hk, fun k' c hk' => hc (k, l) (LMap.get_mem hk) (k', c) (LMap.get_mem hk')⟩) (names B p' hp') hq
      exact ⟨p', q', rfl, h1, h, h2⟩

/-- C110: the condition of `c110_code` is needed: in a container where the number of the first block is used again, another block is the first
one if the maps move an entry to the back when its key is inserted again, and less code is read. -/
theorem c110_code_false : ∃ (A B : MapPol) (c : BlockContainer) (b b' : Block), @tryFrom _ A c = .ok [b, b'] ∧ @tryFrom _ B c = .ok [b'] :=
  ⟨⟨false, false⟩, ⟨true, false⟩, ⟨[exBlock (s% "0") 1 (-1) (s% "a") [], exBlock (s% "1") (-1) (-1) (s% "b") [],
    exBlock (s% "0") 1 (-1) (s% "c") []]⟩, _, _, rfl, rfl⟩

/-- Blocks after the first one may have the same number. -/
example : @tryFrom _ ⟨false, false⟩ ⟨[exBlock (s% "0") 1 (-1) (s% "a") [], exBlock (s% "1") (-1) (-1) (s% "b") [],
    exBlock (s% "1") (-1) (-1) (s% "c") []]⟩ = @tryFrom _ ⟨true, true⟩ ⟨[exBlock (s% "0") 1 (-1) (s% "a") [], exBlock (s% "1") (-1) (-1) (s% "b") [],
    exBlock (s% "1") (-1) (-1) (s% "c") []]⟩ :=
  c110_code _ _ _ (by
    intro b rest h
    cases h
    decide)
end

section
attribute [local instance] ieeeFloats ieeeEq ieeeEqLaws

/-- There is a project with a block that can be opened and whose containers have a first block with a number that is not used again. -/
example (A B : MapPol) (ex : PathBuf → Bool) (rnd : ResourceType → Nat → UInt32) : ∃ (raw : RawSketchwareProject) (p p' : Swrs.SketchwareProject)
    (q q' : SketchwareProject), @Swrs.SketchwareProject.parseFrom A _ ex raw = .ok p ∧ @SketchwareProject.tryFrom A _ rnd p = .ok q ∧
      @Swrs.SketchwareProject.parseFrom B _ ex raw = .ok p' ∧ @SketchwareProject.tryFrom B _ rnd p' = .ok q' ∧ c110_ApiProjects q q' := by
  obtain ⟨raw, p, h1, h2⟩ := @c98_project_same _ A ex (s% "0")
  have h3 := (@c92_same A _ rnd _ _ h2).trans (@c98_converted _ A rnd (s% "0") (by decide) _ c98_read_zero)
  have hn : p.logic.screens.keys.Nodup := by
    have hr := h1
    simp only [Swrs.SketchwareProject.parseFrom, Out.bind_eq_ok, Out.mapErr_eq_ok, Out.pure_eq, Out.ok.injEq] at hr
    obtain ⟨_, _, _, _, _, _, _, _, _, _, g, hg, _, _, rfl⟩ := hr
    exact (@Logic.parse_read _ A _ _ hg).1
  obtain ⟨p', q', h4, h5, -, h6⟩ := c110_api A B ex rnd raw p _ h1 h3 (by
    intro e he c hc
    have hg := LMap.get_of_mem (k := e.1) (v := e.2) hn he
    rw [h2.logic] at hg
    have := LMap.get_mem hg
    obtain h7 := List.mem_singleton.mp this
    have h8 : e.2 = _ := congrArg Prod.snd h7
    rw [h8] at hc
    obtain rfl := List.mem_singleton.mp hc
    intro b rest hb b' hb'
    cases hb
    cases hb')
  exact ⟨raw, p, p', _, q', h1, h3, h4, h5, h6⟩
end
end Swrs.Api
