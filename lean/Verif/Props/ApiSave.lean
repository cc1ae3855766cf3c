import Verif.Proofs.ApiSave
import Verif.Proofs.Resave
import Verif.Props.ApiRound
/-!
# C92: saving a project that was made or edited through the API
-/
namespace Swrs.Api

/-! ## C92 — A project saved through the API can be opened again -/

/-- The text does not end with white space. -/
def c92_Closed (t : Str) : Prop := ∀ c, t.getLast? = some c → isWs c = false

section
variable [MapPol] [Floats]

/-- No name is used twice: layouts and custom views, logics, and within a screen the variables, list variables, moreblocks and the
containers of the code. -/
structure c92_Distinct (p : SketchwareProject) : Prop where
  layouts : ((layoutsOf p).map (·.1)).Nodup
  logics : (p.screens.map (·.javaName)).Nodup
  maps : ∀ s ∈ p.screens, s.variables.keys.Nodup ∧ s.listVariables.keys.Nodup ∧ s.moreBlocks.keys.Nodup
  code : ∀ s ∈ p.screens, ((codeOfScreen s).map (·.1)).Nodup

/-- What the logic of a screen needs to be told apart in the logic file. -/
structure c92_ScreenSaved (s : Screen) : Prop where
  name : '\n' ∉ s.javaName
  variables : (∀ e ∈ s.variables, e.1 = e.2.name ∧ '\n' ∉ e.2.name) ∧ ∀ e, s.variables.getLast? = some e → c92_Closed e.2.name
  listVariables : (∀ e ∈ s.listVariables, e.1 = e.2.name ∧ '\n' ∉ e.2.name) ∧
    ∀ e, s.listVariables.getLast? = some e → c92_Closed e.2.name
  /-- Moreblocks are filed under their names; name and spec are one line each; no name has a colon; the first name does not begin and
  the last spec does not end with white space. -/
  moreBlocks : (∀ e ∈ s.moreBlocks, e.1 = e.2.name ∧ '\n' ∉ e.2.name ∧ '\n' ∉ BlockContent.text e.2.spec ∧ ':' ∉ e.2.name) ∧
    (∀ e, s.moreBlocks.head? = some e → ∀ c, e.2.name.head? = some c → isWs c = false) ∧
    ∀ e, s.moreBlocks.getLast? = some e → c92_Closed (BlockContent.text e.2.spec)
  /-- The container of every piece of code has a name that is one line and cannot be taken for the header of a pool. -/
  code : ∀ e ∈ codeOfScreen s, ¬ (s% ".java_") <:+: s.javaName ∧ ¬ (s% ".java_") <:+: e.1 ∧ '\n' ∉ e.1 ∧
    ∀ w ∈ c28_poolWords, e.1 ≠ w ∧ ¬ (s% "java_" ++ w) <:+ e.1
  lastCode : ∀ e, (codeOfScreen s).getLast? = some e → e.2 = [] → c92_Closed e.1

/-- What a project created at `t` needs to be opened again after saving. -/
structure c92_Saved (p : SketchwareProject) (t : Date.DateTime) : Prop where
  date : Date.FullWidth t
  /-- There is a screen if there is a custom view. -/
  file : p.screens ≠ [] ∨ p.customViews = []
  names : ∀ e ∈ layoutsOf p, '.' ∉ e.1 ∧ '\n' ∉ e.1
  /-- Only the last layout has views. -/
  onlyLast : ∀ e ∈ (layoutsOf p).dropLast, e.2 = []
  /-- There is a FAB only if the last layout has views. -/
  fabs : fabsOf p ≠ [] → ∃ e, (layoutsOf p).getLast? = some e ∧ e.2 ≠ []
  /-- The record of every view and of every FAB is read back for itself. -/
  views : ∀ e ∈ layoutsOf p, ∀ w ∈ flattenViews e.2 none none, AndroidView.parse w.reconstruct = some w
  fabViews : ∀ e ∈ fabsOf p, AndroidView.parse (fabBack e.2).reconstruct = some (fabBack e.2)
  screens : ∀ s ∈ p.screens, c92_ScreenSaved s
  /-- After a screen without code there is no screen with code. -/
  code : ∀ pre s post, p.screens = pre ++ s :: post → codeOfScreen s = [] → ∀ u ∈ post, codeOfScreen u = []

omit [MapPol] [Floats] in
theorem nil_of_all₂ {α β : Type} {R : α → β → Prop} {xs : List α} {ws : List β} (h : All₂ R xs ws) : ws = [] ↔ xs = [] := by
  cases h <;> simp

omit [MapPol] [Floats] in
theorem all₂_left {α β : Type} {R : α → β → Prop} {xs : List α} {ws : List β} (h : All₂ R xs ws) {x : α} (hx : x ∈ xs) :
    ∃ w ∈ ws, R x w := by
  induction h with
  | nil => simp at hx
  | cons h _ ih =>
    rcases List.mem_cons.mp hx with rfl | hx
    · exact ⟨_, by simp, h⟩
    · obtain ⟨w, hw, hr⟩ := ih hx
      exact ⟨w, by simp [hw], hr⟩

omit [MapPol] [Floats] in
theorem all₂_right {α β : Type} {R : α → β → Prop} {xs : List α} {ws : List β} (h : All₂ R xs ws) {w : β} (hw : w ∈ ws) :
    ∃ x ∈ xs, R x w := by
  induction h with
  | nil => simp at hw
  | cons h _ ih =>
    rcases List.mem_cons.mp hw with rfl | hw
    · exact ⟨_, by simp, h⟩
    · obtain ⟨x, hx, hr⟩ := ih hw
      exact ⟨x, by simp [hx], hr⟩

omit [MapPol] [Floats] in
theorem all₂_last {α β : Type} {R : α → β → Prop} {xs : List α} {ws : List β} (h : All₂ R xs ws) :
    (xs.getLast? = none ∧ ws.getLast? = none) ∨ ∃ x w, xs.getLast? = some x ∧ ws.getLast? = some w ∧ R x w := by
  induction h with
  | nil => exact .inl ⟨rfl, rfl⟩
  | @cons a b as bs h h' ih =>
    right
    rcases ih with ⟨h1, h2⟩ | ⟨x, w, h1, h2, h3⟩
    · rw [List.getLast?_eq_none_iff] at h1 h2
      subst h1; subst h2
      exact ⟨a, b, rfl, rfl, h⟩
    · exact ⟨x, w, by rw [List.getLast?_cons, h1]; rfl, by rw [List.getLast?_cons, h2]; rfl, h3⟩

omit [MapPol] [Floats] in
theorem all₂_split {α β : Type} {R : α → β → Prop} {xs pre post : List α} {ws : List β} {x : α} (h : All₂ R xs ws)
    (hx : xs = pre ++ x :: post) : ∃ pre' w post', ws = pre' ++ w :: post' ∧ R x w ∧ All₂ R post post' := by
  induction pre generalizing xs ws with
  | nil => subst hx; cases h with | cons h h' => exact ⟨[], _, _, rfl, h, h'⟩
  | cons a pre ih =>
    subst hx
    cases h with
    | @cons _ b _ bs h h' =>
      obtain ⟨pre', w, post', rfl, h1, h2⟩ := ih h' rfl
      exact ⟨b :: pre', w, post', rfl, h1, h2⟩

omit [MapPol] [Floats] in
theorem all₂_split' {α β : Type} {R : α → β → Prop} {xs : List α} {ws pre post : List β} {w : β} (h : All₂ R xs ws)
    (hw : ws = pre ++ w :: post) : ∃ pre' x post', xs = pre' ++ x :: post' ∧ R x w ∧ All₂ R post' post := by
  induction pre generalizing xs ws with
  | nil => subst hw; cases h with | cons h h' => exact ⟨[], _, _, rfl, h, h'⟩
  | cons a pre ih =>
    subst hw
    cases h with
    | @cons b _ bs _ h h' =>
      obtain ⟨pre', w, post', rfl, h1, h2⟩ := ih h' rfl
      exact ⟨b :: pre', w, post', rfl, h1, h2⟩

/-- The condition on a written screen, in terms of the screen. -/
theorem c92_screenOk {s : Screen} {l : ScreenLogic} (h : s.toLogic = .ok l) (hm : s.moreBlocks.keys.Nodup)
    (hn : ((codeOfScreen s).map (·.1)).Nodup) : c28_ScreenOk l ↔ c92_ScreenSaved s := by
  obtain ⟨h1, h2, h3, h4, h5⟩ := toLogic_list h hm hn
  constructor
  · intro hl
    obtain ⟨a1, a2⟩ := hl.variables _ h2
    obtain ⟨b1, b2⟩ := hl.listVariables _ h3
    obtain ⟨c1, c2, c3⟩ := hl.moreBlocks _ h4
    refine ⟨h1 ▸ hl.name, ⟨a1, a2⟩, ⟨b1, b2⟩, ⟨?_, ?_, ?_⟩, ?_, ?_⟩
    · intro e he
      exact c1 _ (List.mem_map_of_mem he)
    · intro e he
      exact c2 (e.1, ⟨e.2.name, BlockContent.text e.2.spec⟩) (by simp only [List.head?_map, he]; rfl)
    · intro e he
      exact c3 (e.1, ⟨e.2.name, BlockContent.text e.2.spec⟩) (by simp only [List.getLast?_map, he]; rfl)
    · intro e he
      obtain ⟨w, hw, h6, -⟩ := all₂_left h5 he
      rw [← h1, ← h6]
      exact hl.containers w hw
    · intro e he hnil
      rcases all₂_last h5 with ⟨h6, -⟩ | ⟨x, w, h6, h7, h8, h9⟩
      · rw [he] at h6; simp at h6
      · rw [he] at h6
        obtain rfl := Option.some.inj h6
        rw [c92_Closed, ← h8]
        exact hl.lastContainer w h7 ((toContainer_nil h9).mpr hnil)
  · intro hs
    refine ⟨h1 ▸ hs.name, ?_, ?_, ?_, ?_, ?_⟩
    · intro p hp
      rw [h2] at hp
      obtain rfl := Option.some.inj hp
      exact hs.variables
    · intro p hp
      rw [h3] at hp
      obtain rfl := Option.some.inj hp
      exact hs.listVariables
    · intro p hp
      rw [h4] at hp
      obtain rfl := Option.some.inj hp
      obtain ⟨c1, c2, c3⟩ := hs.moreBlocks
      refine ⟨?_, ?_, ?_⟩
      · intro e he
        obtain ⟨m, hm, rfl⟩ := List.mem_map.mp he
        exact c1 m hm
      · intro e he
        rw [List.head?_map, Option.map_eq_some_iff] at he
        obtain ⟨m, hm, rfl⟩ := he
        exact c2 m hm
      · intro e he
        rw [List.getLast?_map, Option.map_eq_some_iff] at he
        obtain ⟨m, hm, rfl⟩ := he
        exact c3 m hm
    · intro w hw
      obtain ⟨e, he, h6, -⟩ := all₂_right h5 hw
      rw [h1, h6]
      exact hs.code e he
    · intro w hw hnil
      rcases all₂_last h5 with ⟨-, h6⟩ | ⟨x, w', h6, h7, h8, h9⟩
      · rw [hw] at h6; simp at h6
      · rw [hw] at h7
        obtain rfl := Option.some.inj h7
        rw [h8]
        exact hs.lastCode x h6 ((toContainer_nil h9).mp hnil)

/-- The conditions of C28 on what is written, in terms of the screens. -/
theorem c92_logicOk {p : SketchwareProject} {q : Swrs.SketchwareProject} (h : p.toParsed = .ok q) (hd : c92_Distinct p) :
    c28_Maps q.logic ∧ (c28_LogicOk q.logic ↔ (∀ s ∈ p.screens, c92_ScreenSaved s) ∧
      ∀ pre s post, p.screens = pre ++ s :: post → codeOfScreen s = [] → ∀ u ∈ post, codeOfScreen u = []) := by
  obtain ⟨-, -, ha⟩ := toParsed_lists h hd.layouts hd.logics
  have hkeys : q.logic.screens.keys = p.screens.map (·.javaName) := by
    clear h hd
    generalize q.logic.screens = m at ha
    generalize p.screens = ss at ha
    induction ha with
    | nil => rfl
    | cons h _ ih => rw [LMap.keys_cons, ih, h.1]; rfl
  have hlist : ∀ s ∈ p.screens, ∀ l, s.toLogic = .ok l → l.name = s.javaName ∧ l.variables = some ⟨s.variables⟩ ∧ l.listVariables = some ⟨s.listVariables⟩ ∧
      l.moreBlocks = some ⟨s.moreBlocks.map fun m => (m.1, (⟨m.2.name, BlockContent.text m.2.spec⟩ : Swrs.MoreBlock))⟩ ∧
      All₂ (fun x w => w.1 = x.1 ∧ toContainer x.2 = .ok w.2) (codeOfScreen s) l.blockContainers :=
    fun s hs l hl => toLogic_list hl (hd.maps s hs).2.2 (hd.code s hs)
  refine ⟨⟨hkeys ▸ hd.logics, ?_⟩, ?_⟩
  · intro e he
    obtain ⟨s, hs, -, h2⟩ := all₂_right ha he
    obtain ⟨h1, h3, h4, h5, h6⟩ := hlist s hs _ h2
    obtain ⟨d1, d2, d3⟩ := hd.maps s hs
    refine ⟨?_, ?_, ?_, ?_⟩
    · intro p hp
      rw [h3] at hp
      obtain rfl := Option.some.inj hp
      exact d1
    · intro p hp
      rw [h4] at hp
      obtain rfl := Option.some.inj hp
      exact d2
    · intro p hp
      rw [h5] at hp
      obtain rfl := Option.some.inj hp
      simp only [LMap.keys, List.map_map]
      exact d3
    · rw [keys_of_all₂ (fun _ _ h => h.1) h6]
      exact hd.code s hs
  · have hnil : ∀ s ∈ p.screens, ∀ l, s.toLogic = .ok l → (l.blockContainers = [] ↔ codeOfScreen s = []) := fun s hs l hl =>
      nil_of_all₂ (hlist s hs l hl).2.2.2.2
    constructor
    · rintro ⟨h1, h2⟩
      refine ⟨fun s hs => ?_, ?_⟩
      · obtain ⟨e, he, h3, h4⟩ := all₂_left ha hs
        exact (c92_screenOk h4 (hd.maps s hs).2.2 (hd.code s hs)).mp (h1 e he).2.1
      · intro pre s post hs hc u hu
        obtain ⟨pre', w, post', h3, h4, h5⟩ := all₂_split ha hs
        obtain ⟨x, hx, h6⟩ := all₂_left h5 hu
        have hsm : s ∈ p.screens := by rw [hs]; simp
        have hum : u ∈ p.screens := by rw [hs]; simp [hu]
        refine Classical.byContradiction fun hne => ?_
        have := (h2 (pre'.map (·.2)) w.2 (post'.map (·.2)) (by rw [h3]; simp) ((hnil s hsm _ h4.2).mpr hc)
          ⟨x.2, List.mem_map_of_mem hx, fun h => hne ((hnil u hum _ h6.2).mp h)⟩).2 w.2 (by rw [h3]; simp)
        rw [(hlist s hsm _ h4.2).2.1] at this
        simp at this
    · rintro ⟨h1, h2⟩
      refine ⟨fun e he => ?_, ?_⟩
      · obtain ⟨s, hs, h3, h4⟩ := all₂_right ha he
        refine ⟨by rw [h3, (hlist s hs _ h4).1], (c92_screenOk h4 (hd.maps s hs).2.2 (hd.code s hs)).mpr (h1 s hs), ?_⟩
        intro hemp
        have := hemp.1
        rw [(hlist s hs _ h4).2.1] at this
        simp at this
      · intro pre w post hw hc hex
        obtain ⟨pre', w', post', h3, h4, h5⟩ : ∃ pre' w' post', q.logic.screens = pre' ++ w' :: post' ∧ w'.2 = w ∧ post'.map (·.2) = post := by
          obtain ⟨a, b, hab, h6, h7⟩ := List.map_eq_append_iff.mp hw
          obtain ⟨c, d, rfl, h8, h9⟩ := List.map_eq_cons_iff.mp h7
          exact ⟨a, c, d, hab, h8, h9⟩
        obtain ⟨pre'', s, post'', h6, h7, h8⟩ := all₂_split' ha h3
        subst h4 h5
        obtain ⟨t, ht, hne⟩ := hex
        obtain ⟨t', ht', rfl⟩ := List.mem_map.mp ht
        obtain ⟨u, hu, h9⟩ := all₂_right h8 ht'
        have hsm : s ∈ p.screens := by rw [h6]; simp
        have hum : u ∈ p.screens := by rw [h6]; simp [hu]
        exact absurd ((hnil u hum _ h9.2).mpr (h2 _ s _ h6 ((hnil s hsm _ h7.2).mp hc) u hu)) hne

omit [MapPol] in
theorem c92_sublists (p : SketchwareProject) : (p.screens.map (·.layoutName)).Sublist ((layoutsOf p).map (·.1)) ∧
    ((fabsOf p).map (·.1)).Sublist (p.screens.map (·.layoutName)) := by
  have hfsub : ((fabsOf p).map (·.1)).Sublist (p.screens.map (·.layoutName)) := by
    unfold fabsOf
    generalize p.screens = ss
    induction ss with
    | nil => simp
    | cons s ss ih =>
      cases hs : s.fab with
      | none => simpa [hs] using ih.cons s.layoutName
      | some v => simpa [hs] using ih
  have hlsub : (p.screens.map (·.layoutName)).Sublist ((layoutsOf p).map (·.1)) := by
    have : (layoutsOf p).map (·.1) = p.screens.map (·.layoutName) ++ p.customViews.map (·.resName) := by
      simp only [layoutsOf, List.map_append, List.map_map]; rfl
    rw [this]; exact List.sublist_append_left _ _
  exact ⟨hlsub, hfsub⟩

/-- Reading the screens looks logics up by name only. -/
theorem activitiesConv_congr (items : List FileItem) (ls : LMap Str Layout) {lg lg' : LMap Str ScreenLogic} (fs : LMap Str AndroidView)
    (h : ∀ k, lg.get k = lg'.get k) : activitiesConv items ls lg fs = activitiesConv items ls lg' fs := by
  induction items generalizing ls lg lg' fs with
  | nil => rfl
  | cons f items ih =>
    simp only [activitiesConv, h]
    rw [ih _ _ (lg := lg.erase (viewNameToLogic f.filename)) (lg' := lg'.erase (viewNameToLogic f.filename)) fun k => by
      rw [LMap.get_erase, LMap.get_erase, h]]

omit [MapPol] [Floats] in
theorem resourcesConv_congr (rnd : Nat → UInt32) (t : ResourceType) (items : List ResourceItem) {m n : HMap Str ResourceFileWrapper}
    (h : HMap.Same m n) : resourcesConv rnd t items (some m) = resourcesConv rnd t items (some n) := by
  induction items generalizing m n with
  | nil => rfl
  | cons i items ih =>
    simp only [resourcesConv]
    rw [ih (m := LMap.erase m i.fullName) (n := LMap.erase n i.fullName), show m.get i.fullName = n.get i.fullName from h _]
    intro k
    have := h k
    unfold HMap.get at this ⊢
    rw [LMap.get_erase, LMap.get_erase, this]

/-- Equal parsed projects, up to the order of their screens and resource files, are opened as the same API project. -/
theorem c92_same (rnd : ResourceType → Nat → UInt32) {q' q : Swrs.SketchwareProject} (h : q'.Same q) :
    SketchwareProject.tryFrom rnd q' = SketchwareProject.tryFrom rnd q := by
  obtain ⟨h1, h2, h3, h4, h5, h6, h7⟩ := h
  unfold SketchwareProject.tryFrom
  rw [h1, h2, h3, h4, h5, activitiesConv_congr _ _ _ h6]
  cases hq' : q'.resourceFiles with
  | none =>
    cases hq : q.resourceFiles with
    | none => rfl
    | some b => rw [hq', hq] at h7; exact h7.elim
  | some a =>
    cases hq : q.resourceFiles with
    | none => rw [hq', hq] at h7; exact h7.elim
    | some b =>
      rw [hq', hq] at h7
      obtain ⟨c, d, e, f⟩ := h7
      simp only [Option.map_some, Option.bind_some, resourcesConv_congr _ _ _ d, resourcesConv_congr _ _ _ e, resourcesConv_congr _ _ _ f, c,
        Option.isNone_some]

end

section
variable [MapPol] [FloatLaws]

/-- C92, proved part: a project without duplicate names and with a creation time that is a date is saved, and what is saved is read back as
the same project exactly when it meets `c92_Saved`. Missing: the other projects, for which the property is false. -/
theorem c92_saved_partial (ex : PathBuf → Bool) (p : SketchwareProject) (q : Swrs.SketchwareProject) (hq : p.toParsed = .ok q)
    (hd : c92_Distinct p) (t : Date.DateTime) (hv : t.Valid) (hts : Date.timestamp t = p.metadata.timeCreated.toInt64.toInt)
    (hres : ∀ r, q.resourceFiles = some r → ∃ ws, ResourceFiles.tryFrom ex ws = .ok r)
    (rs : Option (List ResourceFileWrapper)) (hrs : q.ResOrder rs) :
    ∃ raw, q.tryIntoRaw rs = .ok raw ∧
      ((∃ q', Swrs.SketchwareProject.parseFrom ex raw = .ok q' ∧ q'.Same q) ↔ c92_Saved p t) := by
  obtain ⟨hl, hf, -⟩ := toParsed_lists hq hd.layouts hd.logics
  obtain ⟨hmaps, hlog⟩ := c92_logicOk hq hd
  obtain ⟨_, _, _, _, _, _, _, _, _, _, hproj, hfile, _, _, _, _⟩ := toParsed_ok hq
  have hkl : q.view.layouts.keys.Nodup := by
    rw [hl]; simp only [LMap.keys, List.map_map]; exact hd.layouts
  obtain ⟨hlsub, hfsub⟩ := c92_sublists p
  have hkf : q.view.fabs.keys.Nodup := by
    rw [hf]; simp only [LMap.keys, List.map_map]
    exact hd.layouts.sublist (hfsub.trans hlsub)
  obtain ⟨raw, h1, h2⟩ := c58_project_round_trip_partial ex q t hv (by rw [hproj]; exact hts) ⟨hkl, hkf⟩ hmaps hres rs hrs
  refine ⟨raw, h1, h2.trans ?_⟩
  have hfo : c58_FileOk q.file ↔ (p.screens ≠ [] ∨ p.customViews = []) := by
    simp [c58_FileOk, hfile]
  have hvo : c58_ViewOk q.view ↔ (∀ e ∈ layoutsOf p, '.' ∉ e.1 ∧ '\n' ∉ e.1) ∧ (∀ e ∈ (layoutsOf p).dropLast, e.2 = []) ∧
      (fabsOf p ≠ [] → ∃ e, (layoutsOf p).getLast? = some e ∧ e.2 ≠ []) ∧
      (∀ e ∈ layoutsOf p, ∀ w ∈ flattenViews e.2 none none, AndroidView.parse w.reconstruct = some w) ∧
      ∀ e ∈ fabsOf p, AndroidView.parse (fabBack e.2).reconstruct = some (fabBack e.2) := by
    unfold c58_ViewOk
    rw [hl, hf, ← List.map_dropLast, List.getLast?_map]
    simp only [List.forall_mem_map, flattenViews_nil, ne_eq, List.map_eq_nil_iff]
    constructor
    · rintro ⟨⟨a1, -⟩, a2, a3, a4, a5⟩
      refine ⟨a1, a2, fun h => ?_, a4, a5⟩
      obtain ⟨e, he, hne⟩ := a3 h
      rw [Option.map_eq_some_iff] at he
      obtain ⟨x, hx, rfl⟩ := he
      exact ⟨x, hx, fun h => hne ((flattenViews_nil _).mpr h)⟩
    · rintro ⟨a1, a2, a3, a4, a5⟩
      refine ⟨⟨a1, fun e he => ?_⟩, a2, fun h => ?_, a4, a5⟩
      · obtain ⟨x, hx, h⟩ := List.mem_map.mp (hlsub.subset (hfsub.subset (List.mem_map_of_mem (f := (·.1)) he)))
        rw [← h]; exact a1 x hx
      · obtain ⟨x, hx, hne⟩ := a3 h
        exact ⟨_, by rw [hx]; rfl, fun h => hne ((flattenViews_nil _).mp h)⟩
  rw [hfo, hvo, hlog]
  constructor
  · rintro ⟨b1, b2, ⟨b3, b4, b5, b6, b7⟩, b8, b9⟩
    exact ⟨b1, b2, b3, b4, b5, b6, b7, b8, b9⟩
  · rintro ⟨b1, b2, b3, b4, b5, b6, b7, b8, b9⟩
    exact ⟨b1, b2, ⟨b3, b4, b5, b6, b7⟩, b8, b9⟩

/-- C92: a project in which a layout other than the last one has views is saved, but what is saved can never be opened. -/
theorem c92_two_layouts (ex : PathBuf → Bool) (p : SketchwareProject) (q : Swrs.SketchwareProject) (hq : p.toParsed = .ok q)
    (hl : ((layoutsOf p).map (·.1)).Nodup) (hj : (p.screens.map (·.javaName)).Nodup)
    (hn : ∀ e ∈ layoutsOf p, '.' ∉ e.1 ∧ '\n' ∉ e.1) (h : ∃ e ∈ (layoutsOf p).dropLast, e.2 ≠ [])
    (rs : Option (List ResourceFileWrapper)) (raw : RawSketchwareProject) (hraw : q.tryIntoRaw rs = .ok raw) (q' : Swrs.SketchwareProject) :
    Swrs.SketchwareProject.parseFrom ex raw ≠ .ok q' := by
  intro hp
  obtain ⟨h1, h2, -⟩ := toParsed_lists hq hl hj
  obtain ⟨-, -, -, -, hv, -, -⟩ := (c58_parts ex raw q').mp hp
  have hrv : raw.view = q.view.reconstruct := by
    simp only [Swrs.SketchwareProject.tryIntoRaw, Out.bind_eq_ok, Out.pure_eq, Out.ok.injEq] at hraw
    obtain ⟨_, _, rfl⟩ := hraw
    rfl
  rw [hrv] at hv
  obtain ⟨hlsub, hfsub⟩ := c92_sublists p
  have hfn : ∀ e ∈ fabsOf p, '.' ∉ e.1 ∧ '\n' ∉ e.1 := by
    intro e he
    obtain ⟨x, hx, h⟩ := List.mem_map.mp (hlsub.subset (hfsub.subset (List.mem_map_of_mem (f := (·.1)) he)))
    rw [← h]; exact hn x hx
  obtain ⟨e, he, hne⟩ := h
  have hno : q.view.NamesOk := by
    unfold Swrs.View.NamesOk
    rw [h1, h2]
    simp only [List.forall_mem_map]
    exact ⟨hn, hfn⟩
  have hkn : q.view.KeysNodup := by
    unfold Swrs.View.KeysNodup
    rw [h1, h2]
    simp only [LMap.keys, List.map_map]
    exact ⟨hl, hl.sublist (hfsub.trans hlsub)⟩
  have hnr : ¬ q.view.Readable := by
    intro hr
    have := hr.1
    rw [h1, ← List.map_dropLast] at this
    exact hne ((flattenViews_nil _).mp (this _ (List.mem_map_of_mem he)))
  rcases Swrs.View.parse_not_readable q.view hno hkn hnr with ⟨e, h3⟩ | ⟨-, h3, -⟩
  · rw [hv] at h3; cases h3
  · rw [h1] at h3
    exact hne ((flattenViews_nil _).mp (h3 _ (List.mem_map.mpr ⟨e, (List.dropLast_sublist _).subset he, rfl⟩)))

/-- C92: if a screen without code stands before a screen with code, and nothing else is wrong with the screens, then the logic file that is
saved is read without an error, and the last code of some screen is gone. -/
theorem c92_code_lost (p : SketchwareProject) (q : Swrs.SketchwareProject) (hq : p.toParsed = .ok q) (hd : c92_Distinct p)
    (hs : ∀ s ∈ p.screens, c92_ScreenSaved s) {pre post : List Screen} {s u : Screen} (hp : p.screens = pre ++ s :: post)
    (hc : codeOfScreen s = []) (hu : u ∈ post) (hne : codeOfScreen u ≠ []) :
    ∃ l, Logic.parse q.logic.reconstruct = .ok l ∧ ∃ s ∈ p.screens, ∃ e, (codeOfScreen s).getLast? = some e ∧
      ∀ sl, l.screens.get s.javaName = some sl → sl.blockContainers.get e.1 = none := by
  obtain ⟨hm, hok⟩ := c92_logicOk hq hd
  obtain ⟨-, -, ha⟩ := toParsed_lists hq hd.layouts hd.logics
  have hr : ∀ e ∈ q.logic.screens, e.1 = e.2.name ∧ c28_ScreenOk e.2 ∧ ¬ e.2.Empty := by
    intro e he
    obtain ⟨s, hs', h3, h4⟩ := all₂_right ha he
    have h5 := toLogic_list h4 (hd.maps s hs').2.2 (hd.code s hs')
    refine ⟨by rw [h3, h5.1], (c92_screenOk h4 (hd.maps s hs').2.2 (hd.code s hs')).mpr (hs s hs'), ?_⟩
    intro hemp
    have := hemp.1
    rw [h5.2.1] at this
    simp at this
  have ht : ¬ Logic.Tight (q.logic.screens.map (·.2)) := fun ht => hne ((hok.mp ⟨hr, ht⟩).2 pre s post hp hc u hu)
  have hm' : ∀ s ∈ q.logic.screens.map (·.2), (∀ p, s.variables = some p → p.map.keys.Nodup) ∧
      (∀ p, s.listVariables = some p → p.map.keys.Nodup) ∧ (∀ p, s.moreBlocks = some p → p.map.keys.Nodup) ∧
      s.blockContainers.keys.Nodup := by
    simp only [List.mem_map]; rintro s ⟨e, he, rfl⟩; exact hm.2 e he
  have hinv : q.logic.Inv := ⟨fun e he => (hr e he).1, hm.1, fun s hs => (hm' s hs).1, fun s hs => (hm' s hs).2.1,
    fun s hs => (hm' s hs).2.2.1, fun s hs => (hm' s hs).2.2.2⟩
  have hparts : ∀ s ∈ q.logic.screens.map (·.2), s.PartsOk := by
    intro s hs
    refine (c28_screenOk_iff (hm' s hs).1 (hm' s hs).2.1 (hm' s hs).2.2.1 (hm' s hs).2.2.2).mpr ?_
    simp only [List.mem_map] at hs
    obtain ⟨e, he, rfl⟩ := hs
    exact (hr e he).2.1
  obtain ⟨l, h1, x, hx, e, h2, h3⟩ := Logic.silent_loss hinv hparts ht
  obtain ⟨y, hy, rfl⟩ := List.mem_map.mp hx
  obtain ⟨s', hs', h4, h5⟩ := all₂_right ha hy
  have h6 := toLogic_list h5 (hd.maps s' hs').2.2 (hd.code s' hs')
  rcases all₂_last h6.2.2.2.2 with ⟨-, h7⟩ | ⟨c, w, h7, h8, h9, -⟩
  · rw [h2] at h7; simp at h7
  · rw [h2] at h8
    obtain rfl := Option.some.inj h8
    refine ⟨l, h1, s', hs', c, h7, ?_⟩
    rw [← h9, ← h6.1]
    exact h3

/-- C92: a project that survives the API (C61) and meets `c92_Saved` is the same after saving it, opening the six texts and converting them
back; only the resource files and the icon are new, as `c61_round_trip` tells. -/
theorem c92_round_trip (ex : PathBuf → Bool) (rnd : ResourceType → Nat → UInt32) (p : SketchwareProject) (hs : p.Survives)
    (ha : p.automaticResFileIds = false) (hi : p.resources.images.keys.Nodup) (hso : p.resources.sounds.keys.Nodup)
    (hf : p.resources.fonts.keys.Nodup) (hd : c92_Distinct p) (t : Date.DateTime) (hv : t.Valid)
    (hts : Date.timestamp t = p.metadata.timeCreated.toInt64.toInt) (hsave : c92_Saved p t) :
    ∃ q raw q' r, p.toParsed = .ok q ∧ q.tryIntoRaw none = .ok raw ∧ Swrs.SketchwareProject.parseFrom ex raw = .ok q' ∧
      SketchwareProject.tryFrom rnd q' = .ok { p with customIcon := none, resources := r, automaticResFileIds := true } ∧
      c61_Renewed .image p.resources.images r.images ∧ c61_Renewed .sound p.resources.sounds r.sounds ∧
      c61_Renewed .font p.resources.fonts r.fonts := by
  obtain ⟨q, r, h1, h2, h3⟩ := c61_round_trip rnd p hs ha hi hso hf
  obtain ⟨_, _, _, _, _, _, _, _, _, _, _, _, _, _, _, hres⟩ := toParsed_ok h1
  rw [ha] at hres
  simp only [Bool.false_eq_true, if_false] at hres
  obtain ⟨raw, h4, h5⟩ := c92_saved_partial ex p q h1 hd t hv hts (by rw [hres]; nofun) none hres
  obtain ⟨q', h6, h7⟩ := h5.mpr hsave
  exact ⟨q, raw, q', r, h1, h4, h6, by rw [c92_same rnd h7]; exact h2, h3⟩

/-- A button. -/
def c92_button : View := View.ofRaw (AndroidView.newEmpty (s% "button1") 3 (s% "root") 0)

/-- A project made on 2022-12-31 23:59:58 with two screens and a custom view. -/
def c92_project (main second item : List View) : SketchwareProject :=
  { bareApi bareLibs [(s% "a", someImageFile)] false with
    metadata := ⟨1, s% "app", s% "ws", s% "pkg", 1672531198, 150, s% "1.0", 1⟩
    screens := [{ survivingScreen with layout := main },
      { namedScreen (s% "DebugScreenActivity") [(s% "x", ⟨s% "x", .integer⟩)] with layoutName := s% "debug_screen", layout := second }]
    customViews := [⟨s% "item", item⟩] }

omit [MapPol] in
theorem c92_button_written : flattenViews [c92_button] none none = [AndroidView.newEmpty (s% "button1") 3 (s% "root") 0] := by
  simp only [c92_button, flattenViews, flattenIn, flattenBelow, flattenChildren_eq]
  rfl

omit [MapPol] in
theorem c92_button_read : parseRawLayout ⟨flattenViews [c92_button] none none⟩ = .ok [c92_button] := by
  rw [c92_button_written]; rfl

theorem c92_project_survives {item : List View} (h : item = [] ∨ item = [c92_button]) : (c92_project [] [] item).Survives := by
  refine ⟨⟨?_, ?_⟩, ?_, ?_, ?_, ?_, ?_⟩
  · intro s hs
    simp only [c92_project, List.mem_cons, List.not_mem_nil, or_false] at hs
    rcases hs with rfl | rfl <;> rfl
  · simp [c92_project, survivingScreen, plainScreen, namedScreen]
  · intro s hs
    simp only [c92_project, List.mem_cons, List.not_mem_nil, or_false] at hs
    rcases hs with rfl | rfl
    · exact ⟨by simp [survivingScreen, plainScreen], by simp [survivingScreen, plainScreen], survivingScreen_survives⟩
    · refine ⟨by simp [namedScreen, plainScreen], by simp [namedScreen], rfl, ?_, ?_, .inr ?_, ?_, ?_, ?_, ?_⟩ <;> simp [namedScreen, plainScreen]
  · intro c hc
    simp only [c92_project, List.mem_singleton] at hc
    subst hc
    rcases h with rfl | rfl
    · rfl
    · exact c92_button_read
  · simp [c92_project]
  · simp [c92_project, survivingScreen, plainScreen, namedScreen]
  · intro m hm e he
    simp only [c92_project, bareApi, List.mem_cons, List.not_mem_nil, or_false] at hm
    rcases hm with rfl | rfl | rfl
    · simp only [List.mem_singleton] at he
      subst he
      exact ⟨_, rfl⟩
    · cases he
    · cases he

omit [MapPol] in
theorem c92_project_distinct (main second item : List View) : c92_Distinct (c92_project main second item) := by
  refine ⟨?_, ?_, ?_, ?_⟩
  · simp [c92_project, layoutsOf, survivingScreen, plainScreen, namedScreen]
  · simp [c92_project, survivingScreen, plainScreen, namedScreen]
  · simp [c92_project, survivingScreen, plainScreen, namedScreen, LMap.keys]
  · intro s hs
    simp only [c92_project, List.mem_cons, List.not_mem_nil, or_false] at hs
    rcases hs with rfl | rfl
    · show [s% "onCreate_initializeLogic", s% "button1_onClick", s% "mb_moreBlock"].Nodup
      decide
    · exact List.nodup_nil

omit [MapPol] in
theorem c92_project_saved : c92_Saved (c92_project [] [] [c92_button]) ⟨2022, 12, 31, 23, 59, 58⟩ := by
  have hl : layoutsOf (c92_project [] [] [c92_button]) = [(s% "main", []), (s% "debug_screen", []), (s% "item", [c92_button])] := rfl
  refine ⟨by unfold Date.FullWidth; simp, .inl (by simp [c92_project]), ?_, ?_, ?_, ?_, ?_, ?_, ?_⟩
  · rw [hl]; simp
  · rw [hl]; simp
  · rw [hl]; simp
  · rw [hl]
    intro e he w hw
    simp only [List.mem_cons, List.not_mem_nil, or_false] at he
    rcases he with rfl | rfl | rfl
    · cases hw
    · cases hw
    · rw [c92_button_written] at hw
      simp only [List.mem_singleton] at hw
      subst hw
      exact (AndroidView.parse_reconstruct_iff _).mpr (newEmpty_storable _ _ _ _)
  · intro e he
    cases he
  · intro s hs
    simp only [c92_project, List.mem_cons, List.not_mem_nil, or_false] at hs
    rcases hs with rfl | rfl
    · refine ⟨by show '\n' ∉ s% "MainActivity"; decide, ⟨nofun, nofun⟩, ⟨nofun, nofun⟩, ⟨?_, ?_, ?_⟩, ?_, ?_⟩
      · intro e he
        obtain rfl := List.mem_singleton.mp he
        show s% "mb" = s% "mb" ∧ '\n' ∉ s% "mb" ∧ '\n' ∉ s% "do %s.x" ∧ ':' ∉ s% "mb"
        decide
      · intro e he
        obtain rfl := Option.some.inj he
        show ∀ c, some 'm' = some c → isWs c = false
        rintro _ ⟨⟩; decide
      · intro e he
        obtain rfl := Option.some.inj he
        show ∀ c, some 'x' = some c → isWs c = false
        rintro _ ⟨⟩; decide
      · intro e he
        have : e.1 ∈ [s% "onCreate_initializeLogic", s% "button1_onClick", s% "mb_moreBlock"] :=
          List.mem_map_of_mem (f := Prod.fst) he
        generalize e.1 = n at this
        show ¬ (s% ".java_") <:+: s% "MainActivity" ∧ _
        revert n
        decide +kernel
      · intro e he hne
        obtain rfl := Option.some.inj he
        cases hne
    · refine ⟨by show '\n' ∉ s% "DebugScreenActivity"; decide, ⟨?_, ?_⟩, ⟨nofun, nofun⟩, ⟨nofun, nofun, nofun⟩, nofun, nofun⟩
      · intro e he
        obtain rfl := List.mem_singleton.mp he
        show s% "x" = s% "x" ∧ '\n' ∉ s% "x"
        decide
      · intro e he
        obtain rfl := Option.some.inj he
        show ∀ c, some 'x' = some c → isWs c = false
        rintro _ ⟨⟩; decide
  · intro pre s post h hc u hu
    match pre, h with
    | [], h =>
      injection h with h1 h2
      subst h1
      cases hc
    | [_], h =>
      injection h with h1 h2
      injection h2 with h2 h3
      rw [← h3] at hu
      cases hu
    | _ :: _ :: _, h =>
      injection h with h1 h2
      injection h2 with h2 h3
      simp at h3

-- the hypotheses of the round trip are met by a project with code, variables and a custom view
example (ex : PathBuf → Bool) (rnd : ResourceType → Nat → UInt32) : ∃ q raw q' r, (c92_project [] [] [c92_button]).toParsed = .ok q ∧
    q.tryIntoRaw none = .ok raw ∧ Swrs.SketchwareProject.parseFrom ex raw = .ok q' ∧
    SketchwareProject.tryFrom rnd q' =
      .ok { c92_project [] [] [c92_button] with customIcon := none, resources := r, automaticResFileIds := true } := by
  obtain ⟨q, raw, q', r, h1, h2, h3, h4, -⟩ := c92_round_trip ex rnd (c92_project [] [] [c92_button]) (c92_project_survives (.inr rfl)) rfl
    (by simp [c92_project, bareApi]) (by simp [c92_project, bareApi]) (by simp [c92_project, bareApi]) (c92_project_distinct _ _ _)
    ⟨2022, 12, 31, 23, 59, 58⟩ (by decide +kernel) (by show _ = (1672531198 : UInt64).toInt64.toInt; decide +kernel) c92_project_saved
  exact ⟨q, raw, q', r, h1, h2, h3, h4⟩

/-- C92 is false: a project whose first screen has a button and whose custom view has one is saved, and it can not be opened again. -/
theorem c92_saved_false : ∃ (p : SketchwareProject) (q : Swrs.SketchwareProject) (raw : RawSketchwareProject), c92_Distinct p ∧
    p.toParsed = .ok q ∧ q.tryIntoRaw none = .ok raw ∧ ∀ ex q', Swrs.SketchwareProject.parseFrom ex raw ≠ .ok q' := by
  have hd := c92_project_distinct [c92_button] [] [c92_button]
  have hq : ∃ q, (c92_project [c92_button] [] [c92_button]).toParsed = .ok q := ⟨_, rfl⟩
  obtain ⟨q, hq⟩ := hq
  obtain ⟨_, _, _, _, _, _, _, _, _, _, _, _, _, _, _, hres⟩ := toParsed_ok hq
  have hres : q.resourceFiles = none := hres
  obtain ⟨raw, h, -⟩ := c92_saved_partial (fun _ => true) _ q hq hd ⟨2022, 12, 31, 23, 59, 58⟩ (by decide +kernel)
    (by show _ = (1672531198 : UInt64).toInt64.toInt; decide +kernel) (by rw [hres]; nofun) none hres
  refine ⟨_, q, raw, hd, hq, h, fun ex q' => c92_two_layouts ex _ q hq hd.layouts hd.logics ?_ ?_ none raw h q'⟩
  · have hl : layoutsOf (c92_project [c92_button] [] [c92_button]) =
      [(s% "main", [c92_button]), (s% "debug_screen", []), (s% "item", [c92_button])] := rfl
    rw [hl]; simp
  · exact ⟨(s% "main", [c92_button]), by simp [layoutsOf, c92_project, survivingScreen, plainScreen], by simp⟩

-- a project with a screen without code before a screen with code: it can be saved, and its code is lost
example : ∃ (p : SketchwareProject) (q : Swrs.SketchwareProject), p.toParsed = .ok q ∧ p.screens.map (fun s => (codeOfScreen s).length) = [0, 3] ∧
    ∃ l, Logic.parse q.logic.reconstruct = .ok l ∧ ∃ s ∈ p.screens, ∃ e, (codeOfScreen s).getLast? = some e ∧
      ∀ sl, l.screens.get s.javaName = some sl → sl.blockContainers.get e.1 = none := by
  have hd := c92_project_distinct [] [] []
  let p : SketchwareProject := { c92_project [] [] [] with screens := (c92_project [] [] []).screens.reverse }
  have hq : ∃ q, p.toParsed = .ok q := ⟨_, rfl⟩
  obtain ⟨q, hq⟩ := hq
  refine ⟨p, q, hq, rfl, c92_code_lost p q hq ⟨?_, ?_, ?_, ?_⟩ ?_ (pre := []) rfl rfl (List.mem_singleton.mpr rfl) (by nofun)⟩
  · show [s% "debug_screen", s% "main", s% "item"].Nodup
    decide
  · show [s% "DebugScreenActivity", s% "MainActivity"].Nodup
    decide
  · intro s hs; exact hd.maps s (List.mem_reverse.mp hs)
  · intro s hs; exact hd.code s (List.mem_reverse.mp hs)
  · intro s hs
    exact c92_project_saved.screens s (List.mem_reverse.mp hs)
end
end Swrs.Api
