import Verif.Props.OneLine
import Verif.Props.ProjectConv
/-!
# C120: a change of one line changes one screen
-/
set_option linter.unusedSectionVars false
namespace Swrs.Api
variable [MapPol] [Floats]

/-- Specification: two lists of the same length, the same at all places but one. -/
def c120_One {α : Type} (as bs : List α) : Prop := as.length = bs.length ∧ ∃ i : Nat, ∀ j : Nat, j ≠ i → as[j]? = bs[j]?

theorem c120_first {α : Type} (P : α → Prop) : ∀ l : List α, ∃ i : Nat, ∀ (j : Nat) (f : α), l[j]? = some f → j ≠ i → P f → ∃ g ∈ l.take j, P g
  | [] => ⟨0, fun j f h => by simp at h⟩
  | a :: l => by
    by_cases ha : P a
    · refine ⟨0, fun j f _ hj _ => ⟨a, ?_, ha⟩⟩
      cases j with
      | zero => exact absurd rfl hj
      | succ j => simp
    · obtain ⟨i, hi⟩ := c120_first P l
      refine ⟨i + 1, fun j f hf hj hp => ?_⟩
      cases j with
      | zero =>
        simp only [List.getElem?_cons_zero, Option.some.injEq] at hf
        exact absurd (hf ▸ hp) ha
      | succ j =>
        obtain ⟨g, hg, hp⟩ := hi j f (by simpa using hf) (by omega) hp
        exact ⟨g, by simp [hg], hp⟩

theorem c120_list {α β : Type} {fs : List α} {as bs : List β} (ha : as.length = fs.length) (hb : bs.length = fs.length) (i : Nat)
    (h : ∀ (j : Nat) (f : α) (a b : β), j ≠ i → fs[j]? = some f → as[j]? = some a → bs[j]? = some b → a = b) : c120_One as bs := by
  refine ⟨ha.trans hb.symm, i, fun j hj => ?_⟩
  by_cases hl : j < fs.length
  · have e1 := List.getElem?_eq_getElem hl
    have e2 := List.getElem?_eq_getElem (ha ▸ hl : j < as.length)
    have e3 := List.getElem?_eq_getElem (hb ▸ hl : j < bs.length)
    rw [e2, e3, h j _ _ _ hj e1 e2 e3]
  · rw [List.getElem?_eq_none (by omega), List.getElem?_eq_none (by omega)]

theorem c120_same {α β : Type} {fs : List α} {as bs : List β} (ha : as.length = fs.length) (hb : bs.length = fs.length)
    (h : ∀ (j : Nat) (f : α) (a b : β), fs[j]? = some f → as[j]? = some a → bs[j]? = some b → a = b) : as = bs := by
  refine List.ext_getElem? fun j => ?_
  by_cases hl : j < fs.length
  · have e1 := List.getElem?_eq_getElem hl
    have e2 := List.getElem?_eq_getElem (ha ▸ hl : j < as.length)
    have e3 := List.getElem?_eq_getElem (hb ▸ hl : j < bs.length)
    rw [e2, e3, h j _ _ _ e1 e2 e3]
  · rw [List.getElem?_eq_none (by omega), List.getElem?_eq_none (by omega)]

/-! ### What is not made of the changed file -/

/-- What a project is made of, by the parts of the files. -/
theorem c120_rest (rnd : ResourceType → Nat → UInt32) {p q : Swrs.SketchwareProject} {P Q : SketchwareProject}
    (hP : SketchwareProject.tryFrom rnd p = .ok P) (hQ : SketchwareProject.tryFrom rnd q = .ok Q) :
    (p.library = q.library → P.libraries = Q.libraries) ∧ (p.project = q.project → P.metadata = Q.metadata ∧ P.colors = Q.colors) ∧
    (p.resourceFiles = q.resourceFiles → P.customIcon = Q.customIcon ∧ P.automaticResFileIds = Q.automaticResFileIds) ∧
    (p.resourceFiles = q.resourceFiles → p.resource = q.resource → P.resources = Q.resources) ∧
    (p.file = q.file → p.view = q.view → p.logic = q.logic → P.screens = Q.screens ∧ P.customViews = Q.customViews) := by
  obtain ⟨ss, ly, cv, lb, im, so, fo, a1, a2, a3, a4, a5, a6, a7, a8, a9, b1, b2, b3, b4, b5⟩ := tryFrom_ok hP
  obtain ⟨ss', ly', cv', lb', im', so', fo', a1', a2', a3', a4', a5', a6', a7', a8', a9', b1', b2', b3', b4', b5'⟩ := tryFrom_ok hQ
  refine ⟨fun e => ?_, fun e => ⟨?_, ?_⟩, fun e => ⟨?_, ?_⟩, fun e e' => ?_, fun e1 e2 e3 => ?_⟩
  · rw [e] at a3; rw [a9, a9', Out.ok.inj (a3.symm.trans a3')]
  · rw [b4, b4', e]
  · rw [b5, b5', e]
  · rw [b2, b2', e]
  · rw [b3, b3', e]
  · rw [e, e'] at a4 a5 a6
    rw [b1, b1', Out.ok.inj (a4.symm.trans a4'), Out.ok.inj (a5.symm.trans a5'), Out.ok.inj (a6.symm.trans a6')]
  · rw [e1, e2, e3] at a1
    obtain ⟨rfl, rfl⟩ := Prod.mk.inj (Out.ok.inj (a1.symm.trans a1'))
    rw [e1] at a2
    rw [a7, a7', a8, a8', Out.ok.inj (a2.symm.trans a2')]
    exact ⟨rfl, rfl⟩

theorem c120_files {ex : PathBuf → Bool} {raw raw' : RawSketchwareProject} {p q : Swrs.SketchwareProject}
    (hp : Swrs.SketchwareProject.parseFrom ex raw = .ok p) (hq : Swrs.SketchwareProject.parseFrom ex raw' = .ok q)
    (e : raw.resourceFiles = raw'.resourceFiles) : p.resourceFiles = q.resourceFiles := by
  obtain ⟨_, _, _, _, _, _, h⟩ := (c58_parts ex _ _).mp hp
  obtain ⟨_, _, _, _, _, _, h'⟩ := (c58_parts ex _ _).mp hq
  rw [← e] at h'
  cases hw : raw.resourceFiles with
  | none => rw [hw] at h h'; exact h.trans h'.symm
  | some ws =>
    rw [hw] at h h'
    obtain ⟨r, h1, h2⟩ := h
    obtain ⟨r', h1', h2'⟩ := h'
    rw [h2, h2', Out.ok.inj (h1.symm.trans h1')]

theorem c120_ext {P Q : SketchwareProject} (h1 : P.customIcon = Q.customIcon) (h2 : P.metadata = Q.metadata) (h3 : P.colors = Q.colors)
    (h4 : P.screens = Q.screens) (h5 : P.customViews = Q.customViews) (h6 : P.libraries = Q.libraries) (h7 : P.resources = Q.resources)
    (h8 : P.automaticResFileIds = Q.automaticResFileIds) : P = Q := by
  cases P; cases Q; simp only at h1 h2 h3 h4 h5 h6 h7 h8; subst h1 h2 h3 h4 h5 h6 h7 h8; rfl

/-- C120: whatever is changed in the project file, only the settings and colours change. -/
theorem c120_project (ex : PathBuf → Bool) (rnd : ResourceType → Nat → UInt32) {raw : RawSketchwareProject} {project : Str} {p q : Swrs.SketchwareProject}
    {P Q : SketchwareProject} (hp : Swrs.SketchwareProject.parseFrom ex raw = .ok p) (hq : Swrs.SketchwareProject.parseFrom ex { raw with project } = .ok q)
    (hP : SketchwareProject.tryFrom rnd p = .ok P) (hQ : SketchwareProject.tryFrom rnd q = .ok Q) :
    Q = { P with metadata := Q.metadata, colors := Q.colors } := by
  obtain ⟨a1, a2, a3, a4, a5, a6, a7⟩ := (c58_parts ex _ _).mp hp
  obtain ⟨b1, b2, b3, b4, b5, b6, b7⟩ := (c58_parts ex _ _).mp hq
  obtain ⟨r1, r2, r3, r4, r5⟩ := c120_rest rnd hP hQ
  have hf := c120_files hp hq rfl
  have e2 := Out.ok.inj (a2.symm.trans b2)
  have e5 := Out.ok.inj (a5.symm.trans b5)
  have e6 := Out.ok.inj (a6.symm.trans b6)
  exact c120_ext (r3 hf).1.symm rfl rfl (r5 e2 e5 e6).1.symm (r5 e2 e5 e6).2.symm (r1 (Out.ok.inj (a3.symm.trans b3))).symm
    (r4 hf (Out.ok.inj (a4.symm.trans b4))).symm (r3 hf).2.symm

/-- C120: whatever is changed in the file list, only screens and custom views change. -/
theorem c120_file (ex : PathBuf → Bool) (rnd : ResourceType → Nat → UInt32) {raw : RawSketchwareProject} {file : Str} {p q : Swrs.SketchwareProject}
    {P Q : SketchwareProject} (hp : Swrs.SketchwareProject.parseFrom ex raw = .ok p) (hq : Swrs.SketchwareProject.parseFrom ex { raw with file } = .ok q)
    (hP : SketchwareProject.tryFrom rnd p = .ok P) (hQ : SketchwareProject.tryFrom rnd q = .ok Q) :
    Q = { P with screens := Q.screens, customViews := Q.customViews } := by
  obtain ⟨a1, a2, a3, a4, a5, a6, a7⟩ := (c58_parts ex _ _).mp hp
  obtain ⟨b1, b2, b3, b4, b5, b6, b7⟩ := (c58_parts ex _ _).mp hq
  obtain ⟨r1, r2, r3, r4, r5⟩ := c120_rest rnd hP hQ
  have hf := c120_files hp hq rfl
  have e1 := Out.ok.inj (a1.symm.trans b1)
  exact c120_ext (r3 hf).1.symm (r2 e1).1.symm (r2 e1).2.symm rfl rfl (r1 (Out.ok.inj (a3.symm.trans b3))).symm
    (r4 hf (Out.ok.inj (a4.symm.trans b4))).symm (r3 hf).2.symm

/-- C120: whatever is changed in the library file, only the libraries change. -/
theorem c120_library (ex : PathBuf → Bool) (rnd : ResourceType → Nat → UInt32) {raw : RawSketchwareProject} {library : Str} {p q : Swrs.SketchwareProject}
    {P Q : SketchwareProject} (hp : Swrs.SketchwareProject.parseFrom ex raw = .ok p) (hq : Swrs.SketchwareProject.parseFrom ex { raw with library } = .ok q)
    (hP : SketchwareProject.tryFrom rnd p = .ok P) (hQ : SketchwareProject.tryFrom rnd q = .ok Q) :
    Q = { P with libraries := Q.libraries } := by
  obtain ⟨a1, a2, a3, a4, a5, a6, a7⟩ := (c58_parts ex _ _).mp hp
  obtain ⟨b1, b2, b3, b4, b5, b6, b7⟩ := (c58_parts ex _ _).mp hq
  obtain ⟨r1, r2, r3, r4, r5⟩ := c120_rest rnd hP hQ
  have hf := c120_files hp hq rfl
  have e1 := Out.ok.inj (a1.symm.trans b1)
  have e2 := Out.ok.inj (a2.symm.trans b2)
  have e5 := Out.ok.inj (a5.symm.trans b5)
  have e6 := Out.ok.inj (a6.symm.trans b6)
  exact c120_ext (r3 hf).1.symm (r2 e1).1.symm (r2 e1).2.symm (r5 e2 e5 e6).1.symm (r5 e2 e5 e6).2.symm rfl
    (r4 hf (Out.ok.inj (a4.symm.trans b4))).symm (r3 hf).2.symm

/-- C120: whatever is changed in the resource list, only the resources change. -/
theorem c120_resource (ex : PathBuf → Bool) (rnd : ResourceType → Nat → UInt32) {raw : RawSketchwareProject} {resource : Str} {p q : Swrs.SketchwareProject}
    {P Q : SketchwareProject} (hp : Swrs.SketchwareProject.parseFrom ex raw = .ok p) (hq : Swrs.SketchwareProject.parseFrom ex { raw with resource } = .ok q)
    (hP : SketchwareProject.tryFrom rnd p = .ok P) (hQ : SketchwareProject.tryFrom rnd q = .ok Q) :
    Q = { P with resources := Q.resources } := by
  obtain ⟨a1, a2, a3, a4, a5, a6, a7⟩ := (c58_parts ex _ _).mp hp
  obtain ⟨b1, b2, b3, b4, b5, b6, b7⟩ := (c58_parts ex _ _).mp hq
  obtain ⟨r1, r2, r3, r4, r5⟩ := c120_rest rnd hP hQ
  have hf := c120_files hp hq rfl
  have e1 := Out.ok.inj (a1.symm.trans b1)
  have e2 := Out.ok.inj (a2.symm.trans b2)
  have e5 := Out.ok.inj (a5.symm.trans b5)
  have e6 := Out.ok.inj (a6.symm.trans b6)
  exact c120_ext (r3 hf).1.symm (r2 e1).1.symm (r2 e1).2.symm (r5 e2 e5 e6).1.symm (r5 e2 e5 e6).2.symm (r1 (Out.ok.inj (a3.symm.trans b3))).symm
    rfl (r3 hf).2.symm

/-! ### View files -/

theorem c120_screen_ok {ln gn : Str} {f : FileItem} {v : Layout} {a : ScreenLogic} {fab : Option View} {s : Screen}
    (h : Screen.fromParsed ln gn f v a fab = .ok s) : ∃ lay mbs cs comps evs cs', (parseRawLayout v).mapErr ScreenConstructionError.layoutParseError = .ok lay ∧
      moreBlocksOf ((a.moreBlocks.map (·.map)).getD []) a.blockContainers = .ok (mbs, cs) ∧
      componentsOf ((a.components.map (·.items)).getD []) = .ok comps ∧ eventsOf (parserEvents a) cs = .ok (evs, cs') ∧
      s = ⟨ln, gn, lay, (a.variables.map (·.map)).getD [], (a.listVariables.map (·.map)).getD [], LMap.collect mbs, LMap.collect comps, evs, fab,
        f.options.fullscreen, f.options.toolbar, f.options.drawer, f.options.fab, f.orientation, f.theme, f.keyboardSetting⟩ := by
  unfold Screen.fromParsed at h
  simp only [Out.bind_eq_ok] at h
  obtain ⟨lay, h1, ⟨mbs, cs⟩, h2, comps, h3, ⟨evs, cs'⟩, h4, h5⟩ := h
  exact ⟨lay, mbs, cs, comps, evs, cs', h1, h2, h3, h4, (Out.ok.inj h5).symm⟩

/-- Specification: two screens that differ in their views or in their floating button. -/
def c120_Seen (s t : Screen) : Prop := t = { s with layout := t.layout } ∨ t = { s with fab := t.fab }

/-- C120: a change of one line of the view file changes one custom view or one screen, and of the screen only the views or the floating button. -/
theorem c120_view (ex : PathBuf → Bool) (rnd : ResourceType → Nat → UInt32) {raw : RawSketchwareProject} {view : Str} {l l' : Str} {p q : Swrs.SketchwareProject}
    {P Q : SketchwareProject} (hc : c119_Changed raw.view view l l')
    (hp : Swrs.SketchwareProject.parseFrom ex raw = .ok p) (hq : Swrs.SketchwareProject.parseFrom ex { raw with view } = .ok q)
    (hP : SketchwareProject.tryFrom rnd p = .ok P) (hQ : SketchwareProject.tryFrom rnd q = .ok Q) :
    (Q = { P with screens := Q.screens } ∧ c120_One P.screens Q.screens ∧
      ∀ (i : Nat) (s t : Screen), P.screens[i]? = some s → Q.screens[i]? = some t → c120_Seen s t) ∨
      (Q = { P with customViews := Q.customViews } ∧ c120_One P.customViews Q.customViews) := by
  obtain ⟨a1, a2, a3, a4, a5, a6, a7⟩ := (c58_parts ex _ _).mp hp
  obtain ⟨b1, b2, b3, b4, b5, b6, b7⟩ := (c58_parts ex _ _).mp hq
  obtain ⟨r1, r2, r3, r4, r5⟩ := c120_rest rnd hP hQ
  have hf := c120_files hp hq rfl
  have e1 := Out.ok.inj (a1.symm.trans b1)
  have e2 := Out.ok.inj (a2.symm.trans b2)
  have e6 := Out.ok.inj (a6.symm.trans b6)
  have e3 := (r1 (Out.ok.inj (a3.symm.trans b3))).symm
  have e4 := (r4 hf (Out.ok.inj (a4.symm.trans b4))).symm
  have hv : ∃ name, (∀ n, n ≠ name → p.view.layouts.get n = q.view.layouts.get n ∧ p.view.fabs.get n = q.view.fabs.get n) ∧
      ((∀ n, p.view.fabs.get n = q.view.fabs.get n) ∨ ∀ n, p.view.layouts.get n = q.view.layouts.get n) := by
    rcases Swrs.View.c119_view hc a5 b5 with ⟨name, h1, h2⟩ | ⟨name, h1, h2⟩
    · refine ⟨name, fun n hn => ⟨(h1 n).resolve_right fun h => hn h.1, h2 n⟩, .inl h2⟩
    · refine ⟨name, fun n hn => ⟨h1 n, (h2 n).resolve_right fun h => hn h.1⟩, .inr h1⟩
  obtain ⟨name, hv, hv'⟩ := hv
  obtain ⟨⟨s1, s2⟩, ⟨c1, c2⟩, -⟩ := c79_project_value rnd p P hP
  obtain ⟨⟨s1', s2'⟩, ⟨c1', c2'⟩, -⟩ := c79_project_value rnd q Q hQ
  rw [← e2] at s1' s2' c1' c2'
  have hleft : ∀ (before : List FileItem) (n : Str), (n = name → n ∈ before.map (·.filename)) →
      layoutLeft p before n = layoutLeft q before n ∧ fabLeft p before n = fabLeft q before n := by
    intro before n hn
    unfold layoutLeft fabLeft
    by_cases hm : n ∈ before.map (·.filename)
    · simp only [if_pos hm, and_self]
    · have := hv n fun h => hm (hn h)
      simp only [if_neg hm, this, and_self]
  have hscreen : ∀ (j : Nat) (f : FileItem) (a b : Screen), (f.filename = name → f.filename ∈ (p.file.activities.take j).map (·.filename)) →
      p.file.activities[j]? = some f → P.screens[j]? = some a → Q.screens[j]? = some b → a = b := by
    intro j f a b hn hf ha hb
    have h1 := s2 j f a hf ha
    have h2 := s2' j f b hf hb
    obtain ⟨l1, l2⟩ := hleft _ _ hn
    have : screenFor p (p.file.activities.take j) f = screenFor q (p.file.activities.take j) f := by
      unfold screenFor
      rw [l1, l2, show logicLeft p (p.file.activities.take j) (viewNameToLogic f.filename) =
        logicLeft q (p.file.activities.take j) (viewNameToLogic f.filename) by unfold logicLeft; rw [e6]]
    rw [this] at h1
    exact Out.ok.inj (h1.symm.trans h2)
  have hseen : ∀ (j : Nat) (a b : Screen), P.screens[j]? = some a → Q.screens[j]? = some b → c120_Seen a b := by
    intro j a b ha hb
    have hlt : j < p.file.activities.length := s1 ▸ (List.getElem?_eq_some_iff.mp ha).1
    have h1 := s2 j _ a (List.getElem?_eq_getElem hlt) ha
    have h2 := s2' j _ b (List.getElem?_eq_getElem hlt) hb
    generalize p.file.activities[j] = f at h1 h2
    unfold screenFor at h1 h2
    rw [show logicLeft p (p.file.activities.take j) (viewNameToLogic f.filename) =
      logicLeft q (p.file.activities.take j) (viewNameToLogic f.filename) by unfold logicLeft; rw [e6]] at h1
    obtain ⟨lay, mbs, cs, comps, evs, cs', x1, x2, x3, x4, rfl⟩ := c120_screen_ok h1
    obtain ⟨lay', mbs', cs1, comps', evs', cs1', y1, y2, y3, y4, rfl⟩ := c120_screen_ok h2
    obtain ⟨rfl, rfl⟩ := Prod.mk.inj (Out.ok.inj (x2.symm.trans y2))
    obtain rfl := Out.ok.inj (x3.symm.trans y3)
    obtain ⟨rfl, rfl⟩ := Prod.mk.inj (Out.ok.inj (x4.symm.trans y4))
    rcases hv' with hv' | hv'
    · left
      unfold fabLeft
      rw [hv']
    · right
      unfold layoutLeft at x1 y1
      rw [hv'] at x1
      rw [Out.ok.inj (x1.symm.trans y1)]
  have hcustom : ∀ (j : Nat) (f : FileItem) (a b : CustomView),
      (f.filename = name → f.filename ∈ (p.file.activities ++ p.file.customViews.take j).map (·.filename)) →
      p.file.customViews[j]? = some f → P.customViews[j]? = some a → Q.customViews[j]? = some b → a = b := by
    intro j f a b hn hf ha hb
    obtain ⟨h1, l, h2, h3⟩ := c2 j f a hf ha
    obtain ⟨h1', l', h2', h3'⟩ := c2' j f b hf hb
    rw [(hleft _ _ hn).1] at h2
    obtain rfl := Option.some.inj (h2.symm.trans h2')
    obtain ⟨n, v⟩ := a
    obtain ⟨n', v'⟩ := b
    simp only at h1 h1' h3 h3'
    rw [h1, h1', Out.ok.inj (h3.symm.trans h3')]
  by_cases hm : name ∈ p.file.activities.map (·.filename)
  · left
    obtain ⟨i, hi⟩ := c120_first (fun f : FileItem => f.filename = name) p.file.activities
    refine ⟨c120_ext (r3 hf).1.symm (r2 e1).1.symm (r2 e1).2.symm rfl ?_ e3 e4 (r3 hf).2.symm, c120_list s1 s1' i fun j f a b hj => ?_, hseen⟩
    · refine (c120_same c1 c1' fun j f a b hf ha hb => hcustom j f a b (fun hn => ?_) hf ha hb).symm
      rw [List.map_append, hn]
      exact List.mem_append_left _ hm
    · intro hf ha hb
      refine hscreen j f a b (fun hn => ?_) hf ha hb
      obtain ⟨g, hg, hgn⟩ := hi j f hf hj hn
      exact List.mem_map.mpr ⟨g, hg, hgn.trans hn.symm⟩
  · right
    obtain ⟨i, hi⟩ := c120_first (fun f : FileItem => f.filename = name) p.file.customViews
    refine ⟨c120_ext (r3 hf).1.symm (r2 e1).1.symm (r2 e1).2.symm ?_ rfl e3 e4 (r3 hf).2.symm, c120_list c1 c1' i fun j f a b hj => ?_⟩
    · refine (c120_same s1 s1' fun j f a b hf ha hb => hscreen j f a b (fun hn => ?_) hf ha hb).symm
      exact absurd (List.mem_map.mpr ⟨f, List.mem_of_getElem? hf, hn⟩) hm
    · intro hf ha hb
      refine hcustom j f a b (fun hn => ?_) hf ha hb
      obtain ⟨g, hg, hgn⟩ := hi j f hf hj hn
      rw [List.map_append]
      exact List.mem_append_right _ (List.mem_map.mpr ⟨g, hg, hgn.trans hn.symm⟩)

/-! ### Logic files -/

/-- Specification: two screens that differ in one part. -/
def c120_Part (s t : Screen) : Prop := t = { s with «variables» := t.variables } ∨ t = { s with listVariables := t.listVariables } ∨
  t = { s with components := t.components } ∨ t = { s with moreBlocks := t.moreBlocks, events := t.events }

theorem c120_part {ln gn : Str} {f : FileItem} {v : Layout} {a b : ScreenLogic} {fab : Option View} {s t : Screen} (k₀ : Logic.c115_Kind)
    (hn : a.name = b.name) (hk : ∀ k, k ≠ k₀ → Logic.c115_at a k = Logic.c115_at b k)
    (hs : Screen.fromParsed ln gn f v a fab = .ok s) (ht : Screen.fromParsed ln gn f v b fab = .ok t) : c120_Part s t := by
  have inj : ∀ {α : Type} {f : α → Logic.c115_Slot} (_ : ∀ x y, f x = f y → x = y) {x y : Option α}, x.map f = y.map f → x = y := by
    intro α f hf x y hxy
    cases x <;> cases y <;> simp_all
    exact hf _ _ hxy
  have k1 : Logic.c115_Kind.pool (s% "java_var") ≠ k₀ → a.variables = b.variables := fun h => inj (fun x y e => Logic.c115_Slot.vars.inj e) (hk _ h)
  have k2 : Logic.c115_Kind.pool (s% "java_list") ≠ k₀ → a.listVariables = b.listVariables := fun h => inj (fun x y e => Logic.c115_Slot.lists.inj e) (hk _ h)
  have k3 : Logic.c115_Kind.pool (s% "java_components") ≠ k₀ → a.components = b.components := fun h => inj (fun x y e => Logic.c115_Slot.comps.inj e) (hk _ h)
  have k4 : Logic.c115_Kind.pool (s% "java_events") ≠ k₀ → a.events = b.events := fun h => inj (fun x y e => Logic.c115_Slot.events.inj e) (hk _ h)
  have k5 : Logic.c115_Kind.pool (s% "java_func") ≠ k₀ → a.moreBlocks = b.moreBlocks := fun h => inj (fun x y e => Logic.c115_Slot.mbs.inj e) (hk _ h)
  have k6 : (∀ c, Logic.c115_Kind.code c ≠ k₀) → ∀ c, a.blockContainers.get c = b.blockContainers.get c :=
    fun h c => inj (fun x y e => Logic.c115_Slot.code.inj e) (hk _ (h c))
  by_cases h1 : Logic.c115_Kind.pool (s% "java_var") = k₀
  · subst h1
    have := c115_screen ln gn f v (a := b) (b := { a with «variables» := b.variables }) fab
      ⟨hn.symm, rfl, (k2 (by decide)).symm, (k3 (by decide)).symm, (k4 (by decide)).symm, (k5 (by decide)).symm, fun c => (k6 (by simp) c).symm⟩
    rw [this] at ht
    obtain ⟨lay, mbs, cs, comps, evs, cs', a1, a2, a3, a4, rfl⟩ := c120_screen_ok hs
    obtain ⟨lay', mbs', cs1, comps', evs', cs1', b1, b2, b3, b4, rfl⟩ := c120_screen_ok ht
    obtain ⟨rfl, rfl⟩ := Prod.mk.inj (Out.ok.inj (a2.symm.trans b2))
    obtain rfl := Out.ok.inj (a1.symm.trans b1)
    obtain rfl := Out.ok.inj (a3.symm.trans b3)
    obtain ⟨rfl, rfl⟩ := Prod.mk.inj (Out.ok.inj (a4.symm.trans b4))
    exact .inl rfl
  by_cases h2 : Logic.c115_Kind.pool (s% "java_list") = k₀
  · subst h2
    have := c115_screen ln gn f v (a := b) (b := { a with listVariables := b.listVariables }) fab
      ⟨hn.symm, (k1 h1).symm, rfl, (k3 (by decide)).symm, (k4 (by decide)).symm, (k5 (by decide)).symm, fun c => (k6 (by simp) c).symm⟩
    rw [this] at ht
    obtain ⟨lay, mbs, cs, comps, evs, cs', a1, a2, a3, a4, rfl⟩ := c120_screen_ok hs
    obtain ⟨lay', mbs', cs1, comps', evs', cs1', b1, b2, b3, b4, rfl⟩ := c120_screen_ok ht
    obtain ⟨rfl, rfl⟩ := Prod.mk.inj (Out.ok.inj (a2.symm.trans b2))
    obtain rfl := Out.ok.inj (a1.symm.trans b1)
    obtain rfl := Out.ok.inj (a3.symm.trans b3)
    obtain ⟨rfl, rfl⟩ := Prod.mk.inj (Out.ok.inj (a4.symm.trans b4))
    exact .inr (.inl rfl)
  by_cases h3 : Logic.c115_Kind.pool (s% "java_components") = k₀
  · subst h3
    have := c115_screen ln gn f v (a := b) (b := { a with components := b.components }) fab
      ⟨hn.symm, (k1 h1).symm, (k2 h2).symm, rfl, (k4 (by decide)).symm, (k5 (by decide)).symm, fun c => (k6 (by simp) c).symm⟩
    rw [this] at ht
    obtain ⟨lay, mbs, cs, comps, evs, cs', a1, a2, a3, a4, rfl⟩ := c120_screen_ok hs
    obtain ⟨lay', mbs', cs1, comps', evs', cs1', b1, b2, b3, b4, rfl⟩ := c120_screen_ok ht
    obtain ⟨rfl, rfl⟩ := Prod.mk.inj (Out.ok.inj (a2.symm.trans b2))
    obtain rfl := Out.ok.inj (a1.symm.trans b1)
    obtain ⟨rfl, rfl⟩ := Prod.mk.inj (Out.ok.inj (a4.symm.trans b4))
    exact .inr (.inr (.inl rfl))
  obtain ⟨lay, mbs, cs, comps, evs, cs', a1, a2, a3, a4, rfl⟩ := c120_screen_ok hs
  obtain ⟨lay', mbs', cs1, comps', evs', cs1', b1, b2, b3, b4, rfl⟩ := c120_screen_ok ht
  obtain rfl := Out.ok.inj (a1.symm.trans b1)
  rw [k3 h3] at a3
  obtain rfl := Out.ok.inj (a3.symm.trans b3)
  rw [k1 h1, k2 h2]
  exact .inr (.inr (.inr rfl))

/-- C120: a change of one line of the logic file changes one part of one screen: its variables, its list variables, its components, or its more blocks and
events. -/
theorem c120_logic (ex : PathBuf → Bool) (rnd : ResourceType → Nat → UInt32) {raw : RawSketchwareProject} {logic : Str} {l l' : Str} {p q : Swrs.SketchwareProject}
    {P Q : SketchwareProject} (hc : c119_Changed raw.logic logic l l')
    (hp : Swrs.SketchwareProject.parseFrom ex raw = .ok p) (hq : Swrs.SketchwareProject.parseFrom ex { raw with logic } = .ok q)
    (hP : SketchwareProject.tryFrom rnd p = .ok P) (hQ : SketchwareProject.tryFrom rnd q = .ok Q) :
    Q = { P with screens := Q.screens } ∧ c120_One P.screens Q.screens ∧
      ∀ (i : Nat) (s t : Screen), P.screens[i]? = some s → Q.screens[i]? = some t → c120_Part s t := by
  obtain ⟨a1, a2, a3, a4, a5, a6, a7⟩ := (c58_parts ex _ _).mp hp
  obtain ⟨b1, b2, b3, b4, b5, b6, b7⟩ := (c58_parts ex _ _).mp hq
  obtain ⟨r1, r2, r3, r4, r5⟩ := c120_rest rnd hP hQ
  have hf := c120_files hp hq rfl
  have e1 := Out.ok.inj (a1.symm.trans b1)
  have e2 := Out.ok.inj (a2.symm.trans b2)
  have e5 := Out.ok.inj (a5.symm.trans b5)
  have e3 := (r1 (Out.ok.inj (a3.symm.trans b3))).symm
  have e4 := (r4 hf (Out.ok.inj (a4.symm.trans b4))).symm
  obtain ⟨name, kind, hl⟩ := Logic.c119_logic hc a6 b6
  obtain ⟨⟨s1, s2⟩, ⟨c1, c2⟩, -⟩ := c79_project_value rnd p P hP
  obtain ⟨⟨s1', s2'⟩, ⟨c1', c2'⟩, -⟩ := c79_project_value rnd q Q hQ
  rw [← e2] at s1' s2' c1' c2'
  have hview : ∀ before n, layoutLeft p before n = layoutLeft q before n ∧ fabLeft p before n = fabLeft q before n := by
    intro before n
    unfold layoutLeft fabLeft
    rw [e5]
    exact ⟨rfl, rfl⟩
  have hcv : P.customViews = Q.customViews := by
    refine c120_same c1 c1' fun j f a b hf ha hb => ?_
    obtain ⟨h1, l, h2, h3⟩ := c2 j f a hf ha
    obtain ⟨h1', l', h2', h3'⟩ := c2' j f b hf hb
    rw [(hview _ _).1] at h2
    obtain rfl := Option.some.inj (h2.symm.trans h2')
    obtain ⟨n, v⟩ := a
    obtain ⟨n', v'⟩ := b
    simp only at h1 h1' h3 h3'
    rw [h1, h1', Out.ok.inj (h3.symm.trans h3')]
  have hlog : ∀ (before : List FileItem) (n d : Str), ∃ a b, (logicLeft p before n).getD ⟨d, [], none, none, none, none, none⟩ = a ∧
      (logicLeft q before n).getD ⟨d, [], none, none, none, none, none⟩ = b ∧ a.name = b.name ∧
      ∀ k, Logic.c115_at a k = Logic.c115_at b k ∨ (k = kind ∧ n = name ∧ n ∉ before.map fun f => viewNameToLogic f.filename) := by
    intro before n d
    refine ⟨_, _, rfl, rfl, ?_⟩
    unfold logicLeft
    by_cases hm : n ∈ before.map fun f => viewNameToLogic f.filename
    · rw [if_pos hm, if_pos hm]
      exact ⟨rfl, fun _ => .inl rfl⟩
    · rw [if_neg hm, if_neg hm]
      have := hl n
      split at this
      · rename_i x y; rw [x, y]; exact ⟨rfl, fun _ => .inl rfl⟩
      · rename_i x y; rw [x, y]
        refine ⟨this.1, fun k => ?_⟩
        rcases this.2 k with h | ⟨h1, h2, _⟩
        · exact .inl h
        · exact .inr ⟨h2, h1, hm⟩
      · exact this.elim
  have hscreen : ∀ (j : Nat) (f : FileItem) (s t : Screen), p.file.activities[j]? = some f → P.screens[j]? = some s → Q.screens[j]? = some t →
      c120_Part s t ∧ ((viewNameToLogic f.filename = name → viewNameToLogic f.filename ∈ (p.file.activities.take j).map fun f => viewNameToLogic f.filename) →
        s = t) := by
    intro j f s t hf hs ht
    have h1 := s2 j f s hf hs
    have h2 := s2' j f t hf ht
    unfold screenFor at h1 h2
    obtain ⟨a, b, ea, eb, hn, hk⟩ := hlog (p.file.activities.take j) (viewNameToLogic f.filename) f.filename
    simp only [ea, (hview _ _).1, (hview _ _).2] at h1
    simp only [eb, ← hn] at h2
    refine ⟨c120_part kind hn (fun k hk' => (hk k).resolve_right fun h => hk' h.1) h1 h2, fun hm => ?_⟩
    have : Logic.c115_Screens a b := Logic.c115_screens_of_at hn fun k => (hk k).resolve_right fun h => h.2.2 (hm h.2.1)
    rw [c115_screen _ _ _ _ _ this] at h1
    exact Out.ok.inj (h1.symm.trans h2)
  obtain ⟨i, hi⟩ := c120_first (fun f : FileItem => viewNameToLogic f.filename = name) p.file.activities
  refine ⟨c120_ext (r3 hf).1.symm (r2 e1).1.symm (r2 e1).2.symm rfl hcv.symm e3 e4 (r3 hf).2.symm, c120_list s1 s1' i fun j f a b hj => ?_,
    fun j s t hs ht => ?_⟩
  · intro hf ha hb
    refine (hscreen j f a b hf ha hb).2 fun hn => ?_
    obtain ⟨g, hg, hgn⟩ := hi j f hf hj hn
    exact List.mem_map.mpr ⟨g, hg, hgn.trans hn.symm⟩
  · have hlt : j < p.file.activities.length := s1 ▸ (List.getElem?_eq_some_iff.mp hs).1
    exact (hscreen j _ s t (List.getElem?_eq_getElem hlt) hs ht).1

end Swrs.Api

/-! ### Examples -/

namespace Swrs.Api

/-- A project with one activity. -/
def c120_raw (view logic : Str) : RawSketchwareProject :=
  ⟨c114_projectText, c114_fileText, Library.reconstruct ⟨sampleLib [], sampleLib [], sampleLib [], sampleLib []⟩, [], view, logic, none⟩

/-- What is read of it. -/
def c120_read [Floats] (view : Swrs.View) (logic : Logic) : Swrs.SketchwareProject :=
  ⟨⟨601, s% "A", s% "W", s% "a.b", 1, s% "1.0", 1641092645, false, .default, 150⟩,
    ⟨[⟨s% "main", .activity, .unspecified, ⟨false, false, false, false⟩, .portrait, .none⟩], []⟩,
    ⟨sampleLib [], sampleLib [], sampleLib [], sampleLib []⟩, ⟨[], [], []⟩, view, logic, none⟩

theorem c120_parsed [MapPol] (ex : PathBuf → Bool) {v g : Str} {view : @Swrs.View toyFloats.toFloats} {logic : Logic}
    (hv : @Swrs.View.parse toyFloats.toFloats _ v = .ok view) (hg : @Logic.parse toyFloats.toFloats _ g = .ok logic) :
    @Swrs.SketchwareProject.parseFrom _ toyFloats.toFloats ex (c120_raw v g) = .ok (@c120_read toyFloats.toFloats view logic) := by
  let _ : Floats := toyFloats.toFloats
  have hf : File.parse c114_fileText = .ok ⟨[⟨s% "main", .activity, .unspecified, ⟨false, false, false, false⟩, .portrait, .none⟩], []⟩ := by
    decide +kernel
  have hr : Resource.parse [] = .ok ⟨[], [], []⟩ := by decide +kernel
  simp only [Swrs.SketchwareProject.parseFrom, c120_raw, c114_projectText_read, hf, hr, c19_library_round_trip, hv, hg, Out.mapErr_ok, Out.ok_bind]
  rfl

/-- `c120_logic`: a variable is changed. -/
example [MapPol] (ex : PathBuf → Bool) (rnd : ResourceType → Nat → UInt32) : let _ : Floats := toyFloats.toFloats
    ∃ (raw : RawSketchwareProject) (logic l l' : Str) (p q : Swrs.SketchwareProject) (P Q : SketchwareProject), c119_Changed raw.logic logic l l' ∧
    Swrs.SketchwareProject.parseFrom ex raw = .ok p ∧ Swrs.SketchwareProject.parseFrom ex { raw with logic } = .ok q ∧
    SketchwareProject.tryFrom rnd p = .ok P ∧ SketchwareProject.tryFrom rnd q = .ok Q ∧ P.screens.length = 1 ∧ P.screens ≠ Q.screens := by
  let _ : Floats := toyFloats.toFloats
  have h1 : Swrs.SketchwareProject.parseFrom ex (c120_raw [] (s% "@MainActivity.java_var\n1:x")) =
    .ok (c120_read ⟨[], []⟩ ⟨[(s% "MainActivity", { ScreenLogic.newEmpty (s% "MainActivity") with «variables» := some ⟨[(s% "x", ⟨s% "x", .integer⟩)]⟩ })]⟩) :=
    c120_parsed ex rfl rfl
  have h2 : Swrs.SketchwareProject.parseFrom ex (c120_raw [] (s% "@MainActivity.java_var\n0:y")) =
    .ok (c120_read ⟨[], []⟩ ⟨[(s% "MainActivity", { ScreenLogic.newEmpty (s% "MainActivity") with «variables» := some ⟨[(s% "y", ⟨s% "y", .boolean⟩)]⟩ })]⟩) :=
    c120_parsed ex rfl rfl
  refine ⟨_, s% "@MainActivity.java_var\n0:y", s% "1:x", s% "0:y", _, _, _, _, ⟨[s% "@MainActivity.java_var"], [], by decide +kernel⟩, h1, h2, rfl, rfl, rfl, fun e => ?_⟩
  have : [[(s% "x", (⟨s% "x", .integer⟩ : Variable))]] = [[(s% "y", ⟨s% "y", .boolean⟩)]] := congrArg (List.map fun t : Screen => t.variables) e
  simp at this

/-- `c120_view`: a floating button is changed. -/
example [MapPol] (ex : PathBuf → Bool) (rnd : ResourceType → Nat → UInt32) : let _ : Floats := toyFloats.toFloats
    ∀ (x y : AndroidView) (l l' : Str), AndroidView.parse l = some x → AndroidView.parse l' = some y → '\n' ∉ l → '\n' ∉ l' → View.ofRaw x ≠ View.ofRaw y →
    ∃ (raw : RawSketchwareProject) (view : Str) (p q : Swrs.SketchwareProject) (P Q : SketchwareProject), c119_Changed raw.view view l l' ∧
    Swrs.SketchwareProject.parseFrom ex raw = .ok p ∧ Swrs.SketchwareProject.parseFrom ex { raw with view } = .ok q ∧
    SketchwareProject.tryFrom rnd p = .ok P ∧ SketchwareProject.tryFrom rnd q = .ok Q ∧ P.screens.length = 1 ∧ P.screens ≠ Q.screens := by
  intro _ x y l l' hx hy hn hn' hxy
  have key : ∀ {l : Str} {x : AndroidView}, AndroidView.parse l = some x → '\n' ∉ l → lines (s% "@main.xml_fab\n" ++ l) = [s% "@main.xml_fab", l] ∧
      Swrs.View.parse (s% "@main.xml_fab\n" ++ l) = .ok ⟨[], [(s% "main", x)]⟩ := by
    intro l x hx hn
    have h1 : lines (s% "@main.xml_fab\n" ++ l) = [s% "@main.xml_fab", l] := by
      show splitOn _ _ = _
      rw [show s% "@main.xml_fab\n" ++ l = s% "@main.xml_fab" ++ '\n' :: l from rfl, splitOn_append_sep (by decide), splitOn_of_not_mem hn]
    have h2 : Section.WF (.fab (s% "main") l x) := ⟨by decide, hx⟩
    refine ⟨h1, Swrs.View.c115_made_parse (ss := [.fab (s% "main") l x]) ⟨by simp [h2], .inl ⟨[], h1, by simp⟩⟩⟩
  have k1 := key hx hn
  have k2 := key hy hn'
  have a1 := c116_noHeader (r := []) c116_androidView hx
  have a2 := c116_noHeader (r := []) c116_androidView hy
  rw [List.append_nil] at a1 a2
  have h1 : Swrs.SketchwareProject.parseFrom ex (c120_raw (s% "@main.xml_fab\n" ++ l) []) = .ok (c120_read ⟨[], [(s% "main", x)]⟩ ⟨[]⟩) := c120_parsed ex k1.2 rfl
  have h2 : Swrs.SketchwareProject.parseFrom ex (c120_raw (s% "@main.xml_fab\n" ++ l') []) = .ok (c120_read ⟨[], [(s% "main", y)]⟩ ⟨[]⟩) := c120_parsed ex k2.2 rfl
  refine ⟨_, s% "@main.xml_fab\n" ++ l', _, _, _, _, ⟨[s% "@main.xml_fab"], [], k1.1, k2.1, a1.1, a2.1, a1.2, a2.2⟩, h1, h2, rfl, rfl, rfl, fun e => hxy ?_⟩
  have : [some (View.ofRaw x)] = [some (View.ofRaw y)] := congrArg (List.map fun t : Screen => t.fab) e
  exact Option.some.inj (List.cons.inj this).1

end Swrs.Api
