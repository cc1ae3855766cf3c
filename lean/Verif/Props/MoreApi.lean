import Verif.Props.OneMore
import Verif.Props.OneScreen
/-!
# C123: one line more, in the project
-/
set_option linter.unusedSectionVars false
namespace Swrs.Api
variable [MapPol] [Floats]

/-! ### One file more -/

/-- Specification: the screen of an activity for which the other files hold nothing. -/
def c123_blank (x : FileItem) : Screen :=
  ⟨x.filename, x.filename, [], [], [], [], [], [], none, x.options.fullscreen, x.options.toolbar, x.options.drawer, x.options.fab, x.orientation, x.theme,
    x.keyboardSetting⟩

theorem c123_erase_none {κ α : Type} [DecidableEq κ] {m : LMap κ α} {k : κ} (h : m.get k = none) : m.erase k = m := by
  induction m with
  | nil => rfl
  | cons e m ih =>
    obtain ⟨k', v⟩ := e
    rw [LMap.get] at h
    by_cases hk : k' = k
    · rw [if_pos hk] at h; cases h
    · rw [if_neg hk] at h
      unfold LMap.erase at ih ⊢
      rw [List.filter_cons, ih h]
      simp [hk]

omit [MapPol] [Floats] in
theorem c123_erase_get {κ α : Type} [DecidableEq κ] {m : LMap κ α} {k : κ} (k' : κ) (h : m.get k = none) : (m.erase k').get k = none := by
  rw [LMap.get_erase, h]; split <;> rfl

theorem c123_conv_blank {x : FileItem} {v : List FileItem} : ∀ (u : List FileItem) {ls : LMap Str Layout} {lg : LMap Str ScreenLogic} {fb : LMap Str AndroidView}
    {ss : List Screen} {ly : LMap Str Layout}, ls.get x.filename = none → lg.get (viewNameToLogic x.filename) = none → fb.get x.filename = none →
    activitiesConv (u ++ v) ls lg fb = .ok (ss, ly) →
    ∃ A B, ss = A ++ B ∧ A.length = u.length ∧ activitiesConv (u ++ x :: v) ls lg fb = .ok (A ++ c123_blank x :: B, ly)
  | [], ls, lg, fb, ss, ly, h1, h2, h3, h => by
    refine ⟨[], ss, rfl, rfl, ?_⟩
    rw [List.nil_append] at h
    rw [List.nil_append, activitiesConv]
    simp only [h1, h2, h3, c123_erase_none h1, c123_erase_none h2, c123_erase_none h3, h, Option.getD_none, Option.map_none]
    rfl
  | f :: u, ls, lg, fb, ss, ly, h1, h2, h3, h => by
    rw [List.cons_append, activitiesConv] at h
    simp only [Out.bind_eq_ok, Out.mapErr_eq_ok, Out.pure_eq, Out.ok.injEq, Prod.mk.injEq, Prod.exists] at h
    obtain ⟨s, hs, ss', ly', h, rfl, rfl⟩ := h
    obtain ⟨A, B, rfl, hA, hB⟩ := c123_conv_blank u (c123_erase_get _ h1) (c123_erase_get _ h2) (c123_erase_get _ h3) h
    refine ⟨s :: A, B, rfl, by simp [hA], ?_⟩
    rw [List.cons_append, activitiesConv]
    simp only [hs, hB, Out.mapErr_ok, Out.ok_bind]
    rfl

theorem c123_custom {x : FileItem} {v : List FileItem} {lay : Layout} {t : List View} (ht : parseRawLayout lay = .ok t) :
    ∀ (u : List FileItem) {ls : LMap Str Layout} {cs : List CustomView}, ls.get x.filename = some lay → (∀ f ∈ u ++ v, f.filename ≠ x.filename) →
    customViewsConv (u ++ v) ls = .ok cs →
    ∃ A B, cs = A ++ B ∧ A.length = u.length ∧ customViewsConv (u ++ x :: v) ls = .ok (A ++ ⟨x.filename, t⟩ :: B)
  | [], ls, cs, h1, hn, h => by
    have key : ∀ (v : List FileItem) (ls : LMap Str Layout), (∀ f ∈ v, f.filename ≠ x.filename) → customViewsConv v (ls.erase x.filename) = customViewsConv v ls := by
      intro v
      induction v with
      | nil => intros; rfl
      | cons f v ih =>
        intro ls hf
        rw [customViewsConv, customViewsConv, LMap.get_erase, if_neg (hf f (by simp))]
        have : (ls.erase x.filename).erase f.filename = (ls.erase f.filename).erase x.filename := erase_comm _ _ _
        rw [this, ih _ fun g hg => hf g (by simp [hg])]
    refine ⟨[], cs, rfl, rfl, ?_⟩
    rw [List.nil_append] at h hn
    rw [List.nil_append, customViewsConv, key v ls hn, h1]
    simp only [Out.ofOption_some, Out.ok_bind, ht, Out.mapErr_ok, h]
    rfl
  | f :: u, ls, cs, h1, hn, h => by
    rw [List.cons_append, customViewsConv] at h
    simp only [Out.bind_eq_ok, Out.mapErr_eq_ok, Out.ofOption_eq_ok, Out.pure_eq, Out.ok.injEq] at h
    obtain ⟨l, hl, lt, hlt, cs', h, rfl⟩ := h
    have hf : f.filename ≠ x.filename := hn f (by simp)
    obtain ⟨A, B, rfl, hA, hB⟩ := c123_custom ht u (ls := ls.erase f.filename) (by rw [LMap.get_erase, if_neg (Ne.symm hf), h1])
      (fun g hg => hn g (by simp only [List.cons_append, List.mem_cons]; exact .inr hg)) h
    refine ⟨_ :: A, B, rfl, by simp [hA], ?_⟩
    rw [List.cons_append, customViewsConv, hl]
    simp only [Out.ofOption_some, Out.ok_bind, hlt, Out.mapErr_ok, hB]
    rfl

theorem c123_custom_only {x : FileItem} {v : List FileItem} : ∀ (u : List FileItem) {ls : LMap Str Layout} {cs : List CustomView},
    customViewsConv (u ++ x :: v) ls = .ok cs → (∃ lay t, ls.get x.filename = some lay ∧ parseRawLayout lay = .ok t) ∧ ∀ f ∈ u ++ v, f.filename ≠ x.filename
  | [], ls, cs, h => by
    rw [List.nil_append, customViewsConv] at h
    simp only [Out.bind_eq_ok, Out.mapErr_eq_ok, Out.ofOption_eq_ok, Out.pure_eq, Out.ok.injEq] at h
    obtain ⟨l, hl, lt, hlt, cs', h, rfl⟩ := h
    refine ⟨⟨l, lt, hl, hlt⟩, ?_⟩
    have key : ∀ (v : List FileItem) (ls : LMap Str Layout) (cs : List CustomView), ls.get x.filename = none → customViewsConv v ls = .ok cs →
        ∀ f ∈ v, f.filename ≠ x.filename := by
      intro v
      induction v with
      | nil => intro _ _ _ _ f hf; cases hf
      | cons g v ih =>
        intro ls cs hg h f hf
        rw [customViewsConv] at h
        simp only [Out.bind_eq_ok, Out.mapErr_eq_ok, Out.ofOption_eq_ok, Out.pure_eq, Out.ok.injEq] at h
        obtain ⟨l, hl, lt, hlt, cs', h, rfl⟩ := h
        rcases List.mem_cons.mp hf with rfl | hf
        · intro e; rw [e, hg] at hl; cases hl
        · exact ih _ _ (c123_erase_get _ hg) h f hf
    exact key v _ _ (by rw [LMap.get_erase, if_pos rfl]) h
  | f :: u, ls, cs, h => by
    rw [List.cons_append, customViewsConv] at h
    simp only [Out.bind_eq_ok, Out.mapErr_eq_ok, Out.ofOption_eq_ok, Out.pure_eq, Out.ok.injEq] at h
    obtain ⟨l, hl, lt, hlt, cs', h, rfl⟩ := h
    obtain ⟨⟨lay, t, g1, g2⟩, g3⟩ := c123_custom_only u h
    rw [LMap.get_erase] at g1
    by_cases hf : x.filename = f.filename
    · rw [if_pos hf] at g1; cases g1
    · rw [if_neg hf] at g1
      refine ⟨⟨lay, t, g1, g2⟩, fun g hg => ?_⟩
      rw [List.cons_append] at hg
      rcases List.mem_cons.mp hg with rfl | hg
      · exact Ne.symm hf
      · exact g3 g hg

theorem c123_activities_left {items : List FileItem} : ∀ {ls : LMap Str Layout} {lg : LMap Str ScreenLogic} {fb : LMap Str AndroidView} {ss : List Screen}
    {ly : LMap Str Layout}, activitiesConv items ls lg fb = .ok (ss, ly) → ∀ n, ly.get n = if n ∈ items.map (·.filename) then none else ls.get n := by
  induction items with
  | nil => intro ls lg fb ss ly h n; obtain ⟨-, rfl⟩ := Prod.mk.inj (Out.ok.inj h); simp
  | cons f items ih =>
    intro ls lg fb ss ly h n
    rw [activitiesConv] at h
    simp only [Out.bind_eq_ok, Out.mapErr_eq_ok, Out.pure_eq, Out.ok.injEq, Prod.mk.injEq, Prod.exists] at h
    obtain ⟨s, hs, ss', ly', h, rfl, rfl⟩ := h
    rw [ih h n, LMap.get_erase]
    by_cases h1 : n = f.filename <;> by_cases h2 : n ∈ items.map (·.filename) <;> simp_all

/-- `tryFrom` put together again. -/
theorem c123_tryFrom {rnd : ResourceType → Nat → UInt32} {p q : Swrs.SketchwareProject} {P : SketchwareProject} {ss : List Screen} {ly : LMap Str Layout}
    {cs : List CustomView} (h : SketchwareProject.tryFrom rnd p = .ok P) (h1 : activitiesConv q.file.activities q.view.layouts q.logic.screens q.view.fabs = .ok (ss, ly))
    (h2 : customViewsConv q.file.customViews ly = .ok cs) (e1 : q.project = p.project) (e2 : q.library = p.library) (e3 : q.resource = p.resource)
    (e4 : q.resourceFiles = p.resourceFiles) : SketchwareProject.tryFrom rnd q = .ok { P with screens := ss, customViews := cs } := by
  unfold SketchwareProject.tryFrom at h ⊢
  simp only [Out.bind_eq_ok, Prod.exists] at h
  obtain ⟨ss', ly', a1, cs', a2, lb, a3, im, a4, so, a5, fo, a6, a7⟩ := h
  obtain rfl := Out.ok.inj a7
  rw [h1]
  simp only [Out.ok_bind, h2, e1, e2, e3, e4, a3, a4, a5, a6]
  rfl

theorem c123_opened {ex : PathBuf → Bool} {raw : RawSketchwareProject} {p : Swrs.SketchwareProject} (hp : Swrs.SketchwareProject.parseFrom ex raw = .ok p)
    {file : Str} {f : File} (hf : File.parse file = .ok f) : Swrs.SketchwareProject.parseFrom ex { raw with file } = .ok { p with file := f } := by
  obtain ⟨a1, a2, a3, a4, a5, a6, a7⟩ := (c58_parts ex _ _).mp hp
  exact (c58_parts ex _ _).mpr ⟨a1, hf, a3, a4, a5, a6, a7⟩

/-- C123: a line for an activity is added to the file list, for which the other files hold nothing. The project is still opened, and has one blank screen
more, after the screens of the activities before. -/
theorem c123_activity (ex : PathBuf → Bool) (rnd : ResourceType → Nat → UInt32) {raw : RawSketchwareProject} {p : Swrs.SketchwareProject} {P : SketchwareProject}
    (hp : Swrs.SketchwareProject.parseFrom ex raw = .ok p) (hP : SketchwareProject.tryFrom rnd p = .ok P) {file a l : Str} {post : List Str} {x : FileItem}
    (hs : lines raw.file = lines a ++ post) (hs' : lines file = lines a ++ l :: post)
    (hu : c122_Under [s% "@activity", s% "@customview"] (s% "@activity") (lines a)) (hx : FileItem.parse l = some x)
    (h1 : p.view.layouts.get x.filename = none) (h2 : p.view.fabs.get x.filename = none) (h3 : p.logic.screens.get (viewNameToLogic x.filename) = none) :
    ∃ f₀ q A B, File.parse a = .ok f₀ ∧ Swrs.SketchwareProject.parseFrom ex { raw with file } = .ok q ∧ P.screens = A ++ B ∧
      A.length = f₀.activities.length ∧ SketchwareProject.tryFrom rnd q = .ok { P with screens := A ++ c123_blank x :: B } := by
  obtain ⟨hl, hh⟩ := c116_noHeader (r := []) c116_fileItem hx
  rw [List.append_nil] at hh
  have hpf := ((c58_parts ex _ _).mp hp).2.1
  obtain ⟨f₀, q, g1, g2, g3, -⟩ := (c122_file hs hs' hl hh hpf).1 hu
  have hq := c123_opened hp (g3 x hx)
  obtain ⟨ss, ly, cv, lb, im, so, fo, a1, a2, a3, a4, a5, a6, a7, a8, -⟩ := tryFrom_ok hP
  rw [g2] at a1
  obtain ⟨A, B, rfl, hA, hB⟩ := c123_conv_blank f₀.activities h1 h3 h2 a1
  refine ⟨f₀, _, A, B, g1, hq, a7, hA, ?_⟩
  have := c123_tryFrom (q := { p with file := { p.file with activities := f₀.activities ++ x :: q } }) hP hB a2 rfl rfl rfl rfl
  rw [this, ← a8]

/-- C123: a line for a custom view is added to the file list. The project is still opened; it can be converted exactly if the view file holds a layout of
this name that is a tree and that no other file entry has taken or takes; then it has this custom view more. -/
theorem c123_customView (ex : PathBuf → Bool) (rnd : ResourceType → Nat → UInt32) {raw : RawSketchwareProject} {p : Swrs.SketchwareProject} {P : SketchwareProject}
    (hp : Swrs.SketchwareProject.parseFrom ex raw = .ok p) (hP : SketchwareProject.tryFrom rnd p = .ok P) {file a l : Str} {post : List Str} {x : FileItem}
    (hs : lines raw.file = lines a ++ post) (hs' : lines file = lines a ++ l :: post)
    (hu : c122_Under [s% "@activity", s% "@customview"] (s% "@customview") (lines a)) (hx : FileItem.parse l = some x) :
    ∃ f₀ q, File.parse a = .ok f₀ ∧ Swrs.SketchwareProject.parseFrom ex { raw with file } = .ok q ∧
      ((∃ Q, SketchwareProject.tryFrom rnd q = .ok Q) ↔ (∃ lay t, p.view.layouts.get x.filename = some lay ∧ parseRawLayout lay = .ok t) ∧
        ∀ f ∈ p.file.activities ++ p.file.customViews, f.filename ≠ x.filename) ∧
      ∀ Q, SketchwareProject.tryFrom rnd q = .ok Q → ∃ A t B lay, p.view.layouts.get x.filename = some lay ∧ parseRawLayout lay = .ok t ∧
        P.customViews = A ++ B ∧ A.length = f₀.customViews.length ∧ Q = { P with customViews := A ++ ⟨x.filename, t⟩ :: B } := by
  obtain ⟨hl, hh⟩ := c116_noHeader (r := []) c116_fileItem hx
  rw [List.append_nil] at hh
  have hpf := ((c58_parts ex _ _).mp hp).2.1
  obtain ⟨f₀, q, g1, g2, g3, -⟩ := (c122_file hs hs' hl hh hpf).2.1 hu
  have hq := c123_opened hp (g3 x hx)
  obtain ⟨ss, ly, cv, lb, im, so, fo, a1, a2, a3, a4, a5, a6, a7, a8, -⟩ := tryFrom_ok hP
  have hleft := c123_activities_left a1
  rw [g2] at a2
  have only : ∀ Q, SketchwareProject.tryFrom rnd { p with file := { p.file with customViews := f₀.customViews ++ x :: q } } = .ok Q →
      (∃ lay t, p.view.layouts.get x.filename = some lay ∧ parseRawLayout lay = .ok t) ∧
        ∀ f ∈ p.file.activities ++ p.file.customViews, f.filename ≠ x.filename := by
    intro Q hQ
    obtain ⟨ss', ly', cv', lb', im', so', fo', b1, b2, -⟩ := tryFrom_ok hQ
    obtain ⟨rfl, rfl⟩ := Prod.mk.inj (Out.ok.inj (a1.symm.trans b1))
    obtain ⟨⟨lay, t, k1, k2⟩, k3⟩ := c123_custom_only f₀.customViews b2
    rw [hleft] at k1
    by_cases hm : x.filename ∈ p.file.activities.map (·.filename)
    · rw [if_pos hm] at k1; cases k1
    · rw [if_neg hm] at k1
      refine ⟨⟨lay, t, k1, k2⟩, fun f hf => ?_⟩
      rcases List.mem_append.mp hf with hf | hf
      · exact fun e => hm (List.mem_map.mpr ⟨f, hf, e⟩)
      · rw [g2] at hf; exact k3 f hf
  have made : ∀ lay t, p.view.layouts.get x.filename = some lay → parseRawLayout lay = .ok t →
      (∀ f ∈ p.file.activities ++ p.file.customViews, f.filename ≠ x.filename) → ∃ A B, P.customViews = A ++ B ∧ A.length = f₀.customViews.length ∧
      SketchwareProject.tryFrom rnd { p with file := { p.file with customViews := f₀.customViews ++ x :: q } } =
        .ok { P with customViews := A ++ ⟨x.filename, t⟩ :: B } := by
    intro lay t k1 k2 k3
    have hm : x.filename ∉ p.file.activities.map (·.filename) := by
      intro hm
      obtain ⟨f, hf, e⟩ := List.mem_map.mp hm
      exact k3 f (List.mem_append_left _ hf) e
    obtain ⟨A, B, rfl, hA, hB⟩ := c123_custom k2 f₀.customViews (by rw [hleft, if_neg hm, k1])
      (fun f hf => k3 f (List.mem_append_right _ (by rw [g2]; exact hf))) a2
    refine ⟨A, B, a8, hA, ?_⟩
    have := c123_tryFrom (q := { p with file := { p.file with customViews := f₀.customViews ++ x :: q } }) hP a1 hB rfl rfl rfl rfl
    rw [this, ← a7]
  refine ⟨f₀, _, g1, hq, ⟨fun ⟨Q, hQ⟩ => only Q hQ, fun ⟨⟨lay, t, k1, k2⟩, k3⟩ => ?_⟩, fun Q hQ => ?_⟩
  · obtain ⟨A, B, -, -, h⟩ := made lay t k1 k2 k3
    exact ⟨_, h⟩
  · obtain ⟨⟨lay, t, k1, k2⟩, k3⟩ := only Q hQ
    obtain ⟨A, B, m1, m2, m3⟩ := made lay t k1 k2 k3
    exact ⟨A, t, B, lay, k1, k2, m1, m2, (Out.ok.inj (hQ.symm.trans m3))⟩

/-! ### One record more in the logic -/

/-- Two maps of logics that hold the same but for one screen. -/
def c123_Near (D : ScreenLogic → ScreenLogic → Prop) (n : Str) (lg lg' : LMap Str ScreenLogic) : Prop := ∀ m, match lg.get m, lg'.get m with
  | none, none => True
  | some a, some b => a.name = b.name ∧ (Logic.c115_Screens a b ∨ m = n ∧ D a b)
  | _, _ => False

theorem c123_near_erase {D : ScreenLogic → ScreenLogic → Prop} {n : Str} {lg lg' : LMap Str ScreenLogic} (h : c123_Near D n lg lg') (k : Str) :
    c123_Near D n (lg.erase k) (lg'.erase k) := by
  intro m
  rw [LMap.get_erase, LMap.get_erase]
  by_cases hm : m = k
  · simp only [if_pos hm]
  · simp only [if_neg hm]
    exact h m

theorem c123_same_conv : ∀ (items : List FileItem) (ls : LMap Str Layout) {lg lg' : LMap Str ScreenLogic} (fb : LMap Str AndroidView),
    (∀ m, match lg.get m, lg'.get m with | none, none => True | some a, some b => Logic.c115_Screens a b | _, _ => False) →
    activitiesConv items ls lg fb = activitiesConv items ls lg' fb
  | [], _, _, _, _, _ => rfl
  | f :: items, ls, lg, lg', fb, h => by
    rw [activitiesConv, activitiesConv]
    have hs : Logic.c115_Screens ((lg.get (viewNameToLogic f.filename)).getD (ScreenLogic.newEmpty f.filename))
        ((lg'.get (viewNameToLogic f.filename)).getD (ScreenLogic.newEmpty f.filename)) := by
      have := h (viewNameToLogic f.filename)
      split at this
      · rename_i x y; rw [x, y]; exact ⟨rfl, rfl, rfl, rfl, rfl, rfl, fun _ => rfl⟩
      · rename_i x y; rw [x, y]; exact this
      · exact this.elim
    rw [c115_screen _ _ _ _ _ hs, hs.name, c123_same_conv items (ls.erase f.filename) (lg := lg.erase (viewNameToLogic f.filename))
      (lg' := lg'.erase (viewNameToLogic f.filename)) (fb.erase f.filename)]
    intro m
    rw [LMap.get_erase, LMap.get_erase]
    by_cases hm : m = viewNameToLogic f.filename
    · simp only [if_pos hm]
    · simp only [if_neg hm]
      exact h m

/-- Two lists of screens that are the same but for one screen, which is that of an activity whose logic has this name. -/
def c123_One (S : Screen → Screen → Prop) (n : Str) (items : List FileItem) (ss ss' : List Screen) : Prop :=
  ∃ A s t B f, ss = A ++ s :: B ∧ ss' = A ++ t :: B ∧ items[A.length]? = some f ∧ viewNameToLogic f.filename = n ∧ S s t

theorem c123_conv_one {D : ScreenLogic → ScreenLogic → Prop} {S : Screen → Screen → Prop} {n : Str} (ok : ScreenLogic → Prop)
    (hD : ∀ {ln gn : Str} {f : FileItem} {v : Layout} {a b : ScreenLogic} {fab : Option View} {s : Screen}, D a b → ok a →
      Screen.fromParsed ln gn f v a fab = .ok s → ∃ t, Screen.fromParsed ln gn f v b fab = .ok t ∧ S s t) :
    ∀ (items : List FileItem) (ls : LMap Str Layout) {lg lg' : LMap Str ScreenLogic} (fb : LMap Str AndroidView) {ss : List Screen} {ly : LMap Str Layout},
    c123_Near D n lg lg' → (∀ a, lg.get n = some a → ok a) → activitiesConv items ls lg fb = .ok (ss, ly) →
    ∃ ss', activitiesConv items ls lg' fb = .ok (ss', ly) ∧ (ss' = ss ∨ c123_One S n items ss ss')
  | [], _, _, _, _, _, _, _, _, h => ⟨_, h, .inl rfl⟩
  | f :: items, ls, lg, lg', fb, ss, ly, hr, hok, h => by
    rw [activitiesConv] at h ⊢
    simp only [Out.bind_eq_ok, Out.mapErr_eq_ok, Out.pure_eq, Out.ok.injEq, Prod.mk.injEq, Prod.exists] at h
    obtain ⟨s, hs, ss', ly', h, rfl, rfl⟩ := h
    have hm := hr (viewNameToLogic f.filename)
    have hok' : ∀ b, (lg.erase (viewNameToLogic f.filename)).get n = some b → ok b := by
      intro b hb
      rw [LMap.get_erase] at hb
      by_cases hn : n = viewNameToLogic f.filename
      · rw [if_pos hn] at hb; cases hb
      · rw [if_neg hn] at hb; exact hok b hb
    have same : Screen.fromParsed f.filename ((lg'.get (viewNameToLogic f.filename)).getD (ScreenLogic.newEmpty f.filename)).name f
        ((ls.get f.filename).getD ⟨[]⟩) ((lg'.get (viewNameToLogic f.filename)).getD (ScreenLogic.newEmpty f.filename))
        ((fb.get f.filename).map View.ofRaw) = .ok s → ∃ ss₁, (do
          let screen ← (Screen.fromParsed f.filename ((lg'.get (viewNameToLogic f.filename)).getD (ScreenLogic.newEmpty f.filename)).name f
            ((ls.get f.filename).getD ⟨[]⟩) ((lg'.get (viewNameToLogic f.filename)).getD (ScreenLogic.newEmpty f.filename))
            ((fb.get f.filename).map View.ofRaw)).mapErr (ConversionError.screenConstructionError (viewNameToLogic f.filename) f.filename)
          let (screens, layouts) ← activitiesConv items (ls.erase f.filename) (lg'.erase (viewNameToLogic f.filename)) (fb.erase f.filename)
          pure (screen :: screens, layouts)) = Out.ok (ss₁, ly') ∧ (ss₁ = s :: ss' ∨ c123_One S n (f :: items) (s :: ss') ss₁) := by
      intro h0
      obtain ⟨ss₁, g1, g2⟩ := c123_conv_one ok hD items _ _ (c123_near_erase hr _) hok' h
      refine ⟨s :: ss₁, ?_, ?_⟩
      · rw [h0, g1]; rfl
      · rcases g2 with rfl | ⟨A, s', t, B, g, rfl, rfl, k1, k2, k3⟩
        · exact .inl rfl
        · exact .inr ⟨s :: A, s', t, B, g, rfl, rfl, by simpa using k1, k2, k3⟩
    split at hm
    · rename_i x y
      apply same
      rw [x] at hs
      rw [y]
      exact hs
    · rename_i a b x y
      rw [x] at hs
      obtain ⟨hn, hm | ⟨hm, hd⟩⟩ := hm
      · apply same
        rw [y]
        simp only [Option.getD_some] at hs ⊢
        rw [← c115_screen _ _ _ _ _ hm, ← hn]
        exact hs
      · simp only [Option.getD_some, hn] at hs
        obtain ⟨t, ht, hst⟩ := hD hd (hok a (hm ▸ x)) hs
        refine ⟨t :: ss', ?_, .inr ⟨[], s, t, ss', f, rfl, rfl, rfl, hm, hst⟩⟩
        rw [y]
        simp only [Option.getD_some]
        rw [ht, ← c123_same_conv items (ls.erase f.filename) (lg := lg.erase (viewNameToLogic f.filename)) (fb.erase f.filename), h]
        · rfl
        · intro m
          rw [LMap.get_erase, LMap.get_erase]
          by_cases hme : m = viewNameToLogic f.filename
          · simp only [if_pos hme]
          · simp only [if_neg hme]
            have := hr m
            split at this
            · trivial
            · exact this.2.resolve_right fun h => hme (h.1.trans hm.symm)
            · exact this.elim
    · exact hm.elim

theorem c123_logic_opened {ex : PathBuf → Bool} {raw : RawSketchwareProject} {p : Swrs.SketchwareProject} (hp : Swrs.SketchwareProject.parseFrom ex raw = .ok p)
    {logic : Str} {r : Logic} (hr : Logic.parse logic = .ok r) : Swrs.SketchwareProject.parseFrom ex { raw with logic } = .ok { p with logic := r } := by
  obtain ⟨a1, a2, a3, a4, a5, a6, a7⟩ := (c58_parts ex _ _).mp hp
  exact (c58_parts ex _ _).mpr ⟨a1, a2, a3, a4, a5, hr, a7⟩

omit [MapPol] [Floats] in
theorem c123_lastPar {ls : List Str} {hd hd' : Str} {b b' : List Str} (h : Logic.c122_LastPar ls hd b) (h' : Logic.c122_LastPar ls hd' b') : hd = hd' ∧ b = b' := by
  obtain ⟨hn, h⟩ := h
  obtain ⟨hn', h'⟩ := h'
  have key : ∀ {x y a b : List Str}, [] ∉ a → [] ∉ b → x ++ [] :: a = y ++ [] :: b → a = b := by
    intro x y a b ha hb e
    rcases List.append_eq_append_iff.mp e with ⟨c, rfl, hc⟩ | ⟨c, rfl, hc⟩
    · cases c with
      | nil => exact (List.cons.inj hc).2
      | cons z c => exact absurd (by rw [(List.cons.inj hc).2]; simp) ha
    · cases c with
      | nil => exact (List.cons.inj hc).2.symm
      | cons z c => exact absurd (by rw [(List.cons.inj hc).2]; simp) hb
  have : hd :: b = hd' :: b' := by
    rcases h with h | ⟨x, h⟩ <;> rcases h' with h' | ⟨y, h'⟩
    · exact h.symm.trans h'
    · exact absurd (by rw [← h, h']; simp) hn
    · exact absurd (by rw [← h', h]; simp) hn'
    · exact key hn hn' (h.symm.trans h')
  exact List.cons.inj this

omit [MapPol] [Floats] in
theorem c123_lastPar_last {ls : List Str} {hd : Str} {b : List Str} (h : Logic.c122_LastPar ls hd b) : ∃ y, ls.getLast? = some y ∧ y ≠ [] := by
  obtain ⟨hn, h⟩ := h
  have : ls.getLast? = (hd :: b).getLast? := by
    rcases h with rfl | ⟨x, rfl⟩
    · rfl
    · rw [List.getLast?_append, List.getLast?_cons_cons]
      cases hh : (hd :: b).getLast? with
      | none => simp at hh
      | some z => rfl
  obtain ⟨y, hy⟩ : ∃ y, (hd :: b).getLast? = some y := by
    cases hh : (hd :: b).getLast? with
    | none => simp at hh
    | some z => exact ⟨z, rfl⟩
  exact ⟨y, this.trans hy, fun e => hn (e ▸ List.mem_of_getLast? hy)⟩

/-- A line more under a header of this kind, in a logic that is read. -/
theorem c123_logic_read {s s' l hd n : Str} {pre post b : List Str} {k : Logic.c115_Kind} (hs : lines s = pre ++ post) (hs' : lines s' = pre ++ l :: post) (hl : l ≠ [])
    (hw : Logic.c122_Whole pre) (hb : Logic.c122_LastPar pre hd b) (hk : Logic.c115_Header hd n k) (hr : Logic.c122_Readable l k) {r : Logic}
    (h : Logic.parse s = .ok r) : ∃ r', Logic.parse s' = .ok r' ∧ Logic.c122_Logics l b.length n k r r' := by
  obtain ⟨y, h1, h2⟩ := c123_lastPar_last hb
  obtain ⟨hd', b', n', k', g1, g2, g3, g4⟩ := (Logic.c122_logic hs hs' hl h1 h2 h).1 hw
  obtain ⟨rfl, rfl⟩ := c123_lastPar hb g1
  obtain ⟨rfl, rfl⟩ := Logic.c115_header_unique hk g2
  obtain ⟨r', hr'⟩ := g3.mpr hr
  exact ⟨r', hr', g4 r' hr'⟩

/-- Two logics of a screen that differ in one part. -/
def c123_Differ (l : Str) (i : Nat) (k₀ : Logic.c115_Kind) (a b : ScreenLogic) : Prop := a.name = b.name ∧ (∀ k, k ≠ k₀ → Logic.c115_at a k = Logic.c115_at b k) ∧
  ∃ v w, Logic.c115_at a k₀ = some v ∧ Logic.c115_at b k₀ = some w ∧ Logic.c122_Slots l i v w

theorem c123_near {l n : Str} {i : Nat} {k : Logic.c115_Kind} {r r' : Logic} (h : Logic.c122_Logics l i n k r r') :
    c123_Near (c123_Differ l i k) n r.screens r'.screens := by
  intro m
  have := h m
  split at this
  · rename_i x y; rw [x, y]; trivial
  · rename_i a b x y; rw [x, y]
    refine ⟨this.1, ?_⟩
    rcases this.2 k with hk | ⟨hm, -, v, w, hv, hw, hvw⟩
    · refine .inl (Logic.c115_screens_of_at this.1 fun k' => ?_)
      by_cases e : k' = k
      · rw [e, hk]
      · exact (this.2 k').resolve_right fun h => e h.2.1
    · exact .inr ⟨hm, this.1, fun k' e => (this.2 k').resolve_right fun h => e h.2.1, v, w, hv, hw, hvw⟩
  · exact this.elim

/-- The conversion of a project with a changed logic. -/
theorem c123_convert {rnd : ResourceType → Nat → UInt32} {p : Swrs.SketchwareProject} {P : SketchwareProject} {r : Logic} (hP : SketchwareProject.tryFrom rnd p = .ok P)
    {D : ScreenLogic → ScreenLogic → Prop} {S : Screen → Screen → Prop} {n : Str} (ok : ScreenLogic → Prop)
    (hD : ∀ {ln gn : Str} {f : FileItem} {v : Layout} {a b : ScreenLogic} {fab : Option View} {s : Screen}, D a b → ok a →
      Screen.fromParsed ln gn f v a fab = .ok s → ∃ t, Screen.fromParsed ln gn f v b fab = .ok t ∧ S s t)
    (hr : c123_Near D n p.logic.screens r.screens) (hok : ∀ a, p.logic.screens.get n = some a → ok a) :
    ∃ Q, SketchwareProject.tryFrom rnd { p with logic := r } = .ok Q ∧
      (Q = P ∨ ∃ ss, Q = { P with screens := ss } ∧ c123_One S n p.file.activities P.screens ss) := by
  obtain ⟨ss, ly, cv, lb, im, so, fo, a1, a2, a3, a4, a5, a6, rfl, rfl, -⟩ := tryFrom_ok hP
  obtain ⟨ss', g1, g2⟩ := c123_conv_one ok hD p.file.activities p.view.layouts p.view.fabs hr hok a1
  refine ⟨_, c123_tryFrom (q := { p with logic := r }) hP g1 a2 rfl rfl rfl rfl, ?_⟩
  rcases g2 with rfl | g2
  · exact .inl rfl
  · exact .inr ⟨_, rfl, g2⟩

theorem c123_pool {α : Type} {f : α → Logic.c115_Slot} (hf : ∀ x y, f x = f y → x = y) {x y : Option α} (h : x.map f = y.map f) : x = y := by
  cases x <;> cases y <;> simp_all
  exact hf _ _ h

/-- C123: a readable line is added to the variables of a screen. The project is still opened and converted, and is the same but for one screen, that of an
activity of this name; of this only the variables change, by the declaration of the line. -/
theorem c123_variable (ex : PathBuf → Bool) (rnd : ResourceType → Nat → UInt32) {raw : RawSketchwareProject} {p : Swrs.SketchwareProject} {P : SketchwareProject}
    (hp : Swrs.SketchwareProject.parseFrom ex raw = .ok p) (hP : SketchwareProject.tryFrom rnd p = .ok P) {logic l hd n : Str} {pre post b : List Str} {x : Variable}
    (hs : lines raw.logic = pre ++ post) (hs' : lines logic = pre ++ l :: post) (hw : Logic.c122_Whole pre) (hb : Logic.c122_LastPar pre hd b)
    (hk : Logic.c115_Header hd n (.pool (s% "java_var"))) (hx : Variable.parse l = .ok x) :
    ∃ q Q, Swrs.SketchwareProject.parseFrom ex { raw with logic } = .ok q ∧ SketchwareProject.tryFrom rnd q = .ok Q ∧
      (Q = P ∨ ∃ A s t B f, P.screens = A ++ s :: B ∧ Q = { P with screens := A ++ t :: B } ∧ p.file.activities[A.length]? = some f ∧
        viewNameToLogic f.filename = n ∧ t = { s with «variables» := t.variables } ∧ Logic.c122_Decl x x.name s.variables t.variables) := by
  have hl : l ≠ [] := by rintro rfl; cases hx
  obtain ⟨r, h1, h2⟩ := c123_logic_read hs hs' hl hw hb hk ⟨x, hx⟩ ((c58_parts ex _ _).mp hp).2.2.2.2.2.1
  obtain ⟨Q, g1, g2⟩ := c123_convert (S := fun s t => t = { s with «variables» := t.variables } ∧ Logic.c122_Decl x x.name s.variables t.variables) hP (fun _ => True)
    (D := c123_Differ l b.length (.pool (s% "java_var"))) (r := r) (by
      rintro ln gn f v a b' fab s ⟨hn, hk, v₁, w₁, hv, hw, hvw⟩ - h
      have hsc : Logic.c115_Screens b' { a with «variables» := b'.variables } :=
        ⟨hn.symm, rfl, (c123_pool (fun x y e => Logic.c115_Slot.lists.inj e) (hk (.pool (s% "java_list")) (by decide))).symm,
          (c123_pool (fun x y e => Logic.c115_Slot.comps.inj e) (hk (.pool (s% "java_components")) (by decide))).symm,
          (c123_pool (fun x y e => Logic.c115_Slot.events.inj e) (hk (.pool (s% "java_events")) (by decide))).symm,
          (c123_pool (fun x y e => Logic.c115_Slot.mbs.inj e) (hk (.pool (s% "java_func")) (by decide))).symm,
          fun c => (c123_pool (fun x y e => Logic.c115_Slot.code.inj e) (hk (.code c) (by simp))).symm⟩
      obtain ⟨lay, mbs, cs, comps, evs, cs', a1, a2, a3, a4, rfl⟩ := c120_screen_ok h
      refine ⟨⟨ln, gn, lay, (b'.variables.map (·.map)).getD [], (a.listVariables.map (·.map)).getD [], LMap.collect mbs, LMap.collect comps, evs, fab,
        f.options.fullscreen, f.options.toolbar, f.options.drawer, f.options.fab, f.orientation, f.theme, f.keyboardSetting⟩, ?_, rfl, ?_⟩
      · rw [c115_screen _ _ _ _ _ hsc]
        unfold Screen.fromParsed
        simp only [a1, a2, a3, Out.ok_bind]
        rw [show parserEvents { a with «variables» := b'.variables } = parserEvents a from rfl, a4]
        rfl
      · have e1 : a.variables.map .vars = some v₁ := hv
        have e2 : b'.variables.map .vars = some w₁ := hw
        cases ha : a.variables with
        | none => rw [ha] at e1; cases e1
        | some va =>
          cases hb' : b'.variables with
          | none => rw [hb'] at e2; cases e2
          | some vb =>
            rw [ha] at e1; rw [hb'] at e2
            obtain rfl := Option.some.inj e1
            obtain rfl := Option.some.inj e2
            obtain ⟨x', hx', hdl⟩ := hvw
            obtain rfl := Out.ok.inj (hx.symm.trans hx')
            exact hdl) (c123_near h2) (fun _ _ => trivial)
  refine ⟨_, Q, c123_logic_opened hp h1, g1, g2.imp_right ?_⟩
  rintro ⟨ss, rfl, A, s, t, B, f, k1, rfl, k2, k3, k4, k5⟩
  exact ⟨A, s, t, B, f, k1, rfl, k2, k3, k4, k5⟩

/-- C123: so with a readable line for a list. -/
theorem c123_listVariable (ex : PathBuf → Bool) (rnd : ResourceType → Nat → UInt32) {raw : RawSketchwareProject} {p : Swrs.SketchwareProject} {P : SketchwareProject}
    (hp : Swrs.SketchwareProject.parseFrom ex raw = .ok p) (hP : SketchwareProject.tryFrom rnd p = .ok P) {logic l hd n : Str} {pre post b : List Str} {x : ListVariable}
    (hs : lines raw.logic = pre ++ post) (hs' : lines logic = pre ++ l :: post) (hw : Logic.c122_Whole pre) (hb : Logic.c122_LastPar pre hd b)
    (hk : Logic.c115_Header hd n (.pool (s% "java_list"))) (hx : ListVariable.parse l = .ok x) :
    ∃ q Q, Swrs.SketchwareProject.parseFrom ex { raw with logic } = .ok q ∧ SketchwareProject.tryFrom rnd q = .ok Q ∧
      (Q = P ∨ ∃ A s t B f, P.screens = A ++ s :: B ∧ Q = { P with screens := A ++ t :: B } ∧ p.file.activities[A.length]? = some f ∧
        viewNameToLogic f.filename = n ∧ t = { s with listVariables := t.listVariables } ∧ Logic.c122_Decl x x.name s.listVariables t.listVariables) := by
  have hl : l ≠ [] := by rintro rfl; cases hx
  obtain ⟨r, h1, h2⟩ := c123_logic_read hs hs' hl hw hb hk ⟨x, hx⟩ ((c58_parts ex _ _).mp hp).2.2.2.2.2.1
  obtain ⟨Q, g1, g2⟩ := c123_convert (S := fun s t => t = { s with listVariables := t.listVariables } ∧ Logic.c122_Decl x x.name s.listVariables t.listVariables) hP
    (fun _ => True) (D := c123_Differ l b.length (.pool (s% "java_list"))) (r := r) (by
      rintro ln gn f v a b' fab s ⟨hn, hk, v₁, w₁, hv, hw, hvw⟩ - h
      have hsc : Logic.c115_Screens b' { a with listVariables := b'.listVariables } :=
        ⟨hn.symm, (c123_pool (fun x y e => Logic.c115_Slot.vars.inj e) (hk (.pool (s% "java_var")) (by decide))).symm, rfl,
          (c123_pool (fun x y e => Logic.c115_Slot.comps.inj e) (hk (.pool (s% "java_components")) (by decide))).symm,
          (c123_pool (fun x y e => Logic.c115_Slot.events.inj e) (hk (.pool (s% "java_events")) (by decide))).symm,
          (c123_pool (fun x y e => Logic.c115_Slot.mbs.inj e) (hk (.pool (s% "java_func")) (by decide))).symm,
          fun c => (c123_pool (fun x y e => Logic.c115_Slot.code.inj e) (hk (.code c) (by simp))).symm⟩
      obtain ⟨lay, mbs, cs, comps, evs, cs', a1, a2, a3, a4, rfl⟩ := c120_screen_ok h
      refine ⟨⟨ln, gn, lay, (a.variables.map (·.map)).getD [], (b'.listVariables.map (·.map)).getD [], LMap.collect mbs, LMap.collect comps, evs, fab,
        f.options.fullscreen, f.options.toolbar, f.options.drawer, f.options.fab, f.orientation, f.theme, f.keyboardSetting⟩, ?_, rfl, ?_⟩
      · rw [c115_screen _ _ _ _ _ hsc]
        unfold Screen.fromParsed
        simp only [a1, a2, a3, Out.ok_bind]
        rw [show parserEvents { a with listVariables := b'.listVariables } = parserEvents a from rfl, a4]
        rfl
      · have e1 : a.listVariables.map .lists = some v₁ := hv
        have e2 : b'.listVariables.map .lists = some w₁ := hw
        cases ha : a.listVariables with
        | none => rw [ha] at e1; cases e1
        | some va =>
          cases hb' : b'.listVariables with
          | none => rw [hb'] at e2; cases e2
          | some vb =>
            rw [ha] at e1; rw [hb'] at e2
            obtain rfl := Option.some.inj e1
            obtain rfl := Option.some.inj e2
            obtain ⟨x', hx', hdl⟩ := hvw
            obtain rfl := Out.ok.inj (hx.symm.trans hx')
            exact hdl) (c123_near h2) (fun _ _ => trivial)
  refine ⟨_, Q, c123_logic_opened hp h1, g1, g2.imp_right ?_⟩
  rintro ⟨ss, rfl, A, s, t, B, f, k1, rfl, k2, k3, k4, k5⟩
  exact ⟨A, s, t, B, f, k1, rfl, k2, k3, k4, k5⟩

omit [MapPol] [Floats] in
theorem c123_components {x : Component} {v : List Component} : ∀ (u : List Component), (∀ cs k, componentsOf (u ++ v) = .ok cs → ComponentKind.fromParser x = .ok k →
      ∃ a c, cs = a ++ c ∧ componentsOf (u ++ x :: v) = .ok (a ++ (x.id, k) :: c)) ∧
    ∀ cs, componentsOf (u ++ x :: v) = .ok cs → (∃ cs', componentsOf (u ++ v) = .ok cs') ∧ ∃ k, ComponentKind.fromParser x = .ok k
  | [] => by
    refine ⟨fun cs k h hk => ⟨[], cs, rfl, ?_⟩, fun cs h => ?_⟩
    · rw [List.nil_append] at h
      rw [List.nil_append, componentsOf, hk, h]; rfl
    · rw [List.nil_append, componentsOf] at h
      simp only [Out.bind_eq_ok, Out.mapErr_eq_ok] at h
      obtain ⟨k, hk, ks, h, -⟩ := h
      exact ⟨⟨ks, h⟩, k, hk⟩
  | y :: u => by
    obtain ⟨g1, g2⟩ := c123_components (x := x) (v := v) u
    refine ⟨fun cs k h hk => ?_, fun cs h => ?_⟩
    · rw [List.cons_append, componentsOf] at h
      simp only [Out.bind_eq_ok, Out.mapErr_eq_ok] at h
      obtain ⟨z, hz, ks, h, h'⟩ := h
      obtain rfl := Out.ok.inj h'
      obtain ⟨a, c, rfl, e⟩ := g1 ks k h hk
      exact ⟨(y.id, z) :: a, c, rfl, by rw [List.cons_append, componentsOf, hz, e]; rfl⟩
    · rw [List.cons_append, componentsOf] at h
      simp only [Out.bind_eq_ok, Out.mapErr_eq_ok] at h
      obtain ⟨z, hz, ks, h, -⟩ := h
      obtain ⟨⟨cs', e⟩, hk⟩ := g2 ks h
      exact ⟨⟨_, by rw [List.cons_append, componentsOf, hz, e]; rfl⟩, hk⟩

theorem c123_decl {α : Type} (a c : List (Str × α)) (n : Str) (k : α) : Logic.c122_Decl k n (LMap.collect (a ++ c)) (LMap.collect (a ++ (n, k) :: c)) := by
  refine ⟨fun m hm => ?_, ?_⟩
  · rw [LMap.get_collect, LMap.get_collect]
    unfold LMap.last
    simp only [List.reverse_append, List.reverse_cons, List.append_assoc, List.singleton_append]
    generalize c.reverse = b
    induction b with
    | nil => simp [LMap.get, Ne.symm hm]
    | cons e b ih =>
      obtain ⟨k', e⟩ := e
      simp only [List.cons_append, LMap.get]
      rw [ih]
  · rw [LMap.get_collect, LMap.get_collect]
    unfold LMap.last
    simp only [List.reverse_append, List.reverse_cons, List.append_assoc, List.singleton_append]
    generalize c.reverse = b
    induction b with
    | nil => exact .inl (by simp [LMap.get])
    | cons e b ih =>
      obtain ⟨k', e⟩ := e
      simp only [List.cons_append, LMap.get]
      split
      · exact .inr ⟨rfl, by simp⟩
      · exact ih

theorem c123_at_comps {l : Str} {i : Nat} {a b : ScreenLogic} (h : c123_Differ l i (.pool (s% "java_components")) a b) :
    Logic.c115_Screens b { a with components := b.components } ∧ ∃ u x v, Component.parse l = some x ∧ (a.components.map (·.items)).getD [] = u ++ v ∧
      (b.components.map (·.items)).getD [] = u ++ x :: v := by
  obtain ⟨hn, hk, v₁, w₁, hv, hw, hvw⟩ := h
  refine ⟨⟨hn.symm, (c123_pool (fun x y e => Logic.c115_Slot.vars.inj e) (hk (.pool (s% "java_var")) (by decide))).symm,
    (c123_pool (fun x y e => Logic.c115_Slot.lists.inj e) (hk (.pool (s% "java_list")) (by decide))).symm, rfl,
    (c123_pool (fun x y e => Logic.c115_Slot.events.inj e) (hk (.pool (s% "java_events")) (by decide))).symm,
    (c123_pool (fun x y e => Logic.c115_Slot.mbs.inj e) (hk (.pool (s% "java_func")) (by decide))).symm,
    fun c => (c123_pool (fun x y e => Logic.c115_Slot.code.inj e) (hk (.code c) (by simp))).symm⟩, ?_⟩
  have e1 : a.components.map .comps = some v₁ := hv
  have e2 : b.components.map .comps = some w₁ := hw
  cases ha : a.components with
  | none => rw [ha] at e1; cases e1
  | some va =>
    cases hb' : b.components with
    | none => rw [hb'] at e2; cases e2
    | some vb =>
      rw [ha] at e1; rw [hb'] at e2
      obtain rfl := Option.some.inj e1
      obtain rfl := Option.some.inj e2
      obtain ⟨u, x, v, -, h1, h2, h3⟩ := hvw
      exact ⟨u, x, v, h3, h1, h2⟩

/-- C123: a readable line is added to the components of a screen. The project is still opened. If the component is of a known kind, the project is converted,
and is the same but for one screen, of which only the components change, by this component; if not, the project is not converted, or is the same. -/
theorem c123_component (ex : PathBuf → Bool) (rnd : ResourceType → Nat → UInt32) {raw : RawSketchwareProject} {p : Swrs.SketchwareProject} {P : SketchwareProject}
    (hp : Swrs.SketchwareProject.parseFrom ex raw = .ok p) (hP : SketchwareProject.tryFrom rnd p = .ok P) {logic l hd n : Str} {pre post b : List Str} {x : Component}
    (hs : lines raw.logic = pre ++ post) (hs' : lines logic = pre ++ l :: post) (hw : Logic.c122_Whole pre) (hb : Logic.c122_LastPar pre hd b)
    (hk : Logic.c115_Header hd n (.pool (s% "java_components"))) (hx : Component.parse l = some x) :
    ∃ q, Swrs.SketchwareProject.parseFrom ex { raw with logic } = .ok q ∧
      (∀ k, ComponentKind.fromParser x = .ok k → ∃ Q, SketchwareProject.tryFrom rnd q = .ok Q ∧
        (Q = P ∨ ∃ A s t B f, P.screens = A ++ s :: B ∧ Q = { P with screens := A ++ t :: B } ∧ p.file.activities[A.length]? = some f ∧
          viewNameToLogic f.filename = n ∧ t = { s with components := t.components } ∧ Logic.c122_Decl k x.id s.components t.components)) ∧
      ((∀ k, ComponentKind.fromParser x ≠ .ok k) → ∀ Q, SketchwareProject.tryFrom rnd q = .ok Q → Q = P) := by
  have hl : l ≠ [] := by rintro rfl; exact absurd hx (by rw [show Component.parse [] = none from rfl]; simp)
  obtain ⟨r, h1, h2⟩ := c123_logic_read hs hs' hl hw hb hk ⟨x, hx⟩ ((c58_parts ex _ _).mp hp).2.2.2.2.2.1
  refine ⟨_, c123_logic_opened hp h1, fun k hxk => ?_, fun hno Q hQ => ?_⟩
  · obtain ⟨Q, g1, g2⟩ := c123_convert (S := fun s t => t = { s with components := t.components } ∧ Logic.c122_Decl k x.id s.components t.components) hP
      (fun _ => True) (D := c123_Differ l b.length (.pool (s% "java_components"))) (r := r) (by
        intro ln gn f v a b' fab s hd _ h
        obtain ⟨hsc, u, x', w, hx', e1, e2⟩ := c123_at_comps hd
        obtain rfl := Option.some.inj (hx.symm.trans hx')
        obtain ⟨lay, mbs, cs, comps, evs, cs', a1, a2, a3, a4, rfl⟩ := c120_screen_ok h
        rw [e1] at a3
        obtain ⟨c₁, c₂, rfl, a3'⟩ := (c123_components u).1 comps k a3 hxk
        refine ⟨⟨ln, gn, lay, (a.variables.map (·.map)).getD [], (a.listVariables.map (·.map)).getD [], LMap.collect mbs,
          LMap.collect (c₁ ++ (x.id, k) :: c₂), evs, fab,
          f.options.fullscreen, f.options.toolbar, f.options.drawer, f.options.fab, f.orientation, f.theme, f.keyboardSetting⟩, ?_, rfl, c123_decl _ _ _ _⟩
        rw [c115_screen _ _ _ _ _ hsc]
        unfold Screen.fromParsed
        simp only [a1, a2, e2, a3', Out.ok_bind]
        rw [show parserEvents { a with components := b'.components } = parserEvents a from rfl, a4]
        rfl) (c123_near h2) (fun _ _ => trivial)
    refine ⟨Q, g1, g2.imp_right ?_⟩
    rintro ⟨ss, rfl, A, s, t, B, f, k1, rfl, k2, k3, k4, k5⟩
    exact ⟨A, s, t, B, f, k1, rfl, k2, k3, k4, k5⟩
  · have hback : c123_Near (fun a b' => c123_Differ l b.length (.pool (s% "java_components")) b' a) n r.screens p.logic.screens := by
      intro m
      have := c123_near h2 m
      split at this
      · rename_i x y; rw [x, y]; trivial
      · rename_i a b x y; rw [x, y]
        refine ⟨this.1.symm, this.2.imp (fun h => ?_) id⟩
        exact ⟨h.name.symm, h.variables.symm, h.listVariables.symm, h.components.symm, h.events.symm, h.moreBlocks.symm, fun c => (h.code c).symm⟩
      · exact this.elim
    obtain ⟨P', g1, g2⟩ := c123_convert (p := { p with logic := r }) (S := fun _ _ => False) hQ (fun _ => True) (r := p.logic) (by
        intro ln gn f v a b' fab s hd _ h
        obtain ⟨hsc, u, x', w, hx', e1, e2⟩ := c123_at_comps hd
        obtain rfl := Option.some.inj (hx.symm.trans hx')
        obtain ⟨lay, mbs, cs, comps, evs, cs', a1, a2, a3, a4, rfl⟩ := c120_screen_ok h
        rw [e2] at a3
        obtain ⟨k, hk⟩ := ((c123_components u).2 comps a3).2
        exact absurd hk (hno k)) hback (fun _ _ => trivial)
    have : P' = P := Out.ok.inj (g1.symm.trans hP)
    rcases g2 with g2 | ⟨ss, -, A, s, t, B, f, -, -, -, -, hf⟩
    · exact g2.symm.trans this
    · exact hf.elim

theorem c123_at_events {l : Str} {i : Nat} {a b : ScreenLogic} (h : c123_Differ l i (.pool (s% "java_events")) a b) :
    Logic.c115_Screens b { a with events := b.events } ∧ ∃ u x v, u.length = i ∧ Swrs.Event.parse l = some x ∧ (a.events.map (·.items)).getD [] = u ++ v ∧
      (b.events.map (·.items)).getD [] = u ++ x :: v := by
  obtain ⟨hn, hk, v₁, w₁, hv, hw, hvw⟩ := h
  refine ⟨⟨hn.symm, (c123_pool (fun x y e => Logic.c115_Slot.vars.inj e) (hk (.pool (s% "java_var")) (by decide))).symm,
    (c123_pool (fun x y e => Logic.c115_Slot.lists.inj e) (hk (.pool (s% "java_list")) (by decide))).symm,
    (c123_pool (fun x y e => Logic.c115_Slot.comps.inj e) (hk (.pool (s% "java_components")) (by decide))).symm, rfl,
    (c123_pool (fun x y e => Logic.c115_Slot.mbs.inj e) (hk (.pool (s% "java_func")) (by decide))).symm,
    fun c => (c123_pool (fun x y e => Logic.c115_Slot.code.inj e) (hk (.code c) (by simp))).symm⟩, ?_⟩
  have e1 : a.events.map .events = some v₁ := hv
  have e2 : b.events.map .events = some w₁ := hw
  cases ha : a.events with
  | none => rw [ha] at e1; cases e1
  | some va =>
    cases hb' : b.events with
    | none => rw [hb'] at e2; cases e2
    | some vb =>
      rw [ha] at e1; rw [hb'] at e2
      obtain rfl := Option.some.inj e1
      obtain rfl := Option.some.inj e2
      obtain ⟨u, x, v, h0, h1, h2, h3⟩ := hvw
      exact ⟨u, x, v, h0, h3, h1, h2⟩

theorem c123_events {x : Swrs.Event} {e : Event} (hx : Event.tryFrom x = .ok e) {v : List Swrs.Event} : ∀ (u : List Swrs.Event) {cs cs' : Containers} {es : List Event},
    cs.get e.containerId = none → eventsOf (u ++ v) cs = .ok (es, cs') → ∃ a c, es = a ++ c ∧ a.length = u.length ∧ eventsOf (u ++ x :: v) cs = .ok (a ++ e :: c, cs')
  | [], cs, cs', es, h0, h => by
    refine ⟨[], es, rfl, rfl, ?_⟩
    have he : e.code = [] := by
      unfold Event.tryFrom at hx
      simp only [Out.bind_eq_ok] at hx
      obtain ⟨t, -, hx⟩ := hx
      rw [← Out.ok.inj hx]
    have : eventOf x cs = .ok (e, cs) := by
      refine eventOf_ok.mpr ⟨?_, ?_, (c123_erase_none h0).symm⟩
      · rw [hx, ← he]
      · rw [he]; unfold codeOf; rw [h0]; rfl
    rw [List.nil_append] at h
    rw [List.nil_append, eventsOf, this]
    simp only [Out.ok_bind, h]
    rfl
  | y :: u, cs, cs', es, h0, h => by
    rw [List.cons_append, eventsOf] at h
    simp only [Out.bind_eq_ok, Prod.exists] at h
    obtain ⟨z, cs₁, hz, zs, cs₂, h, h'⟩ := h
    obtain ⟨rfl, rfl⟩ := Prod.mk.inj (Out.ok.inj h')
    have hc := (eventOf_ok.mp hz).2.2
    obtain ⟨a, c, rfl, ha, e⟩ := c123_events hx u (cs := cs₁) (by rw [hc]; exact c123_erase_get _ h0) h
    exact ⟨z :: a, c, rfl, by simp [ha], by rw [List.cons_append, eventsOf, hz]; simp only [Out.ok_bind, e]; rfl⟩

theorem c123_moreBlocks_none {n : Str} : ∀ (ms : List (Str × Swrs.MoreBlock)) {cs cs' : Containers} {rs : List (Str × MoreBlock)}, cs.get n = none →
    moreBlocksOf ms cs = .ok (rs, cs') → cs'.get n = none
  | [], cs, cs', rs, h0, h => by obtain ⟨-, rfl⟩ := Prod.mk.inj (Out.ok.inj h); exact h0
  | (id, m) :: ms, cs, cs', rs, h0, h => by
    rw [moreBlocksOf] at h
    simp only [Out.bind_eq_ok, Prod.exists] at h
    obtain ⟨z, cs₁, hz, zs, cs₂, h, h'⟩ := h
    obtain ⟨-, rfl⟩ := Prod.mk.inj (Out.ok.inj h')
    refine c123_moreBlocks_none ms ?_ h
    unfold moreBlockOf at hz
    simp only [Out.bind_eq_ok, Prod.exists] at hz
    obtain ⟨sp, -, code, cs₃, hc, hz⟩ := hz
    obtain ⟨-, rfl⟩ := Prod.mk.inj (Out.ok.inj hz)
    rw [(takeCode_ok.mp hc).2]
    exact c123_erase_get _ h0

/-- C123: a readable line is added to the events of a screen, for an event of a known kind for which there is no code. The project is still opened and
converted, and is the same but for one screen, which has this event more, without code; the event for `onCreate`, which has no line, may come before. -/
theorem c123_event (ex : PathBuf → Bool) (rnd : ResourceType → Nat → UInt32) {raw : RawSketchwareProject} {p : Swrs.SketchwareProject} {P : SketchwareProject}
    (hp : Swrs.SketchwareProject.parseFrom ex raw = .ok p) (hP : SketchwareProject.tryFrom rnd p = .ok P) {logic l hd n : Str} {pre post b : List Str} {x : Swrs.Event}
    {e : Event} (hs : lines raw.logic = pre ++ post) (hs' : lines logic = pre ++ l :: post) (hw : Logic.c122_Whole pre)
    (hb : Logic.c122_LastPar pre hd b) (hk : Logic.c115_Header hd n (.pool (s% "java_events"))) (hx : Swrs.Event.parse l = some x) (he : Event.tryFrom x = .ok e)
    (hcode : ∀ a, p.logic.screens.get n = some a → a.blockContainers.get e.containerId = none) :
    ∃ q Q, Swrs.SketchwareProject.parseFrom ex { raw with logic } = .ok q ∧ SketchwareProject.tryFrom rnd q = .ok Q ∧
      (Q = P ∨ ∃ A s B f u v, P.screens = A ++ s :: B ∧ s.events = u ++ v ∧ (u.length = b.length ∨ u.length = b.length + 1) ∧
        Q = { P with screens := A ++ { s with events := u ++ e :: v } :: B } ∧ p.file.activities[A.length]? = some f ∧ viewNameToLogic f.filename = n) := by
  have hl : l ≠ [] := by rintro rfl; exact absurd hx (by rw [show Swrs.Event.parse [] = none from rfl]; simp)
  obtain ⟨r, h1, h2⟩ := c123_logic_read hs hs' hl hw hb hk ⟨x, hx⟩ ((c58_parts ex _ _).mp hp).2.2.2.2.2.1
  obtain ⟨Q, g1, g2⟩ := c123_convert (S := fun s t => ∃ u v, s.events = u ++ v ∧ (u.length = b.length ∨ u.length = b.length + 1) ∧ t = { s with events := u ++ e :: v }) hP
    (fun a => a.blockContainers.get e.containerId = none) (D := c123_Differ l b.length (.pool (s% "java_events"))) (r := r) (by
      intro ln gn f v a b' fab s hd h0 h
      obtain ⟨hsc, u, x', w, hu, hx', e1, e2⟩ := c123_at_events hd
      obtain rfl := Option.some.inj (hx.symm.trans hx')
      obtain ⟨lay, mbs, cs, comps, evs, cs', a1, a2, a3, a4, rfl⟩ := c120_screen_ok h
      have h0' := c123_moreBlocks_none _ h0 a2
      have key : ∃ u' w', parserEvents a = u' ++ w' ∧ parserEvents { a with events := b'.events } = u' ++ x :: w' ∧
          (u'.length = b.length ∨ u'.length = b.length + 1) := by
        unfold parserEvents
        simp only [e1, e2]
        split
        · exact ⟨onCreateEvent :: u, w, rfl, rfl, .inr (by simp [hu])⟩
        · exact ⟨u, w, rfl, rfl, .inl hu⟩
      obtain ⟨u', w', k1, k2, k3⟩ := key
      rw [k1] at a4
      obtain ⟨c₁, c₂, rfl, hc, a4'⟩ := c123_events he u' h0' a4
      refine ⟨⟨ln, gn, lay, (a.variables.map (·.map)).getD [], (a.listVariables.map (·.map)).getD [], LMap.collect mbs, LMap.collect comps, c₁ ++ e :: c₂, fab,
        f.options.fullscreen, f.options.toolbar, f.options.drawer, f.options.fab, f.orientation, f.theme, f.keyboardSetting⟩, ?_, c₁, c₂, rfl, hc ▸ k3, rfl⟩
      rw [c115_screen _ _ _ _ _ hsc]
      unfold Screen.fromParsed
      simp only [a1, a2, a3, Out.ok_bind]
      rw [k2, a4']
      rfl) (c123_near h2) hcode
  refine ⟨_, Q, c123_logic_opened hp h1, g1, g2.imp_right ?_⟩
  rintro ⟨ss, rfl, A, s, t, B, f, k1, rfl, k2, k3, u, v, k4, k5, rfl⟩
  exact ⟨A, s, B, f, u, v, k1, k4, k5, rfl, k2, k3⟩

/-! ### One resource more -/

omit [MapPol] [Floats] in
/-- A resource whose file is there and is named by no other one is taken, and the others as before. -/
theorem c123_resources {rnd : Nat → UInt32} {t : ResourceType} {x : ResourceItem} {v : List ResourceItem} {w : ResourceFileWrapper} :
    ∀ (u : List ResourceItem) {fs : HMap Str ResourceFileWrapper} {es : List (Str × ResourceFileWrapper)}, LMap.get fs x.fullName = some w →
    (∀ i ∈ u ++ v, i.fullName ≠ x.fullName) → resourcesConv rnd t (u ++ v) (some fs) = .ok es →
    ∃ a c, es = a ++ c ∧ resourcesConv rnd t (u ++ x :: v) (some fs) = .ok (a ++ (x.name, w) :: c)
  | [], fs, es, h1, hn, h => by
    have key : ∀ (v : List ResourceItem) (fs : HMap Str ResourceFileWrapper), (∀ i ∈ v, i.fullName ≠ x.fullName) →
        resourcesConv rnd t v (some (LMap.erase fs x.fullName)) = resourcesConv rnd t v (some fs) := by
      intro v
      induction v with
      | nil => intros; rfl
      | cons i v ih =>
        intro fs hf
        rw [resourcesConv, resourcesConv]
        have e1 : HMap.get (LMap.erase fs x.fullName) i.fullName = HMap.get fs i.fullName := by
          show LMap.get (LMap.erase fs x.fullName) i.fullName = LMap.get fs i.fullName
          rw [LMap.get_erase, if_neg (hf i (by simp))]
        have e2 : LMap.erase (LMap.erase fs x.fullName) i.fullName = LMap.erase (LMap.erase fs i.fullName) x.fullName := erase_comm _ _ _
        rw [e1, e2, ih _ fun g hg => hf g (by simp [hg])]
    refine ⟨[], es, rfl, ?_⟩
    rw [List.nil_append] at h hn
    rw [List.nil_append, resourcesConv, key v fs hn, show HMap.get fs x.fullName = some w from h1]
    simp only [Out.ofOption_some, Out.ok_bind, h]
    rfl
  | i :: u, fs, es, h1, hn, h => by
    rw [List.cons_append, resourcesConv] at h
    simp only [Out.bind_eq_ok, Out.ofOption_eq_ok] at h
    obtain ⟨z, hz, es', h, h'⟩ := h
    obtain rfl := Out.ok.inj h'
    have hf : i.fullName ≠ x.fullName := hn i (by simp)
    obtain ⟨a, c, rfl, e⟩ := c123_resources u (fs := LMap.erase fs i.fullName) (by rw [LMap.get_erase, if_neg (Ne.symm hf), h1])
      (fun g hg => hn g (by simp only [List.cons_append, List.mem_cons]; exact .inr hg)) h
    refine ⟨(i.name, z) :: a, c, rfl, ?_⟩
    rw [List.cons_append, resourcesConv, hz]
    simp only [Out.ofOption_some, Out.ok_bind, e]
    rfl

omit [MapPol] [Floats] in
theorem c123_resources_only {rnd : Nat → UInt32} {t : ResourceType} {x : ResourceItem} {v : List ResourceItem} : ∀ (u : List ResourceItem)
    {fs : HMap Str ResourceFileWrapper} {es : List (Str × ResourceFileWrapper)}, resourcesConv rnd t (u ++ x :: v) (some fs) = .ok es →
    (∃ w, LMap.get fs x.fullName = some w) ∧ ∀ i ∈ u ++ v, i.fullName ≠ x.fullName
  | [], fs, es, h => by
    rw [List.nil_append, resourcesConv] at h
    simp only [Out.bind_eq_ok, Out.ofOption_eq_ok] at h
    obtain ⟨z, hz, es', h, -⟩ := h
    refine ⟨⟨z, hz⟩, ?_⟩
    have key : ∀ (v : List ResourceItem) (fs : HMap Str ResourceFileWrapper) (es : List (Str × ResourceFileWrapper)), LMap.get fs x.fullName = none →
        resourcesConv rnd t v (some fs) = .ok es → ∀ i ∈ v, i.fullName ≠ x.fullName := by
      intro v
      induction v with
      | nil => intro _ _ _ _ f hf; cases hf
      | cons g v ih =>
        intro fs es hg h i hi
        rw [resourcesConv] at h
        simp only [Out.bind_eq_ok, Out.ofOption_eq_ok] at h
        obtain ⟨z, hz, es', h, -⟩ := h
        rcases List.mem_cons.mp hi with rfl | hi
        · intro e
          rw [e, show HMap.get fs x.fullName = none from hg] at hz; cases hz
        · exact ih _ _ (c123_erase_get _ hg) h i hi
    exact key v _ _ (by rw [LMap.get_erase, if_pos rfl]) h
  | i :: u, fs, es, h => by
    rw [List.cons_append, resourcesConv] at h
    simp only [Out.bind_eq_ok, Out.ofOption_eq_ok] at h
    obtain ⟨z, hz, es', h, -⟩ := h
    obtain ⟨⟨w, g1⟩, g3⟩ := c123_resources_only u h
    rw [LMap.get_erase] at g1
    by_cases hf : x.fullName = i.fullName
    · rw [if_pos hf] at g1; cases g1
    · rw [if_neg hf] at g1
      refine ⟨⟨w, g1⟩, fun g hg => ?_⟩
      rw [List.cons_append] at hg
      rcases List.mem_cons.mp hg with rfl | hg
      · exact Ne.symm hf
      · exact g3 g hg

/-- A list of resources with one more, and what is made of it. -/
theorem c123_resource_step {rnd : Nat → UInt32} {t : ResourceType} {x : ResourceItem} {u v : List ResourceItem} {fs : HMap Str ResourceFileWrapper}
    {es : List (Str × ResourceFileWrapper)} (h : resourcesConv rnd t (u ++ v) (some fs) = .ok es) :
    ((∃ es', resourcesConv rnd t (u ++ x :: v) (some fs) = .ok es') ↔ (∃ w, LMap.get fs x.fullName = some w) ∧ ∀ i ∈ u ++ v, i.fullName ≠ x.fullName) ∧
    ∀ es', resourcesConv rnd t (u ++ x :: v) (some fs) = .ok es' → ∃ w, LMap.get fs x.fullName = some w ∧
      Logic.c122_Decl w x.name (LMap.collect es) (LMap.collect es') := by
  refine ⟨⟨fun ⟨es', h'⟩ => c123_resources_only u h', fun ⟨⟨w, h1⟩, h2⟩ => ?_⟩, fun es' h' => ?_⟩
  · obtain ⟨a, c, -, e⟩ := c123_resources u h1 h2 h
    exact ⟨_, e⟩
  · obtain ⟨⟨w, h1⟩, h2⟩ := c123_resources_only u h'
    obtain ⟨a, c, rfl, e⟩ := c123_resources u h1 h2 h
    obtain rfl := Out.ok.inj (h'.symm.trans e)
    exact ⟨w, h1, c123_decl _ _ _ _⟩

theorem c123_resource_opened {ex : PathBuf → Bool} {raw : RawSketchwareProject} {p : Swrs.SketchwareProject} (hp : Swrs.SketchwareProject.parseFrom ex raw = .ok p)
    {resource : Str} {r : Resource} (hr : Resource.parse resource = .ok r) :
    Swrs.SketchwareProject.parseFrom ex { raw with resource } = .ok { p with resource := r } := by
  obtain ⟨a1, a2, a3, a4, a5, a6, a7⟩ := (c58_parts ex _ _).mp hp
  exact (c58_parts ex _ _).mpr ⟨a1, a2, a3, hr, a5, a6, a7⟩

/-- C123: a line for an image is added to the resource list of a project with resource files. The project is still opened; it can be converted exactly if there
is an image file of this name that no other line names; then this image is more. -/
theorem c123_image (ex : PathBuf → Bool) (rnd : ResourceType → Nat → UInt32) {raw : RawSketchwareProject} {p : Swrs.SketchwareProject} {P : SketchwareProject}
    (hp : Swrs.SketchwareProject.parseFrom ex raw = .ok p) (hP : SketchwareProject.tryFrom rnd p = .ok P) {rf : ResourceFiles} (hrf : p.resourceFiles = some rf)
    {resource a l : Str} {post : List Str} {x : ResourceItem} (hs : lines raw.resource = lines a ++ post) (hs' : lines resource = lines a ++ l :: post)
    (hu : c122_Under [s% "@images", s% "@sounds", s% "@fonts"] (s% "@images") (lines a)) (hx : ResourceItem.parse l = some x) :
    ∃ q, Swrs.SketchwareProject.parseFrom ex { raw with resource } = .ok q ∧
      ((∃ Q, SketchwareProject.tryFrom rnd q = .ok Q) ↔ (∃ w, LMap.get rf.images x.fullName = some w) ∧ ∀ i ∈ p.resource.images, i.fullName ≠ x.fullName) ∧
      ∀ Q, SketchwareProject.tryFrom rnd q = .ok Q → ∃ w R, LMap.get rf.images x.fullName = some w ∧
        Q = { P with resources := { P.resources with images := R } } ∧ Logic.c122_Decl w x.name P.resources.images R := by
  obtain ⟨hl, hh⟩ := c116_noHeader (r := []) c116_resourceItem hx
  rw [List.append_nil] at hh
  obtain ⟨f₀, v, g1, g2, g3, -⟩ := (c122_resource hs hs' hl hh ((c58_parts ex _ _).mp hp).2.2.2.1).1 hu
  refine ⟨_, c123_resource_opened hp (g3 x hx), ?_⟩
  unfold SketchwareProject.tryFrom at hP ⊢
  simp only [Out.bind_eq_ok, Prod.exists, hrf, Option.map_some] at hP ⊢
  obtain ⟨ss, ly, a1, cs, a2, lb, a3, im, a4, so, a5, fo, a6, a7⟩ := hP
  obtain rfl := Out.ok.inj a7
  rw [g2] at a4
  obtain ⟨k1, k2⟩ := c123_resource_step (x := x) a4
  constructor
  · rw [g2, ← k1]
    constructor
    · rintro ⟨Q, ss', ly', b1, cs', b2, lb', b3, im', b4, -⟩
      exact ⟨im', b4⟩
    · rintro ⟨im', b4⟩
      exact ⟨_, ss, ly, a1, cs, a2, lb, a3, im', b4, so, a5, fo, a6, rfl⟩
  · rintro Q ⟨ss', ly', b1, cs', b2, lb', b3, im', b4, so', b5, fo', b6, b7⟩
    obtain ⟨rfl, rfl⟩ := Prod.mk.inj (Out.ok.inj (a1.symm.trans b1))
    obtain rfl := Out.ok.inj (a2.symm.trans b2)
    obtain rfl := Out.ok.inj (a3.symm.trans b3)
    obtain rfl := Out.ok.inj (a5.symm.trans b5)
    obtain rfl := Out.ok.inj (a6.symm.trans b6)
    obtain rfl := Out.ok.inj b7
    obtain ⟨w, h1, h2⟩ := k2 im' b4
    exact ⟨w, _, h1, rfl, h2⟩

/-- C123: so with a line for a sound. -/
theorem c123_sound (ex : PathBuf → Bool) (rnd : ResourceType → Nat → UInt32) {raw : RawSketchwareProject} {p : Swrs.SketchwareProject} {P : SketchwareProject}
    (hp : Swrs.SketchwareProject.parseFrom ex raw = .ok p) (hP : SketchwareProject.tryFrom rnd p = .ok P) {rf : ResourceFiles} (hrf : p.resourceFiles = some rf)
    {resource a l : Str} {post : List Str} {x : ResourceItem} (hs : lines raw.resource = lines a ++ post) (hs' : lines resource = lines a ++ l :: post)
    (hu : c122_Under [s% "@images", s% "@sounds", s% "@fonts"] (s% "@sounds") (lines a)) (hx : ResourceItem.parse l = some x) :
    ∃ q, Swrs.SketchwareProject.parseFrom ex { raw with resource } = .ok q ∧
      ((∃ Q, SketchwareProject.tryFrom rnd q = .ok Q) ↔ (∃ w, LMap.get rf.sounds x.fullName = some w) ∧ ∀ i ∈ p.resource.sounds, i.fullName ≠ x.fullName) ∧
      ∀ Q, SketchwareProject.tryFrom rnd q = .ok Q → ∃ w R, LMap.get rf.sounds x.fullName = some w ∧
        Q = { P with resources := { P.resources with sounds := R } } ∧ Logic.c122_Decl w x.name P.resources.sounds R := by
  obtain ⟨hl, hh⟩ := c116_noHeader (r := []) c116_resourceItem hx
  rw [List.append_nil] at hh
  obtain ⟨f₀, v, g1, g2, g3, -⟩ := (c122_resource hs hs' hl hh ((c58_parts ex _ _).mp hp).2.2.2.1).2.1 hu
  refine ⟨_, c123_resource_opened hp (g3 x hx), ?_⟩
  unfold SketchwareProject.tryFrom at hP ⊢
  simp only [Out.bind_eq_ok, Prod.exists, hrf, Option.map_some] at hP ⊢
  obtain ⟨ss, ly, a1, cs, a2, lb, a3, im, a4, so, a5, fo, a6, a7⟩ := hP
  obtain rfl := Out.ok.inj a7
  rw [g2] at a5
  obtain ⟨k1, k2⟩ := c123_resource_step (x := x) a5
  constructor
  · rw [g2, ← k1]
    constructor
    · rintro ⟨Q, ss', ly', b1, cs', b2, lb', b3, im', b4, so', b5, -⟩
      exact ⟨so', b5⟩
    · rintro ⟨so', b5⟩
      exact ⟨_, ss, ly, a1, cs, a2, lb, a3, im, a4, so', b5, fo, a6, rfl⟩
  · rintro Q ⟨ss', ly', b1, cs', b2, lb', b3, im', b4, so', b5, fo', b6, b7⟩
    obtain ⟨rfl, rfl⟩ := Prod.mk.inj (Out.ok.inj (a1.symm.trans b1))
    obtain rfl := Out.ok.inj (a2.symm.trans b2)
    obtain rfl := Out.ok.inj (a3.symm.trans b3)
    obtain rfl := Out.ok.inj (a4.symm.trans b4)
    obtain rfl := Out.ok.inj (a6.symm.trans b6)
    obtain rfl := Out.ok.inj b7
    obtain ⟨w, h1, h2⟩ := k2 so' b5
    exact ⟨w, _, h1, rfl, h2⟩

/-- C123: so with a line for a font. -/
theorem c123_font (ex : PathBuf → Bool) (rnd : ResourceType → Nat → UInt32) {raw : RawSketchwareProject} {p : Swrs.SketchwareProject} {P : SketchwareProject}
    (hp : Swrs.SketchwareProject.parseFrom ex raw = .ok p) (hP : SketchwareProject.tryFrom rnd p = .ok P) {rf : ResourceFiles} (hrf : p.resourceFiles = some rf)
    {resource a l : Str} {post : List Str} {x : ResourceItem} (hs : lines raw.resource = lines a ++ post) (hs' : lines resource = lines a ++ l :: post)
    (hu : c122_Under [s% "@images", s% "@sounds", s% "@fonts"] (s% "@fonts") (lines a)) (hx : ResourceItem.parse l = some x) :
    ∃ q, Swrs.SketchwareProject.parseFrom ex { raw with resource } = .ok q ∧
      ((∃ Q, SketchwareProject.tryFrom rnd q = .ok Q) ↔ (∃ w, LMap.get rf.fonts x.fullName = some w) ∧ ∀ i ∈ p.resource.fonts, i.fullName ≠ x.fullName) ∧
      ∀ Q, SketchwareProject.tryFrom rnd q = .ok Q → ∃ w R, LMap.get rf.fonts x.fullName = some w ∧
        Q = { P with resources := { P.resources with fonts := R } } ∧ Logic.c122_Decl w x.name P.resources.fonts R := by
  obtain ⟨hl, hh⟩ := c116_noHeader (r := []) c116_resourceItem hx
  rw [List.append_nil] at hh
  obtain ⟨f₀, v, g1, g2, g3, -⟩ := (c122_resource hs hs' hl hh ((c58_parts ex _ _).mp hp).2.2.2.1).2.2.1 hu
  refine ⟨_, c123_resource_opened hp (g3 x hx), ?_⟩
  unfold SketchwareProject.tryFrom at hP ⊢
  simp only [Out.bind_eq_ok, Prod.exists, hrf, Option.map_some] at hP ⊢
  obtain ⟨ss, ly, a1, cs, a2, lb, a3, im, a4, so, a5, fo, a6, a7⟩ := hP
  obtain rfl := Out.ok.inj a7
  rw [g2] at a6
  obtain ⟨k1, k2⟩ := c123_resource_step (x := x) a6
  constructor
  · rw [g2, ← k1]
    constructor
    · rintro ⟨Q, ss', ly', b1, cs', b2, lb', b3, im', b4, so', b5, fo', b6, -⟩
      exact ⟨fo', b6⟩
    · rintro ⟨fo', b6⟩
      exact ⟨_, ss, ly, a1, cs, a2, lb, a3, im, a4, so, a5, fo', b6, rfl⟩
  · rintro Q ⟨ss', ly', b1, cs', b2, lb', b3, im', b4, so', b5, fo', b6, b7⟩
    obtain ⟨rfl, rfl⟩ := Prod.mk.inj (Out.ok.inj (a1.symm.trans b1))
    obtain rfl := Out.ok.inj (a2.symm.trans b2)
    obtain rfl := Out.ok.inj (a3.symm.trans b3)
    obtain rfl := Out.ok.inj (a4.symm.trans b4)
    obtain rfl := Out.ok.inj (a5.symm.trans b5)
    obtain rfl := Out.ok.inj b7
    obtain ⟨w, h1, h2⟩ := k2 fo' b6
    exact ⟨w, _, h1, rfl, h2⟩

end Swrs.Api

namespace Swrs.Api

/-! ### Examples -/

/-- A header alone is a section. -/
theorem c123_header_alone {x : Str} : Logic.c122_Whole ['@' :: x] ∧ Logic.c122_LastPar ['@' :: x] ('@' :: x) [] := by
  refine ⟨fun p hp => ⟨x, [], ?_⟩, by simp, .inl rfl⟩
  have e : ['@' :: x].splitOn ([] : Str) = [['@' :: x]] := by rw [List.splitOn_eq_singleton]; simp
  rw [e, List.mem_singleton] at hp
  exact hp

/-- The project with one activity is converted. -/
theorem c123_sample [MapPol] (ex : PathBuf → Bool) (rnd : ResourceType → Nat → UInt32) {g : Str} {logic : Logic} (hg : @Logic.parse toyFloats.toFloats _ g = .ok logic)
    {P : @SketchwareProject toyFloats.toFloats} (hP : @SketchwareProject.tryFrom _ toyFloats.toFloats rnd (@c120_read toyFloats.toFloats (@Swrs.View.mk toyFloats.toFloats [] []) logic) = .ok P) :
    ∃ (raw : RawSketchwareProject) (p : @Swrs.SketchwareProject toyFloats.toFloats), raw.logic = g ∧
    @Swrs.SketchwareProject.parseFrom _ toyFloats.toFloats ex raw = .ok p ∧ @SketchwareProject.tryFrom _ toyFloats.toFloats rnd p = .ok P ∧ @Swrs.SketchwareProject.logic toyFloats.toFloats p = logic :=
  ⟨c120_raw [] g, _, rfl, c120_parsed ex rfl hg, hP, rfl⟩

/-- `c123_activity`: a second activity, before the first. -/
example [MapPol] (ex : PathBuf → Bool) (rnd : ResourceType → Nat → UInt32) : let _ : Floats := toyFloats.toFloats
    ∃ (raw : RawSketchwareProject) (p : Swrs.SketchwareProject) (P : SketchwareProject) (file a l : Str) (post : List Str) (x : FileItem),
    Swrs.SketchwareProject.parseFrom ex raw = .ok p ∧ SketchwareProject.tryFrom rnd p = .ok P ∧ lines raw.file = lines a ++ post ∧
    lines file = lines a ++ l :: post ∧ c122_Under [s% "@activity", s% "@customview"] (s% "@activity") (lines a) ∧ FileItem.parse l = some x ∧
    p.view.layouts.get x.filename = none ∧ p.view.fabs.get x.filename = none ∧ p.logic.screens.get (viewNameToLogic x.filename) = none ∧
    P.screens.length = 1 := by
  let _ : Floats := toyFloats.toFloats
  have h1 : Swrs.SketchwareProject.parseFrom ex (c120_raw [] []) = .ok (c120_read ⟨[], []⟩ ⟨[]⟩) := c120_parsed ex rfl rfl
  refine ⟨_, _, _, s% "@activity\n{\"fileName\":\"next\",\"fileType\":0,\"keyboardSetting\":0,\"options\":0,\"orientation\":0,\"theme\":-1}" ++ c114_fileText.drop 9,
    s% "@activity", s% "{\"fileName\":\"next\",\"fileType\":0,\"keyboardSetting\":0,\"options\":0,\"orientation\":0,\"theme\":-1}",
    [c114_fileText.drop 10], ⟨s% "next", .activity, .unspecified, ⟨false, false, false, false⟩, .portrait, .none⟩, h1, rfl, by decide +kernel, by decide +kernel,
    ⟨⟨[], [], by decide, by simp⟩, fun a b e => ?_⟩, by decide +kernel, rfl, rfl, rfl, rfl⟩
  have : ([] : Str) ∉ lines (s% "@activity") := by decide
  exact absurd (by rw [e]; simp) this

/-- `c123_customView`: a custom view whose layout is there and not yet taken. -/
example [MapPol] (ex : PathBuf → Bool) (rnd : ResourceType → Nat → UInt32) : let _ : Floats := toyFloats.toFloats
    ∃ (raw : RawSketchwareProject) (p : Swrs.SketchwareProject) (P : SketchwareProject) (file a l : Str) (post : List Str) (x : FileItem),
    Swrs.SketchwareProject.parseFrom ex raw = .ok p ∧ SketchwareProject.tryFrom rnd p = .ok P ∧ lines raw.file = lines a ++ post ∧
    lines file = lines a ++ l :: post ∧ c122_Under [s% "@activity", s% "@customview"] (s% "@customview") (lines a) ∧ FileItem.parse l = some x ∧
    (∃ lay t, p.view.layouts.get x.filename = some lay ∧ parseRawLayout lay = .ok t) ∧ (∀ f ∈ p.file.activities ++ p.file.customViews, f.filename ≠ x.filename) := by
  let _ : Floats := toyFloats.toFloats
  have h0 : Swrs.SketchwareProject.parseFrom ex (c120_raw (s% "@row.xml") []) = .ok (c120_read ⟨[(s% "row", ⟨[]⟩)], []⟩ ⟨[]⟩) := c120_parsed ex rfl rfl
  have h1 : Swrs.SketchwareProject.parseFrom ex { c120_raw (s% "@row.xml") [] with file := c114_fileText ++ s% "\n@customview" } =
      .ok { c120_read ⟨[(s% "row", ⟨[]⟩)], []⟩ ⟨[]⟩ with
        file := ⟨[⟨s% "main", .activity, .unspecified, ⟨false, false, false, false⟩, .portrait, .none⟩], []⟩ } := c123_opened h0 (by decide +kernel)
  refine ⟨_, _, _, c114_fileText ++ s% "\n@customview\n{\"fileName\":\"row\",\"fileType\":1,\"keyboardSetting\":0,\"options\":0,\"orientation\":0,\"theme\":-1}",
    c114_fileText ++ s% "\n@customview", s% "{\"fileName\":\"row\",\"fileType\":1,\"keyboardSetting\":0,\"options\":0,\"orientation\":0,\"theme\":-1}",
    [], ⟨s% "row", .customView, .unspecified, ⟨false, false, false, false⟩, .portrait, .none⟩, h1, rfl, by decide +kernel, by decide +kernel,
    ⟨⟨lines c114_fileText, [], by decide +kernel, by simp⟩, fun a b e => ?_⟩, by decide +kernel, ⟨⟨[]⟩, _, rfl, rfl⟩, ?_⟩
  · have : ([] : Str) ∉ lines (c114_fileText ++ s% "\n@customview") := by decide +kernel
    exact absurd (by rw [e]; simp) this
  · intro f hf
    obtain rfl := List.mem_singleton.mp hf
    show s% "main" ≠ s% "row"
    decide

/-- `c123_variable`. -/
example [MapPol] (ex : PathBuf → Bool) (rnd : ResourceType → Nat → UInt32) : let _ : Floats := toyFloats.toFloats
    ∃ (raw : RawSketchwareProject) (p : Swrs.SketchwareProject) (P : SketchwareProject) (logic l hd n : Str) (pre post b : List Str) (x : Variable),
    Swrs.SketchwareProject.parseFrom ex raw = .ok p ∧ SketchwareProject.tryFrom rnd p = .ok P ∧ lines raw.logic = pre ++ post ∧ lines logic = pre ++ l :: post ∧
    Logic.c122_Whole pre ∧ Logic.c122_LastPar pre hd b ∧ Logic.c115_Header hd n (.pool (s% "java_var")) ∧ Variable.parse l = .ok x ∧ P.screens.length = 1 := by
  let _ : Floats := toyFloats.toFloats
  obtain ⟨raw, p, h1, h2, h3, -⟩ := c123_sample ex rnd (g := s% "@MainActivity.java_var\n1:x") rfl rfl
  exact ⟨raw, p, _, s% "@MainActivity.java_var\n0:y\n1:x", s% "0:y", s% "@MainActivity.java_var", s% "MainActivity", [s% "@MainActivity.java_var"], [s% "1:x"], [],
    ⟨s% "y", .boolean⟩, h2, h3, by rw [h1]; decide, by decide, c123_header_alone.1, c123_header_alone.2, ⟨by decide, '.', by decide, by decide⟩, by decide, rfl⟩

/-- `c123_listVariable`. -/
example [MapPol] (ex : PathBuf → Bool) (rnd : ResourceType → Nat → UInt32) : let _ : Floats := toyFloats.toFloats
    ∃ (raw : RawSketchwareProject) (p : Swrs.SketchwareProject) (P : SketchwareProject) (logic l hd n : Str) (pre post b : List Str) (x : ListVariable),
    Swrs.SketchwareProject.parseFrom ex raw = .ok p ∧ SketchwareProject.tryFrom rnd p = .ok P ∧ lines raw.logic = pre ++ post ∧ lines logic = pre ++ l :: post ∧
    Logic.c122_Whole pre ∧ Logic.c122_LastPar pre hd b ∧ Logic.c115_Header hd n (.pool (s% "java_list")) ∧ ListVariable.parse l = .ok x ∧ P.screens.length = 1 := by
  let _ : Floats := toyFloats.toFloats
  obtain ⟨raw, p, h1, h2, h3, -⟩ := c123_sample ex rnd (g := s% "@MainActivity.java_list\n1:x") rfl rfl
  exact ⟨raw, p, _, s% "@MainActivity.java_list\n2:y\n1:x", s% "2:y", s% "@MainActivity.java_list", s% "MainActivity", [s% "@MainActivity.java_list"], [s% "1:x"], [],
    _, h2, h3, by rw [h1]; decide, by decide, c123_header_alone.1, c123_header_alone.2, ⟨by decide, '.', by decide, by decide⟩, rfl, rfl⟩

/-- `c123_component`: a component of a known kind, and one of an unknown kind. -/
example [MapPol] (ex : PathBuf → Bool) (rnd : ResourceType → Nat → UInt32) : let _ : Floats := toyFloats.toFloats
    ∃ (raw : RawSketchwareProject) (p : Swrs.SketchwareProject) (P : SketchwareProject) (logic l logic' l' hd n : Str) (pre post b : List Str) (x y : Component) (k : ComponentKind),
    Swrs.SketchwareProject.parseFrom ex raw = .ok p ∧ SketchwareProject.tryFrom rnd p = .ok P ∧ lines raw.logic = pre ++ post ∧ lines logic = pre ++ l :: post ∧
    lines logic' = pre ++ l' :: post ∧ Logic.c122_Whole pre ∧ Logic.c122_LastPar pre hd b ∧ Logic.c115_Header hd n (.pool (s% "java_components")) ∧
    Component.parse l = some x ∧ ComponentKind.fromParser x = .ok k ∧ Component.parse l' = some y ∧ (∀ k, ComponentKind.fromParser y ≠ .ok k) ∧ P.screens.length = 1 := by
  let _ : Floats := toyFloats.toFloats
  obtain ⟨raw, p, h1, h2, h3, -⟩ := c123_sample ex rnd (g := s% "@MainActivity.java_components") rfl rfl
  refine ⟨raw, p, _, s% "@MainActivity.java_components\n" ++ Component.reconstruct ⟨s% "net", [], [], [], 17⟩, Component.reconstruct ⟨s% "net", [], [], [], 17⟩,
    s% "@MainActivity.java_components\n" ++ Component.reconstruct ⟨s% "net", [], [], [], 99⟩, Component.reconstruct ⟨s% "net", [], [], [], 99⟩,
    s% "@MainActivity.java_components", s% "MainActivity", [s% "@MainActivity.java_components"], [], [],
    ⟨s% "net", [], [], [], 17⟩, ⟨s% "net", [], [], [], 99⟩, _, h2, h3, by rw [h1]; decide, by decide +kernel, by decide +kernel, c123_header_alone.1, c123_header_alone.2,
    ⟨by decide, '.', by decide, by decide⟩, by decide +kernel, rfl, by decide +kernel, (fun k h => by cases h), rfl⟩

/-- `c123_event`. -/
example [MapPol] (ex : PathBuf → Bool) (rnd : ResourceType → Nat → UInt32) : let _ : Floats := toyFloats.toFloats
    ∃ (raw : RawSketchwareProject) (p : Swrs.SketchwareProject) (P : SketchwareProject) (logic l hd n : Str) (pre post b : List Str) (x : Swrs.Event) (e : Event),
    Swrs.SketchwareProject.parseFrom ex raw = .ok p ∧ SketchwareProject.tryFrom rnd p = .ok P ∧ lines raw.logic = pre ++ post ∧ lines logic = pre ++ l :: post ∧
    Logic.c122_Whole pre ∧ Logic.c122_LastPar pre hd b ∧ Logic.c115_Header hd n (.pool (s% "java_events")) ∧ Swrs.Event.parse l = some x ∧ Event.tryFrom x = .ok e ∧
    (∀ a, p.logic.screens.get n = some a → a.blockContainers.get e.containerId = none) ∧ P.screens.length = 1 := by
  let _ : Floats := toyFloats.toFloats
  obtain ⟨raw, p, h1, h2, h3, h4⟩ := c123_sample ex rnd (g := s% "@MainActivity.java_events") rfl rfl
  refine ⟨raw, p, _, s% "@MainActivity.java_events\n" ++ Swrs.Event.reconstruct ⟨s% "onClick", 1, s% "button1", 3⟩, Swrs.Event.reconstruct ⟨s% "onClick", 1, s% "button1", 3⟩,
    s% "@MainActivity.java_events", s% "MainActivity", [s% "@MainActivity.java_events"], [], [],
    ⟨s% "onClick", 1, s% "button1", 3⟩, _, h2, h3, by rw [h1]; decide, by decide +kernel, c123_header_alone.1, c123_header_alone.2,
    ⟨by decide, '.', by decide, by decide⟩, by decide +kernel, rfl, ?_, rfl⟩
  intro a ha
  rw [h4] at ha
  obtain rfl := Option.some.inj ha
  rfl

/-- `c123_image`: the file is there, and no line names it. (The theorems for sounds and fonts have the same hypotheses.) -/
example [MapPol] (ex : PathBuf → Bool) (rnd : ResourceType → Nat → UInt32) : let _ : Floats := toyFloats.toFloats
    ∃ (raw : RawSketchwareProject) (p : Swrs.SketchwareProject) (P : SketchwareProject) (rf : ResourceFiles) (resource a l : Str) (post : List Str) (x : ResourceItem),
    Swrs.SketchwareProject.parseFrom ex raw = .ok p ∧ SketchwareProject.tryFrom rnd p = .ok P ∧ p.resourceFiles = some rf ∧ lines raw.resource = lines a ++ post ∧
    lines resource = lines a ++ l :: post ∧ c122_Under [s% "@images", s% "@sounds", s% "@fonts"] (s% "@images") (lines a) ∧ ResourceItem.parse l = some x ∧
    (∃ w, LMap.get rf.images x.fullName = some w) ∧ ∀ i ∈ p.resource.images, i.fullName ≠ x.fullName := by
  let _ : Floats := toyFloats.toFloats
  have h0 := @c120_parsed _ ex [] [] (@Swrs.View.mk toyFloats.toFloats [] []) ⟨[]⟩ rfl rfl
  obtain ⟨a1, a2, a3, -, a5, a6, -⟩ := (c58_parts ex _ _).mp h0
  have h1 : Swrs.SketchwareProject.parseFrom ex { c120_raw [] [] with resource := s% "@images", resourceFiles := some [.u32Id 1 (s% "a.png") .image] } =
      .ok { c120_read ⟨[], []⟩ ⟨[]⟩ with resourceFiles := some ⟨none, [(s% "a.png", .u32Id 1 (s% "a.png") .image)], [], []⟩ } :=
    (c58_parts ex _ _).mpr ⟨a1, a2, a3, by decide +kernel, a5, a6, _, rfl, rfl⟩
  refine ⟨_, _, _, _, s% "@images\n{\"resFullName\":\"a.png\",\"resName\":\"a\",\"resType\":1}", s% "@images", s% "{\"resFullName\":\"a.png\",\"resName\":\"a\",\"resType\":1}", [],
    ⟨s% "a.png", s% "a", 1⟩, h1, rfl, rfl, by decide +kernel, by decide +kernel, ⟨⟨[], [], by decide, by simp⟩, fun a b e => ?_⟩, by decide +kernel, ⟨_, rfl⟩, fun i hi => by cases hi⟩
  have : ([] : Str) ∉ lines (s% "@images") := by decide
  exact absurd (by rw [e]; simp) this

end Swrs.Api
