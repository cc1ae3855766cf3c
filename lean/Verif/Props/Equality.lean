import Verif.Proofs.EqualityOpen
import Verif.Props.ApiProject
/-!
# C98: comparing projects

`Block.Number` and `View.Float` (`Verif.Proofs.Equality`) tell which numbers occur in a block and in a view.
-/
namespace Swrs.Api

section
variable [Floats]

/-- The `f32` values of a screen. -/
def Screen.Float (s : Screen) (x : Floats.F32) : Prop :=
  (∃ v ∈ s.layout, v.Float x) ∨ ∃ v, s.fab = some v ∧ v.Float x

/-- The numbers in the code of a screen. -/
def Screen.Number (s : Screen) (x : Floats.F64) : Prop :=
  (∃ e ∈ s.events, ∃ b ∈ e.code, b.Number x) ∨
  ∃ m ∈ s.moreBlocks, ContentNumber m.2.spec x ∨ ∃ b ∈ m.2.code, b.Number x

/-- The `f32` values of a project. -/
def SketchwareProject.Float (p : SketchwareProject) (x : Floats.F32) : Prop :=
  (∃ s ∈ p.screens, s.Float x) ∨ ∃ c ∈ p.customViews, ∃ v ∈ c.layout, v.Float x

/-- The numbers in the code of a project. -/
def SketchwareProject.Number (p : SketchwareProject) (x : Floats.F64) : Prop := ∃ s ∈ p.screens, s.Number x
end

section
variable [Floats] [FloatEq] [FloatEqLaws]

theorem event_self (e : Event) : e.RustEq e ↔ ∀ b ∈ e.code, ∀ x, b.Number x → Floats.isNaN x = false := by
  unfold Event.RustEq
  refine ⟨fun h b hb x hx => Block.number_of_self hx (blocks_mem h.2.2 b hb), fun h => ⟨rfl, rfl, blocks_self _ h⟩⟩

theorem moreBlock_self (m : MoreBlock) : m.RustEq m ↔ (∀ x, ContentNumber m.spec x → Floats.isNaN x = false) ∧
    ∀ b ∈ m.code, ∀ x, b.Number x → Floats.isNaN x = false := by
  unfold MoreBlock.RustEq
  exact ⟨fun h => ⟨fun x hx => contentNumber_of_self hx h.2.1, fun b hb x hx => Block.number_of_self hx (blocks_mem h.2.2 b hb)⟩,
    fun h => ⟨rfl, content_self _ h.1, blocks_self _ h.2⟩⟩

theorem screen_self (s : Screen) : s.RustEq s ↔
    (∀ x, s.Float x → FloatEqLaws.nan32 x = false) ∧ ∀ x, s.Number x → Floats.isNaN x = false := by
  unfold Screen.RustEq Screen.Float Screen.Number
  constructor
  · rintro ⟨_, _, hl, _, _, hm, _, he, hf, _⟩
    constructor
    · rintro x (⟨v, hv, hx⟩ | ⟨v, hv, hx⟩)
      · exact view_float_of_self hx (views_mem hl v hv)
      · exact view_float_of_self hx (optEq_self.1 hf v hv)
    · rintro x (⟨e, h, b, hb, hx⟩ | ⟨m, h, hx⟩)
      · exact (event_self e).1 (listEq_self.1 he e h) b hb x hx
      · have := (moreBlock_self m.2).1 (listEq_self.1 hm m h).2
        rcases hx with hx | ⟨b, hb, hx⟩
        · exact this.1 x hx
        · exact this.2 b hb x hx
  · rintro ⟨h1, h2⟩
    refine ⟨rfl, rfl, views_self _ fun v hv x hx => h1 x (.inl ⟨v, hv, hx⟩), rfl, rfl, listEq_self.2 fun m hm => ⟨rfl, ?_⟩, rfl,
      listEq_self.2 fun e he => ?_, optEq_self.2 fun v hv => View.self_aux v fun x hx => h1 x (.inr ⟨v, hv, hx⟩), rfl, rfl, rfl, rfl,
      rfl, rfl, rfl⟩
    · exact (moreBlock_self m.2).2 ⟨fun x hx => h2 x (.inr ⟨m, hm, .inl hx⟩), fun b hb x hx => h2 x (.inr ⟨m, hm, .inr ⟨b, hb, hx⟩⟩)⟩
    · exact (event_self e).2 fun b hb x hx => h2 x (.inl ⟨e, he, b, hb, hx⟩)

/-- C98: a project is equal to itself exactly if no number in its views and in its code is NaN. -/
theorem c98_self (p : SketchwareProject) : p.RustEq p ↔
    (∀ x, p.Float x → FloatEqLaws.nan32 x = false) ∧ ∀ x, p.Number x → Floats.isNaN x = false := by
  unfold SketchwareProject.RustEq SketchwareProject.Float SketchwareProject.Number
  constructor
  · rintro ⟨_, _, _, hs, hc, _⟩
    constructor
    · rintro x (⟨s, h, hx⟩ | ⟨c, h, v, hv, hx⟩)
      · exact ((screen_self s).1 (listEq_self.1 hs s h)).1 x hx
      · exact view_float_of_self hx (views_mem (listEq_self.1 hc c h).2 v hv)
    · rintro x ⟨s, h, hx⟩
      exact ((screen_self s).1 (listEq_self.1 hs s h)).2 x hx
  · rintro ⟨h1, h2⟩
    refine ⟨rfl, rfl, rfl, listEq_self.2 fun s hs => (screen_self s).2 ⟨fun x hx => h1 x (.inl ⟨s, hs, hx⟩), fun x hx => h2 x ⟨s, hs, hx⟩⟩,
      listEq_self.2 fun c hc => ⟨rfl, views_self _ fun v hv x hx => h1 x (.inr ⟨c, hc, v, hv, hx⟩)⟩, rfl, rfl, rfl⟩

/-- C98: the comparison is symmetric. -/
theorem c98_symm {p q : SketchwareProject} (h : p.RustEq q) : q.RustEq p := by
  obtain ⟨h1, h2, h3, h4, h5, h6, h7, h8⟩ := h
  refine ⟨h1.symm, h2.symm, h3.symm, listEq_symm (fun s t hs => ?_) h4, listEq_symm (fun c d hc => ?_) h5, h6.symm, h7.symm, h8.symm⟩
  · obtain ⟨h1, h2, h3, h4, h5, h6, h7, h8, h9, h10, h11, h12, h13, h14, h15, h16⟩ := hs
    exact ⟨h1.symm, h2.symm, views_symm _ _ h3, h4.symm, h5.symm,
      listEq_symm (fun m n h => ⟨h.1.symm, h.2.1.symm, content_symm _ _ h.2.2.1, blocks_symm _ _ h.2.2.2⟩) h6, h7.symm,
      listEq_symm (fun e f h => ⟨h.1.symm, h.2.1.symm, blocks_symm _ _ h.2.2⟩) h8, optEq_symm View.symm_aux h9, h10.symm, h11.symm,
      h12.symm, h13.symm, h14.symm, h15.symm, h16.symm⟩
  · exact ⟨hc.1.symm, views_symm _ _ hc.2⟩

/-- C98: the comparison is transitive. -/
theorem c98_trans {p q r : SketchwareProject} (h : p.RustEq q) (k : q.RustEq r) : p.RustEq r := by
  obtain ⟨h1, h2, h3, h4, h5, h6, h7, h8⟩ := h
  obtain ⟨k1, k2, k3, k4, k5, k6, k7, k8⟩ := k
  refine ⟨h1.trans k1, h2.trans k2, h3.trans k3, listEq_trans (fun s t u hs hu => ?_) h4 k4, listEq_trans (fun c d e hc hd => ?_) h5 k5,
    h6.trans k6, h7.trans k7, h8.trans k8⟩
  · obtain ⟨h1, h2, h3, h4, h5, h6, h7, h8, h9, h10, h11, h12, h13, h14, h15, h16⟩ := hs
    obtain ⟨k1, k2, k3, k4, k5, k6, k7, k8, k9, k10, k11, k12, k13, k14, k15, k16⟩ := hu
    exact ⟨h1.trans k1, h2.trans k2, views_trans _ _ _ h3 k3, h4.trans k4, h5.trans k5,
      listEq_trans (fun m n o h k => ⟨h.1.trans k.1, h.2.1.trans k.2.1, content_trans _ _ _ h.2.2.1 k.2.2.1,
        blocks_trans _ _ _ h.2.2.2 k.2.2.2⟩) h6 k6, h7.trans k7,
      listEq_trans (fun e f g h k => ⟨h.1.trans k.1, h.2.1.trans k.2.1, blocks_trans _ _ _ h.2.2 k.2.2⟩) h8 k8,
      optEq_trans View.trans_aux h9 k9, h10.trans k10, h11.trans k11, h12.trans k12, h13.trans k13, h14.trans k14, h15.trans k15,
      h16.trans k16⟩
  · exact ⟨hc.1.trans hd.1, views_trans _ _ _ hc.2 hd.2⟩

/-- C98: projects without negative zeros that are equal are the same. -/
theorem c98_exact {p q : SketchwareProject} (hp : ∀ x, p.Float x → FloatEqLaws.negZero32 x = false)
    (hp' : ∀ x, p.Number x → FloatEqLaws.negZero64 x = false) (hq : ∀ x, q.Float x → FloatEqLaws.negZero32 x = false)
    (hq' : ∀ x, q.Number x → FloatEqLaws.negZero64 x = false) (h : p.RustEq q) : p = q := by
  obtain ⟨h1, h2, h3, h4, h5, h6, h7, h8⟩ := h
  have hs : p.screens = q.screens := by
    refine listEq_exact (fun s hs t ht h => ?_) h4
    have fs : ∀ x, s.Float x → _ := fun x hx => hp x (.inl ⟨s, hs, hx⟩)
    have ft : ∀ x, t.Float x → _ := fun x hx => hq x (.inl ⟨t, ht, hx⟩)
    have ns : ∀ x, s.Number x → _ := fun x hx => hp' x ⟨s, hs, hx⟩
    have nt : ∀ x, t.Number x → _ := fun x hx => hq' x ⟨t, ht, hx⟩
    obtain ⟨h1, h2, h3, h4, h5, h6, h7, h8, h9, h10, h11, h12, h13, h14, h15, h16⟩ := h
    have e3 := views_exact _ _ (fun v hv x hx => fs x (.inl ⟨v, hv, hx⟩)) (fun v hv x hx => ft x (.inl ⟨v, hv, hx⟩)) h3
    have e6 : s.moreBlocks = t.moreBlocks := by
      refine listEq_exact (fun m hm n hn h => ?_) h6
      obtain ⟨k, m⟩ := m
      obtain ⟨k', n⟩ := n
      obtain ⟨h1, h2, h3, h4⟩ := h
      have a := content_exact _ _ (fun x hx => ns x (.inr ⟨_, hm, .inl hx⟩)) (fun x hx => nt x (.inr ⟨_, hn, .inl hx⟩)) h3
      have b := blocks_exact _ _ (fun b hb x hx => ns x (.inr ⟨_, hm, .inr ⟨b, hb, hx⟩⟩))
        (fun b hb x hx => nt x (.inr ⟨_, hn, .inr ⟨b, hb, hx⟩⟩)) h4
      cases m
      cases n
      simp only at h1 h2 a b
      rw [h1, h2, a, b]
    have e8 : s.events = t.events := by
      refine listEq_exact (fun e he f hf h => ?_) h8
      obtain ⟨h1, h2, h3⟩ := h
      have b := blocks_exact _ _ (fun b hb x hx => ns x (.inl ⟨_, he, b, hb, hx⟩)) (fun b hb x hx => nt x (.inl ⟨_, hf, b, hb, hx⟩)) h3
      cases e
      cases f
      simp only at h1 h2 b
      rw [h1, h2, b]
    have e9 := optEq_exact (fun v w hv hw h => View.exact_aux v w (fun x hx => fs x (.inr ⟨v, hv, hx⟩))
      (fun x hx => ft x (.inr ⟨w, hw, hx⟩)) h) h9
    cases s
    cases t
    simp only at h1 h2 e3 h4 h5 e6 h7 e8 e9 h10 h11 h12 h13 h14 h15 h16
    rw [h1, h2, e3, h4, h5, e6, h7, e8, e9, h10, h11, h12, h13, h14, h15, h16]
  have hc : p.customViews = q.customViews := by
    refine listEq_exact (fun c hc d hd h => ?_) h5
    have := views_exact _ _ (fun v hv x hx => hp x (.inr ⟨c, hc, v, hv, hx⟩)) (fun v hv x hx => hq x (.inr ⟨d, hd, v, hv, hx⟩)) h.2
    have h1 := h.1
    cases c
    cases d
    simp only at h1 this
    rw [h1, this]
  cases p
  cases q
  simp only at h1 h2 h3 hs hc h6 h7 h8
  rw [h1, h2, h3, hs, hc, h6, h7, h8]

/-- C98: a parsed project is equal to itself: no number of a project file is read as NaN in a view. -/
theorem c98_parsed [MapPol] {ex : PathBuf → Bool} {raw : RawSketchwareProject} {val : Swrs.SketchwareProject}
    (h : Swrs.SketchwareProject.parseFrom ex raw = .ok val) : val.RustEq val := by
  simp only [Swrs.SketchwareProject.parseFrom, Out.bind_eq_ok, Out.mapErr_eq_ok, Out.pure_eq, Out.ok.injEq] at h
  obtain ⟨_, _, _, _, _, _, _, _, view, hv, _, _, _, _, rfl⟩ := h
  have hv' := viewParse_views (P := fun v => v.RustEq v)
    (fun s v h => (rawView_self v).2 fun x hx => (rawView_parse h hx).elim fun tok ht => FloatEqLaws.read_nan tok x ht) hv
  refine ⟨rfl, rfl, rfl, rfl, ⟨listEq_self.2 fun e he => ⟨rfl, listEq_self.2 (hv'.1 e he)⟩, listEq_self.2 fun e he => ⟨rfl, hv'.2 e he⟩⟩,
    rfl, optEq_self.2 fun r _ => ⟨rfl, fun _ => rfl, fun _ => rfl, fun _ => rfl⟩⟩

/-- C98: parsed projects without negative zeros that are equal are the same, up to the order of the maps of resource files, which have none. -/
theorem c98_parsed_exact {p q : Swrs.SketchwareProject}
    (hp : ∀ v, (∃ e ∈ p.view.layouts, v ∈ e.2.views) ∨ (∃ e ∈ p.view.fabs, v = e.2) → ∀ x, v.Float x → FloatEqLaws.negZero32 x = false)
    (hq : ∀ v, (∃ e ∈ q.view.layouts, v ∈ e.2.views) ∨ (∃ e ∈ q.view.fabs, v = e.2) → ∀ x, v.Float x → FloatEqLaws.negZero32 x = false)
    (h : p.RustEq q) : p.project = q.project ∧ p.file = q.file ∧ p.library = q.library ∧ p.resource = q.resource ∧ p.view = q.view ∧
      p.logic = q.logic ∧ ((p.resourceFiles = none ∧ q.resourceFiles = none) ∨
        ∃ f g, p.resourceFiles = some f ∧ q.resourceFiles = some g ∧ f.customIcon = g.customIcon ∧
          ∀ k, f.images.get k = g.images.get k ∧ f.sounds.get k = g.sounds.get k ∧ f.fonts.get k = g.fonts.get k) := by
  obtain ⟨h1, h2, h3, h4, ⟨h5, h5'⟩, h6, h7⟩ := h
  refine ⟨h1, h2, h3, h4, ?_, h6, ?_⟩
  · have hl : p.view.layouts = q.view.layouts := by
      refine listEq_exact (fun e he f hf h => ?_) h5
      have h' : e.2.views = f.2.views := listEq_exact (fun v hv w hw h =>
        rawView_exact (hp v (.inl ⟨e, he, hv⟩)) (hq w (.inl ⟨f, hf, hw⟩)) h) h.2
      exact Prod.ext h.1 (congrArg Layout.mk h')
    have hf : p.view.fabs = q.view.fabs := by
      refine listEq_exact (fun e he f hf h => ?_) h5'
      exact Prod.ext h.1 (rawView_exact (hp _ (.inr ⟨e, he, rfl⟩)) (hq _ (.inr ⟨f, hf, rfl⟩)) h.2)
    generalize p.view = a at *
    generalize q.view = b at *
    cases a
    cases b
    simp only at hl hf
    rw [hl, hf]
  · cases hf : p.resourceFiles with
    | none =>
      cases hg : q.resourceFiles with
      | none => exact .inl ⟨rfl, rfl⟩
      | some g => rw [hf, hg] at h7; exact h7.elim
    | some f =>
      cases hg : q.resourceFiles with
      | none => rw [hf, hg] at h7; exact h7.elim
      | some g =>
        rw [hf, hg] at h7
        exact .inr ⟨f, g, rfl, rfl, h7.1, fun k => ⟨h7.2.1 k, h7.2.2.1 k, h7.2.2.2 k⟩⟩

-- equal projects whose maps of resource files list the files in another order
example (p : Swrs.SketchwareProject) (w w' : ResourceFileWrapper) :
    let p := { p with view := ⟨[], []⟩, resourceFiles := some ⟨none, [(s% "a", w), (s% "b", w')], [], []⟩ }
    let q := { p with resourceFiles := some ⟨none, [(s% "b", w'), (s% "a", w)], [], []⟩ }
    p.RustEq q ∧ ∀ v, (∃ e ∈ p.view.layouts, v ∈ e.2.views) ∨ (∃ e ∈ p.view.fabs, v = e.2) →
      ∀ x, v.Float x → FloatEqLaws.negZero32 x = false := by
  refine ⟨⟨rfl, rfl, rfl, rfl, ⟨trivial, trivial⟩, rfl, rfl, fun k => ?_, fun _ => rfl, fun _ => rfl⟩, by simp⟩
  by_cases ha : k = s% "a"
  · subst ha; rfl
  · by_cases hb : k = s% "b"
    · subst hb; rfl
    · simp [HMap.get, LMap.get, Ne.symm ha, Ne.symm hb]

/-- The views of a project that was opened have no NaN. -/
theorem opened_floats [MapPol] {ex : PathBuf → Bool} {raw : RawSketchwareProject} {val : Swrs.SketchwareProject}
    {rnd : ResourceType → Nat → UInt32} {p : SketchwareProject}
    (hv : Swrs.SketchwareProject.parseFrom ex raw = .ok val) (hp : SketchwareProject.tryFrom rnd val = .ok p) :
    ∀ x, p.Float x → FloatEqLaws.nan32 x = false := by
  simp only [Swrs.SketchwareProject.parseFrom, Out.bind_eq_ok, Out.mapErr_eq_ok, Out.pure_eq, Out.ok.injEq] at hv
  obtain ⟨_, _, _, _, _, _, _, _, view, hv, _, _, _, _, rfl⟩ := hv
  have ⟨hl, hf⟩ := viewParse_views (P := fun v => ∀ x, v.Float x → FloatEqLaws.nan32 x = false)
    (fun s v h x hx => (rawView_parse h hx).elim fun tok ht => FloatEqLaws.read_nan tok x ht) hv
  obtain ⟨screens, layouts, cvs, _, _, _, _, ha, hc, _, _, _, _, hs, hcv, _⟩ := tryFrom_ok hp
  have ⟨h1, h2⟩ := activitiesConv_floats (P := fun x => FloatEqLaws.nan32 x = false) ha hl hf
  have h3 := customViewsConv_floats (P := fun x => FloatEqLaws.nan32 x = false) hc fun e he => hl e (h2 e he)
  rw [← hs] at h1
  rw [← hcv] at h3
  rintro x (⟨s, h, ⟨v, hv, hx⟩ | ⟨v, hv, hx⟩⟩ | ⟨c, h, v, hv, hx⟩)
  · exact (h1 s h).1 v hv x hx
  · exact (h1 s h).2 v hv x hx
  · exact h3 c h v hv x hx

/-- C98, what holds: a project that is opened twice is equal exactly if both have the same resources and no number in the
code is NaN. Missing: the other projects, for which it is false (`c98_ids_false`, `c98_nan_false`). -/
theorem c98_twice_partial [MapPol] {ex : PathBuf → Bool} {raw : RawSketchwareProject} {val : Swrs.SketchwareProject}
    {rnd rnd' : ResourceType → Nat → UInt32} {p q : SketchwareProject}
    (hv : Swrs.SketchwareProject.parseFrom ex raw = .ok val) (hp : SketchwareProject.tryFrom rnd val = .ok p)
    (hq : SketchwareProject.tryFrom rnd' val = .ok q) :
    p.RustEq q ↔ p.resources = q.resources ∧ ∀ x, p.Number x → Floats.isNaN x = false := by
  have hf := opened_floats hv hp
  have e : q = { p with resources := q.resources } := by
    obtain ⟨s, l, c, b, _, _, _, h1, h2, h3, _, _, _, h4, h5, h6, _, h7, h8, h9, h10⟩ := tryFrom_ok hp
    obtain ⟨s', l', c', b', _, _, _, k1, k2, k3, _, _, _, k4, k5, k6, _, k7, k8, k9, k10⟩ := tryFrom_ok hq
    rw [h1] at k1
    cases k1
    rw [h2] at k2
    cases k2
    rw [h3] at k3
    cases k3
    cases p
    cases q
    simp only at *
    rw [k4, k5, k6, k7, k8, k9, k10, h4, h5, h6, h7, h8, h9, h10]
  have key : p.RustEq q ↔ p.resources = q.resources ∧ p.RustEq p := by
    rw [e]
    unfold SketchwareProject.RustEq
    simp only [true_and, and_true]
    exact ⟨fun ⟨a, b, c⟩ => ⟨c, a, b⟩, fun ⟨c, a, b⟩ => ⟨a, b, c⟩⟩
  rw [key, c98_self]
  exact ⟨fun h => ⟨h.1, h.2.2⟩, fun h => ⟨h.1, hf, h.2⟩⟩

end

section
variable [MapPol] [Floats]

omit [MapPol] [Floats] in
theorem resourcesConv_files (rnd rnd' : Nat → UInt32) (t : ResourceType) : ∀ (items : List ResourceItem)
    (files : HMap Str ResourceFileWrapper), resourcesConv rnd t items (some files) = resourcesConv rnd' t items (some files)
  | [], _ => rfl
  | i :: rest, files => by
    rw [resourcesConv, resourcesConv]
    simp only [resourcesConv_files rnd rnd' t rest]

omit [MapPol] [Floats] in
theorem resourcesConv_again {rnd : Nat → UInt32} (rnd' : Nat → UInt32) {t : ResourceType} : ∀ {items : List ResourceItem}
    {files : Option (HMap Str ResourceFileWrapper)} {r : List (Str × ResourceFileWrapper)},
    resourcesConv rnd t items files = .ok r → ∃ r', resourcesConv rnd' t items files = .ok r'
  | items, some files, r, h => ⟨r, by rw [← h]; exact resourcesConv_files _ _ _ _ _⟩
  | [], none, _, _ => ⟨[], rfl⟩
  | i :: rest, none, r, h => by
    simp only [resourcesConv, Out.bind_eq_ok] at h
    obtain ⟨r', hr, _⟩ := h
    obtain ⟨r'', hr''⟩ := resourcesConv_again rnd' hr
    exact ⟨_, by rw [resourcesConv, hr'']; rfl⟩

/-- C98: a project that can be opened can be opened again. -/
theorem c98_again {val : Swrs.SketchwareProject} {rnd : ResourceType → Nat → UInt32} {p : SketchwareProject}
    (hp : SketchwareProject.tryFrom rnd val = .ok p) (rnd' : ResourceType → Nat → UInt32) :
    ∃ q, SketchwareProject.tryFrom rnd' val = .ok q := by
  obtain ⟨s, l, c, b, _, _, _, h1, h2, h3, h4, h5, h6, _⟩ := tryFrom_ok hp
  obtain ⟨_, k4⟩ := resourcesConv_again (rnd' .image) h4
  obtain ⟨_, k5⟩ := resourcesConv_again (rnd' .sound) h5
  obtain ⟨_, k6⟩ := resourcesConv_again (rnd' .font) h6
  simp only [SketchwareProject.tryFrom, h1, h2, h3, k4, k5, k6, Out.ok_bind]
  exact ⟨_, rfl⟩

/-- C98: the resources are the same if the resource files were given, or if there are no resources. -/
theorem c98_resources {val : Swrs.SketchwareProject} {rnd rnd' : ResourceType → Nat → UInt32} {p q : SketchwareProject}
    (hp : SketchwareProject.tryFrom rnd val = .ok p) (hq : SketchwareProject.tryFrom rnd' val = .ok q)
    (h : val.resourceFiles ≠ none ∨ val.resource = ⟨[], [], []⟩) : p.resources = q.resources := by
  obtain ⟨_, _, _, _, i, s, f, _, _, _, h4, h5, h6, _, _, _, h7, _⟩ := tryFrom_ok hp
  obtain ⟨_, _, _, _, i', s', f', _, _, _, k4, k5, k6, _, _, _, k7, _⟩ := tryFrom_ok hq
  have key : ∀ (t : ResourceType) (items : List ResourceItem) (files : ResourceFiles → HMap Str ResourceFileWrapper),
      (val.resourceFiles ≠ none ∨ items = []) →
      resourcesConv (rnd t) t items (val.resourceFiles.map files) = resourcesConv (rnd' t) t items (val.resourceFiles.map files) := by
    rintro t items files (h | rfl)
    · cases e : val.resourceFiles with
      | none => exact absurd e h
      | some r => exact resourcesConv_files _ _ _ _ _
    · rfl
  rw [key .image _ _ (h.imp_right fun h => by rw [h]), k4] at h4
  rw [key .sound _ _ (h.imp_right fun h => by rw [h]), k5] at h5
  rw [key .font _ _ (h.imp_right fun h => by rw [h]), k6] at h6
  cases h4
  cases h5
  cases h6
  rw [h7, k7]

/-- `c98_again` and `c98_resources`: with its files the image is the same each time, without them its random number differs. -/
example : (∃ p q, SketchwareProject.tryFrom (fun _ _ => 3) (bareProject (s% "Y") [] [someImage] (some someFiles)) = .ok p ∧
      SketchwareProject.tryFrom (fun _ _ => 4) (bareProject (s% "Y") [] [someImage] (some someFiles)) = .ok q ∧
      p.resources = q.resources) ∧
    ∃ p q, SketchwareProject.tryFrom (fun _ _ => 3) (bareProject (s% "Y") [] [someImage] none) = .ok p ∧
      SketchwareProject.tryFrom (fun _ _ => 4) (bareProject (s% "Y") [] [someImage] none) = .ok q ∧
      p.resources.images = [(s% "a", .u32Id 3 (s% "a.png") .image)] ∧ q.resources.images = [(s% "a", .u32Id 4 (s% "a.png") .image)] :=
  ⟨⟨_, _, rfl, rfl, rfl⟩, _, _, rfl, rfl, rfl, rfl⟩

end
end Swrs.Api
