import Verif.Props.MoveView
/-!
# C131: the screens and resources of two projects put together
-/
set_option linter.unusedSectionVars false
namespace Swrs.Api
variable [MapPol] [Floats]

/-! ### Specification: two projects put together -/

/-- Specification: nothing in the view file or logic file of the second project has the name of a screen or custom view of the first one. -/
def c131_Apart (p q : Swrs.SketchwareProject) : Prop :=
  ∀ f ∈ p.file.activities ++ p.file.customViews, f.filename ∉ q.view.layouts.keys ∧ f.filename ∉ q.view.fabs.keys ∧ viewNameToLogic f.filename ∉ q.logic.screens.keys

/-- Specification: the first project with the screens and custom views of the second one. -/
def c131_screens (p q : Swrs.SketchwareProject) : Swrs.SketchwareProject := { p with
  file := ⟨p.file.activities ++ q.file.activities, p.file.customViews ++ q.file.customViews⟩
  view := ⟨p.view.layouts ++ q.view.layouts, p.view.fabs ++ q.view.fabs⟩
  logic := ⟨p.logic.screens ++ q.logic.screens⟩ }

/-- Specification: the resource files of two projects. -/
def c131_files (a b : ResourceFiles) : ResourceFiles := { a with images := a.images ++ b.images, sounds := a.sounds ++ b.sounds, fonts := a.fonts ++ b.fonts }

/-- Specification: no two resources of the two lists have the same name, and no file has the name of the file of a resource of the other list. -/
def c131_Kinds (xs ys : List ResourceItem) (a b : HMap Str ResourceFileWrapper) : Prop :=
  (∀ x ∈ xs, ∀ y ∈ ys, x.name ≠ y.name) ∧ (∀ x ∈ xs, x.fullName ∉ LMap.keys b) ∧ ∀ y ∈ ys, y.fullName ∉ LMap.keys a

/-! ### The maps -/

omit [MapPol] [Floats] in
theorem c131_get_left {α : Type} {m n : LMap Str α} {k : Str} (h : k ∉ n.keys) : LMap.get (m ++ n) k = m.get k := by
  rw [LMap.get_append]
  cases m.get k with
  | some v => rfl
  | none => exact LMap.get_eq_none.mpr h

omit [MapPol] [Floats] in
theorem c131_get_right {α : Type} {m n : LMap Str α} {k : Str} (h : k ∉ m.keys) : LMap.get (m ++ n) k = n.get k := by
  rw [LMap.get_append, LMap.get_eq_none.mpr h]

omit [MapPol] [Floats] in
theorem c131_erase_none {α : Type} {m : LMap Str α} {k : Str} (h : k ∉ m.keys) : m.erase k = m := by
  unfold LMap.erase
  rw [List.filter_eq_self]
  intro e he
  have : e.1 ≠ k := fun e' => h (List.mem_map.mpr ⟨e, he, e'⟩)
  simpa using this

omit [MapPol] [Floats] in
theorem c131_erase_append {α : Type} (m n : LMap Str α) (k : Str) : LMap.erase (m ++ n) k = m.erase k ++ n.erase k := List.filter_append ..

omit [MapPol] [Floats] in
theorem c131_erase_keys {α : Type} {m : LMap Str α} {k j : Str} (h : j ∉ m.keys) : j ∉ (m.erase k).keys := by
  rw [LMap.keys_erase]
  exact fun h' => h (List.mem_of_mem_filter h')

/-! ### Screens -/

theorem c131_activities_right {B : List FileItem} {L1 L2 L2' : LMap Str Layout} {G1 G2 : LMap Str ScreenLogic} {F1 F2 : LMap Str AndroidView} {ss : List Screen}
    (h : activitiesConv B L2 G2 F2 = .ok (ss, L2'))
    (hb : ∀ f ∈ B, f.filename ∉ L1.keys ∧ f.filename ∉ F1.keys ∧ viewNameToLogic f.filename ∉ G1.keys) :
    activitiesConv B (L1 ++ L2) (G1 ++ G2) (F1 ++ F2) = .ok (ss, L1 ++ L2') := by
  induction B generalizing L2 G2 F2 ss with
  | nil => cases h; rfl
  | cons f B ih =>
    obtain ⟨b1, b2, b3⟩ := hb f (by simp)
    simp only [activitiesConv, Out.bind_eq_ok, Prod.exists] at h
    obtain ⟨s, h1, ss', L', h2, h3⟩ := h
    cases h3
    have := ih h2 fun g hg => hb g (by simp [hg])
    simp only [activitiesConv, c131_get_right b1, c131_get_right b2, c131_get_right b3, c131_erase_append, c131_erase_none b1, c131_erase_none b2, c131_erase_none b3,
      h1, Out.ok_bind, this]
    rfl

theorem c131_activities {A B : List FileItem} {L1 L2 L1' L2' : LMap Str Layout} {G1 G2 : LMap Str ScreenLogic} {F1 F2 : LMap Str AndroidView} {ss ts : List Screen}
    (h1 : activitiesConv A L1 G1 F1 = .ok (ss, L1')) (h2 : activitiesConv B L2 G2 F2 = .ok (ts, L2'))
    (ha : ∀ f ∈ A, f.filename ∉ L2.keys ∧ f.filename ∉ F2.keys ∧ viewNameToLogic f.filename ∉ G2.keys)
    (hb : ∀ f ∈ B, f.filename ∉ L1.keys ∧ f.filename ∉ F1.keys ∧ viewNameToLogic f.filename ∉ G1.keys) :
    activitiesConv (A ++ B) (L1 ++ L2) (G1 ++ G2) (F1 ++ F2) = .ok (ss ++ ts, L1' ++ L2') := by
  induction A generalizing L1 G1 F1 ss with
  | nil => cases h1; exact c131_activities_right h2 hb
  | cons f A ih =>
    obtain ⟨a1, a2, a3⟩ := ha f (by simp)
    simp only [activitiesConv, Out.bind_eq_ok, Prod.exists] at h1
    obtain ⟨s, h3, ss', L', h4, h5⟩ := h1
    cases h5
    have := ih h4 (fun g hg => ha g (by simp [hg])) fun g hg =>
      ⟨c131_erase_keys (hb g hg).1, c131_erase_keys (hb g hg).2.1, c131_erase_keys (hb g hg).2.2⟩
    simp only [List.cons_append, activitiesConv, c131_get_left a1, c131_get_left a2, c131_get_left a3, c131_erase_append, c131_erase_none a1, c131_erase_none a2,
      c131_erase_none a3, h3, Out.ok_bind, this]
    rfl

/-- The layouts that are left are some of the layouts. -/
theorem c131_left {A : List FileItem} {L L' : LMap Str Layout} {G : LMap Str ScreenLogic} {F : LMap Str AndroidView} {ss : List Screen}
    (h : activitiesConv A L G F = .ok (ss, L')) {k : Str} (hk : k ∉ L.keys) : k ∉ L'.keys := by
  induction A generalizing L G F ss with
  | nil => cases h; exact hk
  | cons f A ih =>
    simp only [activitiesConv, Out.bind_eq_ok, Prod.exists] at h
    obtain ⟨s, -, ss', L', h4, h5⟩ := h
    cases h5
    exact ih h4 (c131_erase_keys hk)

omit [MapPol] in
theorem c131_customs_right {B : List FileItem} {L1 L2 : LMap Str Layout} {cs : List CustomView} (h : customViewsConv B L2 = .ok cs)
    (hb : ∀ f ∈ B, f.filename ∉ L1.keys) : customViewsConv B (L1 ++ L2) = .ok cs := by
  induction B generalizing L2 cs with
  | nil => cases h; rfl
  | cons f B ih =>
    have b1 := hb f (by simp)
    simp only [customViewsConv, Out.bind_eq_ok] at h
    obtain ⟨l, h1, t, h2, cs', h3, h4⟩ := h
    cases h4
    have := ih h3 fun g hg => hb g (by simp [hg])
    simp only [customViewsConv, c131_get_right b1, c131_erase_append, c131_erase_none b1, h1, h2, Out.ok_bind, this]
    rfl

omit [MapPol] in
theorem c131_customs {A B : List FileItem} {L1 L2 : LMap Str Layout} {cs ds : List CustomView} (h1 : customViewsConv A L1 = .ok cs)
    (h2 : customViewsConv B L2 = .ok ds) (ha : ∀ f ∈ A, f.filename ∉ L2.keys) (hb : ∀ f ∈ B, f.filename ∉ L1.keys) :
    customViewsConv (A ++ B) (L1 ++ L2) = .ok (cs ++ ds) := by
  induction A generalizing L1 cs with
  | nil => cases h1; exact c131_customs_right h2 hb
  | cons f A ih =>
    have a1 := ha f (by simp)
    simp only [customViewsConv, Out.bind_eq_ok] at h1
    obtain ⟨l, h3, t, h4, cs', h5, h6⟩ := h1
    cases h6
    have := ih h5 (fun g hg => ha g (by simp [hg])) fun g hg => c131_erase_keys (hb g hg)
    simp only [List.cons_append, customViewsConv, c131_get_left a1, c131_erase_append, c131_erase_none a1, h3, h4, Out.ok_bind, this]
    rfl

/-- C131: two projects are read, and nothing in the view and logic files of one has the name of a screen or custom view of the other. With the screens of the
second one added to its files, the first project is read with the screens and custom views of both, its own first, and with its own libraries and resources. -/
theorem c131_merge (rnd rnd' : ResourceType → Nat → UInt32) {p q : Swrs.SketchwareProject} {P Q : SketchwareProject} (hP : SketchwareProject.tryFrom rnd p = .ok P)
    (hQ : SketchwareProject.tryFrom rnd' q = .ok Q) (hpq : c131_Apart p q) (hqp : c131_Apart q p) :
    SketchwareProject.tryFrom rnd (c131_screens p q) = .ok { P with screens := P.screens ++ Q.screens, customViews := P.customViews ++ Q.customViews } := by
  unfold SketchwareProject.tryFrom at hP hQ ⊢
  simp only [Out.bind_eq_ok, Prod.exists] at hP hQ
  obtain ⟨ss, ly, a1, cs, a2, lb, a3, im, a4, so, a5, fo, a6, a7⟩ := hP
  obtain ⟨ts, lz, b1, ds, b2, lb', b3, im', b4, so', b5, fo', b6, b7⟩ := hQ
  cases a7
  cases b7
  have e1 := c131_activities a1 b1 (fun f hf => hpq f (by simp [hf])) fun f hf => hqp f (by simp [hf])
  have e2 := c131_customs a2 b2 (fun f hf => c131_left b1 (hpq f (by simp [hf])).1) fun f hf => c131_left a1 (hqp f (by simp [hf])).1
  simp only [c131_screens, e1, e2, Out.ok_bind, a3, a4, a5, a6]
  rfl

/-! ### Resources -/

omit [MapPol] [Floats] in
theorem c131_resources_right {rnd rnd' : Nat → UInt32} {t : ResourceType} {ys : List ResourceItem} {a b : HMap Str ResourceFileWrapper}
    {ds : List (Str × ResourceFileWrapper)} (h : resourcesConv rnd t ys (some b) = .ok ds) (hb : ∀ y ∈ ys, y.fullName ∉ LMap.keys a) :
    resourcesConv rnd' t ys (some (a ++ b)) = .ok ds := by
  induction ys generalizing b ds with
  | nil => cases h; rfl
  | cons y ys ih =>
    have b1 := hb y (by simp)
    simp only [resourcesConv, Out.bind_eq_ok, HMap.get] at h
    obtain ⟨f, h1, fs, h2, h3⟩ := h
    cases h3
    have := ih h2 fun g hg => hb g (by simp [hg])
    simp only [resourcesConv, HMap.get, c131_get_right b1, c131_erase_append, c131_erase_none b1, h1, Out.ok_bind, this]
    rfl

omit [MapPol] [Floats] in
theorem c131_resources {rnd rnd' : Nat → UInt32} {t : ResourceType} {xs ys : List ResourceItem} {a b : HMap Str ResourceFileWrapper}
    {cs ds : List (Str × ResourceFileWrapper)} (h1 : resourcesConv rnd t xs (some a) = .ok cs) (h2 : resourcesConv rnd' t ys (some b) = .ok ds)
    (ha : ∀ x ∈ xs, x.fullName ∉ LMap.keys b) (hb : ∀ y ∈ ys, y.fullName ∉ LMap.keys a) :
    resourcesConv rnd t (xs ++ ys) (some (a ++ b)) = .ok (cs ++ ds) := by
  induction xs generalizing a cs with
  | nil => cases h1; exact c131_resources_right h2 hb
  | cons x xs ih =>
    have a1 := ha x (by simp)
    simp only [resourcesConv, Out.bind_eq_ok, HMap.get] at h1
    obtain ⟨f, h3, fs, h4, h5⟩ := h1
    cases h5
    have := ih h4 (fun g hg => ha g (by simp [hg])) fun g hg => c131_erase_keys (hb g hg)
    simp only [List.cons_append, resourcesConv, HMap.get, c131_get_left a1, c131_erase_append, c131_erase_none a1, h3, Out.ok_bind, this]
    rfl

omit [MapPol] [Floats] in
theorem c131_resources_names {rnd : Nat → UInt32} {t : ResourceType} {xs : List ResourceItem} {a : HMap Str ResourceFileWrapper}
    {cs : List (Str × ResourceFileWrapper)} (h : resourcesConv rnd t xs (some a) = .ok cs) : cs.map (·.1) = xs.map (·.name) := by
  induction xs generalizing a cs with
  | nil => cases h; rfl
  | cons x xs ih =>
    simp only [resourcesConv, Out.bind_eq_ok, HMap.get] at h
    obtain ⟨f, h3, fs, h4, h5⟩ := h
    cases h5
    rw [List.map_cons, List.map_cons, ih h4]

omit [Floats] in
theorem c131_insert {α : Type} {m n : LMap Str α} {k : Str} {v : α} (h : k ∉ m.keys) : LMap.insert (m ++ n) k v = m ++ LMap.insert n k v := by
  have hs : ∀ m : LMap Str α, k ∉ m.keys → LMap.set m k v = m := by
    intro m h
    unfold LMap.set
    have : List.map (fun e : Str × α => if e.1 = k then (k, v) else e) m = List.map id m :=
      List.map_congr_left fun e he => if_neg fun e' => h (List.mem_map.mpr ⟨e, he, e'⟩)
    rw [this, List.map_id]
  unfold LMap.insert
  by_cases hk : k ∈ n.keys
  · rw [if_pos (by rw [LMap.keys_append]; exact List.mem_append_right _ hk), if_pos hk]
    split
    · rw [c131_erase_append, c131_erase_none h, List.append_assoc]
    · unfold LMap.set at hs ⊢
      rw [List.map_append, hs m h]
  · rw [if_neg (by rw [LMap.keys_append, List.mem_append]; exact not_or.mpr ⟨h, hk⟩), if_neg hk, List.append_assoc]

omit [Floats] in
theorem c131_collect_keys {α : Type} {es : List (Str × α)} {k : Str} (h : k ∈ LMap.keys (LMap.collect es)) : k ∈ es.map (·.1) := by
  rw [← LMap.get_isSome] at h
  obtain ⟨v, h⟩ := h
  rw [LMap.get_collect] at h
  unfold LMap.last at h
  have : k ∈ LMap.keys es.reverse := LMap.get_isSome.mp ⟨v, h⟩
  unfold LMap.keys at this
  simpa using this

omit [Floats] in
theorem c131_collect {α : Type} {cs ds : List (Str × α)} (h : ∀ x ∈ cs.map (·.1), x ∉ ds.map (·.1)) : LMap.collect (cs ++ ds) = LMap.collect cs ++ LMap.collect ds := by
  have key : ∀ (ds : List (Str × α)) (n : LMap Str α), (∀ x ∈ cs.map (·.1), x ∉ ds.map (·.1)) →
      ds.foldl (fun m e => LMap.insert m e.1 e.2) (LMap.collect cs ++ n) = LMap.collect cs ++ ds.foldl (fun m e => LMap.insert m e.1 e.2) n := by
    intro ds
    induction ds with
    | nil => intro n _; rfl
    | cons d ds ih =>
      intro n h
      rw [List.foldl_cons, List.foldl_cons, c131_insert fun hk => h _ (c131_collect_keys hk) (by simp)]
      exact ih _ fun x hx hd => h x hx (by rw [List.map_cons]; exact List.mem_cons_of_mem _ hd)
  have := key ds [] h
  rw [List.append_nil] at this
  unfold LMap.collect at this ⊢
  rw [List.foldl_append]
  exact this

/-- C131: two projects with resource files are read, and no resource of one has the name, or the name of the file, of one of the other. With the resources and
resource files of the second one added, the first project is read with the resources of both. -/
theorem c131_merge_resources (rnd rnd' : ResourceType → Nat → UInt32) {p q : Swrs.SketchwareProject} {P Q : SketchwareProject} {a b : ResourceFiles}
    (hP : SketchwareProject.tryFrom rnd p = .ok P) (hQ : SketchwareProject.tryFrom rnd' q = .ok Q) (ha : p.resourceFiles = some a) (hb : q.resourceFiles = some b)
    (hi : c131_Kinds p.resource.images q.resource.images a.images b.images) (hs : c131_Kinds p.resource.sounds q.resource.sounds a.sounds b.sounds)
    (hf : c131_Kinds p.resource.fonts q.resource.fonts a.fonts b.fonts) :
    SketchwareProject.tryFrom rnd { p with
      resource := ⟨p.resource.images ++ q.resource.images, p.resource.sounds ++ q.resource.sounds, p.resource.fonts ++ q.resource.fonts⟩
      resourceFiles := some (c131_files a b) } = .ok { P with
      resources := ⟨P.resources.images ++ Q.resources.images, P.resources.sounds ++ Q.resources.sounds, P.resources.fonts ++ Q.resources.fonts⟩ } := by
  unfold SketchwareProject.tryFrom at hP hQ ⊢
  simp only [Out.bind_eq_ok, Prod.exists, ha, hb, Option.map_some] at hP hQ
  obtain ⟨ss, ly, a1, cs, a2, lb, a3, im, a4, so, a5, fo, a6, a7⟩ := hP
  obtain ⟨ts, lz, b1, ds, b2, lb', b3, im', b4, so', b5, fo', b6, b7⟩ := hQ
  cases a7
  cases b7
  have e1 := c131_resources a4 b4 hi.2.1 hi.2.2
  have e2 := c131_resources a5 b5 hs.2.1 hs.2.2
  have e3 := c131_resources a6 b6 hf.2.1 hf.2.2
  have names : ∀ {t : ResourceType} {xs ys : List ResourceItem} {a b : HMap Str ResourceFileWrapper} {u v : List (Str × ResourceFileWrapper)},
      resourcesConv (rnd t) t xs (some a) = .ok u → resourcesConv (rnd' t) t ys (some b) = .ok v → c131_Kinds xs ys a b → ∀ x ∈ u.map (·.1), x ∉ v.map (·.1) := by
    intro t xs ys a b u v hu hv hk x hx hy
    rw [c131_resources_names hu] at hx
    rw [c131_resources_names hv] at hy
    obtain ⟨x', hx', rfl⟩ := List.mem_map.mp hx
    obtain ⟨y', hy', e⟩ := List.mem_map.mp hy
    exact hk.1 x' hx' y' hy' e.symm
  simp only [a1, a2, a3, Out.ok_bind, Option.map_some, c131_files, e1, e2, e3, c131_collect (names a4 b4 hi), c131_collect (names a5 b5 hs), c131_collect (names a6 b6 hf)]
  rfl

/-! ### Texts -/

/-- Specification: no name stands for something in the view and logic files of both projects. -/
def c131_NoName (p q : Swrs.SketchwareProject) : Prop :=
  (∀ n ∈ p.view.layouts.keys, n ∉ q.view.layouts.keys) ∧ (∀ n ∈ p.view.fabs.keys, n ∉ q.view.fabs.keys) ∧ ∀ n ∈ p.logic.screens.keys, n ∉ q.logic.screens.keys

theorem c131_name {s : Str} {r : Logic} (h : Logic.parse s = .ok r) {n : Str} {x : ScreenLogic} (hx : r.screens.get n = some x) : x.name = n := by
  obtain ⟨es, he, -⟩ := (Logic.c69_ok s r).mp h
  rw [Logic.c69_screen he h n] at hx
  split at hx
  · obtain rfl := Option.some.inj hx
    exact (Logic.c115_parts he n (ScreenLogic.newEmpty n)).1
  · cases hx

theorem c131_logics {s t : Str} {a b r : Logic} (hs : Logic.parse s = .ok a) (ht : Logic.parse t = .ok b) (h : Logic.c121_Over a b r)
    (hn : ∀ n ∈ a.screens.keys, n ∉ b.screens.keys) : Logic.c115_Logics ⟨a.screens ++ b.screens⟩ r := by
  intro n
  have hk := h.screens n
  have hp := h.parts n
  unfold Logic.c121_part at hp
  simp only [LMap.get_append]
  cases ha : a.screens.get n with
  | some x =>
    have hb : b.screens.get n = none := LMap.get_eq_none.mpr (hn n (LMap.get_isSome.mp ⟨x, ha⟩))
    cases hr : r.screens.get n with
    | none => rw [hr, ha] at hk; simp at hk
    | some y =>
      rw [hr, ha, hb] at hp
      exact Logic.c115_screens_of_at ((c131_name hs ha).trans (h.names n y hr).symm) fun k => by simpa using (hp k).symm
  | none =>
    cases hb : b.screens.get n with
    | some x =>
      cases hr : r.screens.get n with
      | none => rw [hr, hb] at hk; simp at hk
      | some y =>
        rw [hr, ha, hb] at hp
        exact Logic.c115_screens_of_at ((c131_name ht hb).trans (h.names n y hr).symm) fun k => by simpa using (hp k).symm
    | none =>
      cases hr : r.screens.get n with
      | some y => rw [hr, ha, hb] at hk; simp at hk
      | none => trivial

omit [MapPol] [Floats] in
theorem c131_or {α : Type} {m n : LMap Str α} (h : ∀ k ∈ m.keys, k ∉ n.keys) (k : Str) : LMap.get (m ++ n) k = (n.get k).or (m.get k) := by
  rw [LMap.get_append]
  cases hm : m.get k with
  | some v => rw [LMap.get_eq_none.mpr (h k (LMap.get_isSome.mp ⟨v, hm⟩))]; rfl
  | none => cases n.get k <;> rfl

/-- C131: two projects are opened in which no name of a screen, custom view, layout, floating button or logic is in both. The file list, view file and logic
file of the second one are written after those of the first one, a blank line between them where the first file needs one; the first file of each pair is
one after which another one can be written (C121). The first project is then opened with the screens and custom views of both. -/
theorem c131_opened (ex : PathBuf → Bool) (rnd rnd' : ResourceType → Nat → UInt32) {raw raw' : RawSketchwareProject} {p q : Swrs.SketchwareProject} {P Q : SketchwareProject}
    (hp : Swrs.SketchwareProject.parseFrom ex raw = .ok p) (hq : Swrs.SketchwareProject.parseFrom ex raw' = .ok q) (hP : SketchwareProject.tryFrom rnd p = .ok P)
    (hQ : SketchwareProject.tryFrom rnd' q = .ok Q) (hpq : c131_Apart p q) (hqp : c131_Apart q p) (hn : c131_NoName p q)
    (hf : ¬ c121_Ended [s% "@activity", s% "@customview"] raw.file) (hf' : ∃ l ∈ [s% "@activity", s% "@customview"], (lines raw'.file).head? = some l) {gap : Str}
    (hv : (View.c121_Open raw.view ∧ gap = s% "\n\n") ∨ (View.c121_Closed raw.view ∧ gap = s% "\n")) (hl : Logic.c121_Whole raw.logic) :
    ∃ r, Swrs.SketchwareProject.parseFrom ex { raw with
        file := raw.file ++ '\n' :: raw'.file, view := raw.view ++ (gap ++ raw'.view), logic := raw.logic ++ '\n' :: '\n' :: raw'.logic } = .ok r ∧
      SketchwareProject.tryFrom rnd r = .ok { P with screens := P.screens ++ Q.screens, customViews := P.customViews ++ Q.customViews } := by
  obtain ⟨a1, a2, a3, a4, a5, a6, a7⟩ := (c58_parts ex _ _).mp hp
  obtain ⟨b1, b2, b3, b4, b5, b6, b7⟩ := (c58_parts ex _ _).mp hq
  have e1 := (c121_file a2 b2).1 hf hf'
  obtain ⟨v, e2, o2⟩ : ∃ r, View.parse (raw.view ++ (gap ++ raw'.view)) = .ok r ∧ View.c121_Over p.view q.view r := by
    rcases hv with ⟨ho, rfl⟩ | ⟨hc, rfl⟩
    · exact (View.c121_view a5 b5).1 ho
    · exact (View.c121_view a5 b5).2.1 hc
  obtain ⟨g, e3, o3⟩ := (Logic.c121_logic a6 b6).1 hl
  refine ⟨{ p with file := ⟨p.file.activities ++ q.file.activities, p.file.customViews ++ q.file.customViews⟩, view := v, logic := g },
    (c58_parts ex _ _).mpr ⟨a1, e1, a3, a4, e2, e3, a7⟩, ?_⟩
  rw [← c131_merge rnd rnd' hP hQ hpq hqp]
  refine (c115_conv rnd (p := c131_screens p q) (q := { p with
    file := ⟨p.file.activities ++ q.file.activities, p.file.customViews ++ q.file.customViews⟩, view := v, logic := g }) ⟨rfl, rfl, rfl, rfl, ⟨fun n => ?_, fun n => ?_⟩, c131_logics a6 b6 o3 hn.2.2, rfl⟩).symm
  · exact (c131_or hn.1 n).trans (o2.layouts n).symm
  · exact (c131_or hn.2.1 n).trans (o2.fabs n).symm

end Swrs.Api

/-! ### Examples -/
namespace Swrs.Api

/-- Example: a project with one screen, which has a logic and an image. -/
def c131_one [Floats] (layout java pic : Str) : Swrs.SketchwareProject := { c120_read ⟨[(layout, ⟨[]⟩)], []⟩ ⟨[(java, ScreenLogic.newEmpty java)]⟩ with
  file := ⟨[c124_act layout true], []⟩
  resource := ⟨[⟨pic, pic, 1⟩], [], []⟩
  resourceFiles := some ⟨none, [(pic, .u32Id 1 pic .image)], [], []⟩ }

/-- `c131_merge`: a project with the screen `main` and a project with the screen `next`. -/
example [MapPol] (rnd : ResourceType → Nat → UInt32) : let _ : Floats := toyFloats.toFloats
    let p := c131_one (s% "main") (s% "MainActivity") (s% "a")
    let q := c131_one (s% "next") (s% "NextActivity") (s% "b")
    c131_Apart p q ∧ c131_Apart q p ∧ ∃ P Q R, SketchwareProject.tryFrom rnd p = .ok P ∧ SketchwareProject.tryFrom rnd q = .ok Q ∧
      SketchwareProject.tryFrom rnd (c131_screens p q) = .ok R ∧ P.screens.map Screen.javaName = [s% "MainActivity"] ∧
      R.screens.map Screen.javaName = [s% "MainActivity", s% "NextActivity"] := by
  let _ : Floats := toyFloats.toFloats
  refine ⟨?_, ?_, _, _, _, rfl, rfl, rfl, rfl, rfl⟩
  · intro f hf
    cases hf with
    | head => exact ⟨show s% "main" ∉ [s% "next"] by decide, show s% "main" ∉ [] by decide, show s% "MainActivity" ∉ [s% "NextActivity"] by decide⟩
    | tail _ h => cases h
  · intro f hf
    cases hf with
    | head => exact ⟨show s% "next" ∉ [s% "main"] by decide, show s% "next" ∉ [] by decide, show s% "NextActivity" ∉ [s% "MainActivity"] by decide⟩
    | tail _ h => cases h

/-- `c131_merge_resources`: a project with the image `a` and a project with the image `b`. -/
example [MapPol] (rnd : ResourceType → Nat → UInt32) : let _ : Floats := toyFloats.toFloats
    let p := c131_one (s% "main") (s% "MainActivity") (s% "a")
    let q := c131_one (s% "next") (s% "NextActivity") (s% "b")
    ∃ P Q a b, SketchwareProject.tryFrom rnd p = .ok P ∧ SketchwareProject.tryFrom rnd q = .ok Q ∧ p.resourceFiles = some a ∧ q.resourceFiles = some b ∧
      c131_Kinds p.resource.images q.resource.images a.images b.images ∧ c131_Kinds p.resource.sounds q.resource.sounds a.sounds b.sounds ∧
      c131_Kinds p.resource.fonts q.resource.fonts a.fonts b.fonts ∧ P.resources.images.length = 1 ∧ Q.resources.images.length = 1 := by
  let _ : Floats := toyFloats.toFloats
  refine ⟨_, _, _, _, rfl, rfl, rfl, rfl, ⟨?_, ?_, ?_⟩, ⟨nofun, nofun, nofun⟩, ⟨nofun, nofun, nofun⟩, rfl, rfl⟩
  · exact show ∀ x ∈ [(⟨s% "a", s% "a", 1⟩ : ResourceItem)], ∀ y ∈ [(⟨s% "b", s% "b", 1⟩ : ResourceItem)], x.name ≠ y.name by decide
  · exact show ∀ x ∈ [(⟨s% "a", s% "a", 1⟩ : ResourceItem)], x.fullName ∉ [s% "b"] by decide
  · exact show ∀ x ∈ [(⟨s% "b", s% "b", 1⟩ : ResourceItem)], x.fullName ∉ [s% "a"] by decide

/-- `c131_opened`: a project with the screen `main` and a project with the screen `next`, each with a layout and a variable. -/
example [pol : MapPol] (ex : PathBuf → Bool) (rnd : ResourceType → Nat → UInt32) : let _ : Floats := toyFloats.toFloats
    ∃ (raw raw' : RawSketchwareProject) (p q : Swrs.SketchwareProject) (P Q : SketchwareProject), Swrs.SketchwareProject.parseFrom ex raw = .ok p ∧
      Swrs.SketchwareProject.parseFrom ex raw' = .ok q ∧ SketchwareProject.tryFrom rnd p = .ok P ∧ SketchwareProject.tryFrom rnd q = .ok Q ∧
      c131_Apart p q ∧ c131_Apart q p ∧ c131_NoName p q ∧ ¬ c121_Ended [s% "@activity", s% "@customview"] raw.file ∧
      (∃ l ∈ [s% "@activity", s% "@customview"], (lines raw'.file).head? = some l) ∧ View.c121_Open raw.view ∧ Logic.c121_Whole raw.logic ∧
      P.screens.length = 1 ∧ Q.screens.length = 1 ∧ p.view.layouts.length = 1 ∧ p.logic.screens.length = 1 := by
  let _ : Floats := toyFloats.toFloats
  have h0 : Swrs.SketchwareProject.parseFrom ex (c120_raw (s% "@main.xml") (s% "@MainActivity.java_var\n1:x")) =
      .ok (c120_read ⟨[(s% "main", ⟨[]⟩)], []⟩ ⟨[(s% "MainActivity", { ScreenLogic.newEmpty (s% "MainActivity") with
        «variables» := some ⟨[(s% "x", ⟨s% "x", .integer⟩)]⟩ })]⟩) := by
    refine c120_parsed ex rfl ?_
    obtain ⟨a, b⟩ := pol
    cases a <;> cases b <;> rfl
  have h1 : Swrs.SketchwareProject.parseFrom ex (c120_raw (s% "@next.xml") (s% "@NextActivity.java_var\n1:y")) =
      .ok (c120_read ⟨[(s% "next", ⟨[]⟩)], []⟩ ⟨[(s% "NextActivity", { ScreenLogic.newEmpty (s% "NextActivity") with
        «variables» := some ⟨[(s% "y", ⟨s% "y", .integer⟩)]⟩ })]⟩) := by
    refine c120_parsed ex rfl ?_
    obtain ⟨a, b⟩ := pol
    cases a <;> cases b <;> rfl
  have h2 := c123_opened h1 (file := s% "@activity\n{\"fileName\":\"next\",\"fileType\":0,\"keyboardSetting\":0,\"options\":0,\"orientation\":0,\"theme\":-1}")
    (f := ⟨[c124_act (s% "next") false], []⟩) (by decide +kernel)
  refine ⟨_, _, _, _, _, _, h0, h2, rfl, rfl, ?_, ?_, ⟨?_, ?_, ?_⟩, ?_, ⟨s% "@activity", by simp, by decide +kernel⟩, ?_, ?_, rfl, rfl, rfl, rfl⟩
  · intro f hf
    cases hf with
    | head => exact ⟨show s% "main" ∉ [s% "next"] by decide, show s% "main" ∉ [] by decide, show s% "MainActivity" ∉ [s% "NextActivity"] by decide⟩
    | tail _ h => cases h
  · intro f hf
    cases hf with
    | head => exact ⟨show s% "next" ∉ [s% "main"] by decide, show s% "next" ∉ [] by decide, show s% "NextActivity" ∉ [s% "MainActivity"] by decide⟩
    | tail _ h => cases h
  · exact show ∀ n ∈ [s% "main"], n ∉ [s% "next"] by decide
  · exact fun n hn => by cases hn
  · exact show ∀ n ∈ [s% "MainActivity"], n ∉ [s% "NextActivity"] by decide
  · rintro ⟨pre, post, hd, e, _⟩
    have : ([] : Str) ∉ lines c114_fileText := by decide +kernel
    exact this (by rw [show lines c114_fileText = _ from e]; simp)
  · exact ⟨[], s% "main", [], [], by simpa using show Section.WF (.layout (s% "main") [] []) from ⟨by decide, .nil⟩, rfl⟩
  · unfold Logic.c121_Whole
    rw [show (lines (c120_raw (s% "@main.xml") (s% "@MainActivity.java_var\n1:x")).logic).splitOn ([] : Str) = [[s% "@MainActivity.java_var", s% "1:x"]] by decide +kernel]
    intro p hp
    obtain rfl := List.mem_singleton.mp hp
    exact ⟨_, _, rfl⟩

/-- C131: the names must differ: a screen of the first project that has no logic gets the logic of the screen of the same name of the second project. -/
theorem c131_merge_false [MapPol] (rnd : ResourceType → Nat → UInt32) : let _ : Floats := toyFloats.toFloats
    ∃ (p q : Swrs.SketchwareProject) (P Q R : SketchwareProject), SketchwareProject.tryFrom rnd p = .ok P ∧ SketchwareProject.tryFrom rnd q = .ok Q ∧
      SketchwareProject.tryFrom rnd (c131_screens p q) = .ok R ∧ R.screens ≠ P.screens ++ Q.screens := by
  let _ : Floats := toyFloats.toFloats
  refine ⟨c131_one (s% "main") (s% "OtherActivity") (s% "a"), c131_one (s% "main") (s% "MainActivity") (s% "b"), _, _, _, rfl, rfl, rfl, ?_⟩
  intro h
  have : [s% "MainActivity", s% "main"] = [s% "main", s% "MainActivity"] := congrArg (List.map Screen.javaName) h
  revert this
  decide

/-- C131: the names of the resources must differ: of two images with the same name, only one is kept. -/
theorem c131_merge_resources_false [pol : MapPol] (rnd : ResourceType → Nat → UInt32) : let _ : Floats := toyFloats.toFloats
    ∃ (p q : Swrs.SketchwareProject) (a b : ResourceFiles) (P Q R : SketchwareProject), SketchwareProject.tryFrom rnd p = .ok P ∧
      SketchwareProject.tryFrom rnd q = .ok Q ∧ p.resourceFiles = some a ∧ q.resourceFiles = some b ∧ SketchwareProject.tryFrom rnd { p with
        resource := ⟨p.resource.images ++ q.resource.images, p.resource.sounds ++ q.resource.sounds, p.resource.fonts ++ q.resource.fonts⟩
        resourceFiles := some (c131_files a b) } = .ok R ∧ P.resources.images.length = 1 ∧ Q.resources.images.length = 1 ∧ R.resources.images.length = 1 := by
  let _ : Floats := toyFloats.toFloats
  obtain ⟨a, b⟩ := pol
  cases a <;> cases b <;> exact ⟨{ c120_read ⟨[], []⟩ ⟨[]⟩ with
      resource := ⟨[⟨s% "a.png", s% "a", 1⟩], [], []⟩
      resourceFiles := some ⟨none, [(s% "a.png", .u32Id 1 (s% "a.png") .image)], [], []⟩ }, { c120_read ⟨[], []⟩ ⟨[]⟩ with
      resource := ⟨[⟨s% "b.png", s% "a", 1⟩], [], []⟩
      resourceFiles := some ⟨none, [(s% "b.png", .u32Id 2 (s% "b.png") .image)], [], []⟩ }, _, _, _, _, _, rfl, rfl, rfl, rfl, rfl, rfl, rfl, rfl⟩

end Swrs.Api
