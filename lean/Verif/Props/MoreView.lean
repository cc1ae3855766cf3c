import Verif.Props.MoreApi
/-!
# C123: one line more in the view file, in the project
-/
set_option linter.unusedSectionVars false
namespace Swrs.Api
variable [MapPol] [Floats]

/-! ### One view more in a tree -/

/-- Specification: the second list of trees is the first one with one leaf more, the view `x`, among the views of its parent. The lists are the views of `p`. -/
inductive c123_Added (x : AndroidView) : Str → List View → List View → Prop
  | here {p : Str} {a b : List View} (h : x.parent = some p) : c123_Added x p (a ++ b) (a ++ View.ofRaw x :: b)
  | inside {p : Str} {a b cs : List View} {v : View} (h : c123_Added x v.id v.children cs) : c123_Added x p (a ++ v :: b) (a ++ { v with children := cs } :: b)

theorem c123_added_append {x : AndroidView} {p : Str} {S T : List View} (h : c123_Added x p S T) (c : List View) : c123_Added x p (S ++ c) (T ++ c) := by
  cases h with
  | here h => rw [List.append_assoc, List.append_assoc]; exact .here h
  | inside h => rw [List.append_assoc, List.append_assoc]; exact .inside h

theorem c123_modify_append (q : Str) (f : View → View) : ∀ a b : List View, modifyIdIn q f (a ++ b) = match modifyIdIn q f a with
    | some a' => some (a' ++ b)
    | none => (modifyIdIn q f b).map (a ++ ·)
  | [], b => by simp [modifyIdIn]
  | v :: a, b => by
    rw [List.cons_append, modifyIdIn, modifyIdIn]
    cases hv : View.modifyId q f v with
    | some w => rfl
    | none =>
      simp only [c123_modify_append q f a b]
      cases modifyIdIn q f a with
      | some a' => rfl
      | none => simp [Function.comp_def]

theorem c123_modify_leaf {x : AndroidView} {q : Str} (f : View → View) (hq : q ≠ x.id) : View.modifyId q f (View.ofRaw x) = none := by
  rw [View.modifyId_eq, if_neg (show (View.ofRaw x).id ≠ q from Ne.symm hq)]
  rfl

theorem c123_added_none {x : AndroidView} {q : Str} {f : View → View} (hq : q ≠ x.id) {p : Str} {S T : List View} (h : c123_Added x p S T)
    (hS : modifyIdIn q f S = none) : modifyIdIn q f T = none := by
  induction h with
  | @here p a b h =>
    rw [c123_modify_append] at hS ⊢
    cases ha : modifyIdIn q f a with
    | some a' => rw [ha] at hS; cases hS
    | none =>
      rw [ha] at hS
      simp only [Option.map_eq_none_iff] at hS
      simp [modifyIdIn, c123_modify_leaf f hq, hS]
  | @inside p a b cs v h ih =>
    rw [c123_modify_append] at hS ⊢
    cases ha : modifyIdIn q f a with
    | some a' => rw [ha] at hS; cases hS
    | none =>
      rw [ha] at hS
      simp only [Option.map_eq_none_iff, modifyIdIn, View.modifyId_eq] at hS ⊢
      by_cases hv : v.id = q
      · simp [hv] at hS
      · simp only [hv, ↓reduceIte] at hS ⊢
        cases hc : modifyIdIn q f v.children with
        | some c => simp [hc] at hS
        | none =>
          simp only [hc, Option.map_none, Option.map_eq_none_iff] at hS
          simp [ih hc, hS]

/-- A view that is placed elsewhere is placed likewise when there is one leaf more. -/
theorem c123_added_push {x r : AndroidView} {q : Str} (hq : q ≠ x.id) {p : Str} {S T : List View} (h : c123_Added x p S T) : ∀ {S' : List View},
    modifyIdIn q (View.push r) S = some S' → ∃ T', modifyIdIn q (View.push r) T = some T' ∧ c123_Added x p S' T' := by
  induction h with
  | @here p a b h =>
    intro S' hS
    rw [c123_modify_append] at hS ⊢
    cases ha : modifyIdIn q (View.push r) a with
    | some a' =>
      rw [ha] at hS
      obtain rfl := Option.some.inj hS
      exact ⟨_, rfl, .here h⟩
    | none =>
      rw [ha] at hS
      simp only [Option.map_eq_some_iff] at hS
      obtain ⟨b', hb, rfl⟩ := hS
      refine ⟨a ++ View.ofRaw x :: b', ?_, .here h⟩
      simp [modifyIdIn, c123_modify_leaf _ hq, hb]
  | @inside p a b cs v h ih =>
    intro S' hS
    rw [c123_modify_append] at hS ⊢
    cases ha : modifyIdIn q (View.push r) a with
    | some a' =>
      rw [ha] at hS
      obtain rfl := Option.some.inj hS
      exact ⟨_, rfl, .inside h⟩
    | none =>
      rw [ha] at hS
      simp only [Option.map_eq_some_iff] at hS
      obtain ⟨z, hz, rfl⟩ := hS
      rw [modifyIdIn, View.modifyId_eq] at hz
      by_cases hv : v.id = q
      · rw [if_pos hv] at hz
        obtain rfl := Option.some.inj hz
        refine ⟨a ++ View.push r { v with children := cs } :: b, ?_, ?_⟩
        · simp [modifyIdIn, View.modifyId_eq, hv]
        · exact .inside (v := View.push r v) (c123_added_append h _)
      · rw [if_neg hv] at hz
        cases hc : modifyIdIn q (View.push r) v.children with
        | some c =>
          rw [hc] at hz
          obtain rfl := Option.some.inj hz
          obtain ⟨cs', k1, k2⟩ := ih hc
          refine ⟨a ++ { v with children := cs' } :: b, ?_, .inside (v := { v with children := c }) k2⟩
          simp [modifyIdIn, View.modifyId_eq, hv, k1]
        | none =>
          rw [hc] at hz
          simp only [Option.map_none, Option.map_eq_some_iff] at hz
          obtain ⟨b', hb, rfl⟩ := hz
          refine ⟨a ++ { v with children := cs } :: b', ?_, .inside h⟩
          simp [modifyIdIn, View.modifyId_eq, hv, c123_added_none hq h hc, hb]

theorem c123_place_keep {x r : AndroidView} (hr : ∀ q, r.parent = some q → q ≠ s% "root" → q ≠ x.id) {S T S' : List View} (h : c123_Added x (s% "root") S T)
    (hS : placeView S r = .ok S') : ∃ T', placeView T r = .ok T' ∧ c123_Added x (s% "root") S' T' := by
  unfold placeView at hS ⊢
  cases hp : r.parent with
  | none => simp [hp] at hS
  | some q =>
    simp only [hp] at hS ⊢
    by_cases hq : q = s% "root"
    · rw [if_pos hq] at hS ⊢
      obtain rfl := Out.ok.inj hS
      exact ⟨_, rfl, c123_added_append h _⟩
    · rw [if_neg hq] at hS ⊢
      cases hm : modifyIdIn q (View.push r) S with
      | none => simp [hm] at hS
      | some S₁ =>
        simp only [hm] at hS
        obtain rfl := Out.ok.inj hS
        obtain ⟨T', k1, k2⟩ := c123_added_push (hr q hp hq) h hm
        exact ⟨T', by rw [k1], k2⟩

theorem c123_places_keep {x : AndroidView} : ∀ {w : List AndroidView} {S T S' : List View}, (∀ r ∈ w, ∀ q, r.parent = some q → q ≠ s% "root" → q ≠ x.id) →
    c123_Added x (s% "root") S T → placeViews w S = .ok S' → ∃ T', placeViews w T = .ok T' ∧ c123_Added x (s% "root") S' T'
  | [], S, T, S', _, h, hS => by
    obtain rfl := Out.ok.inj hS
    exact ⟨T, rfl, h⟩
  | r :: w, S, T, S', hr, h, hS => by
    rw [placeViews, Out.bind_eq_ok] at hS
    obtain ⟨S₁, h1, h2⟩ := hS
    obtain ⟨T₁, k1, k2⟩ := c123_place_keep (hr r (by simp)) h h1
    obtain ⟨T', k3, k4⟩ := c123_places_keep (fun r hr' => hr r (by simp [hr'])) k2 h2
    exact ⟨T', by rw [placeViews, k1]; exact k3, k4⟩

theorem c123_updated {x : AndroidView} {q : Str} (hq : x.parent = some q) {w v v' : View} (h : Updated q w (View.push x w) v v') :
    ∃ cs, v' = { v with children := cs } ∧ c123_Added x v.id v.children cs := by
  induction h with
  | here h =>
    refine ⟨w.children ++ [View.ofRaw x], rfl, ?_⟩
    have := c123_Added.here (x := x) (p := w.id) (a := w.children) (b := []) (by rw [hq, h])
    rwa [List.append_nil] at this
  | @inside v c c' pre post hv hc hpre _ ih =>
    obtain ⟨cs, rfl, k⟩ := ih
    exact ⟨_, rfl, by rw [hc]; exact .inside k⟩

theorem c123_place_new {x : AndroidView} {S S' : List View} (h : placeView S x = .ok S') : c123_Added x (s% "root") S S' := by
  unfold placeView at h
  cases hp : x.parent with
  | none => simp [hp] at h
  | some q =>
    simp only [hp] at h
    by_cases hq : q = s% "root"
    · rw [if_pos hq] at h
      obtain rfl := Out.ok.inj h
      have := c123_Added.here (x := x) (p := s% "root") (a := S) (b := []) (by rw [hp, hq])
      rwa [List.append_nil] at this
    · rw [if_neg hq] at h
      cases hm : modifyIdIn q (View.push x) S with
      | none => simp [hm] at h
      | some S₁ =>
        simp only [hm] at h
        obtain rfl := Out.ok.inj h
        obtain ⟨w, pre, c, post, c', rfl, -, hu, rfl⟩ := (modifyIdIn_some fun v _ => View.modifyId_some _ _ v).mp hm
        obtain ⟨cs, rfl, k⟩ := c123_updated hp hu
        exact .inside k

theorem c123_places_append : ∀ (a b : List AndroidView) (S : List View), placeViews (a ++ b) S = placeViews a S >>= placeViews b
  | [], b, S => rfl
  | r :: a, b, S => by
    rw [List.cons_append, placeViews, placeViews]
    cases placeView S r with
    | ok S₁ => exact c123_places_append a b S₁
    | err e => rfl
    | panic => rfl

/-- C123: a view with a new id and a parent that is there is added to the list of a layout. The list is still a tree, and this tree has one leaf more,
the view, under its parent. -/
theorem c123_tree {u w : List AndroidView} {x : AndroidView} {vs : List View} {p : Str} (h : parseRawLayout ⟨u ++ w⟩ = .ok vs) (hx : ∀ r ∈ u ++ w, r.id ≠ x.id)
    (hp : x.parent = some p) (hpu : p = s% "root" ∨ p ∈ u.map (·.id)) : ∃ vs', parseRawLayout ⟨u ++ x :: w⟩ = .ok vs' ∧ c123_Added x (s% "root") vs vs' := by
  have hg : Grounded (u ++ w) := (c33_accepts ⟨u ++ w⟩).mp ⟨vs, h⟩
  have hg' : Grounded (u ++ [x]) := by
    intro pre r post e
    rcases List.append_eq_append_iff.mp e with ⟨c, rfl, hc⟩ | ⟨c, rfl, hc⟩
    · cases c with
      | nil =>
        obtain ⟨rfl, -⟩ := List.cons.inj hc
        exact ⟨p, hp, by simpa using hpu⟩
      | cons z c => simp at hc
    · cases c with
      | nil =>
        obtain ⟨rfl, -⟩ := List.cons.inj hc
        exact ⟨p, hp, by simpa using hpu⟩
      | cons z c =>
        obtain ⟨rfl, hc⟩ := List.cons.inj hc
        exact hg pre r (c ++ w) (by simp)
  obtain ⟨vs₁, h1⟩ := (c33_accepts ⟨u ++ [x]⟩).mpr hg'
  unfold parseRawLayout at h h1 ⊢
  rw [c123_places_append, Out.bind_eq_ok] at h h1
  obtain ⟨S, h2, h3⟩ := h
  obtain ⟨S', h2', h4⟩ := h1
  obtain rfl := Out.ok.inj (h2.symm.trans h2')
  rw [placeViews, Out.bind_eq_ok] at h4
  obtain ⟨T, h5, -⟩ := h4
  have hw : ∀ r ∈ w, ∀ q, r.parent = some q → q ≠ s% "root" → q ≠ x.id := by
    rintro r hr q hq hq0 rfl
    obtain ⟨a, b, rfl⟩ := List.append_of_mem hr
    obtain ⟨p', e, k⟩ := hg (u ++ a) r b (by simp)
    obtain rfl := Option.some.inj (e.symm.trans hq)
    rcases k with k | k
    · exact hq0 k
    · obtain ⟨y, hy, e⟩ := List.mem_map.mp k
      exact hx y (by simp only [List.mem_append, List.mem_cons] at hy ⊢; rcases hy with hy | hy <;> simp [hy]) e
  obtain ⟨vs', k1, k2⟩ := c123_places_keep hw (c123_place_new h5) h3
  refine ⟨vs', ?_, k2⟩
  rw [c123_places_append, h2]
  show placeViews (x :: w) S = _
  rw [placeViews, h5]
  exact k1

/-! ### One view more in a project -/

/-- Two maps of layouts that are the same but for the layout of this name. -/
def c123_Layouts (D : Layout → Layout → Prop) (name : Str) (ls ls' : LMap Str Layout) : Prop :=
  ∀ n, ls'.get n = ls.get n ∨ (n = name ∧ ∃ a b, ls.get n = some a ∧ ls'.get n = some b ∧ D a b)

theorem c123_layouts_erase {D : Layout → Layout → Prop} {name : Str} {ls ls' : LMap Str Layout} (h : c123_Layouts D name ls ls') (k : Str) :
    c123_Layouts D name (ls.erase k) (ls'.erase k) := by
  intro n
  rw [LMap.get_erase, LMap.get_erase]
  by_cases hn : n = k
  · simp [hn]
  · simp only [if_neg hn]
    exact h n

theorem c123_get_erase {α : Type} {ls ls' : LMap Str α} (h : ∀ n, ls'.get n = ls.get n) (k n : Str) : (ls'.erase k).get n = (ls.erase k).get n := by
  rw [LMap.get_erase, LMap.get_erase, h]

theorem c123_conv_get : ∀ (items : List FileItem) {ls ls' : LMap Str Layout} {lg : LMap Str ScreenLogic} {fb fb' : LMap Str AndroidView}
    {ss : List Screen} {ly : LMap Str Layout}, (∀ n, ls'.get n = ls.get n) → (∀ n, fb'.get n = fb.get n) → activitiesConv items ls lg fb = .ok (ss, ly) →
    ∃ ly', activitiesConv items ls' lg fb' = .ok (ss, ly') ∧ ∀ n, ly'.get n = ly.get n
  | [], ls, ls', lg, fb, fb', ss, ly, h1, h2, h => by
    obtain ⟨rfl, rfl⟩ := Prod.mk.inj (Out.ok.inj h)
    exact ⟨ls', rfl, h1⟩
  | f :: items, ls, ls', lg, fb, fb', ss, ly, h1, h2, h => by
    rw [activitiesConv] at h ⊢
    simp only [Out.bind_eq_ok, Out.mapErr_eq_ok, Out.pure_eq, Out.ok.injEq, Prod.mk.injEq, Prod.exists] at h
    obtain ⟨s, hs, ss', ly₁, h, rfl, rfl⟩ := h
    obtain ⟨ly', g1, g2⟩ := c123_conv_get items (c123_get_erase h1 f.filename) (c123_get_erase h2 f.filename) h
    refine ⟨ly', ?_, g2⟩
    rw [h1, h2, hs, g1]
    rfl

theorem c123_customs_get : ∀ (items : List FileItem) {ls ls' : LMap Str Layout}, (∀ n, ls'.get n = ls.get n) → customViewsConv items ls' = customViewsConv items ls
  | [], _, _, _ => rfl
  | f :: items, ls, ls', h => by
    rw [customViewsConv, customViewsConv, h, c123_customs_get items (c123_get_erase h f.filename)]

section
variable {D : Layout → Layout → Prop} {T : List View → List View → Prop} {name : Str}
  (hD : ∀ {a b : Layout} {vs : List View}, D a b → parseRawLayout a = .ok vs → ∃ vs', parseRawLayout b = .ok vs' ∧ T vs vs')

include hD in
theorem c123_conv_layout : ∀ (items : List FileItem) {ls ls' : LMap Str Layout} {lg : LMap Str ScreenLogic} {fb fb' : LMap Str AndroidView}
    {ss : List Screen} {ly : LMap Str Layout}, c123_Layouts D name ls ls' → (∀ n, fb'.get n = fb.get n) → activitiesConv items ls lg fb = .ok (ss, ly) →
    ∃ ss' ly', activitiesConv items ls' lg fb' = .ok (ss', ly') ∧ ((ss' = ss ∧ c123_Layouts D name ly ly') ∨
      ((∀ n, ly'.get n = ly.get n) ∧ ∃ A s t B f, ss = A ++ s :: B ∧ ss' = A ++ t :: B ∧ items[A.length]? = some f ∧ f.filename = name ∧
        t = { s with layout := t.layout } ∧ T s.layout t.layout))
  | [], ls, ls', lg, fb, fb', ss, ly, h1, h2, h => by
    obtain ⟨rfl, rfl⟩ := Prod.mk.inj (Out.ok.inj h)
    exact ⟨_, ls', rfl, .inl ⟨rfl, h1⟩⟩
  | f :: items, ls, ls', lg, fb, fb', ss, ly, h1, h2, h => by
    rw [activitiesConv] at h ⊢
    simp only [Out.bind_eq_ok, Out.mapErr_eq_ok, Out.pure_eq, Out.ok.injEq, Prod.mk.injEq, Prod.exists] at h
    obtain ⟨s, hs, ss', ly₁, h, rfl, rfl⟩ := h
    rcases h1 f.filename with e | ⟨hn, a, b, e1, e2, hab⟩
    · obtain ⟨ss₁, ly', g1, g2⟩ := c123_conv_layout items (c123_layouts_erase h1 f.filename) (c123_get_erase h2 f.filename) h
      refine ⟨s :: ss₁, ly', by rw [e, h2, hs, g1]; rfl, ?_⟩
      rcases g2 with ⟨rfl, g2⟩ | ⟨g2, A, s', t, B, g, rfl, rfl, k1, k2, k3, k4⟩
      · exact .inl ⟨rfl, g2⟩
      · exact .inr ⟨g2, s :: A, s', t, B, g, rfl, rfl, by simpa using k1, k2, k3, k4⟩
    · have he : ∀ n, (ls'.erase f.filename).get n = (ls.erase f.filename).get n := by
        intro n
        rw [LMap.get_erase, LMap.get_erase]
        by_cases hne : n = f.filename
        · simp [hne]
        · simp only [if_neg hne]
          exact (h1 n).resolve_right fun h => hne (h.1.trans hn.symm)
      obtain ⟨ly', g1, g2⟩ := c123_conv_get items he (c123_get_erase h2 f.filename) h
      rw [e1] at hs
      simp only [Option.getD_some] at hs
      obtain ⟨lay, mbs, cs, comps, evs, cs', a1, a2, a3, a4, rfl⟩ := c120_screen_ok hs
      rw [Out.mapErr_eq_ok] at a1
      obtain ⟨lay', k1, k2⟩ := hD hab a1
      refine ⟨⟨_, _, lay', _, _, _, _, _, _, _, _, _, _, _, _, _⟩ :: ss', ly', ?_, .inr ⟨g2, [], _, _, ss', f, rfl, rfl, rfl, hn, rfl, k2⟩⟩
      rw [e2, h2, g1]
      simp only [Option.getD_some, Screen.fromParsed, k1, a2, a3, a4, Out.mapErr_ok, Out.ok_bind]
      rfl

include hD in
theorem c123_customs_layout : ∀ (items : List FileItem) {ls ls' : LMap Str Layout} {cs : List CustomView}, c123_Layouts D name ls ls' →
    customViewsConv items ls = .ok cs → ∃ cs', customViewsConv items ls' = .ok cs' ∧ (cs' = cs ∨ ∃ A s t B, cs = A ++ s :: B ∧ cs' = A ++ t :: B ∧
      s.resName = name ∧ t.resName = name ∧ T s.layout t.layout)
  | [], ls, ls', cs, h1, h => ⟨cs, h, .inl rfl⟩
  | f :: items, ls, ls', cs, h1, h => by
    rw [customViewsConv] at h ⊢
    simp only [Out.bind_eq_ok, Out.mapErr_eq_ok, Out.ofOption_eq_ok, Out.pure_eq, Out.ok.injEq] at h
    obtain ⟨a, ha, lay, hl, cs₁, h, rfl⟩ := h
    rcases h1 f.filename with e | ⟨hn, a', b, e1, e2, hab⟩
    · obtain ⟨cs', g1, g2⟩ := c123_customs_layout items (c123_layouts_erase h1 f.filename) h
      refine ⟨_ :: cs', by rw [e, ha]; simp only [Out.ofOption_some, Out.ok_bind, hl, Out.mapErr_ok, g1]; rfl, ?_⟩
      rcases g2 with rfl | ⟨A, s, t, B, rfl, rfl, k⟩
      · exact .inl rfl
      · exact .inr ⟨_ :: A, s, t, B, rfl, rfl, k⟩
    · obtain rfl := Option.some.inj (ha.symm.trans e1)
      obtain ⟨lay', k1, k2⟩ := hD hab hl
      have he : ∀ n, (ls'.erase f.filename).get n = (ls.erase f.filename).get n := by
        intro n
        rw [LMap.get_erase, LMap.get_erase]
        by_cases hne : n = f.filename
        · simp [hne]
        · simp only [if_neg hne]
          exact (h1 n).resolve_right fun h => hne (h.1.trans hn.symm)
      refine ⟨⟨f.filename, lay'⟩ :: cs₁, ?_, .inr ⟨[], _, _, cs₁, rfl, rfl, hn, hn, k2⟩⟩
      rw [e2, c123_customs_get items he]
      simp only [Out.ofOption_some, Out.ok_bind, k1, Out.mapErr_ok, h]
      rfl
end

theorem c123_view_opened {ex : PathBuf → Bool} {raw : RawSketchwareProject} {p : Swrs.SketchwareProject} (hp : Swrs.SketchwareProject.parseFrom ex raw = .ok p)
    {view : Str} {r : Swrs.View} (hr : Swrs.View.parse view = .ok r) : Swrs.SketchwareProject.parseFrom ex { raw with view } = .ok { p with view := r } := by
  obtain ⟨a1, a2, a3, a4, a5, a6, a7⟩ := (c58_parts ex _ _).mp hp
  exact (c58_parts ex _ _).mpr ⟨a1, a2, a3, a4, hr, a6, a7⟩

/-- C123: a line for a view with a new id is added to a layout, under the root or under a view that comes before. The project is still opened and converted, and
is the same but for the views of one screen or of one custom view, of this name, which have this view more, as a leaf under its parent. -/
theorem c123_view (ex : PathBuf → Bool) (rnd : ResourceType → Nat → UInt32) {raw : RawSketchwareProject} {p : Swrs.SketchwareProject} {P : SketchwareProject}
    (hp : Swrs.SketchwareProject.parseFrom ex raw = .ok p) (hP : SketchwareProject.tryFrom rnd p = .ok P) {view l name pid : Str} {ss : List Section}
    {b post : List Str} {x : AndroidView} (hw : ∀ y ∈ ss, y.WF) (hd : '.' ∉ name)
    (hs : lines raw.view = ss.flatMap Section.toLines ++ ('@' :: (name ++ s% ".xml")) :: (b ++ post))
    (hs' : lines view = ss.flatMap Section.toLines ++ ('@' :: (name ++ s% ".xml")) :: (b ++ l :: post)) (hb : [] ∉ b) (hx : AndroidView.parse l = some x)
    (hnew : ∀ lay, p.view.layouts.get name = some lay → ∀ r ∈ lay.views, r.id ≠ x.id) (hpar : x.parent = some pid)
    (hpid : pid = s% "root" ∨ ∀ lay, p.view.layouts.get name = some lay → pid ∈ (lay.views.take b.length).map (·.id)) :
    ∃ q Q, Swrs.SketchwareProject.parseFrom ex { raw with view } = .ok q ∧ SketchwareProject.tryFrom rnd q = .ok Q ∧
      (Q = P ∨
        (∃ A s t B f, P.screens = A ++ s :: B ∧ Q = { P with screens := A ++ t :: B } ∧ p.file.activities[A.length]? = some f ∧ f.filename = name ∧
          t = { s with layout := t.layout } ∧ c123_Added x (s% "root") s.layout t.layout) ∨
        ∃ A s t B, P.customViews = A ++ s :: B ∧ Q = { P with customViews := A ++ t :: B } ∧ s.resName = name ∧ t.resName = name ∧
          c123_Added x (s% "root") s.layout t.layout) := by
  obtain ⟨r, hr, hv⟩ := (Swrs.View.c122_view hw hd hs hs' hb (c116_noHeader (r := []) c116_androidView hx).1 ((c58_parts ex _ _).mp hp).2.2.2.2.1).1 x hx
  have hl : c123_Layouts (fun a b => ∀ vs, parseRawLayout a = .ok vs → ∃ vs', parseRawLayout b = .ok vs' ∧ c123_Added x (s% "root") vs vs') name
      p.view.layouts r.layouts := by
    intro n
    rcases hv.layouts n with h | ⟨rfl, u, w, h1, h2, h3⟩
    · exact .inl h
    · refine .inr ⟨rfl, _, _, h2, h3, fun vs hvs => c123_tree hvs (hnew _ h2) hpar (hpid.imp id fun h => ?_)⟩
      have := h _ h2
      rwa [← h1, List.take_left] at this
  obtain ⟨ss', ly, cv, lb, im, so, fo, a1, a2, a3, a4, a5, a6, rfl, rfl, -⟩ := tryFrom_ok hP
  obtain ⟨ss₁, ly', g1, g2⟩ := c123_conv_layout (fun h => h _) p.file.activities hl hv.fabs a1
  refine ⟨{ p with view := r }, ?_⟩
  rcases g2 with ⟨rfl, g2⟩ | ⟨g2, A, s, t, B, f, k1, rfl, k2⟩
  · obtain ⟨cs', g3, g4⟩ := c123_customs_layout (fun h => h _) p.file.customViews g2 a2
    refine ⟨_, c123_view_opened hp hr, c123_tryFrom (q := { p with view := r }) hP g1 g3 rfl rfl rfl rfl, ?_⟩
    rcases g4 with rfl | ⟨A, s, t, B, k1, rfl, k2⟩
    · exact .inl rfl
    · exact .inr (.inr ⟨A, s, t, B, k1, rfl, k2⟩)
  · refine ⟨_, c123_view_opened hp hr, c123_tryFrom (q := { p with view := r }) hP g1 ((c123_customs_get _ g2).trans a2) rfl rfl rfl rfl, ?_⟩
    exact .inr (.inl ⟨A, s, t, B, f, k1, rfl, k2⟩)

section
variable {D : Layout → Layout → Prop} {name : Str} (hD : ∀ {a b : Layout} {vs : List View}, D a b → parseRawLayout b ≠ .ok vs)

include hD in
theorem c123_conv_refused : ∀ (items : List FileItem) {ls ls' : LMap Str Layout} {lg : LMap Str ScreenLogic} {fb fb' : LMap Str AndroidView}
    {ss ss' : List Screen} {ly ly' : LMap Str Layout}, c123_Layouts D name ls ls' → (∀ n, fb'.get n = fb.get n) → activitiesConv items ls lg fb = .ok (ss, ly) →
    activitiesConv items ls' lg fb' = .ok (ss', ly') → ss' = ss ∧ c123_Layouts D name ly ly'
  | [], ls, ls', lg, fb, fb', ss, ss', ly, ly', h1, h2, h, h' => by
    obtain ⟨rfl, rfl⟩ := Prod.mk.inj (Out.ok.inj h)
    obtain ⟨rfl, rfl⟩ := Prod.mk.inj (Out.ok.inj h')
    exact ⟨rfl, h1⟩
  | f :: items, ls, ls', lg, fb, fb', ss, ss', ly, ly', h1, h2, h, h' => by
    rw [activitiesConv] at h h'
    simp only [Out.bind_eq_ok, Out.mapErr_eq_ok, Out.pure_eq, Out.ok.injEq, Prod.mk.injEq, Prod.exists] at h h'
    obtain ⟨s, hs, ss₁, ly₁, h, rfl, rfl⟩ := h
    obtain ⟨t, ht, ss₂, ly₂, h', rfl, rfl⟩ := h'
    obtain ⟨rfl, g⟩ := c123_conv_refused items (c123_layouts_erase h1 f.filename) (c123_get_erase h2 f.filename) h h'
    rcases h1 f.filename with e | ⟨hn, a, b, e1, e2, hab⟩
    · rw [e, h2] at ht
      obtain rfl := Out.ok.inj (hs.symm.trans ht)
      exact ⟨rfl, g⟩
    · rw [e2] at ht
      obtain ⟨lay, mbs, cs, comps, evs, cs', a1, -⟩ := c120_screen_ok ht
      rw [Out.mapErr_eq_ok] at a1
      exact absurd a1 (hD hab)

include hD in
theorem c123_customs_refused : ∀ (items : List FileItem) {ls ls' : LMap Str Layout} {cs cs' : List CustomView}, c123_Layouts D name ls ls' →
    customViewsConv items ls = .ok cs → customViewsConv items ls' = .ok cs' → cs' = cs
  | [], ls, ls', cs, cs', h1, h, h' => Out.ok.inj (h'.symm.trans h)
  | f :: items, ls, ls', cs, cs', h1, h, h' => by
    rw [customViewsConv] at h h'
    simp only [Out.bind_eq_ok, Out.mapErr_eq_ok, Out.ofOption_eq_ok, Out.pure_eq, Out.ok.injEq] at h h'
    obtain ⟨a, ha, lay, hl, cs₁, h, rfl⟩ := h
    obtain ⟨b, hb, lay', hl', cs₂, h', rfl⟩ := h'
    obtain rfl := c123_customs_refused items (c123_layouts_erase h1 f.filename) h h'
    rcases h1 f.filename with e | ⟨hn, a', b', e1, e2, hab⟩
    · obtain rfl := Option.some.inj (ha.symm.trans (e.symm.trans hb))
      obtain rfl := Out.ok.inj (hl.symm.trans hl')
      rfl
    · obtain rfl := Option.some.inj (e2.symm.trans hb)
      exact absurd hl' (hD hab)
end

/-- C123: so with a view that has no parent, or one that does not come before: the project is still opened, but it is not converted, or is the same. -/
theorem c123_view_refused (ex : PathBuf → Bool) (rnd : ResourceType → Nat → UInt32) {raw : RawSketchwareProject} {p : Swrs.SketchwareProject} {P : SketchwareProject}
    (hp : Swrs.SketchwareProject.parseFrom ex raw = .ok p) (hP : SketchwareProject.tryFrom rnd p = .ok P) {view l name : Str} {ss : List Section}
    {b post : List Str} {x : AndroidView} (hw : ∀ y ∈ ss, y.WF) (hd : '.' ∉ name)
    (hs : lines raw.view = ss.flatMap Section.toLines ++ ('@' :: (name ++ s% ".xml")) :: (b ++ post))
    (hs' : lines view = ss.flatMap Section.toLines ++ ('@' :: (name ++ s% ".xml")) :: (b ++ l :: post)) (hb : [] ∉ b) (hx : AndroidView.parse l = some x)
    (hpid : ∀ pid, x.parent = some pid → pid ≠ s% "root" ∧ ∀ lay, p.view.layouts.get name = some lay → pid ∉ (lay.views.take b.length).map (·.id)) :
    ∃ q, Swrs.SketchwareProject.parseFrom ex { raw with view } = .ok q ∧ ∀ Q, SketchwareProject.tryFrom rnd q = .ok Q → Q = P := by
  obtain ⟨r, hr, hv⟩ := (Swrs.View.c122_view hw hd hs hs' hb (c116_noHeader (r := []) c116_androidView hx).1 ((c58_parts ex _ _).mp hp).2.2.2.2.1).1 x hx
  have hl : c123_Layouts (fun _ b => ∀ vs, parseRawLayout b ≠ .ok vs) name p.view.layouts r.layouts := by
    intro n
    rcases hv.layouts n with h | ⟨rfl, u, w, h1, h2, h3⟩
    · exact .inl h
    · refine .inr ⟨rfl, _, _, h2, h3, fun vs hvs => ?_⟩
      obtain ⟨pid, k1, k2⟩ := (c33_accepts ⟨u ++ x :: w⟩).mp ⟨vs, hvs⟩ u x w rfl
      have := (hpid pid k1).2 _ h2
      rw [← h1, List.take_left] at this
      exact k2.elim (hpid pid k1).1 this
  refine ⟨{ p with view := r }, c123_view_opened hp hr, fun Q hQ => ?_⟩
  unfold SketchwareProject.tryFrom at hP hQ
  simp only [Out.bind_eq_ok, Prod.exists] at hP hQ
  obtain ⟨ss, ly, a1, cs, a2, lb, a3, im, a4, so, a5, fo, a6, a7⟩ := hP
  obtain ⟨ss', ly', b1, cs', b2, lb', b3, im', b4, so', b5, fo', b6, b7⟩ := hQ
  obtain ⟨rfl, g⟩ := c123_conv_refused (fun h => h _) _ hl hv.fabs a1 b1
  obtain rfl := c123_customs_refused (fun h => h _) _ g a2 b2
  obtain rfl := Out.ok.inj (a3.symm.trans b3)
  obtain rfl := Out.ok.inj (a4.symm.trans b4)
  obtain rfl := Out.ok.inj (a5.symm.trans b5)
  obtain rfl := Out.ok.inj (a6.symm.trans b6)
  exact Out.ok.inj (b7.symm.trans a7)

/-! ### Examples -/

end Swrs.Api

namespace Swrs.Api

/-- `c123_tree`: a view under the first of two. -/
example [Floats] : let v := fun (i p : Str) => AndroidView.newEmpty i 3 p 0
    parseRawLayout ⟨[v (s% "a") (s% "root")] ++ [v (s% "b") (s% "root")]⟩ = .ok [View.ofRaw (v (s% "a") (s% "root")), View.ofRaw (v (s% "b") (s% "root"))] ∧
    (∀ r ∈ [v (s% "a") (s% "root")] ++ [v (s% "b") (s% "root")], r.id ≠ (v (s% "c") (s% "a")).id) ∧
    s% "a" ∈ [v (s% "a") (s% "root")].map (·.id) ∧
    parseRawLayout ⟨[v (s% "a") (s% "root")] ++ v (s% "c") (s% "a") :: [v (s% "b") (s% "root")]⟩ =
      .ok [{ View.ofRaw (v (s% "a") (s% "root")) with children := [View.ofRaw (v (s% "c") (s% "a"))] }, View.ofRaw (v (s% "b") (s% "root"))] := by
  refine ⟨rfl, ?_, by simp [AndroidView.newEmpty], rfl⟩
  intro r hr
  simp only [List.cons_append, List.nil_append, List.mem_cons, List.not_mem_nil, or_false] at hr
  rcases hr with rfl | rfl <;> simp [AndroidView.newEmpty]

/-- `c123_view` and `c123_view_refused`: a view under the root of an empty layout, and one under a view that is not there. -/
example [MapPol] (ex : PathBuf → Bool) (rnd : ResourceType → Nat → UInt32) : let _ : Floats := toyFloats.toFloats
    ∃ (raw : RawSketchwareProject) (p : Swrs.SketchwareProject) (P : SketchwareProject) (view l view' l' name : Str) (post : List Str) (x y : AndroidView),
    Swrs.SketchwareProject.parseFrom ex raw = .ok p ∧ SketchwareProject.tryFrom rnd p = .ok P ∧ '.' ∉ name ∧
    lines raw.view = ([] : List Section).flatMap Section.toLines ++ ('@' :: (name ++ s% ".xml")) :: ([] ++ post) ∧
    lines view = ([] : List Section).flatMap Section.toLines ++ ('@' :: (name ++ s% ".xml")) :: ([] ++ l :: post) ∧
    lines view' = ([] : List Section).flatMap Section.toLines ++ ('@' :: (name ++ s% ".xml")) :: ([] ++ l' :: post) ∧
    AndroidView.parse l = some x ∧ AndroidView.parse l' = some y ∧ p.view.layouts.get name = some ⟨[]⟩ ∧ x.parent = some (s% "root") ∧ y.parent = some (s% "a") ∧
    P.screens.length = 1 := by
  let fl : FloatLaws := toyFloats
  let _ : Floats := toyFloats.toFloats
  have key : ∀ i p : Str, AndroidView.parse (AndroidView.newEmpty i 3 p 0).reconstruct = some (AndroidView.newEmpty i 3 p 0) ∧
      lines (s% "@main.xml" ++ '\n' :: (AndroidView.newEmpty i 3 p 0).reconstruct) = s% "@main.xml" :: [(AndroidView.newEmpty i 3 p 0).reconstruct] := by
    intro i p
    have h := c21_view_round_trip_partial (AndroidView.newEmpty i 3 p 0)
    refine ⟨(AndroidView.parse_reconstruct_iff _).mpr (newEmpty_storable _ _ _ _), ?_⟩
    show splitOn _ _ = _
    rw [splitOn_append_sep (by decide), splitOn_of_not_mem h.2.2]
  have h1 : Swrs.SketchwareProject.parseFrom ex (c120_raw (s% "@main.xml") []) = .ok (c120_read ⟨[(s% "main", ⟨[]⟩)], []⟩ ⟨[]⟩) := c120_parsed ex rfl rfl
  exact ⟨_, _, _, _, _, _, _, s% "main", [], _, _, h1, rfl, by decide, rfl, (key (s% "v") (s% "root")).2, (key (s% "v") (s% "a")).2, (key (s% "v") (s% "root")).1,
    (key (s% "v") (s% "a")).1, rfl, rfl, rfl, rfl⟩

end Swrs.Api
