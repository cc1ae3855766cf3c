import Verif.Props.Renumber
/-!
# C127: the ids of the views are only names
-/
set_option linter.unusedSectionVars false
namespace Swrs.Api
variable [Floats]

/-! ### Specification: views with other ids -/

/-- Specification: a view of a layout with another id, and another id of its parent. -/
def c127_raw (r : Str → Str) (v : AndroidView) : AndroidView := { v with id := r v.id, parent := v.parent.map r }

/-- Specification: the id that is kept for a view of an unknown kind. -/
def c127_kind (r : Str → Str) : Except ViewTypeConversionError ViewType → Except ViewTypeConversionError ViewType
  | .ok t => .ok t
  | .error (.unknownViewType t i) => .error (.unknownViewType t (r i))
  | .error (.resNameNotPresent i) => .error (.resNameNotPresent (r i))

mutual
/-- Specification: a tree of views with other ids. -/
def c127_view (r : Str → Str) : View → View
  | ⟨i, bc, h, w, p, m, wt, ws, g, view, raw, children⟩ => ⟨r i, bc, h, w, p, m, wt, ws, g, c127_kind r view, c127_raw r raw, c127_views r children⟩
/-- Specification: trees of views with other ids. -/
def c127_views (r : Str → Str) : List View → List View
  | [] => []
  | v :: vs => c127_view r v :: c127_views r vs
end

/-- Specification: an error with other ids. -/
def c127_error (r : Str → Str) : ParseLayoutError → ParseLayoutError
  | .noParentField i => .noParentField (r i)
  | .nonexistentParent i p => .nonexistentParent (r i) (r p)

/-! ### Reading -/

theorem c127_views_append (r : Str → Str) (a b : List View) : c127_views r (a ++ b) = c127_views r a ++ c127_views r b := by
  induction a with
  | nil => rfl
  | cons v a ih => rw [List.cons_append, c127_views, c127_views, ih, List.cons_append]

theorem c127_views_map (r : Str → Str) (a : List View) : c127_views r a = a.map (c127_view r) := by
  induction a with
  | nil => rfl
  | cons v a ih => rw [c127_views, ih, List.map_cons]

theorem c127_fromView (r : Str → Str) (v : AndroidView) : ViewType.fromView (c127_raw r v) = c127_kind r (ViewType.fromView v) := by
  have e : ∀ {β : Type} (f : Str → ViewType), (resName (c127_raw r v)).map f = c127_kind r ((resName v).map f) := by
    intro _ f
    unfold resName
    rw [show (c127_raw r v).image = v.image from rfl]
    cases v.image.resName <;> rfl
  unfold ViewType.fromView
  rw [e (β := Unit), e (β := Unit), show (c127_raw r v).type = v.type from rfl]
  generalize v.type.toNat = t
  split
  all_goals rfl

theorem c127_ofRaw (r : Str → Str) (v : AndroidView) : View.ofRaw (c127_raw r v) = c127_view r (View.ofRaw v) := by
  unfold View.ofRaw
  rw [c127_fromView]
  rfl

variable {r : Str → Str}

theorem c127_push (x : AndroidView) (v : View) : View.push (c127_raw r x) (c127_view r v) = c127_view r (View.push x v) := by
  obtain ⟨i, bc, h, w, p, m, wt, ws, g, view, raw, children⟩ := v
  simp only [View.push, c127_view, c127_views_append, c127_ofRaw]
  rfl

mutual
theorem c127_modifyId (hr : ∀ a b, r a = r b → a = b) (x : AndroidView) (p : Str) : ∀ v : View,
    View.modifyId (r p) (View.push (c127_raw r x)) (c127_view r v) = (View.modifyId p (View.push x) v).map (c127_view r)
  | ⟨i, bc, h, w, pd, m, wt, ws, g, view, raw, children⟩ => by
    have ih := c127_modifyIdIn hr x p children
    by_cases hi : i = p
    · subst hi
      simp only [c127_view, View.modifyId, if_true, Option.map_some]
      rw [← c127_push]
      rfl
    · have hi' : ¬ r i = r p := fun h => hi (hr _ _ h)
      simp only [c127_view, View.modifyId, if_neg hi, if_neg hi', ih]
      cases modifyIdIn p (View.push x) children <;> rfl

theorem c127_modifyIdIn (hr : ∀ a b, r a = r b → a = b) (x : AndroidView) (p : Str) : ∀ vs : List View,
    modifyIdIn (r p) (View.push (c127_raw r x)) (c127_views r vs) = (modifyIdIn p (View.push x) vs).map (c127_views r)
  | [] => rfl
  | v :: vs => by
    have h1 := c127_modifyId hr x p v
    have h2 := c127_modifyIdIn hr x p vs
    simp only [c127_views, modifyIdIn, h1, h2]
    cases View.modifyId p (View.push x) v with
    | some w => rfl
    | none => cases modifyIdIn p (View.push x) vs <;> rfl
end

/-- Specification: an outcome with other ids. -/
def c127_out (r : Str → Str) : Out ParseLayoutError (List View) → Out ParseLayoutError (List View)
  | .ok vs => .ok (c127_views r vs)
  | .err e => .err (c127_error r e)
  | .panic => .panic

theorem c127_placeView (hr : ∀ a b, r a = r b → a = b) (h0 : r (s% "root") = s% "root") (vs : List View) (x : AndroidView) :
    placeView (c127_views r vs) (c127_raw r x) = c127_out r (placeView vs x) := by
  unfold placeView
  show (match x.parent.map r with | none => _ | some p => _) = _
  cases hp : x.parent with
  | none => rfl
  | some p =>
    simp only [Option.map_some]
    by_cases hroot : p = s% "root"
    · rw [if_pos hroot, if_pos (by rw [hroot, h0])]
      simp only [c127_out, c127_views_append, c127_ofRaw]
      rfl
    · rw [if_neg hroot, if_neg (fun h => hroot (hr _ _ (h.trans h0.symm))), c127_modifyIdIn hr]
      cases modifyIdIn p (View.push x) vs <;> rfl

/-- C127: the views of a layout get other ids, by a function that gives different ids to different ids and leaves `root` as it is, also where they are named as
parents. The same trees are read with the other ids; an error is the same with the other ids. -/
theorem c127_layout (hr : ∀ a b, r a = r b → a = b) (h0 : r (s% "root") = s% "root") (l : Layout) :
    parseRawLayout ⟨l.views.map (c127_raw r)⟩ = c127_out r (parseRawLayout l) := by
  have key : ∀ (xs : List AndroidView) (vs : List View), placeViews (xs.map (c127_raw r)) (c127_views r vs) = c127_out r (placeViews xs vs) := by
    intro xs
    induction xs with
    | nil => exact fun _ => rfl
    | cons x xs ih =>
      intro vs
      simp only [List.map_cons, placeViews, c127_placeView hr h0]
      cases placeView vs x with
      | ok vs' => exact ih vs'
      | err e => rfl
      | panic => rfl
  exact key l.views []

/-! ### Finding and writing -/

mutual
theorem c127_find_view (hr : ∀ a b, r a = r b → a = b) (p : Str) : ∀ v : View, View.findId (r p) (c127_view r v) = (View.findId p v).map (c127_view r)
  | ⟨i, bc, h, w, pd, m, wt, ws, g, view, raw, children⟩ => by
    have ih := c127_find_in hr p children
    by_cases hi : i = p
    · subst hi
      simp only [c127_view, View.findId, if_true, Option.map_some]
    · have hi' : ¬ r i = r p := fun h => hi (hr _ _ h)
      simp only [c127_view, View.findId, if_neg hi, if_neg hi', ih]

theorem c127_find_in (hr : ∀ a b, r a = r b → a = b) (p : Str) : ∀ vs : List View, findIdIn (r p) (c127_views r vs) = (findIdIn p vs).map (c127_view r)
  | [] => rfl
  | v :: vs => by
    have h1 := c127_find_view hr p v
    have h2 := c127_find_in hr p vs
    simp only [c127_views, findIdIn, h1, h2]
    cases View.findId p v with
    | some w => rfl
    | none => cases findIdIn p vs <;> rfl
end

/-- C127: a view is found in the tree with other ids under its other id, if it is found in the tree, and it is the same one with the other ids. -/
theorem c127_find (hr : ∀ a b, r a = r b → a = b) (p : Str) (v : View) : View.findId (r p) (c127_view r v) = (View.findId p v).map (c127_view r) :=
  c127_find_view hr p v

theorem c127_typeId (v : View) : (c127_view r v).typeId = v.typeId := by
  obtain ⟨i, bc, h, w, p, m, wt, ws, g, view, raw, children⟩ := v
  cases view with
  | ok t => rfl
  | error e => cases e <;> rfl

theorem c127_flat (v : View) (p : Str) (t : UInt8) : (c127_view r v).flat (r p) t = c127_raw r (v.flat p t) := by
  obtain ⟨i, bc, h, w, pd, m, wt, ws, g, view, raw, children⟩ := v
  cases view with
  | ok k => cases k <;> rfl
  | error e => cases e <;> rfl

mutual
theorem c127_flattenChildren : ∀ v : View, flattenChildren (c127_view r v) = (flattenChildren v).map (c127_raw r)
  | ⟨i, bc, h, w, pd, m, wt, ws, g, view, raw, children⟩ => by
    have ih := c127_flattenBelow children
    have e := c127_typeId (r := r) ⟨i, bc, h, w, pd, m, wt, ws, g, view, raw, []⟩
    simp only [c127_view, c127_views] at e
    rw [c127_views_map] at ih
    simp only [c127_view, flattenChildren, c127_views_map, ih, e, List.map_append, List.map_map]
    congr 1
    refine List.map_congr_left fun c _ => ?_
    exact c127_flat c i _

theorem c127_flattenBelow : ∀ vs : List View, flattenBelow (c127_views r vs) = (flattenBelow vs).map (c127_raw r)
  | [] => rfl
  | v :: vs => by
    have h1 := c127_flattenChildren v
    have h2 := c127_flattenBelow vs
    simp only [c127_views, flattenBelow, h1, h2, List.map_append]
end

/-- C127: trees with other ids are written as the same list of views with the other ids. -/
theorem c127_flatten (h0 : r (s% "root") = s% "root") (vs : List View) : flattenViews (c127_views r vs) none none = (flattenViews vs none none).map (c127_raw r) := by
  have h := c127_flattenBelow (r := r) vs
  rw [c127_views_map] at h
  simp only [flattenViews, flattenIn, Option.getD_none, c127_views_map, h, List.map_append, List.map_map]
  congr 1
  refine List.map_congr_left fun v _ => ?_
  have := c127_flat (r := r) v (s% "root") 0
  rw [h0] at this
  exact this

/-! ### The project -/

variable [MapPol]

/-- C127: the views of the layout of a screen get other ids. The same screen is read, with the other ids in its layout. -/
theorem c127_screen (hr : ∀ a b, r a = r b → a = b) (h0 : r (s% "root") = s% "root") {ln gn : Str} {file : FileItem} {view : Layout} {logic : ScreenLogic}
    {fab : Option View} {s : Screen} (h : Screen.fromParsed ln gn file view logic fab = .ok s) :
    Screen.fromParsed ln gn file ⟨view.views.map (c127_raw r)⟩ logic fab = .ok { s with layout := c127_views r s.layout } := by
  unfold Screen.fromParsed at h ⊢
  simp only [Out.bind_eq_ok, Out.mapErr_eq_ok, Prod.exists] at h
  obtain ⟨t, a1, mbs, bc, a2, comps, a3, es, bc', a4, a5⟩ := h
  cases a5
  simp only [c127_layout hr h0, a1, c127_out, Out.mapErr_ok, Out.ok_bind, a2, a3, a4]
  rfl

/-- Specification: layouts with other ids, each by its own function. -/
def c127_layouts (r : Str → Str → Str) (ls : LMap Str Layout) : LMap Str Layout := ls.map fun e => (e.1, ⟨e.2.views.map (c127_raw (r e.1))⟩)

omit [MapPol] in
theorem c127_layouts_get (r : Str → Str → Str) (ls : LMap Str Layout) (k : Str) :
    (c127_layouts r ls).get k = (ls.get k).map fun l => ⟨l.views.map (c127_raw (r k))⟩ := by
  induction ls with
  | nil => rfl
  | cons e ls ih =>
    obtain ⟨n, l⟩ := e
    simp only [c127_layouts, List.map_cons, LMap.get] at ih ⊢
    split
    · rename_i h; subst h; rfl
    · exact ih

omit [MapPol] in
theorem c127_layouts_erase (r : Str → Str → Str) (ls : LMap Str Layout) (k : Str) : (c127_layouts r ls).erase k = c127_layouts r (ls.erase k) := by
  unfold c127_layouts LMap.erase
  rw [List.filter_map]
  rfl

theorem c127_activities {r : Str → Str → Str} (hr : ∀ n a b, r n a = r n b → a = b) (h0 : ∀ n, r n (s% "root") = s% "root") {items : List FileItem}
    {ly ly' : LMap Str Layout} {lg : LMap Str ScreenLogic} {fs : LMap Str AndroidView} {ss : List Screen} (h : activitiesConv items ly lg fs = .ok (ss, ly')) :
    activitiesConv items (c127_layouts r ly) lg fs = .ok (ss.map fun s => { s with layout := c127_views (r s.layoutName) s.layout }, c127_layouts r ly') := by
  induction items generalizing ly lg fs ss with
  | nil => cases h; rfl
  | cons f items ih =>
    simp only [activitiesConv, Out.bind_eq_ok, Out.mapErr_eq_ok, Prod.exists] at h
    obtain ⟨s, h1, ss', ly'', h2, h3⟩ := h
    cases h3
    have e : ((c127_layouts r ly).get f.filename).getD ⟨[]⟩ = ⟨((ly.get f.filename).getD ⟨[]⟩).views.map (c127_raw (r f.filename))⟩ := by
      rw [c127_layouts_get]
      cases ly.get f.filename <;> rfl
    have hn : s.layoutName = f.filename := by
      unfold Screen.fromParsed at h1
      simp only [Out.bind_eq_ok, Out.mapErr_eq_ok, Prod.exists] at h1
      obtain ⟨t, a1, mbs, bc, a2, comps, a3, es, bc', a4, a5⟩ := h1
      cases a5
      rfl
    simp only [activitiesConv, e, c127_screen (hr f.filename) (h0 f.filename) h1, c127_layouts_erase, ih h2, Out.mapErr_ok, Out.ok_bind, List.map_cons, hn]
    rfl

omit [MapPol] in
theorem c127_customs {r : Str → Str → Str} (hr : ∀ n a b, r n a = r n b → a = b) (h0 : ∀ n, r n (s% "root") = s% "root") {items : List FileItem}
    {ly : LMap Str Layout} {cs : List CustomView} (h : customViewsConv items ly = .ok cs) :
    customViewsConv items (c127_layouts r ly) = .ok (cs.map fun c => { c with layout := c127_views (r c.resName) c.layout }) := by
  induction items generalizing ly cs with
  | nil => cases h; rfl
  | cons f items ih =>
    simp only [customViewsConv, Out.bind_eq_ok, Out.mapErr_eq_ok] at h
    obtain ⟨l, h1, t, h2, cs', h3, h4⟩ := h
    cases h4
    cases hl : ly.get f.filename with
    | none => rw [hl] at h1; cases h1
    | some l' =>
      rw [hl] at h1
      cases h1
      simp only [customViewsConv, c127_layouts_get, hl, Option.map_some, Out.ofOption_some, Out.ok_bind, c127_layout (hr f.filename) (h0 f.filename), h2, c127_out,
        Out.mapErr_ok, c127_layouts_erase, ih h3, List.map_cons]
      rfl

/-- C127: the views of the layouts of a project get other ids, in each layout by its own function. The same project is read, with the other ids in the layouts
of its screens and custom views. -/
theorem c127_project (rnd : ResourceType → Nat → UInt32) {r : Str → Str → Str} (hr : ∀ n a b, r n a = r n b → a = b) (h0 : ∀ n, r n (s% "root") = s% "root")
    {p : Swrs.SketchwareProject} {P : SketchwareProject} (hP : SketchwareProject.tryFrom rnd p = .ok P) :
    SketchwareProject.tryFrom rnd { p with view := { p.view with layouts := c127_layouts r p.view.layouts } } = .ok { P with
      screens := P.screens.map fun s => { s with layout := c127_views (r s.layoutName) s.layout }
      customViews := P.customViews.map fun c => { c with layout := c127_views (r c.resName) c.layout } } := by
  unfold SketchwareProject.tryFrom at hP ⊢
  simp only [Out.bind_eq_ok, Prod.exists] at hP
  obtain ⟨ss', ly', a1, cs', a2, lb, a3, im, a4, so, a5, fo, a6, a7⟩ := hP
  cases a7
  simp only [c127_activities hr h0 a1, Out.ok_bind, c127_customs hr h0 a2, a3, a4, a5, a6]
  rfl

end Swrs.Api

namespace Swrs.Api

/-- A function for names: the letter `x` is put before every id but `root`. -/
def c127_x (i : Str) : Str := if i = s% "root" then i else 'x' :: i

theorem c127_x_inj (a b : Str) (h : c127_x a = c127_x b) : a = b := by
  unfold c127_x at h
  split at h <;> split at h
  · exact h
  · rename_i h1 _; rw [h1] at h; cases h
  · rename_i h1; rw [h1] at h; cases h
  · exact (List.cons.inj h).2

/-- `c127_layout`, `c127_find` and `c127_flatten`: a view in a view, with other ids. -/
example [Floats] : let v := fun (i p : Str) => AndroidView.newEmpty i 3 p 0
    (∀ a b, c127_x a = c127_x b → a = b) ∧ c127_x (s% "root") = s% "root" ∧
      ∃ vs, parseRawLayout ⟨[v (s% "a") (s% "root"), v (s% "b") (s% "a")]⟩ = .ok vs ∧
        parseRawLayout ⟨[v (s% "xa") (s% "root"), v (s% "xb") (s% "xa")]⟩ = .ok (c127_views c127_x vs) :=
  ⟨c127_x_inj, rfl, _, rfl, rfl⟩

/-- C127: different ids must stay different: when two views get the same id, a view in the second one is put into the first one. -/
theorem c127_layout_false [Floats] : ∃ (r : Str → Str) (l : Layout), r (s% "root") = s% "root" ∧
    parseRawLayout ⟨l.views.map (c127_raw r)⟩ ≠ c127_out r (parseRawLayout l) := by
  refine ⟨fun i => if i = s% "root" then i else s% "x", ⟨[AndroidView.newEmpty (s% "a") 3 (s% "root") 0, AndroidView.newEmpty (s% "b") 3 (s% "root") 0,
    AndroidView.newEmpty (s% "c") 3 (s% "b") 0]⟩, rfl, ?_⟩
  intro h
  have : [1, 0] = [0, 1] := congrArg (List.map fun v : View => v.children.length) (Out.ok.inj h)
  revert this
  decide

/-- C127: the name `root` must stay as it is: a view in the root is refused otherwise. -/
theorem c127_root_false [Floats] : ∃ (r : Str → Str) (l : Layout) (vs : List View) (e : ParseLayoutError), (∀ a b, r a = r b → a = b) ∧ parseRawLayout l = .ok vs ∧
    parseRawLayout ⟨l.views.map (c127_raw r)⟩ = .err e :=
  ⟨fun i => 'x' :: i, ⟨[AndroidView.newEmpty (s% "a") 3 (s% "root") 0]⟩, _, _, fun _ _ h => (List.cons.inj h).2, rfl, rfl⟩

/-- `c127_project`: the layouts of a screen and of a custom view get other ids. -/
example [MapPol] (rnd : ResourceType → Nat → UInt32) : let _ : Floats := toyFloats.toFloats
    ∃ (p : Swrs.SketchwareProject) (P : SketchwareProject), SketchwareProject.tryFrom rnd p = .ok P ∧
      (P.screens.map fun s => s.layout.map fun v => v.id) = [[s% "a"]] ∧ (P.customViews.map fun c => c.layout.map fun v => v.id) = [[s% "b"]] ∧
      (p.view.layouts.map fun e => e.1) = [s% "main", s% "row"] ∧
      (c127_layouts (fun _ => c127_x) p.view.layouts).map (fun e => e.2.views.map fun v => v.id) = [[s% "xa"], [s% "xb"]] := by
  let _ : Floats := toyFloats.toFloats
  exact ⟨{ c120_read ⟨[(s% "main", ⟨[AndroidView.newEmpty (s% "a") 3 (s% "root") 0]⟩), (s% "row", ⟨[AndroidView.newEmpty (s% "b") 3 (s% "root") 0]⟩)], []⟩ ⟨[]⟩ with
    file := ⟨[c124_act (s% "main") true], [c124_act (s% "row") false]⟩ }, _, rfl, rfl, rfl, rfl, rfl⟩

end Swrs.Api
