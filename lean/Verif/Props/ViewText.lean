import Verif.Props.MoreView
import Verif.Props.OneLess
import Verif.Props.ViewOrder
import Verif.Props.MoveView
/-!
# C138: views are edited in the text of the view file
-/
set_option linter.unusedSectionVars false
namespace Swrs.View
variable [Floats] [MapPol]

/-! ### The section of a layout -/

/-- Specification: the same views, but in the layout of this name, after as many views as this, these views are replaced by these. -/
structure c138_Views (name : Str) (i : Nat) (last : Prop) (xs ys : List AndroidView) (v w : View) : Prop where
  layouts : ∀ n, w.layouts.get n = v.layouts.get n ∨
    (n = name ∧ ∃ a b, a.length = i ∧ (last → b = []) ∧ v.layouts.get n = some ⟨a ++ (xs ++ b)⟩ ∧ w.layouts.get n = some ⟨a ++ (ys ++ b)⟩)
  fabs : ∀ n, w.fabs.get n = v.fabs.get n

theorem c138_apply {name : Str} {i : Nat} {last : Prop} {xs ys : List AndroidView} {v w : View} (h : c138_Views name i last xs ys v w) (y : Section) :
    c138_Views name i last xs ys (y.apply v) (y.apply w) := by
  cases y with
  | layout k ls vs =>
    refine ⟨fun n => ?_, h.fabs⟩
    simp only [Section.apply, LMap.get_insert]
    split
    · exact .inl rfl
    · exact h.layouts n
  | fab k l y =>
    refine ⟨h.layouts, fun n => ?_⟩
    simp only [Section.apply, LMap.get_insert]
    split
    · rfl
    · exact h.fabs n
  | other k kind => exact h

theorem c138_fold {name : Str} {i : Nat} {last : Prop} {xs ys : List AndroidView} (ss : List Section) : ∀ {v w : View}, c138_Views name i last xs ys v w →
    c138_Views name i last xs ys (ss.foldl Section.apply v) (ss.foldl Section.apply w) := by
  induction ss with
  | nil => exact fun h => h
  | cons y ss ih => exact fun h => ih (c138_apply h y)

theorem c138_reads_blank {α : Type} {p : Str → Option α} {ls : List Str} {as : List α} (h : ReadsAll p ls as) : [] ∉ ls := by
  induction h with
  | nil => simp
  | cons hne h t ih => simp [ih, Ne.symm hne]

/-- A view file of which lines in a layout are replaced. -/
theorem c138_view {s s' name : Str} {ss : List Section} {b ms ms' post : List Str} (hw : ∀ x ∈ ss, x.WF) (hd : '.' ∉ name)
    (hs : lines s = ss.flatMap Section.toLines ++ ('@' :: (name ++ s% ".xml")) :: (b ++ (ms ++ post)))
    (hs' : lines s' = ss.flatMap Section.toLines ++ ('@' :: (name ++ s% ".xml")) :: (b ++ (ms' ++ post))) (hb : [] ∉ b) {xs ys : List AndroidView}
    (hm : ReadsAll AndroidView.parse ms xs) (hm' : ReadsAll AndroidView.parse ms' ys) {v : View} (h : View.parse s = .ok v) :
    ∃ w, View.parse s' = .ok w ∧ c138_Views name b.length (post = [] ∨ post.head? = some []) xs ys v w := by
  have add : ∀ {u w : List AndroidView} {z : View}, u.length = b.length → ((post = [] ∨ post.head? = some []) → w = []) →
      c138_Views name b.length (post = [] ∨ post.head? = some []) xs ys (Section.apply z (.layout name [] (u ++ (xs ++ w)))) (Section.apply z (.layout name [] (u ++ (ys ++ w)))) := by
    intro u w z hu hl
    refine ⟨fun n => ?_, fun _ => rfl⟩
    simp only [Section.apply, LMap.get_insert]
    split
    · rename_i hn
      exact .inr ⟨hn, u, w, hu, hl, rfl, rfl⟩
    · exact .inl rfl
  have nil : ∀ {q rest : List Str} {w : List AndroidView}, ReadsAll AndroidView.parse q w → (q ++ [] :: rest = [] ∨ (q ++ [] :: rest).head? = some []) → w = [] := by
    intro q rest w hq h
    cases hq with
    | nil => rfl
    | cons hne => simp at h; exact absurd h hne
  rcases Layout.parseIter_cases (b ++ (ms ++ post)) with ⟨pre, vs, rest, e, hr, _⟩ | ⟨vs, hr, _⟩ | ⟨pre, vs, y, rest, e, hr, h1, h2, _⟩
  · obtain ⟨q, rfl, e'⟩ := c122_prefix hb e
    obtain ⟨q, rfl, rfl⟩ := c122_prefix (c138_reads_blank hm) e'
    obtain ⟨u, w, rfl, r1, r2, r3⟩ := c122_split hr
    obtain ⟨x0, w, rfl, r4, r5, -⟩ := c122_split r2
    obtain rfl := Logic.c119_reads_unique r4 hm
    obtain ⟨ss₂, e₂, w1, w2, w3⟩ := decompose rest
    have hs1 : lines s = (ss ++ .layout name (b ++ (ms ++ q)) (u ++ (x0 ++ w)) :: ss₂).flatMap Section.toLines ++ e₂.toLines := by
      rw [hs, w3]; simp [Section.toLines]
    have hwf : ∀ {ls : List Str} {vs : List AndroidView}, ReadsAll AndroidView.parse ls vs → ∀ y ∈ ss ++ .layout name ls vs :: ss₂, y.WF := by
      intro ls vs hr y hy
      rcases List.mem_append.mp hy with hy | hy
      · exact hw y hy
      · rcases List.mem_cons.mp hy with rfl | hy
        · exact ⟨hd, hr⟩
        · exact w1 y hy
    rw [parse_of_lines (hwf hr) w2 hs1, List.foldl_append, List.foldl_cons] at h
    have hs2 : lines s' = (ss ++ .layout name (b ++ (ms' ++ q)) (u ++ (ys ++ w)) :: ss₂).flatMap Section.toLines ++ e₂.toLines := by
      rw [hs', w3]; simp [Section.toLines]
    have near := c138_fold ss₂ (add (z := ss.foldl Section.apply ⟨[], []⟩) (w := w) r3 (nil r5))
    rw [parse_of_lines (hwf (r1.append (hm'.append r5))) w2 hs2, List.foldl_append, List.foldl_cons]
    cases e₂ with
    | stop rest => exact ⟨_, rfl, (Out.ok.inj h) ▸ near⟩
    | layout k ls vs => exact ⟨_, rfl, (Out.ok.inj h) ▸ c138_apply near (.layout k ls vs)⟩
    | noDot => cases h
    | badView => cases h
    | badFab => cases h
    | noFab => cases h
  · obtain ⟨u, w, rfl, r1, r2, r3⟩ := c122_split hr
    obtain ⟨x0, w, rfl, r4, r5, -⟩ := c122_split r2
    obtain rfl := Logic.c119_reads_unique r4 hm
    rw [parse_of_lines (ss := ss) (e := .layout name (b ++ (ms ++ post)) (u ++ (x0 ++ w))) hw ⟨hd, hr⟩ hs] at h
    obtain rfl := Out.ok.inj h
    rw [parse_of_lines (ss := ss) (e := .layout name (b ++ (ms' ++ post)) (u ++ (ys ++ w))) hw ⟨hd, r1.append (hm'.append r5)⟩ hs']
    refine ⟨_, rfl, add r3 fun hh => ?_⟩
    cases r5 with
    | nil => rfl
    | cons hne => simp at hh; exact absurd hh hne
  · rw [parse_of_lines (ss := ss) (e := .badView name pre vs y rest) hw ⟨hd, hr, h1, h2⟩ (by rw [hs, e]; rfl)] at h
    cases h

end Swrs.View

namespace Swrs.Api
variable [MapPol] [Floats]

/-! ### One view of a tree is edited -/

/-- Specification: the second list of trees is the first one with one view `x` replaced by `y`, which has the same views in it. -/
inductive c138_Edited (x y : AndroidView) : List View → List View → Prop
  | here {a b cs : List View} : c138_Edited x y (a ++ { View.ofRaw x with children := cs } :: b) (a ++ { View.ofRaw y with children := cs } :: b)
  | inside {a b cs : List View} {v : View} (h : c138_Edited x y v.children cs) : c138_Edited x y (a ++ v :: b) (a ++ { v with children := cs } :: b)

theorem c138_append {x y : AndroidView} {S T : List View} (h : c138_Edited x y S T) (c : List View) : c138_Edited x y (S ++ c) (T ++ c) := by
  cases h with
  | here => rw [List.append_assoc, List.append_assoc]; exact .here
  | inside h => rw [List.append_assoc, List.append_assoc]; exact .inside h

theorem c138_modifyId (q : Str) (f : View → View) (v : View) :
    View.modifyId q f v = if v.id = q then some (f v) else (modifyIdIn q f v.children).map fun children => { v with children } := by
  obtain ⟨i, bc, h, w, p, m, wt, ws, g, view, raw, children⟩ := v
  rfl

theorem c138_modify {x y : AndroidView} (hid : y.id = x.id) (q : Str) (r : AndroidView) {S T : List View} (h : c138_Edited x y S T) :
    (modifyIdIn q (View.push r) S = none ∧ modifyIdIn q (View.push r) T = none) ∨
      ∃ S' T', modifyIdIn q (View.push r) S = some S' ∧ modifyIdIn q (View.push r) T = some T' ∧ c138_Edited x y S' T' := by
  induction h with
  | @here a b cs =>
    rw [c123_modify_append, c123_modify_append]
    cases modifyIdIn q (View.push r) a with
    | some a' => exact .inr ⟨_, _, rfl, rfl, .here⟩
    | none =>
      have m : ∀ z : AndroidView, View.modifyId q (View.push r) { View.ofRaw z with children := cs } =
          if z.id = q then some { View.ofRaw z with children := cs ++ [View.ofRaw r] } else (modifyIdIn q (View.push r) cs).map fun children => { View.ofRaw z with children } :=
        fun z => c138_modifyId _ _ _
      simp only [modifyIdIn]
      rw [m x, m y, hid]
      by_cases hq : x.id = q
      · rw [if_pos hq, if_pos hq]
        exact .inr ⟨_, _, rfl, rfl, .here⟩
      · rw [if_neg hq, if_neg hq]
        cases modifyIdIn q (View.push r) cs with
        | some cs' => exact .inr ⟨_, _, rfl, rfl, .here⟩
        | none =>
          cases modifyIdIn q (View.push r) b with
          | some b' => exact .inr ⟨_, _, rfl, rfl, .here⟩
          | none => exact .inl ⟨rfl, rfl⟩
  | @inside a b cs v h ih =>
    rw [c123_modify_append, c123_modify_append]
    cases modifyIdIn q (View.push r) a with
    | some a' => exact .inr ⟨_, _, rfl, rfl, .inside h⟩
    | none =>
      have m : ∀ ds : List View, View.modifyId q (View.push r) { v with children := ds } =
          if v.id = q then some { v with children := ds ++ [View.ofRaw r] } else (modifyIdIn q (View.push r) ds).map fun children => { v with children } :=
        fun ds => c138_modifyId _ _ _
      have mv : View.modifyId q (View.push r) v = if v.id = q then some { v with children := v.children ++ [View.ofRaw r] } else
          (modifyIdIn q (View.push r) v.children).map fun children => { v with children } := c138_modifyId _ _ _
      simp only [modifyIdIn]
      rw [mv, m cs]
      by_cases hq : v.id = q
      · rw [if_pos hq, if_pos hq]
        refine .inr ⟨_, _, rfl, rfl, ?_⟩
        refine .inside (v := { v with children := v.children ++ [View.ofRaw r] }) (cs := cs ++ [View.ofRaw r]) ?_
        show c138_Edited x y (v.children ++ [View.ofRaw r]) _
        exact c138_append h _
      · rw [if_neg hq, if_neg hq]
        rcases ih with ⟨e1, e2⟩ | ⟨S', T', e1, e2, e3⟩
        · rw [e1, e2]
          cases modifyIdIn q (View.push r) b with
          | some b' => exact .inr ⟨_, _, rfl, rfl, .inside h⟩
          | none => exact .inl ⟨rfl, rfl⟩
        · rw [e1, e2]
          exact .inr ⟨_, _, rfl, rfl, .inside (v := { v with children := S' }) e3⟩

theorem c138_places {x y : AndroidView} (hid : y.id = x.id) : ∀ (w : List AndroidView) {S T : List View}, c138_Edited x y S T →
    (∀ vs, placeViews w S = .ok vs → ∃ ws, placeViews w T = .ok ws ∧ c138_Edited x y vs ws) ∧ ∀ e, placeViews w S = .err e → placeViews w T = .err e
  | [], S, T, h => ⟨fun vs e => ⟨T, rfl, (Out.ok.inj e) ▸ h⟩, fun e h => by cases h⟩
  | r :: w, S, T, h => by
    simp only [placeViews, placeView]
    cases r.parent with
    | none => exact ⟨fun vs h => (by cases h), fun e h => h⟩
    | some p =>
      by_cases hp : p = s% "root"
      · simp only [hp, if_true]
        exact c138_places hid w (c138_append h _)
      · simp only [hp, if_false]
        rcases c138_modify hid p r h with ⟨e1, e2⟩ | ⟨S', T', e1, e2, e3⟩
        · simp only [e1, e2]
          exact ⟨fun vs h => (by cases h), fun e h => h⟩
        · simp only [e1, e2]
          exact c138_places hid w e3

mutual
theorem c138_pushed (x y : AndroidView) (q : Str) : ∀ v : View, (View.modifyId q (View.push x) v = none ∧ View.modifyId q (View.push y) v = none) ∨
    ∃ v' w', View.modifyId q (View.push x) v = some v' ∧ View.modifyId q (View.push y) v = some w' ∧ ∀ a b, c138_Edited x y (a ++ v' :: b) (a ++ w' :: b)
  | ⟨i, bc, h, w, pd, m, wt, ws, g, view, raw, children⟩ => by
    have ih := c138_pushedIn x y q children
    simp only [View.modifyId]
    by_cases hi : i = q
    · rw [if_pos hi, if_pos hi]
      refine .inr ⟨_, _, rfl, rfl, fun a b => .inside (v := View.push x ⟨i, bc, h, w, pd, m, wt, ws, g, view, raw, children⟩) (cs := children ++ [View.ofRaw y]) ?_⟩
      exact .here (a := children) (b := []) (cs := [])
    · rw [if_neg hi, if_neg hi]
      rcases ih with ⟨e1, e2⟩ | ⟨S', T', e1, e2, e3⟩
      · rw [e1, e2]; exact .inl ⟨rfl, rfl⟩
      · rw [e1, e2]
        exact .inr ⟨_, _, rfl, rfl, fun a b => .inside (v := ⟨i, bc, h, w, pd, m, wt, ws, g, view, raw, S'⟩) e3⟩

theorem c138_pushedIn (x y : AndroidView) (q : Str) : ∀ S : List View, (modifyIdIn q (View.push x) S = none ∧ modifyIdIn q (View.push y) S = none) ∨
    ∃ S' T', modifyIdIn q (View.push x) S = some S' ∧ modifyIdIn q (View.push y) S = some T' ∧ c138_Edited x y S' T'
  | [] => .inl ⟨rfl, rfl⟩
  | v :: S => by
    have h1 := c138_pushed x y q v
    have h2 := c138_pushedIn x y q S
    simp only [modifyIdIn]
    rcases h1 with ⟨e1, e2⟩ | ⟨v', w', e1, e2, e3⟩
    · rw [e1, e2]
      rcases h2 with ⟨e1, e2⟩ | ⟨S', T', e1, e2, e3⟩
      · rw [e1, e2]; exact .inl ⟨rfl, rfl⟩
      · rw [e1, e2]
        refine .inr ⟨_, _, rfl, rfl, ?_⟩
        cases e3 with
        | @here a b cs => exact .here (a := v :: a)
        | @inside a b cs u h => exact .inside (a := v :: a) h
    · rw [e1, e2]
      exact .inr ⟨_, _, rfl, rfl, e3 [] S⟩
end

theorem c138_placed {x y : AndroidView} (hid : y.id = x.id) (hpar : y.parent = x.parent) (w : List AndroidView) : ∀ (u : List AndroidView) (S : List View),
    (∀ vs, placeViews (u ++ x :: w) S = .ok vs → ∃ ws, placeViews (u ++ y :: w) S = .ok ws ∧ c138_Edited x y vs ws) ∧
      ∀ e, placeViews (u ++ x :: w) S = .err e → placeViews (u ++ y :: w) S = .err e
  | [], S => by
    simp only [List.nil_append, placeViews, placeView, hpar, hid]
    cases x.parent with
    | none => exact ⟨fun vs h => (by cases h), fun e h => h⟩
    | some p =>
      by_cases hp : p = s% "root"
      · simp only [hp, if_true]
        exact c138_places hid w (.here (a := S) (b := []) (cs := []))
      · simp only [hp, if_false]
        rcases c138_pushedIn x y p S with ⟨e1, e2⟩ | ⟨S', T', e1, e2, e3⟩
        · simp only [e1, e2]
          exact ⟨fun vs h => (by cases h), fun e h => h⟩
        · simp only [e1, e2]
          exact c138_places hid w e3
  | r :: u, S => by
    have ih := c138_placed hid hpar w u
    simp only [List.cons_append, placeViews]
    cases placeView S r with
    | ok S' => exact ih S'
    | err e => exact ⟨fun vs h => (by cases h), fun e h => h⟩
    | panic => exact ⟨fun vs h => (by cases h), fun e h => (by cases h)⟩

/-- C138: one view of a layout is replaced by another one with the same id and parent. The same trees are read, with the new view in the place of the old one, and an error is the
same. -/
theorem c138_edit {u w : List AndroidView} {x y : AndroidView} (hid : y.id = x.id) (hpar : y.parent = x.parent) :
    (∀ vs, parseRawLayout ⟨u ++ x :: w⟩ = .ok vs → ∃ ws, parseRawLayout ⟨u ++ y :: w⟩ = .ok ws ∧ c138_Edited x y vs ws) ∧
      ∀ e, parseRawLayout ⟨u ++ x :: w⟩ = .err e → parseRawLayout ⟨u ++ y :: w⟩ = .err e :=
  c138_placed hid hpar w u []

/-! ### The project -/

/-- Specification: the same project, but for the views of one screen of this name or of one custom view of this name, which are related. -/
def c138_Project (p : Swrs.SketchwareProject) (name : Str) (T : List View → List View → Prop) (P Q : SketchwareProject) : Prop :=
  (∃ A s t B f, P.screens = A ++ s :: B ∧ Q = { P with screens := A ++ t :: B } ∧ p.file.activities[A.length]? = some f ∧ f.filename = name ∧
    t = { s with layout := t.layout } ∧ T s.layout t.layout) ∨
  ∃ A s t B, P.customViews = A ++ s :: B ∧ Q = { P with customViews := A ++ t :: B } ∧ s.resName = name ∧ t.resName = name ∧ T s.layout t.layout

/-- C138: in one layout in the text of the view file, lines that are read as views are replaced by other lines that are read as views. If the layout with the new views is a tree,
the project is opened as before, and only the views of that screen or custom view are other ones. -/
theorem c138_text (ex : PathBuf → Bool) (rnd : ResourceType → Nat → UInt32) {raw : RawSketchwareProject} {p : Swrs.SketchwareProject} {P : SketchwareProject}
    (hp : Swrs.SketchwareProject.parseFrom ex raw = .ok p) (hP : SketchwareProject.tryFrom rnd p = .ok P) {view name : Str} {ss : List Section} {b ms ms' post : List Str}
    (hw : ∀ y ∈ ss, y.WF) (hd : '.' ∉ name) (hs : lines raw.view = ss.flatMap Section.toLines ++ ('@' :: (name ++ s% ".xml")) :: (b ++ (ms ++ post)))
    (hs' : lines view = ss.flatMap Section.toLines ++ ('@' :: (name ++ s% ".xml")) :: (b ++ (ms' ++ post))) (hb : [] ∉ b) {xs ys : List AndroidView}
    (hm : ReadsAll AndroidView.parse ms xs) (hm' : ReadsAll AndroidView.parse ms' ys) (T : List View → List View → Prop)
    (hT : ∀ u w vs, p.view.layouts.get name = some ⟨u ++ (xs ++ w)⟩ → u.length = b.length → (post = [] ∨ post.head? = some [] → w = []) →
      parseRawLayout ⟨u ++ (xs ++ w)⟩ = .ok vs → ∃ ws, parseRawLayout ⟨u ++ (ys ++ w)⟩ = .ok ws ∧ T vs ws) :
    ∃ q Q, Swrs.SketchwareProject.parseFrom ex { raw with view } = .ok q ∧ SketchwareProject.tryFrom rnd q = .ok Q ∧ (Q = P ∨ c138_Project p name T P Q) := by
  obtain ⟨r, hr, hv⟩ := Swrs.View.c138_view hw hd hs hs' hb hm hm' ((c58_parts ex _ _).mp hp).2.2.2.2.1
  have hl : c123_Layouts (fun a b => ∀ vs, parseRawLayout a = .ok vs → ∃ vs', parseRawLayout b = .ok vs' ∧ T vs vs') name p.view.layouts r.layouts := by
    intro n
    rcases hv.layouts n with h | ⟨rfl, u, w, h1, h2, h3, h4⟩
    · exact .inl h
    · exact .inr ⟨rfl, _, _, h3, h4, fun vs hvs => hT u w vs h3 h1 h2 hvs⟩
  obtain ⟨ss', ly, cv, lb, im, so, fo, a1, a2, a3, a4, a5, a6, rfl, rfl, -⟩ := tryFrom_ok hP
  obtain ⟨ss₁, ly', g1, g2⟩ := c123_conv_layout (fun h => h _) p.file.activities hl hv.fabs a1
  refine ⟨{ p with view := r }, ?_⟩
  rcases g2 with ⟨rfl, g2⟩ | ⟨g2, A, s, t, B, f, k1, rfl, k2⟩
  · obtain ⟨cs', g3, g4⟩ := c123_customs_layout (fun h => h _) p.file.customViews g2 a2
    refine ⟨_, c123_view_opened hp hr, c123_tryFrom (q := { p with view := r }) hP g1 g3 rfl rfl rfl rfl, ?_⟩
    rcases g4 with rfl | ⟨A, s, t, B, k1, rfl, k2⟩
    · exact .inl rfl
    · exact .inr (.inr ⟨A, s, t, B, k1, rfl, k2⟩)
  · refine ⟨_, c123_view_opened hp hr, c123_tryFrom (q := { p with view := r }) hP g1 ((c123_customs_get _ g2).trans a2) rfl rfl rfl rfl, ?_⟩
    exact .inr (.inl ⟨A, s, t, B, f, k1, rfl, k2⟩)

/-- C138: if the layout with the new views is no tree, the project is not converted, or it does not have that layout and is the same. -/
theorem c138_refused (ex : PathBuf → Bool) (rnd : ResourceType → Nat → UInt32) {raw : RawSketchwareProject} {p : Swrs.SketchwareProject} {P : SketchwareProject}
    (hp : Swrs.SketchwareProject.parseFrom ex raw = .ok p) (hP : SketchwareProject.tryFrom rnd p = .ok P) {view name : Str} {ss : List Section} {b ms ms' post : List Str}
    (hw : ∀ y ∈ ss, y.WF) (hd : '.' ∉ name) (hs : lines raw.view = ss.flatMap Section.toLines ++ ('@' :: (name ++ s% ".xml")) :: (b ++ (ms ++ post)))
    (hs' : lines view = ss.flatMap Section.toLines ++ ('@' :: (name ++ s% ".xml")) :: (b ++ (ms' ++ post))) (hb : [] ∉ b) {xs ys : List AndroidView}
    (hm : ReadsAll AndroidView.parse ms xs) (hm' : ReadsAll AndroidView.parse ms' ys)
    (hT : ∀ u w vs, p.view.layouts.get name = some ⟨u ++ (xs ++ w)⟩ → u.length = b.length → (post = [] ∨ post.head? = some [] → w = []) →
      parseRawLayout ⟨u ++ (ys ++ w)⟩ ≠ .ok vs) :
    ∃ q, Swrs.SketchwareProject.parseFrom ex { raw with view } = .ok q ∧ ∀ Q, SketchwareProject.tryFrom rnd q = .ok Q → Q = P := by
  obtain ⟨r, hr, hv⟩ := Swrs.View.c138_view hw hd hs hs' hb hm hm' ((c58_parts ex _ _).mp hp).2.2.2.2.1
  have hl : c123_Layouts (fun _ b => ∀ vs, parseRawLayout b ≠ .ok vs) name p.view.layouts r.layouts := by
    intro n
    rcases hv.layouts n with h | ⟨rfl, u, w, h1, h2, h3, h4⟩
    · exact .inl h
    · exact .inr ⟨rfl, _, _, h3, h4, fun vs => hT u w vs h3 h1 h2⟩
  refine ⟨{ p with view := r }, c123_view_opened hp hr, fun Q hQ => ?_⟩
  unfold SketchwareProject.tryFrom at hP hQ
  simp only [Out.bind_eq_ok, Prod.exists] at hP hQ
  obtain ⟨ss, ly, a1, cs, a2, lb, a3, im, a4, so, a5, fo, a6, a7⟩ := hP
  obtain ⟨ss', ly', b1, cs', b2, lb', b3, im', b4, so', b5, fo', b6, b7⟩ := hQ
  obtain ⟨rfl, g⟩ := c123_conv_refused (fun h => h _) _ hl hv.fabs a1 b1
  obtain rfl := c123_customs_refused (fun h => h _) _ g a2 b2
  obtain rfl := Out.ok.inj (a3.symm.trans b3)
  obtain rfl := Out.ok.inj (a4.symm.trans b4)
  obtain rfl := Out.ok.inj (a5.symm.trans b5)
  obtain rfl := Out.ok.inj (a6.symm.trans b6)
  exact Out.ok.inj (b7.symm.trans a7)

theorem c138_line {l : Str} {x : AndroidView} (h : AndroidView.parse l = some x) : ReadsAll AndroidView.parse [l] [x] :=
  .cons (c116_noHeader (r := []) c116_androidView h).1 h .nil

/-- C138: the line of one view in the text of the view file is changed, but not the id and the parent of the view. The project is opened as before, except that the view, at
whatever depth it is, is the new one, with the same views in it. -/
theorem c138_changed (ex : PathBuf → Bool) (rnd : ResourceType → Nat → UInt32) {raw : RawSketchwareProject} {p : Swrs.SketchwareProject} {P : SketchwareProject}
    (hp : Swrs.SketchwareProject.parseFrom ex raw = .ok p) (hP : SketchwareProject.tryFrom rnd p = .ok P) {view name l l' : Str} {ss : List Section} {b post : List Str}
    (hw : ∀ y ∈ ss, y.WF) (hd : '.' ∉ name) (hs : lines raw.view = ss.flatMap Section.toLines ++ ('@' :: (name ++ s% ".xml")) :: (b ++ l :: post))
    (hs' : lines view = ss.flatMap Section.toLines ++ ('@' :: (name ++ s% ".xml")) :: (b ++ l' :: post)) (hb : [] ∉ b) {x y : AndroidView}
    (hx : AndroidView.parse l = some x) (hy : AndroidView.parse l' = some y) (hid : y.id = x.id) (hpar : y.parent = x.parent) :
    ∃ q Q, Swrs.SketchwareProject.parseFrom ex { raw with view } = .ok q ∧ SketchwareProject.tryFrom rnd q = .ok Q ∧
      (Q = P ∨ c138_Project p name (c138_Edited x y) P Q) :=
  c138_text ex rnd hp hP (ms := [l]) (ms' := [l']) hw hd hs hs' hb (c138_line hx) (c138_line hy) _ fun _ _ vs _ _ _ h => (c138_edit hid hpar).1 vs h

/-- Specification: the view `x` of `o` is now shown in `p`, with all that is in it, and nothing else is moved. -/
def c138_Moved (x : AndroidView) (o p : Str) (vs ws : List View) : Prop :=
  (∃ a b, c130_in o vs = a ++ x :: b ∧ c130_in o ws = a ++ b) ∧
  (∃ a b, c130_in p vs = a ++ b ∧ c130_in p ws = a ++ { x with parent := some p } :: b) ∧
  (∀ i, i ≠ o → i ≠ p → c130_in i ws = c130_in i vs) ∧
  (∀ v ∈ allOf vs, v.raw = x → { View.ofRaw { x with parent := some p } with children := v.children } ∈ allOf ws) ∧
  ∀ v ∈ allOf vs, v.raw ≠ x → (∀ y ∈ v.all, y.id ≠ o ∧ y.id ≠ p) → v ∈ allOf ws

/-- C138: the line of one view in the text of the view file is changed, so that it names another parent, which is the root or a view before it. The project is opened as before,
except that the view is shown in the new parent. -/
theorem c138_move (ex : PathBuf → Bool) (rnd : ResourceType → Nat → UInt32) {raw : RawSketchwareProject} {p : Swrs.SketchwareProject} {P : SketchwareProject}
    (hp : Swrs.SketchwareProject.parseFrom ex raw = .ok p) (hP : SketchwareProject.tryFrom rnd p = .ok P) {view name l l' : Str} {ss : List Section} {b post : List Str}
    (hw : ∀ y ∈ ss, y.WF) (hd : '.' ∉ name) (hs : lines raw.view = ss.flatMap Section.toLines ++ ('@' :: (name ++ s% ".xml")) :: (b ++ l :: post))
    (hs' : lines view = ss.flatMap Section.toLines ++ ('@' :: (name ++ s% ".xml")) :: (b ++ l' :: post)) (hb : [] ∉ b) {x : AndroidView} {o t : Str}
    (hx : AndroidView.parse l = some x) (hy : AndroidView.parse l' = some { x with parent := some t }) (ho : x.parent = some o) (hot : o ≠ t)
    (hids : ∀ lay, p.view.layouts.get name = some lay → (lay.views.map (·.id)).Nodup)
    (ht : t = s% "root" ∨ ∀ lay, p.view.layouts.get name = some lay → t ∈ (lay.views.take b.length).map (·.id)) :
    ∃ q Q, Swrs.SketchwareProject.parseFrom ex { raw with view } = .ok q ∧ SketchwareProject.tryFrom rnd q = .ok Q ∧
      (Q = P ∨ c138_Project p name (c138_Moved x o t) P Q) :=
  c138_text ex rnd hp hP (ms := [l]) (ms' := [l']) hw hd hs hs' hb (c138_line hx) (c138_line hy) _ fun u w vs h1 h2 _ h => by
    refine c130_move (u := u) (w := w) h (hids _ h1) ho hot (ht.imp id fun ht => ?_)
    have := ht _ h1
    rwa [← h2, List.take_left] at this

/-- C138: the line of one view in the text of the view file is changed, so that it names a parent that is not before it. The project is not converted, or it does not have that
layout and is the same. -/
theorem c138_move_refused (ex : PathBuf → Bool) (rnd : ResourceType → Nat → UInt32) {raw : RawSketchwareProject} {p : Swrs.SketchwareProject} {P : SketchwareProject}
    (hp : Swrs.SketchwareProject.parseFrom ex raw = .ok p) (hP : SketchwareProject.tryFrom rnd p = .ok P) {view name l l' : Str} {ss : List Section} {b post : List Str}
    (hw : ∀ y ∈ ss, y.WF) (hd : '.' ∉ name) (hs : lines raw.view = ss.flatMap Section.toLines ++ ('@' :: (name ++ s% ".xml")) :: (b ++ l :: post))
    (hs' : lines view = ss.flatMap Section.toLines ++ ('@' :: (name ++ s% ".xml")) :: (b ++ l' :: post)) (hb : [] ∉ b) {x : AndroidView} {t : Str}
    (hx : AndroidView.parse l = some x) (hy : AndroidView.parse l' = some { x with parent := some t })
    (ht : t ≠ s% "root" ∧ ∀ lay, p.view.layouts.get name = some lay → t ∉ (lay.views.take b.length).map (·.id)) :
    ∃ q, Swrs.SketchwareProject.parseFrom ex { raw with view } = .ok q ∧ ∀ Q, SketchwareProject.tryFrom rnd q = .ok Q → Q = P :=
  c138_refused ex rnd hp hP (ms := [l]) (ms' := [l']) hw hd hs hs' hb (c138_line hx) (c138_line hy) fun u w vs h1 h2 _ h => by
    obtain ⟨pid, k1, k2⟩ := (c33_accepts ⟨u ++ { x with parent := some t } :: w⟩).mp ⟨vs, h⟩ u _ w rfl
    obtain rfl : t = pid := Option.some.inj k1
    have := ht.2 _ h1
    rw [← h2, List.take_left] at this
    exact k2.elim ht.1 this

/-- C138: the line of one view in which no view is shown is taken out of the text of the view file. The project is opened as before, without this view. -/
theorem c138_leaf (ex : PathBuf → Bool) (rnd : ResourceType → Nat → UInt32) {raw : RawSketchwareProject} {p : Swrs.SketchwareProject} {P : SketchwareProject}
    (hp : Swrs.SketchwareProject.parseFrom ex raw = .ok p) (hP : SketchwareProject.tryFrom rnd p = .ok P) {view name l : Str} {ss : List Section} {b post : List Str}
    (hw : ∀ y ∈ ss, y.WF) (hd : '.' ∉ name) (hs : lines raw.view = ss.flatMap Section.toLines ++ ('@' :: (name ++ s% ".xml")) :: (b ++ l :: post))
    (hs' : lines view = ss.flatMap Section.toLines ++ ('@' :: (name ++ s% ".xml")) :: (b ++ post)) (hb : [] ∉ b) {x : AndroidView} (hx : AndroidView.parse l = some x)
    (hids : ∀ lay, p.view.layouts.get name = some lay → (lay.views.map (·.id)).Nodup ∧ ∀ r ∈ lay.views, r.parent ≠ some x.id) :
    ∃ q Q, Swrs.SketchwareProject.parseFrom ex { raw with view } = .ok q ∧ SketchwareProject.tryFrom rnd q = .ok Q ∧
      (Q = P ∨ c138_Project p name (fun vs ws => c123_Added x (s% "root") ws vs) P Q) :=
  c138_text ex rnd hp hP (ms := [l]) (ms' := []) hw hd hs hs' hb (c138_line hx) .nil _ fun u w vs h1 _ _ h => by
    obtain ⟨k1, k2⟩ := hids _ h1
    refine c125_leaf (u := u) (w := w) h ?_ fun r hr => k2 r (by simp [hr])
    intro r hr he
    simp only [List.map_append, List.map_cons, List.cons_append, List.nil_append] at k1
    have hn := (List.nodup_middle.mp k1)
    rw [List.nodup_cons] at hn
    refine hn.1 ?_
    rw [← List.map_append, ← he]
    exact List.mem_map_of_mem hr

theorem c138_grounded {u xs ys w : List AndroidView} (h : Grounded (u ++ (xs ++ w))) (hxy : xs.Perm ys)
    (hpre : ∀ a y c i, ys = a ++ y :: c → y.parent = some i → i ∉ (y :: c).map (·.id)) : Grounded (u ++ (ys ++ w)) := by
  have hmem : ∀ i, i ∈ xs.map (·.id) ↔ i ∈ ys.map (·.id) := fun i => (hxy.map (·.id)).mem_iff
  have inW : ∀ a r post, w = a ++ r :: post → ∃ p, r.parent = some p ∧ (p = s% "root" ∨ p ∈ (u ++ (ys ++ a)).map (·.id)) := by
    intro a r post e
    obtain ⟨p, h1, h2⟩ := h (u ++ (xs ++ a)) r post (by rw [e]; simp)
    refine ⟨p, h1, h2.imp id fun h2 => ?_⟩
    simp only [List.map_append, List.mem_append, hmem] at h2 ⊢
    exact h2
  have inY : ∀ a r c, ys = a ++ r :: c → ∃ p, r.parent = some p ∧ (p = s% "root" ∨ p ∈ (u ++ a).map (·.id)) := by
    intro a r c e
    obtain ⟨x1, x2, e1⟩ := List.append_of_mem (hxy.mem_iff.mpr (e ▸ List.mem_append_right a (List.mem_cons_self ..)))
    obtain ⟨p, h1, h2⟩ := h (u ++ x1) r (x2 ++ w) (by rw [e1]; simp)
    refine ⟨p, h1, h2.imp id fun h2 => ?_⟩
    rw [List.map_append, List.mem_append] at h2 ⊢
    refine h2.imp id fun h2 => ?_
    have h3 : p ∈ ys.map (·.id) := (hmem p).mp (by rw [e1, List.map_append]; exact List.mem_append_left _ h2)
    rw [e, List.map_append, List.mem_append] at h3
    exact h3.elim id fun h3 => absurd h3 (hpre a r c p e h1)
  intro pre r post e
  have mid : ∀ a, ys ++ w = a ++ r :: post → ∃ p, r.parent = some p ∧ (p = s% "root" ∨ p ∈ (u ++ a).map (·.id)) := by
    intro a e
    rcases List.append_eq_append_iff.mp e with ⟨a', rfl, e2⟩ | ⟨c, e1, e2⟩
    · exact inW a' r post e2
    · cases c with
      | nil =>
        have := inW [] r post (by simpa using e2.symm)
        rw [e1] at this
        simpa using this
      | cons r' c =>
        obtain ⟨rfl, rfl⟩ := List.cons.inj e2
        exact inY a r c e1
  rcases List.append_eq_append_iff.mp e with ⟨a, rfl, e2⟩ | ⟨c, rfl, e2⟩
  · exact mid a e2
  · cases c with
    | nil =>
      have := mid [] (by simpa using e2.symm)
      simpa using this
    | cons r' c =>
      obtain ⟨rfl, rfl⟩ := List.cons.inj e2
      exact h pre r (c ++ (xs ++ w)) (by simp)

/-- C138: the lines of views in the text of the view file are put in another order. If the ids of the layout differ, and in the new order each view still comes after its parent and
the views of each parent are in the same order, the same project is opened. -/
theorem c138_order (ex : PathBuf → Bool) (rnd : ResourceType → Nat → UInt32) {raw : RawSketchwareProject} {p : Swrs.SketchwareProject} {P : SketchwareProject}
    (hp : Swrs.SketchwareProject.parseFrom ex raw = .ok p) (hP : SketchwareProject.tryFrom rnd p = .ok P) {view name : Str} {ss : List Section} {b ms ms' post : List Str}
    (hw : ∀ y ∈ ss, y.WF) (hd : '.' ∉ name) (hs : lines raw.view = ss.flatMap Section.toLines ++ ('@' :: (name ++ s% ".xml")) :: (b ++ (ms ++ post)))
    (hs' : lines view = ss.flatMap Section.toLines ++ ('@' :: (name ++ s% ".xml")) :: (b ++ (ms' ++ post))) (hb : [] ∉ b) {xs ys : List AndroidView}
    (hm : ReadsAll AndroidView.parse ms xs) (hm' : ReadsAll AndroidView.parse ms' ys) (hxy : xs.Perm ys)
    (hids : ∀ lay, p.view.layouts.get name = some lay → (lay.views.map (·.id)).Nodup)
    (hpre : ∀ a y c i, ys = a ++ y :: c → y.parent = some i → i ∉ (y :: c).map (·.id))
    (hsib : ∀ i, ys.filter (fun r => decide (r.parent = some i)) = xs.filter (fun r => decide (r.parent = some i))) :
    ∃ q, Swrs.SketchwareProject.parseFrom ex { raw with view } = .ok q ∧ SketchwareProject.tryFrom rnd q = .ok P := by
  obtain ⟨q, Q, h1, h2, h3⟩ := c138_text ex rnd hp hP hw hd hs hs' hb hm hm' (fun vs ws => ws = vs) fun u w vs h1 _ _ h => by
    have hperm : (u ++ (xs ++ w)).Perm (u ++ (ys ++ w)) := (hxy.append_right w).append_left u
    refine ⟨vs, (c124_views (l' := ⟨u ++ (ys ++ w)⟩) h hperm (hids _ h1)).mpr ⟨?_, fun i => ?_⟩, rfl⟩
    · exact c138_grounded ((c33_accepts _).mp ⟨vs, h⟩) hxy hpre
    · simp only [List.filter_append, hsib]
  refine ⟨q, h1, ?_⟩
  rcases h3 with rfl | ⟨A, s, t, B, f, e1, rfl, -, -, e2, e3⟩ | ⟨A, s, t, B, e1, rfl, e2, e3, e4⟩
  · exact h2
  · rw [e3] at e2
    obtain rfl : t = s := e2
    rw [← e1] at h2
    exact h2
  · obtain ⟨n, l⟩ := s
    obtain ⟨n', l'⟩ := t
    simp only at e2 e3 e4
    subst e2 e3 e4
    rw [← e1] at h2
    exact h2

end Swrs.Api

/-! ### The hypotheses can be met -/

namespace Swrs.Api

/-- The text of a view file with one layout. -/
def c138_file [Floats] (vs : List AndroidView) : Str := joinWith '\n' ((s% "@main.xml") :: vs.map AndroidView.reconstruct)

theorem c138_file_key (i p : Str) : let _ : Floats := toyFloats.toFloats
    '\n' ∉ (AndroidView.newEmpty i 3 p 0).reconstruct ∧ AndroidView.parse (AndroidView.newEmpty i 3 p 0).reconstruct = some (AndroidView.newEmpty i 3 p 0) := by
  let fl : FloatLaws := toyFloats
  let _ : Floats := toyFloats.toFloats
  exact ⟨(c21_view_round_trip_partial (AndroidView.newEmpty i 3 p 0)).2.2, (AndroidView.parse_reconstruct_iff _).mpr (newEmpty_storable _ _ _ _)⟩

theorem c138_file_lines (vs : List (Str × Str)) : let _ : Floats := toyFloats.toFloats
    lines (c138_file (vs.map fun e => AndroidView.newEmpty e.1 3 e.2 0)) = (s% "@main.xml") :: (vs.map fun e => AndroidView.newEmpty e.1 3 e.2 0).map AndroidView.reconstruct ∧
    ReadsAll AndroidView.parse ((vs.map fun e => AndroidView.newEmpty e.1 3 e.2 0).map AndroidView.reconstruct) (vs.map fun e => AndroidView.newEmpty e.1 3 e.2 0) := by
  let _ : Floats := toyFloats.toFloats
  refine ⟨splitOn_joinWith (by simp) ?_, ?_⟩
  · intro p hp
    rcases List.mem_cons.mp hp with rfl | hp
    · decide
    · obtain ⟨b, hb, rfl⟩ := List.mem_map.mp hp
      obtain ⟨e, -, rfl⟩ := List.mem_map.mp hb
      exact (c138_file_key e.1 e.2).1
  · induction vs with
    | nil => exact .nil
    | cons e vs ih => exact .cons (c116_noHeader (r := []) c116_androidView (c138_file_key e.1 e.2).2).1 (c138_file_key e.1 e.2).2 ih

theorem c138_file_read [MapPol] (vs : List (Str × Str)) : let _ : Floats := toyFloats.toFloats
    Swrs.View.parse (c138_file (vs.map fun e => AndroidView.newEmpty e.1 3 e.2 0)) = .ok ⟨[(s% "main", ⟨vs.map fun e => AndroidView.newEmpty e.1 3 e.2 0⟩)], []⟩ := by
  let _ : Floats := toyFloats.toFloats
  obtain ⟨h1, h2⟩ := c138_file_lines vs
  exact (Swrs.View.parse_of_lines (ss := []) (e := .layout (s% "main") _ _) (by simp) ⟨by decide, h2⟩ h1).trans rfl

/-- `c138_text`, `c138_changed`, `c138_move`, `c138_move_refused`, `c138_leaf` and `c138_order`: the text of a project with three views, of which the last one is changed, moved into the
first one, into itself, or taken out; or the last two, with different parents, change places. -/
example [MapPol] (ex : PathBuf → Bool) (rnd : ResourceType → Nat → UInt32) : let _ : Floats := toyFloats.toFloats
    let v := fun (i p : Str) => AndroidView.newEmpty i 3 p 0
    let a := v (s% "a") (s% "root")
    let b := v (s% "b") (s% "a")
    let c := v (s% "c") (s% "root")
    let raw := c120_raw (c138_file [a, b, c]) []
    let pre := ([] : List Section).flatMap Section.toLines
    let hd := '@' :: (s% "main" ++ s% ".xml")
    ∃ (p : Swrs.SketchwareProject) (P : SketchwareProject), Swrs.SketchwareProject.parseFrom ex raw = .ok p ∧ SketchwareProject.tryFrom rnd p = .ok P ∧ P.screens.length = 1 ∧
      lines raw.view = pre ++ hd :: ([a.reconstruct, b.reconstruct] ++ c.reconstruct :: []) ∧ [] ∉ [a.reconstruct, b.reconstruct] ∧
      p.view.layouts.get (s% "main") = some ⟨[a, b, c]⟩ ∧
      ([a, b, c].map (·.id)).Nodup ∧ (∀ r ∈ [a, b, c], r.parent ≠ some c.id) ∧ c.parent = some (s% "root") ∧ s% "a" ∈ ([a, b, c].take 2).map (·.id) ∧
      s% "c" ∉ ([a, b, c].take 2).map (·.id) ∧
      (∀ i t, ∃ view, lines view = pre ++ hd :: ([a.reconstruct, b.reconstruct] ++ (v i t).reconstruct :: []) ∧ AndroidView.parse (v i t).reconstruct = some (v i t)) ∧
      (∃ view, lines view = pre ++ hd :: ([a.reconstruct, b.reconstruct] ++ [])) ∧
      (∃ view, lines view = pre ++ hd :: ([a.reconstruct] ++ ([c.reconstruct, b.reconstruct] ++ []))) ∧
      ReadsAll AndroidView.parse [b.reconstruct, c.reconstruct] [b, c] ∧ ReadsAll AndroidView.parse [c.reconstruct, b.reconstruct] [c, b] ∧ [b, c].Perm [c, b] ∧
      (∀ u y w i, [c, b] = u ++ y :: w → y.parent = some i → i ∉ (y :: w).map (·.id)) ∧
      ∀ i, [c, b].filter (fun r => decide (r.parent = some i)) = [b, c].filter (fun r => decide (r.parent = some i)) := by
  let _ : Floats := toyFloats.toFloats
  refine ⟨_, _, c120_parsed ex (c138_file_read [(s% "a", s% "root"), (s% "b", s% "a"), (s% "c", s% "root")]) rfl, rfl, rfl,
    (c138_file_lines [(s% "a", s% "root"), (s% "b", s% "a"), (s% "c", s% "root")]).1, ?_, rfl, by decide, ?_, rfl, by decide, by decide, fun i t => ⟨_,
    (c138_file_lines [(s% "a", s% "root"), (s% "b", s% "a"), (i, t)]).1, (c138_file_key i t).2⟩, ⟨_, (c138_file_lines [(s% "a", s% "root"), (s% "b", s% "a")]).1⟩,
    ⟨_, (c138_file_lines [(s% "a", s% "root"), (s% "c", s% "root"), (s% "b", s% "a")]).1⟩, (c138_file_lines [(s% "b", s% "a"), (s% "c", s% "root")]).2,
    (c138_file_lines [(s% "c", s% "root"), (s% "b", s% "a")]).2, .swap .., ?_, ?_⟩
  · exact Swrs.View.c138_reads_blank (c138_file_lines [(s% "a", s% "root"), (s% "b", s% "a")]).2
  · intro r hr
    simp only [List.mem_cons, List.not_mem_nil, or_false] at hr
    rcases hr with rfl | rfl | rfl <;> decide
  · intro u y w i e hy
    match u, e with
    | [], e =>
      obtain ⟨rfl, rfl⟩ := List.cons.inj e
      obtain rfl := Option.some.inj hy
      decide
    | [_], e =>
      obtain ⟨-, e⟩ := List.cons.inj e
      obtain ⟨rfl, rfl⟩ := List.cons.inj e
      obtain rfl := Option.some.inj hy
      decide
    | _ :: _ :: u, e =>
      have := congrArg List.length e
      simp at this
  · intro i
    by_cases h1 : i = s% "root"
    · subst h1; rfl
    · simp [List.filter_cons, AndroidView.newEmpty, Ne.symm h1]

end Swrs.Api
