import Verif.Props.JoinCode
import Verif.Props.ViewOrder
/-!
# C130: a view is moved by naming another parent
-/
set_option linter.unusedSectionVars false
namespace Swrs.Api
variable [Floats]

/-- Specification: the views that a layout shows in the view with this id, or at the top. -/
def c130_in (i : Str) (vs : List View) : List AndroidView :=
  if i = s% "root" then vs.map View.raw else ((allOf vs).filter fun v => decide (v.id = i)).flatMap fun v => v.children.map View.raw

theorem c130_id {l : Layout} {vs : List View} (h : parseRawLayout l = .ok vs) {v : View} (hv : v ∈ allOf vs) : v.id = v.raw.id :=
  congrArg View.id ((c33_tree l vs h).2.2 v hv).1

theorem c130_ids {l : Layout} {vs : List View} (h : parseRawLayout l = .ok vs) : ((allOf vs).map (·.id)).Perm (l.views.map (·.id)) := by
  have : (allOf vs).map (·.id) = ((allOf vs).map View.raw).map (·.id) := by
    rw [List.map_map]
    exact List.map_congr_left fun v hv => c130_id h hv
  rw [this]
  exact (c33_tree l vs h).1.map _

theorem c130_filter_one {α : Type} {f : α → Str} {l : List α} (hn : (l.map f).Nodup) {v : α} (hv : v ∈ l) : l.filter (fun w => decide (f w = f v)) = [v] := by
  induction l with
  | nil => cases hv
  | cons a l ih =>
    rw [List.map_cons, List.nodup_cons] at hn
    rcases List.mem_cons.mp hv with rfl | hv'
    · rw [List.filter_cons_of_pos (by simp), List.filter_eq_nil_iff.mpr]
      intro w hw
      have : f w ≠ f v := fun e => hn.1 (List.mem_map.mpr ⟨w, hw, e⟩)
      simpa using this
    · have : f a ≠ f v := fun e => hn.1 (List.mem_map.mpr ⟨v, hv', e.symm⟩)
      rw [List.filter_cons_of_neg (by simpa using this), ih hn.2 hv']

theorem c130_in_eq {l : Layout} {vs : List View} (h : parseRawLayout l = .ok vs) (hn : (l.views.map (·.id)).Nodup) (i : Str) :
    c130_in i vs = l.views.filter fun r => decide (r.parent = some i) := by
  unfold c130_in
  by_cases hi : i = s% "root"
  · rw [if_pos hi, hi]
    exact (c33_tree l vs h).2.1
  · rw [if_neg hi]
    have hn' : ((allOf vs).map (·.id)).Nodup := (c130_ids h).nodup_iff.mpr hn
    by_cases hm : i ∈ (allOf vs).map (·.id)
    · obtain ⟨v, hv, rfl⟩ := List.mem_map.mp hm
      rw [c130_filter_one (f := fun v : View => v.id) hn' hv, List.flatMap_cons, List.flatMap_nil, List.append_nil]
      exact c33_children l vs h hn v hv hi
    · rw [List.filter_eq_nil_iff.mpr fun v hv => by simpa using fun e : v.id = i => hm (List.mem_map.mpr ⟨v, hv, e⟩), List.flatMap_nil]
      refine (List.filter_eq_nil_iff.mpr fun r hr => ?_).symm
      have hg := (c33_accepts l).mp ⟨vs, h⟩
      obtain ⟨a, b, e⟩ := List.append_of_mem hr
      obtain ⟨p, h1, h2⟩ := hg a r b e
      rw [h1]
      suffices p ≠ i by simpa using this
      rintro rfl
      rcases h2 with h2 | h2
      · exact hi h2
      · refine hm ((c130_ids h).mem_iff.mpr ?_)
        rw [e, List.map_append]
        exact List.mem_append_left _ h2

theorem c130_all_trans {us : List View} {v y : View} (hv : v ∈ allOf us) (hy : y ∈ v.all) : y ∈ allOf us := by
  have key : ∀ x : View, v ∈ x.all → y ∈ x.all := by
    intro x
    refine View.induct (P := fun x => v ∈ x.all → y ∈ x.all) x ?_
    intro x ih h
    rw [View.all_eq] at h
    rcases List.mem_cons.mp h with rfl | h
    · exact hy
    · rw [View.all_eq]
      refine List.mem_cons_of_mem _ ?_
      rw [allOf_eq] at h ⊢
      obtain ⟨c, hc, h⟩ := List.mem_flatMap.mp h
      exact List.mem_flatMap.mpr ⟨c, hc, ih c hc h⟩
  rw [allOf_eq] at hv ⊢
  obtain ⟨c, hc, h⟩ := List.mem_flatMap.mp hv
  exact List.mem_flatMap.mpr ⟨c, hc, key c h⟩

/-- What is in a view is listed after it. -/
theorem c130_after {l : Layout} {vs : List View} (h : parseRawLayout l = .ok vs) (hn : (l.views.map (·.id)).Nodup) (v : View) : ∀ (u w : List AndroidView),
    l.views = u ++ v.raw :: w → v ∈ allOf vs → ∀ y ∈ allOf v.children, y.raw ∈ w := by
  refine View.induct (P := fun v => ∀ (u w : List AndroidView), l.views = u ++ v.raw :: w → v ∈ allOf vs → ∀ y ∈ allOf v.children, y.raw ∈ w) v ?_
  intro v ih u w e hv y hy
  rw [allOf_eq] at hy
  obtain ⟨c, hc, hy⟩ := List.mem_flatMap.mp hy
  have hcv : c ∈ allOf vs := c130_all_trans hv (by rw [View.all_eq, allOf_eq]; exact List.mem_cons_of_mem _ (List.mem_flatMap.mpr ⟨c, hc, by rw [View.all_eq]; simp⟩))
  have hcl : c.raw ∈ l.views := (c33_tree l vs h).1.mem_iff.mp (List.mem_map.mpr ⟨c, hcv, rfl⟩)
  obtain ⟨hp, hr⟩ := ((c33_tree l vs h).2.2 v hv).2.2 c hc
  have hg := (c33_accepts l).mp ⟨vs, h⟩
  have hvi := c130_id h hv
  have hnu : v.raw.id ∉ u.map (·.id) ∧ v.raw.id ∉ w.map (·.id) := by
    rw [e, List.map_append, List.map_cons] at hn
    have h1 := List.nodup_append.mp hn
    exact ⟨fun hm => h1.2.2 _ hm _ (by simp) rfl, (List.nodup_cons.mp h1.2.1).1⟩
  have early : ∀ a b, l.views = a ++ c.raw :: b → v.raw.id ∈ a.map (·.id) := by
    intro a b e'
    obtain ⟨q, h1, h2⟩ := hg a c.raw b e'
    rw [hp] at h1
    obtain rfl := Option.some.inj h1
    rw [← hvi]
    exact h2.resolve_left hr
  have hcw : c.raw ∈ w := by
    rw [e] at hcl
    rcases List.mem_append.mp hcl with hm | hm
    · exfalso
      obtain ⟨a, b, rfl⟩ := List.append_of_mem hm
      exact hnu.1 (by rw [List.map_append]; exact List.mem_append_left _ (early a (b ++ v.raw :: w) (by rw [e]; simp)))
    · rcases List.mem_cons.mp hm with hm | hm
      · exfalso
        exact hnu.1 (early u w (by rw [e, hm]))
      · exact hm
  rw [View.all_eq] at hy
  rcases List.mem_cons.mp hy with rfl | hy
  · exact hcw
  · obtain ⟨a, b, rfl⟩ := List.append_of_mem hcw
    have := ih c hc (u ++ v.raw :: a) b (by rw [e]; simp) hcv y hy
    simp [this]

/-- A view of one layout is in another one if the same views are shown in it there, and in the views in it. -/
theorem c130_same {l l' : Layout} {vs ws : List View} (h : parseRawLayout l = .ok vs) (hn : (l.views.map (·.id)).Nodup) (h' : parseRawLayout l' = .ok ws)
    (hn' : (l'.views.map (·.id)).Nodup) {v : View} (hv : v ∈ allOf vs) (hr : v.raw ∈ l'.views)
    (hf : ∀ y ∈ v.all, y.id ≠ s% "root" → l'.views.filter (fun r => decide (r.parent = some y.id)) = l.views.filter fun r => decide (r.parent = some y.id)) : v ∈ allOf ws := by
  obtain ⟨w, hw, he⟩ := List.mem_map.mp ((c33_tree l' ws h').1.mem_iff.mpr hr)
  have s1 : c124_Shape (fun r => if r.id = s% "root" then [] else l'.views.filter fun x => decide (x.parent = some r.id)) [v] := by
    intro y hy
    rw [allOf_eq, List.flatMap_cons, List.flatMap_nil, List.append_nil] at hy
    obtain ⟨a1, a2⟩ := c124_shape_of h hn y (c130_all_trans hv hy)
    refine ⟨a1, a2.trans ?_⟩
    have hid := c130_id h (c130_all_trans hv hy)
    simp only [← hid]
    split
    · rfl
    · rename_i hne
      exact (hf y hy hne).symm
  have s2 : c124_Shape (fun r => if r.id = s% "root" then [] else l'.views.filter fun x => decide (x.parent = some r.id)) [w] := by
    intro y hy
    rw [allOf_eq, List.flatMap_cons, List.flatMap_nil, List.append_nil] at hy
    exact c124_shape_of h' hn' y (c130_all_trans hw hy)
  rw [c124_shape_eq v w s1 s2 he.symm]
  exact hw

/-- C130: in a layout whose views have different ids, a view names another parent, one that is listed before it, or the root. The layout is read. The view is shown
in the new parent in place of the old one, at the place that the list gives it; all others are shown in the same order in the same views. -/
theorem c130_move {u w : List AndroidView} {x : AndroidView} {o p : Str} {vs : List View} (h : parseRawLayout ⟨u ++ x :: w⟩ = .ok vs)
    (hn : ((u ++ x :: w).map (·.id)).Nodup) (ho : x.parent = some o) (hop : o ≠ p) (hp : p = s% "root" ∨ p ∈ u.map (·.id)) :
    ∃ ws, parseRawLayout ⟨u ++ { x with parent := some p } :: w⟩ = .ok ws ∧
      (∃ a b, c130_in o vs = a ++ x :: b ∧ c130_in o ws = a ++ b) ∧
      (∃ a b, c130_in p vs = a ++ b ∧ c130_in p ws = a ++ { x with parent := some p } :: b) ∧
      (∀ i, i ≠ o → i ≠ p → c130_in i ws = c130_in i vs) ∧
      (∀ v ∈ allOf vs, v.raw = x → { View.ofRaw { x with parent := some p } with children := v.children } ∈ allOf ws) ∧
      ∀ v ∈ allOf vs, v.raw ≠ x → (∀ y ∈ v.all, y.id ≠ o ∧ y.id ≠ p) → v ∈ allOf ws := by
  have hg := (c33_accepts _).mp ⟨vs, h⟩
  have hg' : Grounded (u ++ { x with parent := some p } :: w) := by
    intro pre r post e
    rcases List.append_eq_append_iff.mp e with ⟨c, rfl, hc⟩ | ⟨c, rfl, hc⟩
    · cases c with
      | nil =>
        obtain ⟨rfl, rfl⟩ := List.cons.inj hc
        exact ⟨p, rfl, by simpa using hp⟩
      | cons z c =>
        obtain ⟨rfl, rfl⟩ := List.cons.inj hc
        obtain ⟨q, h1, h2⟩ := hg (u ++ x :: c) r post (by simp)
        exact ⟨q, h1, by simpa using h2⟩
    · cases c with
      | nil =>
        rw [List.nil_append] at hc
        obtain ⟨rfl, rfl⟩ := List.cons.inj hc
        exact ⟨p, rfl, by simpa using hp⟩
      | cons z c =>
        obtain ⟨rfl, rfl⟩ := List.cons.inj hc
        exact hg pre r (c ++ x :: w) (by simp)
  have hn' : ((u ++ { x with parent := some p } :: w).map (·.id)).Nodup := by simpa using hn
  obtain ⟨ws, h'⟩ := (c33_accepts ⟨u ++ { x with parent := some p } :: w⟩).mpr hg'
  have other : ∀ i, i ≠ o → i ≠ p → (u ++ { x with parent := some p } :: w).filter (fun r => decide (r.parent = some i)) =
      (u ++ x :: w).filter fun r => decide (r.parent = some i) := by
    intro i h1 h2
    rw [List.filter_append, List.filter_append, List.filter_cons_of_neg (by simpa using Ne.symm h2),
      List.filter_cons_of_neg (by rw [ho]; simpa using Ne.symm h1)]
  refine ⟨ws, h', ?_, ?_, ?_, ?_, ?_⟩
  · refine ⟨u.filter fun r => decide (r.parent = some o), w.filter fun r => decide (r.parent = some o), ?_, ?_⟩
    · rw [c130_in_eq h hn, List.filter_append, List.filter_cons_of_pos (by rw [ho]; simp)]
    · rw [c130_in_eq h' hn', List.filter_append, List.filter_cons_of_neg (by simpa using Ne.symm hop)]
  · refine ⟨u.filter fun r => decide (r.parent = some p), w.filter fun r => decide (r.parent = some p), ?_, ?_⟩
    · rw [c130_in_eq h hn, List.filter_append, List.filter_cons_of_neg (by rw [ho]; simpa using hop)]
    · rw [c130_in_eq h' hn', List.filter_append, List.filter_cons_of_pos (by simp)]
  · intro i h1 h2
    rw [c130_in_eq h hn, c130_in_eq h' hn']
    exact other i h1 h2
  · intro v hv hvx
    have hafter := c130_after h hn v u w (by rw [hvx]) hv
    have hids : ∀ y ∈ allOf v.children, y.id ∉ u.map (·.id) ∧ y.id ≠ x.id := by
      intro y hy
      have hyv : y ∈ allOf vs := c130_all_trans hv (by rw [View.all_eq]; exact List.mem_cons_of_mem _ hy)
      have hyi := c130_id h hyv
      have hm : y.raw.id ∈ w.map (·.id) := List.mem_map.mpr ⟨_, hafter y hy, rfl⟩
      rw [List.map_append, List.map_cons] at hn
      have h1 := List.nodup_append.mp hn
      rw [hyi]
      exact ⟨fun h => h1.2.2 _ h _ (by simp [hm]) rfl, fun h => (List.nodup_cons.mp h1.2.1).1 (h ▸ hm)⟩
    have hou : o = s% "root" ∨ o ∈ u.map (·.id) := by
      obtain ⟨q, h1, h2⟩ := hg u x w rfl
      rw [ho] at h1
      obtain rfl := Option.some.inj h1
      exact h2
    have hxo : x.id ≠ o ∨ x.id = s% "root" := by
      refine (Classical.em (x.id = s% "root")).symm.imp_left fun hr e => ?_
      rcases hou with h1 | h1
      · exact hr (e.trans h1)
      · rw [List.map_append, List.map_cons] at hn
        exact (List.nodup_append.mp hn).2.2 _ h1 _ (by simp) e.symm
    have hxp : x.id ≠ p ∨ x.id = s% "root" := by
      refine (Classical.em (x.id = s% "root")).symm.imp_left fun hr e => ?_
      rcases hp with h1 | h1
      · exact hr (e.trans h1)
      · rw [List.map_append, List.map_cons] at hn
        exact (List.nodup_append.mp hn).2.2 _ h1 _ (by simp) e.symm
    -- the view that is read for the changed entry
    obtain ⟨v', hv', he'⟩ := List.mem_map.mp ((c33_tree _ ws h').1.mem_iff.mpr (show ({ x with parent := some p } : AndroidView) ∈ u ++ { x with parent := some p } :: w by simp))
    obtain ⟨b1, b2⟩ := c124_shape_of h' hn' v' hv'
    obtain ⟨a1, a2⟩ := c124_shape_of h hn v hv
    have hm : v'.children.map View.raw = v.children.map View.raw := by
      rw [a2, b2, he', hvx]
      show (if x.id = s% "root" then [] else _) = if x.id = s% "root" then [] else _
      split
      · rfl
      · rename_i hr
        exact other x.id (hxo.resolve_right hr) (hxp.resolve_right hr)
    have hc : v'.children = v.children := by
      refine c124_shapes_eq (F := fun r => if r.id = s% "root" then [] else (u ++ { x with parent := some p } :: w).filter fun y => decide (y.parent = some r.id)) ?_ ?_ hm
      · intro y hy
        exact c124_shape_of h' hn' y (c130_all_trans hv' (by rw [View.all_eq]; exact List.mem_cons_of_mem _ hy))
      · intro y hy
        have hyv : y ∈ allOf vs := c130_all_trans hv (by rw [View.all_eq]; exact List.mem_cons_of_mem _ hy)
        obtain ⟨c1, c2⟩ := c124_shape_of h hn y hyv
        refine ⟨c1, c2.trans ?_⟩
        have hyi := c130_id h hyv
        simp only [← hyi]
        split
        · rfl
        · rename_i hr
          refine (other y.id ?_ ?_).symm
          · rintro rfl
            rcases hou with h1 | h1
            · exact hr h1
            · exact (hids y hy).1 h1
          · rintro rfl
            rcases hp with h1 | h1
            · exact hr h1
            · exact (hids y hy).1 h1
    rw [he', hc] at b1
    rw [← b1]
    exact hv'
  · intro v hv hvx hvy
    refine c130_same h hn h' hn' hv ?_ fun y hy _ => other y.id (hvy y hy).1 (hvy y hy).2
    have := (c33_tree _ vs h).1.mem_iff.mp (List.mem_map.mpr ⟨v, hv, rfl⟩)
    simp only [List.mem_append, List.mem_cons] at this ⊢
    rcases this with h | h | h
    · exact .inl h
    · exact absurd h hvx
    · exact .inr (.inr h)

/-- C130: a view that names a parent that is not listed before it, such as a view that is in it, makes the layout be refused with an error that tells both ids. -/
theorem c130_refused {u w : List AndroidView} {x : AndroidView} {p : Str} {vs : List View} (h : parseRawLayout ⟨u ++ x :: w⟩ = .ok vs)
    (hp : p ≠ s% "root" ∧ p ∉ u.map (·.id)) : parseRawLayout ⟨u ++ { x with parent := some p } :: w⟩ = .err (.nonexistentParent x.id p) := by
  have hg := (c33_accepts _).mp ⟨vs, h⟩
  have hng : ¬ Grounded (u ++ { x with parent := some p } :: w) := by
    intro hg'
    obtain ⟨q, h1, h2⟩ := hg' u _ w rfl
    obtain rfl := Option.some.inj h1
    exact h2.elim hp.1 hp.2
  obtain ⟨pre, r, post, e, h1, h2, h3, h4⟩ := c33_error ⟨u ++ { x with parent := some p } :: w⟩ hng
  have hcase : pre = u ∧ r = { x with parent := some p } := by
    rcases List.append_eq_append_iff.mp h1 with ⟨c, rfl, hc⟩ | ⟨c, rfl, hc⟩
    · cases c with
      | nil =>
        obtain ⟨rfl, rfl⟩ := List.cons.inj hc
        exact ⟨by simp, rfl⟩
      | cons z c =>
        obtain ⟨rfl, rfl⟩ := List.cons.inj hc
        obtain ⟨q, a1, a2⟩ := h2 u _ c rfl
        obtain rfl := Option.some.inj a1
        exact (a2.elim hp.1 hp.2).elim
    · cases c with
      | nil =>
        rw [List.nil_append] at hc
        obtain ⟨rfl, rfl⟩ := List.cons.inj hc
        exact ⟨by simp, rfl⟩
      | cons z c =>
        obtain ⟨rfl, rfl⟩ := List.cons.inj hc
        obtain ⟨q, a1, a2⟩ := hg pre r (c ++ x :: w) (by simp)
        rcases h4 with ⟨h4, -⟩ | ⟨q', h4, h5, h6, -⟩
        · rw [a1] at h4; cases h4
        · rw [a1] at h4
          obtain rfl := Option.some.inj h4
          exact (a2.elim h5 h6).elim
  obtain ⟨rfl, rfl⟩ := hcase
  rcases h4 with ⟨h4, -⟩ | ⟨q, h4, h5, h6, rfl⟩
  · cases h4
  · obtain rfl := Option.some.inj h4
    exact h3

end Swrs.Api

namespace Swrs.Api

/-- `c130_move` and `c130_refused`: in a layout with the views a and b, and c in b, the view b is moved into a; it can not be moved into c. -/
example [Floats] : let v := fun (i p : Str) => AndroidView.newEmpty i 3 p 0
    ∃ u x w vs ws, parseRawLayout ⟨u ++ x :: w⟩ = .ok vs ∧ ((u ++ x :: w).map (·.id)).Nodup ∧ x.parent = some (s% "root") ∧ s% "root" ≠ s% "a" ∧ s% "a" ∈ u.map (·.id) ∧
      (vs.map fun t => t.children.map fun c => (c.id, c.children.length)) = [[], [(s% "c", 0)]] ∧
      parseRawLayout ⟨u ++ { x with parent := some (s% "a") } :: w⟩ = .ok ws ∧ (ws.map fun t => t.children.map fun c => (c.id, c.children.length)) = [[(s% "b", 1)]] ∧
      s% "c" ∉ u.map (·.id) ∧ w = [v (s% "c") (s% "b")] :=
  ⟨[AndroidView.newEmpty (s% "a") 3 (s% "root") 0], AndroidView.newEmpty (s% "b") 3 (s% "root") 0, [AndroidView.newEmpty (s% "c") 3 (s% "b") 0], _, _, rfl,
    show [s% "a", s% "b", s% "c"].Nodup by decide, rfl, by decide, show s% "a" ∈ [s% "a"] by decide, rfl, rfl, rfl, show s% "c" ∉ [s% "a"] by decide, rfl⟩

/-- C130: the ids must differ: of two views with the same id the second one is given what is in the first one when it is moved before it. -/
theorem c130_move_false [Floats] : ∃ (u w : List AndroidView) (x : AndroidView) (vs ws : List View), parseRawLayout ⟨u ++ x :: w⟩ = .ok vs ∧
    x.parent = some (s% "root") ∧ s% "a" ∈ u.map (·.id) ∧ parseRawLayout ⟨u ++ { x with parent := some (s% "a") } :: w⟩ = .ok ws ∧
    (vs.map fun t => t.children.length) = [0, 1, 0] ∧ (ws.map fun t => t.children.map fun c => c.children.length) = [[1], []] :=
  ⟨[AndroidView.newEmpty (s% "a") 3 (s% "root") 0, AndroidView.newEmpty (s% "b") 3 (s% "root") 0],
    [AndroidView.newEmpty (s% "c") 3 (s% "b") 0], AndroidView.newEmpty (s% "b") 3 (s% "root") 0, _, _, rfl, rfl, show s% "a" ∈ [s% "a", s% "b"] by decide, rfl, rfl, rfl⟩

end Swrs.Api
