import Verif.Props.ApiView
import Verif.Props.Sizes
import Verif.Proofs.EqualityOpen
import Verif.Props.EntryOrder
/-!
# C124: the order of the views of a layout

Views are listed with the name of their parent. The order of the list matters only in two ways: parents come before children, and siblings are shown in their
order.
-/
set_option linter.unusedSectionVars false
namespace Swrs.Api
variable [Floats]

/-- Every view of the trees is as it was made, and its children are those that are listed for it. -/
def c124_Shape (F : AndroidView → List AndroidView) (vs : List View) : Prop :=
  ∀ v ∈ allOf vs, v = { View.ofRaw v.raw with children := v.children } ∧ v.children.map View.raw = F v.raw

theorem c124_shape_head {F : AndroidView → List AndroidView} {v : View} {vs : List View} (h : c124_Shape F (v :: vs)) : c124_Shape F v.children ∧ c124_Shape F vs := by
  constructor
  · intro w hw; exact h w (by rw [allOf_eq, List.flatMap_cons, View.all_eq]; simp [hw])
  · intro w hw; exact h w (by rw [allOf_eq, List.flatMap_cons, ← allOf_eq]; simp [hw])

theorem c124_shape_eq {F : AndroidView → List AndroidView} (v : View) : ∀ w : View, c124_Shape F [v] → c124_Shape F [w] → v.raw = w.raw → v = w := by
  refine View.induct (P := fun v => ∀ w : View, c124_Shape F [v] → c124_Shape F [w] → v.raw = w.raw → v = w) v ?_
  intro v ih w hv hw e
  obtain ⟨h1, h2⟩ := hv v (by rw [allOf_eq]; simp [View.all_eq])
  obtain ⟨h3, h4⟩ := hw w (by rw [allOf_eq]; simp [View.all_eq])
  have hc : v.children = w.children := by
    have hm : v.children.map View.raw = w.children.map View.raw := by rw [h2, h4, e]
    have hsv := (c124_shape_head hv).1
    have hsw := (c124_shape_head hw).1
    generalize w.children = ws at hm hsw
    generalize v.children = us at hm hsv ih
    induction us generalizing ws with
    | nil => cases ws with
      | nil => rfl
      | cons _ _ => cases hm
    | cons u us ihu =>
      cases ws with
      | nil => cases hm
      | cons x ws =>
        rw [List.map_cons, List.map_cons] at hm
        obtain ⟨e1, e2⟩ := List.cons.inj hm
        have ex : ∀ {u : View} {us : List View}, c124_Shape F (u :: us) → c124_Shape F [u] := by
          intro u us h y hy
          refine h y ?_
          rw [allOf_eq] at hy ⊢
          simp only [List.flatMap_cons, List.flatMap_nil, List.append_nil] at hy ⊢
          exact List.mem_append_left _ hy
        rw [ih u (by simp) x (ex hsv) (ex hsw) e1, ihu ws (c124_shape_head hsw).2 e2 (c124_shape_head hsv).2 (fun c hc => ih c (List.mem_cons_of_mem _ hc))]
  rw [h1, h3, e, hc]

theorem c124_shapes_eq {F : AndroidView → List AndroidView} : ∀ {vs ws : List View}, c124_Shape F vs → c124_Shape F ws → vs.map View.raw = ws.map View.raw → vs = ws
  | [], [], _, _, _ => rfl
  | [], _ :: _, _, _, h => by cases h
  | _ :: _, [], _, _, h => by cases h
  | v :: vs, w :: ws, hv, hw, h => by
    rw [List.map_cons, List.map_cons] at h
    obtain ⟨e1, e2⟩ := List.cons.inj h
    have ex : ∀ {u : View} {us : List View}, c124_Shape F (u :: us) → c124_Shape F [u] := by
      intro u us h y hy
      refine h y ?_
      rw [allOf_eq] at hy ⊢
      simp only [List.flatMap_cons, List.flatMap_nil, List.append_nil] at hy ⊢
      exact List.mem_append_left _ hy
    rw [c124_shape_eq v w (ex hv) (ex hw) e1, c124_shapes_eq (c124_shape_head hv).2 (c124_shape_head hw).2 e2]

theorem c124_shape_of {l : Layout} {vs : List View} (h : parseRawLayout l = .ok vs) (hn : (l.views.map (·.id)).Nodup) :
    c124_Shape (fun r => if r.id = s% "root" then [] else l.views.filter fun x => decide (x.parent = some r.id)) vs := by
  intro v hv
  obtain ⟨h1, h2, h3⟩ := (c33_tree l vs h).2.2 v hv
  have hid : v.id = v.raw.id := congrArg View.id h1
  refine ⟨h1, ?_⟩
  simp only [← hid]
  split
  · rename_i hr
    cases hc : v.children with
    | nil => rfl
    | cons c cs => exact absurd hr (h3 c (by rw [hc]; simp)).2
  · rename_i hr
    exact c33_children l vs h hn v hv hr

/-- C124: two lists of the same views, whose ids differ. The second one is read as the same layout as the first one exactly if in it, too, every view comes
after its parent, and the views of each parent come in the same order. -/
theorem c124_views {l l' : Layout} {vs : List View} (h : parseRawLayout l = .ok vs) (hp : l.views.Perm l'.views) (hn : (l.views.map (·.id)).Nodup) :
    parseRawLayout l' = .ok vs ↔ Grounded l'.views ∧
      ∀ p, l'.views.filter (fun r => decide (r.parent = some p)) = l.views.filter (fun r => decide (r.parent = some p)) := by
  have hn' : (l'.views.map (·.id)).Nodup := (hp.map _).nodup_iff.mp hn
  constructor
  · intro h'
    refine ⟨(c33_accepts l').mp ⟨vs, h'⟩, fun p => ?_⟩
    by_cases hr : p = s% "root"
    · rw [hr, ← (c33_tree l vs h).2.1, ← (c33_tree l' vs h').2.1]
    · by_cases hm : p ∈ l.views.map (·.id)
      · obtain ⟨r, hr1, rfl⟩ := List.mem_map.mp hm
        obtain ⟨v, hv, hvr⟩ := List.mem_map.mp ((c33_tree l vs h).1.mem_iff.mpr hr1)
        have hid : v.id = r.id := by rw [← hvr]; exact congrArg View.id ((c33_tree l vs h).2.2 v hv).1
        rw [← hid, ← c33_children l vs h hn v hv (hid ▸ hr), ← c33_children l' vs h' hn' v hv (hid ▸ hr)]
      · have key : ∀ (l : Layout), (∃ vs, parseRawLayout l = .ok vs) → p ∉ l.views.map (·.id) → l.views.filter (fun r => decide (r.parent = some p)) = [] := by
          intro l hl hm
          rw [List.filter_eq_nil_iff]
          intro r hr1
          obtain ⟨pre, post, e⟩ := List.append_of_mem hr1
          obtain ⟨q, h1, h2⟩ := (c33_accepts l).mp hl pre r post e
          rw [decide_eq_true_eq, h1]
          rintro e'
          obtain rfl := Option.some.inj e'
          rcases h2 with h2 | h2
          · exact hr h2
          · exact hm (by rw [e, List.map_append]; exact List.mem_append_left _ h2)
        rw [key l ⟨vs, h⟩ hm, key l' ⟨vs, h'⟩ (fun h => hm ((hp.map _).mem_iff.mpr h))]
  · rintro ⟨hg, hf⟩
    obtain ⟨ws, hw⟩ := (c33_accepts l').mpr hg
    have hs := c124_shape_of h hn
    have hs' := c124_shape_of hw hn'
    simp only [hf] at hs'
    rw [hw, c124_shapes_eq hs' hs (by rw [(c33_tree l vs h).2.1, (c33_tree l' ws hw).2.1, hf])]

/-- C124: of two views with the same name, the first one gets the children: the ids must differ. -/
theorem c124_views_false : ∃ (l l' : Layout) (vs ws : List View), parseRawLayout l = .ok vs ∧ parseRawLayout l' = .ok ws ∧ l.views.Perm l'.views ∧
    (∀ p, p ≠ s% "root" → l'.views.filter (fun r => decide (r.parent = some p)) = l.views.filter (fun r => decide (r.parent = some p))) ∧
    (vs.map fun v => (v.weight, v.children.length)) = [(0, 1), (1, 0)] ∧ (ws.map fun v => (v.weight, v.children.length)) = [(1, 1), (0, 0)] := by
  let a : AndroidView := AndroidView.newEmpty (s% "a") 0 (s% "root") 0
  let a' : AndroidView := { a with layout := { a.layout with weight := 1 } }
  let b : AndroidView := AndroidView.newEmpty (s% "b") 4 (s% "a") 0
  refine ⟨⟨[a, a', b]⟩, ⟨[a', a, b]⟩, _, _, rfl, rfl, .swap .., fun p hp => ?_, rfl, rfl⟩
  have h1 : a.parent = some (s% "root") := rfl
  have h2 : a'.parent = some (s% "root") := rfl
  simp [h1, h2, Ne.symm hp]

/-- `c124_views`: a child before or after the sibling of its parent. -/
example : let v := fun (i p : Str) => AndroidView.newEmpty i 0 p 0
    ∃ vs, parseRawLayout ⟨[v (s% "a") (s% "root"), v (s% "b") (s% "root"), v (s% "c") (s% "a")]⟩ = .ok vs ∧
    [v (s% "a") (s% "root"), v (s% "b") (s% "root"), v (s% "c") (s% "a")].Perm [v (s% "a") (s% "root"), v (s% "c") (s% "a"), v (s% "b") (s% "root")] ∧
    (([v (s% "a") (s% "root"), v (s% "b") (s% "root"), v (s% "c") (s% "a")]).map (·.id)).Nodup ∧
    parseRawLayout ⟨[v (s% "a") (s% "root"), v (s% "c") (s% "a"), v (s% "b") (s% "root")]⟩ = .ok vs :=
  ⟨_, rfl, .cons _ (.swap ..), by simp [AndroidView.newEmpty], rfl⟩

end Swrs.Api
