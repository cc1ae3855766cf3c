import Verif.Proofs.ViewPlace
/-!
# Lemmas about `flatten_views`
-/
namespace Swrs.Api
section
variable [Floats]

theorem applyTo_frame (t : ViewType) (r : AndroidView) :
    (t.applyTo r).id = r.id ∧ (t.applyTo r).parent = r.parent ∧ (t.applyTo r).parentType = r.parentType ∧
    (t.applyTo r).type = r.type := by
  cases t <;> exact ⟨rfl, rfl, rfl, rfl⟩

theorem flat_id (v : View) (p : Str) (t : UInt8) : (v.flat p t).id = v.id := by
  simp only [View.flat, View.applied]
  cases v.view with
  | error e => rfl
  | ok x => simp only [applyTo_frame]

theorem flat_parent (v : View) (p : Str) (t : UInt8) : (v.flat p t).parent = some p := by
  simp only [View.flat, View.applied]
  cases v.view with
  | error e => rfl
  | ok x => simp only [applyTo_frame]

theorem flat_parentType (v : View) (p : Str) (t : UInt8) : (v.flat p t).parentType = t.toInt8 := by
  simp only [View.flat, View.applied]
  cases v.view with
  | error e => rfl
  | ok x => simp only [applyTo_frame]

theorem flat_type (v : View) (p : Str) (t : UInt8) : (v.flat p t).type = v.raw.type := by
  simp only [View.flat, View.applied]
  cases v.view with
  | error e => rfl
  | ok x => simp only [applyTo_frame]

mutual
/-- The views of a tree with the id and the type id of the parent of each, in depth-first order. -/
def View.placed : View → Str → UInt8 → List (View × Str × UInt8)
  | ⟨id, color, h, w, p, m, wt, ws, g, view, raw, children⟩, pid, pty =>
    (⟨id, color, h, w, p, m, wt, ws, g, view, raw, children⟩, pid, pty) ::
      placedIn children id (View.typeId ⟨id, color, h, w, p, m, wt, ws, g, view, raw, []⟩)
/-- The views of a list of trees with the parent of each. -/
def placedIn : List View → Str → UInt8 → List (View × Str × UInt8)
  | [], _, _ => []
  | v :: vs, pid, pty => v.placed pid pty ++ placedIn vs pid pty
end

theorem View.placed_eq (v : View) (p : Str) (t : UInt8) : v.placed p t = (v, p, t) :: placedIn v.children v.id v.typeId := by
  obtain ⟨i, a, b, c, d, e, f, g, k, l, m, children⟩ := v
  simp only [View.placed]
  rfl

theorem placedIn_fst_of {vs : List View} (H : ∀ v ∈ vs, ∀ p t, (v.placed p t).map Prod.fst = v.all) (p : Str) (t : UInt8) :
    (placedIn vs p t).map Prod.fst = allOf vs := by
  induction vs with
  | nil => rfl
  | cons v vs ih =>
    rw [placedIn, allOf, List.map_append, H v (by simp), ih fun v hv => H v (by simp [hv])]

theorem View.placed_fst (v : View) (p : Str) (t : UInt8) : (v.placed p t).map Prod.fst = v.all := by
  induction v using View.induct generalizing p t with
  | h v ih => rw [View.placed_eq, View.all_eq, List.map_cons, placedIn_fst_of ih]

theorem placedIn_fst (vs : List View) (p : Str) (t : UInt8) : (placedIn vs p t).map Prod.fst = allOf vs :=
  placedIn_fst_of (fun v _ => v.placed_fst) p t

/-- The flattened form of a placed view. -/
def flatOf (x : View × Str × UInt8) : AndroidView := x.1.flat x.2.1 x.2.2

theorem flattenIn_perm_of {vs : List View}
    (H : ∀ v ∈ vs, (flattenChildren v).Perm ((placedIn v.children v.id v.typeId).map flatOf)) (p : Str) (t : UInt8) :
    (flattenIn vs p t).Perm ((placedIn vs p t).map flatOf) := by
  induction vs with
  | nil => simp [flattenIn, flattenBelow, placedIn]
  | cons v vs ih =>
    have ih := ih fun v hv => H v (by simp [hv])
    simp only [flattenIn] at ih
    simp only [flattenIn, flattenBelow, placedIn, View.placed_eq, List.map_cons, List.cons_append, List.map_append]
    refine List.Perm.cons _ ?_
    refine List.Perm.trans ?_ ((H v (by simp)).append ih)
    rw [← List.append_assoc, ← List.append_assoc]
    exact List.perm_append_comm.append_right _

theorem flattenChildren_perm (v : View) : (flattenChildren v).Perm ((placedIn v.children v.id v.typeId).map flatOf) := by
  induction v using View.induct with
  | h v ih =>
    have := flattenIn_perm_of ih v.id v.typeId
    rw [flattenChildren_eq]
    exact this

theorem flattenIn_perm (vs : List View) (p : Str) (t : UInt8) : (flattenIn vs p t).Perm ((placedIn vs p t).map flatOf) :=
  flattenIn_perm_of (fun v _ => flattenChildren_perm v) p t

theorem flattenIn_ids (vs : List View) (p : Str) (t : UInt8) :
    ((flattenIn vs p t).map (·.id)).Perm ((allOf vs).map (·.id)) := by
  have := (flattenIn_perm vs p t).map fun r : AndroidView => r.id
  rw [List.map_map] at this
  rw [show (fun r : AndroidView => r.id) ∘ flatOf = (fun v : View => v.id) ∘ Prod.fst from funext fun x => flat_id ..,
    ← List.map_map, placedIn_fst] at this
  exact this

/-- The parent of every entry is given or is a view of the trees. -/
theorem placedIn_parent_of {vs : List View}
    (H : ∀ v ∈ vs, ∀ x ∈ placedIn v.children v.id v.typeId, ∃ w ∈ v.all, x.2 = (w.id, w.typeId)) {p : Str} {t : UInt8} :
    ∀ x ∈ placedIn vs p t, x.2 = (p, t) ∨ ∃ w ∈ allOf vs, x.2 = (w.id, w.typeId) := by
  induction vs with
  | nil => simp [placedIn]
  | cons v vs ih =>
    intro x hx
    simp only [placedIn, View.placed_eq, List.cons_append, List.mem_cons, List.mem_append] at hx
    rcases hx with rfl | hx | hx
    · exact .inl rfl
    · obtain ⟨w, hw, he⟩ := H v (by simp) x hx
      exact .inr ⟨w, by simp [allOf, hw], he⟩
    · rcases ih (fun v hv => H v (by simp [hv])) x hx with h | ⟨w, hw, he⟩
      · exact .inl h
      · exact .inr ⟨w, by simp [allOf, hw], he⟩

theorem View.placed_parent (v : View) : ∀ x ∈ placedIn v.children v.id v.typeId, ∃ w ∈ v.all, x.2 = (w.id, w.typeId) := by
  induction v using View.induct with
  | h v ih =>
    intro x hx
    rw [View.all_eq]
    rcases placedIn_parent_of ih x hx with h | ⟨w, hw, he⟩
    · exact ⟨v, by simp, h⟩
    · exact ⟨w, by simp [hw], he⟩

theorem placedIn_parent (vs : List View) (p : Str) (t : UInt8) :
    ∀ x ∈ placedIn vs p t, x.2 = (p, t) ∨ ∃ w ∈ allOf vs, x.2 = (w.id, w.typeId) :=
  placedIn_parent_of fun v _ => v.placed_parent

/-- Every entry is a view on top, or a child of the view that is its parent. -/
theorem placedIn_child_of {vs : List View}
    (H : ∀ v ∈ vs, ∀ x ∈ placedIn v.children v.id v.typeId, ∃ w ∈ v.all, x.1 ∈ w.children ∧ x.2 = (w.id, w.typeId))
    {p : Str} {t : UInt8} : ∀ x ∈ placedIn vs p t,
      (x.1 ∈ vs ∧ x.2 = (p, t)) ∨ ∃ w ∈ allOf vs, x.1 ∈ w.children ∧ x.2 = (w.id, w.typeId) := by
  induction vs with
  | nil => simp [placedIn]
  | cons v vs ih =>
    intro x hx
    simp only [placedIn, View.placed_eq, List.cons_append, List.mem_cons, List.mem_append] at hx
    rcases hx with rfl | hx | hx
    · exact .inl ⟨by simp, rfl⟩
    · obtain ⟨w, hw, he⟩ := H v (by simp) x hx
      exact .inr ⟨w, by simp [allOf, hw], he⟩
    · rcases ih (fun v hv => H v (by simp [hv])) x hx with ⟨h, h'⟩ | ⟨w, hw, he⟩
      · exact .inl ⟨by simp [h], h'⟩
      · exact .inr ⟨w, by simp [allOf, hw], he⟩

theorem View.placed_child (v : View) :
    ∀ x ∈ placedIn v.children v.id v.typeId, ∃ w ∈ v.all, x.1 ∈ w.children ∧ x.2 = (w.id, w.typeId) := by
  induction v using View.induct with
  | h v ih =>
    intro x hx
    rw [View.all_eq]
    rcases placedIn_child_of ih x hx with h | ⟨w, hw, he⟩
    · exact ⟨v, by simp, h⟩
    · exact ⟨w, by simp [hw], he⟩

theorem placedIn_child (vs : List View) (p : Str) (t : UInt8) : ∀ x ∈ placedIn vs p t,
    (x.1 ∈ vs ∧ x.2 = (p, t)) ∨ ∃ w ∈ allOf vs, x.1 ∈ w.children ∧ x.2 = (w.id, w.typeId) :=
  placedIn_child_of fun v _ => v.placed_child

theorem flattenChildren_parent {v : View} {r : AndroidView} (h : r ∈ flattenChildren v) : ∃ w ∈ v.all, r.parent = some w.id := by
  obtain ⟨x, hx, rfl⟩ := List.mem_map.mp ((flattenChildren_perm v).mem_iff.mp h)
  obtain ⟨w, hw, he⟩ := v.placed_parent x hx
  exact ⟨w, hw, by rw [flatOf, flat_parent, he]⟩

theorem flattenBelow_parent {vs : List View} {r : AndroidView} (h : r ∈ flattenBelow vs) : ∃ w ∈ allOf vs, r.parent = some w.id := by
  rw [flattenBelow_eq] at h
  obtain ⟨v, hv, hr⟩ := List.mem_flatMap.mp h
  rw [← flattenChildren_eq] at hr
  obtain ⟨w, hw, he⟩ := flattenChildren_parent hr
  rw [allOf_eq]
  exact ⟨w, List.mem_flatMap.mpr ⟨v, hv, hw⟩, he⟩

/-- The entries with the parent `q`. -/
abbrev withParent (q : Str) (l : List AndroidView) : List AndroidView := l.filter fun r => decide (r.parent = some q)

theorem withParent_none {q : Str} {l : List AndroidView} (h : ∀ r ∈ l, r.parent ≠ some q) : withParent q l = [] := by
  rw [withParent, List.filter_eq_nil_iff]
  simpa using h

theorem withParent_all {q : Str} {vs : List View} (t : UInt8) : withParent q (vs.map fun v => v.flat q t) = vs.map fun v => v.flat q t := by
  rw [withParent, List.filter_eq_self]
  simp [flat_parent]

theorem withParent_map {q p : Str} {vs : List View} (t : UInt8) (h : p ≠ q) : withParent q (vs.map fun v => v.flat p t) = [] := by
  apply withParent_none
  simp [flat_parent, h]

theorem withParent_below_of {vs : List View} (hn : ((allOf vs).map (·.id)).Nodup)
    (H : ∀ v ∈ vs, ∀ w ∈ v.all, withParent w.id (flattenChildren v) = w.children.map fun c => c.flat w.id w.typeId)
    {w : View} (hw : w ∈ allOf vs) : withParent w.id (flattenBelow vs) = w.children.map fun c => c.flat w.id w.typeId := by
  induction vs with
  | nil => simp [allOf] at hw
  | cons v vs ih =>
    simp only [allOf, List.map_append, List.nodup_append] at hn
    obtain ⟨_, hn2, hd⟩ := hn
    simp only [flattenBelow]
    rw [withParent, List.filter_append]
    simp only [allOf, List.mem_append] at hw
    rcases hw with hw | hw
    · have h1 := H v (by simp) w hw
      have h2 : withParent w.id (flattenBelow vs) = [] := by
        apply withParent_none
        intro r hr he
        obtain ⟨x, hx, hp⟩ := flattenBelow_parent hr
        rw [hp] at he
        exact hd _ (List.mem_map_of_mem hw) _ (List.mem_map_of_mem hx) (by simpa using he.symm)
      rw [withParent] at h1 h2
      rw [h1, h2, List.append_nil]
    · have h1 : withParent w.id (flattenChildren v) = [] := by
        apply withParent_none
        intro r hr he
        obtain ⟨x, hx, hp⟩ := flattenChildren_parent hr
        rw [hp] at he
        exact hd _ (List.mem_map_of_mem hx) _ (List.mem_map_of_mem hw) (by simpa using he)
      have h2 := ih hn2 (fun v hv => H v (by simp [hv])) hw
      rw [withParent] at h1 h2
      rw [h1, h2, List.nil_append]

theorem withParent_children (v : View) (hn : (v.all.map (·.id)).Nodup) {w : View} (hw : w ∈ v.all) :
    withParent w.id (flattenChildren v) = w.children.map fun c => c.flat w.id w.typeId := by
  induction v using View.induct generalizing w with
  | h v ih =>
    rw [View.all_eq, List.map_cons, List.nodup_cons] at hn
    rw [flattenChildren_eq, flattenIn, withParent, List.filter_append]
    rw [View.all_eq, List.mem_cons] at hw
    rcases hw with rfl | hw
    · have h1 := withParent_all (q := w.id) (vs := w.children) w.typeId
      have h2 : withParent w.id (flattenBelow w.children) = [] := by
        apply withParent_none
        intro r hr he
        obtain ⟨x, hx, hp⟩ := flattenBelow_parent hr
        rw [hp] at he
        refine hn.1 (List.mem_map.mpr ⟨x, hx, ?_⟩)
        simpa using he
      rw [withParent] at h1 h2
      rw [h1, h2, List.append_nil]
    · have h1 : withParent w.id (v.children.map fun c => c.flat v.id v.typeId) = [] := by
        apply withParent_map
        intro he
        exact hn.1 (List.mem_map.mpr ⟨w, hw, he.symm⟩)
      have h2 := withParent_below_of hn.2 (fun c hc w hw => ih c hc ?_ hw) hw
      · rw [withParent] at h1 h2
        rw [h1, h2, List.nil_append]
      · have : c.all.Sublist (allOf v.children) := by
          rw [allOf_eq]
          obtain ⟨a, b, hab⟩ := List.append_of_mem hc
          rw [hab]
          simp only [List.flatMap_append, List.flatMap_cons]
          exact (List.sublist_append_left _ _).trans (List.sublist_append_right _ _)
        exact hn.2.sublist (this.map _)

theorem withParent_flatten {vs : List View} (p : Str) (t : UInt8) (hn : ((allOf vs).map (·.id)).Nodup) {w : View}
    (hw : w ∈ allOf vs) (hp : w.id ≠ p) :
    withParent w.id (flattenIn vs p t) = w.children.map fun c => c.flat w.id w.typeId := by
  have h1 := withParent_map (q := w.id) (vs := vs) t hp.symm
  have h2 := withParent_below_of hn (fun c hc w hw => withParent_children c ?_ hw) hw
  · rw [withParent] at h1 h2
    rw [flattenIn, withParent, List.filter_append, h1, h2, List.nil_append]
  · have : c.all.Sublist (allOf vs) := by
      rw [allOf_eq]
      obtain ⟨a, b, hab⟩ := List.append_of_mem hc
      rw [hab]
      simp only [List.flatMap_append, List.flatMap_cons]
      exact (List.sublist_append_left _ _).trans (List.sublist_append_right _ _)
    exact hn.sublist (this.map _)

theorem withParent_top {vs : List View} (p : Str) (t : UInt8) (hp : ∀ w ∈ allOf vs, w.id ≠ p) :
    withParent p (flattenIn vs p t) = vs.map fun v => v.flat p t := by
  have h1 := withParent_all (q := p) (vs := vs) t
  have h2 : withParent p (flattenBelow vs) = [] := by
    apply withParent_none
    intro r hr he
    obtain ⟨x, hx, hq⟩ := flattenBelow_parent hr
    rw [hq] at he
    exact hp x hx (by simpa using he)
  rw [withParent] at h1 h2
  rw [flattenIn, withParent, List.filter_append, h1, h2, List.append_nil]

/-- Every entry comes after its parent, or its parent is one of `S`. -/
def GroundedFrom (S : List Str) (l : List AndroidView) : Prop :=
  ∀ pre r post, l = pre ++ r :: post → ∃ p, r.parent = some p ∧ (p ∈ S ∨ p ∈ pre.map (·.id))

theorem GroundedFrom.append {S : List Str} {a b : List AndroidView} (ha : GroundedFrom S a)
    (hb : GroundedFrom (S ++ a.map (·.id)) b) : GroundedFrom S (a ++ b) := by
  intro pre r post h
  rcases List.append_eq_append_iff.mp h with ⟨x, rfl, hx⟩ | ⟨x, rfl, hx⟩
  · obtain ⟨p, h1, h2⟩ := hb x r post hx
    refine ⟨p, h1, ?_⟩
    simp only [List.mem_append, List.map_append] at h2 ⊢
    grind
  · cases x with
    | nil =>
      simp only [List.nil_append] at hx
      obtain ⟨p, h1, h2⟩ := hb [] r post hx.symm
      refine ⟨p, h1, ?_⟩
      simp only [List.mem_append, List.map_append, List.map_nil, List.not_mem_nil, or_false] at h2 ⊢
      exact h2
    | cons y x =>
      simp only [List.cons_append, List.cons.injEq] at hx
      obtain ⟨rfl, _⟩ := hx
      exact ha pre r x rfl

theorem groundedFrom_map {S : List Str} {vs : List View} {p : Str} {t : UInt8} (h : p ∈ S) :
    GroundedFrom S (vs.map fun v => v.flat p t) := by
  intro pre r post he
  have : r ∈ vs.map fun v => v.flat p t := by rw [he]; simp
  obtain ⟨v, _, rfl⟩ := List.mem_map.mp this
  exact ⟨p, flat_parent .., .inl h⟩

theorem groundedFrom_below {vs : List View} (H : ∀ v ∈ vs, ∀ S, v.id ∈ S → GroundedFrom S (flattenChildren v)) {S : List Str}
    (hS : ∀ v ∈ vs, v.id ∈ S) : GroundedFrom S (flattenBelow vs) := by
  induction vs generalizing S with
  | nil => intro pre r post h; simp [flattenBelow] at h
  | cons v vs ih =>
    rw [flattenBelow]
    refine (H v (by simp) S (hS v (by simp))).append (ih (fun v hv => H v (by simp [hv])) ?_)
    intro v hv
    exact List.mem_append_left _ (hS v (by simp [hv]))

theorem groundedFrom_flatten_of {vs : List View} (H : ∀ v ∈ vs, ∀ S, v.id ∈ S → GroundedFrom S (flattenChildren v)) {S : List Str}
    {p : Str} {t : UInt8} (hp : p ∈ S) : GroundedFrom S (flattenIn vs p t) := by
  refine (groundedFrom_map hp).append (groundedFrom_below H ?_)
  intro v hv
  refine List.mem_append_right _ ?_
  simp only [List.map_map, List.mem_map, Function.comp_apply]
  exact ⟨v, hv, flat_id ..⟩

theorem groundedFrom_children (v : View) : ∀ S, v.id ∈ S → GroundedFrom S (flattenChildren v) := by
  induction v using View.induct with
  | h v ih =>
    intro S hS
    rw [flattenChildren_eq]
    exact groundedFrom_flatten_of ih hS

theorem grounded_flatten (vs : List View) (t : UInt8) : Grounded (flattenIn vs (s% "root") t) := by
  intro pre r post h
  obtain ⟨p, h1, h2⟩ := groundedFrom_flatten_of (S := [s% "root"]) (t := t) (fun v _ => groundedFrom_children v)
    (List.mem_singleton.mpr rfl) pre r post h
  exact ⟨p, h1, h2.imp List.mem_singleton.mp id⟩

mutual
/-- The tree that the flattened views make. -/
def View.norm : View → Str → UInt8 → View
  | ⟨id, color, h, w, p, m, wt, ws, g, view, raw, children⟩, pid, pty =>
    { View.ofRaw (View.flat ⟨id, color, h, w, p, m, wt, ws, g, view, raw, []⟩ pid pty) with
      children := normIn children id (View.typeId ⟨id, color, h, w, p, m, wt, ws, g, view, raw, []⟩) }
/-- The trees that the flattened views make. -/
def normIn : List View → Str → UInt8 → List View
  | [], _, _ => []
  | v :: vs, pid, pty => v.norm pid pty :: normIn vs pid pty
end

theorem View.norm_eq (v : View) (p : Str) (t : UInt8) :
    v.norm p t = { View.ofRaw (v.flat p t) with children := normIn v.children v.id v.typeId } := by
  obtain ⟨i, a, b, c, d, e, f, g, k, l, m, children⟩ := v
  simp only [View.norm]
  rfl

theorem normIn_eq (vs : List View) (p : Str) (t : UInt8) : normIn vs p t = vs.map fun v => v.norm p t := by
  induction vs with
  | nil => rfl
  | cons v vs ih => rw [normIn, ih, List.map_cons]

theorem norm_all (v : View) (p : Str) (t : UInt8) : ∀ x ∈ (v.norm p t).all, ∃ w ∈ v.all, ∃ q u, x = w.norm q u := by
  induction v using View.induct generalizing p t with
  | h v ih =>
    intro x hx
    rw [View.all_eq, List.mem_cons] at hx
    rw [View.all_eq]
    rcases hx with rfl | hx
    · exact ⟨v, by simp, p, t, rfl⟩
    · have : (v.norm p t).children = normIn v.children v.id v.typeId := by rw [View.norm_eq]
      rw [this, normIn_eq, allOf_eq] at hx
      obtain ⟨y, hy, hx⟩ := List.mem_flatMap.mp hx
      obtain ⟨c, hc, rfl⟩ := List.mem_map.mp hy
      obtain ⟨w, hw, q, u, rfl⟩ := ih c hc _ _ x hx
      refine ⟨w, List.mem_cons_of_mem _ ?_, q, u, rfl⟩
      rw [allOf_eq]
      exact List.mem_flatMap.mpr ⟨c, hc, hw⟩

theorem norm_raw (v : View) (p : Str) (t : UInt8) : (v.norm p t).raw = v.flat p t := by rw [View.norm_eq]; rfl

theorem norm_id (v : View) (p : Str) (t : UInt8) : (v.norm p t).id = v.id := by
  rw [View.norm_eq]
  exact flat_id ..

/-- Reading what flattening wrote. -/
theorem parse_flatten {vs : List View} (hn : ((allOf vs).map (·.id)).Nodup) (hr : ∀ w ∈ allOf vs, w.id ≠ s% "root") (t : UInt8) :
    parseRawLayout ⟨flattenIn vs (s% "root") t⟩ = .ok (normIn vs (s% "root") t) := by
  have hids : ((flattenIn vs (s% "root") t).map (·.id)).Nodup := (flattenIn_ids vs _ t).nodup_iff.mpr hn
  rcases placeViews_cases (rest := flattenIn vs (s% "root") t) placed_nil with ⟨vs', h1, h2⟩ | ⟨pre, r, post, e, h1, _, h3, _⟩
  · rw [parseRawLayout, h1]
    congr 1
    rw [List.nil_append] at h2
    refine map_raw_ext ?_ ?_
    · rw [h2.top, normIn_eq, List.map_map]
      rw [show View.raw ∘ (fun v : View => v.norm (s% "root") t) = fun v => v.flat (s% "root") t from
        funext fun v => norm_raw ..]
      exact withParent_top _ t hr
    · intro v hv w hw he
      refine ViewTree.unique (l := flattenIn vs (s% "root") t) ?_ ?_ he
      · intro x hx
        have hx : x ∈ allOf vs' := by
          rw [allOf_eq]
          exact List.mem_flatMap.mpr ⟨v, hv, hx⟩
        have hx := List.mem_map_of_mem (f := View.local) hx
        have h3 := h2.shown _ hx
        have h4 := h2.exact hids _ hx
        simp only [View.local] at h3 h4
        refine ⟨?_, h4⟩
        rw [← h3]
        cases x; rfl
      · intro x hx
        rw [normIn_eq] at hw
        obtain ⟨y, hy, rfl⟩ := List.mem_map.mp hw
        obtain ⟨z, hz, q, u, rfl⟩ := norm_all _ _ _ x hx
        have hz : z ∈ allOf vs := by
          rw [allOf_eq]
          exact List.mem_flatMap.mpr ⟨y, hy, hz⟩
        refine ⟨by rw [norm_raw]; conv => lhs; rw [View.norm_eq]
                   rw [View.norm_eq], ?_⟩
        have hc : (z.norm q u).children = normIn z.children z.id z.typeId := by rw [View.norm_eq]
        rw [hc, normIn_eq, List.map_map, norm_id]
        rw [show View.raw ∘ (fun v : View => v.norm z.id z.typeId) = fun v => v.flat z.id z.typeId from
          funext fun v => norm_raw ..]
        rw [← withParent_flatten (s% "root") t hn hz (hr z hz), childrenOf, withParent]
        simp only [hr z hz, ne_eq, not_false_eq_true, and_true]
  · exact absurd (grounded_flatten vs t) (misplaced_not_grounded h3 (by simpa using h1))
end
end Swrs.Api
