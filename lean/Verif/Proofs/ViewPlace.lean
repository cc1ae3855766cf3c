import Verif.Proofs.ApiView
/-!
# What the loop of `parse_raw_layout` keeps true
-/
namespace Swrs.Api
section
variable [Floats]

/-- Every view of the list has a parent field, and names the root or a view before it. -/
def Grounded (l : List AndroidView) : Prop :=
  ∀ pre r post, l = pre ++ r :: post → ∃ p, r.parent = some p ∧ (p = s% "root" ∨ p ∈ pre.map (·.id))

/-- The views of `l` that name `id` as their parent, where the root is not a view. -/
def childrenOf (l : List AndroidView) (id : Str) : List AndroidView :=
  l.filter fun r => decide (r.parent = some id ∧ id ≠ s% "root")

/-- What is true of the tree made of `l`, by the views without what is below their children. -/
structure Placed (l : List AndroidView) (vs : List View) : Prop where
  once : (((allOf vs).map View.local).map fun x => x.1.raw).Perm l
  top : vs.map View.raw = l.filter fun r => decide (r.parent = some (s% "root"))
  shown : ∀ x ∈ (allOf vs).map View.local, x.1 = View.ofRaw x.1.raw
  below : ∀ x ∈ (allOf vs).map View.local, x.2.Sublist (childrenOf l x.1.id)
  exact : (l.map (·.id)).Nodup → ∀ x ∈ (allOf vs).map View.local, x.2 = childrenOf l x.1.id
  grounded : Grounded l

theorem Placed.ids {l : List AndroidView} {vs : List View} (h : Placed l vs) :
    (((allOf vs).map View.local).map fun x => x.1.id).Perm (l.map (·.id)) := by
  have := h.once.map fun r : AndroidView => r.id
  rw [List.map_map] at this
  rw [show ((allOf vs).map View.local).map (fun x => x.1.id) =
    ((allOf vs).map View.local).map ((fun r : AndroidView => r.id) ∘ fun x => x.1.raw) from
      List.map_congr_left fun x hx => by
        have := h.shown x hx
        rw [this]
        rfl]
  exact this

theorem Placed.mem_ids {l : List AndroidView} {vs : List View} (h : Placed l vs) (p : Str) :
    p ∈ l.map (·.id) ↔ ∃ x ∈ allOf vs, x.id = p := by
  rw [← h.ids.mem_iff]
  simp only [List.map_map, List.mem_map, Function.comp_def, View.local]

theorem grounded_nil : Grounded [] := by
  intro pre r post h
  simp at h

theorem grounded_snoc {l : List AndroidView} {r : AndroidView} :
    Grounded (l ++ [r]) ↔ Grounded l ∧ ∃ p, r.parent = some p ∧ (p = s% "root" ∨ p ∈ l.map (·.id)) := by
  constructor
  · intro h
    refine ⟨?_, h l r [] rfl⟩
    rintro pre x post rfl
    exact h pre x (post ++ [r]) (by simp)
  · rintro ⟨h, hr⟩ pre x post he
    rcases List.eq_nil_or_concat post with rfl | ⟨post', y, rfl⟩
    · obtain ⟨rfl, he'⟩ := List.append_inj' he rfl
      exact (List.cons.inj he').1 ▸ hr
    · have he : l ++ [r] = (pre ++ x :: post') ++ [y] := by rw [he]; simp
      obtain ⟨rfl, _⟩ := List.append_inj' he rfl
      exact h pre x post' rfl

theorem Grounded.mem {l : List AndroidView} (h : Grounded l) {r : AndroidView} (hr : r ∈ l) :
    ∃ p, r.parent = some p ∧ (p = s% "root" ∨ p ∈ l.map (·.id)) := by
  obtain ⟨pre, post, rfl⟩ := List.append_of_mem hr
  obtain ⟨p, h1, h2⟩ := h pre r post rfl
  refine ⟨p, h1, h2.imp id fun h => ?_⟩
  simp only [List.map_append, List.mem_append]
  exact .inl h

theorem childrenOf_snoc (l : List AndroidView) (r : AndroidView) (id : Str) :
    childrenOf (l ++ [r]) id = childrenOf l id ++ if r.parent = some id ∧ id ≠ s% "root" then [r] else [] := by
  simp only [childrenOf, List.filter_append]
  congr 1
  by_cases h : r.parent = some id ∧ id ≠ s% "root"
  · simp [h]
  · simp [h]

/-- With distinct ids nothing names the last view as its parent. -/
theorem childrenOf_last {l : List AndroidView} {r : AndroidView} (hg : Grounded (l ++ [r]))
    (hn : ((l ++ [r]).map (·.id)).Nodup) : childrenOf (l ++ [r]) r.id = [] := by
  simp only [childrenOf, List.filter_eq_nil_iff, decide_eq_true_eq]
  rintro x hx ⟨hp, hr⟩
  simp only [List.map_append, List.map_cons, List.map_nil, List.nodup_append, List.mem_singleton, forall_eq] at hn
  obtain ⟨h1, h2⟩ := grounded_snoc.mp hg
  have : r.id ∈ l.map (·.id) := by
    rcases List.mem_append.mp hx with hx | hx
    · obtain ⟨p, hp', hq⟩ := h1.mem hx
      rw [hp] at hp'
      cases hp'
      exact hq.resolve_left hr
    · rw [List.mem_singleton] at hx
      subst hx
      obtain ⟨p, hp', hq⟩ := h2
      rw [hp] at hp'
      cases hp'
      exact hq.resolve_left hr
  exact hn.2.2 _ this rfl

theorem placed_nil : Placed [] [] :=
  ⟨by simp [allOf], rfl, by simp [allOf], by simp [allOf], by simp [allOf], grounded_nil⟩

theorem placed_root {l : List AndroidView} {vs : List View} {r : AndroidView} (h : Placed l vs)
    (hr : r.parent = some (s% "root")) : Placed (l ++ [r]) (vs ++ [View.ofRaw r]) := by
  have hg : Grounded (l ++ [r]) := grounded_snoc.mpr ⟨h.grounded, _, hr, .inl rfl⟩
  have hall : (allOf (vs ++ [View.ofRaw r])).map View.local = (allOf vs).map View.local ++ [(View.ofRaw r).local] := by
    rw [allOf_append, List.map_append]
    simp [allOf, View.all_eq, View.ofRaw]
  have hloc : ∀ id, childrenOf (l ++ [r]) id = childrenOf l id := by
    intro id
    rw [childrenOf_snoc, if_neg, List.append_nil]
    rintro ⟨h1, h2⟩
    rw [hr] at h1
    cases h1
    exact h2 rfl
  refine ⟨?_, ?_, ?_, ?_, ?_, hg⟩
  · rw [hall, List.map_append]
    exact h.once.append_right _
  · simp only [List.map_append, h.top, List.filter_append, List.map_cons, List.map_nil]
    simp [hr, View.ofRaw]
  · rw [hall]
    intro x hx
    rcases List.mem_append.mp hx with hx | hx
    · exact h.shown x hx
    · rw [List.mem_singleton] at hx; subst hx; rfl
  · rw [hall]
    intro x hx
    rw [hloc]
    rcases List.mem_append.mp hx with hx | hx
    · exact h.below x hx
    · rw [List.mem_singleton] at hx; subst hx; exact List.nil_sublist _
  · intro hn
    rw [hall]
    intro x hx
    rcases List.mem_append.mp hx with hx | hx
    · rw [hloc]
      refine h.exact ?_ x hx
      rw [List.map_append] at hn
      exact (List.nodup_append.mp hn).1
    · rw [List.mem_singleton] at hx; subst hx
      exact (childrenOf_last hg hn).symm

theorem placed_below {l : List AndroidView} {vs vs' : List View} {r : AndroidView} {p : Str} {w : View} (h : Placed l vs)
    (hr : r.parent = some p) (hp : p ≠ s% "root") (hu : UpdatedIn p w (w.push r) vs vs') : Placed (l ++ [r]) vs' := by
  obtain ⟨htop, A, B, h1, B1, B2, rfl, h2⟩ := hu.push
  have hw : w.id = p ∧ w.local ∈ (allOf vs).map View.local := by
    obtain ⟨pre, c, post, c', rfl, _, hu, _⟩ := hu
    refine ⟨hu.id_eq.1, List.mem_map_of_mem ?_⟩
    rw [allOf_append, allOf]
    simp [hu.id_eq.2]
  obtain ⟨hw, hm⟩ := hw
  have hpl : p ∈ l.map (·.id) := (h.mem_ids p).mpr <| by
    obtain ⟨x, hx, he⟩ := List.mem_map.mp hm
    refine ⟨x, hx, ?_⟩
    have := congrArg (fun x => x.1.id) he
    exact this.trans hw
  have hg : Grounded (l ++ [r]) := grounded_snoc.mpr ⟨h.grounded, _, hr, .inr hpl⟩
  have hmem : ∀ x ∈ (allOf vs').map View.local,
      (x ∈ (allOf vs).map View.local ∧ x ∈ A ++ (B1 ++ B2)) ∨ x = (w.push r).local ∨ x = (View.ofRaw r).local := by
    rw [h1, h2]
    intro x hx
    simp only [List.mem_append, List.mem_cons] at hx ⊢
    grind
  have hpush : (w.push r).local = (w.local.1, w.local.2 ++ [r]) := by simp [View.local, View.push, View.ofRaw]
  have hwc : childrenOf (l ++ [r]) w.local.1.id = childrenOf l w.local.1.id ++ [r] := by
    rw [childrenOf_snoc, if_pos]
    have : w.local.1.id = p := hw
    rw [this]
    exact ⟨hr, hp⟩
  have hother : ∀ id, id ≠ p → childrenOf (l ++ [r]) id = childrenOf l id := by
    intro id hid
    rw [childrenOf_snoc, if_neg, List.append_nil]
    rintro ⟨h1, _⟩
    rw [hr] at h1
    cases h1
    exact hid rfl
  refine ⟨?_, ?_, ?_, ?_, ?_, hg⟩
  · have h0 := h.once
    rw [h1] at h0
    rw [h2]
    refine List.Perm.trans ?_ (h0.append_right [r])
    simp only [List.map_append, List.map_cons, List.append_assoc, List.cons_append, hpush]
    refine List.Perm.append_left _ (List.Perm.cons _ (List.Perm.append_left _ ?_))
    have : (View.ofRaw r).local.1.raw = r := rfl
    rw [this]
    exact (List.perm_append_singleton r _).symm
  · rw [htop, h.top, List.filter_append]
    simp [hr, hp]
  · intro x hx
    rcases hmem x hx with ⟨hx, _⟩ | rfl | rfl
    · exact h.shown x hx
    · rw [hpush]; exact h.shown w.local hm
    · rfl
  · intro x hx
    rcases hmem x hx with ⟨hx, _⟩ | rfl | rfl
    · refine (h.below x hx).trans ?_
      rw [childrenOf_snoc]
      exact List.sublist_append_left _ _
    · rw [hpush, hwc]
      exact (h.below _ hm).append (List.Sublist.refl _)
    · exact List.nil_sublist _
  · intro hn
    have hn' : (l.map (·.id)).Nodup := by
      rw [List.map_append] at hn
      exact (List.nodup_append.mp hn).1
    intro x hx
    rcases hmem x hx with ⟨hx, hx'⟩ | rfl | rfl
    · have hne : x.1.id ≠ p := by
        intro he
        have := h.ids.nodup_iff.mpr hn'
        rw [h1, List.map_append, List.map_cons] at this
        have hwp : w.local.1.id = p := hw
        rw [hwp] at this
        have hxm : p ∈ (A ++ (B1 ++ B2)).map fun x => x.1.id := List.mem_map.mpr ⟨x, hx', he⟩
        have hperm : (A.map (fun x => x.1.id) ++ p :: (B1 ++ B2).map fun x => x.1.id).Perm
            (p :: (A ++ (B1 ++ B2)).map fun x => x.1.id) := by
          simp only [List.map_append]
          exact List.perm_middle
        exact (List.nodup_cons.mp (hperm.nodup_iff.mp this)).1 hxm
      rw [hother _ hne]
      exact h.exact hn' x hx
    · rw [hpush, hwc]
      rw [← h.exact hn' _ hm]
    · exact (childrenOf_last hg hn).symm

/-- One round: what it makes, and when it fails. -/
theorem placeView_cases {l : List AndroidView} {vs : List View} {r : AndroidView} (h : Placed l vs) :
    (∃ vs', placeView vs r = .ok vs' ∧ Placed (l ++ [r]) vs') ∨
    (r.parent = none ∧ placeView vs r = .err (.noParentField r.id)) ∨
    (∃ p, r.parent = some p ∧ p ≠ s% "root" ∧ p ∉ l.map (·.id) ∧ placeView vs r = .err (.nonexistentParent r.id p)) := by
  cases hr : r.parent with
  | none => exact .inr (.inl ⟨rfl, by simp only [placeView, hr]⟩)
  | some p =>
    by_cases hp : p = s% "root"
    · subst hp
      exact .inl ⟨_, by simp only [placeView, hr, ↓reduceIte], placed_root h hr⟩
    · cases hm : modifyIdIn p (View.push r) vs with
      | none =>
        refine .inr (.inr ⟨p, rfl, hp, ?_, by simp only [placeView, hr, hp, ↓reduceIte, hm]⟩)
        rw [h.mem_ids]
        rintro ⟨x, hx, he⟩
        exact modifyIn_none.mp hm x hx he
      | some vs' =>
        obtain ⟨w, hu⟩ := modifyIn_some.mp hm
        exact .inl ⟨vs', by simp only [placeView, hr, hp, ↓reduceIte, hm], placed_below h hr hp hu⟩

/-- The error of a view that cannot be placed after the views `pre`. -/
def Misplaced (pre : List AndroidView) (r : AndroidView) (e : ParseLayoutError) : Prop :=
  (r.parent = none ∧ e = .noParentField r.id) ∨
  (∃ p, r.parent = some p ∧ p ≠ s% "root" ∧ p ∉ pre.map (·.id) ∧ e = .nonexistentParent r.id p)

theorem misplaced_not_grounded {l pre post : List AndroidView} {r : AndroidView} {e : ParseLayoutError} (h : Misplaced pre r e)
    (hl : l = pre ++ r :: post) : ¬ Grounded l := by
  intro hg
  obtain ⟨p, hp, hq⟩ := hg pre r post hl
  rcases h with ⟨h, _⟩ | ⟨q, h, h1, h2, _⟩
  · rw [h] at hp; cases hp
  · rw [h] at hp
    cases hp
    exact hq.elim h1 h2

theorem placeViews_cases {l rest : List AndroidView} {vs : List View} (h : Placed l vs) :
    (∃ vs', placeViews rest vs = .ok vs' ∧ Placed (l ++ rest) vs') ∨
    (∃ pre r post e, rest = pre ++ r :: post ∧ Grounded (l ++ pre) ∧ Misplaced (l ++ pre) r e ∧ placeViews rest vs = .err e) := by
  induction rest generalizing l vs with
  | nil => exact .inl ⟨vs, rfl, by simpa using h⟩
  | cons r rest ih =>
    simp only [placeViews]
    rcases placeView_cases (r := r) h with ⟨vs', h1, h2⟩ | ⟨h1, h2⟩ | ⟨p, h1, h2, h3, h4⟩
    · rw [h1, Out.ok_bind]
      rcases ih h2 with ⟨vs'', h3, h4⟩ | ⟨pre, x, post, e, rfl, h3, h4, h5⟩
      · exact .inl ⟨vs'', h3, by simpa using h4⟩
      · exact .inr ⟨r :: pre, x, post, e, rfl, by simpa using h3, by simpa using h4, h5⟩
    · rw [h2, Out.err_bind]
      exact .inr ⟨[], r, rest, _, rfl, by simpa using h.grounded, .inl ⟨h1, rfl⟩, rfl⟩
    · rw [h4, Out.err_bind]
      exact .inr ⟨[], r, rest, _, rfl, by simpa using h.grounded, .inr ⟨p, h1, h2, by simpa using h3, rfl⟩, rfl⟩

/-- A tree is determined by the list of views. -/
def ViewTree (l : List AndroidView) (v : View) : Prop :=
  ∀ w ∈ v.all, w = { View.ofRaw w.raw with children := w.children } ∧ w.children.map View.raw = childrenOf l w.id

theorem ViewTree.child {l : List AndroidView} {v c : View} (h : ViewTree l v) (hc : c ∈ v.children) : ViewTree l c := by
  intro w hw
  refine h w ?_
  rw [View.all_eq, allOf_eq]
  exact List.mem_cons_of_mem _ (List.mem_flatMap.mpr ⟨c, hc, hw⟩)

theorem map_raw_ext {vs ws : List View} (he : vs.map View.raw = ws.map View.raw)
    (h : ∀ v ∈ vs, ∀ w ∈ ws, v.raw = w.raw → v = w) : vs = ws := by
  induction vs generalizing ws with
  | nil => cases ws with
    | nil => rfl
    | cons w ws => simp at he
  | cons v vs ih => cases ws with
    | nil => simp at he
    | cons w ws =>
      simp only [List.map_cons, List.cons.injEq] at he
      rw [h v (by simp) w (by simp) he.1, ih he.2 fun v hv w hw => h v (by simp [hv]) w (by simp [hw])]

theorem ViewTree.unique {l : List AndroidView} {v w : View} (hv : ViewTree l v) (hw : ViewTree l w) (he : v.raw = w.raw) : v = w := by
  induction v using View.induct generalizing w with
  | h v ih =>
    obtain ⟨h1, h2⟩ := hv v (by rw [View.all_eq]; simp)
    obtain ⟨h3, h4⟩ := hw w (by rw [View.all_eq]; simp)
    have hid : v.id = w.id := by rw [h1, h3, he]
    have hc : v.children = w.children := by
      refine map_raw_ext (by rw [h2, h4, hid]) ?_
      intro c hc d hd he
      exact ih c hc (hv.child hc) (hw.child hd) he
    rw [h1, h3, he, hc]
end
end Swrs.Api
