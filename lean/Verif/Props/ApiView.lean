import Verif.Proofs.ViewFlat
import Verif.Base.FloatInst
/-!
# C32 to C36: view trees
-/
namespace Swrs.Api
section
variable [Floats]

/-! ## C32 — Finding a view by id -/

/-- C32: the view found is the first one with the id in depth-first order. -/
theorem c32_find (v : View) (id : Str) : v.findId id = v.all.find? fun w => decide (w.id = id) := View.findId_all id v

/-- C32: so one is found iff there is one, and what is found is in the tree and has the id. -/
theorem c32_found (v : View) (id : Str) :
    (v.findId id = none ↔ ∀ w ∈ v.all, w.id ≠ id) ∧ ∀ w, v.findId id = some w → w ∈ v.all ∧ w.id = id := by
  rw [c32_find]
  refine ⟨by simp [List.find?_eq_none], fun w h => ⟨List.mem_of_find?_eq_some h, ?_⟩⟩
  simpa using List.find?_some h

/-- C32: the mutable variant addresses the view that is found, and the update changes nothing else. -/
theorem c32_update (v v' : View) (id : Str) (f : View → View) :
    (v.modifyId id f = none ↔ v.findId id = none) ∧
    (v.modifyId id f = some v' ↔ ∃ w, v.findId id = some w ∧ Updated id w (f w) v v') := by
  rw [View.modifyId_none, (c32_found v id).1, View.modifyId_some]
  exact ⟨Iff.rfl, ⟨fun ⟨w, h⟩ => ⟨w, h.found, h⟩, fun ⟨w, _, h⟩ => ⟨w, h⟩⟩⟩

/-! ## C33 — Layout list to view tree -/

/-- C33: exactly the lists in which every view names the root or a view before it are accepted. -/
theorem c33_accepts (l : Layout) : (∃ vs, parseRawLayout l = .ok vs) ↔ Grounded l.views := by
  rcases placeViews_cases (rest := l.views) placed_nil with ⟨vs, h1, h2⟩ | ⟨pre, r, post, e, h1, _, h3, h4⟩
  · exact ⟨fun _ => by simpa using h2.grounded, fun _ => ⟨vs, h1⟩⟩
  · refine ⟨fun ⟨vs, h⟩ => ?_, fun h => absurd h (misplaced_not_grounded (by simpa using h3) h1)⟩
    rw [parseRawLayout, h4] at h
    cases h

/-- C33: the error is that of the first view that cannot be placed. -/
theorem c33_error (l : Layout) (h : ¬ Grounded l.views) :
    ∃ pre r post e, l.views = pre ++ r :: post ∧ Grounded pre ∧ parseRawLayout l = .err e ∧
      ((r.parent = none ∧ e = .noParentField r.id) ∨
       (∃ p, r.parent = some p ∧ p ≠ s% "root" ∧ p ∉ pre.map (·.id) ∧ e = .nonexistentParent r.id p)) := by
  rcases placeViews_cases (rest := l.views) placed_nil with ⟨vs, h1, h2⟩ | ⟨pre, r, post, e, h1, h2, h3, h4⟩
  · exact absurd (by simpa using h2.grounded) h
  · exact ⟨pre, r, post, e, h1, by simpa using h2, h4, by simpa [Misplaced] using h3⟩

/-- C33: every view of the list is in the tree once and shows the values of its raw view; the views of the root are on
top, in order; the children of a view are views of the list that name it, in order. -/
theorem c33_tree (l : Layout) (vs : List View) (h : parseRawLayout l = .ok vs) :
    ((allOf vs).map View.raw).Perm l.views ∧
    vs.map View.raw = l.views.filter (fun r => decide (r.parent = some (s% "root"))) ∧
    ∀ v ∈ allOf vs, v = { View.ofRaw v.raw with children := v.children } ∧ (v.children.map View.raw).Sublist l.views ∧
      ∀ c ∈ v.children, c.raw.parent = some v.id ∧ v.id ≠ s% "root" := by
  rcases placeViews_cases (rest := l.views) placed_nil with ⟨vs', h1, h2⟩ | ⟨pre, r, post, e, h1, _, h3, h4⟩
  · rw [parseRawLayout, h1] at h
    cases h
    rw [List.nil_append] at h2
    refine ⟨?_, h2.top, ?_⟩
    · have := h2.once
      rw [List.map_map] at this
      exact this
    · intro v hv
      have hv := List.mem_map_of_mem (f := View.local) hv
      have h3 := h2.shown _ hv
      have h4 := h2.below _ hv
      simp only [View.local] at h3 h4
      refine ⟨by rw [← h3]; cases v; rfl, h4.trans List.filter_sublist, ?_⟩
      intro c hc
      have := h4.subset (List.mem_map_of_mem hc)
      simpa [childrenOf] using (List.mem_filter.mp this).2
  · rw [parseRawLayout, h4] at h
    cases h

/-- C33: when the ids differ, the children of a view are all the views of the list that name it, in order. -/
theorem c33_children (l : Layout) (vs : List View) (h : parseRawLayout l = .ok vs) (hn : (l.views.map (·.id)).Nodup) :
    ∀ v ∈ allOf vs, v.id ≠ s% "root" → v.children.map View.raw = l.views.filter fun r => decide (r.parent = some v.id) := by
  rcases placeViews_cases (rest := l.views) placed_nil with ⟨vs', h1, h2⟩ | ⟨pre, r, post, e, h1, _, h3, h4⟩
  · rw [parseRawLayout, h1] at h
    cases h
    rw [List.nil_append] at h2
    intro v hv hr
    have := h2.exact hn _ (List.mem_map_of_mem hv)
    simpa [childrenOf, View.local, hr] using this
  · rw [parseRawLayout, h4] at h
    cases h

/-! ## C34 — View tree to layout list and back -/

/-- The values of a view are those of its raw view, and its raw view has the given parent. -/
structure View.Consistent (v : View) (parent : Str) (parentType : UInt8) : Prop where
  id : v.raw.id = v.id
  parent : v.raw.parent = some parent
  parentType : v.raw.parentType = parentType.toInt8
  color : v.raw.layout.backgroundColor = v.backgroundColor
  height : v.raw.layout.height = v.height
  width : v.raw.layout.width = v.width
  padding : v.padding = ⟨v.raw.layout.paddingTop, v.raw.layout.paddingRight, v.raw.layout.paddingBottom, v.raw.layout.paddingLeft⟩
  margin : v.margin = ⟨v.raw.layout.marginTop, v.raw.layout.marginRight, v.raw.layout.marginBottom, v.raw.layout.marginLeft⟩
  weight : v.raw.layout.weight = v.weight
  weightSum : v.raw.layout.weightSum = v.weightSum
  layoutGravity : v.raw.layout.layoutGravity = v.layoutGravity
  view : v.view = ViewType.fromView v.raw
  horizontal : v.raw.type = 2 → v.raw.layout.orientation = .horizontal
  vertical : v.raw.type = 12 → v.raw.layout.orientation = .vertical

/-- Every view of the trees is consistent, with its actual parent. -/
def Consistent (vs : List View) (parent : Str) (parentType : UInt8) : Prop :=
  ∀ x ∈ placedIn vs parent parentType, x.1.Consistent x.2.1 x.2.2

theorem applyTo_fromView {r : AndroidView} {t : ViewType} (h : ViewType.fromView r = .ok t) :
    t.applyTo r = r ↔ (r.type = 2 → r.layout.orientation = .horizontal) ∧ (r.type = 12 → r.layout.orientation = .vertical) := by
  have ht : r.type = UInt8.ofNat r.type.toNat := by simp
  simp only [ViewType.fromView] at h
  generalize hy : r.type = y at *
  split at h
  case h_19 => cases h
  case h_6 h6 =>
    rw [h6] at ht
    subst ht
    simp only [resName] at h
    split at h
    · rename_i n hn
      cases h
      obtain ⟨⟩ := r
      simp only at hn
      simp [ViewType.applyTo, ← hn]
    · cases h
  case h_16 h6 =>
    rw [h6] at ht
    subst ht
    simp only [resName] at h
    split at h
    · rename_i n hn
      cases h
      obtain ⟨⟩ := r
      simp only at hn
      simp [ViewType.applyTo, ← hn]
    · cases h
  case h_2 h6 =>
    rw [h6] at ht
    subst ht
    cases h
    simp only [ViewType.applyTo]
    obtain ⟨⟩ := r
    rename_i l _ _ _ _ _ _ _ _ _ _ _ _ _ _ _ _
    obtain ⟨⟩ := l
    simp [eq_comm]
  case h_12 h6 =>
    rw [h6] at ht
    subst ht
    cases h
    simp only [ViewType.applyTo]
    obtain ⟨⟩ := r
    rename_i l _ _ _ _ _ _ _ _ _ _ _ _ _ _ _ _
    obtain ⟨⟩ := l
    simp [eq_comm]
  all_goals
    rename_i h6
    rw [h6] at ht
    subst ht
    cases h
    simp [ViewType.applyTo]

theorem fromView_error {r : AndroidView} {e : ViewTypeConversionError} (h : ViewType.fromView r = .error e) :
    r.type ≠ 2 ∧ r.type ≠ 12 := by
  simp only [ViewType.fromView] at h
  constructor <;> (intro he; rw [he] at h; exact nomatch h)

theorem applied_iff {v : View} (h : v.view = ViewType.fromView v.raw) :
    v.applied v.raw = v.raw ↔
      (v.raw.type = 2 → v.raw.layout.orientation = .horizontal) ∧ (v.raw.type = 12 → v.raw.layout.orientation = .vertical) := by
  simp only [View.applied]
  rw [h]
  cases hf : ViewType.fromView v.raw with
  | ok t => exact applyTo_fromView hf
  | error e => simp [fromView_error hf]

/-- The values of the layout that a view type does not show. -/
structure SameFrame (a b : LayoutConfig) : Prop where
  color : a.backgroundColor = b.backgroundColor
  height : a.height = b.height
  width : a.width = b.width
  pt : a.paddingTop = b.paddingTop
  pr : a.paddingRight = b.paddingRight
  pb : a.paddingBottom = b.paddingBottom
  pl : a.paddingLeft = b.paddingLeft
  mt : a.marginTop = b.marginTop
  mr : a.marginRight = b.marginRight
  mb : a.marginBottom = b.marginBottom
  ml : a.marginLeft = b.marginLeft
  weight : a.weight = b.weight
  weightSum : a.weightSum = b.weightSum
  layoutGravity : a.layoutGravity = b.layoutGravity

theorem applied_frame (v : View) (r : AndroidView) : SameFrame (v.applied r).layout r.layout := by
  simp only [View.applied]
  cases v.view with
  | error e => constructor <;> rfl
  | ok t => cases t <;> constructor <;> rfl

theorem flat_of_base {v : View} {p : Str} {t : UInt8} (hid : v.raw.id = v.id) (hp : v.raw.parent = some p)
    (ht : v.raw.parentType = t.toInt8) (hl : SameFrame v.raw.layout (v.flat p t).layout) : v.flat p t = v.applied v.raw := by
  have h0 : ({ v.raw with id := v.id, parent := some p, parentType := t.toInt8 } : AndroidView) = v.raw := by
    rw [← hid, ← hp, ← ht]
  simp only [View.flat] at hl ⊢
  rw [h0] at hl ⊢
  obtain ⟨h1, h2, h3, h4, h5, h6, h7, h8, h9, h10, h11, h12, h13, h14⟩ := hl
  have hf := applied_frame v v.raw
  simp only at h1 h2 h3 h4 h5 h6 h7 h8 h9 h10 h11 h12 h13 h14
  rw [← h1, ← h2, ← h3, ← h4, ← h5, ← h6, ← h7, ← h8, ← h9, ← h10, ← h11, ← h12, ← h13, ← h14,
    ← hf.color, ← hf.height, ← hf.width, ← hf.pt, ← hf.pr, ← hf.pb, ← hf.pl, ← hf.mt, ← hf.mr, ← hf.mb, ← hf.ml, ← hf.weight,
    ← hf.weightSum, ← hf.layoutGravity]

theorem fixed_iff (v : View) (p : Str) (t : UInt8) :
    v = { View.ofRaw (v.flat p t) with children := v.children } ↔ v.Consistent p t := by
  have key : v = { View.ofRaw (v.flat p t) with children := v.children } ↔ v.raw = v.flat p t ∧ v.view = ViewType.fromView v.raw := by
    constructor
    · intro h
      have h1 : v.raw = v.flat p t := by
        have := congrArg View.raw h
        exact this
      refine ⟨h1, ?_⟩
      have := congrArg View.view h
      rw [h1]
      exact this
    · rintro ⟨h1, h2⟩
      rw [h1] at h2
      have h3 := flat_id v p t
      generalize hr : v.flat p t = r at *
      have hl : r.layout.backgroundColor = v.backgroundColor ∧ r.layout.height = v.height ∧ r.layout.width = v.width ∧
        r.layout.paddingTop = v.padding.top ∧ r.layout.paddingRight = v.padding.right ∧ r.layout.paddingBottom = v.padding.bottom ∧
        r.layout.paddingLeft = v.padding.left ∧ r.layout.marginTop = v.margin.top ∧ r.layout.marginRight = v.margin.right ∧
        r.layout.marginBottom = v.margin.bottom ∧ r.layout.marginLeft = v.margin.left ∧ r.layout.weight = v.weight ∧
        r.layout.weightSum = v.weightSum ∧ r.layout.layoutGravity = v.layoutGravity := by
        rw [← hr]
        exact ⟨rfl, rfl, rfl, rfl, rfl, rfl, rfl, rfl, rfl, rfl, rfl, rfl, rfl, rfl⟩
      obtain ⟨h4, h5, h6, h7, h8, h9, h10, h11, h12, h13, h14, h15, h16, h17⟩ := hl
      clear hr
      obtain ⟨⟩ := v
      simp only [View.ofRaw] at *
      rw [h1, h2, h3, h4, h5, h6, h7, h8, h9, h10, h11, h12, h13, h14, h15, h16, h17]
  rw [key]
  constructor
  · rintro ⟨h1, h2⟩
    have hid : v.raw.id = v.id := by rw [h1, flat_id]
    have hp : v.raw.parent = some p := by rw [h1, flat_parent]
    have ht : v.raw.parentType = t.toInt8 := by rw [h1, flat_parentType]
    have ha : v.applied v.raw = v.raw := by
      rw [← flat_of_base hid hp ht, ← h1]
      rw [← h1]
      constructor <;> rfl
    have ho := (applied_iff h2).mp ha
    refine ⟨hid, hp, ht, by rw [h1]; rfl, by rw [h1]; rfl, by rw [h1]; rfl, by rw [h1]; rfl, by rw [h1]; rfl, by rw [h1]; rfl,
      by rw [h1]; rfl, by rw [h1]; rfl, h2, ho.1, ho.2⟩
  · intro h
    refine ⟨?_, h.view⟩
    rw [flat_of_base h.id h.parent h.parentType]
    · exact ((applied_iff h.view).mpr ⟨h.horizontal, h.vertical⟩).symm
    · have h1 := h.padding
      have h2 := h.margin
      refine ⟨h.color, h.height, h.width, ?_, ?_, ?_, ?_, ?_, ?_, ?_, ?_, h.weight, h.weightSum, h.layoutGravity⟩
      · exact (congrArg SidesValue.top h1).symm
      · exact (congrArg SidesValue.right h1).symm
      · exact (congrArg SidesValue.bottom h1).symm
      · exact (congrArg SidesValue.left h1).symm
      · exact (congrArg SidesValue.top h2).symm
      · exact (congrArg SidesValue.right h2).symm
      · exact (congrArg SidesValue.bottom h2).symm
      · exact (congrArg SidesValue.left h2).symm

theorem normIn_fixed_of {vs : List View} (H : ∀ v ∈ vs, ∀ p t, v.norm p t = v ↔ ∀ x ∈ v.placed p t, x.1.Consistent x.2.1 x.2.2)
    (p : Str) (t : UInt8) : normIn vs p t = vs ↔ Consistent vs p t := by
  induction vs with
  | nil => simp [normIn, Consistent, placedIn]
  | cons v vs ih =>
    have ih := ih fun v hv => H v (by simp [hv])
    simp only [Consistent] at ih
    simp only [normIn, Consistent, placedIn, List.cons.injEq, List.mem_append, or_imp, forall_and, ih, H v (by simp)]

theorem View.norm_fixed (v : View) (p : Str) (t : UInt8) : v.norm p t = v ↔ ∀ x ∈ v.placed p t, x.1.Consistent x.2.1 x.2.2 := by
  induction v using View.induct generalizing p t with
  | h v ih =>
    have h1 := normIn_fixed_of ih v.id v.typeId
    rw [View.placed_eq]
    simp only [List.mem_cons, forall_eq_or_imp]
    rw [← fixed_iff]
    simp only [Swrs.Api.Consistent] at h1
    rw [← h1]
    constructor
    · intro h
      have hc : normIn v.children v.id v.typeId = v.children := by
        have := congrArg View.children h
        rw [View.norm_eq] at this
        exact this
      refine ⟨?_, hc⟩
      rw [View.norm_eq, hc] at h
      exact h.symm
    · rintro ⟨h, hc⟩
      rw [View.norm_eq, hc]
      exact h.symm

/-- C34: what reading the flattened list of any trees with distinct ids gives: the tree of the flattened views. -/
theorem c34_read_back (vs : List View) (hn : ((allOf vs).map (·.id)).Nodup) (hr : ∀ w ∈ allOf vs, w.id ≠ s% "root") :
    parseRawLayout ⟨flattenViews vs none none⟩ = .ok (normIn vs (s% "root") 0) := parse_flatten hn hr 0

/-- C34: trees with distinct ids, none of them root, are read back exactly when they are consistent with their raw
views, and then flattening again gives the same list. -/
theorem c34_round_trip (vs : List View) (hn : ((allOf vs).map (·.id)).Nodup) (hr : ∀ w ∈ allOf vs, w.id ≠ s% "root") :
    parseRawLayout ⟨flattenViews vs none none⟩ = .ok vs ↔ Consistent vs (s% "root") 0 := by
  rw [c34_read_back vs hn hr, Out.ok.injEq]
  exact normIn_fixed_of (fun v _ => v.norm_fixed) _ _

/-- C34: flattening what was read back from a consistent tree gives the same list. -/
theorem c34_again (vs vs' : List View) (hn : ((allOf vs).map (·.id)).Nodup) (hr : ∀ w ∈ allOf vs, w.id ≠ s% "root")
    (hc : Consistent vs (s% "root") 0) (h : parseRawLayout ⟨flattenViews vs none none⟩ = .ok vs') :
    flattenViews vs' none none = flattenViews vs none none := by
  rw [(c34_round_trip vs hn hr).mpr hc] at h
  cases h
  rfl

/-! ## C35 — Flattening writes back edits and nothing else -/

namespace ViewType
/-- The orientation that a view of this type has, if it has one. -/
def orientation? : ViewType → Option LayoutOrientation
  | .linearLayout x _ => some x
  | .scrollView x _ => some x
  | _ => none

/-- The gravity of the content that a view of this type has, if it has one. -/
def gravity? : ViewType → Option Gravity
  | .linearLayout _ x => some x
  | .scrollView _ x => some x
  | _ => none

/-- The text that a view of this type has, if it has one. -/
def text? : ViewType → Option Str
  | .button x _ _ _ => some x
  | .textView x _ _ _ _ _ _ => some x
  | .editText x _ _ _ _ _ _ _ _ _ _ => some x
  | .checkBox _ x _ _ _ _ => some x
  | .switch _ x _ _ _ _ => some x
  | _ => none

/-- The text colour that a view of this type has, if it has one. -/
def textColor? : ViewType → Option Color
  | .button _ x _ _ => some x
  | .textView _ x _ _ _ _ _ => some x
  | .editText _ x _ _ _ _ _ _ _ _ _ => some x
  | .checkBox _ _ x _ _ _ => some x
  | .switch _ _ x _ _ _ => some x
  | _ => none

/-- The text size that a view of this type has, if it has one. -/
def textSize? : ViewType → Option UInt32
  | .button _ _ x _ => some x
  | .textView _ _ x _ _ _ _ => some x
  | .editText _ _ x _ _ _ _ _ _ _ _ => some x
  | .checkBox _ _ _ x _ _ => some x
  | .switch _ _ _ x _ _ => some x
  | _ => none

/-- The text style that a view of this type has, if it has one. -/
def textStyle? : ViewType → Option TextType
  | .button _ _ _ x => some x
  | .textView _ _ _ _ _ x _ => some x
  | .editText _ _ _ _ _ x _ _ _ _ _ => some x
  | .checkBox _ _ _ _ _ x => some x
  | .switch _ _ _ _ _ x => some x
  | _ => none

/-- The single-line flag that a view of this type has, if it has one. -/
def singleLine? : ViewType → Option Bool
  | .textView _ _ _ x _ _ _ => some x
  | .editText _ _ _ x _ _ _ _ _ _ _ => some x
  | _ => none

/-- The font that a view of this type has, if it has one. -/
def textFont? : ViewType → Option Str
  | .textView _ _ _ _ x _ _ => some x
  | .editText _ _ _ _ x _ _ _ _ _ _ => some x
  | .checkBox _ _ _ _ x _ => some x
  | .switch _ _ _ _ x _ => some x
  | _ => none

/-- The number of lines that a view of this type has, if it has one. -/
def lines? : ViewType → Option UInt32
  | .textView _ _ _ _ _ _ x => some x
  | .editText _ _ _ _ _ _ x _ _ _ _ => some x
  | _ => none

/-- The hint that a view of this type has, if it has one. -/
def hint? : ViewType → Option Str
  | .editText _ _ _ _ _ _ _ x _ _ _ => some x
  | _ => none

/-- The hint colour that a view of this type has, if it has one. -/
def hintColor? : ViewType → Option Color
  | .editText _ _ _ _ _ _ _ _ x _ _ => some x
  | _ => none

/-- The input method option that a view of this type has, if it has one. -/
def imeOption? : ViewType → Option ImeOption
  | .editText _ _ _ _ _ _ _ _ _ x _ => some x
  | _ => none

/-- The input type that a view of this type has, if it has one. -/
def inputType? : ViewType → Option InputType
  | .editText _ _ _ _ _ _ _ _ _ _ x => some x
  | _ => none

/-- The image that a view of this type has, if it has one. -/
def imageResName? : ViewType → Option Str
  | .imageView x _ => some x
  | .fab x => some x
  | _ => none

/-- The image scale type that a view of this type has, if it has one. -/
def imageScaleType? : ViewType → Option ImageScaleType
  | .imageView _ x => some x
  | _ => none

/-- The maximum that a view of this type has, if it has one. -/
def maxProgress? : ViewType → Option UInt32
  | .progressBar x _ _ _ => some x
  | .seekBar x _ => some x
  | _ => none

/-- The progress that a view of this type has, if it has one. -/
def progress? : ViewType → Option UInt32
  | .progressBar _ x _ _ => some x
  | .seekBar _ x => some x
  | _ => none

/-- The indeterminate flag that a view of this type has, if it has one. -/
def indeterminate? : ViewType → Option Bool
  | .progressBar _ _ x _ => some x
  | _ => none

/-- The progress style that a view of this type has, if it has one. -/
def progressStyle? : ViewType → Option Str
  | .progressBar _ _ _ x => some x
  | _ => none

/-- The divider height that a view of this type has, if it has one. -/
def dividerHeight? : ViewType → Option UInt32
  | .listView x _ => some x
  | _ => none

/-- The custom view that a view of this type has, if it has one. -/
def customView? : ViewType → Option Str
  | .listView _ x => some x
  | _ => none

/-- The spinner mode that a view of this type has, if it has one. -/
def spinnerMode? : ViewType → Option SpinnerMode
  | .spinner x => some x
  | _ => none

/-- The checked flag that a view of this type has, if it has one. -/
def checked? : ViewType → Option Bool
  | .checkBox x _ _ _ _ _ => some x
  | .switch x _ _ _ _ _ => some x
  | _ => none

/-- The first day of the week that a view of this type has, if it has one. -/
def firstDayOfWeek? : ViewType → Option UInt8
  | .calendarView x => some x
  | _ => none

/-- The ad size that a view of this type has, if it has one. -/
def adviewSize? : ViewType → Option Str
  | .adView x => some x
  | _ => none

end ViewType

/-- The type-specific value that a view gives to a field, if it has one. -/
def View.value {α : Type} (v : View) (f : ViewType → Option α) : Option α := v.view.toOption.bind f

/-- C35: every field of a flattened view. It has the edited values, the parent that it was flattened with, the values of
its view type where that has any, and all other fields of the raw view. -/
theorem c35_fields (v : View) (parent : Str) (parentType : UInt8) :
    v.flat parent parentType =
      { v.raw with
        id := v.id
        parent := some parent
        parentType := parentType.toInt8
        max := (v.value ViewType.maxProgress?).getD v.raw.max
        progress := (v.value ViewType.progress?).getD v.raw.progress
        indeterminate := (v.value ViewType.indeterminate?).getD v.raw.indeterminate
        progressStyle := (v.value ViewType.progressStyle?).getD v.raw.progressStyle
        dividerHeight := (v.value ViewType.dividerHeight?).getD v.raw.dividerHeight
        customView := (v.value ViewType.customView?).getD v.raw.customView
        spinnerMode := (v.value ViewType.spinnerMode?).getD v.raw.spinnerMode
        checked := (v.value ViewType.checked?).getD v.raw.checked
        firstDayOfWeek := (v.value ViewType.firstDayOfWeek?).getD v.raw.firstDayOfWeek
        adSize := (v.value ViewType.adviewSize?).getD v.raw.adSize
        image := { v.raw.image with
          resName := (v.value ViewType.imageResName?).or v.raw.image.resName
          scaleType := (v.value ViewType.imageScaleType?).getD v.raw.image.scaleType }
        text := { v.raw.text with
          text := (v.value ViewType.text?).getD v.raw.text.text
          textColor := (v.value ViewType.textColor?).getD v.raw.text.textColor
          textSize := (v.value ViewType.textSize?).getD v.raw.text.textSize
          textType := (v.value ViewType.textStyle?).getD v.raw.text.textType
          singleLine := (v.value ViewType.singleLine?).getD v.raw.text.singleLine
          textFont := (v.value ViewType.textFont?).getD v.raw.text.textFont
          line := (v.value ViewType.lines?).getD v.raw.text.line
          hint := (v.value ViewType.hint?).getD v.raw.text.hint
          hintColor := (v.value ViewType.hintColor?).getD v.raw.text.hintColor
          imeOption := (v.value ViewType.imeOption?).getD v.raw.text.imeOption
          inputType := (v.value ViewType.inputType?).getD v.raw.text.inputType }
        layout := { v.raw.layout with
          orientation := (v.value ViewType.orientation?).getD v.raw.layout.orientation
          gravity := (v.value ViewType.gravity?).getD v.raw.layout.gravity
          height := v.height
          width := v.width
          paddingTop := v.padding.top
          paddingRight := v.padding.right
          paddingBottom := v.padding.bottom
          paddingLeft := v.padding.left
          marginTop := v.margin.top
          marginRight := v.margin.right
          marginBottom := v.margin.bottom
          marginLeft := v.margin.left
          backgroundColor := v.backgroundColor
          layoutGravity := v.layoutGravity
          weight := v.weight
          weightSum := v.weightSum } } := by
  simp only [View.flat, View.applied, View.value]
  cases v.view with
  | error e => rfl
  | ok t => cases t <;> rfl

/-- C35: the list has one entry for every view, flattened with the id and the type id of its parent. -/
theorem c35_entries (vs : List View) :
    (flattenViews vs none none).Perm ((placedIn vs (s% "root") 0).map fun x => x.1.flat x.2.1 x.2.2) ∧
    (placedIn vs (s% "root") 0).map (·.1) = allOf vs := ⟨flattenIn_perm vs _ _, placedIn_fst vs _ _⟩

/-- C35: every entry comes after its parent. -/
theorem c35_order (vs : List View) (pre post : List AndroidView) (r : AndroidView)
    (h : flattenViews vs none none = pre ++ r :: post) : ∃ p, r.parent = some p ∧ (p = s% "root" ∨ p ∈ pre.map (·.id)) :=
  grounded_flatten vs 0 pre r post h

/-! ## C36 — View type ids -/

/-- C36, what holds: the type id of a view type read from a view is the type of the view exactly up to type 11.
Missing: the types 12 to 18. -/
theorem c36_type_id_partial (r : AndroidView) (t : ViewType) (h : ViewType.fromView r = .ok t) :
    t.getTypeId = r.type ↔ r.type ≤ 11 := by
  have ht : r.type = UInt8.ofNat r.type.toNat := by simp
  simp only [ViewType.fromView] at h
  generalize hy : r.type = y at *
  split at h
  case h_19 => cases h
  case h_6 h6 =>
    rw [h6] at ht
    subst ht
    simp only [resName] at h
    split at h <;> cases h
    simp only [ViewType.getTypeId]
    decide
  case h_16 h6 =>
    rw [h6] at ht
    subst ht
    simp only [resName] at h
    split at h <;> cases h
    simp only [ViewType.getTypeId]
    decide
  all_goals
    rename_i h6
    rw [h6] at ht
    subst ht
    cases h
    simp only [ViewType.getTypeId]
    decide

/-- The type ids, a table of its own. -/
def c36_ids : ViewType → UInt8
  | .linearLayout .. => 0
  | .scrollView .. => 2
  | .button .. => 3
  | .textView .. => 4
  | .editText .. => 5
  | .imageView .. => 6
  | .webView => 7
  | .progressBar .. => 8
  | .listView .. => 9
  | .spinner .. => 10
  | .checkBox .. => 11
  | .switch .. => 12
  | .seekBar .. => 13
  | .calendarView .. => 14
  | .fab .. => 15
  | .adView .. => 16
  | .mapView => 17

/-- C36, what is written: the type of a flattened view is the one of its raw view, whatever its view type is now. On top its
parent is the root with type 0; below, its parent type is the type id of the view type that its parent has now, or the type
of the parent's raw view if the parent has no view type. -/
theorem c36_written_partial (vs : List View) (r : AndroidView) (h : r ∈ flattenViews vs none none) :
    ∃ v ∈ allOf vs, r.id = v.id ∧ r.type = v.raw.type ∧
      ((v ∈ vs ∧ r.parent = some (s% "root") ∧ r.parentType = 0) ∨
       ∃ w ∈ allOf vs, v ∈ w.children ∧ r.parent = some w.id ∧
        ((∃ t, w.view = .ok t ∧ r.parentType = (c36_ids t).toInt8) ∨
         (∃ e, w.view = .error e ∧ r.parentType = w.raw.type.toInt8))) := by
  have h := (c35_entries vs).1.mem_iff.mp h
  obtain ⟨x, hx, rfl⟩ := List.mem_map.mp h
  refine ⟨x.1, ?_, flat_id .., flat_type .., ?_⟩
  · rw [← placedIn_fst vs (s% "root") 0]
    exact List.mem_map_of_mem hx
  · rw [flat_parent, flat_parentType]
    rcases placedIn_child vs _ _ x hx with ⟨hv, he⟩ | ⟨w, hw, hv, he⟩
    · left; rw [he]; exact ⟨hv, rfl, by decide⟩
    · right
      refine ⟨w, hw, hv, by rw [he], ?_⟩
      rw [he]
      cases hy : w.view with
      | ok t =>
        left
        refine ⟨t, rfl, ?_⟩
        rw [show w.typeId = t.getTypeId by simp [View.typeId, hy]]
        cases t <;> rfl
      | error e => right; exact ⟨e, rfl, by simp [View.typeId, hy]⟩

/-- C36 is false: the type id of a switch is that of a vertical scroll view. -/
theorem c36_type_id_false : ∃ (r : AndroidView) (t : ViewType), ViewType.fromView r = .ok t ∧ t.getTypeId ≠ r.type :=
  ⟨AndroidView.newEmpty (s% "a") 13 (s% "root") 0, _, rfl, by
    simp [ViewType.getTypeId, AndroidView.newEmpty]⟩

/-- C36 is false: an edited view type does not change the type that is written. -/
theorem c36_written_false : ∃ (v : View) (t : ViewType), v.view = .ok t ∧
    ∀ r ∈ flattenViews [v] none none, r.type ≠ t.getTypeId :=
  ⟨{ View.ofRaw (AndroidView.newEmpty (s% "a") 3 (s% "root") 0) with view := .ok .webView }, .webView, rfl, by
    simp [flattenViews, flattenIn, flattenBelow, flattenChildren_eq, View.ofRaw, flat_type, AndroidView.newEmpty, ViewType.getTypeId]⟩

/-! ## Examples -/

/-- A linear layout with a button and a text view, and a switch below it. -/
def sampleViews : List AndroidView :=
  [AndroidView.newEmpty (s% "linear1") 0 (s% "root") 0, AndroidView.newEmpty (s% "button1") 3 (s% "linear1") 0,
   AndroidView.newEmpty (s% "switch1") 13 (s% "root") 0, AndroidView.newEmpty (s% "text1") 4 (s% "linear1") 0]

/-- The tree of `sampleViews`. -/
def sampleTree : List View :=
  [{ View.ofRaw (AndroidView.newEmpty (s% "linear1") 0 (s% "root") 0) with
     children := [View.ofRaw (AndroidView.newEmpty (s% "button1") 3 (s% "linear1") 0),
       View.ofRaw (AndroidView.newEmpty (s% "text1") 4 (s% "linear1") 0)] },
   View.ofRaw (AndroidView.newEmpty (s% "switch1") 13 (s% "root") 0)]

example : parseRawLayout ⟨sampleViews⟩ = .ok sampleTree := by
  simp [parseRawLayout, sampleViews, sampleTree, placeViews, placeView, AndroidView.newEmpty, modifyIdIn, View.modifyId, View.ofRaw,
    View.push]

/-- A view without parent and one that names a later view are refused. -/
example : parseRawLayout ⟨[{ AndroidView.newEmpty (s% "a") 3 (s% "root") 0 with parent := none }]⟩ = .err (.noParentField (s% "a")) ∧
    parseRawLayout ⟨[AndroidView.newEmpty (s% "a") 3 (s% "b") 0, AndroidView.newEmpty (s% "b") 0 (s% "root") 0]⟩ =
      .err (.nonexistentParent (s% "a") (s% "b")) := by
  simp [parseRawLayout, placeViews, placeView, AndroidView.newEmpty, modifyIdIn]

/-- The update of a view below another one. -/
example : ∃ v ∈ sampleTree, ∃ w, v.findId (s% "text1") = some w ∧ w.raw.type = 4 ∧
    ∃ v', v.modifyId (s% "text1") (fun w => { w with weight := 7 }) = some v' ∧
      v'.children.map (fun c => c.weight) = [0, 7] := by
  refine ⟨_, List.mem_cons_self .., ?_⟩
  simp [View.findId, findIdIn, View.ofRaw, AndroidView.newEmpty, View.modifyId, modifyIdIn, LayoutConfig.default]

/-- The sample tree meets the hypotheses of the round trip. -/
example : parseRawLayout ⟨flattenViews sampleTree none none⟩ = .ok sampleTree := by
  rw [c34_round_trip]
  · simp only [Consistent, sampleTree, placedIn, View.placed_eq, List.append_nil, List.mem_cons, List.cons_append, forall_eq_or_imp]
    have h0 : ∀ r : AndroidView, (View.ofRaw r).children = [] := fun _ => rfl
    simp only [h0, placedIn, List.not_mem_nil, List.mem_cons, or_false, forall_eq_or_imp, forall_eq, List.nil_append, List.cons_append]
    refine ⟨?_, ?_, ?_, ?_⟩ <;>
      (constructor <;> simp [View.ofRaw, AndroidView.newEmpty, View.typeId, ViewType.fromView, ViewType.getTypeId])
  · simp [sampleTree, allOf, View.all_eq, View.ofRaw, AndroidView.newEmpty]
  · simp [sampleTree, allOf, View.all_eq, View.ofRaw, AndroidView.newEmpty]

/-- An edit of the id of a view is written to the parent of its children. -/
example : (flattenViews [{ View.ofRaw (AndroidView.newEmpty (s% "linear1") 0 (s% "root") 0) with
      id := s% "box", children := [View.ofRaw (AndroidView.newEmpty (s% "button1") 3 (s% "linear1") 0)] }] none none).map
      (fun r => (r.id, r.parent)) = [(s% "box", some (s% "root")), (s% "button1", some (s% "box"))] := by
  simp [flattenViews, flattenIn, flattenBelow, flattenChildren_eq, flat_id, flat_parent, View.ofRaw, AndroidView.newEmpty]

/-- `c32_found` and `c32_update` on the tree above: `text1` is found and is in the tree, `text2` is not. -/
example : ∃ v ∈ sampleTree, (∃ w ∈ v.all, w.id = s% "text1" ∧ v.findId (s% "text1") = some w) ∧
    v.modifyId (s% "text2") (fun w => { w with weight := 7 }) = none := by
  refine ⟨_, List.mem_cons_self .., ?_, ?_⟩
  · simp [View.findId, findIdIn, View.ofRaw, AndroidView.newEmpty, View.all_eq, allOf]
  · rw [(c32_update _ (View.ofRaw (AndroidView.newEmpty [] 0 [] 0)) _ _).1, (c32_found _ _).1]
    simp [View.ofRaw, AndroidView.newEmpty, View.all_eq, allOf]

/-- `c33_tree` and `c33_children` on the list above: the hypotheses are met, and `linear1` has the two views that name it. -/
example : (sampleViews.map (·.id)).Nodup ∧ ∃ vs, parseRawLayout ⟨sampleViews⟩ = .ok vs ∧
    vs.map (fun v => v.raw.id) = [s% "linear1", s% "switch1"] ∧
    vs.map (fun v => v.children.map fun c => c.raw.id) = [[s% "button1", s% "text1"], []] := by
  refine ⟨by simp [sampleViews, AndroidView.newEmpty], sampleTree, ?_, ?_, ?_⟩ <;>
  simp [parseRawLayout, sampleViews, sampleTree, placeViews, placeView, AndroidView.newEmpty, modifyIdIn, View.modifyId, View.ofRaw,
    View.push]

/-- `c33_error`: a list whose second view names a view that is not there. -/
example : ¬ Grounded [AndroidView.newEmpty (s% "a") 0 (s% "root") 0, AndroidView.newEmpty (s% "b") 3 (s% "c") 0] ∧
    parseRawLayout ⟨[AndroidView.newEmpty (s% "a") 0 (s% "root") 0, AndroidView.newEmpty (s% "b") 3 (s% "c") 0]⟩ =
      .err (.nonexistentParent (s% "b") (s% "c")) := by
  have h : parseRawLayout ⟨[AndroidView.newEmpty (s% "a") 0 (s% "root") 0, AndroidView.newEmpty (s% "b") 3 (s% "c") 0]⟩ =
      .err (.nonexistentParent (s% "b") (s% "c")) := by
    simp [parseRawLayout, placeViews, placeView, AndroidView.newEmpty, modifyIdIn, View.modifyId, View.ofRaw]
  refine ⟨fun hg => ?_, h⟩
  obtain ⟨vs, hv⟩ := (c33_accepts ⟨_⟩).2 hg
  rw [h] at hv; cases hv

/-- `c34_read_back`, `c34_again` and `c35_order` on the tree above. -/
example : ((allOf sampleTree).map (·.id)).Nodup ∧ (∀ w ∈ allOf sampleTree, w.id ≠ s% "root") ∧
    (flattenViews sampleTree none none).map (fun r => (r.id, r.parent)) =
      [(s% "linear1", some (s% "root")), (s% "switch1", some (s% "root")), (s% "button1", some (s% "linear1")),
       (s% "text1", some (s% "linear1"))] := by
  refine ⟨?_, ?_, ?_⟩
  · simp [sampleTree, allOf, View.all_eq, View.ofRaw, AndroidView.newEmpty]
  · simp [sampleTree, allOf, View.all_eq, View.ofRaw, AndroidView.newEmpty]
  · simp [sampleTree, flattenViews, flattenIn, flattenBelow, flattenChildren_eq, flat_id, flat_parent, View.ofRaw, AndroidView.newEmpty]

end
end Swrs.Api
