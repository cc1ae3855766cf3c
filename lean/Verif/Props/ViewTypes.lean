import Verif.Props.ApiView
/-!
# C73: the kind and the values of a view, read from its record
-/
namespace Swrs.Api
variable [Floats]

/-- The kinds of views. -/
inductive ViewKind where
  | linearLayout | scrollView | button | textView | editText | imageView | webView | progressBar | listView | spinner
  | checkBox | switch | seekBar | calendarView | fab | adView | mapView
deriving DecidableEq

/-- The kind of a view type. -/
def ViewType.kind : ViewType → ViewKind
  | .linearLayout .. => .linearLayout
  | .scrollView .. => .scrollView
  | .button .. => .button
  | .textView .. => .textView
  | .editText .. => .editText
  | .imageView .. => .imageView
  | .webView => .webView
  | .progressBar .. => .progressBar
  | .listView .. => .listView
  | .spinner .. => .spinner
  | .checkBox .. => .checkBox
  | .switch .. => .switch
  | .seekBar .. => .seekBar
  | .calendarView .. => .calendarView
  | .fab .. => .fab
  | .adView .. => .adView
  | .mapView => .mapView

/-- The numbers of the kinds in files: two numbers for scroll views (horizontal and vertical). -/
def c73_numbers : List (UInt8 × ViewKind) :=
  [(0, .linearLayout), (2, .scrollView), (3, .button), (4, .textView), (5, .editText), (6, .imageView), (7, .webView),
   (8, .progressBar), (9, .listView), (10, .spinner), (11, .checkBox), (12, .scrollView), (13, .switch), (14, .seekBar),
   (15, .calendarView), (16, .fab), (17, .adView), (18, .mapView)]

/-- Everything that `fromView` can do, case by case. -/
theorem fromView_cases (P : UInt8 → Except ViewTypeConversionError ViewType → Prop) (r : AndroidView)
    (h0 : P 0 (.ok (.linearLayout r.layout.orientation r.layout.gravity)))
    (h2 : P 2 (.ok (.scrollView .horizontal r.layout.gravity)))
    (h3 : P 3 (.ok (.button r.text.text r.text.textColor r.text.textSize r.text.textType)))
    (h4 : P 4 (.ok (.textView r.text.text r.text.textColor r.text.textSize r.text.singleLine r.text.textFont r.text.textType
      r.text.line)))
    (h5 : P 5 (.ok (.editText r.text.text r.text.textColor r.text.textSize r.text.singleLine r.text.textFont r.text.textType
      r.text.line r.text.hint r.text.hintColor r.text.imeOption r.text.inputType)))
    (h6 : ∀ n, r.image.resName = some n → P 6 (.ok (.imageView n r.image.scaleType)))
    (h6' : r.image.resName = none → P 6 (.error (.resNameNotPresent r.id)))
    (h7 : P 7 (.ok .webView))
    (h8 : P 8 (.ok (.progressBar r.max r.progress r.indeterminate r.progressStyle)))
    (h9 : P 9 (.ok (.listView r.dividerHeight r.customView)))
    (h10 : P 10 (.ok (.spinner r.spinnerMode)))
    (h11 : P 11 (.ok (.checkBox r.checked r.text.text r.text.textColor r.text.textSize r.text.textFont r.text.textType)))
    (h12 : P 12 (.ok (.scrollView .vertical r.layout.gravity)))
    (h13 : P 13 (.ok (.switch r.checked r.text.text r.text.textColor r.text.textSize r.text.textFont r.text.textType)))
    (h14 : P 14 (.ok (.seekBar r.max r.progress)))
    (h15 : P 15 (.ok (.calendarView r.firstDayOfWeek)))
    (h16 : ∀ n, r.image.resName = some n → P 16 (.ok (.fab n)))
    (h16' : r.image.resName = none → P 16 (.error (.resNameNotPresent r.id)))
    (h17 : P 17 (.ok (.adView r.adSize)))
    (h18 : P 18 (.ok .mapView))
    (hx : (∀ k, (r.type, k) ∉ c73_numbers) → P r.type (.error (.unknownViewType r.type r.id))) :
    P r.type (ViewType.fromView r) := by
  have ht : r.type = UInt8.ofNat r.type.toNat := by simp
  unfold ViewType.fromView
  split
  case h_19 =>
    apply hx
    intro k hk
    simp only [c73_numbers, List.mem_cons, Prod.mk.injEq, List.not_mem_nil, or_false] at hk
    rcases hk with h | h | h | h | h | h | h | h | h | h | h | h | h | h | h | h | h | h <;>
      (have h1 := congrArg UInt8.toNat h.1; simp at h1; exact absurd h1 (by assumption))
  all_goals
    rename_i he
    rw [he] at ht
    rw [ht]
  case h_6 =>
    unfold resName
    cases hn : r.image.resName with
    | none => exact h6' hn
    | some n => exact h6 n hn
  case h_16 =>
    unfold resName
    cases hn : r.image.resName with
    | none => exact h16' hn
    | some n => exact h16 n hn
  all_goals assumption

/-- C73: the record of a view is read iff its type is one of the numbers and, for images and floating buttons, it names an
image. -/
theorem c73_accepts (r : AndroidView) : (∃ t, ViewType.fromView r = .ok t) ↔
    (∃ k, (r.type, k) ∈ c73_numbers) ∧ (r.type = 6 ∨ r.type = 16 → r.image.resName ≠ none) := by
  refine fromView_cases (fun y x => (∃ t, x = .ok t) ↔ (∃ k, (y, k) ∈ c73_numbers) ∧ (y = 6 ∨ y = 16 → r.image.resName ≠ none))
    r ?_ ?_ ?_ ?_ ?_ ?_ ?_ ?_ ?_ ?_ ?_ ?_ ?_ ?_ ?_ ?_ ?_ ?_ ?_ ?_ ?_
  case refine_7 => intro h; simp [h]
  case refine_18 => intro h; simp [h]
  case refine_21 => intro h; simp; intro k hk; exact absurd hk (h k)
  case refine_6 => intro n h; simp [h, c73_numbers]
  case refine_17 => intro n h; simp [h, c73_numbers]
  all_goals simp [c73_numbers]

/-- C73: otherwise the error says which of the two it is, and names the view. -/
theorem c73_error (r : AndroidView) (e : ViewTypeConversionError) : ViewType.fromView r = .error e ↔
    ((∀ k, (r.type, k) ∉ c73_numbers) ∧ e = .unknownViewType r.type r.id) ∨
    ((r.type = 6 ∨ r.type = 16) ∧ r.image.resName = none ∧ e = .resNameNotPresent r.id) := by
  refine fromView_cases (fun y x => x = .error e ↔ ((∀ k, (y, k) ∉ c73_numbers) ∧ e = .unknownViewType y r.id) ∨
    ((y = 6 ∨ y = 16) ∧ r.image.resName = none ∧ e = .resNameNotPresent r.id))
    r ?_ ?_ ?_ ?_ ?_ ?_ ?_ ?_ ?_ ?_ ?_ ?_ ?_ ?_ ?_ ?_ ?_ ?_ ?_ ?_ ?_
  case refine_7 => intro h; simp [h, c73_numbers, eq_comm]
  case refine_18 => intro h; simp [h, c73_numbers, eq_comm]
  case refine_21 =>
    intro h
    have h6 : ¬ (r.type = 6 ∨ r.type = 16) := by
      rintro (h' | h')
      · exact h .imageView (by rw [h']; decide)
      · exact h .fab (by rw [h']; decide)
    simp only [Except.error.injEq, h, h6, not_false_eq_true, implies_true, true_and, false_and, or_false]
    exact eq_comm
  case refine_6 => intro n h; simp [h, c73_numbers]
  case refine_17 => intro n h; simp [h, c73_numbers]
  all_goals simp [c73_numbers]

/-- C73: a view type that is read has the kind of the number, and each value that this kind has is the record's; a scroll
view is horizontal or vertical by its number, whatever orientation the record has. -/
theorem c73_values (r : AndroidView) (t : ViewType) (h : ViewType.fromView r = .ok t) :
    (r.type, t.kind) ∈ c73_numbers ∧
    (∀ x, t.orientation? = some x → x = if r.type = 2 then .horizontal else if r.type = 12 then .vertical else r.layout.orientation) ∧
    (∀ x, t.gravity? = some x → x = r.layout.gravity) ∧
    (∀ x, t.text? = some x → x = r.text.text) ∧
    (∀ x, t.textColor? = some x → x = r.text.textColor) ∧
    (∀ x, t.textSize? = some x → x = r.text.textSize) ∧
    (∀ x, t.textStyle? = some x → x = r.text.textType) ∧
    (∀ x, t.singleLine? = some x → x = r.text.singleLine) ∧
    (∀ x, t.textFont? = some x → x = r.text.textFont) ∧
    (∀ x, t.lines? = some x → x = r.text.line) ∧
    (∀ x, t.hint? = some x → x = r.text.hint) ∧
    (∀ x, t.hintColor? = some x → x = r.text.hintColor) ∧
    (∀ x, t.imeOption? = some x → x = r.text.imeOption) ∧
    (∀ x, t.inputType? = some x → x = r.text.inputType) ∧
    (∀ x, t.imageResName? = some x → r.image.resName = some x) ∧
    (∀ x, t.imageScaleType? = some x → x = r.image.scaleType) ∧
    (∀ x, t.maxProgress? = some x → x = r.max) ∧
    (∀ x, t.progress? = some x → x = r.progress) ∧
    (∀ x, t.indeterminate? = some x → x = r.indeterminate) ∧
    (∀ x, t.progressStyle? = some x → x = r.progressStyle) ∧
    (∀ x, t.dividerHeight? = some x → x = r.dividerHeight) ∧
    (∀ x, t.customView? = some x → x = r.customView) ∧
    (∀ x, t.spinnerMode? = some x → x = r.spinnerMode) ∧
    (∀ x, t.checked? = some x → x = r.checked) ∧
    (∀ x, t.firstDayOfWeek? = some x → x = r.firstDayOfWeek) ∧
    (∀ x, t.adviewSize? = some x → x = r.adSize) := by
  refine fromView_cases (fun y x => x = .ok t → (y, t.kind) ∈ c73_numbers ∧
    (∀ x, t.orientation? = some x → x = if y = 2 then .horizontal else if y = 12 then .vertical else r.layout.orientation) ∧ _)
    r ?_ ?_ ?_ ?_ ?_ ?_ ?_ ?_ ?_ ?_ ?_ ?_ ?_ ?_ ?_ ?_ ?_ ?_ ?_ ?_ ?_ h
  case refine_7 => intro _ h; cases h
  case refine_18 => intro _ h; cases h
  case refine_21 => intro _ h; cases h
  case refine_6 =>
    intro n hn h; cases h
    simp [c73_numbers, ViewType.kind, ViewType.orientation?, ViewType.gravity?, ViewType.text?, ViewType.textColor?,
      ViewType.textSize?, ViewType.textStyle?, ViewType.singleLine?, ViewType.textFont?, ViewType.lines?, ViewType.hint?,
      ViewType.hintColor?, ViewType.imeOption?, ViewType.inputType?, ViewType.imageResName?, ViewType.imageScaleType?,
      ViewType.maxProgress?, ViewType.progress?, ViewType.indeterminate?, ViewType.progressStyle?, ViewType.dividerHeight?,
      ViewType.customView?, ViewType.spinnerMode?, ViewType.checked?, ViewType.firstDayOfWeek?, ViewType.adviewSize?, hn]
  case refine_17 =>
    intro n hn h; cases h
    simp [c73_numbers, ViewType.kind, ViewType.orientation?, ViewType.gravity?, ViewType.text?, ViewType.textColor?,
      ViewType.textSize?, ViewType.textStyle?, ViewType.singleLine?, ViewType.textFont?, ViewType.lines?, ViewType.hint?,
      ViewType.hintColor?, ViewType.imeOption?, ViewType.inputType?, ViewType.imageResName?, ViewType.imageScaleType?,
      ViewType.maxProgress?, ViewType.progress?, ViewType.indeterminate?, ViewType.progressStyle?, ViewType.dividerHeight?,
      ViewType.customView?, ViewType.spinnerMode?, ViewType.checked?, ViewType.firstDayOfWeek?, ViewType.adviewSize?, hn]
  all_goals
    intro h; cases h
    simp [c73_numbers, ViewType.kind, ViewType.orientation?, ViewType.gravity?, ViewType.text?, ViewType.textColor?,
      ViewType.textSize?, ViewType.textStyle?, ViewType.singleLine?, ViewType.textFont?, ViewType.lines?, ViewType.hint?,
      ViewType.hintColor?, ViewType.imeOption?, ViewType.inputType?, ViewType.imageResName?, ViewType.imageScaleType?,
      ViewType.maxProgress?, ViewType.progress?, ViewType.indeterminate?, ViewType.progressStyle?, ViewType.dividerHeight?,
      ViewType.customView?, ViewType.spinnerMode?, ViewType.checked?, ViewType.firstDayOfWeek?, ViewType.adviewSize?]

/-- C73: writing the values of a view type into a record with a number of its kind and reading them gives the view type
back; scroll views need the number of their orientation, and have no other orientations. -/
theorem c73_written_read (r : AndroidView) (t : ViewType) :
    ViewType.fromView (t.applyTo r) = .ok t ↔
      (r.type, t.kind) ∈ c73_numbers ∧
      ∀ o g, t = .scrollView o g → (r.type = 2 ∧ o = .horizontal) ∨ (r.type = 12 ∧ o = .vertical) := by
  have hty : (t.applyTo r).type = r.type := by cases t <;> rfl
  constructor
  · intro h
    have hv := c73_values _ _ h
    rw [hty] at hv
    refine ⟨hv.1, ?_⟩
    rintro o g rfl
    have h1 := hv.1
    have h2 := hv.2.1 o rfl
    simp [c73_numbers, ViewType.kind] at h1
    rcases h1 with h1 | h1
    · rw [h1] at h2; exact .inl ⟨h1, by simpa using h2⟩
    · rw [h1] at h2; exact .inr ⟨h1, by simpa using h2⟩
  · rintro ⟨h1, h2⟩
    cases t with
    | scrollView o g =>
      rcases h2 o g rfl with ⟨h, rfl⟩ | ⟨h, rfl⟩ <;> simp [ViewType.fromView, ViewType.applyTo, h]
    | _ =>
      simp [c73_numbers, ViewType.kind] at h1
      simp [ViewType.fromView, ViewType.applyTo, h1, resName, Except.map]

/-- C73: reading a record and writing the values back changes nothing, except for a scroll view whose record has another
orientation than its number says. -/
theorem c73_read_written (r : AndroidView) (t : ViewType) (h : ViewType.fromView r = .ok t) :
    t.applyTo r = r ↔ (r.type = 2 → r.layout.orientation = .horizontal) ∧ (r.type = 12 → r.layout.orientation = .vertical) := by
  refine fromView_cases (fun y x => x = .ok t → (t.applyTo r = r ↔
    (y = 2 → r.layout.orientation = .horizontal) ∧ (y = 12 → r.layout.orientation = .vertical)))
    r ?_ ?_ ?_ ?_ ?_ ?_ ?_ ?_ ?_ ?_ ?_ ?_ ?_ ?_ ?_ ?_ ?_ ?_ ?_ ?_ ?_ h
  case refine_7 => intro _ h; cases h
  case refine_18 => intro _ h; cases h
  case refine_21 => intro _ h; cases h
  case refine_6 => intro n hn h; cases h; simp [ViewType.applyTo, ← hn]
  case refine_17 => intro n hn h; cases h; simp [ViewType.applyTo, ← hn]
  case refine_2 =>
    intro h; cases h
    simp only [ViewType.applyTo, true_implies]
    constructor
    · intro h
      have := congrArg (fun v => v.layout.orientation) h
      exact ⟨this.symm, by simp⟩
    · intro h
      rw [← h.1]
  case refine_13 =>
    intro h; cases h
    simp only [ViewType.applyTo, true_implies]
    constructor
    · intro h
      have := congrArg (fun v => v.layout.orientation) h
      exact ⟨by simp, this.symm⟩
    · intro h
      rw [← h.2]
  all_goals intro h; cases h; simp [ViewType.applyTo]

example : ∃ t, ViewType.fromView (AndroidView.newEmpty (s% "a") 13 (s% "root") 0) = .ok t ∧ t.kind = .switch := ⟨_, rfl, rfl⟩
example : ViewType.fromView (AndroidView.newEmpty (s% "a") 1 (s% "root") 0) = .error (.unknownViewType 1 (s% "a")) := rfl
example : ViewType.fromView { AndroidView.newEmpty (s% "a") 6 (s% "root") 0 with
    image := { (AndroidView.newEmpty (s% "a") 6 (s% "root") 0).image with resName := none } } =
    .error (.resNameNotPresent (s% "a")) := rfl
example : (12, (ViewType.scrollView .vertical ⟨0⟩).kind) ∈ c73_numbers := by decide

end Swrs.Api
