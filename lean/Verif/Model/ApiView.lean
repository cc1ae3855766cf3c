import Verif.Model.View
/-!
# Model of `/repo/src/api/view.rs`
-/
namespace Swrs.Api

/-- `struct SidesValue` — view.rs:121-126. -/
structure SidesValue where
  top : UInt32
  right : UInt32
  bottom : UInt32
  left : UInt32
deriving DecidableEq, Repr

/-- `enum ViewType` — view.rs:131-219. -/
inductive ViewType where
  | linearLayout (orientation : LayoutOrientation) (gravity : Gravity)
  | scrollView (orientation : LayoutOrientation) (gravity : Gravity)
  | button (text : Str) (textColor : Color) (textSize : UInt32) (textStyle : TextType)
  | textView (text : Str) (textColor : Color) (textSize : UInt32) (singleLine : Bool) (textFont : Str)
      (textStyle : TextType) (lines : UInt32)
  | editText (text : Str) (textColor : Color) (textSize : UInt32) (singleLine : Bool) (textFont : Str)
      (textStyle : TextType) (lines : UInt32) (hint : Str) (hintColor : Color) (imeOption : ImeOption)
      (inputType : InputType)
  | imageView (imageResName : Str) (imageScaleType : ImageScaleType)
  | webView
  | progressBar (maxProgress progress : UInt32) (indeterminate : Bool) (progressStyle : Str)
  | listView (dividerHeight : UInt32) (customView : Str)
  | spinner (spinnerMode : SpinnerMode)
  | checkBox (checked : Bool) (text : Str) (textColor : Color) (textSize : UInt32) (textFont : Str)
      (textStyle : TextType)
  | switch (checked : Bool) (text : Str) (textColor : Color) (textSize : UInt32) (textFont : Str)
      (textStyle : TextType)
  | seekBar (maxProgress progress : UInt32)
  | calendarView (firstDayOfWeek : UInt8)
  | fab (imageResName : Str)
  | adView (adviewSize : Str)
  | mapView
deriving DecidableEq, Repr

/-- `enum ViewTypeConversionError` — view.rs:460-470. -/
inductive ViewTypeConversionError where
  | unknownViewType (viewType : UInt8) (viewId : Str)
  | resNameNotPresent (viewId : Str)
deriving DecidableEq, Repr

/-- `android_view.image.res_name.as_ref().ok_or_else(..)?.clone()` — view.rs:259-262, 311-314. -/
def resName [Floats] (v : AndroidView) : Except ViewTypeConversionError Str :=
  match v.image.resName with
  | some n => .ok n
  | none => .error (.resNameNotPresent v.id)

namespace ViewType
variable [Floats]

/-- `ViewType::from_view` — view.rs:223-321. -/
def fromView (v : AndroidView) : Except ViewTypeConversionError ViewType :=
  match v.type.toNat with
  | 0 => .ok (.linearLayout v.layout.orientation v.layout.gravity)
  | 2 => .ok (.scrollView .horizontal v.layout.gravity)
  | 3 => .ok (.button v.text.text v.text.textColor v.text.textSize v.text.textType)
  | 4 => .ok (.textView v.text.text v.text.textColor v.text.textSize v.text.singleLine v.text.textFont v.text.textType
      v.text.line)
  | 5 => .ok (.editText v.text.text v.text.textColor v.text.textSize v.text.singleLine v.text.textFont v.text.textType
      v.text.line v.text.hint v.text.hintColor v.text.imeOption v.text.inputType)
  | 6 => (resName v).map fun n => .imageView n v.image.scaleType
  | 7 => .ok .webView
  | 8 => .ok (.progressBar v.max v.progress v.indeterminate v.progressStyle)
  | 9 => .ok (.listView v.dividerHeight v.customView)
  | 10 => .ok (.spinner v.spinnerMode)
  | 11 => .ok (.checkBox v.checked v.text.text v.text.textColor v.text.textSize v.text.textFont v.text.textType)
  | 12 => .ok (.scrollView .vertical v.layout.gravity)
  | 13 => .ok (.switch v.checked v.text.text v.text.textColor v.text.textSize v.text.textFont v.text.textType)
  | 14 => .ok (.seekBar v.max v.progress)
  | 15 => .ok (.calendarView v.firstDayOfWeek)
  | 16 => (resName v).map .fab
  | 17 => .ok (.adView v.adSize)
  | 18 => .ok .mapView
  | _ => .error (.unknownViewType v.type v.id)

/-- `ViewType::get_type_id` — view.rs:324-344. -/
def getTypeId : ViewType → UInt8
  | linearLayout .. => 0
  | scrollView .. => 2
  | button .. => 3
  | textView .. => 4
  | editText .. => 5
  | imageView .. => 6
  | webView => 7
  | progressBar .. => 8
  | listView .. => 9
  | spinner .. => 10
  | checkBox .. => 11
  | switch .. => 12
  | seekBar .. => 13
  | calendarView .. => 14
  | fab .. => 15
  | adView .. => 16
  | mapView => 17

/-- `ViewType::apply_values_to_view` — view.rs:347-456. -/
def applyTo (t : ViewType) (v : AndroidView) : AndroidView :=
  match t with
  | linearLayout orientation gravity => { v with layout := { v.layout with orientation, gravity } }
  | scrollView orientation gravity => { v with layout := { v.layout with orientation, gravity } }
  | button text textColor textSize textStyle =>
    { v with text := { v.text with text, textColor, textSize, textType := textStyle } }
  | textView text textColor textSize singleLine textFont textStyle lines =>
    { v with text := { v.text with text, textColor, textSize, singleLine, textFont, textType := textStyle, line := lines } }
  | editText text textColor textSize singleLine textFont textStyle lines hint hintColor imeOption inputType =>
    { v with text := { v.text with text, textColor, textSize, singleLine, textFont, textType := textStyle, line := lines, hint, hintColor, imeOption, inputType } }
  | imageView imageResName imageScaleType =>
    { v with image := { v.image with resName := some imageResName, scaleType := imageScaleType } }
  | webView => v
  | progressBar maxProgress progress indeterminate progressStyle =>
    { v with max := maxProgress, progress, indeterminate, progressStyle }
  | listView dividerHeight customView => { v with dividerHeight, customView }
  | spinner spinnerMode => { v with spinnerMode }
  | checkBox checked text textColor textSize textFont textStyle =>
    { v with checked, text := { v.text with text, textColor, textSize, textFont, textType := textStyle } }
  | switch checked text textColor textSize textFont textStyle =>
    { v with checked, text := { v.text with text, textColor, textSize, textFont, textType := textStyle } }
  | seekBar maxProgress progress => { v with max := maxProgress, progress }
  | calendarView firstDayOfWeek => { v with firstDayOfWeek }
  | fab imageResName => { v with image := { v.image with resName := some imageResName } }
  | adView adviewSize => { v with adSize := adviewSize }
  | mapView => v
end ViewType

/-- `struct View` — view.rs:14-63. -/
structure View [Floats] where
  id : Str
  backgroundColor : Color
  height : Size
  width : Size
  padding : SidesValue
  margin : SidesValue
  weight : UInt32
  weightSum : UInt32
  layoutGravity : Gravity
  view : Except ViewTypeConversionError ViewType
  raw : AndroidView
  children : List View

section
variable [Floats]

mutual
/-- `View::find_id` — view.rs:66-75. -/
def View.findId (id : Str) : View → Option View
  | v@⟨i, _, _, _, _, _, _, _, _, _, _, children⟩ => if i = id then some v else findIdIn id children
/-- `.iter().find_map(|i| i.find_id(id))` — view.rs:71-73. -/
def findIdIn (id : Str) : List View → Option View
  | [] => none
  | v :: vs =>
    match View.findId id v with
    | some w => some w
    | none => findIdIn id vs
end

mutual
/-- `View::find_id_mut` — view.rs:77-86, as the tree after an update `f` of the view it returns. -/
def View.modifyId (id : Str) (f : View → View) : View → Option View
  | v@⟨i, _, _, _, _, _, _, _, _, _, _, children⟩ =>
    if i = id then some (f v) else (modifyIdIn id f children).map fun children => { v with children }
/-- `.iter_mut().find_map(|i| i.find_id_mut(id))` — view.rs:82-84, 489, as the list after an update. -/
def modifyIdIn (id : Str) (f : View → View) : List View → Option (List View)
  | [] => none
  | v :: vs =>
    match View.modifyId id f v with
    | some w => some (w :: vs)
    | none => (modifyIdIn id f vs).map (v :: ·)
end

/-- `From<AndroidView> for View` — view.rs:89-116. -/
def View.ofRaw (r : AndroidView) : View where
  id := r.id
  backgroundColor := r.layout.backgroundColor
  height := r.layout.height
  width := r.layout.width
  padding := ⟨r.layout.paddingTop, r.layout.paddingRight, r.layout.paddingBottom, r.layout.paddingLeft⟩
  margin := ⟨r.layout.marginTop, r.layout.marginRight, r.layout.marginBottom, r.layout.marginLeft⟩
  weight := r.layout.weight
  weightSum := r.layout.weightSum
  layoutGravity := r.layout.layoutGravity
  view := ViewType.fromView r
  children := []
  raw := r

/-- `enum ParseLayoutError` — view.rs:502-513. -/
inductive ParseLayoutError where
  | noParentField (viewId : Str)
  | nonexistentParent (viewId parentId : Str)
deriving DecidableEq, Repr

/-- `parent.children.push(view.into())` — view.rs:495. -/
def View.push (r : AndroidView) (p : View) : View := { p with children := p.children ++ [View.ofRaw r] }

/-- One round of the loop of `parse_raw_layout` — view.rs:480-497. -/
def placeView (result : List View) (r : AndroidView) : Out ParseLayoutError (List View) :=
  match r.parent with
  | none => .err (.noParentField r.id)
  | some p =>
    if p = s% "root" then .ok (result ++ [View.ofRaw r])
    else match modifyIdIn p (View.push r) result with
      | none => .err (.nonexistentParent r.id p)
      | some result => .ok result

/-- The loop of `parse_raw_layout` — view.rs:480-497. -/
def placeViews : List AndroidView → List View → Out ParseLayoutError (List View)
  | [], result => .ok result
  | r :: rs, result => do
    let result ← placeView result r
    placeViews rs result

/-- `parse_raw_layout` — view.rs:477-500. -/
def parseRawLayout (l : Layout) : Out ParseLayoutError (List View) := placeViews l.views []

/-- `view_type_id` of a view in `flatten_views` — view.rs:539-549: `type` of the raw view is never changed. -/
def View.typeId (v : View) : UInt8 :=
  match v.view with
  | .ok t => t.getTypeId
  | .error _ => v.raw.type

/-- The values of the view-specific fields in `flatten_views` — view.rs:539-549. -/
def View.applied (v : View) (r : AndroidView) : AndroidView :=
  match v.view with
  | .ok t => t.applyTo r
  | .error _ => r

/-- `result_view` of one round of the loop of `flatten_views` — view.rs:526-567. -/
def View.flat (v : View) (parentId : Str) (parentType : UInt8) : AndroidView :=
  let r := { v.raw with id := v.id, parent := some parentId, parentType := parentType.toInt8 }
  let r := v.applied r
  { r with layout := { r.layout with
      height := v.height, width := v.width
      paddingBottom := v.padding.bottom, paddingLeft := v.padding.left, paddingRight := v.padding.right, paddingTop := v.padding.top
      marginBottom := v.margin.bottom, marginLeft := v.margin.left, marginRight := v.margin.right, marginTop := v.margin.top
      backgroundColor := v.backgroundColor, layoutGravity := v.layoutGravity, weight := v.weight, weightSum := v.weightSum } }

mutual
/-- `children_result` of the loop of `flatten_views` — view.rs:573-581. -/
def flattenBelow : List View → List AndroidView
  | [] => []
  | v :: vs => flattenChildren v ++ flattenBelow vs
/-- `flatten_views` of the children of a view — view.rs:573-581: `result` followed by `children_result`. Without
children it is empty. -/
def flattenChildren : View → List AndroidView
  | ⟨id, color, h, w, p, m, wt, ws, g, view, raw, children⟩ =>
    children.map (fun c => c.flat id (View.typeId ⟨id, color, h, w, p, m, wt, ws, g, view, raw, []⟩)) ++ flattenBelow children
end

/-- `flatten_views` with a given parent — view.rs:521-586: `result` followed by `children_result`. -/
def flattenIn (vs : List View) (parentId : Str) (parentType : UInt8) : List AndroidView :=
  vs.map (fun v => v.flat parentId parentType) ++ flattenBelow vs

/-- `flatten_views` — view.rs:516-587. -/
def flattenViews (vs : List View) (parentId : Option Str) (parentType : Option UInt8) : List AndroidView :=
  flattenIn vs (parentId.getD (s% "root")) (parentType.getD 0)
end
end Swrs.Api
