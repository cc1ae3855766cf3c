import Verif.Model.Color
import Verif.Model.File
import Verif.Base.LinkedMap
/-!
# Model of `/repo/src/parser/view.rs`

`serde_json::to_string` cannot fail on these types (non-finite floats are written as `null`), so `reconstruct` has no
error case here. Line counters are unbounded numbers.
-/
namespace Swrs

/-- `bool_to_one_zero` — serde_util.rs:56-67. -/
def encOneZero (b : Bool) : Json := Json.encU8 (if b then 1 else 0)
/-- `bool_to_one_zero::deserialize` — serde_util.rs:64-66. -/
def decOneZero (j : Json) : Option Bool := (Json.decU8 j).map fun n => n != 0

/-- `bool_to_str::serialize` — serde_util.rs:74-76. -/
def encBoolStr (b : Bool) : Json := .str (if b then s% "true" else s% "false")
/-- `bool_to_str::deserialize` — serde_util.rs:78-84. -/
def decBoolStr (j : Json) : Option Bool :=
  (Json.decStr j).bind fun s =>
    if s = s% "true" then some true else if s = s% "false" then some false else none

/-- `enum ChoiceMode` (u8) — view.rs:364-370. -/
inductive ChoiceMode where | none | single | multi
deriving DecidableEq, Repr

namespace ChoiceMode
/-- Discriminants — view.rs:364-370. -/
def num : ChoiceMode → Int | none => 0 | single => 1 | multi => 2
/-- All variants — view.rs:364-370. -/
def all : List ChoiceMode := [.none, .single, .multi]
/-- `Serialize_repr` — view.rs:364-370. -/
def enc (x : ChoiceMode) : Json := Json.encInt x.num
/-- `Deserialize_repr` — view.rs:364-370. -/
def dec (j : Json) : Option ChoiceMode := decRepr 0 255 all num j
end ChoiceMode

/-- `enum SpinnerMode` (u8) — view.rs:372-377. -/
inductive SpinnerMode where | dialog | dropdown
deriving DecidableEq, Repr

namespace SpinnerMode
/-- Discriminants — view.rs:372-377. -/
def num : SpinnerMode → Int | dialog => 0 | dropdown => 1
/-- All variants — view.rs:372-377. -/
def all : List SpinnerMode := [.dialog, .dropdown]
/-- `Serialize_repr` — view.rs:372-377. -/
def enc (x : SpinnerMode) : Json := Json.encInt x.num
/-- `Deserialize_repr` — view.rs:372-377. -/
def dec (j : Json) : Option SpinnerMode := decRepr 0 255 all num j
end SpinnerMode

/-- `enum LayoutOrientation` (i8) — view.rs:500-506 (`layout::Orientation`). -/
inductive LayoutOrientation where | vertical | unspecified | horizontal
deriving DecidableEq, Repr

namespace LayoutOrientation
/-- Discriminants — view.rs:500-506 (`layout::Orientation`). -/
def num : LayoutOrientation → Int | vertical => 1 | unspecified => 0 | horizontal => -1
/-- All variants — view.rs:500-506 (`layout::Orientation`). -/
def all : List LayoutOrientation := [.vertical, .unspecified, .horizontal]
/-- `Serialize_repr` — view.rs:500-506 (`layout::Orientation`). -/
def enc (x : LayoutOrientation) : Json := Json.encInt x.num
/-- `Deserialize_repr` — view.rs:500-506 (`layout::Orientation`). -/
def dec (j : Json) : Option LayoutOrientation := decRepr (-128) 127 all num j
end LayoutOrientation

/-- `enum ImeOption` (u8) — view.rs:582-592. -/
inductive ImeOption where | normal | none | go | search | send | next | done
deriving DecidableEq, Repr

namespace ImeOption
/-- Discriminants — view.rs:582-592. -/
def num : ImeOption → Int | normal => 0 | none => 1 | go => 2 | search => 3 | send => 4 | next => 5 | done => 6
/-- All variants — view.rs:582-592. -/
def all : List ImeOption := [.normal, .none, .go, .search, .send, .next, .done]
/-- `Serialize_repr` — view.rs:582-592. -/
def enc (x : ImeOption) : Json := Json.encInt x.num
/-- `Deserialize_repr` — view.rs:582-592. -/
def dec (j : Json) : Option ImeOption := decRepr 0 255 all num j
end ImeOption

/-- `enum InputType` (u16) — view.rs:594-603. -/
inductive InputType where | numberDecimal | numberSigned | numberSignedDecimal | password | phone | text
deriving DecidableEq, Repr

namespace InputType
/-- Discriminants — view.rs:594-603. -/
def num : InputType → Int | numberDecimal => 8194 | numberSigned => 4098 | numberSignedDecimal => 12290 | password => 129 | phone => 3 | text => 1
/-- All variants — view.rs:594-603. -/
def all : List InputType := [.numberDecimal, .numberSigned, .numberSignedDecimal, .password, .phone, .text]
/-- `Serialize_repr` — view.rs:594-603. -/
def enc (x : InputType) : Json := Json.encInt x.num
/-- `Deserialize_repr` — view.rs:594-603. -/
def dec (j : Json) : Option InputType := decRepr 0 65535 all num j
end InputType

/-- `enum TextType` (u8) — view.rs:605-612. -/
inductive TextType where | normal | bold | italic | boldItalic
deriving DecidableEq, Repr

namespace TextType
/-- Discriminants — view.rs:605-612. -/
def num : TextType → Int | normal => 0 | bold => 1 | italic => 2 | boldItalic => 3
/-- All variants — view.rs:605-612. -/
def all : List TextType := [.normal, .bold, .italic, .boldItalic]
/-- `Serialize_repr` — view.rs:605-612. -/
def enc (x : TextType) : Json := Json.encInt x.num
/-- `Deserialize_repr` — view.rs:605-612. -/
def dec (j : Json) : Option TextType := decRepr 0 255 all num j
end TextType

/-- `enum ImageScaleType` — view.rs:402-412. -/
inductive ImageScaleType where
  | center | fitXy | fitStart | fitCenter | fitEnd | centerCrop | centerInside
deriving DecidableEq, Repr

namespace ImageScaleType
/-- Names in SCREAMING_SNAKE_CASE — view.rs:403. -/
def name : ImageScaleType → Str
  | center => s% "CENTER"
  | fitXy => s% "FIT_XY"
  | fitStart => s% "FIT_START"
  | fitCenter => s% "FIT_CENTER"
  | fitEnd => s% "FIT_END"
  | centerCrop => s% "CENTER_CROP"
  | centerInside => s% "CENTER_INSIDE"
/-- All variants — view.rs:405-411. -/
def all : List ImageScaleType := [.center, .fitXy, .fitStart, .fitCenter, .fitEnd, .centerCrop, .centerInside]
/-- derived `Serialize` — view.rs:402-412. -/
def enc (x : ImageScaleType) : Json := .str x.name
/-- derived `Deserialize` of a unit variant: its name, or an object `{name: null}` — view.rs:402-412. -/
def dec : Json → Option ImageScaleType
  | .str s => all.find? fun x => x.name = s
  | .obj [(k, .null)] => all.find? fun x => x.name = k
  | _ => none
end ImageScaleType

/-- `struct Gravity(u8)` — view.rs:520-521. -/
structure Gravity where
  value : UInt8
deriving DecidableEq, Repr

namespace Gravity
/-- derived `Serialize` (newtype) — view.rs:520-521. -/
def enc (g : Gravity) : Json := Json.encU8 g.value
/-- derived `Deserialize` (newtype) — view.rs:520-521. -/
def dec (j : Json) : Option Gravity := (Json.decU8 j).map Gravity.mk

/-- `NONE` — view.rs:511. -/
def NONE : UInt8 := 0
/-- `CENTER_HORIZONTAL` — view.rs:512. -/
def CENTER_HORIZONTAL : UInt8 := 1
/-- `LEFT` — view.rs:513. -/
def LEFT : UInt8 := 3
/-- `RIGHT` — view.rs:514. -/
def RIGHT : UInt8 := 5
/-- `CENTER_VERTICAL` — view.rs:515. -/
def CENTER_VERTICAL : UInt8 := 16
/-- `CENTER` — view.rs:516. -/
def CENTER : UInt8 := 17
/-- `TOP` — view.rs:517. -/
def TOP : UInt8 := 48
/-- `BOTTOM` — view.rs:518. -/
def BOTTOM : UInt8 := 80

/-- `Gravity::new` — view.rs:524. -/
def new (value : UInt8) : Gravity := ⟨value⟩
/-- `Gravity::center_horizontal` — view.rs:526. -/
def centerHorizontal (g : Gravity) : Bool := g.value &&& CENTER_HORIZONTAL == CENTER_HORIZONTAL
/-- `Gravity::left` — view.rs:527. -/
def left (g : Gravity) : Bool := g.value &&& LEFT == LEFT
/-- `Gravity::right` — view.rs:528. -/
def right (g : Gravity) : Bool := g.value &&& RIGHT == RIGHT
/-- `Gravity::center_vertical` — view.rs:529. -/
def centerVertical (g : Gravity) : Bool := g.value &&& CENTER_VERTICAL == CENTER_VERTICAL
/-- `Gravity::center` — view.rs:530. -/
def center (g : Gravity) : Bool := g.value &&& CENTER == CENTER
/-- `Gravity::top` — view.rs:531. -/
def top (g : Gravity) : Bool := g.value &&& TOP == TOP
/-- `Gravity::bottom` — view.rs:532. -/
def bottom (g : Gravity) : Bool := g.value &&& BOTTOM == BOTTOM
/-- `Default for Gravity` — view.rs:535-539. -/
def default : Gravity := ⟨NONE⟩
end Gravity

/-- `enum Size` — view.rs:471-476. -/
inductive Size where
  | matchParent
  | wrapContent
  | fixed (n : Int32)
deriving DecidableEq, Repr

namespace Size
/-- Number written for a size — view.rs:480-484. -/
def num : Size → Int32
  | matchParent => -2
  | wrapContent => -1
  | fixed n => n
/-- `Serialize` — view.rs:478-486. -/
def enc (s : Size) : Json := Json.encI32 s.num
/-- Size of a number — view.rs:492-496. -/
def ofNum (n : Int32) : Size := if n = -2 then matchParent else if n = -1 then wrapContent else fixed n
/-- `Deserialize` — view.rs:488-498. -/
def dec (j : Json) : Option Size := (Json.decI32 j).map ofNum
end Size

/-- `struct ImageConfig` — view.rs:379-387. -/
structure ImageConfig where
  resName : Option Str
  rotate : Int16
  scaleType : ImageScaleType
deriving DecidableEq, Repr

namespace ImageConfig
/-- JSON keys in declaration order — view.rs:379-387. -/
def fields : List Str := [s% "resName", s% "rotate", s% "scaleType"]

/-- derived `Serialize` — view.rs:379-387. -/
def members (c : ImageConfig) : Json.Obj :=
    Json.optKV (s% "resName") c.resName ++ (
    [(s% "rotate", Json.encI16 c.rotate), (s% "scaleType", c.scaleType.enc)])

/-- derived `Serialize` — view.rs:379-387. -/
def enc (c : ImageConfig) : Json := .obj c.members

/-- derived `Deserialize` — view.rs:379-387. -/
def dec (j : Json) : Option ImageConfig := do
  let o ← Json.asStruct fields j
  let resName ← Json.opt o (s% "resName") Json.decStr
  let rotate ← Json.req o (s% "rotate") Json.decI16
  let scaleType ← Json.req o (s% "scaleType") ImageScaleType.dec
  pure { resName, rotate, scaleType }
end ImageConfig

/-- `struct LayoutConfig` — view.rs:415-442. -/
structure LayoutConfig where
  backgroundColor : Color
  gravity : Gravity
  height : Size
  layoutGravity : Gravity
  marginBottom : UInt32
  marginLeft : UInt32
  marginRight : UInt32
  marginTop : UInt32
  orientation : LayoutOrientation
  paddingBottom : UInt32
  paddingLeft : UInt32
  paddingRight : UInt32
  paddingTop : UInt32
  weight : UInt32
  weightSum : UInt32
  width : Size
deriving DecidableEq, Repr

namespace LayoutConfig
/-- JSON keys in declaration order — view.rs:415-442. -/
def fields : List Str := [s% "backgroundColor", s% "gravity", s% "height", s% "layoutGravity", s% "marginBottom",
  s% "marginLeft", s% "marginRight", s% "marginTop", s% "orientation", s% "paddingBottom",
  s% "paddingLeft", s% "paddingRight", s% "paddingTop", s% "weight", s% "weightSum", s% "width"]

/-- derived `Serialize` — view.rs:415-442. -/
def members (c : LayoutConfig) : Json.Obj :=
    [(s% "backgroundColor", c.backgroundColor.enc), (s% "gravity", c.gravity.enc),
    (s% "height", c.height.enc), (s% "layoutGravity", c.layoutGravity.enc),
    (s% "marginBottom", Json.encU32 c.marginBottom), (s% "marginLeft", Json.encU32 c.marginLeft),
    (s% "marginRight", Json.encU32 c.marginRight), (s% "marginTop", Json.encU32 c.marginTop),
    (s% "orientation", c.orientation.enc), (s% "paddingBottom", Json.encU32 c.paddingBottom),
    (s% "paddingLeft", Json.encU32 c.paddingLeft), (s% "paddingRight", Json.encU32 c.paddingRight),
    (s% "paddingTop", Json.encU32 c.paddingTop), (s% "weight", Json.encU32 c.weight),
    (s% "weightSum", Json.encU32 c.weightSum), (s% "width", c.width.enc)]

/-- derived `Serialize` — view.rs:415-442. -/
def enc (c : LayoutConfig) : Json := .obj c.members

/-- derived `Deserialize` — view.rs:415-442. -/
def dec [Floats] (j : Json) : Option LayoutConfig := do
  let o ← Json.asStruct fields j
  let backgroundColor ← Json.req o (s% "backgroundColor") Color.dec
  let gravity ← Json.req o (s% "gravity") Gravity.dec
  let height ← Json.req o (s% "height") Size.dec
  let layoutGravity ← Json.req o (s% "layoutGravity") Gravity.dec
  let marginBottom ← Json.req o (s% "marginBottom") Json.decU32
  let marginLeft ← Json.req o (s% "marginLeft") Json.decU32
  let marginRight ← Json.req o (s% "marginRight") Json.decU32
  let marginTop ← Json.req o (s% "marginTop") Json.decU32
  let orientation ← Json.req o (s% "orientation") LayoutOrientation.dec
  let paddingBottom ← Json.req o (s% "paddingBottom") Json.decU32
  let paddingLeft ← Json.req o (s% "paddingLeft") Json.decU32
  let paddingRight ← Json.req o (s% "paddingRight") Json.decU32
  let paddingTop ← Json.req o (s% "paddingTop") Json.decU32
  let weight ← Json.req o (s% "weight") Json.decU32
  let weightSum ← Json.req o (s% "weightSum") Json.decU32
  let width ← Json.req o (s% "width") Size.dec
  pure { backgroundColor, gravity, height, layoutGravity, marginBottom, marginLeft, marginRight,
         marginTop, orientation, paddingBottom, paddingLeft, paddingRight, paddingTop, weight,
         weightSum, width }
end LayoutConfig

/-- `struct TextConfig` — view.rs:543-559. -/
structure TextConfig where
  hint : Str
  hintColor : Color
  imeOption : ImeOption
  inputType : InputType
  line : UInt32
  singleLine : Bool
  text : Str
  textColor : Color
  textFont : Str
  textSize : UInt32
  textType : TextType
deriving DecidableEq, Repr

namespace TextConfig
/-- JSON keys in declaration order — view.rs:543-559. -/
def fields : List Str := [s% "hint", s% "hintColor", s% "imeOption", s% "inputType", s% "line", s% "singleLine", s% "text",
  s% "textColor", s% "textFont", s% "textSize", s% "textType"]

/-- derived `Serialize` — view.rs:543-559. -/
def members (c : TextConfig) : Json.Obj :=
    [(s% "hint", .str c.hint), (s% "hintColor", c.hintColor.enc), (s% "imeOption", c.imeOption.enc),
    (s% "inputType", c.inputType.enc), (s% "line", Json.encU32 c.line),
    (s% "singleLine", encOneZero c.singleLine), (s% "text", .str c.text),
    (s% "textColor", c.textColor.enc), (s% "textFont", .str c.textFont),
    (s% "textSize", Json.encU32 c.textSize), (s% "textType", c.textType.enc)]

/-- derived `Serialize` — view.rs:543-559. -/
def enc (c : TextConfig) : Json := .obj c.members

/-- derived `Deserialize` — view.rs:543-559. -/
def dec [Floats] (j : Json) : Option TextConfig := do
  let o ← Json.asStruct fields j
  let hint ← Json.req o (s% "hint") Json.decStr
  let hintColor ← Json.req o (s% "hintColor") Color.dec
  let imeOption ← Json.req o (s% "imeOption") ImeOption.dec
  let inputType ← Json.req o (s% "inputType") InputType.dec
  let line ← Json.req o (s% "line") Json.decU32
  let singleLine ← Json.req o (s% "singleLine") decOneZero
  let text ← Json.req o (s% "text") Json.decStr
  let textColor ← Json.req o (s% "textColor") Color.dec
  let textFont ← Json.req o (s% "textFont") Json.decStr
  let textSize ← Json.req o (s% "textSize") Json.decU32
  let textType ← Json.req o (s% "textType") TextType.dec
  pure { hint, hintColor, imeOption, inputType, line, singleLine, text, textColor, textFont, textSize,
         textType }
end TextConfig

/-- `struct AndroidView` — view.rs:255-311. -/
structure AndroidView [Floats] where
  adSize : Str
  adUnitId : Str
  alpha : Floats.F32
  checked : Bool
  choiceMode : ChoiceMode
  clickable : Bool
  customView : Str
  dividerHeight : UInt32
  enabled : Bool
  firstDayOfWeek : UInt8
  id : Str
  image : ImageConfig
  indeterminate : Bool
  index : UInt32
  layout : LayoutConfig
  max : UInt32
  parent : Option Str
  parentType : Int8
  preId : Option Str
  preIndex : Int32
  preParent : Option Str
  preParentType : Int8
  progress : UInt32
  progressStyle : Str
  scaleX : Floats.F32
  scaleY : Floats.F32
  spinnerMode : SpinnerMode
  text : TextConfig
  translationX : Floats.F32
  translationY : Floats.F32
  type : UInt8

namespace AndroidView
/-- JSON keys in declaration order — view.rs:255-311. -/
def fields : List Str := [s% "adSize", s% "adUnitId", s% "alpha", s% "checked", s% "choiceMode", s% "clickable",
  s% "customView", s% "dividerHeight", s% "enabled", s% "firstDayOfWeek", s% "id", s% "image",
  s% "indeterminate", s% "index", s% "layout", s% "max", s% "parent", s% "parentType", s% "preId",
  s% "preIndex", s% "preParent", s% "preParentType", s% "progress", s% "progressStyle", s% "scaleX",
  s% "scaleY", s% "spinnerMode", s% "text", s% "translationX", s% "translationY", s% "type"]

/-- derived `Serialize` — view.rs:255-311. -/
def members [Floats] (v : AndroidView) : Json.Obj :=
    [(s% "adSize", .str v.adSize), (s% "adUnitId", .str v.adUnitId), (s% "alpha", encF32 v.alpha),
    (s% "checked", encOneZero v.checked), (s% "choiceMode", v.choiceMode.enc),
    (s% "clickable", encOneZero v.clickable), (s% "customView", .str v.customView),
    (s% "dividerHeight", Json.encU32 v.dividerHeight), (s% "enabled", encOneZero v.enabled),
    (s% "firstDayOfWeek", Json.encU8 v.firstDayOfWeek), (s% "id", .str v.id),
    (s% "image", v.image.enc), (s% "indeterminate", encBoolStr v.indeterminate),
    (s% "index", Json.encU32 v.index), (s% "layout", v.layout.enc), (s% "max", Json.encU32 v.max)] ++ (
    Json.optKV (s% "parent") v.parent ++ (
    [(s% "parentType", Json.encI8 v.parentType)] ++ (
    Json.optKV (s% "preId") v.preId ++ (
    [(s% "preIndex", Json.encI32 v.preIndex)] ++ (
    Json.optKV (s% "preParent") v.preParent ++ (
    [(s% "preParentType", Json.encI8 v.preParentType), (s% "progress", Json.encU32 v.progress),
    (s% "progressStyle", .str v.progressStyle), (s% "scaleX", encF32 v.scaleX),
    (s% "scaleY", encF32 v.scaleY), (s% "spinnerMode", v.spinnerMode.enc), (s% "text", v.text.enc),
    (s% "translationX", encF32 v.translationX), (s% "translationY", encF32 v.translationY),
    (s% "type", Json.encU8 v.type)]))))))

/-- derived `Serialize` — view.rs:255-311. -/
def enc [Floats] (v : AndroidView) : Json := .obj v.members

/-- derived `Deserialize` — view.rs:255-311. -/
def dec [Floats] (j : Json) : Option AndroidView := do
  let o ← Json.asStruct fields j
  let adSize ← Json.req o (s% "adSize") Json.decStr
  let adUnitId ← Json.req o (s% "adUnitId") Json.decStr
  let alpha ← Json.req o (s% "alpha") decF32
  let checked ← Json.req o (s% "checked") decOneZero
  let choiceMode ← Json.req o (s% "choiceMode") ChoiceMode.dec
  let clickable ← Json.req o (s% "clickable") decOneZero
  let customView ← Json.req o (s% "customView") Json.decStr
  let dividerHeight ← Json.req o (s% "dividerHeight") Json.decU32
  let enabled ← Json.req o (s% "enabled") decOneZero
  let firstDayOfWeek ← Json.req o (s% "firstDayOfWeek") Json.decU8
  let id ← Json.req o (s% "id") Json.decStr
  let image ← Json.req o (s% "image") ImageConfig.dec
  let indeterminate ← Json.req o (s% "indeterminate") decBoolStr
  let index ← Json.req o (s% "index") Json.decU32
  let layout ← Json.req o (s% "layout") LayoutConfig.dec
  let max ← Json.req o (s% "max") Json.decU32
  let parent ← Json.opt o (s% "parent") Json.decStr
  let parentType ← Json.req o (s% "parentType") Json.decI8
  let preId ← Json.opt o (s% "preId") Json.decStr
  let preIndex ← Json.req o (s% "preIndex") Json.decI32
  let preParent ← Json.opt o (s% "preParent") Json.decStr
  let preParentType ← Json.req o (s% "preParentType") Json.decI8
  let progress ← Json.req o (s% "progress") Json.decU32
  let progressStyle ← Json.req o (s% "progressStyle") Json.decStr
  let scaleX ← Json.req o (s% "scaleX") decF32
  let scaleY ← Json.req o (s% "scaleY") decF32
  let spinnerMode ← Json.req o (s% "spinnerMode") SpinnerMode.dec
  let text ← Json.req o (s% "text") TextConfig.dec
  let translationX ← Json.req o (s% "translationX") decF32
  let translationY ← Json.req o (s% "translationY") decF32
  let type ← Json.req o (s% "type") Json.decU8
  pure { adSize, adUnitId, alpha, checked, choiceMode, clickable, customView, dividerHeight, enabled,
         firstDayOfWeek, id, image, indeterminate, index, layout, max, parent, parentType, preId,
         preIndex, preParent, preParentType, progress, progressStyle, scaleX, scaleY, spinnerMode,
         text, translationX, translationY, type }
end AndroidView

/-- `Default for ImageConfig` — view.rs:389-397. -/
def ImageConfig.default : ImageConfig where
  resName := none
  rotate := 0
  scaleType := .center

/-- `Default for LayoutConfig` — view.rs:444-465. -/
def LayoutConfig.default : LayoutConfig where
  backgroundColor := Color.ofU32 16777215
  gravity := ⟨0⟩
  height := .matchParent
  width := .wrapContent
  layoutGravity := ⟨0⟩
  marginBottom := 0
  marginLeft := 0
  marginRight := 0
  marginTop := 0
  orientation := .vertical
  paddingBottom := 8
  paddingLeft := 8
  paddingRight := 8
  paddingTop := 8
  weight := 0
  weightSum := 0

/-- `Default for TextConfig` — view.rs:561-577. -/
def TextConfig.default : TextConfig where
  hint := []
  hintColor := Color.ofU32 (-10453621 : Int32).toUInt32
  imeOption := .normal
  inputType := .text
  line := 0
  singleLine := false
  text := []
  textColor := Color.ofU32 (-16777216 : Int32).toUInt32
  textFont := s% "default_font"
  textSize := 12
  textType := .normal

namespace AndroidView
variable [Floats]

/-- `AndroidView::new_empty` — view.rs:314-348. -/
def newEmpty (id : Str) (type : UInt8) (parentId : Str) (parentType : Int8) : AndroidView where
  adSize := []
  adUnitId := []
  alpha := Floats.one
  checked := false
  choiceMode := .none
  clickable := true
  customView := []
  dividerHeight := 0
  enabled := true
  firstDayOfWeek := 1
  id := id
  image := ImageConfig.default
  indeterminate := false
  index := 0
  layout := LayoutConfig.default
  max := 100
  parent := some parentId
  parentType := parentType
  preId := some []
  preIndex := 0
  preParent := none
  preParentType := 0
  progress := 0
  progressStyle := []
  scaleX := Floats.one
  scaleY := Floats.one
  spinnerMode := .dropdown
  text := TextConfig.default
  translationX := Floats.zero
  translationY := Floats.zero
  type := type

/-- `AndroidView::parse` — view.rs:355-357. -/
def parse (s : Str) : Option AndroidView := Json.fromStr dec s
/-- `AndroidView::reconstruct` — view.rs:359-361. -/
def reconstruct (v : AndroidView) : Str := v.enc.print

end AndroidView

/-- `struct Layout(Vec<AndroidView>)` — view.rs:167-168. -/
structure Layout [Floats] where
  views : List AndroidView

/-- `struct LayoutParseError` — view.rs:199-208. -/
structure LayoutParseError [Floats] where
  viewBefore : Option AndroidView
  content : Str
  line : Nat

namespace Layout
variable [Floats]

/-- The loop of `Layout::parse_iter`: reads up to and including the first empty line (`take_while` on the borrowed
iterator consumes it) and returns the remaining lines — view.rs:174-196. `acc` holds the views read so far. -/
def parseLoop : List Str → List AndroidView → Nat → Out LayoutParseError (Layout × List Str)
  | [], acc, _ => .ok (⟨acc⟩, [])
  | line :: rest, acc, n =>
    if line = [] then .ok (⟨acc⟩, rest)
    else match AndroidView.parse line with
      | some v => parseLoop rest (acc ++ [v]) (n + 1)
      | none => .err { viewBefore := acc.getLast?, content := line, line := n }

/-- `Layout::parse_iter` — view.rs:174-196. -/
def parseIter (ls : List Str) : Out LayoutParseError (Layout × List Str) := parseLoop ls [] 0

/-- `Layout::parse` — view.rs:224-226. -/
def parse (s : Str) : Out LayoutParseError Layout := do
  let (l, _) ← parseIter (lines s)
  pure l

/-- The loop of `Layout::reconstruct` — view.rs:229-241. -/
def body (l : Layout) : Str := l.views.foldl (fun acc v => acc ++ (v.reconstruct ++ ['\n'])) []

/-- `Layout::reconstruct` — view.rs:228-244. -/
def reconstruct (l : Layout) : Str := trim l.body

end Layout

/-- `struct View` — view.rs:7-15. -/
structure View [Floats] where
  layouts : LMap Str Layout
  fabs : LMap Str AndroidView

/-- `enum ViewParseError` — view.rs:118-147. -/
inductive ViewParseError [Floats] where
  | invalidHeader (line : Nat) (content : Str)
  | layout (screenName containerName : Str) (source : LayoutParseError)
  | fab (screenName : Str) (line : Nat) (content : Str)
  | eofAfterFabHeader (screenName : Str) (line : Nat)

namespace View
variable [Floats] [MapPol]

/-- The loop of `View::parse` — view.rs:27-65. `n` is `lines.get_count()`, the number of calls to `next` made so
far (util.rs), also the one that returned `None`. `total` is the number of lines, from which the count after a layout is
recovered: a layout that ends at the end of the file has made one more call. `fuel` is the number of lines
plus one; every round consumes a line. -/
def loop (total : Nat) : Nat → List Str → Nat → LMap Str Layout → LMap Str AndroidView → Out ViewParseError View
  | 0, _, _, layouts, fabs => .ok ⟨layouts, fabs⟩
  | _ + 1, [], _, layouts, fabs => .ok ⟨layouts, fabs⟩
  | fuel + 1, line :: rest, n, layouts, fabs =>
    if startsWith ['@'] line then
      match splitOnce '.' (line.drop 1) with
      | none => .err (.invalidHeader (n + 1) line)
      | some (screen, container) =>
        if container = s% "xml" then
          match Layout.parseIter rest with
          | .ok (l, rest') => loop total fuel rest' (total - rest'.length) (layouts.insert screen l) fabs
          | .err e => .err (.layout screen container e)
          | .panic => .panic
        else if container = s% "xml_fab" then
          match rest with
          | [] => .err (.eofAfterFabHeader screen (n + 2))
          | l :: rest' =>
            match AndroidView.parse l with
            | some v => loop total fuel rest' (n + 2) layouts (fabs.insert screen v)
            | none => .err (.fab screen (n + 2) line)
        else loop total fuel rest (n + 1) layouts fabs
    else .ok ⟨layouts, fabs⟩

/-- `View::parse` — view.rs:21-68. -/
def parse (s : Str) : Out ViewParseError View :=
  loop (lines s).length ((lines s).length + 1) (lines s) 0 [] []

/-- The text of the layouts — view.rs:73-89. -/
def layoutsText (v : View) : Str :=
  v.layouts.foldl (fun acc e => acc ++ ('@' :: (e.1 ++ (s% ".xml\n" ++ (e.2.reconstruct ++ ['\n']))))) []

/-- The text of the FABs — view.rs:94-110. -/
def fabsText (v : View) : Str :=
  v.fabs.foldl (fun acc e => acc ++ ('@' :: (e.1 ++ (s% ".xml_fab\n" ++ (e.2.reconstruct ++ ['\n']))))) []

/-- `View::reconstruct` — view.rs:70-115. -/
def reconstruct (v : View) : Str := trimEnd (v.layoutsText ++ ('\n' :: v.fabsText))

end View
end Swrs
