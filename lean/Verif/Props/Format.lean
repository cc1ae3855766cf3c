import Verif.Proofs.Format
import Verif.Base.FloatInst
/-!
# C62: the text of records

The round trips (C12, C15, C21) do not fix the format: writer and reader could agree on any keys and numbers. Here the keys, their
order, and the numbers and words for the values are spelled out, as Sketchware has them. `record`, `string`, `number`, `array`,
`flag`, `color` and `ifSome` are specified in `Verif.Proofs.Format`.
-/
namespace Swrs
open Format

/-! ## C62 — Text of records -/

/-- The numbers of the kinds of files. -/
def Format.fileType : FileType → Int | .activity => 0 | .customView => 1 | .drawer => 2
/-- The numbers of the keyboard settings. -/
def Format.keyboard : KeyboardSetting → Int | .unspecified => 0 | .visible => 1 | .hidden => 2
/-- The numbers of the orientations of a screen. -/
def Format.orientation : Orientation → Int | .portrait => 0 | .landscape => 1 | .both => 2
/-- The numbers of the themes. -/
def Format.theme : Theme → Int | .none => -1 | .default => 0 | .actionbar => 1 | .fullscreen => 2
/-- The options of an activity, as the sum of the numbers of those that are on. -/
def Format.options (o : ActivityOptions) : Int :=
  (if o.toolbar then 1 else 0) + (if o.fullscreen then 2 else 0) + (if o.drawer then 4 else 0) + (if o.fab then 8 else 0)

/-- C62: a resource. -/
theorem c62_resource (i : ResourceItem) : i.reconstruct = record [
    ("resFullName", string i.fullName), ("resName", string i.name), ("resType", number i.type.toNat)] :=
  print_record (by simp only [List.map, print_str, print_encU8]; rfl)

/-- C62: an activity or a custom view. -/
theorem c62_file (i : FileItem) : i.reconstruct = record [
    ("fileName", string i.filename), ("fileType", number (Format.fileType i.fileType)),
    ("keyboardSetting", number (Format.keyboard i.keyboardSetting)), ("options", number (Format.options i.options)),
    ("orientation", number (Format.orientation i.orientation)), ("theme", number (Format.theme i.theme))] := by
  obtain ⟨f, t, k, ⟨a, b, c, d⟩, o, th⟩ := i
  have h1 : t.num = Format.fileType t := by cases t <;> rfl
  have h2 : k.num = Format.keyboard k := by cases k <;> rfl
  have h3 : o.num = Format.orientation o := by cases o <;> rfl
  have h4 : th.num = Format.theme th := by cases th <;> rfl
  have h5 : ((ActivityOptions.asNum ⟨a, b, c, d⟩).toNat : Int) = Format.options ⟨a, b, c, d⟩ := by
    cases a <;> cases b <;> cases c <;> cases d <;> decide
  refine print_record ?_
  simp only [List.map, print_str, print_encU8, print_encInt, h1, h2, h3, h4, h5]
  rfl

/-- C62: a library. -/
theorem c62_library (i : LibraryItem) : i.reconstruct = record [
    ("adUnits", array (i.adUnits.map fun u => record [("id", string u.id), ("name", string u.name)])),
    ("data", string i.data), ("libType", number i.libType.toNat), ("reserved1", string i.reserved1),
    ("reserved2", string i.reserved2), ("reserved3", string i.reserved3), ("testDevices", array (i.testDevices.map string)),
    ("useYn", string i.useYn)] := by
  have h : ∀ u : AdUnit, u.enc.print = record [("id", string u.id), ("name", string u.name)] := fun u =>
    print_record (by simp only [List.map, print_str]; rfl)
  refine print_record ?_
  simp only [List.map, print_str, print_encU8, print_arr, List.map_map, Function.comp_def, h]
  rfl

/-- C62: a component. -/
theorem c62_component (c : Component) : c.reconstruct = record [
    ("componentId", string c.id), ("param1", string c.param1), ("param2", string c.param2), ("param3", string c.param3),
    ("type", number c.type.toNat)] :=
  print_record (by simp only [List.map, print_str, print_encU8]; rfl)

/-- C62: an event. -/
theorem c62_event (e : Event) : e.reconstruct = record [
    ("eventName", string e.eventName), ("eventType", number e.eventType.toNat), ("targetId", string e.targetId),
    ("targetType", number e.targetType.toNat)] :=
  print_record (by simp only [List.map, print_str, print_encU8]; rfl)

/-- C62: a block. -/
theorem c62_block (b : Block) : b.reconstruct = record [
    ("color", color b.color), ("id", string b.id), ("nextBlock", number b.nextBlock.toInt), ("opCode", string b.opCode),
    ("parameters", array (b.parameters.map string)), ("spec", string b.spec), ("subStack1", number b.subStack1.toInt),
    ("subStack2", number b.subStack2.toInt), ("type", string b.type), ("typeName", string b.typeName)] := by
  refine print_record ?_
  simp only [List.map, print_str, print_encI32, print_color, print_arr, List.map_map, Function.comp_def]
  rfl

/-- C62: a project, created at the time `t`. The numbers of the date follow each other without padding. -/
theorem c62_project (p : Project) {t : Date.DateTime} (ht : Date.fromTimestamp p.dateCreated.toInt64.toInt = some t) :
    p.reconstruct = .ok (record [
      ("sc_id", string (number p.id.toNat)), ("my_app_name", string p.appName), ("my_ws_name", string p.workspaceName),
      ("my_sc_pkg_name", string p.packageName), ("sc_ver_code", string (number p.versionCode.toNat)),
      ("sc_ver_name", string p.versionName),
      ("my_sc_reg_dt", string (number t.year ++ number t.month ++ number t.day ++ number t.hour ++ number t.minute ++
        number t.second)),
      ("custom_icon", if p.customIcon then "true".toList else "false".toList),
      ("color_primary", color p.colorPalette.colorPrimary), ("color_primary_dark", color p.colorPalette.colorPrimaryDark),
      ("color_accent", color p.colorPalette.colorAccent), ("color_control_normal", color p.colorPalette.colorControlNormal),
      ("color_control_highlight", color p.colorPalette.colorControlHighlight),
      ("sketchware_ver", number p.sketchwareVersion.toNat)]) := by
  have hd : Date.serialize p.dateCreated =
      some (number t.year ++ number t.month ++ number t.day ++ number t.hour ++ number t.minute ++ number t.second) := by
    have hn : ∀ n : Nat, natStr 10 n = number n := fun n => intStr_eq (.ofNat n)
    unfold Date.serialize
    rw [ht]
    show some (Date.text t) = _
    unfold Date.text
    simp only [intStr_eq, hn]
  unfold Project.reconstruct
  rw [hd]
  show Out.ok (p.enc _).print = _
  congr 1
  unfold Project.enc
  refine print_record ?_
  have hb : (Json.bool p.customIcon).print = if p.customIcon then "true".toList else "false".toList := by
    cases p.customIcon <;> rfl
  simp only [List.cons_append, List.nil_append, List.map, ProjectColorPalette.members, print_str, print_u16, print_encU8,
    print_color, hb]
  rfl

/-! ### Views -/

namespace Format
/-- The numbers of the choice modes. -/
def choiceMode : ChoiceMode → Int | .none => 0 | .single => 1 | .multi => 2
/-- The numbers of the spinner modes. -/
def spinnerMode : SpinnerMode → Int | .dialog => 0 | .dropdown => 1
/-- The numbers of the orientations of a layout. -/
def layoutOrientation : LayoutOrientation → Int | .vertical => 1 | .unspecified => 0 | .horizontal => -1
/-- The numbers of the input method options. -/
def imeOption : ImeOption → Int
  | .normal => 0 | .none => 1 | .go => 2 | .search => 3 | .send => 4 | .next => 5 | .done => 6
/-- The numbers of the input types, as Android has them. -/
def inputType : InputType → Int
  | .numberDecimal => 8194 | .numberSigned => 4098 | .numberSignedDecimal => 12290 | .password => 129 | .phone => 3 | .text => 1
/-- The numbers of the text styles. -/
def textType : TextType → Int | .normal => 0 | .bold => 1 | .italic => 2 | .boldItalic => 3
/-- The words for the scalings of an image. -/
def scaleType : ImageScaleType → String
  | .center => "CENTER" | .fitXy => "FIT_XY" | .fitStart => "FIT_START" | .fitCenter => "FIT_CENTER" | .fitEnd => "FIT_END"
  | .centerCrop => "CENTER_CROP" | .centerInside => "CENTER_INSIDE"
/-- The numbers of the sizes: a fixed one stands for itself. -/
def size : Size → Int | .matchParent => -2 | .wrapContent => -1 | .fixed n => n.toInt
/-- A float: the text `serde_json` has for it, and `null` if it is not finite. -/
def float [Floats] (x : Floats.F32) : Str := if Floats.finite x then Floats.print x else "null".toList

/-- The image of a view. -/
def image (c : ImageConfig) : Str := record (ifSome "resName" c.resName ++ [
  ("rotate", number c.rotate.toInt), ("scaleType", string (scaleType c.scaleType).toList)])

/-- The layout of a view. -/
def layout (c : LayoutConfig) : Str := record [
  ("backgroundColor", color c.backgroundColor), ("gravity", number c.gravity.value.toNat), ("height", number (size c.height)),
  ("layoutGravity", number c.layoutGravity.value.toNat), ("marginBottom", number c.marginBottom.toNat),
  ("marginLeft", number c.marginLeft.toNat), ("marginRight", number c.marginRight.toNat), ("marginTop", number c.marginTop.toNat),
  ("orientation", number (layoutOrientation c.orientation)), ("paddingBottom", number c.paddingBottom.toNat),
  ("paddingLeft", number c.paddingLeft.toNat), ("paddingRight", number c.paddingRight.toNat),
  ("paddingTop", number c.paddingTop.toNat), ("weight", number c.weight.toNat), ("weightSum", number c.weightSum.toNat),
  ("width", number (size c.width))]

/-- The text of a view. -/
def text (c : TextConfig) : Str := record [
  ("hint", string c.hint), ("hintColor", color c.hintColor), ("imeOption", number (imeOption c.imeOption)),
  ("inputType", number (inputType c.inputType)), ("line", number c.line.toNat), ("singleLine", flag c.singleLine),
  ("text", string c.text), ("textColor", color c.textColor), ("textFont", string c.textFont),
  ("textSize", number c.textSize.toNat), ("textType", number (textType c.textType))]

theorem print_image (c : ImageConfig) : c.enc.print = image c := by
  obtain ⟨r, rot, s⟩ := c
  have h : s.enc.print = string (scaleType s).toList := by
    unfold ImageScaleType.enc
    rw [print_str]
    cases s <;> rfl
  refine print_record ?_
  cases r <;>
  · simp only [ImageConfig.members, Json.optKV, ifSome, List.cons_append, List.nil_append, List.map, print_str, print_encI16, h]
    rfl

theorem print_size (s : Size) : s.enc.print = number (size s) := by
  unfold Size.enc
  rw [print_encI32]
  cases s <;> rfl

theorem print_gravity (g : Gravity) : g.enc.print = number g.value.toNat := print_encU8 _

theorem print_layout (c : LayoutConfig) : c.enc.print = layout c := by
  have h : c.orientation.enc.print = number (layoutOrientation c.orientation) := by
    rw [show c.orientation.enc = Json.encInt (layoutOrientation c.orientation) by cases c.orientation <;> rfl, print_encInt]
  refine print_record ?_
  simp only [LayoutConfig.members, List.map, print_encU32, print_color, print_size, print_gravity, h]
  rfl

theorem print_text (c : TextConfig) : c.enc.print = text c := by
  have h1 : c.imeOption.enc.print = number (imeOption c.imeOption) := by
    rw [show c.imeOption.enc = Json.encInt (imeOption c.imeOption) by cases c.imeOption <;> rfl, print_encInt]
  have h2 : c.inputType.enc.print = number (inputType c.inputType) := by
    rw [show c.inputType.enc = Json.encInt (inputType c.inputType) by cases c.inputType <;> rfl, print_encInt]
  have h3 : c.textType.enc.print = number (textType c.textType) := by
    rw [show c.textType.enc = Json.encInt (textType c.textType) by cases c.textType <;> rfl, print_encInt]
  refine print_record ?_
  simp only [TextConfig.members, List.map, print_str, print_encU32, print_color, print_flag, h1, h2, h3]
  rfl
end Format

/-- C62: a view. -/
theorem c62_view [Floats] (v : AndroidView) : v.reconstruct = record ([
    ("adSize", string v.adSize), ("adUnitId", string v.adUnitId), ("alpha", float v.alpha), ("checked", flag v.checked),
    ("choiceMode", number (choiceMode v.choiceMode)), ("clickable", flag v.clickable), ("customView", string v.customView),
    ("dividerHeight", number v.dividerHeight.toNat), ("enabled", flag v.enabled),
    ("firstDayOfWeek", number v.firstDayOfWeek.toNat), ("id", string v.id), ("image", image v.image),
    ("indeterminate", string (if v.indeterminate then "true".toList else "false".toList)), ("index", number v.index.toNat),
    ("layout", layout v.layout), ("max", number v.max.toNat)] ++ ifSome "parent" v.parent ++ [
    ("parentType", number v.parentType.toInt)] ++ ifSome "preId" v.preId ++ [("preIndex", number v.preIndex.toInt)] ++
    ifSome "preParent" v.preParent ++ [
    ("preParentType", number v.preParentType.toInt), ("progress", number v.progress.toNat),
    ("progressStyle", string v.progressStyle), ("scaleX", float v.scaleX), ("scaleY", float v.scaleY),
    ("spinnerMode", number (spinnerMode v.spinnerMode)), ("text", text v.text), ("translationX", float v.translationX),
    ("translationY", float v.translationY), ("type", number v.type.toNat)]) := by
  have hf : ∀ x : Floats.F32, (encF32 x).print = float x := by
    intro x
    unfold encF32 float
    split <;> rfl
  have h1 : v.choiceMode.enc.print = number (choiceMode v.choiceMode) := by
    rw [show v.choiceMode.enc = Json.encInt (choiceMode v.choiceMode) by cases v.choiceMode <;> rfl, print_encInt]
  have h2 : v.spinnerMode.enc.print = number (spinnerMode v.spinnerMode) := by
    rw [show v.spinnerMode.enc = Json.encInt (spinnerMode v.spinnerMode) by cases v.spinnerMode <;> rfl, print_encInt]
  have h3 : (encBoolStr v.indeterminate).print = string (if v.indeterminate then "true".toList else "false".toList) := by
    unfold encBoolStr
    rw [print_str]
    cases v.indeterminate <;> rfl
  have ho : ∀ (k : String) (o : Option Str), (Json.optKV k.toList o).map (fun m => (m.1, m.2.print)) =
      (ifSome k o).map fun t => (t.1.toList, t.2) := by
    intro k o
    cases o with
    | none => rfl
    | some s => simp [Json.optKV, ifSome, print_str]
  have o1 := ho "parent" v.parent
  have o2 := ho "preId" v.preId
  have o3 := ho "preParent" v.preParent
  refine print_record ?_
  unfold AndroidView.members
  simp only [List.append_assoc, List.map_append]
  rw [show (s% "parent") = "parent".toList from rfl, show (s% "preId") = "preId".toList from rfl,
    show (s% "preParent") = "preParent".toList from rfl, o1, o2, o3]
  simp only [List.map, print_str, print_encU32, print_encU8, print_encI8, print_encI32, print_flag, print_image, print_layout,
    print_text, hf, h1, h2, h3]
  rfl

-- a component as Sketchware writes it
example : Component.reconstruct ⟨s% "net", [], [], [], 17⟩ =
    s% "{\"componentId\":\"net\",\"param1\":\"\",\"param2\":\"\",\"param3\":\"\",\"type\":17}" := by decide +kernel

-- a project whose time of creation is a date
example : Date.fromTimestamp (1640000000 : UInt64).toInt64.toInt = some ⟨2021, 12, 20, 11, 33, 20⟩ := by decide +kernel

-- characters of all kinds
example : string (s% "a\"\\\n\x01é") = s% "\"a\\\"\\\\\\n\\u0001é\"" := by decide +kernel

end Swrs
