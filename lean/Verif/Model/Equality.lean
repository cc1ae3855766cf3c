import Verif.Model.Sketch
import Verif.Model.ApiProject
/-!
# The derived `PartialEq` of the projects

Where no floating point value occurs `==` is equality. `f32` values occur in parser/view.rs:260, 304-309 and `f64` values in
api/block.rs:1084. The definitions here say when `==` returns `true`.
-/
namespace Swrs

/-- `==` of `f32` and `f64`. Derived comparisons of parser/view.rs:255 and api/block.rs:1099. -/
class FloatEq [Floats] where
  /-- `==` of `f32`. -/
  eq32 : Floats.F32 → Floats.F32 → Bool
  /-- `==` of `f64`. -/
  eq64 : Floats.F64 → Floats.F64 → Bool

/-- `==` of slices: the same length and equal elements in order. `Vec`s of parser/view.rs:168, api/view.rs:63,
api/block.rs:13, 597, api/screen.rs:23, 40 and api/mod.rs:98, 242-243. -/
def ListEq {α : Type} (r : α → α → Prop) : List α → List α → Prop
  | [], [] => True
  | x :: xs, y :: ys => r x y ∧ ListEq r xs ys
  | _, _ => False

/-- `==` of options. `Option`s of api/screen.rs:43 and api/block.rs:347, 350. -/
def OptEq {α : Type} (r : α → α → Prop) : Option α → Option α → Prop
  | none, none => True
  | some x, some y => r x y
  | _, _ => False

/-- `==` of an entry of a linked map. `LinkedHashMap`s of parser/view.rs:11, 14 and api/screen.rs:34; the comparison of
`ritelinked` goes through both maps in order. -/
def EntryEq {κ α : Type} (r : α → α → Prop) (x y : κ × α) : Prop := x.1 = y.1 ∧ r x.2 y.2

section
variable [Floats] [FloatEq]

/-- `==` of `AndroidView`: all fields are compared, the five `f32` fields as floats — derived, view.rs:255-311. -/
def AndroidView.RustEq (a b : AndroidView) : Prop :=
  { a with alpha := b.alpha, scaleX := b.scaleX, scaleY := b.scaleY, translationX := b.translationX
           translationY := b.translationY } = b ∧
  FloatEq.eq32 a.alpha b.alpha = true ∧ FloatEq.eq32 a.scaleX b.scaleX = true ∧ FloatEq.eq32 a.scaleY b.scaleY = true ∧
  FloatEq.eq32 a.translationX b.translationX = true ∧ FloatEq.eq32 a.translationY b.translationY = true

/-- `==` of `Layout` — derived, parser/view.rs:167-168. -/
def Layout.RustEq (a b : Layout) : Prop := ListEq AndroidView.RustEq a.views b.views

/-- `==` of `View` — derived, parser/view.rs:7-15. -/
def View.RustEq (a b : View) : Prop :=
  ListEq (EntryEq Layout.RustEq) a.layouts b.layouts ∧ ListEq (EntryEq AndroidView.RustEq) a.fabs b.fabs

/-- `==` of `ResourceFiles` — derived, parser/mod.rs:356-362. -/
def ResourceFiles.RustEq (a b : ResourceFiles) : Prop :=
  a.customIcon = b.customIcon ∧ HMap.Same a.images b.images ∧ HMap.Same a.sounds b.sounds ∧ HMap.Same a.fonts b.fonts

/-- `==` of the parsed project — derived, parser/mod.rs:137-151. -/
def SketchwareProject.RustEq (a b : SketchwareProject) : Prop :=
  a.project = b.project ∧ a.file = b.file ∧ a.library = b.library ∧ a.resource = b.resource ∧ a.view.RustEq b.view ∧
  a.logic = b.logic ∧ OptEq ResourceFiles.RustEq a.resourceFiles b.resourceFiles

namespace Api

mutual
/-- `==` of `View` — derived, api/view.rs:13-64. -/
def View.RustEq : View → View → Prop
  | ⟨i, bg, h, w, p, m, we, ws, g, v, r, c⟩, ⟨i', bg', h', w', p', m', we', ws', g', v', r', c'⟩ =>
    i = i' ∧ bg = bg' ∧ h = h' ∧ w = w' ∧ p = p' ∧ m = m' ∧ we = we' ∧ ws = ws' ∧ g = g' ∧ v = v' ∧ r.RustEq r' ∧
    viewsEq c c'
/-- `==` of the children — derived, api/view.rs:63. -/
def viewsEq : List View → List View → Prop
  | [], [] => True
  | x :: xs, y :: ys => x.RustEq y ∧ viewsEq xs ys
  | _, _ => False
end

mutual
/-- `==` of `Block` — derived, api/block.rs:344-363. -/
def Block.RustEq : Block → Block → Prop
  | ⟨s, t, c, o, is, ty⟩, ⟨s', t', c', o', is', ty'⟩ =>
    stackEq s s' ∧ stackEq t t' ∧ c = c' ∧ o = o' ∧ contentEq is is' ∧ ty = ty'
/-- `==` of a nested stack — derived, api/block.rs:347, 350. -/
def stackEq : Option (List Block) → Option (List Block) → Prop
  | none, none => True
  | some xs, some ys => blocksEq xs ys
  | _, _ => False
/-- `==` of `Blocks` — derived, api/block.rs:12-13. -/
def blocksEq : List Block → List Block → Prop
  | [], [] => True
  | x :: xs, y :: ys => x.RustEq y ∧ blocksEq xs ys
  | _, _ => False
/-- `==` of `BlockContent` — derived, api/block.rs:595-598. -/
def contentEq : List (SpecItem Block) → List (SpecItem Block) → Prop
  | [], [] => True
  | x :: xs, y :: ys => itemEq x y ∧ contentEq xs ys
  | _, _ => False
/-- `==` of `SpecItem` — derived, api/block.rs:1037-1041. -/
def itemEq : SpecItem Block → SpecItem Block → Prop
  | .text s, .text t => s = t
  | .param a, .param b => argEq a b
  | _, _ => False
/-- `==` of `Argument` — derived, api/block.rs:1074-1097. -/
def argEq : Argument Block → Argument Block → Prop
  | .string n v, .string m w => n = m ∧ stringEq v w
  | .number n v, .number m w => n = m ∧ numberEq v w
  | .boolean n v, .boolean m w => n = m ∧ booleanEq v w
  | .menu n v, .menu m w => n = m ∧ stringEq v w
  | _, _ => False
/-- `==` of `ArgValue<String>` — derived, api/block.rs:1099-1109. -/
def stringEq : ArgValue Block Str → ArgValue Block Str → Prop
  | .value x, .value y => x = y
  | .block b, .block c => b.RustEq c
  | .placeholder i, .placeholder j => i = j
  | .empty, .empty => True
  | _, _ => False
/-- `==` of `ArgValue<f64>` — derived, api/block.rs:1099-1109. -/
def numberEq : ArgValue Block Floats.F64 → ArgValue Block Floats.F64 → Prop
  | .value x, .value y => FloatEq.eq64 x y = true
  | .block b, .block c => b.RustEq c
  | .placeholder i, .placeholder j => i = j
  | .empty, .empty => True
  | _, _ => False
/-- `==` of `ArgValue<bool>` — derived, api/block.rs:1099-1109. -/
def booleanEq : ArgValue Block Bool → ArgValue Block Bool → Prop
  | .value x, .value y => x = y
  | .block b, .block c => b.RustEq c
  | .placeholder i, .placeholder j => i = j
  | .empty, .empty => True
  | _, _ => False
end

/-- `==` of `MoreBlock` — derived, api/screen.rs:56-61. -/
def MoreBlock.RustEq (a b : MoreBlock) : Prop :=
  a.name = b.name ∧ contentEq a.spec b.spec ∧ blocksEq a.code b.code

/-- `==` of `Event` — derived, api/screen.rs:74-79. -/
def Event.RustEq (a b : Event) : Prop :=
  a.name = b.name ∧ a.eventType = b.eventType ∧ blocksEq a.code b.code

/-- `==` of `Screen` — derived, api/screen.rs:14-53. -/
def Screen.RustEq (a b : Screen) : Prop :=
  a.layoutName = b.layoutName ∧ a.javaName = b.javaName ∧ viewsEq a.layout b.layout ∧ a.variables = b.variables ∧
  a.listVariables = b.listVariables ∧ ListEq (EntryEq MoreBlock.RustEq) a.moreBlocks b.moreBlocks ∧
  a.components = b.components ∧ ListEq Event.RustEq a.events b.events ∧ OptEq View.RustEq a.fab b.fab ∧
  a.fullscreenEnabled = b.fullscreenEnabled ∧ a.toolbarEnabled = b.toolbarEnabled ∧ a.drawerEnabled = b.drawerEnabled ∧
  a.fabEnabled = b.fabEnabled ∧ a.orientation = b.orientation ∧ a.theme = b.theme ∧ a.keyboardSetting = b.keyboardSetting

/-- `==` of `CustomView` — derived, api/mod.rs:95-99. -/
def CustomView.RustEq (a b : CustomView) : Prop := a.resName = b.resName ∧ viewsEq a.layout b.layout

/-- `==` of the project — derived, api/mod.rs:237-248. -/
def SketchwareProject.RustEq (a b : SketchwareProject) : Prop :=
  a.customIcon = b.customIcon ∧ a.metadata = b.metadata ∧ a.colors = b.colors ∧ ListEq Screen.RustEq a.screens b.screens ∧
  ListEq CustomView.RustEq a.customViews b.customViews ∧ a.libraries = b.libraries ∧ a.resources = b.resources ∧
  a.automaticResFileIds = b.automaticResFileIds

end Api
end
end Swrs
