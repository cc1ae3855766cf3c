import Verif.Json.Decode
/-!
# Model of `/repo/src/parser/file.rs`

`serde_json::to_string` cannot fail on these types, so `reconstruct` has no error case here.
-/
namespace Swrs

/-- `enum FileType` (u8) — file.rs:143-149. -/
inductive FileType where | activity | customView | drawer
deriving DecidableEq, Repr
/-- `enum KeyboardSetting` (u8) — file.rs:151-157. -/
inductive KeyboardSetting where | unspecified | visible | hidden
deriving DecidableEq, Repr
/-- `enum Orientation` (u8) — file.rs:159-165. -/
inductive Orientation where | portrait | landscape | both
deriving DecidableEq, Repr
/-- `enum Theme` (i8) — file.rs:167-174. -/
inductive Theme where | none | default | actionbar | fullscreen
deriving DecidableEq, Repr

/-- Discriminants — file.rs:146-148. -/
def FileType.num : FileType → Int | activity => 0 | customView => 1 | drawer => 2
/-- Discriminants — file.rs:154-156. -/
def KeyboardSetting.num : KeyboardSetting → Int | unspecified => 0 | visible => 1 | hidden => 2
/-- Discriminants — file.rs:162-164. -/
def Orientation.num : Orientation → Int | portrait => 0 | landscape => 1 | both => 2
/-- Discriminants — file.rs:170-173. -/
def Theme.num : Theme → Int | none => -1 | default => 0 | actionbar => 1 | fullscreen => 2

/-- `serde_repr` decoding of an enum with discriminants in `lo..hi`: the integer must be in the range of the
representation and be one of the discriminants.
Derived in parser/file.rs:143-173 and parser/view.rs:364-380, 500, 582-614. -/
def decRepr {α : Type} (lo hi : Int) (all : List α) (num : α → Int) (j : Json) : Option α :=
  (Json.decInt lo hi j).bind fun n => all.find? fun a => num a == n

/-- All variants — file.rs:146-148. -/
def FileType.all : List FileType := [.activity, .customView, .drawer]
/-- All variants — file.rs:154-156. -/
def KeyboardSetting.all : List KeyboardSetting := [.unspecified, .visible, .hidden]
/-- All variants — file.rs:162-164. -/
def Orientation.all : List Orientation := [.portrait, .landscape, .both]
/-- All variants — file.rs:170-173. -/
def Theme.all : List Theme := [.none, .default, .actionbar, .fullscreen]

/-- `struct ActivityOptions` — file.rs:176-182. -/
structure ActivityOptions where
  toolbar : Bool
  fullscreen : Bool
  drawer : Bool
  fab : Bool
deriving DecidableEq, Repr

namespace ActivityOptions
/-- `enum ActivityOptionMask` — file.rs:206-212. -/
def maskToolbar : UInt8 := (1 : UInt8) <<< 0
/-- file.rs:209. -/
def maskFullscreen : UInt8 := (1 : UInt8) <<< 1
/-- file.rs:210. -/
def maskDrawer : UInt8 := (1 : UInt8) <<< 2
/-- file.rs:211. -/
def maskFab : UInt8 := (1 : UInt8) <<< 3

/-- `ActivityOptions::from_num` — file.rs:185-192. -/
def fromNum (n : UInt8) : ActivityOptions where
  toolbar := n &&& maskToolbar == maskToolbar
  fullscreen := n &&& maskFullscreen == maskFullscreen
  drawer := n &&& maskDrawer == maskDrawer
  fab := n &&& maskFab == maskFab

/-- `ActivityOptions::as_num` — file.rs:194-203. -/
def asNum (o : ActivityOptions) : UInt8 :=
  let result : UInt8 := 0
  let result := if o.toolbar then result ||| maskToolbar else result
  let result := if o.fullscreen then result ||| maskFullscreen else result
  let result := if o.drawer then result ||| maskDrawer else result
  let result := if o.fab then result ||| maskFab else result
  result
end ActivityOptions

/-- `struct FileItem` — file.rs:113-128. -/
structure FileItem where
  filename : Str
  fileType : FileType
  keyboardSetting : KeyboardSetting
  options : ActivityOptions
  orientation : Orientation
  theme : Theme
deriving DecidableEq, Repr

namespace FileItem
/-- JSON keys in declaration order — file.rs:115-127. -/
def fields : List Str := [s% "fileName", s% "fileType", s% "keyboardSetting", s% "options",
  s% "orientation", s% "theme"]

/-- derived `Serialize` — file.rs:113-128, 214-220. -/
def enc (i : FileItem) : Json :=
  .obj [(s% "fileName", .str i.filename), (s% "fileType", Json.encInt i.fileType.num),
    (s% "keyboardSetting", Json.encInt i.keyboardSetting.num),
    (s% "options", Json.encU8 i.options.asNum),
    (s% "orientation", Json.encInt i.orientation.num), (s% "theme", Json.encInt i.theme.num)]

/-- derived `Deserialize` — file.rs:113-128, 222-224. -/
def dec (j : Json) : Option FileItem := do
  let o ← Json.asStruct fields j
  let filename ← Json.req o (s% "fileName") Json.decStr
  let fileType ← Json.req o (s% "fileType") (decRepr 0 255 FileType.all FileType.num)
  let keyboardSetting ← Json.req o (s% "keyboardSetting")
    (decRepr 0 255 KeyboardSetting.all KeyboardSetting.num)
  let options ← Json.req o (s% "options") fun j => (Json.decU8 j).map ActivityOptions.fromNum
  let orientation ← Json.req o (s% "orientation") (decRepr 0 255 Orientation.all Orientation.num)
  let theme ← Json.req o (s% "theme") (decRepr (-128) 127 Theme.all Theme.num)
  pure { filename, fileType, keyboardSetting, options, orientation, theme }

/-- `FileItem::parse` — file.rs:134-136. -/
def parse (s : Str) : Option FileItem := Json.fromStr dec s
/-- `FileItem::reconstruct` — file.rs:138-140. -/
def reconstruct (i : FileItem) : Str := i.enc.print
end FileItem

/-- `struct File` — file.rs:6-10. -/
structure File where
  activities : List FileItem
  customViews : List FileItem
deriving DecidableEq, Repr

/-- `enum FileSection` — file.rs:19-24. -/
inductive FileSection where | activity | customView | none
deriving DecidableEq, Repr

/-- `enum FileParseError` — file.rs:94-102. -/
inductive FileParseError where
  | item (line : Nat) (content : Str)
deriving DecidableEq, Repr

namespace File

/-- Pushing an item to the current section — file.rs:51-57. -/
def push (f : File) (sec : FileSection) (i : FileItem) : File :=
  match sec with
  | .activity => { f with activities := f.activities ++ [i] }
  | .customView => { f with customViews := f.customViews ++ [i] }
  | .none => f

/-- The loop of `File::parse` over the remaining lines — file.rs:30-61. -/
def loop : List Str → FileSection → File → Nat → Out FileParseError File
  | [], _, f, _ => .ok f
  | line :: rest, sec, f, n =>
    if line = s% "@activity" then loop rest .activity f (n + 1)
    else if line = s% "@customview" then loop rest .customView f (n + 1)
    else if sec ≠ .none then
      if line = [] then .ok f
      else match FileItem.parse line with
        | none => .err (.item n line)
        | some i => loop rest sec (f.push sec i) (n + 1)
    else loop rest sec f (n + 1)

/-- `File::parse` — file.rs:16-64. -/
def parse (s : Str) : Out FileParseError File :=
  loop (lines s) .none { activities := [], customViews := [] } 0

/-- `try_fold(String::new(), |acc, i| format!("{}\n{}", acc, i.reconstruct()))` — file.rs:69-77. -/
def section_ (items : List FileItem) : Str :=
  items.foldl (fun acc i => acc ++ ('\n' :: i.reconstruct)) []

/-- `File::reconstruct` — file.rs:66-91. -/
def reconstruct (f : File) : Str :=
  s% "@activity\n" ++ trim (section_ f.activities) ++ s% "\n@customview\n" ++
    trim (section_ f.customViews)

end File
end Swrs
