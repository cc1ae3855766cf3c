import Verif.Model.ApiSpec
/-!
# Model of `/repo/src/api/block.rs`: the builder of block contents and the editing of arguments
-/
namespace Swrs.Api
variable [Floats] {B : Type}

/-- `Into<ArgumentBlockReturnType> for ListItem` — block.rs:450-457. -/
def ListItem.returnType : ListItem → ReturnType
  | .string => .string
  | .number => .number

/-- `struct BlockContentBuilder` — block.rs:1112-1114. -/
structure BlockContentBuilder [Floats] (B : Type) where
  content : List (SpecItem B)

namespace BlockContentBuilder
/-- `BlockContentBuilder::text` — block.rs:1118-1121; the argument is the text that `to_string` gives. -/
def text (b : BlockContentBuilder B) (s : Str) : BlockContentBuilder B := { content := b.content ++ [.text s] }

/-- `BlockContentBuilder::arg` — block.rs:1124-1127. -/
def arg (b : BlockContentBuilder B) (a : Argument B) : BlockContentBuilder B := { content := b.content ++ [.param a] }

/-- `BlockContentBuilder::build` — block.rs:1130-1132. -/
def build (b : BlockContentBuilder B) : BlockContent B := b.content
end BlockContentBuilder

namespace BlockContent
/-- `BlockContent::builder` — block.rs:966-968. -/
def builder : BlockContentBuilder B := { content := [] }

/-- `BlockContent::get_args_mut` — block.rs:913-925. The references are not modelled; the caller's writes through them are:
`edit k` is what the caller does to the `k`-th reference of the list (counted from `from`), and the result is the content
after these writes. -/
def editArgs (edit : Nat → Argument B → Argument B) (from_ : Nat) : BlockContent B → BlockContent B
  | [] => []
  | .text s :: is => .text s :: editArgs edit from_ is
  | .param a :: is => .param (edit from_ a) :: editArgs edit (from_ + 1) is
end BlockContent
end Swrs.Api
