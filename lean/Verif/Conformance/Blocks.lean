import Verif.Model.ApiBlock
import Verif.Float.Instance
/-!
# The test of the repository for blocks, run on the model
-/
set_option maxRecDepth 100000
namespace Swrs.Conformance.Blocks
open Api

local instance : MapPol := ⟨true, true⟩
local instance : Floats := ieeeFloats.toFloats

mutual
/-- `print_blocks` — tests/api_block.rs:67-85: every block of a stack has a category. -/
def categories : List Api.Block → Bool
  | [] => true
  | b :: bs => category b && categories bs
/-- One block and its substacks. -/
def category : Api.Block → Bool
  | ⟨s1, s2, color, _, _, _⟩ => (BlockCategory.ofColor color).toOption.isSome && stack s1 && stack s2
/-- A substack. -/
def stack : Option (List Api.Block) → Bool
  | none => true
  | some bs => categories bs
end

/-! `test1` — tests/api_block.rs:6: the blocks are converted, each has a category, and converting back does not panic; there are as many
blocks as before. -/
example : ((BlockContainer.parse (s% "{\"color\":-1988310,\"id\":\"14\",\"nextBlock\":25,\"opCode\":\"ifElse\",\"parameters\":[\"@19\"],\"spec\":\"if %b then\",\"subStack1\":40,\"subStack2\":43,\"type\":\"e\",\"typeName\":\"\"}\n{\"color\":-10701022,\"id\":\"19\",\"nextBlock\":-1,\"opCode\":\"\\u003e\",\"parameters\":[\"@20\",\"0\"],\"spec\":\"%d \\u003e %d\",\"subStack1\":-1,\"subStack2\":-1,\"type\":\"b\",\"typeName\":\"\"}\n{\"color\":-3384542,\"id\":\"20\",\"nextBlock\":-1,\"opCode\":\"lengthList\",\"parameters\":[\"webviews\"],\"spec\":\"length of %m.list\",\"subStack1\":-1,\"subStack2\":-1,\"type\":\"d\",\"typeName\":\"\"}\n{\"color\":-11899692,\"id\":\"40\",\"nextBlock\":41,\"opCode\":\"setVisible\",\"parameters\":[\"linear_notab\",\"GONE\"],\"spec\":\"%m.view setVisible %m.visible\",\"subStack1\":-1,\"subStack2\":-1,\"type\":\" \",\"typeName\":\"\"}\n{\"color\":-11899692,\"id\":\"41\",\"nextBlock\":-1,\"opCode\":\"setVisible\",\"parameters\":[\"listview1\",\"VISIBLE\"],\"spec\":\"%m.view setVisible %m.visible\",\"subStack1\":-1,\"subStack2\":-1,\"type\":\" \",\"typeName\":\"\"}\n{\"color\":-11899692,\"id\":\"43\",\"nextBlock\":42,\"opCode\":\"setVisible\",\"parameters\":[\"listview1\",\"GONE\"],\"spec\":\"%m.view setVisible %m.visible\",\"subStack1\":-1,\"subStack2\":-1,\"type\":\" \",\"typeName\":\"\"}\n{\"color\":-11899692,\"id\":\"42\",\"nextBlock\":-1,\"opCode\":\"setVisible\",\"parameters\":[\"linear_notab\",\"VISIBLE\"],\"spec\":\"%m.view setVisible %m.visible\",\"subStack1\":-1,\"subStack2\":-1,\"type\":\" \",\"typeName\":\"\"}\n{\"color\":-1988310,\"id\":\"25\",\"nextBlock\":-1,\"opCode\":\"ifElse\",\"parameters\":[\"@26\"],\"spec\":\"if %b then\",\"subStack1\":21,\"subStack2\":36,\"type\":\"e\",\"typeName\":\"\"}\n{\"color\":-10701022,\"id\":\"26\",\"nextBlock\":-1,\"opCode\":\"\\u003e\",\"parameters\":[\"@27\",\"99\"],\"spec\":\"%d \\u003e %d\",\"subStack1\":-1,\"subStack2\":-1,\"type\":\"b\",\"typeName\":\"\"}\n{\"color\":-3384542,\"id\":\"27\",\"nextBlock\":-1,\"opCode\":\"lengthList\",\"parameters\":[\"webviews\"],\"spec\":\"length of %m.list\",\"subStack1\":-1,\"subStack2\":-1,\"type\":\"d\",\"typeName\":\"\"}\n{\"color\":-11899692,\"id\":\"21\",\"nextBlock\":39,\"opCode\":\"setText\",\"parameters\":[\"textview_tabs\",\":D\"],\"spec\":\"%m.textview setText %s\",\"subStack1\":-1,\"subStack2\":-1,\"type\":\" \",\"typeName\":\"\"}\n{\"color\":-11899692,\"id\":\"39\",\"nextBlock\":-1,\"opCode\":\"setText\",\"parameters\":[\"textview1\",\":D\"],\"spec\":\"%m.textview setText %s\",\"subStack1\":-1,\"subStack2\":-1,\"type\":\" \",\"typeName\":\"\"}\n{\"color\":-11899692,\"id\":\"36\",\"nextBlock\":15,\"opCode\":\"setText\",\"parameters\":[\"textview_tabs\",\"@37\"],\"spec\":\"%m.textview setText %s\",\"subStack1\":-1,\"subStack2\":-1,\"type\":\" \",\"typeName\":\"\"}\n{\"color\":-10701022,\"id\":\"37\",\"nextBlock\":-1,\"opCode\":\"toString\",\"parameters\":[\"@38\"],\"spec\":\"toString %d without decimal\",\"subStack1\":-1,\"subStack2\":-1,\"type\":\"s\",\"typeName\":\"\"}\n{\"color\":-3384542,\"id\":\"38\",\"nextBlock\":-1,\"opCode\":\"lengthList\",\"parameters\":[\"webviews\"],\"spec\":\"length of %m.list\",\"subStack1\":-1,\"subStack2\":-1,\"type\":\"d\",\"typeName\":\"\"}\n{\"color\":-11899692,\"id\":\"15\",\"nextBlock\":-1,\"opCode\":\"setText\",\"parameters\":[\"textview1\",\"@17\"],\"spec\":\"%m.textview setText %s\",\"subStack1\":-1,\"subStack2\":-1,\"type\":\" \",\"typeName\":\"\"}\n{\"color\":-10701022,\"id\":\"17\",\"nextBlock\":-1,\"opCode\":\"toString\",\"parameters\":[\"@18\"],\"spec\":\"toString %d without decimal\",\"subStack1\":-1,\"subStack2\":-1,\"type\":\"s\",\"typeName\":\"\"}\n{\"color\":-3384542,\"id\":\"18\",\"nextBlock\":-1,\"opCode\":\"lengthList\",\"parameters\":[\"webviews\"],\"spec\":\"length of %m.list\",\"subStack1\":-1,\"subStack2\":-1,\"type\":\"d\",\"typeName\":\"\"}")).toOption.bind fun c => (tryFrom c).toOption.bind fun bs =>
    (toContainer bs).toOption.map fun c' => (categories bs, c'.blocks.length)) = some (true, 18) := by decide +kernel

end Swrs.Conformance.Blocks
