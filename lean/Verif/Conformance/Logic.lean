import Verif.Model.Logic
import Verif.Float.Instance
/-!
# The tests of the repository for the logic file, run on the model
-/
set_option maxRecDepth 100000
namespace Swrs.Conformance.Logic

/-- The tests do not depend on what a linked map does with a key inserted twice. -/
local instance : MapPol := ⟨true, true⟩
local instance : Floats := ieeeFloats.toFloats

/-! `parse_variable_0` — tests/logic_parser.rs:14 -/
example : Variable.parse (s% "1:my_int") = .ok ({ name := s% "my_int", type := .integer } : Variable) := by decide +kernel

/-! `parse_variable_1` — tests/logic_parser.rs:32 -/
example : Variable.parse (s% "3:variable_with_a_very_long_name") = .ok ({ name := s% "variable_with_a_very_long_name", type := .hashMap } : Variable) := by decide +kernel

/-! `parse_variable_pool_0` — tests/logic_parser.rs:50 -/
example : VariablePool.parse (s% "1:my_int\n2:my_str\n1:my_2nd_int\n0:my_cool_bool\n2:my_2nd_str\n3:my_hashmap") = .ok ⟨[(s% "my_int", { name := s% "my_int", type := .integer }), (s% "my_str", { name := s% "my_str", type := .string }), (s% "my_2nd_int", { name := s% "my_2nd_int", type := .integer }), (s% "my_cool_bool", { name := s% "my_cool_bool", type := .boolean }), (s% "my_2nd_str", { name := s% "my_2nd_str", type := .string }), (s% "my_hashmap", { name := s% "my_hashmap", type := .hashMap })]⟩ := by decide +kernel

/-! `parse_variable_pool_1` — tests/logic_parser.rs:83 -/
example : VariablePool.parse (s% "1:size\n1:size2\n2:col\n2:blacks\n2:reds\n2:yellows\n2:pointer\n1:size3\n0:v\n0:i\n2:pinks\n2:purple\n2:deepPurple\n2:Indigo\n2:Blue\n2:LightBlue\n2:cyan\n2:teal\n2:green\n2:lightGreen\n2:lime\n2:amber\n2:Orange\n2:deeoOrange\n2:brown\n2:gray\n2:blueGray\n2:transparent\n2:canvastitle\n2:canvasok\n2:cwidth\n2:cheight\n2:canvastoast\n1:canvaswidth\n1:canvasheight\n1:widthpx\n1:heightpx\n2:canvascancel\n1:tv\n0:bl_on\n0:bl_off\n1:h\n1:w\n1:canvash\n1:canvasw\n1:hout\n1:wout\n2:canvas_path\n0:lx\n0:ly\n1:svd\n0:vtmundo\n2:image_name\n2:folder_path\n2:output_path") = .ok ⟨[(s% "size", { name := s% "size", type := .integer }), (s% "size2", { name := s% "size2", type := .integer }), (s% "col", { name := s% "col", type := .string }), (s% "blacks", { name := s% "blacks", type := .string }), (s% "reds", { name := s% "reds", type := .string }), (s% "yellows", { name := s% "yellows", type := .string }), (s% "pointer", { name := s% "pointer", type := .string }), (s% "size3", { name := s% "size3", type := .integer }), (s% "v", { name := s% "v", type := .boolean }), (s% "i", { name := s% "i", type := .boolean }), (s% "pinks", { name := s% "pinks", type := .string }), (s% "purple", { name := s% "purple", type := .string }), (s% "deepPurple", { name := s% "deepPurple", type := .string }), (s% "Indigo", { name := s% "Indigo", type := .string }), (s% "Blue", { name := s% "Blue", type := .string }), (s% "LightBlue", { name := s% "LightBlue", type := .string }), (s% "cyan", { name := s% "cyan", type := .string }), (s% "teal", { name := s% "teal", type := .string }), (s% "green", { name := s% "green", type := .string }), (s% "lightGreen", { name := s% "lightGreen", type := .string }), (s% "lime", { name := s% "lime", type := .string }), (s% "amber", { name := s% "amber", type := .string }), (s% "Orange", { name := s% "Orange", type := .string }), (s% "deeoOrange", { name := s% "deeoOrange", type := .string }), (s% "brown", { name := s% "brown", type := .string }), (s% "gray", { name := s% "gray", type := .string }), (s% "blueGray", { name := s% "blueGray", type := .string }), (s% "transparent", { name := s% "transparent", type := .string }), (s% "canvastitle", { name := s% "canvastitle", type := .string }), (s% "canvasok", { name := s% "canvasok", type := .string }), (s% "cwidth", { name := s% "cwidth", type := .string }), (s% "cheight", { name := s% "cheight", type := .string }), (s% "canvastoast", { name := s% "canvastoast", type := .string }), (s% "canvaswidth", { name := s% "canvaswidth", type := .integer }), (s% "canvasheight", { name := s% "canvasheight", type := .integer }), (s% "widthpx", { name := s% "widthpx", type := .integer }), (s% "heightpx", { name := s% "heightpx", type := .integer }), (s% "canvascancel", { name := s% "canvascancel", type := .string }), (s% "tv", { name := s% "tv", type := .integer }), (s% "bl_on", { name := s% "bl_on", type := .boolean }), (s% "bl_off", { name := s% "bl_off", type := .boolean }), (s% "h", { name := s% "h", type := .integer }), (s% "w", { name := s% "w", type := .integer }), (s% "canvash", { name := s% "canvash", type := .integer }), (s% "canvasw", { name := s% "canvasw", type := .integer }), (s% "hout", { name := s% "hout", type := .integer }), (s% "wout", { name := s% "wout", type := .integer }), (s% "canvas_path", { name := s% "canvas_path", type := .string }), (s% "lx", { name := s% "lx", type := .boolean }), (s% "ly", { name := s% "ly", type := .boolean }), (s% "svd", { name := s% "svd", type := .integer }), (s% "vtmundo", { name := s% "vtmundo", type := .boolean }), (s% "image_name", { name := s% "image_name", type := .string }), (s% "folder_path", { name := s% "folder_path", type := .string }), (s% "output_path", { name := s% "output_path", type := .string })]⟩ := by decide +kernel

/-! `parse_list_variable` — tests/logic_parser.rs:218 -/
example : ListVariable.parse (s% "0:my_booleans") = .ok ({ name := s% "my_booleans", type := .boolean } : ListVariable) := by decide +kernel

/-! `parse_list_variable_pool` — tests/logic_parser.rs:235 -/
example : ListVariablePool.parse (s% "0:booleans\n1:integers\n2:strings\n3:maps") = .ok ⟨[(s% "booleans", { name := s% "booleans", type := .boolean }), (s% "integers", { name := s% "integers", type := .integer }), (s% "strings", { name := s% "strings", type := .string }), (s% "maps", { name := s% "maps", type := .hashMap })]⟩ := by decide +kernel

/-! `parse_component` — tests/logic_parser.rs:264 -/
example : Component.parse (s% "{\"componentId\":\"dialog\",\"param1\":\"\",\"param2\":\"\",\"param3\":\"\",\"type\":7}") = some ({ id := s% "dialog", param1 := s% "", param2 := s% "", param3 := s% "", type := 7 } : Component) := by decide +kernel

/-! `parse_event` — tests/logic_parser.rs:287 -/
example : Event.parse (s% "{\"eventName\":\"onClick\",\"eventType\":1,\"targetId\":\"linear10\",\"targetType\":0}") = some ({ eventName := s% "onClick", eventType := 1, targetId := s% "linear10", targetType := 0 } : Event) := by decide +kernel

/-! `parse_event_pool` — tests/logic_parser.rs:305 -/
example : EventPool.parse (s% "{\"eventName\":\"onResponse\",\"eventType\":2,\"targetId\":\"ping_test\",\"targetType\":17}\n{\"eventName\":\"onErrorResponse\",\"eventType\":2,\"targetId\":\"ping_test\",\"targetType\":17}\n{\"eventName\":\"onClick\",\"eventType\":1,\"targetId\":\"item_2\",\"targetType\":0}\n{\"eventName\":\"onClick\",\"eventType\":1,\"targetId\":\"item_3\",\"targetType\":0}\n{\"eventName\":\"onClick\",\"eventType\":1,\"targetId\":\"item_5\",\"targetType\":0}\n{\"eventName\":\"onClick\",\"eventType\":1,\"targetId\":\"item_1\",\"targetType\":0}\n{\"eventName\":\"onCheckedChange\",\"eventType\":1,\"targetId\":\"switch_theme\",\"targetType\":13}\n{\"eventName\":\"onResponse\",\"eventType\":2,\"targetId\":\"get_ip\",\"targetType\":17}\n{\"eventName\":\"onClick\",\"eventType\":1,\"targetId\":\"aver\",\"targetType\":0}\n{\"eventName\":\"onClick\",\"eventType\":1,\"targetId\":\"dsdk\",\"targetType\":0}") = .ok (⟨[{ eventName := s% "onResponse", eventType := 2, targetId := s% "ping_test", targetType := 17 }, { eventName := s% "onErrorResponse", eventType := 2, targetId := s% "ping_test", targetType := 17 }, { eventName := s% "onClick", eventType := 1, targetId := s% "item_2", targetType := 0 }, { eventName := s% "onClick", eventType := 1, targetId := s% "item_3", targetType := 0 }, { eventName := s% "onClick", eventType := 1, targetId := s% "item_5", targetType := 0 }, { eventName := s% "onClick", eventType := 1, targetId := s% "item_1", targetType := 0 }, { eventName := s% "onCheckedChange", eventType := 1, targetId := s% "switch_theme", targetType := 13 }, { eventName := s% "onResponse", eventType := 2, targetId := s% "get_ip", targetType := 17 }, { eventName := s% "onClick", eventType := 1, targetId := s% "aver", targetType := 0 }, { eventName := s% "onClick", eventType := 1, targetId := s% "dsdk", targetType := 0 }]⟩ : EventPool) := by decide +kernel

/-! `parse_more_block` — tests/logic_parser.rs:343 -/
example : MoreBlock.parse (s% "cool_moreblock:hello world %s") = .ok ({ id := s% "cool_moreblock", spec := s% "hello world %s" } : MoreBlock) := by decide +kernel

/-! `parse_more_block_pool_0` — tests/logic_parser.rs:359 -/
example : MoreBlockPool.parse (s% "cool_moreblock:hello world %s\nhello_world:very poggers %s cool %i") = .ok ⟨[(s% "cool_moreblock", { id := s% "cool_moreblock", spec := s% "hello world %s" }), (s% "hello_world", { id := s% "hello_world", spec := s% "very poggers %s cool %i" })]⟩ := by decide +kernel

/-! `parse_more_block_pool_1` — tests/logic_parser.rs:374 -/
example : MoreBlockPool.parse (s% "CardView:CardView %s.color %d.radius %d.shadow %m.view.view\nsetBackgroundLinear:setBackgroundLinear %m.view.view fromFilePath %s.path\nSaveLinear:SaveLinear %m.view.view to path %s.path\nedtDial:edtDial Nazv %s.str1 Mess %s.str2 Hint %s.hint Dialog %m.dialog.dia Output %m.textview.getMess\nsave_and_exit:save_and_exit Nazv %s.str1 Mess %s.str2 Hint %s.hint Dialog %m.dialog.dia Output %m.textview.getMess\ncanvas:canvas %d.width %d.height\nsetCornerRadius:setCornerRadius to %m.view.view percentage %d.percent\nEditTextLimit:EditTextLimit %m.textview.edittext setLimit %d.limit output %m.textview.output_tv\nsaveView:saveView %m.view.view folderPath %s.folderPath outputPath %s.outputPath") = .ok ⟨[(s% "CardView", { id := s% "CardView", spec := s% "CardView %s.color %d.radius %d.shadow %m.view.view" }), (s% "setBackgroundLinear", { id := s% "setBackgroundLinear", spec := s% "setBackgroundLinear %m.view.view fromFilePath %s.path" }), (s% "SaveLinear", { id := s% "SaveLinear", spec := s% "SaveLinear %m.view.view to path %s.path" }), (s% "edtDial", { id := s% "edtDial", spec := s% "edtDial Nazv %s.str1 Mess %s.str2 Hint %s.hint Dialog %m.dialog.dia Output %m.textview.getMess" }), (s% "save_and_exit", { id := s% "save_and_exit", spec := s% "save_and_exit Nazv %s.str1 Mess %s.str2 Hint %s.hint Dialog %m.dialog.dia Output %m.textview.getMess" }), (s% "canvas", { id := s% "canvas", spec := s% "canvas %d.width %d.height" }), (s% "setCornerRadius", { id := s% "setCornerRadius", spec := s% "setCornerRadius to %m.view.view percentage %d.percent" }), (s% "EditTextLimit", { id := s% "EditTextLimit", spec := s% "EditTextLimit %m.textview.edittext setLimit %d.limit output %m.textview.output_tv" }), (s% "saveView", { id := s% "saveView", spec := s% "saveView %m.view.view folderPath %s.folderPath outputPath %s.outputPath" })]⟩ := by decide +kernel

/-! `parse_logic_0` — tests/logic_parser.rs:410 -/
example : (Logic.parse (s% "@MainActivity.java_var\n2:out\n\n@MainActivity.java_func\nexecute_shell:execute_shell %s.command\n\n@MainActivity.java_onCreate_initializeLogic\n{\"color\":-10701022,\"id\":\"12\",\"nextBlock\":10,\"opCode\":\"addSourceDirectly\",\"parameters\":[\"// For those who are familiar with Linux commands, we\\u0027re reading /proc/cpuinfo, and /proc/meminfo\"],\"spec\":\"add source directly %s.inputOnly\",\"subStack1\":-1,\"subStack2\":-1,\"type\":\" \",\"typeName\":\"\"}\n{\"color\":-7711273,\"id\":\"10\",\"nextBlock\":13,\"opCode\":\"definedFunc\",\"parameters\":[\"cat /proc/cpuinfo\"],\"spec\":\"execute_shell %s.command\",\"subStack1\":-1,\"subStack2\":-1,\"type\":\" \",\"typeName\":\"\"}\n{\"color\":-11899692,\"id\":\"13\",\"nextBlock\":11,\"opCode\":\"setText\",\"parameters\":[\"cpuinfo\",\"@16\"],\"spec\":\"%m.textview setText %s\",\"subStack1\":-1,\"subStack2\":-1,\"type\":\" \",\"typeName\":\"\"}\n{\"color\":-1147626,\"id\":\"16\",\"nextBlock\":-1,\"opCode\":\"getVar\",\"parameters\":[],\"spec\":\"out\",\"subStack1\":-1,\"subStack2\":-1,\"type\":\"s\",\"typeName\":\"\"}\n{\"color\":-7711273,\"id\":\"11\",\"nextBlock\":14,\"opCode\":\"definedFunc\",\"parameters\":[\"cat /proc/meminfo\"],\"spec\":\"execute_shell %s.command\",\"subStack1\":-1,\"subStack2\":-1,\"type\":\" \",\"typeName\":\"\"}\n{\"color\":-11899692,\"id\":\"14\",\"nextBlock\":-1,\"opCode\":\"setText\",\"parameters\":[\"raminfo\",\"@15\"],\"spec\":\"%m.textview setText %s\",\"subStack1\":-1,\"subStack2\":-1,\"type\":\" \",\"typeName\":\"\"}\n{\"color\":-1147626,\"id\":\"15\",\"nextBlock\":-1,\"opCode\":\"getVar\",\"parameters\":[],\"spec\":\"out\",\"subStack1\":-1,\"subStack2\":-1,\"type\":\"s\",\"typeName\":\"\"}\n\n@MainActivity.java_execute_shell_moreBlock\n{\"color\":-10701022,\"id\":\"10\",\"nextBlock\":-1,\"opCode\":\"addSourceDirectly\",\"parameters\":[\"StringBuilder output \\u003d new StringBuilder();\\ntry {\\njava.lang.Process cmdProc \\u003d Runtime.getRuntime().exec(_command);\\n\\n\\njava.io.BufferedReader stdoutReader \\u003d new java.io.BufferedReader(\\n         new java.io.InputStreamReader(cmdProc.getInputStream()));\\nString line;\\nwhile ((line \\u003d stdoutReader.readLine()) !\\u003d null) {\\n   // process procs standard output here\\n  output.append(line + \\\"\\\\n\\\");\\n}\\n\\nthis.out \\u003d output.toString();\\n\\n} catch (java.io.IOException e) {\\nthis.out \\u003d \\\"Error occurred\\\";\\n}\"],\"spec\":\"add source directly %s.inputOnly\",\"subStack1\":-1,\"subStack2\":-1,\"type\":\" \",\"typeName\":\"\"}")).toOption.isSome = true := by decide +kernel

/-! `reconstruct_logic` — tests/logic_parser.rs:439 -/
example : (Logic.parse (s% "@MainActivity.java_var\n2:out\n\n@MainActivity.java_func\nexecute_shell:execute_shell %s.command\n\n@MainActivity.java_onCreate_initializeLogic\n{\"color\":-10701022,\"id\":\"12\",\"nextBlock\":10,\"opCode\":\"addSourceDirectly\",\"parameters\":[\"// For those who are familiar with Linux commands, we're reading /proc/cpuinfo, and /proc/meminfo\"],\"spec\":\"add source directly %s.inputOnly\",\"subStack1\":-1,\"subStack2\":-1,\"type\":\" \",\"typeName\":\"\"}\n{\"color\":-7711273,\"id\":\"10\",\"nextBlock\":13,\"opCode\":\"definedFunc\",\"parameters\":[\"cat /proc/cpuinfo\"],\"spec\":\"execute_shell %s.command\",\"subStack1\":-1,\"subStack2\":-1,\"type\":\" \",\"typeName\":\"\"}\n{\"color\":-11899692,\"id\":\"13\",\"nextBlock\":11,\"opCode\":\"setText\",\"parameters\":[\"cpuinfo\",\"@16\"],\"spec\":\"%m.textview setText %s\",\"subStack1\":-1,\"subStack2\":-1,\"type\":\" \",\"typeName\":\"\"}\n{\"color\":-1147626,\"id\":\"16\",\"nextBlock\":-1,\"opCode\":\"getVar\",\"parameters\":[],\"spec\":\"out\",\"subStack1\":-1,\"subStack2\":-1,\"type\":\"s\",\"typeName\":\"\"}\n{\"color\":-7711273,\"id\":\"11\",\"nextBlock\":14,\"opCode\":\"definedFunc\",\"parameters\":[\"cat /proc/meminfo\"],\"spec\":\"execute_shell %s.command\",\"subStack1\":-1,\"subStack2\":-1,\"type\":\" \",\"typeName\":\"\"}\n{\"color\":-11899692,\"id\":\"14\",\"nextBlock\":-1,\"opCode\":\"setText\",\"parameters\":[\"raminfo\",\"@15\"],\"spec\":\"%m.textview setText %s\",\"subStack1\":-1,\"subStack2\":-1,\"type\":\" \",\"typeName\":\"\"}\n{\"color\":-1147626,\"id\":\"15\",\"nextBlock\":-1,\"opCode\":\"getVar\",\"parameters\":[],\"spec\":\"out\",\"subStack1\":-1,\"subStack2\":-1,\"type\":\"s\",\"typeName\":\"\"}\n\n@MainActivity.java_execute_shell_moreBlock\n{\"color\":-10701022,\"id\":\"10\",\"nextBlock\":-1,\"opCode\":\"addSourceDirectly\",\"parameters\":[\"StringBuilder output = new StringBuilder();\\ntry {\\njava.lang.Process cmdProc = Runtime.getRuntime().exec(_command);\\n\\n\\njava.io.BufferedReader stdoutReader = new java.io.BufferedReader(\\n         new java.io.InputStreamReader(cmdProc.getInputStream()));\\nString line;\\nwhile ((line = stdoutReader.readLine()) != null) {\\n   // process procs standard output here\\n  output.append(line + \\\"\\\\n\\\");\\n}\\n\\nthis.out = output.toString();\\n\\n} catch (java.io.IOException e) {\\nthis.out = \\\"Error occurred\\\";\\n}\"],\"spec\":\"add source directly %s.inputOnly\",\"subStack1\":-1,\"subStack2\":-1,\"type\":\" \",\"typeName\":\"\"}")).toOption.map Logic.reconstruct = some (s% "@MainActivity.java_var\n2:out\n\n@MainActivity.java_func\nexecute_shell:execute_shell %s.command\n\n@MainActivity.java_onCreate_initializeLogic\n{\"color\":-10701022,\"id\":\"12\",\"nextBlock\":10,\"opCode\":\"addSourceDirectly\",\"parameters\":[\"// For those who are familiar with Linux commands, we're reading /proc/cpuinfo, and /proc/meminfo\"],\"spec\":\"add source directly %s.inputOnly\",\"subStack1\":-1,\"subStack2\":-1,\"type\":\" \",\"typeName\":\"\"}\n{\"color\":-7711273,\"id\":\"10\",\"nextBlock\":13,\"opCode\":\"definedFunc\",\"parameters\":[\"cat /proc/cpuinfo\"],\"spec\":\"execute_shell %s.command\",\"subStack1\":-1,\"subStack2\":-1,\"type\":\" \",\"typeName\":\"\"}\n{\"color\":-11899692,\"id\":\"13\",\"nextBlock\":11,\"opCode\":\"setText\",\"parameters\":[\"cpuinfo\",\"@16\"],\"spec\":\"%m.textview setText %s\",\"subStack1\":-1,\"subStack2\":-1,\"type\":\" \",\"typeName\":\"\"}\n{\"color\":-1147626,\"id\":\"16\",\"nextBlock\":-1,\"opCode\":\"getVar\",\"parameters\":[],\"spec\":\"out\",\"subStack1\":-1,\"subStack2\":-1,\"type\":\"s\",\"typeName\":\"\"}\n{\"color\":-7711273,\"id\":\"11\",\"nextBlock\":14,\"opCode\":\"definedFunc\",\"parameters\":[\"cat /proc/meminfo\"],\"spec\":\"execute_shell %s.command\",\"subStack1\":-1,\"subStack2\":-1,\"type\":\" \",\"typeName\":\"\"}\n{\"color\":-11899692,\"id\":\"14\",\"nextBlock\":-1,\"opCode\":\"setText\",\"parameters\":[\"raminfo\",\"@15\"],\"spec\":\"%m.textview setText %s\",\"subStack1\":-1,\"subStack2\":-1,\"type\":\" \",\"typeName\":\"\"}\n{\"color\":-1147626,\"id\":\"15\",\"nextBlock\":-1,\"opCode\":\"getVar\",\"parameters\":[],\"spec\":\"out\",\"subStack1\":-1,\"subStack2\":-1,\"type\":\"s\",\"typeName\":\"\"}\n\n@MainActivity.java_execute_shell_moreBlock\n{\"color\":-10701022,\"id\":\"10\",\"nextBlock\":-1,\"opCode\":\"addSourceDirectly\",\"parameters\":[\"StringBuilder output = new StringBuilder();\\ntry {\\njava.lang.Process cmdProc = Runtime.getRuntime().exec(_command);\\n\\n\\njava.io.BufferedReader stdoutReader = new java.io.BufferedReader(\\n         new java.io.InputStreamReader(cmdProc.getInputStream()));\\nString line;\\nwhile ((line = stdoutReader.readLine()) != null) {\\n   // process procs standard output here\\n  output.append(line + \\\"\\\\n\\\");\\n}\\n\\nthis.out = output.toString();\\n\\n} catch (java.io.IOException e) {\\nthis.out = \\\"Error occurred\\\";\\n}\"],\"spec\":\"add source directly %s.inputOnly\",\"subStack1\":-1,\"subStack2\":-1,\"type\":\" \",\"typeName\":\"\"}") := by decide +kernel


end Swrs.Conformance.Logic
