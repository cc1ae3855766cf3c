import Verif.Model.ApiProject

/-! The test inside `src/api/mod.rs` run on the model (test evidence for the model, not a proof). -/

namespace Swrs.Conformance.Names
open Swrs.Api

/-! `test_view_name_to_logic` — src/api/mod.rs:296-300 -/
example : viewNameToLogic (s% "main") = s% "MainActivity" := by decide +kernel
example : viewNameToLogic (s% "debug_screen") = s% "DebugScreenActivity" := by decide +kernel
example : viewNameToLogic (s% "very_long_string_i_dont_know_why") =
    s% "VeryLongStringIDontKnowWhyActivity" := by decide +kernel

end Swrs.Conformance.Names
