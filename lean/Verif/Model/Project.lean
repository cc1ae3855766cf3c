import Verif.Model.Color
import Verif.Model.Date
/-!
# Model of `/repo/src/parser/project.rs`

Reading and writing a project may panic, through the date functions of `serde_util.rs`.
-/
namespace Swrs

/-- `struct ProjectColorPalette` — project.rs:40-47. -/
structure ProjectColorPalette where
  colorPrimary : Color
  colorPrimaryDark : Color
  colorAccent : Color
  colorControlNormal : Color
  colorControlHighlight : Color
deriving DecidableEq, Repr

/-- `struct Project` — project.rs:6-38. -/
structure Project where
  id : UInt16
  appName : Str
  workspaceName : Str
  packageName : Str
  versionCode : UInt16
  versionName : Str
  dateCreated : UInt64
  customIcon : Bool
  colorPalette : ProjectColorPalette
  sketchwareVersion : UInt8
deriving DecidableEq, Repr

namespace ProjectColorPalette

/-- JSON keys — project.rs:42-46. -/
def fields : List Str := [s% "color_primary", s% "color_primary_dark", s% "color_accent",
  s% "color_control_normal", s% "color_control_highlight"]

/-- `Default` — project.rs:49-59. -/
def default : ProjectColorPalette where
  colorPrimary := Color.ofU32 0xff008dcd
  colorPrimaryDark := Color.ofU32 0xff0084c2
  colorAccent := Color.ofU32 0xff008dcd
  colorControlNormal := Color.ofU32 0xff57beee
  colorControlHighlight := Color.ofU32 0x20008dcd

/-- Members written in place for the flattened field — project.rs:33-34, 40-47. -/
def members (p : ProjectColorPalette) : Json.Obj :=
  [(s% "color_primary", p.colorPrimary.enc), (s% "color_primary_dark", p.colorPrimaryDark.enc),
    (s% "color_accent", p.colorAccent.enc), (s% "color_control_normal", p.colorControlNormal.enc),
    (s% "color_control_highlight", p.colorControlHighlight.enc)]

/-- derived `Deserialize` of the flattened field, from the members not claimed by `Project` — project.rs:40-47. -/
def dec [Floats] (o : Json.Obj) : Option ProjectColorPalette := do
  let o ← Json.asStruct fields (.obj o)
  let colorPrimary ← Json.req o (s% "color_primary") Color.dec
  let colorPrimaryDark ← Json.req o (s% "color_primary_dark") Color.dec
  let colorAccent ← Json.req o (s% "color_accent") Color.dec
  let colorControlNormal ← Json.req o (s% "color_control_normal") Color.dec
  let colorControlHighlight ← Json.req o (s% "color_control_highlight") Color.dec
  pure { colorPrimary, colorPrimaryDark, colorAccent, colorControlNormal, colorControlHighlight }

end ProjectColorPalette

namespace Project

/-- Keys claimed by `Project` itself — project.rs:8-37. -/
def fields : List Str := [s% "sc_id", s% "my_app_name", s% "my_ws_name", s% "my_sc_pkg_name",
  s% "sc_ver_code", s% "sc_ver_name", s% "my_sc_reg_dt", s% "custom_icon", s% "sketchware_ver"]

/-- `string_to_u16::deserialize` — serde_util.rs:51-53. -/
def decU16Str (j : Json) : Option UInt16 :=
  (Json.decStr j).bind fun s => (parseUnsigned 10 65535 s).map UInt16.ofNat

/-- `string_to_u16::serialize` — serde_util.rs:47-49. -/
def encU16Str (n : UInt16) : Json := .str (natStr 10 n.toNat)

/-- `date_to_timestamp::deserialize` — serde_util.rs:7-22. -/
def decDate : Json → Out Unit UInt64
  | .str s => Date.deserialize s
  | _ => .err ()

/-- Decoding of the value of a claimed key, when the key is met — project.rs:8-37. -/
def visitField (k : Str) (j : Json) : Out Unit Unit :=
  if k = s% "my_sc_reg_dt" then do let _ ← decDate j; pure ()
  else if k = s% "sc_id" ∨ k = s% "sc_ver_code" then do let _ ← Out.ofOption () (decU16Str j); pure ()
  else if k = s% "custom_icon" then do let _ ← Out.ofOption () (Json.decBool j); pure ()
  else if k = s% "sketchware_ver" then do let _ ← Out.ofOption () (Json.decU8 j); pure ()
  else do let _ ← Out.ofOption () (Json.decStr j); pure ()

mutual
/-- The value can be buffered for the flattened field (`Content` of `serde`): no unpaired surrogates, and numbers in the range
of `f64` — project.rs:33-34. -/
def bufferable [Floats] : Json → Bool
  | .num tok => (match Json.intOfTok tok with | some n => decide (-(2 : Int) ^ 63 ≤ n ∧ n < (2 : Int) ^ 64) | none => false) ||
      (Floats.f64ToI32 tok).isSome
  | .arr vs => bufferableArr vs
  | .obj o => bufferableObj o
  | .bad => false
  | _ => true
/-- All elements can be buffered — project.rs:33-34. -/
def bufferableArr [Floats] : List Json → Bool
  | [] => true
  | v :: vs => bufferable v && bufferableArr vs
/-- All member values can be buffered — project.rs:33-34. -/
def bufferableObj [Floats] : List (Str × Json) → Bool
  | [] => true
  | (_, v) :: o => bufferable v && bufferableObj o
end

/-- derived `Deserialize`: the claimed members are decoded in the order of the text, a repeated one is an error, and the
others are buffered, which are nested at most 126 deep inside the project (`serde_json` reads 127 levels) — project.rs:6-38. -/
def visit [Floats] (seen : List Str) : Json.Obj → Out Unit Unit
  | [] => .ok ()
  | (k, j) :: o =>
    if k ∈ fields then
      if k ∈ seen then .err ()
      else do
        visitField k j
        visit (k :: seen) o
    else if bufferable j = true ∧ j.depth ≤ 126 then visit seen o
    else .err ()

/-- derived `Deserialize` of a struct with a flattened field: only objects are accepted — project.rs:6-38. -/
def dec [Floats] : Json → Out Unit Project
  | .obj o => do
    visit [] o
    let id ← Out.ofOption () (Json.req o (s% "sc_id") decU16Str)
    let appName ← Out.ofOption () (Json.req o (s% "my_app_name") Json.decStr)
    let workspaceName ← Out.ofOption () (Json.req o (s% "my_ws_name") Json.decStr)
    let packageName ← Out.ofOption () (Json.req o (s% "my_sc_pkg_name") Json.decStr)
    let versionCode ← Out.ofOption () (Json.req o (s% "sc_ver_code") decU16Str)
    let versionName ← Out.ofOption () (Json.req o (s% "sc_ver_name") Json.decStr)
    let date ← Out.ofOption () (Json.get o (s% "my_sc_reg_dt"))
    let dateCreated ← decDate date
    let customIcon ← Out.ofOption () (Json.req o (s% "custom_icon") Json.decBool)
    let sketchwareVersion ← Out.ofOption () (Json.req o (s% "sketchware_ver") Json.decU8)
    let colorPalette ← Out.ofOption () (ProjectColorPalette.dec o)
    pure { id, appName, workspaceName, packageName, versionCode, versionName, dateCreated, customIcon,
           colorPalette, sketchwareVersion }
  | _ => .err ()

/-- The members that are read before the first error of syntax, or key without a value — project.rs:65-67. -/
def readMembers : Nat → Str → Json.Obj
  | 0, _ => []
  | f + 1, s =>
    match Json.skip s with
    | '"' :: r =>
      match Json.lexString r with
      | some (some k, r) =>
        match Json.skip r with
        | ':' :: r =>
          match Json.parseVal f r with
          | some (v, r) =>
            match Json.skip r with
            | ',' :: r => (k, v) :: readMembers f r
            | _ => [(k, v)]
          | none => []
        | _ => []
      | _ => []
    | _ => []

/-- The members of the object in a text that are read before the first error of syntax — project.rs:65-67. -/
def membersRead (s : Str) : Json.Obj :=
  match Json.skip s with
  | '{' :: r => readMembers (2 * s.length + 2) r
  | _ => []

/-- `Project::parse` — project.rs:65-67. The members are decoded while the text is read: what is wrong with one of them comes
before an error of syntax after it. -/
def parse [Floats] (s : Str) : Out Unit Project := do
  visit [] (membersRead s)
  match Json.parse s with
  | some j => dec j
  | none => .err ()

/-- derived `Serialize`, given the text of the date — project.rs:6-38. -/
def enc (p : Project) (date : Str) : Json :=
  .obj ([(s% "sc_id", encU16Str p.id), (s% "my_app_name", .str p.appName),
    (s% "my_ws_name", .str p.workspaceName), (s% "my_sc_pkg_name", .str p.packageName),
    (s% "sc_ver_code", encU16Str p.versionCode), (s% "sc_ver_name", .str p.versionName),
    (s% "my_sc_reg_dt", .str date), (s% "custom_icon", .bool p.customIcon)] ++
    (p.colorPalette.members ++ [(s% "sketchware_ver", Json.encU8 p.sketchwareVersion)]))

/-- `Project::reconstruct` — project.rs:69-71; a creation date out of range panics. -/
def reconstruct (p : Project) : Out Unit Str := do
  let date ← Out.unwrap (Date.serialize p.dateCreated)
  pure (p.enc date).print

end Project
end Swrs
