import Verif.Model.ApiProject
/-!
# Model of the program in `/repo/README.md`

The program is older than the library: it uses `push_block` and `parse_from`, which are gone. The model does what it says with what there
is now: `code.0.push(block)` and `BlockContent::parse`. Ids are not part of a block any more, and its type is `BlockType::Regular`.
-/
namespace Swrs.Api
section
variable [Floats] [MapPol]

/-- The new variable — README.md:41-44. -/
def readmeVariable : Variable := ⟨s% "hello_world", .boolean⟩

/-- The content of the new block, with its `unwrap` — README.md:56-60. -/
def readmeContent : Out Empty (BlockContent Block) :=
  Out.unwrap (match BlockContent.parse (s% "add source directly %s.inputOnly") [s% "// Hello asd from swrs!"] with
    | .ok c => some c
    | _ => none)

/-- The new block — README.md:49-63. -/
def readmeBlock (content : BlockContent Block) : Block :=
  ⟨none, none, Color.fromRgb 0xa0 0x6f 0x3d, s% "addSourceDirectly", content, .regular⟩

/-- `events.iter_mut().find(|e| e.name == "onCreate")` and the code of what is found — README.md:47-64. -/
def readmeEvents : List Event → Out Empty (List Event)
  | [] => .ok []
  | e :: es =>
    if e.name = s% "onCreate" then do
      let content ← readmeContent
      pure ({ e with code := e.code ++ [readmeBlock content] } :: es)
    else do
      let es ← readmeEvents es
      pure (e :: es)

/-- What is printed about a screen — README.md:38. -/
def readmeLine (s : Screen) : Str := s% " - " ++ s.layoutName ++ s% " has " ++ natStr 10 s.events.length ++ s% " total events\n"

/-- What is done to a screen — README.md:37-67. -/
def readmeScreen (s : Screen) : Out Empty Screen := do
  let events ← readmeEvents s.events
  pure { s with variables := s.variables.insert (s% "hello_world") readmeVariable, events }

/-- The loop over the screens — README.md:37-67. -/
def readmeScreens : List Screen → Out Empty (Str × List Screen)
  | [] => .ok ([], [])
  | s :: ss => do
    let s' ← readmeScreen s
    let (out, ss) ← readmeScreens ss
    pure (readmeLine s ++ out, s' :: ss)

/-- The program from the opened project on: what it prints, and what it makes of the project — README.md:34-67. -/
def readmeProgram (p : SketchwareProject) : Out Empty (Str × SketchwareProject) := do
  let (out, screens) ← readmeScreens p.screens
  pure (s% "Screens:\n" ++ out, { p with screens })
end
end Swrs.Api
