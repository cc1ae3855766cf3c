import Verif.Model.Raw
import Verif.Model.Project
import Verif.Model.File
import Verif.Model.Library
import Verif.Model.Resource
import Verif.Model.View
import Verif.Model.Logic
/-!
# Model of `/repo/src/parser/mod.rs`: parsed projects
-/
namespace Swrs

/-- `struct SketchwareProject` — mod.rs:137-149. -/
structure SketchwareProject [Floats] where
  project : Project
  file : File
  library : Library
  resource : Resource
  view : View
  logic : Logic
  resourceFiles : Option ResourceFiles

/-- `enum SketchwareProjectParseError` — mod.rs:242-264. -/
inductive SketchwareProjectParseError [Floats] where
  | project
  | file (e : FileParseError)
  | library (e : LibraryParseError)
  | resource (e : ResourceParseError)
  | view (e : ViewParseError)
  | logic (e : LogicParseError)
  | resourceFiles (e : ResourceFilesParseError)

/-- `Option::map(..).transpose()` — mod.rs:173-176. -/
def optTryFrom (ex : PathBuf → Bool) : Option (List ResourceFileWrapper) → Out ResourceFilesParseError (Option ResourceFiles)
  | none => .ok none
  | some ws => do
    let r ← ResourceFiles.tryFrom ex ws
    pure (some r)

namespace SketchwareProject
variable [MapPol] [Floats]

/-- `SketchwareProject::parse_from` — mod.rs:153-178. `ex` tells which resource files exist. -/
def parseFrom (ex : PathBuf → Bool) (raw : RawSketchwareProject) : Out SketchwareProjectParseError SketchwareProject := do
  let project ← (Project.parse raw.project).mapErr fun _ => .project
  let file ← (File.parse raw.file).mapErr .file
  let library ← (Library.parse raw.library).mapErr .library
  let resource ← (Resource.parse raw.resource).mapErr .resource
  let view ← (View.parse raw.view).mapErr .view
  let logic ← (Logic.parse raw.logic).mapErr .logic
  let resourceFiles ← (optTryFrom ex raw.resourceFiles).mapErr .resourceFiles
  pure { project, file, library, resource, view, logic, resourceFiles }

/-- `SketchwareProject::parse` — mod.rs:181-194. -/
def parse (ex : PathBuf → Bool) (project file library resource view logic : Str) (rs : List ResourceFileWrapper) :
    Out SketchwareProjectParseError SketchwareProject :=
  parseFrom ex ⟨project, file, library, resource, view, logic, some rs⟩

/-- `SketchwareProject::parse_wo_res` — mod.rs:198-211. -/
def parseWoRes (ex : PathBuf → Bool) (project file library resource view logic : Str) :
    Out SketchwareProjectParseError SketchwareProject :=
  parseFrom ex ⟨project, file, library, resource, view, logic, none⟩

omit [MapPol] in
/-- `TryInto<RawSketchwareProject> for SketchwareProject` — mod.rs:214-240, given the text order `rs` of the resource files
(their order is arbitrary, see `ResourceFiles.IntoVec`). Only the project text can fail. -/
def tryIntoRaw (p : SketchwareProject) (rs : Option (List ResourceFileWrapper)) : Out Unit RawSketchwareProject := do
  let project ← p.project.reconstruct
  pure { project, file := p.file.reconstruct, library := p.library.reconstruct, resource := p.resource.reconstruct,
         view := p.view.reconstruct, logic := p.logic.reconstruct, resourceFiles := rs }

omit [MapPol] in
/-- The text orders the resource files can have — mod.rs:237, 442-456. -/
def ResOrder (p : SketchwareProject) : Option (List ResourceFileWrapper) → Prop
  | none => p.resourceFiles = none
  | some ws => ∃ r, p.resourceFiles = some r ∧ r.IntoVec ws

end SketchwareProject
end Swrs
