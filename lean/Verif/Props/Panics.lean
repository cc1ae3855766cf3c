import Verif.Props.Raw
import Verif.Props.Readers
/-!
# C58: when opening a project panics
-/
namespace Swrs

theorem file_no_panic (s : Str) : File.parse s ≠ .panic := by
  rw [c67_file]
  split <;> nofun

theorem resource_no_panic (s : Str) : Resource.parse s ≠ .panic := by
  rw [c67_resource]
  split <;> nofun

/-- C58: opening a project panics exactly if its project text panics (C82 tells when), or the five texts before the logic are read and the logic text
panics (C69 tells when). The other texts and the resource files never make it panic. -/
theorem c58_panics [Floats] [MapPol] (ex : PathBuf → Bool) (raw : RawSketchwareProject) :
    SketchwareProject.parseFrom ex raw = .panic ↔ Project.parse raw.project = .panic ∨
      ((∃ p, Project.parse raw.project = .ok p) ∧ (∃ f, File.parse raw.file = .ok f) ∧ (∃ l, Library.parse raw.library = .ok l) ∧
        (∃ x, Resource.parse raw.resource = .ok x) ∧ (∃ v, View.parse raw.view = .ok v) ∧ Logic.parse raw.logic = .panic) := by
  unfold SketchwareProject.parseFrom
  have h2 := file_no_panic raw.file
  have h3 := c20_library_no_panic raw.library
  have h4 := resource_no_panic raw.resource
  have h5 := c60_view_no_panic raw.view
  have h7 : optTryFrom ex raw.resourceFiles ≠ .panic := by
    cases raw.resourceFiles with
    | none => nofun
    | some ws =>
      have := (c57_rejects ex ws).2
      cases hr : ResourceFiles.tryFrom ex ws <;> simp_all [optTryFrom]
  cases Project.parse raw.project <;> simp only [Out.mapErr_ok, Out.mapErr_err, Out.mapErr_panic, Out.ok_bind, Out.err_bind, Out.panic_bind]
  case err => simp
  case panic => simp
  cases hf : File.parse raw.file <;> simp only [Out.mapErr_ok, Out.mapErr_err, Out.mapErr_panic, Out.ok_bind, Out.err_bind, Out.panic_bind]
  case err => simp
  case panic => exact absurd hf h2
  cases hl : Library.parse raw.library <;> simp only [Out.mapErr_ok, Out.mapErr_err, Out.mapErr_panic, Out.ok_bind, Out.err_bind, Out.panic_bind]
  case err => simp
  case panic => exact absurd hl h3
  cases hr : Resource.parse raw.resource <;> simp only [Out.mapErr_ok, Out.mapErr_err, Out.mapErr_panic, Out.ok_bind, Out.err_bind, Out.panic_bind]
  case err => simp
  case panic => exact absurd hr h4
  cases hv : View.parse raw.view <;> simp only [Out.mapErr_ok, Out.mapErr_err, Out.mapErr_panic, Out.ok_bind, Out.err_bind, Out.panic_bind]
  case err => simp
  case panic => exact absurd hv h5
  cases Logic.parse raw.logic <;> simp only [Out.mapErr_ok, Out.mapErr_err, Out.mapErr_panic, Out.ok_bind, Out.err_bind, Out.panic_bind]
  case err => simp
  case panic => simp
  cases ho : optTryFrom ex raw.resourceFiles <;> simp only [Out.mapErr_ok, Out.mapErr_err, Out.mapErr_panic, Out.ok_bind, Out.err_bind, Out.panic_bind]
  case ok => simp
  case err => simp
  case panic => exact absurd ho h7

-- a project text that panics; `c58_project_round_trip_false` has a project that panics only after it is saved
example [MapPol] (ex : PathBuf → Bool) :
    @SketchwareProject.parseFrom _ toyFloats.toFloats ex ⟨s% "{\"my_sc_reg_dt\":\"2022\"}", [], [], [], [], [], none⟩ = .panic := by
  letI := toyFloats.toFloats
  exact (c58_panics ex _).mpr (.inl (by decide +kernel))

end Swrs
