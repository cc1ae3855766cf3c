import Verif.Model.ApiProject
import Verif.Base.All2
/-!
# Lemmas about projects of the API
-/
namespace Swrs.Out
variable {ε ε' α : Type}

theorem mapErr_eq_err {x : Out ε α} {f : ε → ε'} {e : ε'} : mapErr f x = .err e ↔ ∃ e', x = .err e' ∧ e = f e' := by
  cases x <;> simp [eq_comm]

theorem ofOption_eq_err {o : Option α} {e e' : ε} : ofOption e o = .err e' ↔ o = none ∧ e = e' := by
  cases o <;> simp
end Swrs.Out

namespace Swrs.Api
section
variable [MapPol] [Floats]

theorem tryFrom_ok {rnd : ResourceType → Nat → UInt32} {val : Swrs.SketchwareProject} {p : SketchwareProject} :
    SketchwareProject.tryFrom rnd val = .ok p → ∃ screens layouts cvs libs images sounds fonts,
      activitiesConv val.file.activities val.view.layouts val.logic.screens val.view.fabs = .ok (screens, layouts) ∧
      customViewsConv val.file.customViews layouts = .ok cvs ∧
      librariesConv val.library = .ok libs ∧
      resourcesConv (rnd .image) .image val.resource.images (val.resourceFiles.map (·.images)) = .ok images ∧
      resourcesConv (rnd .sound) .sound val.resource.sounds (val.resourceFiles.map (·.sounds)) = .ok sounds ∧
      resourcesConv (rnd .font) .font val.resource.fonts (val.resourceFiles.map (·.fonts)) = .ok fonts ∧
      p.screens = screens ∧ p.customViews = cvs ∧ p.libraries = libs ∧
      p.resources = ⟨LMap.collect images, LMap.collect sounds, LMap.collect fonts⟩ ∧
      p.customIcon = val.resourceFiles.bind (·.customIcon) ∧ p.automaticResFileIds = val.resourceFiles.isNone ∧
      p.metadata = ⟨val.project.id, val.project.appName, val.project.workspaceName, val.project.packageName,
        val.project.dateCreated, val.project.sketchwareVersion, val.project.versionName, val.project.versionCode⟩ ∧
      p.colors = ⟨val.project.colorPalette.colorPrimary, val.project.colorPalette.colorPrimaryDark,
        val.project.colorPalette.colorAccent, val.project.colorPalette.colorControlNormal,
        val.project.colorPalette.colorControlHighlight⟩ := by
  intro h
  simp only [SketchwareProject.tryFrom, Out.bind_eq_ok] at h
  obtain ⟨⟨screens, layouts⟩, h1, cvs, h2, libs, h3, images, h4, sounds, h5, fonts, h6, h7⟩ := h
  cases h7
  exact ⟨screens, layouts, cvs, libs, images, sounds, fonts, h1, h2, h3, h4, h5, h6, rfl, rfl, rfl, rfl, rfl, rfl, rfl, rfl⟩

theorem toParsed_ok {p : SketchwareProject} {q : Swrs.SketchwareProject} :
    p.toParsed = .ok q → ∃ logics layouts fabs imageFiles soundFiles fontFiles,
      screensBack p.screens [] [] [] = .ok (logics, layouts, fabs) ∧
      resourcesBack p.automaticResFileIds p.resources.images [] = .ok (q.resource.images, imageFiles) ∧
      resourcesBack p.automaticResFileIds p.resources.sounds [] = .ok (q.resource.sounds, soundFiles) ∧
      resourcesBack p.automaticResFileIds p.resources.fonts [] = .ok (q.resource.fonts, fontFiles) ∧
      q.project = { id := p.metadata.localId, appName := p.metadata.name, workspaceName := p.metadata.workspaceName
                    packageName := p.metadata.packageName, versionCode := p.metadata.versionCode
                    versionName := p.metadata.versionName, dateCreated := p.metadata.timeCreated
                    customIcon := p.customIcon.isSome
                    colorPalette := {
                      colorPrimary := p.colors.colorPrimary, colorPrimaryDark := p.colors.colorPrimaryDark
                      colorAccent := p.colors.colorAccent, colorControlNormal := p.colors.colorControlNormal
                      colorControlHighlight := p.colors.colorControlHighlight }
                    sketchwareVersion := p.metadata.sketchwareVersion } ∧
      q.file = ⟨p.screens.map Screen.toFileItem, p.customViews.map CustomView.toFileItem⟩ ∧
      q.library = librariesBack p.libraries ∧
      q.view = ⟨customViewsBack p.customViews layouts, fabs⟩ ∧ q.logic = ⟨logics⟩ ∧
      q.resourceFiles = (if p.automaticResFileIds then some ⟨p.customIcon, imageFiles, soundFiles, fontFiles⟩ else none) := by
  intro h
  simp only [SketchwareProject.toParsed, Out.bind_eq_ok] at h
  obtain ⟨⟨logics, layouts, fabs⟩, h1, ⟨images, imageFiles⟩, h2, ⟨sounds, soundFiles⟩, h3, ⟨fonts, fontFiles⟩, h4, h5⟩ := h
  cases h5
  exact ⟨logics, layouts, fabs, imageFiles, soundFiles, fontFiles, h1, h2, h3, h4, rfl, rfl, rfl, rfl, rfl, rfl⟩

omit [MapPol] [Floats] in
theorem resourcesConv_none (rnd : Nat → UInt32) (t : ResourceType) (items : List ResourceItem) :
    ∃ es, resourcesConv rnd t items none = .ok es ∧
      All₂ (fun i e => e.1 = i.name ∧ ∃ n, e.2 = .u32Id n i.fullName t) items es := by
  induction items with
  | nil => exact ⟨[], rfl, .nil⟩
  | cons i items ih =>
    obtain ⟨es, h, hes⟩ := ih
    exact ⟨(i.name, .u32Id (rnd items.length) i.fullName t) :: es, by simp [resourcesConv, h], .cons ⟨rfl, _, rfl⟩ hes⟩

omit [MapPol] [Floats] in
theorem resourcesConv_some {rnd : Nat → UInt32} {t : ResourceType} {items : List ResourceItem}
    {files : HMap Str ResourceFileWrapper} {es : List (Str × ResourceFileWrapper)}
    (h : resourcesConv rnd t items (some files) = .ok es) :
    All₂ (fun i e => e.1 = i.name ∧ files.get i.fullName = some e.2) items es ∧ (items.map (·.fullName)).Nodup := by
  induction items generalizing files es with
  | nil =>
    cases h
    exact ⟨.nil, List.nodup_nil⟩
  | cons i items ih =>
    simp only [resourcesConv, Out.bind_eq_ok, Out.ofOption_eq_ok] at h
    obtain ⟨f, hf, fs, hfs, h⟩ := h
    cases h
    obtain ⟨h1, h2⟩ := ih hfs
    have hget : ∀ k f, HMap.get (LMap.erase files i.fullName) k = some f → k ≠ i.fullName ∧ files.get k = some f := by
      intro k f h
      rw [HMap.get, LMap.get_erase] at h
      split at h
      · cases h
      · exact ⟨by assumption, h⟩
    refine ⟨.cons ⟨rfl, hf⟩ (h1.imp fun a b h => ⟨h.1, (hget _ _ h.2).2⟩), ?_⟩
    rw [List.map_cons, List.nodup_cons]
    refine ⟨?_, h2⟩
    intro hm
    obtain ⟨j, hj, he⟩ := List.mem_map.mp hm
    obtain ⟨e, _, _, he'⟩ := h1.left j hj
    exact (hget _ _ he').1 he

omit [MapPol] [Floats] in
theorem resourcesBack_ok {auto : Bool} {es : List (Str × ResourceFileWrapper)} {files files' : HMap Str ResourceFileWrapper}
    {items : List ResourceItem} (h : resourcesBack auto es files = .ok (items, files')) :
    All₂ (fun e i => i.name = e.1 ∧ (e.2.getFullName : Out Empty Str) = .ok i.fullName ∧ i.type = 1) es items ∧
    (auto = true → files' = files) := by
  induction es generalizing files items with
  | nil =>
    cases h
    exact ⟨.nil, fun _ => rfl⟩
  | cons e es ih =>
    obtain ⟨id, file⟩ := e
    simp only [resourcesBack, Out.bind_eq_ok] at h
    obtain ⟨fullName, hn, ⟨is, fs⟩, hr, h⟩ := h
    cases h
    obtain ⟨h1, h2⟩ := ih hr
    refine ⟨.cons ⟨rfl, hn, rfl⟩ h1, fun ha => ?_⟩
    rw [h2 ha, if_pos ha]
end
end Swrs.Api
