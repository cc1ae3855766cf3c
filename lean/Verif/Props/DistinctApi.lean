import Verif.Props.EditRounds
/-!
# C112: different projects are saved as different texts
-/
namespace Swrs.Api

variable [MapPol] [FloatLaws]

omit [MapPol] [FloatLaws] in
/-- Two maps of resources have the same ids and file names, in the same order. -/
def c112_SameNames (a b : LMap Str ResourceFileWrapper) : Prop :=
  All₂ (fun x y => x.1 = y.1 ∧ ∃ name, (x.2.getFullName : Out Empty Str) = .ok name ∧ (y.2.getFullName : Out Empty Str) = .ok name) a b

omit [MapPol] [FloatLaws] in
theorem sameNames_of_renewed {t : ResourceType} {a b r : LMap Str ResourceFileWrapper} (ha : c61_Renewed t a r) (hb : c61_Renewed t b r) :
    c112_SameNames a b := by
  unfold c61_Renewed at ha hb
  unfold c112_SameNames
  induction ha generalizing b with
  | nil => cases hb; exact .nil
  | cons h _ ih =>
    cases hb with
    | cons k ks =>
      obtain ⟨h1, i, n, h2, h3⟩ := h
      obtain ⟨k1, j, m, k2, k3⟩ := k
      rw [h3] at k3
      injection k3 with _ hn _
      subst hn
      exact .cons ⟨h1.symm.trans k1, n, h2, k2⟩ (ih ks)

/-- C112, proved part for the API: two projects that are kept (C102) and that are saved as the same six texts are the same but for the
icon and the resource files, which are not part of the texts; the ids and the file names of the resources are the same. Missing: the
projects that are not kept, for which the property is false (`c112_project_false`). -/
theorem c112_api_partial {p₁ p₂ : SketchwareProject} {t₁ t₂ : Date.DateTime} (h₁ : c102_Good p₁.own t₁) (h₂ : c102_Good p₂.own t₂)
    {q₁ q₂ : Swrs.SketchwareProject} {ws₁ ws₂ : Option (List ResourceFileWrapper)} {raw₁ raw₂ : RawSketchwareProject}
    (hq₁ : p₁.toParsed = .ok q₁) (hq₂ : p₂.toParsed = .ok q₂) (hw₂ : q₂.ResOrder ws₂)
    (hr₁ : q₁.tryIntoRaw ws₁ = .ok raw₁) (hr₂ : q₂.tryIntoRaw ws₂ = .ok raw₂)
    (same : raw₁.project = raw₂.project ∧ raw₁.file = raw₂.file ∧ raw₁.library = raw₂.library ∧ raw₁.resource = raw₂.resource ∧
      raw₁.view = raw₂.view ∧ raw₁.logic = raw₂.logic) :
    p₂ = { p₁ with customIcon := p₂.customIcon, resources := p₂.resources, automaticResFileIds := p₂.automaticResFileIds } ∧
    c112_SameNames p₁.resources.images p₂.resources.images ∧ c112_SameNames p₁.resources.sounds p₂.resources.sounds ∧
    c112_SameNames p₁.resources.fonts p₂.resources.fonts := by
  let ex : PathBuf → Bool := fun _ => true
  let rnd : ResourceType → Nat → UInt32 := fun _ _ => 0
  obtain ⟨p', ⟨q, ws, raw, q', e1, e2, e3, e4, e5⟩, r, hp, i1, i2, i3⟩ := c109_opens h₁ ex rnd
  rw [hq₁] at e1
  have e1 := Out.ok.inj e1
  subst e1
  have texts : { raw with resourceFiles := none } = { raw₂ with resourceFiles := none } := by
    simp only [Swrs.SketchwareProject.tryIntoRaw, Out.bind_eq_ok] at e3 hr₁
    obtain ⟨a, e3, e6⟩ := e3
    obtain ⟨b, f3, f6⟩ := hr₁
    rw [e3] at f3
    have f3 := Out.ok.inj f3
    subst f3
    have e6 := Out.ok.inj e6
    have f6 := Out.ok.inj f6
    subst e6; subst f6
    obtain ⟨s1, s2, s3, s4, s5, s6⟩ := same
    simp only at s1 s2 s3 s4 s5 s6
    simp only [s1, s2, s3, s4, s5, s6]
  rw [texts] at e4
  obtain ⟨r', hp', k1, k2, k3⟩ := c109_only h₂ ⟨q₂, ws₂, raw₂, q', hq₂, hw₂, hr₂, e4, e5⟩
  rw [hp] at hp'
  have hr : r = r' := congrArg SketchwareProject.resources hp'
  subst hr
  refine ⟨?_, sameNames_of_renewed i1 k1, sameNames_of_renewed i2 k2, sameNames_of_renewed i3 k3⟩
  exact (congrArg (fun x : SketchwareProject =>
    { x with customIcon := p₂.customIcon, resources := p₂.resources, automaticResFileIds := p₂.automaticResFileIds }) hp').symm

/-- A project and the same project with other variables are kept and saved as different texts. -/
example : ∃ p₁ p₂ : SketchwareProject,
    c102_Good p₁.own ⟨2022, 12, 31, 23, 59, 58⟩ ∧ c102_Good p₂.own ⟨2022, 12, 31, 23, 59, 58⟩ ∧
    (∀ (q₁ q₂ : Swrs.SketchwareProject) (raw₁ raw₂ : RawSketchwareProject), p₁.toParsed = .ok q₁ → p₂.toParsed = .ok q₂ → q₂.ResOrder none → q₁.tryIntoRaw none = .ok raw₁ → q₂.tryIntoRaw none = .ok raw₂ →
      raw₁ ≠ raw₂) := by
  let vs : LMap Str Variable := [(s% "y", ⟨s% "y", .string⟩)]
  let s : Screen := { survivingScreen with layout := [] }
  have hg : c102_Good (c92_project [] [] [c92_button]) ⟨2022, 12, 31, 23, 59, 58⟩ := c102_project
  let p₂ := (c92_project [] [] [c92_button]).withScreen [] { s with variables := vs } (c92_project [] [] [c92_button]).screens.tail
  have h1 : c102_Good p₂ ⟨2022, 12, 31, 23, 59, 58⟩ := (c102_variables hg (before := []) (s := s) rfl vs (by simp [vs, LMap.keys]) (by simp [vs])).1
    ⟨by simp [vs], by intro e he c hc; simp [vs] at he; subst he; simp at hc; subst hc; decide⟩
  refine ⟨c92_project [] [] [c92_button], p₂, hg, h1, ?_⟩
  intro q₁ q₂ raw₁ raw₂ a1 a2 a3 a4 a5 he
  subst he
  have := (c112_api_partial (p₁ := c92_project [] [] [c92_button]) (p₂ := p₂) hg h1 a1 a2 a3 a4 a5 ⟨rfl, rfl, rfl, rfl, rfl, rfl⟩).1
  have := congrArg (fun p : SketchwareProject => p.screens.map (·.variables)) this
  simp [p₂, SketchwareProject.withScreen, c92_project, vs, s, survivingScreen, plainScreen] at this

end Swrs.Api
