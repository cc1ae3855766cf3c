import Verif.Props.ExamplesDemo
import Verif.Props.ApiSave
import Verif.Props.ProjectConv
/-!
# A project saved through the API, seen by `api_demo1` (C95)
-/
namespace Swrs.Api
open Examples

section
variable [MapPol] [Floats]

omit [Floats] in
theorem resourcesConv_none_nil {g : Nat → UInt32} {t : ResourceType} {is : List ResourceItem} {xs : List (Str × ResourceFileWrapper)}
    (h : resourcesConv g t is none = .ok xs) (hx : (LMap.collect xs).keys = []) : is = [] := by
  cases is with
  | nil => rfl
  | cons i is =>
    simp only [resourcesConv, Out.bind_eq_ok] at h
    obtain ⟨ys, h1, h2⟩ := h
    have h2 := Out.ok.inj h2
    subst h2
    have hn : LMap.collect ((i.name, ResourceFileWrapper.makeRandomId (g is.length) i.fullName t) :: ys) = [] := by
      simpa [LMap.keys] using hx
    have := LMap.get_collect ((i.name, ResourceFileWrapper.makeRandomId (g is.length) i.fullName t) :: ys) i.name
    rw [hn, LMap.last, List.reverse_cons] at this
    have key : ∀ zs : LMap Str ResourceFileWrapper, ∀ w, LMap.get (zs ++ [(i.name, w)]) i.name ≠ none := by
      intro zs w
      induction zs with
      | nil => simp [LMap.get]
      | cons z zs ih =>
        simp only [List.cons_append, LMap.get]
        split
        · simp
        · exact ih
    exact absurd this.symm (key _ _)

/-- A project without resources is opened the same with an empty list of resource files as without one. -/
theorem open_empty (ex : PathBuf → Bool) (rnd : ResourceType → Nat → UInt32) {raw : RawSketchwareProject} {q : Swrs.SketchwareProject}
    {p : SketchwareProject} (hn : raw.resourceFiles = none) (h1 : Swrs.SketchwareProject.parseFrom ex raw = .ok q)
    (h2 : SketchwareProject.tryFrom rnd q = .ok p) (hi : p.resources.images.keys = []) (hs : p.resources.sounds.keys = [])
    (hf : p.resources.fonts.keys = []) :
    ∃ q' p', Swrs.SketchwareProject.parseFrom ex { raw with resourceFiles := some [] } = .ok q' ∧
      SketchwareProject.tryFrom rnd q' = .ok p' ∧ p'.screens = p.screens := by
  rw [c58_parts] at h1
  obtain ⟨a1, a2, a3, a4, a5, a6, a7⟩ := h1
  rw [hn] at a7
  have hq : q.resourceFiles = none := a7
  simp only [SketchwareProject.tryFrom, Out.bind_eq_ok, hq] at h2
  obtain ⟨sl, b1, cv, b2, li, b3, im, b4, so, b5, fo, b6, b7⟩ := h2
  have b7 := Out.ok.inj b7
  subst b7
  have e1 := resourcesConv_none_nil b4 hi
  have e2 := resourcesConv_none_nil b5 hs
  have e3 := resourcesConv_none_nil b6 hf
  have hp : ∃ p', SketchwareProject.tryFrom rnd { q with resourceFiles := some ⟨none, [], [], []⟩ } = .ok p' ∧ p'.screens = sl.1 := by
    simp only [SketchwareProject.tryFrom]
    rw [b1, Out.ok_bind, b2, Out.ok_bind, b3, Out.ok_bind, e1, e2, e3]
    exact ⟨_, rfl, rfl⟩
  obtain ⟨p', hp1, hp2⟩ := hp
  refine ⟨_, p', ?_, hp1, hp2⟩
  rw [c58_parts]
  exact ⟨a1, a2, a3, a4, a5, a6, _, rfl, rfl⟩

end

section
variable [MapPol] [FloatLaws]

/-- C95, proved part: saved by the API and encrypted, a project without resources that meets the conditions of C92 is listed by `api_demo1`, with the
screens, events and blocks it was saved with. Missing: projects with resources, see `c95_saved_false`. -/
theorem c95_saved_partial [DebugText] (ex : PathBuf → Bool) (rnd : ResourceType → Nat → UInt32) (p : SketchwareProject) (hs : p.Survives)
    (ha : p.automaticResFileIds = false) (hr : p.resources = ⟨[], [], []⟩) (hd : c92_Distinct p) (t : Date.DateTime) (hv : t.Valid)
    (hts : Date.timestamp t = p.metadata.timeCreated.toInt64.toInt) (hsave : c92_Saved p t) :
    ∃ q raw, p.toParsed = .ok q ∧ q.tryIntoRaw none = .ok raw ∧
      ∀ (fs : Fs Str) (fails : Str → Bool) (name project file library resource view logic : Str) (rest : List Str),
        c95_Reads fs fails project raw.project → c95_Reads fs fails file raw.file → c95_Reads fs fails library raw.library →
        c95_Reads fs fails resource raw.resource → c95_Reads fs fails view raw.view → c95_Reads fs fails logic raw.logic →
        apiDemo1 rnd ex fs fails (name :: project :: file :: library :: resource :: view :: logic :: rest) =
          ⟨c94_text (c95_lines p), [], .success⟩ := by
  obtain ⟨q, raw, q', r, h1, h2, h3, h4, k1, k2, k3⟩ := c92_round_trip ex rnd p hs ha (by rw [hr]; exact List.nodup_nil)
    (by rw [hr]; exact List.nodup_nil) (by rw [hr]; exact List.nodup_nil) hd t hv hts hsave
  replace k1 := c61_renewed_keys k1
  replace k2 := c61_renewed_keys k2
  replace k3 := c61_renewed_keys k3
  rw [hr] at k1 k2 k3
  have hn : raw.resourceFiles = none := by
    simp only [Swrs.SketchwareProject.tryIntoRaw, Out.bind_eq_ok] at h2
    obtain ⟨_, _, h2⟩ := h2
    rw [← Out.ok.inj h2]
  obtain ⟨q2, p2, h5, h6, h7⟩ := open_empty ex rnd hn h3 h4 k1 k2 k3
  refine ⟨q, raw, h1, h2, fun fs fails name project file library resource view logic rest r1 r2 r3 r4 r5 r6 => ?_⟩
  have ho : c95_Opens rnd ex fs fails (name :: project :: file :: library :: resource :: view :: logic :: rest) p2 :=
    ⟨_, _, _, _, _, _, _, _, _, _, _, _, _, _, q2, rfl, r1, r2, r3, r4, r5, r6, h5, h6⟩
  have only : ∀ p3, c95_Opens rnd ex fs fails (name :: project :: file :: library :: resource :: view :: logic :: rest) p3 → p3 = p2 := by
    have same : ∀ path a b, c95_Reads fs fails path a → c95_Reads fs fails path b → a = b := by
      rintro path a b ⟨d, _, g1, g2⟩ ⟨d', _, g1', g2'⟩
      rw [g1] at g1'; cases g1'
      have := congrArg fromUtf8 (Out.ok.inj (g2.symm.trans g2'))
      rw [fromUtf8_utf8, fromUtf8_utf8] at this
      exact Option.some.inj this
    rintro p3 ⟨_, _, _, _, _, _, _, _, _, _, _, _, _, _, q3, he, s1, s2, s3, s4, s5, s6, h5', h6'⟩
    cases he
    rw [← same _ _ _ r1 s1, ← same _ _ _ r2 s2, ← same _ _ _ r3 s3, ← same _ _ _ r4 s4, ← same _ _ _ r5 s5, ← same _ _ _ r6 s6, h5] at h5'
    cases h5'
    rw [h6] at h6'
    exact (Out.ok.inj h6').symm
  rcases c95_run rnd ex fs fails (name :: project :: file :: library :: resource :: view :: logic :: rest) with ⟨p3, g1, g2⟩ | ⟨g1, _⟩
  · rw [g2, only p3 g1]
    simp only [c95_lines, h7]
  · exact absurd ho (g1 p2)

/-- C95 is false of projects with resources: there is one that is saved and can be opened again, but `api_demo1` panics on its files. -/
theorem c95_saved_false [DebugText] (ex : PathBuf → Bool) (rnd : ResourceType → Nat → UInt32) : ∃ (p : SketchwareProject) (q : Swrs.SketchwareProject) (raw : RawSketchwareProject)
    (q' : Swrs.SketchwareProject) (p' : SketchwareProject), p.toParsed = .ok q ∧ q.tryIntoRaw none = .ok raw ∧ Swrs.SketchwareProject.parseFrom ex raw = .ok q' ∧
      SketchwareProject.tryFrom rnd q' = .ok p' ∧ p'.screens = p.screens ∧
      ∀ (fs : Fs Str) (fails : Str → Bool) (name project file library resource : Str) (rest : List Str),
        c95_Reads fs fails resource raw.resource →
        apiDemo1 rnd ex fs fails (name :: project :: file :: library :: resource :: rest) = ⟨[], [], .panic⟩ := by
  obtain ⟨q, raw, q', r, h1, h2, h3, h4, h5, -⟩ := c92_round_trip ex rnd (c92_project [] [] [c92_button]) (c92_project_survives (.inr rfl)) rfl
    (by simp [c92_project, bareApi]) (by simp [c92_project, bareApi]) (by simp [c92_project, bareApi]) (c92_project_distinct _ _ _)
    ⟨2022, 12, 31, 23, 59, 58⟩ (by decide +kernel) (by show _ = (1672531198 : UInt64).toInt64.toInt; decide +kernel) c92_project_saved
  refine ⟨_, q, raw, q', _, h1, h2, h3, h4, rfl, fun fs fails name project file library resource rest hr => ?_⟩
  have a4 : Resource.parse raw.resource = .ok q'.resource := ((c58_parts ..).mp h3).2.2.2.1
  cases hi : q'.resource.images with
  | cons i is => exact c95_no_resources rnd ex fs fails name project file library resource rest _ _ hr a4 i (.inl (by rw [hi]; simp))
  | nil =>
    exfalso
    obtain ⟨images, _, _, hn, _, _, he⟩ := (c79_project_value rnd q' _ h4).2.2.2.1
    rw [hi] at hn
    have hn : images = [] := List.eq_nil_of_length_eq_zero hn.1
    have he : r.images = LMap.collect images := congrArg Resources.images he
    replace h5 := c61_renewed_keys h5
    rw [he, hn] at h5
    exact absurd h5 (by simp [LMap.collect, LMap.keys, c92_project, bareApi])

/-- The project of C92 without its image. -/
def c95_project : SketchwareProject := { c92_project [] [] [c92_button] with resources := ⟨[], [], []⟩ }

-- the hypotheses are met, and the files exist
example (ex : PathBuf → Bool) (rnd : ResourceType → Nat → UInt32) [DebugText] : ∃ fs : Fs Str,
    apiDemo1 rnd ex fs (fun _ => false) [s% "demo", s% "p", s% "f", s% "l", s% "r", s% "v", s% "g"] =
      ⟨c94_text (c95_lines c95_project), [], .success⟩ := by
  have hs : c95_project.Survives := by
    obtain ⟨⟨a, a2⟩, b, c, d, e, f⟩ := c92_project_survives (item := [c92_button]) (.inr rfl)
    refine ⟨⟨a, a2⟩, b, c, d, e, ?_⟩
    intro m hm x hx
    simp only [c95_project, List.mem_cons, List.not_mem_nil, or_false] at hm
    rcases hm with rfl | rfl | rfl <;> cases hx
  have hd : c92_Distinct c95_project := by
    obtain ⟨a, b, c, d⟩ := c92_project_distinct [] [] [c92_button]
    exact ⟨a, b, c, d⟩
  have hsv : c92_Saved c95_project ⟨2022, 12, 31, 23, 59, 58⟩ := by
    obtain ⟨a, b, c, d, e, f, g, h, i⟩ := c92_project_saved
    exact ⟨a, b, c, d, e, f, g, h, i⟩
  obtain ⟨q, raw, _, _, h⟩ := c95_saved_partial ex rnd c95_project hs rfl rfl hd ⟨2022, 12, 31, 23, 59, 58⟩ (by decide +kernel)
    (by show _ = (1672531198 : UInt64).toInt64.toInt; decide +kernel) hsv
  refine ⟨fun n => some (encryptSw (utf8 (if n = s% "p" then raw.project else if n = s% "f" then raw.file else
    if n = s% "l" then raw.library else if n = s% "r" then raw.resource else if n = s% "v" then raw.view else raw.logic))), ?_⟩
  apply h <;> exact ⟨_, rfl, rfl, c01_decrypt_encrypt _⟩

end
end Swrs.Api
