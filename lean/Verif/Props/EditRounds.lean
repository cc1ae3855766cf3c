import Verif.Props.EditSaved
/-!
# C109: a project that is saved and opened again and again
-/
set_option linter.unusedSectionVars false
namespace Swrs.Api
section
variable [MapPol] [FloatLaws]

/-! ## C109 — Working on a project again and again -/

/-- The same project with the resource ids kept in the way of a project that was opened with its resource files. -/
def SketchwareProject.own (p : SketchwareProject) : SketchwareProject := { p with automaticResFileIds := false }

theorem toParsed_own {p : SketchwareProject} {q : Swrs.SketchwareProject} (h : p.own.toParsed = .ok q) :
    ∃ q', p.toParsed = .ok q' ∧ q = { q' with resourceFiles := none } ∧
      q'.resourceFiles = if p.automaticResFileIds then some ⟨p.customIcon, [], [], []⟩ else none := by
  have back : ∀ {es : List (Str × ResourceFileWrapper)} {items files'}, resourcesBack false es [] = .ok (items, files') →
      ∃ files, resourcesBack p.automaticResFileIds es [] = .ok (items, files) ∧ (p.automaticResFileIds = true → files = []) := by
    intro es items files' h
    have key : ∀ (a b : Bool) (es : List (Str × ResourceFileWrapper)) (f g : HMap Str ResourceFileWrapper) items files',
        resourcesBack a es f = .ok (items, files') → ∃ files, resourcesBack b es g = .ok (items, files) := by
      intro a b es
      induction es with
      | nil => intro f g items files' h; cases h; exact ⟨_, rfl⟩
      | cons e es ih =>
        obtain ⟨id, file⟩ := e
        intro f g items files' h
        simp only [resourcesBack, Out.bind_eq_ok] at h ⊢
        obtain ⟨n, h1, ⟨is, fs⟩, h2, h3⟩ := h
        obtain ⟨fs', h4⟩ := ih _ (if b then g else g.insert n file) _ _ h2
        cases h3
        exact ⟨fs', n, h1, (is, fs'), h4, rfl⟩
    obtain ⟨files, hf⟩ := key _ p.automaticResFileIds es [] [] _ _ h
    exact ⟨files, hf, (resourcesBack_ok hf).2⟩
  simp only [SketchwareProject.toParsed, Out.bind_eq_ok] at h
  obtain ⟨⟨logics, layouts, fabs⟩, h1, ⟨images, imageFiles⟩, h2, ⟨sounds, soundFiles⟩, h3, ⟨fonts, fontFiles⟩, h4, h5⟩ := h
  obtain ⟨f1, k1, e1⟩ := back (es := p.resources.images) h2
  obtain ⟨f2, k2, e2⟩ := back (es := p.resources.sounds) h3
  obtain ⟨f3, k3, e3⟩ := back (es := p.resources.fonts) h4
  have h5 := Out.ok.inj h5
  refine ⟨{ q with resourceFiles := if p.automaticResFileIds then some ⟨p.customIcon, f1, f2, f3⟩ else none }, ?_, ?_, ?_⟩
  · simp only [SketchwareProject.toParsed]
    simp only [SketchwareProject.own] at h1
    rw [h1, Out.ok_bind, k1, Out.ok_bind, k2, Out.ok_bind, k3, Out.ok_bind, ← h5]
    rfl
  · rw [← h5]; rfl
  · cases ha : p.automaticResFileIds with
    | false => rfl
    | true => simp [e1 ha, e2 ha, e3 ha]

/-- `p` is saved, and its six texts are opened, without a list of resource files, as `p'`. -/
def c109_SavedAndOpened (ex : PathBuf → Bool) (rnd : ResourceType → Nat → UInt32) (p p' : SketchwareProject) : Prop :=
  ∃ q ws raw q', p.toParsed = .ok q ∧ q.ResOrder ws ∧ q.tryIntoRaw ws = .ok raw ∧
    Swrs.SketchwareProject.parseFrom ex { raw with resourceFiles := none } = .ok q' ∧ SketchwareProject.tryFrom rnd q' = .ok p'

/-- `p'` is `p` but for the icon, which is gone, and the resource files, which are new ones with the old ids and names. -/
def c109_SameBut (p p' : SketchwareProject) : Prop :=
  ∃ r, p' = { p with customIcon := none, resources := r, automaticResFileIds := true } ∧ c61_Renewed .image p.resources.images r.images ∧
    c61_Renewed .sound p.resources.sounds r.sounds ∧ c61_Renewed .font p.resources.fonts r.fonts

theorem intoVec_icon (icon : Option ResourceFileWrapper) (ws : List ResourceFileWrapper) :
    ResourceFiles.IntoVec ⟨icon, [], [], []⟩ ws ↔ ws = icon.toList := by
  constructor
  · rintro ⟨im, so, fo, h1, h2, h3, rfl⟩
    cases List.Perm.eq_nil h1
    cases List.Perm.eq_nil h2
    cases List.Perm.eq_nil h3
    simp
  · rintro rfl
    exact ⟨[], [], [], .refl _, .refl _, .refl _, by simp⟩

/-- C109: a project that is kept (C102), whichever way it was opened, is saved and opened as the same project. -/
theorem c109_opens {p : SketchwareProject} {t : Date.DateTime} (hg : c102_Good p.own t) (ex : PathBuf → Bool)
    (rnd : ResourceType → Nat → UInt32) : ∃ p', c109_SavedAndOpened ex rnd p p' ∧ c109_SameBut p p' := by
  obtain ⟨q, raw, q', r, h1, h2, h3, h4, h5⟩ := c102_kept hg ex rnd
  obtain ⟨q₀, k1, rfl, k3⟩ := toParsed_own h1
  have hw : ∃ ws, q₀.ResOrder ws := by
    cases ha : p.automaticResFileIds with
    | false => exact ⟨none, by rw [ha] at k3; exact k3⟩
    | true => exact ⟨some p.customIcon.toList, _, by simpa [ha] using k3, (intoVec_icon _ _).mpr rfl⟩
  obtain ⟨ws, hw⟩ := hw
  simp only [Swrs.SketchwareProject.tryIntoRaw, Out.bind_eq_ok] at h2
  obtain ⟨project, h2, h6⟩ := h2
  have h6 := Out.ok.inj h6
  refine ⟨_, ⟨q₀, ws, { raw with resourceFiles := ws }, q', k1, hw, ?_, ?_, h4⟩, r, rfl, h5⟩
  · simp only [Swrs.SketchwareProject.tryIntoRaw]
    rw [h2, Out.ok_bind, ← h6]
    rfl
  · rw [← h6] at h3 ⊢
    exact h3

/-- C109: and nothing else can come of it. -/
theorem c109_only {p p' : SketchwareProject} {t : Date.DateTime} (hg : c102_Good p.own t) {ex : PathBuf → Bool}
    {rnd : ResourceType → Nat → UInt32} (h : c109_SavedAndOpened ex rnd p p') : c109_SameBut p p' := by
  obtain ⟨p'', ⟨q, ws, raw, q', h1, h2, h3, h4, h5⟩, hs⟩ := c109_opens hg ex rnd
  obtain ⟨r, ws', raw', r', k1, k2, k3, k4, k5⟩ := h
  rw [h1] at k1
  have k1 := Out.ok.inj k1
  subst k1
  simp only [Swrs.SketchwareProject.tryIntoRaw, Out.bind_eq_ok] at h3 k3
  obtain ⟨a, h3, h6⟩ := h3
  obtain ⟨b, k3, k6⟩ := k3
  rw [h3] at k3
  have k3 := Out.ok.inj k3
  subst k3
  have h6 := Out.ok.inj h6
  have k6 := Out.ok.inj k6
  subst h6
  subst k6
  have k4 := Out.ok.inj (h4.symm.trans k4)
  subst k4
  have k5 := Out.ok.inj (h5.symm.trans k5)
  subst k5
  exact hs

theorem c61_renewed_trans {t : ResourceType} {a b c : LMap Str ResourceFileWrapper} (h : c61_Renewed t a b) (k : c61_Renewed t b c) :
    c61_Renewed t a c := by
  unfold c61_Renewed at h k ⊢
  induction h generalizing c with
  | nil => cases k; exact .nil
  | cons h _ ih =>
    cases k with
    | cons k1 k2 =>
      obtain ⟨e1, i, n, h2, h3⟩ := h
      obtain ⟨e2, i', n', h4, h5⟩ := k1
      rw [h3] at h4
      cases h4
      exact .cons ⟨e2.trans e1, i', n, h2, h5⟩ (ih k2)

/-- C109: the project that is opened can be worked on in the same way. -/
theorem c109_good {p p' : SketchwareProject} {t : Date.DateTime} (hg : c102_Good p.own t) (h : c109_SameBut p p') : c102_Good p'.own t := by
  obtain ⟨r, rfl, r1, r2, r3⟩ := h
  obtain ⟨a1, _, a3, a4, a5, a6, a7, a8, a9⟩ := hg
  have names : ∀ {t : ResourceType} {a b : LMap Str ResourceFileWrapper}, c61_Renewed t a b →
      ∀ e ∈ b, ∃ n, (e.2.getFullName : Out Empty Str) = .ok n := by
    intro t a b h
    unfold c61_Renewed at h
    induction h with
    | nil => simp
    | cons h _ ih =>
      intro e he
      rcases List.mem_cons.mp he with rfl | he
      · obtain ⟨_, i, n, _, h3⟩ := h
        exact ⟨n, by rw [h3]; rfl⟩
      · exact ih e he
  refine ⟨⟨⟨a1.names.java, a1.names.distinct⟩, a1.screens, a1.customViews, a1.customViewNames, a1.apart, ?_⟩, rfl, ?_, ?_, ?_,
    ⟨a6.layouts, a6.logics, a6.maps, a6.code⟩, a7, a8,
    ⟨a9.date, a9.file, a9.names, a9.onlyLast, a9.fabs, a9.views, a9.fabViews, a9.screens, a9.code⟩⟩
  · intro m hm
    simp only [List.mem_cons, List.not_mem_nil, or_false] at hm
    rcases hm with rfl | rfl | rfl
    · exact names r1
    · exact names r2
    · exact names r3
  · show r.images.keys.Nodup
    rw [c61_renewed_keys r1]; exact a3
  · show r.sounds.keys.Nodup
    rw [c61_renewed_keys r2]; exact a4
  · show r.fonts.keys.Nodup
    rw [c61_renewed_keys r3]; exact a5

/-- C109: however often a project that is kept is saved and opened, it stays the same. -/
theorem c109_rounds {p : Nat → SketchwareProject} {t : Date.DateTime} (hg : c102_Good (p 0).own t) (ex : PathBuf → Bool)
    (rnd : Nat → ResourceType → Nat → UInt32) (h : ∀ n, c109_SavedAndOpened ex (rnd n) (p n) (p (n + 1))) (n : Nat) :
    c109_SameBut (p 0) (p (n + 1)) ∧ c102_Good (p (n + 1)).own t := by
  induction n with
  | zero =>
    have := c109_only hg (h 0)
    exact ⟨this, c109_good hg this⟩
  | succ n ih =>
    obtain ⟨⟨r, e, r1, r2, r3⟩, hg'⟩ := ih
    have hs := c109_only hg' (h (n + 1))
    refine ⟨?_, c109_good hg' hs⟩
    obtain ⟨r', e', k1, k2, k3⟩ := hs
    rw [e] at e' k1 k2 k3
    exact ⟨r', e', c61_renewed_trans r1 k1, c61_renewed_trans r2 k2, c61_renewed_trans r3 k3⟩

theorem resourcesConv_missing (rnd : Nat → UInt32) (t : ResourceType) (items : List ResourceItem) :
    (items = [] ∧ resourcesConv rnd t items (some []) = .ok []) ∨
      ∃ i ∈ items, resourcesConv rnd t items (some []) = .err (.missingResourceFile i.name i.fullName t) := by
  cases items with
  | nil => exact .inl ⟨rfl, rfl⟩
  | cons i items => exact .inr ⟨i, by simp, rfl⟩

theorem resourcesBack_nil {auto : Bool} {es : List (Str × ResourceFileWrapper)} {items files'}
    (h : resourcesBack auto es [] = .ok (items, files')) (hi : items = []) : es = [] := by
  subst hi
  cases (resourcesBack_ok h).1
  rfl

/-- C109: a project that was opened without its resource files is saved with a list of resource files, in which there is nothing but its icon.
Opened with that list it is the same project, with its icon, if it has no resources (and the icon is a file in the right folder);
if it has resources, opening it is an error. -/
theorem c109_files {p : SketchwareProject} {t : Date.DateTime} (hg : c102_Good p.own t) (ha : p.automaticResFileIds = true)
    (ex : PathBuf → Bool) (rnd : ResourceType → Nat → UInt32) (hicon : ∀ icon, p.customIcon = some icon → InSlot ex icon .icon) :
    ∃ q raw q', p.toParsed = .ok q ∧ (∀ ws, q.ResOrder ws ↔ ws = some p.customIcon.toList) ∧
      q.tryIntoRaw (some p.customIcon.toList) = .ok raw ∧ Swrs.SketchwareProject.parseFrom ex raw = .ok q' ∧
      (p.resources = ⟨[], [], []⟩ → SketchwareProject.tryFrom rnd q' = .ok { p with automaticResFileIds := false }) ∧
      (p.resources ≠ ⟨[], [], []⟩ →
        ∃ name fullName kind, SketchwareProject.tryFrom rnd q' = .err (.missingResourceFile name fullName kind)) := by
  have hsurv : p.Survives := by
    obtain ⟨a1, a2, a3, a4, a5, a6⟩ := hg.survives
    exact ⟨⟨a1.java, a1.distinct⟩, a2, a3, a4, a5, a6⟩
  obtain ⟨q, hq, ls, h1, h2⟩ := survives_parts hsurv
  obtain ⟨q1, hq1, -⟩ := survives_parts hg.survives
  obtain ⟨q₀, k1, rfl, k3⟩ := toParsed_own hq1
  have k1 := Out.ok.inj (hq.symm.trans k1)
  subst k1
  rw [if_pos ha] at k3
  obtain ⟨raw, k4, k5⟩ := c92_saved_partial ex p.own _ hq1 hg.distinct t hg.valid hg.date (by nofun) none rfl
  obtain ⟨q2, k6, k7⟩ := k5.mpr hg.saved
  simp only [Swrs.SketchwareProject.tryIntoRaw, Out.bind_eq_ok] at k4
  obtain ⟨project, k4, k8⟩ := k4
  have k8 := Out.ok.inj k8
  have hfiles : ResourceFiles.tryFrom ex p.customIcon.toList = .ok ⟨p.customIcon, [], [], []⟩ := by
    cases hi : p.customIcon with
    | none => rfl
    | some icon =>
      rcases ResourceFiles.step_cases ex .empty icon with ⟨ty, n, g1, g2⟩ | ⟨e, g1, _⟩
      · have := ResourceFiles.InSlot.unique g1 (hicon icon hi)
        cases ty with
        | customIcon =>
          show ResourceFiles.loop ex .empty [icon] = _
          rw [ResourceFiles.loop, g2]
          rfl
        | _ => cases this
      · exact (ResourceFiles.SlotError.no_slot g1 (hicon icon hi)).elim
  have hsame : ({ q2 with resourceFiles := some ⟨p.customIcon, [], [], []⟩ } : Swrs.SketchwareProject).Same q :=
    ⟨k7.project, k7.file, k7.library, k7.resource, k7.view, k7.logic, by
      rw [k3]; exact ⟨rfl, fun _ => rfl, fun _ => rfl, fun _ => rfl⟩⟩
  refine ⟨q, { raw with resourceFiles := some p.customIcon.toList }, { q2 with resourceFiles := some ⟨p.customIcon, [], [], []⟩ }, hq,
    ?_, ?_, ?_, ?_, ?_⟩
  · intro ws
    cases ws with
    | none => simp [Swrs.SketchwareProject.ResOrder, k3]
    | some ws =>
      simp only [Swrs.SketchwareProject.ResOrder, k3, Option.some.injEq]
      constructor
      · rintro ⟨r, rfl, h⟩
        exact (intoVec_icon _ _).mp h
      · intro h
        exact ⟨_, rfl, (intoVec_icon _ _).mpr h⟩
  · simp only [Swrs.SketchwareProject.tryIntoRaw]
    rw [k4, Out.ok_bind, ← k8]
    rfl
  · rw [c58_parts] at k6 ⊢
    obtain ⟨b1, b2, b3, b4, b5, b6, b7⟩ := k6
    exact ⟨b1, b2, b3, b4, b5, b6, _, hfiles, rfl⟩
  · intro hr
    obtain ⟨q3, h3, h4⟩ := c61_automatic rnd p hsurv ha hr
    have h3 := Out.ok.inj (hq.symm.trans h3)
    subst h3
    rw [c92_same rnd hsame]
    exact h4
  · intro hr
    rw [c92_same rnd hsame]
    obtain ⟨_, _, _, _, _, _, _, r1, r2, r3, hproj, _, hlib, _, _, _⟩ := toParsed_ok hq
    simp only [SketchwareProject.tryFrom, h1, h2, hlib, c52_libraries, k3, Option.map_some, Out.ok_bind]
    rcases resourcesConv_missing (rnd .image) .image q.resource.images with ⟨e1, f1⟩ | ⟨i, _, f1⟩
    · rcases resourcesConv_missing (rnd .sound) .sound q.resource.sounds with ⟨e2, f2⟩ | ⟨i, _, f2⟩
      · rcases resourcesConv_missing (rnd .font) .font q.resource.fonts with ⟨e3, f3⟩ | ⟨i, _, f3⟩
        · refine absurd ?_ hr
          have g1 := resourcesBack_nil r1 e1
          have g2 := resourcesBack_nil r2 e2
          have g3 := resourcesBack_nil r3 e3
          show (⟨p.resources.images, p.resources.sounds, p.resources.fonts⟩ : Resources) = _
          rw [g1, g2, g3]
        · rw [f1, Out.ok_bind, f2, Out.ok_bind, f3]
          exact ⟨_, _, _, rfl⟩
      · rw [f1, Out.ok_bind, f2]
        exact ⟨_, _, _, rfl⟩
    · rw [f1]
      exact ⟨_, _, _, rfl⟩

-- a project with two screens, a custom view and a picture: it goes through one round after another, but opening it with the list of
-- files that it is saved with after the first round is an error
example (ex : PathBuf → Bool) (rnd : Nat → ResourceType → Nat → UInt32) : ∃ p : Nat → SketchwareProject,
    p 0 = c92_project [] [] [c92_button] ∧ c102_Good (p 0).own ⟨2022, 12, 31, 23, 59, 58⟩ ∧
    (∀ n, c109_SavedAndOpened ex (rnd n) (p n) (p (n + 1))) ∧
    ∃ q raw q' name fullName kind, (p 1).toParsed = .ok q ∧ q.tryIntoRaw (some []) = .ok raw ∧
      Swrs.SketchwareProject.parseFrom ex raw = .ok q' ∧
      SketchwareProject.tryFrom (rnd 1) q' = .err (.missingResourceFile name fullName kind) := by
  have next : ∀ n (p : { p : SketchwareProject // c102_Good p.own ⟨2022, 12, 31, 23, 59, 58⟩ }),
      ∃ p' : { p : SketchwareProject // c102_Good p.own ⟨2022, 12, 31, 23, 59, 58⟩ }, c109_SavedAndOpened ex (rnd n) p.1 p'.1 := fun n p =>
    (c109_opens p.2 ex (rnd n)).elim fun p' h => ⟨⟨p', c109_good p.2 h.2⟩, h.1⟩
  let p : Nat → { p : SketchwareProject // c102_Good p.own ⟨2022, 12, 31, 23, 59, 58⟩ } := fun n =>
    n.rec ⟨c92_project [] [] [c92_button], c102_project⟩ fun n p => (next n p).choose
  have hstep : ∀ n, c109_SavedAndOpened ex (rnd n) (p n).1 (p (n + 1)).1 := fun n => (next n (p n)).choose_spec
  refine ⟨fun n => (p n).1, rfl, (p 0).2, hstep, ?_⟩
  obtain ⟨r, e, r1, _⟩ := c109_only (p 0).2 (hstep 0)
  simp only [Nat.zero_add] at e
  obtain ⟨q, raw, q', h1, _, h3, h4, _, h6⟩ := c109_files (p 1).2 (by rw [e]) ex (rnd 1) (by rw [e]; nofun)
  have hi : (p 1).1.customIcon = none := by rw [e]
  rw [hi] at h3
  obtain ⟨name, fullName, kind, h7⟩ := h6 (by
    rw [e]
    intro hr
    have hr : r = ⟨[], [], []⟩ := hr
    rw [hr] at r1
    cases r1)
  exact ⟨q, raw, q', name, fullName, kind, h1, h3, h4, h7⟩

end
end Swrs.Api
