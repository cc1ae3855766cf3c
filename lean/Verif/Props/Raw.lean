import Verif.Proofs.ResourceFiles
import Verif.Model.Sketch
import Verif.Props.Crypto
import Verif.Props.Project
import Verif.Props.Files
import Verif.Props.View
import Verif.Props.Logic
/-!
# C57, C58: resource files and whole projects
-/
namespace Swrs

/-! ## C57 — Resource files are sorted by kind -/

/-- C57: the conversion succeeds exactly when every file belongs in a slot (its kind and its name), and then every slot
holds the last file that belongs in it. -/
theorem c57_sorted (ex : PathBuf → Bool) (ws : List ResourceFileWrapper) :
    ((∃ r, ResourceFiles.tryFrom ex ws = .ok r) ↔ ∀ w ∈ ws, ∃ s, InSlot ex w s) ∧
    (∀ r, ResourceFiles.tryFrom ex ws = .ok r → ∀ s w, r.at s = some w ↔ LastIn ex ws s w) := by
  have key := ResourceFiles.loop_spec ex ws _ ResourceFiles.wf_empty
  unfold ResourceFiles.tryFrom
  rcases key with ⟨hall, r', h1, h2, h3⟩ | ⟨pre, w, post, e, rfl, h1, h2, h3⟩
  · refine ⟨⟨fun _ => hall, fun _ => ⟨r', h1⟩⟩, fun r hr s w => ?_⟩
    rw [h1] at hr; simp at hr; subst hr
    rw [h3, ResourceFiles.at_empty]; simp
  · rw [h3]
    refine ⟨⟨by simp, fun h => ?_⟩, by simp⟩
    obtain ⟨s, hs⟩ := h w (by simp)
    exact (ResourceFiles.SlotError.no_slot h2 hs).elim

/-- C57: otherwise it reports the first file that belongs in no slot: missing, or outside the four folders. It never panics. -/
theorem c57_rejects (ex : PathBuf → Bool) (ws : List ResourceFileWrapper) :
    (∀ e, ResourceFiles.tryFrom ex ws = .err e ↔
      ∃ pre w post, ws = pre ++ w :: post ∧ (∀ x ∈ pre, ∃ s, InSlot ex x s) ∧ SlotError ex w e) ∧
    ResourceFiles.tryFrom ex ws ≠ .panic := by
  have key := ResourceFiles.loop_spec ex ws _ ResourceFiles.wf_empty
  unfold ResourceFiles.tryFrom
  rcases key with ⟨hall, r', h1, h2, h3⟩ | ⟨pre, w, post, e, hw, h1, h2, h3⟩
  · rw [h1]
    refine ⟨fun e => ⟨by simp, ?_⟩, by simp⟩
    rintro ⟨pre, w, post, rfl, _, he⟩
    obtain ⟨s, hs⟩ := hall w (by simp)
    exact (ResourceFiles.SlotError.no_slot he hs).elim
  · rw [h3]
    refine ⟨fun e' => ⟨fun h => ?_, ?_⟩, by simp⟩
    · simp at h; subst h; exact ⟨pre, w, post, hw, h1, h2⟩
    · rintro ⟨pre', w', post', hw', h1', h2'⟩
      have : w = w' := by
        rw [hw] at hw'
        rcases List.append_eq_append_iff.mp hw' with ⟨a, ha, hb⟩ | ⟨a, ha, hb⟩
        · cases a with
          | nil => simpa using (List.cons.inj hb).1
          | cons x a =>
            obtain ⟨s, hs⟩ := h1' w (by rw [ha]; simp at hb; simp [hb.1])
            exact (ResourceFiles.SlotError.no_slot h2 hs).elim
        · cases a with
          | nil => simpa using (List.cons.inj hb).1.symm
          | cons x a =>
            obtain ⟨s, hs⟩ := h1 w' (by rw [ha]; simp at hb; simp [hb.1])
            exact (ResourceFiles.SlotError.no_slot h2' hs).elim
      subst this
      rw [ResourceFiles.SlotError.unique h2 h2']

/-- C57: the files written as a list, in whatever order the maps are iterated, are read back as the same files. -/
theorem c57_round_trip (ex : PathBuf → Bool) (ws : List ResourceFileWrapper) (r : ResourceFiles)
    (h : ResourceFiles.tryFrom ex ws = .ok r) (ws' : List ResourceFileWrapper) (hi : r.IntoVec ws') :
    ∃ r', ResourceFiles.tryFrom ex ws' = .ok r' ∧ r'.Same r := by
  have hat := (c57_sorted ex ws).2 r h
  have hwf : r.WF := by
    rcases ResourceFiles.loop_spec ex ws _ ResourceFiles.wf_empty with ⟨_, r', h1, h2, _⟩ | ⟨_, _, _, _, _, _, _, h3⟩
    · unfold ResourceFiles.tryFrom at h
      rw [h1] at h; simp at h; subst h; exact h2
    · unfold ResourceFiles.tryFrom at h
      rw [h3] at h; simp at h
  have hmem := ResourceFiles.mem_intoVec hwf hi
  have hslot : ∀ s w, r.at s = some w → InSlot ex w s := fun s w hw =>
    (ResourceFiles.LastIn.mem ((hat s w).mp hw)).2
  obtain ⟨r', hr'⟩ := (c57_sorted ex ws').1.mpr fun w hw => by
    obtain ⟨s, hs⟩ := (hmem w).mp hw
    exact ⟨s, hslot s w hs⟩
  refine ⟨r', hr', ResourceFiles.same_iff.mpr fun s => ?_⟩
  have back : ∀ w, r'.at s = some w → r.at s = some w := by
    intro w hw
    obtain ⟨h1, h2⟩ := ResourceFiles.LastIn.mem (((c57_sorted ex ws').2 r' hr' s w).mp hw)
    obtain ⟨s', hs'⟩ := (hmem w).mp h1
    rw [ResourceFiles.InSlot.unique h2 (hslot s' w hs')]; exact hs'
  cases hs : r.at s with
  | none =>
    cases h' : r'.at s with
    | none => rfl
    | some w => rw [back w h'] at hs; simp at hs
  | some w =>
    obtain ⟨w', hw'⟩ := ResourceFiles.LastIn.exists ws' w ((hmem w).mpr ⟨s, hs⟩) (hslot s w hs)
    have h1 := ((c57_sorted ex ws').2 r' hr' s w').mpr hw'
    rw [h1, ← back w' h1, hs]

/-- The path `/r/images/601/<name>`. -/
def c57_path (dir name : Str) : PathBuf :=
  [.root, .normal (utf8 (s% "r")), .normal (utf8 dir), .normal (utf8 (s% "601")), .normal (utf8 name)]
-- two images of one name: the last one is kept; a sound of the same name is kept apart
example : ResourceFiles.tryFrom (fun _ => true) [.path (c57_path (s% "images") (s% "a.png")), .u32Id 3 (s% "a.png") .image,
    .stringId (s% "x") (s% "a.png") .sound] = .ok ⟨none, [(s% "a.png", .u32Id 3 (s% "a.png") .image)],
      [(s% "a.png", .stringId (s% "x") (s% "a.png") .sound)], []⟩ := by decide +kernel
-- a missing file and a file in another folder
example : ResourceFiles.tryFrom (fun _ => false) [.path (c57_path (s% "images") (s% "a.png"))] =
    .err (.fileDoesntExist (c57_path (s% "images") (s% "a.png"))) ∧
    ResourceFiles.tryFrom (fun _ => true) [.path (c57_path (s% "img") (s% "a.png"))] =
    .err (.invalidPath (c57_path (s% "img") (s% "a.png"))) := by decide +kernel
-- a list with the maps in any order
example : ResourceFiles.IntoVec ⟨none, [(s% "a", .u32Id 3 (s% "a") .image), (s% "b", .u32Id 4 (s% "b") .image)], [], []⟩
    [.u32Id 4 (s% "b") .image, .u32Id 3 (s% "a") .image] :=
  ⟨_, [], [], List.Perm.swap _ _ _, .refl _, .refl _, rfl⟩

/-! ## C58 — Whole project parse and reconstruct -/

section C58
variable [MapPol]

/-- Equality of two parsed projects; screens of the logic and resource files are compared by name. -/
structure SketchwareProject.Same [Floats] (p q : SketchwareProject) : Prop where
  project : p.project = q.project
  file : p.file = q.file
  library : p.library = q.library
  resource : p.resource = q.resource
  view : p.view = q.view
  logic : ∀ k, p.logic.screens.get k = q.logic.screens.get k
  resourceFiles : match p.resourceFiles, q.resourceFiles with
    | none, none => True
    | some a, some b => a.Same b
    | _, _ => False

/-- C58: a project is parsed by parsing its seven parts. -/
theorem c58_parts [Floats] (ex : PathBuf → Bool) (raw : RawSketchwareProject) (p : SketchwareProject) :
    SketchwareProject.parseFrom ex raw = .ok p ↔
      Project.parse raw.project = .ok p.project ∧ File.parse raw.file = .ok p.file ∧
      Library.parse raw.library = .ok p.library ∧ Resource.parse raw.resource = .ok p.resource ∧
      View.parse raw.view = .ok p.view ∧ Logic.parse raw.logic = .ok p.logic ∧
      (match raw.resourceFiles with
        | none => p.resourceFiles = none
        | some ws => ∃ r, ResourceFiles.tryFrom ex ws = .ok r ∧ p.resourceFiles = some r) := by
  unfold SketchwareProject.parseFrom
  simp only [Out.bind_eq_ok, Out.mapErr_eq_ok, Out.pure_eq, Out.ok.injEq]
  have opt : ∀ o, optTryFrom ex raw.resourceFiles = .ok o ↔ (match raw.resourceFiles with
        | none => o = none
        | some ws => ∃ r, ResourceFiles.tryFrom ex ws = .ok r ∧ o = some r) := by
    intro o
    cases raw.resourceFiles with
    | none => simp [optTryFrom, eq_comm]
    | some ws =>
      simp only [optTryFrom, Out.bind_eq_ok, Out.pure_eq, Out.ok.injEq]
      exact ⟨fun ⟨r, h1, h2⟩ => ⟨r, h1, h2.symm⟩, fun ⟨r, h1, h2⟩ => ⟨r, h1, h2.symm⟩⟩
  simp only [opt]
  constructor
  · rintro ⟨_, h1, _, h2, _, h3, _, h4, _, h5, _, h6, _, h7, rfl⟩
    exact ⟨h1, h2, h3, h4, h5, h6, h7⟩
  · rintro ⟨h1, h2, h3, h4, h5, h6, h7⟩
    exact ⟨_, h1, _, h2, _, h3, _, h4, _, h5, _, h6, _, h7, rfl⟩

/-- C58: `parse` and `parse_wo_res` parse the six texts, with and without resource files. -/
theorem c58_parse [Floats] (ex : PathBuf → Bool) (project file library resource view logic : Str) (rs : List ResourceFileWrapper)
    (p : SketchwareProject) :
    (SketchwareProject.parse ex project file library resource view logic rs = .ok p ↔
      Project.parse project = .ok p.project ∧ File.parse file = .ok p.file ∧ Library.parse library = .ok p.library ∧
      Resource.parse resource = .ok p.resource ∧ View.parse view = .ok p.view ∧ Logic.parse logic = .ok p.logic ∧
      ∃ r, ResourceFiles.tryFrom ex rs = .ok r ∧ p.resourceFiles = some r) ∧
    (SketchwareProject.parseWoRes ex project file library resource view logic = .ok p ↔
      Project.parse project = .ok p.project ∧ File.parse file = .ok p.file ∧ Library.parse library = .ok p.library ∧
      Resource.parse resource = .ok p.resource ∧ View.parse view = .ok p.view ∧ Logic.parse logic = .ok p.logic ∧
      p.resourceFiles = none) :=
  ⟨c58_parts ex ⟨project, file, library, resource, view, logic, some rs⟩ p,
    c58_parts ex ⟨project, file, library, resource, view, logic, none⟩ p⟩

/-- C58: the error reported is that of the first part that is refused, in the order project, file, library, resource, view, logic,
resource files. -/
theorem c58_first_error [Floats] (ex : PathBuf → Bool) (raw : RawSketchwareProject) :
    let r := SketchwareProject.parseFrom ex raw
    (r = .err .project ↔ Project.parse raw.project = .err ()) ∧
    (∀ e, r = .err (.file e) ↔ (∃ p, Project.parse raw.project = .ok p) ∧ File.parse raw.file = .err e) ∧
    (∀ e, r = .err (.library e) ↔ (∃ p, Project.parse raw.project = .ok p) ∧ (∃ f, File.parse raw.file = .ok f) ∧
      Library.parse raw.library = .err e) ∧
    (∀ e, r = .err (.resource e) ↔ (∃ p, Project.parse raw.project = .ok p) ∧ (∃ f, File.parse raw.file = .ok f) ∧
      (∃ l, Library.parse raw.library = .ok l) ∧ Resource.parse raw.resource = .err e) ∧
    (∀ e, r = .err (.view e) ↔ (∃ p, Project.parse raw.project = .ok p) ∧ (∃ f, File.parse raw.file = .ok f) ∧
      (∃ l, Library.parse raw.library = .ok l) ∧ (∃ x, Resource.parse raw.resource = .ok x) ∧ View.parse raw.view = .err e) ∧
    (∀ e, r = .err (.logic e) ↔ (∃ p, Project.parse raw.project = .ok p) ∧ (∃ f, File.parse raw.file = .ok f) ∧
      (∃ l, Library.parse raw.library = .ok l) ∧ (∃ x, Resource.parse raw.resource = .ok x) ∧ (∃ v, View.parse raw.view = .ok v) ∧
      Logic.parse raw.logic = .err e) ∧
    (∀ e, r = .err (.resourceFiles e) ↔ (∃ p, Project.parse raw.project = .ok p) ∧ (∃ f, File.parse raw.file = .ok f) ∧
      (∃ l, Library.parse raw.library = .ok l) ∧ (∃ x, Resource.parse raw.resource = .ok x) ∧ (∃ v, View.parse raw.view = .ok v) ∧
      (∃ l, Logic.parse raw.logic = .ok l) ∧ ∃ ws, raw.resourceFiles = some ws ∧ ResourceFiles.tryFrom ex ws = .err e) := by
  simp only
  unfold SketchwareProject.parseFrom
  have opt : ∀ e, optTryFrom ex raw.resourceFiles = .err e ↔ ∃ ws, raw.resourceFiles = some ws ∧ ResourceFiles.tryFrom ex ws = .err e := by
    intro e
    cases raw.resourceFiles with
    | none => simp [optTryFrom]
    | some ws => cases hr : ResourceFiles.tryFrom ex ws <;> simp [optTryFrom, hr]
  simp only [← opt]
  cases Project.parse raw.project <;> simp only [Out.mapErr_ok, Out.mapErr_err, Out.mapErr_panic, Out.ok_bind, Out.err_bind, Out.panic_bind]
  case err => simp
  case panic => simp
  cases File.parse raw.file <;> simp only [Out.mapErr_ok, Out.mapErr_err, Out.mapErr_panic, Out.ok_bind, Out.err_bind, Out.panic_bind]
  case err => simp
  case panic => simp
  cases Library.parse raw.library <;> simp only [Out.mapErr_ok, Out.mapErr_err, Out.mapErr_panic, Out.ok_bind, Out.err_bind, Out.panic_bind]
  case err => simp
  case panic => simp
  cases Resource.parse raw.resource <;> simp only [Out.mapErr_ok, Out.mapErr_err, Out.mapErr_panic, Out.ok_bind, Out.err_bind, Out.panic_bind]
  case err => simp
  case panic => simp
  cases View.parse raw.view <;> simp only [Out.mapErr_ok, Out.mapErr_err, Out.mapErr_panic, Out.ok_bind, Out.err_bind, Out.panic_bind]
  case err => simp
  case panic => simp
  cases Logic.parse raw.logic <;> simp only [Out.mapErr_ok, Out.mapErr_err, Out.mapErr_panic, Out.ok_bind, Out.err_bind, Out.panic_bind]
  case err => simp
  case panic => simp
  cases optTryFrom ex raw.resourceFiles <;> simp

/-- The file list survives (C17). -/
def c58_FileOk (f : File) : Prop := f.activities ≠ [] ∨ f.customViews = []

/-- The view file survives (C22). -/
def c58_ViewOk [FloatLaws] (v : View) : Prop :=
  ((∀ e ∈ v.layouts, '.' ∉ e.1 ∧ '\n' ∉ e.1) ∧ (∀ e ∈ v.fabs, '.' ∉ e.1 ∧ '\n' ∉ e.1)) ∧
  (∀ e ∈ v.layouts.dropLast, e.2.views = []) ∧
  (v.fabs ≠ [] → ∃ e, v.layouts.getLast? = some e ∧ e.2.views ≠ []) ∧
  ((∀ e ∈ v.layouts, ∀ w ∈ e.2.views, AndroidView.parse w.reconstruct = some w) ∧
    (∀ e ∈ v.fabs, AndroidView.parse e.2.reconstruct = some e.2))

/-- C58, proved part: a project with a representable creation time and with resource files that were read from the same
file system is written to six texts, and these are read back as
the same project exactly when the date, the file list, the view file and the logic file survive (C15, C17, C22, C28).
Missing: the other projects, for which the property is false. -/
theorem c58_project_round_trip_partial [FloatLaws] (ex : PathBuf → Bool) (p : SketchwareProject)
    (t : Date.DateTime) (hv : t.Valid) (hts : Date.timestamp t = p.project.dateCreated.toInt64.toInt)
    (hview : p.view.layouts.keys.Nodup ∧ p.view.fabs.keys.Nodup)
    (hlogic : c28_Maps p.logic)
    (hres : ∀ r, p.resourceFiles = some r → ∃ ws, ResourceFiles.tryFrom ex ws = .ok r)
    (rs : Option (List ResourceFileWrapper)) (hrs : p.ResOrder rs) :
    ∃ raw, p.tryIntoRaw rs = .ok raw ∧
      ((∃ p', SketchwareProject.parseFrom ex raw = .ok p' ∧ p'.Same p) ↔
        Date.FullWidth t ∧ c58_FileOk p.file ∧ c58_ViewOk p.view ∧ c28_LogicOk p.logic) := by
  obtain ⟨s, hs, hiff⟩ := c15_project_round_trip_partial p.project t hv hts
  refine ⟨⟨s, p.file.reconstruct, p.library.reconstruct, p.resource.reconstruct, p.view.reconstruct, p.logic.reconstruct, rs⟩,
    by simp [SketchwareProject.tryIntoRaw, hs], ?_⟩
  have hf := (c17_file_round_trip_partial p.file).1
  have hvw := c22_view_file_round_trip_partial p.view hview
  have hl := c28_logic_round_trip_partial p.logic hlogic
  unfold c58_FileOk c58_ViewOk
  rw [← hiff, ← hf, ← hvw, ← hl]
  constructor
  · rintro ⟨p', h, hsame⟩
    rw [c58_parts] at h
    obtain ⟨h1, h2, h3, h4, h5, h6, h7⟩ := h
    exact ⟨by rw [← hsame.project]; exact h1, hsame.file ▸ h2, hsame.view ▸ h5,
      p'.logic, h6, hsame.logic⟩
  · rintro ⟨h1, h2, h5, l', h6, h6'⟩
    have hr : ∃ o, (match rs with
          | none => o = none
          | some ws => ∃ r, ResourceFiles.tryFrom ex ws = .ok r ∧ o = some r) ∧
        (match o, p.resourceFiles with
          | none, none => True
          | some a, some b => a.Same b
          | _, _ => False) := by
      cases rs with
      | none => simp only [SketchwareProject.ResOrder] at hrs; exact ⟨none, rfl, by rw [hrs]; trivial⟩
      | some ws' =>
        simp only [SketchwareProject.ResOrder] at hrs
        obtain ⟨r, h7, h8⟩ := hrs
        obtain ⟨ws, h9⟩ := hres r h7
        obtain ⟨r', h10, h11⟩ := c57_round_trip ex ws r h9 ws' h8
        exact ⟨some r', ⟨r', h10, rfl⟩, by rw [h7]; exact h11⟩
    obtain ⟨o, ho1, ho2⟩ := hr
    refine ⟨⟨p.project, p.file, p.library, p.resource, p.view, l', o⟩, ?_, ⟨rfl, rfl, rfl, rfl, rfl, h6', ho2⟩⟩
    rw [c58_parts]
    exact ⟨h1, h2, c19_library_round_trip _, c18_resource_round_trip _, h5, h6, ho1⟩

omit [MapPol] in
/-- C58: encrypting the six texts and loading them gives the same raw project, hence the same parsed project. -/
theorem c58_encrypted (raw : RawSketchwareProject) :
    (match raw.resourceFiles with
      | some ws => RawSketchwareProject.fromEncrypted (encryptSw (utf8 raw.project)) (encryptSw (utf8 raw.file))
          (encryptSw (utf8 raw.library)) (encryptSw (utf8 raw.resource)) (encryptSw (utf8 raw.view)) (encryptSw (utf8 raw.logic)) ws
      | none => RawSketchwareProject.fromEncryptedWoRes (encryptSw (utf8 raw.project)) (encryptSw (utf8 raw.file))
          (encryptSw (utf8 raw.library)) (encryptSw (utf8 raw.resource)) (encryptSw (utf8 raw.view)) (encryptSw (utf8 raw.logic)))
      = .ok raw := by
  have h := c07_round_trip raw.project raw.file raw.library raw.resource raw.view raw.logic (raw.resourceFiles.getD [])
  obtain ⟨pr, f, l, r, v, g, ws⟩ := raw
  cases ws with
  | none => exact h.2
  | some ws => exact h.1

/-- An unused library. -/
def c58_item : LibraryItem := ⟨[], [], 0, [], [], [], [], s% "N"⟩

omit [MapPol] in
/-- An empty project created at a given time. -/
def c58_witness [Floats] (date : UInt64) : SketchwareProject :=
  { project := { c15_witness with dateCreated := date }
    file := ⟨[], []⟩
    library := { firebaseDb := c58_item, compat := c58_item, admob := c58_item, googleMap := c58_item }
    resource := ⟨[], [], []⟩
    view := ⟨[], []⟩
    logic := ⟨[]⟩
    resourceFiles := none }

omit [MapPol] in
/-- The parts of the empty project other than its date survive. -/
theorem c58_witness_parts [FloatLaws] : c58_FileOk ⟨[], []⟩ ∧ c58_ViewOk ⟨[], []⟩ ∧ c28_LogicOk ⟨[]⟩ :=
  ⟨.inr rfl, ⟨⟨by simp, by simp⟩, by simp, by simp, by simp, by simp⟩, by simp, by
    intro pre s post h; simp at h⟩

/-- C58 is false: the empty project created on 2022-01-02 03:04:05 is read from texts as written by Sketchware, and
reading the texts written for it panics. -/
theorem c58_project_round_trip_false [FloatLaws] :
    ∃ (raw raw' : RawSketchwareProject) (p : SketchwareProject), SketchwareProject.parseFrom (fun _ => true) raw = .ok p ∧
      p.tryIntoRaw none = .ok raw' ∧ SketchwareProject.parseFrom (fun _ => true) raw' = .panic := by
  have hp := c15_reads_sketchware c15_witness 2022 1 2 3 4 5 (by decide) (by decide +kernel) (by decide +kernel)
  obtain ⟨_, s, hs, hpanic⟩ := c15_project_round_trip_false
  let p := c58_witness 1641092645
  have hl : Logic.parse p.logic.reconstruct = .ok ⟨[]⟩ := by rfl
  have hf := (c17_file_round_trip_partial p.file).1.mpr (.inr rfl)
  have hw := (c22_view_file_round_trip_partial p.view ⟨List.Pairwise.nil, List.Pairwise.nil⟩).mpr c58_witness_parts.2.1
  refine ⟨⟨(c15_witness.enc (Date.sketchwareText 2022 1 2 3 4 5)).print, p.file.reconstruct, p.library.reconstruct,
      p.resource.reconstruct, p.view.reconstruct, p.logic.reconstruct, none⟩,
    ⟨s, p.file.reconstruct, p.library.reconstruct, p.resource.reconstruct, p.view.reconstruct, p.logic.reconstruct, none⟩,
    p, ?_, ?_, ?_⟩
  · rw [c58_parts]
    exact ⟨hp, hf, c19_library_round_trip _, c18_resource_round_trip _, hw, hl, rfl⟩
  · unfold SketchwareProject.tryIntoRaw
    rw [show p.project = c15_witness from rfl, hs]
    rfl
  · unfold SketchwareProject.parseFrom
    rw [hpanic]
    rfl

-- the same project created on 2022-12-31 23:59:58 meets the hypotheses and the condition of the partial theorem
example [FloatLaws] : ∃ raw, (c58_witness 1672531198).tryIntoRaw none = .ok raw ∧
    ∃ p', SketchwareProject.parseFrom (fun _ => true) raw = .ok p' ∧ p'.Same (c58_witness 1672531198) := by
  obtain ⟨raw, h1, h2⟩ := c58_project_round_trip_partial (fun _ => true) (c58_witness 1672531198)
    ⟨2022, 12, 31, 23, 59, 58⟩ (by decide +kernel) (by show _ = (1672531198 : UInt64).toInt64.toInt; decide +kernel)
    ⟨List.Pairwise.nil, List.Pairwise.nil⟩ (by simp [c58_witness, c28_Maps]) (by simp [c58_witness]) none rfl
  exact ⟨raw, h1, h2.mpr ⟨by unfold Date.FullWidth; simp, c58_witness_parts⟩⟩

end C58
end Swrs
