import Verif.Proofs.Sizes
import Verif.Props.ApiView
import Verif.Props.Counters
import Verif.Props.EqualityFloat
/-!
# C113: what is read and made is no bigger than the texts
-/
set_option linter.unusedSectionVars false
namespace Swrs

/-- The number of lines of a text. -/
def c113_lines (s : Str) : Nat := s.count '\n' + 1

theorem lines_c113 (s : Str) : (lines s).length = c113_lines s := lines_length s

/-! ## Files -/

/-- C113: a file list has at most one entry for each line. -/
theorem c113_file {s : Str} {f : File} (h : File.parse s = .ok f) : f.activities.length + f.customViews.length ≤ c113_lines s := by
  have := File.loop_size h
  rw [lines_c113] at this
  simpa using this

/-- C113: a resource list has at most one entry for each line. -/
theorem c113_resource {s : Str} {r : Resource} (h : Resource.parse s = .ok r) :
    r.images.length + r.sounds.length + r.fonts.length ≤ c113_lines s := by
  have := Resource.loop_size h
  rw [lines_c113] at this
  simpa using this

section
variable [Floats] [MapPol]

/-- The layouts, each with its views, and the floating buttons, each with its header. -/
def c113_viewCount (v : View) : Nat := (v.layouts.map fun e => 1 + e.2.views.length).sum + (v.fabs.map fun _ => 2).sum

/-- C113: layouts, views and floating buttons together are no more than the lines of the view file. -/
theorem c113_view {s : Str} {v : View} (h : View.parse s = .ok v) : c113_viewCount v ≤ c113_lines s := by
  have := View.loop_size (by simp) (by simp) h
  rw [lines_c113] at this
  simpa [c113_viewCount, LMap.weigh, Layout.weight] using this

/-- The variables, lists, components, events, moreblocks and block containers of a screen, each container with its blocks. -/
def c113_logicCount (s : ScreenLogic) : Nat :=
  ((s.variables.map (·.map.length)).getD 0 + (s.listVariables.map (·.map.length)).getD 0 + (s.components.map (·.items.length)).getD 0 +
    (s.events.map (·.items.length)).getD 0 + (s.moreBlocks.map (·.map.length)).getD 0) +
  (s.blockContainers.map fun e => 1 + e.2.blocks.length).sum

/-- C113: all declarations, block containers and blocks of all screens together are no more than the lines of the logic file. -/
theorem c113_logic {s : Str} {l : Logic} (h : Logic.parse s = .ok l) :
    (l.screens.map fun e => c113_logicCount e.2).sum ≤ c113_lines s := by
  have := (Logic.loop_size (l := []) ⟨by simp, nofun⟩ h).2
  rw [lines_c113] at this
  rw [show LMap.weigh ScreenLogic.bulkCount ([] : LMap Str ScreenLogic) = 0 from rfl, Nat.zero_add] at this
  exact this

-- two containers on two lines, the second of another screen: the bound is reached
example : ∃ l : Logic, Logic.parse (s% "@A.java_x\n\n@B.java_y") = .ok l ∧ (l.screens.map fun e => c113_logicCount e.2).sum = 2 ∧
    c113_lines (s% "@A.java_x\n\n@B.java_y") = 3 :=
  ⟨⟨[(s% "A", { ScreenLogic.newEmpty (s% "A") with blockContainers := [(s% "x", ⟨[]⟩)] }),
    (s% "B", { ScreenLogic.newEmpty (s% "B") with blockContainers := [(s% "y", ⟨[]⟩)] })]⟩, rfl, rfl, by decide +kernel⟩

end

namespace Api
variable [MapPol] [Floats]

/-! ## Projects of the API -/

/-- The blocks of some code: with those of the substacks and of the arguments. -/
def c113_blocks (bs : List Block) : Nat := (blocksLabels bs).length

/-- The views, variables, lists, components, moreblocks and events of a screen, the last two with their blocks, and the floating
button. -/
def c113_screenCount (s : Screen) : Nat :=
  (allOf s.layout).length + s.variables.length + s.listVariables.length + s.components.length +
  (s.moreBlocks.map fun e => 1 + c113_blocks e.2.code).sum + (s.events.map fun e => 1 + c113_blocks e.code).sum +
  (if s.fab.isSome then 1 else 0)

/-- Everything in a project: the screens and custom views with what is in them, and the resources. -/
def c113_projectCount (p : SketchwareProject) : Nat :=
  (p.screens.map fun s => 1 + c113_screenCount s).sum + (p.customViews.map fun c => 1 + (allOf c.layout).length).sum +
  (p.resources.images.length + p.resources.sounds.length + p.resources.fonts.length)

theorem takeCode_size {id : Str} {cs cs' : Containers} {code : List Block} (h : takeCode id cs = .ok (code, cs')) :
    c113_blocks code + LMap.weigh (fun c : BlockContainer => c.blocks.length) cs' ≤ LMap.weigh (fun c : BlockContainer => c.blocks.length) cs := by
  simp only [takeCode, Out.bind_eq_ok, Out.mapErr_eq_ok] at h
  obtain ⟨bs, h1, h2⟩ := h
  simp only [Out.pure_eq, Out.ok.injEq, Prod.mk.injEq] at h2
  obtain ⟨rfl, rfl⟩ := h2
  have h3 : c113_blocks bs ≤ _ := c43_size _ _ h1
  have h4 := LMap.weigh_erase (fun c : BlockContainer => c.blocks.length) cs id
  cases hg : cs.get id with
  | none => rw [hg] at h3 h4; simp at h3 h4; omega
  | some c => rw [hg] at h3 h4; simp at h3 h4; omega

theorem moreBlocksOf_size {ms : List (Str × Swrs.MoreBlock)} {cs cs' : Containers} {out : List (Str × MoreBlock)}
    (h : moreBlocksOf ms cs = .ok (out, cs')) :
    LMap.weigh (fun m : MoreBlock => 1 + c113_blocks m.code) out + LMap.weigh (fun c : BlockContainer => c.blocks.length) cs' ≤
      ms.length + LMap.weigh (fun c : BlockContainer => c.blocks.length) cs := by
  induction ms generalizing cs cs' out with
  | nil => simp only [moreBlocksOf, Out.ok.injEq, Prod.mk.injEq] at h; obtain ⟨rfl, rfl⟩ := h; simp [LMap.weigh]
  | cons e ms ih =>
    obtain ⟨id, mb⟩ := e
    simp only [moreBlocksOf, moreBlockOf, Out.bind_eq_ok, Out.mapErr_eq_ok] at h
    obtain ⟨⟨m, c⟩, ⟨spec, _, ⟨code, c'⟩, hc, hm⟩, ⟨rest, c''⟩, hr, he⟩ := h
    simp only [Out.pure_eq, Out.ok.injEq, Prod.mk.injEq] at hm he
    obtain ⟨rfl, rfl⟩ := hm
    obtain ⟨rfl, rfl⟩ := he
    have h1 := takeCode_size hc
    have h2 := ih hr
    have h3 : LMap.weigh (fun m : MoreBlock => 1 + c113_blocks m.code) ((id, ⟨id, spec, code⟩) :: rest) =
      (1 + c113_blocks code) + LMap.weigh (fun m : MoreBlock => 1 + c113_blocks m.code) rest := by simp [LMap.weigh]
    rw [h3, List.length_cons]
    simp only at h1 h2
    omega

theorem eventsOf_size {es : List Swrs.Event} {cs cs' : Containers} {out : List Event} (h : eventsOf es cs = .ok (out, cs')) :
    (out.map fun e => 1 + c113_blocks e.code).sum + LMap.weigh (fun c : BlockContainer => c.blocks.length) cs' ≤
      es.length + LMap.weigh (fun c : BlockContainer => c.blocks.length) cs := by
  induction es generalizing cs cs' out with
  | nil => simp only [eventsOf, Out.ok.injEq, Prod.mk.injEq] at h; obtain ⟨rfl, rfl⟩ := h; simp
  | cons e es ih =>
    simp only [eventsOf, eventOf, Out.bind_eq_ok, Out.mapErr_eq_ok] at h
    obtain ⟨⟨m, c⟩, ⟨ev, _, ⟨code, c'⟩, hc, hm⟩, ⟨rest, c''⟩, hr, he⟩ := h
    simp only [Out.pure_eq, Out.ok.injEq, Prod.mk.injEq] at hm he
    obtain ⟨rfl, rfl⟩ := hm
    obtain ⟨rfl, rfl⟩ := he
    have h1 := takeCode_size hc
    have h2 := ih hr
    simp only [List.map_cons, List.sum_cons, List.length_cons]
    simp only at h1 h2
    omega

omit [MapPol] [Floats] in
theorem componentsOf_size {cs : List Component} {out : List (Str × ComponentKind)} (h : componentsOf cs = .ok out) : out.length = cs.length := by
  induction cs generalizing out with
  | nil => simp only [componentsOf, Out.ok.injEq] at h; subst h; rfl
  | cons c cs ih =>
    simp only [componentsOf, Out.bind_eq_ok, Out.mapErr_eq_ok] at h
    obtain ⟨k, _, rest, hr, he⟩ := h
    simp only [Out.pure_eq, Out.ok.injEq] at he
    subst he
    simp [ih hr]

omit [MapPol] in
theorem layout_size {l : Layout} {vs : List View} (h : parseRawLayout l = .ok vs) : (allOf vs).length = l.views.length := by
  have := (c33_tree l vs h).1.length_eq
  simpa using this

/-- C113: a screen has no more in it than its layout, its logic and its floating button. -/
theorem c113_screen {layoutName logicName : Str} {file : FileItem} {view : Layout} {logic : ScreenLogic} {fab : Option View} {s : Screen}
    (h : Screen.fromParsed layoutName logicName file view logic fab = .ok s) :
    c113_screenCount s ≤ view.views.length + c113_logicCount logic + (if fab.isSome then 1 else 0) := by
  simp only [Screen.fromParsed, Out.bind_eq_ok, Out.mapErr_eq_ok] at h
  obtain ⟨layout, hl, ⟨mbs, cs⟩, hm, comps, hc, ⟨events, cs'⟩, he, hs⟩ := h
  have hs := Out.ok.inj hs
  subst hs
  have h1 := layout_size hl
  have h2 := moreBlocksOf_size hm
  have h3 := eventsOf_size he
  have h4 := componentsOf_size hc
  have h5 := LMap.weigh_collect (fun m : MoreBlock => 1 + c113_blocks m.code) mbs
  have h6 := LMap.length_collect comps
  have h7 : (parserEvents logic).length + LMap.weigh (fun c : BlockContainer => c.blocks.length) logic.blockContainers ≤
      (logic.events.map (·.items.length)).getD 0 + (logic.blockContainers.map fun e => 1 + e.2.blocks.length).sum := by
    have key : ∀ m : LMap Str BlockContainer, (m.map fun e => 1 + e.2.blocks.length).sum =
        m.length + LMap.weigh (fun c : BlockContainer => c.blocks.length) m := by
      intro m
      induction m with
      | nil => rfl
      | cons e m ih => simp [LMap.weigh] at ih ⊢; omega
    rw [key]
    have e0 : ((logic.events.map (·.items)).getD []).length = (logic.events.map (·.items.length)).getD 0 := by
      cases logic.events <;> simp
    unfold parserEvents
    simp only
    split
    next hk =>
      have : logic.blockContainers ≠ [] := by intro h0; rw [h0] at hk; simp at hk
      have := List.length_pos_iff.mpr this
      simp only [List.length_cons, e0]
      omega
    next => rw [e0]; omega
  have e1 : ((logic.moreBlocks.map (·.map)).getD []).length = (logic.moreBlocks.map (·.map.length)).getD 0 := by
    cases logic.moreBlocks <;> simp
  have e2 : ((logic.components.map (·.items)).getD []).length = (logic.components.map (·.items.length)).getD 0 := by
    cases logic.components <;> simp
  have e3 : ((logic.variables.map (·.map)).getD []).length = (logic.variables.map (·.map.length)).getD 0 := by
    cases logic.variables <;> simp
  have e4 : ((logic.listVariables.map (·.map)).getD []).length = (logic.listVariables.map (·.map.length)).getD 0 := by
    cases logic.listVariables <;> simp
  unfold c113_screenCount c113_logicCount
  simp only
  have e5 : ((LMap.collect mbs).map fun e => 1 + c113_blocks e.2.code).sum =
    LMap.weigh (fun m : MoreBlock => 1 + c113_blocks m.code) (LMap.collect mbs) := rfl
  rw [e5, e3, e4]
  rw [e1] at h2
  rw [e2] at h4
  simp only at h3
  split <;> omega

theorem activitiesConv_size {files : List FileItem} {layouts layouts' : LMap Str Layout} {logics : LMap Str ScreenLogic}
    {fabs : LMap Str AndroidView} {screens : List Screen} (h : activitiesConv files layouts logics fabs = .ok (screens, layouts')) :
    (screens.map fun s => 1 + c113_screenCount s).sum + LMap.weigh Layout.weight layouts' ≤
      files.length + LMap.weigh Layout.weight layouts + LMap.weigh c113_logicCount logics + LMap.weigh (fun _ => 2) fabs := by
  induction files generalizing layouts layouts' logics fabs screens with
  | nil => simp only [activitiesConv, Out.ok.injEq, Prod.mk.injEq] at h; obtain ⟨rfl, rfl⟩ := h; simp; omega
  | cons file rest ih =>
    simp only [activitiesConv, Out.bind_eq_ok, Out.mapErr_eq_ok] at h
    obtain ⟨s, hs, ⟨ss, ls⟩, hr, he⟩ := h
    simp only [Out.pure_eq, Out.ok.injEq, Prod.mk.injEq] at he
    obtain ⟨rfl, rfl⟩ := he
    have h1 := c113_screen hs
    have h2 := ih hr
    have h3 := LMap.weigh_erase Layout.weight layouts file.filename
    have h4 := LMap.weigh_erase c113_logicCount logics (viewNameToLogic file.filename)
    have h5 := LMap.weigh_erase (fun _ : AndroidView => 2) fabs file.filename
    have e1 : ((layouts.get file.filename).getD ⟨[]⟩).views.length ≤ ((layouts.get file.filename).map Layout.weight).getD 0 := by
      cases layouts.get file.filename <;> simp [Layout.weight]
    have e2 : c113_logicCount ((logics.get (viewNameToLogic file.filename)).getD (ScreenLogic.newEmpty file.filename)) =
        ((logics.get (viewNameToLogic file.filename)).map c113_logicCount).getD 0 := by
      cases logics.get (viewNameToLogic file.filename) <;> rfl
    have e3 : (if ((fabs.get file.filename).map View.ofRaw).isSome then 1 else 0) ≤
        ((fabs.get file.filename).map fun _ => 2).getD 0 := by
      cases fabs.get file.filename <;> simp
    rw [e2] at h1
    simp only [List.map_cons, List.sum_cons, List.length_cons]
    omega

omit [MapPol] in
theorem customViewsConv_size {files : List FileItem} {layouts : LMap Str Layout} {cvs : List CustomView}
    (h : customViewsConv files layouts = .ok cvs) :
    (cvs.map fun c => 1 + (allOf c.layout).length).sum ≤ files.length + LMap.weigh Layout.weight layouts := by
  induction files generalizing layouts cvs with
  | nil => simp only [customViewsConv, Out.ok.injEq] at h; subst h; simp
  | cons file rest ih =>
    simp only [customViewsConv, Out.bind_eq_ok, Out.mapErr_eq_ok] at h
    obtain ⟨l, hl, vs, hv, rest', hr, he⟩ := h
    simp only [Out.pure_eq, Out.ok.injEq] at he
    subst he
    have h1 := layout_size hv
    have h2 := ih hr
    have h3 := LMap.weigh_erase Layout.weight layouts file.filename
    cases hg : layouts.get file.filename with
    | none => rw [hg] at hl; simp [Out.ofOption] at hl
    | some x =>
      rw [hg] at hl h3
      simp [Out.ofOption] at hl h3
      subst hl
      simp only [List.map_cons, List.sum_cons, List.length_cons]
      have : x.weight = 1 + x.views.length := rfl
      omega

omit [MapPol] [Floats] in
theorem resourcesConv_size {rnd : Nat → UInt32} {t : ResourceType} {items : List ResourceItem} {files : Option (HMap Str ResourceFileWrapper)}
    {out : List (Str × ResourceFileWrapper)} (h : resourcesConv rnd t items files = .ok out) : out.length = items.length := by
  induction items generalizing files out with
  | nil => simp only [resourcesConv, Out.ok.injEq] at h; subst h; rfl
  | cons i items ih =>
    cases files with
    | none =>
      simp only [resourcesConv, Out.bind_eq_ok] at h
      obtain ⟨fs, hf, he⟩ := h
      simp only [Out.pure_eq, Out.ok.injEq] at he
      subst he
      simp [ih hf]
    | some files =>
      simp only [resourcesConv, Out.bind_eq_ok] at h
      obtain ⟨f, _, fs, hf, he⟩ := h
      simp only [Out.pure_eq, Out.ok.injEq] at he
      subst he
      simp [ih hf]

/-- C113: a project of the API has no more in it than the parsed project. -/
theorem c113_converted {rnd : ResourceType → Nat → UInt32} {q : Swrs.SketchwareProject} {p : SketchwareProject}
    (h : SketchwareProject.tryFrom rnd q = .ok p) :
    c113_projectCount p ≤ (q.file.activities.length + q.file.customViews.length) + c113_viewCount q.view +
      (q.logic.screens.map fun e => c113_logicCount e.2).sum +
      (q.resource.images.length + q.resource.sounds.length + q.resource.fonts.length) := by
  simp only [SketchwareProject.tryFrom, Out.bind_eq_ok] at h
  obtain ⟨⟨screens, layouts⟩, h1, cvs, h2, libs, _, is, h3, ss, h4, fs, h5, he⟩ := h
  have he := Out.ok.inj he
  subst he
  have k1 := activitiesConv_size h1
  have k2 := customViewsConv_size h2
  have k3 := resourcesConv_size h3
  have k4 := resourcesConv_size h4
  have k5 := resourcesConv_size h5
  have l3 := LMap.length_collect is
  have l4 := LMap.length_collect ss
  have l5 := LMap.length_collect fs
  have e1 : c113_viewCount q.view = LMap.weigh Layout.weight q.view.layouts + LMap.weigh (fun _ => 2) q.view.fabs := rfl
  have e2 : (q.logic.screens.map fun e => c113_logicCount e.2).sum = LMap.weigh c113_logicCount q.logic.screens := rfl
  rw [e1, e2]
  simp only [c113_projectCount]
  simp only at k2
  omega

/-- C113: opening a project makes no more screens, views, declarations, blocks and resources together than there are lines in the file
list, the view file, the logic file and the resource list. -/
theorem c113_opened {ex : PathBuf → Bool} {rnd : ResourceType → Nat → UInt32} {raw : RawSketchwareProject} {q : Swrs.SketchwareProject}
    {p : SketchwareProject} (hq : Swrs.SketchwareProject.parseFrom ex raw = .ok q) (hp : SketchwareProject.tryFrom rnd q = .ok p) :
    c113_projectCount p ≤ c113_lines raw.file + c113_lines raw.view + c113_lines raw.logic + c113_lines raw.resource := by
  simp only [Swrs.SketchwareProject.parseFrom, Out.bind_eq_ok, Out.mapErr_eq_ok] at hq
  obtain ⟨pr, _, f, hf, l, _, r, hr, v, hv, g, hg, rf, _, he⟩ := hq
  have he := Out.ok.inj he
  subst he
  have h0 := c113_converted hp
  have h1 := c113_file hf
  have h2 := c113_resource hr
  have h3 := c113_view hv
  have h4 := c113_logic hg
  simp only at h0
  omega

end Api
namespace Api
section
attribute [local instance] ieeeFloats

-- a project that is opened: one screen with one event of one block, and one image
example [MapPol] (ex : PathBuf → Bool) (rnd : ResourceType → Nat → UInt32) : ∃ raw q p, Swrs.SketchwareProject.parseFrom ex raw = .ok q ∧
    SketchwareProject.tryFrom rnd q = .ok p ∧ c113_projectCount p = 4 := by
  obtain ⟨raw, val, h1, h2⟩ := c98_project_read ex (s% "0")
  exact ⟨raw, val, _, h1, (h2 rnd).trans (c98_converted rnd (s% "0") (by decide) c98_read_zero), rfl⟩

end
end Api
end Swrs
