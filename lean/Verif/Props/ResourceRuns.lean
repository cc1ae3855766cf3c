import Verif.Props.EditText
import Verif.Proofs.ResettleSteps
/-!
# C148: resources that are added, removed or put in another order replace only their own lines
-/
set_option linter.unusedSectionVars false
namespace Swrs.Api
open Format

/-- Specification: these are the lines of the resources, in their order: the name of the file and the id. -/
def c148_Lines (rs : LMap Str ResourceFileWrapper) (ls : List Str) : Prop :=
  All₂ (fun r t => ∃ n, (r.2.getFullName : Out Empty Str) = .ok n ∧ t = c143_resourceLine n r.1) rs ls

/-! ### Proof -/

/-- The items of the resources. -/
def c148_Items (rs : LMap Str ResourceFileWrapper) (is : List ResourceItem) : Prop :=
  All₂ (fun r t => ∃ n, (r.2.getFullName : Out Empty Str) = .ok n ∧ t = (⟨n, r.1, 1⟩ : ResourceItem)) rs is

theorem c148_back {auto : Bool} {l : List (Str × ResourceFileWrapper)} {files : HMap Str ResourceFileWrapper} {is : List ResourceItem} :
    (∃ fs, resourcesBack auto l files = .ok (is, fs)) ↔ c148_Items l is := by
  induction l generalizing files is with
  | nil =>
    constructor
    · rintro ⟨fs, h⟩
      cases h
      exact .nil
    · intro h
      cases h
      exact ⟨files, rfl⟩
  | cons r l ih =>
    obtain ⟨i, f⟩ := r
    simp only [resourcesBack, Out.bind_eq_ok, Out.pure_eq, Out.ok.injEq, Prod.exists, Prod.mk.injEq]
    constructor
    · rintro ⟨fs, n, hn, it, fs', h, rfl, rfl⟩
      exact .cons ⟨n, hn, rfl⟩ (ih.mp ⟨_, h⟩)
    · intro h
      cases h with
      | cons h t =>
        obtain ⟨n, hn, rfl⟩ := h
        obtain ⟨fs, h⟩ := (ih (files := if auto then files else files.insert n f)).mpr t
        exact ⟨fs, n, hn, _, fs, h, rfl, rfl⟩

theorem c148_lines {l : LMap Str ResourceFileWrapper} {is : List ResourceItem} (h : c148_Items l is) : c148_Lines l (is.map (·.reconstruct)) := by
  unfold c148_Items at h
  induction h with
  | nil => exact .nil
  | cons h t ih =>
    obtain ⟨n, hn, rfl⟩ := h
    exact .cons ⟨n, hn, (c62_resource _).trans rfl⟩ ih

theorem c148_exists {l : LMap Str ResourceFileWrapper} (h : ∀ r ∈ l, ∃ n, (r.2.getFullName : Out Empty Str) = .ok n) : ∃ is, c148_Items l is := by
  induction l with
  | nil => exact ⟨[], .nil⟩
  | cons r l ih =>
    obtain ⟨is, hi⟩ := ih fun x hx => h x (by simp [hx])
    obtain ⟨n, hn⟩ := h r (by simp)
    exact ⟨_, .cons ⟨n, hn, rfl⟩ hi⟩

theorem c148_split {α β : Type} {R : α → β → Prop} {a b : List α} {l : List β} (h : All₂ R (a ++ b) l) : ∃ x y, l = x ++ y ∧ All₂ R a x ∧ All₂ R b y := by
  induction a generalizing l with
  | nil => exact ⟨[], l, rfl, .nil, h⟩
  | cons t a ih =>
    cases h with
    | cons h t =>
      obtain ⟨x, y, rfl, h1, h2⟩ := ih t
      exact ⟨_ :: x, y, rfl, .cons h h1, h2⟩

theorem c148_items {auto : Bool} {u o n w : LMap Str ResourceFileWrapper} {fs : HMap Str ResourceFileWrapper} {items : List ResourceItem}
    (hn : ∀ r ∈ n, ∃ m, (r.2.getFullName : Out Empty Str) = .ok m) (h : resourcesBack auto (u ++ (o ++ w)) [] = .ok (items, fs)) :
    ∃ items' fs' io new, resourcesBack auto (u ++ (n ++ w)) [] = .ok (items', fs') ∧ c148_Lines o io ∧ c148_Lines n new ∧
      c143_Differ io new (items.map (·.reconstruct)) (items'.map (·.reconstruct)) := by
  obtain ⟨a, x, rfl, h1, h2⟩ := c148_split (c148_back.mp ⟨fs, h⟩)
  obtain ⟨b, c, rfl, h3, h4⟩ := c148_split h2
  obtain ⟨d, hd⟩ := c148_exists hn
  obtain ⟨fs', h5⟩ := (c148_back (auto := auto) (files := [])).mpr (All₂.append h1 (All₂.append hd h4))
  exact ⟨_, fs', _, _, h5, c148_lines h3, c148_lines hd, a.map (·.reconstruct), c.map (·.reconstruct), by simp, by simp⟩

theorem c148_endedApp (a b : List Str) : ended (a ++ b) = ended a ++ ended b := by
  induction a with
  | nil => rfl
  | cons t a ih => simp only [List.cons_append, ended, ih, List.append_assoc]

theorem c148_ended {o n s s' : List Str} (h : c143_Differ o n s s') : c143_Differ (ended o) (ended n) (ended s) (ended s') := by
  obtain ⟨a, b, rfl, rfl⟩ := h
  simp only [c148_endedApp]
  exact ⟨_, _, rfl, rfl⟩

theorem c148_betweenApp {sep : String} {o : List Str} (ho : o ≠ []) (b : List Str) :
    between sep (o ++ b) = between sep o ++ (if b = [] then [] else sep.toList ++ between sep b) := by
  induction o with
  | nil => exact absurd rfl ho
  | cons t o ih =>
    cases o with
    | nil => cases b <;> simp [between]
    | cons u o => simp only [List.cons_append, between] at ih ⊢; rw [ih (by simp)]; simp

theorem c148_between {sep : String} {o n s s' : List Str} (ho : o ≠ []) (hn : n ≠ []) (h : c143_Differ o n s s') :
    c143_Differ (between sep o) (between sep n) (between sep s) (between sep s') := by
  obtain ⟨a, b, rfl, rfl⟩ := h
  cases a with
  | nil => rw [List.nil_append, List.nil_append, c148_betweenApp ho, c148_betweenApp hn]; exact .right _ .here
  | cons t a =>
    have e : ∀ z : List Str, z ≠ [] → between sep (t :: a ++ (z ++ b)) = between sep (t :: a) ++ (sep.toList ++ (between sep z ++ (if b = [] then [] else sep.toList ++ between sep b))) := by
      intro z hz
      rw [c148_betweenApp (o := t :: a) (by simp) (z ++ b), if_neg (by simp [hz]), c148_betweenApp hz]
    rw [e o ho, e n hn]
    exact .left _ (.left _ (.right _ .here))

theorem c148_ne {l : LMap Str ResourceFileWrapper} {ls : List Str} (h : c148_Lines l ls) (hl : l ≠ []) : ls ≠ [] := by
  cases h with
  | nil => exact absurd rfl hl
  | cons => simp

section
variable [MapPol] [Floats]
variable (p : SketchwareProject) (rs : Option (List ResourceFileWrapper)) (raw : RawSketchwareProject) (u o n w : LMap Str ResourceFileWrapper)

/-- C148: some of the images, one after the other, are replaced by others; there may be none before or after. -/
theorem c148_images (h : c143_Saved p rs raw) (hp : p.resources.images = u ++ (o ++ w)) (hn : ∀ r ∈ n, ∃ m, (r.2.getFullName : Out Empty Str) = .ok m) :
    ∃ text old new, c143_Saved { p with resources := { p.resources with images := u ++ (n ++ w) } } rs { raw with resource := text } ∧ c148_Lines o old ∧
      c148_Lines n new ∧ c143_Differ (ended old) (ended new) raw.resource text := by
  obtain ⟨q, hq, hr⟩ := h
  simp only [SketchwareProject.toParsed, Out.bind_eq_ok] at hq
  obtain ⟨⟨logics, layouts, fabs⟩, h1, ⟨images, imageFiles⟩, h2, ⟨sounds, soundFiles⟩, h3, ⟨fonts, fontFiles⟩, h4, h5⟩ := hq
  cases h5
  simp only [Swrs.SketchwareProject.tryIntoRaw, Out.bind_eq_ok, Out.pure_eq, Out.ok.injEq] at hr
  obtain ⟨pr, hpr, rfl⟩ := hr
  rw [hp] at h2
  obtain ⟨items', fs', old, new, h2', ho, hw, hd⟩ := c148_items hn h2
  refine ⟨(⟨items', sounds, fonts⟩ : Resource).reconstruct, old, new, ⟨_, by simp only [SketchwareProject.toParsed, h1, h2', h3, h4, Out.ok_bind, Out.pure_eq]; rfl,
    by simp only [Swrs.SketchwareProject.tryIntoRaw, hpr, Out.ok_bind, Out.pure_eq]⟩, ho, hw, ?_⟩
  dsimp only
  rw [c63_resource, c63_resource]
  exact .right _ (.right _ (.right _ (.right _ (.left _ (c148_ended hd)))))

/-- C148: some of the sounds are replaced by others; there may be none before or after. -/
theorem c148_sounds (h : c143_Saved p rs raw) (hp : p.resources.sounds = u ++ (o ++ w)) (hn : ∀ r ∈ n, ∃ m, (r.2.getFullName : Out Empty Str) = .ok m) :
    ∃ text old new, c143_Saved { p with resources := { p.resources with sounds := u ++ (n ++ w) } } rs { raw with resource := text } ∧ c148_Lines o old ∧
      c148_Lines n new ∧ c143_Differ (ended old) (ended new) raw.resource text := by
  obtain ⟨q, hq, hr⟩ := h
  simp only [SketchwareProject.toParsed, Out.bind_eq_ok] at hq
  obtain ⟨⟨logics, layouts, fabs⟩, h1, ⟨images, imageFiles⟩, h2, ⟨sounds, soundFiles⟩, h3, ⟨fonts, fontFiles⟩, h4, h5⟩ := hq
  cases h5
  simp only [Swrs.SketchwareProject.tryIntoRaw, Out.bind_eq_ok, Out.pure_eq, Out.ok.injEq] at hr
  obtain ⟨pr, hpr, rfl⟩ := hr
  rw [hp] at h3
  obtain ⟨items', fs', old, new, h3', ho, hw, hd⟩ := c148_items hn h3
  refine ⟨(⟨images, items', fonts⟩ : Resource).reconstruct, old, new, ⟨_, by simp only [SketchwareProject.toParsed, h1, h2, h3', h4, Out.ok_bind, Out.pure_eq]; rfl,
    by simp only [Swrs.SketchwareProject.tryIntoRaw, hpr, Out.ok_bind, Out.pure_eq]⟩, ho, hw, ?_⟩
  dsimp only
  rw [c63_resource, c63_resource]
  exact .right _ (.right _ (.left _ (c148_ended hd)))

/-- C148: some of the fonts are replaced by others, at least one before and after. -/
theorem c148_fonts (h : c143_Saved p rs raw) (hp : p.resources.fonts = u ++ (o ++ w)) (hn : ∀ r ∈ n, ∃ m, (r.2.getFullName : Out Empty Str) = .ok m)
    (ho : o ≠ []) (hne : n ≠ []) :
    ∃ text old new, c143_Saved { p with resources := { p.resources with fonts := u ++ (n ++ w) } } rs { raw with resource := text } ∧ c148_Lines o old ∧
      c148_Lines n new ∧ c143_Differ (between "\n" old) (between "\n" new) raw.resource text := by
  obtain ⟨q, hq, hr⟩ := h
  simp only [SketchwareProject.toParsed, Out.bind_eq_ok] at hq
  obtain ⟨⟨logics, layouts, fabs⟩, h1, ⟨images, imageFiles⟩, h2, ⟨sounds, soundFiles⟩, h3, ⟨fonts, fontFiles⟩, h4, h5⟩ := hq
  cases h5
  simp only [Swrs.SketchwareProject.tryIntoRaw, Out.bind_eq_ok, Out.pure_eq, Out.ok.injEq] at hr
  obtain ⟨pr, hpr, rfl⟩ := hr
  rw [hp] at h4
  obtain ⟨items', fs', old, new, h4', hol, hw, hd⟩ := c148_items hn h4
  refine ⟨(⟨images, sounds, items'⟩ : Resource).reconstruct, old, new, ⟨_, by simp only [SketchwareProject.toParsed, h1, h2, h3, h4', Out.ok_bind, Out.pure_eq]; rfl,
    by simp only [Swrs.SketchwareProject.tryIntoRaw, hpr, Out.ok_bind, Out.pure_eq]⟩, hol, hw, ?_⟩
  dsimp only
  rw [c63_resource, c63_resource]
  exact .left _ (c148_between (c148_ne hol ho) (c148_ne hw hne) hd)

-- an image is removed, a sound is added, and a font gets another one after it
example : ∃ raw text text' text'', c143_Saved c143_demo none raw ∧
    c143_Differ (c143_resourceLine (s% "i.png") (s% "i") ++ ['\n']) [] raw.resource text ∧
    c143_Differ [] (c143_resourceLine (s% "b.mp3") (s% "bell") ++ ['\n']) raw.resource text' ∧
    c143_Differ (c143_resourceLine (s% "f.ttf") (s% "f")) (c143_resourceLine (s% "f.ttf") (s% "f") ++ '\n' :: c143_resourceLine (s% "m.ttf") (s% "mono"))
      raw.resource text'' := by
  obtain ⟨raw, h⟩ := c143_demo_saved
  obtain ⟨a, _, _, -, o1, n1, ha⟩ := c148_images c143_demo none raw [] [(s% "i", .u32Id 3 (s% "i.png") .image)] [] [] h rfl (by simp)
  obtain ⟨b, _, _, -, o2, n2, hb⟩ := c148_sounds c143_demo none raw [(s% "s", .u32Id 4 (s% "s.mp3") .sound)] [] [(s% "bell", .u32Id 7 (s% "b.mp3") .sound)] [] h rfl
    (by intro r hr; simp at hr; subst hr; exact ⟨_, rfl⟩)
  obtain ⟨c, _, _, -, o3, n3, hc⟩ := c148_fonts c143_demo none raw [] [(s% "f", .u32Id 5 (s% "f.ttf") .font)]
    [(s% "f", .u32Id 5 (s% "f.ttf") .font), (s% "mono", .u32Id 8 (s% "m.ttf") .font)] [] h rfl
    (by intro r hr; simp at hr; rcases hr with rfl | rfl <;> exact ⟨_, rfl⟩) (by simp) (by simp)
  refine ⟨raw, a, b, c, h, ?_, ?_, ?_⟩
  · cases o1 with | cons x y => cases y; cases n1; obtain ⟨_, hx, rfl⟩ := x; cases hx; simpa [ended] using ha
  · cases n2 with | cons x y => cases y; cases o2; obtain ⟨_, hx, rfl⟩ := x; cases hx; simpa [ended] using hb
  · cases o3 with
    | cons x y => cases n3 with
      | cons z t => cases t with
        | cons t s =>
          cases y; cases s
          obtain ⟨_, hx, rfl⟩ := x; cases hx
          obtain ⟨_, hz, rfl⟩ := z; cases hz
          obtain ⟨_, ht, rfl⟩ := t; cases ht
          simpa [between] using hc
end
end Swrs.Api
