import Verif.Props.Raw
import Verif.Model.ApiProject
/-!
# C108: the order in which resource files are given
-/
namespace Swrs

/-! ## C108 — The order in which resource files are listed -/

/-- C108: whether a list of resource files is accepted does not depend on its order. -/
theorem c108_accepted (ex : PathBuf → Bool) (ws ws' : List ResourceFileWrapper) (hp : ws.Perm ws') :
    (∃ r, ResourceFiles.tryFrom ex ws = .ok r) ↔ ∃ r, ResourceFiles.tryFrom ex ws' = .ok r := by
  rw [(c57_sorted ex ws).1, (c57_sorted ex ws').1]
  exact ⟨fun h w hw => h w (hp.mem_iff.mpr hw), fun h w hw => h w (hp.mem_iff.mp hw)⟩

/-- Two lists in which no slot is wanted by two different files fill every slot alike if they have the same files. -/
theorem same_of_members {ex : PathBuf → Bool} {ws ws' : List ResourceFileWrapper} {r r' : ResourceFiles} (hm : ∀ w, w ∈ ws ↔ w ∈ ws')
    (hone : ∀ a ∈ ws, ∀ b ∈ ws, ∀ s, InSlot ex a s → InSlot ex b s → a = b)
    (h : ResourceFiles.tryFrom ex ws = .ok r) (h' : ResourceFiles.tryFrom ex ws' = .ok r') : r'.Same r := by
  refine ResourceFiles.same_iff.mpr fun s => ?_
  have fwd : ∀ w, r.at s = some w → r'.at s = some w := by
    intro w hw
    obtain ⟨h1, h2⟩ := ResourceFiles.LastIn.mem (((c57_sorted ex ws).2 r h s w).mp hw)
    obtain ⟨w', hw'⟩ := ResourceFiles.LastIn.exists ws' w ((hm w).mp h1) h2
    obtain ⟨h3, h4⟩ := ResourceFiles.LastIn.mem hw'
    rw [hone w h1 w' ((hm w').mpr h3) s h2 h4]
    exact ((c57_sorted ex ws').2 r' h' s w').mpr hw'
  cases hs : r.at s with
  | some w => exact fwd w hs
  | none =>
    cases hs' : r'.at s with
    | none => rfl
    | some w =>
      obtain ⟨h1, h2⟩ := ResourceFiles.LastIn.mem (((c57_sorted ex ws').2 r' h' s w).mp hs')
      obtain ⟨w', hw'⟩ := ResourceFiles.LastIn.exists ws w ((hm w).mpr h1) h2
      rw [((c57_sorted ex ws).2 r h s w').mpr hw'] at hs
      cases hs

/-- C108: the order of an accepted list does not matter exactly if no two different files of it have the same kind and name (for icons:
the same kind). -/
theorem c108_order (ex : PathBuf → Bool) (ws : List ResourceFileWrapper) (r : ResourceFiles) (h : ResourceFiles.tryFrom ex ws = .ok r) :
    (∀ ws', ws.Perm ws' → ∃ r', ResourceFiles.tryFrom ex ws' = .ok r' ∧ r'.Same r) ↔
      ∀ a ∈ ws, ∀ b ∈ ws, ∀ s, InSlot ex a s → InSlot ex b s → a = b := by
  constructor
  · intro hall a ha b hb s has hbs
    refine Classical.byContradiction fun hne => ?_
    have hb' : b ∈ ws.erase a := (List.mem_erase_of_ne (fun e => hne e.symm)).mpr hb
    have p1 : ws.Perm (a :: b :: (ws.erase a).erase b) :=
      (List.perm_cons_erase ha).trans ((List.perm_cons_erase hb').cons a)
    have p2 : ws.Perm ((ws.erase a).erase b ++ [a, b]) := p1.trans (List.perm_append_comm (l₁ := [a, b]))
    have p3 : ws.Perm ((ws.erase a).erase b ++ [b, a]) := p2.trans ((List.Perm.swap _ _ _).append_left _)
    obtain ⟨r2, e2, s2⟩ := hall _ p2
    obtain ⟨r3, e3, s3⟩ := hall _ p3
    have l2 : r2.at s = some b := ((c57_sorted ex _).2 r2 e2 s b).mpr ⟨(ws.erase a).erase b ++ [a], [], by simp, hbs, by simp⟩
    have l3 : r3.at s = some a := ((c57_sorted ex _).2 r3 e3 s a).mpr ⟨(ws.erase a).erase b ++ [b], [], by simp, has, by simp⟩
    rw [ResourceFiles.same_iff.mp s2 s, ← ResourceFiles.same_iff.mp s3 s, l3] at l2
    exact hne (Option.some.inj l2)
  · intro hone ws' hp
    obtain ⟨r', hr'⟩ := (c108_accepted ex ws ws' hp).mp ⟨r, h⟩
    exact ⟨r', hr', same_of_members (fun w => hp.mem_iff) hone h hr'⟩

theorem resourcesConv_agree (rnd : Nat → UInt32) (t : ResourceType) (items : List ResourceItem) :
    ∀ m n : HMap Str ResourceFileWrapper, (∀ i ∈ items, HMap.get m i.fullName = HMap.get n i.fullName) →
      Api.resourcesConv rnd t items (some m) = Api.resourcesConv rnd t items (some n) := by
  induction items with
  | nil => intro m n _; rfl
  | cons i rest ih =>
    intro m n h
    simp only [Api.resourcesConv]
    rw [h i (by simp), ih (LMap.erase m i.fullName) (LMap.erase n i.fullName) fun k hk => by
      have := h k (by simp [hk])
      unfold HMap.get at this ⊢
      rw [LMap.get_erase, LMap.get_erase, this]]

/-- C108: a project that is opened with its resource files listed in another order is the same project: it converts to the same API project, or
with the same error. -/
theorem c108_project [MapPol] [Floats] (ex : PathBuf → Bool) (project file library resource view logic : Str)
    (ws ws' : List ResourceFileWrapper) (hp : ws.Perm ws')
    (hone : ∀ a ∈ ws, ∀ b ∈ ws, ∀ s, InSlot ex a s → InSlot ex b s → a = b) (p : SketchwareProject)
    (h : SketchwareProject.parse ex project file library resource view logic ws = .ok p) :
    ∃ p', SketchwareProject.parse ex project file library resource view logic ws' = .ok p' ∧ p'.Same p ∧
      ∀ rnd, Api.SketchwareProject.tryFrom rnd p' = Api.SketchwareProject.tryFrom rnd p := by
  simp only [SketchwareProject.parse, SketchwareProject.parseFrom, optTryFrom, Out.bind_eq_ok, Out.mapErr_eq_ok, Out.pure_eq,
    Out.ok.injEq] at h ⊢
  obtain ⟨a1, h1, a2, h2, a3, h3, a4, h4, a5, h5, a6, h6, a7, ⟨r, h7, rfl⟩, rfl⟩ := h
  obtain ⟨r', hr', hs⟩ := (c108_order ex ws r h7).mpr hone ws' hp
  refine ⟨⟨a1, a2, a3, a4, a5, a6, some r'⟩, ⟨a1, h1, a2, h2, a3, h3, a4, h4, a5, h5, a6, h6, _, ⟨r', hr', rfl⟩, rfl⟩,
    ⟨rfl, rfl, rfl, rfl, rfl, fun _ => rfl, hs⟩, fun rnd => ?_⟩
  simp only [Api.SketchwareProject.tryFrom, Option.map_some, Option.bind_some, hs.icon, resourcesConv_agree _ _ _ _ _ fun _ _ => hs.images _,
    resourcesConv_agree _ _ _ _ _ fun _ _ => hs.sounds _, resourcesConv_agree _ _ _ _ _ fun _ _ => hs.fonts _, Option.isNone_some]

theorem lastIn_iff {ex : PathBuf → Bool} {ws : List ResourceFileWrapper} {s : Slot} {w : ResourceFileWrapper} :
    LastIn ex ws s w ↔ (ws.filter fun x => @decide (InSlot ex x s) (Classical.propDecidable _)).getLast? = some w := by
  have fwd : ∀ w, LastIn ex ws s w →
      (ws.filter fun x => @decide (InSlot ex x s) (Classical.propDecidable _)).getLast? = some w := by
    rintro w ⟨pre, post, rfl, h1, h2⟩
    have : (post.filter fun x => @decide (InSlot ex x s) (Classical.propDecidable _)) = [] := by
      rw [List.filter_eq_nil_iff]
      intro x hx h
      exact h2 x hx (@of_decide_eq_true _ (Classical.propDecidable _) h)
    rw [List.filter_append, List.filter_cons_of_pos (by simpa using h1), this]
    simp
  refine ⟨fwd w, fun h => ?_⟩
  have hm := List.mem_of_getLast? h
  rw [List.mem_filter] at hm
  obtain ⟨w', hw'⟩ := ResourceFiles.LastIn.exists ws w hm.1 (@of_decide_eq_true _ (Classical.propDecidable _) hm.2)
  have := fwd w' hw'
  rw [h] at this
  rw [Option.some.inj this]
  exact hw'

/-- The slot of a resource that the text of the resource list names. -/
def c108_Listed (r : Resource) : Slot → Prop
  | .image n => ∃ i ∈ r.images, i.fullName = n
  | .sound n => ∃ i ∈ r.sounds, i.fullName = n
  | .font n => ∃ i ∈ r.fonts, i.fullName = n
  | .icon => True

/-- C108: a file that the resource list does not name, anywhere in the list of files, changes nothing in the API project. -/
theorem c108_stray [MapPol] [Floats] (ex : PathBuf → Bool) (project file library resource view logic : Str)
    (pre post : List ResourceFileWrapper) (w : ResourceFileWrapper) (p : SketchwareProject)
    (h : SketchwareProject.parse ex project file library resource view logic (pre ++ post) = .ok p) (s : Slot) (hw : InSlot ex w s)
    (hs : ¬ c108_Listed p.resource s) :
    ∃ p', SketchwareProject.parse ex project file library resource view logic (pre ++ w :: post) = .ok p' ∧
      ∀ rnd, Api.SketchwareProject.tryFrom rnd p' = Api.SketchwareProject.tryFrom rnd p := by
  simp only [SketchwareProject.parse, SketchwareProject.parseFrom, optTryFrom, Out.bind_eq_ok, Out.mapErr_eq_ok, Out.pure_eq,
    Out.ok.injEq] at h ⊢
  obtain ⟨a1, h1, a2, h2, a3, h3, a4, h4, a5, h5, a6, h6, a7, ⟨r, h7, rfl⟩, rfl⟩ := h
  obtain ⟨r', hr'⟩ := (c57_sorted ex (pre ++ w :: post)).1.mpr fun x hx => by
    rcases List.mem_append.mp hx with hx | hx
    · exact (c57_sorted ex _).1.mp ⟨r, h7⟩ x (by simp [hx])
    · rcases List.mem_cons.mp hx with rfl | hx
      · exact ⟨s, hw⟩
      · exact (c57_sorted ex _).1.mp ⟨r, h7⟩ x (by simp [hx])
  have hat : ∀ t, t ≠ s → r'.at t = r.at t := by
    intro t ht
    have : ∀ x, r'.at t = some x ↔ r.at t = some x := by
      intro x
      rw [(c57_sorted ex _).2 r' hr', (c57_sorted ex _).2 r h7, lastIn_iff, lastIn_iff, List.filter_append, List.filter_append,
        List.filter_cons_of_neg (by simpa using fun h => ht (ResourceFiles.InSlot.unique h hw))]
    cases hx : r'.at t with
    | some x => exact ((this x).mp hx).symm
    | none =>
      cases hy : r.at t with
      | none => rfl
      | some y => rw [(this y).mpr hy] at hx; cases hx
  refine ⟨⟨a1, a2, a3, a4, a5, a6, some r'⟩, ⟨a1, h1, a2, h2, a3, h3, a4, h4, a5, h5, a6, h6, _, ⟨r', hr', rfl⟩, rfl⟩, fun rnd => ?_⟩
  have hl : ∀ t, c108_Listed a4 t → r'.at t = r.at t := fun t ht => hat t fun e => hs (by rw [← e]; exact ht)
  have e1 := resourcesConv_agree (rnd .image) .image a4.images r'.images r.images fun i hi => hl (.image i.fullName) ⟨i, hi, rfl⟩
  have e2 := resourcesConv_agree (rnd .sound) .sound a4.sounds r'.sounds r.sounds fun i hi => hl (.sound i.fullName) ⟨i, hi, rfl⟩
  have e3 := resourcesConv_agree (rnd .font) .font a4.fonts r'.fonts r.fonts fun i hi => hl (.font i.fullName) ⟨i, hi, rfl⟩
  have e4 : r'.customIcon = r.customIcon := hl .icon trivial
  simp only [Api.SketchwareProject.tryFrom, Option.map_some, Option.bind_some, e1, e2, e3, e4, Option.isNone_some]

-- a list with a picture and a sound of one name, in both orders; two pictures of one name in both orders
example : (∀ a ∈ [ResourceFileWrapper.u32Id 1 (s% "a") .image, .u32Id 2 (s% "a") .sound],
      ∀ b ∈ [ResourceFileWrapper.u32Id 1 (s% "a") .image, .u32Id 2 (s% "a") .sound], ∀ s, InSlot (fun _ => true) a s →
        InSlot (fun _ => true) b s → a = b) ∧
    ResourceFiles.tryFrom (fun _ => true) [.u32Id 1 (s% "a") .image, .u32Id 2 (s% "a") .sound] =
      .ok ⟨none, [(s% "a", .u32Id 1 (s% "a") .image)], [(s% "a", .u32Id 2 (s% "a") .sound)], []⟩ ∧
    ResourceFiles.tryFrom (fun _ => true) [.u32Id 1 (s% "a") .image, .u32Id 2 (s% "a") .image] =
      .ok ⟨none, [(s% "a", .u32Id 2 (s% "a") .image)], [], []⟩ ∧
    ResourceFiles.tryFrom (fun _ => true) [.u32Id 2 (s% "a") .image, .u32Id 1 (s% "a") .image] =
      .ok ⟨none, [(s% "a", .u32Id 1 (s% "a") .image)], [], []⟩ := by
  refine ⟨?_, by decide +kernel, by decide +kernel, by decide +kernel⟩
  intro a ha b hb s h1 h2
  have i1 := InSlot.u32Id (ex := fun _ => true) 1 (s% "a") .image
  have i2 := InSlot.u32Id (ex := fun _ => true) 2 (s% "a") .sound
  simp only [List.mem_cons, List.not_mem_nil, or_false] at ha hb
  rcases ha with rfl | rfl <;> rcases hb with rfl | rfl
  · rfl
  · rw [ResourceFiles.InSlot.unique h1 i1] at h2; exact nomatch ResourceFiles.InSlot.unique h2 i2
  · rw [ResourceFiles.InSlot.unique h1 i2] at h2; exact nomatch ResourceFiles.InSlot.unique h2 i1
  · rfl

-- a project that is opened with a picture that it does not list
example [MapPol] [FloatLaws] : ∃ project file library resource view logic p,
    InSlot (fun _ => true) (.u32Id 1 (s% "a") .image) (.image (s% "a")) ∧
    SketchwareProject.parse (fun _ => true) project file library resource view logic ([] ++ []) = .ok p ∧ ¬ c108_Listed p.resource (.image (s% "a")) := by
  obtain ⟨raw, h1, h2⟩ := c58_project_round_trip_partial (fun _ => true) (c58_witness 1672531198)
    ⟨2022, 12, 31, 23, 59, 58⟩ (by decide +kernel) (by show _ = (1672531198 : UInt64).toInt64.toInt; decide +kernel)
    ⟨List.Pairwise.nil, List.Pairwise.nil⟩ (by simp [c58_witness, c28_Maps]) (by simp [c58_witness]) none rfl
  obtain ⟨q, h3, h4⟩ := h2.mpr ⟨by unfold Date.FullWidth; simp, c58_witness_parts⟩
  have hr := h4.resource
  simp only [SketchwareProject.parseFrom, Out.bind_eq_ok, Out.mapErr_eq_ok, Out.pure_eq, Out.ok.injEq] at h3
  obtain ⟨a1, k1, a2, k2, a3, k3, a4, k4, a5, k5, a6, k6, a7, _, rfl⟩ := h3
  refine ⟨raw.project, raw.file, raw.library, raw.resource, raw.view, raw.logic, ⟨a1, a2, a3, a4, a5, a6, some .empty⟩,
    .u32Id 1 (s% "a") .image, ?_, ?_⟩
  · simp only [SketchwareProject.parse, SketchwareProject.parseFrom, optTryFrom, Out.bind_eq_ok, Out.mapErr_eq_ok, Out.pure_eq,
      Out.ok.injEq]
    exact ⟨a1, k1, a2, k2, a3, k3, a4, k4, a5, k5, a6, k6, _, ⟨.empty, rfl, rfl⟩, rfl⟩
  · rintro ⟨i, hi, _⟩
    replace hr : a4 = (c58_witness 1672531198).resource := hr
    rw [hr] at hi
    simp [c58_witness] at hi

end Swrs
