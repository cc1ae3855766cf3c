import Verif.Props.Written
import Verif.Props.Raw
/-!
# The maps that are written for an API project with distinct names, in order
-/
namespace Swrs.Api
section
variable [MapPol] [Floats]

theorem eventsBack_list {es : List Event} {cs : Containers} {ps : List Swrs.Event} {cs' : Containers}
    (h : eventsBack es cs = .ok (ps, cs')) (hn : (cs.keys ++ es.map (·.containerId)).Nodup) :
    ∃ ws : LMap Str BlockContainer, All₂ (fun x w => w.1 = x.1 ∧ toContainer x.2 = .ok w.2) (es.map fun e => (e.containerId, e.code)) ws ∧
      cs' = cs ++ ws := by
  induction es generalizing cs ps with
  | nil => cases h; exact ⟨[], .nil, by simp⟩
  | cons e es ih =>
    simp only [eventsBack, eventBack, Out.bind_eq_ok, Out.pure_eq, Out.ok.injEq, Prod.exists, Prod.mk.injEq] at h
    obtain ⟨x, cs1, ⟨c, hc, rfl, rfl⟩, y, cs2, h, rfl, rfl⟩ := h
    have hk : e.containerId ∉ cs.keys := by
      rw [List.nodup_append] at hn
      exact fun hm => hn.2.2 _ hm _ (by simp) rfl
    rw [LMap.insert_new hk] at h
    obtain ⟨ws, h1, rfl⟩ := ih h (by
      rw [LMap.keys_append]
      simpa using hn)
    exact ⟨(e.containerId, c) :: ws, .cons ⟨rfl, hc⟩ h1, by simp⟩

theorem moreBlocksBack_list {ms : List (Str × MoreBlock)} {cs cs' : Containers} {ps : List (Str × Swrs.MoreBlock)}
    (h : moreBlocksBack ms cs = .ok (ps, cs')) (hn : (cs.keys ++ ms.map (fun m => m.1 ++ s% "_moreBlock")).Nodup) :
    ∃ ws : LMap Str BlockContainer,
      All₂ (fun x w => w.1 = x.1 ∧ toContainer x.2 = .ok w.2) (ms.map fun m => (m.1 ++ s% "_moreBlock", m.2.code)) ws ∧ cs' = cs ++ ws := by
  induction ms generalizing cs ps with
  | nil => cases h; exact ⟨[], .nil, by simp⟩
  | cons m ms ih =>
    obtain ⟨id, m⟩ := m
    simp only [moreBlocksBack, Out.bind_eq_ok, Out.pure_eq, Out.ok.injEq, Prod.exists, Prod.mk.injEq] at h
    obtain ⟨c, hc, x, cs1, h, rfl, rfl⟩ := h
    have hk : moreBlockId id ∉ cs.keys := by
      rw [List.nodup_append] at hn
      exact fun hm => hn.2.2 _ hm _ (by simp [moreBlockId]) rfl
    rw [LMap.insert_new hk] at h
    obtain ⟨ws, h1, rfl⟩ := ih h (by
      rw [LMap.keys_append]
      simpa [moreBlockId] using hn)
    exact ⟨(moreBlockId id, c) :: ws, .cons ⟨rfl, hc⟩ h1, by simp⟩

omit [MapPol] [Floats] in
theorem keys_of_all₂ {α β : Type} {R : Str × α → Str × β → Prop} (hR : ∀ x w, R x w → w.1 = x.1) {xs : LMap Str α} {ws : LMap Str β}
    (h : All₂ R xs ws) : ws.keys = xs.keys := by
  induction h with
  | nil => rfl
  | cons h _ ih => rw [LMap.keys_cons, LMap.keys_cons, ih, hR _ _ h]

/-- The logic of a screen whose code has distinct container ids, in order. -/
theorem toLogic_list {s : Screen} {l : ScreenLogic} (h : s.toLogic = .ok l) (hm : s.moreBlocks.keys.Nodup)
    (hn : ((codeOfScreen s).map (·.1)).Nodup) :
    l.name = s.javaName ∧ l.variables = some ⟨s.variables⟩ ∧ l.listVariables = some ⟨s.listVariables⟩ ∧
    l.moreBlocks = some ⟨s.moreBlocks.map fun m => (m.1, (⟨m.2.name, BlockContent.text m.2.spec⟩ : Swrs.MoreBlock))⟩ ∧
    All₂ (fun x w => w.1 = x.1 ∧ toContainer x.2 = .ok w.2) (codeOfScreen s) l.blockContainers := by
  simp only [Screen.toLogic, Out.bind_eq_ok, Prod.exists, Out.pure_eq, Out.ok.injEq] at h
  obtain ⟨es, cs, h1, ms, cs', h2, rfl⟩ := h
  have hc : (codeOfScreen s).map (·.1) = s.events.map (·.containerId) ++ s.moreBlocks.map fun m => m.1 ++ s% "_moreBlock" := by
    simp only [codeOfScreen, List.map_append, List.map_map]; rfl
  rw [hc] at hn
  obtain ⟨ws, h3, hcs⟩ := eventsBack_list h1 (by simpa using (List.nodup_append.mp hn).1)
  rw [List.nil_append] at hcs
  subst hcs
  have hk : LMap.keys cs = s.events.map (·.containerId) := by
    rw [keys_of_all₂ (fun _ _ h => h.1) h3]; simp [LMap.keys]
  obtain ⟨ws', h4, rfl⟩ := moreBlocksBack_list h2 (by simpa [hk] using hn)
  obtain ⟨rfl, -⟩ := moreBlocksBack_containers h2
  refine ⟨rfl, rfl, rfl, ?_, all₂_append h3 h4⟩
  rw [LMap.collect_nodup]
  · rfl
  · simp only [LMap.keys, List.map_map]
    exact hm

theorem screensBack_lists {ss : List Screen} {lg lg' : LMap Str ScreenLogic} {ls ls' : LMap Str Layout} {fs fs' : LMap Str AndroidView}
    (h : screensBack ss lg ls fs = .ok (lg', ls', fs')) (hj : (lg.keys ++ ss.map (·.javaName)).Nodup)
    (hl : (ls.keys ++ ss.map (·.layoutName)).Nodup) (hf : (fs.keys ++ ss.map (·.layoutName)).Nodup) :
    (∃ logics : LMap Str ScreenLogic, All₂ (fun s e => e.1 = s.javaName ∧ s.toLogic = .ok e.2) ss logics ∧ lg' = lg ++ logics) ∧
    ls' = ls ++ ss.map (fun s => (s.layoutName, s.toLayout)) ∧
    fs' = fs ++ ss.filterMap fun s => s.fab.map fun v => (s.layoutName, fabBack v) := by
  induction ss generalizing lg ls fs with
  | nil => cases h; exact ⟨⟨[], .nil, by simp⟩, by simp, by simp⟩
  | cons s ss ih =>
    simp only [screensBack, Out.bind_eq_ok] at h
    obtain ⟨l, hlog, h⟩ := h
    have hnew : ∀ {α : Type} {m : LMap Str α} {n : Str} {ns : List Str}, (m.keys ++ n :: ns).Nodup → n ∉ m.keys := by
      intro α m n ns hn hm
      rw [List.nodup_append] at hn
      exact hn.2.2 _ hm _ (by simp) rfl
    rw [LMap.insert_new (hnew hj), LMap.insert_new (hnew hl)] at h
    cases hfab : s.fab with
    | none =>
      simp only [hfab] at h
      obtain ⟨⟨logics, h1, rfl⟩, rfl, rfl⟩ := ih h (by simpa using hj) (by simpa using hl) (by
        rw [List.map_cons, List.nodup_append] at hf
        rw [List.nodup_append]
        exact ⟨hf.1, (List.nodup_cons.mp hf.2.1).2, fun a ha b hb => hf.2.2 a ha b (by simp [hb])⟩)
      exact ⟨⟨(s.javaName, l) :: logics, .cons ⟨rfl, hlog⟩ h1, by simp⟩, by simp, by rw [List.filterMap_cons, hfab]; rfl⟩
    | some v =>
      simp only [hfab] at h
      rw [LMap.insert_new (hnew hf)] at h
      obtain ⟨⟨logics, h1, rfl⟩, rfl, rfl⟩ := ih h (by simpa using hj) (by simpa using hl) (by simpa using hf)
      exact ⟨⟨(s.javaName, l) :: logics, .cons ⟨rfl, hlog⟩ h1, by simp⟩, by simp, by rw [List.filterMap_cons, hfab]; simp⟩

/-- The layouts of a project, in the order in which they are written. -/
def layoutsOf (p : SketchwareProject) : List (Str × List View) :=
  p.screens.map (fun s => (s.layoutName, s.layout)) ++ p.customViews.map fun c => (c.resName, c.layout)

/-- The FABs of a project, in the order in which they are written. -/
def fabsOf (p : SketchwareProject) : List (Str × View) := p.screens.filterMap fun s => s.fab.map fun v => (s.layoutName, v)

theorem toParsed_lists {p : SketchwareProject} {q : Swrs.SketchwareProject} (h : p.toParsed = .ok q)
    (hl : ((layoutsOf p).map (·.1)).Nodup) (hj : (p.screens.map (·.javaName)).Nodup) :
    q.view.layouts = (layoutsOf p).map (fun e => (e.1, (⟨flattenViews e.2 none none⟩ : Layout))) ∧
    q.view.fabs = (fabsOf p).map (fun e => (e.1, fabBack e.2)) ∧
    All₂ (fun s e => e.1 = s.javaName ∧ s.toLogic = .ok e.2) p.screens q.logic.screens := by
  obtain ⟨lg, ls, fs, _, _, _, hb, _, _, _, _, _, _, hv, hlog, _⟩ := toParsed_ok h
  have hl' : (layoutsOf p).map (·.1) = p.screens.map (·.layoutName) ++ p.customViews.map (·.resName) := by
    simp only [layoutsOf, List.map_append, List.map_map]; rfl
  rw [hl'] at hl
  have hls := (List.nodup_append.mp hl).1
  obtain ⟨⟨logics, h1, rfl⟩, rfl, rfl⟩ := screensBack_lists hb (by simpa using hj) (by simpa using hls) (by simpa using hls)
  rw [hv, hlog]
  refine ⟨?_, ?_, by simpa using h1⟩
  · have : customViewsBack p.customViews ([] ++ p.screens.map fun s => (s.layoutName, s.toLayout)) =
        (p.screens.map fun s => (s.layoutName, s.toLayout)) ++ p.customViews.map fun c => (c.resName, ⟨flattenViews c.layout none none⟩) := by
      unfold customViewsBack
      rw [← List.foldl_map (f := fun c : CustomView => (c.resName, (⟨flattenViews c.layout none none⟩ : Layout)))
        (g := fun m (e : Str × Layout) => LMap.insert m e.1 e.2), List.nil_append, LMap.foldl_insert_nodup]
      have : LMap.keys ((p.screens.map fun s => (s.layoutName, s.toLayout)) ++
          p.customViews.map fun c => (c.resName, (⟨flattenViews c.layout none none⟩ : Layout))) =
          p.screens.map (·.layoutName) ++ p.customViews.map (·.resName) := by
        simp only [LMap.keys, List.map_append, List.map_map]; rfl
      rw [this]; exact hl
    rw [this]
    simp only [layoutsOf, Screen.toLayout, List.map_append, List.map_map]; rfl
  · simp only [List.nil_append, fabsOf, List.map_filterMap]
    congr 1
    funext s
    cases s.fab <;> rfl

omit [MapPol] in
theorem flattenViews_nil (vs : List View) : flattenViews vs none none = [] ↔ vs = [] := by
  cases vs with
  | nil => simp [flattenViews, flattenIn, flattenBelow]
  | cons v vs => simp [flattenViews, flattenIn]

omit [MapPol] in
theorem toContainer_nil {bs : List Block} {c : BlockContainer} (h : toContainer bs = .ok c) : c.blocks = [] ↔ bs = [] := by
  obtain ⟨n, h⟩ := toContainer_ok.mp h
  cases bs with
  | nil =>
    simp only [convertBlocks, Out.ok.injEq, Prod.mk.injEq] at h
    simp [← h.1]
  | cons b bs =>
    simp only [convertBlocks, Out.bind_eq_ok, Prod.exists, Out.pure_eq, Out.ok.injEq, Prod.mk.injEq] at h
    obtain ⟨ps, k, h1, qs, k', h2, h3, -⟩ := h
    obtain ⟨head, rest, rfl, -⟩ := convertBlock_head h1
    rw [← h3]
    simp
end
end Swrs.Api
