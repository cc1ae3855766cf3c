import Verif.Proofs.ApiProject
import Verif.Proofs.ApiScreen
/-!
# Lemmas about the screens and custom views of projects
-/
namespace Swrs.Api
section
variable [MapPol] [Floats]

/-- The FABs after the loop over the screens started from `fabs`: a screen without FAB leaves the entry of its name. -/
theorem screensBack_ok {ss : List Screen} {lg lg' : LMap Str ScreenLogic} {ls ls' : LMap Str Layout} {fs fs' : LMap Str AndroidView}
    (hl : (ss.map (·.layoutName)).Nodup) (hj : (ss.map (·.javaName)).Nodup)
    (h : screensBack ss lg ls fs = .ok (lg', ls', fs')) :
    (∀ s ∈ ss, ∃ l, s.toLogic = .ok l ∧ lg'.get s.javaName = some l) ∧
    (∀ s ∈ ss, ls'.get s.layoutName = some s.toLayout) ∧
    (∀ s ∈ ss, fs.get s.layoutName = none → fs'.get s.layoutName = s.fab.map fabBack) ∧
    (∀ k, k ∉ ss.map (·.javaName) → lg'.get k = lg.get k) ∧
    (∀ k, k ∉ ss.map (·.layoutName) → ls'.get k = ls.get k ∧ fs'.get k = fs.get k) := by
  induction ss generalizing lg ls fs with
  | nil =>
    cases h
    simp
  | cons s ss ih =>
    simp only [screensBack, Out.bind_eq_ok] at h
    obtain ⟨l, hlog, h⟩ := h
    rw [List.map_cons, List.nodup_cons] at hl hj
    obtain ⟨h1, h2, h3, h4, h5⟩ := ih hl.2 hj.2 h
    refine ⟨?_, ?_, ?_, ?_, ?_⟩
    · intro x hx
      rcases List.mem_cons.mp hx with rfl | hx
      · refine ⟨l, hlog, ?_⟩
        rw [h4 _ hj.1, LMap.get_insert, if_pos rfl]
      · exact h1 x hx
    · intro x hx
      rcases List.mem_cons.mp hx with rfl | hx
      · rw [(h5 _ hl.1).1, LMap.get_insert, if_pos rfl]
      · exact h2 x hx
    · intro x hx hn
      rcases List.mem_cons.mp hx with rfl | hx
      · rw [(h5 _ hl.1).2]
        cases x.fab with
        | none => exact hn
        | some v => exact (LMap.get_insert ..).trans (if_pos rfl)
      · refine h3 x hx ?_
        have hne : x.layoutName ≠ s.layoutName := fun he => hl.1 (he ▸ List.mem_map_of_mem hx)
        cases s.fab with
        | none => exact hn
        | some v => exact (LMap.get_insert ..).trans ((if_neg hne).trans hn)
    · intro k hk
      rw [List.map_cons, List.mem_cons, not_or] at hk
      rw [h4 k hk.2, LMap.get_insert, if_neg hk.1]
    · intro k hk
      rw [List.map_cons, List.mem_cons, not_or] at hk
      obtain ⟨a, b⟩ := h5 k hk.2
      refine ⟨by rw [a, LMap.get_insert, if_neg hk.1], b.trans ?_⟩
      cases s.fab with
      | none => rfl
      | some v => exact (LMap.get_insert ..).trans (if_neg hk.1)

theorem screensBack_other {ss : List Screen} {lg lg' : LMap Str ScreenLogic} {ls ls' : LMap Str Layout} {fs fs' : LMap Str AndroidView}
    (h : screensBack ss lg ls fs = .ok (lg', ls', fs')) (k : Str) (hk : k ∉ ss.map (·.javaName)) : lg'.get k = lg.get k := by
  induction ss generalizing lg ls fs with
  | nil =>
    cases h
    rfl
  | cons s ss ih =>
    simp only [screensBack, Out.bind_eq_ok] at h
    obtain ⟨l, _, h⟩ := h
    rw [List.map_cons, List.mem_cons, not_or] at hk
    rw [ih h hk.2, LMap.get_insert, if_neg hk.1]

theorem screensBack_total {ss : List Screen} (h : ∀ s ∈ ss, ∃ l, s.toLogic = .ok l) (lg : LMap Str ScreenLogic) (ls : LMap Str Layout)
    (fs : LMap Str AndroidView) : ∃ r, screensBack ss lg ls fs = .ok r := by
  induction ss generalizing lg ls fs with
  | nil => exact ⟨_, rfl⟩
  | cons s ss ih =>
    obtain ⟨l, hl⟩ := h s (by simp)
    simp only [screensBack, hl, Out.ok_bind]
    exact ih (fun s hs => h s (by simp [hs])) ..

theorem customViewsBack_get {cvs : List CustomView} (ls : LMap Str Layout) (hn : (cvs.map (·.resName)).Nodup) :
    (∀ c ∈ cvs, (customViewsBack cvs ls).get c.resName = some ⟨flattenViews c.layout none none⟩) ∧
    ∀ k, k ∉ cvs.map (·.resName) → (customViewsBack cvs ls).get k = ls.get k := by
  induction cvs generalizing ls with
  | nil => simp [customViewsBack]
  | cons c cvs ih =>
    rw [List.map_cons, List.nodup_cons] at hn
    obtain ⟨h1, h2⟩ := ih (ls.insert c.resName ⟨flattenViews c.layout none none⟩) hn.2
    refine ⟨?_, ?_⟩
    · intro x hx
      rcases List.mem_cons.mp hx with rfl | hx
      · exact (h2 _ hn.1).trans ((LMap.get_insert ..).trans (if_pos rfl))
      · exact h1 x hx
    · intro k hk
      rw [List.map_cons, List.mem_cons, not_or] at hk
      exact (h2 k hk.2).trans ((LMap.get_insert ..).trans (if_neg hk.1))

/-- The screen that is read for an activity. -/
def screenOf (ls : LMap Str Layout) (lg : LMap Str ScreenLogic) (fs : LMap Str AndroidView) (f : FileItem) :
    Out ScreenConstructionError Screen :=
  Screen.fromParsed f.filename ((lg.get (viewNameToLogic f.filename)).getD (ScreenLogic.newEmpty f.filename)).name f
    ((ls.get f.filename).getD ⟨[]⟩) ((lg.get (viewNameToLogic f.filename)).getD (ScreenLogic.newEmpty f.filename))
    ((fs.get f.filename).map View.ofRaw)

theorem screenOf_erase {ls : LMap Str Layout} {lg : LMap Str ScreenLogic} {fs : LMap Str AndroidView} {f : FileItem} {n : Str}
    (h : f.filename ≠ n) (h' : viewNameToLogic f.filename ≠ viewNameToLogic n) :
    screenOf (ls.erase n) (lg.erase (viewNameToLogic n)) (fs.erase n) f = screenOf ls lg fs f := by
  simp only [screenOf, LMap.get_erase, if_neg h, if_neg h']

/-- With distinct names, every activity is read from its own parts. -/
theorem activitiesConv_ok {items : List FileItem} {ls ls' : LMap Str Layout} {lg : LMap Str ScreenLogic} {fs : LMap Str AndroidView}
    {screens : List Screen} (hn : (items.map fun f => viewNameToLogic f.filename).Nodup) :
    activitiesConv items ls lg fs = .ok (screens, ls') ↔
      All₂ (fun f s => screenOf ls lg fs f = .ok s) items screens ∧ ls' = (items.map (·.filename)).foldl LMap.erase ls := by
  induction items generalizing ls lg fs screens with
  | nil =>
    simp only [activitiesConv, Out.ok.injEq, Prod.mk.injEq, List.map_nil, List.foldl_nil]
    constructor
    · rintro ⟨rfl, rfl⟩
      exact ⟨.nil, rfl⟩
    · rintro ⟨h, rfl⟩
      cases h
      exact ⟨rfl, rfl⟩
  | cons f items ih =>
    rw [List.map_cons, List.nodup_cons] at hn
    have herase : ∀ g ∈ items, screenOf (ls.erase f.filename) (lg.erase (viewNameToLogic f.filename)) (fs.erase f.filename) g =
        screenOf ls lg fs g := by
      intro g hg
      have : viewNameToLogic g.filename ≠ viewNameToLogic f.filename := fun he => hn.1 (he ▸ List.mem_map_of_mem (f := fun f : FileItem => viewNameToLogic f.filename) hg)
      exact screenOf_erase (fun he => this (by rw [he])) this
    have hs : ∀ x, activitiesConv (f :: items) ls lg fs = .ok x ↔ ∃ s, screenOf ls lg fs f = .ok s ∧ ∃ ss l,
        activitiesConv items (ls.erase f.filename) (lg.erase (viewNameToLogic f.filename)) (fs.erase f.filename) = .ok (ss, l) ∧
        x = (s :: ss, l) := by
      intro x
      simp only [activitiesConv, Out.bind_eq_ok, Out.mapErr_eq_ok, Prod.exists, Out.pure_eq, Out.ok.injEq, screenOf]
      constructor
      · rintro ⟨s, h1, ss, l, h2, rfl⟩
        exact ⟨s, h1, ss, l, h2, rfl⟩
      · rintro ⟨s, h1, ss, l, h2, rfl⟩
        exact ⟨s, h1, ss, l, h2, rfl⟩
    rw [hs, List.map_cons, List.foldl_cons]
    constructor
    · rintro ⟨s, h1, ss, l, h2, h3⟩
      simp only [Prod.mk.injEq] at h3
      obtain ⟨rfl, rfl⟩ := h3
      obtain ⟨h4, rfl⟩ := (ih hn.2).mp h2
      exact ⟨.cons h1 (h4.imp_mem fun g hg s _ h => by rw [← herase g hg]; exact h), rfl⟩
    · rintro ⟨h, rfl⟩
      cases h with
      | cons h1 h2 =>
        exact ⟨_, h1, _, _, (ih hn.2).mpr ⟨h2.imp_mem fun g hg s _ h => by rw [herase g hg]; exact h, rfl⟩, rfl⟩

omit [MapPol] [Floats] in
theorem get_foldl_erase {κ α : Type} [DecidableEq κ] (ks : List κ) (m : LMap κ α) (k : κ) (h : k ∉ ks) :
    (ks.foldl LMap.erase m).get k = m.get k := by
  induction ks generalizing m with
  | nil => rfl
  | cons x ks ih =>
    rw [List.mem_cons, not_or] at h
    rw [List.foldl_cons, ih _ h.2, LMap.get_erase, if_neg h.1]

omit [MapPol] in
theorem customViewsConv_back {cvs : List CustomView} {ls : LMap Str Layout} (hn : (cvs.map (·.resName)).Nodup)
    (h : ∀ c ∈ cvs, ls.get c.resName = some ⟨flattenViews c.layout none none⟩)
    (hs : ∀ c ∈ cvs, parseRawLayout ⟨flattenViews c.layout none none⟩ = .ok c.layout) :
    customViewsConv (cvs.map CustomView.toFileItem) ls = .ok cvs := by
  induction cvs generalizing ls with
  | nil => rfl
  | cons c cvs ih =>
    rw [List.map_cons, List.nodup_cons] at hn
    rw [List.map_cons, customViewsConv]
    have h0 := h c (by simp)
    simp only [show (CustomView.toFileItem c).filename = c.resName from rfl, h0, Out.ofOption_some, Out.ok_bind, hs c (by simp),
      Out.mapErr_ok]
    rw [ih hn.2 (fun d hd => ?_) (fun d hd => hs d (by simp [hd]))]
    · rfl
    · rw [LMap.get_erase, if_neg, h d (by simp [hd])]
      exact fun he => hn.1 (he ▸ List.mem_map_of_mem hd)

theorem fromParsed_fields {ln gn : Str} {file : FileItem} {view : Layout} {logic : ScreenLogic} {fab : Option View} {s : Screen}
    (h : Screen.fromParsed ln gn file view logic fab = .ok s) :
    s.layoutName = ln ∧ s.javaName = gn ∧ s.variables = (logic.variables.map (·.map)).getD [] ∧
    s.listVariables = (logic.listVariables.map (·.map)).getD [] ∧
    ∃ cs, componentsOf ((logic.components.map (·.items)).getD []) = .ok cs ∧ s.components = LMap.collect cs := by
  simp only [Screen.fromParsed, Out.bind_eq_ok, Out.mapErr_eq_ok, Prod.exists, Out.ok.injEq, Out.pure_eq] at h
  obtain ⟨layout, _, mbs, cs', hmb, comps, hc, events, cs'', hev, rfl⟩ := h
  exact ⟨rfl, rfl, rfl, rfl, comps, hc, rfl⟩

theorem toLogic_fields {s : Screen} {l : ScreenLogic} (h : s.toLogic = .ok l) :
    l.name = s.javaName ∧ l.variables = some ⟨s.variables⟩ ∧ l.listVariables = some ⟨s.listVariables⟩ ∧
    l.components = some ⟨s.components.map fun e => e.2.intoParser e.1⟩ := by
  simp only [Screen.toLogic, Out.bind_eq_ok, Prod.exists, Out.ok.injEq, Out.pure_eq] at h
  obtain ⟨_, _, _, _, _, _, rfl⟩ := h
  exact ⟨rfl, rfl, rfl, rfl⟩
end
end Swrs.Api
