import Verif.Proofs.LogicExact
import Verif.Proofs.View
import Verif.Props.Project
import Verif.Model.Sketch
/-! What is known of a value that was read from a text. -/
set_option linter.unusedSectionVars false
namespace Swrs

theorem LMap.mem_insert {κ α : Type} [DecidableEq κ] [MapPol] {m : LMap κ α} (hn : (LMap.keys m).Nodup) {k : κ} {v : α}
    {e : κ × α} (he : e ∈ LMap.insert m k v) : e = (k, v) ∨ e ∈ m := by
  have h := LMap.get_of_mem (LMap.nodup_insert hn k v) he
  rw [LMap.get_insert] at h
  split at h
  next h0 => left; cases e; simp at h h0; simp [h, h0]
  next h0 => exact .inr (LMap.get_mem h)

/-! ### project -/

/-- The creation time of a project that was read is a representable date. -/
theorem Project.read_date [Floats] {s : Str} {p : Project} (h : Project.parse s = .ok p) :
    ∃ t : Date.DateTime, t.Valid ∧ Date.timestamp t = p.dateCreated.toInt64.toInt := by
  unfold Project.parse at h
  simp only [Out.bind_eq_ok] at h
  obtain ⟨_, _, h⟩ := h
  split at h
  next j hj =>
    unfold Project.dec at h
    split at h
    next o =>
      simp only [Out.bind_eq_ok, Out.ofOption_eq_ok, Out.pure_eq, Out.ok.injEq] at h
      obtain ⟨_, _, _, _, _, _, _, _, _, _, _, _, _, _, d, _, dc, hd, _, _, _, _, _, _, rfl⟩ := h
      unfold Project.decDate at hd
      split at hd
      next t =>
        obtain ⟨_, t', hv, y1, y2, he⟩ := Date.deserialize_ok hd
        have hr := Date.timestamp_range hv
        refine ⟨t', hv, ?_⟩
        simp only [he, Int64.toInt64_toUInt64]
        rw [Int64.toInt_ofInt_of_le (by omega) (by omega)]
      next => simp at hd
    next => simp at h
  next => simp at h

/-! ### view -/

theorem Size.ofNum_normal (n : Int32) : (Size.ofNum n).Normal := by
  rw [← Size.norm_eq_iff]
  unfold Size.ofNum
  split
  · rfl
  · split
    · rfl
    · next h1 h2 => simp [Size.norm, Size.num, Size.ofNum, h1, h2]

theorem Size.dec_normal {j : Json} {x : Size} (h : Size.dec j = some x) : x.Normal := by
  unfold Size.dec at h
  rw [Option.map_eq_some_iff] at h
  obtain ⟨n, _, rfl⟩ := h
  exact ofNum_normal n

theorem LayoutConfig.dec_normal [Floats] {j : Json} {x : LayoutConfig} (h : LayoutConfig.dec j = some x) :
    x.width.Normal ∧ x.height.Normal := by
  unfold LayoutConfig.dec at h
  simp only [Option.bind_eq_bind, Option.bind_eq_some_iff, Option.pure_def, Option.some.injEq] at h
  obtain ⟨o, -, _, -, _, -, ht, h1, _, -, _, -, _, -, _, -, _, -, _, -, _, -, _, -, _, -, _, -, _, -, _, -, w, h2, rfl⟩ := h
  unfold Json.req at h1 h2
  rw [Option.bind_eq_some_iff] at h1 h2
  obtain ⟨_, _, h1⟩ := h1
  obtain ⟨_, _, h2⟩ := h2
  exact ⟨Size.dec_normal h2, Size.dec_normal h1⟩

theorem AndroidView.dec_normal [Floats] {j : Json} {v : AndroidView} (h : AndroidView.dec j = some v) : v.NormalSizes := by
  unfold AndroidView.dec at h
  simp only [Option.bind_eq_bind, Option.bind_eq_some_iff, Option.pure_def, Option.some.injEq] at h
  obtain ⟨o, -, _, -, _, -, _, -, _, -, _, -, _, -, _, -, _, -, _, -, _, -, _, -, _, -, _, -, _, -, l, hl, h⟩ := h
  have : v.layout = l := by
    obtain ⟨_, -, _, -, _, -, _, -, _, -, _, -, _, -, h⟩ := h
    obtain ⟨_, -, _, -, _, -, _, -, _, -, _, -, _, -, _, -, _, -, rfl⟩ := h
    rfl
  unfold Json.req at hl
  rw [Option.bind_eq_some_iff] at hl
  obtain ⟨_, _, hl⟩ := hl
  rw [← this] at hl
  exact LayoutConfig.dec_normal hl

/-- The sizes of a view that was read are no disguised special sizes. -/
theorem AndroidView.parse_normal [Floats] {s : Str} {v : AndroidView} (h : AndroidView.parse s = some v) : v.NormalSizes := by
  unfold AndroidView.parse Json.fromStr at h
  rw [Option.bind_eq_some_iff] at h
  obtain ⟨j, _, h⟩ := h
  exact AndroidView.dec_normal h

/-- What holds of a view file that was read. -/
structure View.Read [Floats] (v : View) : Prop where
  keysL : v.layouts.keys.Nodup
  keysF : v.fabs.keys.Nodup
  namesL : ∀ e ∈ v.layouts, '.' ∉ e.1 ∧ '\n' ∉ e.1
  namesF : ∀ e ∈ v.fabs, '.' ∉ e.1 ∧ '\n' ∉ e.1
  normalL : ∀ e ∈ v.layouts, ∀ w ∈ e.2.views, w.NormalSizes
  normalF : ∀ e ∈ v.fabs, e.2.NormalSizes

theorem ReadsAll.normal [Floats] {ls : List Str} {vs : List AndroidView} (h : Layout.Reads ls vs) : ∀ w ∈ vs, w.NormalSizes := by
  induction h with
  | nil => simp
  | cons _ hp _ ih =>
    intro w hw
    rcases List.mem_cons.mp hw with rfl | hw
    · exact AndroidView.parse_normal hp
    · exact ih w hw

namespace View
variable [Floats] [MapPol]

theorem Read.layout {v : View} (h : v.Read) {name : Str} (h1 : '.' ∉ name) (h2 : '\n' ∉ name) {vs : List AndroidView}
    (h3 : ∀ w ∈ vs, w.NormalSizes) : View.Read { v with layouts := v.layouts.insert name ⟨vs⟩ } := by
  refine ⟨LMap.nodup_insert h.keysL _ _, h.keysF, ?_, h.namesF, ?_, h.normalF⟩
  · intro e he
    rcases LMap.mem_insert h.keysL he with rfl | he
    · exact ⟨h1, h2⟩
    · exact h.namesL e he
  · intro e he
    rcases LMap.mem_insert h.keysL he with rfl | he
    · exact h3
    · exact h.normalL e he

theorem Read.fab {v : View} (h : v.Read) {name : Str} (h1 : '.' ∉ name) (h2 : '\n' ∉ name) {w : AndroidView}
    (h3 : w.NormalSizes) : View.Read { v with fabs := v.fabs.insert name w } := by
  refine ⟨h.keysL, LMap.nodup_insert h.keysF _ _, h.namesL, ?_, h.normalL, ?_⟩
  · intro e he
    rcases LMap.mem_insert h.keysF he with rfl | he
    · exact ⟨h1, h2⟩
    · exact h.namesF e he
  · intro e he
    rcases LMap.mem_insert h.keysF he with rfl | he
    · exact h3
    · exact h.normalF e he

theorem Read.sections (ss : List Section) {v : View} (h : v.Read) (hs : ∀ x ∈ ss, x.WF)
    (hn : ∀ x ∈ ss, ∀ l ∈ x.toLines, '\n' ∉ l) : (ss.foldl Section.apply v).Read := by
  induction ss generalizing v with
  | nil => exact h
  | cons x ss ih =>
    refine ih ?_ (fun y hy => hs y (by simp [hy])) fun y hy => hn y (by simp [hy])
    have h1 := hs x (by simp)
    have h2 := hn x (by simp)
    cases x with
    | layout name ls vs =>
      refine h.layout h1.1 ?_ (ReadsAll.normal h1.2)
      have := h2 ('@' :: (name ++ s% ".xml")) (by simp [Section.toLines])
      intro hm; exact this (by simp [hm])
    | fab name l w =>
      refine h.fab h1.1 ?_ (AndroidView.parse_normal h1.2)
      have := h2 ('@' :: (name ++ s% ".xml_fab")) (by simp [Section.toLines])
      intro hm; exact this (by simp [hm])
    | other name kind => exact h

theorem read_of_parse {s : Str} {v : View} (h : View.parse s = .ok v) : v.Read := by
  obtain ⟨ss, e, hs, he, hl⟩ := View.decompose (lines s)
  rw [View.parse_of_lines hs he hl] at h
  have hnl : ∀ l ∈ ss.flatMap Section.toLines ++ e.toLines, '\n' ∉ l := by
    rw [← hl]; intro l hm; exact splitOn_not_mem hm
  have hr : (ss.foldl Section.apply (⟨[], []⟩ : View)).Read := by
    refine Read.sections ss ⟨List.Pairwise.nil, List.Pairwise.nil, by simp, by simp, by simp, by simp⟩ hs ?_
    intro x hx l hlx
    exact hnl l (List.mem_append_left _ (List.mem_flatMap.mpr ⟨x, hx, hlx⟩))
  cases e with
  | stop rest =>
    simp only [Ending.result, Out.ok.injEq] at h
    exact h ▸ hr
  | layout name ls vs =>
    simp only [Ending.result, Out.ok.injEq] at h
    rw [← h]
    refine hr.layout he.1 ?_ (ReadsAll.normal he.2)
    have := hnl ('@' :: (name ++ s% ".xml")) (by simp [Ending.toLines])
    intro hm; exact this (by simp [hm])
  | noDot | badView | badFab | noFab => simp [Ending.result] at h

end View

/-! ### logic -/

section
variable [Floats] [MapPol]

theorem Sec.not_empty {hd : Str} {body : List Str} {k : Str} {eff : ScreenLogic → ScreenLogic} (h : Sec hd body k eff)
    (s : ScreenLogic) : ¬ (eff s).Empty := by
  intro he
  obtain ⟨h1, h2, h3, h4, h5, h6⟩ := he
  cases h with
  | var => simp at h1
  | list => simp at h2
  | components => simp at h3
  | events => simp at h4
  | func => simp at h5
  | blocks =>
    rename_i hd bs _ _ _
    have := (LMap.mem_keys_insert s.blockContainers hd.containerName hd.containerName ⟨bs⟩).mpr (.inl rfl)
    simp only at h6
    rw [h6] at this
    simp at this

/-- A screen that was read is not empty, and its block containers have distinct names. -/
theorem Logic.applyAll_read {ps : List (List Str)} {es : List (Str × (ScreenLogic → ScreenLogic))}
    (h : All₂ SectionReads ps es) (l : LMap Str ScreenLogic) (hn : l.keys.Nodup)
    (hl : ∀ k s, LMap.get l k = some s → s.blockContainers.keys.Nodup ∧ ¬ s.Empty) :
    (applyAll es l).keys.Nodup ∧ ∀ k s, LMap.get (applyAll es l) k = some s → s.blockContainers.keys.Nodup ∧ ¬ s.Empty := by
  induction h generalizing l with
  | nil => exact ⟨hn, hl⟩
  | cons hab _ ih =>
    rename_i p e _ _ _
    obtain ⟨hd, body, rfl, hs⟩ := hab
    refine ih (update l e.1 e.2) (LMap.nodup_upsert hn _ _ _) ?_
    intro k s hg
    simp only [update, LMap.get_upsert] at hg
    split at hg
    next h0 =>
      simp only [Option.some.injEq] at hg
      subst hg
      refine ⟨?_, hs.not_empty _⟩
      have hb : ((LMap.get l e.1).getD (ScreenLogic.newEmpty e.1)).blockContainers.keys.Nodup := by
        cases hg' : LMap.get l e.1 with
        | none => exact List.Pairwise.nil
        | some s' => exact (hl _ _ hg').1
      generalize (LMap.get l e.1).getD (ScreenLogic.newEmpty e.1) = s' at *
      obtain ⟨nm, eff⟩ := e
      simp only at hs
      cases hs with
      | blocks => exact LMap.nodup_insert hb _ _
      | _ => exact hb
    next h0 => exact hl k s hg

theorem Logic.parse_read {t : Str} {l : Logic} (h : parse t = .ok l) : l.screens.keys.Nodup ∧
    ∀ k s, LMap.get l.screens k = some s → s.blockContainers.keys.Nodup ∧ ¬ s.Empty := by
  rw [parse_sections] at h
  rcases runSecs_cases _ (areSections (lines t)) 0 [] with ⟨es, h1, h2⟩ | ⟨pre, q, post, es, h1, h2, h3, h4⟩ |
    ⟨pre, q, post, es, e, h1, h2, h3, h4⟩
  · rw [h2] at h
    simp only [Out.ok.injEq] at h
    subst h
    exact applyAll_read h1 [] List.Pairwise.nil (by intro k s h; simp [LMap.get] at h)
  · rw [h4] at h; simp at h
  · rw [h4] at h; simp at h

namespace Logic

/-- A proper beginning of the sections of a screen does not have the last container. -/
theorem fold_prefix_last (s : ScreenLogic) (hn : s.blockContainers.keys.Nodup) {e : Str × BlockContainer}
    (he : s.blockContainers.getLast? = some e) {p q : List TSec} (h : p ++ q = secs [s]) (hq : q ≠ []) (k : Str) :
    (fold p (ScreenLogic.newEmpty k)).blockContainers.get e.1 = none := by
  rcases List.eq_nil_or_concat s.blockContainers with h0 | ⟨es, e', he'⟩
  · rw [h0] at he; simp at he
  rw [List.concat_eq_append] at he'
  obtain rfl : e' = e := by rw [he'] at he; simpa using he
  rcases List.eq_nil_or_concat q with h0 | ⟨q', t, ht⟩
  · exact absurd h0 hq
  rw [List.concat_eq_append] at ht
  rw [secs_one, he', ht, List.map_append, ← List.append_assoc, ← List.append_assoc] at h
  have := List.append_inj_left' h rfl
  rw [LMap.get_eq_none]
  intro hm
  have hk := fold_keys s es p (by
    intro t ht
    have : t ∈ p ++ q' := by simp [ht]
    rw [‹p ++ q' = _›] at this
    rw [List.mem_append] at this
    rcases this with h1 | h1
    · exact .inl (pool_eff s t h1)
    · simp only [List.mem_map] at h1
      obtain ⟨x, hx, rfl⟩ := h1
      exact .inr ⟨x, hx, rfl⟩) (ScreenLogic.newEmpty k) (by simp [ScreenLogic.newEmpty]) e'.1 hm
  rw [he'] at hn
  simp only [LMap.keys_append, LMap.keys_cons, LMap.keys_nil, List.nodup_append] at hn
  exact hn.2.2 e'.1 hk e'.1 (by simp) rfl

/-- When the screens are not tight the text is read without an error, and the last container of some screen is lost. -/
theorem silent_loss {l : Logic} (h : l.Inv) (hp : ∀ s ∈ l.screens.map (·.2), s.PartsOk)
    (hnt : ¬ Tight (l.screens.map (·.2))) : ∃ l', parse l.reconstruct = .ok l' ∧ ∃ s ∈ l.screens.map (·.2), ∃ e,
      s.blockContainers.getLast? = some e ∧ ∀ s', l'.screens.get s.name = some s' → s'.blockContainers.get e.1 = none := by
  have hnames : ((l.screens.map (·.2)).map (·.name)).Nodup := by
    rw [List.map_map]
    have : l.screens.map ((fun s : ScreenLogic => s.name) ∘ fun e : Str × ScreenLogic => e.2) = l.screens.keys := by
      unfold LMap.keys
      apply List.map_congr_left
      intro e he; exact (h.key e he).symm
    rw [this]; exact h.nodup
  rw [reconstruct_items l hp]
  have hok := items_ok hp
  have hcl := items_closed hp
  have hg := (gap_iff _).mpr hnt
  generalize l.screens.map (·.2) = ss at *
  obtain ⟨a, ts, b, hi, ha, ⟨t, ht⟩, hpg⟩ := parse_items_gap hok hcl hg
  refine ⟨_, hpg, ?_⟩
  have hsec : secs ss = ts ++ b.filterMap id := by
    rw [← items_secs, hi]
    have e1 : a.filterMap id = [] := by rw [List.filterMap_eq_nil_iff]; intro i hi; rw [ha i hi]; rfl
    simp [List.filterMap_append, e1, List.filterMap_map]
  have htb : ∃ s ∈ ss, some t ∈ s.blockItems := by
    unfold items at hi
    have hi' : (poolSecs ss).map some ++ ss.flatMap ScreenLogic.blockItems = (a ++ ts.map some) ++ none :: b := hi
    rw [List.append_eq_append_iff] at hi'
    rcases hi' with ⟨x, _, hx⟩ | ⟨x, hx1, hx⟩
    · have : some t ∈ ss.flatMap ScreenLogic.blockItems := by rw [hx]; simp [ht]
      simpa [List.mem_flatMap] using this
    · cases x with
      | nil =>
        simp at hx
        have : some t ∈ ss.flatMap ScreenLogic.blockItems := by rw [← hx]; simp [ht]
        simpa [List.mem_flatMap] using this
      | cons z x =>
        simp at hx
        have : none ∈ (poolSecs ss).map some := by rw [hx1, ← hx.1]; simp
        simp at this
  obtain ⟨s, hs, hts⟩ := htb
  have hb : s.blockContainers ≠ [] := some_mem_blockItems.mp ⟨t, hts⟩
  have htn : t.name = s.name := by
    unfold ScreenLogic.blockItems at hts
    rw [if_neg hb] at hts
    simp only [List.mem_map] at hts
    obtain ⟨e, _, he⟩ := hts
    simp at he; subst he; rfl
  have h1 := secs_filter ss s.name
  rw [filter_name hnames hs, hsec, List.filter_append] at h1
  obtain ⟨e, he⟩ : ∃ e, s.blockContainers.getLast? = some e := by
    cases hl : s.blockContainers.getLast? with
    | none => simp at hl; exact absurd hl hb
    | some e => exact ⟨e, rfl⟩
  refine ⟨s, hs, e, he, ?_⟩
  intro s' hs'
  simp only at hs'
  rw [get_secs] at hs'
  split at hs'
  · simp at hs'
  · simp only [Option.some.injEq] at hs'
    rw [← hs']
    refine fold_prefix_last s (hp s hs).blocksNodup he h1 ?_ _
    intro h0
    rw [List.filter_eq_nil_iff] at h0
    exact h0 t (by rw [List.mem_filterMap]; exact ⟨some t, ht, rfl⟩) (by simp [htn])

end Logic

/-- What holds of a screen that was read. -/
theorem Logic.parse_traced {t : Str} {l : Logic} (h : parse t = .ok l) : ∀ e ∈ l.screens, e.1 = e.2.name ∧ e.2.Clean ∧ ¬ e.2.Empty ∧
    (∀ p, e.2.variables = some p → p.map.keys.Nodup) ∧ (∀ p, e.2.listVariables = some p → p.map.keys.Nodup) ∧
    (∀ p, e.2.moreBlocks = some p → p.map.keys.Nodup) ∧ e.2.blockContainers.keys.Nodup := by
  intro e he
  obtain ⟨hn, hr⟩ := parse_read h
  have hg := LMap.get_of_mem hn he
  obtain ⟨h1, h2⟩ := traced_parse (P := fun hd body => ∀ l ∈ hd :: body, '\n' ∉ l) h
    (fun hd body hm => sections_noNl hm) hg
  obtain ⟨h3, h4⟩ := hr _ _ hg
  refine ⟨h1.name.symm, h1.clean h2 h3, h4, ?_, ?_, ?_, h3⟩
  · intro p hp
    obtain ⟨_, _, _, _, _, _, rfl⟩ := h1.var p hp
    exact LMap.collect_keys_nodup _
  · intro p hp
    obtain ⟨_, _, _, _, _, _, rfl⟩ := h1.list p hp
    exact LMap.collect_keys_nodup _
  · intro p hp
    obtain ⟨_, _, _, _, _, _, rfl⟩ := h1.func p hp
    exact LMap.collect_keys_nodup _

end
end Swrs
