import Verif.Proofs.Equality
import Verif.Props.ApiView
import Verif.Proofs.ApiProject
/-!
# Where the views of an opened project come from
-/
namespace Swrs

/-! ### Equality of lists and options -/

section
variable {α : Type} {r : α → α → Prop}

theorem listEq_self {l : List α} : ListEq r l l ↔ ∀ x ∈ l, r x x := by
  induction l with
  | nil => simp [ListEq]
  | cons x l ih => simp [ListEq, ih]

theorem listEq_symm (h : ∀ x y, r x y → r y x) : ∀ {l l' : List α}, ListEq r l l' → ListEq r l' l
  | [], [], _ => trivial
  | _ :: _, _ :: _, hl => ⟨h _ _ hl.1, listEq_symm h hl.2⟩

theorem listEq_trans (h : ∀ x y z, r x y → r y z → r x z) :
    ∀ {l l' l'' : List α}, ListEq r l l' → ListEq r l' l'' → ListEq r l l''
  | [], [], [], _, _ => trivial
  | _ :: _, _ :: _, _ :: _, hl, hl' => ⟨h _ _ _ hl.1 hl'.1, listEq_trans h hl.2 hl'.2⟩

theorem listEq_exact : ∀ {l l' : List α}, (∀ x ∈ l, ∀ y ∈ l', r x y → x = y) → ListEq r l l' → l = l'
  | [], [], _, _ => rfl
  | x :: l, y :: l', h, hl => by
    rw [h x (by simp) y (by simp) hl.1, listEq_exact (fun x hx y hy => h x (by simp [hx]) y (by simp [hy])) hl.2]

theorem optEq_self {o : Option α} : OptEq r o o ↔ ∀ x, o = some x → r x x := by
  cases o <;> simp [OptEq]

theorem optEq_symm (h : ∀ x y, r x y → r y x) : ∀ {o o' : Option α}, OptEq r o o' → OptEq r o' o
  | none, none, _ => trivial
  | some _, some _, ho => h _ _ ho

theorem optEq_trans (h : ∀ x y z, r x y → r y z → r x z) :
    ∀ {o o' o'' : Option α}, OptEq r o o' → OptEq r o' o'' → OptEq r o o''
  | none, none, none, _, _ => trivial
  | some _, some _, some _, ho, ho' => h _ _ _ ho ho'

theorem optEq_exact : ∀ {o o' : Option α}, (∀ x y, o = some x → o' = some y → r x y → x = y) → OptEq r o o' → o = o'
  | none, none, _, _ => rfl
  | some x, some y, h, ho => by rw [h x y rfl rfl ho]
end

/-! ### Linked maps -/

section
variable {κ α : Type} [DecidableEq κ]

theorem LMap.mem_of_insert [MapPol] {m : LMap κ α} {k : κ} {v : α} {e : κ × α} (h : e ∈ LMap.insert m k v) : e = (k, v) ∨ e ∈ m := by
  unfold LMap.insert at h
  split at h
  · split at h
    · rcases List.mem_append.1 h with h | h
      · exact .inr ((List.mem_filter.1 h).1)
      · exact .inl (List.mem_singleton.1 h)
    · unfold LMap.set at h
      obtain ⟨e', he, rfl⟩ := List.mem_map.1 h
      split
      · exact .inl rfl
      · exact .inr he
  · rcases List.mem_append.1 h with h | h
    · exact .inr h
    · exact .inl (List.mem_singleton.1 h)

theorem LMap.mem_of_erase {m : LMap κ α} {k : κ} {e : κ × α} (h : e ∈ LMap.erase m k) : e ∈ m := (List.mem_filter.1 h).1
end

/-! ### Reading of views -/

section
variable [Floats]

theorem decF32_read {j : Json} {x : Floats.F32} (h : decF32 j = some x) : ∃ tok, Floats.read tok = some x := by
  cases j with
  | num tok => exact ⟨tok, h⟩
  | _ => cases h

theorem req_decF32 {o : Json.Obj} {k : Str} {x : Floats.F32} (h : Json.req o k decF32 = some x) : ∃ tok, Floats.read tok = some x := by
  obtain ⟨j, _, hj⟩ := Option.bind_eq_some_iff.1 h
  exact decF32_read hj

/-- The numbers of a view that was read are values of number tokens. -/
theorem rawView_dec {j : Json} {v : AndroidView} (h : AndroidView.dec j = some v) {x : Floats.F32} (hx : v.Float x) :
    ∃ tok, Floats.read tok = some x := by
  simp only [AndroidView.dec, Option.bind_eq_bind, Option.bind_eq_some_iff, Option.pure_def, Option.some.injEq] at h
  obtain ⟨o, _, _, _, _, _, alpha, ha, _, _, _, _, _, _, _, _, _, _, _, _, _, _, _, _, _, _, _, _, _, _, _, _, _, _, _, _, _, _, _, _,
    _, _, _, _, _, _, _, _, _, _, sx, hsx, sy, hsy, _, _, _, _, tx, htx, ty, hty, _, _, rfl⟩ := h
  rcases hx with rfl | rfl | rfl | rfl | rfl
  · exact req_decF32 ha
  · exact req_decF32 hsx
  · exact req_decF32 hsy
  · exact req_decF32 htx
  · exact req_decF32 hty

theorem rawView_parse {s : Str} {v : AndroidView} (h : AndroidView.parse s = some v) {x : Floats.F32} (hx : v.Float x) :
    ∃ tok, Floats.read tok = some x := by
  unfold AndroidView.parse Json.fromStr at h
  obtain ⟨j, _, hj⟩ := Option.bind_eq_some_iff.1 h
  exact rawView_dec hj hx

theorem layoutLoop_views {P : AndroidView → Prop} (hP : ∀ s v, AndroidView.parse s = some v → P v) :
    ∀ {ls : List Str} {acc : List AndroidView} {n : Nat} {l : Layout} {rest : List Str},
      Layout.parseLoop ls acc n = .ok (l, rest) → (∀ v ∈ acc, P v) → ∀ v ∈ l.views, P v
  | [], acc, n, l, rest, h, ha => by
    rw [Layout.parseLoop] at h
    cases h
    exact ha
  | line :: ls, acc, n, l, rest, h, ha => by
    rw [Layout.parseLoop] at h
    split at h
    · cases h
      exact ha
    · split at h
      next v hv =>
        refine layoutLoop_views hP h fun w hw => ?_
        rcases List.mem_append.1 hw with hw | hw
        · exact ha w hw
        · rw [List.mem_singleton.1 hw]; exact hP _ _ hv
      next => cases h

theorem viewLoop_views [MapPol] {P : AndroidView → Prop} (hP : ∀ s v, AndroidView.parse s = some v → P v) {total : Nat} :
    ∀ {fuel : Nat} {ls : List Str} {n : Nat} {layouts : LMap Str Layout} {fabs : LMap Str AndroidView} {view : View},
      View.loop total fuel ls n layouts fabs = .ok view → (∀ e ∈ layouts, ∀ v ∈ e.2.views, P v) → (∀ e ∈ fabs, P e.2) →
      (∀ e ∈ view.layouts, ∀ v ∈ e.2.views, P v) ∧ ∀ e ∈ view.fabs, P e.2
  | 0, _, _, _, _, _, h, hl, hf => by rw [View.loop] at h; cases h; exact ⟨hl, hf⟩
  | _ + 1, [], _, _, _, _, h, hl, hf => by rw [View.loop] at h; cases h; exact ⟨hl, hf⟩
  | fuel + 1, line :: ls, n, layouts, fabs, view, h, hl, hf => by
    rw [View.loop] at h
    split at h
    · split at h
      · cases h
      · split at h
        · split at h
          next l rest' hp =>
            refine viewLoop_views hP h (fun e he => ?_) hf
            rcases LMap.mem_of_insert he with rfl | he
            · exact layoutLoop_views hP hp (by simp)
            · exact hl e he
          next => cases h
          next => cases h
        · split at h
          · split at h
            · cases h
            · split at h
              next v hv =>
                refine viewLoop_views hP h hl (fun e he => ?_)
                rcases LMap.mem_of_insert he with rfl | he
                · exact hP _ _ hv
                · exact hf e he
              next => cases h
          · exact viewLoop_views hP h hl hf
    · cases h; exact ⟨hl, hf⟩

/-- Every view of a view file that was read is read from a line. -/
theorem viewParse_views [MapPol] {P : AndroidView → Prop} (hP : ∀ s v, AndroidView.parse s = some v → P v) {s : Str} {view : View}
    (h : View.parse s = .ok view) : (∀ e ∈ view.layouts, ∀ v ∈ e.2.views, P v) ∧ ∀ e ∈ view.fabs, P e.2 :=
  viewLoop_views hP h (by simp) (by simp)
end

namespace Api
section
variable [Floats]

/-- The `f32` values of a view are those of the raw views of its tree. -/
theorem view_float_all {v : View} {x : Floats.F32} (h : v.Float x) : ∃ w ∈ v.all, w.raw.Float x := by
  induction h with
  | @raw v x h => exact ⟨v, by rw [View.all_eq]; simp, h⟩
  | @child v c x hc _ ih =>
    obtain ⟨w, hw, hx⟩ := ih
    refine ⟨w, ?_, hx⟩
    rw [View.all_eq]
    refine List.mem_cons_of_mem _ ?_
    generalize v.children = l at hc
    induction l with
    | nil => cases hc
    | cons d l ih' =>
      rw [allOf]
      rcases List.mem_cons.1 hc with rfl | hc
      · exact List.mem_append_left _ hw
      · exact List.mem_append_right _ (ih' hc)

theorem mem_allOf {l : List View} {v w : View} (hv : v ∈ l) (hw : w ∈ v.all) : w ∈ allOf l := by
  induction l with
  | nil => cases hv
  | cons d l ih =>
    rw [allOf]
    rcases List.mem_cons.1 hv with rfl | hv
    · exact List.mem_append_left _ hw
    · exact List.mem_append_right _ (ih hv)

theorem rawLayout_floats {P : Floats.F32 → Prop} {l : Layout} {vs : List View} (h : parseRawLayout l = .ok vs)
    (hl : ∀ r ∈ l.views, ∀ x, r.Float x → P x) : ∀ v ∈ vs, ∀ x, v.Float x → P x := by
  intro v hv x hx
  obtain ⟨w, hw, hx⟩ := view_float_all hx
  have hm := (c33_tree l vs h).1.subset (List.mem_map_of_mem (f := View.raw) (mem_allOf hv hw))
  exact hl _ hm x hx

theorem ofRaw_float {r : AndroidView} {x : Floats.F32} (h : (View.ofRaw r).Float x) : r.Float x := by
  cases h with
  | raw h => exact h
  | child h => cases h

theorem fromParsed_floats [MapPol] {P : Floats.F32 → Prop} {ln gn : Str} {file : FileItem} {view : Layout} {logic : ScreenLogic}
    {fab : Option View} {s : Screen} (h : Screen.fromParsed ln gn file view logic fab = .ok s)
    (hl : ∀ r ∈ view.views, ∀ x, r.Float x → P x) :
    (∀ v ∈ s.layout, ∀ x, v.Float x → P x) ∧ s.fab = fab := by
  simp only [Screen.fromParsed, Out.bind_eq_ok, Out.mapErr_eq_ok, Prod.exists, Out.ok.injEq, Out.pure_eq] at h
  obtain ⟨layout, hv, mbs, cs', hmb, comps, hc, events, cs'', hev, rfl⟩ := h
  exact ⟨rawLayout_floats hv hl, rfl⟩

theorem activitiesConv_floats [MapPol] {P : Floats.F32 → Prop} :
    ∀ {items : List FileItem} {layouts layouts' : LMap Str Layout} {logics : LMap Str ScreenLogic} {fabs : LMap Str AndroidView}
      {screens : List Screen}, activitiesConv items layouts logics fabs = .ok (screens, layouts') →
      (∀ e ∈ layouts, ∀ r ∈ e.2.views, ∀ x, r.Float x → P x) → (∀ e ∈ fabs, ∀ x, e.2.Float x → P x) →
      (∀ s ∈ screens, (∀ v ∈ s.layout, ∀ x, v.Float x → P x) ∧ ∀ v, s.fab = some v → ∀ x, v.Float x → P x) ∧
      ∀ e ∈ layouts', e ∈ layouts
  | [], layouts, layouts', logics, fabs, screens, h, hl, hf => by
    rw [activitiesConv] at h
    cases h
    exact ⟨by simp, fun _ h => h⟩
  | file :: rest, layouts, layouts', logics, fabs, screens, h, hl, hf => by
    simp only [activitiesConv, Out.bind_eq_ok, Out.mapErr_eq_ok, Prod.exists, Out.pure_eq, Out.ok.injEq, Prod.mk.injEq] at h
    obtain ⟨s, hs, ss, ls, hr, rfl, rfl⟩ := h
    have ⟨h1, h2⟩ := activitiesConv_floats hr (fun e he => hl e (LMap.mem_of_erase he)) (fun e he => hf e (LMap.mem_of_erase he))
    refine ⟨fun t ht => ?_, fun e he => LMap.mem_of_erase (h2 e he)⟩
    rcases List.mem_cons.1 ht with rfl | ht
    · have ⟨h3, h4⟩ := fromParsed_floats (P := P) hs (by
        cases hg : LMap.get layouts file.filename with
        | none => simp
        | some l => exact hl _ (LMap.get_mem hg))
      refine ⟨h3, fun v hv x hx => ?_⟩
      rw [h4] at hv
      obtain ⟨r, hr, rfl⟩ := Option.map_eq_some_iff.1 hv
      exact hf _ (LMap.get_mem hr) x (ofRaw_float hx)
    · exact h1 t ht

theorem customViewsConv_floats {P : Floats.F32 → Prop} :
    ∀ {items : List FileItem} {layouts : LMap Str Layout} {cvs : List CustomView}, customViewsConv items layouts = .ok cvs →
      (∀ e ∈ layouts, ∀ r ∈ e.2.views, ∀ x, r.Float x → P x) → ∀ c ∈ cvs, ∀ v ∈ c.layout, ∀ x, v.Float x → P x
  | [], layouts, cvs, h, hl => by
    rw [customViewsConv] at h
    cases h
    simp
  | file :: rest, layouts, cvs, h, hl => by
    simp only [customViewsConv, Out.bind_eq_ok, Out.mapErr_eq_ok, Out.pure_eq, Out.ok.injEq] at h
    obtain ⟨l, hg, vs, hvs, cs, hr, rfl⟩ := h
    have hg' : LMap.get layouts file.filename = some l := by
      cases e : LMap.get layouts file.filename with
      | none => rw [e] at hg; cases hg
      | some l' => rw [e] at hg; cases hg; rfl
    intro c hc
    rcases List.mem_cons.1 hc with rfl | hc
    · exact rawLayout_floats hvs (hl _ (LMap.get_mem hg'))
    · exact customViewsConv_floats hr (fun e he => hl e (LMap.mem_of_erase he)) c hc
end
end Api
end Swrs
