import Verif.Model.ApiView
import Verif.Base.StrLemmas
/-!
# Lemmas about view trees
-/
namespace Swrs.Api
section
variable [Floats]

mutual
theorem View.induct_aux {P : View → Prop} (h : ∀ v : View, (∀ c ∈ v.children, P c) → P v) : ∀ v : View, P v
  | ⟨_, _, _, _, _, _, _, _, _, _, _, children⟩ => h _ (induct_list h children)
theorem induct_list {P : View → Prop} (h : ∀ v : View, (∀ c ∈ v.children, P c) → P v) : ∀ vs : List View, ∀ c ∈ vs, P c
  | [], _, hc => by simp at hc
  | v :: vs, c, hc => by
    rcases List.mem_cons.mp hc with hc | hc
    · exact hc ▸ View.induct_aux h v
    · exact induct_list h vs c hc
end

/-- Induction on the depth of a view tree. -/
theorem View.induct {P : View → Prop} (v : View) (h : ∀ v : View, (∀ c ∈ v.children, P c) → P v) : P v := View.induct_aux h v

mutual
/-- The views of a tree, each before its children, and these in order (depth first). -/
def View.all : View → List View
  | v@⟨_, _, _, _, _, _, _, _, _, _, _, children⟩ => v :: allOf children
/-- The views of a list of trees. -/
def allOf : List View → List View
  | [] => []
  | v :: vs => v.all ++ allOf vs
end

theorem View.all_eq (v : View) : v.all = v :: allOf v.children := by
  obtain ⟨i, a, b, c, d, e, f, g, k, l, m, children⟩ := v
  simp only [View.all]

theorem allOf_eq (vs : List View) : allOf vs = vs.flatMap View.all := by
  induction vs with
  | nil => simp only [allOf, List.flatMap_nil]
  | cons v vs ih => simp only [allOf, List.flatMap_cons, ih]

theorem allOf_append (vs ws : List View) : allOf (vs ++ ws) = allOf vs ++ allOf ws := by simp [allOf_eq]

theorem View.findId_eq (id : Str) (v : View) : v.findId id = if v.id = id then some v else findIdIn id v.children := by
  obtain ⟨i, a, b, c, d, e, f, g, k, l, m, children⟩ := v
  simp only [View.findId]

theorem View.modifyId_eq (id : Str) (f : View → View) (v : View) :
    v.modifyId id f = if v.id = id then some (f v) else (modifyIdIn id f v.children).map fun children => { v with children } := by
  obtain ⟨i, a, b, c, d, e, f, g, k, l, m, children⟩ := v
  simp only [View.modifyId]

theorem flattenChildren_eq (v : View) : flattenChildren v = flattenIn v.children v.id v.typeId := by
  obtain ⟨i, a, b, c, d, e, f, g, k, l, m, children⟩ := v
  simp only [flattenChildren, flattenIn, View.typeId]

theorem flattenBelow_eq (vs : List View) : flattenBelow vs = vs.flatMap fun v => flattenIn v.children v.id v.typeId := by
  induction vs with
  | nil => simp only [flattenBelow, List.flatMap_nil]
  | cons v vs ih => simp only [flattenBelow, List.flatMap_cons, ih, flattenChildren_eq]

/-- The first view in depth first order. -/
theorem View.findId_all (id : Str) (v : View) : v.findId id = v.all.find? fun w => w.id = id := by
  induction v using View.induct with
  | h v ih =>
    rw [View.findId_eq, View.all_eq, List.find?_cons]
    by_cases h : v.id = id
    · simp [h]
    · simp only [h, ↓reduceIte, decide_false]
      generalize v.children = cs at ih
      induction cs with
      | nil => simp only [findIdIn, allOf, List.find?_nil]
      | cons c cs ihc =>
        simp only [findIdIn, allOf, List.find?_append, ih c (by simp), ihc fun c hc => ih c (by simp [hc])]
        cases List.find? (fun w => decide (w.id = id)) c.all <;> rfl

theorem findIdIn_all (id : Str) (vs : List View) : findIdIn id vs = (allOf vs).find? fun w => w.id = id := by
  induction vs with
  | nil => simp only [findIdIn, allOf, List.find?_nil]
  | cons v vs ih =>
    simp only [findIdIn, allOf, List.find?_append, View.findId_all, ih]
    cases List.find? (fun w => decide (w.id = id)) v.all <;> rfl

/-- The second tree is the first one with its first view that has the id, `w`, replaced by `w'`. -/
inductive Updated (id : Str) (w w' : View) : View → View → Prop
  | here (h : w.id = id) : Updated id w w' w w'
  | inside {v c c' : View} {pre post : List View} (hv : v.id ≠ id) (hc : v.children = pre ++ c :: post)
      (hpre : ∀ x ∈ allOf pre, x.id ≠ id) (h : Updated id w w' c c') :
      Updated id w w' v { v with children := pre ++ c' :: post }

/-- The same in a list of trees. -/
def UpdatedIn (id : Str) (w w' : View) (vs vs' : List View) : Prop :=
  ∃ pre c post c', vs = pre ++ c :: post ∧ (∀ x ∈ allOf pre, x.id ≠ id) ∧ Updated id w w' c c' ∧ vs' = pre ++ c' :: post

theorem Updated.found {id : Str} {w w' v v' : View} (h : Updated id w w' v v') : v.findId id = some w := by
  induction h with
  | here h => rw [View.findId_eq, if_pos h]
  | @inside v c c' pre post hv hc hpre _ ih =>
    rw [View.findId_all] at ih ⊢
    rw [View.all_eq, List.find?_cons_of_neg (by simpa using hv), hc, allOf_append, List.find?_append, allOf, List.find?_append, ih,
      List.find?_eq_none.mpr (by simpa using hpre)]
    rfl

theorem modifyIdIn_none {id : Str} {f : View → View} {vs : List View} (H : ∀ v ∈ vs, v.modifyId id f = none ↔ ∀ x ∈ v.all, x.id ≠ id) :
    modifyIdIn id f vs = none ↔ ∀ x ∈ allOf vs, x.id ≠ id := by
  induction vs with
  | nil => simp only [modifyIdIn, allOf, List.not_mem_nil, false_implies, implies_true]
  | cons v vs ih =>
    have ih := ih fun v hv => H v (by simp [hv])
    have hv := H v (by simp)
    simp only [modifyIdIn, allOf, List.mem_append, or_imp, forall_and]
    cases hm : v.modifyId id f with
    | none =>
      simp only [Option.map_eq_none_iff, ih]
      exact ⟨fun h => ⟨hv.mp hm, h⟩, fun h => h.2⟩
    | some w => simp only [reduceCtorEq, false_iff, not_and]; intro h; rw [hv.mpr h] at hm; cases hm

theorem View.modifyId_none (id : Str) (f : View → View) (v : View) : v.modifyId id f = none ↔ ∀ x ∈ v.all, x.id ≠ id := by
  induction v using View.induct with
  | h v ih =>
    rw [View.modifyId_eq, View.all_eq]
    by_cases h : v.id = id
    · simp [h]
    · simp only [h, ↓reduceIte, Option.map_eq_none_iff, modifyIdIn_none ih, List.mem_cons, or_imp, forall_and, forall_eq, ne_eq,
        not_false_eq_true, true_and]

theorem modifyIdIn_some {id : Str} {f : View → View} {vs vs' : List View}
    (H : ∀ v ∈ vs, ∀ v', v.modifyId id f = some v' ↔ ∃ w, Updated id w (f w) v v') :
    modifyIdIn id f vs = some vs' ↔ ∃ w, UpdatedIn id w (f w) vs vs' := by
  induction vs generalizing vs' with
  | nil =>
    simp only [modifyIdIn, reduceCtorEq, false_iff]
    rintro ⟨w, pre, c, post, c', h, _⟩
    simp at h
  | cons v vs ih =>
    have ih := fun {vs'} => @ih vs' fun v hv => H v (by simp [hv])
    have hv := H v (by simp)
    simp only [modifyIdIn]
    cases hm : v.modifyId id f with
    | none =>
      have hn := (View.modifyId_none id f v).mp hm
      simp only [Option.map_eq_some_iff, ih]
      constructor
      · rintro ⟨ws, ⟨w, pre, c, post, c', rfl, hp, hu, rfl⟩, rfl⟩
        refine ⟨w, v :: pre, c, post, c', rfl, ?_, hu, rfl⟩
        intro x hx
        simp only [allOf, List.mem_append] at hx
        exact hx.elim (hn x) (hp x)
      · rintro ⟨w, pre, c, post, c', he, hp, hu, rfl⟩
        cases pre with
        | nil =>
          simp only [List.nil_append, List.cons.injEq] at he
          obtain ⟨rfl, rfl⟩ := he
          rw [(hv _).mpr ⟨w, hu⟩] at hm
          cases hm
        | cons p pre =>
          simp only [List.cons_append, List.cons.injEq] at he
          obtain ⟨rfl, rfl⟩ := he
          exact ⟨_, ⟨w, pre, c, post, c', rfl, fun x hx => hp x (by simp [allOf, hx]), hu, rfl⟩, rfl⟩
    | some v' =>
      obtain ⟨w, hu⟩ := (hv v').mp hm
      simp only [Option.some.injEq]
      constructor
      · rintro rfl
        exact ⟨w, [], v, vs, v', rfl, by simp [allOf], hu, rfl⟩
      · rintro ⟨w2, pre, c, post, c', he, hp, hu2, rfl⟩
        cases pre with
        | nil =>
          simp only [List.nil_append, List.cons.injEq] at he
          obtain ⟨rfl, rfl⟩ := he
          rw [(hv _).mpr ⟨w2, hu2⟩] at hm
          cases hm
          rfl
        | cons p pre =>
          simp only [List.cons_append, List.cons.injEq] at he
          obtain ⟨rfl, rfl⟩ := he
          have := (View.modifyId_none id f v).mpr fun x hx => hp x (by simp [allOf, hx])
          rw [this] at hm
          cases hm

theorem View.modifyId_some (id : Str) (f : View → View) (v v' : View) :
    v.modifyId id f = some v' ↔ ∃ w, Updated id w (f w) v v' := by
  induction v using View.induct generalizing v' with
  | h v ih =>
    rw [View.modifyId_eq]
    by_cases h : v.id = id
    · simp only [h, ↓reduceIte, Option.some.injEq]
      constructor
      · rintro rfl; exact ⟨v, .here h⟩
      · rintro ⟨w, hu⟩
        cases hu with
        | here => rfl
        | inside hv => exact absurd h hv
    · simp only [h, ↓reduceIte, Option.map_eq_some_iff, modifyIdIn_some ih]
      constructor
      · rintro ⟨vs, ⟨w, pre, c, post, c', he, hp, hu, rfl⟩, rfl⟩
        exact ⟨w, .inside h he hp hu⟩
      · rintro ⟨w, hu⟩
        cases hu with
        | here hw => exact absurd hw h
        | inside _ hc hp hu => exact ⟨_, ⟨w, _, _, _, _, hc, hp, hu, rfl⟩, rfl⟩

theorem modifyIn_some {id : Str} {f : View → View} {vs vs' : List View} :
    modifyIdIn id f vs = some vs' ↔ ∃ w, UpdatedIn id w (f w) vs vs' := modifyIdIn_some fun v _ => View.modifyId_some id f v

theorem modifyIn_none {id : Str} {f : View → View} {vs : List View} :
    modifyIdIn id f vs = none ↔ ∀ x ∈ allOf vs, x.id ≠ id := modifyIdIn_none fun v _ => View.modifyId_none id f v

/-- What a view is without what is below its children. -/
def View.local (v : View) : View × List AndroidView := ({ v with children := [] }, v.children.map View.raw)

/-- Pushing a child changes one view and adds one. -/
theorem Updated.push {id : Str} {w v v' : View} {r : AndroidView} (h : Updated id w (w.push r) v v') :
    v'.raw = v.raw ∧ ∃ A B, v.all.map View.local = A ++ w.local :: B ∧
      ∃ B1 B2, B = B1 ++ B2 ∧ v'.all.map View.local = A ++ (w.push r).local :: (B1 ++ (View.ofRaw r).local :: B2) := by
  induction h with
  | here h =>
    refine ⟨rfl, [], (allOf w.children).map View.local, ?_, (allOf w.children).map View.local, [], by simp, ?_⟩
    · rw [View.all_eq]; rfl
    · rw [View.all_eq]
      simp only [View.push, allOf_append, List.map_cons, List.map_append, List.nil_append, allOf, List.append_nil, View.all_eq,
        View.ofRaw, List.map_nil]
  | @inside v c c' pre post hv hc hp _ ih =>
    obtain ⟨hr, A, B, h1, B1, B2, rfl, h2⟩ := ih
    refine ⟨rfl, v.local :: ((allOf pre).map View.local ++ A), (B1 ++ B2) ++ (allOf post).map View.local, ?_, B1,
      B2 ++ (allOf post).map View.local, by simp, ?_⟩
    · rw [View.all_eq, hc, allOf_append, allOf]
      simp [h1]
    · rw [View.all_eq]
      simp only [allOf_append, allOf, List.map_cons, List.map_append, h2]
      have : ({ v with children := pre ++ c' :: post } : View).local = v.local := by
        simp only [View.local, hc, List.map_append, List.map_cons, hr]
      rw [this]
      simp

theorem UpdatedIn.push {id : Str} {w : View} {vs vs' : List View} {r : AndroidView} (h : UpdatedIn id w (w.push r) vs vs') :
    vs'.map View.raw = vs.map View.raw ∧ ∃ A B, (allOf vs).map View.local = A ++ w.local :: B ∧
      ∃ B1 B2, B = B1 ++ B2 ∧ (allOf vs').map View.local = A ++ (w.push r).local :: (B1 ++ (View.ofRaw r).local :: B2) := by
  obtain ⟨pre, c, post, c', rfl, hp, hu, rfl⟩ := h
  obtain ⟨hr, A, B, h1, B1, B2, rfl, h2⟩ := hu.push
  refine ⟨by simp [hr], (allOf pre).map View.local ++ A, (B1 ++ B2) ++ (allOf post).map View.local, ?_, B1,
    B2 ++ (allOf post).map View.local, by simp, ?_⟩
  · rw [allOf_append, allOf]; simp [h1]
  · rw [allOf_append, allOf]; simp [h2]

theorem Updated.id_eq {id : Str} {w w' v v' : View} (h : Updated id w w' v v') : w.id = id ∧ w ∈ v.all := by
  induction h with
  | here h => exact ⟨h, by rw [View.all_eq]; simp⟩
  | @inside v c c' pre post hv hc hp _ ih =>
    refine ⟨ih.1, ?_⟩
    rw [View.all_eq, hc, allOf_append, allOf]
    simp [ih.2]

end
end Swrs.Api
