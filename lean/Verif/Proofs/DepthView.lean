import Verif.Model.Depth
/-!
# The depth of the calls on views
-/
namespace Swrs.Api
section
variable [Floats]

mutual
/-- The number of levels of a tree of views. -/
def viewLevels : View → Nat
  | ⟨_, _, _, _, _, _, _, _, _, _, _, children⟩ => viewsLevels children + 1
/-- The number of levels of a list of trees. -/
def viewsLevels : List View → Nat
  | [] => 0
  | v :: vs => max (viewLevels v) (viewsLevels vs)
end

theorem viewLevels_eq (v : View) : viewLevels v = viewsLevels v.children + 1 := by
  cases v
  rw [viewLevels]

theorem flattenChildren_eq (v : View) : flattenChildren v = flattenIn v.children v.id v.typeId := by
  cases v
  rw [flattenChildren]
  rfl

theorem viewsLevels_pos {vs : List View} (h : vs ≠ []) : 1 ≤ viewsLevels vs := by
  cases vs with
  | nil => exact absurd rfl h
  | cons v vs =>
    rw [viewsLevels, viewLevels_eq]
    omega

theorem belowWith_iff {go : List View → Str → UInt8 → Option (List AndroidView)} {d : Nat}
    (hgo : ∀ vs p t r, go vs p t = some r ↔ r = flattenIn vs p t ∧ max 1 (viewsLevels vs) ≤ d) :
    ∀ (vs : List View) (r : List AndroidView), belowWith go vs = some r ↔ r = flattenBelow vs ∧ viewsLevels vs ≤ d + 1
  | [], r => by simp [belowWith, flattenBelow, viewsLevels, eq_comm]
  | v :: vs, r => by
    rw [belowWith, flattenBelow, viewsLevels, flattenChildren_eq, viewLevels_eq]
    have hv : ∀ x, childrenWith go v = some x ↔
        x = flattenIn v.children v.id v.typeId ∧ viewsLevels v.children ≤ d := by
      intro x
      unfold childrenWith
      cases hc : v.children with
      | nil =>
        show some [] = some x ↔ x = [] ∧ 0 ≤ d
        simp [eq_comm]
      | cons c cs =>
        show go (c :: cs) v.id v.typeId = some x ↔ _
        have := viewsLevels_pos (vs := c :: cs) (by simp)
        rw [hgo]
        constructor
        · rintro ⟨rfl, h⟩; exact ⟨rfl, by omega⟩
        · rintro ⟨rfl, h⟩; exact ⟨rfl, by omega⟩
    simp only [Option.bind_eq_bind, Option.bind_eq_some_iff, hv, belowWith_iff hgo vs]
    constructor
    · rintro ⟨x, ⟨rfl, h1⟩, y, ⟨rfl, h2⟩, h⟩
      exact ⟨(Option.some.inj h).symm, by omega⟩
    · rintro ⟨rfl, h⟩
      exact ⟨_, ⟨rfl, by omega⟩, _, ⟨rfl, by omega⟩, rfl⟩

theorem flattenAt_iff : ∀ (d : Nat) (vs : List View) (p : Str) (t : UInt8) (r : List AndroidView),
    flattenAt d vs p t = some r ↔ r = flattenIn vs p t ∧ max 1 (viewsLevels vs) ≤ d
  | 0, vs, p, t, r => by
    constructor
    · intro h; cases h
    · rintro ⟨_, h⟩; omega
  | d + 1, vs, p, t, r => by
    rw [flattenAt, flattenIn]
    simp only [Option.bind_eq_bind, Option.bind_eq_some_iff, belowWith_iff (flattenAt_iff d)]
    constructor
    · rintro ⟨x, ⟨rfl, h1⟩, h⟩
      exact ⟨(Option.some.inj h).symm, by omega⟩
    · rintro ⟨rfl, h⟩
      exact ⟨_, ⟨rfl, by omega⟩, rfl⟩

/-! ### Finding a view -/

theorem findId_eq (id : Str) (v : View) : View.findId id v = if v.id = id then some v else findIdIn id v.children := by
  cases v
  rw [View.findId]

theorem modifyId_eq (id : Str) (f : View → View) (v : View) : View.modifyId id f v =
    if v.id = id then some (f v) else (modifyIdIn id f v.children).map fun children => { v with children } := by
  cases v
  rw [View.modifyId]

mutual
theorem findAt_enough (id : Str) : ∀ (d : Nat) (v : View), viewLevels v ≤ d → findAt d id v = some (View.findId id v)
  | 0, v, h => by rw [viewLevels_eq] at h; omega
  | d + 1, v, h => by
    rw [viewLevels_eq] at h
    rw [findAt, findId_eq]
    split
    · rfl
    · exact findWith_enough id d v.children (by omega)
theorem findWith_enough (id : Str) : ∀ (d : Nat) (vs : List View), viewsLevels vs ≤ d → findWith (findAt d id) vs = some (findIdIn id vs)
  | d, [], _ => by rw [findWith, findIdIn]
  | d, v :: vs, h => by
    rw [viewsLevels] at h
    rw [findWith, findIdIn, findAt_enough id d v (by omega)]
    cases View.findId id v with
    | some w => rfl
    | none => exact findWith_enough id d vs (by omega)
end

mutual
theorem findAt_sound (id : Str) : ∀ (d : Nat) (v : View) (r : Option View), findAt d id v = some r →
    r = View.findId id v ∧ (r = none → viewLevels v ≤ d)
  | 0, v, r, h => by cases h
  | d + 1, v, r, h => by
    rw [findAt] at h
    rw [findId_eq, viewLevels_eq]
    split at h
    · next hi => exact ⟨by rw [if_pos hi]; exact (Option.some.inj h).symm, fun e => by rw [e] at h; cases h⟩
    · next hi =>
      obtain ⟨h1, h2⟩ := findWith_sound id d v.children r h
      exact ⟨by rw [if_neg hi]; exact h1, fun e => by have := h2 e; omega⟩
theorem findWith_sound (id : Str) : ∀ (d : Nat) (vs : List View) (r : Option View), findWith (findAt d id) vs = some r →
    r = findIdIn id vs ∧ (r = none → viewsLevels vs ≤ d)
  | d, [], r, h => by
    rw [findWith] at h
    rw [findIdIn, viewsLevels]
    exact ⟨(Option.some.inj h).symm, fun _ => Nat.zero_le d⟩
  | d, v :: vs, r, h => by
    rw [findWith] at h
    rw [findIdIn, viewsLevels]
    cases hv : findAt d id v with
    | none => rw [hv] at h; cases h
    | some x =>
      obtain ⟨h1, h2⟩ := findAt_sound id d v x hv
      rw [hv] at h
      subst h1
      cases hf : View.findId id v with
      | some w =>
        rw [hf] at h
        have : some w = r := Option.some.inj h
        exact ⟨this.symm, fun e => by rw [e] at this; cases this⟩
      | none =>
        rw [hf] at h h2
        obtain ⟨h3, h4⟩ := findWith_sound id d vs r h
        exact ⟨h3, fun e => by have := h2 rfl; have := h4 e; omega⟩
end

mutual
theorem modifyAt_enough (f : View → View) (id : Str) : ∀ (d : Nat) (v : View), viewLevels v ≤ d →
    modifyAt f d id v = some (View.modifyId id f v)
  | 0, v, h => by rw [viewLevels_eq] at h; omega
  | d + 1, v, h => by
    rw [viewLevels_eq] at h
    rw [modifyAt, modifyId_eq]
    split
    · rfl
    · rw [modifyWith_enough f id d v.children (by omega)]
      rfl
theorem modifyWith_enough (f : View → View) (id : Str) : ∀ (d : Nat) (vs : List View), viewsLevels vs ≤ d →
    modifyWith (modifyAt f d id) vs = some (modifyIdIn id f vs)
  | d, [], _ => by rw [modifyWith, modifyIdIn]
  | d, v :: vs, h => by
    rw [viewsLevels] at h
    rw [modifyWith, modifyIdIn, modifyAt_enough f id d v (by omega)]
    cases View.modifyId id f v with
    | some w => rfl
    | none =>
      show (modifyWith (modifyAt f d id) vs >>= _) = _
      rw [modifyWith_enough f id d vs (by omega)]
      rfl
end

theorem push_levels (r : AndroidView) (v : View) : viewLevels (v.push r) = max (viewLevels v) 2 := by
  have h : ∀ vs, viewsLevels (vs ++ [View.ofRaw r]) = max (viewsLevels vs) 1 := by
    intro vs
    induction vs with
    | nil =>
      show max (viewLevels (View.ofRaw r)) 0 = max 0 1
      rw [viewLevels_eq]
      rfl
    | cons v vs ih =>
      rw [List.cons_append, viewsLevels, viewsLevels, ih]
      omega
  rw [viewLevels_eq, viewLevels_eq]
  show viewsLevels (v.children ++ [View.ofRaw r]) + 1 = _
  rw [h]
  omega

mutual
theorem modifyAt_sound (r : AndroidView) (id : Str) : ∀ (d : Nat) (v : View) (x : Option View), modifyAt (View.push r) d id v = some x →
    x = View.modifyId id (View.push r) v ∧ (∀ w, x = some w → viewLevels w ≤ max (viewLevels v) (d + 1))
  | 0, v, x, h => by cases h
  | d + 1, v, x, h => by
    rw [modifyAt] at h
    rw [modifyId_eq]
    split at h
    · next hi =>
      refine ⟨by rw [if_pos hi]; exact (Option.some.inj h).symm, fun w e => ?_⟩
      rw [e] at h
      have : v.push r = w := Option.some.inj (Option.some.inj h)
      rw [← this, push_levels]
      omega
    · next hi =>
      rw [if_neg hi]
      cases hm : modifyWith (modifyAt (View.push r) d id) v.children with
      | none => rw [hm] at h; cases h
      | some y =>
        obtain ⟨h1, h2⟩ := modifyWith_sound r id d v.children y hm
        rw [hm] at h
        have hx : x = y.map fun children => { v with children } := (Option.some.inj h).symm
        subst h1
        refine ⟨hx, fun w e => ?_⟩
        rw [hx] at e
        cases hy : modifyIdIn id (View.push r) v.children with
        | none => rw [hy] at e; cases e
        | some vs =>
          rw [hy] at e
          have : { v with children := vs } = w := Option.some.inj e
          have h3 := h2 vs hy
          rw [← this, viewLevels_eq, viewLevels_eq]
          show viewsLevels vs + 1 ≤ _
          omega
theorem modifyWith_sound (r : AndroidView) (id : Str) : ∀ (d : Nat) (vs : List View) (x : Option (List View)),
    modifyWith (modifyAt (View.push r) d id) vs = some x →
    x = modifyIdIn id (View.push r) vs ∧ (∀ ws, x = some ws → viewsLevels ws ≤ max (viewsLevels vs) (d + 1))
  | d, [], x, h => by
    rw [modifyWith] at h
    rw [modifyIdIn]
    exact ⟨(Option.some.inj h).symm, fun ws e => by rw [e] at h; cases h⟩
  | d, v :: vs, x, h => by
    rw [modifyWith] at h
    rw [modifyIdIn, viewsLevels]
    cases hv : modifyAt (View.push r) d id v with
    | none => rw [hv] at h; cases h
    | some y =>
      obtain ⟨h1, h2⟩ := modifyAt_sound r id d v y hv
      rw [hv] at h
      subst h1
      cases hf : View.modifyId id (View.push r) v with
      | some w =>
        rw [hf] at h
        have hx : some (w :: vs) = x := Option.some.inj h
        refine ⟨hx.symm, fun ws e => ?_⟩
        have : ws = w :: vs := Option.some.inj (e.symm.trans hx.symm)
        have h3 := h2 w hf
        rw [this, viewsLevels]
        omega
      | none =>
        rw [hf] at h
        cases hm : modifyWith (modifyAt (View.push r) d id) vs with
        | none =>
          have : (modifyWith (modifyAt (View.push r) d id) vs >>= fun y => y.map (v :: ·) |> some) = some x := h
          rw [hm] at this
          cases this
        | some y =>
          obtain ⟨h3, h4⟩ := modifyWith_sound r id d vs y hm
          have hx : (modifyWith (modifyAt (View.push r) d id) vs >>= fun y => y.map (v :: ·) |> some) = some x := h
          rw [hm] at hx
          have hx : y.map (v :: ·) = x := Option.some.inj hx
          subst h3
          refine ⟨hx.symm, fun ws e => ?_⟩
          rw [e] at hx
          cases hy : modifyIdIn id (View.push r) vs with
          | none => rw [hy] at hx; cases hx
          | some us =>
            rw [hy] at hx
            have : v :: us = ws := Option.some.inj hx
            have h5 := h4 us hy
            rw [← this, viewsLevels]
            omega
end

mutual
theorem modifyId_mono (r : AndroidView) (id : Str) : ∀ (v w : View), View.modifyId id (View.push r) v = some w → viewLevels v ≤ viewLevels w
  | ⟨i, a1, a2, a3, a4, a5, a6, a7, a8, a9, a10, children⟩, w, h => by
    rw [View.modifyId] at h
    split at h
    · have : View.push r ⟨i, a1, a2, a3, a4, a5, a6, a7, a8, a9, a10, children⟩ = w := Option.some.inj h
      rw [← this, push_levels]
      omega
    · cases hm : modifyIdIn id (View.push r) children with
      | none => rw [hm] at h; cases h
      | some cs =>
        rw [hm] at h
        have := modifyIdIn_mono r id children cs hm
        cases h
        rw [viewLevels_eq, viewLevels_eq]
        show viewsLevels children + 1 ≤ viewsLevels cs + 1
        omega
theorem modifyIdIn_mono (r : AndroidView) (id : Str) : ∀ (vs ws : List View), modifyIdIn id (View.push r) vs = some ws →
    viewsLevels vs ≤ viewsLevels ws
  | [], ws, h => by rw [modifyIdIn] at h; cases h
  | v :: vs, ws, h => by
    rw [modifyIdIn] at h
    cases hv : View.modifyId id (View.push r) v with
    | some w =>
      rw [hv] at h
      cases h
      have := modifyId_mono r id v w hv
      rw [viewsLevels, viewsLevels]
      omega
    | none =>
      rw [hv] at h
      cases hm : modifyIdIn id (View.push r) vs with
      | none => rw [hm] at h; cases h
      | some us =>
        rw [hm] at h
        cases h
        have := modifyIdIn_mono r id vs us hm
        rw [viewsLevels, viewsLevels]
        omega
end

theorem viewsLevels_append (vs ws : List View) : viewsLevels (vs ++ ws) = max (viewsLevels vs) (viewsLevels ws) := by
  induction vs with
  | nil => rw [List.nil_append, viewsLevels]; omega
  | cons v vs ih => rw [List.cons_append, viewsLevels, viewsLevels, ih]; omega

theorem ofRaw_levels (r : AndroidView) : viewsLevels [View.ofRaw r] = 1 := by
  rw [viewsLevels, viewLevels_eq]
  rfl

theorem placeAt_sound {d : Nat} {res : List View} {r : AndroidView} {x : Out ParseLayoutError (List View)}
    (h : placeAt d res r = some x) : x = placeView res r ∧ ∀ vs, x = .ok vs → viewsLevels vs ≤ max (viewsLevels res) (d + 1) := by
  unfold placeAt at h
  unfold placeView
  split at h
  · next hp => rw [hp]; cases h; exact ⟨rfl, fun _ e => by cases e⟩
  · next p hp =>
    rw [hp]
    dsimp only
    split at h
    · next hr =>
      rw [if_pos hr]
      cases h
      refine ⟨rfl, fun vs e => ?_⟩
      cases e
      rw [viewsLevels_append, ofRaw_levels]
      omega
    · next hr =>
      rw [if_neg hr]
      cases hm : modifyWith (modifyAt (View.push r) d p) res with
      | none => rw [hm] at h; cases h
      | some y =>
        obtain ⟨h1, h2⟩ := modifyWith_sound r p d res y hm
        rw [hm] at h
        rw [← h1]
        cases y with
        | none => cases h; exact ⟨rfl, fun _ e => by cases e⟩
        | some ws =>
          cases h
          exact ⟨rfl, fun vs e => by cases e; exact h2 _ rfl⟩

theorem placeAt_enough {d : Nat} {res : List View} {r : AndroidView} (h : viewsLevels res ≤ d) :
    placeAt d res r = some (placeView res r) := by
  unfold placeAt placeView
  cases r.parent with
  | none => rfl
  | some p =>
    dsimp only
    split
    · rfl
    · rw [modifyWith_enough _ _ d res h]
      cases modifyIdIn p (View.push r) res <;> rfl

theorem placeView_mono {res ws : List View} {r : AndroidView} (h : placeView res r = .ok ws) : viewsLevels res ≤ viewsLevels ws := by
  unfold placeView at h
  split at h
  · cases h
  · split at h
    · cases h
      rw [viewsLevels_append]
      omega
    · split at h
      · cases h
      · next hm => cases h; exact modifyIdIn_mono _ _ _ _ hm

theorem placeViews_mono : ∀ {rs : List AndroidView} {res ws : List View}, placeViews rs res = .ok ws → viewsLevels res ≤ viewsLevels ws
  | [], res, ws, h => by cases h; exact Nat.le_refl _
  | r :: rs, res, ws, h => by
    rw [placeViews] at h
    obtain ⟨us, h1, h2⟩ := Out.bind_eq_ok.mp h
    exact Nat.le_trans (placeView_mono h1) (placeViews_mono h2)

theorem placeAllAt_sound {d : Nat} : ∀ {rs : List AndroidView} {res : List View} {x : Out ParseLayoutError (List View)},
    placeAllAt d rs res = some x → x = placeViews rs res ∧ ∀ vs, x = .ok vs → viewsLevels vs ≤ max (viewsLevels res) (d + 1)
  | [], res, x, h => by cases h; exact ⟨rfl, fun vs e => by cases e; omega⟩
  | r :: rs, res, x, h => by
    rw [placeAllAt] at h
    rw [placeViews]
    cases hp : placeAt d res r with
    | none => rw [hp] at h; cases h
    | some y =>
      obtain ⟨h1, h2⟩ := placeAt_sound hp
      rw [hp] at h
      rw [← h1]
      cases y with
      | err e => cases h; exact ⟨rfl, fun _ e => by cases e⟩
      | panic => cases h; exact ⟨rfl, fun _ e => by cases e⟩
      | ok us =>
        obtain ⟨h3, h4⟩ := placeAllAt_sound (rs := rs) (res := us) (x := x) h
        refine ⟨h3, fun vs e => ?_⟩
        have := h4 vs e
        have := h2 us rfl
        omega

theorem placeAllAt_few {d : Nat} : ∀ {rs : List AndroidView} {res : List View}, viewsLevels res + rs.length ≤ d + 1 →
    placeAllAt d rs res = some (placeViews rs res)
  | [], res, _ => rfl
  | r :: rs, res, h => by
    rw [List.length_cons] at h
    have hp := placeAt_enough (d := d) (res := res) (r := r) (by omega)
    have hl := (placeAt_sound (placeAt_enough (d := viewsLevels res) (res := res) (r := r) (Nat.le_refl _))).2
    rw [placeAllAt, placeViews, hp]
    cases hv : placeView res r with
    | err e => rfl
    | panic => rfl
    | ok us =>
      have := hl us hv
      exact placeAllAt_few (rs := rs) (res := us) (by omega)

theorem placeAllAt_enough {d : Nat} : ∀ {rs : List AndroidView} {res ws : List View}, placeViews rs res = .ok ws → viewsLevels ws ≤ d →
    placeAllAt d rs res = some (.ok ws)
  | [], res, ws, h, _ => by cases h; rfl
  | r :: rs, res, ws, h, hd => by
    rw [placeViews] at h
    obtain ⟨us, h1, h2⟩ := Out.bind_eq_ok.mp h
    have h3 := placeView_mono h1
    have h4 := placeViews_mono h2
    rw [placeAllAt, placeAt_enough (d := d) (by omega), h1]
    exact placeAllAt_enough (rs := rs) h2 hd

/-! ### Views in one another -/

/-- Each view is the only child of the one before. -/
def spine : AndroidView → List AndroidView → View
  | r, [] => View.ofRaw r
  | r, s :: rs => { View.ofRaw r with children := [spine s rs] }

theorem spine_levels : ∀ (r : AndroidView) (rs : List AndroidView), viewLevels (spine r rs) = rs.length + 1
  | r, [] => by rw [spine, viewLevels_eq]; rfl
  | r, s :: rs => by
    rw [spine, viewLevels_eq]
    show max (viewLevels (spine s rs)) 0 + 1 = _
    rw [spine_levels s rs, List.length_cons]
    omega

theorem spine_id (r : AndroidView) (rs : List AndroidView) : (spine r rs).id = r.id := by
  cases rs <;> rfl

theorem spine_push (x : AndroidView) : ∀ (r l : AndroidView) (rs : List AndroidView), (r :: rs).getLast? = some l →
    ((r :: rs).map (·.id)).Nodup → View.modifyId l.id (View.push x) (spine r rs) = some (spine r (rs ++ [x]))
  | r, l, [], h, _ => by
    have : r = l := Option.some.inj h
    subst this
    rw [modifyId_eq, spine_id, if_pos rfl]
    rfl
  | r, l, s :: rs, h, hn => by
    rw [List.getLast?_cons_cons] at h
    rw [List.map_cons, List.nodup_cons] at hn
    have hl : l.id ∈ (s :: rs).map (·.id) := List.mem_map.mpr ⟨l, List.mem_of_getLast? h, rfl⟩
    have ih := spine_push x s l rs h hn.2
    rw [modifyId_eq, spine_id, if_neg (fun e => hn.1 (by rw [e]; exact hl))]
    show (modifyIdIn l.id (View.push x) [spine s rs]).map _ = _
    rw [modifyIdIn, ih]
    rfl

theorem placeViews_spine : ∀ (xs : List AndroidView) (r l : AndroidView) (rs : List AndroidView), (r :: rs).getLast? = some l →
    ((r :: rs ++ xs).map (·.id)).Nodup → (∀ x ∈ (r :: rs ++ xs), x.id ≠ s% "root") →
    (∀ (k : Nat) (a b : AndroidView), (l :: xs)[k]? = some a → xs[k]? = some b → b.parent = some a.id) →
    placeViews xs [spine r rs] = .ok [spine r (rs ++ xs)]
  | [], r, l, rs, _, _, _, _ => by rw [List.append_nil]; rfl
  | x :: xs, r, l, rs, hl, hn, hr, hp => by
    have h0 := hp 0 l x rfl rfl
    have hne : l.id ≠ s% "root" := hr l (List.mem_append_left _ (List.mem_of_getLast? hl))
    have hpush := spine_push x r l rs hl (by
      rw [List.map_append] at hn
      exact (List.nodup_append.mp hn).1)
    rw [placeViews]
    have h1 : placeView [spine r rs] x = .ok [spine r (rs ++ [x])] := by
      unfold placeView
      rw [h0]
      dsimp only
      rw [if_neg hne, modifyIdIn, hpush]
    rw [h1, Out.ok_bind]
    have := placeViews_spine xs r x (rs ++ [x]) (by rw [← List.cons_append, List.getLast?_append]; rfl)
      (by simpa using hn) (by simpa using hr) (fun k a b ha hb => hp (k + 1) a b ha hb)
    rw [this, List.append_assoc]
    rfl
end
end Swrs.Api
