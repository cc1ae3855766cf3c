import Verif.Proofs.DepthView
/-!
# How deep a search in a tree of views goes
-/
namespace Swrs.Api
section
variable [Floats]

mutual
/-- The views of a tree in the order of a depth-first search, each as its level and id; the root has level `n`. -/
def preorder (n : Nat) : View → List (Nat × Str)
  | ⟨id, _, _, _, _, _, _, _, _, _, _, children⟩ => (n, id) :: preorders (n + 1) children
/-- The views of a list of trees in the order of a depth-first search. -/
def preorders (n : Nat) : List View → List (Nat × Str)
  | [] => []
  | v :: vs => preorder n v ++ preorders n vs
end

/-- What a search for an id looks at: everything up to the first view with the id. -/
def lookedAt (id : Str) : List (Nat × Str) → List (Nat × Str)
  | [] => []
  | x :: xs => if x.2 = id then [x] else x :: lookedAt id xs

omit [Floats] in
theorem lookedAt_append (id : Str) (xs ys : List (Nat × Str)) :
    lookedAt id (xs ++ ys) = if ∃ x ∈ xs, x.2 = id then lookedAt id xs else xs ++ lookedAt id ys := by
  induction xs with
  | nil => simp
  | cons x xs ih =>
    rw [List.cons_append, lookedAt, lookedAt]
    by_cases h : x.2 = id
    · rw [if_pos h, if_pos h, if_pos ⟨x, List.mem_cons_self .., h⟩]
    · rw [if_neg h, if_neg h, ih]
      by_cases h' : ∃ x ∈ xs, x.2 = id
      · obtain ⟨y, hy, e⟩ := h'
        rw [if_pos ⟨y, hy, e⟩, if_pos ⟨y, List.mem_cons_of_mem _ hy, e⟩]
      · rw [if_neg h', if_neg (by
          rintro ⟨y, hy, e⟩
          rcases List.mem_cons.mp hy with rfl | hy
          · exact h e
          · exact h' ⟨y, hy, e⟩)]
        rfl

omit [Floats] in
theorem lookedAt_none {id : Str} {xs : List (Nat × Str)} (h : ¬ ∃ x ∈ xs, x.2 = id) : lookedAt id xs = xs := by
  have := lookedAt_append id xs []
  rw [if_neg h] at this
  simpa [lookedAt] using this

theorem preorder_eq (n : Nat) (v : View) : preorder n v = (n, v.id) :: preorders (n + 1) v.children := by
  cases v
  rw [preorder]

mutual
theorem modifyId_preorder (id : Str) (f : View → View) (n : Nat) : ∀ v : View,
    (∃ w, View.modifyId id f v = some w) ↔ ∃ x ∈ preorder n v, x.2 = id
  | ⟨i, a1, a2, a3, a4, a5, a6, a7, a8, a9, a10, children⟩ => by
    rw [View.modifyId, preorder]
    by_cases h : i = id
    · rw [if_pos h]
      exact ⟨fun _ => ⟨_, List.mem_cons_self .., h⟩, fun _ => ⟨_, rfl⟩⟩
    · rw [if_neg h]
      have ih := modifyIdIn_preorder id f (n + 1) children
      constructor
      · rintro ⟨w, hw⟩
        obtain ⟨cs, hc, _⟩ := Option.map_eq_some_iff.mp hw
        obtain ⟨x, hx, e⟩ := ih.mp ⟨cs, hc⟩
        exact ⟨x, List.mem_cons_of_mem _ hx, e⟩
      · rintro ⟨x, hx, e⟩
        rcases List.mem_cons.mp hx with rfl | hx
        · exact absurd e h
        · obtain ⟨cs, hc⟩ := ih.mpr ⟨x, hx, e⟩
          rw [hc]
          exact ⟨_, rfl⟩
theorem modifyIdIn_preorder (id : Str) (f : View → View) (n : Nat) : ∀ vs : List View,
    (∃ w, modifyIdIn id f vs = some w) ↔ ∃ x ∈ preorders n vs, x.2 = id
  | [] => by simp [modifyIdIn, preorders]
  | v :: vs => by
    have h1 := modifyId_preorder id f n v
    have h2 := modifyIdIn_preorder id f n vs
    rw [modifyIdIn, preorders]
    simp only [List.mem_append, or_and_right, exists_or, ← h1, ← h2]
    cases hv : View.modifyId id f v with
    | some w => exact ⟨fun _ => .inl ⟨w, rfl⟩, fun _ => ⟨_, rfl⟩⟩
    | none =>
      constructor
      · rintro ⟨w, hw⟩
        obtain ⟨cs, hc, _⟩ := Option.map_eq_some_iff.mp hw
        exact .inr ⟨cs, hc⟩
      · rintro (⟨w, hw⟩ | ⟨w, hw⟩)
        · cases hw
        · exact ⟨v :: w, by rw [hw]; rfl⟩
end

mutual
theorem modifyAt_iff (f : View → View) (id : Str) : ∀ (d n : Nat) (v : View) (x : Option View),
    modifyAt f d id v = some x ↔ x = View.modifyId id f v ∧ ∀ y ∈ lookedAt id (preorder n v), y.1 < d + n
  | 0, n, v, x => by
    constructor
    · intro h; cases h
    · rintro ⟨_, h⟩
      rw [preorder_eq, lookedAt] at h
      have : n < 0 + n := by
        split at h
        · exact h _ (List.mem_cons_self ..)
        · exact h _ (List.mem_cons_self ..)
      omega
  | d + 1, n, v, x => by
    rw [modifyAt, modifyId_eq, preorder_eq, lookedAt]
    by_cases hi : v.id = id
    · rw [if_pos hi, if_pos hi, if_pos hi]
      constructor
      · intro h
        refine ⟨(Option.some.inj h).symm, fun y hy => ?_⟩
        rw [List.mem_singleton] at hy
        subst hy
        show n < _
        omega
      · rintro ⟨rfl, _⟩; rfl
    · rw [if_neg hi, if_neg hi, if_neg hi]
      have ih := modifyWith_iff f id d (n + 1) v.children
      simp only [Option.bind_eq_bind, Option.bind_eq_some_iff, ih]
      constructor
      · rintro ⟨_, ⟨rfl, h⟩, e⟩
        refine ⟨(Option.some.inj e).symm, fun y hy => ?_⟩
        rcases List.mem_cons.mp hy with rfl | hy
        · show n < _
          omega
        · have := h y hy; omega
      · rintro ⟨rfl, h⟩
        exact ⟨_, ⟨rfl, fun y hy => by have := h y (List.mem_cons_of_mem _ hy); omega⟩, rfl⟩
theorem modifyWith_iff (f : View → View) (id : Str) : ∀ (d n : Nat) (vs : List View) (x : Option (List View)),
    modifyWith (modifyAt f d id) vs = some x ↔ x = modifyIdIn id f vs ∧ ∀ y ∈ lookedAt id (preorders n vs), y.1 < d + n
  | d, n, [], x => by
    simp [modifyWith, modifyIdIn, preorders, lookedAt, eq_comm]
  | d, n, v :: vs, x => by
    rw [modifyWith, modifyIdIn, preorders, lookedAt_append]
    have h1 := modifyAt_iff f id d n v
    have h2 := modifyWith_iff f id d n vs
    have hs := modifyId_preorder id f n v
    simp only [Option.bind_eq_bind, Option.bind_eq_some_iff, h1]
    cases hv : View.modifyId id f v with
    | some w =>
      rw [if_pos (hs.mp ⟨w, hv⟩)]
      constructor
      · rintro ⟨_, ⟨rfl, h⟩, e⟩
        exact ⟨(Option.some.inj e).symm, h⟩
      · rintro ⟨rfl, h⟩
        exact ⟨some w, ⟨rfl, h⟩, rfl⟩
    | none =>
      have hn : ¬ ∃ x ∈ preorder n v, x.2 = id := fun h => by
        obtain ⟨w, hw⟩ := hs.mpr h
        rw [hv] at hw; cases hw
      rw [if_neg hn, lookedAt_none hn]
      constructor
      · rintro ⟨_, ⟨rfl, h⟩, e⟩
        obtain ⟨r, hr, e⟩ := Option.bind_eq_some_iff.mp e
        obtain ⟨rfl, h'⟩ := (h2 r).mp hr
        refine ⟨(Option.some.inj e).symm, fun y hy => ?_⟩
        rcases List.mem_append.mp hy with hy | hy
        · exact h y hy
        · exact h' y hy
      · rintro ⟨rfl, h⟩
        refine ⟨none, ⟨rfl, fun y hy => h y (List.mem_append_left _ hy)⟩, ?_⟩
        refine Option.bind_eq_some_iff.mpr ⟨_, (h2 _).mpr ⟨rfl, fun y hy => h y (List.mem_append_right _ hy)⟩, rfl⟩
end

mutual
theorem findId_preorder (id : Str) (n : Nat) : ∀ v : View, (∃ w, View.findId id v = some w) ↔ ∃ x ∈ preorder n v, x.2 = id
  | ⟨i, a1, a2, a3, a4, a5, a6, a7, a8, a9, a10, children⟩ => by
    rw [View.findId, preorder]
    by_cases h : i = id
    · rw [if_pos h]
      exact ⟨fun _ => ⟨_, List.mem_cons_self .., h⟩, fun _ => ⟨_, rfl⟩⟩
    · rw [if_neg h, findIdIn_preorder id (n + 1) children]
      constructor
      · rintro ⟨x, hx, e⟩
        exact ⟨x, List.mem_cons_of_mem _ hx, e⟩
      · rintro ⟨x, hx, e⟩
        rcases List.mem_cons.mp hx with rfl | hx
        · exact absurd e h
        · exact ⟨x, hx, e⟩
theorem findIdIn_preorder (id : Str) (n : Nat) : ∀ vs : List View, (∃ w, findIdIn id vs = some w) ↔ ∃ x ∈ preorders n vs, x.2 = id
  | [] => by simp [findIdIn, preorders]
  | v :: vs => by
    have h1 := findId_preorder id n v
    have h2 := findIdIn_preorder id n vs
    rw [findIdIn, preorders]
    simp only [List.mem_append, or_and_right, exists_or, ← h1, ← h2]
    cases hv : View.findId id v with
    | some w => exact ⟨fun _ => .inl ⟨w, rfl⟩, fun _ => ⟨_, rfl⟩⟩
    | none =>
      constructor
      · exact .inr
      · rintro (⟨w, hw⟩ | hw)
        · cases hw
        · exact hw
end

mutual
theorem findAt_iff (id : Str) : ∀ (d n : Nat) (v : View) (x : Option View),
    findAt d id v = some x ↔ x = View.findId id v ∧ ∀ y ∈ lookedAt id (preorder n v), y.1 < d + n
  | 0, n, v, x => by
    constructor
    · intro h; cases h
    · rintro ⟨_, h⟩
      rw [preorder_eq, lookedAt] at h
      have : n < 0 + n := by
        split at h
        · exact h _ (List.mem_cons_self ..)
        · exact h _ (List.mem_cons_self ..)
      omega
  | d + 1, n, v, x => by
    rw [findAt, findId_eq, preorder_eq, lookedAt]
    by_cases hi : v.id = id
    · rw [if_pos hi, if_pos hi, if_pos hi]
      constructor
      · intro h
        refine ⟨(Option.some.inj h).symm, fun y hy => ?_⟩
        rw [List.mem_singleton] at hy
        subst hy
        show n < _
        omega
      · rintro ⟨rfl, _⟩; rfl
    · rw [if_neg hi, if_neg hi, if_neg hi, findWith_iff id d (n + 1) v.children]
      constructor
      · rintro ⟨e, h⟩
        refine ⟨e, fun y hy => ?_⟩
        rcases List.mem_cons.mp hy with rfl | hy
        · show n < _
          omega
        · have := h y hy; omega
      · rintro ⟨e, h⟩
        exact ⟨e, fun y hy => by have := h y (List.mem_cons_of_mem _ hy); omega⟩
theorem findWith_iff (id : Str) : ∀ (d n : Nat) (vs : List View) (x : Option View),
    findWith (findAt d id) vs = some x ↔ x = findIdIn id vs ∧ ∀ y ∈ lookedAt id (preorders n vs), y.1 < d + n
  | d, n, [], x => by
    simp [findWith, findIdIn, preorders, lookedAt, eq_comm]
  | d, n, v :: vs, x => by
    rw [findWith, findIdIn, preorders, lookedAt_append]
    have h1 := findAt_iff id d n v
    have h2 := findWith_iff id d n vs
    have hs := findId_preorder id n v
    simp only [Option.bind_eq_bind, Option.bind_eq_some_iff, h1]
    cases hv : View.findId id v with
    | some w =>
      rw [if_pos (hs.mp ⟨w, hv⟩)]
      constructor
      · rintro ⟨_, ⟨rfl, h⟩, e⟩
        exact ⟨(Option.some.inj e).symm, h⟩
      · rintro ⟨rfl, h⟩
        exact ⟨some w, ⟨rfl, h⟩, rfl⟩
    | none =>
      have hn : ¬ ∃ x ∈ preorder n v, x.2 = id := fun h => by
        obtain ⟨w, hw⟩ := hs.mpr h
        rw [hv] at hw; cases hw
      rw [if_neg hn, lookedAt_none hn]
      constructor
      · rintro ⟨_, ⟨rfl, h⟩, e⟩
        obtain ⟨rfl, h'⟩ := (h2 x).mp e
        refine ⟨rfl, fun y hy => ?_⟩
        rcases List.mem_append.mp hy with hy | hy
        · exact h y hy
        · exact h' y hy
      · rintro ⟨rfl, h⟩
        refine ⟨none, ⟨rfl, fun y hy => h y (List.mem_append_left _ hy)⟩, ?_⟩
        exact (h2 _).mpr ⟨rfl, fun y hy => h y (List.mem_append_right _ hy)⟩
end

theorem placeAt_iff (d : Nat) (res : List View) (r : AndroidView) (x : Out ParseLayoutError (List View)) :
    placeAt d res r = some x ↔ x = placeView res r ∧
      ∀ p, r.parent = some p → p ≠ s% "root" → ∀ y ∈ lookedAt p (preorders 1 res), y.1 ≤ d := by
  unfold placeAt placeView
  cases hp : r.parent with
  | none => simp [eq_comm]
  | some p =>
    dsimp only
    by_cases hr : p = s% "root"
    · rw [if_pos hr, if_pos hr]
      constructor
      · intro h
        exact ⟨(Option.some.inj h).symm, fun q hq hn => absurd (by cases hq; exact hr) hn⟩
      · rintro ⟨rfl, _⟩; rfl
    · rw [if_neg hr, if_neg hr]
      have hm := modifyWith_iff (View.push r) p d 1 res
      simp only [Option.bind_eq_bind, Option.bind_eq_some_iff, hm]
      constructor
      · rintro ⟨_, ⟨rfl, h⟩, e⟩
        refine ⟨?_, ?_⟩
        · cases hi : modifyIdIn p (View.push r) res with
          | none => rw [hi] at e; exact (Option.some.inj e).symm
          | some ws => rw [hi] at e; exact (Option.some.inj e).symm
        · intro q hq _ y hy
          cases hq
          have := h y hy
          omega
      · rintro ⟨rfl, h⟩
        refine ⟨_, ⟨rfl, fun y hy => by have := h p rfl hr y hy; omega⟩, ?_⟩
        cases modifyIdIn p (View.push r) res <;> rfl

theorem placeAllAt_iff (d : Nat) : ∀ (rs : List AndroidView) (res : List View) (x : Out ParseLayoutError (List View)),
    placeAllAt d rs res = some x ↔ x = placeViews rs res ∧
      ∀ k r p ws, rs[k]? = some r → placeViews (rs.take k) res = .ok ws → r.parent = some p → p ≠ s% "root" →
        ∀ y ∈ lookedAt p (preorders 1 ws), y.1 ≤ d
  | [], res, x => by simp [placeAllAt, placeViews, eq_comm]
  | r :: rs, res, x => by
    rw [placeAllAt, placeViews]
    simp only [Option.bind_eq_bind, Option.bind_eq_some_iff, placeAt_iff]
    constructor
    · rintro ⟨_, ⟨rfl, h⟩, e⟩
      have first : ∀ k s p ws, k = 0 → (r :: rs)[k]? = some s → placeViews ((r :: rs).take k) res = .ok ws → s.parent = some p →
          p ≠ s% "root" → ∀ y ∈ lookedAt p (preorders 1 ws), y.1 ≤ d := by
        rintro _ s p ws rfl hs hw hp hr y hy
        cases hs
        cases hw
        exact h p hp hr y hy
      cases hv : placeView res r with
      | err a =>
        rw [hv] at e
        refine ⟨(Option.some.inj e).symm, fun k s p ws hs hw => ?_⟩
        cases k with
        | zero => exact first 0 s p ws rfl hs hw
        | succ k =>
          rw [List.take_succ_cons, placeViews, hv] at hw
          cases hw
      | panic =>
        rw [hv] at e
        refine ⟨(Option.some.inj e).symm, fun k s p ws hs hw => ?_⟩
        cases k with
        | zero => exact first 0 s p ws rfl hs hw
        | succ k =>
          rw [List.take_succ_cons, placeViews, hv] at hw
          cases hw
      | ok us =>
        rw [hv] at e
        obtain ⟨h1, h2⟩ := (placeAllAt_iff d rs us x).mp e
        refine ⟨h1, fun k s p ws hs hw => ?_⟩
        cases k with
        | zero => exact first 0 s p ws rfl hs hw
        | succ k =>
          rw [List.take_succ_cons, placeViews, hv] at hw
          exact h2 k s p ws hs hw
    · rintro ⟨hx, h⟩
      refine ⟨_, ⟨rfl, fun p hp hr y hy => h 0 r p res rfl rfl hp hr y hy⟩, ?_⟩
      cases hv : placeView res r with
      | err a => rw [hv] at hx; rw [hx]; rfl
      | panic => rw [hv] at hx; rw [hx]; rfl
      | ok us =>
        rw [hv] at hx
        refine (placeAllAt_iff d rs us x).mpr ⟨hx, fun k s p ws hs hw => h (k + 1) s p ws hs ?_⟩
        rw [List.take_succ_cons, placeViews, hv]
        exact hw
end
end Swrs.Api
