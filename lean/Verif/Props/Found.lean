import Verif.Props.Written
import Verif.Props.ProjectConv
/-!
# C55: which logic every screen is read from
-/
namespace Swrs.Api
section
variable [MapPol] [Floats]

/-- The screen whose logic the screen at a position is read from: the last screen that has the class name looked for, unless a
screen before looked for the same name. -/
def readsFrom (ss : List Screen) (i : Nat) (s : Screen) : Option Screen :=
  if viewNameToLogic s.layoutName ∈ (ss.take i).map (fun t => viewNameToLogic t.layoutName) then none
  else ss.reverse.find? fun t => t.javaName = viewNameToLogic s.layoutName

theorem last_logics {ss : List Screen} {logics : LMap Str ScreenLogic}
    (h : All₂ (fun s e => e.1 = s.javaName ∧ Screen.toLogic s = .ok e.2) ss logics) (k : Str) :
    match ss.reverse.find? fun t => t.javaName = k with
    | some t => ∃ l, t.toLogic = .ok l ∧ LMap.last logics k = some l
    | none => LMap.last logics k = none := by
  induction h with
  | nil => rfl
  | @cons s e ss logics h _ ih =>
    obtain ⟨n, l⟩ := e
    obtain ⟨rfl, hl⟩ := h
    rw [List.reverse_cons, List.find?_append, LMap.last_cons]
    revert ih
    cases hf : ss.reverse.find? fun t => t.javaName = k with
    | some t =>
      rintro ⟨l', h1, h2⟩
      exact ⟨l', h1, by rw [h2]⟩
    | none =>
      intro h2
      by_cases hk : s.javaName = k
      · simp [hk, h2, hl]
      · simp [hk, h2]

/-- C55, exactly: in a project converted to the parser model and back, every screen is made from its file entry and the logic
of the screen `readsFrom` names, or from an empty logic if there is none. -/
theorem c55_reads (rnd : ResourceType → Nat → UInt32) (p p' : SketchwareProject) (q : Swrs.SketchwareProject)
    (h : p.toParsed = .ok q) (h' : SketchwareProject.tryFrom rnd q = .ok p') :
    p'.screens.length = p.screens.length ∧
    ∀ i s s', p.screens[i]? = some s → p'.screens[i]? = some s' →
      ∃ l layout fab, Screen.fromParsed s.layoutName l.name s.toFileItem layout l fab = .ok s' ∧
        match readsFrom p.screens i s with
        | some t => t.toLogic = .ok l
        | none => l = ⟨s.layoutName, [], none, none, none, none, none⟩ := by
  obtain ⟨_, ha, _, _, _, logics, hl, hg⟩ := c77_written p q h
  replace ha : q.file.activities = p.screens.map Screen.toFileItem := ha
  obtain ⟨⟨h1, h2⟩, _⟩ := c79_project_value rnd q p' h'
  refine ⟨by rw [h1, ha, List.length_map], fun i s s' hs hs' => ?_⟩
  have hr := h2 i s.toFileItem s' (by rw [ha, List.getElem?_map, hs]; rfl) hs'
  refine ⟨_, _, _, hr, ?_⟩
  have hb : (q.file.activities.take i).map (fun f => viewNameToLogic f.filename) =
      (p.screens.take i).map (fun t => viewNameToLogic t.layoutName) := by
    rw [ha, ← List.map_take, List.map_map]
    rfl
  rw [readsFrom, logicLeft, hb, hg, show s.toFileItem.filename = s.layoutName from rfl]
  by_cases hm : viewNameToLogic s.layoutName ∈ (p.screens.take i).map (fun t => viewNameToLogic t.layoutName)
  · rw [if_pos hm, if_pos hm]
    rfl
  · rw [if_neg hm, if_neg hm]
    have h3 := last_logics hl (viewNameToLogic s.layoutName)
    revert h3
    cases p.screens.reverse.find? fun t => t.javaName = viewNameToLogic s.layoutName with
    | some t =>
      rintro ⟨l, h3, h4⟩
      rw [h4]
      exact h3
    | none =>
      intro h4
      rw [h4]
      rfl

omit [MapPol] [Floats] in
theorem nodup_map_getElem? {α β : Type} (f : α → β) (l : List α) :
    (l.map f).Nodup ↔ ∀ (i j : Nat) (a b : α), i < j → l[i]? = some a → l[j]? = some b → f a ≠ f b := by
  rw [List.Nodup, List.pairwise_map, List.pairwise_iff_getElem]
  constructor
  · intro h i j a b hij ha hb
    obtain ⟨hi, rfl⟩ := List.getElem?_eq_some_iff.mp ha
    obtain ⟨hj, rfl⟩ := List.getElem?_eq_some_iff.mp hb
    exact h i j hi hj hij
  · intro h i j hi hj hij
    exact h i j _ _ hij (List.getElem?_eq_getElem hi) (List.getElem?_eq_getElem hj)

omit [MapPol] in
/-- C55: every screen is read from its own logic exactly if every screen has the class name that is looked for, and the class
names are distinct. -/
theorem c55_own_iff (p : SketchwareProject) :
    (∀ i s, p.screens[i]? = some s → readsFrom p.screens i s = some s) ↔
      (∀ s ∈ p.screens, s.javaName = viewNameToLogic s.layoutName) ∧ (p.screens.map (·.javaName)).Nodup := by
  constructor
  · intro h
    have hj : ∀ s ∈ p.screens, s.javaName = viewNameToLogic s.layoutName := by
      intro s hs
      obtain ⟨i, hi⟩ := List.mem_iff_getElem?.mp hs
      have := h i s hi
      rw [readsFrom] at this
      split at this
      · cases this
      · simpa using List.find?_some this
    refine ⟨hj, ?_⟩
    rw [nodup_map_getElem?]
    intro i j s t hij hs ht heq
    have := h j t ht
    rw [readsFrom, if_pos] at this
    · cases this
    · rw [← hj t (List.mem_of_getElem? ht), ← heq, hj s (List.mem_of_getElem? hs)]
      refine List.mem_map_of_mem (f := fun t : Screen => viewNameToLogic t.layoutName) ?_
      exact List.mem_of_getElem? (by rw [List.getElem?_take_of_lt hij]; exact hs)
  · rintro ⟨hj, hn⟩ i s hs
    rw [nodup_map_getElem?] at hn
    have hm := List.mem_of_getElem? hs
    have hinj : ∀ t ∈ p.screens, t.javaName = s.javaName → t = s := by
      intro t ht he
      obtain ⟨j, hjt⟩ := List.mem_iff_getElem?.mp ht
      rcases Nat.lt_trichotomy i j with hl | rfl | hl
      · exact absurd he.symm (hn i j s t hl hs hjt)
      · exact Option.some.inj (hjt.symm.trans hs)
      · exact absurd he (hn j i t s hl hjt hs)
    rw [readsFrom, if_neg]
    · cases hf : p.screens.reverse.find? fun t => t.javaName = viewNameToLogic s.layoutName with
      | none =>
        have := List.find?_eq_none.mp hf s (by simpa using hm)
        simp [hj s hm] at this
      | some t =>
        have h1 := List.find?_some hf
        have h2 : t ∈ p.screens := by simpa using List.mem_of_find?_eq_some hf
        rw [hinj t h2 (by rw [hj s hm]; simpa using h1)]
    · intro hk
      obtain ⟨t, ht, he⟩ := List.mem_map.mp hk
      obtain ⟨j, hjt⟩ := List.mem_iff_getElem?.mp ht
      rw [List.getElem?_take] at hjt
      split at hjt
      · next hji =>
        exact hn j i t s hji hjt hs (by rw [hj t (List.mem_of_getElem? hjt), hj s hm, he])
      · cases hjt

/-- Two screens that have each other's class name are read from each other's logic. -/
example : ∃ s t : Screen, s.variables ≠ t.variables ∧ readsFrom [s, t] 0 s = some t ∧ readsFrom [s, t] 1 t = some s :=
  ⟨{ namedScreen (s% "OtherActivity") [(s% "x", ⟨s% "x", .integer⟩)] with layoutName := s% "main" },
    { namedScreen (s% "MainActivity") [] with layoutName := s% "other" }, by simp [namedScreen], rfl, rfl⟩

/-- The second of two screens with the same name is read from nothing. -/
example : ∃ s t : Screen, readsFrom [s, t] 0 s = some t ∧ readsFrom [s, t] 1 t = none :=
  ⟨{ namedScreen (s% "MainActivity") [(s% "x", ⟨s% "x", .integer⟩)] with layoutName := s% "main" },
    { namedScreen (s% "MainActivity") [] with layoutName := s% "main" }, rfl, rfl⟩
end
end Swrs.Api
