import Verif.Props.Written
import Verif.Props.ProjectConv
/-!
# Maps that agree everywhere but at one key
-/
namespace Swrs

/-- The maps have the same entries in the same order, apart from the entry `n`. -/
def Elsewhere {α : Type} (n : Str) (m m' : LMap Str α) : Prop :=
  m.filter (fun e => e.1 ≠ n) = m'.filter (fun e => e.1 ≠ n)

namespace Elsewhere
variable {α : Type} {n k : Str} {m m' : LMap Str α}

theorem refl (m : LMap Str α) : Elsewhere n m m := rfl

theorem iff_erase : Elsewhere n m m' ↔ m.erase n = m'.erase n := Iff.rfl

theorem get (h : Elsewhere n m m') (hk : k ≠ n) : m.get k = m'.get k := by
  have h1 := LMap.get_erase m n k
  have h2 := LMap.get_erase m' n k
  rw [iff_erase.mp h, h2] at h1
  simpa [hk] using h1.symm

theorem mem_keys (h : Elsewhere n m m') (hk : k ≠ n) : k ∈ m.keys ↔ k ∈ m'.keys := by
  rw [← LMap.get_isSome, ← LMap.get_isSome, h.get hk]

theorem set_comm (hk : k ≠ n) (v : α) : (LMap.set m k v).erase n = LMap.set (m.erase n) k v := by
  induction m with
  | nil => rfl
  | cons e m ih =>
    obtain ⟨a, w⟩ := e
    unfold LMap.set LMap.erase at ih ⊢
    by_cases ha : a = k
    · subst ha
      rw [List.map_cons, List.filter_cons_of_pos (by simpa using hk), List.filter_cons_of_pos (by simpa using hk), List.map_cons, ih]
    · by_cases hn : a = n
      · subst hn
        rw [List.map_cons, List.filter_cons_of_neg (by simp [ha]), List.filter_cons_of_neg (by simp), ih]
      · rw [List.map_cons, List.filter_cons_of_pos (by simp [ha, hn]), List.filter_cons_of_pos (by simpa using hn), List.map_cons, ih]

theorem erase_comm : (m.erase k).erase n = (m.erase n).erase k := by
  unfold LMap.erase
  rw [List.filter_filter, List.filter_filter]
  congr 1
  funext e
  exact Bool.and_comm ..

theorem set_same (v : α) : (LMap.set m n v).erase n = m.erase n := by
  induction m with
  | nil => rfl
  | cons e m ih =>
    obtain ⟨a, w⟩ := e
    unfold LMap.set LMap.erase at ih ⊢
    by_cases hn : a = n
    · subst hn
      rw [List.map_cons, List.filter_cons_of_neg (by simp), List.filter_cons_of_neg (by simp), ih]
    · rw [List.map_cons, List.filter_cons_of_pos (by simp [hn]), List.filter_cons_of_pos (by simpa using hn), ih]
      simp [hn]

variable [MapPol]

theorem insert_same (m : LMap Str α) (n : Str) (v : α) : Elsewhere n (m.insert n v) m := by
  rw [iff_erase]
  unfold LMap.insert
  split
  · split
    · unfold LMap.erase
      rw [List.filter_append, List.filter_filter]
      simp
    · exact set_same v
  · unfold LMap.erase
    simp

theorem insert_other (h : Elsewhere n m m') (hk : k ≠ n) (v : α) : Elsewhere n (m.insert k v) (m'.insert k v) := by
  have hm := h.mem_keys hk
  rw [iff_erase] at h ⊢
  unfold LMap.insert
  simp only [hm]
  split
  · split
    · have happ : ∀ (a : LMap Str α), LMap.erase (a ++ [(k, v)]) n = LMap.erase a n ++ [(k, v)] := by
        intro a; unfold LMap.erase; rw [List.filter_append]; simp [hk]
      rw [happ, happ, erase_comm, h, erase_comm]
    · rw [set_comm hk, set_comm hk, h]
  · have happ : ∀ (a : LMap Str α), LMap.erase (a ++ [(k, v)]) n = LMap.erase a n ++ [(k, v)] := by
      intro a; unfold LMap.erase; rw [List.filter_append]; simp [hk]
    rw [happ, happ, h]

omit [MapPol] in
theorem symm (h : Elsewhere n m m') : Elsewhere n m' m := Eq.symm h
omit [MapPol] in
theorem trans {m'' : LMap Str α} (h : Elsewhere n m m') (h' : Elsewhere n m' m'') : Elsewhere n m m'' := Eq.trans h h'

/-- Inserting an entry anywhere. -/
theorem insert (h : Elsewhere n m m') (k : Str) (v : α) : Elsewhere n (m.insert k v) (m'.insert k v) := by
  by_cases hk : k = n
  · subst hk
    exact (insert_same m k v).trans (h.trans (insert_same m' k v).symm)
  · exact h.insert_other hk v

/-- Inserting different entries at the key. -/
theorem insert_at (h : Elsewhere n m m') (v v' : α) : Elsewhere n (m.insert n v) (m'.insert n v') :=
  (insert_same m n v).trans (h.trans (insert_same m' n v').symm)

theorem keys_insert {β : Type} {m' : LMap Str β} (h : m.keys = m'.keys) (k : Str) (v : α) (v' : β) : LMap.keys (m.insert k v) = LMap.keys (m'.insert k v') := by
  unfold LMap.insert
  rw [h]
  split
  · split
    · rw [LMap.keys_append, LMap.keys_append, LMap.keys_erase, LMap.keys_erase, h]; rfl
    · rw [LMap.keys_set, LMap.keys_set, h]
  · rw [LMap.keys_append, LMap.keys_append, h]; rfl
end Elsewhere

namespace Api
section
variable [MapPol] [Floats]

/-- The loop over some screens that all have the names `n` and `j` changes nothing elsewhere. -/
theorem screensBack_here {n j : Str} {ss : List Screen} (hm : ∀ s ∈ ss, s.layoutName = n ∧ s.javaName = j) {lg lg' : LMap Str ScreenLogic}
    {ls ls' : LMap Str Layout} {fs fs' : LMap Str AndroidView} (h : screensBack ss lg ls fs = .ok (lg', ls', fs')) :
    Elsewhere j lg lg' ∧ Elsewhere n ls ls' ∧ Elsewhere n fs fs' := by
  induction ss generalizing lg ls fs with
  | nil => cases h; exact ⟨rfl, rfl, rfl⟩
  | cons s ss ih =>
    obtain ⟨rfl, rfl⟩ := hm s (by simp)
    simp only [screensBack, Out.bind_eq_ok] at h
    obtain ⟨l, -, h⟩ := h
    obtain ⟨h1, h2, h3⟩ := ih (fun s hs => hm s (by simp [hs])) h
    refine ⟨(Elsewhere.insert_same ..).symm.trans h1, (Elsewhere.insert_same ..).symm.trans h2, ?_⟩
    revert h3
    cases s.fab with
    | none => exact id
    | some f => exact (Elsewhere.insert_same ..).symm.trans

theorem screensBack_append {a b : List Screen} {lg : LMap Str ScreenLogic} {ls : LMap Str Layout} {fs : LMap Str AndroidView}
    {r : LMap Str ScreenLogic × LMap Str Layout × LMap Str AndroidView} : screensBack (a ++ b) lg ls fs = .ok r ↔
    ∃ r', screensBack a lg ls fs = .ok r' ∧ screensBack b r'.1 r'.2.1 r'.2.2 = .ok r := by
  induction a generalizing lg ls fs with
  | nil => simp [screensBack]
  | cons s a ih =>
    simp only [List.cons_append, screensBack, Out.bind_eq_ok, ih]
    constructor
    · rintro ⟨l, h, r', h1, h2⟩; exact ⟨r', ⟨l, h, h1⟩, h2⟩
    · rintro ⟨r', ⟨l, h, h1⟩, h2⟩; exact ⟨l, h, r', h1, h2⟩

/-- The loop over the same screens keeps the maps equal elsewhere. -/
theorem screensBack_elsewhere {n j : Str} {ss : List Screen} {lg lg₁ lg' lg₁' : LMap Str ScreenLogic}
    {ls ls₁ ls' ls₁' : LMap Str Layout} {fs fs₁ fs' fs₁' : LMap Str AndroidView} (h : screensBack ss lg ls fs = .ok (lg', ls', fs'))
    (h₁ : screensBack ss lg₁ ls₁ fs₁ = .ok (lg₁', ls₁', fs₁')) (he : Elsewhere j lg lg₁ ∧ Elsewhere n ls ls₁ ∧ Elsewhere n fs fs₁) :
    Elsewhere j lg' lg₁' ∧ Elsewhere n ls' ls₁' ∧ Elsewhere n fs' fs₁' := by
  induction ss generalizing lg ls fs lg₁ ls₁ fs₁ with
  | nil => cases h; cases h₁; exact he
  | cons s ss ih =>
    simp only [screensBack, Out.bind_eq_ok] at h h₁
    obtain ⟨l, hl, h⟩ := h
    obtain ⟨l', hl', h₁⟩ := h₁
    rw [hl] at hl'
    cases hl'
    refine ih h h₁ ⟨he.1.insert .., he.2.1.insert .., ?_⟩
    cases s.fab with
    | none => exact he.2.2
    | some f => exact he.2.2.insert ..

/-- The keys depend only on the names. -/
theorem screensBack_keys {ss ss₁ : List Screen} (hs : All₂ (fun s s₁ => s.layoutName = s₁.layoutName ∧ s.javaName = s₁.javaName) ss ss₁)
    {lg lg₁ lg' lg₁' : LMap Str ScreenLogic} {ls ls₁ ls' ls₁' : LMap Str Layout} {fs fs₁ fs' fs₁' : LMap Str AndroidView}
    (h : screensBack ss lg ls fs = .ok (lg', ls', fs')) (h₁ : screensBack ss₁ lg₁ ls₁ fs₁ = .ok (lg₁', ls₁', fs₁'))
    (he : lg.keys = lg₁.keys ∧ ls.keys = ls₁.keys) : lg'.keys = lg₁'.keys ∧ ls'.keys = ls₁'.keys := by
  induction hs generalizing lg ls fs lg₁ ls₁ fs₁ with
  | nil => cases h; cases h₁; exact he
  | cons hs _ ih =>
    simp only [screensBack, Out.bind_eq_ok] at h h₁
    obtain ⟨l, hl, h⟩ := h
    obtain ⟨l', hl', h₁⟩ := h₁
    rw [hs.1, hs.2] at h
    exact ih h h₁ ⟨Elsewhere.keys_insert he.1 .., Elsewhere.keys_insert he.2 ..⟩

omit [Floats] in
theorem insertAll_keys {α β γ : Type} (f : γ → Str) (g : γ → α) (g' : γ → β) {m : LMap Str α} {m' : LMap Str β} (xs : List γ) (h : m.keys = m'.keys) :
    (xs.foldl (fun m x => LMap.insert m (f x) (g x)) m).keys = (xs.foldl (fun m x => LMap.insert m (f x) (g' x)) m').keys := by
  induction xs generalizing m m' with
  | nil => exact h
  | cons x xs ih =>
    exact ih (Elsewhere.keys_insert h ..)

theorem customViewsBack_elsewhere {n : Str} (cvs : List CustomView) {ls ls' : LMap Str Layout} (h : Elsewhere n ls ls') :
    Elsewhere n (customViewsBack cvs ls) (customViewsBack cvs ls') := by
  unfold customViewsBack
  induction cvs generalizing ls ls' with
  | nil => exact h
  | cons c cvs ih => exact ih (h.insert ..)

/-- The maps after two loops that see the same logic, or the same layouts and FABs. -/
theorem screensBack_parts {ss ss₁ : List Screen} {lg lg' lg₁' : LMap Str ScreenLogic} {ls ls₁ ls' ls₁' : LMap Str Layout}
    {fs fs₁ fs' fs₁' : LMap Str AndroidView} (h : screensBack ss lg ls fs = .ok (lg', ls', fs'))
    (h₁ : screensBack ss₁ lg ls₁ fs₁ = .ok (lg₁', ls₁', fs₁'))
    (hs : All₂ (fun s s₁ => s.javaName = s₁.javaName ∧ s.toLogic = s₁.toLogic) ss ss₁) : lg' = lg₁' := by
  induction hs generalizing lg ls fs ls₁ fs₁ with
  | nil => cases h; cases h₁; rfl
  | cons hs _ ih =>
    simp only [screensBack, Out.bind_eq_ok] at h h₁
    obtain ⟨l, hl, h⟩ := h
    obtain ⟨l', hl', h₁⟩ := h₁
    rw [hs.2, hl'] at hl
    cases hl
    rw [hs.1] at h
    exact ih h h₁

theorem screensBack_views {ss ss₁ : List Screen} {lg lg₁ lg' lg₁' : LMap Str ScreenLogic} {ls ls' ls₁' : LMap Str Layout}
    {fs fs' fs₁' : LMap Str AndroidView} (h : screensBack ss lg ls fs = .ok (lg', ls', fs'))
    (h₁ : screensBack ss₁ lg₁ ls fs = .ok (lg₁', ls₁', fs₁'))
    (hs : All₂ (fun s s₁ => s.layoutName = s₁.layoutName ∧ s.layout = s₁.layout ∧ s.fab = s₁.fab) ss ss₁) : ls' = ls₁' ∧ fs' = fs₁' := by
  induction hs generalizing lg ls fs lg₁ with
  | nil => cases h; cases h₁; exact ⟨rfl, rfl⟩
  | cons hs _ ih =>
    simp only [screensBack, Out.bind_eq_ok, Screen.toLayout] at h h₁
    obtain ⟨l, hl, h⟩ := h
    obtain ⟨l', hl', h₁⟩ := h₁
    rw [hs.1, hs.2.1, hs.2.2] at h
    exact ih h h₁
end
end Api
end Swrs
