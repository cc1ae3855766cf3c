import Verif.Base.Out
/-!
# `ritelinked::LinkedHashMap`

An association list in link order with distinct keys. Equality of two maps compares the
entries in order (`PartialEq` of the crate). Whether `insert` of a present key and `entry` of a present key move
it to the back is a parameter (`MapPol`): the crate is not in `/repo`, and every theorem holds for all choices.
-/

namespace Swrs

/-- Link order policy of `insert` and `entry` on a key that is already present.
`LinkedHashMap` of parser/{view,logic}.rs and api/{mod,screen}.rs. -/
class MapPol where
  insertToBack : Bool
  entryToBack : Bool

/-- A linked hash map: entries in link order. `LinkedHashMap` of parser/{view,logic}.rs and api/{mod,screen}.rs. -/
abbrev LMap (κ α : Type) := List (κ × α)

namespace LMap
set_option linter.unusedSectionVars false

variable {κ α β : Type} [DecidableEq κ]

/-- The keys in order. `LinkedHashMap` of parser/{view,logic}.rs and api/{mod,screen}.rs. -/
def keys (m : LMap κ α) : List κ := m.map (·.1)

/-- `get`. `LinkedHashMap` of parser/{view,logic}.rs and api/{mod,screen}.rs. -/
def get (m : LMap κ α) (k : κ) : Option α :=
  match m with
  | [] => none
  | (k', v) :: m => if k' = k then some v else get m k

/-- `remove` (the map part). `LinkedHashMap` of parser/{view,logic}.rs and api/{mod,screen}.rs. -/
def erase (m : LMap κ α) (k : κ) : LMap κ α := m.filter fun e => e.1 ≠ k

/-- Replace the value of a key where it is. `LinkedHashMap` of parser/{view,logic}.rs and api/{mod,screen}.rs. -/
def set (m : LMap κ α) (k : κ) (v : α) : LMap κ α :=
  m.map fun e => if e.1 = k then (k, v) else e

/-- `insert`: last position for a new key; a present key gets the new value and stays or moves to the back.
`LinkedHashMap` of parser/{view,logic}.rs and api/{mod,screen}.rs. -/
def insert [MapPol] (m : LMap κ α) (k : κ) (v : α) : LMap κ α :=
  if k ∈ keys m then
    if MapPol.insertToBack then erase m k ++ [(k, v)] else set m k v
  else m ++ [(k, v)]

/-- `*entry(k).or_insert_with(default) = f(..)`: update the value of `k`, first inserting `default`.
`LinkedHashMap` of parser/{view,logic}.rs and api/{mod,screen}.rs. -/
def upsert [MapPol] (m : LMap κ α) (k : κ) (default : α) (f : α → α) : LMap κ α :=
  match get m k with
  | some v => if MapPol.entryToBack then erase m k ++ [(k, f v)] else set m k (f v)
  | none => m ++ [(k, f default)]

/-- `into_iter().collect()`: insert the entries one after the other.
`LinkedHashMap` of parser/{view,logic}.rs and api/{mod,screen}.rs. -/
def collect [MapPol] (es : List (κ × α)) : LMap κ α := es.foldl (fun m e => insert m e.1 e.2) []

/-! ### Lemmas -/

@[simp] theorem keys_nil : keys ([] : LMap κ α) = [] := rfl
@[simp] theorem keys_cons (e : κ × α) (m : LMap κ α) : keys (e :: m) = e.1 :: keys m := rfl
@[simp] theorem keys_append (m n : LMap κ α) : keys (m ++ n) = keys m ++ keys n := by simp [keys]

theorem get_eq_none {m : LMap κ α} {k : κ} : get m k = none ↔ k ∉ keys m := by
  induction m with
  | nil => simp [get]
  | cons e m ih =>
    obtain ⟨k', v⟩ := e
    unfold get
    split
    next h => simp [h]
    next h => simp [ih, Ne.symm h]

theorem get_isSome {m : LMap κ α} {k : κ} : (∃ v, get m k = some v) ↔ k ∈ keys m := by
  constructor
  · rintro ⟨v, h⟩
    refine Classical.byContradiction fun hk => ?_
    rw [get_eq_none.mpr hk] at h
    exact absurd h (by simp)
  · intro h
    cases hg : get m k with
    | none => exact absurd h (get_eq_none.mp hg)
    | some v => exact ⟨v, rfl⟩

theorem get_append (m n : LMap κ α) (k : κ) :
    get (m ++ n) k = match get m k with | some v => some v | none => get n k := by
  induction m with
  | nil => simp [get]
  | cons e m ih =>
    obtain ⟨k', v⟩ := e
    simp only [List.cons_append, get]
    split <;> simp [ih]

theorem get_mem {m : LMap κ α} {k : κ} {v : α} (h : get m k = some v) : (k, v) ∈ m := by
  induction m with
  | nil => simp [get] at h
  | cons e m ih =>
    obtain ⟨k', v'⟩ := e
    unfold get at h
    split at h
    next hk => simp at h; subst hk; subst h; simp
    next hk => exact List.mem_cons_of_mem _ (ih h)

theorem get_of_mem {m : LMap κ α} {k : κ} {v : α} (hn : (keys m).Nodup) (h : (k, v) ∈ m) :
    get m k = some v := by
  induction m with
  | nil => simp at h
  | cons e m ih =>
    obtain ⟨k', v'⟩ := e
    simp only [keys_cons, List.nodup_cons] at hn
    unfold get
    simp only [List.mem_cons, Prod.mk.injEq] at h
    split
    next hk =>
      subst hk
      rcases h with h | h
      · rw [h.2]
      · exact absurd (List.mem_map_of_mem (f := (·.1)) h) hn.1
    next hk =>
      rcases h with h | h
      · exact absurd h.1.symm hk
      · exact ih hn.2 h

theorem keys_erase (m : LMap κ α) (k : κ) : keys (erase m k) = (keys m).filter (· ≠ k) := by
  simp only [keys, erase, List.filter_map]; rfl

theorem keys_set (m : LMap κ α) (k : κ) (v : α) : keys (set m k v) = keys m := by
  unfold keys set
  rw [List.map_map]
  apply List.map_congr_left
  intro e _
  simp only [Function.comp]
  split
  next h => exact h.symm
  next => rfl

theorem get_erase (m : LMap κ α) (k k' : κ) :
    get (erase m k) k' = if k' = k then none else get m k' := by
  induction m with
  | nil => simp [erase, get]
  | cons e m ih =>
    obtain ⟨a, v⟩ := e
    unfold erase at ih ⊢
    by_cases hak : a = k
    · subst hak
      rw [List.filter_cons_of_neg (by simp), ih]
      split
      next h => rfl
      next h => simp [get, Ne.symm h]
    · rw [List.filter_cons_of_pos (by simpa using hak)]
      unfold get
      split
      next h => subst h; simp [hak]
      next h => exact ih

theorem get_set (m : LMap κ α) (k k' : κ) (v : α) :
    get (set m k v) k' = if k' = k ∧ k ∈ keys m then some v else get m k' := by
  induction m with
  | nil => simp [set, get]
  | cons e m ih =>
    obtain ⟨a, w⟩ := e
    unfold set at ih ⊢
    simp only [List.map_cons, keys_cons, List.mem_cons]
    by_cases hak : a = k
    · subst hak
      simp only [if_true, get]
      by_cases h : a = k'
      · simp [h]
      · simp [h, Ne.symm h]
        rw [ih]; simp [Ne.symm h]
    · simp only [hak, if_false, get]
      by_cases h : a = k'
      · subst h; simp [hak]
      · simp only [h, if_false, ih]
        simp [Ne.symm hak]

theorem get_insert [MapPol] (m : LMap κ α) (k k' : κ) (v : α) :
    get (insert m k v) k' = if k' = k then some v else get m k' := by
  unfold insert
  split
  next hk =>
    split
    next =>
      rw [get_append, get_erase]
      by_cases h : k' = k
      · simp [h, get]
      · simp only [h, if_false]
        cases get m k' with
        | some v => rfl
        | none => simp [get, Ne.symm h]
    next =>
      rw [get_set]; simp [hk]
  next hk =>
    rw [get_append]
    by_cases h : k' = k
    · subst h; simp [get_eq_none.mpr hk, get]
    · simp only [h, if_false]
      cases get m k' with
      | some v => rfl
      | none => simp [get, Ne.symm h]

theorem mem_keys_insert [MapPol] (m : LMap κ α) (k k' : κ) (v : α) :
    k' ∈ keys (insert m k v) ↔ k' = k ∨ k' ∈ keys m := by
  rw [← get_isSome, ← get_isSome, get_insert]
  by_cases h : k' = k
  · simp [h]
  · simp [h]

theorem nodup_erase {m : LMap κ α} (h : (keys m).Nodup) (k : κ) : (keys (erase m k)).Nodup := by
  rw [keys_erase]; exact h.filter _

theorem nodup_insert [MapPol] {m : LMap κ α} (h : (keys m).Nodup) (k : κ) (v : α) :
    (keys (insert m k v)).Nodup := by
  unfold insert
  split
  next hk =>
    split
    next =>
      rw [keys_append, List.nodup_append]
      refine ⟨nodup_erase h k, by simp, ?_⟩
      intro a ha b hb
      simp at hb; subst hb
      rw [keys_erase] at ha
      simpa using (List.mem_filter.mp ha).2
    next => rw [keys_set]; exact h
  next hk =>
    rw [keys_append, List.nodup_append]
    refine ⟨h, by simp, ?_⟩
    intro a ha b hb
    simp at hb; subst hb
    rintro rfl; exact hk ha

theorem insert_new [MapPol] {m : LMap κ α} {k : κ} (h : k ∉ keys m) (v : α) :
    insert m k v = m ++ [(k, v)] := by simp [insert, h]

theorem foldl_insert_nodup [MapPol] (es m : LMap κ α) (h : (keys (m ++ es)).Nodup) :
    es.foldl (fun m e => insert m e.1 e.2) m = m ++ es := by
  induction es generalizing m with
  | nil => simp
  | cons e es ih =>
    have hk : e.1 ∉ keys m := by
      rw [keys_append, List.nodup_append] at h
      intro hm
      exact h.2.2 _ hm _ (by simp) rfl
    simp only [List.foldl_cons]
    rw [insert_new hk, ih]
    · simp
    · simpa using h

/-- Collecting entries with distinct keys keeps them as they are. -/
theorem collect_nodup [MapPol] (es : LMap κ α) (h : (keys es).Nodup) : collect es = es := by
  unfold collect
  rw [foldl_insert_nodup es [] (by simpa using h)]
  simp

theorem foldl_insert_nodup_keys [MapPol] (es m : LMap κ α) (h : (keys m).Nodup) :
    (keys (es.foldl (fun m e => insert m e.1 e.2) m)).Nodup := by
  induction es generalizing m with
  | nil => simpa
  | cons e es ih => exact ih _ (nodup_insert h _ _)

theorem collect_keys_nodup [MapPol] (es : LMap κ α) : (keys (collect es)).Nodup :=
  foldl_insert_nodup_keys es [] (by simp)

/-- Last value bound to a key in an entry list. `LinkedHashMap` of parser/{view,logic}.rs and api/{mod,screen}.rs. -/
def last (es : LMap κ α) (k : κ) : Option α := get es.reverse k

theorem get_foldl_insert [MapPol] (es m : LMap κ α) (k : κ) :
    get (es.foldl (fun m e => insert m e.1 e.2) m) k =
      match last es k with | some v => some v | none => get m k := by
  induction es generalizing m with
  | nil => simp [last, get]
  | cons e es ih =>
    simp only [List.foldl_cons]
    rw [ih, get_insert]
    unfold last
    rw [List.reverse_cons, get_append]
    cases get es.reverse k with
    | some v => rfl
    | none =>
      by_cases h : k = e.1
      · simp [h, get]
      · simp [h, get, Ne.symm h]

theorem get_collect [MapPol] (es : LMap κ α) (k : κ) : get (collect es) k = last es k := by
  unfold collect
  rw [get_foldl_insert]
  cases last es k <;> simp [get]

end LMap
end Swrs

namespace Swrs.LMap
variable {κ α : Type} [DecidableEq κ]

theorem get_upsert [MapPol] (m : LMap κ α) (k k' : κ) (d : α) (f : α → α) :
    get (upsert m k d f) k' = if k' = k then some (f ((get m k).getD d)) else get m k' := by
  unfold upsert
  cases hg : get m k with
  | none =>
    simp only [Option.getD_none]
    rw [get_append]
    by_cases h : k' = k
    · subst h; simp [hg, get]
    · simp only [h, if_false]
      cases get m k' with
      | some v => rfl
      | none => simp [get, Ne.symm h]
  | some v =>
    have hk : k ∈ keys m := get_isSome.mp ⟨v, hg⟩
    simp only [Option.getD_some]
    split
    · rw [get_append, get_erase]
      by_cases h : k' = k
      · simp [h, get]
      · simp only [h, if_false]
        cases get m k' with
        | some v => rfl
        | none => simp [get, Ne.symm h]
    · rw [get_set]; simp [hk]

theorem nodup_upsert [MapPol] {m : LMap κ α} (h : (keys m).Nodup) (k : κ) (d : α) (f : α → α) :
    (keys (upsert m k d f)).Nodup := by
  unfold upsert
  cases hg : get m k with
  | none =>
    have hk := get_eq_none.mp hg
    simp only
    rw [keys_append, List.nodup_append]
    refine ⟨h, by simp, ?_⟩
    intro a ha b hb
    simp at hb; subst hb
    rintro rfl; exact hk ha
  | some v =>
    simp only
    split
    · rw [keys_append, List.nodup_append]
      refine ⟨nodup_erase h k, by simp, ?_⟩
      intro a ha b hb
      simp at hb; subst hb
      rw [keys_erase] at ha
      simpa using (List.mem_filter.mp ha).2
    · rw [keys_set]; exact h

end Swrs.LMap
