import Verif.Props.Settle
/-!
# What is left of a logic file by repeated saving

Every save that changes a name makes the names shorter or turns the section of a container into a pool. This is measured here, so that
it can be shown to come to an end.
-/
set_option linter.unusedSectionVars false
namespace Swrs

/-! ### sums over maps -/

namespace LMap
variable {κ α : Type} [DecidableEq κ]

/-- The sum of a measure over the entries. -/
def total (w : κ × α → Nat) (m : LMap κ α) : Nat := (m.map w).sum

theorem total_nil (w : κ × α → Nat) : total w ([] : LMap κ α) = 0 := rfl

theorem total_append (w : κ × α → Nat) (m n : LMap κ α) : total w (m ++ n) = total w m + total w n := by
  simp [total]

theorem total_erase (w : κ × α → Nat) {m : LMap κ α} (hn : m.keys.Nodup) {k : κ} {v : α} (h : m.get k = some v) :
    total w (m.erase k) + w (k, v) = total w m := by
  induction m with
  | nil => simp [get] at h
  | cons e m ih =>
    obtain ⟨k', v'⟩ := e
    simp only [keys_cons, List.nodup_cons] at hn
    unfold get at h
    split at h
    next hk =>
      subst hk
      cases h
      have : erase ((k', v) :: m) k' = m := by
        unfold erase
        rw [List.filter_cons_of_neg (by simp), List.filter_eq_self]
        intro e he
        have : e.1 ≠ k' := fun h => hn.1 (h ▸ List.mem_map_of_mem he)
        simpa using this
      rw [this]
      simp only [total, List.map_cons, List.sum_cons]
      omega
    next hk =>
      have := ih hn.2 h
      have e : erase ((k', v') :: m) k = (k', v') :: erase m k := by
        unfold erase
        rw [List.filter_cons_of_pos (by simpa using hk)]
      rw [e]
      simp only [total, List.map_cons, List.sum_cons] at this ⊢
      omega

theorem total_set (w : κ × α → Nat) {m : LMap κ α} (hn : m.keys.Nodup) {k : κ} {v v' : α} (h : m.get k = some v) :
    total w (m.set k v') + w (k, v) = total w m + w (k, v') := by
  induction m with
  | nil => simp [get] at h
  | cons e m ih =>
    obtain ⟨k₀, v₀⟩ := e
    simp only [keys_cons, List.nodup_cons] at hn
    unfold get at h
    split at h
    next hk =>
      subst hk
      cases h
      have : set m k₀ v' = m := by
        unfold set
        conv => rhs; rw [← List.map_id m]
        apply List.map_congr_left
        intro e he
        have : e.1 ≠ k₀ := fun h => hn.1 (h ▸ List.mem_map_of_mem he)
        simp [this]
      have e : set ((k₀, v) :: m) k₀ v' = (k₀, v') :: set m k₀ v' := by simp [set]
      rw [e, this]
      simp only [total, List.map_cons, List.sum_cons]
      omega
    next hk =>
      have := ih hn.2 h
      have e : set ((k₀, v₀) :: m) k v' = (k₀, v₀) :: set m k v' := by simp [set, hk]
      rw [e]
      simp only [total, List.map_cons, List.sum_cons] at this ⊢
      omega

theorem total_insert [MapPol] (w : κ × α → Nat) {m : LMap κ α} (hn : m.keys.Nodup) (k : κ) (v : α) :
    total w (m.insert k v) ≤ total w m + w (k, v) := by
  unfold insert
  split
  next hk =>
    obtain ⟨v₀, h0⟩ := get_isSome.mpr hk
    split
    · have := total_erase w hn h0
      rw [total_append]
      simp only [total, List.map_cons, List.sum_cons, List.map_nil, List.sum_nil] at this ⊢
      omega
    · have := total_set w hn h0 (v' := v)
      omega
  next hk =>
    rw [total_append]
    simp [total]

theorem total_collect [MapPol] (w : κ × α → Nat) (es : List (κ × α)) : total w (collect es) ≤ (es.map w).sum := by
  suffices h : ∀ (es : List (κ × α)) (m : LMap κ α), m.keys.Nodup → total w (es.foldl (fun m e => insert m e.1 e.2) m) ≤ total w m + (es.map w).sum by
    have := h es [] List.nodup_nil
    simpa [collect, total_nil] using this
  intro es
  induction es with
  | nil => intro m _; simp
  | cons e es ih =>
    intro m hm
    have h1 := ih _ (nodup_insert hm e.1 e.2)
    have h2 : total w (m.insert e.1 e.2) ≤ total w m + w e := total_insert w hm e.1 e.2
    simp only [List.foldl_cons, List.map_cons, List.sum_cons]
    omega

theorem total_upsert [MapPol] (w : κ × α → Nat) {m : LMap κ α} (hn : m.keys.Nodup) (k : κ) (d : α) (f : α → α) {c : Nat}
    (hd : w (k, d) = 0) (hf : ∀ v, (m.get k = some v ∨ v = d) → w (k, f v) ≤ w (k, v) + c) : total w (m.upsert k d f) ≤ total w m + c := by
  unfold upsert
  split
  next v hg =>
    have := hf v (.inl hg)
    split
    · have := total_erase w hn hg
      rw [total_append]
      simp only [total, List.map_cons, List.sum_cons, List.map_nil, List.sum_nil] at this ⊢
      omega
    · have := total_set w hn hg (v' := f v)
      omega
  next =>
    have := hf d (.inr rfl)
    rw [total_append]
    simp only [total, List.map_cons, List.sum_cons, List.map_nil, List.sum_nil] at this ⊢
    omega
end LMap

section
variable [Floats] [MapPol]

/-! ### the sections that are read -/

namespace Logic

/-- The sections before the first gap. -/
def leading (is : List Item) : List TSec := ((is.dropWhile Option.isNone).takeWhile Option.isSome).filterMap id

theorem leading_prefix (is : List Item) : leading is <+: is.filterMap id := by
  have h1 : (is.dropWhile Option.isNone).filterMap id = is.filterMap id := by
    induction is with
    | nil => rfl
    | cons i is ih =>
      cases i with
      | none => simpa using ih
      | some t => rfl
  rw [← h1]
  exact (List.takeWhile_prefix _).filterMap _

theorem sections_run (s : TSec) (r : List Item) (h : ∀ t, some t ∈ some s :: r → t.Raw ∧ t.Full) :
    sections (s.ls ++ r.flatMap fun i => [] :: i.ls) = (s :: (r.takeWhile Option.isSome).filterMap id).map TSec.ls := by
  induction r generalizing s with
  | nil =>
    obtain ⟨h1, h2⟩ := h s (by simp)
    have : isSection s.ls = true := by
      simp only [TSec.ls, isSection]
      have := h1.head
      cases hh : s.hd with
      | nil => rw [hh] at this; simp at this
      | cons c cs => rw [hh] at this; simp at this; subst this; rfl
    simp only [List.flatMap_nil, List.append_nil, sections, List.splitOn_eq_singleton h2, List.takeWhile_cons, this, List.takeWhile_nil,
      if_true, List.filterMap_nil, List.map_cons, List.map_nil]
  | cons i r ih =>
    obtain ⟨h1, h2⟩ := h s (by simp)
    have hs : isSection s.ls = true := by
      simp only [TSec.ls, isSection]
      have := h1.head
      cases hh : s.hd with
      | nil => rw [hh] at this; simp at this
      | cons c cs => rw [hh] at this; simp at this; subst this; rfl
    have e : s.ls ++ (i :: r).flatMap (fun i => [] :: i.ls) = s.ls ++ [] :: (i.ls ++ r.flatMap fun i => [] :: i.ls) := by simp
    rw [e, sections, List.splitOn_append_cons_self, List.splitOn_eq_singleton h2, List.singleton_append, List.takeWhile_cons, hs]
    cases i with
    | none =>
      have e2 : (Item.ls none ++ r.flatMap fun i => [] :: i.ls) = [] ++ [] :: (r.flatMap fun i => [] :: i.ls) := rfl
      rw [e2, List.splitOn_append_cons_self, List.splitOn_eq_singleton (by simp)]
      rfl
    | some t =>
      have := ih t fun u hu => h u (List.mem_cons_of_mem _ hu)
      rw [sections] at this
      rw [if_pos rfl, show Item.ls (some t) = t.ls from rfl, this]
      simp

/-- The sections of a text that was made of items. -/
theorem sections_leading {is : List Item} (h : ∀ t, some t ∈ is → t.Raw ∧ t.Full) (hc : ItemsClosed is) :
    sections (lines (trim (itemsText is))) = (leading is).map TSec.ls := by
  rcases items_core is with hn | ⟨a, s, r, b, rfl, ha, hb, t, ht⟩
  · have h1 : trim (itemsText is) = [] := by
      have := trim_frame (w := itemsText is) (s := []) (w' := []) (itemsText_none hn) (by simp) (by simp) (by simp)
      simpa using this
    have h2 : leading is = [] := by
      unfold leading
      have : is.dropWhile Option.isNone = [] := by
        rw [Settle.dropWhile_eq_nil_iff]
        intro i hi; rw [hn i hi]; rfl
      rw [this]; rfl
    rw [h1, h2]
    have e : lines [] = [] ++ [] :: [] := rfl
    rw [e, sections, List.splitOn_append_cons_self]
    rfl
  · have ht' : t.Closed := hc t (items_last hb ht)
    have hl := lines_items (some s) r (fun i hi t ht => (h t (by subst ht; grind)).1)
    rw [trim_items ha hb (h s (by simp)).1 ht' ht, show s.text = Item.text (some s) from rfl, hl]
    have hd : (a ++ (some s :: r) ++ b).dropWhile Option.isNone = some s :: (r ++ b) := by
      have : ∀ a : List Item, (∀ i ∈ a, i = none) → ∀ x, (a ++ x).dropWhile Option.isNone = x.dropWhile Option.isNone := by
        intro a ha x
        induction a with
        | nil => rfl
        | cons i a ih =>
          rw [ha i (by simp), List.cons_append, List.dropWhile_cons_of_pos rfl]
          exact ih fun j hj => ha j (by simp [hj])
      rw [List.append_assoc, this a ha]
      rfl
    have ht2 : (r ++ b).takeWhile Option.isSome = r.takeWhile Option.isSome := by
      have : ∀ r : List Item, (r ++ b).takeWhile Option.isSome = r.takeWhile Option.isSome := by
        intro r
        induction r with
        | nil =>
          cases b with
          | nil => rfl
          | cons i b => rw [hb i (by simp)]; rfl
        | cons i r ih =>
          cases i with
          | none => rfl
          | some t => simp [ih]
      exact this r
    rw [leading, hd, List.takeWhile_cons_of_pos rfl, ht2]
    exact sections_run s r fun t ht => h t (by grind)
end Logic

/-! ### the measure -/

/-- The number of characters of the lines. -/
def bulk (ls : List Str) : Nat := (ls.map List.length).sum

/-- The lengths of the names of a screen and of its code. -/
def ScreenLogic.weight (s : ScreenLogic) : Nat :=
  (s.variables.elim 0 fun p => p.map.total fun e => 1 + e.2.name.length) +
  (s.listVariables.elim 0 fun p => p.map.total fun e => 1 + e.2.name.length) +
  (s.moreBlocks.elim 0 fun p => p.map.total fun e => 1 + e.2.id.length + e.2.spec.length) +
  s.blockContainers.total fun e => 1 + e.1.length + bulk (e.2.blocks.map Block.reconstruct)

namespace Logic
def weight (l : Logic) : Nat := l.screens.total fun e => e.2.weight

/-- What the section with these lines adds at most. -/
inductive Weighs : Str → List Str → Nat → Prop
  | var {name : Str} {x : Char} {body : List Str} {vs : List Variable} (h : PoolReads Variable.parse body vs) :
    Weighs ('@' :: (name ++ x :: s% "java_var")) body (vs.map fun v => 1 + v.name.length).sum
  | list {name : Str} {x : Char} {body : List Str} {vs : List ListVariable} (h : PoolReads ListVariable.parse body vs) :
    Weighs ('@' :: (name ++ x :: s% "java_list")) body (vs.map fun v => 1 + v.name.length).sum
  | components {name : Str} {x : Char} {body : List Str} : Weighs ('@' :: (name ++ x :: s% "java_components")) body 0
  | events {name : Str} {x : Char} {body : List Str} : Weighs ('@' :: (name ++ x :: s% "java_events")) body 0
  | func {name : Str} {x : Char} {body : List Str} {vs : List MoreBlock} (h : PoolReads MoreBlock.parse body vs) :
    Weighs ('@' :: (name ++ x :: s% "java_func")) body (vs.map fun v => 1 + v.id.length + v.spec.length).sum
  | blocks {line : Str} {hd : BlockContainerHeader} {body : List Str} {bs : List Block} (hn : NotPool line)
    (hl : BlockContainerHeader.parse line = .ok hd) (h : PoolReads (lineParser Block.parse) body bs) :
    Weighs line body (1 + hd.containerName.length + bulk (bs.map Block.reconstruct))

theorem sec_weighs {hd : Str} {body : List Str} {name : Str} {eff : ScreenLogic → ScreenLogic} (h : Sec hd body name eff) :
    ∃ w, Weighs hd body w ∧ ∀ s, s.blockContainers.keys.Nodup → (eff s).blockContainers.keys.Nodup ∧ (eff s).weight ≤ s.weight + w := by
  cases h with
  | @var _ _ _ vs hx h =>
    refine ⟨_, .var h, fun s hs => ⟨hs, ?_⟩⟩
    have := LMap.total_collect (fun e : Str × Variable => 1 + e.2.name.length) (vs.map fun v => (v.name, v))
    rw [List.map_map] at this
    simp only [ScreenLogic.weight, Option.elim] at this ⊢
    have e : (vs.map ((fun e : Str × Variable => 1 + e.2.name.length) ∘ fun v => (v.name, v))) = vs.map fun v => 1 + v.name.length := rfl
    rw [e] at this
    omega
  | @list _ _ _ vs hx h =>
    refine ⟨_, .list h, fun s hs => ⟨hs, ?_⟩⟩
    have := LMap.total_collect (fun e : Str × ListVariable => 1 + e.2.name.length) (vs.map fun v => (v.name, v))
    rw [List.map_map] at this
    simp only [ScreenLogic.weight, Option.elim] at this ⊢
    have e : (vs.map ((fun e : Str × ListVariable => 1 + e.2.name.length) ∘ fun v => (v.name, v))) = vs.map fun v => 1 + v.name.length := rfl
    rw [e] at this
    omega
  | components hx h => exact ⟨_, .components, fun s hs => ⟨hs, Nat.le_refl _⟩⟩
  | events hx h => exact ⟨_, .events, fun s hs => ⟨hs, Nat.le_refl _⟩⟩
  | @func _ _ _ vs hx h =>
    refine ⟨_, .func h, fun s hs => ⟨hs, ?_⟩⟩
    have := LMap.total_collect (fun e : Str × MoreBlock => 1 + e.2.id.length + e.2.spec.length) (vs.map fun v => (v.id, v))
    rw [List.map_map] at this
    simp only [ScreenLogic.weight, Option.elim] at this ⊢
    have e : (vs.map ((fun e : Str × MoreBlock => 1 + e.2.id.length + e.2.spec.length) ∘ fun v => (v.id, v))) =
        vs.map fun v => 1 + v.id.length + v.spec.length := rfl
    rw [e] at this
    omega
  | @blocks _ bh _ bs hn hl h =>
    refine ⟨_, .blocks hn hl h, fun s hs => ⟨LMap.nodup_insert hs _ _, ?_⟩⟩
    have := LMap.total_insert (fun e : Str × BlockContainer => 1 + e.1.length + bulk (e.2.blocks.map Block.reconstruct)) hs
      bh.containerName ⟨bs⟩
    simp only [ScreenLogic.weight] at this ⊢
    omega

/-- What is read from sections weighs at most what the sections weigh. -/
theorem weight_applyAll {ps : List (List Str)} {es : List (Str × (ScreenLogic → ScreenLogic))} (h : All₂ SectionReads ps es) :
    ∃ ws : List Nat, All₂ (fun p w => ∃ hd body, p = hd :: body ∧ Weighs hd body w) ps ws ∧
      ∀ l : LMap Str ScreenLogic, l.keys.Nodup → (∀ e ∈ l, e.2.blockContainers.keys.Nodup) →
        ((applyAll es l).total fun e => e.2.weight) ≤ (l.total fun e => e.2.weight) + ws.sum := by
  induction h with
  | nil => exact ⟨[], .nil, fun l _ _ => Nat.le_refl _⟩
  | @cons p e ps es hr _ ih =>
    obtain ⟨hd, body, rfl, hs⟩ := hr
    obtain ⟨c, hw, hle⟩ := sec_weighs hs
    obtain ⟨ws, h1, h2⟩ := ih
    refine ⟨c :: ws, .cons ⟨hd, body, rfl, hw⟩ h1, fun l hk hb => ?_⟩
    have hget : ∀ v, (l.get e.1 = some v ∨ v = ScreenLogic.newEmpty e.1) → v.blockContainers.keys.Nodup := by
      rintro v (h | rfl)
      · exact hb _ (LMap.get_mem h)
      · exact List.nodup_nil
    have a1 := LMap.total_upsert (fun e : Str × ScreenLogic => e.2.weight) hk e.1 (ScreenLogic.newEmpty e.1) e.2 (c := c) rfl
      fun v hv => (hle v (hget v hv)).2
    have b1 := h2 (update l e.1 e.2) (LMap.nodup_upsert hk _ _ _) (by
      intro x hx
      unfold update LMap.upsert at hx
      split at hx
      next v hv =>
        split at hx
        · rcases List.mem_append.mp hx with hx | hx
          · exact hb x (List.mem_filter.mp hx).1
          · rw [List.mem_singleton.mp hx]
            exact (hle v (hget v (.inl hv))).1
        · simp only [LMap.set, List.mem_map] at hx
          obtain ⟨y, hy, rfl⟩ := hx
          split
          · exact (hle v (hget v (.inl hv))).1
          · exact hb y hy
      next =>
        rcases List.mem_append.mp hx with hx | hx
        · exact hb x hx
        · rw [List.mem_singleton.mp hx]
          exact (hle _ (hget _ (.inr rfl))).1)
    have e : applyAll (e :: es) l = applyAll es (update l e.1 e.2) := rfl
    rw [e]
    simp only [update, List.sum_cons] at a1 b1 ⊢
    omega
end Logic
end
end Swrs
