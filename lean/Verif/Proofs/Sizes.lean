import Verif.Proofs.ApiView
import Verif.Proofs.LogicRoundTrip
import Verif.Props.Blocks
import Verif.Model.ApiProject
/-! How much is read from a text, and how much is made of it. -/
set_option linter.unusedSectionVars false
namespace Swrs

namespace LMap
variable {κ α : Type} [DecidableEq κ]

/-- The sum of the weights of the values of a map. -/
def weigh (w : α → Nat) (m : LMap κ α) : Nat := (m.map fun e => w e.2).sum

theorem weigh_append (w : α → Nat) (m n : LMap κ α) : weigh w (m ++ n) = weigh w m + weigh w n := by
  simp [weigh]

theorem weigh_erase (w : α → Nat) (m : LMap κ α) (k : κ) : weigh w (erase m k) + ((get m k).map w).getD 0 ≤ weigh w m := by
  induction m with
  | nil => simp [weigh, erase, get]
  | cons e m ih =>
    obtain ⟨k', v⟩ := e
    by_cases h : k' = k
    · have : erase ((k', v) :: m) k = erase m k := by simp [erase, h]
      rw [this]
      simp only [get, h, if_true, weigh, List.map_cons, List.sum_cons, Option.map_some, Option.getD_some] at ih ⊢
      omega
    · have : erase ((k', v) :: m) k = (k', v) :: erase m k := by simp [erase, h]
      rw [this]
      simp only [get, h, if_false, weigh, List.map_cons, List.sum_cons] at ih ⊢
      omega

theorem set_of_not_mem {m : LMap κ α} {k : κ} (h : k ∉ keys m) (v : α) : set m k v = m := by
  unfold set
  conv => rhs; rw [← List.map_id m]
  apply List.map_congr_left
  intro e he
  rw [if_neg]
  · rfl
  · rintro rfl; exact h (List.mem_map_of_mem he)

theorem weigh_set (w : α → Nat) {m : LMap κ α} (hn : (keys m).Nodup) (k : κ) (v : α) :
    weigh w (set m k v) + ((get m k).map w).getD 0 ≤ weigh w m + w v := by
  induction m with
  | nil => simp [weigh, set, get]
  | cons e m ih =>
    obtain ⟨k', u⟩ := e
    have hn' : k' ∉ keys m ∧ (keys m).Nodup := by simpa [keys] using hn
    have ih := ih hn'.2
    by_cases h : k' = k
    · subst h
      have : set ((k', u) :: m) k' v = (k', v) :: m := by
        show (if k' = k' then (k', v) else (k', u)) :: set m k' v = _
        rw [if_pos rfl, set_of_not_mem hn'.1]
      rw [this]
      simp only [get, if_true, weigh, List.map_cons, List.sum_cons, Option.map_some, Option.getD_some]
      omega
    · have : set ((k', u) :: m) k v = (k', u) :: set m k v := by
        show (if k' = k then (k, v) else (k', u)) :: set m k v = _
        rw [if_neg h]
      rw [this]
      simp only [get, h, if_false, weigh, List.map_cons, List.sum_cons] at ih ⊢
      omega

theorem weigh_insert [MapPol] (w : α → Nat) {m : LMap κ α} (hn : (keys m).Nodup) (k : κ) (v : α) :
    weigh w (insert m k v) ≤ weigh w m + w v := by
  have h1 : weigh w [(k, v)] = w v := by simp [weigh]
  unfold insert
  split
  · split
    · rw [weigh_append, h1]; have := weigh_erase w m k; omega
    · have := weigh_set w hn k v; omega
  · rw [weigh_append, h1]; omega

theorem all_upsert [MapPol] (P : α → Prop) {m : LMap κ α} (hm : ∀ e ∈ m, P e.2) (k : κ) (d : α) (f : α → α) (hd : P d)
    (hf : ∀ x, P x → P (f x)) : ∀ e ∈ upsert m k d f, P e.2 := by
  unfold upsert
  cases hg : get m k with
  | none =>
    intro e he
    simp only [List.mem_append, List.mem_cons, List.not_mem_nil, or_false] at he
    rcases he with he | rfl
    · exact hm e he
    · exact hf d hd
  | some v =>
    have hv := hf v (hm _ (get_mem hg))
    simp only
    split
    · intro e he
      simp only [List.mem_append, List.mem_cons, List.not_mem_nil, or_false] at he
      rcases he with he | rfl
      · exact hm e (List.mem_filter.mp he).1
      · exact hv
    · intro e he
      simp only [set, List.mem_map] at he
      obtain ⟨x, hx, rfl⟩ := he
      split
      · exact hv
      · exact hm x hx

theorem weigh_upsert [MapPol] (w : α → Nat) (P : α → Prop) {m : LMap κ α} (hn : (keys m).Nodup) (hm : ∀ e ∈ m, P e.2) (k : κ) (d : α)
    (f : α → α) (c : Nat) (hd : w d = 0) (hd' : P d) (hf : ∀ x, P x → w (f x) ≤ w x + c) :
    weigh w (upsert m k d f) ≤ weigh w m + c := by
  have h1 : ∀ v, weigh w [(k, v)] = w v := by intro v; simp [weigh]
  unfold upsert
  cases hg : get m k with
  | none => simp only; rw [weigh_append, h1]; have := hf d hd'; omega
  | some v =>
    have hv := hf v (hm _ (get_mem hg))
    simp only
    split
    · rw [weigh_append, h1]
      have := weigh_erase w m k
      rw [hg] at this; simp at this; omega
    · have := weigh_set w hn k (f v)
      rw [hg] at this; simp at this; omega

theorem weigh_collect [MapPol] (w : α → Nat) (es : List (κ × α)) : weigh w (collect es) ≤ weigh w es := by
  have key : ∀ (es m : LMap κ α), (keys m).Nodup → weigh w (es.foldl (fun m e => insert m e.1 e.2) m) ≤ weigh w m + weigh w es := by
    intro es
    induction es with
    | nil => intro m _; simp [weigh]
    | cons e es ih =>
      intro m hm
      have h1 := ih _ (nodup_insert hm e.1 e.2)
      have h2 := weigh_insert w hm e.1 e.2
      have h3 : weigh w (e :: es) = w e.2 + weigh w es := by simp [weigh]
      rw [List.foldl_cons]
      omega
  have := key es [] (by simp)
  simpa [collect, weigh] using this

theorem length_collect [MapPol] (es : List (κ × α)) : (collect es).length ≤ es.length := by
  have h : ∀ m : LMap κ α, weigh (fun _ => 1) m = m.length := by
    intro m; induction m with
    | nil => rfl
    | cons e m ih => simp [weigh] at ih ⊢; omega
  have := weigh_collect (fun _ : α => 1) es
  rwa [h, h] at this

end LMap

/-! ### Lists -/

theorem File.loop_size {ls : List Str} {sec : FileSection} {f g : File} {n : Nat} (h : File.loop ls sec f n = .ok g) :
    g.activities.length + g.customViews.length ≤ f.activities.length + f.customViews.length + ls.length := by
  induction ls generalizing sec f n with
  | nil => simp only [File.loop, Out.ok.injEq] at h; subst h; simp
  | cons l ls ih =>
    have hp : ∀ i, (f.push sec i).activities.length + (f.push sec i).customViews.length ≤
        f.activities.length + f.customViews.length + 1 := by
      intro i; cases sec <;> simp [File.push] <;> omega
    simp only [File.loop] at h
    simp only [List.length_cons]
    split at h
    · have := ih h; omega
    split at h
    · have := ih h; omega
    split at h
    · split at h
      · simp only [Out.ok.injEq] at h; subst h; omega
      · split at h
        · simp at h
        · next i _ => have := ih h; have := hp i; omega
    · have := ih h; omega

theorem Resource.loop_size {ls : List Str} {sec : ResourceSection} {f g : Resource} {n : Nat} (h : Resource.loop ls sec f n = .ok g) :
    g.images.length + g.sounds.length + g.fonts.length ≤ f.images.length + f.sounds.length + f.fonts.length + ls.length := by
  induction ls generalizing sec f n with
  | nil => simp only [Resource.loop, Out.ok.injEq] at h; subst h; simp
  | cons l ls ih =>
    have hp : ∀ i, (f.push sec i).images.length + (f.push sec i).sounds.length + (f.push sec i).fonts.length ≤
        f.images.length + f.sounds.length + f.fonts.length + 1 := by
      intro i; cases sec <;> simp [Resource.push] <;> omega
    simp only [Resource.loop] at h
    simp only [List.length_cons]
    split at h
    · have := ih h; omega
    split at h
    · have := ih h; omega
    split at h
    · have := ih h; omega
    split at h
    · split at h
      · simp only [Out.ok.injEq] at h; subst h; omega
      · split at h
        · simp at h
        · next i _ => have := ih h; have := hp i; omega
    · have := ih h; omega

/-! ### Layouts -/

section
variable [Floats] [MapPol]

theorem Layout.parseLoop_size {ls : List Str} {acc : List AndroidView} {n : Nat} {l : Layout} {rest : List Str}
    (h : Layout.parseLoop ls acc n = .ok (l, rest)) : l.views.length + rest.length ≤ acc.length + ls.length := by
  induction ls generalizing acc n with
  | nil => simp only [Layout.parseLoop, Out.ok.injEq, Prod.mk.injEq] at h; obtain ⟨rfl, rfl⟩ := h; simp
  | cons x ls ih =>
    simp only [Layout.parseLoop] at h
    simp only [List.length_cons]
    split at h
    · simp only [Out.ok.injEq, Prod.mk.injEq] at h; obtain ⟨rfl, rfl⟩ := h; simp
    · split at h
      · have := ih h; simp at this; omega
      · simp at h

/-- A layout counts with its header. -/
def Layout.weight (l : Layout) : Nat := 1 + l.views.length

theorem View.loop_size {total fuel : Nat} {ls : List Str} {n : Nat} {layouts : LMap Str Layout} {fabs : LMap Str AndroidView} {v : View}
    (hl : layouts.keys.Nodup) (hf : fabs.keys.Nodup) (h : View.loop total fuel ls n layouts fabs = .ok v) :
    LMap.weigh Layout.weight v.layouts + LMap.weigh (fun _ => 2) v.fabs ≤
      LMap.weigh Layout.weight layouts + LMap.weigh (fun _ => 2) fabs + ls.length := by
  induction fuel generalizing ls n layouts fabs with
  | zero => simp only [View.loop, Out.ok.injEq] at h; subst h; simp only; omega
  | succ fuel ih =>
    cases ls with
    | nil => simp only [View.loop, Out.ok.injEq] at h; subst h; simp
    | cons x ls =>
      simp only [View.loop] at h
      simp only [List.length_cons]
      split at h
      · split at h
        · simp at h
        · next screen container _ =>
          split at h
          · cases hp : Layout.parseIter ls with
            | ok r =>
              obtain ⟨l, rest⟩ := r
              rw [hp] at h
              simp only at h
              have h1 := ih (LMap.nodup_insert hl _ _) hf h
              have h2 := LMap.weigh_insert Layout.weight hl screen l
              have h3 : l.views.length + rest.length ≤ _ := Layout.parseLoop_size hp
              simp only [List.length_nil] at h3
              have : l.weight = 1 + l.views.length := rfl
              omega
            | err e => rw [hp] at h; simp at h
            | panic => rw [hp] at h; simp at h
          · split at h
            · split at h
              · simp at h
              · next rest' =>
                split at h
                · next w _ =>
                  have h1 := ih hl (LMap.nodup_insert hf _ _) h
                  have h2 := LMap.weigh_insert (fun _ => 2) hf screen w
                  simp only [List.length_cons]
                  omega
                · simp at h
            · have := ih hl hf h; omega
      · simp only [Out.ok.injEq] at h; subst h; simp only; omega

/-! ### Logic -/

omit [Floats] [MapPol] in
theorem readPool_size {ε ε' α : Type} {p : Str → Out ε α} {mk : Nat → Str → ε → ε'} {ls : List Str} {n : Nat} {acc as : List α}
    {rest : List Str} (h : readPool p mk ls n acc = .ok (as, rest)) : as.length + rest.length ≤ acc.length + ls.length := by
  induction ls generalizing n acc with
  | nil => simp only [readPool, Out.ok.injEq, Prod.mk.injEq] at h; obtain ⟨rfl, rfl⟩ := h; simp
  | cons x ls ih =>
    simp only [readPool] at h
    simp only [List.length_cons]
    split at h
    · simp only [Out.ok.injEq, Prod.mk.injEq] at h; obtain ⟨rfl, rfl⟩ := h; omega
    · split at h
      · have := ih h; simp at this; omega
      · simp at h
      · simp at h

/-- A block container counts with its header. -/
def BlockContainer.weight (c : BlockContainer) : Nat := 1 + c.blocks.length

/-- The declarations, block containers and blocks of a screen. -/
def ScreenLogic.bulkCount (s : ScreenLogic) : Nat :=
  ((s.variables.map (·.map.length)).getD 0 + (s.listVariables.map (·.map.length)).getD 0 + (s.components.map (·.items.length)).getD 0 +
    (s.events.map (·.items.length)).getD 0 + (s.moreBlocks.map (·.map.length)).getD 0) + LMap.weigh BlockContainer.weight s.blockContainers

namespace Logic

/-- What every round of reading keeps: screens and containers are filed once. -/
def Filed (l : LMap Str ScreenLogic) : Prop := l.keys.Nodup ∧ ∀ e ∈ l, e.2.blockContainers.keys.Nodup

theorem update_size {l : LMap Str ScreenLogic} (hl : Filed l) (name : Str) (f : ScreenLogic → ScreenLogic) (c : Nat)
    (hf : ∀ s, s.blockContainers.keys.Nodup → (f s).blockContainers.keys.Nodup ∧ (f s).bulkCount ≤ s.bulkCount + c) :
    Filed (update l name f) ∧ LMap.weigh ScreenLogic.bulkCount (update l name f) ≤ LMap.weigh ScreenLogic.bulkCount l + c := by
  refine ⟨⟨LMap.nodup_upsert hl.1 _ _ _, ?_⟩, ?_⟩
  · exact LMap.all_upsert (fun s => s.blockContainers.keys.Nodup) hl.2 name (ScreenLogic.newEmpty name) f
      (show (ScreenLogic.newEmpty name).blockContainers.keys.Nodup by simp [ScreenLogic.newEmpty]) fun s hs => (hf s hs).1
  · exact LMap.weigh_upsert ScreenLogic.bulkCount (fun s => s.blockContainers.keys.Nodup) hl.1 hl.2 _ _ _ _ rfl
      (show (ScreenLogic.newEmpty name).blockContainers.keys.Nodup by simp [ScreenLogic.newEmpty])
      fun s hs => (hf s hs).2

theorem parseIter_size {ls rest : List Str} {c : BlockContainer} (h : BlockContainer.parseIter ls = .ok (c, rest)) :
    c.blocks.length + rest.length ≤ ls.length := by
  simp only [BlockContainer.parseIter, Out.bind_eq_ok] at h
  obtain ⟨⟨bs, r⟩, hr, he⟩ := h
  simp only [Out.pure_eq, Out.ok.injEq, Prod.mk.injEq] at he
  obtain ⟨rfl, rfl⟩ := he
  simpa using readPool_size hr

theorem step_size {line : Str} {rest rest' : List Str} {n : Nat} {l l' : LMap Str ScreenLogic} (hl : Filed l)
    (h : step line rest n l = .ok (l', rest')) :
    Filed l' ∧ LMap.weigh ScreenLogic.bulkCount l' + rest'.length ≤ LMap.weigh ScreenLogic.bulkCount l + rest.length + 1 := by
  unfold step at h
  split at h
  · simp only [Out.bind_eq_ok, Out.mapErr_eq_ok, VariablePool.parseIter] at h
    obtain ⟨name, _, ⟨p, r⟩, ⟨⟨vs, r'⟩, hr, hp⟩, he⟩ := h
    simp only [Out.pure_eq, Out.ok.injEq, Prod.mk.injEq] at hp he
    obtain ⟨rfl, rfl⟩ := hp
    obtain ⟨rfl, rfl⟩ := he
    have h1 := readPool_size hr
    have h2 := LMap.length_collect (vs.map fun v => (v.name, v))
    have h3 := update_size hl name (fun s => { s with variables := some ⟨LMap.collect (vs.map fun v => (v.name, v))⟩ })
      (LMap.collect (vs.map fun v => (v.name, v))).length (fun s hs => ⟨hs, by simp only [ScreenLogic.bulkCount]; simp; omega⟩)
    simp only [List.length_map, List.length_nil] at h1 h2
    exact ⟨h3.1, by omega⟩
  split at h
  · simp only [Out.bind_eq_ok, Out.mapErr_eq_ok, ListVariablePool.parseIter] at h
    obtain ⟨name, _, ⟨p, r⟩, ⟨⟨vs, r'⟩, hr, hp⟩, he⟩ := h
    simp only [Out.pure_eq, Out.ok.injEq, Prod.mk.injEq] at hp he
    obtain ⟨rfl, rfl⟩ := hp
    obtain ⟨rfl, rfl⟩ := he
    have h1 := readPool_size hr
    have h2 := LMap.length_collect (vs.map fun v => (v.name, v))
    have h3 := update_size hl name (fun s => { s with listVariables := some ⟨LMap.collect (vs.map fun v => (v.name, v))⟩ })
      (LMap.collect (vs.map fun v => (v.name, v))).length (fun s hs => ⟨hs, by simp only [ScreenLogic.bulkCount]; simp; omega⟩)
    simp only [List.length_map, List.length_nil] at h1 h2
    exact ⟨h3.1, by omega⟩
  split at h
  · simp only [Out.bind_eq_ok, Out.mapErr_eq_ok, ComponentPool.parseIter] at h
    obtain ⟨name, _, ⟨p, r⟩, ⟨⟨vs, r'⟩, hr, hp⟩, he⟩ := h
    simp only [Out.pure_eq, Out.ok.injEq, Prod.mk.injEq] at hp he
    obtain ⟨rfl, rfl⟩ := hp
    obtain ⟨rfl, rfl⟩ := he
    have h1 := readPool_size hr
    have h3 := update_size hl name (fun s => { s with components := some ⟨vs⟩ }) vs.length
      (fun s hs => ⟨hs, by simp only [ScreenLogic.bulkCount]; simp; omega⟩)
    simp only [List.length_nil] at h1
    exact ⟨h3.1, by omega⟩
  split at h
  · simp only [Out.bind_eq_ok, Out.mapErr_eq_ok, EventPool.parseIter] at h
    obtain ⟨name, _, ⟨p, r⟩, ⟨⟨vs, r'⟩, hr, hp⟩, he⟩ := h
    simp only [Out.pure_eq, Out.ok.injEq, Prod.mk.injEq] at hp he
    obtain ⟨rfl, rfl⟩ := hp
    obtain ⟨rfl, rfl⟩ := he
    have h1 := readPool_size hr
    have h3 := update_size hl name (fun s => { s with events := some ⟨vs⟩ }) vs.length
      (fun s hs => ⟨hs, by simp only [ScreenLogic.bulkCount]; simp; omega⟩)
    simp only [List.length_nil] at h1
    exact ⟨h3.1, by omega⟩
  split at h
  · simp only [Out.bind_eq_ok, Out.mapErr_eq_ok, MoreBlockPool.parseIter] at h
    obtain ⟨name, _, ⟨p, r⟩, ⟨⟨vs, r'⟩, hr, hp⟩, he⟩ := h
    simp only [Out.pure_eq, Out.ok.injEq, Prod.mk.injEq] at hp he
    obtain ⟨rfl, rfl⟩ := hp
    obtain ⟨rfl, rfl⟩ := he
    have h1 := readPool_size hr
    have h2 := LMap.length_collect (vs.map fun v => (v.id, v))
    have h3 := update_size hl name (fun s => { s with moreBlocks := some ⟨LMap.collect (vs.map fun v => (v.id, v))⟩ })
      (LMap.collect (vs.map fun v => (v.id, v))).length (fun s hs => ⟨hs, by simp only [ScreenLogic.bulkCount]; simp; omega⟩)
    simp only [List.length_map, List.length_nil] at h1 h2
    exact ⟨h3.1, by omega⟩
  simp only [Out.bind_eq_ok, Out.mapErr_eq_ok] at h
  obtain ⟨hd, _, ⟨c, r⟩, hr, he⟩ := h
  simp only [Out.pure_eq, Out.ok.injEq, Prod.mk.injEq] at he
  obtain ⟨rfl, rfl⟩ := he
  have h1 := parseIter_size hr
  have h3 := update_size hl hd.screenName (fun s => { s with blockContainers := s.blockContainers.insert hd.containerName c }) c.weight
    (fun s hs => ⟨LMap.nodup_insert hs _ _, by
      have := LMap.weigh_insert BlockContainer.weight hs hd.containerName c
      simp only [ScreenLogic.bulkCount]; omega⟩)
  have : c.weight = 1 + c.blocks.length := rfl
  exact ⟨h3.1, by omega⟩

theorem loop_size {fuel : Nat} {ls : List Str} {n : Nat} {l : LMap Str ScreenLogic} {g : Logic} (hl : Filed l)
    (h : loop fuel ls n l = .ok g) :
    Filed g.screens ∧ LMap.weigh ScreenLogic.bulkCount g.screens ≤ LMap.weigh ScreenLogic.bulkCount l + ls.length := by
  induction fuel generalizing ls n l with
  | zero => simp only [loop, Out.ok.injEq] at h; subst h; exact ⟨hl, by simp only; omega⟩
  | succ fuel ih =>
    cases ls with
    | nil => simp only [loop, Out.ok.injEq] at h; subst h; exact ⟨hl, by simp⟩
    | cons x ls =>
      simp only [loop] at h
      split at h
      · rw [Out.bind_eq_ok] at h
        obtain ⟨⟨l', rest⟩, hs, h⟩ := h
        have h1 := step_size hl hs
        have h2 := ih h1.1 h
        simp only at h1 h2
        exact ⟨h2.1, by simp only [List.length_cons]; omega⟩
      · simp only [Out.ok.injEq] at h; subst h; exact ⟨hl, by simp only [List.length_cons]; omega⟩

end Logic
end
end Swrs
