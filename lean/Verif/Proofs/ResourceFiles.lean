import Verif.Proofs.Utf8
import Verif.Model.Raw
/-!
# Resource files
-/
namespace Swrs

/-- Where a resource file is stored. -/
inductive Slot where
  | image (name : Str)
  | sound (name : Str)
  | font (name : Str)
  | icon
deriving DecidableEq

/-- The slot of a kind and a name. -/
def ResourceType.slot (name : Str) : ResourceType → Slot
  | .image => .image name
  | .sound => .sound name
  | .font => .font name
  | .customIcon => .icon

/-- The folder of each kind. -/
def ResourceType.dir : ResourceType → Str
  | .image => s% "images"
  | .sound => s% "sounds"
  | .font => s% "fonts"
  | .customIcon => s% "icons"

/-- A file belongs in a slot: an existing path `…/<kind folder>/<any folder>/<name>`, or an id of that kind and name. -/
inductive InSlot (ex : PathBuf → Bool) : ResourceFileWrapper → Slot → Prop
  | path (pre : PathBuf) (t : ResourceType) (mid : PathComp) (name : Str) (hm : mid ≠ .root)
      (he : ex (pre ++ [.normal (utf8 t.dir), mid, .normal (utf8 name)]) = true) :
      InSlot ex (.path (pre ++ [.normal (utf8 t.dir), mid, .normal (utf8 name)])) (t.slot name)
  | stringId (id name : Str) (t : ResourceType) : InSlot ex (.stringId id name t) (t.slot name)
  | u32Id (id : UInt32) (name : Str) (t : ResourceType) : InSlot ex (.u32Id id name t) (t.slot name)

/-- The file stored in a slot. -/
def ResourceFiles.at (r : ResourceFiles) : Slot → Option ResourceFileWrapper
  | .image n => HMap.get r.images n
  | .sound n => HMap.get r.sounds n
  | .font n => HMap.get r.fonts n
  | .icon => r.customIcon

/-- The last file of the list that belongs in a slot. -/
def LastIn (ex : PathBuf → Bool) (ws : List ResourceFileWrapper) (s : Slot) (w : ResourceFileWrapper) : Prop :=
  ∃ pre post, ws = pre ++ w :: post ∧ InSlot ex w s ∧ ∀ x ∈ post, ¬ InSlot ex x s

/-- The error of a file that belongs in no slot. -/
def SlotError (ex : PathBuf → Bool) (w : ResourceFileWrapper) (e : ResourceFilesParseError) : Prop :=
  ∃ p, w = .path p ∧ ((ex p = false ∧ e = .fileDoesntExist p) ∨
    (ex p = true ∧ (∀ s, ¬ InSlot ex w s) ∧ e = .invalidPath p))

namespace HMap
variable {κ α : Type} [DecidableEq κ]
theorem get_insert (m : HMap κ α) (k k' : κ) (v : α) : get (insert m k v) k' = if k' = k then some v else get m k' := by
  unfold get insert
  rw [show ((k, v) :: LMap.erase m k : List (κ × α)) = [(k, v)] ++ LMap.erase m k from rfl, LMap.get_append, LMap.get_erase]
  by_cases h : k' = k
  · subst h; simp [LMap.get]
  · have h' : k ≠ k' := fun h' => h h'.symm
    simp [LMap.get, h, h']

theorem nodup_insert {m : HMap κ α} (h : (LMap.keys m).Nodup) (k : κ) (v : α) : (LMap.keys (insert m k v)).Nodup := by
  unfold insert
  rw [LMap.keys_cons, List.nodup_cons]
  exact ⟨by rw [LMap.keys_erase]; simp, LMap.nodup_erase h k⟩

theorem mem_values {m : HMap κ α} (h : (LMap.keys m).Nodup) (v : α) : v ∈ m.map (·.2) ↔ ∃ k, get m k = some v := by
  rw [List.mem_map]
  constructor
  · rintro ⟨⟨k, v'⟩, hm, rfl⟩; exact ⟨k, LMap.get_of_mem h hm⟩
  · rintro ⟨k, hk⟩; exact ⟨(k, v), LMap.get_mem hk, rfl⟩
end HMap

namespace ResourceFiles

/-- The maps have distinct keys. -/
def WF (r : ResourceFiles) : Prop :=
  (LMap.keys r.images).Nodup ∧ (LMap.keys r.sounds).Nodup ∧ (LMap.keys r.fonts).Nodup

theorem wf_empty : empty.WF := by simp [WF, empty]

theorem wf_add {r : ResourceFiles} (h : r.WF) (t : ResourceType) (n : Str) (w : ResourceFileWrapper) : (r.add t n w).WF := by
  obtain ⟨h1, h2, h3⟩ := h
  cases t
  · exact ⟨HMap.nodup_insert h1 _ _, h2, h3⟩
  · exact ⟨h1, HMap.nodup_insert h2 _ _, h3⟩
  · exact ⟨h1, h2, HMap.nodup_insert h3 _ _⟩
  · exact ⟨h1, h2, h3⟩

theorem at_add (r : ResourceFiles) (t : ResourceType) (n : Str) (w : ResourceFileWrapper) (s : Slot) :
    (r.add t n w).at s = if s = t.slot n then some w else r.at s := by
  cases t <;> cases s <;> simp [add, ResourceFiles.at, ResourceType.slot, HMap.get_insert]

theorem same_iff {r s : ResourceFiles} : Same r s ↔ ∀ x, r.at x = s.at x := by
  constructor
  · rintro ⟨h1, h2, h3, h4⟩ x
    cases x
    · exact h2 _
    · exact h3 _
    · exact h4 _
    · exact h1
  · intro h
    exact ⟨h .icon, fun k => h (.image k), fun k => h (.sound k), fun k => h (.font k)⟩

end ResourceFiles

theorem dir_inj {t t' : ResourceType} (h : t.dir = t'.dir) : t = t' := by
  cases t <;> cases t' <;> first | rfl | (exact absurd h (by decide))

theorem utf8_inj {a b : Str} (h : utf8 a = utf8 b) : a = b := by
  have := fromUtf8_utf8 a
  rw [h, fromUtf8_utf8] at this
  simpa using this.symm

theorem PathBuf.fileName_eq {p : PathBuf} {b : Bytes} : p.fileName = some b ↔ ∃ pre, p = pre ++ [.normal b] := by
  unfold PathBuf.fileName
  rcases List.eq_nil_or_concat p with rfl | ⟨l, x, rfl⟩
  · simp
  · rw [List.concat_eq_append, List.getLast?_concat]
    cases x <;> simp <;> grind

theorem PathBuf.parent_eq {p q : PathBuf} : p.parent = some q ↔ ∃ x, x ≠ .root ∧ p = q ++ [x] := by
  unfold PathBuf.parent
  rcases List.eq_nil_or_concat p with rfl | ⟨l, x, rfl⟩
  · simp
  · rw [List.concat_eq_append, List.getLast?_concat]
    cases x <;> simp <;> grind

namespace ResourceFiles

theorem InSlot.unique {ex : PathBuf → Bool} {w : ResourceFileWrapper} {s s' : Slot} (h : InSlot ex w s) (h' : InSlot ex w s') :
    s = s' := by
  cases h with
  | path pre t mid name hm he =>
    generalize hp : pre ++ [PathComp.normal (utf8 t.dir), mid, .normal (utf8 name)] = p at h'
    cases h' with
    | path pre' t' mid' name' hm' he' =>
      have e := congrArg List.reverse hp
      simp at e
      obtain ⟨e1, _, e2, _⟩ := e
      rw [utf8_inj e1, dir_inj (utf8_inj e2)]
  | stringId => cases h'; rfl
  | u32Id => cases h'; rfl

/-- The folder and the name of a path. -/
def classify (p : PathBuf) : Option (Str × Str) :=
  p.parent.bind fun p1 => p1.parent.bind fun p2 => p2.fileName.bind fun b => (fromUtf8 b).bind fun ty =>
    p.fileName.bind fun b' => (fromUtf8 b').bind fun n => some (ty, n)

theorem classify_eq {p : PathBuf} {ty n : Str} : classify p = some (ty, n) ↔
    ∃ pre mid, mid ≠ .root ∧ p = pre ++ [.normal (utf8 ty), mid, .normal (utf8 n)] := by
  unfold classify
  simp only [Option.bind_eq_some_iff, PathBuf.parent_eq, PathBuf.fileName_eq, fromUtf8_eq_some, Option.some.injEq, Prod.mk.injEq]
  constructor
  · rintro ⟨p1, ⟨x, hx, rfl⟩, p2, ⟨y, hy, rfl⟩, b, ⟨pre, rfl⟩, ty', rfl, b', ⟨pre', h⟩, n', rfl, rfl, rfl⟩
    have := congrArg List.reverse h
    simp at this
    exact ⟨pre, y, hy, by simp [this.1]⟩
  · rintro ⟨pre, mid, hm, rfl⟩
    exact ⟨pre ++ [.normal (utf8 ty), mid], ⟨.normal (utf8 n), by simp, by simp⟩, pre ++ [.normal (utf8 ty)], ⟨mid, hm, by simp⟩,
      _, ⟨pre, rfl⟩, ty, rfl, _, ⟨pre ++ [.normal (utf8 ty), mid], by simp⟩, n, rfl, rfl, rfl⟩

theorem step_classify (ex : PathBuf → Bool) (r : ResourceFiles) (p : PathBuf) (h : ex p = true) :
    step ex r (.path p) = (Out.ofOption (.invalidPath p) (classify p)).bind fun c =>
      if c.1 = s% "images" then .ok (r.add .image c.2 (.path p))
      else if c.1 = s% "sounds" then .ok (r.add .sound c.2 (.path p))
      else if c.1 = s% "fonts" then .ok (r.add .font c.2 (.path p))
      else if c.1 = s% "icons" then .ok (r.add .customIcon c.2 (.path p))
      else .err (.invalidPath p) := by
  unfold step classify
  simp only [h, Bool.true_eq_false, if_false]
  cases p.parent with
  | none => rfl
  | some p1 =>
  cases h2 : PathBuf.parent p1 with
  | none => simp [h2]; rfl
  | some p2 =>
  cases h3 : PathBuf.fileName p2 with
  | none => simp [h2, h3]; rfl
  | some b =>
  cases h4 : fromUtf8 b with
  | none => simp [h2, h3, h4]; rfl
  | some ty =>
  cases h5 : p.fileName with
  | none => simp [h2, h3, h4]; rfl
  | some b' =>
  cases h6 : fromUtf8 b' with
  | none => simp [h2, h3, h4, h6]; rfl
  | some n => simp [h2, h3, h4, h6]; rfl

/-- The step of the loop, for a path. -/
theorem step_path (ex : PathBuf → Bool) (r : ResourceFiles) (p : PathBuf) :
    (ex p = false ∧ step ex r (.path p) = .err (.fileDoesntExist p)) ∨
    (∃ pre t mid name, p = pre ++ [.normal (utf8 (ResourceType.dir t)), mid, .normal (utf8 name)] ∧ mid ≠ .root ∧ ex p = true ∧
      step ex r (.path p) = .ok (r.add t name (.path p))) ∨
    (ex p = true ∧ (∀ pre, ∀ t : ResourceType, ∀ mid name, mid ≠ .root →
        p ≠ pre ++ [.normal (utf8 t.dir), mid, .normal (utf8 name)]) ∧
      step ex r (.path p) = .err (.invalidPath p)) := by
  cases hex : ex p with
  | false => exact .inl ⟨rfl, by simp [step, hex]⟩
  | true =>
    right
    rw [step_classify ex r p hex]
    cases hc : classify p with
    | none =>
      refine .inr ⟨rfl, ?_, rfl⟩
      intro pre t mid name hm he
      rw [classify_eq.mpr ⟨pre, mid, hm, he⟩] at hc; simp at hc
    | some c =>
      obtain ⟨ty, n⟩ := c
      have hp := classify_eq.mp hc
      have good : ∀ t : ResourceType, ty = t.dir → ∃ pre t' mid name,
          p = pre ++ [.normal (utf8 (ResourceType.dir t')), mid, .normal (utf8 name)] ∧ mid ≠ .root ∧ True ∧
          (Out.ok (r.add t n (.path p)) : Out ResourceFilesParseError ResourceFiles) = .ok (r.add t' name (.path p)) := by
        intro t ht
        obtain ⟨pre, mid, hm, he⟩ := hp
        exact ⟨pre, t, mid, n, by rw [← ht]; exact he, hm, trivial, rfl⟩
      simp only [Out.ofOption_some, Out.bind]
      by_cases c1 : ty = s% "images"
      · left; rw [if_pos c1]; exact good .image c1
      rw [if_neg c1]
      by_cases c2 : ty = s% "sounds"
      · left; rw [if_pos c2]; exact good .sound c2
      rw [if_neg c2]
      by_cases c3 : ty = s% "fonts"
      · left; rw [if_pos c3]; exact good .font c3
      rw [if_neg c3]
      by_cases c4 : ty = s% "icons"
      · left; rw [if_pos c4]; exact good .customIcon c4
      rw [if_neg c4]
      refine .inr ⟨trivial, ?_, rfl⟩
      intro pre t mid name hm he
      rw [classify_eq.mpr ⟨pre, mid, hm, he⟩] at hc
      simp at hc
      cases t
      · exact c1 hc.1.symm
      · exact c2 hc.1.symm
      · exact c3 hc.1.symm
      · exact c4 hc.1.symm

theorem step_cases (ex : PathBuf → Bool) (r : ResourceFiles) (w : ResourceFileWrapper) :
    (∃ t n, InSlot ex w (ResourceType.slot n t) ∧ step ex r w = .ok (r.add t n w)) ∨
    (∃ e, SlotError ex w e ∧ step ex r w = .err e) := by
  cases w with
  | stringId id n t => exact .inl ⟨t, n, .stringId id n t, rfl⟩
  | u32Id id n t => exact .inl ⟨t, n, .u32Id id n t, rfl⟩
  | path p =>
    rcases step_path ex r p with ⟨h1, h2⟩ | ⟨pre, t, mid, name, rfl, hm, he, h2⟩ | ⟨h1, h2, h3⟩
    · exact .inr ⟨_, ⟨p, rfl, .inl ⟨h1, rfl⟩⟩, h2⟩
    · exact .inl ⟨t, name, .path pre t mid name hm he, h2⟩
    · refine .inr ⟨_, ⟨p, rfl, .inr ⟨h1, ?_, rfl⟩⟩, h3⟩
      intro s hs
      generalize hw : ResourceFileWrapper.path p = w at hs
      cases hs with
      | path pre t mid name hm he => simp at hw; exact h2 pre t mid name hm hw
      | stringId => simp at hw
      | u32Id => simp at hw

theorem SlotError.no_slot {ex : PathBuf → Bool} {w : ResourceFileWrapper} {e : ResourceFilesParseError} {s : Slot}
    (h : SlotError ex w e) (hs : InSlot ex w s) : False := by
  obtain ⟨p, rfl, ⟨h1, _⟩ | ⟨_, h2, _⟩⟩ := h
  · generalize hw : ResourceFileWrapper.path p = w at hs
    cases hs with
    | path pre t mid name hm he => simp at hw; subst hw; rw [he] at h1; simp at h1
    | stringId => simp at hw
    | u32Id => simp at hw
  · exact h2 s hs

theorem SlotError.unique {ex : PathBuf → Bool} {w : ResourceFileWrapper} {e e' : ResourceFilesParseError}
    (h : SlotError ex w e) (h' : SlotError ex w e') : e = e' := by
  obtain ⟨p, rfl, h⟩ := h
  obtain ⟨p', hp, h'⟩ := h'
  simp at hp; subst hp
  rcases h with ⟨h1, h2⟩ | ⟨h1, _, h2⟩ <;> rcases h' with ⟨h3, h4⟩ | ⟨h3, _, h4⟩
  · rw [h2, h4]
  · rw [h1] at h3; simp at h3
  · rw [h1] at h3; simp at h3
  · rw [h2, h4]

/-- The loop: what is stored in every slot, or the first file that belongs nowhere. -/
theorem loop_spec (ex : PathBuf → Bool) (ws : List ResourceFileWrapper) : ∀ (r : ResourceFiles), r.WF →
    ((∀ w ∈ ws, ∃ s, InSlot ex w s) ∧ ∃ r', loop ex r ws = .ok r' ∧ r'.WF ∧ ∀ s w, r'.at s = some w ↔
      LastIn ex ws s w ∨ ((∀ x ∈ ws, ¬ InSlot ex x s) ∧ r.at s = some w)) ∨
    (∃ pre w post e, ws = pre ++ w :: post ∧ (∀ x ∈ pre, ∃ s, InSlot ex x s) ∧ SlotError ex w e ∧ loop ex r ws = .err e) := by
  induction ws with
  | nil =>
    intro r hr
    refine .inl ⟨by simp, r, rfl, hr, fun s w => ?_⟩
    simp [LastIn]
  | cons w ws ih =>
    intro r hr
    rcases step_cases ex r w with ⟨t, n, hs, h⟩ | ⟨e, he, h⟩
    · rcases ih (r.add t n w) (wf_add hr t n w) with ⟨hall, r', h1, h2, h3⟩ | ⟨pre, x, post, e, rfl, h1, h2, h3⟩
      · refine .inl ⟨?_, r', by simp [loop, h, h1], h2, fun s v => ?_⟩
        · intro x hx
          rcases List.mem_cons.mp hx with rfl | hx
          · exact ⟨_, hs⟩
          · exact hall x hx
        · rw [h3, at_add]
          constructor
          · rintro (⟨pre, post, rfl, h4, h5⟩ | ⟨h4, h5⟩)
            · exact .inl ⟨w :: pre, post, rfl, h4, h5⟩
            · split at h5
              · next heq =>
                simp at h5; subst h5; subst heq
                exact .inl ⟨[], ws, rfl, hs, h4⟩
              · next hne =>
                refine .inr ⟨?_, h5⟩
                intro x hx
                rcases List.mem_cons.mp hx with rfl | hx
                · exact fun hc => hne (InSlot.unique hc hs)
                · exact h4 x hx
          · rintro (⟨pre, post, h4, h5, h6⟩ | ⟨h4, h5⟩)
            · cases pre with
              | nil =>
                simp at h4; obtain ⟨rfl, rfl⟩ := h4
                exact .inr ⟨h6, by rw [if_pos (InSlot.unique h5 hs)]⟩
              | cons y pre =>
                simp at h4; obtain ⟨rfl, rfl⟩ := h4
                exact .inl ⟨pre, post, rfl, h5, h6⟩
            · refine .inr ⟨fun x hx => h4 x (by simp [hx]), ?_⟩
              rw [if_neg]
              · exact h5
              · rintro rfl; exact h4 w (by simp) hs
      · refine .inr ⟨w :: pre, x, post, e, rfl, ?_, h2, by simp [loop, h, h3]⟩
        intro y hy
        rcases List.mem_cons.mp hy with rfl | hy
        · exact ⟨_, hs⟩
        · exact h1 y hy
    · exact .inr ⟨[], w, ws, e, rfl, by simp, he, by simp [loop, h]⟩

theorem at_empty (s : Slot) : empty.at s = none := by cases s <;> rfl

theorem LastIn.mem {ex : PathBuf → Bool} {ws : List ResourceFileWrapper} {s : Slot} {w : ResourceFileWrapper}
    (h : LastIn ex ws s w) : w ∈ ws ∧ InSlot ex w s := by
  obtain ⟨pre, post, rfl, h1, _⟩ := h; exact ⟨by simp, h1⟩

theorem LastIn.exists {ex : PathBuf → Bool} (ws : List ResourceFileWrapper) {s : Slot} :
    ∀ w ∈ ws, InSlot ex w s → ∃ w', LastIn ex ws s w' := by
  induction ws with
  | nil => simp
  | cons x ws ih =>
    intro w hw hs
    by_cases h : ∃ y, y ∈ ws ∧ InSlot ex y s
    · obtain ⟨y, hy, hys⟩ := h
      obtain ⟨w', pre, post, h1, h2⟩ := ih y hy hys
      exact ⟨w', x :: pre, post, by rw [h1]; rfl, h2⟩
    · rcases List.mem_cons.mp hw with rfl | hw
      · exact ⟨w, [], ws, rfl, hs, fun y hy hys => h ⟨y, hy, hys⟩⟩
      · exact absurd ⟨w, hw, hs⟩ h

/-- The list has the values of all slots. -/
theorem mem_intoVec {r : ResourceFiles} (h : r.WF) {ws : List ResourceFileWrapper} (hi : r.IntoVec ws) (w : ResourceFileWrapper) :
    w ∈ ws ↔ ∃ s, r.at s = some w := by
  obtain ⟨im, so, fo, h1, h2, h3, rfl⟩ := hi
  simp only [List.mem_append, h1.mem_iff, h2.mem_iff, h3.mem_iff, HMap.mem_values h.1, HMap.mem_values h.2.1,
    HMap.mem_values h.2.2, Option.mem_toList]
  constructor
  · rintro (h | ⟨k, h⟩ | ⟨k, h⟩ | ⟨k, h⟩)
    · exact ⟨.icon, h⟩
    · exact ⟨.image k, h⟩
    · exact ⟨.sound k, h⟩
    · exact ⟨.font k, h⟩
  · rintro ⟨s, h⟩
    cases s with
    | image k => exact .inr (.inl ⟨k, h⟩)
    | sound k => exact .inr (.inr (.inl ⟨k, h⟩))
    | font k => exact .inr (.inr (.inr ⟨k, h⟩))
    | icon => exact .inl h

end ResourceFiles
end Swrs
