import Verif.Proofs.LogicRun
/-! The text of a logic file as a sequence of sections and empty chunks. -/
set_option linter.unusedSectionVars false
namespace Swrs
variable [Floats] [MapPol]

/-- A section as text, with its effect. -/
structure TSec where
  hd : Str
  body : List Str
  name : Str
  eff : ScreenLogic → ScreenLogic

namespace TSec

def ls (t : TSec) : List Str := t.hd :: t.body
def text (t : TSec) : Str := joinWith '\n' t.ls

/-- A section as text: its header begins with `@`, there is no line break inside of its lines. -/
structure Raw (t : TSec) : Prop where
  head : t.hd.head? = some '@'
  noNl : ∀ p ∈ t.ls, '\n' ∉ p

/-- A section that is read. -/
structure Ok (t : TSec) : Prop where
  sec : Sec t.hd t.body t.name t.eff
  noNl : ∀ p ∈ t.ls, '\n' ∉ p

/-- The last line of the section survives trimming. -/
def Closed (t : TSec) : Prop := ∀ p, t.ls.getLast? = some p → p ≠ [] ∧ ∀ c, p.getLast? = some c → isWs c = false

theorem Ok.raw {t : TSec} (h : t.Ok) : t.Raw := ⟨by simpa using Logic.sec_at h.sec, h.noNl⟩

theorem Raw.text_head {t : TSec} (h : t.Raw) : t.text.head? = some '@' := by
  unfold text ls
  rw [joinWith_head, h.head]
  intro h0; have := h.head; rw [h0] at this; simp at this

theorem Closed.text_last {t : TSec} (h : t.Closed) : ∃ c, t.text.getLast? = some c ∧ isWs c = false := by
  rcases List.eq_nil_or_concat t.ls with h0 | ⟨ini, p, hp⟩
  · simp [ls] at h0
  · rw [List.concat_eq_append] at hp
    have hl := h p (by rw [hp]; simp)
    unfold text
    rw [hp, getLast?_joinWith_concat hl.1]
    cases hc : p.getLast? with
    | none => simp at hc; exact absurd hc hl.1
    | some c => exact ⟨c, rfl, hl.2 c hc⟩

theorem Raw.text_ne {t : TSec} (h : t.Raw) : t.text ≠ [] := by
  intro h0; have := h.text_head; rw [h0] at this; simp at this

/-- A pool chunk, trimmed, is the text of its section. -/
theorem Raw.trim_chunk {t : TSec} (h : t.Raw) (hc : t.Closed) : trim (t.hd ++ '\n' :: joinWith '\n' t.body) = t.text := by
  have h1 : ∀ c, t.text.head? = some c → isWs c = false := by
    intro c hc; rw [h.text_head] at hc; simp at hc; subst hc; decide
  have h2 : ∀ c, t.text.getLast? = some c → isWs c = false := by
    intro c hc'
    obtain ⟨d, hd, hw⟩ := hc.text_last
    rw [hd] at hc'; simp at hc'; subst hc'; exact hw
  cases hb : t.body with
  | nil =>
    have : t.text = t.hd := by simp [text, ls, hb, joinWith]
    rw [this] at h1 h2 ⊢
    have := trim_frame (w := []) (s := t.hd) (w' := ['\n']) (by simp) (by simp [isWs]) h1 h2
    simpa [joinWith] using this
  | cons b bs =>
    have : t.text = t.hd ++ '\n' :: joinWith '\n' (b :: bs) := by simp [text, ls, hb, joinWith]
    rw [← this]
    exact trim_eq h1 h2

end TSec

/-- A chunk of a logic file: a section, or the empty text of a screen without block containers. -/
abbrev Item := Option TSec

namespace Item
def text : Item → Str
  | none => []
  | some t => t.text
def ls : Item → List Str
  | none => [[]]
  | some t => t.ls
def Ok (i : Item) : Prop := ∀ t, i = some t → t.Ok
def Raw (i : Item) : Prop := ∀ t, i = some t → t.Raw
theorem Ok.raw {i : Item} (h : i.Ok) : i.Raw := fun t ht => (h t ht).raw
end Item

/-- The chunks, each after a blank line. -/
def itemsText (is : List Item) : Str := is.flatMap fun i => '\n' :: '\n' :: Item.text i

theorem itemsText_append (a b : List Item) : itemsText (a ++ b) = itemsText a ++ itemsText b := by
  simp [itemsText]

theorem itemsText_none {is : List Item} (h : ∀ i ∈ is, i = none) : ∀ c ∈ itemsText is, isWs c = true := by
  intro c hc
  simp only [itemsText, List.mem_flatMap] at hc
  obtain ⟨i, hi, hc⟩ := hc
  rw [h i hi] at hc
  simp [Item.text] at hc
  subst hc; decide

theorem joinWith_splitless {ls : List Str} (hne : ls ≠ []) (h : ∀ p ∈ ls, '\n' ∉ p) (r : Str) :
    lines (joinWith '\n' ls ++ '\n' :: '\n' :: r) = ls ++ [] :: lines r := by
  rw [lines_joinWith_append hne h]
  rfl

/-- The lines of a sequence of chunks. -/
theorem lines_items (x : Item) (xs : List Item) (h : ∀ i ∈ x :: xs, i.Raw) :
    lines (x.text ++ itemsText xs) = x.ls ++ xs.flatMap fun i => [] :: i.ls := by
  have hx : ∀ p ∈ x.ls, '\n' ∉ p := by
    cases x with
    | none => simp [Item.ls]
    | some t => exact (h (some t) (by simp) t rfl).noNl
  have hne : x.ls ≠ [] := by cases x <;> simp [Item.ls, TSec.ls]
  have hj : x.text = joinWith '\n' x.ls := by cases x <;> simp [Item.ls, Item.text, TSec.text, joinWith]
  induction xs generalizing x with
  | nil => simp [itemsText, hj, lines, splitOn_joinWith hne hx]
  | cons y ys ih =>
    have hy : ∀ p ∈ y.ls, '\n' ∉ p := by
      cases y with
      | none => simp [Item.ls]
      | some t => exact (h (some t) (by simp) t rfl).noNl
    have hyne : y.ls ≠ [] := by cases y <;> simp [Item.ls, TSec.ls]
    have hyj : y.text = joinWith '\n' y.ls := by cases y <;> simp [Item.ls, Item.text, TSec.text, joinWith]
    have := ih y (fun i hi => h i (by grind)) hy hyne hyj
    have e : x.text ++ itemsText (y :: ys) = joinWith '\n' x.ls ++ '\n' :: '\n' :: (y.text ++ itemsText ys) := by
      simp [itemsText, hj]
    rw [e, joinWith_splitless hne hx, this]
    simp

/-- Chunks without the empty ones at both ends. -/
theorem items_core (is : List Item) : (∀ i ∈ is, i = none) ∨
    ∃ a s r b, is = a ++ (some s :: r) ++ b ∧ (∀ i ∈ a, i = none) ∧ (∀ i ∈ b, i = none) ∧
      ∃ t, (some s :: r).getLast? = some (some t) := by
  induction is with
  | nil => left; simp
  | cons i is ih =>
    rcases ih with ih | ⟨a, s, r, b, rfl, ha, hb, t, ht⟩
    · cases i with
      | none => left; intro j hj; simp at hj; rcases hj with rfl | hj; rfl; exact ih j hj
      | some t => right; exact ⟨[], t, [], is, rfl, by simp, ih, t, rfl⟩
    · right
      cases i with
      | none =>
        refine ⟨none :: a, s, r, b, rfl, ?_, hb, t, ht⟩
        intro j hj; simp at hj; rcases hj with rfl | hj; rfl; exact ha j hj
      | some u =>
        refine ⟨[], u, a ++ (some s :: r), b, by simp, by simp, hb, t, ?_⟩
        rw [← List.cons_append, List.getLast?_append, ht]; rfl

theorem trim_items {a r b : List Item} {s t : TSec} (ha : ∀ i ∈ a, i = none) (hb : ∀ i ∈ b, i = none)
    (hs : s.Raw) (ht : t.Closed) (hl : (some s :: r).getLast? = some (some t)) :
    trim (itemsText (a ++ (some s :: r) ++ b)) = s.text ++ itemsText r := by
  have e : itemsText (a ++ (some s :: r) ++ b) =
      (itemsText a ++ ['\n', '\n']) ++ (s.text ++ itemsText r) ++ itemsText b := by
    rw [itemsText_append, itemsText_append]
    simp [itemsText, Item.text]
  rw [e]
  apply trim_frame
  · intro c hc
    simp only [List.mem_append, List.mem_cons, List.not_mem_nil, or_false] at hc
    rcases hc with hc | rfl | rfl
    · exact itemsText_none ha c hc
    · decide
    · decide
  · exact itemsText_none hb
  · intro c hc
    have h0 := hs.text_head
    cases hst : s.text with
    | nil => exact absurd hst hs.text_ne
    | cons x y =>
      rw [hst] at h0 hc; simp at h0 hc; subst h0; subst hc; decide
  · intro c hc
    obtain ⟨d, hd, hw⟩ := ht.text_last
    have : (s.text ++ itemsText r).getLast? = some d := by
      rcases List.eq_nil_or_concat r with rfl | ⟨ini, q, rfl⟩
      · simp at hl; subst hl; simpa [itemsText] using hd
      · rw [List.concat_eq_append] at hl ⊢
        rw [← List.cons_append, List.getLast?_append] at hl
        simp at hl; subst hl
        rw [itemsText_append, ← List.append_assoc, List.getLast?_append]
        have : (itemsText [some t]).getLast? = some d := by
          simp [itemsText, Item.text, List.getLast?_cons, hd]
        rw [this]; rfl
    rw [this] at hc; simp at hc; subst hc; exact hw

/-- The last section of the chunks survives trimming. -/
def ItemsClosed (is : List Item) : Prop := ∀ t, (is.filterMap id).getLast? = some t → t.Closed

theorem items_last {a r b : List Item} {t : TSec} (hb : ∀ i ∈ b, i = none) (hl : r.getLast? = some (some t)) :
    ((a ++ r ++ b).filterMap id).getLast? = some t := by
  have e2 : b.filterMap id = [] := by rw [List.filterMap_eq_nil_iff]; intro i hi; rw [hb i hi]; rfl
  rcases List.eq_nil_or_concat r with rfl | ⟨ini, q, rfl⟩
  · simp at hl
  · rw [List.concat_eq_append] at hl ⊢
    simp at hl; subst hl
    simp [List.filterMap_append, e2]

namespace Logic

/-- Sections one after the other, the last one at the end of the file or before a gap. -/
theorem run_sections (s : TSec) (r : List TSec) (h : ∀ t ∈ s :: r, t.Ok) (n : Nat) (l : LMap Str ScreenLogic) :
    run (s.ls ++ (r.map some).flatMap fun i => [] :: Item.ls i) n l =
      .ok ⟨applyAll ((s :: r).map fun t => (t.name, t.eff)) l⟩ := by
  induction r generalizing s n l with
  | nil => simp [TSec.ls, run_sec_eof (h s (by simp)).sec, applyAll]
  | cons t r ih =>
    have := ih t (fun x hx => h x (by grind)) (n + 1) (update l s.name s.eff)
    have e : s.ls ++ ((t :: r).map some).flatMap (fun i => [] :: Item.ls i) =
        s.hd :: (s.body ++ [] :: (t.ls ++ (r.map some).flatMap fun i => [] :: Item.ls i)) := by
      simp [TSec.ls, Item.ls]
    rw [e, run_sec (h s (by simp)).sec, this]
    rfl

theorem run_sections_gap (s : TSec) (r : List TSec) (h : ∀ t ∈ s :: r, t.Ok) (q : List Item) (n : Nat)
    (l : LMap Str ScreenLogic) :
    run (s.ls ++ (r.map some ++ none :: q).flatMap fun i => [] :: Item.ls i) n l =
      .ok ⟨applyAll ((s :: r).map fun t => (t.name, t.eff)) l⟩ := by
  induction r generalizing s n l with
  | nil =>
    have e : s.ls ++ (([] : List TSec).map some ++ none :: q).flatMap (fun i => [] :: Item.ls i) =
        s.hd :: (s.body ++ [] :: ([] :: q.flatMap fun i => [] :: Item.ls i)) := by
      simp [TSec.ls, Item.ls]
    rw [e, run_sec (h s (by simp)).sec, run_stop (by rfl)]
    rfl
  | cons t r ih =>
    have := ih t (fun x hx => h x (by grind)) (n + 1) (update l s.name s.eff)
    have e : s.ls ++ ((t :: r).map some ++ none :: q).flatMap (fun i => [] :: Item.ls i) =
        s.hd :: (s.body ++ [] :: (t.ls ++ (r.map some ++ none :: q).flatMap fun i => [] :: Item.ls i)) := by
      simp [TSec.ls, Item.ls]
    rw [e, run_sec (h s (by simp)).sec, this]
    rfl

theorem some_prefix (r : List Item) : (∃ q : List TSec, r = q.map some) ∨
    ∃ (q : List TSec) (q' : List Item), r = q.map some ++ none :: q' := by
  induction r with
  | nil => exact .inl ⟨[], rfl⟩
  | cons i r ih =>
    cases i with
    | none => exact .inr ⟨[], r, rfl⟩
    | some t =>
      rcases ih with ⟨q, rfl⟩ | ⟨q, q', rfl⟩
      · exact .inl ⟨t :: q, rfl⟩
      · exact .inr ⟨t :: q, q', rfl⟩

/-- An empty chunk between two sections. -/
def Gap (is : List Item) : Prop :=
  ∃ a b s t, is = a ++ none :: b ∧ some s ∈ a ∧ some t ∈ b

/-- Reading the text of chunks without gap: all sections. -/
theorem parse_items {is : List Item} (h : ∀ i ∈ is, i.Ok) (hc : ItemsClosed is) (hg : ¬ Gap is) :
    parse (trim (itemsText is)) = .ok ⟨applyAll ((is.filterMap id).map fun t => (t.name, t.eff)) []⟩ := by
  rcases items_core is with hn | ⟨a, s, r, b, rfl, ha, hb, t, ht⟩
  · have h1 : trim (itemsText is) = [] := by
      have := trim_frame (w := itemsText is) (s := []) (w' := []) (itemsText_none hn) (by simp) (by simp) (by simp)
      simpa using this
    have h2 : is.filterMap id = [] := by
      rw [List.filterMap_eq_nil_iff]; intro i hi; rw [hn i hi]; rfl
    rw [h1, h2]; rfl
  · have ht' : t.Closed := hc t (items_last hb ht)
    rw [trim_items ha hb (h (some s) (by simp) s rfl).raw ht' ht, parse_run]
    have hl := lines_items (some s) r (fun i hi => (h i (by grind)).raw)
    rw [show Item.text (some s) = s.text from rfl] at hl
    rw [hl]
    have hf : (a ++ some s :: r ++ b).filterMap id = s :: r.filterMap id := by
      have e1 : a.filterMap id = [] := by rw [List.filterMap_eq_nil_iff]; intro i hi; rw [ha i hi]; rfl
      have e2 : b.filterMap id = [] := by rw [List.filterMap_eq_nil_iff]; intro i hi; rw [hb i hi]; rfl
      simp [List.filterMap_append, e1, e2]
    rw [hf]
    rcases some_prefix r with ⟨q, rfl⟩ | ⟨q, q', rfl⟩
    · rw [show Item.ls (some s) = s.ls from rfl, run_sections s q]
      · simp [List.filterMap_map]
      · intro x hx
        refine h (some x) ?_ x rfl
        simp at hx ⊢
        rcases hx with rfl | hx
        · simp
        · simp [hx]
    · exfalso
      apply hg
      have hq : some t ∈ q' := by
        rw [← List.cons_append, List.getLast?_append] at ht
        cases hq' : q'.getLast? with
        | none => simp at hq'; subst hq'; simp at ht
        | some z =>
          have : (none :: q').getLast? = some z := by rw [List.getLast?_cons, hq']; rfl
          rw [this] at ht; simp at ht; subst ht
          exact List.mem_of_getLast? hq'
      exact ⟨a ++ some s :: q.map some, q' ++ b, s, t, by simp, by simp, by simp [hq]⟩

/-- Reading the text of chunks with a gap: only the sections before the first empty chunk that follows a section. -/
theorem parse_items_gap {is : List Item} (h : ∀ i ∈ is, i.Ok) (hc : ItemsClosed is) (hg : Gap is) :
    ∃ (a : List Item) (ss : List TSec) (b : List Item), is = a ++ ss.map some ++ none :: b ∧ (∀ i ∈ a, i = none) ∧ (∃ t, some t ∈ b) ∧
    parse (trim (itemsText is)) = .ok ⟨applyAll (ss.map fun t => (t.name, t.eff)) []⟩ := by
  rcases items_core is with hn | ⟨a, s, r, b, rfl, ha, hb, t, ht⟩
  · obtain ⟨a, b, s, t, rfl, hs, _⟩ := hg
    have := hn (some s) (by simp [hs]); simp at this
  · have ht' : t.Closed := hc t (items_last hb ht)
    rw [trim_items ha hb (h (some s) (by simp) s rfl).raw ht' ht, parse_run]
    have hl := lines_items (some s) r (fun i hi => (h i (by grind)).raw)
    rw [show Item.text (some s) = s.text from rfl] at hl
    rw [hl]
    rcases some_prefix r with ⟨q, rfl⟩ | ⟨q, q', rfl⟩
    · exfalso
      obtain ⟨c, d, u, v, he, hu, hv⟩ := hg
      have e : a ++ some s :: q.map some ++ b = a ++ ((s :: q).map some ++ b) := by simp
      rw [e, List.append_eq_append_iff] at he
      rcases he with ⟨x, rfl, he⟩ | ⟨x, rfl, he⟩
      · rw [List.append_eq_append_iff] at he
        rcases he with ⟨y, rfl, he⟩ | ⟨y, he1, he⟩
        · have := hb (some v) (by rw [he]; simp [hv]); simp at this
        · cases y with
          | nil =>
            simp at he
            have := hb (some v) (by rw [← he]; simp [hv]); simp at this
          | cons z y =>
            simp at he
            have : none ∈ (s :: q).map some := by rw [he1, ← he.1]; simp
            simp at this
      · cases x with
        | nil =>
          have := ha (some u) (by simp [hu]); simp at this
        | cons z x =>
          have := ha (some u) (by simp [hu]); simp at this
    · refine ⟨a, s :: q, q' ++ b, by simp, ha, ⟨t, ?_⟩, ?_⟩
      · rw [← List.cons_append, List.getLast?_append] at ht
        cases hq' : q'.getLast? with
        | none => simp at hq'; subst hq'; simp at ht
        | some z =>
          have : (none :: q').getLast? = some z := by rw [List.getLast?_cons, hq']; rfl
          rw [this] at ht; simp at ht; subst ht
          simp [List.mem_of_getLast? hq']
      · rw [show Item.ls (some s) = s.ls from rfl, run_sections_gap s q]
        intro x hx
        refine h (some x) ?_ x rfl
        simp at hx ⊢
        rcases hx with rfl | hx
        · simp
        · simp [hx]

end Logic
end Swrs
