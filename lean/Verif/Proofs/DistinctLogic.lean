import Verif.Proofs.LogicRoundTrip
/-! The sections of a logic can be told from its text. -/
namespace Swrs

/-- The runs of lines that are not empty, after a run that has begun. -/
def runsFrom : List Str → List Str → List (List Str)
  | [], cur => if cur = [] then [] else [cur]
  | l :: ls, cur => if l = [] then (if cur = [] then runsFrom ls [] else cur :: runsFrom ls []) else runsFrom ls (cur ++ [l])

theorem runsFrom_append {g : List Str} (h : ∀ p ∈ g, p ≠ []) (ls cur : List Str) : runsFrom (g ++ ls) cur = runsFrom ls (cur ++ g) := by
  induction g generalizing cur with
  | nil => simp
  | cons p g ih =>
    rw [List.cons_append, runsFrom, if_neg (h p (by simp)), ih (fun q hq => h q (by simp [hq]))]
    simp

variable [Floats] [MapPol]

theorem TSec.Ok.ls_ne {t : TSec} (h : t.Ok) : ∀ p ∈ t.ls, p ≠ [] := by
  intro p hp
  simp only [TSec.ls, List.mem_cons] at hp
  rcases hp with rfl | hp
  · intro h0; have := h.raw.head; rw [h0] at this; simp at this
  · have := h.sec
    generalize t.hd = a at this
    generalize t.eff = b at this
    generalize t.name = c at this
    cases this with
    | var _ h => exact h.ne_nil p hp
    | list _ h => exact h.ne_nil p hp
    | components _ h => exact h.ne_nil p hp
    | events _ h => exact h.ne_nil p hp
    | func _ h => exact h.ne_nil p hp
    | blocks _ _ h => exact h.ne_nil p hp

theorem runsFrom_items (is : List Item) (h : ∀ i ∈ is, i.Ok) (cur : List Str) :
    runsFrom (is.flatMap fun i => [] :: i.ls) cur = (if cur = [] then [] else [cur]) ++ (is.filterMap id).map TSec.ls := by
  induction is generalizing cur with
  | nil => simp [runsFrom]
  | cons i is ih =>
    have hi := ih (fun j hj => h j (by simp [hj]))
    cases i with
    | none =>
      rw [List.flatMap_cons, show Item.ls none = [[]] from rfl]
      simp only [List.cons_append, List.nil_append, runsFrom, if_true, List.filterMap_cons, id_eq]
      rw [hi []]
      split <;> simp
    | some t =>
      have ht := (h (some t) (by simp) t rfl).ls_ne
      rw [List.flatMap_cons, show Item.ls (some t) = t.ls from rfl]
      simp only [List.cons_append, runsFrom, if_true, List.filterMap_cons, id_eq, List.map_cons]
      rw [runsFrom_append ht, hi, if_neg (show [] ++ t.ls ≠ [] by simp [TSec.ls])]
      split <;> simp

namespace Logic

/-- The runs of lines of the text of chunks are the sections. -/
theorem runs_items {is : List Item} (h : ∀ i ∈ is, i.Ok) (hc : ItemsClosed is) :
    runsFrom (lines (trim (itemsText is))) [] = (is.filterMap id).map TSec.ls := by
  rcases items_core is with hn | ⟨a, s, r, b, rfl, ha, hb, t, ht⟩
  · have h1 : trim (itemsText is) = [] := by
      have := trim_frame (w := itemsText is) (s := []) (w' := []) (itemsText_none hn) (by simp) (by simp) (by simp)
      simpa using this
    have h2 : is.filterMap id = [] := by
      rw [List.filterMap_eq_nil_iff]; intro i hi; rw [hn i hi]; rfl
    rw [h1, h2]; rfl
  · have ht' : t.Closed := hc t (items_last hb ht)
    have hs : s.Ok := h (some s) (by simp) s rfl
    have hr : ∀ i ∈ r, Item.Ok i := fun i hi => h i (by simp [hi])
    rw [trim_items ha hb hs.raw ht' ht]
    have hl := lines_items (some s) r (fun i hi => (h i (by grind)).raw)
    rw [show Item.text (some s) = s.text from rfl] at hl
    rw [hl, show Item.ls (some s) = s.ls from rfl, runsFrom_append hs.ls_ne, runsFrom_items r hr,
      if_neg (show [] ++ s.ls ≠ [] by simp [TSec.ls])]
    have e1 : a.filterMap id = [] := by rw [List.filterMap_eq_nil_iff]; intro i hi; rw [ha i hi]; rfl
    have e2 : b.filterMap id = [] := by rw [List.filterMap_eq_nil_iff]; intro i hi; rw [hb i hi]; rfl
    simp [List.filterMap_append, e1, e2]

omit [Floats] [MapPol] in
theorem itemsText_some (ts : List TSec) : itemsText (ts.map some) = (ts.map TSec.ls).flatMap fun g => '\n' :: '\n' :: joinWith '\n' g := by
  simp [itemsText, List.flatMap_map, Item.text, TSec.text]

/-- The sections alone, one after the other, are read. -/
theorem parse_secs {is : List Item} (h : ∀ i ∈ is, i.Ok) (hc : ItemsClosed is) :
    parse (trim (((is.filterMap id).map TSec.ls).flatMap fun g => '\n' :: '\n' :: joinWith '\n' g)) =
      .ok ⟨applyAll ((is.filterMap id).map fun t => (t.name, t.eff)) []⟩ := by
  have hf : ((is.filterMap id).map some).filterMap id = is.filterMap id := by simp [List.filterMap_map]
  have h' : ∀ i ∈ (is.filterMap id).map some, Item.Ok i := by
    intro i hi
    simp only [List.mem_map, List.mem_filterMap, id_eq] at hi
    obtain ⟨t, ⟨j, hj, rfl⟩, rfl⟩ := hi
    exact h _ hj
  have hc' : ItemsClosed ((is.filterMap id).map some) := by
    intro t ht; rw [hf] at ht; exact hc t ht
  have hg : ¬ Gap ((is.filterMap id).map some) := by
    rintro ⟨a, b, s, t, he, _, _⟩
    have : none ∈ (is.filterMap id).map some := by rw [he]; simp
    simp at this
  have := parse_items h' hc' hg
  rw [hf, itemsText_some] at this
  exact this

/-- Logics with the same text agree on the screens that are not empty. -/
theorem same_text (l m : Logic) (hkl : ∀ e ∈ l.screens, e.1 = e.2.name) (hkm : ∀ e ∈ m.screens, e.1 = e.2.name)
    (hnl : l.screens.keys.Nodup) (hnm : m.screens.keys.Nodup)
    (hl : ∀ s ∈ l.screens.map (·.2), s.PartsOk) (hm : ∀ s ∈ m.screens.map (·.2), s.PartsOk)
    (h : l.reconstruct = m.reconstruct) (k : Str) (s : ScreenLogic) (hs : ¬ s.Empty) (hg : l.screens.get k = some s) :
    m.screens.get k = some s := by
  have main : ∀ l : Logic, (∀ e ∈ l.screens, e.1 = e.2.name) → l.screens.keys.Nodup → (∀ s ∈ l.screens.map (·.2), s.PartsOk) →
      ∃ x, parse (trim ((runsFrom (lines l.reconstruct) []).flatMap fun g => '\n' :: '\n' :: joinWith '\n' g)) = .ok x ∧
        ∀ s, x.screens.get k = some s ↔ l.screens.get k = some s ∧ ¬ s.Empty := by
    intro l hk hn hl
    have hok := items_ok hl
    have hcl := items_closed hl
    have hnames : ((l.screens.map (·.2)).map (·.name)).Nodup := by
      rw [List.map_map]
      have : l.screens.map ((fun s : ScreenLogic => s.name) ∘ fun e : Str × ScreenLogic => e.2) = l.screens.keys := by
        unfold LMap.keys
        apply List.map_congr_left
        intro e he; exact (hk e he).symm
      rw [this]; exact hn
    have hget : ∀ s ∈ l.screens.map (·.2), l.screens.get s.name = some s := by
      intro s hs
      simp only [List.mem_map] at hs
      obtain ⟨e, he, rfl⟩ := hs
      apply LMap.get_of_mem hn
      rw [← hk e he]; exact he
    have hgetn : (∀ s ∈ l.screens.map (·.2), s.name ≠ k) → l.screens.get k = none := by
      intro hk'
      rw [LMap.get_eq_none]
      intro hm
      simp only [LMap.keys, List.mem_map] at hm
      obtain ⟨e, he, rfl⟩ := hm
      exact hk' e.2 (List.mem_map_of_mem he) (hk e he).symm
    rw [reconstruct_items l hl, runs_items hok hcl]
    refine ⟨_, parse_secs hok hcl, fun s => ?_⟩
    simp only
    rw [get_secs, items_secs, secs_filter]
    generalize l.screens.map (·.2) = ss at *
    by_cases hex : ∃ s ∈ ss, s.name = k
    · obtain ⟨t, ht, rfl⟩ := hex
      rw [filter_name hnames ht, fold_secs t (hl t ht).blocksNodup, hget t ht]
      by_cases hE : t.Empty
      · rw [if_pos ((secs_one_nil t).mpr hE)]
        simp only [Option.some.injEq]
        exact ⟨nofun, fun ⟨h1, h2⟩ => absurd (h1 ▸ hE) h2⟩
      · rw [if_neg fun h0 => hE ((secs_one_nil t).mp h0)]
        simp only [Option.some.injEq]
        exact ⟨fun h1 => ⟨h1, h1 ▸ hE⟩, And.left⟩
    · have hno : ∀ s ∈ ss, s.name ≠ k := fun s hs he => hex ⟨s, hs, he⟩
      rw [filter_none hno, hgetn hno]
      exact ⟨nofun, fun h => nomatch h.1⟩
  obtain ⟨x, hx, hx'⟩ := main l hkl hnl hl
  obtain ⟨y, hy, hy'⟩ := main m hkm hnm hm
  rw [h, hy] at hx
  obtain rfl := Out.ok.inj hx
  exact ((hy' s).mp ((hx' s).mpr ⟨hg, hs⟩)).1

end Logic
end Swrs
