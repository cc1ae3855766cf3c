import Verif.Proofs.LogicTrace
/-! The logic file: a logic that is read back consists of parts that survive on their own. -/
set_option linter.unusedSectionVars false
namespace Swrs
variable [Floats] [MapPol]

/-! ### the text of any clean logic as sections -/

/-- The lines of a pool as written: the first and the last one are trimmed. -/
def foldBody (ls : List Str) : List Str := adjE (adjS ls)

theorem foldBody_jlines {ls : List Str} (h : ∀ l ∈ ls, JLine l) : foldLines ls = joinWith '\n' ls := foldLines_jlines h

theorem JLine.visible {l : Str} (h : JLine l) : Visible l := by
  have hl := h.last_not_ws
  cases hc : l.getLast? with
  | none => simp at hc; exact absurd hc h.ne_nil
  | some c => exact ⟨c, List.mem_of_getLast? hc, hl c hc⟩

theorem foldBody_noNl {ls : List Str} (h : ∀ l ∈ ls, '\n' ∉ l) : ∀ l ∈ foldBody ls, '\n' ∉ l := by
  intro l hl hm
  obtain ⟨m, hm1, hm2⟩ := adjE_mem l hl
  obtain ⟨k, hk1, hk2⟩ := adjS_mem m hm1
  exact h k hk1 (hk2.subset (hm2.subset hm))

theorem adjE_visible {ls : List Str} (h : ∀ l ∈ ls, Visible l) : ∀ l ∈ adjE ls, Visible l := by
  rcases List.eq_nil_or_concat ls with rfl | ⟨ini, l, rfl⟩
  · simp [adjE]
  · rw [List.concat_eq_append] at *
    rw [adjE_concat]
    intro x hx
    simp only [List.mem_append, List.mem_singleton] at hx
    rcases hx with hx | rfl
    · exact h x (by simp [hx])
    · exact trimEnd_visible (h l (by simp))

theorem foldBody_visible {ls : List Str} (h : ∀ l ∈ ls, Visible l) : ∀ l ∈ foldBody ls, Visible l :=
  adjE_visible (adjS_visible h)

theorem Visible.ne_nil {l : Str} (h : Visible l) : l ≠ [] := by
  obtain ⟨c, hc, _⟩ := h; exact List.ne_nil_of_mem hc

theorem foldBody_last {ls : List Str} : ∀ l, (foldBody ls).getLast? = some l → ∀ c, l.getLast? = some c → isWs c = false := by
  intro l hl
  unfold foldBody at hl
  rcases List.eq_nil_or_concat (adjS ls) with h0 | ⟨ini, m, h0⟩
  · rw [h0] at hl; simp [adjE] at hl
  · rw [h0, List.concat_eq_append, adjE_concat] at hl
    simp at hl; subst hl
    exact trimEnd_getLast m

/-- A section without blank lines. -/
def TSec.Full (t : TSec) : Prop := [] ∉ t.ls

/-- The section of a pool. -/
def poolSec (n suf : Str) (ls : List Str) : TSec := ⟨'@' :: (n ++ suf), foldBody ls, n, id⟩

theorem poolSec_spec {n suf : Str} {ls : List Str} (hn : '\n' ∉ n) (hs : '\n' ∉ suf)
    (hl : ∃ d, suf.getLast? = some d ∧ isWs d = false) (hv : ∀ l ∈ ls, Visible l) (hnl : ∀ l ∈ ls, '\n' ∉ l) :
    (poolSec n suf ls).Raw ∧ (poolSec n suf ls).Closed ∧ (poolSec n suf ls).Full ∧
      trim ('@' :: (n ++ (suf ++ '\n' :: foldLines ls))) = (poolSec n suf ls).text := by
  have hr : (poolSec n suf ls).Raw := by
    refine ⟨rfl, ?_⟩
    intro p hp
    simp only [poolSec, TSec.ls, List.mem_cons] at hp
    rcases hp with rfl | hp
    · simp [hn, hs]
    · exact foldBody_noNl hnl p hp
  have hc : (poolSec n suf ls).Closed := by
    intro q hq
    rcases ScreenLogic.last_concat hq with ⟨_, rfl⟩ | h1
    · obtain ⟨d, h2, h3⟩ := hl
      exact ⟨by simp [poolSec], fun c hc => ScreenLogic.getLast_suffix (hd := '@' :: n) (suf := suf) h2 h3 hc⟩
    · exact ⟨(foldBody_visible hv q (List.mem_of_getLast? h1)).ne_nil, foldBody_last q h1⟩
  refine ⟨hr, hc, ?_, ?_⟩
  · intro h0
    simp only [poolSec, TSec.ls, List.mem_cons] at h0
    rcases h0 with h0 | h0
    · simp at h0
    · exact (foldBody_visible hv _ h0).ne_nil rfl
  · rw [foldLines_eq ls hv, ← hr.trim_chunk hc]
    simp [poolSec, foldBody]

/-- The header of a section without lines loses the white space at its end. -/
def TSec.close (t : TSec) : TSec := if t.body = [] then { t with hd := trimEnd t.hd } else t

/-- The last section closed. -/
def closeLast : List TSec → List TSec
  | [] => []
  | [t] => [t.close]
  | t :: u :: ts => t :: closeLast (u :: ts)

theorem closeLast_concat (ts : List TSec) (t : TSec) : closeLast (ts ++ [t]) = ts ++ [t.close] := by
  induction ts with
  | nil => rfl
  | cons x ts ih =>
    cases ts with
    | nil => rfl
    | cons y ts => simp only [List.cons_append] at ih ⊢; rw [closeLast, ih]

theorem trimEnd_split (s : Str) : ∃ w, s = trimEnd s ++ w ∧ ∀ c ∈ w, isWs c = true := by
  unfold trimEnd
  refine ⟨(s.reverse.takeWhile isWs).reverse, ?_, ?_⟩
  · rw [← List.reverse_append, List.takeWhile_append_dropWhile, List.reverse_reverse]
  · intro c hc
    rw [List.mem_reverse] at hc
    exact List.all_takeWhile (p := isWs) (l := s.reverse) |> fun h => (List.all_eq_true.mp h) c hc

theorem trim_append_trimEnd (a s w : Str) (hw : ∀ c ∈ w, isWs c = true) :
    trim (a ++ (s ++ w)) = trim (a ++ (trimEnd s ++ w)) := by
  obtain ⟨v, h1, h2⟩ := trimEnd_split s
  have key : ∀ x v : Str, (∀ c ∈ v, isWs c = true) → trim (x ++ v) = trim x := by
    intro x v hv
    unfold trim
    rcases Classical.em (Visible x) with h | h
    · rw [trimStart_append h, trimEnd_append_ws hv]
    · have h3 := MoreBlock.not_visible h
      have e1 := trimStart_ws_append (w := x) (s := v) h3
      have e2 := trimStart_ws_append (w := v) (s := []) hv
      have e3 := trimStart_ws_append (w := x) (s := []) h3
      simp only [List.append_nil] at e2 e3
      rw [e1, e2, e3]
  conv => lhs; rw [h1]
  rw [← List.append_assoc, ← List.append_assoc, key _ w hw, ← List.append_assoc, key _ v h2, key _ w hw]

theorem trimEnd_header (n id : Str) : trimEnd ('@' :: (n ++ (s% ".java_" ++ id))) = '@' :: (n ++ (s% ".java_" ++ trimEnd id)) := by
  have e : ∀ x : Str, '@' :: (n ++ (s% ".java_" ++ x)) = ('@' :: (n ++ s% ".java_")) ++ x := by intro x; simp
  rw [e, e]
  rcases Classical.em (Visible id) with h | h
  · exact trimEnd_append h _
  · have hw := MoreBlock.not_visible h
    have h1 : trimEnd id = [] := by
      have := trimEnd_append_ws (s := []) hw
      simpa using this
    rw [h1, List.append_nil]
    refine trimEnd_frame hw ?_
    intro c hc
    exact ScreenLogic.getLast_suffix (hd := '@' :: n) (suf := s% ".java_") rfl (by decide) hc

namespace ScreenLogic
variable {s : ScreenLogic}

def varR (s : ScreenLogic) : Option TSec := s.variables.map fun p =>
  poolSec s.name (s% ".java_var") (p.map.map fun e => e.2.reconstruct)
def listR (s : ScreenLogic) : Option TSec := s.listVariables.map fun p =>
  poolSec s.name (s% ".java_list") (p.map.map fun e => e.2.reconstruct)
def compR (s : ScreenLogic) : Option TSec := s.components.map fun p =>
  poolSec s.name (s% ".java_components") (p.items.map Component.reconstruct)
def eventR (s : ScreenLogic) : Option TSec := s.events.map fun p =>
  poolSec s.name (s% ".java_events") (p.items.map Event.reconstruct)
def funcR (s : ScreenLogic) : Option TSec := s.moreBlocks.map fun p =>
  poolSec s.name (s% ".java_func") (p.map.map fun e => e.2.reconstruct)
def blocksR (s : ScreenLogic) : List TSec := closeLast (s.blockContainers.map s.blockSec)
def blockItemsR (s : ScreenLogic) : List Item :=
  if s.blockContainers = [] then [none] else s.blocksR.map some

/-- A section of the text of a screen: header and lines. -/
inductive RSec (s : ScreenLogic) : Str → List Str → Prop
  | var {p : VariablePool} (h : s.variables = some p) :
    RSec s ('@' :: (s.name ++ s% ".java_var")) (foldBody (p.map.map fun e => e.2.reconstruct))
  | list {p : ListVariablePool} (h : s.listVariables = some p) :
    RSec s ('@' :: (s.name ++ s% ".java_list")) (foldBody (p.map.map fun e => e.2.reconstruct))
  | comp {p : ComponentPool} (h : s.components = some p) :
    RSec s ('@' :: (s.name ++ s% ".java_components")) (foldBody (p.items.map Component.reconstruct))
  | event {p : EventPool} (h : s.events = some p) :
    RSec s ('@' :: (s.name ++ s% ".java_events")) (foldBody (p.items.map Event.reconstruct))
  | func {p : MoreBlockPool} (h : s.moreBlocks = some p) :
    RSec s ('@' :: (s.name ++ s% ".java_func")) (foldBody (p.map.map fun e => e.2.reconstruct))
  | block {e : Str × BlockContainer} (h : e ∈ s.blockContainers)
      (hl : s.blockContainers.getLast? = some e → e.2.blocks ≠ []) :
    RSec s ('@' :: (s.name ++ (s% ".java_" ++ e.1))) (e.2.blocks.map Block.reconstruct)
  | last {e : Str × BlockContainer} (h : s.blockContainers.getLast? = some e) (hb : e.2.blocks = []) :
    RSec s ('@' :: (s.name ++ (s% ".java_" ++ trimEnd e.1))) []

/-- A section of the text of a screen as it should be. -/
structure Good (s : ScreenLogic) (t : TSec) : Prop where
  raw : t.Raw
  full : t.Full
  sec : RSec s t.hd t.body

theorem Clean.varGood (h : s.Clean) {p : VariablePool} (hp : s.variables = some p) :
    ∃ t, s.varR = some t ∧ s.Good t ∧ t.Closed ∧ trim ('@' :: (s.name ++ (s% ".java_var\n" ++ p.reconstruct))) = t.text := by
  obtain ⟨h1, h2, h3, h4⟩ := poolSec_spec (suf := s% ".java_var") (ls := p.map.map fun e => e.2.reconstruct) h.name (by decide)
    ⟨'r', rfl, by decide⟩ (by simp only [List.mem_map]; rintro l ⟨e, _, rfl⟩; exact Variable.suffixNamed.visible _)
    (by simp only [List.mem_map]; rintro l ⟨e, he, rfl⟩; exact Variable.suffixNamed.noNl_line _ (h.var p hp e he).2)
  exact ⟨_, by rw [varR, hp]; rfl, ⟨h1, h3, .var hp⟩, h2, h4⟩

theorem Clean.listGood (h : s.Clean) {p : ListVariablePool} (hp : s.listVariables = some p) :
    ∃ t, s.listR = some t ∧ s.Good t ∧ t.Closed ∧ trim ('@' :: (s.name ++ (s% ".java_list\n" ++ p.reconstruct))) = t.text := by
  obtain ⟨h1, h2, h3, h4⟩ := poolSec_spec (suf := s% ".java_list") (ls := p.map.map fun e => e.2.reconstruct) h.name (by decide)
    ⟨'t', rfl, by decide⟩ (by simp only [List.mem_map]; rintro l ⟨e, _, rfl⟩; exact ListVariable.suffixNamed.visible _)
    (by simp only [List.mem_map]; rintro l ⟨e, he, rfl⟩; exact ListVariable.suffixNamed.noNl_line _ (h.list p hp e he).2)
  exact ⟨_, by rw [listR, hp]; rfl, ⟨h1, h3, .list hp⟩, h2, h4⟩

theorem Clean.compGood (h : s.Clean) {p : ComponentPool} (hp : s.components = some p) :
    ∃ t, s.compR = some t ∧ s.Good t ∧ t.Closed ∧
      trim ('@' :: (s.name ++ (s% ".java_components\n" ++ p.reconstruct))) = t.text := by
  have hj : ∀ l ∈ p.items.map Component.reconstruct, JLine l := by
    simp only [List.mem_map]; rintro l ⟨c, _, rfl⟩; exact c.jline
  obtain ⟨h1, h2, h3, h4⟩ := poolSec_spec (suf := s% ".java_components") (ls := p.items.map Component.reconstruct) h.name (by decide)
    ⟨'s', rfl, by decide⟩ (fun l hl => (hj l hl).visible) (fun l hl => (hj l hl).noNl)
  refine ⟨_, by rw [compR, hp]; rfl, ⟨h1, h3, .comp hp⟩, h2, ?_⟩
  rw [← h4, ComponentPool.reconstruct_eq, ← foldLines_jlines hj]; rfl

theorem Clean.eventGood (h : s.Clean) {p : EventPool} (hp : s.events = some p) :
    ∃ t, s.eventR = some t ∧ s.Good t ∧ t.Closed ∧
      trim ('@' :: (s.name ++ (s% ".java_events\n" ++ p.reconstruct))) = t.text := by
  have hj : ∀ l ∈ p.items.map Event.reconstruct, JLine l := by
    simp only [List.mem_map]; rintro l ⟨c, _, rfl⟩; exact c.jline
  obtain ⟨h1, h2, h3, h4⟩ := poolSec_spec (suf := s% ".java_events") (ls := p.items.map Event.reconstruct) h.name (by decide)
    ⟨'s', rfl, by decide⟩ (fun l hl => (hj l hl).visible) (fun l hl => (hj l hl).noNl)
  exact ⟨_, by rw [eventR, hp]; rfl, ⟨h1, h3, .event hp⟩, h2, h4⟩

theorem Clean.funcGood (h : s.Clean) {p : MoreBlockPool} (hp : s.moreBlocks = some p) :
    ∃ t, s.funcR = some t ∧ s.Good t ∧ t.Closed ∧ trim ('@' :: (s.name ++ (s% ".java_func\n" ++ p.reconstruct))) = t.text := by
  obtain ⟨h1, h2, h3, h4⟩ := poolSec_spec (suf := s% ".java_func") (ls := p.map.map fun e => e.2.reconstruct) h.name (by decide)
    ⟨'c', rfl, by decide⟩ (by simp only [List.mem_map]; rintro l ⟨e, _, rfl⟩; exact MoreBlock.visible _)
    (by simp only [List.mem_map]; rintro l ⟨e, he, rfl⟩
        exact MoreBlock.noNl_line (h.func p hp e he).2.1 (h.func p hp e he).2.2.1)
  exact ⟨_, by rw [funcR, hp]; rfl, ⟨h1, h3, .func hp⟩, h2, h4⟩

theorem block_full (e : Str × BlockContainer) : (s.blockSec e).Full := by
  intro h0
  simp only [blockSec, TSec.ls, List.mem_cons, List.mem_map] at h0
  rcases h0 with h0 | ⟨b, _, h0⟩
  · simp at h0
  · exact b.jline.ne_nil h0

theorem Clean.blockRaw (h : s.Clean) {e : Str × BlockContainer} (he : e ∈ s.blockContainers) : (s.blockSec e).Raw := by
  refine ⟨rfl, ?_⟩
  intro q hq
  simp only [TSec.ls, blockSec, List.mem_cons, List.mem_map] at hq
  rcases hq with rfl | ⟨b, _, rfl⟩
  · exact hd_noNl h.name (by simpa using (h.blocks e he).1)
  · exact b.jline.noNl

/-- The block sections. -/
theorem Clean.blocksGood (h : s.Clean) (hnd : s.blockContainers.keys.Nodup) (hne : s.blockContainers ≠ []) :
    (∀ t ∈ s.blocksR, s.Good t) ∧ (∀ t, s.blocksR.getLast? = some t → t.Closed) ∧ s.blocksR ≠ [] ∧
      trim (Logic.blocksText s) = trim (s.blocksR.flatMap fun t => t.text ++ ['\n', '\n']) := by
  rcases List.eq_nil_or_concat s.blockContainers with h0 | ⟨ini, e, h0⟩
  · exact absurd h0 hne
  rw [List.concat_eq_append] at h0
  have hR : s.blocksR = ini.map s.blockSec ++ [(s.blockSec e).close] := by
    rw [blocksR, h0, List.map_append, List.map_singleton, closeLast_concat]
  have hem : e ∈ s.blockContainers := by rw [h0]; simp
  have hlast : s.blockContainers.getLast? = some e := by rw [h0]; simp
  have hclose : s.Good (s.blockSec e).close ∧ (s.blockSec e).close.Closed := by
    unfold TSec.close
    split
    next hb =>
      have hb' : e.2.blocks = [] := by simpa [blockSec] using hb
      have ehd : trimEnd (s.blockSec e).hd = '@' :: (s.name ++ (s% ".java_" ++ trimEnd e.1)) := trimEnd_header _ _
      have hnl : '\n' ∉ '@' :: (s.name ++ (s% ".java_" ++ trimEnd e.1)) := by
        refine hd_noNl h.name ?_
        have := (h.blocks e hem).1
        simp only [List.mem_append, not_or]
        exact ⟨by decide, fun hm => this ((trimEnd_prefix e.1).subset hm)⟩
      refine ⟨⟨⟨?_, ?_⟩, ?_, ?_⟩, ?_⟩
      · show (trimEnd (s.blockSec e).hd).head? = _
        rw [ehd]; rfl
      · intro q hq
        simp only [TSec.ls, hb, List.mem_singleton] at hq
        rw [hq, ehd]; exact hnl
      · intro hq
        simp only [TSec.ls, hb, List.mem_singleton] at hq
        rw [ehd] at hq; simp at hq
      · show RSec s (trimEnd (s.blockSec e).hd) (s.blockSec e).body
        rw [ehd, hb]; exact .last hlast hb'
      · intro q hq
        simp only [TSec.ls, hb, List.getLast?_singleton, Option.some.injEq] at hq
        subst hq
        refine ⟨by rw [ehd]; simp, ?_⟩
        exact trimEnd_getLast _
    next hb =>
      have hb' : e.2.blocks ≠ [] := by simpa [blockSec] using hb
      exact ⟨⟨h.blockRaw hem, block_full e, .block hem fun _ => hb'⟩, blockClosed fun h1 => absurd h1 hb'⟩
  refine ⟨?_, ?_, by rw [hR]; simp, ?_⟩
  · intro t ht
    rw [hR, List.mem_append, List.mem_singleton, List.mem_map] at ht
    rcases ht with ⟨x, hx, rfl⟩ | rfl
    · have hxm : x ∈ s.blockContainers := by rw [h0]; simp [hx]
      refine ⟨h.blockRaw hxm, block_full x, .block hxm ?_⟩
      intro hl
      rw [hlast] at hl
      simp only [Option.some.injEq] at hl
      subst hl
      rw [h0, LMap.keys_append, List.nodup_append] at hnd
      exact absurd rfl (hnd.2.2 e.1 (List.mem_map_of_mem (f := (·.1)) hx) e.1 (by simp))
    · exact hclose.1
  · intro t ht
    rw [hR] at ht
    simp at ht; subst ht
    exact hclose.2
  · rw [blocksText_eq, hR, h0, List.map_append, List.flatMap_append, List.flatMap_append]
    simp only [List.map_singleton, List.flatMap_singleton]
    unfold TSec.close
    split
    next hb =>
      have e1 : (s.blockSec e).text = (s.blockSec e).hd := by simp [TSec.text, TSec.ls, hb, joinWith]
      have e2 : TSec.text { s.blockSec e with hd := trimEnd (s.blockSec e).hd } = trimEnd (s.blockSec e).hd := by
        simp [TSec.text, TSec.ls, hb, joinWith]
      rw [e1, e2]
      exact trim_append_trimEnd _ _ _ (by simp [isWs])
    next hb => rfl

theorem Clean.blocksText (h : s.Clean) (hnd : s.blockContainers.keys.Nodup) :
    '\n' :: '\n' :: trim (Logic.blocksText s) = itemsText s.blockItemsR := by
  unfold blockItemsR
  split
  next h0 => rw [blocksText_eq, h0]; rfl
  next h0 =>
    obtain ⟨h1, h2, h3, h4⟩ := h.blocksGood hnd h0
    rw [h4, trim_blocks (fun t ht => (h1 t ht).raw) h2 h3]

end ScreenLogic

namespace Logic
open ScreenLogic

/-- The chunks of a logic file as written. -/
def itemsR (ss : List ScreenLogic) : List Item :=
  (ss.filterMap varR ++ ss.filterMap listR ++ ss.filterMap compR ++ ss.filterMap eventR ++ ss.filterMap funcR).map some ++
    ss.flatMap blockItemsR

theorem itemsR_good {ss : List ScreenLogic} (h : ∀ s ∈ ss, s.Clean) (hnd : ∀ s ∈ ss, s.blockContainers.keys.Nodup) :
    ∀ t, some t ∈ itemsR ss → ∃ s ∈ ss, s.Good t := by
  intro t hi
  simp only [itemsR, List.mem_append, List.mem_map, List.mem_filterMap, List.mem_flatMap] at hi
  rcases hi with ⟨t', hi, ht'⟩ | ⟨s, hs, hi⟩
  · simp at ht'; subst ht'
    rcases hi with (((⟨s, hs, hi⟩ | ⟨s, hs, hi⟩) | ⟨s, hs, hi⟩) | ⟨s, hs, hi⟩) | ⟨s, hs, hi⟩ <;> refine ⟨s, hs, ?_⟩
    · cases hp : s.variables with
      | none => simp [varR, hp] at hi
      | some p => obtain ⟨u, h1, h2, _⟩ := (h s hs).varGood hp; rw [hi] at h1; simp at h1; subst h1; exact h2
    · cases hp : s.listVariables with
      | none => simp [listR, hp] at hi
      | some p => obtain ⟨u, h1, h2, _⟩ := (h s hs).listGood hp; rw [hi] at h1; simp at h1; subst h1; exact h2
    · cases hp : s.components with
      | none => simp [compR, hp] at hi
      | some p => obtain ⟨u, h1, h2, _⟩ := (h s hs).compGood hp; rw [hi] at h1; simp at h1; subst h1; exact h2
    · cases hp : s.events with
      | none => simp [eventR, hp] at hi
      | some p => obtain ⟨u, h1, h2, _⟩ := (h s hs).eventGood hp; rw [hi] at h1; simp at h1; subst h1; exact h2
    · cases hp : s.moreBlocks with
      | none => simp [funcR, hp] at hi
      | some p => obtain ⟨u, h1, h2, _⟩ := (h s hs).funcGood hp; rw [hi] at h1; simp at h1; subst h1; exact h2
  · refine ⟨s, hs, ?_⟩
    unfold blockItemsR at hi
    split at hi
    · simp at hi
    next h0 => simp at hi; exact ((h s hs).blocksGood (hnd s hs) h0).1 t hi

theorem itemsR_closed {ss : List ScreenLogic} (h : ∀ s ∈ ss, s.Clean) (hnd : ∀ s ∈ ss, s.blockContainers.keys.Nodup) :
    ItemsClosed (itemsR ss) := by
  have hb : ∀ (ss : List ScreenLogic), (∀ s ∈ ss, s.Clean) → (∀ s ∈ ss, s.blockContainers.keys.Nodup) →
      ItemsClosed (ss.flatMap blockItemsR) := by
    intro ss
    induction ss with
    | nil => intro _ _ t ht; simp at ht
    | cons s ss ih =>
      intro h hnd t ht
      rw [List.flatMap_cons, List.filterMap_append, List.getLast?_append] at ht
      cases hl : ((ss.flatMap blockItemsR).filterMap id).getLast? with
      | some u =>
        rw [hl] at ht; simp at ht; subst ht
        exact ih (fun s' hs' => h s' (by simp [hs'])) (fun s' hs' => hnd s' (by simp [hs'])) _ hl
      | none =>
        rw [hl] at ht
        simp only [Option.none_or] at ht
        unfold blockItemsR at ht
        split at ht
        · simp at ht
        next h0 =>
          refine ((h s (by simp)).blocksGood (hnd s (by simp)) h0).2.1 t ?_
          rw [List.filterMap_map] at ht
          simpa [Function.comp_def] using ht
  intro t ht
  unfold itemsR at ht
  rw [List.filterMap_append, List.getLast?_append] at ht
  cases hl : ((ss.flatMap blockItemsR).filterMap id).getLast? with
  | some u =>
    rw [hl] at ht; simp at ht; subst ht
    exact hb ss h hnd _ hl
  | none =>
    rw [hl] at ht
    simp only [Option.none_or] at ht
    have := List.mem_of_getLast? ht
    simp only [List.filterMap_map, Function.comp_def, id, List.filterMap_some, List.mem_append,
      List.mem_filterMap] at this
    rcases this with (((⟨s, hs, hi⟩ | ⟨s, hs, hi⟩) | ⟨s, hs, hi⟩) | ⟨s, hs, hi⟩) | ⟨s, hs, hi⟩
    · cases hp : s.variables with
      | none => simp [varR, hp] at hi
      | some p => obtain ⟨u, h1, _, h2, _⟩ := (h s hs).varGood hp; rw [hi] at h1; simp at h1; subst h1; exact h2
    · cases hp : s.listVariables with
      | none => simp [listR, hp] at hi
      | some p => obtain ⟨u, h1, _, h2, _⟩ := (h s hs).listGood hp; rw [hi] at h1; simp at h1; subst h1; exact h2
    · cases hp : s.components with
      | none => simp [compR, hp] at hi
      | some p => obtain ⟨u, h1, _, h2, _⟩ := (h s hs).compGood hp; rw [hi] at h1; simp at h1; subst h1; exact h2
    · cases hp : s.events with
      | none => simp [eventR, hp] at hi
      | some p => obtain ⟨u, h1, _, h2, _⟩ := (h s hs).eventGood hp; rw [hi] at h1; simp at h1; subst h1; exact h2
    · cases hp : s.moreBlocks with
      | none => simp [funcR, hp] at hi
      | some p => obtain ⟨u, h1, _, h2, _⟩ := (h s hs).funcGood hp; rw [hi] at h1; simp at h1; subst h1; exact h2

theorem reconstruct_itemsR (l : Logic) (h : ∀ s ∈ l.screens.map (·.2), s.Clean)
    (hnd : ∀ s ∈ l.screens.map (·.2), s.blockContainers.keys.Nodup) :
    l.reconstruct = trim (itemsText (itemsR (l.screens.map (·.2)))) := by
  unfold reconstruct chunks
  simp only
  generalize l.screens.map (·.2) = ss at h hnd
  congr 1
  rw [List.foldl_append, List.foldl_append, List.foldl_append, List.foldl_append, List.foldl_append]
  rw [chunk_items (get := ScreenLogic.variables) (sec := varR), chunk_items (get := ScreenLogic.listVariables) (sec := listR),
    chunk_items (get := ScreenLogic.components) (sec := compR), chunk_items (get := ScreenLogic.events) (sec := eventR),
    chunk_items (get := ScreenLogic.moreBlocks) (sec := funcR)]
  · have hb : ∀ (ss : List ScreenLogic) (_ : ∀ s ∈ ss, s.Clean) (_ : ∀ s ∈ ss, s.blockContainers.keys.Nodup) (acc : Str),
        (ss.map Logic.blocksText).foldl (fun acc i => acc ++ (s% "\n\n" ++ trim i)) acc =
        acc ++ itemsText (ss.flatMap blockItemsR) := by
      intro ss
      induction ss with
      | nil => intro _ _ acc; simp [itemsText]
      | cons s ss ih =>
        intro h hnd acc
        have := (h s (by simp)).blocksText (hnd s (by simp))
        rw [List.map_cons, List.foldl_cons, ih (fun s' hs' => h s' (by simp [hs'])) (fun s' hs' => hnd s' (by simp [hs'])),
          List.flatMap_cons, itemsText_append, ← this]
        simp
    rw [hb ss h hnd]
    simp only [itemsR, List.map_append, itemsText_append, List.nil_append, List.append_assoc]
  · intro s hs p hp; obtain ⟨t, h1, _, _, h2⟩ := (h s hs).funcGood hp; exact ⟨t, h1, h2⟩
  · intro s hs; rw [funcR, hs]; rfl
  · intro s hs p hp; obtain ⟨t, h1, _, _, h2⟩ := (h s hs).eventGood hp; exact ⟨t, h1, h2⟩
  · intro s hs; rw [eventR, hs]; rfl
  · intro s hs p hp; obtain ⟨t, h1, _, _, h2⟩ := (h s hs).compGood hp; exact ⟨t, h1, h2⟩
  · intro s hs; rw [compR, hs]; rfl
  · intro s hs p hp; obtain ⟨t, h1, _, _, h2⟩ := (h s hs).listGood hp; exact ⟨t, h1, h2⟩
  · intro s hs; rw [listR, hs]; rfl
  · intro s hs p hp; obtain ⟨t, h1, _, _, h2⟩ := (h s hs).varGood hp; exact ⟨t, h1, h2⟩
  · intro s hs; rw [varR, hs]; rfl

theorem splitOn_items (x : Item) (xs : List Item) (h : ∀ t, some t ∈ x :: xs → t.Full) :
    ∀ p ∈ (x.ls ++ xs.flatMap fun i => [] :: i.ls).splitOn ([] : Str), p = [] ∨ ∃ t, some t ∈ x :: xs ∧ p = t.ls := by
  induction xs generalizing x with
  | nil =>
    intro p hp
    cases x with
    | none =>
      have e : (Item.ls none ++ ([] : List Item).flatMap fun i => [] :: i.ls) = [] ++ [] :: [] := rfl
      rw [e, List.splitOn_append_cons_self] at hp
      simp [List.splitOn_nil] at hp
      exact .inl hp
    | some t =>
      have e : (Item.ls (some t) ++ ([] : List Item).flatMap fun i => [] :: i.ls) = t.ls := by simp [Item.ls]
      rw [e, List.splitOn_eq_singleton (h t (by simp))] at hp
      simp at hp
      exact .inr ⟨t, by simp, hp⟩
  | cons y ys ih =>
    intro p hp
    have ih := ih y (fun t ht => h t (by grind))
    have e : (x.ls ++ (y :: ys).flatMap fun i => [] :: i.ls) = x.ls ++ [] :: (y.ls ++ ys.flatMap fun i => [] :: i.ls) := by simp
    rw [e, List.splitOn_append_cons_self, List.mem_append] at hp
    rcases hp with hp | hp
    · cases x with
      | none =>
        have e : Item.ls none = [] ++ [] :: [] := rfl
        rw [e, List.splitOn_append_cons_self] at hp
        simp [List.splitOn_nil] at hp
        exact .inl hp
      | some t =>
        rw [show Item.ls (some t) = t.ls from rfl, List.splitOn_eq_singleton (h t (by simp))] at hp
        simp at hp
        exact .inr ⟨t, by simp, hp⟩
    · rcases ih p hp with rfl | ⟨t, h1, h2⟩
      · exact .inl rfl
      · exact .inr ⟨t, by grind, h2⟩

/-- The sections of the text of chunks are among the chunks. -/
theorem sections_items {is : List Item} (h : ∀ t, some t ∈ is → t.Raw ∧ t.Full) (hc : ItemsClosed is) :
    ∀ p ∈ sections (lines (trim (itemsText is))), ∃ t, some t ∈ is ∧ p = t.ls := by
  intro p hp
  have hsec : isSection p = true := (List.all_eq_true.mp List.all_takeWhile) p hp
  have hp' := (List.takeWhile_sublist _).subset hp
  have hne : p ≠ [] := by rintro rfl; simp [isSection] at hsec
  rcases items_core is with hn | ⟨a, s, r, b, rfl, ha, hb, t, ht⟩
  · have h1 : trim (itemsText is) = [] := by
      have := trim_frame (w := itemsText is) (s := []) (w' := []) (itemsText_none hn) (by simp) (by simp) (by simp)
      simpa using this
    rw [h1] at hp'
    have e : lines [] = [] ++ [] :: [] := rfl
    rw [e, List.splitOn_append_cons_self] at hp'
    simp [List.splitOn_nil] at hp'
    exact absurd hp' hne
  · have ht' : t.Closed := hc t (items_last hb ht)
    rw [trim_items ha hb (h s (by simp)).1 ht' ht] at hp'
    have hl := lines_items (some s) r (fun i hi t ht => (h t (by subst ht; grind)).1)
    rw [show Item.text (some s) = s.text from rfl] at hl
    rw [hl] at hp'
    rcases splitOn_items (some s) r (fun t ht => (h t (by grind)).2) p hp' with h0 | ⟨u, h1, h2⟩
    · exact absurd h0 hne
    · exact ⟨u, by grind, h2⟩

end Logic

/-! ### from the screens that are read back to their parts -/

theorem endsWith_getLast {p l : Str} {c d : Char} (hp : p.getLast? = some c) (hl : l.getLast? = some d) (h : c ≠ d) :
    endsWith p l = false := by
  cases he : endsWith p l with
  | false => rfl
  | true =>
    exfalso
    unfold endsWith at he
    have hs : p <:+ l := List.isSuffixOf_iff_suffix.mp he
    obtain ⟨t, rfl⟩ := hs
    rw [List.getLast?_append, hp] at hl
    simp at hl
    exact h hl

theorem endsWith_append (a p : Str) : endsWith p (a ++ p) = true := by
  unfold endsWith
  exact List.isSuffixOf_iff_suffix.mpr ⟨a, rfl⟩

theorem header_self {n c : Str} (h1 : ¬ javaSep <:+: n) (h2 : ¬ javaSep <:+: c) :
    BlockContainerHeader.parse ('@' :: (n ++ (javaSep ++ c))) = .ok ⟨n, c⟩ :=
  BlockContainerHeader.parse_ok_iff.mpr ⟨h1, h2, .inl rfl⟩

theorem infix_trimEnd {p c : Str} (h : ¬ p <:+: c) : ¬ p <:+: trimEnd c :=
  fun hi => h (hi.trans (trimEnd_prefix c).isInfix)

namespace Logic
open ScreenLogic

/-- The type invariants of a logic: every map has each key once, screens are under their names. -/
structure Inv (l : Logic) : Prop where
  key : ∀ e ∈ l.screens, e.1 = e.2.name
  nodup : l.screens.keys.Nodup
  var : ∀ s ∈ l.screens.map (·.2), ∀ p, s.variables = some p → p.map.keys.Nodup
  list : ∀ s ∈ l.screens.map (·.2), ∀ p, s.listVariables = some p → p.map.keys.Nodup
  func : ∀ s ∈ l.screens.map (·.2), ∀ p, s.moreBlocks = some p → p.map.keys.Nodup
  blocks : ∀ s ∈ l.screens.map (·.2), s.blockContainers.keys.Nodup

variable {l : Logic}

theorem Inv.get (h : l.Inv) {s : ScreenLogic} (hs : s ∈ l.screens.map (·.2)) : l.screens.get s.name = some s := by
  simp only [List.mem_map] at hs
  obtain ⟨e, he, rfl⟩ := hs
  apply LMap.get_of_mem h.nodup
  rw [← h.key e he]; exact he

theorem Inv.unique (h : l.Inv) {s t : ScreenLogic} (hs : s ∈ l.screens.map (·.2)) (ht : t ∈ l.screens.map (·.2))
    (he : s.name = t.name) : s = t := by
  have h1 := h.get hs
  rw [he, h.get ht] at h1
  simpa using h1.symm

/-- A container of a screen that is read back. -/
theorem block_part (h : l.Inv) (hcl : ∀ s ∈ l.screens.map (·.2), s.Clean) {s : ScreenLogic} (hs : s ∈ l.screens.map (·.2))
    (ht : Traced (fun hd body => ∃ s ∈ l.screens.map (·.2), RSec s hd body) s.name s) {e : Str × BlockContainer}
    (he : e ∈ s.blockContainers) :
    BlockContainerHeader.parse (BlockContainerHeader.reconstruct ⟨s.name, e.1⟩) = .ok ⟨s.name, e.1⟩ ∧
    NotPool (BlockContainerHeader.reconstruct ⟨s.name, e.1⟩) ∧
    (s.blockContainers.getLast? = some e → e.2.blocks = [] → trimEnd e.1 = e.1) := by
  obtain ⟨hd, body, bs, ⟨s', hs', hr⟩, hn, hp, _, _⟩ := ht.blocks e.1 e.2 (LMap.get_of_mem (h.blocks s hs) he)
  cases hr with
  | var _ => have := hn.1; rw [← List.cons_append, show s% ".java_var" = ['.'] ++ s% "java_var" from rfl, ← List.append_assoc, endsWith_append] at this; simp at this
  | list _ => have := hn.2.1; rw [← List.cons_append, show s% ".java_list" = ['.'] ++ s% "java_list" from rfl, ← List.append_assoc, endsWith_append] at this; simp at this
  | comp _ => have := hn.2.2.1; rw [← List.cons_append, show s% ".java_components" = ['.'] ++ s% "java_components" from rfl, ← List.append_assoc, endsWith_append] at this; simp at this
  | event _ => have := hn.2.2.2.1; rw [← List.cons_append, show s% ".java_events" = ['.'] ++ s% "java_events" from rfl, ← List.append_assoc, endsWith_append] at this; simp at this
  | func _ => have := hn.2.2.2.2; rw [← List.cons_append, show s% ".java_func" = ['.'] ++ s% "java_func" from rfl, ← List.append_assoc, endsWith_append] at this; simp at this
  | @block e' he' hl =>
    have hc := (hcl s' hs').blocks e' he'
    have h1 := header_self hc.2.1 hc.2.2
    have h2 := hp
    rw [show s% ".java_" = javaSep from rfl, h1] at h2
    simp only [Out.ok.injEq, BlockContainerHeader.mk.injEq] at h2
    obtain ⟨h3, h4⟩ := h2
    have := h.unique hs' hs h3
    subst this
    have he2 : e' = e := by
      have g1 := LMap.get_of_mem (h.blocks s' hs) he
      have g2 := LMap.get_of_mem (h.blocks s' hs) he'
      rw [h4, g1] at g2
      exact Prod.ext h4 (by simpa using g2.symm)
    subst he2
    exact ⟨hp, hn, fun hg hb => absurd hb (hl hg)⟩
  | @last e' hg hb =>
    have he' := List.mem_of_getLast? hg
    have hc := (hcl s' hs').blocks e' he'
    have h1 := header_self hc.2.1 (infix_trimEnd hc.2.2)
    have h2 := hp
    rw [show s% ".java_" = javaSep from rfl, h1] at h2
    simp only [Out.ok.injEq, BlockContainerHeader.mk.injEq] at h2
    obtain ⟨h3, h4⟩ := h2
    have := h.unique hs' hs h3
    subst this
    have e1 : BlockContainerHeader.reconstruct ⟨s'.name, e.1⟩ = '@' :: (s'.name ++ (s% ".java_" ++ trimEnd e'.1)) := by
      rw [h4]; rfl
    rw [e1]
    refine ⟨hp, hn, fun _ _ => ?_⟩
    rw [← h4]
    exact trimEnd_eq_self.mpr (trimEnd_getLast _)

/-- The headers of the sections of containers are not pool headers. -/
theorem block_not {hd : Str} {body : List Str} {s : ScreenLogic}
    (hh : ∀ e ∈ s.blockContainers, NotPool (BlockContainerHeader.reconstruct ⟨s.name, e.1⟩) ∧
      (s.blockContainers.getLast? = some e → e.2.blocks = [] → trimEnd e.1 = e.1))
    (hr : RSec s hd body) : NotPool hd ∨
      (∃ p, s.variables = some p ∧ hd = '@' :: (s.name ++ s% ".java_var") ∧ body = foldBody (p.map.map fun e => e.2.reconstruct)) ∨
      (∃ p, s.listVariables = some p ∧ hd = '@' :: (s.name ++ s% ".java_list") ∧ body = foldBody (p.map.map fun e => e.2.reconstruct)) ∨
      (∃ p, s.moreBlocks = some p ∧ hd = '@' :: (s.name ++ s% ".java_func") ∧ body = foldBody (p.map.map fun e => e.2.reconstruct)) ∨
      (hd.getLast? = some 's') := by
  cases hr with
  | var h => exact .inr (.inl ⟨_, h, rfl, rfl⟩)
  | list h => exact .inr (.inr (.inl ⟨_, h, rfl, rfl⟩))
  | comp h => refine .inr (.inr (.inr (.inr ?_))); rw [← List.cons_append, List.getLast?_append]; rfl
  | event h => refine .inr (.inr (.inr (.inr ?_))); rw [← List.cons_append, List.getLast?_append]; rfl
  | func h => exact .inr (.inr (.inr (.inl ⟨_, h, rfl, rfl⟩)))
  | block h hl => exact .inl (hh _ h).1
  | last h hb =>
    have := hh _ (List.mem_of_getLast? h)
    have h2 := this.2 h hb
    rw [h2]
    exact .inl this.1

theorem pool_last (k suf : Str) (x c : Char) (h : suf.getLast? = some c) : ('@' :: (k ++ x :: suf)).getLast? = some c := by
  rw [← List.cons_append, List.getLast?_append, List.getLast?_cons, h]; rfl

theorem pool_name {k n : Str} {x : Char} {suf : Str} (h : '@' :: (k ++ x :: suf) = '@' :: (n ++ '.' :: suf)) : k = n := by
  simp only [List.cons.injEq, true_and] at h
  exact List.append_inj_left' h (by simp)

theorem not_pool_self (k suf : Str) (x : Char) : endsWith suf ('@' :: (k ++ x :: suf)) = true := by
  have : '@' :: (k ++ x :: suf) = ('@' :: (k ++ [x])) ++ suf := by simp
  rw [this]; exact endsWith_append _ _

theorem readMap_foldLines {ε α : Type} {p : Str → Out ε α} {key : α → Str} {ls : List Str} {vs : List α} {m : LMap Str α}
    (hv : ∀ l ∈ ls, Visible l) (hn : ∀ l ∈ ls, '\n' ∉ l) (hr : PoolReads p (foldBody ls) vs)
    (hm : m = LMap.collect (vs.map fun v => (key v, v))) :
    readMap p PoolError.mk key (foldLines ls) = .ok m := by
  by_cases hne : ls = []
  · subst hne
    have : vs = [] := by cases hr; rfl
    subst this
    subst hm
    exact readMap_nil
  · subst hm
    apply readMap_of_reads
    rw [lines_foldLines hne hv hn]
    exact hr

/-- **The logic file, converse.** When the screens are read back, their parts survive on their own. -/
theorem parts_of_round_trip (h : l.Inv) {l' : Logic} (hp : parse l.reconstruct = .ok l')
    (hg : ∀ k, l'.screens.get k = l.screens.get k) : ∀ s ∈ l.screens.map (·.2), s.PartsOk := by
  have hcl : ∀ s ∈ l.screens.map (·.2), s.Clean := by
    intro s hs
    have h1 : l'.screens.get s.name = some s := by rw [hg]; exact h.get hs
    obtain ⟨h2, h3⟩ := traced_parse (P := fun hd body => ∀ l ∈ hd :: body, '\n' ∉ l) hp
      (fun hd body hm => sections_noNl hm) h1
    exact h2.clean h3 (h.blocks s hs)
  have htr : ∀ s ∈ l.screens.map (·.2), Traced (fun hd body => ∃ s ∈ l.screens.map (·.2), RSec s hd body) s.name s := by
    intro s hs
    have h1 : l'.screens.get s.name = some s := by rw [hg]; exact h.get hs
    refine (traced_parse hp ?_ h1).1
    intro hd body hm
    rw [reconstruct_itemsR l hcl h.blocks] at hm
    have hgood := itemsR_good hcl h.blocks
    obtain ⟨t, h2, h3⟩ := sections_items (fun t ht => by obtain ⟨_, _, hx⟩ := hgood t ht; exact ⟨hx.raw, hx.full⟩)
      (itemsR_closed hcl h.blocks) _ hm
    obtain ⟨s', hs', hx⟩ := hgood t h2
    simp only [TSec.ls, List.cons.injEq] at h3
    obtain ⟨rfl, rfl⟩ := h3
    exact ⟨s', hs', hx.sec⟩
  have hbl := fun s hs (e : Str × BlockContainer) (he : e ∈ s.blockContainers) => block_part h hcl hs (htr s hs) he
  have hnot := fun s hs hd body => block_not (s := s) (hd := hd) (body := body) fun e he => (hbl s hs e he).2
  intro s hs
  refine ⟨(hcl s hs).name, h.var s hs, ?_, h.list s hs, ?_, h.func s hs, ?_, h.blocks s hs, ?_, ?_⟩
  · intro p hp
    obtain ⟨x, body, vs, _, ⟨s', hs', hr⟩, hvs, hpe⟩ := (htr s hs).var p hp
    have hc := pool_last s.name (s% "java_var") x 'r' rfl
    rcases hnot s' hs' _ _ hr with h1 | ⟨q, hq, h1, h2⟩ | ⟨q, hq, h1, h2⟩ | ⟨q, hq, h1, h2⟩ | h1
    · have := h1.1; rw [not_pool_self] at this; simp at this
    · have := pool_name h1
      have := h.unique hs hs' this
      subst this
      rw [hp] at hq; simp at hq; subst hq
      subst h2
      rw [VariablePool.parse_eq, VariablePool.reconstruct, readMap_foldLines (m := p.map) ?_ ?_ hvs ?_]
      · rfl
      · simp only [List.mem_map]; rintro l ⟨e, _, rfl⟩; exact Variable.suffixNamed.visible _
      · simp only [List.mem_map]; rintro l ⟨e, he, rfl⟩; exact Variable.suffixNamed.noNl_line _ ((hcl s hs).var p hp e he).2
      · exact congrArg VariablePool.map hpe
    · rw [h1, pool_last s'.name (s% "java_list") '.' 't' rfl] at hc; simp at hc
    · rw [h1, pool_last s'.name (s% "java_func") '.' 'c' rfl] at hc; simp at hc
    · rw [h1] at hc; simp at hc
  · intro p hp
    obtain ⟨x, body, vs, _, ⟨s', hs', hr⟩, hvs, hpe⟩ := (htr s hs).list p hp
    have hc := pool_last s.name (s% "java_list") x 't' rfl
    rcases hnot s' hs' _ _ hr with h1 | ⟨q, hq, h1, h2⟩ | ⟨q, hq, h1, h2⟩ | ⟨q, hq, h1, h2⟩ | h1
    · have := h1.2.1; rw [not_pool_self] at this; simp at this
    · rw [h1, pool_last s'.name (s% "java_var") '.' 'r' rfl] at hc; simp at hc
    · have := pool_name h1
      have := h.unique hs hs' this
      subst this
      rw [hp] at hq; simp at hq; subst hq
      subst h2
      rw [ListVariablePool.parse_eq, ListVariablePool.reconstruct, readMap_foldLines (m := p.map) ?_ ?_ hvs ?_]
      · rfl
      · simp only [List.mem_map]; rintro l ⟨e, _, rfl⟩; exact ListVariable.suffixNamed.visible _
      · simp only [List.mem_map]; rintro l ⟨e, he, rfl⟩; exact ListVariable.suffixNamed.noNl_line _ ((hcl s hs).list p hp e he).2
      · exact congrArg ListVariablePool.map hpe
    · rw [h1, pool_last s'.name (s% "java_func") '.' 'c' rfl] at hc; simp at hc
    · rw [h1] at hc; simp at hc
  · intro p hp
    obtain ⟨x, body, vs, _, ⟨s', hs', hr⟩, hvs, hpe⟩ := (htr s hs).func p hp
    have hc := pool_last s.name (s% "java_func") x 'c' rfl
    rcases hnot s' hs' _ _ hr with h1 | ⟨q, hq, h1, h2⟩ | ⟨q, hq, h1, h2⟩ | ⟨q, hq, h1, h2⟩ | h1
    · have := h1.2.2.2.2; rw [not_pool_self] at this; simp at this
    · rw [h1, pool_last s'.name (s% "java_var") '.' 'r' rfl] at hc; simp at hc
    · rw [h1, pool_last s'.name (s% "java_list") '.' 't' rfl] at hc; simp at hc
    · have := pool_name h1
      have := h.unique hs hs' this
      subst this
      rw [hp] at hq; simp at hq; subst hq
      subst h2
      rw [MoreBlockPool.parse_eq, MoreBlockPool.reconstruct, readMap_foldLines (m := p.map) ?_ ?_ hvs ?_]
      · rfl
      · simp only [List.mem_map]; rintro l ⟨e, _, rfl⟩; exact MoreBlock.visible _
      · simp only [List.mem_map]; rintro l ⟨e, he, rfl⟩
        have := (hcl s hs).func p hp e he
        exact MoreBlock.noNl_line this.2.1 this.2.2.1
      · exact congrArg MoreBlockPool.map hpe
    · rw [h1] at hc; simp at hc
  · intro id hid
    simp only [LMap.keys, List.mem_map] at hid
    obtain ⟨e, he, rfl⟩ := hid
    exact ⟨(hbl s hs e he).1, (hbl s hs e he).2.1, ((hcl s hs).blocks e he).1⟩
  · intro e he hb
    exact trimEnd_eq_self.mp ((hbl s hs e (List.mem_of_getLast? he)).2.2 he hb)

theorem keys_of_round_trip (hn : l.screens.keys.Nodup) {l' : Logic} (hp : parse l.reconstruct = .ok l')
    (hg : ∀ k, l'.screens.get k = l.screens.get k) : ∀ e ∈ l.screens, e.1 = e.2.name := by
  intro e he
  have h1 : l'.screens.get e.1 = some e.2 := by rw [hg]; exact LMap.get_of_mem hn he
  exact (traced_parse (P := fun _ _ => True) hp (fun _ _ _ => trivial) h1).1.name.symm

/-- **The logic file.** It is read back to the same screens exactly when the parts of every screen survive on their own,
no screen is empty and the screens are tight. -/
theorem round_trip_iff (h : l.Inv) :
    (∃ l', parse l.reconstruct = .ok l' ∧ ∀ k, l'.screens.get k = l.screens.get k) ↔
      (∀ s ∈ l.screens.map (·.2), s.PartsOk) ∧ (∀ s ∈ l.screens.map (·.2), ¬ s.Empty) ∧ Tight (l.screens.map (·.2)) := by
  constructor
  · rintro ⟨l', h1, h2⟩
    have hp := parts_of_round_trip h h1 h2
    exact ⟨hp, (round_trip l h.key h.nodup hp).mp ⟨l', h1, h2⟩⟩
  · rintro ⟨hp, h1⟩
    exact (round_trip l h.key h.nodup hp).mpr h1

end Logic
end Swrs
