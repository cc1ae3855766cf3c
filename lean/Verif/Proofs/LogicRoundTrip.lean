import Verif.Proofs.LogicText
/-! The logic file: reading a reconstructed text. -/
set_option linter.unusedSectionVars false
namespace Swrs
variable [Floats] [MapPol]

/-! ### effects -/

/-- Effect of sections on one screen. -/
def effOne (k : Str) (es : List (ScreenLogic → ScreenLogic)) (o : Option ScreenLogic) : Option ScreenLogic :=
  es.foldl (fun o f => some (f (o.getD (ScreenLogic.newEmpty k)))) o

theorem get_applyAll (es : List (Str × (ScreenLogic → ScreenLogic))) (l : LMap Str ScreenLogic) (k : Str) :
    LMap.get (Logic.applyAll es l) k = effOne k ((es.filter fun e => e.1 = k).map (·.2)) (LMap.get l k) := by
  induction es generalizing l with
  | nil => rfl
  | cons e es ih =>
    unfold Logic.applyAll at ih ⊢
    rw [List.foldl_cons, ih]
    simp only [Logic.update, LMap.get_upsert]
    by_cases h : e.1 = k
    · subst h; simp [effOne]
    · have : ¬ k = e.1 := fun h' => h h'.symm
      simp [h, this]

theorem nodup_applyAll (es : List (Str × (ScreenLogic → ScreenLogic))) (l : LMap Str ScreenLogic)
    (h : l.keys.Nodup) : (LMap.keys (Logic.applyAll es l)).Nodup := by
  induction es generalizing l with
  | nil => exact h
  | cons e es ih => exact ih _ (LMap.nodup_upsert h _ _ _)

theorem effOne_ne_nil {k : Str} {es : List (ScreenLogic → ScreenLogic)} (h : es ≠ []) :
    effOne k es none = some (es.foldl (fun s f => f s) (ScreenLogic.newEmpty k)) := by
  cases es with
  | nil => exact absurd rfl h
  | cons f es =>
    have : ∀ (es : List (ScreenLogic → ScreenLogic)) (s : ScreenLogic),
        effOne k es (some s) = some (es.foldl (fun s f => f s) s) := by
      intro es
      induction es with
      | nil => intro s; rfl
      | cons g es ih => intro s; exact ih _
    exact this es _

/-! ### sections of a screen -/

namespace ScreenLogic

def varSec (s : ScreenLogic) : Option TSec := s.variables.map fun p =>
  ⟨'@' :: (s.name ++ s% ".java_var"), p.map.map fun e => e.2.reconstruct, s.name, fun t => { t with variables := some p }⟩
def listSec (s : ScreenLogic) : Option TSec := s.listVariables.map fun p =>
  ⟨'@' :: (s.name ++ s% ".java_list"), p.map.map fun e => e.2.reconstruct, s.name,
    fun t => { t with listVariables := some p }⟩
def compSec (s : ScreenLogic) : Option TSec := s.components.map fun p =>
  ⟨'@' :: (s.name ++ s% ".java_components"), p.items.map Component.reconstruct, s.name,
    fun t => { t with components := some p }⟩
def eventSec (s : ScreenLogic) : Option TSec := s.events.map fun p =>
  ⟨'@' :: (s.name ++ s% ".java_events"), p.items.map Event.reconstruct, s.name, fun t => { t with events := some p }⟩
def funcSec (s : ScreenLogic) : Option TSec := s.moreBlocks.map fun p =>
  ⟨'@' :: (s.name ++ s% ".java_func"), p.map.map fun e => e.2.reconstruct, s.name,
    fun t => { t with moreBlocks := some p }⟩
def blockSec (s : ScreenLogic) (e : Str × BlockContainer) : TSec :=
  ⟨'@' :: (s.name ++ (s% ".java_" ++ e.1)), e.2.blocks.map Block.reconstruct, s.name,
    fun t => { t with blockContainers := t.blockContainers.insert e.1 e.2 }⟩

/-- The block chunk of a screen as items. -/
def blockItems (s : ScreenLogic) : List Item :=
  if s.blockContainers = [] then [none] else s.blockContainers.map fun e => some (s.blockSec e)

/-- The parts of a screen survive on their own: the screen name has no line break, every pool is read back from its
own text, container headers are read back from their own text, are not pool headers and have no line break; the
name of the last container does not end with white space if the container is empty. -/
structure PartsOk (s : ScreenLogic) : Prop where
  name : '\n' ∉ s.name
  varNodup : ∀ p, s.variables = some p → p.map.keys.Nodup
  var : ∀ p, s.variables = some p → VariablePool.parse p.reconstruct = .ok p
  listNodup : ∀ p, s.listVariables = some p → p.map.keys.Nodup
  list : ∀ p, s.listVariables = some p → ListVariablePool.parse p.reconstruct = .ok p
  funcNodup : ∀ p, s.moreBlocks = some p → p.map.keys.Nodup
  func : ∀ p, s.moreBlocks = some p → MoreBlockPool.parse p.reconstruct = .ok p
  blocksNodup : s.blockContainers.keys.Nodup
  header : ∀ id ∈ s.blockContainers.keys,
    BlockContainerHeader.parse (BlockContainerHeader.reconstruct ⟨s.name, id⟩) = .ok ⟨s.name, id⟩ ∧
    NotPool (BlockContainerHeader.reconstruct ⟨s.name, id⟩) ∧ '\n' ∉ id
  tail : ∀ e, s.blockContainers.getLast? = some e → e.2.blocks = [] → ∀ c, e.1.getLast? = some c → isWs c = false

/-- The screen has no pool and no block container. -/
def Empty (s : ScreenLogic) : Prop :=
  s.variables = none ∧ s.listVariables = none ∧ s.components = none ∧ s.events = none ∧ s.moreBlocks = none ∧
  s.blockContainers = []

theorem last_concat {hd : Str} {body : List Str} {p : Str} (h : (hd :: body).getLast? = some p) :
    (body = [] ∧ p = hd) ∨ (body.getLast? = some p) := by
  rw [List.getLast?_cons] at h
  cases hb : body.getLast? with
  | none => simp at hb; subst hb; simp at h; exact .inl ⟨rfl, h.symm⟩
  | some q => rw [hb] at h; simp at h; subst h; exact .inr rfl

theorem hd_noNl {name suf : Str} (h : '\n' ∉ name) (hs : '\n' ∉ suf) : '\n' ∉ '@' :: (name ++ suf) := by
  simp [h, hs]

theorem foldLines_id {ls : List Str} (hv : ∀ l ∈ ls, Visible l)
    (h1 : ∀ l, ls.head? = some l → trimStart l = l) (h2 : ∀ l, ls.getLast? = some l → trimEnd l = l) :
    foldLines ls = joinWith '\n' ls := by
  rw [foldLines_eq ls hv]
  have e1 : adjS ls = ls := by
    cases ls with
    | nil => rfl
    | cons x ls => simp [adjS, h1 x rfl]
  have e2 : adjE ls = ls := by
    rcases List.eq_nil_or_concat ls with rfl | ⟨ini, l, rfl⟩
    · rfl
    · rw [List.concat_eq_append] at *
      rw [adjE_concat, h2 l (by simp)]
  rw [e1, e2]

theorem jlines_last {α : Type} {f : α → Str} (hf : ∀ a, JLine (f a)) {as : List α} {p : Str}
    (h : (as.map f).getLast? = some p) : p ≠ [] ∧ ∀ c, p.getLast? = some c → isWs c = false := by
  have := List.mem_of_getLast? h
  simp only [List.mem_map] at this
  obtain ⟨a, _, rfl⟩ := this
  exact ⟨(hf a).ne_nil, (hf a).last_not_ws⟩

theorem getLast_suffix {hd suf : Str} {c d : Char} (hs : suf.getLast? = some d) (hd' : isWs d = false)
    (h : (hd ++ suf).getLast? = some c) : isWs c = false := by
  rw [List.getLast?_append, hs] at h; simp at h; subst h; exact hd'

variable {s : ScreenLogic}

theorem PartsOk.varOk (h : s.PartsOk) {t : TSec} (ht : s.varSec = some t) :
    (t.Ok ∧ t.Closed) ∧ ∀ p, s.variables = some p → p.reconstruct = joinWith '\n' t.body := by
  unfold varSec at ht
  rw [Option.map_eq_some_iff] at ht
  obtain ⟨p, hp, rfl⟩ := ht
  have hk := h.varNodup p hp
  obtain ⟨h1, h2, h3⟩ := (VariablePool.round_trip p hk).mp (h.var p hp)
  have hk1 : Keyed (fun v : Variable => v.name) p.map := h1
  refine ⟨⟨⟨?_, ?_⟩, ?_⟩, ?_⟩
  · have e : p = ⟨LMap.collect ((p.map.map (·.2)).map fun v => (v.name, v))⟩ := by
      rw [hk1.map, LMap.collect_nodup _ hk]
    have hr : PoolReads Variable.parse (p.map.map fun e => e.2.reconstruct) (p.map.map (·.2)) := by
      have := ReadsAll.map (p := fun l => (Variable.parse l).toOption) (f := Variable.reconstruct)
        (as := p.map.map (·.2)) (fun a _ => ⟨by simp [Variable.reconstruct], by rw [Variable.parse_reconstruct]; rfl⟩)
      rw [List.map_map] at this
      exact this
    have := Sec.var (name := s.name) (x := '.') (by rfl) hr
    rw [← e] at this
    exact this
  · intro q hq
    simp only [TSec.ls, List.mem_cons, List.mem_map] at hq
    rcases hq with rfl | ⟨e, he, rfl⟩
    · exact hd_noNl h.name (by decide)
    · exact Variable.suffixNamed.noNl_line _ (h2 e he)
  · intro q hq
    rcases last_concat hq with ⟨_, rfl⟩ | hl
    · refine ⟨by simp, fun c hc => getLast_suffix (hd := '@' :: s.name) (suf := s% ".java_var") rfl (by decide) hc⟩
    · rw [List.getLast?_map, Option.map_eq_some_iff] at hl
      obtain ⟨e, he, rfl⟩ := hl
      refine ⟨by simp [Variable.reconstruct], ?_⟩
      have h4 := trimEnd_eq_self.mpr (h3 e he)
      rw [← trimEnd_eq_self]
      have := Variable.suffixNamed.trimEnd_line e.2
      rw [h4] at this
      rw [this]; rfl
  · intro q hq
    rw [hp] at hq; simp at hq; subst hq
    unfold VariablePool.reconstruct
    apply foldLines_id
    · simp only [List.mem_map]; rintro l ⟨e, _, rfl⟩; exact Variable.suffixNamed.visible _
    · intro l hl
      rw [List.head?_map, Option.map_eq_some_iff] at hl
      obtain ⟨e, _, rfl⟩ := hl
      exact Variable.suffixNamed.trimStart_eq _
    · intro l hl
      rw [List.getLast?_map, Option.map_eq_some_iff] at hl
      obtain ⟨e, he, rfl⟩ := hl
      have h4 := trimEnd_eq_self.mpr (h3 e he)
      have := Variable.suffixNamed.trimEnd_line e.2
      rw [h4] at this
      rw [this]; rfl

theorem PartsOk.listOk (h : s.PartsOk) {t : TSec} (ht : s.listSec = some t) :
    (t.Ok ∧ t.Closed) ∧ ∀ p, s.listVariables = some p → p.reconstruct = joinWith '\n' t.body := by
  unfold listSec at ht
  rw [Option.map_eq_some_iff] at ht
  obtain ⟨p, hp, rfl⟩ := ht
  have hk := h.listNodup p hp
  obtain ⟨h1, h2, h3⟩ := (ListVariablePool.round_trip p hk).mp (h.list p hp)
  have hk1 : Keyed (fun v : ListVariable => v.name) p.map := h1
  refine ⟨⟨⟨?_, ?_⟩, ?_⟩, ?_⟩
  · have e : p = ⟨LMap.collect ((p.map.map (·.2)).map fun v => (v.name, v))⟩ := by
      rw [hk1.map, LMap.collect_nodup _ hk]
    have hr : PoolReads ListVariable.parse (p.map.map fun e => e.2.reconstruct) (p.map.map (·.2)) := by
      have := ReadsAll.map (p := fun l => (ListVariable.parse l).toOption) (f := ListVariable.reconstruct)
        (as := p.map.map (·.2)) (fun a _ => ⟨by simp [ListVariable.reconstruct],
          by rw [ListVariable.parse_reconstruct]; rfl⟩)
      rw [List.map_map] at this
      exact this
    have := Sec.list (name := s.name) (x := '.') (by rfl) hr
    rw [← e] at this
    exact this
  · intro q hq
    simp only [TSec.ls, List.mem_cons, List.mem_map] at hq
    rcases hq with rfl | ⟨e, he, rfl⟩
    · exact hd_noNl h.name (by decide)
    · exact ListVariable.suffixNamed.noNl_line _ (h2 e he)
  · intro q hq
    rcases last_concat hq with ⟨_, rfl⟩ | hl
    · refine ⟨by simp, fun c hc => getLast_suffix (hd := '@' :: s.name) (suf := s% ".java_list") rfl (by decide) hc⟩
    · rw [List.getLast?_map, Option.map_eq_some_iff] at hl
      obtain ⟨e, he, rfl⟩ := hl
      refine ⟨by simp [ListVariable.reconstruct], ?_⟩
      have h4 := trimEnd_eq_self.mpr (h3 e he)
      rw [← trimEnd_eq_self]
      have := ListVariable.suffixNamed.trimEnd_line e.2
      rw [h4] at this
      rw [this]; rfl
  · intro q hq
    rw [hp] at hq; simp at hq; subst hq
    unfold ListVariablePool.reconstruct
    apply foldLines_id
    · simp only [List.mem_map]; rintro l ⟨e, _, rfl⟩; exact ListVariable.suffixNamed.visible _
    · intro l hl
      rw [List.head?_map, Option.map_eq_some_iff] at hl
      obtain ⟨e, _, rfl⟩ := hl
      exact ListVariable.suffixNamed.trimStart_eq _
    · intro l hl
      rw [List.getLast?_map, Option.map_eq_some_iff] at hl
      obtain ⟨e, he, rfl⟩ := hl
      have h4 := trimEnd_eq_self.mpr (h3 e he)
      have := ListVariable.suffixNamed.trimEnd_line e.2
      rw [h4] at this
      rw [this]; rfl

theorem PartsOk.funcOk (h : s.PartsOk) {t : TSec} (ht : s.funcSec = some t) :
    (t.Ok ∧ t.Closed) ∧ ∀ p, s.moreBlocks = some p → p.reconstruct = joinWith '\n' t.body := by
  unfold funcSec at ht
  rw [Option.map_eq_some_iff] at ht
  obtain ⟨p, hp, rfl⟩ := ht
  have hk := h.funcNodup p hp
  obtain ⟨h1, h2, h3, h4⟩ := (MoreBlockPool.round_trip p hk).mp (h.func p hp)
  have hk1 : Keyed (fun v : MoreBlock => v.id) p.map := h1
  have hend : ∀ e, p.map.getLast? = some e → trimEnd e.2.reconstruct = e.2.reconstruct := by
    intro e he
    rw [MoreBlock.trimEnd_line, trimEnd_eq_self.mpr (h4 e he)]
  refine ⟨⟨⟨?_, ?_⟩, ?_⟩, ?_⟩
  · have e : p = ⟨LMap.collect ((p.map.map (·.2)).map fun v => (v.id, v))⟩ := by
      rw [hk1.map, LMap.collect_nodup _ hk]
    have hr : PoolReads MoreBlock.parse (p.map.map fun e => e.2.reconstruct) (p.map.map (·.2)) := by
      have := ReadsAll.map (p := fun l => (MoreBlock.parse l).toOption) (f := MoreBlock.reconstruct)
        (as := p.map.map (·.2)) (fun a ha => ⟨by simp [MoreBlock.reconstruct], by
          simp only [List.mem_map] at ha
          obtain ⟨e, he, rfl⟩ := ha
          rw [MoreBlock.parse_reconstruct (h2 e he).2.2]; rfl⟩)
      rw [List.map_map] at this
      exact this
    have := Sec.func (name := s.name) (x := '.') (by rfl) hr
    rw [← e] at this
    exact this
  · intro q hq
    simp only [TSec.ls, List.mem_cons, List.mem_map] at hq
    rcases hq with rfl | ⟨e, he, rfl⟩
    · exact hd_noNl h.name (by decide)
    · exact MoreBlock.noNl_line (h2 e he).1 (h2 e he).2.1
  · intro q hq
    rcases last_concat hq with ⟨_, rfl⟩ | hl
    · refine ⟨by simp, fun c hc => getLast_suffix (hd := '@' :: s.name) (suf := s% ".java_func") rfl (by decide) hc⟩
    · rw [List.getLast?_map, Option.map_eq_some_iff] at hl
      obtain ⟨e, he, rfl⟩ := hl
      refine ⟨by simp [MoreBlock.reconstruct], ?_⟩
      rw [← trimEnd_eq_self]
      exact hend e he
  · intro q hq
    rw [hp] at hq; simp at hq; subst hq
    unfold MoreBlockPool.reconstruct
    apply foldLines_id
    · simp only [List.mem_map]; rintro l ⟨e, _, rfl⟩; exact MoreBlock.visible _
    · intro l hl
      rw [List.head?_map, Option.map_eq_some_iff] at hl
      obtain ⟨e, he, rfl⟩ := hl
      rw [MoreBlock.trimStart_line, trimStart_eq_self.mpr (h3 e he)]
    · intro l hl
      rw [List.getLast?_map, Option.map_eq_some_iff] at hl
      obtain ⟨e, he, rfl⟩ := hl
      exact hend e he

theorem PartsOk.compOk (h : s.PartsOk) {t : TSec} (ht : s.compSec = some t) :
    (t.Ok ∧ t.Closed) ∧ ∀ p, s.components = some p → p.reconstruct = joinWith '\n' t.body := by
  unfold compSec at ht
  rw [Option.map_eq_some_iff] at ht
  obtain ⟨p, hp, rfl⟩ := ht
  refine ⟨⟨⟨?_, ?_⟩, ?_⟩, ?_⟩
  · exact Sec.components (name := s.name) (x := '.') (by rfl)
      (PoolReads.lineParser Component.jline Component.parse_reconstruct p.items)
  · intro q hq
    simp only [TSec.ls, List.mem_cons, List.mem_map] at hq
    rcases hq with rfl | ⟨e, he, rfl⟩
    · exact hd_noNl h.name (by decide)
    · exact e.jline.noNl
  · intro q hq
    rcases last_concat hq with ⟨_, rfl⟩ | hl
    · refine ⟨by simp, fun c hc => getLast_suffix (hd := '@' :: s.name) (suf := s% ".java_components") rfl
        (by decide) hc⟩
    · exact jlines_last Component.jline hl
  · intro q hq
    rw [hp] at hq; simp at hq; subst hq
    exact ComponentPool.reconstruct_eq _

theorem PartsOk.eventOk (h : s.PartsOk) {t : TSec} (ht : s.eventSec = some t) :
    (t.Ok ∧ t.Closed) ∧ ∀ p, s.events = some p → p.reconstruct = joinWith '\n' t.body := by
  unfold eventSec at ht
  rw [Option.map_eq_some_iff] at ht
  obtain ⟨p, hp, rfl⟩ := ht
  refine ⟨⟨⟨?_, ?_⟩, ?_⟩, ?_⟩
  · exact Sec.events (name := s.name) (x := '.') (by rfl)
      (PoolReads.lineParser Event.jline Event.parse_reconstruct p.items)
  · intro q hq
    simp only [TSec.ls, List.mem_cons, List.mem_map] at hq
    rcases hq with rfl | ⟨e, he, rfl⟩
    · exact hd_noNl h.name (by decide)
    · exact e.jline.noNl
  · intro q hq
    rcases last_concat hq with ⟨_, rfl⟩ | hl
    · refine ⟨by simp, fun c hc => getLast_suffix (hd := '@' :: s.name) (suf := s% ".java_events") rfl
        (by decide) hc⟩
    · exact jlines_last Event.jline hl
  · intro q hq
    rw [hp] at hq; simp at hq; subst hq
    exact EventPool.reconstruct_eq _

theorem PartsOk.blockOk (h : s.PartsOk) {e : Str × BlockContainer} (he : e ∈ s.blockContainers) :
    (s.blockSec e).Ok := by
  obtain ⟨h1, h2, h3⟩ := h.header e.1 (List.mem_map_of_mem (f := (·.1)) he)
  refine ⟨?_, ?_⟩
  · exact Sec.blocks (hd := ⟨s.name, e.1⟩) h2 h1
      (PoolReads.lineParser Block.jline Block.parse_reconstruct e.2.blocks)
  · intro q hq
    simp only [TSec.ls, blockSec, List.mem_cons, List.mem_map] at hq
    rcases hq with rfl | ⟨e, he, rfl⟩
    · exact hd_noNl h.name (by simpa using h3)
    · exact e.jline.noNl

theorem blockClosed {s : ScreenLogic} {e : Str × BlockContainer}
    (h : e.2.blocks = [] → ∀ c, e.1.getLast? = some c → isWs c = false) : (s.blockSec e).Closed := by
  intro q hq
  rcases last_concat hq with ⟨hb, rfl⟩ | hl
  · refine ⟨by simp [blockSec], ?_⟩
    intro c hc
    have e1 : (s.blockSec e).hd = ('@' :: (s.name ++ s% ".java_")) ++ e.1 := by simp [blockSec]
    rw [e1, List.getLast?_append] at hc
    cases hi : e.1.getLast? with
    | none =>
      rw [hi] at hc
      exact getLast_suffix (hd := '@' :: s.name) (suf := s% ".java_") rfl (by decide) (by simpa using hc)
    | some d => rw [hi] at hc; simp at hc; subst hc; exact h (by simpa [blockSec] using hb) d hi
  · exact jlines_last Block.jline hl

theorem PartsOk.lastClosed (h : s.PartsOk) {t : TSec} (ht : (s.blockContainers.map s.blockSec).getLast? = some t) :
    t.Closed := by
  rw [List.getLast?_map, Option.map_eq_some_iff] at ht
  obtain ⟨e, he, rfl⟩ := ht
  exact blockClosed (h.tail e he)

/-- The text of block sections, as written, trimmed. -/
theorem trim_blocks {ts : List TSec} (hok : ∀ t ∈ ts, t.Raw) (hcl : ∀ t, ts.getLast? = some t → t.Closed) (hne : ts ≠ []) :
    '\n' :: '\n' :: trim (ts.flatMap fun t => t.text ++ ['\n', '\n']) = itemsText (ts.map some) := by
  have hshift : ∀ ts : List TSec, '\n' :: '\n' :: (ts.flatMap fun t => t.text ++ ['\n', '\n']) =
      (ts.flatMap fun t => '\n' :: '\n' :: t.text) ++ ['\n', '\n'] := by
    intro ts
    induction ts with
    | nil => rfl
    | cons t ts ih =>
      simp only [List.flatMap_cons, List.append_assoc, List.cons_append, List.nil_append]
      rw [ih]
  cases ts with
  | nil => exact absurd rfl hne
  | cons t ts =>
    have h1 := hshift (t :: ts)
    have h2 : trim ('\n' :: '\n' :: ((t :: ts).flatMap fun t => t.text ++ ['\n', '\n'])) =
        trim ((t :: ts).flatMap fun t => t.text ++ ['\n', '\n']) := by
      unfold trim
      have := trimStart_ws_append (w := ['\n', '\n']) (s := (t :: ts).flatMap fun t => t.text ++ ['\n', '\n'])
        (by simp [isWs])
      simp only [List.cons_append, List.nil_append] at this
      rw [this]
    rw [← h2, h1]
    have := trim_items (a := []) (b := [none]) (r := ts.map some) (s := t)
      (t := (t :: ts).getLast (by simp)) (by simp) (by simp) (hok t (by simp))
      (hcl _ (List.getLast?_eq_some_getLast (by simp))) (by
        have : some t :: ts.map some = (t :: ts).map some := rfl
        rw [this, List.getLast?_map, List.getLast?_eq_some_getLast (by simp)]; rfl)
    have e4 : itemsText ([] ++ (some t :: ts.map some) ++ [none]) =
        ((t :: ts).flatMap fun t => '\n' :: '\n' :: t.text) ++ ['\n', '\n'] := by
      have : some t :: ts.map some = (t :: ts).map some := rfl
      rw [List.nil_append, this, itemsText_append]
      simp [itemsText, List.flatMap_map, Item.text]
    rw [e4] at this
    rw [this]
    simp [itemsText, Item.text]

theorem blocksText_eq (s : ScreenLogic) : Logic.blocksText s =
    (s.blockContainers.map s.blockSec).flatMap fun t => t.text ++ ['\n', '\n'] := by
  have : ∀ (es : LMap Str BlockContainer) (acc : Str), es.foldl (fun acc e =>
      acc ++ ('@' :: (s.name ++ (s% ".java_" ++ (e.1 ++ ('\n' :: (e.2.reconstruct ++ ['\n']))))))) acc =
      acc ++ (es.map s.blockSec).flatMap fun t => t.text ++ ['\n', '\n'] := by
    intro es
    induction es with
    | nil => intro acc; simp
    | cons e es ih =>
      intro acc
      rw [List.foldl_cons, ih]
      have e1 : '@' :: (s.name ++ (s% ".java_" ++ (e.1 ++ ('\n' :: (e.2.reconstruct ++ ['\n']))))) =
          (s.blockSec e).text ++ ['\n', '\n'] := by
        have h1 := unlines_eq_joinWith (ps := (s.blockSec e).ls) (by simp [TSec.ls])
        have h2 : (s.blockSec e).text ++ ['\n', '\n'] = unlines (s.blockSec e).ls ++ ['\n'] := by
          rw [h1]; simp [TSec.text]
        rw [h2, TSec.ls, unlines_cons, BlockContainer.reconstruct_eq]
        simp [blockSec]
      rw [e1]; simp
  unfold Logic.blocksText
  rw [this]; simp

/-- The text of the block containers, trimmed, after a blank line. -/
theorem PartsOk.blocksText (h : s.PartsOk) :
    '\n' :: '\n' :: trim (Logic.blocksText s) = itemsText s.blockItems := by
  unfold blockItems
  split
  next h0 => rw [blocksText_eq, h0]; rfl
  next h0 =>
    rw [blocksText_eq, trim_blocks (fun t ht => ?_) (fun t ht => h.lastClosed ht) (by simpa using h0)]
    · rw [List.map_map]; rfl
    · simp only [List.mem_map] at ht
      obtain ⟨e, he, rfl⟩ := ht
      exact (h.blockOk he).raw

end ScreenLogic

namespace Logic

/-- The sections of the pools, in the order of the text. -/
def poolSecs (ss : List ScreenLogic) : List TSec :=
  ss.filterMap ScreenLogic.varSec ++ ss.filterMap ScreenLogic.listSec ++ ss.filterMap ScreenLogic.compSec ++
  ss.filterMap ScreenLogic.eventSec ++ ss.filterMap ScreenLogic.funcSec

/-- The chunks of a logic file. -/
def items (ss : List ScreenLogic) : List Item := (poolSecs ss).map some ++ ss.flatMap ScreenLogic.blockItems

theorem items_ok {ss : List ScreenLogic} (h : ∀ s ∈ ss, s.PartsOk) : ∀ i ∈ items ss, i.Ok := by
  intro i hi
  simp only [items, poolSecs, List.mem_append, List.mem_map, List.mem_filterMap, List.mem_flatMap] at hi
  intro t ht
  subst ht
  rcases hi with ⟨t', hi, ht'⟩ | ⟨s, hs, hi⟩
  · simp at ht'; subst ht'
    rcases hi with (((⟨s, hs, hi⟩ | ⟨s, hs, hi⟩) | ⟨s, hs, hi⟩) | ⟨s, hs, hi⟩) | ⟨s, hs, hi⟩
    · exact ((h s hs).varOk hi).1.1
    · exact ((h s hs).listOk hi).1.1
    · exact ((h s hs).compOk hi).1.1
    · exact ((h s hs).eventOk hi).1.1
    · exact ((h s hs).funcOk hi).1.1
  · unfold ScreenLogic.blockItems at hi
    split at hi
    · simp at hi
    · simp only [List.mem_map] at hi
      obtain ⟨e, he, h1⟩ := hi
      simp at h1; subst h1
      exact (h s hs).blockOk he

theorem items_closed {ss : List ScreenLogic} (h : ∀ s ∈ ss, s.PartsOk) : ItemsClosed (items ss) := by
  have hb : ∀ (ss : List ScreenLogic), (∀ s ∈ ss, s.PartsOk) → ItemsClosed (ss.flatMap ScreenLogic.blockItems) := by
    intro ss
    induction ss with
    | nil => intro _ t ht; simp at ht
    | cons s ss ih =>
      intro h t ht
      rw [List.flatMap_cons, List.filterMap_append, List.getLast?_append] at ht
      cases hl : ((ss.flatMap ScreenLogic.blockItems).filterMap id).getLast? with
      | some u =>
        rw [hl] at ht; simp at ht; subst ht
        exact ih (fun s' hs' => h s' (by simp [hs'])) _ hl
      | none =>
        rw [hl] at ht
        simp only [Option.none_or] at ht
        unfold ScreenLogic.blockItems at ht
        split at ht
        · simp at ht
        · refine (h s (by simp)).lastClosed ?_
          rw [List.filterMap_map] at ht
          simpa [Function.comp_def] using ht
  intro t ht
  unfold items at ht
  rw [List.filterMap_append, List.getLast?_append] at ht
  cases hl : ((ss.flatMap ScreenLogic.blockItems).filterMap id).getLast? with
  | some u =>
    rw [hl] at ht; simp at ht; subst ht
    exact hb ss h _ hl
  | none =>
    rw [hl] at ht
    simp only [Option.none_or] at ht
    have := List.mem_of_getLast? ht
    simp only [List.filterMap_map, Function.comp_def, id, List.filterMap_some, poolSecs, List.mem_append,
      List.mem_filterMap] at this
    rcases this with (((⟨s, hs, hi⟩ | ⟨s, hs, hi⟩) | ⟨s, hs, hi⟩) | ⟨s, hs, hi⟩) | ⟨s, hs, hi⟩
    · exact ((h s hs).varOk hi).1.2
    · exact ((h s hs).listOk hi).1.2
    · exact ((h s hs).compOk hi).1.2
    · exact ((h s hs).eventOk hi).1.2
    · exact ((h s hs).funcOk hi).1.2

/-- Chunks of one kind of pool. -/
theorem chunk_items {ss : List ScreenLogic} {α : Type} {get : ScreenLogic → Option α} {sec : ScreenLogic → Option TSec}
    {txt : ScreenLogic → α → Str}
    (h : ∀ s ∈ ss, ∀ a, get s = some a → ∃ t, sec s = some t ∧ trim (txt s a) = t.text)
    (hn : ∀ s, get s = none → sec s = none) (acc : Str) :
    (ss.filterMap fun s => (get s).map (txt s)).foldl (fun acc i => acc ++ (s% "\n\n" ++ trim i)) acc =
      acc ++ itemsText ((ss.filterMap sec).map some) := by
  induction ss generalizing acc with
  | nil => simp [itemsText]
  | cons s ss ih =>
    have ih := ih (fun s' hs' => h s' (by simp [hs']))
    cases hg : get s with
    | none =>
      simp only [List.filterMap_cons, hg, hn s hg, Option.map_none]
      exact ih acc
    | some a =>
      obtain ⟨t, h1, h2⟩ := h s (by simp) a hg
      simp only [List.filterMap_cons, hg, h1, Option.map_some, List.foldl_cons, ih, h2, List.map_cons]
      simp [itemsText, Item.text]

theorem reconstruct_items (l : Logic) (h : ∀ s ∈ l.screens.map (·.2), s.PartsOk) :
    l.reconstruct = trim (itemsText (items (l.screens.map (·.2)))) := by
  unfold reconstruct chunks
  simp only
  generalize l.screens.map (·.2) = ss at h
  congr 1
  rw [List.foldl_append, List.foldl_append, List.foldl_append, List.foldl_append, List.foldl_append]
  rw [chunk_items (get := ScreenLogic.variables) (sec := ScreenLogic.varSec),
    chunk_items (get := ScreenLogic.listVariables) (sec := ScreenLogic.listSec),
    chunk_items (get := ScreenLogic.components) (sec := ScreenLogic.compSec),
    chunk_items (get := ScreenLogic.events) (sec := ScreenLogic.eventSec),
    chunk_items (get := ScreenLogic.moreBlocks) (sec := ScreenLogic.funcSec)]
  · have hb : ∀ (ss : List ScreenLogic) (h : ∀ s ∈ ss, s.PartsOk) (acc : Str),
        (ss.map blocksText).foldl (fun acc i => acc ++ (s% "\n\n" ++ trim i)) acc =
        acc ++ itemsText (ss.flatMap ScreenLogic.blockItems) := by
      intro ss
      induction ss with
      | nil => intro _ acc; simp [itemsText]
      | cons s ss ih =>
        intro h acc
        have := (h s (by simp)).blocksText
        rw [List.map_cons, List.foldl_cons, ih (fun s' hs' => h s' (by simp [hs'])), List.flatMap_cons,
          itemsText_append, ← this]
        simp
    rw [hb ss h]
    simp only [items, poolSecs, List.map_append, itemsText_append, List.nil_append, List.append_assoc]
  · intro s hs p hp
    refine ⟨_, by rw [ScreenLogic.funcSec, hp]; rfl, ?_⟩
    have := (h s hs).funcOk (t := _) (by rw [ScreenLogic.funcSec, hp]; rfl)
    rw [this.2 p hp, ← this.1.1.raw.trim_chunk this.1.2]; simp
  · intro s hs; rw [ScreenLogic.funcSec, hs]; rfl
  · intro s hs p hp
    refine ⟨_, by rw [ScreenLogic.eventSec, hp]; rfl, ?_⟩
    have := (h s hs).eventOk (t := _) (by rw [ScreenLogic.eventSec, hp]; rfl)
    rw [this.2 p hp, ← this.1.1.raw.trim_chunk this.1.2]; simp
  · intro s hs; rw [ScreenLogic.eventSec, hs]; rfl
  · intro s hs p hp
    refine ⟨_, by rw [ScreenLogic.compSec, hp]; rfl, ?_⟩
    have := (h s hs).compOk (t := _) (by rw [ScreenLogic.compSec, hp]; rfl)
    rw [this.2 p hp, ← this.1.1.raw.trim_chunk this.1.2]; simp
  · intro s hs; rw [ScreenLogic.compSec, hs]; rfl
  · intro s hs p hp
    refine ⟨_, by rw [ScreenLogic.listSec, hp]; rfl, ?_⟩
    have := (h s hs).listOk (t := _) (by rw [ScreenLogic.listSec, hp]; rfl)
    rw [this.2 p hp, ← this.1.1.raw.trim_chunk this.1.2]; simp
  · intro s hs; rw [ScreenLogic.listSec, hs]; rfl
  · intro s hs p hp
    refine ⟨_, by rw [ScreenLogic.varSec, hp]; rfl, ?_⟩
    have := (h s hs).varOk (t := _) (by rw [ScreenLogic.varSec, hp]; rfl)
    rw [this.2 p hp, ← this.1.1.raw.trim_chunk this.1.2]; simp
  · intro s hs; rw [ScreenLogic.varSec, hs]; rfl

/-! ### which sections belong to which screen -/

/-- All sections of the screens, in the order of the text. -/
def secs (ss : List ScreenLogic) : List TSec :=
  poolSecs ss ++ ss.flatMap fun s => s.blockContainers.map s.blockSec

theorem items_secs (ss : List ScreenLogic) : (items ss).filterMap id = secs ss := by
  unfold items secs
  rw [List.filterMap_append]
  congr 1
  · simp [List.filterMap_map]
  · induction ss with
    | nil => rfl
    | cons s ss ih =>
      rw [List.flatMap_cons, List.filterMap_append, ih, List.flatMap_cons]
      congr 1
      unfold ScreenLogic.blockItems
      split
      next h => simp [h]
      next h => rw [List.filterMap_map]; simp [Function.comp_def]

theorem filter_filterMap {sec : ScreenLogic → Option TSec} (h : ∀ s t, sec s = some t → t.name = s.name)
    (ss : List ScreenLogic) (k : Str) :
    (ss.filterMap sec).filter (fun t => t.name = k) = (ss.filter fun s => s.name = k).filterMap sec := by
  induction ss with
  | nil => rfl
  | cons s ss ih =>
    rw [List.filterMap_cons, List.filter_cons]
    cases hs : sec s with
    | none =>
      simp only [ih]
      split
      · rw [List.filterMap_cons, hs]
      · rfl
    | some t =>
      have := h s t hs
      simp only [List.filter_cons, ih, this]
      split
      · rw [List.filterMap_cons, hs]
      · rfl

theorem secs_filter (ss : List ScreenLogic) (k : Str) :
    (secs ss).filter (fun t => t.name = k) = secs (ss.filter fun s => s.name = k) := by
  have hv : ∀ s t, ScreenLogic.varSec s = some t → t.name = s.name := by
    intro s t h; unfold ScreenLogic.varSec at h; rw [Option.map_eq_some_iff] at h; obtain ⟨_, _, rfl⟩ := h; rfl
  have hl : ∀ s t, ScreenLogic.listSec s = some t → t.name = s.name := by
    intro s t h; unfold ScreenLogic.listSec at h; rw [Option.map_eq_some_iff] at h; obtain ⟨_, _, rfl⟩ := h; rfl
  have hc : ∀ s t, ScreenLogic.compSec s = some t → t.name = s.name := by
    intro s t h; unfold ScreenLogic.compSec at h; rw [Option.map_eq_some_iff] at h; obtain ⟨_, _, rfl⟩ := h; rfl
  have he : ∀ s t, ScreenLogic.eventSec s = some t → t.name = s.name := by
    intro s t h; unfold ScreenLogic.eventSec at h; rw [Option.map_eq_some_iff] at h; obtain ⟨_, _, rfl⟩ := h; rfl
  have hf : ∀ s t, ScreenLogic.funcSec s = some t → t.name = s.name := by
    intro s t h; unfold ScreenLogic.funcSec at h; rw [Option.map_eq_some_iff] at h; obtain ⟨_, _, rfl⟩ := h; rfl
  unfold secs poolSecs
  simp only [List.filter_append, filter_filterMap hv, filter_filterMap hl, filter_filterMap hc, filter_filterMap he,
    filter_filterMap hf]
  congr 1
  induction ss with
  | nil => rfl
  | cons s ss ih =>
    rw [List.flatMap_cons, List.filter_append, ih, List.filter_cons]
    have hn : ∀ e, (s.blockSec e).name = s.name := fun _ => rfl
    by_cases hk : s.name = k
    · simp only [hk, decide_true, if_true, List.flatMap_cons]
      congr 1
      rw [List.filter_eq_self]
      simp only [List.mem_map]; rintro t ⟨e, _, rfl⟩; simp [hn, hk]
    · have : List.filter (fun t => decide (t.name = k)) (s.blockContainers.map s.blockSec) = [] := by
        rw [List.filter_eq_nil_iff]
        simp only [List.mem_map]; rintro t ⟨e, _, rfl⟩; simp [hn, hk]
      simp [this, hk]

theorem filter_name {ss : List ScreenLogic} (hn : (ss.map (·.name)).Nodup) {s : ScreenLogic} (hs : s ∈ ss) :
    ss.filter (fun t => t.name = s.name) = [s] := by
  induction ss with
  | nil => simp at hs
  | cons t ss ih =>
    simp only [List.map_cons, List.nodup_cons, List.mem_map, not_exists, not_and] at hn
    rcases List.mem_cons.mp hs with rfl | hs
    · have : ss.filter (fun t => t.name = s.name) = [] := by
        rw [List.filter_eq_nil_iff]; intro x hx; simpa using hn.1 x hx
      simp [this]
    · have h1 : ¬ t.name = s.name := fun h => hn.1 s hs h.symm
      simp [h1, ih hn.2 hs]

theorem filter_none {ss : List ScreenLogic} {k : Str} (h : ∀ s ∈ ss, s.name ≠ k) :
    ss.filter (fun t => t.name = k) = [] := by
  rw [List.filter_eq_nil_iff]; intro x hx; simpa using h x hx

theorem secs_one (s : ScreenLogic) : secs [s] =
    (s.varSec.toList ++ s.listSec.toList ++ s.compSec.toList ++ s.eventSec.toList ++ s.funcSec.toList) ++
    s.blockContainers.map s.blockSec := by
  unfold secs poolSecs
  have : ∀ sec : ScreenLogic → Option TSec, [s].filterMap sec = (sec s).toList := by
    intro sec; rw [List.filterMap_cons]; cases sec s <;> rfl
  simp [this]

theorem secs_one_nil (s : ScreenLogic) : secs [s] = [] ↔ s.Empty := by
  rw [secs_one]
  simp only [List.append_eq_nil_iff, Option.toList_eq_nil_iff, List.map_eq_nil_iff, ScreenLogic.varSec,
    ScreenLogic.listSec, ScreenLogic.compSec, ScreenLogic.eventSec, ScreenLogic.funcSec, Option.map_eq_none_iff,
    ScreenLogic.Empty]
  grind

def fold (es : List TSec) (t : ScreenLogic) : ScreenLogic := es.foldl (fun t f => f.eff t) t

theorem fold_append (a b : List TSec) (t : ScreenLogic) : fold (a ++ b) t = fold b (fold a t) := by
  simp [fold, List.foldl_append]

theorem fold_blocks (s : ScreenLogic) (es : LMap Str BlockContainer) (t : ScreenLogic) :
    fold (es.map s.blockSec) t =
      { t with blockContainers := es.foldl (fun m e => m.insert e.1 e.2) t.blockContainers } := by
  induction es generalizing t with
  | nil => rfl
  | cons e es ih =>
    have : fold ((e :: es).map s.blockSec) t = fold (es.map s.blockSec) ((s.blockSec e).eff t) := rfl
    rw [this, ih]; rfl

/-- The sections of a screen rebuild it. -/
theorem fold_secs (s : ScreenLogic) (hn : s.blockContainers.keys.Nodup) :
    fold (secs [s]) (ScreenLogic.newEmpty s.name) = s := by
  rw [secs_one, fold_append, fold_blocks]
  have hb : ∀ t : ScreenLogic, t.blockContainers = [] →
      t.blockContainers.foldl (fun m e => m.insert e.1 e.2) s.blockContainers = s.blockContainers := by
    intro t ht; rw [ht]; rfl
  have hc := LMap.collect_nodup s.blockContainers hn
  unfold LMap.collect at hc
  cases s with
  | mk name bc v lv c e f =>
    cases v <;> cases lv <;> cases c <;> cases e <;> cases f <;>
      simp only [ScreenLogic.varSec, ScreenLogic.listSec, ScreenLogic.compSec, ScreenLogic.eventSec,
        ScreenLogic.funcSec, Option.map_some, Option.map_none, Option.toList_some, Option.toList_none, fold,
        List.nil_append, List.append_nil, List.foldl_nil, List.foldl_cons, List.cons_append,
        ScreenLogic.newEmpty, ScreenLogic.mk.injEq, true_and, and_true] <;> exact hc

theorem map_filter_eff (es : List TSec) (k : Str) :
    (((es.map fun t => (t.name, t.eff)).filter fun e => e.1 = k).map (·.2)) =
      (es.filter fun t => t.name = k).map (·.eff) := by
  induction es with
  | nil => rfl
  | cons t es ih =>
    simp only [List.map_cons, List.filter_cons]
    by_cases h : t.name = k
    · simp only [h, decide_true, if_true, List.map_cons, ih]
    · simp only [h, decide_false, Bool.false_eq_true, if_false, ih]

theorem get_secs (es : List TSec) (k : Str) :
    LMap.get (applyAll (es.map fun t => (t.name, t.eff)) []) k =
      if es.filter (fun t => t.name = k) = [] then none
      else some (fold (es.filter fun t => t.name = k) (ScreenLogic.newEmpty k)) := by
  rw [get_applyAll, map_filter_eff]
  split
  next h => rw [h]; rfl
  next h =>
    have h0 : LMap.get ([] : LMap Str ScreenLogic) k = none := rfl
    rw [h0, effOne_ne_nil (by simpa using h)]
    simp [fold, List.foldl_map]

/-- Sections of `s` other than containers outside `es` add no key outside `es`. -/
theorem fold_keys (s : ScreenLogic) (es : LMap Str BlockContainer) (ts : List TSec)
    (h : ∀ t ∈ ts, (∀ u : ScreenLogic, (t.eff u).blockContainers = u.blockContainers) ∨ ∃ e ∈ es, t = s.blockSec e)
    (u : ScreenLogic) (hu : ∀ k ∈ u.blockContainers.keys, k ∈ LMap.keys es) :
    ∀ k ∈ (fold ts u).blockContainers.keys, k ∈ LMap.keys es := by
  induction ts generalizing u with
  | nil => exact hu
  | cons t ts ih =>
    apply ih (fun t ht => h t (by simp [ht]))
    rcases h t (by simp) with h1 | ⟨e, he, rfl⟩
    · rw [h1]; exact hu
    · intro k hk
      have : k ∈ LMap.keys (u.blockContainers.insert e.1 e.2) := hk
      rw [LMap.mem_keys_insert] at this
      rcases this with rfl | hk
      · exact List.mem_map_of_mem (f := (·.1)) he
      · exact hu k hk

theorem pool_eff (s : ScreenLogic) : ∀ t ∈ s.varSec.toList ++ s.listSec.toList ++ s.compSec.toList ++
    s.eventSec.toList ++ s.funcSec.toList, ∀ u : ScreenLogic, (t.eff u).blockContainers = u.blockContainers := by
  intro t ht u
  simp only [List.mem_append, Option.mem_toList, ScreenLogic.varSec,
    ScreenLogic.listSec, ScreenLogic.compSec, ScreenLogic.eventSec, ScreenLogic.funcSec, Option.map_eq_some_iff] at ht
  rcases ht with (((⟨p, _, rfl⟩ | ⟨p, _, rfl⟩) | ⟨p, _, rfl⟩) | ⟨p, _, rfl⟩) | ⟨p, _, rfl⟩ <;> rfl

/-- A proper beginning of the sections does not rebuild a screen that has containers. -/
theorem fold_prefix (s : ScreenLogic) (hn : s.blockContainers.keys.Nodup) (hb : s.blockContainers ≠ [])
    {p q : List TSec} (h : p ++ q = secs [s]) (hq : q ≠ []) (k : Str) : fold p (ScreenLogic.newEmpty k) ≠ s := by
  intro hs
  rcases List.eq_nil_or_concat s.blockContainers with h0 | ⟨es, e, he⟩
  · exact hb h0
  rw [List.concat_eq_append] at he
  rcases List.eq_nil_or_concat q with h0 | ⟨q', t, ht⟩
  · exact hq h0
  rw [List.concat_eq_append] at ht
  rw [secs_one, he, ht, List.map_append, ← List.append_assoc, ← List.append_assoc] at h
  have := List.append_inj_left' h rfl
  have hk := fold_keys s es p (by
    intro t ht
    have : t ∈ p ++ q' := by simp [ht]
    rw [‹p ++ q' = _›] at this
    rw [List.mem_append] at this
    rcases this with h1 | h1
    · exact .inl (pool_eff s t h1)
    · simp only [List.mem_map] at h1
      obtain ⟨x, hx, rfl⟩ := h1
      exact .inr ⟨x, hx, rfl⟩) (ScreenLogic.newEmpty k) (by simp [ScreenLogic.newEmpty]) e.1 (by
        rw [hs, he]; simp)
  rw [he] at hn
  simp only [LMap.keys_append, LMap.keys_cons, LMap.keys_nil, List.nodup_append] at hn
  exact hn.2.2 e.1 hk e.1 (by simp) rfl

/-- No screen without block containers stands between written text and later block containers. -/
def Tight (ss : List ScreenLogic) : Prop :=
  ∀ pre s post, ss = pre ++ s :: post → s.blockContainers = [] → (∃ t ∈ post, t.blockContainers ≠ []) →
    (∀ t ∈ pre, t.blockContainers = []) ∧
    ∀ t ∈ ss, t.variables = none ∧ t.listVariables = none ∧ t.components = none ∧ t.events = none ∧ t.moreBlocks = none

theorem poolSecs_nil (ss : List ScreenLogic) : poolSecs ss = [] ↔
    ∀ t ∈ ss, t.variables = none ∧ t.listVariables = none ∧ t.components = none ∧ t.events = none ∧
      t.moreBlocks = none := by
  simp only [poolSecs, List.append_eq_nil_iff, List.filterMap_eq_nil_iff, ScreenLogic.varSec,
    ScreenLogic.listSec, ScreenLogic.compSec, ScreenLogic.eventSec, ScreenLogic.funcSec, Option.map_eq_none_iff]
  grind

theorem some_mem_blockItems {s : ScreenLogic} : (∃ t, some t ∈ s.blockItems) ↔ s.blockContainers ≠ [] := by
  unfold ScreenLogic.blockItems
  split
  next h => simp [h]
  next h =>
    refine ⟨fun _ => h, fun _ => ?_⟩
    cases hb : s.blockContainers with
    | nil => exact absurd hb h
    | cons e es => exact ⟨s.blockSec e, by simp⟩

theorem none_split {ss : List ScreenLogic} {a b : List Item} (h : ss.flatMap ScreenLogic.blockItems = a ++ none :: b) :
    ∃ pre s post, ss = pre ++ s :: post ∧ s.blockContainers = [] ∧ a = pre.flatMap ScreenLogic.blockItems ∧
      b = post.flatMap ScreenLogic.blockItems := by
  induction ss generalizing a with
  | nil => simp at h
  | cons s ss ih =>
    rw [List.flatMap_cons] at h
    by_cases hb : s.blockContainers = []
    · have : s.blockItems = [none] := by simp [ScreenLogic.blockItems, hb]
      rw [this] at h
      cases a with
      | nil => simp at h; exact ⟨[], s, ss, rfl, hb, rfl, h.symm⟩
      | cons x a =>
        simp only [List.cons_append, List.nil_append, List.cons.injEq] at h
        obtain ⟨rfl, h⟩ := h
        obtain ⟨pre, s', post, rfl, h1, rfl, rfl⟩ := ih h
        exact ⟨s :: pre, s', post, rfl, h1, by simp [this], rfl⟩
    · have hi : none ∉ s.blockItems := by simp [ScreenLogic.blockItems, hb]
      rw [List.append_eq_append_iff] at h
      rcases h with ⟨x, rfl, h⟩ | ⟨x, h1, h⟩
      · obtain ⟨pre, s', post, rfl, h1, rfl, rfl⟩ := ih h
        exact ⟨s :: pre, s', post, rfl, h1, by simp, rfl⟩
      · cases x with
        | nil =>
          simp at h
          obtain ⟨pre, s', post, rfl, h2, h3, rfl⟩ := ih (a := []) (by simpa using h.symm)
          refine ⟨s :: pre, s', post, rfl, h2, ?_, rfl⟩
          simp at h1
          rw [List.flatMap_cons, ← h3]; simp [h1]
        | cons z x =>
          simp at h
          rw [h1, ← h.1] at hi; simp at hi

theorem gap_iff (ss : List ScreenLogic) : Gap (items ss) ↔ ¬ Tight ss := by
  constructor
  · rintro ⟨a, b, u, v, h, hu, hv⟩ ht
    unfold items at h
    rw [List.append_eq_append_iff] at h
    have key : ∀ x, ss.flatMap ScreenLogic.blockItems = x ++ none :: b →
        (some u ∈ (poolSecs ss).map some ∨ some u ∈ x) → False := by
      intro x hx hu
      obtain ⟨pre, s, post, rfl, h1, rfl, rfl⟩ := none_split hx
      simp only [List.mem_flatMap] at hv
      obtain ⟨w, hw, hv⟩ := hv
      obtain ⟨h2, h3⟩ := ht pre s post rfl h1 ⟨w, hw, some_mem_blockItems.mp ⟨v, hv⟩⟩
      rcases hu with hu | hu
      · rw [(poolSecs_nil _).mpr h3] at hu; simp at hu
      · simp only [List.mem_flatMap] at hu
        obtain ⟨y, hy, hu⟩ := hu
        exact some_mem_blockItems.mp ⟨u, hu⟩ (h2 y hy)
    rcases h with ⟨x, rfl, h⟩ | ⟨x, h1, h⟩
    · exact key x h (by simpa [List.mem_append] using hu)
    · cases x with
      | nil =>
        simp at h h1
        exact key [] (by simpa using h.symm) (.inl (by rw [h1]; exact hu))
      | cons z x =>
        simp at h
        have : none ∈ (poolSecs ss).map some := by rw [h1, ← h.1]; simp
        simp at this
  · intro ht
    refine Classical.byContradiction fun hg => ht ?_
    intro pre s post hss hs ⟨w, hw, hwb⟩
    obtain ⟨v, hv⟩ := some_mem_blockItems.mpr hwb
    have hi : items ss = ((poolSecs ss).map some ++ pre.flatMap ScreenLogic.blockItems) ++
        none :: post.flatMap ScreenLogic.blockItems := by
      unfold items
      have : s.blockItems = [none] := by simp [ScreenLogic.blockItems, hs]
      conv => lhs; rhs; rw [hss]
      simp [this]
    have hno : ∀ u, some u ∉ (poolSecs ss).map some ++ pre.flatMap ScreenLogic.blockItems := by
      intro u hu
      exact hg ⟨_, _, u, v, hi, hu, List.mem_flatMap.mpr ⟨w, hw, hv⟩⟩
    constructor
    · intro t htp
      refine Classical.byContradiction fun hb => ?_
      obtain ⟨u, hu⟩ := some_mem_blockItems.mpr hb
      exact hno u (List.mem_append.mpr (.inr (List.mem_flatMap.mpr ⟨t, htp, hu⟩)))
    · rw [← poolSecs_nil]
      cases hp : poolSecs ss with
      | nil => rfl
      | cons u _ => exact absurd (by simp [hp]) (hno u)

/-- **The logic file.** When the parts of every screen survive on their own, the whole file is read back to the
same screens exactly when no screen is empty and the screens are tight. -/
theorem round_trip (l : Logic) (hk : ∀ e ∈ l.screens, e.1 = e.2.name) (hn : l.screens.keys.Nodup)
    (h : ∀ s ∈ l.screens.map (·.2), s.PartsOk) :
    (∃ l', parse l.reconstruct = .ok l' ∧ ∀ k, l'.screens.get k = l.screens.get k) ↔
      (∀ s ∈ l.screens.map (·.2), ¬ s.Empty) ∧ Tight (l.screens.map (·.2)) := by
  have hnames : ((l.screens.map (·.2)).map (·.name)).Nodup := by
    rw [List.map_map]
    have : l.screens.map ((fun s : ScreenLogic => s.name) ∘ fun e : Str × ScreenLogic => e.2) = l.screens.keys := by
      unfold LMap.keys
      apply List.map_congr_left
      intro e he; exact (hk e he).symm
    rw [this]; exact hn
  have hget : ∀ s ∈ l.screens.map (·.2), l.screens.get s.name = some s := by
    intro s hs
    simp only [List.mem_map] at hs
    obtain ⟨e, he, rfl⟩ := hs
    apply LMap.get_of_mem hn
    rw [← hk e he]; exact he
  have hgetn : ∀ k, (∀ s ∈ l.screens.map (·.2), s.name ≠ k) → l.screens.get k = none := by
    intro k hk'
    rw [LMap.get_eq_none]
    intro hm
    simp only [LMap.keys, List.mem_map] at hm
    obtain ⟨e, he, rfl⟩ := hm
    exact hk' e.2 (List.mem_map_of_mem he) (hk e he).symm
  rw [reconstruct_items l h]
  have hok := items_ok h
  have hcl := items_closed h
  generalize l.screens.map (·.2) = ss at *
  constructor
  · rintro ⟨l', hp, hl'⟩
    have hg : ¬ Gap (items ss) := by
      intro hg
      obtain ⟨a, ts, b, hi, ha, ⟨t, ht⟩, hpg⟩ := parse_items_gap hok hcl hg
      rw [hpg] at hp
      simp only [Out.ok.injEq] at hp
      subst hp
      -- the lost section
      have hsec : secs ss = ts ++ b.filterMap id := by
        rw [← items_secs, hi]
        have e1 : a.filterMap id = [] := by rw [List.filterMap_eq_nil_iff]; intro i hi; rw [ha i hi]; rfl
        simp [List.filterMap_append, e1, List.filterMap_map]
      have htb : ∃ s ∈ ss, some t ∈ s.blockItems := by
        unfold items at hi
        have hi' : (poolSecs ss).map some ++ ss.flatMap ScreenLogic.blockItems = (a ++ ts.map some) ++ none :: b := hi
        rw [List.append_eq_append_iff] at hi'
        rcases hi' with ⟨x, _, hx⟩ | ⟨x, hx1, hx⟩
        · have : some t ∈ ss.flatMap ScreenLogic.blockItems := by rw [hx]; simp [ht]
          simpa [List.mem_flatMap] using this
        · cases x with
          | nil =>
            simp at hx
            have : some t ∈ ss.flatMap ScreenLogic.blockItems := by rw [← hx]; simp [ht]
            simpa [List.mem_flatMap] using this
          | cons z x =>
            simp at hx
            have : none ∈ (poolSecs ss).map some := by rw [hx1, ← hx.1]; simp
            simp at this
      obtain ⟨s, hs, hts⟩ := htb
      have hb : s.blockContainers ≠ [] := some_mem_blockItems.mp ⟨t, hts⟩
      have htn : t.name = s.name := by
        unfold ScreenLogic.blockItems at hts
        rw [if_neg hb] at hts
        simp only [List.mem_map] at hts
        obtain ⟨e, _, he⟩ := hts
        simp at he; subst he; rfl
      have h1 := secs_filter ss s.name
      rw [filter_name hnames hs, hsec, List.filter_append] at h1
      have h2 := hl' s.name
      simp only at h2
      rw [hget s hs, get_secs] at h2
      split at h2
      · simp at h2
      · simp only [Option.some.injEq] at h2
        refine fold_prefix s (h s hs).blocksNodup hb h1 ?_ _ h2
        intro h0
        rw [List.filter_eq_nil_iff] at h0
        exact h0 t (by rw [List.mem_filterMap]; exact ⟨some t, ht, rfl⟩) (by simp [htn])
    refine ⟨?_, ?_⟩
    · intro s hs hE
      rw [parse_items hok hcl hg] at hp
      simp only [Out.ok.injEq] at hp
      subst hp
      have h2 := hl' s.name
      simp only at h2
      rw [hget s hs, get_secs, items_secs, secs_filter, filter_name hnames hs, if_pos ((secs_one_nil s).mpr hE)] at h2
      simp at h2
    · rw [gap_iff] at hg
      exact Classical.byContradiction hg
  · rintro ⟨hE, ht⟩
    have hg : ¬ Gap (items ss) := by rw [gap_iff]; exact fun h => h ht
    refine ⟨_, parse_items hok hcl hg, ?_⟩
    intro k
    simp only
    rw [get_secs, items_secs, secs_filter]
    by_cases hex : ∃ s ∈ ss, s.name = k
    · obtain ⟨s, hs, rfl⟩ := hex
      rw [filter_name hnames hs, if_neg (fun h0 => hE s hs ((secs_one_nil s).mp h0)),
        fold_secs s (h s hs).blocksNodup, hget s hs]
    · have hno : ∀ s ∈ ss, s.name ≠ k := fun s hs he => hex ⟨s, hs, he⟩
      rw [filter_none hno, hgetn k hno]
      rfl

end Logic
end Swrs
