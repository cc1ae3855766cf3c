import Verif.Props.DeepCode
/-!
# C135: the code of a project is changed, container by container
-/
set_option linter.unusedSectionVars false
namespace Swrs.Api
variable [MapPol] [Floats]

/-! ### Specification: screens that differ in their code -/

/-- Specification: wherever code is read from the first containers, code is read from the second ones, and the two are related. -/
def c135_Codes (R : Str → List Block → List Block → Prop) (cs cs' : Containers) : Prop := (onCreateId ∈ cs.keys ↔ onCreateId ∈ cs'.keys) ∧
  ∀ id code, tryFrom ((cs.get id).getD ⟨[]⟩) = .ok code → ∃ code', tryFrom ((cs'.get id).getD ⟨[]⟩) = .ok code' ∧ R id code code'

/-- Specification: two screens that differ only in the code of their events and more blocks, where the code of each event and each more block is related. -/
def c135_Screen (R : Str → List Block → List Block → Prop) (s s' : Screen) : Prop := s' = { s with moreBlocks := s'.moreBlocks, events := s'.events } ∧
  All₂ (fun m m' => m'.1 = m.1 ∧ m'.2 = { m.2 with code := m'.2.code } ∧ R (m.1 ++ s% "_moreBlock") m.2.code m'.2.code) s.moreBlocks s'.moreBlocks ∧
  All₂ (fun e e' => e' = { e with code := e'.code } ∧ R e.containerId e.code e'.code) s.events s'.events

/-- Specification: two logics that differ only in their containers. -/
def c135_Logics (R : Str → Str → List Block → List Block → Prop) (lg lg' : LMap Str ScreenLogic) : Prop := ∀ n, match lg.get n, lg'.get n with
  | none, none => True
  | some a, some b => b = { a with blockContainers := b.blockContainers } ∧ c135_Codes (R n) a.blockContainers b.blockContainers
  | _, _ => False

/-! ### Reading one container after the other -/

section
variable {R : Str → List Block → List Block → Prop} (hR : ∀ id, R id [] [])
include hR

theorem c135_takeCode {cs cs' : Containers} (h : ∀ id code, tryFrom ((cs.get id).getD ⟨[]⟩) = .ok code → ∃ code', tryFrom ((cs'.get id).getD ⟨[]⟩) = .ok code' ∧ R id code code')
    {id : Str} {code : List Block} {left : Containers} (ht : takeCode id cs = .ok (code, left)) :
    ∃ code' left', takeCode id cs' = .ok (code', left') ∧ R id code code' ∧
      ∀ id code, tryFrom ((left.get id).getD ⟨[]⟩) = .ok code → ∃ code', tryFrom ((left'.get id).getD ⟨[]⟩) = .ok code' ∧ R id code code' := by
  unfold takeCode at ht ⊢
  simp only [Out.bind_eq_ok, Out.mapErr_eq_ok] at ht
  obtain ⟨x, h1, h2⟩ := ht
  cases h2
  obtain ⟨code', h3, h4⟩ := h id code h1
  refine ⟨code', cs'.erase id, by rw [h3]; rfl, h4, fun k c hc => ?_⟩
  rw [LMap.get_erase] at hc ⊢
  split at hc
  · rename_i hk
    rw [if_pos hk]
    refine ⟨c, hc, ?_⟩
    have : c = [] := by
      have e : tryFrom ⟨[]⟩ = .ok c := hc
      cases e
      rfl
    rw [this]
    exact hR k
  · rename_i hk; rw [if_neg hk]; exact h k c hc

theorem c135_moreBlocks {mbs : List (Str × Swrs.MoreBlock)} {cs cs' left : Containers} {out : List (Str × MoreBlock)}
    (h : ∀ id code, tryFrom ((cs.get id).getD ⟨[]⟩) = .ok code → ∃ code', tryFrom ((cs'.get id).getD ⟨[]⟩) = .ok code' ∧ R id code code') (hm : moreBlocksOf mbs cs = .ok (out, left)) :
    ∃ out' left', moreBlocksOf mbs cs' = .ok (out', left') ∧
      All₂ (fun m m' => m'.1 = m.1 ∧ m'.2 = { m.2 with code := m'.2.code } ∧ R (m.1 ++ s% "_moreBlock") m.2.code m'.2.code) out out' ∧
      ∀ id code, tryFrom ((left.get id).getD ⟨[]⟩) = .ok code → ∃ code', tryFrom ((left'.get id).getD ⟨[]⟩) = .ok code' ∧ R id code code' := by
  induction mbs generalizing cs cs' out with
  | nil => cases hm; exact ⟨[], cs', rfl, .nil, h⟩
  | cons x mbs ih =>
    obtain ⟨id, mb⟩ := x
    simp only [moreBlocksOf, moreBlockOf, Out.bind_eq_ok, Prod.exists] at hm
    obtain ⟨m, cs1, ⟨sp, h1, code, cs2, h2, h3⟩, ms, cs3, h4, h5⟩ := hm
    cases h3
    cases h5
    obtain ⟨code', l1, g1, gr, g2⟩ := c135_takeCode hR h h2
    obtain ⟨out', l2, g3, ga, g4⟩ := ih g2 h4
    refine ⟨(id, ⟨id, sp, code'⟩) :: out', l2, ?_, .cons ⟨rfl, rfl, gr⟩ ga, g4⟩
    simp only [moreBlocksOf, moreBlockOf, h1, Out.ok_bind, g1, Out.pure_eq, g3]

theorem c135_events {evs : List Swrs.Event} {cs cs' left : Containers} {out : List Event}
    (h : ∀ id code, tryFrom ((cs.get id).getD ⟨[]⟩) = .ok code → ∃ code', tryFrom ((cs'.get id).getD ⟨[]⟩) = .ok code' ∧ R id code code') (hm : eventsOf evs cs = .ok (out, left)) :
    ∃ out' left', eventsOf evs cs' = .ok (out', left') ∧ All₂ (fun e e' => e' = { e with code := e'.code } ∧ R e.containerId e.code e'.code) out out' := by
  induction evs generalizing cs cs' out with
  | nil => cases hm; exact ⟨[], cs', rfl, .nil⟩
  | cons x evs ih =>
    simp only [eventsOf, eventOf, Out.bind_eq_ok, Prod.exists] at hm
    obtain ⟨m, cs1, ⟨sp, h1, code, cs2, h2, h3⟩, ms, cs3, h4, h5⟩ := hm
    cases h3
    cases h5
    obtain ⟨code', l1, g1, gr, g2⟩ := c135_takeCode hR h h2
    obtain ⟨out', l2, g3, ga⟩ := ih g2 h4
    refine ⟨{ sp with code := code' } :: out', l2, ?_, .cons ⟨rfl, gr⟩ ga⟩
    simp only [eventsOf, eventOf, h1, Out.ok_bind, g1, Out.pure_eq, g3]

omit hR in
theorem c135_keys {α : Type} {S : Str × α → Str × α → Prop} (hS : ∀ e e', S e e' → e'.1 = e.1) {m m' : LMap Str α} (h : All₂ S m m') : m'.keys = m.keys := by
  induction h with
  | nil => rfl
  | cons h _ ih => rw [LMap.keys_cons, LMap.keys_cons, hS _ _ h, ih]

omit hR [MapPol] in
theorem c135_append {α : Type} {S : Str × α → Str × α → Prop} {m m' n n' : List (Str × α)} (h : All₂ S m m') (h' : All₂ S n n') : All₂ S (m ++ n) (m' ++ n') := by
  induction h with
  | nil => exact h'
  | cons h _ ih => exact .cons h ih

omit hR in
/-- Entries with the same keys that are collected stay together. -/
theorem c135_insert {α : Type} {S : Str × α → Str × α → Prop} (hS : ∀ e e', S e e' → e'.1 = e.1) {m m' : LMap Str α} (h : All₂ S m m') {k : Str} {a a' : α} (ha : S (k, a) (k, a')) :
    All₂ S (m.insert k a) (m'.insert k a') := by
  unfold LMap.insert
  rw [c135_keys hS h]
  split
  · rename_i hk
    clear hk
    split
    · refine c135_append ?_ (.cons ha .nil)
      unfold LMap.erase
      clear ha
      induction h with
      | nil => exact .nil
      | @cons e e' _ _ he _ ih =>
        rw [List.filter_cons, List.filter_cons, hS _ _ he]
        split
        · exact .cons he ih
        · exact ih
    · unfold LMap.set
      rename_i hb
      clear hb
      induction h with
      | nil => exact .nil
      | @cons e e' _ _ he _ ih =>
        rw [List.map_cons, List.map_cons, hS _ _ he]
        split
        · exact .cons ha ih
        · exact .cons he ih
  · exact c135_append h (.cons ha .nil)

omit hR in
theorem c135_collect {α : Type} {S : Str × α → Str × α → Prop} (hS : ∀ e e', S e e' → e'.1 = e.1) {es es' : List (Str × α)} (h : All₂ S es es') :
    All₂ S (LMap.collect es) (LMap.collect es') := by
  unfold LMap.collect
  have : ∀ {m m' : LMap Str α}, All₂ S m m' → All₂ S (es.foldl (fun m e => LMap.insert m e.1 e.2) m) (es'.foldl (fun m e => LMap.insert m e.1 e.2) m') := by
    induction h with
    | nil => exact fun h => h
    | @cons e e' _ _ he _ ih =>
      intro m m' hm
      obtain ⟨k, a⟩ := e
      obtain ⟨k', a'⟩ := e'
      have hk : k' = k := hS _ _ he
      subst hk
      exact ih (c135_insert hS hm he)
  exact this .nil

/-- C135: a screen is read, and other containers are put in the place of its containers, from which related code is read. The same screen is read, with related code in each
event and more block. -/
theorem c135_screen {ln gn : Str} {file : FileItem} {view : Layout} {logic : ScreenLogic} {fab : Option View} {s : Screen}
    (h : Screen.fromParsed ln gn file view logic fab = .ok s) {cs : Containers} (hc : c135_Codes R logic.blockContainers cs) :
    ∃ s', Screen.fromParsed ln gn file view { logic with blockContainers := cs } fab = .ok s' ∧ c135_Screen R s s' := by
  unfold Screen.fromParsed at h ⊢
  simp only [Out.bind_eq_ok, Out.mapErr_eq_ok, Prod.exists] at h
  obtain ⟨t, a1, mbs, bc, a2, comps, a3, es, bc', a4, a5⟩ := h
  obtain ⟨mbs', l1, g1, gm, g2⟩ := c135_moreBlocks hR hc.2 a2
  obtain ⟨es', l2, g3, ge⟩ := c135_events hR g2 a4
  have e : parserEvents { logic with blockContainers := cs } = parserEvents logic := by
    unfold parserEvents
    simp only [hc.1]
  rw [e]
  simp only [a1, Out.mapErr_ok, Out.ok_bind, g1, a3, g3]
  cases a5
  exact ⟨_, rfl, rfl, c135_collect (fun _ _ h => h.1) gm, ge⟩

end

section
variable {R : Str → Str → List Block → List Block → Prop} (hR : ∀ n id, R n id [] [])
include hR

theorem c135_activities {items : List FileItem} {ly : LMap Str Layout} {lg lg' : LMap Str ScreenLogic} {fs : LMap Str AndroidView} {ss : List Screen} {ly' : LMap Str Layout}
    (hl : c135_Logics R lg lg') (h : activitiesConv items ly lg fs = .ok (ss, ly')) :
    ∃ ss', activitiesConv items ly lg' fs = .ok (ss', ly') ∧ All₂ (fun s s' => c135_Screen (R (viewNameToLogic s.layoutName)) s s') ss ss' := by
  induction items generalizing ly lg lg' fs ss ly' with
  | nil => cases h; exact ⟨[], rfl, .nil⟩
  | cons f items ih =>
    simp only [activitiesConv, Out.bind_eq_ok, Out.mapErr_eq_ok, Prod.exists] at h
    obtain ⟨s, h1, ss', ly'', h2, h3⟩ := h
    have h4 : ∃ g g' : ScreenLogic, (lg.get (viewNameToLogic f.filename)).getD (ScreenLogic.newEmpty f.filename) = g ∧
        (lg'.get (viewNameToLogic f.filename)).getD (ScreenLogic.newEmpty f.filename) = g' ∧
        g' = { g with blockContainers := g'.blockContainers } ∧ c135_Codes (R (viewNameToLogic f.filename)) g.blockContainers g'.blockContainers := by
      have := hl (viewNameToLogic f.filename)
      cases e1 : lg.get (viewNameToLogic f.filename) with
      | none => cases e2 : lg'.get (viewNameToLogic f.filename) with
        | none =>
          refine ⟨_, _, rfl, rfl, rfl, Iff.rfl, fun id c hc => ⟨c, hc, ?_⟩⟩
          have e : tryFrom ⟨[]⟩ = .ok c := hc
          cases e
          exact hR _ _
        | some b => rw [e1, e2] at this; exact this.elim
      | some a => cases e2 : lg'.get (viewNameToLogic f.filename) with
        | none => rw [e1, e2] at this; exact this.elim
        | some b => rw [e1, e2] at this; exact ⟨_, _, rfl, rfl, this⟩
    obtain ⟨g, g', e1, e2, e3, hc⟩ := h4
    rw [e1] at h1
    simp only [activitiesConv, e2]
    have hln : s.layoutName = f.filename := by
      obtain ⟨_, _, _, _, _, _, _, _, _, _, e⟩ := c120_screen_ok h1
      rw [e]
    obtain ⟨s', h5, h5'⟩ := c135_screen (hR _) h1 hc
    rw [← e3] at h5
    have e4 : g'.name = g.name := by rw [e3]
    rw [e4, h5]
    have h6 : c135_Logics R (lg.erase (viewNameToLogic f.filename)) (lg'.erase (viewNameToLogic f.filename)) := by
      intro n
      rw [LMap.get_erase, LMap.get_erase]
      by_cases hn : n = viewNameToLogic f.filename
      · rw [if_pos hn, if_pos hn]; trivial
      · rw [if_neg hn, if_neg hn]; exact hl n
    obtain ⟨ss2, h7, h8⟩ := ih h6 h2
    simp only [Out.mapErr_ok, Out.ok_bind, h7]
    cases h3
    exact ⟨_, rfl, .cons (hln ▸ h5') h8⟩

/-- C135: a project is converted, and other containers are put in the place of its containers, from which related code is read. The same project is made, with related code in
each event and more block of each screen. -/
theorem c135_project (rnd : ResourceType → Nat → UInt32) {p : Swrs.SketchwareProject} {P : SketchwareProject} (hP : SketchwareProject.tryFrom rnd p = .ok P)
    {logic : Logic} (hl : c135_Logics R p.logic.screens logic.screens) : ∃ Q, SketchwareProject.tryFrom rnd { p with logic } = .ok Q ∧ Q = { P with screens := Q.screens } ∧
      All₂ (fun s s' => c135_Screen (R (viewNameToLogic s.layoutName)) s s') P.screens Q.screens := by
  unfold SketchwareProject.tryFrom at hP ⊢
  simp only [Out.bind_eq_ok, Prod.exists] at hP
  obtain ⟨ss', ly', a1, cs', a2, lb, a3, im, a4, so, a5, fo, a6, a7⟩ := hP
  obtain ⟨ss2, h1, h2⟩ := c135_activities hR hl a1
  simp only [h1, Out.ok_bind, a2, a3, a4, a5, a6]
  cases a7
  exact ⟨_, rfl, rfl, h2⟩

end

/-! ### One container -/

/-- Specification: one container of one screen is another one. -/
def c135_put (n k : Str) (c : BlockContainer) (lg : Logic) : Logic :=
  ⟨lg.screens.map fun e => if e.1 = n then (e.1, { e.2 with blockContainers := e.2.blockContainers.map fun d => if d.1 = k then (d.1, c) else d }) else e⟩

omit [MapPol] [Floats] in
theorem c135_get_map {α : Type} (f : Str → α → α) (m : LMap Str α) (k : Str) : LMap.get (m.map fun e => (e.1, f e.1 e.2)) k = (m.get k).map (f k) := by
  induction m with
  | nil => rfl
  | cons e m ih =>
    obtain ⟨k', a⟩ := e
    simp only [List.map_cons, LMap.get]
    split
    · rename_i h; subst h; rfl
    · exact ih

/-- The change of one container of the containers of a screen. -/
def c135_f2 (k : Str) (c : BlockContainer) (k' : Str) (d : BlockContainer) : BlockContainer := if k' = k then c else d
/-- The change of one container of one screen. -/
def c135_f1 (n k : Str) (c : BlockContainer) (n' : Str) (a : ScreenLogic) : ScreenLogic :=
  if n' = n then { a with blockContainers := a.blockContainers.map fun d => (d.1, c135_f2 k c d.1 d.2) } else a

omit [MapPol] [Floats] in
theorem c135_put_eq (n k : Str) (c : BlockContainer) (lg : Logic) : (c135_put n k c lg).screens = lg.screens.map fun e => (e.1, c135_f1 n k c e.1 e.2) := by
  unfold c135_put c135_f1 c135_f2
  simp only
  congr 1
  funext e
  split
  · congr 3
    funext d
    split <;> rfl
  · rfl

/-- C135: one container of one screen is replaced by another one that is read as well. The project is converted to the same project, in which only the event or more block that
has the code of that container, in the screen of that name, has other code, namely the code of the new container. -/
theorem c135_one (rnd : ResourceType → Nat → UInt32) {p : Swrs.SketchwareProject} {P : SketchwareProject} (hP : SketchwareProject.tryFrom rnd p = .ok P) {n k : Str}
    {a : ScreenLogic} {c c' : BlockContainer} (ha : p.logic.screens.get n = some a) (hc : a.blockContainers.get k = some c) {code code' : List Block} (h : tryFrom c = .ok code)
    (h' : tryFrom c' = .ok code') : ∃ Q, SketchwareProject.tryFrom rnd { p with logic := c135_put n k c' p.logic } = .ok Q ∧ Q = { P with screens := Q.screens } ∧
      All₂ (fun s s' => c135_Screen (fun id x x' => (viewNameToLogic s.layoutName = n ∧ id = k ∧ x = code ∧ x' = code') ∨
        (x' = x ∧ (viewNameToLogic s.layoutName = n → id = k → x = []))) s s') P.screens Q.screens := by
  refine c135_project (R := fun m id x x' => (m = n ∧ id = k ∧ x = code ∧ x' = code') ∨ (x' = x ∧ (m = n → id = k → x = []))) (fun _ _ => .inr ⟨rfl, fun _ _ => rfl⟩) rnd hP fun m => ?_
  rw [c135_put_eq, c135_get_map]
  cases e : p.logic.screens.get m with
  | none => trivial
  | some b =>
    simp only [Option.map_some]
    unfold c135_f1
    by_cases hm : m = n
    · subst hm
      rw [ha] at e
      cases e
      rw [if_pos rfl]
      refine ⟨rfl, ?_, fun id x hx => ?_⟩
      · simp [LMap.keys]
      · simp only
        rw [c135_get_map]
        unfold c135_f2
        by_cases hid : id = k
        · subst hid
          rw [hc, Option.getD_some, h] at hx
          cases hx
          rw [hc]
          exact ⟨code', by simpa using h', .inl ⟨trivial, rfl, rfl, rfl⟩⟩
        · refine ⟨x, ?_, .inr ⟨rfl, fun _ e => absurd e hid⟩⟩
          cases hd : LMap.get a.blockContainers id with
          | none => rw [hd] at hx; exact hx
          | some d => rw [hd] at hx; simpa [hid] using hx
    · rw [if_neg hm]
      exact ⟨rfl, Iff.rfl, fun id x hx => ⟨x, hx, .inr ⟨rfl, fun e => absurd e hm⟩⟩⟩

/-- C135: a block of a container gets another colour and another operation. The project is converted to the same project, except for the code of the event or more block of
that container: there, if the block is in the code, it has the new colour and operation in its place, whatever the depth. -/
theorem c135_label (rnd : ResourceType → Nat → UInt32) {p : Swrs.SketchwareProject} {P : SketchwareProject} (hP : SketchwareProject.tryFrom rnd p = .ok P) {n k : Str}
    {a : ScreenLogic} {bs bs' : List ParserBlock} (ha : p.logic.screens.get n = some a) (hc : a.blockContainers.get k = some ⟨bs⟩) {code : List Block}
    (h : tryFrom ⟨bs⟩ = .ok code) (hd : c129_Distinct bs) {b : ParserBlock} {c : Color} {o : Str} (hp : c132_Put b { b with color := c, opCode := o } bs bs') :
    ∃ Q code', ((code' = code ∧ tryFrom ⟨c134_others b bs⟩ = .ok code) ∨ ∃ C y, c134_Place C ∧ code = C y ∧ code' = C (c134_label c o y) ∧
        tryFrom ⟨{ b with nextBlock := -1 } :: c134_others b bs⟩ = .ok [y]) ∧
      SketchwareProject.tryFrom rnd { p with logic := c135_put n k ⟨bs'⟩ p.logic } = .ok Q ∧ Q = { P with screens := Q.screens } ∧
      All₂ (fun s s' => c135_Screen (fun id x x' => (viewNameToLogic s.layoutName = n ∧ id = k ∧ x = code ∧ x' = code') ∨
        (x' = x ∧ (viewNameToLogic s.layoutName = n → id = k → x = []))) s s') P.screens Q.screens := by
  have hb : b ∈ bs := by
    obtain ⟨-, u, w, rfl, -⟩ := hp
    simp
  rcases c134_edit hd hb h with ⟨h1, -, h2⟩ | ⟨C, y, h1, h2, h3, h4, -⟩
  · obtain ⟨Q, hQ⟩ := c135_one rnd hP ha hc h (h2 _ _ hp)
    exact ⟨Q, code, .inl ⟨rfl, h1⟩, hQ⟩
  · obtain ⟨Q, hQ⟩ := c135_one rnd hP ha hc h (h4 c o _ hp)
    exact ⟨Q, _, .inr ⟨C, y, h1, h2, rfl, h3 (-1) (by decide)⟩, hQ⟩

end Swrs.Api

namespace Swrs.Api

/-- `c135_one` and `c135_label`: a project with a screen that has a container with three blocks, of which the last one gets another colour and operation. -/
example [pol : MapPol] (rnd : ResourceType → Nat → UInt32) : let _ : Floats := toyFloats.toFloats
    ∃ (p : Swrs.SketchwareProject) (P : SketchwareProject) (a : ScreenLogic) (b : ParserBlock) (bs' : List ParserBlock) (code code' : List Block),
      SketchwareProject.tryFrom rnd p = .ok P ∧ p.logic.screens.get (s% "MainActivity") = some a ∧ a.blockContainers.get onCreateId = some ⟨c126_old⟩ ∧
      c129_Distinct c126_old ∧ c132_Put b { b with color := Color.fromRgb 4 5 6, opCode := s% "other" } c126_old bs' ∧ tryFrom ⟨c126_old⟩ = .ok code ∧ tryFrom ⟨bs'⟩ = .ok code' := by
  let _ : Floats := toyFloats.toFloats
  have h : ∃ x y code code', c126_old = [x, y] ++ c126_old.drop 2 ∧ tryFrom ⟨c126_old⟩ = .ok code ∧
      tryFrom ⟨c126_old.take 2 ++ (c126_old.drop 2).map fun b => { b with color := Color.fromRgb 4 5 6, opCode := s% "other" }⟩ = .ok code' := by
    obtain ⟨a, b⟩ := pol
    cases a <;> cases b <;> exact ⟨_, _, _, _, rfl, rfl, rfl⟩
  obtain ⟨x, y, code, code', -, h1, h2⟩ := h
  exact ⟨{ c120_read ⟨[], []⟩ ⟨[(s% "MainActivity", { ScreenLogic.newEmpty (s% "MainActivity") with blockContainers := [(onCreateId, ⟨c126_old⟩)] })]⟩ with
    file := ⟨[c124_act (s% "main") true], []⟩ }, _, _, _, _, code, code', rfl, rfl, rfl, ⟨by decide, by decide⟩, ⟨rfl, [_, _], [], rfl, rfl⟩, h1, h2⟩

end Swrs.Api
