import Verif.Props.CodeText
import Verif.Props.OneLess
/-!
# C139: events, components and variables are edited in the text of the logic file
-/
set_option linter.unusedSectionVars false
namespace Swrs.Logic
variable [Floats] [MapPol]

/-- Specification: these lines are read as these entries. -/
def c139_Lines {ε α : Type} (p : Str → Out ε α) (ms : List Str) (xs : List α) : Prop := All₂ (fun l x => l ≠ [] ∧ p l = .ok x) ms xs

theorem c139_lines_iff {ε α : Type} {p : Str → Out ε α} {ms : List Str} {xs : List α} : c139_Lines p ms xs ↔ PoolReads p ms xs := by
  constructor
  · intro h
    unfold c139_Lines at h
    induction h with
    | nil => exact .nil
    | cons h _ ih => exact .cons h.1 (toOption_eq_some.mpr h.2) ih
  · intro h
    induction h with
    | nil => exact .nil
    | cons h1 h2 _ ih => exact .cons ⟨h1, toOption_eq_some.mp h2⟩ ih

theorem c139_lines_blank {ε α : Type} {p : Str → Out ε α} {ms : List Str} {xs : List α} (h : c139_Lines p ms xs) : [] ∉ ms :=
  fun hm => (c139_lines_iff.mp h).ne_nil _ hm rfl

/-- A section with the header of a pool is read if its lines are. -/
theorem c139_sec {hd n suf : Str} {body : List Str} {v : c115_Slot} (hk : c115_Header hd n (.pool suf)) (h : c115_Reads body (.pool suf) v) : ∃ eff, Sec hd body n eff := by
  obtain ⟨_, x, hx, rfl⟩ := hk
  simp only [c115_Reads] at h
  split at h
  · subst suf; obtain ⟨vs, h, -⟩ := h; exact ⟨_, .var hx h⟩
  split at h
  · subst suf; obtain ⟨vs, h, -⟩ := h; exact ⟨_, .list hx h⟩
  split at h
  · subst suf; obtain ⟨vs, h, -⟩ := h; exact ⟨_, .components hx h⟩
  split at h
  · subst suf; obtain ⟨vs, h, -⟩ := h; exact ⟨_, .events hx h⟩
  split at h
  · subst suf; obtain ⟨vs, h, -⟩ := h; exact ⟨_, .func hx h⟩
  · exact h.elim

/-- A logic file of which lines in the section of a pool are replaced. -/
theorem c139_logic {s s' : Str} {pre ms ms' post : List Str} {hd : Str} {b : List Str} {n suf : Str} (hpar : c122_LastPar pre hd b) (hk : c115_Header hd n (.pool suf))
    (hs : lines s = pre ++ (ms ++ post)) (hs' : lines s' = pre ++ (ms' ++ post)) (hm : [] ∉ ms) (hm' : [] ∉ ms')
    (hread : ∀ q v, c115_Reads (b ++ (ms ++ q)) (.pool suf) v → ∃ v', c115_Reads (b ++ (ms' ++ q)) (.pool suf) v') {r : Logic}
    (h : parse s = .ok r) : ∃ r', parse s' = .ok r' ∧ ∀ m, match r.screens.get m, r'.screens.get m with
      | none, none => True
      | some a, some a' => a.name = a'.name ∧ ∀ k, c115_at a k = c115_at a' k ∨
          (m = n ∧ k = .pool suf ∧ ∃ q v w, (post = [] ∨ post.head? = some [] → q = []) ∧ c115_at a k = some v ∧ c115_at a' k = some w ∧ c115_Reads (b ++ (ms ++ q)) k v ∧ c115_Reads (b ++ (ms' ++ q)) k w)
      | _, _ => False := by
  obtain ⟨es, he, hr⟩ := (c69_ok s r).mp h
  rcases c137_sections hpar post with ⟨A, q, B, hq, hsec⟩ | hsec
  · have h1 := hsec ms hm
    have h2 := hsec ms' hm'
    have he1 := he
    rw [hs, h1] at he1
    obtain ⟨e₁, e, e₂, rfl, m1, ⟨hd', body, eb, hsc⟩, m3⟩ := c122_all_mid he1
    obtain ⟨rfl, rfl⟩ := List.cons.inj eb
    obtain ⟨k', v, hk', hv, -⟩ := c115_sec hsc
    obtain ⟨hn, rfl⟩ := c115_header_unique hk hk'
    obtain ⟨v', hv'⟩ := hread q v hv
    obtain ⟨eff, hsc'⟩ := c139_sec hk hv'
    obtain ⟨r', hr'⟩ : ∃ r', parse s' = .ok r' := by
      refine ⟨_, (c69_ok s' _).mpr ⟨e₁ ++ (n, eff) :: e₂, ?_, rfl⟩⟩
      rw [hs', h2]
      exact c121_all_append m1 (.cons ⟨hd, _, rfl, hsc'⟩ m3)
    refine ⟨r', hr', fun m => ?_⟩
    have key := c122_replaced h hr' (by rw [hs, h1]) (by rw [hs', h2]) hk m
    split
    · trivial
    · rename_i a a' ha ha'
      rw [ha, ha'] at key
      refine ⟨key.1, fun k => ?_⟩
      rcases key.2 k with e | ⟨e1, e2, v, w, q1, q2, q3, q4⟩
      · exact .inl e
      · exact .inr ⟨e1, e2, q, v, w, hq, q1, q2, q3, q4⟩
    · rename_i hx hy
      split at key
      · rename_i hu hv; exact hx hu hv
      · rename_i a c hu hv; exact hy a c hu hv
      · exact key
  · refine ⟨r, (c69_ok s' r).mpr ⟨es, ?_, hr⟩, fun m => ?_⟩
    · rw [hs', hsec ms' hm', ← hsec ms hm, ← hs]
      exact he
    · cases r.screens.get m with
      | none => trivial
      | some a => exact ⟨rfl, fun _ => .inl rfl⟩

/-- The lines in the middle of a pool are replaced. -/
theorem c139_read {ε α : Type} {p : Str → Out ε α} {b ms ms' q : List Str} {xs xs' vs : List α} (hm : c139_Lines p ms xs) (hm' : c139_Lines p ms' xs')
    (h : PoolReads p (b ++ (ms ++ q)) vs) : ∃ u w, u.length = b.length ∧ vs = u ++ (xs ++ w) ∧ PoolReads p (b ++ (ms' ++ q)) (u ++ (xs' ++ w)) := by
  obtain ⟨u, w0, rfl, hu, hw0, hul⟩ := c122_split h
  obtain ⟨x0, w, rfl, hx0, hw, -⟩ := c122_split hw0
  obtain rfl := c119_reads_unique hx0 (c139_lines_iff.mp hm)
  exact ⟨u, w, hul, rfl, hu.append ((c139_lines_iff.mp hm').append hw)⟩

/-- What a changed pool of a screen is, for the ends of the header of each pool. -/
theorem c139_slots {a a' : ScreenLogic} (hn : a.name = a'.name) {suf : Str} (h : ∀ k, k ≠ .pool suf → c115_at a k = c115_at a' k) :
    (∀ c, a.blockContainers.get c = a'.blockContainers.get c) ∧ a.name = a'.name ∧
    (suf ≠ s% "java_var" → a.variables = a'.variables) ∧ (suf ≠ s% "java_list" → a.listVariables = a'.listVariables) ∧
    (suf ≠ s% "java_components" → a.components = a'.components) ∧ (suf ≠ s% "java_events" → a.events = a'.events) ∧
    (suf ≠ s% "java_func" → a.moreBlocks = a'.moreBlocks) := by
  have ne : ∀ {t : Str}, suf ≠ t → c115_Kind.pool t ≠ .pool suf := fun h e => h (by cases e; rfl)
  refine ⟨fun c => c137_some (f := c115_Slot.code) (fun _ _ h => by cases h; rfl) (h (.code c) nofun), hn, fun e => ?_, fun e => ?_, fun e => ?_, fun e => ?_, fun e => ?_⟩
  · exact c137_some (f := c115_Slot.vars) (fun _ _ h => by cases h; rfl) (h _ (ne e))
  · exact c137_some (f := c115_Slot.lists) (fun _ _ h => by cases h; rfl) (h _ (ne e))
  · exact c137_some (f := c115_Slot.comps) (fun _ _ h => by cases h; rfl) (h _ (ne e))
  · exact c137_some (f := c115_Slot.events) (fun _ _ h => by cases h; rfl) (h _ (ne e))
  · exact c137_some (f := c115_Slot.mbs) (fun _ _ h => by cases h; rfl) (h _ (ne e))

/-- Two screens with the same parts hold the same. -/
theorem c139_same {a a' : ScreenLogic} (hn : a.name = a'.name) (h : ∀ k, c115_at a k = c115_at a' k) : c115_Screens a a' := by
  obtain ⟨h1, h2, h3, -⟩ := c139_slots (suf := s% "java_list") hn (fun k _ => h k)
  obtain ⟨-, -, -, h4, h5, h6, h7⟩ := c139_slots (suf := s% "java_var") hn (fun k _ => h k)
  exact ⟨h2, h3 (by decide), h4 (by decide), h5 (by decide), h6 (by decide), h7 (by decide), h1⟩

end Swrs.Logic

namespace Swrs.Api
variable [MapPol] [Floats]
open Swrs.Logic

section
variable {S : Str → Screen → Screen → Prop} (hS : ∀ n s, S n s s)
include hS

/-- Logics of whose screens related screens are made. -/
def c139_Logics (S : Str → Screen → Screen → Prop) (lg lg' : LMap Str ScreenLogic) : Prop := ∀ m, match lg.get m, lg'.get m with
  | none, none => True
  | some a, some a' => a'.name = a.name ∧ ∀ ln gn file view fab s, Screen.fromParsed ln gn file view a fab = .ok s →
      ∃ s', Screen.fromParsed ln gn file view a' fab = .ok s' ∧ S m s s'
  | _, _ => False

theorem c139_activities {items : List FileItem} {ly : LMap Str Layout} {lg lg' : LMap Str ScreenLogic} {fs : LMap Str AndroidView} {ss : List Screen} {ly' : LMap Str Layout}
    (hl : c139_Logics S lg lg') (h : activitiesConv items ly lg fs = .ok (ss, ly')) :
    ∃ ss', activitiesConv items ly lg' fs = .ok (ss', ly') ∧ All₂ (fun s s' => S (viewNameToLogic s.layoutName) s s') ss ss' := by
  induction items generalizing ly lg lg' fs ss ly' with
  | nil => cases h; exact ⟨[], rfl, .nil⟩
  | cons f items ih =>
    simp only [activitiesConv, Out.bind_eq_ok, Out.mapErr_eq_ok, Prod.exists] at h
    obtain ⟨s, h1, ss', ly'', h2, h3⟩ := h
    obtain ⟨g, g', e1, e2, e3, hc⟩ : ∃ g g' : ScreenLogic, (lg.get (viewNameToLogic f.filename)).getD (ScreenLogic.newEmpty f.filename) = g ∧
        (lg'.get (viewNameToLogic f.filename)).getD (ScreenLogic.newEmpty f.filename) = g' ∧ g'.name = g.name ∧
        ∀ ln gn file view fab s, Screen.fromParsed ln gn file view g fab = .ok s →
          ∃ s', Screen.fromParsed ln gn file view g' fab = .ok s' ∧ S (viewNameToLogic f.filename) s s' := by
      have := hl (viewNameToLogic f.filename)
      cases e1 : lg.get (viewNameToLogic f.filename) with
      | none => cases e2 : lg'.get (viewNameToLogic f.filename) with
        | none => exact ⟨_, _, rfl, rfl, rfl, fun _ _ _ _ _ s h => ⟨s, h, hS _ _⟩⟩
        | some b => rw [e1, e2] at this; exact this.elim
      | some a => cases e2 : lg'.get (viewNameToLogic f.filename) with
        | none => rw [e1, e2] at this; exact this.elim
        | some b => rw [e1, e2] at this; exact ⟨_, _, rfl, rfl, this⟩
    rw [e1] at h1
    simp only [activitiesConv, e2]
    have hln : s.layoutName = f.filename := by
      obtain ⟨_, _, _, _, _, _, _, _, _, _, e⟩ := c120_screen_ok h1
      rw [e]
    obtain ⟨s', h5, h5'⟩ := hc _ _ _ _ _ _ h1
    rw [e3, h5]
    have h6 : c139_Logics S (lg.erase (viewNameToLogic f.filename)) (lg'.erase (viewNameToLogic f.filename)) := by
      intro n
      rw [LMap.get_erase, LMap.get_erase]
      by_cases hn : n = viewNameToLogic f.filename
      · rw [if_pos hn, if_pos hn]; trivial
      · rw [if_neg hn, if_neg hn]; exact hl n
    obtain ⟨ss2, h7, h8⟩ := ih h6 h2
    simp only [Out.mapErr_ok, Out.ok_bind, h7]
    cases h3
    exact ⟨_, rfl, .cons (hln ▸ h5') h8⟩

theorem c139_project (rnd : ResourceType → Nat → UInt32) {p : Swrs.SketchwareProject} {P : SketchwareProject} (hP : SketchwareProject.tryFrom rnd p = .ok P)
    {logic : Logic} (hl : c139_Logics S p.logic.screens logic.screens) : ∃ Q, SketchwareProject.tryFrom rnd { p with logic } = .ok Q ∧ Q = { P with screens := Q.screens } ∧
      All₂ (fun s s' => S (viewNameToLogic s.layoutName) s s') P.screens Q.screens := by
  unfold SketchwareProject.tryFrom at hP ⊢
  simp only [Out.bind_eq_ok, Prod.exists] at hP
  obtain ⟨ss', ly', a1, cs', a2, lb, a3, im, a4, so, a5, fo, a6, a7⟩ := hP
  obtain ⟨ss2, h1, h2⟩ := c139_activities hS hl a1
  simp only [h1, Out.ok_bind, a2, a3, a4, a5, a6]
  cases a7
  exact ⟨_, rfl, rfl, h2⟩

end

/-- The project of a logic file of which lines in the section of a pool are replaced. -/
theorem c139_text (ex : PathBuf → Bool) (rnd : ResourceType → Nat → UInt32) {raw : RawSketchwareProject} {logic : Str} {p : Swrs.SketchwareProject} {P : SketchwareProject}
    (hp : Swrs.SketchwareProject.parseFrom ex raw = .ok p) (hP : SketchwareProject.tryFrom rnd p = .ok P) {pre ms ms' post : List Str} {hd : Str} {b : List Str} {n suf : Str}
    (hpar : c122_LastPar pre hd b) (hk : c115_Header hd n (.pool suf)) (hs : lines raw.logic = pre ++ (ms ++ post)) (hs' : lines logic = pre ++ (ms' ++ post))
    (hm : [] ∉ ms) (hm' : [] ∉ ms') (hread : ∀ q v, c115_Reads (b ++ (ms ++ q)) (.pool suf) v → ∃ v', c115_Reads (b ++ (ms' ++ q)) (.pool suf) v')
    (T : Screen → Screen → Prop)
    (hT : ∀ a a' q v w ln gn file view fab s, (post = [] ∨ post.head? = some [] → q = []) → p.logic.screens.get n = some a → a.name = a'.name → (∀ k, k ≠ .pool suf → c115_at a k = c115_at a' k) →
      c115_at a (.pool suf) = some v → c115_at a' (.pool suf) = some w → c115_Reads (b ++ (ms ++ q)) (.pool suf) v → c115_Reads (b ++ (ms' ++ q)) (.pool suf) w →
      Screen.fromParsed ln gn file view a fab = .ok s → ∃ s', Screen.fromParsed ln gn file view a' fab = .ok s' ∧ T s s') :
    ∃ q Q, Swrs.SketchwareProject.parseFrom ex { raw with logic } = .ok q ∧ SketchwareProject.tryFrom rnd q = .ok Q ∧ Q = { P with screens := Q.screens } ∧
      All₂ (fun s s' => s' = s ∨ (viewNameToLogic s.layoutName = n ∧ T s s')) P.screens Q.screens := by
  obtain ⟨a1, a2, a3, a4, a5, a6, a7⟩ := (c58_parts ex raw p).mp hp
  obtain ⟨r', hr', hrel⟩ := c139_logic hpar hk hs hs' hm hm' hread a6
  obtain ⟨Q, h1, h2, h3⟩ := c139_project (S := fun m s s' => s' = s ∨ (m = n ∧ T s s')) (fun _ _ => .inl rfl) rnd hP (logic := r') fun m => by
    have := hrel m
    split
    · trivial
    · rename_i a a' ha ha'
      rw [ha, ha'] at this
      obtain ⟨t1, t2⟩ := this
      refine ⟨t1.symm, fun ln gn file view fab s hscr => ?_⟩
      by_cases hc : ∀ k, c115_at a k = c115_at a' k
      · rw [c115_screen _ _ _ _ _ (c139_same t1 hc)] at hscr
        exact ⟨s, hscr, .inl rfl⟩
      · obtain ⟨k, hk'⟩ := Classical.not_forall.mp hc
        obtain ⟨rfl, rfl, q, v, w, hq, q1, q2, q3, q4⟩ := (t2 k).resolve_left hk'
        obtain ⟨s', g1, g2⟩ := hT a a' q v w ln gn file view fab s hq ha t1 (fun k hne => (t2 k).elim id fun ⟨_, e, _⟩ => absurd e hne) q1 q2 q3 q4 hscr
        exact ⟨s', g1, .inr ⟨rfl, g2⟩⟩
    · rename_i hx hy
      split at this
      · rename_i hu hv; exact hx hu hv
      · rename_i a c hu hv; exact hy a c hu hv
      · exact this
  exact ⟨{ p with logic := r' }, Q, (c58_parts ex _ _).mpr ⟨a1, a2, a3, a4, a5, hr', a7⟩, h1, h2, h3⟩


/-- C139: in the section of the variables of a screen in the text of the logic file, readable lines are replaced by other readable lines. The project is opened as before, except that
the variables of that screen are collected of the entries with the new ones in the place of the old ones. -/
theorem c139_variables (ex : PathBuf → Bool) (rnd : ResourceType → Nat → UInt32) {raw : RawSketchwareProject} {logic : Str} {p : Swrs.SketchwareProject} {P : SketchwareProject}
    (hp : Swrs.SketchwareProject.parseFrom ex raw = .ok p) (hP : SketchwareProject.tryFrom rnd p = .ok P) {pre ms ms' post : List Str} {hd : Str} {b : List Str} {n : Str}
    (hpar : c122_LastPar pre hd b) (hk : c115_Header hd n (.pool (s% "java_var"))) (hs : lines raw.logic = pre ++ (ms ++ post)) (hs' : lines logic = pre ++ (ms' ++ post))
    {xs xs' : List Variable} (hm : c139_Lines Variable.parse ms xs) (hm' : c139_Lines Variable.parse ms' xs') :
    ∃ q Q, Swrs.SketchwareProject.parseFrom ex { raw with logic } = .ok q ∧ SketchwareProject.tryFrom rnd q = .ok Q ∧ Q = { P with screens := Q.screens } ∧
      All₂ (fun s s' => s' = s ∨ (viewNameToLogic s.layoutName = n ∧ ∃ u w, u.length = b.length ∧ s.«variables» = LMap.collect ((u ++ (xs ++ w)).map fun v => (v.name, v)) ∧
        s' = { s with «variables» := LMap.collect ((u ++ (xs' ++ w)).map fun v => (v.name, v)) })) P.screens Q.screens := by
  refine c139_text ex rnd hp hP hpar hk hs hs' (c139_lines_blank hm) (c139_lines_blank hm') ?_ _ ?_
  · rintro q v ⟨vs, h, -⟩
    obtain ⟨u, w, -, -, h'⟩ := c139_read hm hm' h
    exact ⟨_, _, h', rfl⟩
  · rintro a a' q v w ln gn file view fab s - - hn hrest ha ha' ⟨vs, hv, rfl⟩ ⟨ws, hw, rfl⟩ h
    obtain ⟨u, w, hu, rfl, h'⟩ := c139_read hm hm' hv
    obtain rfl := hw.unique h'
    have ea : a.«variables» = some _ := c137_some (f := c115_Slot.vars) (y := some _) (fun _ _ h => by cases h; rfl) ha
    have ea' : a'.«variables» = some _ := c137_some (f := c115_Slot.vars) (y := some _) (fun _ _ h => by cases h; rfl) ha'
    obtain ⟨g1, g2, g3, g4, g5, g6, g7⟩ := c139_slots hn hrest
    have hsc : c115_Screens { a with «variables» := a'.«variables» } a' := by
      exact ⟨g2, rfl, g4 (by decide), g5 (by decide), g6 (by decide), g7 (by decide), g1⟩
    rw [← c115_screen _ _ _ _ _ hsc]
    unfold Screen.fromParsed at h ⊢
    rw [show parserEvents { a with «variables» := a'.«variables» } = parserEvents a from rfl]
    simp only [Out.bind_eq_ok, Out.mapErr_eq_ok, Prod.exists] at h
    obtain ⟨t, a1, mbs, bc, a2, comps, a3, es, bc', a4, a5⟩ := h
    simp only [a1, Out.mapErr_ok, Out.ok_bind, a2, a3, a4]
    cases a5
    refine ⟨_, rfl, u, w, hu, ?_, ?_⟩
    · simp only [ea]; rfl
    · simp only [ea']; rfl

/-- C139: in the section of the list variables of a screen in the text of the logic file, readable lines are replaced by other readable lines. The project is opened as before, except that
the list variables of that screen are collected of the entries with the new ones in the place of the old ones. -/
theorem c139_lists (ex : PathBuf → Bool) (rnd : ResourceType → Nat → UInt32) {raw : RawSketchwareProject} {logic : Str} {p : Swrs.SketchwareProject} {P : SketchwareProject}
    (hp : Swrs.SketchwareProject.parseFrom ex raw = .ok p) (hP : SketchwareProject.tryFrom rnd p = .ok P) {pre ms ms' post : List Str} {hd : Str} {b : List Str} {n : Str}
    (hpar : c122_LastPar pre hd b) (hk : c115_Header hd n (.pool (s% "java_list"))) (hs : lines raw.logic = pre ++ (ms ++ post)) (hs' : lines logic = pre ++ (ms' ++ post))
    {xs xs' : List ListVariable} (hm : c139_Lines ListVariable.parse ms xs) (hm' : c139_Lines ListVariable.parse ms' xs') :
    ∃ q Q, Swrs.SketchwareProject.parseFrom ex { raw with logic } = .ok q ∧ SketchwareProject.tryFrom rnd q = .ok Q ∧ Q = { P with screens := Q.screens } ∧
      All₂ (fun s s' => s' = s ∨ (viewNameToLogic s.layoutName = n ∧ ∃ u w, u.length = b.length ∧ s.listVariables = LMap.collect ((u ++ (xs ++ w)).map fun v => (v.name, v)) ∧
        s' = { s with listVariables := LMap.collect ((u ++ (xs' ++ w)).map fun v => (v.name, v)) })) P.screens Q.screens := by
  refine c139_text ex rnd hp hP hpar hk hs hs' (c139_lines_blank hm) (c139_lines_blank hm') ?_ _ ?_
  · rintro q v ⟨vs, h, -⟩
    obtain ⟨u, w, -, -, h'⟩ := c139_read hm hm' h
    exact ⟨_, _, h', rfl⟩
  · rintro a a' q v w ln gn file view fab s - - hn hrest ha ha' ⟨vs, hv, rfl⟩ ⟨ws, hw, rfl⟩ h
    obtain ⟨u, w, hu, rfl, h'⟩ := c139_read hm hm' hv
    obtain rfl := hw.unique h'
    have ea : a.listVariables = some _ := c137_some (f := c115_Slot.lists) (y := some _) (fun _ _ h => by cases h; rfl) ha
    have ea' : a'.listVariables = some _ := c137_some (f := c115_Slot.lists) (y := some _) (fun _ _ h => by cases h; rfl) ha'
    obtain ⟨g1, g2, g3, g4, g5, g6, g7⟩ := c139_slots hn hrest
    have hsc : c115_Screens { a with listVariables := a'.listVariables } a' := by
      exact ⟨g2, g3 (by decide), rfl, g5 (by decide), g6 (by decide), g7 (by decide), g1⟩
    rw [← c115_screen _ _ _ _ _ hsc]
    unfold Screen.fromParsed at h ⊢
    rw [show parserEvents { a with listVariables := a'.listVariables } = parserEvents a from rfl]
    simp only [Out.bind_eq_ok, Out.mapErr_eq_ok, Prod.exists] at h
    obtain ⟨t, a1, mbs, bc, a2, comps, a3, es, bc', a4, a5⟩ := h
    simp only [a1, Out.mapErr_ok, Out.ok_bind, a2, a3, a4]
    cases a5
    refine ⟨_, rfl, u, w, hu, ?_, ?_⟩
    · simp only [ea]; rfl
    · simp only [ea']; rfl

omit [MapPol] [Floats] in
theorem c139_split {α β : Type} {R : α → β → Prop} {as' : List α} : ∀ {as : List α} {bs : List β}, All₂ R (as ++ as') bs →
    ∃ b₁ b₂, bs = b₁ ++ b₂ ∧ All₂ R as b₁ ∧ All₂ R as' b₂
  | [], bs, h => ⟨[], bs, rfl, .nil, h⟩
  | a :: as, _, .cons h t => by
    obtain ⟨b₁, b₂, rfl, h1, h2⟩ := c139_split t
    exact ⟨_ :: b₁, b₂, rfl, .cons h h1, h2⟩

/-- Specification: the components that these entries of the file are. -/
def c139_Components (xs : List Component) (ks : List (Str × ComponentKind)) : Prop := All₂ (fun c e => e.1 = c.id ∧ ComponentKind.fromParser c = .ok e.2) xs ks

/-- C139: in the section of the components of a screen in the text of the logic file, readable lines are replaced by other readable lines for components of known types. The
project is opened as before, except that the components of that screen are collected of the entries with the new ones in the place of the old ones. -/
theorem c139_components (ex : PathBuf → Bool) (rnd : ResourceType → Nat → UInt32) {raw : RawSketchwareProject} {logic : Str} {p : Swrs.SketchwareProject} {P : SketchwareProject}
    (hp : Swrs.SketchwareProject.parseFrom ex raw = .ok p) (hP : SketchwareProject.tryFrom rnd p = .ok P) {pre ms ms' post : List Str} {hd : Str} {b : List Str} {n : Str}
    (hpar : c122_LastPar pre hd b) (hk : c115_Header hd n (.pool (s% "java_components"))) (hs : lines raw.logic = pre ++ (ms ++ post)) (hs' : lines logic = pre ++ (ms' ++ post))
    {xs xs' : List Component} (hm : c139_Lines (lineParser Component.parse) ms xs) (hm' : c139_Lines (lineParser Component.parse) ms' xs')
    (hok : ∀ x ∈ xs', ∃ k, ComponentKind.fromParser x = .ok k) :
    ∃ q Q, Swrs.SketchwareProject.parseFrom ex { raw with logic } = .ok q ∧ SketchwareProject.tryFrom rnd q = .ok Q ∧ Q = { P with screens := Q.screens } ∧
      All₂ (fun s s' => s' = s ∨ (viewNameToLogic s.layoutName = n ∧ ∃ A ks ks' B, A.length = b.length ∧ c139_Components xs ks ∧ c139_Components xs' ks' ∧
        s.components = LMap.collect (A ++ (ks ++ B)) ∧ s' = { s with components := LMap.collect (A ++ (ks' ++ B)) })) P.screens Q.screens := by
  refine c139_text ex rnd hp hP hpar hk hs hs' (c139_lines_blank hm) (c139_lines_blank hm') ?_ _ ?_
  · rintro q v ⟨vs, h, -⟩
    obtain ⟨u, w, -, -, h'⟩ := c139_read hm hm' h
    exact ⟨_, _, h', rfl⟩
  · rintro a a' q v w ln gn file view fab s - - hn hrest ha ha' ⟨vs, hv, rfl⟩ ⟨ws, hw, rfl⟩ h
    obtain ⟨u, w, hu, rfl, h'⟩ := c139_read hm hm' hv
    obtain rfl := hw.unique h'
    have ea : a.components = some _ := c137_some (f := c115_Slot.comps) (y := some _) (fun _ _ h => by cases h; rfl) ha
    have ea' : a'.components = some _ := c137_some (f := c115_Slot.comps) (y := some _) (fun _ _ h => by cases h; rfl) ha'
    obtain ⟨g1, g2, g3, g4, g5, g6, g7⟩ := c139_slots hn hrest
    have hsc : c115_Screens { a with components := a'.components } a' :=
      ⟨g2, g3 (by decide), g4 (by decide), rfl, g6 (by decide), g7 (by decide), g1⟩
    rw [← c115_screen _ _ _ _ _ hsc]
    unfold Screen.fromParsed at h ⊢
    rw [show parserEvents { a with components := a'.components } = parserEvents a from rfl]
    simp only [Out.bind_eq_ok, Out.mapErr_eq_ok, Prod.exists] at h
    obtain ⟨t, a1, mbs, bc, a2, comps, a3, es, bc', a4, a5⟩ := h
    rw [ea] at a3
    obtain ⟨A, z, rfl, k1, k2⟩ := c139_split (c124_componentsOf.mp a3)
    obtain ⟨ks, B, rfl, k3, k4⟩ := c139_split k2
    obtain ⟨ks', k5⟩ : ∃ ks', c139_Components xs' ks' := by
      refine c110_all_exists fun x hx => ?_
      obtain ⟨k, hk⟩ := hok x hx
      exact ⟨(x.id, k), rfl, hk⟩
    have a3' := c124_componentsOf.mpr (c121_all_append k1 (c121_all_append k5 k4))
    simp only [a1, Out.mapErr_ok, Out.ok_bind, a2, ea', Option.map_some, Option.getD_some, a3', a4]
    cases a5
    exact ⟨_, rfl, A, ks, ks', B, by rw [← k1.length_eq, hu], k3, k5, rfl, rfl⟩

/-- The containers that are left by the more blocks. -/
theorem c139_left {n : Str} : ∀ (ms : List (Str × Swrs.MoreBlock)) {cs cs' : Containers} {rs : List (Str × MoreBlock)}, (∀ k ∈ LMap.keys ms, n ≠ moreBlockId k) →
    moreBlocksOf ms cs = .ok (rs, cs') → cs'.get n = cs.get n
  | [], cs, cs', rs, _, h => by obtain ⟨-, rfl⟩ := Prod.mk.inj (Out.ok.inj h); rfl
  | (id, m) :: ms, cs, cs', rs, h0, h => by
    rw [moreBlocksOf] at h
    simp only [Out.bind_eq_ok, Prod.exists] at h
    obtain ⟨z, cs₁, hz, zs, cs₂, h, h'⟩ := h
    obtain ⟨-, rfl⟩ := Prod.mk.inj (Out.ok.inj h')
    rw [c139_left ms (fun k hk => h0 k (by rw [LMap.keys_cons]; exact List.mem_cons_of_mem _ hk)) h]
    unfold moreBlockOf at hz
    simp only [Out.bind_eq_ok, Prod.exists] at hz
    obtain ⟨sp, -, code, cs₃, hc, hz⟩ := hz
    obtain ⟨-, rfl⟩ := Prod.mk.inj (Out.ok.inj hz)
    rw [(takeCode_ok.mp hc).2, LMap.get_erase, if_neg (h0 id (by rw [LMap.keys_cons]; exact List.mem_cons_self))]

theorem c139_event {x : Swrs.Event} (h : 1 ≤ x.eventType ∧ x.eventType ≤ 3) : Event.tryFrom x = .ok ⟨x.eventName, eventTypeOf x, []⟩ := by
  rcases event_read x with ⟨e, he, -, -, -, h6, h7⟩ | ⟨-, h'⟩
  · rw [he]
    obtain ⟨n, t, c⟩ := e
    simp only at h6 h7
    have hc : c = [] := by
      simp only [Event.tryFrom, Out.bind_eq_ok, Out.pure_eq, Out.ok.injEq, Event.mk.injEq] at he
      obtain ⟨_, _, _, _, rfl⟩ := he
      rfl
    rw [h6, h7, hc]
  · exact absurd h h'

/-- Specification: the events that these entries of the file are, without the code. -/
def c139_Events (xs : List Swrs.Event) (es : List Event) : Prop := All₂ (fun x e => e.name = x.eventName ∧ e.eventType = eventTypeOf x) xs es

theorem c139_events_of {xs : List Swrs.Event} {es : List Event} (h : All₂ (fun p e => Event.tryFrom p = .ok { e with code := [] }) xs es) : c139_Events xs es :=
  h.imp fun x e he => by
    rcases event_read x with ⟨e', h1, -, -, -, h6, h7⟩ | ⟨h1, -⟩
    · rw [h1] at he
      cases he
      exact ⟨h6, h7⟩
    · rw [h1] at he
      cases he

/-- C139: in the section of the events of a screen in the text of the logic file, readable lines are replaced by other readable lines for events of known types. No two events of
the screen have the same container, before and after, and no new event has the container of a more block. If there is code in the containers of the new events, or no container,
the project is opened as before, except that in that screen the new events, each with the code of its container, are in the place of the old ones. -/
theorem c139_events (ex : PathBuf → Bool) (rnd : ResourceType → Nat → UInt32) {raw : RawSketchwareProject} {logic : Str} {p : Swrs.SketchwareProject} {P : SketchwareProject}
    (hp : Swrs.SketchwareProject.parseFrom ex raw = .ok p) (hP : SketchwareProject.tryFrom rnd p = .ok P) {pre ms ms' post : List Str} {hd : Str} {b : List Str} {n : Str}
    (hpar : c122_LastPar pre hd b) (hk : c115_Header hd n (.pool (s% "java_events"))) (hs : lines raw.logic = pre ++ (ms ++ post)) (hs' : lines logic = pre ++ (ms' ++ post))
    {xs xs' : List Swrs.Event} (hm : c139_Lines (lineParser Swrs.Event.parse) ms xs) (hm' : c139_Lines (lineParser Swrs.Event.parse) ms' xs')
    (hty : ∀ x ∈ xs', 1 ≤ x.eventType ∧ x.eventType ≤ 3)
    (hcode : ∀ a, p.logic.screens.get n = some a → ∀ x ∈ xs', ∃ code, tryFrom ((a.blockContainers.get (containerName x)).getD ⟨[]⟩) = .ok code)
    (hmb : ∀ a pool, p.logic.screens.get n = some a → a.moreBlocks = some pool → ∀ k ∈ LMap.keys pool.map, ∀ x ∈ xs', containerName x ≠ k ++ s% "_moreBlock")
    (hd1 : ∀ a, p.logic.screens.get n = some a → ((parserEvents a).map containerName).Nodup)
    (hd2 : ∀ a u w, p.logic.screens.get n = some a → a.events = some ⟨u ++ (xs ++ w)⟩ → u.length = b.length →
      ((parserEvents { a with events := some ⟨u ++ (xs' ++ w)⟩ }).map containerName).Nodup) :
    ∃ q Q, Swrs.SketchwareProject.parseFrom ex { raw with logic } = .ok q ∧ SketchwareProject.tryFrom rnd q = .ok Q ∧ Q = { P with screens := Q.screens } ∧
      All₂ (fun s s' => s' = s ∨ (viewNameToLogic s.layoutName = n ∧ ∃ a A es es' B, p.logic.screens.get n = some a ∧ c139_Events xs es ∧ c139_Events xs' es' ∧
        (∀ e ∈ es', tryFrom ((a.blockContainers.get e.containerId).getD ⟨[]⟩) = .ok e.code) ∧
        s.events = A ++ (es ++ B) ∧ s' = { s with events := A ++ (es' ++ B) })) P.screens Q.screens := by
  refine c139_text ex rnd hp hP hpar hk hs hs' (c139_lines_blank hm) (c139_lines_blank hm') ?_ _ ?_
  · rintro q v ⟨vs, h, -⟩
    obtain ⟨u, w, -, -, h'⟩ := c139_read hm hm' h
    exact ⟨_, _, h', rfl⟩
  · rintro a a' q v w ln gn file view fab s - hget hn hrest ha ha' ⟨vs, hv, rfl⟩ ⟨ws, hw, rfl⟩ h
    obtain ⟨u, w, hu, rfl, h'⟩ := c139_read hm hm' hv
    obtain rfl := hw.unique h'
    have ea : a.events = some _ := c137_some (f := c115_Slot.events) (y := some _) (fun _ _ h => by cases h; rfl) ha
    have ea' : a'.events = some _ := c137_some (f := c115_Slot.events) (y := some _) (fun _ _ h => by cases h; rfl) ha'
    obtain ⟨g1, g2, g3, g4, g5, g6, g7⟩ := c139_slots hn hrest
    have hsc : c115_Screens { a with events := a'.events } a' :=
      ⟨g2, g3 (by decide), g4 (by decide), g5 (by decide), rfl, g7 (by decide), g1⟩
    rw [← c115_screen _ _ _ _ _ hsc, ea']
    have n1 := hd1 a hget
    have n2 := hd2 a u w hget ea hu
    unfold Screen.fromParsed at h ⊢
    simp only [Out.bind_eq_ok, Out.mapErr_eq_ok, Prod.exists] at h
    obtain ⟨t, a1, mbs, bc, a2, comps, a3, es, bc', a4, a5⟩ := h
    obtain ⟨u', e1, e2⟩ : ∃ u', parserEvents a = u' ++ (xs ++ w) ∧ parserEvents { a with events := some ⟨u ++ (xs' ++ w)⟩ } = u' ++ (xs' ++ w) := by
      unfold parserEvents
      simp only [ea, Option.map_some, Option.getD_some]
      split
      · exact ⟨onCreateEvent :: u, rfl, rfl⟩
      · exact ⟨u, rfl, rfl⟩
    rw [e1] at a4 n1
    rw [e2] at n2 ⊢
    obtain ⟨h1, h2⟩ := eventsOf_ok.mp ⟨_, a4⟩
    rw [← (c125_containerId h1).1] at n1
    have h3 := (c124_readsBack n1).mp h2
    obtain ⟨A, z, rfl, k1, k2⟩ := c139_split h1
    obtain ⟨es, B, rfl, k3, k4⟩ := c139_split k2
    obtain ⟨es', k5⟩ : ∃ es' : List Event, All₂ (fun (x : Swrs.Event) (e : Event) => x ∈ xs' ∧ Event.tryFrom x = .ok { e with code := [] } ∧
        tryFrom ((a.blockContainers.get (containerName x)).getD ⟨[]⟩) = .ok e.code) xs' es' := by
      refine c110_all_exists fun x hx => ?_
      obtain ⟨code, hc⟩ := hcode a hget x hx
      exact ⟨⟨x.eventName, eventTypeOf x, code⟩, hx, c139_event (hty x hx), hc⟩
    have k6 : All₂ (fun (x : Swrs.Event) (e : Event) => Event.tryFrom x = .ok { e with code := [] }) xs' es' := k5.imp fun _ _ h => h.2.1
    have k7 := c121_all_append k1 (c121_all_append k6 k4)
    obtain ⟨i1, i2⟩ := c125_containerId k7
    rw [← i1] at n2
    have left : ∀ x ∈ xs', bc.get (containerName x) = a.blockContainers.get (containerName x) := by
      intro x hx
      refine c139_left _ (fun k hk => ?_) a2
      cases em : a.moreBlocks with
      | none => rw [em] at hk; cases hk
      | some pool => rw [em] at hk; exact hmb a pool hget em k hk x hx
    have new : ∀ e ∈ es', tryFrom ((a.blockContainers.get e.containerId).getD ⟨[]⟩) = .ok e.code ∧ codeOf bc e.containerId = .ok e.code := by
      intro e he
      obtain ⟨x, -, hx, q1, q2⟩ := k5.right e he
      rw [i2 _ _ q1]
      exact ⟨q2, by unfold codeOf; rw [left x hx]; exact q2⟩
    obtain ⟨cs'', h7⟩ := eventsOf_ok.mpr ⟨k7, (c124_readsBack (cs := bc) n2).mpr fun y hy => by
      rcases List.mem_append.mp hy with h | h
      · exact h3 y (by simp [h])
      · rcases List.mem_append.mp h with h | h
        · exact (new y h).2
        · exact h3 y (by simp [h])⟩
    simp only [a1, Out.mapErr_ok, Out.ok_bind, a2, a3, h7]
    cases a5
    exact ⟨_, rfl, a, A, es, es', B, hget, c139_events_of k3, c139_events_of k6, fun e he => (new e he).1, rfl, rfl⟩

/-- C139: the line of a more block in the text of the logic file is replaced by one for a more block of the same name with another spec that is read. No two lines of the section
have the same name. The project is opened as before, except that this more block, in that screen, has the new spec. -/
theorem c139_moreBlock (ex : PathBuf → Bool) (rnd : ResourceType → Nat → UInt32) {raw : RawSketchwareProject} {logic : Str} {p : Swrs.SketchwareProject} {P : SketchwareProject}
    (hp : Swrs.SketchwareProject.parseFrom ex raw = .ok p) (hP : SketchwareProject.tryFrom rnd p = .ok P) {pre rest post : List Str} {l l' hd : Str} {b : List Str} {n : Str}
    (hpar : c122_LastPar pre hd b) (hk : c115_Header hd n (.pool (s% "java_func"))) (hs : lines raw.logic = pre ++ (l :: rest ++ post)) (hs' : lines logic = pre ++ (l' :: rest ++ post))
    (hend : post = [] ∨ post.head? = some []) {us ws : List Swrs.MoreBlock} {x x' : Swrs.MoreBlock} (hb : c139_Lines Swrs.MoreBlock.parse b us)
    (hx : c139_Lines Swrs.MoreBlock.parse (l :: rest) (x :: ws)) (hl' : l' ≠ []) (hx' : Swrs.MoreBlock.parse l' = .ok x') (hid : x'.id = x.id)
    (hd1 : ((us ++ x :: ws).map (·.id)).Nodup) {spec : BlockContent Block} (hspec : BlockContent.parseWoParams x'.spec = .ok spec) :
    ∃ q Q, Swrs.SketchwareProject.parseFrom ex { raw with logic } = .ok q ∧ SketchwareProject.tryFrom rnd q = .ok Q ∧ Q = { P with screens := Q.screens } ∧
      All₂ (fun s s' => s' = s ∨ (viewNameToLogic s.layoutName = n ∧ ∃ A m B, s.moreBlocks = A ++ (x.id, m) :: B ∧
        s' = { s with moreBlocks := A ++ (x.id, { m with spec }) :: B })) P.screens Q.screens := by
  have hm' : c139_Lines Swrs.MoreBlock.parse (l' :: rest) (x' :: ws) := by
    cases hx with
    | cons _ h => exact .cons ⟨hl', hx'⟩ h
  have hm := hx
  refine c139_text ex rnd hp hP hpar hk hs hs' (c139_lines_blank hm) (c139_lines_blank hm') ?_ _ ?_
  · rintro q v ⟨vs, h, -⟩
    obtain ⟨u, w, -, -, h'⟩ := c139_read hm hm' h
    exact ⟨_, _, h', rfl⟩
  · rintro a a' q v w ln gn file view fab s hq - hn hrest ha ha' ⟨vs, hv, rfl⟩ ⟨ws, hw, rfl⟩ h
    obtain rfl := hq hend
    obtain rfl := hv.unique ((c139_lines_iff.mp hb).append ((c139_lines_iff.mp hm).append .nil))
    obtain rfl := hw.unique ((c139_lines_iff.mp hb).append ((c139_lines_iff.mp hm').append .nil))
    have ea : a.moreBlocks = some _ := c137_some (f := c115_Slot.mbs) (y := some _) (fun _ _ h => by cases h; rfl) ha
    have ea' : a'.moreBlocks = some _ := c137_some (f := c115_Slot.mbs) (y := some _) (fun _ _ h => by cases h; rfl) ha'
    obtain ⟨g1, g2, g3, g4, g5, g6, g7⟩ := c139_slots hn hrest
    have hsc : c115_Screens { a with moreBlocks := a'.moreBlocks } a' :=
      ⟨g2, g3 (by decide), g4 (by decide), g5 (by decide), g6 (by decide), rfl, g1⟩
    rw [← c115_screen _ _ _ _ _ hsc]
    have n1 := hd1
    have n2 : ((us ++ x' :: ws).map (·.id)).Nodup := by
      rw [List.map_append, List.map_cons] at n1 ⊢
      rw [hid]; exact n1
    have kk : ∀ vs : List Swrs.MoreBlock, LMap.keys (vs.map fun m => (m.id, m)) = vs.map (·.id) := fun vs => by simp [LMap.keys]
    rw [← kk] at n1 n2
    have c1 := LMap.collect_nodup _ n1
    have c2 := LMap.collect_nodup _ n2
    simp only [List.append_nil] at ea ea'
    rw [c1] at ea
    rw [c2] at ea'
    unfold Screen.fromParsed at h ⊢
    rw [show parserEvents { a with moreBlocks := a'.moreBlocks } = parserEvents a from rfl]
    simp only [Out.bind_eq_ok, Out.mapErr_eq_ok, Prod.exists] at h
    obtain ⟨t, a1, mbs, bc, a2, comps, a3, es, bc', a4, a5⟩ := h
    rw [ea] at a2
    simp only [Option.map_some, Option.getD_some] at a2
    obtain ⟨k1, rfl⟩ := (moreBlocksOf_ok n1).mp a2
    have n3 : LMap.keys mbs = LMap.keys ((us ++ x :: ws).map fun m => (m.id, m)) := by
      clear a2 n1 n2 c1 c2 ea ea' a5
      generalize (us ++ x :: ws).map _ = z at k1
      induction k1 with
      | nil => rfl
      | cons h _ ih => rw [LMap.keys_cons, LMap.keys_cons, ih, h.1]
    rw [List.map_append, List.map_cons] at k1
    obtain ⟨A, ⟨i, m⟩, B, rfl, m1, ⟨m2, m3, m4, m5⟩, m6⟩ := c122_all_mid k1
    simp only at m2 m3 m4 m5
    subst m2
    have k2 : All₂ (fun (e : Str × Swrs.MoreBlock) (m : Str × MoreBlock) => m.1 = e.1 ∧ m.2.name = e.1 ∧ BlockContent.parseWoParams e.2.spec = .ok m.2.spec ∧
        codeOf a.blockContainers (moreBlockId e.1) = .ok m.2.code) ((us ++ x' :: ws).map fun m => (m.id, m)) (A ++ (x.id, { m with spec }) :: B) := by
      rw [List.map_append, List.map_cons]
      exact c121_all_append m1 (.cons ⟨hid.symm, by rw [hid]; exact m3, hspec, by rw [hid]; exact m5⟩ m6)
    have a2' := (moreBlocksOf_ok n2).mpr ⟨k2, rfl⟩
    have bceq : afterMoreBlocks ((us ++ x' :: ws).map fun m => (m.id, m)) a.blockContainers = afterMoreBlocks ((us ++ x :: ws).map fun m => (m.id, m)) a.blockContainers := by
      unfold afterMoreBlocks
      simp only [List.map_append, List.map_cons, List.foldl_append, List.foldl_cons, hid]
    rw [bceq] at a2'
    simp only [a1, Out.mapErr_ok, Out.ok_bind, ea', Option.map_some, Option.getD_some, a2', a3, a4]
    cases a5
    have n4 : (LMap.keys (A ++ (x.id, m) :: B)).Nodup := by rw [n3]; exact n1
    have n5 : (LMap.keys (A ++ (x.id, { m with spec }) :: B)).Nodup := by
      simp only [LMap.keys, List.map_append, List.map_cons] at n4 ⊢
      exact n4
    refine ⟨_, rfl, A, m, B, LMap.collect_nodup _ n4, ?_⟩
    rw [LMap.collect_nodup _ n5]

end Swrs.Api

/-! ### The hypotheses can be met -/

namespace Swrs.Api

/-- The lines of a logic file with a variable, a list, a component, an event and a container with a block. -/
def c139_ls (lv ll lc le : Str) : List Str :=
  [s% "@MainActivity.java_var", lv, [], s% "@MainActivity.java_list", ll, [], s% "@MainActivity.java_components", lc, [],
    s% "@MainActivity.java_events", le, [], s% "@MainActivity.java_b2_onClick", (exBlock (s% "0") (-1) (-1) (s% "a") []).reconstruct]

/-- The text of that logic file. -/
def c139_file (lv ll lc le : Str) : Str := joinWith '\n' (c139_ls lv ll lc le)

theorem c139_file_lines {lv ll lc le : Str} (h1 : '\n' ∉ lv) (h2 : '\n' ∉ ll) (h3 : '\n' ∉ lc) (h4 : '\n' ∉ le) : lines (c139_file lv ll lc le) = c139_ls lv ll lc le := by
  refine splitOn_joinWith (by simp [c139_ls]) ?_
  have h5 := (Block.jline (exBlock (s% "0") (-1) (-1) (s% "a") [])).noNl
  intro p hp
  simp only [c139_ls, List.mem_cons, List.not_mem_nil, or_false] at hp
  rcases hp with rfl | rfl | rfl | rfl | rfl | rfl | rfl | rfl | rfl | rfl | rfl | rfl | rfl | rfl
  all_goals first | assumption | decide

theorem c139_file_read [Floats] [pol : MapPol] (v : Variable) (lv ll : Str) (l : ListVariable) (c : Component) (e : Swrs.Event) (h1 : '\n' ∉ lv) (h2 : '\n' ∉ ll) (h3 : lv ≠ []) (h4 : ll ≠ [])
    (hv : Variable.parse lv = .ok v) (hl : ListVariable.parse ll = .ok l) : Logic.parse (c139_file lv ll c.reconstruct e.reconstruct) =
    .ok ⟨[(s% "MainActivity", { ScreenLogic.newEmpty (s% "MainActivity") with
      «variables» := some ⟨[(v.name, v)]⟩, listVariables := some ⟨[(l.name, l)]⟩, components := some ⟨[c]⟩, events := some ⟨[e]⟩,
      blockContainers := [(s% "b2_onClick", ⟨[exBlock (s% "0") (-1) (-1) (s% "a") []]⟩)] })]⟩ := by
  rw [Logic.c69_ok]
  have : Logic.sections (lines (c139_file lv ll c.reconstruct e.reconstruct)) = [[s% "@MainActivity.java_var", lv], [s% "@MainActivity.java_list", ll],
      [s% "@MainActivity.java_components", c.reconstruct], [s% "@MainActivity.java_events", e.reconstruct],
      [s% "@MainActivity.java_b2_onClick", (exBlock (s% "0") (-1) (-1) (s% "a") []).reconstruct]] := by
    rw [c139_file_lines h1 h2 (Component.jline c).noNl (Event.jline e).noNl]
    have k1 := (Component.jline c).ne_nil
    have k2 := (Event.jline e).ne_nil
    have k3 := (Block.jline (exBlock (s% "0") (-1) (-1) (s% "a") [])).ne_nil
    unfold c139_ls
    revert h3 h4 k1 k2 k3
    generalize c.reconstruct = x1
    generalize e.reconstruct = x2
    generalize Block.reconstruct _ = x3
    intro h3 h4 k1 k2 k3
    cases lv with
    | nil => exact absurd rfl h3
    | cons _ _ => cases ll with
      | nil => exact absurd rfl h4
      | cons _ _ => cases x1 with
        | nil => exact absurd rfl k1
        | cons _ _ => cases x2 with
          | nil => exact absurd rfl k2
          | cons _ _ => cases x3 with
            | nil => exact absurd rfl k3
            | cons _ _ => rfl
  rw [this]
  refine ⟨[(s% "MainActivity", _), (s% "MainActivity", _), (s% "MainActivity", _), (s% "MainActivity", _), (s% "MainActivity", _)],
    .cons ⟨_, _, rfl, Sec.var (name := s% "MainActivity") (x := '.') (vs := [v]) (by decide) (.cons h3 (toOption_eq_some.mpr hv) .nil)⟩
    (.cons ⟨_, _, rfl, Sec.list (name := s% "MainActivity") (x := '.') (vs := [l]) (by decide) (.cons h4 (toOption_eq_some.mpr hl) .nil)⟩
    (.cons ⟨_, _, rfl, Sec.components (name := s% "MainActivity") (x := '.') (by decide) (PoolReads.lineParser Component.jline Component.parse_reconstruct [c])⟩
    (.cons ⟨_, _, rfl, Sec.events (name := s% "MainActivity") (x := '.') (by decide) (PoolReads.lineParser Event.jline Event.parse_reconstruct [e])⟩
    (.cons ⟨_, _, rfl, Sec.blocks (hd := ⟨s% "MainActivity", s% "b2_onClick"⟩) (by unfold NotPool; decide) (by decide)
    (PoolReads.lineParser Block.jline Block.parse_reconstruct [_])⟩ .nil)))), ?_⟩
  obtain ⟨a, b⟩ := pol
  cases a <;> cases b <;> rfl

theorem c139_one {α ε : Type} {p : Str → Out ε α} {l : Str} {x : α} (h : l ≠ []) (h' : p l = .ok x) : Logic.c139_Lines p [l] [x] := .cons ⟨h, h'⟩ .nil

/-- `c139_variables`, `c139_lists`, `c139_components` and `c139_events`: the text of a project with a variable, a list, a component and an event of a view. Each of them is replaced
by another one; the new event has code, the old one does not. -/
example [pol : MapPol] (ex : PathBuf → Bool) (rnd : ResourceType → Nat → UInt32) : let _ : Floats := toyFloats.toFloats
    let n := s% "MainActivity"
    let c : Component := ⟨s% "t", [], [], [], 5⟩
    let c' : Component := ⟨s% "i", [], [], [], 1⟩
    let e : Swrs.Event := ⟨s% "onClick", 1, s% "b1", 3⟩
    let e' : Swrs.Event := ⟨s% "onClick", 1, s% "b2", 3⟩
    let raw := c120_raw [] (c139_file (s% "1:a") (s% "2:l") c.reconstruct e.reconstruct)
    let ls := c139_ls (s% "1:a") (s% "2:l") c.reconstruct e.reconstruct
    ∃ (p : Swrs.SketchwareProject) (P : SketchwareProject), Swrs.SketchwareProject.parseFrom ex raw = .ok p ∧ SketchwareProject.tryFrom rnd p = .ok P ∧ P.screens.length = 1 ∧
      (Logic.c122_LastPar (ls.take 1) (s% "@MainActivity.java_var") [] ∧ Logic.c115_Header (s% "@MainActivity.java_var") n (.pool (s% "java_var")) ∧
        lines raw.logic = ls.take 1 ++ ([s% "1:a"] ++ ls.drop 2) ∧ (∃ logic, lines logic = ls.take 1 ++ ([s% "0:b"] ++ ls.drop 2)) ∧
        (∃ x, Logic.c139_Lines Variable.parse [s% "1:a"] [x]) ∧ ∃ x, Logic.c139_Lines Variable.parse [s% "0:b"] [x]) ∧
      (Logic.c122_LastPar (ls.take 4) (s% "@MainActivity.java_list") [] ∧ Logic.c115_Header (s% "@MainActivity.java_list") n (.pool (s% "java_list")) ∧
        lines raw.logic = ls.take 4 ++ ([s% "2:l"] ++ ls.drop 5) ∧ (∃ logic, lines logic = ls.take 4 ++ ([s% "1:m"] ++ ls.drop 5)) ∧
        (∃ x, Logic.c139_Lines ListVariable.parse [s% "2:l"] [x]) ∧ ∃ x, Logic.c139_Lines ListVariable.parse [s% "1:m"] [x]) ∧
      (Logic.c122_LastPar (ls.take 7) (s% "@MainActivity.java_components") [] ∧ Logic.c115_Header (s% "@MainActivity.java_components") n (.pool (s% "java_components")) ∧
        lines raw.logic = ls.take 7 ++ ([c.reconstruct] ++ ls.drop 8) ∧ (∃ logic, lines logic = ls.take 7 ++ ([c'.reconstruct] ++ ls.drop 8)) ∧
        Logic.c139_Lines (lineParser Component.parse) [c.reconstruct] [c] ∧ Logic.c139_Lines (lineParser Component.parse) [c'.reconstruct] [c'] ∧
        ∀ x ∈ [c'], ∃ k, ComponentKind.fromParser x = .ok k) ∧
      (Logic.c122_LastPar (ls.take 10) (s% "@MainActivity.java_events") [] ∧ Logic.c115_Header (s% "@MainActivity.java_events") n (.pool (s% "java_events")) ∧
        lines raw.logic = ls.take 10 ++ ([e.reconstruct] ++ ls.drop 11) ∧ (∃ logic, lines logic = ls.take 10 ++ ([e'.reconstruct] ++ ls.drop 11)) ∧
        Logic.c139_Lines (lineParser Swrs.Event.parse) [e.reconstruct] [e] ∧ Logic.c139_Lines (lineParser Swrs.Event.parse) [e'.reconstruct] [e'] ∧
        (∀ x ∈ [e'], 1 ≤ x.eventType ∧ x.eventType ≤ 3) ∧
        (∀ a, p.logic.screens.get n = some a → (∀ x ∈ [e'], ∃ code, tryFrom ((a.blockContainers.get (containerName x)).getD ⟨[]⟩) = .ok code ∧ code ≠ []) ∧ a.moreBlocks = none ∧
          ((parserEvents a).map containerName).Nodup ∧ ∀ u w, a.events = some ⟨u ++ ([e] ++ w)⟩ →
            ((parserEvents { a with events := some ⟨u ++ ([e'] ++ w)⟩ }).map containerName).Nodup)) := by
  let _ : Floats := toyFloats.toFloats
  have hr := c139_file_read ⟨s% "a", .integer⟩ (s% "1:a") (s% "2:l") ⟨s% "l", .string⟩ ⟨s% "t", [], [], [], 5⟩ ⟨s% "onClick", 1, s% "b1", 3⟩
    (by decide) (by decide) (by decide) (by decide) (by decide) (by decide)
  have hP : ∃ P, SketchwareProject.tryFrom rnd (c120_read ⟨[], []⟩
      ⟨[(s% "MainActivity", { ScreenLogic.newEmpty (s% "MainActivity") with
      «variables» := some ⟨[(s% "a", ⟨s% "a", .integer⟩)]⟩, listVariables := some ⟨[(s% "l", ⟨s% "l", .string⟩)]⟩, components := some ⟨[⟨s% "t", [], [], [], 5⟩]⟩, events := some ⟨[⟨s% "onClick", 1, s% "b1", 3⟩]⟩,
      blockContainers := [(s% "b2_onClick", ⟨[exBlock (s% "0") (-1) (-1) (s% "a") []]⟩)] })]⟩) = .ok P ∧ P.screens.length = 1 := by
    obtain ⟨a, b⟩ := pol
    cases a <;> cases b <;> exact ⟨_, rfl, rfl⟩
  obtain ⟨P, hP, hl⟩ := hP
  have nc := fun c => (Component.jline c).noNl
  have ne := fun e => (Event.jline e).noNl
  have hls := c139_file_lines (lv := s% "1:a") (ll := s% "2:l") (by decide) (by decide) (nc ⟨s% "t", [], [], [], 5⟩) (ne ⟨s% "onClick", 1, s% "b1", 3⟩)
  have one : ∀ hd : Str, hd ≠ [] → ([] : Str) ∉ [hd] := fun hd h e => h (List.mem_singleton.mp e).symm
  refine ⟨_, P, c120_parsed ex rfl hr, hP, hl,
    ⟨⟨one _ (by decide), .inl rfl⟩, ⟨by decide, '.', by decide, rfl⟩, hls, ⟨_, c139_file_lines (lv := s% "0:b") (ll := s% "2:l") (by decide) (by decide) (nc _) (ne _)⟩,
      ⟨⟨s% "a", .integer⟩, c139_one (by decide) (by decide)⟩, ⟨⟨s% "b", .boolean⟩, c139_one (by decide) (by decide)⟩⟩,
    ⟨⟨one _ (by decide), .inr ⟨c139_ls (s% "1:a") [] [] [] |>.take 2, rfl⟩⟩, ⟨by decide, '.', by decide, rfl⟩, hls, ⟨_, c139_file_lines (lv := s% "1:a") (ll := s% "1:m") (by decide) (by decide) (nc _) (ne _)⟩,
      ⟨⟨s% "l", .string⟩, c139_one (by decide) (by decide)⟩, ⟨⟨s% "m", .integer⟩, c139_one (by decide) (by decide)⟩⟩,
    ⟨⟨one _ (by decide), .inr ⟨c139_ls (s% "1:a") (s% "2:l") [] [] |>.take 5, rfl⟩⟩, ⟨by decide, '.', by decide, rfl⟩, hls, ⟨_, c139_file_lines (lv := s% "1:a") (ll := s% "2:l") (by decide) (by decide) (nc _) (ne _)⟩,
      c139_one (Component.jline _).ne_nil (by rw [lineParser, Component.parse_reconstruct]; rfl), c139_one (Component.jline _).ne_nil (by rw [lineParser, Component.parse_reconstruct]; rfl), ?_⟩,
    ⟨⟨one _ (by decide), .inr ⟨c139_ls (s% "1:a") (s% "2:l") (Component.reconstruct ⟨s% "t", [], [], [], 5⟩) [] |>.take 8, rfl⟩⟩, ⟨by decide, '.', by decide, rfl⟩, hls,
      ⟨_, c139_file_lines (lv := s% "1:a") (ll := s% "2:l") (by decide) (by decide) (nc _) (ne _)⟩,
      c139_one (Event.jline _).ne_nil (by rw [lineParser, Event.parse_reconstruct]; rfl), c139_one (Event.jline _).ne_nil (by rw [lineParser, Event.parse_reconstruct]; rfl), ?_, ?_⟩⟩
  · intro x hx
    obtain rfl := List.mem_singleton.mp hx
    exact ⟨_, rfl⟩
  · intro x hx
    obtain rfl := List.mem_singleton.mp hx
    exact ⟨by decide, by decide⟩
  · intro a ha
    obtain rfl : _ = a := Option.some.inj ha
    refine ⟨?_, rfl, by decide, ?_⟩
    · intro x hx
      obtain rfl := List.mem_singleton.mp hx
      exact ⟨_, rfl, by simp⟩
    · intro u w h
      have h : [(⟨s% "onClick", 1, s% "b1", 3⟩ : Swrs.Event)] = u ++ ([⟨s% "onClick", 1, s% "b1", 3⟩] ++ w) := by
        have := Option.some.inj h
        exact congrArg EventPool.items this
      have hlen := congrArg List.length h
      simp only [List.length_append, List.length_cons, List.length_nil] at hlen
      obtain rfl : u = [] := List.length_eq_zero_iff.mp (by omega)
      obtain rfl : w = [] := List.length_eq_zero_iff.mp (by omega)
      decide

theorem c139_func_read [Floats] [pol : MapPol] : Logic.parse (s% "@MainActivity.java_func\nf:f a\ng:g\nh:h") =
    .ok ⟨[(s% "MainActivity", { ScreenLogic.newEmpty (s% "MainActivity") with moreBlocks := some ⟨[(s% "f", ⟨s% "f", s% "f a"⟩), (s% "g", ⟨s% "g", s% "g"⟩), (s% "h", ⟨s% "h", s% "h"⟩)]⟩ })]⟩ := by
  rw [Logic.c69_ok]
  have : Logic.sections (lines (s% "@MainActivity.java_func\nf:f a\ng:g\nh:h")) = [[s% "@MainActivity.java_func", s% "f:f a", s% "g:g", s% "h:h"]] := by decide
  rw [this]
  refine ⟨[(s% "MainActivity", _)], .cons ⟨_, _, rfl, Sec.func (name := s% "MainActivity") (x := '.') (vs := [⟨s% "f", s% "f a"⟩, ⟨s% "g", s% "g"⟩, ⟨s% "h", s% "h"⟩]) (by decide)
    (.cons (by decide) (by decide) (.cons (by decide) (by decide) (.cons (by decide) (by decide) .nil)))⟩ .nil, ?_⟩
  obtain ⟨a, b⟩ := pol
  cases a <;> cases b <;> rfl

/-- `c139_moreBlock`: the text of a project with a more block that gets another spec. -/
example [pol : MapPol] (ex : PathBuf → Bool) (rnd : ResourceType → Nat → UInt32) : let _ : Floats := toyFloats.toFloats
    let n := s% "MainActivity"
    let hd := s% "@MainActivity.java_func"
    let raw := c120_raw [] (s% "@MainActivity.java_func\nf:f a\ng:g\nh:h")
    ∃ (p : Swrs.SketchwareProject) (P : SketchwareProject), Swrs.SketchwareProject.parseFrom ex raw = .ok p ∧ SketchwareProject.tryFrom rnd p = .ok P ∧ P.screens.length = 1 ∧
      Logic.c122_LastPar [hd, s% "f:f a"] hd [s% "f:f a"] ∧ Logic.c115_Header hd n (.pool (s% "java_func")) ∧
      lines raw.logic = [hd, s% "f:f a"] ++ ((s% "g:g") :: [s% "h:h"] ++ []) ∧
      lines (s% "@MainActivity.java_func\nf:f a\ng:g %s.x\nh:h") = [hd, s% "f:f a"] ++ ((s% "g:g %s.x") :: [s% "h:h"] ++ []) ∧
      Logic.c139_Lines Swrs.MoreBlock.parse [s% "f:f a"] [⟨s% "f", s% "f a"⟩] ∧
      Logic.c139_Lines Swrs.MoreBlock.parse [s% "g:g", s% "h:h"] [⟨s% "g", s% "g"⟩, ⟨s% "h", s% "h"⟩] ∧
      Swrs.MoreBlock.parse (s% "g:g %s.x") = .ok ⟨s% "g", s% "g %s.x"⟩ ∧ (∃ spec : BlockContent Block, BlockContent.parseWoParams (s% "g %s.x") = .ok spec) ∧
      (([⟨s% "f", s% "f a"⟩] ++ ⟨s% "g", s% "g"⟩ :: [⟨s% "h", s% "h"⟩] : List Swrs.MoreBlock).map (·.id)).Nodup := by
  let _ : Floats := toyFloats.toFloats
  have hP : ∃ P, SketchwareProject.tryFrom rnd (c120_read ⟨[], []⟩
      ⟨[(s% "MainActivity", { ScreenLogic.newEmpty (s% "MainActivity") with moreBlocks := some ⟨[(s% "f", ⟨s% "f", s% "f a"⟩), (s% "g", ⟨s% "g", s% "g"⟩), (s% "h", ⟨s% "h", s% "h"⟩)]⟩ })]⟩) = .ok P ∧ P.screens.length = 1 := by
    obtain ⟨a, b⟩ := pol
    cases a <;> cases b <;> exact ⟨_, rfl, rfl⟩
  obtain ⟨P, hP, hl⟩ := hP
  exact ⟨_, P, c120_parsed ex rfl c139_func_read, hP, hl, ⟨by decide, .inl rfl⟩, ⟨by decide, '.', by decide, rfl⟩, by decide, by decide,
    .cons ⟨by decide, by decide⟩ .nil, .cons ⟨by decide, by decide⟩ (.cons ⟨by decide, by decide⟩ .nil), by decide, ⟨_, rfl⟩, by decide⟩

end Swrs.Api
