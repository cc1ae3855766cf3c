import Verif.Props.ScreenRuns
/-!
# C153: events that are added or removed
-/
set_option linter.unusedSectionVars false
namespace Swrs.Api
open Format
section
variable [MapPol] [Floats]
variable (p : SketchwareProject) (before after : List Screen) (s : Screen) (rs : Option (List ResourceFileWrapper)) (raw : RawSketchwareProject)

/-- Specification: the section of the events of a screen. The event `onCreate` has no line. -/
def c153_events (name : Str) (es : List Event) : Str := "\n\n".toList ++
  trim ("@".toList ++ name ++ ".java_events".toList ++ "\n".toList ++
    between "\n" (((es.filter fun e => e.name ≠ s% "onCreate").map (·.intoParser.1)).map (·.reconstruct)))

/-- Specification: the sections of the code of a screen. -/
def c153_blocks (name : Str) (ws : LMap Str BlockContainer) : Str := "\n\n".toList ++
  trim (ws.flatMap fun e => "@".toList ++ name ++ ".java_".toList ++ e.1 ++ "\n".toList ++ e.2.reconstruct ++ "\n".toList)

/-- Specification: the code of events, each under the name of its container. -/
def c153_Code (es : List Event) (ws : LMap Str BlockContainer) : Prop := All₂ (fun e w => w.1 = e.containerId ∧ toContainer e.code = .ok w.2) es ws

theorem c153_all_map {α β γ : Type} {R : β → γ → Prop} {f : α → β} {as : List α} {l : List γ} (h : All₂ R (as.map f) l) : All₂ (fun a => R (f a)) as l := by
  induction as generalizing l with
  | nil => cases h; exact .nil
  | cons a as ih => cases h with | cons h1 h2 => exact .cons h1 (ih h2)

theorem c153_same {xs : List (Str × List Block)} {l l' : LMap Str BlockContainer}
    (h : All₂ (fun x w => w.1 = x.1 ∧ toContainer x.2 = .ok w.2) xs l) (h' : All₂ (fun x w => w.1 = x.1 ∧ toContainer x.2 = .ok w.2) xs l') : l = l' := by
  induction xs generalizing l l' with
  | nil => cases h; cases h'; rfl
  | cons s a ih =>
    cases h with
    | @cons _ e _ t h1 h2 =>
      cases h' with
      | @cons _ e' _ t' h3 h4 =>
        rw [ih h2 h4]
        obtain ⟨n, x⟩ := e
        obtain ⟨n', x'⟩ := e'
        dsimp only at h1 h3
        rw [h1.2] at h3
        cases h3.2
        rw [h1.1, h3.1]

theorem c153_ok {xs : List (Str × List Block)} {l : LMap Str BlockContainer}
    (h : All₂ (fun x w => w.1 = x.1 ∧ toContainer x.2 = .ok w.2) xs l) : ∀ x ∈ xs, ∃ c, toContainer x.2 = .ok c := by
  induction h with
  | nil => simp
  | cons h _ ih =>
    intro x hx
    rcases List.mem_cons.mp hx with rfl | hx
    · exact ⟨_, h.2⟩
    · exact ih x hx

theorem c153_one (n : Str) (k : ScreenLogic) (f : ScreenLogic → Option Str) (t : Str) (h : f k = some t) : c152_run [(n, k)] f = "\n\n".toList ++ trim t := by
  simp [c152_run, c152_sections, h]

theorem c153_ev (n : Str) (k : ScreenLogic) (es : List Event) (h1 : k.name = n)
    (h2 : k.events = some ⟨(es.filter fun e => e.name ≠ s% "onCreate").map (·.intoParser.1)⟩) :
    c152_run [(n, k)] (fun s => c152_section ".java_events" s.name (s.events.map (·.reconstruct))) = c153_events n es :=
  c153_one n k _ _ (by
    rw [h1, h2, Option.map_some, c63_events, c152_section, Option.map_some])

theorem c153_bl (n : Str) (k : ScreenLogic) (h1 : k.name = n) :
    c152_run [(n, k)] (fun s => some <| s.blockContainers.flatMap fun e =>
      "@".toList ++ s.name ++ ".java_".toList ++ e.1 ++ "\n".toList ++ e.2.reconstruct ++ "\n".toList) = c153_blocks n k.blockContainers :=
  c153_one n k _ _ (by rw [h1])

/-- C153: a run of events is replaced by another one whose code can be written. -/
theorem c153_event_run (a m m' b : List Event) (hs : s.events = a ++ m ++ b) (hp : p.screens = before ++ s :: after)
    (hj : (p.screens.map (·.javaName)).Nodup) (h : c143_Saved p rs raw) (hm : s.moreBlocks.keys.Nodup)
    (hn : ((codeOfScreen s).map (·.1)).Nodup) (hn' : ((codeOfScreen { s with events := a ++ m' ++ b }).map (·.1)).Nodup)
    (hok : ∀ e ∈ m', ∃ c, toContainer e.code = .ok c) :
    ∃ logic, c143_Saved { p with screens := before ++ { s with events := a ++ m' ++ b } :: after } rs { raw with logic } ∧
      ∃ x y z u w w' v, c153_Code m w ∧ c153_Code m' w' ∧
        raw.logic = trim (x ++ c153_events s.javaName (a ++ m ++ b) ++ y ++ c153_blocks s.javaName (u ++ w ++ v) ++ z) ∧
        logic = trim (x ++ c153_events s.javaName (a ++ m' ++ b) ++ y ++ c153_blocks s.javaName (u ++ w' ++ v) ++ z) := by
  obtain ⟨q, hq, hr⟩ := h
  have hlog : ∃ l, s.toLogic = .ok l := by
    obtain ⟨lg, ls, fs, i1, s1, f1, hb, -⟩ := toParsed_ok hq
    cases hxl : s.toLogic with
    | ok l => exact ⟨l, rfl⟩
    | err e => exact e.elim
    | panic => rw [(screensBack_panics p.screens [] [] []).mpr ⟨s, by simp [hp], hxl⟩] at hb; cases hb
  obtain ⟨l, hl⟩ := hlog
  obtain ⟨n1, n2, n3, n4, n5⟩ := toLogic_list hl hm hn
  have hconv := c153_ok n5
  have hl' : ∃ l', ({ s with events := a ++ m' ++ b } : Screen).toLogic = .ok l' := by
    obtain ⟨⟨es, cs⟩, h1⟩ := eventsBack_total (es := a ++ m' ++ b) (by
      intro e he
      simp only [List.mem_append] at he
      rcases he with (he | he) | he
      · exact hconv (e.containerId, e.code) (by simp only [codeOfScreen, hs, List.mem_append, List.mem_map]; exact .inl ⟨e, .inl (.inl he), rfl⟩)
      · exact hok e he
      · exact hconv (e.containerId, e.code) (by simp only [codeOfScreen, hs, List.mem_append, List.mem_map]; exact .inl ⟨e, .inr he, rfl⟩)) []
    obtain ⟨⟨ms, cs'⟩, h2⟩ := moreBlocksBack_total (ms := s.moreBlocks) (by
      intro e he
      exact hconv (e.1 ++ s% "_moreBlock", e.2.code) (by simp only [codeOfScreen, List.mem_append, List.mem_map]; exact .inr ⟨e, he, rfl⟩)) cs
    exact ⟨_, by simp only [Screen.toLogic, h1, h2, Out.ok_bind, Out.pure_eq]; rfl⟩
  obtain ⟨q', l₁, l', hq', hl₁, hl', hd, e1, -, e3⟩ := c143_screen p before after s { s with events := a ++ m' ++ b } q rs raw hp hj hq hr rfl ⟨rfl, rfl, rfl⟩ rfl hl'
  rw [hl] at hl₁
  cases hl₁
  obtain ⟨n1', n2', n3', n4', n5'⟩ := toLogic_list hl' hm hn'
  obtain ⟨-, -, -, n6⟩ := toLogic_fields hl
  obtain ⟨-, -, -, n6'⟩ := toLogic_fields hl'
  have n7 : l.events = some ⟨(s.events.filter fun e => e.name ≠ s% "onCreate").map (·.intoParser.1)⟩ := by obtain ⟨_, _, _, e⟩ := toLogic_ok hm hl; rw [e]
  have n7' : l'.events = some ⟨((a ++ m' ++ b).filter fun e => e.name ≠ s% "onCreate").map (·.intoParser.1)⟩ := by obtain ⟨_, _, _, e⟩ := toLogic_ok (s := { s with events := a ++ m' ++ b }) hm hl'; rw [e]
  dsimp only at n1' n2' n3' n4' n6'
  rw [hs] at n7
  simp only [codeOfScreen, hs, List.map_append] at n5
  simp only [codeOfScreen, List.map_append] at n5'
  obtain ⟨c1, c2, hc, k1, k2⟩ := c152_all n5
  obtain ⟨c3, c4, rfl, k3, k4⟩ := c152_all k1
  obtain ⟨c5, c6, rfl, k5, k6⟩ := c152_all k3
  obtain ⟨d1, d2, hc', g1, g2⟩ := c152_all n5'
  obtain ⟨d3, d4, rfl, g3, g4⟩ := c152_all g1
  obtain ⟨d5, d6, rfl, g5, g6⟩ := c152_all g3
  cases c153_same k2 g2
  cases c153_same k4 g4
  cases c153_same k5 g5
  obtain ⟨x, y, hx, hy⟩ := hd
  obtain ⟨p₀, p₁, p₂, p₃, p₄, p₅, p₆, ht⟩ := c152_logic_text x y
  have t := ht [(s.javaName, l)]
  have t' := ht [(s.javaName, l')]
  rw [c153_ev _ l _ n1 n7, c153_bl _ l n1, hc] at t
  rw [c153_ev _ l' _ n1' n7', c153_bl _ l' n1', hc'] at t'
  have r : ∀ f : ScreenLogic → Option Str, f l' = f l → c152_run [(s.javaName, l')] f = c152_run [(s.javaName, l)] f := by
    intro f h
    simp only [c152_run, List.map_cons, List.map_nil, List.filterMap_cons, h]
  rw [r _ (by rw [n1, n1', n2, n2']), r _ (by rw [n1, n1', n3, n3']), r _ (by rw [n1, n1', n6, n6']), r _ (by rw [n1, n1', n4, n4'])] at t'
  have sh : ∀ X E P R Q B Z : Str, X ++ E ++ P ++ R ++ Q ++ B ++ Z = X ++ E ++ (P ++ R ++ Q) ++ B ++ Z := by intros; simp
  rw [sh, List.append_assoc (c5 ++ c6)] at t
  rw [sh, List.append_assoc (c5 ++ d6)] at t'
  have w : q.logic = ⟨x ++ [(s.javaName, l)] ++ y⟩ := by rw [List.append_assoc, ← hx]
  have w' : q'.logic = ⟨x ++ [(s.javaName, l')] ++ y⟩ := by rw [List.append_assoc, ← hy]
  exact ⟨_, ⟨q', hq', e3⟩, _, _, p₆, c5, c6, d6, c4 ++ c2, c153_all_map k6, c153_all_map g6, by rw [e1, w, t], by rw [w', t']⟩

-- the screen of C143 has an event and a moreblock with code; the event `onPause` with code is added after the one it has
example : ∃ raw logic w', c143_Saved c143_demo none raw ∧ c153_Code [⟨s% "onPause", .activityEvent, [exLeaf (s% "a")]⟩] w' ∧
    ∃ x y z u v, raw.logic = trim (x ++ c153_events c143_main.javaName c143_main.events ++ y ++ c153_blocks c143_main.javaName (u ++ v) ++ z) ∧
      logic = trim (x ++ c153_events c143_main.javaName (c143_main.events ++ [⟨s% "onPause", .activityEvent, [exLeaf (s% "a")]⟩]) ++ y ++
        c153_blocks c143_main.javaName (u ++ w' ++ v) ++ z) := by
  obtain ⟨raw, h⟩ := c143_demo_saved
  obtain ⟨logic, -, x, y, z, u, w, w', v, h1, h2, h3, h4⟩ := c153_event_run c143_demo [] _ c143_main none raw c143_main.events []
    [⟨s% "onPause", .activityEvent, [exLeaf (s% "a")]⟩] [] (by simp) rfl (by show [s% "MainActivity", s% "SecondActivity"].Nodup; decide) h
    (by show [s% "m"].Nodup; decide) (by show [s% "onBackPressed_onBackPressed", s% "m_moreBlock"].Nodup; decide)
    (by show [s% "onBackPressed_onBackPressed", s% "onPause_onPause", s% "m_moreBlock"].Nodup; decide)
    (by intro e he; cases List.mem_singleton.mp he; exact ⟨_, rfl⟩)
  cases h1
  exact ⟨raw, logic, w', h, h2, x, y, z, u, v, by simpa using h3, by simpa using h4⟩
end
end Swrs.Api
