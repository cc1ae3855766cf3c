import Verif.Props.EventRuns
/-!
# C154: moreblocks that are added or removed
-/
set_option linter.unusedSectionVars false
namespace Swrs.Api
open Format
section
variable [MapPol] [Floats]
variable (p : SketchwareProject) (before after : List Screen) (s : Screen) (rs : Option (List ResourceFileWrapper)) (raw : RawSketchwareProject)

/-- Specification: the section of the moreblocks of a screen: a line `name:spec` for each of them. -/
def c154_moreblocks (name : Str) (ms : LMap Str MoreBlock) : Str := "\n\n".toList ++
  trim ("@".toList ++ name ++ ".java_func".toList ++ "\n".toList ++
    trim (ms.flatMap fun m => "\n".toList ++ m.2.name ++ ":".toList ++ BlockContent.text m.2.spec))

/-- Specification: the code of moreblocks, each under the name of its container. -/
def c154_Code (ms : LMap Str MoreBlock) (ws : LMap Str BlockContainer) : Prop :=
  All₂ (fun m w => w.1 = m.1 ++ s% "_moreBlock" ∧ toContainer m.2.code = .ok w.2) ms ws

theorem c154_fn (n : Str) (k : ScreenLogic) (ms : LMap Str MoreBlock) (h1 : k.name = n)
    (h2 : k.moreBlocks = some ⟨ms.map fun m => (m.1, (⟨m.2.name, BlockContent.text m.2.spec⟩ : Swrs.MoreBlock))⟩) :
    c152_run [(n, k)] (fun s => c152_section ".java_func" s.name (s.moreBlocks.map (·.reconstruct))) = c154_moreblocks n ms :=
  c153_one n k _ _ (by
    rw [h1, h2, Option.map_some, c152_section, Option.map_some]
    have : ∀ l : List Str, foldLines l = trim (l.flatMap fun t => '\n' :: t) := by
      intro l; unfold foldLines; rw [c143_fold, List.nil_append]
    rw [MoreBlockPool.reconstruct, this]
    have e : ∀ ms : LMap Str MoreBlock, ((ms.map fun m => (m.1, (⟨m.2.name, BlockContent.text m.2.spec⟩ : Swrs.MoreBlock))).map fun e => e.2.reconstruct).flatMap
        (fun t => '\n' :: t) = ms.flatMap fun m => "\n".toList ++ m.2.name ++ ":".toList ++ BlockContent.text m.2.spec := by
      intro ms
      induction ms with
      | nil => rfl
      | cons m ms ih =>
        rw [List.map_cons, List.map_cons, List.flatMap_cons, ih, List.flatMap_cons]
        simp [Swrs.MoreBlock.reconstruct]
    rw [← e])

/-- C154: a run of moreblocks is replaced by another one whose code can be written. -/
theorem c154_moreblock_run (a m m' b : LMap Str MoreBlock) (hs : s.moreBlocks = a ++ m ++ b) (hp : p.screens = before ++ s :: after)
    (hj : (p.screens.map (·.javaName)).Nodup) (h : c143_Saved p rs raw) (hm : s.moreBlocks.keys.Nodup) (hm' : LMap.keys (a ++ m' ++ b) |>.Nodup)
    (hn : ((codeOfScreen s).map (·.1)).Nodup) (hn' : ((codeOfScreen { s with moreBlocks := a ++ m' ++ b }).map (·.1)).Nodup)
    (hok : ∀ e ∈ m', ∃ c, toContainer e.2.code = .ok c) :
    ∃ logic, c143_Saved { p with screens := before ++ { s with moreBlocks := a ++ m' ++ b } :: after } rs { raw with logic } ∧
      ∃ x y z u w w' v, c154_Code m w ∧ c154_Code m' w' ∧
        raw.logic = trim (x ++ c154_moreblocks s.javaName (a ++ m ++ b) ++ y ++ c153_blocks s.javaName (u ++ w ++ v) ++ z) ∧
        logic = trim (x ++ c154_moreblocks s.javaName (a ++ m' ++ b) ++ y ++ c153_blocks s.javaName (u ++ w' ++ v) ++ z) := by
  obtain ⟨q, hq, hr⟩ := h
  have hlog : ∃ l, s.toLogic = .ok l := by
    obtain ⟨lg, ls, fs, i1, s1, f1, hb, -⟩ := toParsed_ok hq
    cases hxl : s.toLogic with
    | ok l => exact ⟨l, rfl⟩
    | err e => exact e.elim
    | panic => rw [(screensBack_panics p.screens [] [] []).mpr ⟨s, by simp [hp], hxl⟩] at hb; cases hb
  obtain ⟨l, hl⟩ := hlog
  obtain ⟨n1, n2, n3, n4, n5⟩ := toLogic_list hl hm hn
  have hconv := c153_ok n5
  have hl' : ∃ l', ({ s with moreBlocks := a ++ m' ++ b } : Screen).toLogic = .ok l' := by
    obtain ⟨⟨es, cs⟩, h1⟩ := eventsBack_total (es := s.events) (by
      intro e he
      exact hconv (e.containerId, e.code) (by simp only [codeOfScreen, List.mem_append, List.mem_map]; exact .inl ⟨e, he, rfl⟩)) []
    obtain ⟨⟨ms, cs'⟩, h2⟩ := moreBlocksBack_total (ms := a ++ m' ++ b) (by
      intro e he
      simp only [List.mem_append] at he
      rcases he with (he | he) | he
      · exact hconv (e.1 ++ s% "_moreBlock", e.2.code) (by simp only [codeOfScreen, hs, List.mem_append, List.mem_map]; exact .inr ⟨e, .inl (.inl he), rfl⟩)
      · exact hok e he
      · exact hconv (e.1 ++ s% "_moreBlock", e.2.code) (by simp only [codeOfScreen, hs, List.mem_append, List.mem_map]; exact .inr ⟨e, .inr he, rfl⟩)) cs
    exact ⟨_, by simp only [Screen.toLogic, h1, h2, Out.ok_bind, Out.pure_eq]; rfl⟩
  obtain ⟨q', l₁, l', hq', hl₁, hl', hd, e1, -, e3⟩ := c143_screen p before after s { s with moreBlocks := a ++ m' ++ b } q rs raw hp hj hq hr rfl ⟨rfl, rfl, rfl⟩ rfl hl'
  rw [hl] at hl₁
  cases hl₁
  obtain ⟨n1', n2', n3', n4', n5'⟩ := toLogic_list hl' hm' hn'
  obtain ⟨-, -, -, n6⟩ := toLogic_fields hl
  obtain ⟨-, -, -, n6'⟩ := toLogic_fields hl'
  have n7 : l.events = some ⟨(s.events.filter fun e => e.name ≠ s% "onCreate").map (·.intoParser.1)⟩ := by obtain ⟨_, _, _, e⟩ := toLogic_ok hm hl; rw [e]
  have n7' : l'.events = some ⟨(s.events.filter fun e => e.name ≠ s% "onCreate").map (·.intoParser.1)⟩ := by obtain ⟨_, _, _, e⟩ := toLogic_ok (s := { s with moreBlocks := a ++ m' ++ b }) hm' hl'; rw [e]
  dsimp only at n1' n2' n3' n4' n6'
  rw [hs] at n4
  simp only [codeOfScreen, hs, List.map_append] at n5
  simp only [codeOfScreen, List.map_append] at n5'
  obtain ⟨c1, c2, hc, k1, k2⟩ := c152_all n5
  obtain ⟨c3, c4, rfl, k3, k4⟩ := c152_all k2
  obtain ⟨c5, c6, rfl, k5, k6⟩ := c152_all k3
  obtain ⟨d1, d2, hc', g1, g2⟩ := c152_all n5'
  obtain ⟨d3, d4, rfl, g3, g4⟩ := c152_all g2
  obtain ⟨d5, d6, rfl, g5, g6⟩ := c152_all g3
  cases c153_same k1 g1
  cases c153_same k4 g4
  cases c153_same k5 g5
  obtain ⟨x, y, hx, hy⟩ := hd
  obtain ⟨p₀, p₁, p₂, p₃, p₄, p₅, p₆, ht⟩ := c152_logic_text x y
  have t := ht [(s.javaName, l)]
  have t' := ht [(s.javaName, l')]
  rw [c154_fn _ l _ n1 n4, c153_bl _ l n1, hc] at t
  rw [c154_fn _ l' _ n1' n4', c153_bl _ l' n1', hc'] at t'
  have r : ∀ f : ScreenLogic → Option Str, f l' = f l → c152_run [(s.javaName, l')] f = c152_run [(s.javaName, l)] f := by
    intro f h
    simp only [c152_run, List.map_cons, List.map_nil, List.filterMap_cons, h]
  rw [r _ (by rw [n1, n1', n2, n2']), r _ (by rw [n1, n1', n3, n3']), r _ (by rw [n1, n1', n6, n6']), r _ (by rw [n1, n1', n7, n7'])] at t'
  have as : ∀ A B C D : LMap Str BlockContainer, A ++ (B ++ C ++ D) = A ++ B ++ C ++ D := by intros; simp
  rw [as] at t t'
  have w : q.logic = ⟨x ++ [(s.javaName, l)] ++ y⟩ := by rw [List.append_assoc, ← hx]
  have w' : q'.logic = ⟨x ++ [(s.javaName, l')] ++ y⟩ := by rw [List.append_assoc, ← hy]
  exact ⟨_, ⟨q', hq', e3⟩, _, _, p₆, c1 ++ c5, c6, d6, c4, c153_all_map k6, c153_all_map g6, by rw [e1, w, t], by rw [w', t']⟩


-- the screen of C143 has an event and a moreblock with code; another moreblock with code is added before it
example : ∃ raw logic w', c143_Saved c143_demo none raw ∧ c154_Code [(s% "n", ⟨s% "n", [.text (s% "n")], [exLeaf (s% "a")]⟩)] w' ∧
    ∃ x y z u v, raw.logic = trim (x ++ c154_moreblocks c143_main.javaName c143_main.moreBlocks ++ y ++ c153_blocks c143_main.javaName (u ++ v) ++ z) ∧
      logic = trim (x ++ c154_moreblocks c143_main.javaName ((s% "n", ⟨s% "n", [.text (s% "n")], [exLeaf (s% "a")]⟩) :: c143_main.moreBlocks) ++ y ++
        c153_blocks c143_main.javaName (u ++ w' ++ v) ++ z) := by
  obtain ⟨raw, h⟩ := c143_demo_saved
  obtain ⟨logic, -, x, y, z, u, w, w', v, h1, h2, h3, h4⟩ := c154_moreblock_run c143_demo [] _ c143_main none raw [] []
    [(s% "n", ⟨s% "n", [.text (s% "n")], [exLeaf (s% "a")]⟩)] c143_main.moreBlocks (by simp) rfl (by show [s% "MainActivity", s% "SecondActivity"].Nodup; decide) h
    (by show [s% "m"].Nodup; decide) (by show [s% "n", s% "m"].Nodup; decide) (by show [s% "onBackPressed_onBackPressed", s% "m_moreBlock"].Nodup; decide)
    (by show [s% "onBackPressed_onBackPressed", s% "n_moreBlock", s% "m_moreBlock"].Nodup; decide)
    (by intro e he; cases List.mem_singleton.mp he; exact ⟨_, rfl⟩)
  cases h1
  exact ⟨raw, logic, w', h, h2, x, y, z, u, v, by simpa using h3, by simpa using h4⟩
end
end Swrs.Api
