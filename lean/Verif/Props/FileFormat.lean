import Verif.Proofs.FileFormat
import Verif.Props.Format
/-!
# C63: the text of files

As for the records (C62), the headers of the sections of a file, their order and the blank lines are spelled out.
`between`, `ended` and `Tidy` are specified in `Verif.Proofs.FileFormat`.
-/
namespace Swrs
open Format

/-! ## C63 — Text of files -/

/-- C63: the file `resource`. -/
theorem c63_resource (r : Resource) : r.reconstruct =
    "@images\n".toList ++ ended (r.images.map (·.reconstruct)) ++
    "@sounds\n".toList ++ ended (r.sounds.map (·.reconstruct)) ++
    "@fonts\n".toList ++ between "\n" (r.fonts.map (·.reconstruct)) := by
  have h : trim (unlines (r.fonts.map (·.reconstruct))) = between "\n" (r.fonts.map (·.reconstruct)) := by
    rw [between_nl]; exact trim_unlines (Resource.jlines _)
  rw [← h]
  simp only [ended_eq, ← Resource.section_eq]
  rfl

/-- C63: the file `file`. -/
theorem c63_file (f : File) : f.reconstruct =
    "@activity\n".toList ++ between "\n" (f.activities.map (·.reconstruct)) ++
    "\n@customview\n".toList ++ between "\n" (f.customViews.map (·.reconstruct)) := by
  unfold File.reconstruct
  rw [File.section_eq, File.section_eq, ← between_nl, ← between_nl]
  rfl

/-- C63: the file `library`. -/
theorem c63_library (l : Library) : l.reconstruct = between "\n" [
    "@firebaseDB".toList, l.firebaseDb.reconstruct, "@compat".toList, l.compat.reconstruct,
    "@admob".toList, l.admob.reconstruct, "@googleMap".toList, l.googleMap.reconstruct] := by
  simp [Library.reconstruct, between]

section
variable [Floats]

theorem tidy_view (v : AndroidView) : Tidy v.reconstruct := by rw [c62_view]; exact tidy_record _

/-- C63: a layout. -/
theorem c63_layout (l : Layout) : l.reconstruct = between "\n" (l.views.map (·.reconstruct)) := by
  unfold Layout.reconstruct Layout.body
  rw [foldl_unlines, List.nil_append, ← ended_eq]
  have : ended (l.views.map AndroidView.reconstruct) = (l.views.map AndroidView.reconstruct).flatMap (· ++ "\n".toList) := by
    generalize l.views.map AndroidView.reconstruct = ts
    induction ts with
    | nil => rfl
    | cons t ts ih => rw [ended, ih, List.flatMap_cons]
  rw [this]
  exact trim_after (by decide) (by intro t ht; simp at ht; obtain ⟨v, _, rfl⟩ := ht; exact tidy_view v)

/-- C63: the file `view`: the layouts without blank lines between them, a blank line, and the FABs. Line ends at the end of
the file are left out. -/
theorem c63_view (v : View) : v.reconstruct = trimEnd (
    v.layouts.flatMap (fun e => "@".toList ++ e.1 ++ ".xml\n".toList ++ between "\n" (e.2.views.map (·.reconstruct)) ++
      "\n".toList) ++ "\n".toList ++
    v.fabs.flatMap (fun e => "@".toList ++ e.1 ++ ".xml_fab\n".toList ++ e.2.reconstruct ++ "\n".toList)) := by
  have fold : ∀ {α : Type} (f : α → Str) (as : List α) (acc : Str), as.foldl (fun acc a => acc ++ f a) acc = acc ++ as.flatMap f := by
    intro α f as
    induction as with
    | nil => simp
    | cons a as ih => intro acc; rw [List.foldl_cons, ih]; simp
  unfold View.reconstruct View.layoutsText View.fabsText
  rw [fold, fold]
  simp only [List.nil_append, c63_layout]
  simp

end

/-! ### Logic -/

/-- The numbers of the types of variables. -/
def Format.variableType : VariableType → Int | .boolean => 0 | .integer => 1 | .string => 2 | .hashMap => 3

/-- C63: a variable. -/
theorem c63_variable (v : Variable) : v.reconstruct = number (Format.variableType v.type) ++ ":".toList ++ v.name := by
  obtain ⟨n, t⟩ := v
  have h : ∀ k : Nat, natStr 10 k = number k := fun k => intStr_eq (.ofNat k)
  unfold Variable.reconstruct
  rw [h]
  cases t <;> simp [VariableType.num, Format.variableType]

/-- C63: a list variable. -/
theorem c63_list_variable (v : ListVariable) : v.reconstruct = number (Format.variableType v.type) ++ ":".toList ++ v.name := by
  obtain ⟨n, t⟩ := v
  have h : ∀ k : Nat, natStr 10 k = number k := fun k => intStr_eq (.ofNat k)
  unfold ListVariable.reconstruct
  rw [h]
  cases t <;> simp [VariableType.num, Format.variableType]

/-- C63: a moreblock. -/
theorem c63_more_block (m : MoreBlock) : m.reconstruct = m.id ++ ":".toList ++ m.spec := by
  simp [MoreBlock.reconstruct]

/-- C63: variables whose lines are tidy. -/
theorem c63_variables (p : VariablePool) (h : ∀ t ∈ p.map.map (fun e : Str × Variable => e.2.reconstruct), Tidy t) :
    p.reconstruct = between "\n" (p.map.map fun e : Str × Variable => e.2.reconstruct) := foldLines_tidy h

/-- C63: list variables whose lines are tidy. -/
theorem c63_list_variables (p : ListVariablePool)
    (h : ∀ t ∈ p.map.map (fun e : Str × ListVariable => e.2.reconstruct), Tidy t) :
    p.reconstruct = between "\n" (p.map.map fun e : Str × ListVariable => e.2.reconstruct) := foldLines_tidy h

/-- C63: moreblocks whose lines are tidy. -/
theorem c63_more_blocks (p : MoreBlockPool) (h : ∀ t ∈ p.map.map (fun e : Str × MoreBlock => e.2.reconstruct), Tidy t) :
    p.reconstruct = between "\n" (p.map.map fun e : Str × MoreBlock => e.2.reconstruct) := foldLines_tidy h

/-- C63: events. -/
theorem c63_events (p : EventPool) : p.reconstruct = between "\n" (p.items.map fun e : Event => e.reconstruct) :=
  foldLines_tidy (by
    intro t ht; simp only [List.mem_map] at ht; obtain ⟨e, _, rfl⟩ := ht
    rw [c62_event]; exact tidy_record _)

/-- C63: components. -/
theorem c63_components (p : ComponentPool) : p.reconstruct = between "\n" (p.items.map fun c : Component => c.reconstruct) := by
  unfold ComponentPool.reconstruct
  rw [foldl_unlines, List.nil_append]
  have : ∀ ts : List Str, unlines ts = ts.flatMap (· ++ "\n".toList) := by
    intro ts
    induction ts with
    | nil => rfl
    | cons t ts ih => simp [ih]
  rw [this]
  refine trimEnd_after (by decide) ?_
  intro t ht; simp only [List.mem_map] at ht; obtain ⟨c, _, rfl⟩ := ht
  rw [c62_component]; exact tidy_record _

namespace Format

/-- A section of a logic file: its header and its lines. -/
def sectionText (screen container : Str) (ls : List Str) : Str :=
  between "\n" (("@".toList ++ screen ++ ".java_".toList ++ container) :: ls)

/-- The sections of a logic file: the variables of all screens, the lists of all screens, and so on; then the blocks of the
first screen, of the second, and so on. -/
def logicSections (l : Logic) : List (Str × Str × List Str) :=
  let ss := l.screens.map (·.2)
  (ss.flatMap fun s => (s.variables.map fun p =>
    (s.name, "var".toList, p.map.map fun e => e.2.reconstruct)).toList) ++
  (ss.flatMap fun s => (s.listVariables.map fun p =>
    (s.name, "list".toList, p.map.map fun e => e.2.reconstruct)).toList) ++
  (ss.flatMap fun s => (s.components.map fun p =>
    (s.name, "components".toList, p.items.map (·.reconstruct))).toList) ++
  (ss.flatMap fun s => (s.events.map fun p =>
    (s.name, "events".toList, p.items.map (·.reconstruct))).toList) ++
  (ss.flatMap fun s => (s.moreBlocks.map fun p =>
    (s.name, "func".toList, p.map.map fun e => e.2.reconstruct)).toList) ++
  (ss.flatMap fun s => s.blockContainers.map fun e =>
    (s.name, e.1, e.2.blocks.map (·.reconstruct)))

end Format

theorem tidy_section {s c : Str} {ls : List Str} (hh : Tidy ("@".toList ++ s ++ ".java_".toList ++ c)) (h : ∀ l ∈ ls, Tidy l) :
    Tidy (sectionText s c ls) :=
  tidy_between (by simp) (by
    intro t ht; simp only [List.mem_cons] at ht
    rcases ht with rfl | ht
    · exact hh
    · exact h t ht)

/-- A pool under its header, trimmed. -/
theorem trim_pool {s c : Str} {ls : List Str} (hh : Tidy ("@".toList ++ s ++ ".java_".toList ++ c)) (h : ∀ l ∈ ls, Tidy l) :
    trim ("@".toList ++ s ++ ".java_".toList ++ c ++ "\n".toList ++ between "\n" ls) = sectionText s c ls := by
  cases ls with
  | nil =>
    have := trim_framed (w := []) (w' := ['\n']) (Or.inr hh) (by simp) (by simp [isWs])
    simpa [between, sectionText] using this
  | cons l ls => exact (tidy_section hh h).2

theorem trim_optPool {α : Type} (ss : List ScreenLogic) (g : ScreenLogic → Option α) (c : Str) (body : α → Str)
    (ls : α → List Str)
    (hbody : ∀ s ∈ ss, ∀ p, g s = some p → (∀ t ∈ ls p, Tidy t) → body p = between "\n" (ls p))
    (hh : ∀ x ∈ (ss.flatMap fun s => ((g s).map fun p => (s.name, c, ls p)).toList),
      Tidy ("@".toList ++ x.1 ++ ".java_".toList ++ x.2.1))
    (ht : ∀ x ∈ (ss.flatMap fun s => ((g s).map fun p => (s.name, c, ls p)).toList), ∀ t ∈ x.2.2, Tidy t) :
    (ss.filterMap fun s => (g s).map fun p => "@".toList ++ s.name ++ ".java_".toList ++ c ++ "\n".toList ++ body p).map trim =
      (ss.flatMap fun s => ((g s).map fun p => (s.name, c, ls p)).toList).map fun x => sectionText x.1 x.2.1 x.2.2 := by
  induction ss with
  | nil => rfl
  | cons s ss ih =>
    have ih := ih (fun s hs => hbody s (by simp [hs])) (fun x hx => hh x (by rw [List.flatMap_cons]; exact List.mem_append_right _ hx))
      (fun x hx => ht x (by rw [List.flatMap_cons]; exact List.mem_append_right _ hx))
    rw [List.flatMap_cons, List.map_append, ← ih]
    cases hg : g s with
    | none => rw [List.filterMap_cons, hg]; rfl
    | some p =>
      have hm : (s.name, c, ls p) ∈ ((s :: ss).flatMap fun s => ((g s).map fun p => (s.name, c, ls p)).toList) := by
        rw [List.flatMap_cons, hg]; simp
      rw [List.filterMap_cons, hg]
      show trim ("@".toList ++ s.name ++ ".java_".toList ++ c ++ "\n".toList ++ body p) :: _ = sectionText s.name c (ls p) :: _
      rw [hbody s (by simp) p hg (ht _ hm), trim_pool (hh _ hm) (ht _ hm)]
      rfl

theorem trim_blocks (s : ScreenLogic) (hh : ∀ e ∈ s.blockContainers, Tidy ("@".toList ++ s.name ++ ".java_".toList ++ e.1)) :
    trim (Logic.blocksText s) =
      between "\n\n" (s.blockContainers.map fun e => sectionText s.name e.1 (e.2.blocks.map (·.reconstruct))) := by
  have hblock : ∀ b : Block, Tidy b.reconstruct := fun b => by rw [c62_block]; exact tidy_record _
  have hone : ∀ e : Str × BlockContainer,
      '@' :: (s.name ++ (s% ".java_" ++ (e.1 ++ ('\n' :: (e.2.reconstruct ++ ['\n']))))) =
        sectionText s.name e.1 (e.2.blocks.map (·.reconstruct)) ++ "\n\n".toList := by
    intro e
    unfold BlockContainer.reconstruct
    rw [foldl_unlines, List.nil_append]
    unfold sectionText
    cases hbs : e.2.blocks.map Block.reconstruct with
    | nil => simp [between]
    | cons b bs =>
      rw [unlines_eq_joinWith (by simp), ← between_nl]
      rw [between.eq_3]
      simp
  have fold : ∀ (es : List (Str × BlockContainer)) (acc : Str), es.foldl (fun acc e =>
      acc ++ ('@' :: (s.name ++ (s% ".java_" ++ (e.1 ++ ('\n' :: (e.2.reconstruct ++ ['\n']))))))) acc =
      acc ++ (es.map fun e => sectionText s.name e.1 (e.2.blocks.map (·.reconstruct))).flatMap (· ++ "\n\n".toList) := by
    intro es
    induction es with
    | nil => simp
    | cons e es ih => intro acc; rw [List.foldl_cons, ih, hone]; simp
  unfold Logic.blocksText
  rw [fold, List.nil_append]
  refine trim_after (by decide) fun t htm => ?_
  simp only [List.mem_map] at htm
  obtain ⟨e, he, rfl⟩ := htm
  exact tidy_section (hh e he) (by intro t ht; simp only [List.mem_map] at ht; obtain ⟨b, _, rfl⟩ := ht; exact hblock b)

/-- C63: the file `logic`, if every screen has block containers and no header or line starts or ends with whitespace: the
sections, with blank lines between them. -/
theorem c63_logic (l : Logic) (hb : ∀ e ∈ l.screens, e.2.blockContainers ≠ [])
    (hh : ∀ x ∈ logicSections l, Tidy ("@".toList ++ x.1 ++ ".java_".toList ++ x.2.1))
    (ht : ∀ x ∈ logicSections l, ∀ t ∈ x.2.2, Tidy t) :
    l.reconstruct = between "\n\n" ((logicSections l).map fun x => sectionText x.1 x.2.1 x.2.2) := by
  let sect : Str × Str × List Str → Str := fun x => sectionText x.1 x.2.1 x.2.2
  let ss := l.screens.map (·.2)
  let pools : List (Str × Str × List Str) :=
    (ss.flatMap fun s => (s.variables.map fun p => (s.name, "var".toList, p.map.map fun e => e.2.reconstruct)).toList) ++
    (ss.flatMap fun s => (s.listVariables.map fun p => (s.name, "list".toList, p.map.map fun e => e.2.reconstruct)).toList) ++
    (ss.flatMap fun s => (s.components.map fun p => (s.name, "components".toList, p.items.map (·.reconstruct))).toList) ++
    (ss.flatMap fun s => (s.events.map fun p => (s.name, "events".toList, p.items.map (·.reconstruct))).toList) ++
    (ss.flatMap fun s => (s.moreBlocks.map fun p => (s.name, "func".toList, p.map.map fun e => e.2.reconstruct)).toList)
  let blocks : ScreenLogic → List (Str × Str × List Str) := fun s => s.blockContainers.map fun e =>
    (s.name, e.1, e.2.blocks.map (·.reconstruct))
  have hall : logicSections l = pools ++ ss.flatMap blocks := rfl
  have hsec : ∀ x ∈ logicSections l, Tidy (sect x) := fun x hx => tidy_section (hh x hx) (ht x hx)
  let groups : List (List Str) := pools.map (fun x => [sect x]) ++ ss.map fun s => (blocks s).map sect
  have hne : ∀ g ∈ groups, g ≠ [] := by
    intro g hg
    simp only [groups, List.mem_append, List.mem_map] at hg
    rcases hg with ⟨x, _, rfl⟩ | ⟨s, hs, rfl⟩
    · simp
    · simp only [ss, List.mem_map] at hs
      obtain ⟨e, he, rfl⟩ := hs
      simpa [blocks] using hb e he
  have hflat : groups.flatten = (logicSections l).map sect := by
    rw [hall]
    simp only [groups, List.flatten_append, List.map_append, List.map_flatMap]
    congr 1
    generalize pools = ps
    induction ps with
    | nil => rfl
    | cons p ps ih => simp [ih]
  have hchunks : l.chunks.map trim = groups.map (between "\n\n") := by
    have hg : groups.map (between "\n\n") = pools.map sect ++ ss.map fun s => between "\n\n" ((blocks s).map sect) := by
      simp only [groups, List.map_append, List.map_map]
      congr 1
    rw [hg]
    have mem1 : ∀ x ∈ (ss.flatMap fun s => (s.variables.map fun p : VariablePool => (s.name, "var".toList, p.map.map fun e : Str × Variable => e.2.reconstruct)).toList),
        x ∈ logicSections l := fun x hx => List.mem_append_left _ (List.mem_append_left _ (List.mem_append_left _ (List.mem_append_left _ (List.mem_append_left _ (hx)))))
    have e1 := trim_optPool ss (fun s => s.variables) "var".toList (fun p : VariablePool => p.reconstruct) (fun p : VariablePool => p.map.map fun e : Str × Variable => e.2.reconstruct)
      (fun s _ p _ h => c63_variables p h)
      (fun x hx => hh x (mem1 x hx)) (fun x hx => ht x (mem1 x hx))
    have mem2 : ∀ x ∈ (ss.flatMap fun s => (s.listVariables.map fun p : ListVariablePool => (s.name, "list".toList, p.map.map fun e : Str × ListVariable => e.2.reconstruct)).toList),
        x ∈ logicSections l := fun x hx => List.mem_append_left _ (List.mem_append_left _ (List.mem_append_left _ (List.mem_append_left _ (List.mem_append_right _ hx))))
    have e2 := trim_optPool ss (fun s => s.listVariables) "list".toList (fun p : ListVariablePool => p.reconstruct) (fun p : ListVariablePool => p.map.map fun e : Str × ListVariable => e.2.reconstruct)
      (fun s _ p _ h => c63_list_variables p h)
      (fun x hx => hh x (mem2 x hx)) (fun x hx => ht x (mem2 x hx))
    have mem3 : ∀ x ∈ (ss.flatMap fun s => (s.components.map fun p : ComponentPool => (s.name, "components".toList, p.items.map fun c : Component => c.reconstruct)).toList),
        x ∈ logicSections l := fun x hx => List.mem_append_left _ (List.mem_append_left _ (List.mem_append_left _ (List.mem_append_right _ hx)))
    have e3 := trim_optPool ss (fun s => s.components) "components".toList (fun p : ComponentPool => p.reconstruct) (fun p : ComponentPool => p.items.map fun c : Component => c.reconstruct)
      (fun s _ p _ h => c63_components p)
      (fun x hx => hh x (mem3 x hx)) (fun x hx => ht x (mem3 x hx))
    have mem4 : ∀ x ∈ (ss.flatMap fun s => (s.events.map fun p : EventPool => (s.name, "events".toList, p.items.map fun e : Event => e.reconstruct)).toList),
        x ∈ logicSections l := fun x hx => List.mem_append_left _ (List.mem_append_left _ (List.mem_append_right _ hx))
    have e4 := trim_optPool ss (fun s => s.events) "events".toList (fun p : EventPool => p.reconstruct) (fun p : EventPool => p.items.map fun e : Event => e.reconstruct)
      (fun s _ p _ h => c63_events p)
      (fun x hx => hh x (mem4 x hx)) (fun x hx => ht x (mem4 x hx))
    have mem5 : ∀ x ∈ (ss.flatMap fun s => (s.moreBlocks.map fun p : MoreBlockPool => (s.name, "func".toList, p.map.map fun e : Str × MoreBlock => e.2.reconstruct)).toList),
        x ∈ logicSections l := fun x hx => List.mem_append_left _ (List.mem_append_right _ hx)
    have e5 := trim_optPool ss (fun s => s.moreBlocks) "func".toList (fun p : MoreBlockPool => p.reconstruct) (fun p : MoreBlockPool => p.map.map fun e : Str × MoreBlock => e.2.reconstruct)
      (fun s _ p _ h => c63_more_blocks p h)
      (fun x hx => hh x (mem5 x hx)) (fun x hx => ht x (mem5 x hx))
    have e6 : (ss.map Logic.blocksText).map trim = ss.map fun s => between "\n\n" ((blocks s).map sect) := by
      rw [List.map_map]
      refine List.map_congr_left fun s hs => ?_
      show trim (Logic.blocksText s) = _
      rw [trim_blocks]
      · simp [blocks, sect, Function.comp_def]
      · intro e he
        refine hh (s.name, e.1, e.2.blocks.map (·.reconstruct)) ?_
        rw [hall]
        refine List.mem_append_right _ (List.mem_flatMap.2 ⟨s, hs, ?_⟩)
        exact List.mem_map.2 ⟨e, he, rfl⟩
    simp only [pools, List.map_append]
    refine Eq.trans ?_ (congr (congrArg _ (congr (congrArg _ (congr (congrArg _ (congr (congrArg _ (congr (congrArg _ e1) e2))
      e3)) e4)) e5)) e6)
    simp only [← List.map_append]
    congr 1
    simp [Logic.chunks, ss]
  have hrec : l.reconstruct = trim ((l.chunks.map trim).flatMap ("\n\n".toList ++ ·)) := by
    unfold Logic.reconstruct
    have : ∀ (cs : List Str) (acc : Str), cs.foldl (fun acc i => acc ++ (s% "\n\n" ++ trim i)) acc =
        acc ++ (cs.map trim).flatMap ("\n\n".toList ++ ·) := by
      intro cs
      induction cs with
      | nil => simp
      | cons c cs ih => intro acc; rw [List.foldl_cons, ih]; simp
    rw [this, List.nil_append]
  rw [hrec, hchunks, ← hflat, ← between_groups hne]
  refine trim_before (by decide) fun t htm => ?_
  simp only [List.mem_map] at htm
  obtain ⟨g, hg, rfl⟩ := htm
  refine tidy_between (hne g hg) fun t htg => ?_
  have : t ∈ groups.flatten := List.mem_flatten.2 ⟨g, hg, htg⟩
  rw [hflat, List.mem_map] at this
  obtain ⟨x, hx, rfl⟩ := this
  exact hsec x hx

-- a logic file with two screens, pools and blocks
example : Logic.reconstruct ⟨[
    (s% "MainActivity", ⟨s% "MainActivity", [(s% "onCreate_initializeLogic", ⟨[]⟩), (s% "b1_onClick", ⟨[]⟩)],
      some ⟨[(s% "n", ⟨s% "n", .integer⟩), (s% "b", ⟨s% "b", .boolean⟩)]⟩, none, none, none, some ⟨[(s% "f", ⟨s% "f", s% "f %s.a"⟩)]⟩⟩),
    (s% "Two", ⟨s% "Two", [(s% "onCreate_initializeLogic", ⟨[]⟩)], none, some ⟨[(s% "l", ⟨s% "l", .string⟩)]⟩, none, none, none⟩)]⟩ =
    s% "@MainActivity.java_var\n1:n\n0:b\n\n@Two.java_list\n2:l\n\n@MainActivity.java_func\nf:f %s.a\n\n@MainActivity.java_onCreate_initializeLogic\n\n@MainActivity.java_b1_onClick\n\n@Two.java_onCreate_initializeLogic" := by
  decide +kernel

-- its headers and lines are tidy
example : let l : Logic := ⟨[
    (s% "MainActivity", ⟨s% "MainActivity", [(s% "onCreate_initializeLogic", ⟨[]⟩)],
      some ⟨[(s% "n", ⟨s% "n", .integer⟩)]⟩, none, none, none, some ⟨[(s% "f", ⟨s% "f", s% "f %s.a"⟩)]⟩⟩)]⟩
    (∀ e ∈ l.screens, e.2.blockContainers ≠ []) ∧
    (∀ x ∈ logicSections l, Tidy ("@".toList ++ x.1 ++ ".java_".toList ++ x.2.1)) ∧
    ∀ x ∈ logicSections l, ∀ t ∈ x.2.2, Tidy t := by
  refine ⟨by decide +kernel, ?_, ?_⟩ <;> (unfold Tidy; decide +kernel)

end Swrs
