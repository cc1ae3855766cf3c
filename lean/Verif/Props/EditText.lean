import Verif.Props.FileFormat
import Verif.Props.Edits
import Verif.Proofs.ApiSave
/-!
# C143: an edit changes only its own line of the texts

A project of the API model has been saved; one thing in it is edited and it is saved again. All texts are as before, except for one; and that one is as
before, too, except that it has the new line where it had the old one.
-/
set_option linter.unusedSectionVars false
namespace Swrs
open Format

/-- Specification: two texts (or lists) that are the same, but that one has this where the other has that. -/
def c143_Differ {α : Type} (old new s s' : List α) : Prop := ∃ pre post, s = pre ++ (old ++ post) ∧ s' = pre ++ (new ++ post)

namespace c143_Differ
variable {α : Type} {o n s s' : List α}

theorem here : c143_Differ o n o n := ⟨[], [], by simp, by simp⟩
theorem left (a : List α) (h : c143_Differ o n s s') : c143_Differ o n (a ++ s) (a ++ s') := by
  obtain ⟨p, q, rfl, rfl⟩ := h
  exact ⟨a ++ p, q, by simp, by simp⟩
theorem right (a : List α) (h : c143_Differ o n s s') : c143_Differ o n (s ++ a) (s' ++ a) := by
  obtain ⟨p, q, rfl, rfl⟩ := h
  exact ⟨p, q ++ a, by simp, by simp⟩
theorem trans {o' n' : List α} (h : c143_Differ o n s s') (h' : c143_Differ o' n' o n) : c143_Differ o' n' s s' := by
  obtain ⟨p, q, rfl, rfl⟩ := h
  obtain ⟨p', q', rfl, rfl⟩ := h'
  exact ⟨p ++ p', q' ++ q, by simp, by simp⟩
end c143_Differ

theorem c143_start {x : Str} (hx : x ≠ []) (hh : ∀ c, x.head? = some c → isWs c = false) (p r : Str) : trimStart (p ++ (x ++ r)) = trimStart p ++ (x ++ r) := by
  unfold trimStart
  rw [List.dropWhile_append]
  split
  · next h =>
    rw [List.isEmpty_iff.mp h, List.nil_append]
    cases x with
    | nil => exact absurd rfl hx
    | cons c x => rw [List.cons_append, List.dropWhile_cons_of_neg]; simp [hh c rfl]
  · rfl

theorem c143_end {x : Str} (hx : Tidy x) (p r : Str) : trimEnd (p ++ (x ++ r)) = p ++ (x ++ trimEnd r) := by
  have := c143_start (x := x.reverse) (by simp [hx.ne]) (fun c hc => hx.last c (by simpa using hc)) r.reverse p.reverse
  unfold trimStart at this
  unfold trimEnd
  rw [List.reverse_append, List.reverse_append, List.append_assoc, this]
  simp

theorem c143_trimEnd {x y s s' : Str} (hx : Tidy x) (hy : Tidy y) (h : c143_Differ x y s s') : c143_Differ x y (trimEnd s) (trimEnd s') := by
  obtain ⟨p, r, rfl, rfl⟩ := h
  exact ⟨p, trimEnd r, c143_end hx p r, c143_end hy p r⟩

theorem c143_trim {x y s s' : Str} (hx : Tidy x) (hy : Tidy y) (h : c143_Differ x y s s') : c143_Differ x y (trim s) (trim s') := by
  obtain ⟨p, r, rfl, rfl⟩ := h
  refine c143_trimEnd hx hy ⟨trimStart p, r, c143_start hx.ne hx.head p r, c143_start hy.ne hy.head p r⟩

/-- Texts one after the other. -/
theorem c143_fold {α : Type} (f : α → Str) (as : List α) (acc : Str) : as.foldl (fun acc a => acc ++ f a) acc = acc ++ as.flatMap f := by
  induction as generalizing acc with
  | nil => simp
  | cons a as ih => rw [List.foldl_cons, ih]; simp

theorem c143_flatMap {α : Type} {f : α → Str} {a b : α} {x y : Str} {s s' : List α} (h : c143_Differ [a] [b] s s') (hf : c143_Differ x y (f a) (f b)) :
    c143_Differ x y (s.flatMap f) (s'.flatMap f) := by
  obtain ⟨p, r, rfl, rfl⟩ := h
  simp only [List.flatMap_append, List.flatMap_cons, List.flatMap_nil, List.append_nil]
  exact (hf.right _).left _

theorem c143_between {sep : String} {a b : Str} {s s' : List Str} (h : c143_Differ [a] [b] s s') : c143_Differ a b (between sep s) (between sep s') := by
  obtain ⟨p, r, rfl, rfl⟩ := h
  induction p with
  | nil =>
    cases r with
    | nil => exact .here
    | cons t r => exact (c143_Differ.right _ (c143_Differ.right _ .here))
  | cons t p ih =>
    cases p with
    | nil => exact (ih.left _)
    | cons u p => exact (ih.left _)

theorem c143_ended {a b : Str} {s s' : List Str} (h : c143_Differ [a] [b] s s') : c143_Differ a b (ended s) (ended s') := by
  obtain ⟨p, r, rfl, rfl⟩ := h
  induction p with
  | nil => exact (c143_Differ.right _ (c143_Differ.right _ .here))
  | cons t p ih => exact (ih.left _)

theorem c143_map {α β : Type} (f : α → β) {o n s s' : List α} (h : c143_Differ o n s s') : c143_Differ (o.map f) (n.map f) (s.map f) (s'.map f) := by
  obtain ⟨p, r, rfl, rfl⟩ := h
  exact ⟨p.map f, r.map f, by simp, by simp⟩

/-- The lines of a pool. -/
theorem c143_foldLines {x y : Str} (hx : Tidy x) (hy : Tidy y) {s s' : List Str} (h : c143_Differ [x] [y] s s') : c143_Differ x y (foldLines s) (foldLines s') := by
  unfold foldLines
  rw [c143_fold, c143_fold]
  exact c143_trim hx hy ((c143_flatMap (f := fun i => '\n' :: i) h ⟨['\n'], [], by simp, by simp⟩).left _)

/-! ### The text of the logic file -/

/-- Pools of the same kind of all screens. -/
theorem c143_pool {f : ScreenLogic → Option Str} {a b : ScreenLogic} {c d : Str} {s s' : List ScreenLogic} (h : c143_Differ [a] [b] s s') (hc : f a = some c) (hd : f b = some d) :
    c143_Differ [c] [d] (s.filterMap f) (s'.filterMap f) := by
  obtain ⟨p, r, rfl, rfl⟩ := h
  exact ⟨p.filterMap f, r.filterMap f, by simp [List.filterMap_append, hc], by simp [List.filterMap_append, hd]⟩

theorem c143_pool_same {f : ScreenLogic → Option Str} {a b : ScreenLogic} {s s' : List ScreenLogic} (h : c143_Differ [a] [b] s s') (hf : f a = f b) : s.filterMap f = s'.filterMap f := by
  obtain ⟨p, r, rfl, rfl⟩ := h
  simp [List.filterMap_append, List.filterMap_cons, hf]

theorem c143_map_same {α β : Type} {f : α → β} {a b : α} {s s' : List α} (h : c143_Differ [a] [b] s s') (hf : f a = f b) : s.map f = s'.map f := by
  obtain ⟨p, r, rfl, rfl⟩ := h
  simp [hf]

theorem c143_reconstruct [Floats] {l l' : Logic} {c d x y : Str} (hx : Tidy x) (hy : Tidy y) (hc : c143_Differ [c] [d] l.chunks l'.chunks) (hcd : c143_Differ x y c d) :
    c143_Differ x y l.reconstruct l'.reconstruct := by
  unfold Logic.reconstruct
  rw [c143_fold, c143_fold]
  exact c143_trim hx hy ((c143_flatMap hc ((c143_trim hx hy hcd).left _)).left _)

theorem c143_app {α : Type} {o n s s' t t' : List α} (h : c143_Differ o n s s') (e : t = t') : c143_Differ o n (s ++ t) (s' ++ t') := e ▸ h.right t
theorem c143_app' {α : Type} {o n s s' t t' : List α} (e : s = s') (h : c143_Differ o n t t') : c143_Differ o n (s ++ t) (s' ++ t') := e ▸ h.left s

section
variable [Floats] {l l' : Logic} {n : Str} {s : ScreenLogic} {x y : Str}

theorem c143_variables {p p' : VariablePool} (hx : Tidy x) (hy : Tidy y) (hl : c143_Differ [(n, { s with «variables» := some p })] [(n, { s with «variables» := some p' })] l.screens l'.screens)
    (hp : c143_Differ x y p.reconstruct p'.reconstruct) : c143_Differ x y l.reconstruct l'.reconstruct := by
  have hs := c143_map (·.2) hl
  simp only [List.map_cons, List.map_nil] at hs
  refine c143_reconstruct hx hy (c := '@' :: (s.name ++ (s% ".java_var\n" ++ p.reconstruct))) (d := '@' :: (s.name ++ (s% ".java_var\n" ++ p'.reconstruct))) ?_
    ((hp.left _).left ('@' :: s.name))
  unfold Logic.chunks
  exact c143_app (c143_app (c143_app (c143_app (c143_app (c143_pool hs rfl rfl) (c143_pool_same hs rfl)) (c143_pool_same hs rfl)) (c143_pool_same hs rfl)) (c143_pool_same hs rfl))
    (c143_map_same hs rfl)

theorem c143_listVariables {p p' : ListVariablePool} (hx : Tidy x) (hy : Tidy y)
    (hl : c143_Differ [(n, { s with listVariables := some p })] [(n, { s with listVariables := some p' })] l.screens l'.screens)
    (hp : c143_Differ x y p.reconstruct p'.reconstruct) : c143_Differ x y l.reconstruct l'.reconstruct := by
  have hs := c143_map (·.2) hl
  simp only [List.map_cons, List.map_nil] at hs
  refine c143_reconstruct hx hy (c := '@' :: (s.name ++ (s% ".java_list\n" ++ p.reconstruct))) (d := '@' :: (s.name ++ (s% ".java_list\n" ++ p'.reconstruct))) ?_
    ((hp.left _).left ('@' :: s.name))
  unfold Logic.chunks
  exact c143_app (c143_app (c143_app (c143_app (c143_app' (c143_pool_same hs rfl) (c143_pool hs rfl rfl)) (c143_pool_same hs rfl)) (c143_pool_same hs rfl)) (c143_pool_same hs rfl))
    (c143_map_same hs rfl)

theorem c143_componentLines {p p' : ComponentPool} (hx : Tidy x) (hy : Tidy y) (hp : c143_Differ [x] [y] (p.items.map (·.reconstruct)) (p'.items.map (·.reconstruct))) :
    c143_Differ x y p.reconstruct p'.reconstruct := by
  unfold ComponentPool.reconstruct
  rw [c143_fold (fun c : Component => c.reconstruct ++ ['\n']), c143_fold (fun c : Component => c.reconstruct ++ ['\n'])]
  have := c143_flatMap (f := fun t => t ++ ['\n']) hp (c143_Differ.here.right _)
  rw [List.flatMap_map, List.flatMap_map] at this
  exact c143_trimEnd hx hy (this.left _)

theorem c143_components {p p' : ComponentPool} (hx : Tidy x) (hy : Tidy y)
    (hl : c143_Differ [(n, { s with components := some p })] [(n, { s with components := some p' })] l.screens l'.screens)
    (key : c143_Differ x y p.reconstruct p'.reconstruct) : c143_Differ x y l.reconstruct l'.reconstruct := by
  have hs := c143_map (·.2) hl
  simp only [List.map_cons, List.map_nil] at hs
  refine c143_reconstruct hx hy (c := '@' :: (s.name ++ (s% ".java_components\n" ++ p.reconstruct))) (d := '@' :: (s.name ++ (s% ".java_components\n" ++ p'.reconstruct))) ?_
    ((key.left _).left ('@' :: s.name))
  unfold Logic.chunks
  exact c143_app (c143_app (c143_app (c143_app' (congr (congrArg _ (c143_pool_same hs rfl)) (c143_pool_same hs rfl)) (c143_pool hs rfl rfl)) (c143_pool_same hs rfl)) (c143_pool_same hs rfl))
    (c143_map_same hs rfl)

/-- The lines of a container. -/
theorem c143_container {c c' : BlockContainer} {k : Str} (hx : Tidy x) (hy : Tidy y) {u w : LMap Str BlockContainer}
    (hl : c143_Differ [(n, { s with blockContainers := u ++ (k, c) :: w })] [(n, { s with blockContainers := u ++ (k, c') :: w })] l.screens l'.screens)
    (hp : c143_Differ x y (c.reconstruct) (c'.reconstruct)) : c143_Differ x y l.reconstruct l'.reconstruct := by
  have hs := c143_map (·.2) hl
  simp only [List.map_cons, List.map_nil] at hs
  have key : c143_Differ x y (Logic.blocksText { s with blockContainers := u ++ (k, c) :: w }) (Logic.blocksText { s with blockContainers := u ++ (k, c') :: w }) := by
    unfold Logic.blocksText
    dsimp only
    rw [c143_fold (fun e : Str × BlockContainer => '@' :: (s.name ++ (s% ".java_" ++ (e.1 ++ ('\n' :: (e.2.reconstruct ++ ['\n'])))))),
      c143_fold (fun e : Str × BlockContainer => '@' :: (s.name ++ (s% ".java_" ++ (e.1 ++ ('\n' :: (e.2.reconstruct ++ ['\n']))))))]
    refine .left _ (c143_flatMap (a := (k, c)) (b := (k, c')) ⟨u, w, rfl, rfl⟩ ?_)
    exact (((((hp.right ['\n']).left ['\n']).left k).left (s% ".java_")).left ('@' :: s.name))
  refine c143_reconstruct hx hy ?_ key
  unfold Logic.chunks
  refine c143_app' ?_ (c143_map Logic.blocksText hs)
  exact congr (congrArg _ (congr (congrArg _ (congr (congrArg _ (congr (congrArg _ (c143_pool_same hs rfl)) (c143_pool_same hs rfl))) (c143_pool_same hs rfl))) (c143_pool_same hs rfl))) (c143_pool_same hs rfl)

end

end Swrs

namespace Swrs.Api
open Format

/-! ### From the API model to the texts -/

theorem c143_all {α β : Type} {R : α → β → Prop} (hR : ∀ x y z, R x y → R x z → y = z) {a b : List α} {s s' : α} {ws ws' : List β}
    (h : All₂ R (a ++ s :: b) ws) (h' : All₂ R (a ++ s' :: b) ws') : ∃ x y, R s x ∧ R s' y ∧ c143_Differ [x] [y] ws ws' := by
  have fn : ∀ {l : List α} {u w : List β}, All₂ R l u → All₂ R l w → u = w := by
    intro l u w hu hw
    induction hu generalizing w with
    | nil => cases hw; rfl
    | cons hu _ ih => cases hw with | cons h1 h2 => rw [hR _ _ _ hu h1, ih h2]
  induction a generalizing ws ws' with
  | nil =>
    cases h with
    | cons h1 h2 => cases h' with | cons h1' h2' => exact ⟨_, _, h1, h1', [], _, rfl, by rw [fn h2 h2']; rfl⟩
  | cons t a ih =>
    cases h with
    | cons h1 h2 =>
      cases h' with
      | cons h1' h2' =>
        obtain ⟨x, y, hx, hy, hd⟩ := ih h2 h2'
        rw [hR _ _ _ h1 h1']
        exact ⟨x, y, hx, hy, hd.left [_]⟩

section
variable [MapPol] [Floats]

/-- The logic of the screens, in order. -/
theorem c143_logics {ss : List Screen} {lg lg' : LMap Str ScreenLogic} {ls ls' : LMap Str Layout} {fs fs' : LMap Str AndroidView}
    (h : screensBack ss lg ls fs = .ok (lg', ls', fs')) (hj : (lg.keys ++ ss.map (·.javaName)).Nodup) :
    ∃ logics : LMap Str ScreenLogic, All₂ (fun s e => e.1 = s.javaName ∧ s.toLogic = .ok e.2) ss logics ∧ lg' = lg ++ logics := by
  induction ss generalizing lg ls fs with
  | nil => cases h; exact ⟨[], .nil, by simp⟩
  | cons s ss ih =>
    simp only [screensBack, Out.bind_eq_ok] at h
    obtain ⟨l, hlog, h⟩ := h
    have hnew : s.javaName ∉ lg.keys := by
      intro hm
      rw [List.map_cons, List.nodup_append] at hj
      exact hj.2.2 _ hm _ (by simp) rfl
    rw [LMap.insert_new hnew] at h
    obtain ⟨logics, h1, rfl⟩ := ih h (by simpa using hj)
    exact ⟨(s.javaName, l) :: logics, .cons ⟨rfl, hlog⟩ h1, by simp⟩

/-- What an edit of a screen that keeps its names, its layout and its settings does to a saved project. -/
theorem c143_screen (p : SketchwareProject) (before after : List Screen) (s s' : Screen) (q : Swrs.SketchwareProject) (rs : Option (List ResourceFileWrapper))
    (raw : RawSketchwareProject) (hp : p.screens = before ++ s :: after) (hj : (p.screens.map (·.javaName)).Nodup)
    (h : p.toParsed = .ok q) (hr : q.tryIntoRaw rs = .ok raw)
    (hn : s'.javaName = s.javaName) (hv : s.layoutName = s'.layoutName ∧ s.layout = s'.layout ∧ s.fab = s'.fab) (hf : s'.toFileItem = s.toFileItem)
    (hok : ∃ l, s'.toLogic = .ok l) :
    ∃ q' l l', ({ p with screens := before ++ s' :: after } : SketchwareProject).toParsed = .ok q' ∧
      s.toLogic = .ok l ∧ s'.toLogic = .ok l' ∧ c143_Differ [(s.javaName, l)] [(s.javaName, l')] q.logic.screens q'.logic.screens ∧
      raw.logic = q.logic.reconstruct ∧ q'.resourceFiles = q.resourceFiles ∧
      q'.tryIntoRaw rs = .ok { raw with logic := q'.logic.reconstruct } := by
  obtain ⟨lg, ls, fs, i1, s1, f1, hb, hi, hs, hfo, h1, h2, h3, h4, h5, h6⟩ := toParsed_ok h
  have hall : ∀ x ∈ before ++ s' :: after, ∃ l, x.toLogic = .ok l := by
    intro x hx
    have hok' : ∀ x ∈ p.screens, ∃ l, x.toLogic = .ok l := by
      intro x hx
      cases hxl : x.toLogic with
      | ok l => exact ⟨l, rfl⟩
      | err e => exact e.elim
      | panic => rw [(screensBack_panics p.screens [] [] []).mpr ⟨x, hx, hxl⟩] at hb; cases hb
    rw [hp] at hok'
    simp only [List.mem_append, List.mem_cons] at hx hok'
    rcases hx with hx | rfl | hx
    · exact hok' x (.inl hx)
    · exact hok
    · exact hok' x (.inr (.inr hx))
  obtain ⟨⟨lg', ls', fs'⟩, hb'⟩ := screensBack_total hall [] [] []
  obtain ⟨rfl, rfl⟩ := screensBack_views hb hb' (by rw [hp]; exact all₂_replace (fun _ => ⟨rfl, rfl, rfl⟩) before after hv)
  obtain ⟨lo, ha, e⟩ := c143_logics hb (by simpa using hj)
  obtain ⟨lo', ha', e'⟩ := c143_logics hb' (by rw [hp] at hj; simpa [hn] using hj)
  rw [List.nil_append] at e e'
  subst e e'
  rw [hp] at ha
  obtain ⟨⟨j, l⟩, ⟨j', l'⟩, ⟨hx, hl⟩, ⟨hy, hl'⟩, hd⟩ := c143_all (by
    rintro x ⟨y1, y2⟩ ⟨z1, z2⟩ ⟨a1, a2⟩ ⟨b1, b2⟩
    dsimp only at *
    rw [a2] at b2
    cases b2
    rw [a1, b1]) ha ha'
  dsimp only at hx hl hy hl'
  subst hx hy
  rw [hn] at hd
  have ht : ({ p with screens := before ++ s' :: after } : SketchwareProject).toParsed = .ok { q with logic := ⟨lg'⟩ } := by
    simp only [SketchwareProject.toParsed, hb', hi, hs, hfo, Out.ok_bind, Out.pure_eq, Out.ok.injEq]
    obtain ⟨qp, qf, ql, qr, qv, qlo, qrf⟩ := q
    dsimp only at *
    rw [h1, h2, h3, h4, h6, hp]
    simp [hf]
  refine ⟨_, l, l', ht, hl, hl', by rw [h5]; exact hd, ?_, rfl, ?_⟩
  · simp only [Swrs.SketchwareProject.tryIntoRaw, Out.bind_eq_ok, Out.pure_eq, Out.ok.injEq] at hr
    obtain ⟨pr, _, rfl⟩ := hr
    rfl
  · simp only [Swrs.SketchwareProject.tryIntoRaw, Out.bind_eq_ok, Out.pure_eq, Out.ok.injEq] at hr ⊢
    obtain ⟨pr, hpr, rfl⟩ := hr
    exact ⟨pr, hpr, rfl⟩

/-- Specification: the project can be saved, and these are its texts, with the resource files in this order. -/
def c143_Saved (p : SketchwareProject) (rs : Option (List ResourceFileWrapper)) (raw : RawSketchwareProject) : Prop :=
  ∃ q, p.toParsed = .ok q ∧ q.tryIntoRaw rs = .ok raw

variable (p : SketchwareProject) (before after : List Screen) (s : Screen) (rs : Option (List ResourceFileWrapper)) (raw : RawSketchwareProject)

/-- What an edit of the variables, list variables and components of a screen does to the saved logic. -/
theorem c143_parts (vs : LMap Str Variable) (lvs : LMap Str ListVariable) (cs : LMap Str ComponentKind) (hp : p.screens = before ++ s :: after)
    (hj : (p.screens.map (·.javaName)).Nodup) (h : c143_Saved p rs raw) :
    ∃ l lo lo' : ScreenLogic, ∃ L L' : Logic, c143_Saved { p with screens := before ++ { s with «variables» := vs, listVariables := lvs, components := cs } :: after } rs { raw with logic := L'.reconstruct } ∧
      raw.logic = L.reconstruct ∧ c143_Differ [(s.javaName, lo)] [(s.javaName, lo')] L.screens L'.screens ∧
      lo = { l with «variables» := some ⟨s.variables⟩, listVariables := some ⟨s.listVariables⟩, components := some ⟨s.components.map fun e => e.2.intoParser e.1⟩ } ∧
      lo' = { l with «variables» := some ⟨vs⟩, listVariables := some ⟨lvs⟩, components := some ⟨cs.map fun e => e.2.intoParser e.1⟩ } := by
  obtain ⟨q, hq, hr⟩ := h
  obtain ⟨lg, ls, fs, i1, s1, f1, hb, -⟩ := toParsed_ok hq
  have hok : ∃ l, s.toLogic = .ok l := by
    cases hxl : s.toLogic with
    | ok l => exact ⟨l, rfl⟩
    | err e => exact e.elim
    | panic => rw [(screensBack_panics p.screens [] [] []).mpr ⟨s, by simp [hp], hxl⟩] at hb; cases hb
  obtain ⟨l0, hl0⟩ := hok
  have hrel : ({ s with «variables» := vs, listVariables := lvs, components := cs } : Screen).toLogic =
      .ok { l0 with «variables» := some ⟨vs⟩, listVariables := some ⟨lvs⟩, components := some ⟨cs.map fun e => e.2.intoParser e.1⟩ } ∧
      l0 = { l0 with «variables» := some ⟨s.variables⟩, listVariables := some ⟨s.listVariables⟩, components := some ⟨s.components.map fun e => e.2.intoParser e.1⟩ } := by
    simp only [Screen.toLogic, Out.bind_eq_ok, Prod.exists, Out.pure_eq, Out.ok.injEq] at hl0 ⊢
    obtain ⟨es, cs, h1, ms, cs', h2, rfl⟩ := hl0
    exact ⟨⟨es, cs, h1, ms, cs', h2, rfl⟩, rfl⟩
  obtain ⟨q', l, l', h1, h2, h3, h4, h5, -, h6⟩ := c143_screen p before after s { s with «variables» := vs, listVariables := lvs, components := cs } q rs raw hp hj hq hr rfl ⟨rfl, rfl, rfl⟩ rfl ⟨_, hrel.1⟩
  rw [hrel.1] at h3
  cases h3
  rw [hl0] at h2
  cases h2
  exact ⟨l0, l0, _, q.logic, q'.logic, ⟨q', h1, h6⟩, h5, h4, hrel.2, rfl⟩

/-- Specification: the line of a variable. -/
def c143_typed (t : VariableType) (name : Str) : Str := number (Format.variableType t) ++ ":".toList ++ name

/-- C143: an edit of a variable of a screen. -/
theorem c143_variable (u w : LMap Str Variable) (k : Str) (v v' : Variable) (hp : p.screens = before ++ s :: after) (hj : (p.screens.map (·.javaName)).Nodup)
    (h : c143_Saved p rs raw) (hs : s.variables = u ++ (k, v) :: w) (hv : Tidy (c143_typed v.type v.name)) (hv' : Tidy (c143_typed v'.type v'.name)) :
    ∃ text, c143_Saved { p with screens := before ++ { s with «variables» := u ++ (k, v') :: w } :: after } rs { raw with logic := text } ∧
      c143_Differ (c143_typed v.type v.name) (c143_typed v'.type v'.name) raw.logic text := by
  obtain ⟨l, lo, lo', L, L', h1, h2, h3, rfl, rfl⟩ := c143_parts p before after s rs raw (u ++ (k, v') :: w) s.listVariables s.components hp hj h
  refine ⟨_, h1, ?_⟩
  rw [h2]
  rw [hs] at h3
  exact c143_variables (s := { l with listVariables := some ⟨s.listVariables⟩, components := some ⟨s.components.map fun e => e.2.intoParser e.1⟩ }) (p := ⟨u ++ (k, v) :: w⟩) (p' := ⟨u ++ (k, v') :: w⟩) hv hv' h3 (c143_foldLines hv hv' ⟨u.map (fun e => e.2.reconstruct), w.map (fun e => e.2.reconstruct), by simp [c63_variable, c143_typed], by simp [c63_variable, c143_typed]⟩)

/-- C143: an edit of a list variable of a screen. -/
theorem c143_list_variable (u w : LMap Str ListVariable) (k : Str) (v v' : ListVariable) (hp : p.screens = before ++ s :: after) (hj : (p.screens.map (·.javaName)).Nodup)
    (h : c143_Saved p rs raw) (hs : s.listVariables = u ++ (k, v) :: w) (hv : Tidy (c143_typed v.type v.name)) (hv' : Tidy (c143_typed v'.type v'.name)) :
    ∃ text, c143_Saved { p with screens := before ++ { s with listVariables := u ++ (k, v') :: w } :: after } rs { raw with logic := text } ∧
      c143_Differ (c143_typed v.type v.name) (c143_typed v'.type v'.name) raw.logic text := by
  obtain ⟨l, lo, lo', L, L', h1, h2, h3, rfl, rfl⟩ := c143_parts p before after s rs raw s.variables (u ++ (k, v') :: w) s.components hp hj h
  refine ⟨_, h1, ?_⟩
  rw [h2]
  rw [hs] at h3
  exact c143_listVariables (s := { l with «variables» := some ⟨s.variables⟩, components := some ⟨s.components.map fun e => e.2.intoParser e.1⟩ }) (p := ⟨u ++ (k, v) :: w⟩) (p' := ⟨u ++ (k, v') :: w⟩) hv hv' h3 (c143_foldLines hv hv' ⟨u.map (fun e => e.2.reconstruct), w.map (fun e => e.2.reconstruct), by simp [c63_list_variable, c143_typed], by simp [c63_list_variable, c143_typed]⟩)

/-- Specification: the number and the parameter of a kind of component. -/
def c143_kind : ComponentKind → Nat × Str
  | .intent => (1, [])
  | .sharedPreferences x => (2, x)
  | .calendar => (3, [])
  | .vibrator => (4, [])
  | .timer => (5, [])
  | .firebaseDatabase x => (6, x)
  | .dialog => (7, [])
  | .mediaPlayer => (8, [])
  | .soundPool => (9, [])
  | .objectAnimator => (10, [])
  | .gyroscope => (11, [])
  | .firebaseAuth => (12, [])
  | .interstitialAd => (13, [])
  | .firebaseStorage x => (14, x)
  | .camera => (15, [])
  | .filePicker x => (16, x)
  | .requestNetwork => (17, [])
  | .textToSpeech => (18, [])
  | .speechToText => (19, [])
  | .bluetoothConnect => (20, [])
  | .locationManager => (21, [])

/-- Specification: the line of a component. -/
def c143_componentLine (id : Str) (k : ComponentKind) : Str := record [
  ("componentId", string id), ("param1", string (c143_kind k).2), ("param2", string []), ("param3", string []), ("type", number (c143_kind k).1)]

theorem c143_kind_line (id : Str) (k : ComponentKind) : (k.intoParser id).reconstruct = c143_componentLine id k := by
  rw [c62_component]
  cases k <;> rfl

/-- C143: an edit of a component of a screen: its kind, its parameter or its id. -/
theorem c143_component (u w : LMap Str ComponentKind) (i i' : Str) (c c' : ComponentKind) (hp : p.screens = before ++ s :: after) (hj : (p.screens.map (·.javaName)).Nodup)
    (h : c143_Saved p rs raw) (hs : s.components = u ++ (i, c) :: w) :
    ∃ text, c143_Saved { p with screens := before ++ { s with components := u ++ (i', c') :: w } :: after } rs { raw with logic := text } ∧
      c143_Differ (c143_componentLine i c) (c143_componentLine i' c') raw.logic text := by
  obtain ⟨l, lo, lo', L, L', h1, h2, h3, rfl, rfl⟩ := c143_parts p before after s rs raw s.variables s.listVariables (u ++ (i', c') :: w) hp hj h
  refine ⟨_, h1, ?_⟩
  rw [h2]
  rw [hs] at h3
  have ht : ∀ i c, Tidy (c143_componentLine i c) := fun i c => tidy_record _
  refine c143_components (s := { l with «variables» := some ⟨s.variables⟩, listVariables := some ⟨s.listVariables⟩ }) (p := ⟨(u ++ (i, c) :: w).map fun e => e.2.intoParser e.1⟩) (p' := ⟨(u ++ (i', c') :: w).map fun e => e.2.intoParser e.1⟩)
    (ht i c) (ht i' c') h3 (c143_componentLines (ht i c) (ht i' c') ⟨u.map fun e => c143_componentLine e.1 e.2, w.map fun e => c143_componentLine e.1 e.2, ?_, ?_⟩)
  · simp [c143_kind_line, Function.comp_def]
  · simp [c143_kind_line, Function.comp_def]

/-- Specification: the line of a screen in the list of files. -/
def c143_screenLine (layoutName : Str) (toolbar fullscreen drawer fab : Bool) (keyboard : KeyboardSetting) (orientation : Orientation) (theme : Theme) : Str := record [
  ("fileName", string layoutName), ("fileType", number 0), ("keyboardSetting", number (Format.keyboard keyboard)),
  ("options", number (Format.options ⟨toolbar, fullscreen, drawer, fab⟩)), ("orientation", number (Format.orientation orientation)), ("theme", number (Format.theme theme))]

/-- C143: an edit of the settings of a screen. -/
theorem c143_options (fullscreenEnabled toolbarEnabled drawerEnabled fabEnabled : Bool) (orientation : Orientation) (theme : Theme)
    (keyboardSetting : KeyboardSetting) (hp : p.screens = before ++ s :: after) (h : c143_Saved p rs raw) :
    ∃ text, c143_Saved { p with screens := before ++ (
        { s with fullscreenEnabled, toolbarEnabled, drawerEnabled, fabEnabled, orientation, theme, keyboardSetting } :: after) } rs { raw with file := text } ∧
      c143_Differ (c143_screenLine s.layoutName s.toolbarEnabled s.fullscreenEnabled s.drawerEnabled s.fabEnabled s.keyboardSetting s.orientation s.theme)
        (c143_screenLine s.layoutName toolbarEnabled fullscreenEnabled drawerEnabled fabEnabled keyboardSetting orientation theme) raw.file text := by
  obtain ⟨q, hq, hr⟩ := h
  obtain ⟨q', hq', hlog, hview⟩ := c91_options_edit p before after s fullscreenEnabled toolbarEnabled drawerEnabled fabEnabled orientation theme keyboardSetting q hp hq
  obtain ⟨lg, ls, fs, i1, s1, f1, hb, hi, hs, hfo, h1, h2, h3, h4, h5, h6⟩ := toParsed_ok hq
  obtain ⟨lg', ls', fs', i1', s1', f1', hb', hi', hs', hfo', h1', h2', h3', h4', h5', h6'⟩ := toParsed_ok hq'
  dsimp only at hi' hs' hfo' h1' h2' h3'
  rw [hi] at hi'
  rw [hs] at hs'
  rw [hfo] at hfo'
  have e1 : q'.resource = q.resource := by
    obtain ⟨qp, qf, ql, ⟨r1, r2, r3⟩, qv, qlo, qrf⟩ := q
    obtain ⟨qp', qf', ql', ⟨r1', r2', r3'⟩, qv', qlo', qrf'⟩ := q'
    dsimp only at hi' hs' hfo' ⊢
    cases hi'
    cases hs'
    cases hfo'
    rfl
  simp only [Swrs.SketchwareProject.tryIntoRaw, Out.bind_eq_ok, Out.pure_eq, Out.ok.injEq] at hr
  obtain ⟨pr, hpr, rfl⟩ := hr
  refine ⟨q'.file.reconstruct, ⟨q', hq', ?_⟩, ?_⟩
  · rw [h1, ← h1'] at hpr
    simp only [Swrs.SketchwareProject.tryIntoRaw, hpr, Out.ok_bind, Out.pure_eq, hlog, hview, e1, h3, h3']
  · dsimp only
    rw [c63_file, c63_file, h2, h2', hp]
    refine .right _ (.right _ (.left _ (c143_between ⟨(before.map Screen.toFileItem).map (·.reconstruct), (after.map Screen.toFileItem).map (·.reconstruct), ?_, ?_⟩)))
    · simp [c62_file, c143_screenLine, Screen.toFileItem, Format.fileType]
    · simp [c62_file, c143_screenLine, Screen.toFileItem, Format.fileType]

/-- Specification: the line of a library. -/
def c143_libraryLine (adUnits : List AdUnit) (data : Str) (kind : Nat) (r1 r2 r3 : Str) (testDevices : List Str) (used : Bool) : Str := record [
  ("adUnits", array (adUnits.map fun u => record [("id", string u.id), ("name", string u.name)])),
  ("data", string data), ("libType", number kind), ("reserved1", string r1), ("reserved2", string r2), ("reserved3", string r3),
  ("testDevices", array (testDevices.map string)), ("useYn", string (if used then "Y".toList else "N".toList))]

/-- Specification: the lines of the four libraries. -/
def c143_firebase : Option Firebase → Str
  | some f => c143_libraryLine [] f.projectId 0 f.appId f.apiKey f.storageBucket [] true
  | none => c143_libraryLine [] [] 0 [] [] [] [] false
@[inherit_doc c143_firebase] def c143_compat (on : Bool) : Str := c143_libraryLine [] [] 1 [] [] [] [] on
@[inherit_doc c143_firebase] def c143_adMob : Option AdMob → Str
  | some a => c143_libraryLine a.adUnits [] 2 [] [] [] a.testDevices true
  | none => c143_libraryLine [] [] 2 [] [] [] [] false
@[inherit_doc c143_firebase] def c143_googleMap : Option GoogleMap → Str
  | some g => c143_libraryLine [] g.apiKey 3 [] [] [] [] true
  | none => c143_libraryLine [] [] 3 [] [] [] [] false

theorem c143_libraries (l : Libraries) : (librariesBack l).reconstruct = between "\n" ["@firebaseDB".toList, c143_firebase l.firebase, "@compat".toList,
    c143_compat l.appCompatEnabled, "@admob".toList, c143_adMob l.adMob, "@googleMap".toList, c143_googleMap l.googleMap] := by
  have h1 : (librariesBack l).firebaseDb.reconstruct = c143_firebase l.firebase := by
    rw [c62_library]; unfold librariesBack; cases l.firebase <;> rfl
  have h2 : (librariesBack l).compat.reconstruct = c143_compat l.appCompatEnabled := by
    rw [c62_library]; unfold librariesBack; cases l.appCompatEnabled <;> rfl
  have h3 : (librariesBack l).admob.reconstruct = c143_adMob l.adMob := by
    rw [c62_library]; unfold librariesBack; cases l.adMob <;> rfl
  have h4 : (librariesBack l).googleMap.reconstruct = c143_googleMap l.googleMap := by
    rw [c62_library]; unfold librariesBack; cases l.googleMap <;> rfl
  rw [c63_library, h1, h2, h3, h4]

/-- What an edit of the libraries does to a saved project. -/
theorem c143_libs (libraries : Libraries) (h : c143_Saved p rs raw) :
    c143_Saved { p with libraries } rs { raw with library := (librariesBack libraries).reconstruct } ∧ raw.library = (librariesBack p.libraries).reconstruct := by
  obtain ⟨q, hq, hr⟩ := h
  simp only [SketchwareProject.toParsed, Out.bind_eq_ok] at hq
  obtain ⟨⟨logics, layouts, fabs⟩, h1, ⟨images, imageFiles⟩, h2, ⟨sounds, soundFiles⟩, h3, ⟨fonts, fontFiles⟩, h4, h5⟩ := hq
  cases h5
  simp only [Swrs.SketchwareProject.tryIntoRaw, Out.bind_eq_ok, Out.pure_eq, Out.ok.injEq] at hr
  obtain ⟨pr, hpr, rfl⟩ := hr
  refine ⟨⟨_, by simp only [SketchwareProject.toParsed, h1, h2, h3, h4, Out.ok_bind, Out.pure_eq]; rfl, ?_⟩, rfl⟩
  simp only [Swrs.SketchwareProject.tryIntoRaw, hpr, Out.ok_bind, Out.pure_eq]

/-- C143: an edit of one of the libraries. -/
theorem c143_library (h : c143_Saved p rs raw) :
    (∀ x, ∃ text, c143_Saved { p with libraries := { p.libraries with firebase := x } } rs { raw with library := text } ∧
      c143_Differ (c143_firebase p.libraries.firebase) (c143_firebase x) raw.library text) ∧
    (∀ x, ∃ text, c143_Saved { p with libraries := { p.libraries with appCompatEnabled := x } } rs { raw with library := text } ∧
      c143_Differ (c143_compat p.libraries.appCompatEnabled) (c143_compat x) raw.library text) ∧
    (∀ x, ∃ text, c143_Saved { p with libraries := { p.libraries with adMob := x } } rs { raw with library := text } ∧
      c143_Differ (c143_adMob p.libraries.adMob) (c143_adMob x) raw.library text) ∧
    (∀ x, ∃ text, c143_Saved { p with libraries := { p.libraries with googleMap := x } } rs { raw with library := text } ∧
      c143_Differ (c143_googleMap p.libraries.googleMap) (c143_googleMap x) raw.library text) := by
  refine ⟨fun x => ?_, fun x => ?_, fun x => ?_, fun x => ?_⟩
  all_goals
    refine ⟨_, (c143_libs p rs raw _ h).1, ?_⟩
    rw [(c143_libs p rs raw p.libraries h).2, c143_libraries, c143_libraries]
  · exact c143_between ⟨[_], _, rfl, rfl⟩
  · exact c143_between ⟨[_, _, _], _, rfl, rfl⟩
  · exact c143_between ⟨[_, _, _, _, _], _, rfl, rfl⟩
  · exact c143_between ⟨[_, _, _, _, _, _, _], _, rfl, rfl⟩

/-- The items of a section of resources one of which has been renamed. -/
theorem c143_items {auto : Bool} {u w : List (Str × ResourceFileWrapper)} {i i' : Str} {f : ResourceFileWrapper} {files fs : HMap Str ResourceFileWrapper}
    {items : List ResourceItem} (h : resourcesBack auto (u ++ (i, f) :: w) files = .ok (items, fs)) :
    ∃ n items', (f.getFullName : Out Empty Str) = .ok n ∧ resourcesBack auto (u ++ (i', f) :: w) files = .ok (items', fs) ∧
      c143_Differ [(⟨n, i, 1⟩ : ResourceItem)] [⟨n, i', 1⟩] items items' := by
  induction u generalizing files items with
  | nil =>
    simp only [List.nil_append, resourcesBack, Out.bind_eq_ok, Out.pure_eq, Out.ok.injEq, Prod.exists, Prod.mk.injEq] at h ⊢
    obtain ⟨n, hn, it, fs', h1, rfl, rfl⟩ := h
    exact ⟨n, _, hn, ⟨n, hn, it, fs', h1, rfl, rfl⟩, [], it, rfl, rfl⟩
  | cons x u ih =>
    obtain ⟨j, g⟩ := x
    simp only [List.cons_append, resourcesBack, Out.bind_eq_ok, Out.pure_eq, Out.ok.injEq, Prod.exists, Prod.mk.injEq] at h ⊢
    obtain ⟨m, hm, it, fs', h1, rfl, rfl⟩ := h
    obtain ⟨n, items', h2, h3, h4⟩ := ih h1
    exact ⟨n, _, h2, ⟨m, hm, items', fs', h3, rfl, rfl⟩, h4.left [_]⟩

/-- Specification: the line of a resource. -/
def c143_resourceLine (fullName id : Str) : Str := record [("resFullName", string fullName), ("resName", string id), ("resType", number 1)]

theorem c143_item_line (n i : Str) : (⟨n, i, 1⟩ : ResourceItem).reconstruct = c143_resourceLine n i := by
  rw [c62_resource]; rfl

variable (u w : LMap Str ResourceFileWrapper) (i i' : Str) (f : ResourceFileWrapper)

/-- C143: an image that gets a new id. -/
theorem c143_image (h : c143_Saved p rs raw) (hp : p.resources.images = u ++ (i, f) :: w) :
    ∃ n text, (f.getFullName : Out Empty Str) = .ok n ∧ c143_Saved { p with resources := { p.resources with images := u ++ (i', f) :: w } } rs { raw with resource := text } ∧
      c143_Differ (c143_resourceLine n i) (c143_resourceLine n i') raw.resource text := by
  obtain ⟨q, hq, hr⟩ := h
  simp only [SketchwareProject.toParsed, Out.bind_eq_ok] at hq
  obtain ⟨⟨logics, layouts, fabs⟩, h1, ⟨images, imageFiles⟩, h2, ⟨sounds, soundFiles⟩, h3, ⟨fonts, fontFiles⟩, h4, h5⟩ := hq
  cases h5
  simp only [Swrs.SketchwareProject.tryIntoRaw, Out.bind_eq_ok, Out.pure_eq, Out.ok.injEq] at hr
  obtain ⟨pr, hpr, rfl⟩ := hr
  rw [hp] at h2
  obtain ⟨n, items', hn, h2', hd⟩ := c143_items (i' := i') h2
  refine ⟨n, (⟨items', sounds, fonts⟩ : Resource).reconstruct, hn, ⟨_, by simp only [SketchwareProject.toParsed, h1, h2', h3, h4, Out.ok_bind, Out.pure_eq]; rfl,
    by simp only [Swrs.SketchwareProject.tryIntoRaw, hpr, Out.ok_bind, Out.pure_eq]⟩, ?_⟩
  dsimp only
  rw [c63_resource, c63_resource, ← c143_item_line, ← c143_item_line]
  exact .right _ (.right _ (.right _ (.right _ (.left _ (c143_ended (c143_map ResourceItem.reconstruct hd))))))

/-- C143: a sound that gets a new id. -/
theorem c143_sound (h : c143_Saved p rs raw) (hp : p.resources.sounds = u ++ (i, f) :: w) :
    ∃ n text, (f.getFullName : Out Empty Str) = .ok n ∧ c143_Saved { p with resources := { p.resources with sounds := u ++ (i', f) :: w } } rs { raw with resource := text } ∧
      c143_Differ (c143_resourceLine n i) (c143_resourceLine n i') raw.resource text := by
  obtain ⟨q, hq, hr⟩ := h
  simp only [SketchwareProject.toParsed, Out.bind_eq_ok] at hq
  obtain ⟨⟨logics, layouts, fabs⟩, h1, ⟨images, imageFiles⟩, h2, ⟨sounds, soundFiles⟩, h3, ⟨fonts, fontFiles⟩, h4, h5⟩ := hq
  cases h5
  simp only [Swrs.SketchwareProject.tryIntoRaw, Out.bind_eq_ok, Out.pure_eq, Out.ok.injEq] at hr
  obtain ⟨pr, hpr, rfl⟩ := hr
  rw [hp] at h3
  obtain ⟨n, items', hn, h3', hd⟩ := c143_items (i' := i') h3
  refine ⟨n, (⟨images, items', fonts⟩ : Resource).reconstruct, hn, ⟨_, by simp only [SketchwareProject.toParsed, h1, h2, h3', h4, Out.ok_bind, Out.pure_eq]; rfl,
    by simp only [Swrs.SketchwareProject.tryIntoRaw, hpr, Out.ok_bind, Out.pure_eq]⟩, ?_⟩
  dsimp only
  rw [c63_resource, c63_resource, ← c143_item_line, ← c143_item_line]
  exact .right _ (.right _ (.left _ (c143_ended (c143_map ResourceItem.reconstruct hd))))

/-- C143: a font that gets a new id. -/
theorem c143_font (h : c143_Saved p rs raw) (hp : p.resources.fonts = u ++ (i, f) :: w) :
    ∃ n text, (f.getFullName : Out Empty Str) = .ok n ∧ c143_Saved { p with resources := { p.resources with fonts := u ++ (i', f) :: w } } rs { raw with resource := text } ∧
      c143_Differ (c143_resourceLine n i) (c143_resourceLine n i') raw.resource text := by
  obtain ⟨q, hq, hr⟩ := h
  simp only [SketchwareProject.toParsed, Out.bind_eq_ok] at hq
  obtain ⟨⟨logics, layouts, fabs⟩, h1, ⟨images, imageFiles⟩, h2, ⟨sounds, soundFiles⟩, h3, ⟨fonts, fontFiles⟩, h4, h5⟩ := hq
  cases h5
  simp only [Swrs.SketchwareProject.tryIntoRaw, Out.bind_eq_ok, Out.pure_eq, Out.ok.injEq] at hr
  obtain ⟨pr, hpr, rfl⟩ := hr
  rw [hp] at h4
  obtain ⟨n, items', hn, h4', hd⟩ := c143_items (i' := i') h4
  refine ⟨n, (⟨images, sounds, items'⟩ : Resource).reconstruct, hn, ⟨_, by simp only [SketchwareProject.toParsed, h1, h2, h3, h4', Out.ok_bind, Out.pure_eq]; rfl,
    by simp only [Swrs.SketchwareProject.tryIntoRaw, hpr, Out.ok_bind, Out.pure_eq]⟩, ?_⟩
  dsimp only
  rw [c63_resource, c63_resource, ← c143_item_line, ← c143_item_line]
  exact .left _ (c143_between (c143_map ResourceItem.reconstruct hd))

/-! ### Views -/

/-- Specification: two lists of views, with this parent and its type, are the same except for one view, at any depth; its parent has the id `pid`
and the type `pt`. -/
inductive c143_At (v v' : View) (pid : Str) (pt : UInt8) : Str → UInt8 → List View → List View → Prop
  | here (a b : List View) : c143_At v v' pid pt pid pt (a ++ v :: b) (a ++ v' :: b)
  | inside (a b : List View) (x : View) (cs : List View) (i : Str) (t : UInt8) (h : c143_At v v' pid pt x.id x.typeId x.children cs) :
      c143_At v v' pid pt i t (a ++ x :: b) (a ++ { x with children := cs } :: b)

theorem c143_below (a b : List View) (x : View) : flattenBelow (a ++ x :: b) = flattenBelow a ++ (flattenIn x.children x.id x.typeId ++ flattenBelow b) := by
  induction a with
  | nil => obtain ⟨⟩ := x; simp only [List.nil_append, flattenBelow, flattenChildren, flattenIn]; rfl
  | cons y a ih => simp only [List.cons_append, flattenBelow, ih, List.append_assoc]

theorem c143_flatten {v v' : View} {pid : Str} {pt : UInt8} (hid : v'.id = v.id) (ht : v'.typeId = v.typeId) (hc : v'.children = v.children) {i : Str} {t : UInt8}
    {vs vs' : List View} (h : c143_At v v' pid pt i t vs vs') : c143_Differ [v.flat pid pt] [v'.flat pid pt] (flattenIn vs i t) (flattenIn vs' i t) := by
  induction h with
  | here a b =>
    unfold flattenIn
    rw [c143_below, c143_below, hid, ht, hc]
    exact .right _ ⟨a.map fun v => v.flat pid pt, b.map fun v => v.flat pid pt, by simp, by simp⟩
  | inside a b x cs i t h ih =>
    have : flattenIn (a ++ x :: b) i t = (a ++ x :: b).map (fun v => v.flat i t) ++ (flattenBelow a ++ (flattenIn x.children x.id x.typeId ++ flattenBelow b)) := by
      rw [← c143_below]; rfl
    rw [this]
    have : flattenIn (a ++ { x with children := cs } :: b) i t =
        (a ++ x :: b).map (fun v => v.flat i t) ++ (flattenBelow a ++ (flattenIn cs x.id x.typeId ++ flattenBelow b)) := by
      unfold flattenIn
      rw [c143_below]
      simp only [List.map_append, List.map_cons]
      rfl
    rw [this]
    exact .left _ (.left _ (.right _ ih))

/-- What an edit of the layout of a screen does to the saved views. -/
theorem c143_layout (layout : List View) (x y : Str) (hx : Tidy x) (hy : Tidy y) (hp : p.screens = before ++ s :: after)
    (hl : ((layoutsOf p).map (·.1)).Nodup) (hj : (p.screens.map (·.javaName)).Nodup) (h : c143_Saved p rs raw)
    (hd : c143_Differ x y (between "\n" ((flattenIn s.layout (s% "root") 0).map (·.reconstruct))) (between "\n" ((flattenIn layout (s% "root") 0).map (·.reconstruct)))) :
    ∃ text, c143_Saved { p with screens := before ++ { s with layout } :: after } rs { raw with view := text } ∧ c143_Differ x y raw.view text := by
  obtain ⟨q, hq, hr⟩ := h
  obtain ⟨q', hq', hlog, hfile⟩ := c91_layout_edit p before after s layout s.fab q hp hq
  obtain ⟨lg, ls, fs, i1, s1, f1, hb, hi, hs, hfo, h1, h2, h3, h4, h5, h6⟩ := toParsed_ok hq
  obtain ⟨lg', ls', fs', i1', s1', f1', hb', hi', hs', hfo', h1', h2', h3', h4', h5', h6'⟩ := toParsed_ok hq'
  dsimp only at hi' hs' hfo' h1' h2' h3'
  rw [hi] at hi'
  rw [hs] at hs'
  rw [hfo] at hfo'
  have e1 : q'.resource = q.resource := by
    obtain ⟨qp, qf, ql, ⟨r1, r2, r3⟩, qv, qlo, qrf⟩ := q
    obtain ⟨qp', qf', ql', ⟨r1', r2', r3'⟩, qv', qlo', qrf'⟩ := q'
    dsimp only at hi' hs' hfo' ⊢
    cases hi'
    cases hs'
    cases hfo'
    rfl
  have el : ∀ (s0 : Screen), layoutsOf { p with screens := before ++ s0 :: after } = before.map (fun s => (s.layoutName, s.layout)) ++
      ((s0.layoutName, s0.layout) :: (after.map (fun s => (s.layoutName, s.layout)) ++ p.customViews.map fun c => (c.resName, c.layout))) := by
    intro s0; simp [layoutsOf]
  have ep : p = { p with screens := before ++ s :: after } := by rw [← hp]
  obtain ⟨v1, v2, -⟩ := toParsed_lists hq hl hj
  obtain ⟨v1', v2', -⟩ := toParsed_lists hq' (by rw [ep, el] at hl; rw [el]; simpa using hl) (by rw [hp] at hj; simpa using hj)
  simp only [Swrs.SketchwareProject.tryIntoRaw, Out.bind_eq_ok, Out.pure_eq, Out.ok.injEq] at hr
  obtain ⟨pr, hpr, rfl⟩ := hr
  refine ⟨q'.view.reconstruct, ⟨q', hq', ?_⟩, ?_⟩
  · rw [h1, ← h1'] at hpr
    simp only [Swrs.SketchwareProject.tryIntoRaw, hpr, Out.ok_bind, Out.pure_eq, hlog, hfile, e1, h3, h3']
  · dsimp only
    have ef : q'.view.fabs = q.view.fabs := by
      rw [v2, v2', fabsOf, fabsOf, hp, List.filterMap_append, List.filterMap_append]
      rfl
    rw [c63_view, c63_view, ef]
    refine c143_trimEnd hx hy (.right _ (.right _ (c143_flatMap (a := (s.layoutName, ⟨flattenViews s.layout none none⟩))
      (b := (s.layoutName, ⟨flattenViews layout none none⟩)) ?_ ?_)))
    · rw [v1, v1', el]
      rw [ep, el]
      exact c143_map (fun e : Str × List View => (e.1, (⟨flattenViews e.2 none none⟩ : Layout))) (o := [(s.layoutName, s.layout)]) (n := [(s.layoutName, layout)])
        ⟨_, _, rfl, rfl⟩
    · exact .right _ (.left _ hd)

/-- C143: an edit of a view of a screen, at any depth, that keeps its id, its type and its children. -/
theorem c143_view (v v' : View) (pid : Str) (pt : UInt8) (layout : List View) (hp : p.screens = before ++ s :: after)
    (hl : ((layoutsOf p).map (·.1)).Nodup) (hj : (p.screens.map (·.javaName)).Nodup) (h : c143_Saved p rs raw)
    (he : c143_At v v' pid pt (s% "root") 0 s.layout layout) (hid : v'.id = v.id) (ht : v'.typeId = v.typeId) (hc : v'.children = v.children) :
    ∃ text, c143_Saved { p with screens := before ++ { s with layout } :: after } rs { raw with view := text } ∧
      c143_Differ (v.flat pid pt).reconstruct (v'.flat pid pt).reconstruct raw.view text :=
  c143_layout p before after s rs raw layout _ _ (tidy_view _) (tidy_view _) hp hl hj h (c143_between (c143_map AndroidView.reconstruct (c143_flatten hid ht hc he)))

/-! ### Code -/

theorem c143_blocks {c c' : BlockContainer} {x y : ParserBlock} (h : c143_Differ [x] [y] c.blocks c'.blocks) :
    c143_Differ x.reconstruct y.reconstruct c.reconstruct c'.reconstruct := by
  unfold BlockContainer.reconstruct
  rw [c143_fold (fun b : ParserBlock => b.reconstruct ++ ['\n']), c143_fold (fun b : ParserBlock => b.reconstruct ++ ['\n'])]
  exact .left _ (c143_flatMap h (.right _ .here))

/-- What an edit of the code of a screen does to the saved logic, when only one container is affected. -/
theorem c143_coded (s' : Screen) (cu cw : List (Str × List Block)) (k : Str) (code code' : List Block) (c c' : BlockContainer) (x y : Str)
    (hx : Tidy x) (hy : Tidy y) (hp : p.screens = before ++ s :: after) (hj : (p.screens.map (·.javaName)).Nodup) (h : c143_Saved p rs raw)
    (hm : s.moreBlocks.keys.Nodup) (hm' : s'.moreBlocks.keys.Nodup) (hn : ((codeOfScreen s).map (·.1)).Nodup)
    (hs : codeOfScreen s = cu ++ (k, code) :: cw) (hs' : codeOfScreen s' = cu ++ (k, code') :: cw) (hc : toContainer code = .ok c) (hc' : toContainer code' = .ok c')
    (hd : c143_Differ x y c.reconstruct c'.reconstruct) (hnm : s'.javaName = s.javaName) (hv : s.layoutName = s'.layoutName ∧ s.layout = s'.layout ∧ s.fab = s'.fab)
    (hf : s'.toFileItem = s.toFileItem)
    (hl : ∀ l l', s.toLogic = .ok l → s'.toLogic = .ok l' → l' = { l with blockContainers := l'.blockContainers }) :
    ∃ text, c143_Saved { p with screens := before ++ s' :: after } rs { raw with logic := text } ∧ c143_Differ x y raw.logic text := by
  obtain ⟨q, hq, hr⟩ := h
  have hok : ∃ l, s'.toLogic = .ok l := by
    obtain ⟨lg, ls, fs, i1, s1, f1, hb, -⟩ := toParsed_ok hq
    cases hxl : s'.toLogic with
    | ok l => exact ⟨l, rfl⟩
    | err e => exact e.elim
    | panic =>
      obtain ⟨z, hz, hzp⟩ := (c77_logic_panics s').2.mp hxl
      have hsp : s.toLogic = .panic := by
        refine (c77_logic_panics s).2.mpr ⟨z, ?_, hzp⟩
        rw [hs'] at hz
        rw [hs]
        simp only [List.mem_append, List.mem_cons] at hz ⊢
        rcases hz with hz | rfl | hz
        · exact .inl hz
        · rw [hc'] at hzp; cases hzp
        · exact .inr (.inr hz)
      rw [(screensBack_panics p.screens [] [] []).mpr ⟨s, by simp [hp], hsp⟩] at hb
      cases hb
  obtain ⟨q', l, l', h1, h2, h3, h4, h5, -, h6⟩ := c143_screen p before after s s' q rs raw hp hj hq hr hnm hv hf hok
  refine ⟨_, ⟨q', h1, h6⟩, ?_⟩
  rw [h5]
  have ha := (toLogic_list h2 hm hn).2.2.2.2
  have ha' := (toLogic_list h3 hm' (by rw [hs] at hn; rw [hs']; simpa using hn)).2.2.2.2
  rw [hs] at ha
  rw [hs'] at ha'
  obtain ⟨⟨k1, c1⟩, ⟨k2, c2⟩, ⟨e1, e2⟩, ⟨e3, e4⟩, u, w, hu, hu'⟩ := c143_all (by
    rintro x ⟨y1, y2⟩ ⟨z1, z2⟩ ⟨a1, a2⟩ ⟨b1, b2⟩
    dsimp only at *
    rw [a2] at b2
    cases b2
    rw [a1, b1]) ha ha'
  dsimp only at e1 e2 e3 e4
  subst e1 e3
  rw [hc] at e2
  rw [hc'] at e4
  cases e2
  cases e4
  have g : l = { l with blockContainers := u ++ (k2, c) :: w } := by
    have : l.blockContainers = u ++ (k2, c) :: w := hu
    rw [← this]
  have g' : l' = { l with blockContainers := u ++ (k2, c') :: w } := by
    rw [hl l l' h2 h3]
    have : l'.blockContainers = u ++ (k2, c') :: w := hu'
    rw [← this]
  rw [g'] at h4
  have h4' : c143_Differ [(s.javaName, { l with blockContainers := u ++ (k2, c) :: w })] [(s.javaName, { l with blockContainers := u ++ (k2, c') :: w })]
      q.logic.screens q'.logic.screens := by rw [← g]; exact h4
  exact c143_container hx hy h4' hd

theorem c143_tidy (b : ParserBlock) : Tidy b.reconstruct := by
  rw [c62_block]
  exact tidy_record _

/-- C143: an edit of the code of an event that changes one of the blocks that are written. -/
theorem c143_event_code (a b : List Event) (e : Event) (code : List Block) (c c' : BlockContainer) (x y : ParserBlock) (hp : p.screens = before ++ s :: after)
    (hj : (p.screens.map (·.javaName)).Nodup) (h : c143_Saved p rs raw) (hm : s.moreBlocks.keys.Nodup) (hn : ((codeOfScreen s).map (·.1)).Nodup)
    (hs : s.events = a ++ e :: b) (hc : toContainer e.code = .ok c) (hc' : toContainer code = .ok c') (hd : c143_Differ [x] [y] c.blocks c'.blocks) :
    ∃ text, c143_Saved { p with screens := before ++ { s with events := a ++ { e with code } :: b } :: after } rs { raw with logic := text } ∧
      c143_Differ x.reconstruct y.reconstruct raw.logic text :=
  c143_coded p before after s rs raw { s with events := a ++ { e with code } :: b } (a.map fun e => (e.containerId, e.code))
    (b.map (fun e => (e.containerId, e.code)) ++ s.moreBlocks.map fun m => (m.1 ++ s% "_moreBlock", m.2.code)) e.containerId e.code code c c' _ _ (c143_tidy x) (c143_tidy y) hp hj h hm hm hn
    (by simp [codeOfScreen, hs]) (by simp [codeOfScreen, Event.containerId]) hc hc' (c143_blocks hd) rfl ⟨rfl, rfl, rfl⟩ rfl
    fun l l' h1 h2 => (c91_event_code s a b e code l l' hs h1 h2).1

/-- C143: an edit of the code of a moreblock that changes one of the blocks that are written. -/
theorem c143_moreblock_code (a b : List (Str × MoreBlock)) (id : Str) (m : MoreBlock) (code : List Block) (c c' : BlockContainer) (x y : ParserBlock)
    (hp : p.screens = before ++ s :: after) (hj : (p.screens.map (·.javaName)).Nodup) (h : c143_Saved p rs raw) (hm : s.moreBlocks.keys.Nodup)
    (hn : ((codeOfScreen s).map (·.1)).Nodup) (hs : s.moreBlocks = a ++ (id, m) :: b) (hc : toContainer m.code = .ok c) (hc' : toContainer code = .ok c')
    (hd : c143_Differ [x] [y] c.blocks c'.blocks) :
    ∃ text, c143_Saved { p with screens := before ++ { s with moreBlocks := a ++ (id, { m with code }) :: b } :: after } rs { raw with logic := text } ∧
      c143_Differ x.reconstruct y.reconstruct raw.logic text :=
  c143_coded p before after s rs raw { s with moreBlocks := a ++ (id, { m with code }) :: b }
    (s.events.map (fun e => (e.containerId, e.code)) ++ a.map fun m => (m.1 ++ s% "_moreBlock", m.2.code)) (b.map fun m => (m.1 ++ s% "_moreBlock", m.2.code))
    (id ++ s% "_moreBlock") m.code code c c' _ _ (c143_tidy x) (c143_tidy y) hp hj h hm (by rw [hs] at hm; simpa [LMap.keys] using hm) hn
    (by simp [codeOfScreen, hs]) (by simp [codeOfScreen]) hc hc' (c143_blocks hd) rfl ⟨rfl, rfl, rfl⟩ rfl
    fun l l' h1 h2 => (c91_moreblock_code s a b id m code l l' hs h1 h2).1

end

theorem c143_tidy_lines : Tidy (c143_typed .integer (s% "v")) ∧ Tidy (c143_typed .boolean (s% "flag")) ∧ Tidy (c143_typed .string (s% "l")) ∧
    Tidy (c143_typed .integer (s% "l")) := by
  unfold Tidy
  decide +kernel

section
variable [MapPol] [Floats]

/-- A screen with something of everything: a button inside a layout, variables, code of an event and of a moreblock. -/
def c143_main : Screen :=
  { plainScreen [(s% "m", ⟨s% "m", [.text (s% "m")], [exLeaf (s% "b")]⟩)] [⟨s% "onBackPressed", .activityEvent, [exLeaf (s% "a")]⟩] none with
    layout := [{ View.ofRaw (AndroidView.newEmpty (s% "linear1") 0 (s% "root") 0) with
      children := [View.ofRaw (AndroidView.newEmpty (s% "button1") 3 (s% "linear1") 0)] }]
    «variables» := [(s% "v", ⟨s% "v", .integer⟩)], listVariables := [(s% "l", ⟨s% "l", .string⟩)] }

/-- A project with this screen and another one, an image, a sound and a font. -/
def c143_demo : SketchwareProject :=
  { screensApi bareLibs [c143_main, { plainScreen [] [] none with layoutName := s% "second", javaName := s% "SecondActivity" }] true with
    resources := ⟨[(s% "i", .u32Id 3 (s% "i.png") .image)], [(s% "s", .u32Id 4 (s% "s.mp3") .sound)], [(s% "f", .u32Id 5 (s% "f.ttf") .font)]⟩ }

theorem c143_demo_saved : ∃ raw, c143_Saved c143_demo none raw := by
  have h : ∃ q, c143_demo.toParsed = .ok q := ⟨_, rfl⟩
  obtain ⟨q, hq⟩ := h
  obtain ⟨_, _, _, _, _, _, -, -, -, -, h1, -⟩ := toParsed_ok hq
  have h2 := c62_project q.project (t := ⟨1970, 1, 1, 0, 0, 0⟩) (by rw [h1]; show Date.fromTimestamp (0 : UInt64).toInt64.toInt = _; decide +kernel)
  exact ⟨_, q, hq, by unfold Swrs.SketchwareProject.tryIntoRaw; rw [h2]; rfl⟩

-- the project can be saved, and every kind of edit meets the hypotheses of its theorem
example : ∃ raw, c143_Saved c143_demo none raw ∧
    (∃ text, c143_Differ (c143_typed .integer (s% "v")) (c143_typed .boolean (s% "flag")) raw.logic text) ∧
    (∃ text, c143_Differ (c143_typed .string (s% "l")) (c143_typed .integer (s% "l")) raw.logic text) ∧
    (∃ text, c143_Differ (c143_componentLine (s% "t") .timer) (c143_componentLine (s% "t") (.filePicker (s% "image/*"))) raw.logic text) ∧
    (∃ text, c143_Differ (c143_resourceLine (s% "i.png") (s% "i")) (c143_resourceLine (s% "i.png") (s% "icon")) raw.resource text) ∧
    (∃ text, c143_Differ (c143_resourceLine (s% "s.mp3") (s% "s")) (c143_resourceLine (s% "s.mp3") (s% "bell")) raw.resource text) ∧
    (∃ text, c143_Differ (c143_resourceLine (s% "f.ttf") (s% "f")) (c143_resourceLine (s% "f.ttf") (s% "mono")) raw.resource text) ∧
    (∃ text, c143_Differ (c143_googleMap none) (c143_googleMap (some ⟨s% "key"⟩)) raw.library text) ∧
    (∃ text, c143_Differ (c143_screenLine (s% "main") true false false false .unspecified .portrait .default)
      (c143_screenLine (s% "main") false true false false .unspecified .both .none) raw.file text) := by
  obtain ⟨raw, h⟩ := c143_demo_saved
  have hj : (c143_demo.screens.map (·.javaName)).Nodup := by show [s% "MainActivity", s% "SecondActivity"].Nodup; decide
  refine ⟨raw, h, ?_, ?_, ?_, ?_, ?_, ?_, ?_, ?_⟩
  · obtain ⟨t, -, ht⟩ := c143_variable c143_demo [] [_] c143_main none raw [] [] (s% "v") ⟨s% "v", .integer⟩ ⟨s% "flag", .boolean⟩ rfl hj h rfl
      c143_tidy_lines.1 c143_tidy_lines.2.1
    exact ⟨t, ht⟩
  · obtain ⟨t, -, ht⟩ := c143_list_variable c143_demo [] [_] c143_main none raw [] [] (s% "l") ⟨s% "l", .string⟩ ⟨s% "l", .integer⟩ rfl hj h rfl
      c143_tidy_lines.2.2.1 c143_tidy_lines.2.2.2
    exact ⟨t, ht⟩
  · obtain ⟨t, -, ht⟩ := c143_component c143_demo [] [_] c143_main none raw [] [] (s% "t") (s% "t") .timer (.filePicker (s% "image/*")) rfl hj h rfl
    exact ⟨t, ht⟩
  · obtain ⟨n, t, hn, -, ht⟩ := c143_image c143_demo none raw [] [] (s% "i") (s% "icon") (.u32Id 3 (s% "i.png") .image) h rfl
    cases hn
    exact ⟨t, ht⟩
  · obtain ⟨n, t, hn, -, ht⟩ := c143_sound c143_demo none raw [] [] (s% "s") (s% "bell") (.u32Id 4 (s% "s.mp3") .sound) h rfl
    cases hn
    exact ⟨t, ht⟩
  · obtain ⟨n, t, hn, -, ht⟩ := c143_font c143_demo none raw [] [] (s% "f") (s% "mono") (.u32Id 5 (s% "f.ttf") .font) h rfl
    cases hn
    exact ⟨t, ht⟩
  · obtain ⟨t, -, ht⟩ := (c143_library c143_demo none raw h).2.2.2 (some ⟨s% "key"⟩)
    exact ⟨t, ht⟩
  · obtain ⟨t, -, ht⟩ := c143_options c143_demo [] [_] c143_main none raw true false false false .both .none .unspecified rfl h
    exact ⟨t, ht⟩

-- the button inside the layout becomes red
example : ∃ raw text, c143_Saved c143_demo none raw ∧
    c143_Differ ((View.ofRaw (AndroidView.newEmpty (s% "button1") 3 (s% "linear1") 0)).flat (s% "linear1") 0).reconstruct
      (View.flat { View.ofRaw (AndroidView.newEmpty (s% "button1") 3 (s% "linear1") 0) with backgroundColor := Color.fromRgb 255 0 0 } (s% "linear1") 0).reconstruct
      raw.view text := by
  obtain ⟨raw, h⟩ := c143_demo_saved
  have hj : (c143_demo.screens.map (·.javaName)).Nodup := by show [s% "MainActivity", s% "SecondActivity"].Nodup; decide
  have hl : ((layoutsOf c143_demo).map (·.1)).Nodup := by show [s% "main", s% "second"].Nodup; decide
  obtain ⟨t, -, ht⟩ := c143_view c143_demo [] [_] c143_main none raw (View.ofRaw (AndroidView.newEmpty (s% "button1") 3 (s% "linear1") 0))
    { View.ofRaw (AndroidView.newEmpty (s% "button1") 3 (s% "linear1") 0) with backgroundColor := Color.fromRgb 255 0 0 } (s% "linear1") 0 _ rfl hl hj h
    (.inside [] [] _ _ _ _ (.here [] [])) rfl rfl rfl
  exact ⟨raw, t, h, ht⟩

-- the only block of the event becomes another one, and the only block of the moreblock as well
example : ∃ raw text text', ∃ x y x' y' : ParserBlock, c143_Saved c143_demo none raw ∧ x.opCode = s% "a" ∧ y.opCode = s% "z" ∧ x'.opCode = s% "b" ∧ y'.opCode = s% "z" ∧
    c143_Differ x.reconstruct y.reconstruct raw.logic text ∧ c143_Differ x'.reconstruct y'.reconstruct raw.logic text' := by
  obtain ⟨raw, h⟩ := c143_demo_saved
  have hj : (c143_demo.screens.map (·.javaName)).Nodup := by show [s% "MainActivity", s% "SecondActivity"].Nodup; decide
  have hm : c143_main.moreBlocks.keys.Nodup := by show [s% "m"].Nodup; decide
  have hn : ((codeOfScreen c143_main).map (·.1)).Nodup := by show [s% "onBackPressed_onBackPressed", s% "m_moreBlock"].Nodup; decide
  obtain ⟨t, -, ht⟩ := c143_event_code c143_demo [] [_] c143_main none raw [] [] ⟨s% "onBackPressed", .activityEvent, [exLeaf (s% "a")]⟩ [exLeaf (s% "z")] ⟨[_]⟩ ⟨[_]⟩ _ _
    rfl hj h hm hn rfl rfl rfl ⟨[], [], rfl, rfl⟩
  obtain ⟨t', -, ht'⟩ := c143_moreblock_code c143_demo [] [_] c143_main none raw [] [] (s% "m") ⟨s% "m", [.text (s% "m")], [exLeaf (s% "b")]⟩ [exLeaf (s% "z")]
    ⟨[_]⟩ ⟨[_]⟩ _ _ rfl hj h hm hn rfl rfl rfl ⟨[], [], rfl, rfl⟩
  exact ⟨raw, t, t', _, _, _, _, h, rfl, rfl, rfl, rfl, ht, ht'⟩
end
end Swrs.Api
