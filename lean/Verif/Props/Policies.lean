import Verif.Props.Raw
/-!
# C110: what is read does not depend on the order that the linked maps keep
-/
set_option linter.unusedSectionVars false
namespace Swrs

/-! ## C110 — What is read does not depend on the order that the linked maps keep -/

/-- Two outcomes are the same but for the value, which is the same in the sense of `R`. -/
inductive c110_Outcome {ε α β : Type} (R : α → β → Prop) : Out ε α → Out ε β → Prop
  | ok {a : α} {b : β} (h : R a b) : c110_Outcome R (.ok a) (.ok b)
  | err (e : ε) : c110_Outcome R (.err e) (.err e)
  | panic : c110_Outcome R .panic .panic

/-- Two maps have the same keys, with values that are the same in the sense of `R`. -/
def c110_Maps {κ α : Type} [DecidableEq κ] (R : α → α → Prop) (m m' : LMap κ α) : Prop := ∀ k, Option.Rel R (m.get k) (m'.get k)

/-- The logic of two screens is the same but for the order in which variables, lists, moreblocks and containers are kept. -/
structure c110_Screens (s s' : ScreenLogic) : Prop where
  name : s.name = s'.name
  blockContainers : c110_Maps Eq s.blockContainers s'.blockContainers
  variables : Option.Rel (fun p p' : VariablePool => c110_Maps Eq p.map p'.map) s.variables s'.variables
  listVariables : Option.Rel (fun p p' : ListVariablePool => c110_Maps Eq p.map p'.map) s.listVariables s'.listVariables
  components : s.components = s'.components
  events : s.events = s'.events
  moreBlocks : Option.Rel (fun p p' : MoreBlockPool => c110_Maps Eq p.map p'.map) s.moreBlocks s'.moreBlocks

/-- Two logic files are the same but for the order in which maps keep their entries. -/
def c110_Logics (l l' : Logic) : Prop := c110_Maps c110_Screens l.screens l'.screens

/-- Two view files are the same but for the order in which maps keep their entries. -/
def c110_Views [Floats] (v v' : View) : Prop := c110_Maps Eq v.layouts v'.layouts ∧ c110_Maps Eq v.fabs v'.fabs

/-- Two projects are the same but for the order in which maps keep their entries. -/
structure c110_Projects [Floats] (p p' : SketchwareProject) : Prop where
  project : p.project = p'.project
  file : p.file = p'.file
  library : p.library = p'.library
  resource : p.resource = p'.resource
  view : c110_Views p.view p'.view
  logic : c110_Logics p.logic p'.logic
  resourceFiles : p.resourceFiles = p'.resourceFiles

section
variable {κ α : Type} [DecidableEq κ]

theorem c110_insert (A B : MapPol) {R : α → α → Prop} {m m' : LMap κ α} (h : c110_Maps R m m') (k : κ) {v v' : α} (hv : R v v') :
    c110_Maps R (@LMap.insert κ α _ A m k v) (@LMap.insert κ α _ B m' k v') := by
  intro k'
  rw [@LMap.get_insert κ α _ A, @LMap.get_insert κ α _ B]
  split
  · exact .some hv
  · exact h k'

theorem c110_upsert (A B : MapPol) {R : α → α → Prop} {m m' : LMap κ α} (h : c110_Maps R m m') (k : κ) {d : α} (hd : R d d) {f f' : α → α}
    (hf : ∀ a a', R a a' → R (f a) (f' a')) :
    c110_Maps R (@LMap.upsert κ α _ A m k d f) (@LMap.upsert κ α _ B m' k d f') := by
  intro k'
  rw [@LMap.get_upsert κ α _ A, @LMap.get_upsert κ α _ B]
  split
  · have hk := h k
    cases hm : m.get k with
    | none =>
      rw [hm] at hk
      cases hm' : m'.get k with
      | none => exact .some (hf _ _ hd)
      | some b => rw [hm'] at hk; cases hk
    | some a =>
      rw [hm] at hk
      cases hm' : m'.get k with
      | none => rw [hm'] at hk; cases hk
      | some b =>
        rw [hm'] at hk
        cases hk with
        | some hr => exact .some (hf _ _ hr)
  · exact h k'

theorem c110_collect (A B : MapPol) (es : LMap κ α) : c110_Maps Eq (@LMap.collect κ α _ A es) (@LMap.collect κ α _ B es) := by
  intro k
  rw [@LMap.get_collect κ α _ A, @LMap.get_collect κ α _ B]
  cases LMap.last es k with
  | none => exact .none
  | some v => exact .some rfl
end

theorem c110_outcome_refl {ε α : Type} {R : α → α → Prop} (hr : ∀ a, R a a) (x : Out ε α) : c110_Outcome R x x := by
  cases x with
  | ok a => exact .ok (hr a)
  | err e => exact .err e
  | panic => exact .panic

theorem c110_bind {ε α β γ δ : Type} {R : α → β → Prop} {S : γ → δ → Prop} {x : Out ε α} {y : Out ε β} {f : α → Out ε γ} {g : β → Out ε δ}
    (h : c110_Outcome R x y) (hf : ∀ a b, R a b → c110_Outcome S (f a) (g b)) : c110_Outcome S (x >>= f) (y >>= g) := by
  cases h with
  | ok h => exact hf _ _ h
  | err e => exact .err e
  | panic => exact .panic

theorem c110_mapErr {ε ε' α β : Type} {R : α → β → Prop} {x : Out ε α} {y : Out ε β} (h : c110_Outcome R x y) (f : ε → ε') :
    c110_Outcome R (x.mapErr f) (y.mapErr f) := by
  cases h with
  | ok h => exact .ok h
  | err e => exact .err _
  | panic => exact .panic

theorem c110_screens_refl (name : Str) : c110_Screens (ScreenLogic.newEmpty name) (ScreenLogic.newEmpty name) :=
  ⟨rfl, fun _ => .none, .none, .none, rfl, rfl, .none⟩

section
variable [Floats] (A B : MapPol)

theorem c110_variables (ls : List Str) :
    c110_Outcome (fun x y => c110_Maps Eq x.1.map y.1.map ∧ x.2 = y.2) (@VariablePool.parseIter A ls) (@VariablePool.parseIter B ls) :=
  c110_bind (c110_outcome_refl (R := Eq) (fun _ => rfl) _) fun a b h => by
    subst h
    exact .ok ⟨c110_collect A B _, rfl⟩

theorem c110_lists (ls : List Str) :
    c110_Outcome (fun x y => c110_Maps Eq x.1.map y.1.map ∧ x.2 = y.2) (@ListVariablePool.parseIter A ls) (@ListVariablePool.parseIter B ls) :=
  c110_bind (c110_outcome_refl (R := Eq) (fun _ => rfl) _) fun a b h => by
    subst h
    exact .ok ⟨c110_collect A B _, rfl⟩

theorem c110_moreblocks (ls : List Str) :
    c110_Outcome (fun x y => c110_Maps Eq x.1.map y.1.map ∧ x.2 = y.2) (@MoreBlockPool.parseIter A ls) (@MoreBlockPool.parseIter B ls) :=
  c110_bind (c110_outcome_refl (R := Eq) (fun _ => rfl) _) fun a b h => by
    subst h
    exact .ok ⟨c110_collect A B _, rfl⟩

theorem c110_step (line : Str) (rest : List Str) (n : Nat) {l l' : LMap Str ScreenLogic} (h : c110_Maps c110_Screens l l') :
    c110_Outcome (fun x y => c110_Maps c110_Screens x.1 y.1 ∧ x.2 = y.2) (@Logic.step _ A line rest n l) (@Logic.step _ B line rest n l') := by
  have up : ∀ name {f f' : ScreenLogic → ScreenLogic} (rest : List Str), (∀ a a', c110_Screens a a' → c110_Screens (f a) (f' a')) →
      c110_Outcome (ε := LogicParseError) (fun x y => c110_Maps c110_Screens x.1 y.1 ∧ x.2 = y.2)
        (.ok (@Logic.update A l name f, rest)) (.ok (@Logic.update B l' name f', rest)) := fun name f f' rest hf =>
    .ok ⟨c110_upsert A B h name (c110_screens_refl name) hf, rfl⟩
  unfold Logic.step
  split
  · refine c110_bind (c110_outcome_refl (R := Eq) (fun _ => rfl) _) fun a b hab => ?_
    subst hab
    refine c110_bind (c110_mapErr (c110_variables A B rest) _) fun x y hxy => ?_
    obtain ⟨x, r⟩ := x
    obtain ⟨y, r'⟩ := y
    obtain ⟨hxy, rfl⟩ := hxy
    exact up _ _ fun a a' ha => ⟨ha.name, ha.blockContainers, .some hxy, ha.listVariables, ha.components, ha.events, ha.moreBlocks⟩
  split
  · refine c110_bind (c110_outcome_refl (R := Eq) (fun _ => rfl) _) fun a b hab => ?_
    subst hab
    refine c110_bind (c110_mapErr (c110_lists A B rest) _) fun x y hxy => ?_
    obtain ⟨x, r⟩ := x
    obtain ⟨y, r'⟩ := y
    obtain ⟨hxy, rfl⟩ := hxy
    exact up _ _ fun a a' ha => ⟨ha.name, ha.blockContainers, ha.variables, .some hxy, ha.components, ha.events, ha.moreBlocks⟩
  split
  · refine c110_bind (c110_outcome_refl (R := Eq) (fun _ => rfl) _) fun a b hab => ?_
    subst hab
    refine c110_bind (c110_outcome_refl (R := Eq) (fun _ => rfl) _) fun x y hxy => ?_
    subst hxy
    exact up _ _ fun a a' ha => ⟨ha.name, ha.blockContainers, ha.variables, ha.listVariables, rfl, ha.events, ha.moreBlocks⟩
  split
  · refine c110_bind (c110_outcome_refl (R := Eq) (fun _ => rfl) _) fun a b hab => ?_
    subst hab
    refine c110_bind (c110_outcome_refl (R := Eq) (fun _ => rfl) _) fun x y hxy => ?_
    subst hxy
    exact up _ _ fun a a' ha => ⟨ha.name, ha.blockContainers, ha.variables, ha.listVariables, ha.components, rfl, ha.moreBlocks⟩
  split
  · refine c110_bind (c110_outcome_refl (R := Eq) (fun _ => rfl) _) fun a b hab => ?_
    subst hab
    refine c110_bind (c110_mapErr (c110_moreblocks A B rest) _) fun x y hxy => ?_
    obtain ⟨x, r⟩ := x
    obtain ⟨y, r'⟩ := y
    obtain ⟨hxy, rfl⟩ := hxy
    exact up _ _ fun a a' ha => ⟨ha.name, ha.blockContainers, ha.variables, ha.listVariables, ha.components, ha.events, .some hxy⟩
  · refine c110_bind (c110_outcome_refl (R := Eq) (fun _ => rfl) _) fun a b hab => ?_
    subst hab
    refine c110_bind (c110_outcome_refl (R := Eq) (fun _ => rfl) _) fun x y hxy => ?_
    subst hxy
    exact up _ _ fun a a' ha => ⟨ha.name, c110_insert A B ha.blockContainers _ rfl, ha.variables, ha.listVariables, ha.components,
      ha.events, ha.moreBlocks⟩

/-- C110: a logic file is read as the same logic, with the same error or with a panic, whatever order the linked maps keep when a key is
inserted again. -/
theorem c110_logic (s : Str) : c110_Outcome c110_Logics (@Logic.parse _ A s) (@Logic.parse _ B s) := by
  have loop : ∀ fuel ls n (l l' : LMap Str ScreenLogic), c110_Maps c110_Screens l l' →
      c110_Outcome c110_Logics (@Logic.loop _ A fuel ls n l) (@Logic.loop _ B fuel ls n l') := by
    intro fuel
    induction fuel with
    | zero => intro ls n l l' h; exact .ok h
    | succ fuel ih =>
      intro ls n l l' h
      cases ls with
      | nil => exact .ok h
      | cons line rest =>
        unfold Logic.loop
        split
        · refine c110_bind (c110_step A B line rest n h) fun x y hxy => ?_
          obtain ⟨x, r⟩ := x
          obtain ⟨y, r'⟩ := y
          obtain ⟨hxy, rfl⟩ := hxy
          exact ih _ _ _ _ hxy
        · exact .ok h
  exact loop _ _ _ _ _ fun _ => .none

/-- C110: a view file is read as the same views or with the same error, whatever order the linked maps keep. -/
theorem c110_view (s : Str) : c110_Outcome c110_Views (@View.parse _ A s) (@View.parse _ B s) := by
  have loop : ∀ total fuel ls n (l l' : LMap Str Layout) (f f' : LMap Str AndroidView), c110_Maps Eq l l' → c110_Maps Eq f f' →
      c110_Outcome c110_Views (@View.loop _ A total fuel ls n l f) (@View.loop _ B total fuel ls n l' f') := by
    intro total fuel
    induction fuel with
    | zero => intro ls n l l' f f' h k; exact .ok ⟨h, k⟩
    | succ fuel ih =>
      intro ls n l l' f f' h k
      cases ls with
      | nil => exact .ok ⟨h, k⟩
      | cons line rest =>
        unfold View.loop
        split
        · split
          · exact .err _
          · split
            · split
              · exact ih _ _ _ _ _ _ (c110_insert A B h _ rfl) k
              · exact .err _
              · exact .panic
            · split
              · split
                · exact .err _
                · split
                  · exact ih _ _ _ _ _ _ h (c110_insert A B k _ rfl)
                  · exact .err _
              · exact ih _ _ _ _ _ _ h k
        · exact .ok ⟨h, k⟩
  exact loop _ _ _ _ _ _ _ _ (fun _ => .none) fun _ => .none

/-- C110: a project is opened as the same project, with the same error or with a panic, whatever order the linked maps keep. -/
theorem c110_project (ex : PathBuf → Bool) (raw : RawSketchwareProject) :
    c110_Outcome c110_Projects (@SketchwareProject.parseFrom A _ ex raw) (@SketchwareProject.parseFrom B _ ex raw) := by
  have same : ∀ {ε α : Type} (x : Out ε α), c110_Outcome Eq x x := fun x => c110_outcome_refl (fun _ => rfl) x
  unfold SketchwareProject.parseFrom
  refine c110_bind (same _) fun p p' h1 => c110_bind (same _) fun f f' h2 => c110_bind (same _) fun l l' h3 =>
    c110_bind (same _) fun r r' h4 => c110_bind (c110_mapErr (c110_view A B _) _) fun v v' h5 =>
    c110_bind (c110_mapErr (c110_logic A B _) _) fun g g' h6 => c110_bind (same _) fun w w' h7 => .ok ⟨h1, h2, h3, h4, h5, h6, h7⟩

/-- The text of a logic file that comes back to the screen that it began with. -/
def c110_text : Str := s% "@A.java_var\n0:a\n\n@B.java_var\n1:b\n\n@A.java_list\n2:c\n"

/-- The maps keep the screens of the text in different orders. -/
example : ∃ l l', @Logic.parse _ ⟨false, false⟩ c110_text = .ok l ∧ @Logic.parse _ ⟨true, true⟩ c110_text = .ok l' ∧
    l.screens.keys = [s% "A", s% "B"] ∧ l'.screens.keys = [s% "B", s% "A"] ∧ c110_Logics l l' := by
  have h := c110_logic ⟨false, false⟩ ⟨true, true⟩ c110_text
  have h1 : ∃ l, @Logic.parse _ ⟨false, false⟩ c110_text = .ok l ∧ l.screens.keys = [s% "A", s% "B"] := ⟨_, rfl, rfl⟩
  have h2 : ∃ l, @Logic.parse _ ⟨true, true⟩ c110_text = .ok l ∧ l.screens.keys = [s% "B", s% "A"] := ⟨_, rfl, rfl⟩
  obtain ⟨l, h1, k1⟩ := h1
  obtain ⟨l', h2, k2⟩ := h2
  rw [h1, h2] at h
  cases h with
  | ok h => exact ⟨l, l', h1, h2, k1, k2, h⟩

/-- The maps keep the layouts of a view file in different orders. -/
example : ∃ v v', @View.parse _ ⟨false, false⟩ (s% "@a.xml\n\n@b.xml\n\n@a.xml\n") = .ok v ∧
    @View.parse _ ⟨true, true⟩ (s% "@a.xml\n\n@b.xml\n\n@a.xml\n") = .ok v' ∧
    v.layouts.keys = [s% "a", s% "b"] ∧ v'.layouts.keys = [s% "b", s% "a"] ∧ c110_Views v v' := by
  have h := c110_view ⟨false, false⟩ ⟨true, true⟩ (s% "@a.xml\n\n@b.xml\n\n@a.xml\n")
  have h1 : ∃ l, @View.parse _ ⟨false, false⟩ (s% "@a.xml\n\n@b.xml\n\n@a.xml\n") = .ok l ∧ l.layouts.keys = [s% "a", s% "b"] := ⟨_, rfl, rfl⟩
  have h2 : ∃ l, @View.parse _ ⟨true, true⟩ (s% "@a.xml\n\n@b.xml\n\n@a.xml\n") = .ok l ∧ l.layouts.keys = [s% "b", s% "a"] := ⟨_, rfl, rfl⟩
  obtain ⟨l, h1, k1⟩ := h1
  obtain ⟨l', h2, k2⟩ := h2
  rw [h1, h2] at h
  cases h with
  | ok h => exact ⟨l, l', h1, h2, k1, k2, h⟩
end
end Swrs
