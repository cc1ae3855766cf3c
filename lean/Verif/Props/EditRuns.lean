import Verif.Props.CodeAppend
/-!
# C146: variables and components that are added, removed or put in another order

The variables, list variables and components of a screen are written line by line, in their order, into a section of their own.
-/
set_option linter.unusedSectionVars false
namespace Swrs.Api
open Format

theorem c146_before {ts : List Str} (h : ts ≠ []) : ts.flatMap (fun t => '\n' :: t) = '\n' :: between "\n" ts := by
  induction ts with
  | nil => exact absurd rfl h
  | cons t ts ih =>
    cases ts with
    | nil => simp [between]
    | cons u ts => rw [List.flatMap_cons, ih (by simp)]; simp [between]

theorem c146_foldLines {o n : List Str} (ho : o ≠ []) (hn : n ≠ []) (to : ∀ t ∈ o, Tidy t) (tn : ∀ t ∈ n, Tidy t) {s s' : List Str} (h : c143_Differ o n s s') :
    c143_Differ (between "\n" o) (between "\n" n) (foldLines s) (foldLines s') := by
  obtain ⟨a, b, rfl, rfl⟩ := h
  unfold foldLines
  rw [c143_fold (fun i => '\n' :: i), c143_fold (fun i => '\n' :: i)]
  refine c143_trim (tidy_between ho to) (tidy_between hn tn) (.left _ ?_)
  rw [List.flatMap_append, List.flatMap_append, List.flatMap_append, List.flatMap_append, c146_before ho, c146_before hn]
  exact .left _ (.right _ (.left ['\n'] .here))

section
variable [MapPol] [Floats]
variable (p : SketchwareProject) (before after : List Screen) (s : Screen) (rs : Option (List ResourceFileWrapper)) (raw : RawSketchwareProject)

/-- C146: some of the variables of a screen, one after the other, are replaced by others: only their lines are replaced. -/
theorem c146_variables (u o n w : LMap Str Variable) (hp : p.screens = before ++ s :: after) (hj : (p.screens.map (·.javaName)).Nodup)
    (h : c143_Saved p rs raw) (hs : s.variables = u ++ (o ++ w)) (ho : o ≠ []) (hn : n ≠ []) (hv : ∀ v ∈ o, Tidy (c143_typed v.2.type v.2.name))
    (hv' : ∀ v ∈ n, Tidy (c143_typed v.2.type v.2.name)) :
    ∃ text, c143_Saved { p with screens := before ++ { s with «variables» := u ++ (n ++ w) } :: after } rs { raw with logic := text } ∧
      c143_Differ (between "\n" (o.map fun v => c143_typed v.2.type v.2.name)) (between "\n" (n.map fun v => c143_typed v.2.type v.2.name)) raw.logic text := by
  obtain ⟨l, lo, lo', L, L', h1, h2, h3, rfl, rfl⟩ := c143_parts p before after s rs raw (u ++ (n ++ w)) s.listVariables s.components hp hj h
  refine ⟨_, h1, ?_⟩
  rw [h2]
  rw [hs] at h3
  have t : ∀ z : LMap Str Variable, (∀ v ∈ z, Tidy (c143_typed v.2.type v.2.name)) → ∀ x ∈ z.map (fun v => c143_typed v.2.type v.2.name), Tidy x := by
    intro z hz x hx
    obtain ⟨v, hv, rfl⟩ := List.mem_map.mp hx
    exact hz v hv
  exact c143_variables (s := { l with listVariables := some ⟨s.listVariables⟩, components := some ⟨s.components.map fun e => e.2.intoParser e.1⟩ })
    (p := ⟨u ++ (o ++ w)⟩) (p' := ⟨u ++ (n ++ w)⟩) (tidy_between (by simpa using ho) (t o hv)) (tidy_between (by simpa using hn) (t n hv')) h3
    (c146_foldLines (by simpa using ho) (by simpa using hn) (t o hv) (t n hv') ⟨u.map (fun e => e.2.reconstruct), w.map (fun e => e.2.reconstruct),
      by simp [c63_variable, c143_typed], by simp [c63_variable, c143_typed]⟩)

/-- C146: some of the list variables of a screen are replaced by others. -/
theorem c146_list_variables (u o n w : LMap Str ListVariable) (hp : p.screens = before ++ s :: after) (hj : (p.screens.map (·.javaName)).Nodup)
    (h : c143_Saved p rs raw) (hs : s.listVariables = u ++ (o ++ w)) (ho : o ≠ []) (hn : n ≠ []) (hv : ∀ v ∈ o, Tidy (c143_typed v.2.type v.2.name))
    (hv' : ∀ v ∈ n, Tidy (c143_typed v.2.type v.2.name)) :
    ∃ text, c143_Saved { p with screens := before ++ { s with listVariables := u ++ (n ++ w) } :: after } rs { raw with logic := text } ∧
      c143_Differ (between "\n" (o.map fun v => c143_typed v.2.type v.2.name)) (between "\n" (n.map fun v => c143_typed v.2.type v.2.name)) raw.logic text := by
  obtain ⟨l, lo, lo', L, L', h1, h2, h3, rfl, rfl⟩ := c143_parts p before after s rs raw s.variables (u ++ (n ++ w)) s.components hp hj h
  refine ⟨_, h1, ?_⟩
  rw [h2]
  rw [hs] at h3
  have t : ∀ z : LMap Str ListVariable, (∀ v ∈ z, Tidy (c143_typed v.2.type v.2.name)) → ∀ x ∈ z.map (fun v => c143_typed v.2.type v.2.name), Tidy x := by
    intro z hz x hx
    obtain ⟨v, hv, rfl⟩ := List.mem_map.mp hx
    exact hz v hv
  exact c143_listVariables (s := { l with «variables» := some ⟨s.variables⟩, components := some ⟨s.components.map fun e => e.2.intoParser e.1⟩ })
    (p := ⟨u ++ (o ++ w)⟩) (p' := ⟨u ++ (n ++ w)⟩) (tidy_between (by simpa using ho) (t o hv)) (tidy_between (by simpa using hn) (t n hv')) h3
    (c146_foldLines (by simpa using ho) (by simpa using hn) (t o hv) (t n hv') ⟨u.map (fun e => e.2.reconstruct), w.map (fun e => e.2.reconstruct),
      by simp [c63_list_variable, c143_typed], by simp [c63_list_variable, c143_typed]⟩)

/-- C146: some of the components of a screen are replaced by others. -/
theorem c146_components (u o n w : LMap Str ComponentKind) (hp : p.screens = before ++ s :: after) (hj : (p.screens.map (·.javaName)).Nodup)
    (h : c143_Saved p rs raw) (hs : s.components = u ++ (o ++ w)) (ho : o ≠ []) (hn : n ≠ []) :
    ∃ text, c143_Saved { p with screens := before ++ { s with components := u ++ (n ++ w) } :: after } rs { raw with logic := text } ∧
      c143_Differ (between "\n" (o.map fun c => c143_componentLine c.1 c.2)) (between "\n" (n.map fun c => c143_componentLine c.1 c.2)) raw.logic text := by
  obtain ⟨l, lo, lo', L, L', h1, h2, h3, rfl, rfl⟩ := c143_parts p before after s rs raw s.variables s.listVariables (u ++ (n ++ w)) hp hj h
  refine ⟨_, h1, ?_⟩
  rw [h2]
  rw [hs] at h3
  have t : ∀ z : LMap Str ComponentKind, ∀ x ∈ z.map (fun c => c143_componentLine c.1 c.2), Tidy x := by
    intro z x hx
    obtain ⟨v, hv, rfl⟩ := List.mem_map.mp hx
    exact tidy_record _
  have ho' : o.map (fun c => c143_componentLine c.1 c.2) ≠ [] := by simpa using ho
  have hn' : n.map (fun c => c143_componentLine c.1 c.2) ≠ [] := by simpa using hn
  have e : ∀ z : LMap Str ComponentKind, (⟨z.map fun e => e.2.intoParser e.1⟩ : ComponentPool).reconstruct =
      trimEnd ((z.map fun c => c143_componentLine c.1 c.2).flatMap fun t => t ++ ['\n']) := by
    intro z
    unfold ComponentPool.reconstruct
    rw [c143_fold (fun c : Component => c.reconstruct ++ ['\n']), List.flatMap_map, List.flatMap_map]
    simp only [c143_kind_line, List.nil_append]
  refine c143_components (s := { l with «variables» := some ⟨s.variables⟩, listVariables := some ⟨s.listVariables⟩ })
    (p := ⟨(u ++ (o ++ w)).map fun e => e.2.intoParser e.1⟩) (p' := ⟨(u ++ (n ++ w)).map fun e => e.2.intoParser e.1⟩)
    (tidy_between ho' (t o)) (tidy_between hn' (t n)) h3 ?_
  rw [e, e]
  refine c143_trimEnd (tidy_between ho' (t o)) (tidy_between hn' (t n)) ?_
  rw [List.map_append, List.map_append, List.map_append, List.map_append, List.flatMap_append, List.flatMap_append, List.flatMap_append, List.flatMap_append,
    c145_joined ho', c145_joined hn']
  exact .left _ (.right _ (.right _ .here))

-- a variable is added, a list variable becomes two others, and a component is added
example : ∃ raw text text' text'', c143_Saved c143_demo none raw ∧
    c143_Differ (c143_typed .integer (s% "v")) (c143_typed .integer (s% "v") ++ ('\n' :: c143_typed .boolean (s% "flag"))) raw.logic text ∧
    c143_Differ (c143_typed .string (s% "l")) (c143_typed .integer (s% "l") ++ ('\n' :: c143_typed .string (s% "l"))) raw.logic text' ∧
    c143_Differ (c143_componentLine (s% "t") .timer) (c143_componentLine (s% "t") .timer ++ ('\n' :: c143_componentLine (s% "d") .dialog)) raw.logic text'' := by
  obtain ⟨raw, h⟩ := c143_demo_saved
  have hj : (c143_demo.screens.map (·.javaName)).Nodup := by show [s% "MainActivity", s% "SecondActivity"].Nodup; decide
  obtain ⟨t1, t2, t3, t4⟩ := c143_tidy_lines
  obtain ⟨a, -, ha⟩ := c146_variables c143_demo [] [_] c143_main none raw [] [(s% "v", ⟨s% "v", .integer⟩)]
    [(s% "v", ⟨s% "v", .integer⟩), (s% "flag", ⟨s% "flag", .boolean⟩)] [] rfl hj h rfl (by simp) (by simp) (by simpa using t1) (by simpa using ⟨t1, t2⟩)
  obtain ⟨b, -, hb⟩ := c146_list_variables c143_demo [] [_] c143_main none raw [] [(s% "l", ⟨s% "l", .string⟩)]
    [(s% "l", ⟨s% "l", .integer⟩), (s% "k", ⟨s% "l", .string⟩)] [] rfl hj h rfl (by simp) (by simp) (by simpa using t3) (by simpa using ⟨t4, t3⟩)
  obtain ⟨c, -, hc⟩ := c146_components c143_demo [] [_] c143_main none raw [] [(s% "t", .timer)] [(s% "t", .timer), (s% "d", .dialog)] [] rfl hj h rfl (by simp) (by simp)
  exact ⟨raw, a, b, c, h, by simpa [between] using ha, by simpa [between] using hb, by simpa [between] using hc⟩
end
end Swrs.Api
