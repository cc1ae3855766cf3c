import Verif.Model.ApiBuilder
import Verif.Props.ApiSpec
/-!
# C72: contents made by the builder, and the editing of arguments in place
-/
namespace Swrs.Api
variable [Floats] {B : Type}

omit [Floats] in
/-- C51: a list type is read exactly for the letter `l`; its elements, as a block type of their own, are texts (`s`) if the type name is
`List String` and numbers (`d`) if it is `List Number`. -/
theorem c51_list_elements (s n : Str) (i : ListItem) :
    BlockType.parse s n = .ok (.argument (.list i)) ↔ s = s% "l" ∧
      ((n = s% "List String" ∧ (BlockType.argument i.returnType).text = s% "s") ∨
       (n = s% "List Number" ∧ (BlockType.argument i.returnType).text = s% "d")) := by
  constructor
  · intro h
    have hs : (BlockType.argument (.list i)).text = s := (c51_text s n _ h).1
    have hs : s = s% "l" := hs.symm
    subst hs
    simp only [BlockType.parse, ListItem.parse] at h
    refine ⟨rfl, ?_⟩
    by_cases h1 : n = s% "List String"
    · subst h1
      simp at h
      subst h
      exact .inl ⟨rfl, rfl⟩
    · by_cases h2 : n = s% "List Number"
      · subst h2
        simp at h
        subst h
        exact .inr ⟨rfl, rfl⟩
      · simp [h1, h2] at h
  · rintro ⟨rfl, ⟨rfl, h⟩ | ⟨rfl, h⟩⟩ <;> cases i <;> simp [ListItem.returnType, BlockType.text] at h <;>
      simp [BlockType.parse, ListItem.parse]

example : BlockType.parse (s% "l") (s% "List Number") = .ok (.argument (.list .number)) ∧
    ListItem.number.returnType = .number := by decide

/-- One call on the builder: `Sum.inl s` is `text(s)`, `Sum.inr a` is `arg(a)`. -/
abbrev c72_Call [Floats] (B : Type) := Sum Str (Argument B)

/-- Make the calls one after the other. -/
def c72_run (b : BlockContentBuilder B) : List (c72_Call B) → BlockContentBuilder B
  | [] => b
  | .inl s :: cs => c72_run (b.text s) cs
  | .inr a :: cs => c72_run (b.arg a) cs

theorem c72_run_content (b : BlockContentBuilder B) (cs : List (c72_Call B)) :
    (c72_run b cs).content = b.content ++ cs.map (Sum.elim .text .param) := by
  induction cs generalizing b with
  | nil => simp [c72_run]
  | cons c cs ih => cases c <;> simp [c72_run, ih, BlockContentBuilder.text, BlockContentBuilder.arg]

/-- C72: whatever calls are made on a builder, the content built has one item per call, in the order of the calls; its
arguments are those given, in order; its text is the words given, in order, each parameter written as such. -/
theorem c72_builder (cs : List (c72_Call B)) :
    let c := (c72_run BlockContent.builder cs).build
    c.length = cs.length ∧
    (∀ (k : Nat) (s : Str), cs[k]? = some (.inl s) ↔ c[k]? = some (.text s)) ∧
    (∀ (k : Nat) (a : Argument B), cs[k]? = some (.inr a) ↔ c[k]? = some (.param a)) ∧
    BlockContent.getArgs c = cs.filterMap Sum.getRight? ∧
    BlockContent.text c = joinWith ' ' (cs.map (Sum.elim id (fun a => BlockContent.itemText (.param a)))) := by
  have h : (c72_run BlockContent.builder cs).build = cs.map (Sum.elim SpecItem.text SpecItem.param) := by
    simp [BlockContentBuilder.build, c72_run_content, BlockContent.builder]
  simp only [h]
  refine ⟨by simp, fun k s => ?_, fun k a => ?_, ?_, ?_⟩
  · rw [List.getElem?_map]
    rcases cs[k]? with _ | (t | a) <;> simp
  · rw [List.getElem?_map]
    rcases cs[k]? with _ | (t | a) <;> simp
  · clear h
    induction cs with
    | nil => rfl
    | cons c cs ih =>
      cases c <;> simp only [List.map_cons, Sum.elim_inl, Sum.elim_inr, BlockContent.getArgs, List.filterMap_cons,
        Sum.getRight?] at ih ⊢ <;> rw [ih]
  · rw [BlockContent.text_eq_joinWith, List.map_map]
    congr 1
    exact List.map_congr_left fun c _ => by cases c <;> rfl

/-- C72: writing through the references of `get_args_mut` changes the arguments at the places written to, and nothing else:
the `k`-th argument becomes what was written, and every item that is a text stays where it is. -/
theorem c72_edit (c : BlockContent B) (edit : Nat → Argument B → Argument B) :
    let d := BlockContent.editArgs edit 0 c
    d.length = c.length ∧
    (∀ (k : Nat) (s : Str), d[k]? = some (.text s) ↔ c[k]? = some (.text s)) ∧
    (∀ k : Nat, (BlockContent.getArgs d)[k]? = ((BlockContent.getArgs c)[k]?).map (edit k)) := by
  have key : ∀ (c : BlockContent B) (n : Nat),
      (BlockContent.editArgs edit n c).length = c.length ∧
      (∀ (k : Nat) (s : Str), (BlockContent.editArgs edit n c)[k]? = some (.text s) ↔ c[k]? = some (.text s)) ∧
      (∀ k : Nat, (BlockContent.getArgs (BlockContent.editArgs edit n c))[k]? =
        ((BlockContent.getArgs c)[k]?).map (edit (n + k))) := by
    intro c
    induction c with
    | nil => intro n; simp [BlockContent.editArgs, BlockContent.getArgs]
    | cons i c ih =>
      intro n
      cases i with
      | text s =>
        obtain ⟨h1, h2, h3⟩ := ih n
        refine ⟨by simp [BlockContent.editArgs, h1], fun k t => ?_, fun k => ?_⟩
        · cases k with
          | zero => simp [BlockContent.editArgs]
          | succ k => simpa [BlockContent.editArgs] using h2 k t
        · simpa [BlockContent.editArgs, BlockContent.getArgs] using h3 k
      | param p =>
        obtain ⟨h1, h2, h3⟩ := ih (n + 1)
        refine ⟨by simp [BlockContent.editArgs, h1], fun k t => ?_, fun k => ?_⟩
        · cases k with
          | zero => simp [BlockContent.editArgs]
          | succ k => simpa [BlockContent.editArgs] using h2 k t
        · cases k with
          | zero => simp [BlockContent.editArgs, BlockContent.getArgs]
          | succ k =>
            have := h3 k
            rw [show n + 1 + k = n + (k + 1) by omega] at this
            simpa [BlockContent.editArgs, BlockContent.getArgs] using this
  have := key c 0
  simpa using this

/-- C72: what `take_args` removes can be written back through `get_args_mut`, which gives the content it started from. -/
theorem c72_take_then_edit (c : BlockContent B) :
    BlockContent.editArgs (fun k old => ((BlockContent.takeArgs c).2[k]?).getD old) 0 (BlockContent.takeArgs c).1 = c := by
  have key : ∀ (c : BlockContent B) (n : Nat) (as : List (Argument B)), (∀ k : Nat, as[n + k]? = (BlockContent.getArgs c)[k]?) →
      BlockContent.editArgs (fun k old => (as[k]?).getD old) n (BlockContent.withoutArgs c) = c := by
    intro c
    induction c with
    | nil => intro n as _; rfl
    | cons i c ih =>
      intro n as h
      cases i with
      | text s =>
        have := ih n as (by simpa [BlockContent.getArgs] using h)
        simp only [BlockContent.withoutArgs, List.map_cons, BlockContent.editArgs] at this ⊢
        rw [this]
      | param p =>
        have h0 := h 0
        have := ih (n + 1) as (fun k => by
          rw [show n + 1 + k = n + (k + 1) by omega, h (k + 1)]; simp [BlockContent.getArgs])
        simp only [BlockContent.withoutArgs, List.map_cons, BlockContent.editArgs] at this ⊢
        rw [this]
        simp [BlockContent.getArgs] at h0
        simp [h0]
  exact key c 0 _ fun k => by simp [BlockContent.takeArgs]

example : (c72_run BlockContent.builder [.inl (s% "set"), .inr (.menu (s% "view") .empty), .inl (s% "to"),
    .inr (.string none (.value (s% "x")))]).build =
    ([.text (s% "set"), .param (.menu (s% "view") .empty), .text (s% "to"), .param (.string none (.value (s% "x")))] : BlockContent B) :=
  rfl
example : BlockContent.editArgs (fun k a => if k = 1 then .string none (.value (s% "new")) else a) 0
    ([.param (.string none .empty), .text (s% "t"), .param (.string none .empty)] : BlockContent B) =
    [.param (.string none .empty), .text (s% "t"), .param (.string none (.value (s% "new")))] := rfl

end Swrs.Api
