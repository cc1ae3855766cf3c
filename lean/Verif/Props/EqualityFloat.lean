import Verif.Props.Equality
import Verif.Props.ApiSave
import Verif.Proofs.EqualityIeee
/-!
# C98: comparing projects, with IEEE 754 numbers
-/
namespace Swrs.Api
open Ieee

theorem nan_not_decimal {r : Str} (h : lower r = s% "nan") : readDecimal r = none := by
  match r with
  | [] => cases h
  | c :: t =>
    have hc : (if 65 ≤ c.toNat ∧ c.toNat ≤ 90 then Char.ofNat (c.toNat + 32) else c) = 'n' := (List.cons.inj h).1
    have hd : isDigit c = false := by
      by_cases hd : isDigit c = true
      · have hd' : 48 ≤ c.toNat ∧ c.toNat ≤ 57 := by simpa [isDigit] using hd
        rw [if_neg (by omega)] at hc
        subst hc
        cases hd
      · simpa using hd
    have hp : c ≠ '.' := by rintro rfl; cases hc
    have hf : readFrac (c :: t) = ([], c :: t) := by
      unfold readFrac; split <;> simp_all
    unfold readDecimal
    simp [hd, hf]

/-- C98: a number argument is read as NaN exactly if it is `nan` in any letter case, perhaps after a sign. -/
theorem c98_nan_text (s : Str) : readF64 s = some .nan ↔
    ∃ r, (s = r ∨ s = '+' :: r ∨ s = '-' :: r) ∧ lower r = s% "nan" := by
  have key : ∀ (neg : Bool) (r : Str), signSplit s = (neg, r) → (readF64 s = some .nan ↔ lower r = s% "nan") := by
    intro neg r h
    unfold readF64
    rw [h]
    simp only
    split
    · rename_i d hd
      refine ⟨fun h => absurd (Option.some.inj h) (round_ne_nan _ _ _ _), fun h => ?_⟩
      have : readDecimal r = none := nan_not_decimal h
      rw [this] at hd
      cases hd
    · split
      · simp [*]
      · refine ⟨fun h => ?_, fun h => absurd h ‹_›⟩
        split at h <;> cases h
  have sign : ∀ c : Char, ¬ (c = '+' ∨ c = '-') ∨ ∀ r, lower (c :: r) ≠ s% "nan" := by
    intro c
    by_cases h : c = '+' ∨ c = '-'
    · right
      rintro r hr
      have := congrArg List.head? hr
      rcases h with rfl | rfl <;> simp [lower] at this
    · exact .inl h
  match s, key with
  | [], key =>
    rw [key false [] rfl]
    exact ⟨fun h => ⟨[], .inl rfl, h⟩, by rintro ⟨r', rfl | h | h, h'⟩ <;> first | exact h' | cases h⟩
  | c :: r, key =>
    by_cases h1 : c = '+'
    · subst h1
      rw [key false r rfl]
      refine ⟨fun h => ⟨r, .inr (.inl rfl), h⟩, ?_⟩
      rintro ⟨r', rfl | h | h, h'⟩
      · exact ((sign '+').resolve_left (by simp) r h').elim
      · cases h; exact h'
      · cases h
    · by_cases h2 : c = '-'
      · subst h2
        rw [key true r rfl]
        refine ⟨fun h => ⟨r, .inr (.inr rfl), h⟩, ?_⟩
        rintro ⟨r', rfl | h | h, h'⟩
        · exact ((sign '-').resolve_left (by simp) r h').elim
        · cases h
        · cases h; exact h'
      · have : signSplit (c :: r) = (false, c :: r) := by
          unfold signSplit; split <;> simp_all
        rw [key false _ this]
        refine ⟨fun h => ⟨_, .inl rfl, h⟩, ?_⟩
        rintro ⟨r', rfl | h | h, h'⟩
        · exact h'
        · cases h; exact absurd rfl h1
        · cases h; exact absurd rfl h2

/-- A block with a number. -/
def c98_block (number : Str) : ParserBlock :=
  ⟨⟨0⟩, s% "1", -1, s% "setVar", [number], s% "set %d", -1, -1, s% " ", []⟩

/-- A project with an image and one screen, which has one block. -/
def c98_project [Floats] (number : Str) : Swrs.SketchwareProject :=
  { bareProject (s% "N") [] [someImage] none with
    project := ⟨1, s% "app", s% "ws", s% "pkg", 1, s% "1.0", 1672531198, false, ProjectColorPalette.default, 150⟩
    file := ⟨[⟨s% "main", .activity, .unspecified, ⟨false, false, false, false⟩, .both, .none⟩], []⟩
    logic := ⟨[(s% "MainActivity", { ScreenLogic.newEmpty (s% "MainActivity") with
      blockContainers := [(s% "onCreate_initializeLogic", ⟨[c98_block number]⟩)] })]⟩ }

/-- The project is what is read from some texts. -/
theorem c98_project_same [FloatLaws] [MapPol] (ex : PathBuf → Bool) (number : Str) : ∃ raw val,
    Swrs.SketchwareProject.parseFrom ex raw = .ok val ∧ val.Same (c98_project number) := by
  obtain ⟨raw, -, h⟩ := c58_project_round_trip_partial ex (c98_project number) ⟨2022, 12, 31, 23, 59, 58⟩ (by decide +kernel)
    (by show _ = (1672531198 : UInt64).toInt64.toInt; decide +kernel) ⟨List.nodup_nil, List.nodup_nil⟩
    ⟨by show [s% "MainActivity"].Nodup; decide, by
      intro e he
      obtain rfl := List.mem_singleton.mp he
      exact ⟨nofun, nofun, nofun, by show [s% "onCreate_initializeLogic"].Nodup; decide⟩⟩ (by intro r hr; cases hr) none rfl
  obtain ⟨val, hv, hs⟩ := h.2 ⟨by unfold Date.FullWidth; simp, .inl (by simp [c98_project]), c58_witness_parts.2.1, by
    constructor
    · intro e he
      obtain rfl := List.mem_singleton.mp he
      refine ⟨rfl, ⟨by show '\n' ∉ s% "MainActivity"; decide, nofun, nofun, nofun, ?_, ?_⟩, ?_⟩
      · intro e he
        obtain rfl := List.mem_singleton.mp he
        show ¬ (s% ".java_") <:+: s% "MainActivity" ∧ ¬ (s% ".java_") <:+: s% "onCreate_initializeLogic" ∧ _ ∧ _
        rw [← splitAtPat_eq_none, ← splitAtPat_eq_none]
        dsimp only
        decide +kernel
      · intro e he h
        obtain rfl := Option.some.inj he
        cases h
      · simp [ScreenLogic.Empty]
    · intro pre s post h h' h''
      obtain ⟨t, ht, -⟩ := h''
      have := congrArg List.length h
      simp [c98_project] at this
      have : post = [] := List.eq_nil_of_length_eq_zero (by omega)
      rw [this] at ht
      cases ht⟩
  exact ⟨raw, val, hv, hs⟩

theorem c98_project_read [FloatLaws] [MapPol] (ex : PathBuf → Bool) (number : Str) : ∃ raw val,
    Swrs.SketchwareProject.parseFrom ex raw = .ok val ∧
    ∀ rnd, SketchwareProject.tryFrom rnd val = SketchwareProject.tryFrom rnd (c98_project number) := by
  obtain ⟨raw, val, hv, hs⟩ := c98_project_same ex number
  exact ⟨raw, val, hv, fun rnd => c92_same rnd hs⟩

/-- What the project is converted into. -/
def c98_api [Floats] (id : UInt32) (x : Floats.F64) : SketchwareProject :=
  { bareApi ⟨false, none, none, none⟩ [(s% "a", .u32Id id (s% "a.png") .image)] true with
    metadata := ⟨1, s% "app", s% "ws", s% "pkg", 1672531198, 150, s% "1.0", 1⟩
    screens := [⟨s% "main", s% "MainActivity", [], [], [], [], [],
      [⟨s% "onCreate", .activityEvent, [⟨none, none, ⟨0⟩, s% "setVar", [.text (s% "set"), .param (.number none (.value x))], .regular⟩]⟩], none, false, false,
      false, false, .both, .none, .unspecified⟩] }

/-- The floating point numbers, with another reading of `number`. -/
@[reducible] def readAs (F : Floats) (number : Str) (x : F.F64) : Floats :=
  { F with read64 := fun s => if s = number then some x else F.read64 s }

theorem readAs_eq (F : Floats) (number : Str) (x : F.F64) (h : F.read64 number = some x) : readAs F number x = F := by
  have : (fun s => if s = number then some x else F.read64 s) = F.read64 := by
    funext s
    split
    · subst s; exact h.symm
    · rfl
  unfold readAs
  rw [this]

theorem c98_converted [F : Floats] [MapPol] (rnd : ResourceType → Nat → UInt32) (number : Str)
    (hn : number ∈ [s% "NaN", s% "1", s% "0", s% "-0"]) {x : Floats.F64} (h : Floats.read64 number = some x) :
    SketchwareProject.tryFrom rnd (c98_project number) = .ok (c98_api (rnd .image 0) x) := by
  have key : ∃ y, (readAs F number x).read64 number = some y ∧
      @SketchwareProject.tryFrom _ (readAs F number x) rnd (@c98_project (readAs F number x) number) =
        .ok (@c98_api (readAs F number x) (rnd .image 0) y) := by
    simp only [List.mem_cons, List.not_mem_nil, or_false] at hn
    rcases hn with rfl | rfl | rfl | rfl <;> exact ⟨x, rfl, rfl⟩
  rw [readAs_eq F number x h] at key
  obtain ⟨y, hy, h'⟩ := key
  rw [h] at hy
  cases hy
  exact h'
/-- The numbers in the code of the project. -/
theorem c98_number [Floats] (id : UInt32) (x y : Floats.F64) : (c98_api id x).Number y ↔ y = x := by
  constructor
  · rintro ⟨s, hs, h⟩
    obtain rfl := List.mem_singleton.mp hs
    rcases h with ⟨e, he, b, hb, h⟩ | ⟨m, hm, -⟩
    · obtain rfl := List.mem_singleton.mp he
      obtain rfl := List.mem_singleton.mp hb
      cases h with
      | own h =>
        rcases List.mem_cons.mp h with h | h
        · cases h
        · have := List.mem_singleton.mp h
          cases this
          rfl
      | arg h h' h'' =>
        rcases List.mem_cons.mp h with h | h
        · cases h
        · have := List.mem_singleton.mp h
          cases this
          rcases h' with ⟨n, h⟩ | ⟨n, h⟩ | ⟨n, h⟩ | ⟨n, h⟩ <;> cases h
      | stack1 h => cases h
      | stack2 h => cases h
    · cases hm
  · rintro rfl
    exact ⟨_, List.mem_cons_self, .inl ⟨_, List.mem_cons_self, _, List.mem_cons_self, .own (n := none) (List.mem_cons_of_mem _ List.mem_cons_self)⟩⟩

theorem c98_float [Floats] (id : UInt32) (x : Floats.F64) (y : Floats.F32) : ¬ (c98_api id x).Float y := by
  rintro (⟨s, hs, h⟩ | ⟨c, hc, -⟩)
  · obtain rfl := List.mem_singleton.mp hs
    rcases h with ⟨v, hv, -⟩ | ⟨v, hv, -⟩ <;> cases hv
  · cases hc

theorem c98_equal [Floats] [FloatEq] (id : UInt32) (x y : Floats.F64) (h : FloatEq.eq64 x y = true) :
    (c98_api id x).RustEq (c98_api id y) := by
  simp [SketchwareProject.RustEq, c98_api, bareApi, ListEq, Screen.RustEq, Event.RustEq, OptEq, viewsEq, blocksEq, Block.RustEq,
    stackEq, contentEq, itemEq, argEq, numberEq, h]

/-- The arguments of the blocks of a logic file. -/
def c98_arguments (l : Logic) : List Str :=
  l.screens.flatMap fun e => e.2.blockContainers.flatMap fun c => c.2.blocks.flatMap (·.parameters)

theorem c98_saved [Floats] [MapPol] (id : UInt32) (x : Floats.F64) :
    ∃ q, (c98_api id x).toParsed = .ok q ∧ c98_arguments q.logic = [Floats.show64 x] := ⟨_, rfl, rfl⟩

section
attribute [local instance] ieeeFloats ieeeEq ieeeEqLaws

theorem c98_read_nan : readF64 (s% "NaN") = some .nan := (c98_nan_text _).2 ⟨_, .inl rfl, by decide⟩

theorem c98_read_zero : readF64 (s% "0") = some (.fin false ⟨0, by decide +kernel⟩) := by decide +kernel

theorem c98_read_negZero : readF64 (s% "-0") = some (.fin true ⟨0, by decide +kernel⟩) := by decide +kernel

/-- C98 is false: without the resource files every opening makes new file ids, so the two projects differ. -/
theorem c98_ids_false [MapPol] (ex : PathBuf → Bool) : ∃ raw val rnd rnd' p q, Swrs.SketchwareProject.parseFrom ex raw = .ok val ∧
    SketchwareProject.tryFrom rnd val = .ok p ∧ SketchwareProject.tryFrom rnd' val = .ok q ∧ p.RustEq p ∧ q.RustEq q ∧ ¬ p.RustEq q := by
  obtain ⟨raw, val, h1, h2⟩ := c98_project_read ex (s% "0")
  refine ⟨raw, val, fun _ _ => 3, fun _ _ => 4, _, _, h1, (h2 _).trans (c98_converted _ (s% "0") (by decide) c98_read_zero),
    (h2 _).trans (c98_converted _ (s% "0") (by decide) c98_read_zero), ?_, ?_, ?_⟩
  · exact (c98_self _).2 ⟨fun x hx => absurd hx (c98_float _ _ _), fun x hx => by rw [(c98_number _ _ _).1 hx]; rfl⟩
  · exact (c98_self _).2 ⟨fun x hx => absurd hx (c98_float _ _ _), fun x hx => by rw [(c98_number _ _ _).1 hx]; rfl⟩
  · rintro ⟨_, _, _, _, _, _, h, _⟩
    have h := congrArg Resources.images h
    simp [c98_api, bareApi] at h

/-- C98 is false: there are texts of a project with a block whose number argument is `NaN`. The project can be opened, and
it is not equal to itself. -/
theorem c98_nan_false [MapPol] (ex : PathBuf → Bool) (rnd : ResourceType → Nat → UInt32) :
    ∃ raw val p, Swrs.SketchwareProject.parseFrom ex raw = .ok val ∧ SketchwareProject.tryFrom rnd val = .ok p ∧ ¬ p.RustEq p := by
  obtain ⟨raw, val, h1, h2⟩ := c98_project_read ex (s% "NaN")
  refine ⟨raw, val, _, h1, (h2 rnd).trans (c98_converted rnd (s% "NaN") (by decide) c98_read_nan), fun h => ?_⟩
  exact absurd (((c98_self _).1 h).2 .nan ((c98_number _ _ _).2 rfl)) (by decide)

/-- C98: the condition of `c98_exact` is needed: two projects that are opened and are equal, and are not the same: one has the number
zero, the other the negative zero, and what is saved differs. -/
theorem c98_zero [MapPol] (ex : PathBuf → Bool) (rnd : ResourceType → Nat → UInt32) : ∃ raw raw' val val' p p' q q',
    Swrs.SketchwareProject.parseFrom ex raw = .ok val ∧ SketchwareProject.tryFrom rnd val = .ok p ∧
    Swrs.SketchwareProject.parseFrom ex raw' = .ok val' ∧ SketchwareProject.tryFrom rnd val' = .ok p' ∧
    p.RustEq p' ∧ p.toParsed = .ok q ∧ p'.toParsed = .ok q' ∧ q.logic ≠ q'.logic := by
  obtain ⟨raw, val, h1, h2⟩ := c98_project_read ex (s% "0")
  obtain ⟨raw', val', h1', h2'⟩ := c98_project_read ex (s% "-0")
  have e := c98_converted rnd (s% "0") (by decide) c98_read_zero
  have e' := c98_converted rnd (s% "-0") (by decide) c98_read_negZero
  obtain ⟨q, h3, h4⟩ := c98_saved (rnd .image 0) (.fin false ⟨0, by decide +kernel⟩ : Value f64)
  obtain ⟨q', h3', h4'⟩ := c98_saved (rnd .image 0) (.fin true ⟨0, by decide +kernel⟩ : Value f64)
  refine ⟨raw, raw', val, val', _, _, q, q', h1, (h2 rnd).trans e, h1', (h2' rnd).trans e', ?_, h3, h3', ?_⟩
  · exact c98_equal _ _ _ rfl
  · intro h
    rw [h, h4'] at h4
    exact absurd (List.cons.inj h4).1 (by decide +kernel)

-- a project is opened twice with the same file ids: the projects are equal
example [MapPol] (ex : PathBuf → Bool) (rnd : ResourceType → Nat → UInt32) : ∃ raw val p, Swrs.SketchwareProject.parseFrom ex raw = .ok val ∧
    SketchwareProject.tryFrom rnd val = .ok p ∧ p.RustEq p ∧ (∃ x, p.Number x) ∧ p.resources.images ≠ [] := by
  obtain ⟨raw, val, h1, h2⟩ := c98_project_read ex (s% "0")
  have e := (h2 rnd).trans (c98_converted rnd (s% "0") (by decide) c98_read_zero)
  refine ⟨raw, val, _, h1, e, (c98_twice_partial h1 e e).2 ⟨rfl, fun x hx => ?_⟩, ⟨_, (c98_number _ _ _).2 rfl⟩, by simp [c98_api, bareApi]⟩
  rw [(c98_number _ _ _).1 hx]; rfl

-- a project without negative zeros
example (id : UInt32) : ∀ x, (c98_api id (.fin false ⟨0, by decide +kernel⟩ : Value f64)).Number x → FloatEqLaws.negZero64 x = false := by
  intro x hx
  rw [(c98_number _ _ _).1 hx]; rfl
end
end Swrs.Api
