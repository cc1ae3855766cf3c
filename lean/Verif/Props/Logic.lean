import Verif.Proofs.PoolSpec
import Verif.Proofs.LogicCases
import Verif.Proofs.LogicExact
import Verif.Base.NumSpec
import Verif.Base.FloatInst
/-!
# C23 – C31: the logic file
-/
set_option linter.unusedSectionVars false
namespace Swrs

/-! ## C23 — Variable record round trip -/

/-- C23: a variable or list variable is read back from its text, whatever its name is. -/
theorem c23_variable_round_trip :
    (∀ v : Variable, Variable.parse v.reconstruct = .ok v) ∧
    (∀ v : ListVariable, ListVariable.parse v.reconstruct = .ok v) :=
  ⟨Variable.parse_reconstruct, ListVariable.parse_reconstruct⟩

theorem Digits.no_colon {d : Str} (h : Digits d) : ':' ∉ d := fun hc => absurd (h.2 ':' hc) (by decide)

theorem parseU8_iff {t : Str} {n : UInt8} : parseU8 t = some n ↔
    ∃ d, Digits d ∧ decimal d = n.toNat ∧ (t = d ∨ t = '+' :: d) := by
  unfold parseU8
  rw [Option.map_eq_some_iff]
  constructor
  · rintro ⟨k, h, rfl⟩
    obtain ⟨h1, d, h2, h3, h4⟩ := parseUnsigned_iff.mp h
    refine ⟨d, h2, ?_, h4⟩
    rw [h3, UInt8.toNat_ofNat_of_lt' (by simp [UInt8.size]; omega)]
  · rintro ⟨d, h1, h2, h3⟩
    refine ⟨n.toNat, parseUnsigned_iff.mpr ⟨by have := n.toNat_lt; omega, d, h1, h2, h3⟩, UInt8.ofNat_toNat⟩

/-- The number of each type of variable. -/
def c23_typeNumber : VariableType → Nat
  | .boolean => 0
  | .integer => 1
  | .string => 2
  | .hashMap => 3

theorem typeNumber_eq (t : VariableType) : t.num.toNat = c23_typeNumber t := by cases t <;> rfl

/-- `s` is a decimal number (a sign `+` is allowed), a colon and a name; the number is the one of the type. -/
def c23_IsDeclaration (s : Str) (type : VariableType) (name : Str) : Prop :=
  ∃ d, Digits d ∧ decimal d = c23_typeNumber type ∧ (s = d ++ ':' :: name ∨ s = '+' :: (d ++ ':' :: name))

theorem declaration_iff {s name : Str} {type : VariableType} :
    (∃ t, s = t ++ ':' :: name ∧ ':' ∉ t ∧ parseU8 t = some type.num) ↔ c23_IsDeclaration s type name := by
  unfold c23_IsDeclaration
  simp only [parseU8_iff, typeNumber_eq]
  constructor
  · rintro ⟨t, rfl, _, d, h1, h2, rfl | rfl⟩
    · exact ⟨t, h1, h2, .inl rfl⟩
    · exact ⟨d, h1, h2, .inr rfl⟩
  · rintro ⟨d, h1, h2, rfl | rfl⟩
    · exact ⟨d, rfl, h1.no_colon, d, h1, h2, .inl rfl⟩
    · refine ⟨'+' :: d, rfl, ?_, d, h1, h2, .inr rfl⟩
      simp [h1.no_colon]

/-- C23: the texts that parse are exactly `<number 0..3>:<name>`; every other text is an error, never a panic. -/
theorem c23_variable_accepts (s : Str) :
    (∀ v : Variable, Variable.parse s = .ok v ↔ c23_IsDeclaration s v.type v.name) ∧
    (∀ v : ListVariable, ListVariable.parse s = .ok v ↔ c23_IsDeclaration s v.type v.name) ∧
    Variable.parse s ≠ .panic ∧ ListVariable.parse s ≠ .panic :=
  ⟨fun _ => Variable.parse_eq_ok.trans declaration_iff, fun _ => ListVariable.parse_eq_ok.trans declaration_iff,
    Variable.parse_ne_panic s, ListVariable.parse_ne_panic s⟩

-- `2:a:b` declares a string named `a:b`; `4:x` declares nothing
example : c23_IsDeclaration (s% "2:a:b") .string (s% "a:b") := ⟨s% "2", ⟨by simp, by decide⟩, rfl, .inl rfl⟩
example : Variable.parse (s% "4:x") = .err (.invalidVariableType 4) := by decide

/-! ## C24 — Variable pools round trip -/

/-- C24, proved part: a variable pool (and a list variable pool) is read back with the same variables in the same
order exactly when every key is the name of its variable, no name has a line break, and the last name does not
end in white space. Missing: the other pools, for which the property is false (see `c24_variable_pool_false`). -/
theorem c24_variable_pool_partial [MapPol] :
    (∀ q : VariablePool, q.map.keys.Nodup → (VariablePool.parse q.reconstruct = .ok q ↔
      (∀ e ∈ q.map, e.1 = e.2.name) ∧ (∀ e ∈ q.map, '\n' ∉ e.2.name) ∧
        ∀ e, q.map.getLast? = some e → ∀ c, e.2.name.getLast? = some c → isWs c = false)) ∧
    (∀ q : ListVariablePool, q.map.keys.Nodup → (ListVariablePool.parse q.reconstruct = .ok q ↔
      (∀ e ∈ q.map, e.1 = e.2.name) ∧ (∀ e ∈ q.map, '\n' ∉ e.2.name) ∧
        ∀ e, q.map.getLast? = some e → ∀ c, e.2.name.getLast? = some c → isWs c = false)) :=
  ⟨VariablePool.round_trip, ListVariablePool.round_trip⟩

/-- The full property C24 is false of the code: a last name that ends in a blank loses it. -/
theorem c24_variable_pool_false [MapPol] :
    (¬ ∀ q : VariablePool, q.map.keys.Nodup → (∀ e ∈ q.map, e.1 = e.2.name) →
      VariablePool.parse q.reconstruct = .ok q) ∧
    (¬ ∀ q : ListVariablePool, q.map.keys.Nodup → (∀ e ∈ q.map, e.1 = e.2.name) →
      ListVariablePool.parse q.reconstruct = .ok q) := by
  constructor
  · intro h
    have h1 := h ⟨[(s% "a ", ⟨s% "a ", .integer⟩)]⟩ (by simp) (by simp)
    have := ((VariablePool.round_trip _ (by simp)).mp h1).2.2 _ rfl ' ' rfl
    simp [isWs] at this
  · intro h
    have h1 := h ⟨[(s% "a ", ⟨s% "a ", .integer⟩)]⟩ (by simp) (by simp)
    have := ((ListVariablePool.round_trip _ (by simp)).mp h1).2.2 _ rfl ' ' rfl
    simp [isWs] at this

-- a pool with two variables, one with a colon and inner blanks in its name, is read back
example [MapPol] : let q : VariablePool := ⟨[(s% " a : b ", ⟨s% " a : b ", .integer⟩), (s% "c", ⟨s% "c", .hashMap⟩)]⟩
    VariablePool.parse q.reconstruct = .ok q := by
  intro q
  refine (c24_variable_pool_partial.1 q (by decide)).mpr ⟨by simp [q], by simp [q], ?_⟩
  intro e he c hc
  simp [q] at he; subst he; simp at hc; subst hc; decide

/-! ## C25 — Moreblock declarations round trip -/

/-- C25, proved part: a moreblock pool is read back exactly when every key is the id of its moreblock, no id or spec
has a line break, no id has a colon, the first id does not begin and the last spec does not end with white space.
Missing: the other pools, for which the property is false (see `c25_moreblock_pool_false`). -/
theorem c25_moreblock_pool_partial [MapPol] (q : MoreBlockPool) (hk : q.map.keys.Nodup) :
    MoreBlockPool.parse q.reconstruct = .ok q ↔
      (∀ e ∈ q.map, e.1 = e.2.id) ∧
      (∀ e ∈ q.map, '\n' ∉ e.2.id ∧ '\n' ∉ e.2.spec ∧ ':' ∉ e.2.id) ∧
      (∀ e, q.map.head? = some e → ∀ c, e.2.id.head? = some c → isWs c = false) ∧
      (∀ e, q.map.getLast? = some e → ∀ c, e.2.spec.getLast? = some c → isWs c = false) :=
  MoreBlockPool.round_trip q hk

/-- The full property C25 is false of the code: an id with a colon is cut. -/
theorem c25_moreblock_pool_false [MapPol] : ¬ ∀ q : MoreBlockPool, q.map.keys.Nodup →
    (∀ e ∈ q.map, e.1 = e.2.id) → MoreBlockPool.parse q.reconstruct = .ok q := by
  intro h
  have h1 := h ⟨[(s% "a:b", ⟨s% "a:b", s% "go"⟩)]⟩ (by simp) (by simp)
  have := ((MoreBlockPool.round_trip _ (by simp)).mp h1).2.1 (s% "a:b", ⟨s% "a:b", s% "go"⟩) (by simp)
  simp at this

example [MapPol] : let q : MoreBlockPool := ⟨[(s% "go", ⟨s% "go", s% "go %s.name: here"⟩)]⟩
    MoreBlockPool.parse q.reconstruct = .ok q := by
  intro q
  refine (c25_moreblock_pool_partial q (by decide)).mpr ⟨by simp [q], by simp [q], ?_, ?_⟩
  · intro e he c hc; simp [q] at he; subst he; simp at hc; subst hc; decide
  · intro e he c hc; simp [q] at he; subst he; simp at hc; subst hc; decide

/-! ## C26 — Component, event and block pools round trip -/

/-- C26: these pools are always read back, in order. -/
theorem c26_pools_round_trip [Floats] :
    (∀ q : ComponentPool, ComponentPool.parse q.reconstruct = .ok q) ∧
    (∀ q : EventPool, EventPool.parse q.reconstruct = .ok q) ∧
    (∀ q : BlockContainer, BlockContainer.parse q.reconstruct = .ok q) :=
  ⟨ComponentPool.round_trip, EventPool.round_trip, BlockContainer.round_trip⟩

/-! ## C27 — Block container header round trip -/

/-- C27, proved part: a header is read back exactly when neither name contains `.java_`. Missing: the other names,
for which the property is false. -/
theorem c27_header_round_trip_partial (h : BlockContainerHeader) :
    BlockContainerHeader.parse h.reconstruct = .ok h ↔
      ¬ (s% ".java_") <:+: h.screenName ∧ ¬ (s% ".java_") <:+: h.containerName := by
  obtain ⟨n, c⟩ := h
  rw [BlockContainerHeader.parse_ok_iff]
  constructor
  · rintro ⟨h1, h2, _⟩; exact ⟨h1, h2⟩
  · rintro ⟨h1, h2⟩; exact ⟨h1, h2, .inl rfl⟩

/-- The full property C27 is false of the code. -/
theorem c27_header_round_trip_false :
    ¬ ∀ h : BlockContainerHeader, BlockContainerHeader.parse h.reconstruct = .ok h := by
  intro h
  have := ((c27_header_round_trip_partial ⟨s% "a", s% "b.java_c"⟩).mp (h _)).2
  exact this ⟨s% "b", s% "c", rfl⟩

example : BlockContainerHeader.parse (s% "@main.java_onCreate_initializeLogic") =
    .ok ⟨s% "main", s% "onCreate_initializeLogic"⟩ := by decide

/-! ## C28 — Logic file round trip -/
section C28
variable [Floats] [MapPol]

/-- In the code the screens, the variables, the list variables, the moreblocks and the block containers are in maps: each key
occurs once. -/
def c28_Maps (l : Logic) : Prop :=
  l.screens.keys.Nodup ∧ ∀ e ∈ l.screens,
    (∀ p, e.2.variables = some p → p.map.keys.Nodup) ∧ (∀ p, e.2.listVariables = some p → p.map.keys.Nodup) ∧
    (∀ p, e.2.moreBlocks = some p → p.map.keys.Nodup) ∧ e.2.blockContainers.keys.Nodup

/-- The words after `java_` in the headers of the pools. -/
def c28_poolWords : List Str := [s% "var", s% "list", s% "components", s% "events", s% "func"]

/-- The parts of a screen that can be told apart in the text. -/
structure c28_ScreenOk (s : ScreenLogic) : Prop where
  /-- The name of the screen is one line. -/
  name : '\n' ∉ s.name
  /-- The variables are filed under their names, a name is one line, the last one does not end with white space. -/
  variables : ∀ p, s.variables = some p → (∀ e ∈ p.map, e.1 = e.2.name ∧ '\n' ∉ e.2.name) ∧
    ∀ e, p.map.getLast? = some e → ∀ c, e.2.name.getLast? = some c → isWs c = false
  /-- The list variables likewise. -/
  listVariables : ∀ p, s.listVariables = some p → (∀ e ∈ p.map, e.1 = e.2.name ∧ '\n' ∉ e.2.name) ∧
    ∀ e, p.map.getLast? = some e → ∀ c, e.2.name.getLast? = some c → isWs c = false
  /-- The moreblocks are filed under their ids, ids and specs are one line each, no id has a colon; the first id does not begin
  and the last spec does not end with white space. -/
  moreBlocks : ∀ p, s.moreBlocks = some p →
    (∀ e ∈ p.map, e.1 = e.2.id ∧ '\n' ∉ e.2.id ∧ '\n' ∉ e.2.spec ∧ ':' ∉ e.2.id) ∧
    (∀ e, p.map.head? = some e → ∀ c, e.2.id.head? = some c → isWs c = false) ∧
    ∀ e, p.map.getLast? = some e → ∀ c, e.2.spec.getLast? = some c → isWs c = false
  /-- If there is a block container then `.java_` is not in the name of the screen nor in the id of the container; the id is one
  line; it is not the word of a pool and does not end with `java_` and the word of a pool. -/
  containers : ∀ e ∈ s.blockContainers, ¬ (s% ".java_") <:+: s.name ∧ ¬ (s% ".java_") <:+: e.1 ∧ '\n' ∉ e.1 ∧
    ∀ w ∈ c28_poolWords, e.1 ≠ w ∧ ¬ (s% "java_" ++ w) <:+ e.1
  /-- If the last container has no block then its id does not end with white space. -/
  lastContainer : ∀ e, s.blockContainers.getLast? = some e → e.2.blocks = [] →
    ∀ c, e.1.getLast? = some c → isWs c = false

omit [Floats] [MapPol] in
theorem poolWord_header (n id : Str) {w : Str} (hw : w ∈ c28_poolWords) :
    endsWith (s% "java_" ++ w) (BlockContainerHeader.reconstruct ⟨n, id⟩) = false ↔
      id ≠ w ∧ ¬ (s% "java_" ++ w) <:+ id := by
  have hh : BlockContainerHeader.reconstruct ⟨n, id⟩ = ('@' :: (n ++ ['.']) ++ s% "java_") ++ id := by
    simp [BlockContainerHeader.reconstruct]
  have hu : '_' ∉ w := by
    simp only [c28_poolWords, List.mem_cons, List.not_mem_nil, or_false] at hw
    rcases hw with rfl | rfl | rfl | rfl | rfl <;> decide
  rw [Bool.eq_false_iff, Ne, endsWith_iff, hh, ← not_or]
  refine not_congr ?_
  constructor
  · rintro ⟨r, hr⟩
    rw [List.append_eq_append_iff] at hr
    rcases hr with ⟨e, h1, h2⟩ | ⟨e, h1, h2⟩
    · exact .inr ⟨e, h2.symm⟩
    · rcases List.eq_nil_or_concat e with rfl | ⟨e', c, rfl⟩
      · right; rw [List.nil_append] at h2; rw [h2]; exact List.suffix_refl _
      · left
        rw [List.concat_eq_append] at h1 h2
        have hc : c = '_' := by
          have := congrArg List.getLast? h1
          rw [← List.append_assoc, List.getLast?_append, List.getLast?_append] at this
          simp at this; exact this.symm
        subst hc
        have h3 : s% "java" ++ '_' :: w = e' ++ '_' :: id := by
          have : s% "java" ++ '_' :: w = s% "java_" ++ w := rfl
          rw [this, h2]; simp
        rw [List.append_eq_append_iff] at h3
        rcases h3 with ⟨x, h4, h5⟩ | ⟨x, h4, h5⟩
        · cases x with
          | nil => simp at h5; exact h5.symm
          | cons d x =>
            simp at h5
            exact absurd (by rw [h5.2]; simp) hu
        · cases x with
          | nil => simp at h5; exact h5
          | cons d x =>
            simp at h5
            have : '_' ∈ s% "java" := by rw [h4, ← h5.1]; simp
            exact absurd this (by decide)
  · rintro (rfl | h)
    · exact ⟨'@' :: (n ++ ['.']), by simp⟩
    · obtain ⟨r, hr⟩ := h
      exact ⟨('@' :: (n ++ ['.']) ++ s% "java_") ++ r, by rw [← hr]; simp⟩

omit [Floats] [MapPol] in
theorem notPool_words (n id : Str) : NotPool (BlockContainerHeader.reconstruct ⟨n, id⟩) ↔
    ∀ w ∈ c28_poolWords, id ≠ w ∧ ¬ (s% "java_" ++ w) <:+ id := by
  have h := fun w hw => poolWord_header n id (w := w) hw
  constructor
  · rintro ⟨h1, h2, h3, h4, h5⟩ w hw
    rw [← h w hw]
    simp only [c28_poolWords, List.mem_cons, List.not_mem_nil, or_false] at hw
    rcases hw with rfl | rfl | rfl | rfl | rfl
    · exact h1
    · exact h2
    · exact h3
    · exact h4
    · exact h5
  · intro hw
    exact ⟨(h (s% "var") (by simp [c28_poolWords])).mpr (hw _ (by simp [c28_poolWords])),
      (h (s% "list") (by simp [c28_poolWords])).mpr (hw _ (by simp [c28_poolWords])),
      (h (s% "components") (by simp [c28_poolWords])).mpr (hw _ (by simp [c28_poolWords])),
      (h (s% "events") (by simp [c28_poolWords])).mpr (hw _ (by simp [c28_poolWords])),
      (h (s% "func") (by simp [c28_poolWords])).mpr (hw _ (by simp [c28_poolWords]))⟩

theorem c28_screenOk_iff {s : ScreenLogic} (hv : ∀ p, s.variables = some p → p.map.keys.Nodup)
    (hl : ∀ p, s.listVariables = some p → p.map.keys.Nodup) (hm : ∀ p, s.moreBlocks = some p → p.map.keys.Nodup)
    (hb : s.blockContainers.keys.Nodup) : s.PartsOk ↔ c28_ScreenOk s := by
  constructor
  · intro h
    refine ⟨h.name, ?_, ?_, ?_, ?_, h.tail⟩
    · intro p hp
      obtain ⟨h1, h2, h3⟩ := (VariablePool.round_trip p (hv p hp)).mp (h.var p hp)
      exact ⟨fun e he => ⟨h1 e he, h2 e he⟩, h3⟩
    · intro p hp
      obtain ⟨h1, h2, h3⟩ := (ListVariablePool.round_trip p (hl p hp)).mp (h.list p hp)
      exact ⟨fun e he => ⟨h1 e he, h2 e he⟩, h3⟩
    · intro p hp
      obtain ⟨h1, h2, h3, h4⟩ := (MoreBlockPool.round_trip p (hm p hp)).mp (h.func p hp)
      exact ⟨fun e he => ⟨h1 e he, h2 e he⟩, h3, h4⟩
    · intro e he
      obtain ⟨h1, h2, h3⟩ := h.header e.1 (List.mem_map_of_mem (f := (·.1)) he)
      have := (c27_header_round_trip_partial _).mp h1
      exact ⟨this.1, this.2, h3, (notPool_words _ _).mp h2⟩
  · intro h
    refine ⟨h.name, hv, ?_, hl, ?_, hm, ?_, hb, ?_, h.lastContainer⟩
    · intro p hp
      obtain ⟨h1, h2⟩ := h.variables p hp
      exact (VariablePool.round_trip p (hv p hp)).mpr ⟨fun e he => (h1 e he).1, fun e he => (h1 e he).2, h2⟩
    · intro p hp
      obtain ⟨h1, h2⟩ := h.listVariables p hp
      exact (ListVariablePool.round_trip p (hl p hp)).mpr ⟨fun e he => (h1 e he).1, fun e he => (h1 e he).2, h2⟩
    · intro p hp
      obtain ⟨h1, h2, h3⟩ := h.moreBlocks p hp
      exact (MoreBlockPool.round_trip p (hm p hp)).mpr ⟨fun e he => (h1 e he).1, fun e he => (h1 e he).2, h2, h3⟩
    · intro id hid
      simp only [LMap.keys, List.mem_map] at hid
      obtain ⟨e, he, rfl⟩ := hid
      obtain ⟨h1, h2, h3, h4⟩ := h.containers e he
      exact ⟨(c27_header_round_trip_partial _).mpr ⟨h1, h2⟩, (notPool_words _ _).mpr h4, h3⟩

/-- The logic is filed under the names of its screens, its screens can be told apart in the text and none is empty, and no screen
without block containers stands between something written and a later block container (`Logic.Tight`). -/
def c28_LogicOk (l : Logic) : Prop :=
  (∀ e ∈ l.screens, e.1 = e.2.name ∧ c28_ScreenOk e.2 ∧ ¬ e.2.Empty) ∧ Logic.Tight (l.screens.map (·.2))

/-- C28, proved part: a logic is read back with every screen the same exactly when it meets `c28_LogicOk`. The order of the
screens may change: screens are compared by name. Missing: the other logics, for which the property is false (see the two
`_false` theorems). -/
theorem c28_logic_round_trip_partial (l : Logic) (h : c28_Maps l) :
    (∃ l', Logic.parse l.reconstruct = .ok l' ∧ ∀ k, l'.screens.get k = l.screens.get k) ↔ c28_LogicOk l := by
  obtain ⟨hn, hm⟩ := h
  have hm' : ∀ s ∈ l.screens.map (·.2), (∀ p, s.variables = some p → p.map.keys.Nodup) ∧
      (∀ p, s.listVariables = some p → p.map.keys.Nodup) ∧ (∀ p, s.moreBlocks = some p → p.map.keys.Nodup) ∧
      s.blockContainers.keys.Nodup := by
    simp only [List.mem_map]; rintro s ⟨e, he, rfl⟩; exact hm e he
  have hinv : (∀ e ∈ l.screens, e.1 = e.2.name) → l.Inv := fun hk =>
    ⟨hk, hn, fun s hs => (hm' s hs).1, fun s hs => (hm' s hs).2.1, fun s hs => (hm' s hs).2.2.1, fun s hs => (hm' s hs).2.2.2⟩
  have hso : ∀ s ∈ l.screens.map (·.2), s.PartsOk ↔ c28_ScreenOk s := fun s hs =>
    c28_screenOk_iff (hm' s hs).1 (hm' s hs).2.1 (hm' s hs).2.2.1 (hm' s hs).2.2.2
  constructor
  · rintro ⟨l', h1, h2⟩
    have hk := Logic.keys_of_round_trip hn h1 h2
    obtain ⟨h3, h4, h5⟩ := (Logic.round_trip_iff (hinv hk)).mp ⟨l', h1, h2⟩
    refine ⟨fun e he => ⟨hk e he, ?_, h4 e.2 (List.mem_map_of_mem he)⟩, h5⟩
    exact (hso e.2 (List.mem_map_of_mem he)).mp (h3 e.2 (List.mem_map_of_mem he))
  · rintro ⟨h1, h2⟩
    refine (Logic.round_trip_iff (hinv fun e he => (h1 e he).1)).mpr ⟨?_, ?_, h2⟩
    · intro s hs
      refine (hso s hs).mpr ?_
      simp only [List.mem_map] at hs
      obtain ⟨e, he, rfl⟩ := hs
      exact (h1 e he).2.1
    · simp only [List.mem_map]; rintro s ⟨e, he, rfl⟩; exact (h1 e he).2.2

/-- A screen with one variable and no block container. -/
def c28_pool (name : Str) : ScreenLogic :=
  { ScreenLogic.newEmpty name with variables := some ⟨[(s% "x", ⟨s% "x", .integer⟩)]⟩ }
/-- A screen with one empty block container. -/
def c28_blocks (name : Str) : ScreenLogic :=
  { ScreenLogic.newEmpty name with blockContainers := [(s% "onCreate_initializeLogic", ⟨[]⟩)] }

theorem newEmpty_ok {n : Str} (h : '\n' ∉ n) : c28_ScreenOk (ScreenLogic.newEmpty n) :=
  ⟨h, nofun, nofun, nofun, nofun, nofun⟩

theorem c28_pool_ok {n : Str} (h : '\n' ∉ n) : c28_ScreenOk (c28_pool n) := by
  refine ⟨h, ?_, nofun, nofun, nofun, nofun⟩
  intro p hp; simp [c28_pool] at hp; subst hp
  refine ⟨by simp, ?_⟩
  intro e he c hc; simp at he; subst he; simp at hc; subst hc; decide

theorem c28_blocks_ok {n : Str} (h : '\n' ∉ n) (h' : ¬ (s% ".java_") <:+: n) : c28_ScreenOk (c28_blocks n) := by
  refine ⟨h, nofun, nofun, nofun, ?_, ?_⟩
  · intro e he
    simp [c28_blocks] at he
    subst he
    refine ⟨h', ?_, by simp, by decide⟩
    show ¬ (s% ".java_") <:+: s% "onCreate_initializeLogic"
    rw [← splitAtPat_eq_none]; decide
  · intro e he _ c hc
    simp [c28_blocks] at he
    subst he; simp at hc; subst hc; decide

theorem c28_pool_maps (n : Str) : ∀ p, (c28_pool n).variables = some p → p.map.keys.Nodup := by
  intro p hp; simp [c28_pool] at hp; subst hp; simp

/-- The full property C28 is false of the code: an empty screen is lost. -/
theorem c28_empty_screen_false : ¬ ∀ l : Logic, c28_Maps l → (∀ e ∈ l.screens, e.1 = e.2.name ∧ c28_ScreenOk e.2) →
    ∃ l', Logic.parse l.reconstruct = .ok l' ∧ ∀ k, l'.screens.get k = l.screens.get k := by
  intro h
  let l : Logic := ⟨[(s% "main", ScreenLogic.newEmpty (s% "main"))]⟩
  have hm : c28_Maps l := by
    refine ⟨by simp [l], ?_⟩
    intro e he; simp [l] at he; subst he; exact ⟨nofun, nofun, nofun, by simp [ScreenLogic.newEmpty]⟩
  have hk : ∀ e ∈ l.screens, e.1 = e.2.name ∧ c28_ScreenOk e.2 := by
    intro e he; simp [l] at he; subst he; exact ⟨rfl, newEmpty_ok (by simp)⟩
  have := (((c28_logic_round_trip_partial l hm).mp (h l hm hk)).1
    (s% "main", ScreenLogic.newEmpty (s% "main")) (by simp [l])).2.2
  exact this (by simp [ScreenLogic.Empty, ScreenLogic.newEmpty])

/-- The full property C28 is false of the code, also without empty screens: of two screens, the first with a
variable only and the second with a block container, the block container of the second is lost. -/
theorem c28_gap_false : ¬ ∀ l : Logic, c28_Maps l →
    (∀ e ∈ l.screens, e.1 = e.2.name ∧ c28_ScreenOk e.2 ∧ ¬ e.2.Empty) →
    ∃ l', Logic.parse l.reconstruct = .ok l' ∧ ∀ k, l'.screens.get k = l.screens.get k := by
  intro h
  let l : Logic := ⟨[(s% "main", c28_pool (s% "main")), (s% "second", c28_blocks (s% "second"))]⟩
  have hm : c28_Maps l := by
    refine ⟨by simp [l, LMap.keys], ?_⟩
    intro e he; simp [l] at he
    rcases he with rfl | rfl
    · exact ⟨c28_pool_maps _, nofun, nofun, by simp [c28_pool, ScreenLogic.newEmpty]⟩
    · exact ⟨nofun, nofun, nofun, by simp [c28_blocks]⟩
  have hk : ∀ e ∈ l.screens, e.1 = e.2.name ∧ c28_ScreenOk e.2 ∧ ¬ e.2.Empty := by
    intro e he; simp [l] at he
    rcases he with rfl | rfl
    · exact ⟨rfl, c28_pool_ok (by simp), fun hE => absurd hE.1 (by simp [c28_pool])⟩
    · exact ⟨rfl, c28_blocks_ok (by simp) (by rw [← splitAtPat_eq_none]; decide),
        fun hE => absurd hE.2.2.2.2.2 (by simp [c28_blocks])⟩
  have := ((c28_logic_round_trip_partial l hm).mp (h l hm hk)).2 [] (c28_pool (s% "main"))
    [c28_blocks (s% "second")] rfl rfl ⟨c28_blocks (s% "second"), by simp, by simp [c28_blocks]⟩
  have := (this.2 (c28_pool (s% "main")) (by simp [l])).1
  simp [c28_pool] at this

-- two screens, one with a block container and one with a variable, are read back
example : ∃ l : Logic, l.screens.length = 2 ∧
    ∃ l', Logic.parse l.reconstruct = .ok l' ∧ ∀ k, l'.screens.get k = l.screens.get k := by
  let l : Logic := ⟨[(s% "second", c28_blocks (s% "second")), (s% "main", c28_pool (s% "main"))]⟩
  refine ⟨l, rfl, ?_⟩
  refine (c28_logic_round_trip_partial l ⟨by simp [l, LMap.keys], ?_⟩).mpr ⟨?_, ?_⟩
  · intro e he; simp [l] at he
    rcases he with rfl | rfl
    · exact ⟨nofun, nofun, nofun, by simp [c28_blocks]⟩
    · exact ⟨c28_pool_maps _, nofun, nofun, by simp [c28_pool, ScreenLogic.newEmpty]⟩
  · intro e he; simp [l] at he
    rcases he with rfl | rfl
    · exact ⟨rfl, c28_blocks_ok (by simp) (by rw [← splitAtPat_eq_none]; decide),
        fun hE => absurd hE.2.2.2.2.2 (by simp [c28_blocks])⟩
    · exact ⟨rfl, c28_pool_ok (by simp), fun hE => absurd hE.1 (by simp [c28_pool])⟩
  · intro pre s post hss hs ⟨t, ht, htb⟩
    exfalso
    simp [l] at hss
    match pre, hss with
    | [], hss => simp at hss; rw [← hss.1] at hs; simp [c28_blocks] at hs
    | [_], hss => simp at hss; rw [hss.2.2] at ht; simp at ht
    | _ :: _ :: pre, hss => simp at hss
end C28

/-! ## C29 — Logic parsing never panics -/
section C29
variable [Floats] [MapPol]

/-- The full property C29 is false of the code: a pool header without a screen name makes the parser panic. -/
theorem c29_no_panic_false : ¬ ∀ s : Str, Logic.parse s ≠ .panic := by
  intro h
  exact h (s% "@java_var") rfl

/-- C29, proved part: the parser panics exactly when, after some number of complete sections, a line comes that is
`@`, then nothing or a text that does not end in a one-byte character, then a pool suffix (`java_var` etc.). In
particular it does not panic if no line has this form. Missing: those texts, where the property is false. -/
theorem c29_no_panic_partial (s : Str) :
    (Logic.parse s = .panic ↔
      ∃ pre es line rest, lines s = pre ++ line :: rest ∧ Logic.Secs pre es ∧ PanicHeader line) ∧
    ((∀ line ∈ lines s, ¬ PanicHeader line) → Logic.parse s ≠ .panic) ∧
    (∀ line rest, lines s = line :: rest → PanicHeader line → Logic.parse s = .panic) := by
  refine ⟨Logic.parse_panic_iff s, ?_, ?_⟩
  · intro h hp
    obtain ⟨pre, es, line, rest, h1, _, h2⟩ := (Logic.parse_panic_iff s).mp hp
    exact h line (by rw [h1]; simp) h2
  · intro line rest h1 h2
    exact (Logic.parse_panic_iff s).mpr ⟨[], [], line, rest, h1, .nil, h2⟩

-- an ordinary header does not meet the panic condition
example : ¬ PanicHeader (s% "@main.java_var") := by
  rintro ⟨S, hS, mid, h1, h2⟩
  simp only [poolSuffixes, List.mem_cons, List.not_mem_nil, or_false] at hS
  have hm : ∀ T : Str, mid ++ T = s% "main.java_var" → mid = (s% "main.java_var").take (13 - T.length) := by
    intro T hT
    have : mid.length = 13 - T.length := by
      have := congrArg List.length hT; simp at this; omega
    rw [← hT, ← this]; simp
  simp only [List.cons.injEq, true_and] at h1
  have h3 := hm S h1.symm
  subst h3
  rcases hS with rfl | rfl | rfl | rfl | rfl
  · exact h2 '.' (by rfl) (by rfl)
  all_goals (revert h1; decide)
end C29

/-! ## C30 — Pool parse errors point at the first bad line -/
section C30
variable [MapPol]

/-- C30: the error of a pool parser carries the index and the text of the first entry line (a line before the first
blank line) that does not parse, and the reason. -/
theorem c30_error_location [Floats] (ls : List Str) :
    (∀ k l e, VariablePool.parseIter ls = .err ⟨k, l, e⟩ ↔
      Variable.parse l = .err e ∧ FirstBad (fun l => ∃ v, Variable.parse l = .ok v) ls k l) ∧
    (∀ k l e, ListVariablePool.parseIter ls = .err ⟨k, l, e⟩ ↔
      ListVariable.parse l = .err e ∧ FirstBad (fun l => ∃ v, ListVariable.parse l = .ok v) ls k l) ∧
    (∀ k l e, MoreBlockPool.parseIter ls = .err ⟨k, l, e⟩ ↔
      MoreBlock.parse l = .err e ∧ FirstBad (fun l => ∃ v, MoreBlock.parse l = .ok v) ls k l) ∧
    (∀ k l e, ComponentPool.parseIter ls = .err ⟨k, l, e⟩ ↔
      FirstBad (fun l => ∃ v, Component.parse l = some v) ls k l) ∧
    (∀ k l e, EventPool.parseIter ls = .err ⟨k, l, e⟩ ↔
      FirstBad (fun l => ∃ v, Event.parse l = some v) ls k l) ∧
    (∀ k, BlockContainer.parseIter ls = .err k ↔
      ∃ l, FirstBad (fun l => ∃ v, Block.parse l = some v) ls k l) := by
  have key : ∀ {ε ε' α β : Type} {p : Str → Out ε α} {mk : Nat → Str → ε → ε'} (hp : ∀ l, p l ≠ .panic)
      (f : List α × List Str → β) (x : ε'), ((readPool p mk ls 0 []).bind fun y => .ok (f y)) = .err x ↔
        ∃ k l e, x = mk k l e ∧ p l = .err e ∧ FirstBad (fun l => ∃ a, p l = .ok a) ls k l := by
    intro ε ε' α β p mk hp f x
    rw [← readPool_err_iff mk hp ls x]
    cases readPool p mk ls 0 [] <;> simp [Out.bind]
  have hlp : ∀ {α : Type} (p : Str → Option α) (l : Str), (∃ a, lineParser p l = .ok a) ↔ ∃ a, p l = some a := by
    intro α p l; unfold lineParser; cases p l <;> simp [Out.ofOption]
  have hlb : ∀ {α : Type} (p : Str → Option α) (l : Str), (¬ ∃ a, p l = some a) → lineParser p l = .err () := by
    intro α p l h; unfold lineParser
    cases hp : p l with
    | none => rfl
    | some a => exact absurd ⟨a, hp⟩ h
  have hln : ∀ {α : Type} (p : Str → Option α) (l : Str), lineParser p l ≠ .panic := fun p l => lineParser_ne_panic p l
  refine ⟨?_, ?_, ?_, ?_, ?_, ?_⟩
  · intro k l e
    refine (key (mk := PoolError.mk) Variable.parse_ne_panic _ _).trans ⟨?_, ?_⟩
    · rintro ⟨k', l', e', h, h1, h2⟩; simp at h; obtain ⟨rfl, rfl, rfl⟩ := h; exact ⟨h1, h2⟩
    · rintro ⟨h1, h2⟩; exact ⟨k, l, e, rfl, h1, h2⟩
  · intro k l e
    refine (key (mk := PoolError.mk) ListVariable.parse_ne_panic _ _).trans ⟨?_, ?_⟩
    · rintro ⟨k', l', e', h, h1, h2⟩; simp at h; obtain ⟨rfl, rfl, rfl⟩ := h; exact ⟨h1, h2⟩
    · rintro ⟨h1, h2⟩; exact ⟨k, l, e, rfl, h1, h2⟩
  · intro k l e
    refine (key (mk := PoolError.mk) MoreBlock.parse_ne_panic _ _).trans ⟨?_, ?_⟩
    · rintro ⟨k', l', e', h, h1, h2⟩; simp at h; obtain ⟨rfl, rfl, rfl⟩ := h; exact ⟨h1, h2⟩
    · rintro ⟨h1, h2⟩; exact ⟨k, l, e, rfl, h1, h2⟩
  · intro k l e
    refine (key (mk := PoolError.mk) (hln Component.parse) _ _).trans ?_
    simp only [hlp]
    constructor
    · rintro ⟨k', l', e', h, h1, h2⟩; simp at h; obtain ⟨rfl, rfl⟩ := h; exact h2
    · intro h2; exact ⟨k, l, e, rfl, hlb _ _ h2.2.1, h2⟩
  · intro k l e
    refine (key (mk := PoolError.mk) (hln Event.parse) _ _).trans ?_
    simp only [hlp]
    constructor
    · rintro ⟨k', l', e', h, h1, h2⟩; simp at h; obtain ⟨rfl, rfl⟩ := h; exact h2
    · intro h2; exact ⟨k, l, e, rfl, hlb _ _ h2.2.1, h2⟩
  · intro k
    refine (key (mk := fun n _ _ => n) (hln Block.parse) _ _).trans ?_
    simp only [hlp]
    constructor
    · rintro ⟨k', l', e', h, h1, h2⟩; subst h; exact ⟨l', h2⟩
    · rintro ⟨l, h2⟩; exact ⟨k, l, (), rfl, hlb _ _ h2.2.1, h2⟩

/-- C30: when every line before the first blank line parses, the pool parses, and what remains to read is what
follows the blank line. -/
theorem c30_good_lines [Floats] (ls : List Str) :
    let rest := ls.drop ((entryLines ls).length + 1)
    ((∀ l ∈ entryLines ls, ∃ v, Variable.parse l = .ok v) → ∃ q, VariablePool.parseIter ls = .ok (q, rest)) ∧
    ((∀ l ∈ entryLines ls, ∃ v, ListVariable.parse l = .ok v) → ∃ q, ListVariablePool.parseIter ls = .ok (q, rest)) ∧
    ((∀ l ∈ entryLines ls, ∃ v, MoreBlock.parse l = .ok v) → ∃ q, MoreBlockPool.parseIter ls = .ok (q, rest)) ∧
    ((∀ l ∈ entryLines ls, ∃ v, Component.parse l = some v) → ∃ q, ComponentPool.parseIter ls = .ok (q, rest)) ∧
    ((∀ l ∈ entryLines ls, ∃ v, Event.parse l = some v) → ∃ q, EventPool.parseIter ls = .ok (q, rest)) ∧
    ((∀ l ∈ entryLines ls, ∃ v, Block.parse l = some v) → ∃ q, BlockContainer.parseIter ls = .ok (q, rest)) := by
  have hlp : ∀ {α : Type} (p : Str → Option α) (l : Str), (∃ a, p l = some a) → ∃ a, lineParser p l = .ok a := by
    rintro α p l ⟨a, h⟩; exact ⟨a, by simp [lineParser, h, Out.ofOption]⟩
  refine ⟨fun h => ?_, fun h => ?_, fun h => ?_, fun h => ?_, fun h => ?_, fun h => ?_⟩
  · obtain ⟨as, h⟩ := readPool_good PoolError.mk Variable.parse_ne_panic ls h
    exact ⟨_, by rw [VariablePool.parseIter, h]; rfl⟩
  · obtain ⟨as, h⟩ := readPool_good PoolError.mk ListVariable.parse_ne_panic ls h
    exact ⟨_, by rw [ListVariablePool.parseIter, h]; rfl⟩
  · obtain ⟨as, h⟩ := readPool_good PoolError.mk MoreBlock.parse_ne_panic ls h
    exact ⟨_, by rw [MoreBlockPool.parseIter, h]; rfl⟩
  · obtain ⟨as, h⟩ := readPool_good PoolError.mk (lineParser_ne_panic _) ls (fun l hl => hlp _ l (h l hl))
    exact ⟨_, by rw [ComponentPool.parseIter, h]; rfl⟩
  · obtain ⟨as, h⟩ := readPool_good PoolError.mk (lineParser_ne_panic _) ls (fun l hl => hlp _ l (h l hl))
    exact ⟨_, by rw [EventPool.parseIter, h]; rfl⟩
  · obtain ⟨as, h⟩ := readPool_good (fun n _ _ => n) (lineParser_ne_panic _) ls (fun l hl => hlp _ l (h l hl))
    exact ⟨_, by rw [BlockContainer.parseIter, h]; rfl⟩

-- the second of two lines is bad
example : VariablePool.parseIter [s% "1:x", s% "y", s% "2:z"] =
    .err ⟨1, s% "y", .malformedVariable (s% "y")⟩ := by rfl
end C30

/-! ## C31 — Repeated declarations -/

/-- C31: a pool keeps one entry for each declared name, and it is the last declaration of this name. -/
theorem c31_last_declaration [MapPol] (ls : List Str) :
    (∀ q rest, VariablePool.parseIter ls = .ok (q, rest) → q.map.keys.Nodup ∧
      (∀ name v, q.map.get name = some v ↔ ∃ pre line post, entryLines ls = pre ++ line :: post ∧
        Variable.parse line = .ok v ∧ v.name = name ∧
        ∀ l ∈ post, ∀ w, Variable.parse l = .ok w → w.name ≠ name) ∧
      ∀ line ∈ entryLines ls, ∃ v, Variable.parse line = .ok v ∧ v.name ∈ q.map.keys) ∧
    (∀ q rest, ListVariablePool.parseIter ls = .ok (q, rest) → q.map.keys.Nodup ∧
      (∀ name v, q.map.get name = some v ↔ ∃ pre line post, entryLines ls = pre ++ line :: post ∧
        ListVariable.parse line = .ok v ∧ v.name = name ∧
        ∀ l ∈ post, ∀ w, ListVariable.parse l = .ok w → w.name ≠ name) ∧
      ∀ line ∈ entryLines ls, ∃ v, ListVariable.parse line = .ok v ∧ v.name ∈ q.map.keys) ∧
    (∀ q rest, MoreBlockPool.parseIter ls = .ok (q, rest) → q.map.keys.Nodup ∧
      (∀ name v, q.map.get name = some v ↔ ∃ pre line post, entryLines ls = pre ++ line :: post ∧
        MoreBlock.parse line = .ok v ∧ v.id = name ∧
        ∀ l ∈ post, ∀ w, MoreBlock.parse l = .ok w → w.id ≠ name) ∧
      ∀ line ∈ entryLines ls, ∃ v, MoreBlock.parse line = .ok v ∧ v.id ∈ q.map.keys) := by
  have key : ∀ {ε ε' α : Type} {p : Str → Out ε α} {mk : Nat → Str → ε → ε'} (hp : ∀ l, p l ≠ .panic)
      (key : α → Str) (as : List α) (rest : List Str), readPool p mk ls 0 [] = .ok (as, rest) →
      let m : LMap Str α := LMap.collect (as.map fun a => (key a, a))
      m.keys.Nodup ∧
      (∀ name v, m.get name = some v ↔ ∃ pre line post, entryLines ls = pre ++ line :: post ∧
        p line = .ok v ∧ key v = name ∧ ∀ l ∈ post, ∀ w, p l = .ok w → key w ≠ name) ∧
      ∀ line ∈ entryLines ls, ∃ v, p line = .ok v ∧ key v ∈ m.keys := by
    intro ε ε' α p mk hp key as rest h m
    have hr := ((readPool_ok_iff mk hp ls as rest).mp h).1
    refine ⟨LMap.collect_keys_nodup _, fun name v => reads_last hr name v, ?_⟩
    intro line hl
    obtain ⟨_, v, hv⟩ := hr.mem line hl
    refine ⟨v, hv, ?_⟩
    refine Classical.byContradiction fun hn => ?_
    rw [← LMap.get_eq_none] at hn
    obtain ⟨pre, post, he⟩ := List.append_of_mem hl
    -- the last line with this key
    have hex : ∀ (ls' : List Str), (∃ l ∈ ls', ∃ w, p l = .ok w ∧ key w = key v) →
        ∃ pre l post w, ls' = pre ++ l :: post ∧ p l = .ok w ∧ key w = key v ∧
          ∀ x ∈ post, ∀ w, p x = .ok w → key w ≠ key v := by
      intro ls'
      induction ls' with
      | nil => simp
      | cons x xs ih =>
        intro hx
        by_cases hxs : ∃ l ∈ xs, ∃ w, p l = .ok w ∧ key w = key v
        · obtain ⟨pre, l, post, w, rfl, h1, h2, h3⟩ := ih hxs
          exact ⟨x :: pre, l, post, w, rfl, h1, h2, h3⟩
        · obtain ⟨l, hl, w, h1, h2⟩ := hx
          rcases List.mem_cons.mp hl with rfl | hl
          · exact ⟨[], l, xs, w, rfl, h1, h2, fun y hy w' hw' hk => hxs ⟨y, hy, w', hw', hk⟩⟩
          · exact absurd ⟨l, hl, w, h1, h2⟩ hxs
    obtain ⟨pre, l, post, w, h1, h2, h3, h4⟩ := hex (entryLines ls) ⟨line, hl, v, hv, rfl⟩
    have := (reads_last (key := key) hr (key v) w).mpr ⟨pre, l, post, h1, h2, h3, h4⟩
    rw [this] at hn; simp at hn
  refine ⟨fun q rest h => ?_, fun q rest h => ?_, fun q rest h => ?_⟩
  · obtain ⟨⟨as, r⟩, h1, h2⟩ := Out.bind_eq_ok.mp h
    simp at h2; obtain ⟨rfl, rfl⟩ := h2
    exact key Variable.parse_ne_panic _ as r h1
  · obtain ⟨⟨as, r⟩, h1, h2⟩ := Out.bind_eq_ok.mp h
    simp at h2; obtain ⟨rfl, rfl⟩ := h2
    exact key ListVariable.parse_ne_panic _ as r h1
  · obtain ⟨⟨as, r⟩, h1, h2⟩ := Out.bind_eq_ok.mp h
    simp at h2; obtain ⟨rfl, rfl⟩ := h2
    exact key MoreBlock.parse_ne_panic _ as r h1

-- `x` is declared twice; the pool has one `x`, of the second type
example [MapPol] : ∃ q rest, VariablePool.parseIter [s% "1:x", s% "2:x"] = .ok (q, rest) ∧
    q.map.get (s% "x") = some ⟨s% "x", .string⟩ := by
  letI : Floats := toyFloats.toFloats
  obtain ⟨q, h⟩ := (c30_good_lines [s% "1:x", s% "2:x"]).1 (by
    intro l hl
    have : entryLines [s% "1:x", s% "2:x"] = [s% "1:x", s% "2:x"] := by decide
    rw [this] at hl
    simp at hl
    rcases hl with rfl | rfl
    · exact ⟨⟨s% "x", .integer⟩, by decide⟩
    · exact ⟨⟨s% "x", .string⟩, by decide⟩)
  refine ⟨q, _, h, ?_⟩
  refine (((c31_last_declaration _).1 q _ h).2.1 _ _).mpr ⟨[s% "1:x"], s% "2:x", [], by decide, by decide, rfl, by simp⟩

end Swrs
