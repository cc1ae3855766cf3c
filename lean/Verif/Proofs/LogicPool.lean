import Verif.Model.Logic
import Verif.Proofs.AndroidView
/-! Records and pools of the logic file. -/
set_option linter.unusedSectionVars false
namespace Swrs

/-! ### records -/
namespace Component
theorem dec_enc (c : Component) : dec c.enc = some c := by
  have h : Json.asStruct fields c.enc = some [(s% "componentId", .str c.id), (s% "param1", .str c.param1),
    (s% "param2", .str c.param2), (s% "param3", .str c.param3), (s% "type", Json.encU8 c.type)] :=
    Json.asStruct_sublist (by decide) (by simp [fields])
  simp [dec, h, Json.req, Json.get]
theorem valid_enc (c : Component) : c.enc.Valid := by simp [enc, Json.Valid, Json.ValidObj]
theorem parse_reconstruct (c : Component) : parse c.reconstruct = some c :=
  Json.fromStr_print c.valid_enc c.dec_enc
theorem jline (c : Component) : JLine c.reconstruct := jline_obj c.valid_enc
end Component

namespace Event
theorem dec_enc (c : Event) : dec c.enc = some c := by
  have h : Json.asStruct fields c.enc = some [(s% "eventName", .str c.eventName),
    (s% "eventType", Json.encU8 c.eventType),
    (s% "targetId", .str c.targetId), (s% "targetType", Json.encU8 c.targetType)] :=
    Json.asStruct_sublist (by decide) (by simp [fields])
  simp [dec, h, Json.req, Json.get]
theorem valid_enc (c : Event) : c.enc.Valid := by simp [enc, Json.Valid, Json.ValidObj]
theorem parse_reconstruct (c : Event) : parse c.reconstruct = some c :=
  Json.fromStr_print c.valid_enc c.dec_enc
theorem jline (c : Event) : JLine c.reconstruct := jline_obj c.valid_enc
end Event

namespace Block
variable [Floats]
theorem dec_enc (b : Block) : dec b.enc = some b := by
  have h : Json.asStruct fields b.enc = some [(s% "color", b.color.enc), (s% "id", .str b.id),
    (s% "nextBlock", Json.encI32 b.nextBlock),
    (s% "opCode", .str b.opCode), (s% "parameters", .arr (b.parameters.map .str)), (s% "spec", .str b.spec),
    (s% "subStack1", Json.encI32 b.subStack1), (s% "subStack2", Json.encI32 b.subStack2),
    (s% "type", .str b.type), (s% "typeName", .str b.typeName)] :=
    Json.asStruct_sublist (by decide) (by simp [fields])
  have h2 : Json.decAll Json.decStr (b.parameters.map Json.str) = some b.parameters :=
    Json.decAll_map _ fun u _ => rfl
  refine Json.step h ?_
  refine Json.step (Json.req_some (j := b.color.enc) (by simp [Json.get]) (Color.dec_enc _)) ?_
  refine Json.step (Json.req_some (j := .str b.id) (by simp [Json.get]) rfl) ?_
  refine Json.step (Json.req_some (j := Json.encI32 b.nextBlock) (by simp [Json.get]) (Json.decI32_encI32 _)) ?_
  refine Json.step (Json.req_some (j := .str b.opCode) (by simp [Json.get]) rfl) ?_
  refine Json.step (Json.req_some (j := .arr (b.parameters.map .str)) (by simp [Json.get]) h2) ?_
  refine Json.step (Json.req_some (j := .str b.spec) (by simp [Json.get]) rfl) ?_
  refine Json.step (Json.req_some (j := Json.encI32 b.subStack1) (by simp [Json.get]) (Json.decI32_encI32 _)) ?_
  refine Json.step (Json.req_some (j := Json.encI32 b.subStack2) (by simp [Json.get]) (Json.decI32_encI32 _)) ?_
  refine Json.step (Json.req_some (j := .str b.type) (by simp [Json.get]) rfl) ?_
  refine Json.step (Json.req_some (j := .str b.typeName) (by simp [Json.get]) rfl) ?_
  rfl
omit [Floats] in
theorem valid_enc (b : Block) : b.enc.Valid := by
  have h2 := Json.validArr_map (enc := Json.str) b.parameters fun u _ => Json.valid_str u
  have h1 := Color.valid_enc b.color
  simp [enc, Json.Valid, Json.ValidObj, h1, h2]
theorem parse_reconstruct (b : Block) : parse b.reconstruct = some b :=
  Json.fromStr_print b.valid_enc b.dec_enc
omit [Floats] in
theorem jline (b : Block) : JLine b.reconstruct := jline_obj b.valid_enc
end Block

/-! ### pools in general -/

section pool
variable {ε ε' α : Type} (p : Str → Out ε α) (mk : Nat → Str → ε → ε')

/-- The lines are not blank and parse, one by one, to the given values. -/
abbrev PoolReads (ls : List Str) (as : List α) : Prop := ReadsAll (fun l => (p l).toOption) ls as

theorem toOption_eq_some {x : Out ε α} {a : α} : x.toOption = some a ↔ x = .ok a := by
  cases x <;> simp [Out.toOption]

variable {p}

theorem readPool_reads {ls : List Str} {as : List α} (h : PoolReads p ls as) (rest : List Str) (n : Nat)
    (acc : List α) :
    readPool p mk (ls ++ rest) n acc = readPool p mk rest (n + ls.length) (acc ++ as) := by
  induction h generalizing acc n with
  | nil => simp
  | cons hne hp _ ih =>
    rw [List.cons_append, readPool, if_neg hne, toOption_eq_some.mp hp]
    simp only
    rw [ih, List.append_assoc, List.length_cons, Nat.add_assoc, Nat.add_comm 1]; rfl

theorem readPool_blank {ls : List Str} {as : List α} (h : PoolReads p ls as) (rest : List Str) :
    readPool p mk (ls ++ [] :: rest) 0 [] = .ok (as, rest) := by
  rw [readPool_reads mk h, readPool]; simp

theorem readPool_eof {ls : List Str} {as : List α} (h : PoolReads p ls as) :
    readPool p mk ls 0 [] = .ok (as, []) := by
  have := readPool_reads mk h [] 0 []
  rw [List.append_nil] at this
  rw [this, readPool]; simp

theorem readPool_bad {ls : List Str} {as : List α} (h : PoolReads p ls as) {l : Str} (hne : l ≠ []) {e : ε}
    (hl : p l = .err e) (rest : List Str) :
    readPool p mk (ls ++ l :: rest) 0 [] = .err (mk ls.length l e) := by
  rw [readPool_reads mk h, readPool, if_neg hne, hl]; simp

/-- What a pool does on any lines. -/
theorem readPool_cases (hp : ∀ l, p l ≠ .panic) (ls : List Str) :
    (∃ pre as rest, ls = pre ++ [] :: rest ∧ PoolReads p pre as ∧ readPool p mk ls 0 [] = .ok (as, rest)) ∨
    (∃ as, PoolReads p ls as ∧ readPool p mk ls 0 [] = .ok (as, [])) ∨
    (∃ pre as l e rest, ls = pre ++ l :: rest ∧ PoolReads p pre as ∧ l ≠ [] ∧ p l = .err e ∧
      readPool p mk ls 0 [] = .err (mk pre.length l e)) := by
  have key : ∀ ls : List Str, (∃ pre as rest, ls = pre ++ [] :: rest ∧ PoolReads p pre as) ∨
      (∃ as, PoolReads p ls as) ∨
      (∃ pre as l e rest, ls = pre ++ l :: rest ∧ PoolReads p pre as ∧ l ≠ [] ∧ p l = .err e) := by
    intro ls
    induction ls with
    | nil => exact .inr (.inl ⟨[], .nil⟩)
    | cons l ls ih =>
      by_cases h0 : l = []
      · subst h0; exact .inl ⟨[], [], ls, rfl, .nil⟩
      · cases hpl : p l with
        | panic => exact absurd hpl (hp l)
        | err e => exact .inr (.inr ⟨[], [], l, e, ls, rfl, .nil, h0, hpl⟩)
        | ok v =>
          have hv : (p l).toOption = some v := by rw [hpl]; rfl
          rcases ih with ⟨pre, vs, rest, rfl, hr⟩ | ⟨vs, hr⟩ | ⟨pre, vs, l', e, rest, rfl, hr, h1, h2⟩
          · exact .inl ⟨l :: pre, v :: vs, rest, rfl, .cons h0 hv hr⟩
          · exact .inr (.inl ⟨v :: vs, .cons h0 hv hr⟩)
          · exact .inr (.inr ⟨l :: pre, v :: vs, l', e, rest, rfl, .cons h0 hv hr, h1, h2⟩)
  rcases key ls with ⟨pre, vs, rest, rfl, hr⟩ | ⟨vs, hr⟩ | ⟨pre, vs, l, e, rest, rfl, hr, h1, h2⟩
  · exact .inl ⟨pre, vs, rest, rfl, hr, readPool_blank mk hr rest⟩
  · exact .inr (.inl ⟨vs, hr, readPool_eof mk hr⟩)
  · exact .inr (.inr ⟨pre, vs, l, e, rest, rfl, hr, h1, h2, readPool_bad mk hr h1 h2 rest⟩)

theorem readPool_length {ls rest : List Str} {n : Nat} {acc as : List α}
    (h : readPool p mk ls n acc = .ok (as, rest)) : rest.length ≤ ls.length := by
  induction ls generalizing n acc with
  | nil => simp [readPool] at h; simp [← h.2]
  | cons l ls ih =>
    rw [readPool] at h
    split at h
    · simp at h; simp [← h.2]
    · split at h
      · have := ih h; simp; omega
      · simp at h
      · simp at h

theorem readPool_ne_panic (hp : ∀ l, p l ≠ .panic) (ls : List Str) (n : Nat) (acc : List α) :
    readPool p mk ls n acc ≠ .panic := by
  induction ls generalizing n acc with
  | nil => simp [readPool]
  | cons l ls ih =>
    rw [readPool]
    split
    · simp
    · split
      · exact ih _ _
      · simp
      · next h => exact absurd h (hp l)

end pool

theorem lineParser_ne_panic {α : Type} (p : Str → Option α) (l : Str) : lineParser p l ≠ .panic := by
  simp [lineParser]

theorem lineParser_toOption {α : Type} (p : Str → Option α) (l : Str) : (lineParser p l).toOption = p l := by
  unfold lineParser; cases p l <;> rfl

theorem PoolReads.lineParser {α : Type} {p : Str → Option α} {f : α → Str} (h1 : ∀ a, JLine (f a))
    (h2 : ∀ a, p (f a) = some a) (as : List α) : PoolReads (Swrs.lineParser p) (as.map f) as := by
  apply ReadsAll.map
  intro a _
  exact ⟨(h1 a).ne_nil, by rw [lineParser_toOption]; exact h2 a⟩

/-- Text of a JSON pool. -/
theorem foldLines_jlines {ls : List Str} (h : ∀ l ∈ ls, JLine l) : foldLines ls = joinWith '\n' ls := by
  unfold foldLines
  have := foldl_nl id ls []
  simp only [id, List.map_id, List.nil_append] at this
  rw [this]
  exact trim_flatMap_nl h

/-! ### variables -/

namespace VariableType
theorem ofNum_num (t : VariableType) : ofNum t.num = .ok t := by cases t <;> rfl
theorem ofNum_eq_ok {n : UInt8} {t : VariableType} : ofNum n = .ok t ↔ n = t.num := by
  constructor
  · intro h
    unfold ofNum at h
    (repeat' split at h) <;> simp_all <;> subst h <;> rfl
  · rintro rfl; exact ofNum_num t
theorem ofNum_ne_panic (n : UInt8) : ofNum n ≠ .panic := by
  unfold ofNum; (repeat' split) <;> simp
theorem num_lt (t : VariableType) : t.num.toNat < 10 := by cases t <;> decide
theorem natStr_num (t : VariableType) : natStr 10 t.num.toNat = [digitChar t.num.toNat] := by
  rw [natStr, dif_pos (by have := num_lt t; omega)]
end VariableType

theorem digitChar_ne_colon {n : Nat} (h : n < 10) : digitChar n ≠ ':' := by
  have key : ∀ n < 10, digitChar n ≠ ':' := by decide
  exact key n h
theorem digitChar_not_ws {n : Nat} (h : n < 10) : isWs (digitChar n) = false := by
  have key : ∀ n < 10, isWs (digitChar n) = false := by decide
  exact key n h
theorem digitChar_ne_nl {n : Nat} (h : n < 10) : digitChar n ≠ '\n' := by
  have key : ∀ n < 10, digitChar n ≠ '\n' := by decide
  exact key n h

theorem parseU8_natStr (n : UInt8) : parseU8 (natStr 10 n.toNat) = some n := by
  have := n.toNat_lt
  rw [parseU8, parseUnsigned_natStr (by omega)]; simp

namespace Variable
theorem parse_reconstruct (v : Variable) : parse v.reconstruct = .ok v := by
  have h : ':' ∉ natStr 10 v.type.num.toNat := by
    rw [VariableType.natStr_num]
    simp only [List.mem_singleton]
    exact Ne.symm (digitChar_ne_colon v.type.num_lt)
  simp [parse, reconstruct, splitOnce_append h, parseU8_natStr, VariableType.ofNum_num]
theorem parse_ne_panic (s : Str) : parse s ≠ .panic := by
  simp [parse, Out.bind_eq_panic, Out.ofOption_ne_panic, Out.mapErr_eq_panic, VariableType.ofNum_ne_panic]
theorem parse_eq_ok {s : Str} {v : Variable} :
    parse s = .ok v ↔ ∃ t, s = t ++ ':' :: v.name ∧ ':' ∉ t ∧ parseU8 t = some v.type.num := by
  simp only [parse, Out.bind_eq_ok, Out.ofOption_eq_ok, Out.mapErr_eq_ok, VariableType.ofNum_eq_ok,
    Prod.exists, splitOnce_eq_some, Out.pure_eq]
  constructor
  · rintro ⟨a, b, ⟨rfl, h1⟩, n, h2, t, rfl, h3⟩
    simp at h3; subst h3
    exact ⟨a, rfl, h1, h2⟩
  · rintro ⟨t, rfl, h1, h2⟩
    exact ⟨t, v.name, ⟨rfl, h1⟩, _, h2, _, rfl, rfl⟩
end Variable

namespace ListVariable
theorem parse_reconstruct (v : ListVariable) : parse v.reconstruct = .ok v := by
  have h : ':' ∉ natStr 10 v.type.num.toNat := by
    rw [VariableType.natStr_num]
    simp only [List.mem_singleton]
    exact Ne.symm (digitChar_ne_colon v.type.num_lt)
  simp [parse, reconstruct, splitOnce_append h, parseU8_natStr, VariableType.ofNum_num]
theorem parse_ne_panic (s : Str) : parse s ≠ .panic := by
  simp [parse, Out.bind_eq_panic, Out.ofOption_ne_panic, Out.mapErr_eq_panic, VariableType.ofNum_ne_panic]
theorem parse_eq_ok {s : Str} {v : ListVariable} :
    parse s = .ok v ↔ ∃ t, s = t ++ ':' :: v.name ∧ ':' ∉ t ∧ parseU8 t = some v.type.num := by
  simp only [parse, Out.bind_eq_ok, Out.ofOption_eq_ok, Out.mapErr_eq_ok, VariableType.ofNum_eq_ok,
    Prod.exists, splitOnce_eq_some, Out.pure_eq]
  constructor
  · rintro ⟨a, b, ⟨rfl, h1⟩, n, h2, t, rfl, h3⟩
    simp at h3; subst h3
    exact ⟨a, rfl, h1, h2⟩
  · rintro ⟨t, rfl, h1, h2⟩
    exact ⟨t, v.name, ⟨rfl, h1⟩, _, h2, _, rfl, rfl⟩
end ListVariable

namespace MoreBlock
theorem parse_eq_ok {s : Str} {m : MoreBlock} : parse s = .ok m ↔ s = m.reconstruct ∧ ':' ∉ m.id := by
  simp only [parse, reconstruct, Out.bind_eq_ok, Out.ofOption_eq_ok, Prod.exists, splitOnce_eq_some, Out.pure_eq]
  constructor
  · rintro ⟨a, b, ⟨rfl, h1⟩, h3⟩
    simp at h3; subst h3
    exact ⟨rfl, h1⟩
  · rintro ⟨rfl, h1⟩
    exact ⟨m.id, m.spec, ⟨rfl, h1⟩, rfl⟩
theorem parse_ne_panic (s : Str) : parse s ≠ .panic := by
  simp [parse, Out.bind_eq_panic, Out.ofOption_ne_panic]
end MoreBlock

end Swrs
