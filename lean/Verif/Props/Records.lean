import Verif.Proofs.FileLike
import Verif.Proofs.LogicPool
import Verif.Proofs.Records
import Verif.Base.FloatInst
/-!
# C12, C13: records as text
-/
namespace Swrs

/-! ## C12 — Records survive text form and stay on one line -/

/-- C12: every record of the six kinds gives one line of text, without a line break, from which it is read back. -/
theorem c12_records [Floats] :
    (∀ r : ResourceItem, '\n' ∉ r.reconstruct ∧ ResourceItem.parse r.reconstruct = some r) ∧
    (∀ r : FileItem, '\n' ∉ r.reconstruct ∧ FileItem.parse r.reconstruct = some r) ∧
    (∀ r : LibraryItem, '\n' ∉ r.reconstruct ∧ LibraryItem.parse r.reconstruct = some r) ∧
    (∀ r : Component, '\n' ∉ r.reconstruct ∧ Component.parse r.reconstruct = some r) ∧
    (∀ r : Event, '\n' ∉ r.reconstruct ∧ Event.parse r.reconstruct = some r) ∧
    (∀ r : Block, '\n' ∉ r.reconstruct ∧ Block.parse r.reconstruct = some r) :=
  ⟨fun r => ⟨r.jline.noNl, r.parse_reconstruct⟩, fun r => ⟨r.jline.noNl, r.parse_reconstruct⟩,
    fun r => ⟨r.jline.noNl, r.parse_reconstruct⟩, fun r => ⟨r.jline.noNl, r.parse_reconstruct⟩,
    fun r => ⟨r.jline.noNl, r.parse_reconstruct⟩, fun r => ⟨r.jline.noNl, r.parse_reconstruct⟩⟩

-- a name with a quote, a backslash and a line break
example : ∃ t, ResourceItem.reconstruct ⟨s% "a\"\\\n", s% "b", 1⟩ = t ∧
    t = s% "{\"resFullName\":\"a\\\"\\\\\\n\",\"resName\":\"b\",\"resType\":1}" := ⟨_, by decide +kernel, rfl⟩

/-! ## C13 — Records are read by key -/

open Json (IsText valuesOf)

/-- A record reader that looks only at the values of the declared keys. `IsText j s` is the JSON grammar: `s` is a text of
`j`, with any white space between the tokens and any escapes; `valuesOf ms k` are the values of the key `k`. -/
structure ReadsByKey {α : Type} (parse : Str → Option α) (declared required : List Str) : Prop where
  /-- Two objects with the same values of the declared keys, in any text form and with any other keys, are read alike. -/
  same : ∀ ms ms' s s', IsText (.obj ms) s → IsText (.obj ms') s' → (∀ k ∈ declared, valuesOf ms k = valuesOf ms' k) → parse s = parse s'
  /-- The order of the keys does not matter. -/
  order : ∀ ms ms' s s', IsText (.obj ms) s → IsText (.obj ms') s' → ms.Perm ms' → parse s = parse s'
  /-- A missing required key is an error. -/
  missing : ∀ ms s, IsText (.obj ms) s → ∀ k ∈ required, valuesOf ms k = [] → parse s = none
  /-- A repeated declared key is an error. -/
  repeated : ∀ ms s, IsText (.obj ms) s → ∀ k ∈ declared, 2 ≤ (valuesOf ms k).length → parse s = none
  /-- A text outside the grammar is an error. -/
  malformed : ∀ s, (∀ j, ¬ IsText j s) → parse s = none

theorem ReadsByKey.of_byKey {α : Type} {dec : Json → Option α} {names required : List Str} (h : Json.ByKey dec names required) :
    ReadsByKey (Json.fromStr dec) names required := by
  have ht : ∀ {j : Json} {s : Str}, IsText j s → Json.fromStr dec s = dec j := by
    intro j s h1
    unfold Json.fromStr
    rw [Json.parse_iff.mpr h1]; rfl
  refine ⟨?_, ?_, ?_, ?_, ?_⟩
  · intro ms ms' s s' h1 h2 h5
    rw [ht h1, ht h2, h.congr ms ms' h5]
  · intro ms ms' s s' h1 h2 hp
    rw [ht h1, ht h2]
    by_cases hr : ∃ k ∈ names, 2 ≤ (valuesOf ms k).length
    · obtain ⟨k, hk, hl⟩ := hr
      rw [h.repeated ms k hk hl, h.repeated ms' k hk]
      rw [Json.length_valuesOf] at hl ⊢
      rwa [← (hp.map _).count_eq]
    · apply h.congr
      intro k hk
      have hq : (valuesOf ms k).Perm (valuesOf ms' k) := (hp.filter _).map _
      have hl : (valuesOf ms k).length ≤ 1 := by
        have : ¬ 2 ≤ (valuesOf ms k).length := fun h => hr ⟨k, hk, h⟩
        omega
      generalize valuesOf ms k = a at hq hl
      generalize valuesOf ms' k = b at hq
      cases a with
      | nil => exact hq.nil_eq
      | cons x a =>
        cases a with
        | nil => exact (List.singleton_perm.mp hq)
        | cons y a => simp at hl
  · intro ms s h1 k hk h2
    rw [ht h1, h.missing ms k hk h2]
  · intro ms s h1 k hk h2
    rw [ht h1, h.repeated ms k hk h2]
  · intro s h1
    unfold Json.fromStr
    cases hp : Json.parse s with
    | none => rfl
    | some j => exact absurd (Json.parse_iff.mp hp) (h1 j)

/-- C13: the records of the six kinds, and the view record with its optional keys, are read by key. -/
theorem c13_records_by_key [Floats] :
    ReadsByKey ResourceItem.parse [s% "resFullName", s% "resName", s% "resType"]
      [s% "resFullName", s% "resName", s% "resType"] ∧
    ReadsByKey FileItem.parse
      [s% "fileName", s% "fileType", s% "keyboardSetting", s% "options", s% "orientation", s% "theme"]
      [s% "fileName", s% "fileType", s% "keyboardSetting", s% "options", s% "orientation", s% "theme"] ∧
    ReadsByKey LibraryItem.parse
      [s% "adUnits", s% "data", s% "libType", s% "reserved1", s% "reserved2", s% "reserved3", s% "testDevices", s% "useYn"]
      [s% "adUnits", s% "data", s% "libType", s% "reserved1", s% "reserved2", s% "reserved3", s% "testDevices", s% "useYn"] ∧
    ReadsByKey Component.parse [s% "componentId", s% "param1", s% "param2", s% "param3", s% "type"]
      [s% "componentId", s% "param1", s% "param2", s% "param3", s% "type"] ∧
    ReadsByKey Event.parse [s% "eventName", s% "eventType", s% "targetId", s% "targetType"]
      [s% "eventName", s% "eventType", s% "targetId", s% "targetType"] ∧
    ReadsByKey Block.parse
      [s% "color", s% "id", s% "nextBlock", s% "opCode", s% "parameters", s% "spec", s% "subStack1", s% "subStack2",
        s% "type", s% "typeName"]
      [s% "color", s% "id", s% "nextBlock", s% "opCode", s% "parameters", s% "spec", s% "subStack1", s% "subStack2",
        s% "type", s% "typeName"] ∧
    ReadsByKey (Json.fromStr AndroidView.dec) AndroidView.fields AndroidView.requiredKeys :=
  ⟨.of_byKey ResourceItem.byKey, .of_byKey FileItem.byKey, .of_byKey LibraryItem.byKey, .of_byKey Component.byKey,
    .of_byKey Event.byKey, .of_byKey Block.byKey, .of_byKey AndroidView.byKey⟩

/-- C13: what is read from an object whose declared keys all have one value, for the resource record. -/
theorem c13_resource_item {s : Str} {ms : List (Str × Json)} (h : IsText (.obj ms) s) (i : ResourceItem) :
    ResourceItem.parse s = some i ↔
      valuesOf ms (s% "resFullName") = [.str i.fullName] ∧ valuesOf ms (s% "resName") = [.str i.name] ∧
      ∃ t, valuesOf ms (s% "resType") = [.num t] ∧ Json.intOfTok t = some i.type.toNat := by
  have hp : ResourceItem.parse s = ResourceItem.dec (.obj ms) := by
    unfold ResourceItem.parse Json.fromStr
    rw [Json.parse_iff.mpr h]; rfl
  rw [hp]
  have one : ∀ {l : List Json} {j}, l.length ≤ 1 → l.head? = some j → l = [j] := by
    intro l j h1 h2
    match l, h1, h2 with
    | [x], _, h2 => simpa using h2
  have ustr : ∀ {j : Json} {x : Str}, Json.decStr j = some x → j = .str x := by
    intro j x h; cases j <;> simp [Json.decStr] at h; subst h; rfl
  have u8 : ∀ {j : Json} {x : UInt8}, Json.decU8 j = some x ↔ ∃ t, j = .num t ∧ Json.intOfTok t = some x.toNat := by
    intro j x
    constructor
    · intro h
      cases j <;> simp [Json.decU8, Json.decInt] at h
      obtain ⟨n, ⟨h1, h2, h3⟩, rfl⟩ := h
      refine ⟨_, rfl, ?_⟩
      rw [h1]
      simp
      omega
    · rintro ⟨t, rfl, h⟩
      have := x.toNat_lt
      unfold Json.decU8 Json.decInt
      simp only [h, Option.map_eq_some_iff, Option.filter_eq_some_iff]
      exact ⟨x.toNat, ⟨rfl, by simp; omega⟩, by simp⟩
  have hnames : ∀ k ∈ ResourceItem.fields, ∀ o, o = ms.filter (fun e => e.1 ∈ ResourceItem.fields) →
      Json.get o k = (valuesOf ms k).head? := by
    rintro k hk o rfl; exact Json.get_filter _ hk
  unfold ResourceItem.dec
  rw [Json.asStruct_obj_eq]
  constructor
  · intro hh
    split at hh
    next hl =>
      simp only [Option.bind_eq_bind, Option.bind_some, Json.req] at hh
      rw [hnames _ (by simp [ResourceItem.fields]) _ rfl, hnames _ (by simp [ResourceItem.fields]) _ rfl,
        hnames _ (by simp [ResourceItem.fields]) _ rfl] at hh
      simp only [Option.bind_eq_some_iff] at hh
      obtain ⟨a, ⟨ja, ha, ha'⟩, b, ⟨jb, hb, hb'⟩, c, ⟨jc, hc, hc'⟩, he⟩ := hh
      simp at he; subst he
      obtain rfl := ustr ha'
      obtain rfl := ustr hb'
      obtain ⟨t, rfl, ht⟩ := u8.mp hc'
      exact ⟨one (hl _ (by simp [ResourceItem.fields])) ha, one (hl _ (by simp [ResourceItem.fields])) hb, t,
        one (hl _ (by simp [ResourceItem.fields])) hc, ht⟩
    next => simp at hh
  · rintro ⟨h1, h2, t, h3, h4⟩
    rw [if_pos (by simp [ResourceItem.fields, h1, h2, h3])]
    simp only [Option.bind_eq_bind, Option.bind_some, Json.req]
    rw [hnames _ (by simp [ResourceItem.fields]) _ rfl, hnames _ (by simp [ResourceItem.fields]) _ rfl,
      hnames _ (by simp [ResourceItem.fields]) _ rfl, h1, h2, h3]
    simp [Json.decStr, u8.mpr ⟨t, rfl, h4⟩]

-- white space, an escaped key letter, an unknown key and another order of the keys
example : ResourceItem.parse (s% " { \"resType\" : 1, \"x\":[null,{}], \"resName\":\"b\" ,\"\\u0072esFullName\":\"a\"}\n")
    = ResourceItem.parse (s% "{\"resFullName\":\"a\",\"resName\":\"b\",\"resType\":1}") ∧
    ResourceItem.parse (s% "{\"resFullName\":\"a\",\"resName\":\"b\",\"resType\":1}") = some ⟨s% "a", s% "b", 1⟩ := by
  decide +kernel
-- a missing and a repeated key
example : ResourceItem.parse (s% "{\"resFullName\":\"a\",\"resType\":1}") = none ∧
    ResourceItem.parse (s% "{\"resFullName\":\"a\",\"resName\":\"b\",\"resName\":\"b\",\"resType\":1}") = none := by
  decide +kernel
-- a text of the grammar
example : IsText (.obj [(s% "a", .null)]) (s% "{ \"a\":null}") :=
  Json.parse_iff.mp (by rfl : Json.parse (s% "{ \"a\":null}") = some (.obj [(s% "a", .null)]))

end Swrs
