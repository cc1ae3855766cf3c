import Verif.Json.RoundTrip
/-!
# Decoding and encoding of records (`serde` derive)

`asStruct` models the visitor generated by `#[derive(Deserialize)]` for a struct: an object (declared keys at
most once, unknown keys ignored) or an array of the fields in declaration order. Field decoders follow the types.
Every error of `serde_json` is `none`.
-/

namespace Swrs.Json

/-- Fields of a record by key.
Derived `Deserialize` of the records of parser/{project,file,library,resource,view,logic}.rs. -/
abbrev Obj := List (Str × Json)

/-- Value of a key. Derived `Deserialize` of the records of parser/{project,file,library,resource,view,logic}.rs. -/
def get : Obj → Str → Option Json
  | [], _ => none
  | (k', v) :: o, k => if k' = k then some v else get o k

/-- Visitor of a derived struct with the given field names, in declaration order.
Derived `Deserialize` of the records of parser/{project,file,library,resource,view,logic}.rs. -/
def asStruct (names : List Str) : Json → Option Obj
  | obj kvs =>
    let o := kvs.filter fun e => e.1 ∈ names
    if (o.map (·.1)).Nodup then some o else none
  | arr vs => if vs.length = names.length then some (names.zip vs) else none
  | _ => none

/-- Required field. Derived `Deserialize` of the records of parser/{project,file,library,resource,view,logic}.rs. -/
def req {α : Type} (o : Obj) (k : Str) (dec : Json → Option α) : Option α := (get o k).bind dec

/-- `Option` field: missing or `null` is `None`.
Derived `Deserialize` of the records of parser/{project,file,library,resource,view,logic}.rs. -/
def opt {α : Type} (o : Obj) (k : Str) (dec : Json → Option α) : Option (Option α) :=
  match get o k with
  | none => some none
  | some null => some none
  | some j => (dec j).map some

/-- Value of an integer token; a token with a fraction or exponent, and `-0`, is a float for `serde_json`.
Derived `Deserialize` of the records of parser/{project,file,library,resource,view,logic}.rs. -/
def intOfTok : Str → Option Int
  | [] => none
  | '-' :: r => if r = [] then none else match digitsVal 10 r 0 with
    | some (n + 1) => some (Int.negSucc n)
    | _ => none
  | s => (digitsVal 10 s 0).map Int.ofNat

/-- An integer in a range.
Derived `Deserialize` of the records of parser/{project,file,library,resource,view,logic}.rs. -/
def decInt (lo hi : Int) : Json → Option Int
  | num tok => (intOfTok tok).filter fun n => lo ≤ n ∧ n ≤ hi
  | _ => none

/-- Integer fields of fixed width.
Derived `Deserialize` of the records of parser/{project,file,library,resource,view,logic}.rs. -/
def decU8 (j : Json) : Option UInt8 := (decInt 0 255 j).map fun n => UInt8.ofNat n.toNat
/-- `u32` field. Derived `Deserialize` of the records of parser/{project,file,library,resource,view,logic}.rs. -/
def decU32 (j : Json) : Option UInt32 := (decInt 0 4294967295 j).map fun n => UInt32.ofNat n.toNat
/-- `i8` field. Derived `Deserialize` of the records of parser/{project,file,library,resource,view,logic}.rs. -/
def decI8 (j : Json) : Option Int8 := (decInt (-128) 127 j).map Int8.ofInt
/-- `i16` field. Derived `Deserialize` of the records of parser/{project,file,library,resource,view,logic}.rs. -/
def decI16 (j : Json) : Option Int16 := (decInt (-32768) 32767 j).map Int16.ofInt
/-- `i32` field. Derived `Deserialize` of the records of parser/{project,file,library,resource,view,logic}.rs. -/
def decI32 (j : Json) : Option Int32 := (decInt (-2147483648) 2147483647 j).map Int32.ofInt

/-- `String` field. Derived `Deserialize` of the records of parser/{project,file,library,resource,view,logic}.rs. -/
def decStr : Json → Option Str
  | str s => some s
  | _ => none

/-- `bool` field. Derived `Deserialize` of the records of parser/{project,file,library,resource,view,logic}.rs. -/
def decBool : Json → Option Bool
  | bool b => some b
  | _ => none

/-- All elements decode.
Derived `Deserialize` of the records of parser/{project,file,library,resource,view,logic}.rs. -/
def decAll {α : Type} (dec : Json → Option α) : List Json → Option (List α)
  | [] => some []
  | v :: vs => match dec v, decAll dec vs with
    | some a, some as => some (a :: as)
    | _, _ => none

/-- `Vec` field. Derived `Deserialize` of the records of parser/{project,file,library,resource,view,logic}.rs. -/
def decVec {α : Type} (dec : Json → Option α) : Json → Option (List α)
  | arr vs => decAll dec vs
  | _ => none

/-- Encoders. Derived `Serialize` of the records of parser/{project,file,library,resource,view,logic}.rs. -/
def encInt (n : Int) : Json := num (intStr n)
/-- `u8` field. Derived `Serialize` of the records of parser/{project,file,library,resource,view,logic}.rs. -/
def encU8 (n : UInt8) : Json := encInt n.toNat
/-- `u32` field. Derived `Serialize` of the records of parser/{project,file,library,resource,view,logic}.rs. -/
def encU32 (n : UInt32) : Json := encInt n.toNat
/-- `i8` field. Derived `Serialize` of the records of parser/{project,file,library,resource,view,logic}.rs. -/
def encI8 (n : Int8) : Json := encInt n.toInt
/-- `i16` field. Derived `Serialize` of the records of parser/{project,file,library,resource,view,logic}.rs. -/
def encI16 (n : Int16) : Json := encInt n.toInt
/-- `i32` field. Derived `Serialize` of the records of parser/{project,file,library,resource,view,logic}.rs. -/
def encI32 (n : Int32) : Json := encInt n.toInt

/-- `#[serde(skip_serializing_if = "Option::is_none")]`.
Derived `Serialize` of the records of parser/{project,file,library,resource,view,logic}.rs. -/
def optKV (k : Str) : Option Str → Obj
  | none => []
  | some s => [(k, str s)]

/-! ### Lemmas -/

theorem digitsVal_eq_some_digits {s : Str} {a n : Nat} (h : digitsVal 10 s a = some n) :
    ∀ c ∈ s, isDigit c = true := by
  induction s generalizing a with
  | nil => simp
  | cons c s ih =>
    simp only [digitsVal] at h
    cases hd : digitVal 10 c with
    | none => simp [hd] at h
    | some d =>
      simp only [hd] at h
      intro x hx
      simp only [List.mem_cons] at hx
      rcases hx with rfl | hx
      · simp only [digitVal, Option.filter_eq_some_iff] at hd
        obtain ⟨hd1, hd2⟩ := hd
        unfold isDigit
        simp only [decide_eq_true_eq] at hd2
        split at hd1
        next h => simpa using h
        next h =>
          split at hd1
          next h2 => simp at hd1; omega
          next h2 => split at hd1 <;> simp at hd1; omega
      · exact ih h x hx

theorem intOfTok_intStr (n : Int) : intOfTok (intStr n) = some n := by
  cases n with
  | ofNat n =>
    simp only [intStr]
    have h := digitsVal_natStr_acc (b := 10) (by omega) (by omega) n
    unfold intOfTok
    split
    next hs => exact absurd hs (natStr_ne_nil _ _)
    next r hr => exact absurd hr (natStr_head_ne not_isDigit_minus _ _)
    next => rw [h]; rfl
  | negSucc n =>
    have h := digitsVal_natStr_acc (b := 10) (by omega) (by omega) (n + 1)
    simp [intStr, intOfTok, natStr_ne_nil, h]

theorem isNumTok_natStr (n : Nat) : isNumTok (natStr 10 n) = true := by
  unfold isNumTok
  simp only [decide_eq_true_eq]
  have hd := natStr_digits (b := 10) rfl n
  have hl : lexDigits (natStr 10 n) = some (natStr 10 n, []) := by
    have := lexDigits_append (r := []) (natStr_ne_nil 10 n) hd (by simp)
    simpa using this
  have hi : lexInt (natStr 10 n) = some (natStr 10 n, []) := by
    unfold lexInt
    split
    next r hr =>
      have hz := natStr_head_zero (n := n) (by rw [hr]; rfl)
      subst hz
      rw [show natStr 10 0 = ['0'] by decide +kernel] at hr
      simp at hr; subst hr; rw [show natStr 10 0 = ['0'] by decide +kernel]
    next => exact hl
  have hu : lexUNum (natStr 10 n) = some (natStr 10 n, []) := by
    simp [lexUNum, hi, lexFrac, lexExp]
  unfold lexNum
  split
  next r hr => exact absurd hr (natStr_head_ne not_isDigit_minus _ _)
  next => exact hu

theorem isNumTok_intStr (n : Int) : isNumTok (intStr n) = true := by
  cases n with
  | ofNat n => exact isNumTok_natStr n
  | negSucc n =>
    have := isNumTok_natStr (n + 1)
    simp only [isNumTok, decide_eq_true_eq, intStr] at this ⊢
    unfold lexNum at this
    split at this
    next r hr => exact absurd hr (natStr_head_ne not_isDigit_minus _ _)
    next => simp [lexNum, this]

@[simp] theorem valid_encInt (n : Int) : Valid (encInt n) := by
  simp [encInt, Valid, isNumTok_intStr]
@[simp] theorem valid_encU8 (n : UInt8) : Valid (encU8 n) := valid_encInt _
@[simp] theorem valid_encU32 (n : UInt32) : Valid (encU32 n) := valid_encInt _
@[simp] theorem valid_encI8 (n : Int8) : Valid (encI8 n) := valid_encInt _
@[simp] theorem valid_encI16 (n : Int16) : Valid (encI16 n) := valid_encInt _
@[simp] theorem valid_encI32 (n : Int32) : Valid (encI32 n) := valid_encInt _
@[simp] theorem valid_str (s : Str) : Valid (str s) := by simp [Valid]
@[simp] theorem valid_bool (b : Bool) : Valid (bool b) := by simp [Valid]

@[simp] theorem depth_encInt (n : Int) : depth (encInt n) = 0 := by simp [encInt, depth]
@[simp] theorem depth_encU8 (n : UInt8) : depth (encU8 n) = 0 := depth_encInt _
@[simp] theorem depth_encU32 (n : UInt32) : depth (encU32 n) = 0 := depth_encInt _
@[simp] theorem depth_encI8 (n : Int8) : depth (encI8 n) = 0 := depth_encInt _
@[simp] theorem depth_encI16 (n : Int16) : depth (encI16 n) = 0 := depth_encInt _
@[simp] theorem depth_encI32 (n : Int32) : depth (encI32 n) = 0 := depth_encInt _
@[simp] theorem depth_str (s : Str) : depth (str s) = 0 := by simp [depth]
@[simp] theorem depth_bool (b : Bool) : depth (bool b) = 0 := by simp [depth]

theorem decInt_encInt {lo hi n : Int} (h1 : lo ≤ n) (h2 : n ≤ hi) :
    decInt lo hi (encInt n) = some n := by
  simp [decInt, encInt, intOfTok_intStr, h1, h2]

@[simp] theorem decU8_encU8 (n : UInt8) : decU8 (encU8 n) = some n := by
  have := n.toNat_lt
  unfold decU8 encU8
  rw [decInt_encInt (by omega) (by omega)]
  simp
@[simp] theorem decU32_encU32 (n : UInt32) : decU32 (encU32 n) = some n := by
  have := n.toNat_lt
  unfold decU32 encU32
  rw [decInt_encInt (by omega) (by omega)]
  simp
@[simp] theorem decI8_encI8 (n : Int8) : decI8 (encI8 n) = some n := by
  have h1 := n.toInt_lt
  have h2 := n.le_toInt
  unfold decI8 encI8
  rw [decInt_encInt (by omega) (by omega)]
  simp
@[simp] theorem decI16_encI16 (n : Int16) : decI16 (encI16 n) = some n := by
  have h1 := n.toInt_lt
  have h2 := n.le_toInt
  unfold decI16 encI16
  rw [decInt_encInt (by omega) (by omega)]
  simp
@[simp] theorem decI32_encI32 (n : Int32) : decI32 (encI32 n) = some n := by
  have h1 := n.toInt_lt
  have h2 := n.le_toInt
  unfold decI32 encI32
  rw [decInt_encInt (by omega) (by omega)]
  simp
@[simp] theorem decStr_str (s : Str) : decStr (str s) = some s := rfl
@[simp] theorem decBool_bool (b : Bool) : decBool (bool b) = some b := rfl

theorem decAll_map {α : Type} {dec : Json → Option α} {enc : α → Json} (as : List α)
    (h : ∀ a ∈ as, dec (enc a) = some a) : decAll dec (as.map enc) = some as := by
  induction as with
  | nil => rfl
  | cons a as ih =>
    simp [decAll, h a (by simp), ih (fun b hb => h b (by simp [hb]))]

theorem validArr_map {α : Type} {enc : α → Json} (as : List α) (h : ∀ a ∈ as, Valid (enc a)) :
    ValidArr (as.map enc) := by
  induction as with
  | nil => simp [ValidArr]
  | cons a as ih =>
    simp only [List.map_cons, ValidArr]
    exact ⟨h a (by simp), ih fun b hb => h b (by simp [hb])⟩

theorem depthArr_map_le {α : Type} {enc : α → Json} {n : Nat} (as : List α)
    (h : ∀ a ∈ as, depth (enc a) ≤ n) : depthArr (as.map enc) ≤ n := by
  induction as with
  | nil => simp [depthArr]
  | cons a as ih =>
    simp only [List.map_cons, depthArr]
    have := h a (by simp)
    have := ih fun b hb => h b (by simp [hb])
    omega

/-- An object all of whose keys are declared, without repetition, is read as it is. -/
theorem asStruct_obj {names : List Str} {kvs : Obj} (h1 : ∀ e ∈ kvs, e.1 ∈ names)
    (h2 : (kvs.map (·.1)).Nodup) : asStruct names (obj kvs) = some kvs := by
  have : kvs.filter (fun e => e.1 ∈ names) = kvs := by
    rw [List.filter_eq_self]; intro e he; simpa using h1 e he
  simp [asStruct, this, h2]

/-- The keys of `kvs` are a sublist of the declared names. -/
theorem asStruct_sublist {names : List Str} {kvs : Obj} (hn : names.Nodup)
    (h : (kvs.map (·.1)).Sublist names) : asStruct names (obj kvs) = some kvs :=
  asStruct_obj (fun _ he => h.subset (List.mem_map_of_mem he)) (hn.sublist h)

end Swrs.Json

namespace Swrs.Json

/-- `serde_json::from_str` for a type with the given decoder.
Derived `Deserialize` of the records of parser/{project,file,library,resource,view,logic}.rs. -/
def fromStr {α : Type} (dec : Json → Option α) (s : Str) : Option α := (parse s).bind dec

theorem fromStr_print {α : Type} {dec : Json → Option α} {j : Json} {a : α} (hv : j.Valid)
    (h : dec j = some a) : fromStr dec j.print = some a := by
  simp [fromStr, parse_print j hv, h]

end Swrs.Json
