import Verif.Model.View
import Verif.Proofs.FileLike
import Verif.Proofs.Color
/-! Records of the view file. -/
set_option linter.unusedSimpArgs false
namespace Swrs

namespace Json

theorem get_cons_self (k : Str) (v : Json) (r : Obj) : get ((k, v) :: r) k = some v := by simp [get]
theorem get_cons_ne {k k' : Str} (h : k ≠ k') (v : Json) (r : Obj) : get ((k, v) :: r) k' = get r k' := by
  simp [get, h]
theorem get_optKV_self (k : Str) (o : Option Str) (r : Obj) :
    get (optKV k o ++ r) k = match o with | some s => some (str s) | none => get r k := by
  cases o <;> simp [optKV, get]
theorem get_optKV_ne {k k' : Str} (h : k ≠ k') (o : Option Str) (r : Obj) :
    get (optKV k o ++ r) k' = get r k' := by
  cases o <;> simp [optKV, get, h]

theorem optKV_sub (k : Str) (o : Option Str) : ((optKV k o).map (·.1)).Sublist [k] := by
  cases o <;> simp [optKV]

theorem get_of_not_mem {o : Obj} {k : Str} (h : k ∉ o.map (·.1)) : get o k = none := by
  induction o with
  | nil => rfl
  | cons e o ih =>
    obtain ⟨k', v⟩ := e
    simp only [List.map_cons, List.mem_cons, not_or] at h
    rw [get_cons_ne (Ne.symm h.1), ih h.2]

theorem get_append_of_not_mem {a b : Obj} {k : Str} (h : k ∉ a.map (·.1)) : get (a ++ b) k = get b k := by
  induction a with
  | nil => rfl
  | cons e a ih =>
    obtain ⟨k', v⟩ := e
    simp only [List.map_cons, List.mem_cons, not_or] at h
    rw [List.cons_append, get_cons_ne (Ne.symm h.1), ih h.2]

theorem get_of_getElem {b : Obj} {i : Nat} {k : Str} {x : Json} (hn : (b.map (·.1)).Nodup)
    (h : b[i]? = some (k, x)) (c : Obj) : get (b ++ c) k = some x := by
  induction b generalizing i with
  | nil => simp at h
  | cons e b ih =>
    obtain ⟨k', v⟩ := e
    simp only [List.map_cons, List.nodup_cons] at hn
    cases i with
    | zero => simp at h; obtain ⟨rfl, rfl⟩ := h; rw [List.cons_append, get_cons_self]
    | succ i =>
      rw [List.getElem?_cons_succ] at h
      have : k ∈ b.map (·.1) := by
        have := List.mem_of_getElem? h
        exact List.mem_map_of_mem (f := (·.1)) this
      rw [List.cons_append, get_cons_ne, ih hn.2 h]
      rintro rfl; exact hn.1 this

/-- Value of a field of a record with distinct keys. -/
theorem get_field {a b c : Obj} {pa pb pc : List Str} {i : Nat} {k : Str} {x : Json}
    (hn : (pa ++ (pb ++ pc)).Nodup) (ha : (a.map (·.1)).Sublist pa) (hb : b.map (·.1) = pb)
    (h : b[i]? = some (k, x)) : get (a ++ (b ++ c)) k = some x := by
  have hk : k ∈ pb := by
    rw [← hb]; exact List.mem_map_of_mem (f := (·.1)) (List.mem_of_getElem? h)
  rw [get_append_of_not_mem]
  · refine get_of_getElem ?_ h c
    rw [hb]
    exact (List.nodup_append.mp (List.nodup_append.mp hn).2.1).1
  · intro hm
    exact (List.nodup_append.mp hn).2.2 k (ha.subset hm) k (by simp [hk]) rfl

/-- An optional text field of a record with distinct keys is read back. -/
theorem opt_field {a c : Obj} {pa pc : List Str} {k : Str} {x : Option Str}
    (hn : (pa ++ (k :: pc)).Nodup) (ha : (a.map (·.1)).Sublist pa) (hc : (c.map (·.1)).Sublist pc) :
    opt (a ++ (optKV k x ++ c)) k decStr = some x := by
  have ha' : k ∉ a.map (·.1) := fun hm => (List.nodup_append.mp hn).2.2 k (ha.subset hm) k (by simp) rfl
  have hc' : k ∉ c.map (·.1) := fun hm =>
    (List.nodup_cons.mp (List.nodup_append.mp hn).2.1).1 (hc.subset hm)
  unfold opt
  rw [get_append_of_not_mem ha', get_optKV_self]
  cases x with
  | none => simp [get_of_not_mem hc']
  | some s => simp

theorem step {α β : Type} {x : Option α} {a : α} {f : α → Option β} {r : Option β} (h : x = some a)
    (h2 : f a = r) : (x >>= f) = r := by subst h; exact h2
theorem step_congr {α β : Type} {x y : Option α} {f g : α → Option β} (h : x = y)
    (h2 : ∀ a, f a = g a) : (x >>= f) = (y >>= g) := by
  subst h
  have : f = g := funext h2
  rw [this]
theorem req_of_get {α : Type} {o : Obj} {k : Str} {j : Json} {dec : Json → Option α} (h : get o k = some j) :
    req o k dec = dec j := by simp [req, h]
theorem req_some {α : Type} {o : Obj} {k : Str} {j : Json} {dec : Json → Option α} {a : α}
    (h : get o k = some j) (h2 : dec j = some a) : req o k dec = some a := by simp [req, h, h2]

/-- An optional text field written by `optKV` is read back. -/
theorem opt_optKV {r o : Obj} {k : Str} {x : Option Str} (h : get o k = match x with | some s => some (str s) | none => get r k)
    (hr : get r k = none) : opt o k decStr = some x := by
  unfold opt
  rw [h]
  cases x with
  | none => simp [hr]
  | some s => simp

theorem validObj_append {a b : Obj} : ValidObj (a ++ b) ↔ ValidObj a ∧ ValidObj b := by
  induction a with
  | nil => simp [ValidObj]
  | cons e a ih => obtain ⟨k, v⟩ := e; simp [ValidObj, ih, and_assoc]
@[simp] theorem validObj_optKV (k : Str) (o : Option Str) : ValidObj (optKV k o) := by
  cases o <;> simp [optKV, ValidObj]

end Json

theorem decOneZero_encOneZero (b : Bool) : decOneZero (encOneZero b) = some b := by
  cases b <;> simp [decOneZero, encOneZero]
theorem decBoolStr_encBoolStr (b : Bool) : decBoolStr (encBoolStr b) = some b := by
  cases b <;> simp [decBoolStr, encBoolStr]
@[simp] theorem valid_encOneZero (b : Bool) : (encOneZero b).Valid := by simp [encOneZero]
@[simp] theorem valid_encBoolStr (b : Bool) : (encBoolStr b).Valid := by simp [encBoolStr]

@[simp] theorem Color.valid_enc (c : Color) : c.enc.Valid := by simp [Color.enc]

theorem ChoiceMode.dec_enc (x : ChoiceMode) : dec x.enc = some x := by
  apply decRepr_enc <;> cases x <;> decide
theorem SpinnerMode.dec_enc (x : SpinnerMode) : dec x.enc = some x := by
  apply decRepr_enc <;> cases x <;> decide
theorem LayoutOrientation.dec_enc (x : LayoutOrientation) : dec x.enc = some x := by
  apply decRepr_enc <;> cases x <;> decide
theorem ImeOption.dec_enc (x : ImeOption) : dec x.enc = some x := by
  apply decRepr_enc <;> cases x <;> decide
theorem InputType.dec_enc (x : InputType) : dec x.enc = some x := by
  apply decRepr_enc <;> cases x <;> decide
theorem TextType.dec_enc (x : TextType) : dec x.enc = some x := by
  apply decRepr_enc <;> cases x <;> decide
theorem ImageScaleType.dec_enc (x : ImageScaleType) : dec x.enc = some x := by
  cases x <;> decide
theorem Gravity.dec_enc (x : Gravity) : dec x.enc = some x := by
  simp [dec, enc]
theorem Size.dec_enc (x : Size) : dec x.enc = some (ofNum x.num) := by
  simp [dec, enc]

@[simp] theorem ChoiceMode.valid_enc (x : ChoiceMode) : x.enc.Valid := by simp [enc]
@[simp] theorem SpinnerMode.valid_enc (x : SpinnerMode) : x.enc.Valid := by simp [enc]
@[simp] theorem LayoutOrientation.valid_enc (x : LayoutOrientation) : x.enc.Valid := by simp [enc]
@[simp] theorem ImeOption.valid_enc (x : ImeOption) : x.enc.Valid := by simp [enc]
@[simp] theorem InputType.valid_enc (x : InputType) : x.enc.Valid := by simp [enc]
@[simp] theorem TextType.valid_enc (x : TextType) : x.enc.Valid := by simp [enc]
@[simp] theorem ImageScaleType.valid_enc (x : ImageScaleType) : x.enc.Valid := by simp [enc]
@[simp] theorem Gravity.valid_enc (x : Gravity) : x.enc.Valid := by simp [enc]
@[simp] theorem Size.valid_enc (x : Size) : x.enc.Valid := by simp [enc]

namespace ImageConfig
theorem dec_enc (c : ImageConfig) : dec c.enc = some c := by
  have h : Json.asStruct fields c.enc = some c.members := by
    refine Json.asStruct_sublist (by decide) ?_
    rw [members, List.map_append]
    exact (Json.optKV_sub _ _).append (List.Sublist.refl _)
  cases hr : c.resName with
  | _ => cases c; simp_all [dec, Json.req, Json.opt, Json.get, members, Json.optKV, ImageScaleType.dec_enc]
@[simp] theorem valid_enc (c : ImageConfig) : c.enc.Valid := by
  simp [enc, members, Json.Valid, Json.validObj_append, Json.ValidObj]

end ImageConfig

/-- The size read back for a size: fixed sizes of -1 and -2 are read as the two special ones. -/
def Size.norm (s : Size) : Size := ofNum s.num

/-- The layout configuration read back. -/
def LayoutConfig.norm (c : LayoutConfig) : LayoutConfig := { c with height := c.height.norm, width := c.width.norm }

namespace LayoutConfig
theorem dec_enc [Floats] (c : LayoutConfig) : dec c.enc = some c.norm := by
  have h : Json.asStruct fields c.enc = some c.members := by
    refine Json.asStruct_sublist (by decide) ?_
    exact List.Sublist.refl _
  simp [dec, h, Json.req, Json.get, members, Color.dec_enc, Gravity.dec_enc, Size.dec_enc, LayoutOrientation.dec_enc,
    norm, Size.norm]
@[simp] theorem valid_enc (c : LayoutConfig) : c.enc.Valid := by
  simp [enc, members, Json.Valid, Json.ValidObj]

end LayoutConfig

namespace TextConfig
theorem dec_enc [Floats] (c : TextConfig) : dec c.enc = some c := by
  have h : Json.asStruct fields c.enc = some c.members := by
    refine Json.asStruct_sublist (by decide) ?_
    exact List.Sublist.refl _
  simp [dec, h, Json.req, Json.get, members, Color.dec_enc, ImeOption.dec_enc, InputType.dec_enc, TextType.dec_enc,
    decOneZero_encOneZero]
@[simp] theorem valid_enc (c : TextConfig) : c.enc.Valid := by
  simp [enc, members, Json.Valid, Json.ValidObj]

end TextConfig

namespace AndroidView

/-- All five float fields are finite. -/
def Finite [Floats] (v : AndroidView) : Prop :=
  Floats.finite v.alpha = true ∧ Floats.finite v.scaleX = true ∧ Floats.finite v.scaleY = true ∧
  Floats.finite v.translationX = true ∧ Floats.finite v.translationY = true

/-- The view read back: only the special fixed sizes change. -/
def norm [Floats] (v : AndroidView) : AndroidView := { v with layout := v.layout.norm }

theorem asStruct_enc [Floats] (v : AndroidView) : Json.asStruct fields v.enc = some v.members := by
  refine Json.asStruct_sublist (by decide) ?_
  simp only [members, List.map_append]
  exact (List.Sublist.refl _).append ((Json.optKV_sub _ _).append ((List.Sublist.refl _).append
    ((Json.optKV_sub _ _).append ((List.Sublist.refl _).append ((Json.optKV_sub _ _).append (List.Sublist.refl _))))))

end AndroidView

namespace AndroidView
variable [Floats]

/-- Members between optional fields. -/
def segA (v : AndroidView) : Json.Obj :=
  [(s% "adSize", .str v.adSize), (s% "adUnitId", .str v.adUnitId), (s% "alpha", encF32 v.alpha),
    (s% "checked", encOneZero v.checked), (s% "choiceMode", v.choiceMode.enc),
    (s% "clickable", encOneZero v.clickable), (s% "customView", .str v.customView),
    (s% "dividerHeight", Json.encU32 v.dividerHeight), (s% "enabled", encOneZero v.enabled),
    (s% "firstDayOfWeek", Json.encU8 v.firstDayOfWeek), (s% "id", .str v.id),
    (s% "image", v.image.enc), (s% "indeterminate", encBoolStr v.indeterminate),
    (s% "index", Json.encU32 v.index), (s% "layout", v.layout.enc), (s% "max", Json.encU32 v.max)]

/-- Members between optional fields. -/
def segB (v : AndroidView) : Json.Obj :=
  [(s% "parentType", Json.encI8 v.parentType)]

/-- Members between optional fields. -/
def segC (v : AndroidView) : Json.Obj :=
  [(s% "preIndex", Json.encI32 v.preIndex)]

/-- Members between optional fields. -/
def segD (v : AndroidView) : Json.Obj :=
  [(s% "preParentType", Json.encI8 v.preParentType), (s% "progress", Json.encU32 v.progress),
    (s% "progressStyle", .str v.progressStyle), (s% "scaleX", encF32 v.scaleX),
    (s% "scaleY", encF32 v.scaleY), (s% "spinnerMode", v.spinnerMode.enc), (s% "text", v.text.enc),
    (s% "translationX", encF32 v.translationX), (s% "translationY", encF32 v.translationY),
    (s% "type", Json.encU8 v.type)]

theorem members_segs (v : AndroidView) : v.members = v.segA ++ (Json.optKV (s% "parent") v.parent ++ (v.segB ++
    (Json.optKV (s% "preId") v.preId ++ (v.segC ++ (Json.optKV (s% "preParent") v.preParent ++ v.segD))))) := rfl

theorem get_segA (v : AndroidView) {i : Nat} {k : Str} {x : Json} (h : v.segA[i]? = some (k, x)) :
    Json.get v.members k = some x := by
  rw [members_segs]
  exact Json.get_field (a := []) (pa := []) (pb := fields.take 16) (pc := []) (by decide) (by simp) rfl h

theorem opt_parent (v : AndroidView) : Json.opt v.members (s% "parent") Json.decStr = some v.parent := by
  have e : v.members = (v.segA) ++ (Json.optKV (s% "parent") v.parent ++ (v.segB ++ (Json.optKV (s% "preId") v.preId ++ (v.segC ++ (Json.optKV (s% "preParent") v.preParent ++ (v.segD)))))) := by
    rw [members_segs]; try simp only [List.append_assoc, List.append_nil]
  rw [e]
  refine Json.opt_field (pa := fields.take 16) (pc := fields.drop 17) (by decide) ?_ ?_
  · (try simp only [List.map_append]); exact (List.Sublist.refl _)
  · (try simp only [List.map_append]); exact ((List.Sublist.refl _).append ((Json.optKV_sub _ _).append ((List.Sublist.refl _).append ((Json.optKV_sub _ _).append (List.Sublist.refl _)))))

theorem get_segB (v : AndroidView) {i : Nat} {k : Str} {x : Json} (h : v.segB[i]? = some (k, x)) :
    Json.get v.members k = some x := by
  have e : v.members = (v.segA ++ (Json.optKV (s% "parent") v.parent)) ++ (v.segB ++ (Json.optKV (s% "preId") v.preId ++ (v.segC ++ (Json.optKV (s% "preParent") v.preParent ++ (v.segD))))) := by
    rw [members_segs]; try simp only [List.append_assoc, List.append_nil]
  rw [e]
  refine Json.get_field (pa := fields.take 17) (pb := (fields.drop 17).take 1) (pc := [])
    (by decide) ?_ rfl h
  (try simp only [List.map_append]); exact ((List.Sublist.refl _).append (Json.optKV_sub _ _))

theorem opt_preId (v : AndroidView) : Json.opt v.members (s% "preId") Json.decStr = some v.preId := by
  have e : v.members = (v.segA ++ (Json.optKV (s% "parent") v.parent ++ (v.segB))) ++ (Json.optKV (s% "preId") v.preId ++ (v.segC ++ (Json.optKV (s% "preParent") v.preParent ++ (v.segD)))) := by
    rw [members_segs]; try simp only [List.append_assoc, List.append_nil]
  rw [e]
  refine Json.opt_field (pa := fields.take 18) (pc := fields.drop 19) (by decide) ?_ ?_
  · (try simp only [List.map_append]); exact ((List.Sublist.refl _).append ((Json.optKV_sub _ _).append (List.Sublist.refl _)))
  · (try simp only [List.map_append]); exact ((List.Sublist.refl _).append ((Json.optKV_sub _ _).append (List.Sublist.refl _)))

theorem get_segC (v : AndroidView) {i : Nat} {k : Str} {x : Json} (h : v.segC[i]? = some (k, x)) :
    Json.get v.members k = some x := by
  have e : v.members = (v.segA ++ (Json.optKV (s% "parent") v.parent ++ (v.segB ++ (Json.optKV (s% "preId") v.preId)))) ++ (v.segC ++ (Json.optKV (s% "preParent") v.preParent ++ (v.segD))) := by
    rw [members_segs]; try simp only [List.append_assoc, List.append_nil]
  rw [e]
  refine Json.get_field (pa := fields.take 19) (pb := (fields.drop 19).take 1) (pc := [])
    (by decide) ?_ rfl h
  (try simp only [List.map_append]); exact ((List.Sublist.refl _).append ((Json.optKV_sub _ _).append ((List.Sublist.refl _).append (Json.optKV_sub _ _))))

theorem opt_preParent (v : AndroidView) : Json.opt v.members (s% "preParent") Json.decStr = some v.preParent := by
  have e : v.members = (v.segA ++ (Json.optKV (s% "parent") v.parent ++ (v.segB ++ (Json.optKV (s% "preId") v.preId ++ (v.segC))))) ++ (Json.optKV (s% "preParent") v.preParent ++ (v.segD)) := by
    rw [members_segs]; try simp only [List.append_assoc, List.append_nil]
  rw [e]
  refine Json.opt_field (pa := fields.take 20) (pc := fields.drop 21) (by decide) ?_ ?_
  · (try simp only [List.map_append]); exact ((List.Sublist.refl _).append ((Json.optKV_sub _ _).append ((List.Sublist.refl _).append ((Json.optKV_sub _ _).append (List.Sublist.refl _)))))
  · (try simp only [List.map_append]); exact (List.Sublist.refl _)

theorem get_segD (v : AndroidView) {i : Nat} {k : Str} {x : Json} (h : v.segD[i]? = some (k, x)) :
    Json.get v.members k = some x := by
  have e : v.members = (v.segA ++ (Json.optKV (s% "parent") v.parent ++ (v.segB ++ (Json.optKV (s% "preId") v.preId ++ (v.segC ++ (Json.optKV (s% "preParent") v.preParent)))))) ++ (v.segD ++ ([])) := by
    rw [members_segs]; try simp only [List.append_assoc, List.append_nil]
  rw [e]
  refine Json.get_field (pa := fields.take 21) (pb := (fields.drop 21).take 10) (pc := [])
    (by decide) ?_ rfl h
  (try simp only [List.map_append]); exact ((List.Sublist.refl _).append ((Json.optKV_sub _ _).append ((List.Sublist.refl _).append ((Json.optKV_sub _ _).append ((List.Sublist.refl _).append (Json.optKV_sub _ _))))))

end AndroidView

/-- Reading the float fields back. -/
theorem AndroidView.decF32_enc [FloatLaws] (x : Floats.F32) :
    decF32 (encF32 x) = if Floats.finite x = true then some x else none := by
  split
  next h => exact decF32_encF32 x h
  next h => exact decF32_encF32_none x (by simpa using h)

namespace AndroidView

theorem dec_enc_eq [Floats] (v : AndroidView) : dec v.enc = (do
    let alpha ← decF32 (encF32 v.alpha)
    let scaleX ← decF32 (encF32 v.scaleX)
    let scaleY ← decF32 (encF32 v.scaleY)
    let translationX ← decF32 (encF32 v.translationX)
    let translationY ← decF32 (encF32 v.translationY)
    pure { v.norm with alpha, scaleX, scaleY, translationX, translationY }) := by
  unfold dec
  refine Json.step v.asStruct_enc ?_
  refine Json.step (Json.req_some (v.get_segA (i := 0) rfl) (Json.decStr_str _)) ?_
  refine Json.step (Json.req_some (v.get_segA (i := 1) rfl) (Json.decStr_str _)) ?_
  refine Json.step_congr (Json.req_of_get (v.get_segA (i := 2) rfl)) fun alpha => ?_
  refine Json.step (Json.req_some (v.get_segA (i := 3) rfl) (decOneZero_encOneZero _)) ?_
  refine Json.step (Json.req_some (v.get_segA (i := 4) rfl) (ChoiceMode.dec_enc _)) ?_
  refine Json.step (Json.req_some (v.get_segA (i := 5) rfl) (decOneZero_encOneZero _)) ?_
  refine Json.step (Json.req_some (v.get_segA (i := 6) rfl) (Json.decStr_str _)) ?_
  refine Json.step (Json.req_some (v.get_segA (i := 7) rfl) (Json.decU32_encU32 _)) ?_
  refine Json.step (Json.req_some (v.get_segA (i := 8) rfl) (decOneZero_encOneZero _)) ?_
  refine Json.step (Json.req_some (v.get_segA (i := 9) rfl) (Json.decU8_encU8 _)) ?_
  refine Json.step (Json.req_some (v.get_segA (i := 10) rfl) (Json.decStr_str _)) ?_
  refine Json.step (Json.req_some (v.get_segA (i := 11) rfl) (ImageConfig.dec_enc _)) ?_
  refine Json.step (Json.req_some (v.get_segA (i := 12) rfl) (decBoolStr_encBoolStr _)) ?_
  refine Json.step (Json.req_some (v.get_segA (i := 13) rfl) (Json.decU32_encU32 _)) ?_
  refine Json.step (Json.req_some (v.get_segA (i := 14) rfl) (LayoutConfig.dec_enc _)) ?_
  refine Json.step (Json.req_some (v.get_segA (i := 15) rfl) (Json.decU32_encU32 _)) ?_
  refine Json.step (opt_parent v) ?_
  refine Json.step (Json.req_some (v.get_segB (i := 0) rfl) (Json.decI8_encI8 _)) ?_
  refine Json.step (opt_preId v) ?_
  refine Json.step (Json.req_some (v.get_segC (i := 0) rfl) (Json.decI32_encI32 _)) ?_
  refine Json.step (opt_preParent v) ?_
  refine Json.step (Json.req_some (v.get_segD (i := 0) rfl) (Json.decI8_encI8 _)) ?_
  refine Json.step (Json.req_some (v.get_segD (i := 1) rfl) (Json.decU32_encU32 _)) ?_
  refine Json.step (Json.req_some (v.get_segD (i := 2) rfl) (Json.decStr_str _)) ?_
  refine Json.step_congr (Json.req_of_get (v.get_segD (i := 3) rfl)) fun scaleX => ?_
  refine Json.step_congr (Json.req_of_get (v.get_segD (i := 4) rfl)) fun scaleY => ?_
  refine Json.step (Json.req_some (v.get_segD (i := 5) rfl) (SpinnerMode.dec_enc _)) ?_
  refine Json.step (Json.req_some (v.get_segD (i := 6) rfl) (TextConfig.dec_enc _)) ?_
  refine Json.step_congr (Json.req_of_get (v.get_segD (i := 7) rfl)) fun translationX => ?_
  refine Json.step_congr (Json.req_of_get (v.get_segD (i := 8) rfl)) fun translationY => ?_
  refine Json.step (Json.req_some (v.get_segD (i := 9) rfl) (Json.decU8_encU8 _)) ?_
  rfl

open Classical in
/-- A written view is read back up to the normalisation of sizes; with a non-finite float it does not parse. -/
theorem dec_enc [FloatLaws] (v : AndroidView) : dec v.enc = if v.Finite then some v.norm else none := by
  rw [dec_enc_eq]
  simp only [decF32_enc]
  unfold Finite
  cases Floats.finite v.alpha <;> cases Floats.finite v.scaleX <;> cases Floats.finite v.scaleY <;>
    cases Floats.finite v.translationX <;> cases Floats.finite v.translationY <;> simp [norm]

theorem valid_enc [FloatLaws] (v : AndroidView) : v.enc.Valid := by
  simp [enc, members, Json.Valid, Json.ValidObj, Json.validObj_append]

theorem jline [FloatLaws] (v : AndroidView) : JLine v.reconstruct := jline_obj v.valid_enc

theorem parse_reconstruct [FloatLaws] (v : AndroidView) (h : v.Finite) : parse v.reconstruct = some v.norm :=
  Json.fromStr_print v.valid_enc (by rw [dec_enc, if_pos h])

theorem parse_reconstruct_none [FloatLaws] (v : AndroidView) (h : ¬ v.Finite) : parse v.reconstruct = none := by
  unfold parse Json.fromStr reconstruct
  rw [Json.parse_print _ v.valid_enc]
  simp [dec_enc, h]

end AndroidView
end Swrs

namespace Swrs
/-- A size that is not one of the two numbers used for the special sizes. -/
def Size.Normal (s : Size) : Prop := s ≠ .fixed (-1) ∧ s ≠ .fixed (-2)

theorem Size.norm_eq_iff (s : Size) : s.norm = s ↔ s.Normal := by
  cases s with
  | matchParent => simp [norm, num, ofNum, Normal]
  | wrapContent => simp [norm, num, ofNum, Normal]
  | fixed n =>
    simp only [norm, num, ofNum, Normal]
    by_cases h1 : n = -2
    · simp [h1]
    · by_cases h2 : n = -1
      · simp [h2]
      · simp [h1, h2]

/-- Width and height are no disguised special sizes. -/
def AndroidView.NormalSizes [Floats] (v : AndroidView) : Prop := v.layout.width.Normal ∧ v.layout.height.Normal

theorem AndroidView.norm_eq_iff [Floats] (v : AndroidView) : v.norm = v ↔ v.NormalSizes := by
  unfold NormalSizes
  rw [← Size.norm_eq_iff, ← Size.norm_eq_iff]
  constructor
  · intro h
    have h1 : v.norm.layout = v.layout := by rw [h]
    exact ⟨congrArg LayoutConfig.width h1, congrArg LayoutConfig.height h1⟩
  · rintro ⟨h1, h2⟩
    cases v with
    | mk => simp only [norm, LayoutConfig.norm] at *; simp [h1, h2]

/-- The view is read back as it was. -/
def AndroidView.Storable [Floats] (v : AndroidView) : Prop := v.Finite ∧ v.NormalSizes

theorem AndroidView.parse_reconstruct_iff [FloatLaws] (v : AndroidView) :
    parse v.reconstruct = some v ↔ v.Storable := by
  by_cases h : v.Finite
  · rw [parse_reconstruct v h, Option.some.injEq, norm_eq_iff]; simp [Storable, h]
  · rw [parse_reconstruct_none v h]; simp [Storable, h]
end Swrs
