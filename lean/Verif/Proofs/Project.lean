import Verif.Model.Project
import Verif.Proofs.Date
import Verif.Proofs.Color
import Verif.Json.Grammar
/-! Project records. -/
namespace Swrs.Project

theorem decU16Str_encU16Str (n : UInt16) : decU16Str (encU16Str n) = some n := by
  have := n.toNat_lt
  simp [decU16Str, encU16Str, parseUnsigned_natStr (max := 65535) (n := n.toNat) (by omega)]

theorem bufferable_color [Floats] (c : Color) : bufferable c.enc = true ∧ c.enc.depth ≤ 126 := by
  refine ⟨?_, by simp [Color.enc]⟩
  unfold Color.enc Json.encI32 Json.encInt
  simp only [bufferable, Json.intOfTok_intStr, Bool.or_eq_true, decide_eq_true_eq]
  have h1 := c.value.toInt32.toInt_lt
  have h2 := c.value.toInt32.le_toInt
  exact .inl ⟨by omega, by omega⟩

theorem visit_enc [Floats] (p : Project) (date : Str) (o : Json.Obj) (ho : p.enc date = .obj o) :
    visit [] o = (do let _ ← Date.deserialize date; pure ()) := by
  unfold enc at ho
  injection ho with ho
  subst ho
  cases hd : Date.deserialize date with
  | _ => simp [visit, visitField, fields, ProjectColorPalette.members, decU16Str_encU16Str, decDate, hd, bufferable_color]

/-- Decoding an encoded project reads everything back, except the date, which goes through its text. -/
theorem dec_enc [FloatLaws] (p : Project) (date : Str) : dec (p.enc date) =
    (do let d ← Date.deserialize date; pure { p with dateCreated := d }) := by
  have hv := visit_enc p date _ rfl
  unfold dec
  have hp : ProjectColorPalette.dec ([(s% "sc_id", encU16Str p.id), (s% "my_app_name", .str p.appName),
    (s% "my_ws_name", .str p.workspaceName), (s% "my_sc_pkg_name", .str p.packageName),
    (s% "sc_ver_code", encU16Str p.versionCode), (s% "sc_ver_name", .str p.versionName),
    (s% "my_sc_reg_dt", .str date), (s% "custom_icon", .bool p.customIcon)] ++
    (p.colorPalette.members ++ [(s% "sketchware_ver", Json.encU8 p.sketchwareVersion)])) = some p.colorPalette := by
    simp [ProjectColorPalette.dec, Json.asStruct, ProjectColorPalette.fields, ProjectColorPalette.members,
      Json.req, Json.get, Color.dec_enc]
  simp only [enc, hv, hp]
  cases hd : Date.deserialize date with
  | _ => simp [Json.req, Json.get, decU16Str_encU16Str, ProjectColorPalette.members, decDate, hd]

theorem valid_enc (p : Project) (date : Str) : (p.enc date).Valid := by
  simp [enc, Json.Valid, Json.ValidObj, ProjectColorPalette.members, encU16Str, Color.enc]
/-- The members of an object are those that are read from its text. -/
theorem readMembers_text (f : Nat) : ∀ {ms : List (Option Str × Json)} {u : Str} (rest : Str) (o : Json.Obj), Json.Members ms u →
    ms = Json.withKeys o → 2 * u.length ≤ f → readMembers f (u ++ rest) = o := by
  induction f with
  | zero =>
    intro ms u rest o h _ hf
    obtain ⟨w, r, rfl, _⟩ := Json.members_head h
    simp at hf
  | succ f ih =>
    intro ms u rest o h ho hf
    cases h with
    | @one w l w1 w2 t w3 k v h hk h1 h2 hv h3 =>
      obtain ⟨⟨k', v'⟩, rfl⟩ : ∃ m, o = [m] := by
        have := congrArg List.length ho
        simp only [Json.withKeys, List.length_map] at this
        exact List.length_eq_one_iff.mp this.symm
      simp [Json.withKeys] at ho
      obtain ⟨rfl, rfl⟩ := ho
      have e1 := (Json.parse_grammar f).1 v t w2 (w3 ++ '}' :: rest) hv h2 (Json.stop_space h3 (Json.stop_rbrace _))
        (by simp at hf; omega)
      have e2 : Json.skip (w3 ++ '}' :: rest) = '}' :: rest := Json.skip_space h3 (by simp [Json.isSpace])
      have e3 : ∀ r, Json.skip (w ++ '"' :: r) = '"' :: r := fun r => Json.skip_space h (by simp [Json.isSpace])
      have e4 : ∀ r, Json.skip (w1 ++ ':' :: r) = ':' :: r := fun r => Json.skip_space h1 (by simp [Json.isSpace])
      simp only [List.append_assoc, List.cons_append, List.nil_append]
      simp only [readMembers, e3, Json.lexString_lit hk, e4, e1, e2]
      rfl
    | @cons w l w1 w2 t w3 u k v ms h hk h1 h2 hv h3 hs =>
      cases o with
      | nil => simp [Json.withKeys] at ho
      | cons m o =>
        obtain ⟨k', v'⟩ := m
        simp only [Json.withKeys, List.map_cons, List.cons.injEq, Prod.mk.injEq] at ho
        obtain ⟨⟨rfl, rfl⟩, hms⟩ := ho
        have e1 := (Json.parse_grammar f).1 v t w2 (w3 ++ ',' :: (u ++ rest)) hv h2 (Json.stop_space h3 (Json.stop_comma _))
          (by simp at hf; omega)
        have e2 : Json.skip (w3 ++ ',' :: (u ++ rest)) = ',' :: (u ++ rest) := Json.skip_space h3 (by simp [Json.isSpace])
        have e3 : ∀ r, Json.skip (w ++ '"' :: r) = '"' :: r := fun r => Json.skip_space h (by simp [Json.isSpace])
        have e4 : ∀ r, Json.skip (w1 ++ ':' :: r) = ':' :: r := fun r => Json.skip_space h1 (by simp [Json.isSpace])
        have e5 := ih rest o hs hms (by simp at hf; omega)
        simp only [List.append_assoc, List.cons_append]
        simp only [readMembers, e3, Json.lexString_lit hk, e4, e1, e2, e5]

theorem membersRead_text {o : Json.Obj} {s : Str} (h : Json.IsText (.obj o) s) : membersRead s = o := by
  obtain ⟨w, t, w', rfl, hw, ht, hw'⟩ := h
  have hsk : Json.skip (w ++ (t ++ w')) = t ++ w' := by
    obtain ⟨c, r, rfl, h1, _⟩ := Json.val_head ht
    exact Json.skip_space hw (by simp [h1])
  unfold membersRead
  rw [hsk]
  cases ht with
  | obj0 h =>
    simp only [List.cons_append, List.append_assoc, List.nil_append]
    rw [readMembers, Json.skip_space h (by simp [Json.isSpace])]
    simp
  | @obj ms u h =>
    simp only [List.cons_append]
    exact readMembers_text _ w' _ h rfl (by simp; omega)

/-- The text of an object is decoded like the object. -/
theorem parse_text [Floats] {o : Json.Obj} {s : Str} (h : Json.IsText (.obj o) s) : parse s = dec (.obj o) := by
  unfold parse
  rw [membersRead_text h, Json.parse_iff.mpr h, dec]
  cases h : visit [] o with
  | ok u => simp only [Out.ok_bind, dec, h]
  | err e => rfl
  | panic => rfl

theorem parse_print_enc [FloatLaws] (p : Project) (date : Str) : parse (p.enc date).print =
    (do let d ← Date.deserialize date; pure { p with dateCreated := d }) := by
  have h := Json.parse_iff.mp (Json.parse_print _ (p.valid_enc date))
  rw [← p.dec_enc date]
  exact parse_text h

end Swrs.Project
