import Verif.Float.Instance
import Verif.Props.Raw
import Verif.Props.Format
/-!
# C85, C86: names of resource files, fresh values
-/
namespace Swrs

/-! ## C85 — Names of resource files -/

/-- The path of a resource file ends in a name that is text. -/
def EndsIn (p : PathBuf) (name : Str) : Prop := ∃ pre, p = pre ++ [.normal (utf8 name)]

/-- C85: the full name of a resource file is the last component of its path, or the name given with its id. -/
theorem c85_full_name {ε : Type} (w : ResourceFileWrapper) (n : Str) : w.getFullName (ε := ε) = .ok n ↔
    (∃ p, w = .path p ∧ EndsIn p n) ∨ (∃ id t, w = .stringId id n t) ∨ ∃ id t, w = .u32Id id n t := by
  cases w with
  | path p =>
    simp only [ResourceFileWrapper.getFullName, PathBuf.fileName, EndsIn]
    rcases p.eq_nil_or_concat with rfl | ⟨q, c, rfl⟩
    · simp [Out.unwrap]
    · cases c <;> simp [Out.unwrap]
      rename_i b
      cases h : fromUtf8 b with
      | none =>
        simp only [reduceCtorEq, false_iff]
        intro hb
        rw [hb, fromUtf8_utf8] at h
        simp at h
      | some s => 
        rw [fromUtf8_eq_some] at h
        subst h
        constructor
        · intro h; simp at h; rw [h]
        · intro h
          have := congrArg fromUtf8 h
          rw [fromUtf8_utf8, fromUtf8_utf8] at this
          simpa using this
  | stringId id n' t => simp [ResourceFileWrapper.getFullName]
  | u32Id id n' t => simp [ResourceFileWrapper.getFullName]

/-- C85: asking for the name panics exactly if the file is a path that ends in no name or in a name that is no text; it is
never an error. -/
theorem c85_full_name_panics {ε : Type} (w : ResourceFileWrapper) :
    (w.getFullName (ε := ε) = .panic ↔ ∃ p, w = .path p ∧ ∀ n, ¬ EndsIn p n) ∧ ∀ e, w.getFullName (ε := ε) ≠ .err e := by
  have h := c85_full_name (ε := ε) w
  have he : ∀ e, w.getFullName (ε := ε) ≠ .err e := by
    intro e
    cases w with
    | path p =>
      simp only [ResourceFileWrapper.getFullName, Out.unwrap]
      cases p.fileName with
      | none => simp
      | some b => cases h : fromUtf8 b <;> simp [h]
    | stringId id n' t => simp [ResourceFileWrapper.getFullName]
    | u32Id id n' t => simp [ResourceFileWrapper.getFullName]
  refine ⟨?_, he⟩
  constructor
  · intro hp
    rw [hp] at h
    cases w with
    | path p => exact ⟨p, rfl, fun n hn => by simpa using (h n).mpr (.inl ⟨p, rfl, hn⟩)⟩
    | stringId id n' t => simp [ResourceFileWrapper.getFullName] at hp
    | u32Id id n' t => simp [ResourceFileWrapper.getFullName] at hp
  · rintro ⟨p, rfl, hp⟩
    cases hg : ResourceFileWrapper.getFullName (ε := ε) (.path p) with
    | panic => rfl
    | err e => exact absurd hg (he e)
    | ok n =>
      rcases (h n).mp hg with ⟨q, hq, hn⟩ | ⟨_, _, hq⟩ | ⟨_, _, hq⟩
      · cases hq; exact absurd hn (hp n)
      · cases hq
      · cases hq

/-- C85: among sorted resource files the name never panics, and every image, sound and font is filed under it. -/
theorem c85_filed {ε : Type} (ex : PathBuf → Bool) (ws : List ResourceFileWrapper) (r : ResourceFiles)
    (h : ResourceFiles.tryFrom ex ws = .ok r) :
    (∀ n w, (n, w) ∈ r.images ∨ (n, w) ∈ r.sounds ∨ (n, w) ∈ r.fonts → w.getFullName (ε := ε) = .ok n) ∧
    ∀ w, r.customIcon = some w → ∃ n, w.getFullName (ε := ε) = .ok n := by
  have hwf : r.WF := by
    rcases ResourceFiles.loop_spec ex ws _ ResourceFiles.wf_empty with ⟨_, r', h1, h2, _⟩ | ⟨_, _, _, _, _, _, _, h3⟩
    · unfold ResourceFiles.tryFrom at h
      rw [h1] at h; simp at h; subst h; exact h2
    · unfold ResourceFiles.tryFrom at h
      rw [h3] at h; simp at h
  have hslot : ∀ s w, r.at s = some w → InSlot ex w s := fun s w hw =>
    (ResourceFiles.LastIn.mem (((c57_sorted ex ws).2 r h s w).mp hw)).2
  have key : ∀ w s, InSlot ex w s → ∃ n t, s = ResourceType.slot n t ∧ w.getFullName (ε := ε) = .ok n := by
    rintro w s (⟨pre, t, mid, n, _, _⟩ | ⟨id, n, t⟩ | ⟨id, n, t⟩)
    · exact ⟨n, t, rfl, (c85_full_name _ _).mpr (.inl ⟨_, rfl, pre ++ [.normal (utf8 t.dir), mid], by simp⟩)⟩
    · exact ⟨n, t, rfl, rfl⟩
    · exact ⟨n, t, rfl, rfl⟩
  have hget : ∀ (m : HMap Str ResourceFileWrapper) (n : Str) (w : ResourceFileWrapper), (LMap.keys m).Nodup → (n, w) ∈ m →
      HMap.get m n = some w := fun m n w hm hw => LMap.get_of_mem hm hw
  constructor
  · rintro n w (hw | hw | hw)
    · obtain ⟨n', t, h1, h2⟩ := key w _ (hslot (.image n) w (hget _ _ _ hwf.1 hw))
      cases t <;> simp [ResourceType.slot] at h1
      rw [h2, h1]
    · obtain ⟨n', t, h1, h2⟩ := key w _ (hslot (.sound n) w (hget _ _ _ hwf.2.1 hw))
      cases t <;> simp [ResourceType.slot] at h1
      rw [h2, h1]
    · obtain ⟨n', t, h1, h2⟩ := key w _ (hslot (.font n) w (hget _ _ _ hwf.2.2 hw))
      cases t <;> simp [ResourceType.slot] at h1
      rw [h2, h1]
  · intro w hw
    obtain ⟨n, _, _, h2⟩ := key w _ (hslot .icon w hw)
    exact ⟨n, h2⟩

-- a picture in a project folder, a path without a name
example : ResourceFileWrapper.getFullName (ε := Unit) (.path [.root, .normal (utf8 (s% "images")), .normal (utf8 (s% "601")),
    .normal (utf8 (s% "cat.png"))]) = .ok (s% "cat.png") := by decide +kernel
example : ResourceFileWrapper.getFullName (ε := Unit) (.path [.root, .parent]) = .panic ∧
    ResourceFileWrapper.getFullName (ε := Unit) (.path [.normal [255]]) = .panic := by decide +kernel
example : ResourceFiles.tryFrom (fun _ => true) [.path [.normal (utf8 (s% "sounds")), .cur, .normal (utf8 (s% "a.mp3"))],
    .u32Id 7 (s% "b.png") .image] = .ok ⟨none, [(s% "b.png", .u32Id 7 (s% "b.png") .image)],
      [(s% "a.mp3", .path [.normal (utf8 (s% "sounds")), .cur, .normal (utf8 (s% "a.mp3"))])], []⟩ := by decide +kernel

/-! ## C86 — Fresh values -/

/-- C86: a raw project made of six texts is the one that is loaded from their encrypted forms. -/
theorem c86_raw (project file library resource view logic : Str) (ws : List ResourceFileWrapper) :
    RawSketchwareProject.fromEncrypted (encryptSw (utf8 project)) (encryptSw (utf8 file)) (encryptSw (utf8 library))
      (encryptSw (utf8 resource)) (encryptSw (utf8 view)) (encryptSw (utf8 logic)) ws =
      .ok (RawSketchwareProject.new project file library resource view logic ws) ∧
    RawSketchwareProject.fromEncryptedWoRes (encryptSw (utf8 project)) (encryptSw (utf8 file)) (encryptSw (utf8 library))
      (encryptSw (utf8 resource)) (encryptSw (utf8 view)) (encryptSw (utf8 logic)) =
      .ok (RawSketchwareProject.newWoRes project file library resource view logic) := by
  simp [RawSketchwareProject.fromEncrypted, RawSketchwareProject.fromEncryptedWoRes, RawSketchwareProject.decryptText,
    c01_decrypt_encrypt, fromUtf8_utf8, RawSketchwareProject.new, RawSketchwareProject.newWoRes]

section
open Ieee Format
attribute [local instance] ieeeFloats

/-- C86: the text of a fresh view: opaque, unscaled, clickable, enabled, with a padding of 8, a dark text of size
12, a maximum of 100 and so on. -/
theorem c86_view (id parent : Str) (type : UInt8) (parentType : Int8) :
    (AndroidView.newEmpty id type parent parentType).reconstruct =
      r#"{"adSize":"","adUnitId":"","alpha":1.0,"checked":0,"choiceMode":0,"clickable":1,"customView":"","dividerHeight":0,"#.toList ++
      r#""enabled":1,"firstDayOfWeek":1,"id":"#.toList ++ string id ++
      r#","image":{"rotate":0,"scaleType":"CENTER"},"indeterminate":"false","index":0,"#.toList ++
      r#""layout":{"backgroundColor":16777215,"gravity":0,"height":-2,"layoutGravity":0,"#.toList ++
      r#""marginBottom":0,"marginLeft":0,"marginRight":0,"marginTop":0,"orientation":1,"#.toList ++
      r#""paddingBottom":8,"paddingLeft":8,"paddingRight":8,"paddingTop":8,"weight":0,"weightSum":0,"width":-1},"#.toList ++
      r#""max":100,"parent":"#.toList ++ string parent ++ r#","parentType":"#.toList ++ number parentType.toInt ++
      r#","preId":"","preIndex":0,"preParentType":0,"progress":0,"progressStyle":"","scaleX":1.0,"scaleY":1.0,"#.toList ++
      r#""spinnerMode":1,"text":{"hint":"","hintColor":-10453621,"imeOption":0,"inputType":1,"line":0,"singleLine":0,"#.toList ++
      r#""text":"","textColor":-16777216,"textFont":"default_font","textSize":12,"textType":0},"#.toList ++
      r#""translationX":0.0,"translationY":0.0,"type":"#.toList ++ number type.toNat ++ "}".toList := by
  rw [c62_view]
  have happ : ∀ as bs : List Str, as ≠ [] → bs ≠ [] → commas (as ++ bs) = commas as ++ ([','] ++ commas bs) := by
    intro as
    induction as with
    | nil => simp
    | cons a as ih =>
      intro bs _ hb
      cases as with
      | nil => cases bs with
        | nil => simp at hb
        | cons b bs => simp [commas]
      | cons a' as => simp only [List.cons_append, commas]; rw [← List.cons_append, ih bs (by simp) hb]; simp
  let v := AndroidView.newEmpty [] 0 [] 0
  let f : String × Str → Str := fun m => string m.1.toList ++ [':'] ++ m.2
  let A : List (String × Str) := [
    ("adSize", string v.adSize), ("adUnitId", string v.adUnitId), ("alpha", float v.alpha), ("checked", flag v.checked),
    ("choiceMode", number (choiceMode v.choiceMode)), ("clickable", flag v.clickable), ("customView", string v.customView),
    ("dividerHeight", number v.dividerHeight.toNat), ("enabled", flag v.enabled),
    ("firstDayOfWeek", number v.firstDayOfWeek.toNat)]
  let B : List (String × Str) := [("image", image v.image),
    ("indeterminate", string (if v.indeterminate then "true".toList else "false".toList)), ("index", number v.index.toNat),
    ("layout", layout v.layout), ("max", number v.max.toNat)]
  let C : List (String × Str) := ifSome "preId" v.preId ++ [("preIndex", number v.preIndex.toInt)] ++
    ifSome "preParent" v.preParent ++ [
    ("preParentType", number v.preParentType.toInt), ("progress", number v.progress.toNat),
    ("progressStyle", string v.progressStyle), ("scaleX", float v.scaleX), ("scaleY", float v.scaleY),
    ("spinnerMode", number (spinnerMode v.spinnerMode)), ("text", text v.text), ("translationX", float v.translationX),
    ("translationY", float v.translationY)]
  show record (A ++ ([("id", string id)] ++ (B ++ ([("parent", string parent)] ++ ([("parentType", number parentType.toInt)] ++
    (C ++ [("type", number type.toNat)])))))) = _
  have h1 : ∀ k x, commas (List.map f [(k, x)]) = string k.toList ++ ([':'] ++ x) := fun k x => by simp [f, commas]
  have e1 : ['{'] ++ (commas (A.map f) ++ ([','] ++ (string "id".toList ++ [':']))) =
      r#"{"adSize":"","adUnitId":"","alpha":1.0,"checked":0,"choiceMode":0,"clickable":1,"customView":"","dividerHeight":0,"#.toList ++
      r#""enabled":1,"firstDayOfWeek":1,"id":"#.toList := by
    decide +kernel
  have e2 : [','] ++ (commas (B.map f) ++ ([','] ++ (string "parent".toList ++ [':']))) =
      r#","image":{"rotate":0,"scaleType":"CENTER"},"indeterminate":"false","index":0,"#.toList ++
      r#""layout":{"backgroundColor":16777215,"gravity":0,"height":-2,"layoutGravity":0,"#.toList ++
      r#""marginBottom":0,"marginLeft":0,"marginRight":0,"marginTop":0,"orientation":1,"#.toList ++
      r#""paddingBottom":8,"paddingLeft":8,"paddingRight":8,"paddingTop":8,"weight":0,"weightSum":0,"width":-1},"#.toList ++
      r#""max":100,"parent":"#.toList := by
    decide +kernel
  have e3 : [','] ++ (string "parentType".toList ++ [':']) = r#","parentType":"#.toList := by decide +kernel
  have e4 : [','] ++ (commas (C.map f) ++ ([','] ++ (string "type".toList ++ [':']))) =
      r#","preId":"","preIndex":0,"preParentType":0,"progress":0,"progressStyle":"","scaleX":1.0,"scaleY":1.0,"#.toList ++
      r#""spinnerMode":1,"text":{"hint":"","hintColor":-10453621,"imeOption":0,"inputType":1,"line":0,"singleLine":0,"#.toList ++
      r#""text":"","textColor":-16777216,"textFont":"default_font","textSize":12,"textType":0},"#.toList ++
      r#""translationX":0.0,"translationY":0.0,"type":"#.toList := by
    decide +kernel
  have e5 : ['}'] = "}".toList := by decide +kernel
  unfold record
  change ['{'] ++ commas (List.map f _) ++ ['}'] = _
  simp only [List.map_append]
  rw [happ _ _ (by simp [A]) (by simp), happ _ _ (by simp) (by simp [B]), happ _ _ (by simp [B]) (by simp),
    happ _ _ (by simp) (by simp), happ _ _ (by simp) (by simp), happ _ _ (by simp [C, ifSome]) (by simp), h1, h1, h1, h1]
  generalize commas (A.map f) = a, commas (B.map f) = b, commas (C.map f) = c at *
  refine Eq.trans (b := (['{'] ++ (a ++ ([','] ++ (string "id".toList ++ [':'])))) ++ string id ++
    ([','] ++ (b ++ ([','] ++ (string "parent".toList ++ [':'])))) ++ string parent ++
    ([','] ++ (string "parentType".toList ++ [':'])) ++ number parentType.toInt ++
    ([','] ++ (c ++ ([','] ++ (string "type".toList ++ [':'])))) ++ number type.toNat ++ ['}']) ?_ ?_
  · simp only [List.append_assoc]
  · rw [e1, e2, e3, e4, e5]
    simp only [List.append_assoc]

/-- C86: the colours of a fresh project. -/
theorem c86_palette : ProjectColorPalette.default.members.map (fun m => (String.ofList m.1, String.ofList m.2.print)) = [
    ("color_primary", "-16740915"), ("color_primary_dark", "-16743230"), ("color_accent", "-16740915"),
    ("color_control_normal", "-11026706"), ("color_control_highlight", "536907213")] := by
  decide +kernel

/-- C86: the default colour is opaque black. -/
theorem c86_color : Color.default.alpha = 255 ∧ Color.default.rgb = (0, 0, 0) ∧ Color.default.display = s% "0xff000000" := by
  decide +kernel

end

end Swrs
