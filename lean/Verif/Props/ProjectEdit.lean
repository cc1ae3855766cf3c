import Verif.Props.EditText
/-!
# C147: an edit of the metadata or the colours changes only its own member of the project text
-/
set_option linter.unusedSectionVars false
namespace Swrs.Api
open Format

/-- Specification: a member of the object. -/
def c147_member (key : String) (value : Str) : Str := string key.toList ++ [':'] ++ value

/-- Specification: the text of a time. -/
def c147_date (t : Date.DateTime) : Str := number t.year ++ number t.month ++ number t.day ++ number t.hour ++ number t.minute ++ number t.second

/-- The members of the project text. -/
def c147_members (m : Metadata) (c : Colors) (icon : Bool) (t : Date.DateTime) : List (String × Str) := [
  ("sc_id", string (number m.localId.toNat)), ("my_app_name", string m.name), ("my_ws_name", string m.workspaceName),
  ("my_sc_pkg_name", string m.packageName), ("sc_ver_code", string (number m.versionCode.toNat)), ("sc_ver_name", string m.versionName),
  ("my_sc_reg_dt", string (c147_date t)), ("custom_icon", if icon then "true".toList else "false".toList),
  ("color_primary", color c.colorPrimary), ("color_primary_dark", color c.colorPrimaryDark), ("color_accent", color c.colorAccent),
  ("color_control_normal", color c.colorControlNormal), ("color_control_highlight", color c.colorControlHighlight),
  ("sketchware_ver", number m.sketchwareVersion.toNat)]

/-- What is written into the project text. -/
def c147_project (m : Metadata) (c : Colors) (icon : Bool) : Project := {
  id := m.localId, appName := m.name, workspaceName := m.workspaceName, packageName := m.packageName, versionCode := m.versionCode
  versionName := m.versionName, dateCreated := m.timeCreated, customIcon := icon
  colorPalette := { colorPrimary := c.colorPrimary, colorPrimaryDark := c.colorPrimaryDark, colorAccent := c.colorAccent
                    colorControlNormal := c.colorControlNormal, colorControlHighlight := c.colorControlHighlight }
  sketchwareVersion := m.sketchwareVersion }

theorem c147_project_text (m : Metadata) (c : Colors) (icon : Bool) {t : Date.DateTime} (ht : Date.fromTimestamp m.timeCreated.toInt64.toInt = some t) :
    (c147_project m c icon).reconstruct = .ok (record (c147_members m c icon t)) :=
  c62_project (c147_project m c icon) (t := t) (by unfold c147_project; exact ht)

theorem c147_project_date {m : Metadata} {c : Colors} {icon : Bool} {x : Str} (h : (c147_project m c icon).reconstruct = .ok x) :
    ∃ t, Date.fromTimestamp m.timeCreated.toInt64.toInt = some t := by
  cases ht : Date.fromTimestamp m.timeCreated.toInt64.toInt with
  | some t => exact ⟨t, rfl⟩
  | none =>
    have e : Date.serialize (c147_project m c icon).dateCreated = none := by unfold Date.serialize c147_project; rw [ht]; rfl
    unfold Project.reconstruct at h
    rw [e] at h
    cases h

theorem c147_commas {a b : Str} {s s' : List Str} (h : c143_Differ [a] [b] s s') : c143_Differ a b (commas s) (commas s') := by
  obtain ⟨p, r, rfl, rfl⟩ := h
  induction p with
  | nil =>
    cases r with
    | nil => exact .here
    | cons t r => exact .right _ (.right _ .here)
  | cons t p ih =>
    have e : ∀ z : Str, commas (t :: p ++ ([z] ++ r)) = t ++ [','] ++ commas (p ++ ([z] ++ r)) := fun z => by cases p <;> rfl
    rw [e, e]
    exact ih.left _

theorem c147_record {k : String} {x y : Str} {s s' : List (String × Str)} (h : c143_Differ [(k, x)] [(k, y)] s s') :
    c143_Differ (c147_member k x) (c147_member k y) (record s) (record s') := by
  unfold record
  exact .right _ (.left _ (c147_commas (c143_map (fun m : String × Str => string m.1.toList ++ [':'] ++ m.2) h)))

section
variable [MapPol] [Floats]
variable (p : SketchwareProject) (rs : Option (List ResourceFileWrapper)) (raw : RawSketchwareProject)

theorem c147_text (h : c143_Saved p rs raw) : ∃ t, Date.fromTimestamp p.metadata.timeCreated.toInt64.toInt = some t ∧
    raw.project = record (c147_members p.metadata p.colors p.customIcon.isSome t) ∧
    ∀ metadata colors t', Date.fromTimestamp metadata.timeCreated.toInt64.toInt = some t' →
      c143_Saved { p with metadata, colors } rs { raw with project := record (c147_members metadata colors p.customIcon.isSome t') } := by
  obtain ⟨q, hq, hr⟩ := h
  simp only [SketchwareProject.toParsed, Out.bind_eq_ok] at hq
  obtain ⟨⟨logics, layouts, fabs⟩, h1, ⟨images, imageFiles⟩, h2, ⟨sounds, soundFiles⟩, h3, ⟨fonts, fontFiles⟩, h4, h5⟩ := hq
  cases h5
  simp only [Swrs.SketchwareProject.tryIntoRaw, Out.bind_eq_ok, Out.pure_eq, Out.ok.injEq] at hr
  obtain ⟨pr, hpr, rfl⟩ := hr
  have hpr' : (c147_project p.metadata p.colors p.customIcon.isSome).reconstruct = .ok pr := hpr
  obtain ⟨t, ht⟩ := c147_project_date hpr'
  rw [c147_project_text _ _ _ ht] at hpr'
  refine ⟨t, ht, (Out.ok.inj hpr').symm, fun metadata colors t' ht' => ⟨_, by simp only [SketchwareProject.toParsed, h1, h2, h3, h4, Out.ok_bind, Out.pure_eq]; rfl, ?_⟩⟩
  have e := c147_project_text metadata colors p.customIcon.isSome ht'
  unfold c147_project at e
  unfold Swrs.SketchwareProject.tryIntoRaw
  dsimp only
  rw [e]
  rfl

/-- C147: an edit of one of the texts and numbers of the metadata. -/
theorem c147_metadata (h : c143_Saved p rs raw) :
    (∀ x, ∃ text, c143_Saved { p with metadata := { p.metadata with localId := x } } rs { raw with project := text } ∧
      c143_Differ (c147_member "sc_id" (string (number p.metadata.localId.toNat))) (c147_member "sc_id" (string (number x.toNat))) raw.project text) ∧
    (∀ x, ∃ text, c143_Saved { p with metadata := { p.metadata with name := x } } rs { raw with project := text } ∧
      c143_Differ (c147_member "my_app_name" (string p.metadata.name)) (c147_member "my_app_name" (string x)) raw.project text) ∧
    (∀ x, ∃ text, c143_Saved { p with metadata := { p.metadata with workspaceName := x } } rs { raw with project := text } ∧
      c143_Differ (c147_member "my_ws_name" (string p.metadata.workspaceName)) (c147_member "my_ws_name" (string x)) raw.project text) ∧
    (∀ x, ∃ text, c143_Saved { p with metadata := { p.metadata with packageName := x } } rs { raw with project := text } ∧
      c143_Differ (c147_member "my_sc_pkg_name" (string p.metadata.packageName)) (c147_member "my_sc_pkg_name" (string x)) raw.project text) ∧
    (∀ x, ∃ text, c143_Saved { p with metadata := { p.metadata with versionCode := x } } rs { raw with project := text } ∧
      c143_Differ (c147_member "sc_ver_code" (string (number p.metadata.versionCode.toNat))) (c147_member "sc_ver_code" (string (number x.toNat))) raw.project text) ∧
    (∀ x, ∃ text, c143_Saved { p with metadata := { p.metadata with versionName := x } } rs { raw with project := text } ∧
      c143_Differ (c147_member "sc_ver_name" (string p.metadata.versionName)) (c147_member "sc_ver_name" (string x)) raw.project text) ∧
    (∀ x, ∃ text, c143_Saved { p with metadata := { p.metadata with sketchwareVersion := x } } rs { raw with project := text } ∧
      c143_Differ (c147_member "sketchware_ver" (number p.metadata.sketchwareVersion.toNat)) (c147_member "sketchware_ver" (number x.toNat)) raw.project text) := by
  obtain ⟨t, ht, he, hs⟩ := c147_text p rs raw h
  refine ⟨fun x => ?_, fun x => ?_, fun x => ?_, fun x => ?_, fun x => ?_, fun x => ?_, fun x => ?_⟩
  all_goals
    refine ⟨_, hs _ _ t ht, ?_⟩
    rw [he]
    refine c147_record ?_
  · exact ⟨[], _, rfl, rfl⟩
  · exact ⟨[_], _, rfl, rfl⟩
  · exact ⟨[_, _], _, rfl, rfl⟩
  · exact ⟨[_, _, _], _, rfl, rfl⟩
  · exact ⟨[_, _, _, _], _, rfl, rfl⟩
  · exact ⟨[_, _, _, _, _], _, rfl, rfl⟩
  · exact ⟨[_, _, _, _, _, _, _, _, _, _, _, _, _], _, rfl, rfl⟩

/-- C147: an edit of the time of creation: the project can be saved with a time that is a date, and only with one. -/
theorem c147_time (x : UInt64) (h : c143_Saved p rs raw) :
    (∀ t', Date.fromTimestamp x.toInt64.toInt = some t' → ∃ t text, Date.fromTimestamp p.metadata.timeCreated.toInt64.toInt = some t ∧
      c143_Saved { p with metadata := { p.metadata with timeCreated := x } } rs { raw with project := text } ∧
      c143_Differ (c147_member "my_sc_reg_dt" (string (c147_date t))) (c147_member "my_sc_reg_dt" (string (c147_date t'))) raw.project text) ∧
    (Date.fromTimestamp x.toInt64.toInt = none → ∀ raw', ¬ c143_Saved { p with metadata := { p.metadata with timeCreated := x } } rs raw') := by
  obtain ⟨t, ht, he, hs⟩ := c147_text p rs raw h
  refine ⟨fun t' ht' => ⟨t, _, ht, hs _ _ t' ht', ?_⟩, fun hx raw' h' => ?_⟩
  · rw [he]
    exact c147_record ⟨[_, _, _, _, _, _], _, rfl, rfl⟩
  · obtain ⟨t', ht', -⟩ := c147_text _ rs raw' h'
    dsimp only at ht'
    rw [hx] at ht'
    cases ht'

/-- C147: an edit of one of the colours. -/
theorem c147_colors (h : c143_Saved p rs raw) :
    (∀ x, ∃ text, c143_Saved { p with colors := { p.colors with colorPrimary := x } } rs { raw with project := text } ∧
      c143_Differ (c147_member "color_primary" (color p.colors.colorPrimary)) (c147_member "color_primary" (color x)) raw.project text) ∧
    (∀ x, ∃ text, c143_Saved { p with colors := { p.colors with colorPrimaryDark := x } } rs { raw with project := text } ∧
      c143_Differ (c147_member "color_primary_dark" (color p.colors.colorPrimaryDark)) (c147_member "color_primary_dark" (color x)) raw.project text) ∧
    (∀ x, ∃ text, c143_Saved { p with colors := { p.colors with colorAccent := x } } rs { raw with project := text } ∧
      c143_Differ (c147_member "color_accent" (color p.colors.colorAccent)) (c147_member "color_accent" (color x)) raw.project text) ∧
    (∀ x, ∃ text, c143_Saved { p with colors := { p.colors with colorControlNormal := x } } rs { raw with project := text } ∧
      c143_Differ (c147_member "color_control_normal" (color p.colors.colorControlNormal)) (c147_member "color_control_normal" (color x)) raw.project text) ∧
    (∀ x, ∃ text, c143_Saved { p with colors := { p.colors with colorControlHighlight := x } } rs { raw with project := text } ∧
      c143_Differ (c147_member "color_control_highlight" (color p.colors.colorControlHighlight)) (c147_member "color_control_highlight" (color x))
        raw.project text) := by
  obtain ⟨t, ht, he, hs⟩ := c147_text p rs raw h
  refine ⟨fun x => ?_, fun x => ?_, fun x => ?_, fun x => ?_, fun x => ?_⟩
  all_goals
    refine ⟨_, hs _ _ t ht, ?_⟩
    rw [he]
    refine c147_record ?_
  · exact ⟨[_, _, _, _, _, _, _, _], _, rfl, rfl⟩
  · exact ⟨[_, _, _, _, _, _, _, _, _], _, rfl, rfl⟩
  · exact ⟨[_, _, _, _, _, _, _, _, _, _], _, rfl, rfl⟩
  · exact ⟨[_, _, _, _, _, _, _, _, _, _, _], _, rfl, rfl⟩
  · exact ⟨[_, _, _, _, _, _, _, _, _, _, _, _], _, rfl, rfl⟩

-- a new name with a quote, a new colour, and a time that is a date and one that is none
example : ∃ raw, c143_Saved c143_demo none raw ∧
    (∃ text, c143_Differ (c147_member "my_app_name" (string c143_demo.metadata.name)) (c147_member "my_app_name" (string (s% "my \"app\""))) raw.project text) ∧
    (∃ text, c143_Differ (c147_member "color_accent" (color c143_demo.colors.colorAccent)) (c147_member "color_accent" (color (Color.fromRgb 255 0 0)))
      raw.project text) ∧
    (∃ t text, c143_Differ (c147_member "my_sc_reg_dt" (string (c147_date t))) (c147_member "my_sc_reg_dt" (string (s% "197011001"))) raw.project text) ∧
    ∀ raw', ¬ c143_Saved { c143_demo with metadata := { c143_demo.metadata with timeCreated := 9223372036854775807 } } none raw' := by
  obtain ⟨raw, h⟩ := c143_demo_saved
  refine ⟨raw, h, ?_, ?_, ?_, ?_⟩
  · obtain ⟨t, -, ht⟩ := (c147_metadata _ _ _ h).2.1 (s% "my \"app\"")
    exact ⟨t, ht⟩
  · obtain ⟨t, -, ht⟩ := (c147_colors _ _ _ h).2.2.1 (Color.fromRgb 255 0 0)
    exact ⟨t, ht⟩
  · obtain ⟨t, text, -, -, ht⟩ := (c147_time _ _ _ 1 h).1 ⟨1970, 1, 1, 0, 0, 1⟩ (by decide +kernel)
    exact ⟨t, text, by rw [show s% "197011001" = c147_date ⟨1970, 1, 1, 0, 0, 1⟩ by decide +kernel]; exact ht⟩
  · exact (c147_time _ _ _ 9223372036854775807 h).2 (by decide +kernel)
end
end Swrs.Api
