import Verif.Proofs.Distinct
import Verif.Proofs.DistinctLogic
import Verif.Props.Messages
import Verif.Props.Files
import Verif.Props.View
import Verif.Props.Raw
/-!
# C112: different data are written as different texts
-/
namespace Swrs

/-! ## Library, resource list and file list -/

/-- C112: two libraries with the same text are the same. -/
theorem c112_library (a b : Library) : a.reconstruct = b.reconstruct ↔ a = b := by
  refine ⟨fun h => ?_, fun h => h ▸ rfl⟩
  have h1 := c19_library_round_trip a
  rw [h, c19_library_round_trip b] at h1
  exact (Out.ok.inj h1).symm

/-- C112: two resource lists with the same text are the same. -/
theorem c112_resource (a b : Resource) : a.reconstruct = b.reconstruct ↔ a = b := by
  refine ⟨fun h => ?_, fun h => h ▸ rfl⟩
  have h1 := c18_resource_round_trip a
  rw [h, c18_resource_round_trip b] at h1
  exact (Out.ok.inj h1).symm

/-- C112: two file lists with the same text are the same, although not every file list is read back (C17). -/
theorem c112_file [FloatLaws] (a b : File) : a.reconstruct = b.reconstruct ↔ a = b := by
  refine ⟨fun h => ?_, fun h => h ▸ rfl⟩
  have key : ∀ f : File, visible (lines f.reconstruct) =
      groups [(s% "@activity", f.activities.map FileItem.reconstruct), (s% "@customview", f.customViews.map FileItem.reconstruct)] := by
    intro f
    have sec : ∀ is : List FileItem, visible (File.sectionLines is) = is.map FileItem.reconstruct := by
      intro is
      unfold File.sectionLines
      split
      next h => simp [h, visible]
      next h => exact visible_of_ne fun l hl => (File.jlines is l hl).ne_nil
    have e : lines f.reconstruct = [s% "@activity"] ++ (File.sectionLines f.activities ++
        ([s% "@customview"] ++ File.sectionLines f.customViews)) := by rw [File.lines_reconstruct]; rfl
    rw [e, visible_append, visible_append, visible_append, sec, sec]
    simp [groups, visible]
  have hg : ∀ f : File, ∀ g ∈ [(s% "@activity", f.activities.map FileItem.reconstruct),
      (s% "@customview", f.customViews.map FileItem.reconstruct)],
      startsWith ['@'] g.1 = true ∧ ∀ l ∈ g.2, startsWith ['@'] l = false := by
    intro f g hg
    simp only [List.mem_cons, List.not_mem_nil, or_false] at hg
    rcases hg with rfl | rfl
    · exact ⟨rfl, fun l hl => (File.jlines _ l hl).not_at⟩
    · exact ⟨rfl, fun l hl => (File.jlines _ l hl).not_at⟩
  have h1 := groups_inj (hg a) (hg b) (by rw [← key, ← key, h])
  simp only [List.cons.injEq, Prod.mk.injEq, true_and, and_true] at h1
  have inj : ∀ is js : List FileItem, is.map FileItem.reconstruct = js.map FileItem.reconstruct → is = js := by
    intro is js hij
    have := congrArg (List.map FileItem.parse) hij
    simp only [List.map_map, Function.comp_def, FileItem.parse_reconstruct] at this
    exact (List.map_inj_right fun _ _ e => Option.some.inj e).mp this
  cases a; cases b
  simp only at h1
  rw [inj _ _ h1.1, inj _ _ h1.2]

/-- The file lists that are read as the empty one are told apart by their texts. -/
example : c17_witness.reconstruct ≠ (⟨[], []⟩ : File).reconstruct ∧
    File.parse c17_witness.reconstruct = File.parse (⟨[], []⟩ : File).reconstruct := by decide +kernel

/-! ## Views -/

/-- C112: two views with finite numbers have the same text exactly when they differ in nothing but the way a size is given:
their sizes stand for the same numbers and everything else is equal. -/
theorem c112_view_record [FloatLaws] (v w : AndroidView) (hv : v.Finite) (hw : w.Finite) :
    v.reconstruct = w.reconstruct ↔
      w = { v with layout := { v.layout with width := w.layout.width, height := w.layout.height } } ∧
      v.layout.width.num = w.layout.width.num ∧ v.layout.height.num = w.layout.height.num := by
  constructor
  · intro h
    obtain ⟨a, ha, a1, a2, a3⟩ := c21_view_reads_back v hv
    obtain ⟨b, hb, b1, b2, b3⟩ := c21_view_reads_back w hw
    rw [h, hb] at ha
    obtain rfl := Option.some.inj ha
    refine ⟨?_, a1.symm.trans b1, a2.symm.trans b2⟩
    exact congrArg (fun x : AndroidView =>
      { x with layout := { x.layout with width := w.layout.width, height := w.layout.height } }) (b3.symm.trans a3)
  · rintro ⟨h1, h2, h3⟩
    rw [h1]
    unfold AndroidView.reconstruct AndroidView.enc AndroidView.members LayoutConfig.enc LayoutConfig.members Size.enc
    simp only [h2, h3]

/-- C112: two view files whose names are single lines have the same text exactly when they hold the same layouts and FABs, in the
same order, under the same names and with the same texts of views. -/
theorem c112_view [FloatLaws] (v w : View)
    (hv : (∀ e ∈ v.layouts, '\n' ∉ e.1) ∧ ∀ e ∈ v.fabs, '\n' ∉ e.1)
    (hw : (∀ e ∈ w.layouts, '\n' ∉ e.1) ∧ ∀ e ∈ w.fabs, '\n' ∉ e.1) :
    v.reconstruct = w.reconstruct ↔
      v.layouts.map (fun e => (e.1, e.2.views.map AndroidView.reconstruct)) =
        w.layouts.map (fun e => (e.1, e.2.views.map AndroidView.reconstruct)) ∧
      v.fabs.map (fun e => (e.1, e.2.reconstruct)) = w.fabs.map (fun e => (e.1, e.2.reconstruct)) := by
  have gl : ∀ e : Str × Layout, View.groupL e = (fun x : Str × List Str => ('@' :: (x.1 ++ s% ".xml"), x.2))
      (e.1, e.2.views.map AndroidView.reconstruct) := fun _ => rfl
  have gf : ∀ e : Str × AndroidView, View.groupF e = (fun x : Str × Str => ('@' :: (x.1 ++ s% ".xml_fab"), [x.2]))
      (e.1, e.2.reconstruct) := fun _ => rfl
  have ml : ∀ ls : List (Str × Layout), ls.map View.groupL =
      (ls.map fun e => (e.1, e.2.views.map AndroidView.reconstruct)).map fun x => ('@' :: (x.1 ++ s% ".xml"), x.2) := by
    intro ls; simp only [List.map_map]; exact List.map_congr_left fun e _ => gl e
  have mf : ∀ fs : List (Str × AndroidView), fs.map View.groupF =
      (fs.map fun e => (e.1, e.2.reconstruct)).map fun x => ('@' :: (x.1 ++ s% ".xml_fab"), [x.2]) := by
    intro fs; simp only [List.map_map]; exact List.map_congr_left fun e _ => gf e
  constructor
  · intro h
    have hg : ∀ u : View, ∀ g ∈ u.layouts.map View.groupL ++ u.fabs.map View.groupF,
        startsWith ['@'] g.1 = true ∧ ∀ l ∈ g.2, startsWith ['@'] l = false := by
      intro u g hg
      simp only [List.mem_append, List.mem_map] at hg
      rcases hg with ⟨e, _, rfl⟩ | ⟨e, _, rfl⟩
      · exact ⟨rfl, fun l hl => (Layout.jlines _ l hl).not_at⟩
      · refine ⟨rfl, fun l hl => ?_⟩
        simp only [View.groupF, List.mem_singleton] at hl
        subst hl; exact e.2.jline.not_at
    have h1 := groups_inj (hg v) (hg w)
      (by rw [← View.visible_reconstruct v hv.1 hv.2, ← View.visible_reconstruct w hw.1 hw.2, h])
    obtain ⟨h2, h3⟩ := View.split_groups h1
    rw [ml, ml] at h2
    rw [mf, mf] at h3
    refine ⟨(List.map_inj_right ?_).mp h2, (List.map_inj_right ?_).mp h3⟩
    · rintro ⟨a, b⟩ ⟨c, d⟩ e
      simp only [Prod.mk.injEq, List.cons.injEq, List.append_cancel_right_eq, true_and] at e
      rw [e.1, e.2]
    · rintro ⟨a, b⟩ ⟨c, d⟩ e
      simp only [Prod.mk.injEq, List.cons.injEq, List.append_cancel_right_eq, true_and, and_true] at e
      rw [e.1, e.2]
  · rintro ⟨h1, h2⟩
    have e1 : ∀ u : View, u.layoutsText = (u.layouts.map fun e => (e.1, e.2.views.map AndroidView.reconstruct)).flatMap
        fun x => '@' :: (x.1 ++ (s% ".xml\n" ++ (joinWith '\n' x.2 ++ ['\n']))) := by
      intro u
      unfold View.layoutsText
      rw [View.foldl_append, List.flatMap_map]
      simp only [Layout.reconstruct_eq, List.nil_append]
    have e2 : ∀ u : View, u.fabsText = (u.fabs.map fun e => (e.1, e.2.reconstruct)).flatMap
        fun x => '@' :: (x.1 ++ (s% ".xml_fab\n" ++ (x.2 ++ ['\n']))) := by
      intro u
      unfold View.fabsText
      rw [View.foldl_append, List.flatMap_map]
      simp only [List.nil_append]
    unfold View.reconstruct
    rw [e1, e1, e2, e2, h1, h2]

/-- A size that is given by its kind and one that is given as the number of that kind are written alike. -/
example [FloatLaws] : c21_witness.reconstruct =
    ({ c21_witness with layout := { c21_witness.layout with width := .wrapContent } } : AndroidView).reconstruct :=
  (c112_view_record _ _ (newEmpty_finite _ _ _ _) (newEmpty_finite _ _ _ _)).mpr ⟨rfl, rfl, rfl⟩

/-- Two views that differ in their text. -/
example [FloatLaws] : (AndroidView.newEmpty (s% "v") 3 (s% "root") 0).reconstruct ≠ (AndroidView.newEmpty (s% "v") 3 (s% "root") 1).reconstruct := by
  rw [Ne, c112_view_record _ _ (newEmpty_finite _ _ _ _) (newEmpty_finite _ _ _ _)]
  intro h
  have := congrArg AndroidView.parentType h.1
  simp [AndroidView.newEmpty] at this

/-- C112 is false of view files in general: a layout with a line break in its name and two layouts have the same text. -/
theorem c112_view_false [FloatLaws] : ¬ ∀ v w : View, v.reconstruct = w.reconstruct → v = w := by
  intro h
  have := h ⟨[(s% "a.xml\n\n@b", ⟨[]⟩)], []⟩ ⟨[(s% "a", ⟨[]⟩), (s% "b", ⟨[]⟩)], []⟩ (by
    rw [View.reconstruct_eq, View.reconstruct_eq]
    simp only [View.layoutLines, List.flatMap_cons, List.flatMap_nil, if_true]
    decide)
  simp at this

/-! ## Project file -/

/-- The numbers of a date, each written as short as it can be, one after the other. -/
def c112_digits (t : Date.DateTime) : Str :=
  intStr t.year ++ natStr 10 t.month ++ natStr 10 t.day ++ natStr 10 t.hour ++ natStr 10 t.minute ++ natStr 10 t.second

/-- C112: two project files have the same text exactly when the projects differ at most in the creation time and the numbers of
the two dates are the same when run together. -/
theorem c112_project [FloatLaws] (p q : Project) (t u : Date.DateTime) (ht : t.Valid) (hu : u.Valid)
    (hp : Date.timestamp t = p.dateCreated.toInt64.toInt) (hq : Date.timestamp u = q.dateCreated.toInt64.toInt) :
    p.reconstruct = q.reconstruct ↔ q = { p with dateCreated := q.dateCreated } ∧ c112_digits t = c112_digits u := by
  have key : ∀ (r : Project) (d : Date.DateTime), d.Valid → Date.timestamp d = r.dateCreated.toInt64.toInt →
      r.reconstruct = .ok (r.enc (c112_digits d)).print := by
    intro r d hd hr
    have : Date.fromTimestamp r.dateCreated.toInt64.toInt = some d := by rw [← hr]; exact Date.fromTimestamp_timestamp hd
    simp [Project.reconstruct, Date.serialize, this]; rfl
  rw [key p t ht hp, key q u hu hq, Out.ok.injEq]
  constructor
  · intro h
    have h1 := Json.parse_print _ (p.valid_enc (c112_digits t))
    rw [h, Json.parse_print _ (q.valid_enc (c112_digits u)), Option.some.injEq] at h1
    have hd : c112_digits t = c112_digits u := by
      simp only [Project.enc, Json.obj.injEq, List.cons_append, List.cons.injEq, Prod.mk.injEq, Json.str.injEq] at h1
      exact h1.2.2.2.2.2.2.1.2.symm
    refine ⟨?_, hd⟩
    have swap : ∀ (r : Project) (a b : Str), (r.enc b) = (match r.enc a with
        | .obj (x1 :: x2 :: x3 :: x4 :: x5 :: x6 :: _ :: rest) => .obj (x1 :: x2 :: x3 :: x4 :: x5 :: x6 :: (s% "my_sc_reg_dt", .str b) :: rest)
        | j => j) := fun r a b => rfl
    have h2 : p.enc (s% "20221231235958") = q.enc (s% "20221231235958") := by
      rw [swap p (c112_digits t), swap q (c112_digits u), h1]
    have e1 := Project.parse_print_enc p (s% "20221231235958")
    have e2 := Project.parse_print_enc q (s% "20221231235958")
    have hdt : Date.deserialize (s% "20221231235958") = .ok 1672531198 := by decide +kernel
    rw [h2, e2, hdt] at e1
    simp only [Out.ok_bind, Out.pure_eq, Out.ok.injEq] at e1
    exact congrArg (fun x : Project => { x with dateCreated := q.dateCreated }) e1
  · rintro ⟨h1, h2⟩
    rw [h1, h2]; rfl

/-- C112: of two dates in the years 1000 to 9999, the one with full width is told apart from every other one. -/
theorem c112_full_width (t u : Date.DateTime) (ht : t.Valid) (hu : u.Valid) (hf : Date.FullWidth t)
    (h1 : 1000 ≤ t.year) (h2 : 1000 ≤ u.year ∧ u.year ≤ 9999) : c112_digits t = c112_digits u ↔ t = u := by
  refine ⟨fun h => ?_, fun h => h ▸ rfl⟩
  obtain ⟨hy, hm, hd, hh, hmm, hs⟩ := hf
  have t31 := Date.day_le ht.1
  have u31 := Date.day_le hu.1
  obtain ⟨_, _, _, tm, _, _⟩ := Date.validDate_iff.mp ht.1
  obtain ⟨_, _, _, um, _, _⟩ := Date.validDate_iff.mp hu.1
  obtain ⟨t1, t2, t3⟩ := Date.validTime_iff.mp ht.2
  obtain ⟨u1, u2, u3⟩ := Date.validTime_iff.mp hu.2
  have nn : ∀ n : Nat, byteLen (natStr 10 n) = (natStr 10 n).length := fun n => Date.byteLen_natStr n
  have ty : ∀ y : Int, 1000 ≤ y ∧ y ≤ 9999 → ∃ n : Nat, y = n ∧ intStr y = natStr 10 n ∧ (intStr y).length = 4 := by
    intro y hy
    have := Date.intStr_four (.inl hy)
    cases y with
    | ofNat n => exact ⟨n, rfl, rfl, (nn n).symm.trans this⟩
    | negSucc n => omega
  obtain ⟨a, ha, ha', ha4⟩ := ty t.year (by omega)
  obtain ⟨b, hb, hb', hb4⟩ := ty u.year h2
  have two : ∀ n, 10 ≤ n → n < 100 → (natStr 10 n).length = 2 := fun n h1 h2 => by rw [← nn]; exact Date.natStr_two h1 h2
  have le2 : ∀ n, n < 100 → (natStr 10 n).length ≤ 2 := fun n h => by rw [← nn]; exact (Date.natStr_le_two h).1
  have hl := congrArg List.length h
  simp only [c112_digits, List.length_append] at hl
  have := two t.month hm (by omega)
  have := two t.day hd (by omega)
  have := two t.hour hh (by omega)
  have := two t.minute hmm (by omega)
  have := two t.second hs (by omega)
  have := le2 u.month (by omega)
  have := le2 u.day (by omega)
  have := le2 u.hour (by omega)
  have := le2 u.minute (by omega)
  have := le2 u.second (by omega)
  unfold c112_digits at h
  obtain ⟨h, e6⟩ := List.append_inj' h (by omega)
  obtain ⟨h, e5⟩ := List.append_inj' h (by omega)
  obtain ⟨h, e4⟩ := List.append_inj' h (by omega)
  obtain ⟨h, e3⟩ := List.append_inj' h (by omega)
  obtain ⟨h, e2⟩ := List.append_inj' h (by omega)
  rw [ha', hb'] at h
  have e1 : t.year = u.year := by rw [ha, hb, natStr_inj h]
  cases t; cases u
  simp only at e1 e2 e3 e4 e5 e6
  rw [e1, natStr_inj e2, natStr_inj e3, natStr_inj e4, natStr_inj e5, natStr_inj e6]

/-- C112 is false of project files: a project created on 2022-01-11 and one created on 2022-11-01 have the same text. -/
theorem c112_project_false [FloatLaws] : ∃ p q : Project, p ≠ q ∧ (∃ s, p.reconstruct = .ok s) ∧ p.reconstruct = q.reconstruct := by
  let p : Project := { c15_witness with dateCreated := 1641895810 }
  let q : Project := { c15_witness with dateCreated := 1667297410 }
  have h : p.reconstruct = q.reconstruct :=
    (c112_project p q ⟨2022, 1, 11, 10, 10, 10⟩ ⟨2022, 11, 1, 10, 10, 10⟩ (by decide +kernel) (by decide +kernel)
      (by decide +kernel) (by decide +kernel)).mpr ⟨rfl, by decide +kernel⟩
  obtain ⟨s, hs, _⟩ := c15_project_round_trip_partial p ⟨2022, 1, 11, 10, 10, 10⟩ (by decide +kernel) (by decide +kernel)
  refine ⟨p, q, fun e => ?_, ⟨s, hs⟩, h⟩
  have := congrArg Project.dateCreated e
  revert this; decide

/-- Two dates that are told apart. -/
example : (Date.DateTime.mk 2022 12 31 23 59 58).Valid ∧ (Date.DateTime.mk 2022 1 2 3 4 5).Valid ∧
    Date.FullWidth ⟨2022, 12, 31, 23, 59, 58⟩ ∧
    c112_digits ⟨2022, 12, 31, 23, 59, 58⟩ ≠ c112_digits ⟨2022, 1, 2, 3, 4, 5⟩ := by
  refine ⟨by decide +kernel, by decide +kernel, by unfold Date.FullWidth; simp, by decide +kernel⟩

/-! ## Logic -/

/-- C112: two components, events or blocks with the same text are the same. -/
theorem c112_records [FloatLaws] : (∀ a b : Component, a.reconstruct = b.reconstruct ↔ a = b) ∧
    (∀ a b : Event, a.reconstruct = b.reconstruct ↔ a = b) ∧ (∀ a b : Block, a.reconstruct = b.reconstruct ↔ a = b) := by
  refine ⟨fun a b => ⟨fun h => ?_, fun h => h ▸ rfl⟩, fun a b => ⟨fun h => ?_, fun h => h ▸ rfl⟩,
    fun a b => ⟨fun h => ?_, fun h => h ▸ rfl⟩⟩
  · have := a.parse_reconstruct
    rw [h, b.parse_reconstruct] at this
    exact (Option.some.inj this).symm
  · have := a.parse_reconstruct
    rw [h, b.parse_reconstruct] at this
    exact (Option.some.inj this).symm
  · have := a.parse_reconstruct
    rw [h, b.parse_reconstruct] at this
    exact (Option.some.inj this).symm

/-- C112, proved part for the logic: two logics whose screens are filed under their names and can be told apart in the text (C28) and
that have the same text agree on every screen that has a pool or a block container, whether the text is read back or not. Missing:
other logics, for which the property is false (`c112_logic_false`), and the empty screens, which are not written
(`c112_logic_empty`). -/
theorem c112_logic_partial [MapPol] [FloatLaws] (l m : Logic) (hl : c28_Maps l) (hm : c28_Maps m)
    (hl' : ∀ e ∈ l.screens, e.1 = e.2.name ∧ c28_ScreenOk e.2) (hm' : ∀ e ∈ m.screens, e.1 = e.2.name ∧ c28_ScreenOk e.2)
    (h : l.reconstruct = m.reconstruct) (k : Str) (s : ScreenLogic) (hs : ¬ s.Empty) :
    l.screens.get k = some s ↔ m.screens.get k = some s := by
  have parts : ∀ l : Logic, c28_Maps l → (∀ e ∈ l.screens, e.1 = e.2.name ∧ c28_ScreenOk e.2) → ∀ s ∈ l.screens.map (·.2), s.PartsOk := by
    intro l hl hl' s hs
    simp only [List.mem_map] at hs
    obtain ⟨e, he, rfl⟩ := hs
    obtain ⟨h1, h2, h3, h4⟩ := hl.2 e he
    exact (c28_screenOk_iff h1 h2 h3 h4).mpr (hl' e he).2
  have kl := fun e he => (hl' e he).1
  have km := fun e he => (hm' e he).1
  exact ⟨Logic.same_text l m kl km hl.1 hm.1 (parts l hl hl') (parts m hm hm') h k s hs,
    Logic.same_text m l km kl hm.1 hl.1 (parts m hm hm') (parts l hl hl') h.symm k s hs⟩

/-- C112 is false of empty screens: a logic with one empty screen has the same text as the empty logic. -/
theorem c112_logic_empty : ∃ l m : Logic, l.reconstruct = m.reconstruct ∧ l.screens.keys ≠ m.screens.keys ∧
    ∀ e ∈ l.screens, e.2.Empty := by
  refine ⟨⟨[(s% "A", ScreenLogic.newEmpty (s% "A"))]⟩, ⟨[]⟩, by decide +kernel, by simp [LMap.keys], ?_⟩
  intro e he
  simp at he
  subst he
  exact ⟨rfl, rfl, rfl, rfl, rfl, rfl⟩

/-- Two logics that are not read back, because the block container of the second screen is lost (C28), are told apart by the name of
that screen. -/
example [FloatLaws] :
    (⟨[(s% "main", c28_pool (s% "main")), (s% "second", c28_blocks (s% "second"))]⟩ : Logic).reconstruct ≠
    (⟨[(s% "main", c28_pool (s% "main")), (s% "third", c28_blocks (s% "third"))]⟩ : Logic).reconstruct := by
  let _ : MapPol := ⟨true, true⟩
  have maps : ∀ n : Str, n ≠ s% "main" → c28_Maps ⟨[(s% "main", c28_pool (s% "main")), (n, c28_blocks n)]⟩ := by
    intro n hn
    refine ⟨by simpa [LMap.keys] using hn.symm, ?_⟩
    intro e he; simp at he
    rcases he with rfl | rfl
    · exact ⟨c28_pool_maps _, nofun, nofun, by simp [c28_pool, ScreenLogic.newEmpty]⟩
    · exact ⟨nofun, nofun, nofun, by simp [c28_blocks]⟩
  have ok : ∀ n : Str, '\n' ∉ n → ¬ (s% ".java_") <:+: n →
      ∀ e ∈ [(s% "main", c28_pool (s% "main")), (n, c28_blocks n)], e.1 = e.2.name ∧ c28_ScreenOk e.2 := by
    intro n h1 h2 e he
    simp at he
    rcases he with rfl | rfl
    · exact ⟨rfl, c28_pool_ok (by simp)⟩
    · exact ⟨rfl, c28_blocks_ok h1 h2⟩
  intro h
  have := c112_logic_partial _ _ (maps _ (by simp)) (maps _ (by simp)) (ok (s% "second") (by simp) (by rw [← splitAtPat_eq_none]; decide))
    (ok (s% "third") (by simp) (by rw [← splitAtPat_eq_none]; decide)) h (s% "second") (c28_blocks (s% "second"))
    (fun hE => absurd hE.2.2.2.2.2 (by simp [c28_blocks]))
  simp [LMap.get] at this

/-- C112 is false of the logic: a screen `A` with the container `B.java_c` and a screen `A.java_B` with the container `c` have the
same text. -/
theorem c112_logic_false : ∃ l m : Logic, l.reconstruct = m.reconstruct ∧ l.screens.keys ≠ m.screens.keys := by
  refine ⟨⟨[(s% "A", { ScreenLogic.newEmpty (s% "A") with blockContainers := [(s% "B.java_c", ⟨[]⟩)] })]⟩,
    ⟨[(s% "A.java_B", { ScreenLogic.newEmpty (s% "A.java_B") with blockContainers := [(s% "c", ⟨[]⟩)] })]⟩, ?_, ?_⟩
  · decide +kernel
  · simp [LMap.keys]

/-! ## Whole projects -/

/-- C112, proved part for whole projects: two projects that are written to the same texts and resource files have the same file
list, library and resource list, the same project data but for the creation time, and the same resource files (if those were
read from lists); views and logics are compared by `c112_view` and `c112_logic_partial`. Missing: the cases of the three `_false`
theorems. -/
theorem c112_whole_partial [FloatLaws] (ex : PathBuf → Bool) (p q : SketchwareProject) (rs : Option (List ResourceFileWrapper))
    (raw : RawSketchwareProject) (hp : p.tryIntoRaw rs = .ok raw) (hq : q.tryIntoRaw rs = .ok raw)
    (hrp : p.ResOrder rs) (hrq : q.ResOrder rs)
    (hep : ∀ r, p.resourceFiles = some r → ∃ ws, ResourceFiles.tryFrom ex ws = .ok r)
    (heq : ∀ r, q.resourceFiles = some r → ∃ ws, ResourceFiles.tryFrom ex ws = .ok r) :
    p.file = q.file ∧ p.library = q.library ∧ p.resource = q.resource ∧
    q.project = { p.project with dateCreated := q.project.dateCreated } ∧
    p.view.reconstruct = q.view.reconstruct ∧ p.logic.reconstruct = q.logic.reconstruct ∧
    (match p.resourceFiles, q.resourceFiles with
      | none, none => True
      | some a, some b => a.Same b
      | _, _ => False) := by
  have parts : ∀ r : SketchwareProject, r.tryIntoRaw rs = .ok raw → r.project.reconstruct = .ok raw.project ∧
      r.file.reconstruct = raw.file ∧ r.library.reconstruct = raw.library ∧ r.resource.reconstruct = raw.resource ∧
      r.view.reconstruct = raw.view ∧ r.logic.reconstruct = raw.logic := by
    intro r hr
    unfold SketchwareProject.tryIntoRaw at hr
    rw [Out.bind_eq_ok] at hr
    obtain ⟨s, hs, he⟩ := hr
    rw [Out.pure_eq, Out.ok.injEq] at he
    subst he
    exact ⟨hs, rfl, rfl, rfl, rfl, rfl⟩
  obtain ⟨p1, p2, p3, p4, p5, p6⟩ := parts p hp
  obtain ⟨q1, q2, q3, q4, q5, q6⟩ := parts q hq
  have date : ∀ r : Project, r.reconstruct = .ok raw.project →
      ∃ t : Date.DateTime, t.Valid ∧ Date.timestamp t = r.dateCreated.toInt64.toInt := by
    intro r hr
    by_cases h : ∃ t : Date.DateTime, t.Valid ∧ Date.timestamp t = r.dateCreated.toInt64.toInt
    · exact h
    · rw [(c15_reconstruct_panics r).mpr h] at hr; simp at hr
  obtain ⟨t, ht, ht'⟩ := date _ p1
  obtain ⟨u, hu, hu'⟩ := date _ q1
  refine ⟨(c112_file _ _).mp (p2.trans q2.symm), (c112_library _ _).mp (p3.trans q3.symm),
    (c112_resource _ _).mp (p4.trans q4.symm), ((c112_project _ _ t u ht hu ht' hu').mp (p1.trans q1.symm)).1,
    p5.trans q5.symm, p6.trans q6.symm, ?_⟩
  cases rs with
  | none =>
    have e1 : p.resourceFiles = none := hrp
    have e2 : q.resourceFiles = none := hrq
    rw [e1, e2]; trivial
  | some ws =>
    obtain ⟨a, e1, i1⟩ := hrp
    obtain ⟨b, e2, i2⟩ := hrq
    rw [e1, e2]
    obtain ⟨w1, h1⟩ := hep a e1
    obtain ⟨w2, h2⟩ := heq b e2
    obtain ⟨a', ha, sa⟩ := c57_round_trip ex w1 a h1 ws i1
    obtain ⟨b', hb, sb⟩ := c57_round_trip ex w2 b h2 ws i2
    rw [ha] at hb
    obtain rfl := Out.ok.inj hb
    exact ⟨sa.icon.symm.trans sb.icon, fun k => (sa.images k).symm.trans (sb.images k),
      fun k => (sa.sounds k).symm.trans (sb.sounds k), fun k => (sa.fonts k).symm.trans (sb.fonts k)⟩

/-- Two projects that are written alike: they differ in the creation time. -/
example [FloatLaws] : ∃ raw, (c58_witness 1641895810).tryIntoRaw none = .ok raw ∧ (c58_witness 1667297410).tryIntoRaw none = .ok raw := by
  have h : (c58_witness 1641895810).project.reconstruct = (c58_witness 1667297410).project.reconstruct :=
    (c112_project _ _ ⟨2022, 1, 11, 10, 10, 10⟩ ⟨2022, 11, 1, 10, 10, 10⟩ (by decide +kernel) (by decide +kernel)
      (by show _ = (1641895810 : UInt64).toInt64.toInt; decide +kernel)
      (by show _ = (1667297410 : UInt64).toInt64.toInt; decide +kernel)).mpr ⟨rfl, by decide +kernel⟩
  obtain ⟨s, hs, _⟩ := c15_project_round_trip_partial (c58_witness 1641895810).project ⟨2022, 1, 11, 10, 10, 10⟩
    (by decide +kernel) (by show _ = (1641895810 : UInt64).toInt64.toInt; decide +kernel)
  let p := c58_witness 1641895810
  refine ⟨⟨s, p.file.reconstruct, p.library.reconstruct, p.resource.reconstruct, p.view.reconstruct, p.logic.reconstruct, none⟩, ?_, ?_⟩
  · unfold SketchwareProject.tryIntoRaw
    rw [hs]; rfl
  · unfold SketchwareProject.tryIntoRaw
    rw [← h, hs]; rfl

end Swrs
