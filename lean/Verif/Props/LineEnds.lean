import Verif.Props.ProjectRead
import Verif.Props.Files
import Verif.Proofs.LineEnds
/-!
# C114: Windows line ends and byte order marks

`c114_crlf s` (`Verif.Proofs.LineEnds`) is the text `s` with a carriage return before every line break, `c114_bom` is U+FEFF.
-/
namespace Swrs

/-! ## Lists -/

/-- C114: a file list with Windows line ends is read as an empty one, without an error. -/
theorem c114_file (s : Str) : File.parse (c114_crlf s) = .ok ⟨[], []⟩ := by
  obtain ⟨ls, x, h0, h⟩ := lines_crlf s
  clear h0
  unfold File.parse
  rw [h]
  clear h
  generalize 0 = n
  induction ls generalizing n with
  | nil =>
    simp only [List.map_nil, List.nil_append, File.loop]
    split
    · rfl
    split
    · rfl
    simp
  | cons l ls ih =>
    simp only [List.map_cons, List.cons_append, File.loop]
    rw [if_neg (cr_ne (by decide)), if_neg (cr_ne (by decide)), if_neg (by simp)]
    exact ih (n + 1)

/-- C114: a resource list with Windows line ends is read as an empty one, without an error. -/
theorem c114_resource (s : Str) : Resource.parse (c114_crlf s) = .ok ⟨[], [], []⟩ := by
  obtain ⟨ls, x, h0, h⟩ := lines_crlf s
  clear h0
  unfold Resource.parse
  rw [h]
  clear h
  generalize 0 = n
  induction ls generalizing n with
  | nil =>
    simp only [List.map_nil, List.nil_append, Resource.loop]
    split
    · rfl
    split
    · rfl
    split
    · rfl
    simp
  | cons l ls ih =>
    simp only [List.map_cons, List.cons_append, Resource.loop]
    rw [if_neg (cr_ne (by decide)), if_neg (cr_ne (by decide)), if_neg (cr_ne (by decide)), if_neg (by simp)]
    exact ih (n + 1)

/-- C114: a library with Windows line ends is refused: with the header if there is one in the last line, else because the first section
is missing. -/
theorem c114_library (s : Str) : ∃ x, (lines s).getLast? = some x ∧ Library.parse (c114_crlf s) =
    .err (if x ∈ [s% "@firebaseDB", s% "@compat", s% "@admob", s% "@googleMap"] then .eofAfterHeader x else .missing (s% "@firebaseDB")) := by
  obtain ⟨ls, x, h0, h⟩ := lines_crlf s
  refine ⟨x, by rw [h0]; simp, ?_⟩
  have hx : Library.isHeader x = decide (x ∈ [s% "@firebaseDB", s% "@compat", s% "@admob", s% "@googleMap"]) := by
    simp only [Library.isHeader, List.mem_cons, List.not_mem_nil, or_false, Bool.decide_or, Bool.or_assoc]
  have key : ∀ n, Library.loop (ls.map (· ++ ['\r']) ++ [x]) {} n =
      if x ∈ [s% "@firebaseDB", s% "@compat", s% "@admob", s% "@googleMap"] then .err (.eofAfterHeader x) else .ok {} := by
    clear h h0
    induction ls with
    | nil =>
      intro n
      simp only [List.map_nil, List.nil_append, Library.loop, hx, decide_eq_true_eq]
    | cons l ls ih =>
      intro n
      have : Library.isHeader (l ++ ['\r']) = false := by
        simp only [Library.isHeader, decide_eq_false (cr_ne (l := l) (h := s% "@firebaseDB") (by decide)),
          decide_eq_false (cr_ne (l := l) (h := s% "@compat") (by decide)),
          decide_eq_false (cr_ne (l := l) (h := s% "@admob") (by decide)),
          decide_eq_false (cr_ne (l := l) (h := s% "@googleMap") (by decide)), Bool.or_self]
      rw [List.map_cons, List.cons_append]
      unfold Library.loop
      rw [this]
      exact ih (n + 1)
  unfold Library.parse
  rw [h, key]
  split <;> rfl

/-! ## Views -/

/-- C114: a view file with Windows line ends that is accepted is read without any view: no FAB, and no layout but perhaps an empty one of
which the header is the last line. -/
theorem c114_view [Floats] [MapPol] {s : Str} {v : View} (h : View.parse (c114_crlf s) = .ok v) :
    v.fabs = [] ∧ (v.layouts = [] ∨ ∃ k, (lines s).getLast? = some ('@' :: (k ++ s% ".xml")) ∧ v.layouts = [(k, ⟨[]⟩)]) := by
  obtain ⟨ls, x, h0, h1⟩ := lines_crlf s
  unfold View.parse at h
  rw [h1] at h
  obtain ⟨a, b⟩ := View.loop_crlf x _ ls _ _ v h
  refine ⟨a, b.imp id ?_⟩
  rintro ⟨k, rfl, hk⟩
  exact ⟨k, by rw [h0]; simp, hk⟩

/-! ## Logics -/

/-- C114: a logic file with Windows line ends (of more than one line) that is accepted is read as at most one screen with one container of
blocks and nothing else: no variable, no list, no component, no event, no more block. -/
theorem c114_logic [Floats] [MapPol] {s : Str} {g : Logic} (hs : '\n' ∈ s) (h : Logic.parse (c114_crlf s) = .ok g) :
    g.screens = [] ∨ ∃ n k bs, g.screens = [(n, ⟨n, [(k, bs)], none, none, none, none, none⟩)] := by
  obtain ⟨ls, x, h0, h1⟩ := lines_crlf s
  cases ls with
  | nil =>
    exfalso
    have hj := joinWith_splitOn '\n' s
    rw [show splitOn '\n' s = lines s from rfl, h0] at hj
    have hx := splitOn_not_mem (c := '\n') (s := s) (p := x) (by rw [show splitOn '\n' s = lines s from rfl, h0]; simp)
    simp only [List.nil_append, joinWith] at hj
    exact hx (hj ▸ hs)
  | cons l ls =>
    unfold Logic.parse at h
    rw [h1] at h
    simp only [List.map_cons, List.cons_append, List.length_cons, Logic.loop] at h
    split at h
    · obtain ⟨⟨l', rest⟩, hstep, h⟩ := Out.bind_eq_ok.mp h
      unfold Logic.step at hstep
      rw [endsWith_cr (by decide) (by decide), endsWith_cr (by decide) (by decide), endsWith_cr (by decide) (by decide),
        endsWith_cr (by decide) (by decide), endsWith_cr (by decide) (by decide)] at hstep
      simp only [Bool.false_eq_true, if_false] at hstep
      obtain ⟨hd, _, hstep⟩ := Out.bind_eq_ok.mp hstep
      obtain ⟨⟨bs, rest'⟩, hb, hstep⟩ := Out.bind_eq_ok.mp hstep
      have hr : rest' = [] := by
        have hb' := Out.mapErr_eq_ok.mp hb
        unfold BlockContainer.parseIter at hb'
        obtain ⟨⟨as, r⟩, hrp, hb'⟩ := Out.bind_eq_ok.mp hb'
        have := readPool_crlf _ _ _ _ _ _ _ _ hrp
        subst this
        exact (congrArg Prod.snd (Out.ok.inj hb')).symm
      subst hr
      have := Out.ok.inj hstep
      obtain ⟨rfl, rfl⟩ := Prod.mk.inj this
      have hg : g = ⟨Logic.update [] hd.screenName fun s => { s with blockContainers := s.blockContainers.insert hd.containerName bs }⟩ :=
        (Out.ok.inj h).symm
      subst hg
      exact .inr ⟨hd.screenName, hd.containerName, bs, rfl⟩
    · obtain rfl := Out.ok.inj h
      exact .inl rfl

/-! ## Project -/

/-- C114: only the project file is read as the same data with Windows line ends. -/
theorem c114_project [Floats] {s : Str} {p : Project} (h : Project.parse s = .ok p) : Project.parse (c114_crlf s) = .ok p := by
  by_cases hj : ∃ j, Json.IsText j s
  · obtain ⟨j, hj⟩ := hj
    by_cases hm : ∃ ms, j = .obj ms
    · obtain ⟨ms, rfl⟩ := hm
      exact (c82_project_read (isText_crlf hj) p).mpr ((c82_project_read hj p).mp h)
    · exact absurd h (c82_project_rejected.2.2 s j hj (fun ms e => hm ⟨ms, e⟩) p)
  · exact absurd h (c82_project_rejected.2.1 s (fun j e => hj ⟨j, e⟩) p)

/-- A project file with a line break. -/
def c114_projectText : Str := s% "{\n\"sketchware_ver\":150,\"my_sc_reg_dt\":\"20220102030405\",\"color_control_highlight\":536907213,\"color_control_normal\":-11026706,\"color_accent\":-16740915,\"color_primary_dark\":-16743230,\"color_primary\":-16740915,\"custom_icon\":false,\"sc_ver_name\":\"1.0\",\"sc_ver_code\":\"1\",\"my_sc_pkg_name\":\"a.b\",\"my_ws_name\":\"W\",\"my_app_name\":\"A\",\"sc_id\":\"601\"}"

/-- A file list with one activity. -/
def c114_fileText : Str := s% "@activity\n{\"fileName\":\"main\",\"fileType\":0,\"keyboardSetting\":0,\"options\":0,\"orientation\":0,\"theme\":-1}"

-- what is lost, and what is not
example : File.parse c114_fileText ≠ .ok ⟨[], []⟩ := by decide +kernel
example : Resource.parse (s% "@images\n{\"resFullName\":\"a\",\"resName\":\"b\",\"resType\":1}") = .ok ⟨[⟨s% "a", s% "b", 1⟩], [], []⟩ := by
  decide +kernel
example : ∃ s, Library.parse s = .ok ⟨sampleLib [], sampleLib [], sampleLib (s% "a"), sampleLib []⟩ :=
  ⟨_, c19_library_round_trip _⟩
example [Floats] [MapPol] : View.parse (c114_crlf (s% "@a.xml\n@b.xml")) = .ok ⟨[(s% "b", ⟨[]⟩)], []⟩ := rfl
example [Floats] [MapPol] : Logic.parse (c114_crlf (s% "@A.java_x\n")) = .ok ⟨[(s% "A", ⟨s% "A", [(s% "x\r", ⟨[]⟩)], none, none, none, none, none⟩)]⟩ := rfl
theorem c114_projectText_read : @Project.parse toyFloats.toFloats c114_projectText =
    .ok ⟨601, s% "A", s% "W", s% "a.b", 1, s% "1.0", 1641092645, false, .default, 150⟩ := by decide +kernel
example : c114_crlf c114_projectText ≠ c114_projectText := by decide +kernel

/-! ## Whole projects -/

/-- The six texts with Windows line ends. -/
def c114_raw (r : RawSketchwareProject) : RawSketchwareProject :=
  { r with project := c114_crlf r.project, file := c114_crlf r.file, library := c114_crlf r.library, resource := c114_crlf r.resource,
           view := c114_crlf r.view, logic := c114_crlf r.logic }

/-- C114: a project of which the texts have Windows line ends is never opened: if its project file is read at all, the library is what is
refused. -/
theorem c114_refused [MapPol] [Floats] (ex : PathBuf → Bool) (r : RawSketchwareProject) :
    (∀ q, SketchwareProject.parseFrom ex (c114_raw r) ≠ .ok q) ∧
    (∀ p, Project.parse r.project = .ok p → ∃ x, (lines r.library).getLast? = some x ∧
      SketchwareProject.parseFrom ex (c114_raw r) = .err (.library
        (if x ∈ [s% "@firebaseDB", s% "@compat", s% "@admob", s% "@googleMap"] then .eofAfterHeader x else .missing (s% "@firebaseDB")))) := by
  obtain ⟨x, hx, hl⟩ := c114_library r.library
  constructor
  · intro q h
    simp only [SketchwareProject.parseFrom, c114_raw, Out.bind_eq_ok, Out.mapErr_eq_ok] at h
    obtain ⟨_, _, _, _, _, h, _⟩ := h
    rw [hl] at h
    exact absurd h (by simp)
  · intro p hp
    refine ⟨x, hx, ?_⟩
    simp only [SketchwareProject.parseFrom, c114_raw, c114_project hp, c114_file, hl, Out.mapErr_ok, Out.mapErr_err, Out.ok_bind, Out.err_bind]

/-- C114: with a library text that is read, a project of which the other texts have Windows line ends can be opened, and what is opened then
has no file item, no resource, no FAB and no view. -/
theorem c114_opened [MapPol] [Floats] (ex : PathBuf → Bool) (r : RawSketchwareProject) {q : SketchwareProject}
    (h : SketchwareProject.parseFrom ex { c114_raw r with library := r.library } = .ok q) :
    q.file = ⟨[], []⟩ ∧ q.resource = ⟨[], [], []⟩ ∧ q.view.fabs = [] ∧ ∀ e ∈ q.view.layouts, e.2.views = [] := by
  simp only [SketchwareProject.parseFrom, c114_raw, Out.bind_eq_ok, Out.mapErr_eq_ok, c114_file, c114_resource, Out.ok.injEq,
    exists_eq_left'] at h
  obtain ⟨_, _, _, _, v, hv, _, _, _, _, h⟩ := h
  obtain rfl := Out.ok.inj h
  obtain ⟨h1, h2⟩ := c114_view hv
  refine ⟨rfl, rfl, h1, ?_⟩
  rintro e he
  rcases h2 with h2 | ⟨k, _, h2⟩
  · rw [h2] at he; exact absurd he (by simp)
  · rw [h2, List.mem_singleton] at he
    rw [he]

/-- `c114_opened`: a project that is opened without its activity. -/
example [MapPol] (ex : PathBuf → Bool) : ∃ r q, File.parse r.file ≠ .ok ⟨[], []⟩ ∧
    @SketchwareProject.parseFrom _ toyFloats.toFloats ex { c114_raw r with library := r.library } = .ok q := by
  let _ : Floats := toyFloats.toFloats
  refine ⟨⟨c114_projectText, c114_fileText, Library.reconstruct ⟨sampleLib [], sampleLib [], sampleLib (s% "a"), sampleLib []⟩, [], [], [], none⟩,
    ⟨⟨601, s% "A", s% "W", s% "a.b", 1, s% "1.0", 1641092645, false, .default, 150⟩, ⟨[], []⟩,
      ⟨sampleLib [], sampleLib [], sampleLib (s% "a"), sampleLib []⟩, ⟨[], [], []⟩, ⟨[], []⟩, ⟨[]⟩, none⟩,
    by decide +kernel, ?_⟩
  simp only [SketchwareProject.parseFrom, c114_raw, c114_project c114_projectText_read, c114_file, c114_resource, c19_library_round_trip,
    Out.mapErr_ok, Out.ok_bind]
  rfl

/-! ## Byte order marks -/

/-- C114: after a byte order mark the first line is not seen: a file list, a resource list or a library is read as without it. -/
theorem c114_bom_lists {l s : Str} (hl : '\n' ∉ l) :
    (∀ f, File.parse (c114_bom :: (l ++ '\n' :: s)) = .ok f ↔ File.parse s = .ok f) ∧
    (∀ r, Resource.parse (c114_bom :: (l ++ '\n' :: s)) = .ok r ↔ Resource.parse s = .ok r) ∧
    (∀ b, Library.parse (c114_bom :: (l ++ '\n' :: s)) = .ok b ↔ Library.parse s = .ok b) := by
  refine ⟨?_, ?_, ?_⟩
  · intro f
    unfold File.parse
    rw [lines_bom hl]
    simp only [File.loop]
    rw [if_neg (bom_ne (by decide)), if_neg (bom_ne (by decide)), if_neg (by simp)]
    exact ⟨File.loop_count _ _ _ _ _ _, File.loop_count _ _ _ _ _ _⟩
  · intro f
    unfold Resource.parse
    rw [lines_bom hl]
    simp only [Resource.loop]
    rw [if_neg (bom_ne (by decide)), if_neg (bom_ne (by decide)), if_neg (bom_ne (by decide)), if_neg (by simp)]
    exact ⟨Resource.loop_count _ _ _ _ _ _, Resource.loop_count _ _ _ _ _ _⟩
  · intro f
    unfold Library.parse
    rw [lines_bom hl]
    have : Library.isHeader (c114_bom :: l) = false := by
      simp only [Library.isHeader, decide_eq_false (bom_ne (l := l) (h := s% "@firebaseDB") (by decide)),
        decide_eq_false (bom_ne (l := l) (h := s% "@compat") (by decide)),
        decide_eq_false (bom_ne (l := l) (h := s% "@admob") (by decide)),
        decide_eq_false (bom_ne (l := l) (h := s% "@googleMap") (by decide)), Bool.or_self]
    have e : ∀ n, Library.loop ((c114_bom :: l) :: lines s) {} n = Library.loop (lines s) {} (n + 1) := by
      intro n
      rw [Library.loop.eq_def]
      simp only [this, Bool.false_eq_true, if_false]
    rw [e]
    simp only [Out.bind_eq_ok, Library.loop_eq]

/-- C114: a view or logic file that begins with a byte order mark is read as an empty one, without an error, and a project file is refused. -/
theorem c114_bom_rest [Floats] [MapPol] (s : Str) :
    View.parse (c114_bom :: s) = .ok ⟨[], []⟩ ∧ Logic.parse (c114_bom :: s) = .ok ⟨[]⟩ ∧ ∀ p, Project.parse (c114_bom :: s) ≠ .ok p := by
  have hl : ∃ l ls, lines (c114_bom :: s) = (c114_bom :: l) :: ls := by
    unfold lines
    simp only [splitOn]
    rw [if_neg (by decide)]
    split
    · exact ⟨_, _, rfl⟩
    · exact ⟨_, _, rfl⟩
  obtain ⟨l, ls, hl⟩ := hl
  have h : startsWith ['@'] (c114_bom :: l) = false := rfl
  refine ⟨?_, ?_, ?_⟩
  · unfold View.parse
    rw [hl]
    simp only [List.length_cons, View.loop, h, Bool.false_eq_true, if_false]
  · unfold Logic.parse
    rw [hl]
    simp only [List.length_cons, Logic.loop, h, Bool.false_eq_true, if_false]
  · apply c82_project_rejected.2.1
    rintro j ⟨w, t, w', e, hw, hv, hw'⟩
    cases w with
    | cons c w =>
      have := hw c (by simp)
      rw [List.cons_append, List.cons.injEq] at e
      rw [← e.1] at this
      revert this
      decide
    | nil =>
      have hb : ∀ c r, t = c :: r → c = c114_bom := by
        rintro c r rfl
        rw [List.nil_append, List.cons_append, List.cons.injEq] at e
        exact e.1.symm
      cases hv with
      | null => exact absurd (hb _ _ rfl) (by decide)
      | tt => exact absurd (hb _ _ rfl) (by decide)
      | ff => exact absurd (hb _ _ rfl) (by decide)
      | str => exact absurd (hb _ _ rfl) (by decide)
      | badStr => exact absurd (hb _ _ rfl) (by decide)
      | arr0 => exact absurd (hb _ _ rfl) (by decide)
      | arr => exact absurd (hb _ _ rfl) (by decide)
      | obj0 => exact absurd (hb _ _ rfl) (by decide)
      | obj => exact absurd (hb _ _ rfl) (by decide)
      | badObj => exact absurd (hb _ _ rfl) (by decide)
      | num hn =>
        have hu : ∀ u, Json.UNumber u → ∃ c r, u = c :: r ∧ isDigit c = true := by
          rintro u ⟨i, f, e, rfl, hi, _, _⟩
          rcases hi with rfl | ⟨⟨hne, hd⟩, _⟩
          · exact ⟨'0', _, rfl, by decide⟩
          · cases i with
            | nil => exact absurd rfl hne
            | cons c i => exact ⟨c, _, rfl, hd c (by simp)⟩
        rcases hn with hn | ⟨u, _, rfl⟩
        · obtain ⟨c, r, rfl, hc⟩ := hu _ hn
          rw [hb c r rfl] at hc
          exact absurd hc (by decide)
        · exact absurd (hb _ _ rfl) (by decide)

/-- `c114_bom_lists`: a file list that loses its activity. -/
example : File.parse (c114_bom :: c114_fileText) = .ok ⟨[], []⟩ := by decide +kernel
example : '\n' ∉ s% "@activity" := by decide

/-- C114: so the same data are not always read with Windows line ends or after a byte order mark. -/
theorem c114_same_false : (∃ s, File.parse (c114_crlf s) ≠ File.parse s) ∧ (∃ s, File.parse (c114_bom :: s) ≠ File.parse s) := by
  refine ⟨⟨c114_fileText, ?_⟩, ⟨c114_fileText, ?_⟩⟩ <;> decide +kernel

end Swrs
