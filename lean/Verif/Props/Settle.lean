import Verif.Proofs.Settle
import Verif.Props.Resave
/-!
# C101: saving a project again and again
-/
set_option linter.unusedSectionVars false
namespace Swrs

/-! ## C101 — Saving settles -/

/-- The date of a project that was read, with its range. -/
theorem Project.read_date_range [Floats] {s : Str} {p : Project} (h : Project.parse s = .ok p) :
    ∃ t : Date.DateTime, t.Valid ∧ Date.timestamp t = p.dateCreated.toInt64.toInt ∧ -999 ≤ t.year ∧ t.year ≤ 9999 := by
  unfold Project.parse at h
  simp only [Out.bind_eq_ok] at h
  obtain ⟨_, _, h⟩ := h
  split at h
  next j hj =>
    unfold Project.dec at h
    split at h
    next o =>
      simp only [Out.bind_eq_ok, Out.ofOption_eq_ok, Out.pure_eq, Out.ok.injEq] at h
      obtain ⟨_, _, _, _, _, _, _, _, _, _, _, _, _, _, d, _, dc, hd, _, _, _, _, _, _, rfl⟩ := h
      unfold Project.decDate at hd
      split at hd
      next t =>
        obtain ⟨_, t', hv, y1, y2, he⟩ := Date.deserialize_ok hd
        have hr := Date.timestamp_range hv
        refine ⟨t', hv, ?_, y1, y2⟩
        simp only [he, Int64.toInt64_toUInt64]
        rw [Int64.toInt_ofInt_of_le (by omega) (by omega)]
      next => simp at hd
    next => simp at h
  next => simp at h

/-- C101: the project file settles at once: when the text saved for a project file that was read is read at all, it is read as the
same project. -/
theorem c101_project [FloatLaws] {s s' : Str} {p p' : Project} (h : Project.parse s = .ok p) (hs : p.reconstruct = .ok s')
    (h' : Project.parse s' = .ok p') : p' = p := by
  obtain ⟨t, hv, hts, y1, y2⟩ := Project.read_date_range h
  have hft : Date.fromTimestamp p.dateCreated.toInt64.toInt = some t := by rw [← hts]; exact Date.fromTimestamp_timestamp hv
  have hser : Date.serialize p.dateCreated = some (Date.text t) := by simp [Date.serialize, hft]
  have hs' : s' = (p.enc (Date.text t)).print := by
    unfold Project.reconstruct at hs
    rw [hser] at hs
    exact (Out.ok.inj hs).symm
  obtain ⟨s'', h1, h2⟩ := c15_project_round_trip_partial p t hv hts
  have hss : s'' = s' := Out.ok.inj (h1.symm.trans hs)
  subst hss
  have hfw : Date.FullWidth t := by
    rw [hs', Project.parse_print_enc] at h'
    simp only [Out.bind_eq_ok] at h'
    obtain ⟨d, hd, _⟩ := h'
    obtain ⟨hlen, _⟩ := Date.deserialize_ok hd
    have h31 := Date.day_le hv.1
    obtain ⟨v1, v2, v3, v4, v5, v6⟩ := Date.validDate_iff.mp hv.1
    obtain ⟨t1, t2, t3⟩ := Date.validTime_iff.mp hv.2
    unfold Date.text at hlen
    simp only [byteLen_append] at hlen
    obtain ⟨a1, a2⟩ := Date.intStr_le_four ⟨y1, y2⟩
    obtain ⟨b1, b2⟩ := Date.natStr_le_two (n := t.month) (by omega)
    obtain ⟨c1, c2⟩ := Date.natStr_le_two (n := t.day) (by omega)
    obtain ⟨d1, d2⟩ := Date.natStr_le_two (n := t.hour) (by omega)
    obtain ⟨e1, e2⟩ := Date.natStr_le_two (n := t.minute) (by omega)
    obtain ⟨f1, f2⟩ := Date.natStr_le_two (n := t.second) (by omega)
    unfold Date.FullWidth
    omega
  exact Out.ok.inj (h'.symm.trans (h2.mpr hfw))

-- a project that is saved and read
example [FloatLaws] : ∃ s, Project.reconstruct { c15_witness with dateCreated := 1672531198 } = .ok s ∧
    Project.parse s = .ok { c15_witness with dateCreated := 1672531198 } := by
  obtain ⟨s, h1, h2⟩ := c15_project_round_trip_partial { c15_witness with dateCreated := 1672531198 } ⟨2022, 12, 31, 23, 59, 58⟩
    (by decide +kernel) (by decide +kernel)
  exact ⟨s, h1, h2.mpr (by unfold Date.FullWidth; simp)⟩

/-- C101: the file list settles after one save, whatever it was. -/
theorem c101_file (f f' : File) (h : File.parse f.reconstruct = .ok f') : File.parse f'.reconstruct = .ok f' := by
  by_cases ha : f.activities = []
  · have := (c17_file_round_trip_partial f).2 ha
    rw [h] at this
    cases Out.ok.inj this
    exact (c17_file_round_trip_partial _).1.mpr (.inr rfl)
  · have := (c17_file_round_trip_partial f).1.mpr (.inl ha)
    rw [h] at this
    cases Out.ok.inj this
    exact h

-- custom views without an activity: lost in the first save, then nothing changes
example : c17_witness.customViews ≠ [] ∧ File.parse c17_witness.reconstruct = .ok ⟨[], []⟩ :=
  ⟨by simp [c17_witness], (c17_file_round_trip_partial _).2 rfl⟩

/-- C101: a view file that was read settles after one save, if the saved file is read at all. -/
theorem c101_view [FloatLaws] [MapPol] {s : Str} {v v' : View} (h : View.parse s = .ok v)
    (h' : View.parse v.reconstruct = .ok v') : View.parse v'.reconstruct = .ok v' := by
  by_cases hk : c90_ViewKept v
  · have := (c90_view h).mpr hk
    rw [h'] at this
    cases Out.ok.inj this
    exact h'
  · have hr := View.read_of_parse h
    have hnr : ¬ v.Readable := by
      intro hre
      apply hk
      rw [← c90_view h, c22_view_file_round_trip_partial v ⟨hr.keysL, hr.keysF⟩]
      refine ⟨⟨hr.namesL, hr.namesF⟩, hre.1, hre.2.1, ?_, ?_⟩
      · intro e he w hw
        exact (AndroidView.parse_reconstruct_iff _).mpr ⟨hre.2.2.1 e he w hw, hr.normalL e he w hw⟩
      · intro e he
        exact (AndroidView.parse_reconstruct_iff _).mpr ⟨hre.2.2.2 e he, hr.normalF e he⟩
    rcases View.parse_not_readable v ⟨hr.namesL, hr.namesF⟩ ⟨hr.keysL, hr.keysF⟩ hnr with ⟨e, he⟩ | ⟨_, hv, he⟩
    · rw [he] at h'; simp at h'
    · rw [he] at h'
      cases Out.ok.inj h'
      rw [c90_view he]
      refine ⟨fun e he => hv e ((List.dropLast_sublist _).subset he), fun hh => absurd rfl hh, ?_, by simp⟩
      intro e he w hw
      rw [hv e he] at hw; simp at hw

-- a view file that is read, saved and read
example [FloatLaws] [MapPol] : ∃ s v, View.parse s = .ok v ∧ v.layouts ≠ [] ∧ View.parse v.reconstruct = .ok v := by
  let v : View := ⟨[(s% "main", ⟨[AndroidView.newEmpty (s% "a") 3 (s% "root") 0]⟩)], []⟩
  have hk : v.layouts.keys.Nodup ∧ v.fabs.keys.Nodup := ⟨by simp [v, LMap.keys], by simp [v, LMap.keys]⟩
  have hr := c22_reads_separated v hk (by simp [v]) (by simp [v, newEmpty_storable])
  refine ⟨_, v, hr, by simp [v], ?_⟩
  rw [c22_view_file_round_trip_partial v hk]
  refine ⟨by simp [v], by simp [v], by simp [v], ?_, by simp [v]⟩
  intro e he w hw
  rw [AndroidView.parse_reconstruct_iff]
  simp only [v, List.mem_singleton] at he
  subst he
  simp only [List.mem_singleton] at hw
  subst hw
  exact newEmpty_storable ..

section
variable [Floats] [MapPol]

/-- What is left of screens when they are saved: from the first screen without code on, code is lost; a screen with nothing else is
gone. -/
def c101_Left (ss : List ScreenLogic) : List ScreenLogic :=
  ss.takeWhile (fun s => decide (s.blockContainers ≠ [])) ++
  ((ss.dropWhile fun s => decide (s.blockContainers ≠ [])).map fun s => { s with blockContainers := [] }).filter
    fun s => decide (s ≠ ScreenLogic.newEmpty s.name)

theorem c101_left_eq (ss : List ScreenLogic) : c101_Left ss = Logic.cut ss := by
  have e1 : (fun s : ScreenLogic => decide (s.blockContainers ≠ [])) = ScreenLogic.hasCode := by
    funext s; rw [Bool.eq_iff_iff, Logic.hasCode_iff]; simp
  have e2 : (fun s : ScreenLogic => decide (s ≠ ScreenLogic.newEmpty s.name)) = ScreenLogic.hasAny := by
    funext s; rw [Bool.eq_iff_iff, Logic.hasAny_iff, decide_eq_true_eq]
    obtain ⟨n, b, v, l, c, e, f⟩ := s
    simp only [ScreenLogic.newEmpty, ScreenLogic.Empty, ne_eq, ScreenLogic.mk.injEq, true_and]
    grind
  unfold c101_Left Logic.cut
  rw [e1, e2]; rfl

theorem c101_step {s : Str} {l : Logic} (h : Logic.parse s = .ok l) (hk : ∀ e ∈ l.screens, c90_ScreenKept e.2) :
    ∃ l', Logic.parse l.reconstruct = .ok l' ∧
      l'.screens = (Logic.found (Logic.cut (l.screens.map (·.2)))).map (fun s => (s.name, s)) ∧
      (∀ e ∈ l'.screens, c90_ScreenKept e.2) ∧ ∀ s ∈ l.screens.map (·.2), ¬ s.Empty := by
  have hm := c90_maps h
  have hr := Logic.parse_traced h
  have hm' : ∀ s ∈ l.screens.map (·.2), (∀ p, s.variables = some p → p.map.keys.Nodup) ∧
      (∀ p, s.listVariables = some p → p.map.keys.Nodup) ∧ (∀ p, s.moreBlocks = some p → p.map.keys.Nodup) ∧
      s.blockContainers.keys.Nodup := by
    simp only [List.mem_map]; rintro s ⟨e, he, rfl⟩; exact hm.2 e he
  have hinv : l.Inv := ⟨fun e he => (hr e he).1, hm.1, fun s hs => (hm' s hs).1, fun s hs => (hm' s hs).2.1,
    fun s hs => (hm' s hs).2.2.1, fun s hs => (hm' s hs).2.2.2⟩
  have hp : ∀ s ∈ l.screens.map (·.2), s.PartsOk := by
    intro s hs
    refine (c28_screenOk_iff (hm' s hs).1 (hm' s hs).2.1 (hm' s hs).2.2.1 (hm' s hs).2.2.2).mpr ?_
    simp only [List.mem_map] at hs
    obtain ⟨e, he, rfl⟩ := hs
    exact (c90_screenOk (hr e he).2.1).mpr (hk e he)
  have he : ∀ s ∈ l.screens.map (·.2), ¬ s.Empty := by
    simp only [List.mem_map]; rintro s ⟨e, he, rfl⟩; exact (hr e he).2.2.1
  have hec : ∀ s ∈ Logic.cut (l.screens.map (·.2)), ¬ s.Empty := by
    intro s hs
    rcases Logic.mem_cut hs with ⟨hs, _⟩ | ⟨t, _, _, h⟩
    · exact he s hs
    · exact h
  refine ⟨_, Logic.parse_cut hinv hp he, rfl, ?_, he⟩
  intro e hem
  simp only [List.mem_map] at hem
  obtain ⟨s, hs, rfl⟩ := hem
  have hs := (Logic.found_perm hec).mem_iff.mp hs
  rcases Logic.mem_cut hs with ⟨hs, _⟩ | ⟨t, ht, rfl, _⟩
  · simp only [List.mem_map] at hs
    obtain ⟨e, he, rfl⟩ := hs
    exact hk e he
  · simp only [List.mem_map] at ht
    obtain ⟨e, he, rfl⟩ := ht
    have := hk e he
    exact ⟨this.variables, this.listVariables, this.moreBlocks, by simp [ScreenLogic.strip], by simp [ScreenLogic.strip]⟩

/-- C101: what one save leaves of a logic file that was read and whose names survive. The order of the screens may change. -/
theorem c101_logic_saved {s : Str} {l : Logic} (h : Logic.parse s = .ok l) (hk : ∀ e ∈ l.screens, c90_ScreenKept e.2) :
    ∃ l', Logic.parse l.reconstruct = .ok l' ∧ (l'.screens.map (·.2)).Perm (c101_Left (l.screens.map (·.2))) ∧
      ∀ e ∈ l'.screens, e.1 = e.2.name := by
  obtain ⟨l', h1, h2, _, he⟩ := c101_step h hk
  refine ⟨l', h1, ?_, ?_⟩
  · rw [h2, List.map_map, c101_left_eq]
    have : (fun e : Str × ScreenLogic => e.2) ∘ (fun s : ScreenLogic => (s.name, s)) = id := rfl
    rw [this, List.map_id]
    refine Logic.found_perm ?_
    intro s hs
    rcases Logic.mem_cut hs with ⟨hs, _⟩ | ⟨t, _, _, h⟩
    · exact he s hs
    · exact h
  · rw [h2]
    intro e he
    simp only [List.mem_map] at he
    obtain ⟨s, _, rfl⟩ := he
    rfl

/-- C101, proved part: the logic file settles after two saves, if the names survive. Missing: that one save is enough, which is false
(see `c101_logic_false`). Files with names that do not survive may need more saves, see `c101_logic_ends`. -/
theorem c101_logic_partial {s : Str} {l : Logic} (h : Logic.parse s = .ok l) (hk : ∀ e ∈ l.screens, c90_ScreenKept e.2) :
    ∃ l₁ l₂, Logic.parse l.reconstruct = .ok l₁ ∧ Logic.parse l₁.reconstruct = .ok l₂ ∧ Logic.parse l₂.reconstruct = .ok l₂ := by
  obtain ⟨l₁, h1, e1, k1, he⟩ := c101_step h hk
  obtain ⟨l₂, h2, e2, k2, _⟩ := c101_step h1 k1
  obtain ⟨l₃, h3, e3, _, _⟩ := c101_step h2 k2
  refine ⟨l₁, l₂, h1, h2, ?_⟩
  have : l₃ = l₂ := by
    have hid : ∀ xs : List ScreenLogic, (xs.map fun s => (s.name, s)).map (fun e : Str × ScreenLogic => e.2) = xs := by
      intro xs; rw [List.map_map]; exact List.map_id xs
    rw [e1, hid] at e2
    rw [e2, hid, Logic.settled _ he, ← e2] at e3
    cases l₃; cases l₂; simp only at e3; subst e3; rfl
  rw [h3, this]

/-- C101: after one save, a logic file whose names survive has settled exactly when no screen without code stands before one with
code. -/
theorem c101_logic_settled {s : Str} {l : Logic} (h : Logic.parse s = .ok l) (hk : ∀ e ∈ l.screens, c90_ScreenKept e.2) :
    ∃ l₁, Logic.parse l.reconstruct = .ok l₁ ∧ (Logic.parse l₁.reconstruct = .ok l₁ ↔
      (l₁.screens.map (·.2)).Pairwise fun a b => a.blockContainers = [] → b.blockContainers = []) := by
  obtain ⟨l₁, h1, e1, k1, he⟩ := c101_step h hk
  obtain ⟨l₂, h2, e2, k2, he1⟩ := c101_step h1 k1
  refine ⟨l₁, h1, ?_⟩
  have hid : ∀ xs : List ScreenLogic, (xs.map fun s => (s.name, s)).map (fun e : Str × ScreenLogic => e.2) = xs := by
    intro xs; rw [List.map_map]; exact List.map_id xs
  have hf : l₁.screens.map (·.2) = Logic.found (Logic.cut (l.screens.map (·.2))) := by rw [e1, hid]
  have hec : ∀ s ∈ Logic.cut (l₁.screens.map (·.2)), ¬ s.Empty := by
    intro s hs
    rcases Logic.mem_cut hs with ⟨hs, _⟩ | ⟨t, _, _, h⟩
    · exact he1 s hs
    · exact h
  constructor
  · intro hst
    have e21 : l₂ = l₁ := Out.ok.inj (h2.symm.trans hst)
    have h3 : l₁.screens.map (·.2) = Logic.found (Logic.cut (l₁.screens.map (·.2))) := by
      conv => lhs; rw [← e21, e2, hid]
    -- no code was lost
    have hsplit : (l₁.screens.map (·.2)).takeWhile ScreenLogic.hasCode ++ (l₁.screens.map (·.2)).dropWhile ScreenLogic.hasCode =
      l₁.screens.map (·.2) := List.takeWhile_append_dropWhile
    have hperm : (l₁.screens.map (·.2)).Perm (Logic.cut (l₁.screens.map (·.2))) := by
      conv => lhs; rw [h3]
      exact Logic.found_perm hec
    generalize l₁.screens.map (·.2) = ss at hperm hsplit
    have hc := hperm.countP_eq ScreenLogic.hasCode
    have hz : (((ss.dropWhile ScreenLogic.hasCode).map ScreenLogic.strip).filter ScreenLogic.hasAny).countP ScreenLogic.hasCode = 0 := by
      rw [List.countP_eq_zero]
      intro x hx
      simp only [List.mem_filter, List.mem_map] at hx
      obtain ⟨⟨t, _, rfl⟩, _⟩ := hx
      simp [ScreenLogic.hasCode, ScreenLogic.strip]
    rw [Logic.cut, List.countP_append, hz] at hc
    conv at hc => lhs; rw [← hsplit, List.countP_append]
    have hd : (ss.dropWhile ScreenLogic.hasCode).countP ScreenLogic.hasCode = 0 := by omega
    rw [List.countP_eq_zero] at hd
    rw [← hsplit, List.pairwise_append]
    refine ⟨?_, ?_, ?_⟩
    · refine List.Pairwise.imp_of_mem (R := fun _ _ => True) ?_ (List.pairwise_of_forall fun _ _ => trivial)
      intro a b ha _ _ h0
      exact absurd h0 ((Logic.hasCode_iff a).mp (Settle.mem_takeWhile_imp ha))
    · refine List.Pairwise.imp_of_mem (R := fun _ _ => True) ?_ (List.pairwise_of_forall fun _ _ => trivial)
      intro a b _ hb _ _
      exact Classical.byContradiction fun hh => hd b hb ((Logic.hasCode_iff b).mpr hh)
    · intro a _ b hb _
      exact Classical.byContradiction fun hh => hd b hb ((Logic.hasCode_iff b).mpr hh)
  · intro hpw
    have hcf : Logic.CodeFirst (l₁.screens.map (·.2)) := by
      generalize l₁.screens.map (·.2) = ss at hpw
      intro x hx
      cases hD : ss.dropWhile ScreenLogic.hasCode with
      | nil => rw [hD] at hx; simp at hx
      | cons d post =>
        have hd := Logic.dropWhile_head hD
        rw [hD] at hx
        have := hpw.sublist (List.dropWhile_suffix ScreenLogic.hasCode).sublist
        rw [hD, List.pairwise_cons] at this
        rcases List.mem_cons.mp hx with rfl | hx
        · exact hd
        · exact this.1 x hx hd
    rw [Logic.cut_codeFirst hcf he1, hf, Logic.found_idem, ← e1] at e2
    rw [h2]
    cases l₁; cases l₂; simp only at e2; subst e2; rfl

/-- A logic file: a screen with code, then a screen with a variable and no code. -/
def c101_text : Str := s% "@main.java_onCreate\n\n@second.java_var\n1:a\n"

theorem c101_main : Logic.SectionReads [s% "@main.java_onCreate"]
    (s% "main", fun s => { s with blockContainers := s.blockContainers.insert (s% "onCreate") ⟨[]⟩ }) :=
  ⟨_, _, rfl, Sec.blocks (line := s% "@main.java_onCreate") (hd := ⟨s% "main", s% "onCreate"⟩)
    (by unfold NotPool; decide) (by decide) .nil⟩

theorem c101_second : Logic.SectionReads [s% "@second.java_var", s% "1:a"]
    (s% "second", fun s => { s with variables := some ⟨LMap.collect [(s% "a", ⟨s% "a", .integer⟩)]⟩ }) :=
  ⟨_, _, rfl, Sec.var (name := s% "second") (x := '.') (vs := [⟨s% "a", .integer⟩]) rfl
    (.cons (by simp) (by decide) .nil)⟩

/-- The screen with code. -/
def c101_a : Str × ScreenLogic := (s% "main", { ScreenLogic.newEmpty (s% "main") with blockContainers := [(s% "onCreate", ⟨[]⟩)] })
/-- The screen with a variable. -/
def c101_b : Str × ScreenLogic :=
  (s% "second", { ScreenLogic.newEmpty (s% "second") with variables := some ⟨[(s% "a", ⟨s% "a", .integer⟩)]⟩ })

/-- C101 is false of logic files: the first save loses nothing but changes the order of the screens, and then the second save loses
the code. -/
theorem c101_logic_false : Logic.parse c101_text = .ok ⟨[c101_a, c101_b]⟩ ∧
    Logic.parse (Logic.mk [c101_a, c101_b]).reconstruct = .ok ⟨[c101_b, c101_a]⟩ ∧
    Logic.parse (Logic.mk [c101_b, c101_a]).reconstruct = .ok ⟨[c101_b]⟩ := by
  refine ⟨?_, ?_, ?_⟩
  · rw [Logic.c69_ok]
    exact ⟨_, .cons c101_main (.cons c101_second .nil), rfl⟩
  · rw [Logic.c69_ok]
    have : Logic.sections (lines (Logic.mk [c101_a, c101_b]).reconstruct) =
        [[s% "@second.java_var", s% "1:a"], [s% "@main.java_onCreate"]] := by decide +kernel
    rw [this]
    exact ⟨_, .cons c101_second (.cons c101_main .nil), rfl⟩
  · rw [Logic.c69_ok]
    have : Logic.sections (lines (Logic.mk [c101_b, c101_a]).reconstruct) = [[s% "@second.java_var", s% "1:a"]] := by decide +kernel
    rw [this]
    exact ⟨_, .cons c101_second .nil, rfl⟩

/-- The names of this file survive. -/
theorem c101_kept : ∀ e ∈ [c101_a, c101_b], c90_ScreenKept e.2 := by
  intro e he
  simp only [List.mem_cons, List.not_mem_nil, or_false] at he
  rcases he with rfl | rfl
  · refine ⟨nofun, nofun, nofun, by decide +kernel, ?_⟩
    intro e he _ c hc
    simp [c101_a] at he; subst he; simp at hc; subst hc; decide
  · refine ⟨?_, nofun, nofun, by simp [c101_b, ScreenLogic.newEmpty], by simp [c101_b, ScreenLogic.newEmpty]⟩
    intro p hp e he c hc
    simp [c101_b] at hp; subst hp; simp at he; subst he; simp at hc; subst hc; decide

-- the hypotheses of the theorems about logic files are met by this file
example : ∃ l₁ l₂, Logic.parse (Logic.mk [c101_a, c101_b]).reconstruct = .ok l₁ ∧ Logic.parse l₁.reconstruct = .ok l₂ ∧
    Logic.parse l₂.reconstruct = .ok l₂ := c101_logic_partial c101_logic_false.1 c101_kept
-- screens with code, without code, with code: the last one is gone
example : c101_Left [c101_a.2, c101_b.2, { c101_a.2 with name := s% "third" }] = [c101_a.2, c101_b.2] := by decide +kernel

end

/-- C101, proved part: a project that was opened, saved, opened, saved and opened again has settled: saving and opening it once more
gives the same project, with the screens of the logic file in the same order. Missing: that one round is enough (false, see
`c101_logic_false`). Projects with names in the logic file that do not survive may need more rounds, see `c101_project_settles`. -/
theorem c101_project_partial [FloatLaws] [MapPol] (ex : PathBuf → Bool) {raw₀ raw₁ raw₂ : RawSketchwareProject}
    {p₀ p₁ p₂ : SketchwareProject} {rs₀ rs₁ : Option (List ResourceFileWrapper)}
    (h0 : SketchwareProject.parseFrom ex raw₀ = .ok p₀) (hk : ∀ e ∈ p₀.logic.screens, c90_ScreenKept e.2)
    (s0 : p₀.tryIntoRaw rs₀ = .ok raw₁) (h1 : SketchwareProject.parseFrom ex raw₁ = .ok p₁)
    (s1 : p₁.tryIntoRaw rs₁ = .ok raw₂) (h2 : SketchwareProject.parseFrom ex raw₂ = .ok p₂)
    (rs₂ : Option (List ResourceFileWrapper)) (hrs : p₂.ResOrder rs₂) :
    ∃ raw₃ p₃, p₂.tryIntoRaw rs₂ = .ok raw₃ ∧ SketchwareProject.parseFrom ex raw₃ = .ok p₃ ∧ p₃.Same p₂ ∧ p₃.logic = p₂.logic := by
  have save : ∀ {p : SketchwareProject} {rs raw}, p.tryIntoRaw rs = .ok raw → p.project.reconstruct = .ok raw.project ∧
      raw.file = p.file.reconstruct ∧ raw.view = p.view.reconstruct ∧ raw.logic = p.logic.reconstruct := by
    intro p rs raw h
    unfold SketchwareProject.tryIntoRaw at h
    simp only [Out.bind_eq_ok, Out.pure_eq, Out.ok.injEq] at h
    obtain ⟨s, h1, rfl⟩ := h
    exact ⟨h1, rfl, rfl, rfl⟩
  obtain ⟨a1, a2, a3, a4, a5, a6, a7⟩ := (c58_parts ex raw₀ p₀).mp h0
  obtain ⟨b1, b2, b3, b4, b5, b6, b7⟩ := (c58_parts ex raw₁ p₁).mp h1
  obtain ⟨c1, c2, c3, c4, c5, c6, c7⟩ := (c58_parts ex raw₂ p₂).mp h2
  obtain ⟨x1, x2, x3, x4⟩ := save s0
  obtain ⟨y1, y2, y3, y4⟩ := save s1
  obtain ⟨l₁, l₂, g1, g2, g3⟩ := c101_logic_partial a6 hk
  have e1 : l₁ = p₁.logic := by rw [x4, g1] at b6; exact Out.ok.inj b6
  subst e1
  have e2 : l₂ = p₂.logic := by rw [y4, g2] at c6; exact Out.ok.inj c6
  subst e2
  have ep1 : p₁.project = p₀.project := c101_project a1 x1 b1
  have ep2 : p₂.project = p₁.project := c101_project b1 y1 c1
  obtain ⟨t, raw₃, hv, hts, hs, hiff⟩ := c90_resave_partial ex raw₂ p₂ h2 rs₂ hrs
  have hp3 : ∃ p₃, SketchwareProject.parseFrom ex raw₃ = .ok p₃ ∧ p₃.Same p₂ := by
    rw [hiff]
    refine ⟨?_, ?_, ?_, ?_⟩
    · obtain ⟨s', hs', hfw⟩ := c15_project_round_trip_partial p₂.project t hv hts
      rw [ep2, y1] at hs'
      rw [← hfw, ← Out.ok.inj hs']
      exact c1
    · rw [← (c17_file_round_trip_partial p₂.file).1]
      exact c101_file p₁.file p₂.file (y2 ▸ c2)
    · rw [← c90_view c5]
      exact c101_view b5 (y3 ▸ c5)
    · rw [← c90_logic c6]
      exact ⟨_, g3, fun _ => rfl⟩
  obtain ⟨p₃, h3, hsame⟩ := hp3
  refine ⟨raw₃, p₃, hs, h3, hsame, ?_⟩
  obtain ⟨_, _, _, _, _, f6, _⟩ := (c58_parts ex raw₃ p₃).mp h3
  have : raw₃.logic = p₂.logic.reconstruct := (save hs).2.2.2
  rw [this, g3] at f6
  exact (Out.ok.inj f6).symm

/-- A project with this logic file meets the hypotheses of `c101_project_partial` and those of `c90_resave_partial`, and changes in each of
the two rounds. -/
example [FloatLaws] [MapPol] : ∃ (raw₀ raw₁ raw₂ : RawSketchwareProject) (p₀ p₁ p₂ : SketchwareProject),
    SketchwareProject.parseFrom (fun _ => true) raw₀ = .ok p₀ ∧ (∀ e ∈ p₀.logic.screens, c90_ScreenKept e.2) ∧
    p₀.ResOrder none ∧ p₀.tryIntoRaw none = .ok raw₁ ∧ SketchwareProject.parseFrom (fun _ => true) raw₁ = .ok p₁ ∧
    p₁.tryIntoRaw none = .ok raw₂ ∧ SketchwareProject.parseFrom (fun _ => true) raw₂ = .ok p₂ ∧ p₂.ResOrder none ∧
    p₁.logic ≠ p₀.logic ∧ p₂.logic ≠ p₁.logic := by
  obtain ⟨s, hs, hd⟩ := c15_project_round_trip_partial (c58_witness 1672531198).project ⟨2022, 12, 31, 23, 59, 58⟩ (by decide +kernel)
    (by show _ = (1672531198 : UInt64).toInt64.toInt; decide +kernel)
  have hs' := hd.mpr (by unfold Date.FullWidth; simp)
  let w := c58_witness 1672531198
  let raw : Str → RawSketchwareProject := fun t =>
    ⟨s, w.file.reconstruct, w.library.reconstruct, w.resource.reconstruct, w.view.reconstruct, t, none⟩
  have hp : ∀ t l, Logic.parse t = .ok l → SketchwareProject.parseFrom (fun _ => true) (raw t) = .ok { w with logic := l } := by
    intro t l h
    rw [c58_parts]
    exact ⟨hs', (c17_file_round_trip_partial w.file).1.mpr (.inr rfl), c19_library_round_trip _, c18_resource_round_trip _,
      (c22_view_file_round_trip_partial w.view ⟨List.Pairwise.nil, List.Pairwise.nil⟩).mpr c58_witness_parts.2.1, h, rfl⟩
  have hw : ∀ l : Logic, SketchwareProject.tryIntoRaw { w with logic := l } none = .ok (raw l.reconstruct) := by
    intro l
    unfold SketchwareProject.tryIntoRaw
    rw [show ({ w with logic := l } : SketchwareProject).project = (c58_witness 1672531198).project from rfl, hs]
    rfl
  obtain ⟨l0, l1, l2⟩ := c101_logic_false
  refine ⟨_, _, _, _, _, _, hp _ _ l0, c101_kept, rfl, hw _, hp _ _ l1, hw _, hp _ _ l2, rfl, ?_, ?_⟩
  · simp [c101_a, c101_b]
  · simp

end Swrs
