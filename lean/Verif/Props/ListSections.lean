import Verif.Props.CutOff
/-!
# C118: the sections of the lists of files and resources
-/
set_option linter.unusedSectionVars false
namespace Swrs
open Sections

/-- Specification: a text of sections. Each section is a header, given by its kind, and record lines. -/
def c118_text {σ : Type} (name : σ → Str) (secs : List (σ × List Str)) : Str := joinWith '\n' (secs.flatMap fun s => name s.1 :: s.2)

/-- Specification: the record lines of sections of the kinds with these names: no blank line, no line break, no header. -/
def c118_Lines {σ : Type} (name : σ → Str) (secs : List (σ × List Str)) : Prop :=
  ∀ s ∈ secs, ∀ l ∈ s.2, l ≠ [] ∧ '\n' ∉ l ∧ ∀ k, l ≠ name k

/-- Specification: what the record lines of the sections of one kind say, in their order. -/
def c118_records {σ α : Type} [DecidableEq σ] (read : Str → Option α) (k : σ) (secs : List (σ × List Str)) : List α :=
  ((secs.filter fun s => s.1 = k).flatMap fun s => s.2).filterMap read

/-- The header of a kind of file. -/
def c118_file : FileKind → Str | .activity => s% "@activity" | .customView => s% "@customview"
/-- The header of a kind of resource. -/
def c118_resource : ResourceKind → Str | .images => s% "@images" | .sounds => s% "@sounds" | .fonts => s% "@fonts"

theorem c118_gloop_lines {σ α : Type} {header : Str → Option σ} {read : Str → Option α} (k : σ) (rest : List Str) :
    ∀ (ls : List Str) (acc : List (σ × α)) (n : Nat), (∀ l ∈ ls, l ≠ [] ∧ header l = none) →
      gloop header read (ls ++ rest) (some k) acc n = if ∀ l ∈ ls, (read l).isSome then
        gloop header read rest (some k) (acc ++ ls.filterMap fun l => (read l).map fun a => (k, a)) (n + ls.length)
      else gloop header read (ls ++ rest) (some k) acc n
  | [], acc, n, _ => by simp
  | l :: ls, acc, n, h => by
    split
    · rename_i hr
      obtain ⟨h1, h2⟩ := h l (by simp)
      obtain ⟨a, ha⟩ := Option.isSome_iff_exists.mp (hr l (by simp))
      rw [List.cons_append, gloop_cons, h2]
      simp only [if_neg h1, ha]
      rw [c118_gloop_lines k rest ls _ _ (fun l hl => h l (by simp [hl])), if_pos (fun l hl => hr l (by simp [hl]))]
      simp [ha, Nat.add_assoc, Nat.add_comm 1]
    · rfl

theorem c118_gloop_bad {σ α : Type} {header : Str → Option σ} {read : Str → Option α} (k : σ) (rest : List Str) :
    ∀ (ls : List Str) (acc : List (σ × α)) (n : Nat), (∀ l ∈ ls, l ≠ [] ∧ header l = none) → (¬ ∀ l ∈ ls, (read l).isSome) →
      ∃ e, gloop header read (ls ++ rest) (some k) acc n = .error e
  | [], acc, n, _, h => absurd (by simp) h
  | l :: ls, acc, n, h, hr => by
    obtain ⟨h1, h2⟩ := h l (by simp)
    rw [List.cons_append, gloop_cons, h2]
    simp only [if_neg h1]
    cases ha : read l with
    | none => exact ⟨_, rfl⟩
    | some a =>
      refine c118_gloop_bad k rest ls _ _ (fun l hl => h l (by simp [hl])) fun hh => hr fun x hx => ?_
      rcases List.mem_cons.mp hx with rfl | hx
      · simp [ha]
      · exact hh x hx

theorem c118_gloop {σ α : Type} {header : Str → Option σ} {read : Str → Option α} {name : σ → Str} (hn : ∀ k, header (name k) = some k) :
    ∀ (secs : List (σ × List Str)) (sec : Option σ) (acc r : List (σ × α)) (n : Nat), (∀ s ∈ secs, ∀ l ∈ s.2, l ≠ [] ∧ header l = none) →
      (gloop header read (secs.flatMap fun s => name s.1 :: s.2) sec acc n = .ok r ↔
        (∀ s ∈ secs, ∀ l ∈ s.2, (read l).isSome) ∧
          r = acc ++ secs.flatMap fun s => s.2.filterMap fun l => (read l).map fun a => (s.1, a))
  | [], sec, acc, r, n, _ => by
    simp only [List.flatMap_nil, gloop, List.append_nil]
    constructor
    · intro h; exact ⟨by simp, (Except.ok.inj h).symm⟩
    · intro h; rw [h.2]
  | s :: secs, sec, acc, r, n, h => by
    rw [List.flatMap_cons, List.cons_append, gloop_cons, hn]
    simp only
    by_cases hr : ∀ l ∈ s.2, (read l).isSome
    · rw [c118_gloop_lines _ _ _ _ _ (fun l hl => h s (by simp) l hl), if_pos hr, c118_gloop hn secs _ _ _ _ (fun x hx => h x (by simp [hx]))]
      simp only [List.mem_cons, forall_eq_or_imp, List.flatMap_cons, List.append_assoc]
      constructor
      · rintro ⟨h1, h2⟩; exact ⟨⟨hr, h1⟩, h2⟩
      · rintro ⟨h1, h2⟩; exact ⟨h1.2, h2⟩
    · obtain ⟨e, he⟩ := c118_gloop_bad s.1 (secs.flatMap fun s => name s.1 :: s.2) s.2 acc (n + 1) (fun l hl => h s (by simp) l hl) hr
      rw [he]
      constructor
      · intro h; cases h
      · intro h; exact absurd (h.1 s (by simp)) hr

theorem c118_only {σ α : Type} [DecidableEq σ] (read : Str → Option α) (k : σ) (secs : List (σ × List Str)) :
    only k (secs.flatMap fun s => s.2.filterMap fun l => (read l).map fun a => (s.1, a)) = c118_records read k secs := by
  unfold only c118_records
  induction secs with
  | nil => rfl
  | cons s secs ih =>
    rw [List.flatMap_cons, List.filter_append, List.map_append, ih, List.filter_cons]
    have key : ∀ ls : List Str, ((ls.filterMap fun l => (read l).map fun a => (s.1, a)).filter fun x => decide (x.1 = k)).map (·.2) =
        if s.1 = k then ls.filterMap read else [] := by
      intro ls
      induction ls with
      | nil => simp
      | cons l ls ih =>
        rw [List.filterMap_cons, List.filterMap_cons]
        cases read l with
        | none => exact ih
        | some a =>
          simp only [Option.map_some, List.filter_cons]
          by_cases h : s.1 = k
          · simp only [h, decide_true, if_true, List.map_cons] at ih ⊢
            rw [ih]
          · simp only [h, decide_false, if_false, Bool.false_eq_true] at ih ⊢
            exact ih
    rw [key]
    by_cases h : s.1 = k
    · simp [h]
    · simp [h]

theorem c118_lines {σ : Type} {name : σ → Str} {secs : List (σ × List Str)} (hn : ∀ k, '\n' ∉ name k) (h : c118_Lines name secs) (hne : secs ≠ []) :
    lines (c118_text name secs) = secs.flatMap fun s => name s.1 :: s.2 := by
  refine splitOn_joinWith ?_ ?_
  · cases secs with
    | nil => exact absurd rfl hne
    | cons s secs => simp
  · intro p hp
    obtain ⟨s, hs, hp⟩ := List.mem_flatMap.mp hp
    rcases List.mem_cons.mp hp with rfl | hp
    · exact hn _
    · exact (h s hs p hp).2.1

theorem c118_gloop_text {σ α : Type} {header : Str → Option σ} {read : Str → Option α} {name : σ → Str} (hk : ∀ k l, header l = some k ↔ l = name k)
    (h0 : ∀ k, '\n' ∉ name k ∧ name k ≠ []) {secs : List (σ × List Str)} (h : c118_Lines name secs) (r : List (σ × α)) :
    gloop header read (lines (c118_text name secs)) none [] 0 = .ok r ↔
      (∀ s ∈ secs, ∀ l ∈ s.2, (read l).isSome) ∧ r = secs.flatMap fun s => s.2.filterMap fun l => (read l).map fun a => (s.1, a) := by
  by_cases hne : secs = []
  · subst hne
    have : header [] = none := by
      cases hh : header [] with
      | none => rfl
      | some k => exact absurd ((hk _ _).mp hh).symm (h0 k).2
    rw [show lines (c118_text name []) = [[]] from rfl, gloop_cons, this]
    simp only [gloop]
    constructor
    · intro h; exact ⟨by simp, (Except.ok.inj h).symm⟩
    · intro h; rw [h.2]; rfl
  · rw [c118_lines (fun k => (h0 k).1) h hne, c118_gloop (fun k => (hk _ _).mpr rfl)]
    · rfl
    · intro s hs l hl
      refine ⟨(h s hs l hl).1, ?_⟩
      cases hh : header l with
      | none => rfl
      | some k => exact absurd ((hk _ _).mp hh) ((h s hs l hl).2.2 k)

/-- C118: a list of files is read from its sections, however many there are and in whatever order, exactly when every record line is read; what is
read are the records of the activity sections and those of the custom view sections, each in the order of the text. -/
theorem c118_file_read {secs : List (FileKind × List Str)} (h : c118_Lines c118_file secs) (f : File) :
    File.parse (c118_text c118_file secs) = .ok f ↔
      (∀ s ∈ secs, ∀ l ∈ s.2, (FileItem.parse l).isSome) ∧ f.activities = c118_records FileItem.parse .activity secs ∧
        f.customViews = c118_records FileItem.parse .customView secs := by
  have hk : ∀ k l, fileHeader l = some k ↔ l = c118_file k := by
    intro k l
    unfold fileHeader
    split
    · rename_i h; subst h; cases k <;> decide
    · split
      · rename_i h; subst h; cases k <;> decide
      · cases k <;> simp_all [c118_file]
  have key := c118_gloop_text (read := FileItem.parse) hk (by intro k; cases k <;> decide) h
  rw [c116_file_gloop]
  cases hg : gloop fileHeader FileItem.parse (lines (c118_text c118_file secs)) none [] 0 with
  | ok l =>
    obtain ⟨h1, rfl⟩ := (key l).mp hg
    simp only [c118_only]
    constructor
    · intro h; obtain rfl := Out.ok.inj h; exact ⟨h1, rfl, rfl⟩
    · rintro ⟨_, h2, h3⟩; rw [← h2, ← h3]
  | error e =>
    constructor
    · intro h; cases h
    · rintro ⟨h1, _⟩; rw [(key _).mpr ⟨h1, rfl⟩] at hg; cases hg

/-- C118: the same for a list of resources. -/
theorem c118_resource_read {secs : List (ResourceKind × List Str)} (h : c118_Lines c118_resource secs) (r : Resource) :
    Resource.parse (c118_text c118_resource secs) = .ok r ↔
      (∀ s ∈ secs, ∀ l ∈ s.2, (ResourceItem.parse l).isSome) ∧ r.images = c118_records ResourceItem.parse .images secs ∧
        r.sounds = c118_records ResourceItem.parse .sounds secs ∧ r.fonts = c118_records ResourceItem.parse .fonts secs := by
  have hk : ∀ k l, resourceHeader l = some k ↔ l = c118_resource k := by
    intro k l
    unfold resourceHeader
    split
    · rename_i h; subst h; cases k <;> decide
    · split
      · rename_i h; subst h; cases k <;> decide
      · split
        · rename_i h; subst h; cases k <;> decide
        · cases k <;> simp_all [c118_resource]
  have key := c118_gloop_text (read := ResourceItem.parse) hk (by intro k; cases k <;> decide) h
  rw [c116_resource_gloop]
  cases hg : gloop resourceHeader ResourceItem.parse (lines (c118_text c118_resource secs)) none [] 0 with
  | ok l =>
    obtain ⟨h1, rfl⟩ := (key l).mp hg
    simp only [c118_only]
    constructor
    · intro h; obtain rfl := Out.ok.inj h; exact ⟨h1, rfl, rfl, rfl⟩
    · rintro ⟨_, h2, h3, h4⟩; rw [← h2, ← h3, ← h4]
  | error e =>
    constructor
    · intro h; cases h
    · rintro ⟨h1, _⟩; rw [(key _).mpr ⟨h1, rfl⟩] at hg; cases hg

theorem c118_lines_perm {σ : Type} {name : σ → Str} {secs secs' : List (σ × List Str)} (h : c118_Lines name secs) (hp : secs'.Perm secs) :
    c118_Lines name secs' := fun s hs => h s (hp.mem_iff.mp hs)

theorem c118_records_perm {σ α : Type} [DecidableEq σ] (read : Str → Option α) (k : σ) {secs secs' : List (σ × List Str)} (hp : secs'.Perm secs) :
    (c118_records read k secs').Perm (c118_records read k secs) :=
  ((hp.filter _).flatMap_right _).filterMap _

/-- C118: with the sections in any other order a list of files that is read is read again, with the same activities and custom views up to their
order; and with exactly the same if the sections of each kind keep their order among themselves. -/
theorem c118_file_order {secs secs' : List (FileKind × List Str)} (h : c118_Lines c118_file secs) (hp : secs'.Perm secs) {f : File}
    (hf : File.parse (c118_text c118_file secs) = .ok f) :
    ∃ f', File.parse (c118_text c118_file secs') = .ok f' ∧ f'.activities.Perm f.activities ∧ f'.customViews.Perm f.customViews ∧
      ((∀ k, secs'.filter (·.1 = k) = secs.filter (·.1 = k)) → f' = f) := by
  obtain ⟨h1, h2, h3⟩ := (c118_file_read h f).mp hf
  refine ⟨⟨_, _⟩, (c118_file_read (c118_lines_perm h hp) _).mpr ⟨fun s hs => h1 s (hp.mem_iff.mp hs), rfl, rfl⟩, ?_, ?_, ?_⟩
  · rw [h2]; exact c118_records_perm _ _ hp
  · rw [h3]; exact c118_records_perm _ _ hp
  · intro hk
    obtain ⟨a, c⟩ := f
    simp only at h2 h3
    rw [File.mk.injEq, h2, h3]
    unfold c118_records
    rw [hk, hk]
    exact ⟨rfl, rfl⟩

/-- C118: the same for a list of resources. -/
theorem c118_resource_order {secs secs' : List (ResourceKind × List Str)} (h : c118_Lines c118_resource secs) (hp : secs'.Perm secs) {r : Resource}
    (hr : Resource.parse (c118_text c118_resource secs) = .ok r) :
    ∃ r', Resource.parse (c118_text c118_resource secs') = .ok r' ∧ r'.images.Perm r.images ∧ r'.sounds.Perm r.sounds ∧ r'.fonts.Perm r.fonts ∧
      ((∀ k, secs'.filter (·.1 = k) = secs.filter (·.1 = k)) → r' = r) := by
  obtain ⟨h1, h2, h3, h4⟩ := (c118_resource_read h r).mp hr
  refine ⟨⟨_, _, _⟩, (c118_resource_read (c118_lines_perm h hp) _).mpr ⟨fun s hs => h1 s (hp.mem_iff.mp hs), rfl, rfl, rfl⟩, ?_, ?_, ?_, ?_⟩
  · rw [h2]; exact c118_records_perm _ _ hp
  · rw [h3]; exact c118_records_perm _ _ hp
  · rw [h4]; exact c118_records_perm _ _ hp
  · intro hk
    obtain ⟨a, c, d⟩ := r
    simp only at h2 h3 h4
    rw [Resource.mk.injEq, h2, h3, h4]
    unfold c118_records
    rw [hk, hk, hk]
    exact ⟨rfl, rfl, rfl⟩

theorem c118_filter {σ : Type} [DecidableEq σ] {secs secs' : List (σ × List Str)} (hp : secs'.Perm secs) (hn : (secs.map (·.1)).Nodup) (k : σ) :
    secs'.filter (·.1 = k) = secs.filter (·.1 = k) := by
  have hl : ∀ l : List (σ × List Str), (l.map (·.1)).Nodup → (l.filter (·.1 = k)).length ≤ 1 := by
    intro l hl
    induction l with
    | nil => simp
    | cons x l ih =>
      rw [List.map_cons, List.nodup_cons] at hl
      rw [List.filter_cons]
      split
      · rename_i hx
        have : l.filter (·.1 = k) = [] := by
          rw [List.filter_eq_nil_iff]
          intro y hy hk
          refine hl.1 (List.mem_map.mpr ⟨y, hy, ?_⟩)
          rw [of_decide_eq_true hx, of_decide_eq_true hk]
        simp [this]
      · exact ih hl.2
  have hq := hp.filter (·.1 = k)
  have h1 := hl secs hn
  cases hs : secs.filter (·.1 = k) with
  | nil => rw [hs] at hq; exact hq.eq_nil
  | cons x l =>
    rw [hs] at h1 hq
    have : l = [] := by
      rw [List.length_cons] at h1
      exact List.eq_nil_of_length_eq_zero (by omega)
    subst this
    exact List.perm_singleton.mp hq

/-- C118: in particular the order of the sections does not matter if no two are of the same kind. -/
theorem c118_apart :
    (∀ {secs secs' : List (FileKind × List Str)}, c118_Lines c118_file secs → secs'.Perm secs → (secs.map (·.1)).Nodup → ∀ f,
      File.parse (c118_text c118_file secs) = .ok f → File.parse (c118_text c118_file secs') = .ok f) ∧
    ∀ {secs secs' : List (ResourceKind × List Str)}, c118_Lines c118_resource secs → secs'.Perm secs → (secs.map (·.1)).Nodup → ∀ r,
      Resource.parse (c118_text c118_resource secs) = .ok r → Resource.parse (c118_text c118_resource secs') = .ok r := by
  refine ⟨fun h hp hn f hf => ?_, fun h hp hn r hr => ?_⟩
  · obtain ⟨f', h1, _, _, h2⟩ := c118_file_order h hp hf
    rw [h1, h2 (c118_filter hp hn)]
  · obtain ⟨f', h1, _, _, _, h2⟩ := c118_resource_order h hp hr
    rw [h1, h2 (c118_filter hp hn)]

/-- C118: the records may be spread over any number of sections: texts whose record lines are the same for each kind are read alike. -/
theorem c118_spread {secs secs' : List (FileKind × List Str)} (h : c118_Lines c118_file secs) (h' : c118_Lines c118_file secs')
    (hk : ∀ k, (secs'.filter (·.1 = k)).flatMap (·.2) = (secs.filter (·.1 = k)).flatMap (·.2)) (f : File) :
    File.parse (c118_text c118_file secs') = .ok f ↔ File.parse (c118_text c118_file secs) = .ok f := by
  have hm : ∀ {a b : List (FileKind × List Str)}, (∀ k, (a.filter (·.1 = k)).flatMap (·.2) = (b.filter (·.1 = k)).flatMap (·.2)) →
      (∀ s ∈ b, ∀ l ∈ s.2, (FileItem.parse l).isSome) → ∀ s ∈ a, ∀ l ∈ s.2, (FileItem.parse l).isSome := by
    intro a b hk hb s hs l hl
    have : l ∈ (a.filter (·.1 = s.1)).flatMap (·.2) := List.mem_flatMap.mpr ⟨s, by simp [hs], hl⟩
    rw [hk] at this
    obtain ⟨x, hx, hl⟩ := List.mem_flatMap.mp this
    exact hb x (List.mem_of_mem_filter hx) l hl
  rw [c118_file_read h, c118_file_read h']
  unfold c118_records
  rw [hk, hk]
  constructor
  · rintro ⟨h1, h2⟩; exact ⟨hm (fun k => (hk k).symm) h1, h2⟩
  · rintro ⟨h1, h2⟩; exact ⟨hm hk h1, h2⟩

/-- C118: the same for a list of resources. -/
theorem c118_spread_resource {secs secs' : List (ResourceKind × List Str)} (h : c118_Lines c118_resource secs) (h' : c118_Lines c118_resource secs')
    (hk : ∀ k, (secs'.filter (·.1 = k)).flatMap (·.2) = (secs.filter (·.1 = k)).flatMap (·.2)) (r : Resource) :
    Resource.parse (c118_text c118_resource secs') = .ok r ↔ Resource.parse (c118_text c118_resource secs) = .ok r := by
  have hm : ∀ {a b : List (ResourceKind × List Str)}, (∀ k, (a.filter (·.1 = k)).flatMap (·.2) = (b.filter (·.1 = k)).flatMap (·.2)) →
      (∀ s ∈ b, ∀ l ∈ s.2, (ResourceItem.parse l).isSome) → ∀ s ∈ a, ∀ l ∈ s.2, (ResourceItem.parse l).isSome := by
    intro a b hk hb s hs l hl
    have : l ∈ (a.filter (·.1 = s.1)).flatMap (·.2) := List.mem_flatMap.mpr ⟨s, by simp [hs], hl⟩
    rw [hk] at this
    obtain ⟨x, hx, hl⟩ := List.mem_flatMap.mp this
    exact hb x (List.mem_of_mem_filter hx) l hl
  rw [c118_resource_read h, c118_resource_read h']
  unfold c118_records
  rw [hk, hk, hk]
  constructor
  · rintro ⟨h1, h2⟩; exact ⟨hm (fun k => (hk k).symm) h1, h2⟩
  · rintro ⟨h1, h2⟩; exact ⟨hm hk h1, h2⟩

/-! ### Examples -/

/-- `c118_file_read`, `c118_file_order` and `c118_spread`: two sections of activities around one of custom views. -/
example : ∃ (a v b : FileItem), ∃ secs : List (FileKind × List Str), secs = [(.activity, [a.reconstruct]), (.customView, [v.reconstruct]), (.activity, [b.reconstruct])] ∧
    c118_Lines c118_file secs ∧ File.parse (c118_text c118_file secs) = .ok ⟨[a, b], [v]⟩ ∧ a ≠ b :=
  ⟨⟨s% "a", .activity, .unspecified, ⟨true, false, false, false⟩, .portrait, .none⟩, ⟨s% "v", .customView, .unspecified, ⟨true, false, false, false⟩, .portrait, .none⟩,
    ⟨s% "b", .activity, .unspecified, ⟨true, false, false, false⟩, .portrait, .none⟩, _, rfl, by
      intro s hs l hl
      simp only [List.mem_cons, List.not_mem_nil, or_false] at hs
      rcases hs with rfl | rfl | rfl <;> (obtain rfl := List.mem_singleton.mp hl; refine ⟨by decide +kernel, by decide +kernel, ?_⟩; intro k; cases k <;> decide +kernel),
    by decide +kernel, by decide⟩
/-- `c118_resource_read`, `c118_resource_order` and `c118_spread_resource`: fonts before images. -/
example : ∃ secs : List (ResourceKind × List Str), secs = [(.fonts, [ResourceItem.reconstruct ⟨s% "f", s% "g", 1⟩]), (.images, [ResourceItem.reconstruct ⟨s% "a", s% "b", 1⟩])] ∧
    c118_Lines c118_resource secs ∧ Resource.parse (c118_text c118_resource secs) = .ok ⟨[⟨s% "a", s% "b", 1⟩], [], [⟨s% "f", s% "g", 1⟩]⟩ :=
  ⟨_, rfl, by
      intro s hs l hl
      simp only [List.mem_cons, List.not_mem_nil, or_false] at hs
      rcases hs with rfl | rfl <;> (obtain rfl := List.mem_singleton.mp hl; refine ⟨by decide +kernel, by decide +kernel, ?_⟩; intro k; cases k <;> decide +kernel),
    by decide +kernel⟩

end Swrs
