import Verif.Proofs.Library
import Verif.Proofs.FileLike
/-!
# C16 – C20: activity options, file, resource and library files
-/
namespace Swrs

/-! ## C16 — Activity options bit mask -/

/-- C16: reading the number written for an option set gives the option set back; writing the options read from a
number keeps exactly the low four bits; option `k` is on iff bit `k` is set. -/
theorem c16_activity_options :
    (∀ o : ActivityOptions, ActivityOptions.fromNum o.asNum = o) ∧
    (∀ n : UInt8, (ActivityOptions.fromNum n).asNum.toNat = n.toNat % 16) ∧
    (∀ n : UInt8, (ActivityOptions.fromNum n).toolbar = n.toNat.testBit 0 ∧
      (ActivityOptions.fromNum n).fullscreen = n.toNat.testBit 1 ∧
      (ActivityOptions.fromNum n).drawer = n.toNat.testBit 2 ∧
      (ActivityOptions.fromNum n).fab = n.toNat.testBit 3) := by
  refine ⟨ActivityOptions.fromNum_asNum, fun n => ?_, fun n => ?_⟩
  · have key : ∀ k < 256, (ActivityOptions.fromNum (UInt8.ofNat k)).asNum.toNat = k % 16 := by
      decide +kernel
    have := key n.toNat n.toNat_lt
    rwa [UInt8.ofNat_toNat] at this
  · have key : ∀ k < 256, (ActivityOptions.fromNum (UInt8.ofNat k)).toolbar = k.testBit 0 ∧
      (ActivityOptions.fromNum (UInt8.ofNat k)).fullscreen = k.testBit 1 ∧
      (ActivityOptions.fromNum (UInt8.ofNat k)).drawer = k.testBit 2 ∧
      (ActivityOptions.fromNum (UInt8.ofNat k)).fab = k.testBit 3 := by
      decide +kernel
    have := key n.toNat n.toNat_lt
    rwa [UInt8.ofNat_toNat] at this

/-! ## C17 — File list round trip -/

/-- A file list with a custom view and no activity. -/
def c17_witness : File where
  activities := []
  customViews := [⟨s% "drawer", .customView, .unspecified, ⟨false, false, false, false⟩,
    .portrait, .none⟩]

/-- The full property C17 is false of the code: with no activity, the blank line written for the empty section
ends the parse and the custom views are lost. -/
theorem c17_file_round_trip_false : ¬ ∀ f : File, File.parse f.reconstruct = .ok f := by
  intro h
  have h1 := h c17_witness
  rw [File.parse_reconstruct_nil _ rfl] at h1
  simp [c17_witness] at h1

/-- C17, proved part: a file list is read back exactly when it has an activity or no custom view; otherwise the
empty list is read. Missing: the case with custom views and no activity, where the property is false. -/
theorem c17_file_round_trip_partial (f : File) :
    (File.parse f.reconstruct = .ok f ↔ (f.activities ≠ [] ∨ f.customViews = [])) ∧
    (f.activities = [] → File.parse f.reconstruct = .ok { activities := [], customViews := [] }) := by
  refine ⟨?_, File.parse_reconstruct_nil f⟩
  by_cases h : f.activities = []
  · rw [File.parse_reconstruct_nil f h]
    cases f with
    | mk a c =>
      simp only at h; subst h
      simp [eq_comm]
  · simp [h, File.parse_reconstruct f h]

example : File.parse (s% "@activity\n\n@customview\n{\"fileName\":\"drawer\",\"fileType\":1,\"keyboardSetting\":0,\"options\":0,\"orientation\":0,\"theme\":-1}")
    = .ok ⟨[], []⟩ := by decide +kernel
example : c17_witness.reconstruct = s% "@activity\n\n@customview\n{\"fileName\":\"drawer\",\"fileType\":1,\"keyboardSetting\":0,\"options\":0,\"orientation\":0,\"theme\":-1}" := by
  decide +kernel
example : ∃ f : File, f.activities ≠ [] ∧ f.customViews ≠ [] :=
  ⟨⟨c17_witness.customViews, c17_witness.customViews⟩, by simp [c17_witness]⟩

/-! ## C18 — Resource list round trip -/

/-- C18: a reconstructed resource list parses to the same list. -/
theorem c18_resource_round_trip (r : Resource) : Resource.parse r.reconstruct = .ok r :=
  Resource.parse_reconstruct r

example : (⟨[⟨s% "a\n@fonts\n.png", s% "a", 1⟩], [], [⟨s% "f.ttf", s% "f", 1⟩]⟩ : Resource).reconstruct =
    s% "@images\n{\"resFullName\":\"a\\n@fonts\\n.png\",\"resName\":\"a\",\"resType\":1}\n@sounds\n@fonts\n{\"resFullName\":\"f.ttf\",\"resName\":\"f\",\"resType\":1}" := by
  decide +kernel

/-! ## C20 — Library sections -/

open Library in
/-- C20: `Library::parse` succeeds iff no header is the last line, the line after every header is a well-formed
item, and each of the four headers occurs; each section is the one of the last occurrence of its header. Nothing
else about the text matters: order and other lines are irrelevant. -/
theorem c20_library_parse (s : Str) (l : Library) :
    parse s = .ok l ↔
      (scan (lines s)).2 = none ∧ (∀ e ∈ (scan (lines s)).1, (LibraryItem.parse e.2).isSome) ∧
      lastItem (s% "@firebaseDB") (scan (lines s)).1 = some l.firebaseDb ∧
      lastItem (s% "@compat") (scan (lines s)).1 = some l.compat ∧
      lastItem (s% "@admob") (scan (lines s)).1 = some l.admob ∧
      lastItem (s% "@googleMap") (scan (lines s)).1 = some l.googleMap := by
  obtain ⟨hl, hnp⟩ := loop_eq (lines s) {} 0
  unfold parse
  cases hloop : loop (lines s) {} 0 with
  | panic => exact absurd hloop hnp
  | err e =>
    simp only [Out.err_bind]
    constructor
    · intro h; simp at h
    · rintro ⟨h1, h2, _⟩
      have := (hl (accOf {} (scan (lines s)).1)).mpr ⟨h1, h2, rfl⟩
      rw [hloop] at this; simp at this
  | ok b =>
    obtain ⟨h1, h2, h3⟩ := (hl b).mp hloop
    have hs := fun h hh => slot_accOf (scan (lines s)).1 {} (scan_headers _) h2 h hh
    rw [h3] at hs
    have s1 := hs (s% "@firebaseDB") (by decide)
    have s2 := hs (s% "@compat") (by decide)
    have s3 := hs (s% "@admob") (by decide)
    have s4 := hs (s% "@googleMap") (by decide)
    have r : ∀ h, (match lastItem h (scan (lines s)).1 with | some v => some v | none => none)
        = lastItem h (scan (lines s)).1 := by intro h; split <;> simp_all
    change b.firebaseDb = match lastItem _ _ with | some v => some v | none => none at s1
    change b.compat = match lastItem _ _ with | some v => some v | none => none at s2
    change b.admob = match lastItem _ _ with | some v => some v | none => none at s3
    change b.googleMap = match lastItem _ _ with | some v => some v | none => none at s4
    rw [r] at s1 s2 s3 s4
    rw [← s1, ← s2, ← s3, ← s4]
    simp only [Out.ok_bind, h1, true_and]
    rw [and_iff_right h2]
    cases l with
    | mk f c a g =>
      cases hb1 : b.firebaseDb <;> cases hb2 : b.compat <;> cases hb3 : b.admob <;>
        cases hb4 : b.googleMap <;> simp

/-- C20: `Library::parse` never panics. -/
theorem c20_library_no_panic (s : Str) : Library.parse s ≠ .panic := by
  obtain ⟨_, hnp⟩ := Library.loop_eq (lines s) {} 0
  unfold Library.parse
  cases hloop : Library.loop (lines s) {} 0 with
  | panic => exact absurd hloop hnp
  | err e => simp
  | ok b =>
    simp only [Out.ok_bind]
    cases b.firebaseDb <;> cases b.compat <;> cases b.admob <;> cases b.googleMap <;> simp

/-! ## C19 — Library round trip -/

/-- The four sections of a library with their headers. -/
def Library.sections (l : Library) : List (Str × LibraryItem) :=
  [(s% "@firebaseDB", l.firebaseDb), (s% "@compat", l.compat), (s% "@admob", l.admob),
    (s% "@googleMap", l.googleMap)]

theorem Library.lines_sections (es : List (Str × LibraryItem)) (hne : es ≠ [])
    (h : ∀ e ∈ es, '\n' ∉ e.1) :
    lines (joinWith '\n' (es.flatMap fun e => [e.1, e.2.reconstruct])) =
      es.flatMap fun e => [e.1, e.2.reconstruct] := by
  apply splitOn_joinWith
  · cases es with
    | nil => exact absurd rfl hne
    | cons e es => simp
  · intro p hp
    obtain ⟨e, he, hp⟩ := List.mem_flatMap.mp hp
    simp only [List.mem_cons, List.not_mem_nil, or_false] at hp
    rcases hp with rfl | rfl
    · exact h e he
    · exact e.2.jline.noNl

theorem Library.scan_sections (es : List (Str × LibraryItem)) (h : ∀ e ∈ es, e.1 ∈ Library.headers) :
    Library.scan (es.flatMap fun e => [e.1, e.2.reconstruct]) =
      (es.map fun e => (e.1, e.2.reconstruct), none) := by
  induction es with
  | nil => rfl
  | cons e es ih =>
    have := h e (by simp)
    simp only [List.flatMap_cons, List.cons_append, List.nil_append, Library.scan, this, if_true]
    rw [ih fun x hx => h x (by simp [hx])]; rfl

/-- C20: the four sections, each a header line and an item line, may come in any order. -/
theorem c20_any_order (l : Library) (es : List (Str × LibraryItem)) (h : es.Perm l.sections) :
    Library.parse (joinWith '\n' (es.flatMap fun e => [e.1, e.2.reconstruct])) = .ok l := by
  have hmem : ∀ e ∈ es, e.1 ∈ Library.headers := by
    intro e he
    have := h.subset he
    simp only [Library.sections, List.mem_cons, List.not_mem_nil, or_false] at this
    rcases this with rfl | rfl | rfl | rfl <;> simp [Library.headers]
  have hnl : ∀ e ∈ es, '\n' ∉ e.1 := by
    intro e he
    have := hmem e he
    simp only [Library.headers, List.mem_cons, List.not_mem_nil, or_false] at this
    rcases this with h | h | h | h <;> rw [h] <;> decide
  have hne : es ≠ [] := by rintro rfl; have := h.length_eq; simp [Library.sections] at this
  rw [c20_library_parse, Library.lines_sections es hne hnl, Library.scan_sections es hmem]
  have hlast : ∀ k v, (k, v) ∈ l.sections → Library.lastItem k (es.map fun e => (e.1, e.2.reconstruct)) = some v := by
    intro k v hkv
    unfold Library.lastItem
    rw [List.filter_map]
    have hf : es.filter (fun e => decide (e.1 = k)) = [(k, v)] := by
      have hp := h.filter (fun e => decide (e.1 = k))
      have : l.sections.filter (fun e => decide (e.1 = k)) = [(k, v)] := by
        simp only [Library.sections, List.mem_cons, Prod.mk.injEq, List.not_mem_nil, or_false] at hkv
        rcases hkv with ⟨rfl, rfl⟩ | ⟨rfl, rfl⟩ | ⟨rfl, rfl⟩ | ⟨rfl, rfl⟩ <;>
          simp [Library.sections]
      rw [this] at hp
      exact List.perm_singleton.mp hp
    have he : (fun e : Str × Str => decide (e.1 = k)) ∘ (fun e : Str × LibraryItem => (e.1, e.2.reconstruct))
        = fun e => decide (e.1 = k) := rfl
    rw [he, hf]
    simp [LibraryItem.parse_reconstruct]
  refine ⟨rfl, ?_, ?_, ?_, ?_, ?_⟩
  · intro e he
    obtain ⟨x, _, rfl⟩ := List.mem_map.mp he
    simp [LibraryItem.parse_reconstruct]
  all_goals exact hlast _ _ (by simp [Library.sections])

/-- C19: a reconstructed library configuration parses to the same configuration. -/
theorem c19_library_round_trip (l : Library) : Library.parse l.reconstruct = .ok l := by
  have := c20_any_order l l.sections (List.Perm.refl _)
  have e : joinWith '\n' (l.sections.flatMap fun e => [e.1, e.2.reconstruct]) = l.reconstruct := by
    simp [Library.sections, Library.reconstruct, joinWith]
  rwa [e] at this

/-- A library item used in the examples. -/
def sampleLib (d : Str) : LibraryItem where
  adUnits := [⟨s% "id", s% "na\"me"⟩]
  data := d
  libType := 3
  reserved1 := []
  reserved2 := []
  reserved3 := s% "x\ny"
  testDevices := [s% "dev"]
  useYn := s% "Y"

example : ∃ s, Library.parse s = .ok ⟨sampleLib [], sampleLib [], sampleLib (s% "a"), sampleLib []⟩ :=
  ⟨_, c19_library_round_trip _⟩
/-- A repeated section: the last one is used; junk lines are ignored. -/
example : Library.scan [s% "junk", s% "@admob", s% "A", s% "@admob", s% "B", []] =
    ([(s% "@admob", s% "A"), (s% "@admob", s% "B")], none) := by decide
example : Library.parse (s% "@firebaseDB") = .err (.eofAfterHeader (s% "@firebaseDB")) := by decide

/-- `c20_any_order`: the four sections the other way round. -/
example : Library.parse (joinWith '\n' ((Library.sections ⟨sampleLib [], sampleLib [], sampleLib (s% "a"), sampleLib []⟩).reverse.flatMap
    fun e => [e.1, e.2.reconstruct])) = .ok ⟨sampleLib [], sampleLib [], sampleLib (s% "a"), sampleLib []⟩ :=
  c20_any_order _ _ (List.reverse_perm _)

end Swrs
