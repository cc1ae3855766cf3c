import Verif.Props.DebugText
import Verif.Props.LogicRead
import Verif.Proofs.LogicTrace
/-!
# C94: what the listings tell of files that are read
-/
namespace Swrs.Examples

/-- The last occurrence of a character is where it does not come again. -/
theorem c94_last_char {c : Char} {u v r r' : Str} (hr : c ∉ r) (hr' : c ∉ r') (h : u ++ c :: r = v ++ c :: r') : u = v ∧ r = r' := by
  have h' := congrArg List.reverse h
  simp only [List.reverse_append, List.reverse_cons, List.append_assoc, List.cons_append, List.nil_append] at h'
  obtain ⟨h1, h2⟩ := until_char (by simpa using hr) (by simpa using hr') h'
  exact ⟨List.reverse_inj.mp h2, List.reverse_inj.mp h1⟩

/-- In an escaped text no quote comes after a space. -/
theorem c94_no_quote (plain : Char → Bool) : ∀ (s z e : Str), s.flatMap (escapeDebug plain) ≠ z ++ ' ' :: '"' :: e := by
  have head : ∀ (s e : Str), s.flatMap (escapeDebug plain) ≠ '"' :: e := by
    intro s e h
    cases s with
    | nil => cases h
    | cons c s =>
      obtain ⟨k, r, hk, hne⟩ := escapeDebug_quote plain c
      rw [List.flatMap_cons, hk] at h
      exact hne (List.cons.inj h).1
  intro s
  induction s with
  | nil => intro z e h; cases z <;> cases h
  | cons c s ih =>
    intro z e h
    rw [List.flatMap_cons] at h
    rcases List.append_eq_append_iff.mp h with ⟨y, rfl, h2⟩ | ⟨y, h1, h2⟩
    · exact ih _ _ h2
    · -- the space is in the escape of `c`
      cases y with
      | nil => exact ih [] e h2.symm
      | cons k y =>
        obtain ⟨rfl, h3⟩ := List.cons.inj h2
        cases y with
        | nil => exact head _ _ h3.symm
        | cons k y =>
          obtain ⟨rfl, h4⟩ := List.cons.inj h3
          rcases escapeDebug_shape plain c with ⟨k, e', hk⟩ | ⟨e', -⟩ | e' <;> rw [e'] at h1
          · cases z with
            | nil => exact absurd (List.cons.inj h1).1 (by decide)
            | cons _ z =>
              have := congrArg List.length h1
              simp at this
              omega
          · have := congrArg List.length h1
            simp at this
            omega
          · have : '"' ∈ escapeUnicode c := by rw [h1]; simp
            revert this
            simp only [escapeUnicode, List.mem_append, not_or, imp_false]
            exact ⟨⟨by decide, natStr_hex_ne (by decide) _⟩, by decide⟩

/-- A `{:?}` text after a space is told from its end. -/
theorem c94_debug_end (plain : Char → Bool) {a b u v r r' : Str} (hr : '"' ∉ r) (hr' : '"' ∉ r')
    (h : u ++ ' ' :: (debugStr plain a ++ r) = v ++ ' ' :: (debugStr plain b ++ r')) : u = v ∧ a = b ∧ r = r' := by
  have e : ∀ (x w t : Str), w ++ ' ' :: (debugStr plain x ++ t) = (w ++ ' ' :: '"' :: x.flatMap (escapeDebug plain)) ++ '"' :: t := by
    intro x w t
    simp [debugStr]
  rw [e, e] at h
  obtain ⟨h1, h2⟩ := c94_last_char hr hr' h
  have key : ∀ {a b u v : Str}, u ++ ' ' :: '"' :: a.flatMap (escapeDebug plain) = v ++ ' ' :: '"' :: b.flatMap (escapeDebug plain) →
      ∀ y, v = u ++ y → y = [] := by
    intro a b u v h y hv
    subst hv
    rw [List.append_assoc] at h
    have h := List.append_cancel_left h
    cases y with
    | nil => rfl
    | cons c y =>
      obtain ⟨rfl, h3⟩ := List.cons.inj h
      cases y with
      | nil => exact absurd (List.cons.inj h3).1 (by decide)
      | cons c y =>
        obtain ⟨rfl, h4⟩ := List.cons.inj h3
        exact absurd h4 (c94_no_quote plain _ _ _)
  have huv : u = v := by
    rcases List.append_eq_append_iff.mp h1 with ⟨y, hv, -⟩ | ⟨y, hv, -⟩
    · rw [hv, key h1 y hv, List.append_nil]
    · rw [hv, key h1.symm y hv, List.append_nil]
  subst huv
  have h3 := List.append_cancel_left h1
  have h4 : a.flatMap (escapeDebug plain) ++ '"' :: [] = b.flatMap (escapeDebug plain) ++ '"' :: [] := by
    rw [(List.cons.inj (List.cons.inj h3).2).2]
  exact ⟨rfl, (escaped_code plain a b [] [] h4).1, h2⟩

/-- What follows the name in a line of the listing. -/
def c94_after (i : FileItem) : Str :=
  s% ", file_type: " ++ fileTypeDebug i.fileType ++ s% ", keyboard_setting: " ++ keyboardDebug i.keyboardSetting ++
  s% ", options: ActivityOptions { toolbar_enabled: " ++ debugBool i.options.toolbar ++ s% ", fullscreen_enabled: " ++
  debugBool i.options.fullscreen ++ s% ", drawer_enabled: " ++ debugBool i.options.drawer ++ s% ", fab_enabled: " ++
  debugBool i.options.fab ++ s% " }, orientation: " ++ orientationDebug i.orientation ++ s% ", theme: " ++ themeDebug i.theme ++ s% " }\n"

theorem c94_after_quote (i : FileItem) : '"' ∉ c94_after i := by
  have hb : ∀ b, '"' ∉ debugBool b := by decide
  have h1 : '"' ∉ fileTypeDebug i.fileType := by cases i.fileType <;> decide
  have h2 : '"' ∉ keyboardDebug i.keyboardSetting := by cases i.keyboardSetting <;> decide
  have h3 : '"' ∉ orientationDebug i.orientation := by cases i.orientation <;> decide
  have h4 : '"' ∉ themeDebug i.theme := by cases i.theme <;> decide
  simp only [c94_after, List.mem_append, not_or]
  simp only [h1, h2, h3, h4, hb, not_false_eq_true, and_true]
  decide

theorem c94_fileLine (plain : Char → Bool) (path : PathBuf → Str) (i : FileItem) : letI := stdText plain path
    fileLine i = s% " - " ++ i.filename ++ s% ": FileItem { filename:" ++ ' ' :: (debugStr plain i.filename ++ c94_after i) := by
  let := stdText plain path
  show line _ = _
  rw [c94_debug.1 i]
  simp only [line, c94_after, List.append_assoc]
  rfl

/-- The last line of a listing is told from its end. -/
theorem c94_line_end (plain : Char → Bool) (path : PathBuf → Str) {i j : FileItem} {x y : Str} : letI := stdText plain path
    x ++ fileLine i = y ++ fileLine j → x = y ∧ i = j := by
  let := stdText plain path
  let := c97_lawful plain path
  show _ ++ fileLine i = _ ++ fileLine j → _
  intro h
  have h0 := h
  rw [c94_fileLine, c94_fileLine, ← List.append_assoc x, ← List.append_assoc y] at h
  obtain ⟨h1, h2, h3⟩ := c94_debug_end plain (c94_after_quote i) (c94_after_quote j) h
  rw [h2] at h1
  have hxy : x = y := List.append_cancel_right h1
  subst hxy
  have h4 := List.append_cancel_left h0
  rw [fileLine, fileLine, h2, line, line] at h4
  simp only [List.append_assoc] at h4
  exact ⟨rfl, (code_fileItem i j _ _ (List.append_cancel_left (as := s% ": ") (List.append_cancel_left (List.append_cancel_left (as := s% " - ") h4)))).1⟩

/-- The end of a line of the listing. -/
theorem c94_line_last (plain : Char → Bool) (path : PathBuf → Str) (i : FileItem) : letI := stdText plain path
    ∃ z, fileLine i = z ++ s% "}\n" := by
  let := stdText plain path
  show ∃ z, fileLine i = _
  rw [c94_fileLine]
  obtain ⟨t, ht⟩ : ∃ t, c94_after i = t ++ s% "}\n" := by
    unfold c94_after
    generalize _ ++ themeDebug i.theme = t
    exact ⟨t ++ s% " ", by simp⟩
  exact ⟨s% " - " ++ i.filename ++ s% ": FileItem { filename:" ++ ' ' :: (debugStr plain i.filename ++ t), by rw [ht]; simp⟩

/-- Lines after a heading are told from their end. -/
theorem c94_lines_end (plain : Char → Bool) (path : PathBuf → Str) {w : Str} (hw : ∃ z, w = z ++ s% ":\n") : letI := stdText plain path
    ∀ (as bs : List FileItem) (x y : Str), x ++ w ++ as.flatMap fileLine = y ++ w ++ bs.flatMap fileLine → x = y ∧ as = bs := by
  let := stdText plain path
  show ∀ (as bs : List FileItem) (x y : Str), x ++ w ++ as.flatMap fileLine = y ++ w ++ bs.flatMap fileLine → x = y ∧ as = bs
  obtain ⟨z, rfl⟩ := hw
  have clash : ∀ (u v : Str) (i : FileItem), u ++ s% ":\n" ≠ v ++ fileLine i := by
    intro u v i h
    obtain ⟨z', hz⟩ := c94_line_last plain path i
    have hz : fileLine i = z' ++ s% "}\n" := hz
    rw [hz] at h
    have h' := congrArg List.reverse h
    simp at h'
  have snoc : ∀ (as : List FileItem) (i : FileItem) (t : Str), t ++ (as ++ [i]).flatMap fileLine = (t ++ as.flatMap fileLine) ++ fileLine i := by
    intro as i t
    simp
  have main : ∀ (n : Nat) (as bs : List FileItem) (x y : Str), as.length = n →
      x ++ (z ++ s% ":\n") ++ as.flatMap fileLine = y ++ (z ++ s% ":\n") ++ bs.flatMap fileLine → x = y ∧ as = bs := ?_
  · exact fun as bs x y => main _ as bs x y rfl
  intro n
  induction n with
  | zero =>
    intro as bs x y hn h
    obtain rfl := List.eq_nil_of_length_eq_zero hn
    rcases List.eq_nil_or_concat bs with rfl | ⟨bs, j, rfl⟩
    · exact ⟨by simpa using h, rfl⟩
    · rw [List.concat_eq_append, snoc] at h
      rw [List.flatMap_nil, List.append_nil, ← List.append_assoc x] at h
      exact absurd h (clash _ _ j)
  | succ n ih =>
    intro as bs x y hn h
    rcases List.eq_nil_or_concat as with rfl | ⟨as, i, rfl⟩
    · cases hn
    rw [List.concat_eq_append] at hn h ⊢
    have hn' : as.length = n := by simpa using hn
    rcases List.eq_nil_or_concat bs with rfl | ⟨bs, j, rfl⟩
    · rw [snoc] at h
      rw [List.flatMap_nil, List.append_nil, ← List.append_assoc y] at h
      exact absurd h.symm (clash _ _ i)
    · rw [List.concat_eq_append, snoc, snoc] at h
      obtain ⟨h1, rfl⟩ := c94_line_end plain path h
      obtain ⟨h2, rfl⟩ := ih as bs x y hn' h1
      exact ⟨h2, by simp⟩

/-- C94: with `{:?}` as the standard library writes it, different lists of files give different outputs of `parse_file`, whatever the names are. -/
theorem c94_file_tells (plain : Char → Bool) (path : PathBuf → Str) (a b : File) : letI := stdText plain path
    fileListing a = fileListing b → a = b := by
  let := stdText plain path
  show fileListing a = fileListing b → a = b
  intro h
  obtain ⟨h1, h2⟩ := c94_lines_end plain path (w := line (s% "\nCustom views:")) ⟨s% "\nCustom views", rfl⟩ _ _ _ _ h
  obtain ⟨-, h3⟩ := c94_lines_end plain path (w := line (s% "Activities:")) ⟨s% "Activities", rfl⟩ _ _ [] [] h1
  cases a; cases b; cases h2; cases h3; rfl

/-- C94: what exactly the output of `parse_resource` tells, for names without line breaks: for each entry the name and the full name, joined with ` - `. -/
theorem c94_resource_exact (a b : Resource) (ha : ∀ i ∈ a.fonts ++ a.images ++ a.sounds, '\n' ∉ i.name ∧ '\n' ∉ i.fullName)
    (hb : ∀ i ∈ b.fonts ++ b.images ++ b.sounds, '\n' ∉ i.name ∧ '\n' ∉ i.fullName) : resourceListing a = resourceListing b ↔
    a.fonts.map (fun i => i.name ++ s% " - " ++ i.fullName) = b.fonts.map (fun i => i.name ++ s% " - " ++ i.fullName) ∧
    a.images.map (fun i => i.name ++ s% " - " ++ i.fullName) = b.images.map (fun i => i.name ++ s% " - " ++ i.fullName) ∧
    a.sounds.map (fun i => i.name ++ s% " - " ++ i.fullName) = b.sounds.map (fun i => i.name ++ s% " - " ++ i.fullName) := by
  constructor
  · intro h
    have hf : ∀ (i j : ResourceItem) (x y : Str), ('\n' ∉ i.name ∧ '\n' ∉ i.fullName) → ('\n' ∉ j.name ∧ '\n' ∉ j.fullName) →
        resourceLine i ++ x = resourceLine j ++ y → (i.name ++ s% " - " ++ i.fullName) = (j.name ++ s% " - " ++ j.fullName) ∧ x = y := by
      intro i j x y hi hj h
      have h : (s% " - " ++ (i.name ++ s% " - " ++ i.fullName)) ++ '\n' :: x = (s% " - " ++ (j.name ++ s% " - " ++ j.fullName)) ++ '\n' :: y := by
        simpa [resourceLine, line] using h
      obtain ⟨h1, h2⟩ := until_char (by simp [hi]) (by simp [hj]) h
      exact ⟨List.append_cancel_left h1, h2⟩
    simp only [resourceListing, List.append_assoc] at h
    have h := List.append_cancel_left h
    obtain ⟨h1, h⟩ := code_list (stop := fun s => ∃ t, s = '\n' :: t) hf (by rintro i x ⟨t, e⟩; cases e) _ _ _ _
      (fun i hi => ha i (by simp [hi])) (fun i hi => hb i (by simp [hi])) ⟨_, rfl⟩ ⟨_, rfl⟩ h
    have h := List.append_cancel_left (as := line (s% "\nImages:")) h
    obtain ⟨h2, h⟩ := code_list (stop := fun s => ∃ t, s = '\n' :: t) hf (by rintro i x ⟨t, e⟩; cases e) _ _ _ _
      (fun i hi => ha i (by simp [hi])) (fun i hi => hb i (by simp [hi])) ⟨_, rfl⟩ ⟨_, rfl⟩ h
    have h := List.append_cancel_left (as := line (s% "\nSounds:")) h
    rw [← List.append_nil (List.flatMap _ a.sounds), ← List.append_nil (List.flatMap _ b.sounds)] at h
    obtain ⟨h3, _⟩ := code_list (stop := fun s => s = []) hf (by intro i x e; cases e) _ _ _ _
      (fun i hi => ha i (by simp [hi])) (fun i hi => hb i (by simp [hi])) rfl rfl h
    exact ⟨h1, h2, h3⟩
  · rintro ⟨h1, h2, h3⟩
    have e : ∀ is : List ResourceItem, is.flatMap resourceLine =
        (is.map fun i => i.name ++ s% " - " ++ i.fullName).flatMap fun t => line (s% " - " ++ t) := by
      intro is
      rw [List.flatMap_map]
      exact congrArg (List.flatMap · is) (funext fun i => by simp [resourceLine])
    simp only [resourceListing, e, h1, h2, h3]

/-- No screen of a logic that was read has a line break in its name. -/
theorem c94_screen_names [Floats] [MapPol] {s : Str} {l : Logic} (h : Logic.parse s = .ok l) : ∀ e ∈ l.screens, '\n' ∉ e.1 := by
  intro e he
  obtain ⟨es, hs, -⟩ := (Logic.c69_ok s l).mp h
  have hg := Logic.c69_screen hs h e.1
  by_cases hm : e.1 ∈ es.map (·.1)
  · obtain ⟨x, hx, hxe⟩ := List.mem_map.mp hm
    obtain ⟨p, hp, hd, body, rfl, hsec⟩ := hs.right x hx
    have hn := Logic.sections_noNl hp hd (by simp)
    rw [← hxe]
    obtain ⟨n, eff⟩ := x
    dsimp only at hsec ⊢
    cases hsec with
    | blocks _ hl _ => exact (header_noNl hl hn).1
    | _ => simp at hn; exact hn.1
  · rw [if_neg hm] at hg
    exact absurd (List.mem_map_of_mem (f := (·.1)) he) (LMap.get_eq_none.mp hg)

/-- C94: of two logics that were read, the output of `parse_logic` tells exactly the names of the screens and the six numbers of each. -/
theorem c94_logic_exact [Floats] [MapPol] {s s' : Str} {a b : Logic} (ha : Logic.parse s = .ok a) (hb : Logic.parse s' = .ok b) :
    logicListing a = logicListing b ↔ a.screens.map (fun e => (e.1, c94_counts e.2)) = b.screens.map (fun e => (e.1, c94_counts e.2)) := by
  refine ⟨c94_logic_tells_partial a b (c94_screen_names ha) (c94_screen_names hb), fun h => ?_⟩
  have e : ∀ xs : List (Str × ScreenLogic), (xs.flatMap fun e => logicLine e.1 e.2) = (xs.map fun e => (e.1, c94_counts e.2)).flatMap fun p =>
      match p.2 with
      | [n1, n2, n3, n4, n5, n6] => line (s% " - " ++ p.1 ++ s% ": has " ++ natStr 10 n1 ++ s% " variables, " ++ natStr 10 n2 ++
          s% " list variables, " ++ natStr 10 n3 ++ s% " components, " ++ natStr 10 n4 ++ s% " block containers, " ++ natStr 10 n5 ++
          s% " events, " ++ natStr 10 n6 ++ s% " moreblocks")
      | _ => [] := by
    intro xs
    rw [List.flatMap_map]
    rfl
  rw [logicListing, logicListing, e, e, h]

/-- Names that look like lines of a listing are no problem: one activity or two. -/
example : letI := stdText (fun c => c.toNat < 127) (fun _ => [])
    ∃ i j k : FileItem, i.filename = s% "a: FileItem { filename: \"a\" }\n - b" ∧
      fileListing ⟨[i], []⟩ ≠ fileListing ⟨[j, k], []⟩ ∧ k.filename = s% "b" ∧ j.filename = s% "a" := by
  let := stdText (fun c => c.toNat < 127) (fun _ => [])
  refine ⟨⟨s% "a: FileItem { filename: \"a\" }\n - b", .activity, .unspecified, ⟨true, false, false, false⟩, .portrait, .none⟩,
    ⟨s% "a", .activity, .unspecified, ⟨true, false, false, false⟩, .portrait, .none⟩,
    ⟨s% "b", .activity, .unspecified, ⟨true, false, false, false⟩, .portrait, .none⟩, rfl, fun h => ?_, rfl, rfl⟩
  have := c94_file_tells _ _ _ _ h
  cases this

/-- `c94_resource_exact`: the two lists of `c94_tells_false` have no line breaks in their names. -/
example : ∃ a b : Resource, (∀ i ∈ a.fonts ++ a.images ++ a.sounds, '\n' ∉ i.name ∧ '\n' ∉ i.fullName) ∧
    (∀ i ∈ b.fonts ++ b.images ++ b.sounds, '\n' ∉ i.name ∧ '\n' ∉ i.fullName) ∧ a ≠ b ∧ resourceListing a = resourceListing b :=
  ⟨⟨[⟨s% "c", s% "a - b", 1⟩], [], []⟩, ⟨[⟨s% "b - c", s% "a", 1⟩], [], []⟩, by decide, by decide, by decide, by decide⟩

/-- `c94_logic_exact`: two logics that are read, with the same listing. -/
example [Floats] [MapPol] : ∃ (s s' : Str) (a b : Logic), Logic.parse s = .ok a ∧ Logic.parse s' = .ok b ∧ a ≠ b ∧ logicListing a = logicListing b :=
  ⟨s% "@A.java_var\n1:x", s% "@A.java_var\n1:y",
    ⟨[(s% "A", { ScreenLogic.newEmpty (s% "A") with «variables» := some ⟨[(s% "x", ⟨s% "x", .integer⟩)]⟩ })]⟩,
    ⟨[(s% "A", { ScreenLogic.newEmpty (s% "A") with «variables» := some ⟨[(s% "y", ⟨s% "y", .integer⟩)]⟩ })]⟩, rfl, rfl, by simp, rfl⟩

end Swrs.Examples
