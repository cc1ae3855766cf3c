import Verif.Proofs.ApiSpec
import Verif.Props.Color
import Verif.Base.NumSpec
import Verif.Base.FloatInst
/-!
# C11, C48–C51: block categories, types and specs
-/
namespace Swrs.Api

/-! ## C11 — Block categories and colours -/

/-- The red, green and blue of each category. -/
def c11_palette : BlockCategory → UInt8 × UInt8 × UInt8
  | .variable => (0xee, 0x7d, 0x16)
  | .list => (0xcc, 0x5b, 0x22)
  | .control => (0xe1, 0xa9, 0x2a)
  | .operator => (0x5c, 0xb7, 0x22)
  | .math => (0x23, 0xb9, 0xa9)
  | .file => (0xa1, 0x88, 0x7f)
  | .viewFunc => (0x4a, 0x6c, 0xd4)
  | .componentFunc => (0xfc, 0xa5, 0xe2)
  | .moreBlock => (0x8a, 0x55, 0xd7)

/-- C11: the colour of a category is opaque, has the palette's channels, and has that category. -/
theorem c11_category_of_color (c : BlockCategory) :
    c.color.alpha = 255 ∧ c.color.rgb = c11_palette c ∧ BlockCategory.ofColor c.color = .ok c := by
  cases c <;> decide

/-- C11: a colour has a category iff its red, green and blue are those of the category, whatever its alpha; any other
colour is reported. -/
theorem c11_palette_only (x : Color) :
    (∀ c, BlockCategory.ofColor x = .ok c ↔ x.rgb = c11_palette c) ∧
    ((∀ c, x.rgb ≠ c11_palette c) → BlockCategory.ofColor x = .err x) := by
  constructor
  · intro c
    constructor
    · intro h
      unfold BlockCategory.ofColor at h
      repeat' split at h
      all_goals first | (next h' => simp at h; subst h; exact h') | simp at h
    · intro h
      unfold BlockCategory.ofColor
      rw [h]
      cases c <;> simp [c11_palette]
  · intro h
    unfold BlockCategory.ofColor
    have := And.intro (h .variable) <| And.intro (h .list) <| And.intro (h .control) <| And.intro (h .operator) <|
      And.intro (h .math) <| And.intro (h .file) <| And.intro (h .viewFunc) <| And.intro (h .componentFunc) (h .moreBlock)
    simp only [c11_palette] at this
    simp only [this, if_false]

/-- C11: the alpha of a colour does not matter. -/
theorem c11_alpha (alpha r g b : UInt8) (c : BlockCategory) :
    BlockCategory.ofColor (Color.fromArgb alpha r g b) = .ok c ↔ (r, g, b) = c11_palette c := by
  rw [(c11_palette_only _).1, (Color.c08_channels.1 alpha r g b).2.2.2.2]

example : BlockCategory.ofColor (Color.fromArgb 3 0x23 0xb9 0xa9) = .ok .math := by decide
example : BlockCategory.ofColor (Color.fromArgb 255 1 2 3) = .err (Color.fromArgb 255 1 2 3) := by decide

/-! ## C51 — Block types round trip -/

/-- C51: the letters accepted, and with which type names. -/
theorem c51_letters (s n : Str) :
    (∃ t, BlockType.parse s n = .ok t) ↔
      s ∈ [s% "v", s% "p", s% "b", s% "s", s% "d", s% "c", s% "e", s% "f", s% " "] ∨
      (s = s% "l" ∧ (n = s% "List String" ∨ n = s% "List Number")) := by
  unfold BlockType.parse
  simp only [List.mem_cons, List.not_mem_nil, or_false]
  by_cases hl : s = s% "l"
  · subst hl
    simp only [ListItem.parse]
    by_cases h1 : n = s% "List String"
    · subst h1; simp
    · by_cases h2 : n = s% "List Number"
      · subst h2; simp
      · simp [h1, h2]
  · rw [if_neg hl]
    repeat' split
    all_goals first
      | (next h => subst h; exact ⟨fun _ => by simp, fun _ => ⟨_, rfl⟩⟩)
      | simp_all

/-- C51: a refused type is reported with its letter and its type name; reading a type never panics. -/
theorem c51_refused (s n : Str) :
    (∃ t, BlockType.parse s n = .ok t) ∨ BlockType.parse s n = .err ⟨s, n⟩ := by
  have step : ∀ (p : Prop) [Decidable p] {x y : Out InvalidBlockType BlockType},
      ((∃ t, x = .ok t) ∨ x = .err ⟨s, n⟩) → ((∃ t, y = .ok t) ∨ y = .err ⟨s, n⟩) →
      (∃ t, (if p then x else y) = .ok t) ∨ (if p then x else y) = .err ⟨s, n⟩ := by
    intro p _ x y hx hy
    by_cases h : p
    · rw [if_pos h]; exact hx
    · rw [if_neg h]; exact hy
  unfold BlockType.parse
  refine step _ (.inl ⟨_, rfl⟩) <| step _ (.inl ⟨_, rfl⟩) <| step _ (.inl ⟨_, rfl⟩) <| step _ (.inl ⟨_, rfl⟩) <|
    step _ (.inl ⟨_, rfl⟩) <| step _ ?_ <| step _ (.inl ⟨_, rfl⟩) <| step _ (.inl ⟨_, rfl⟩) <| step _ (.inl ⟨_, rfl⟩) <|
    step _ (.inl ⟨_, rfl⟩) (.inr rfl)
  cases ListItem.parse n with
  | none => exact .inr rfl
  | some i => exact .inl ⟨_, rfl⟩

/-- C51, what holds: reading the letter and the type name of a block type gives it back iff it is not a list type.
Missing: list types, which have no type name to be written. -/
theorem c51_round_trip_partial (t : BlockType) :
    BlockType.parse t.text (t.typeName.getD []) = .ok t ↔ ∀ i, t ≠ .argument (.list i) := by
  cases t with
  | regular => simp [BlockType.text, BlockType.parse]
  | control c => cases c <;> simp [BlockType.text, BlockType.parse]
  | argument r =>
    cases r <;> simp [BlockType.text, BlockType.parse, BlockType.typeName, ListItem.parse]

/-- C51 is false: a list block type is not read back. -/
theorem c51_round_trip_false : ∃ t : BlockType, ∀ t', BlockType.parse t.text (t.typeName.getD []) ≠ .ok t' :=
  ⟨.argument (.list .string), fun t' => by
    simp [BlockType.text, BlockType.parse, BlockType.typeName, ListItem.parse]⟩

/-- C51: what is read has the letter and the type name it was read from (view and component types keep it). -/
theorem c51_text (s n : Str) (t : BlockType) (h : BlockType.parse s n = .ok t) :
    t.text = s ∧ (∀ m, t.typeName = some m → m = n) := by
  unfold BlockType.parse at h
  repeat' split at h
  all_goals first
    | (next hs =>
        simp only [Out.ok.injEq] at h
        subst h
        refine ⟨hs.symm, ?_⟩
        intro m hm
        simp [BlockType.typeName] at hm
        try exact hm.symm)
    | (next hs =>
        simp only [Out.bind_eq_ok, Out.pure_eq, Out.ok.injEq] at h
        obtain ⟨i, _, rfl⟩ := h
        exact ⟨hs.symm, by simp [BlockType.typeName]⟩)
    | simp at h

example : BlockType.parse (s% "v") (s% "ListView") = .ok (.argument (.view (s% "ListView"))) := by decide

variable [Floats] {B : Type}

/-! ## C48 — Block specs round trip -/

/-- The items whose text is one word that reads as the item: no spaces, texts do not look like parameters, no empty
names. -/
def ItemOk : SpecItem B → Prop
  | .text s => ' ' ∉ s ∧ s.head? ≠ some '%'
  | .param (.string n _) => ∀ m, n = some m → m ≠ [] ∧ ' ' ∉ m
  | .param (.number n _) => ∀ m, n = some m → m ≠ [] ∧ ' ' ∉ m
  | .param (.boolean n _) => ∀ m, n = some m → m ≠ [] ∧ ' ' ∉ m
  | .param (.menu n _) => n ≠ [] ∧ ' ' ∉ n

/-- The same item without its argument. -/
def bare : SpecItem B → SpecItem B
  | .text s => .text s
  | .param (.string n _) => .param (.string n .empty)
  | .param (.number n _) => .param (.number n .empty)
  | .param (.boolean n _) => .param (.boolean n .empty)
  | .param (.menu n _) => .param (.menu n .empty)

omit [Floats] in
theorem nameOf_dot {n : Str} (h : n ≠ []) : nameOf ('.' :: n) = some n := nameOf_eq_some.mpr ⟨rfl, h⟩

theorem isWord_itemText (i : SpecItem B) (hs : ' ' ∉ BlockContent.itemText i) :
    IsWord (BlockContent.itemText i) (bare i) ↔ ItemOk i := by
  have opt : ∀ n : Option Str, ' ' ∉ (BlockContent.nameText n) →
      (nameOf (BlockContent.nameText n) = n ↔ ∀ m, n = some m → m ≠ [] ∧ ' ' ∉ m) := by
    intro n h
    cases n with
    | none => simp [nameOf, BlockContent.nameText]
    | some m =>
      simp only [Option.some.injEq, forall_eq', BlockContent.nameText, nameOf_eq_some, true_and] at h ⊢
      simp only [List.mem_cons, not_or] at h
      simp [h.2]
  cases i with
  | text s =>
    simp only [BlockContent.itemText, bare, ItemOk] at hs ⊢
    constructor
    · intro h; cases h with
      | text _ h => exact ⟨hs, h⟩
    · intro h; exact .text s h.2
  | param p =>
    cases p with
    | string n v =>
      simp only [BlockContent.itemText, bare, ItemOk, List.cons_append, List.nil_append] at hs ⊢
      rw [← opt n (by simp at hs; exact hs)]
      constructor
      · intro h
        have := h.unique (.string _)
        simp only [SpecItem.param.injEq, Argument.string.injEq, and_true] at this
        exact this.symm
      · intro h
        have := IsWord.string (B := B) (BlockContent.nameText n)
        rw [h] at this
        exact this
    | number n v =>
      simp only [BlockContent.itemText, bare, ItemOk, List.cons_append, List.nil_append] at hs ⊢
      rw [← opt n (by simp at hs; exact hs)]
      constructor
      · intro h
        have := h.unique (.number _)
        simp only [SpecItem.param.injEq, Argument.number.injEq, and_true] at this
        exact this.symm
      · intro h
        have := IsWord.number (B := B) (BlockContent.nameText n)
        rw [h] at this
        exact this
    | boolean n v =>
      simp only [BlockContent.itemText, bare, ItemOk, List.cons_append, List.nil_append] at hs ⊢
      rw [← opt n (by simp at hs; exact hs)]
      constructor
      · intro h
        have := h.unique (.boolean _)
        simp only [SpecItem.param.injEq, Argument.boolean.injEq, and_true] at this
        exact this.symm
      · intro h
        have := IsWord.boolean (B := B) (BlockContent.nameText n)
        rw [h] at this
        exact this
    | menu n v =>
      simp only [BlockContent.itemText, bare, ItemOk, List.cons_append, List.nil_append] at hs ⊢
      have hs' : ' ' ∉ n := by simpa [BlockContent.nameText] using hs
      constructor
      · intro h
        cases h with
        | menu t _ h => exact ⟨(nameOf_eq_some.mp h).2, hs'⟩
      · intro h; exact .menu _ _ (nameOf_dot h.1)

theorem itemOk_no_space {i : SpecItem B} (h : ItemOk i) : ' ' ∉ BlockContent.itemText i := by
  cases i with
  | text s => exact h.1
  | param p =>
    cases p with
    | string n v => cases n with
      | none => simp [BlockContent.itemText, BlockContent.nameText]
      | some m => simpa [BlockContent.itemText, BlockContent.nameText] using (h m rfl).2
    | number n v => cases n with
      | none => simp [BlockContent.itemText, BlockContent.nameText]
      | some m => simpa [BlockContent.itemText, BlockContent.nameText] using (h m rfl).2
    | boolean n v => cases n with
      | none => simp [BlockContent.itemText, BlockContent.nameText]
      | some m => simpa [BlockContent.itemText, BlockContent.nameText] using (h m rfl).2
    | menu n v => simpa [BlockContent.itemText, BlockContent.nameText] using h.2

theorem itemText_bare (i : SpecItem B) : BlockContent.itemText (bare i) = BlockContent.itemText i := by
  cases i with
  | text s => rfl
  | param p => cases p <;> rfl

/-- C48, what holds of writing then reading: the text of a spec reads as its items without arguments iff the spec has
an item and every item is one word. Missing: the empty spec, and items of other shapes. -/
theorem c48_text_then_parse_partial (c : BlockContent B) :
    BlockContent.parseWoParams (BlockContent.text c) = .ok (c.map bare) ↔ c ≠ [] ∧ ∀ i ∈ c, ItemOk i := by
  unfold BlockContent.parseWoParams
  rw [BlockContent.words_eq_ok, BlockContent.text_eq_joinWith]
  constructor
  · intro h
    have hlen := h.length_eq
    rw [splitOn_length, List.length_map] at hlen
    have hne : c ≠ [] := by rintro rfl; simp at hlen
    have hc := count_joinWith ' ' (ps := c.map BlockContent.itemText) (by simpa using hne)
    rw [List.length_map] at hc
    have hsum : ((c.map BlockContent.itemText).map (List.count ' ')).sum = 0 := by omega
    rw [List.sum_eq_zero_iff_forall_eq_nat] at hsum
    have hno : ∀ p ∈ c.map BlockContent.itemText, ' ' ∉ p := by
      intro p hp
      exact List.count_eq_zero.mp (hsum _ (List.mem_map_of_mem hp))
    rw [splitOn_joinWith (by simpa using hne) hno] at h
    refine ⟨hne, fun i hi => ?_⟩
    exact (isWord_itemText i (hno _ (List.mem_map_of_mem hi))).mp (All₂.mem_map _ _ h i hi)
  · rintro ⟨hne, h⟩
    rw [splitOn_joinWith (by simpa using hne) (by
      intro p hp
      obtain ⟨i, hi, rfl⟩ := List.mem_map.mp hp
      exact itemOk_no_space (h i hi))]
    exact All₂.of_map _ _ fun i hi => (isWord_itemText i (itemOk_no_space (h i hi))).mpr (h i hi)

/-- A parameter word that is written back as it was: `%x`, or `%x.name` with a nonempty name. -/
def ExactWord (w : Str) : Prop :=
  w.head? = some '%' → ∃ x, w = ['%', x] ∨ ∃ n, n ≠ [] ∧ w = '%' :: x :: '.' :: n

theorem isWord_text {w : Str} {i : SpecItem B} (h : IsWord w i) : BlockContent.itemText i = w ↔ ExactWord w := by
  have opt : ∀ (x : Char) (t : Str), ('%' :: x :: BlockContent.nameText (nameOf t)) = '%' :: x :: t ↔
      ExactWord ('%' :: x :: t) := by
    intro x t
    simp only [List.cons.injEq, true_and, ExactWord, List.head?_cons, forall_const]
    cases hn : nameOf t with
    | some n =>
      obtain ⟨rfl, h⟩ := nameOf_eq_some.mp hn
      simp [h, BlockContent.nameText]
    | none =>
      constructor
      · intro h; exact ⟨x, .inl ⟨rfl, h.symm⟩⟩
      · rintro ⟨y, ⟨_, h⟩ | ⟨n, h1, _, h2⟩⟩
        · exact h.symm
        · rw [h2, nameOf_dot h1] at hn; simp at hn
  cases h with
  | text _ h => simp only [BlockContent.itemText, true_iff]; intro h'; exact absurd h' h
  | string t => exact opt 's' t
  | number t => exact opt 'd' t
  | boolean t => exact opt 'b' t
  | menu t n hn =>
    have := opt 'm' t
    rw [hn] at this
    exact this

theorem isWord_no_space {w : Str} {i : SpecItem B} (h : IsWord w i) (hw : ' ' ∉ w) : ' ' ∉ BlockContent.itemText i := by
  have opt : ∀ t : Str, ' ' ∉ t → ' ' ∉ BlockContent.nameText (nameOf t) := by
    intro t ht
    cases hn : nameOf t with
    | none => simp [BlockContent.nameText]
    | some n =>
      obtain ⟨rfl, _⟩ := nameOf_eq_some.mp hn
      simpa [BlockContent.nameText] using ht
  cases h with
  | text _ h => exact hw
  | string t => simp at hw; simpa [BlockContent.itemText] using opt t hw
  | number t => simp at hw; simpa [BlockContent.itemText] using opt t hw
  | boolean t => simp at hw; simpa [BlockContent.itemText] using opt t hw
  | menu t n hn =>
    simp at hw
    have := opt t hw
    rw [hn] at this
    simpa [BlockContent.itemText, BlockContent.nameText] using this

/-- C48, what holds of reading then writing: the text of a spec that was read is the original iff each of its parameter
words is `%x` or `%x.name`. Missing: words such as `%s.` or `%sfoo`, read as `%s`. -/
theorem c48_parse_then_text_partial (s : Str) (c : BlockContent B) (h : BlockContent.parseWoParams s = .ok c) :
    BlockContent.text c = s ↔ ∀ w ∈ splitOn ' ' s, ExactWord w := by
  unfold BlockContent.parseWoParams at h
  rw [BlockContent.words_eq_ok] at h
  rw [BlockContent.text_eq_joinWith]
  have hsp : ∀ w ∈ splitOn ' ' s, ' ' ∉ w := fun w hw => splitOn_not_mem hw
  have hne := splitOn_ne_nil ' ' s
  have key : ∀ {ws : List Str} {c : BlockContent B}, All₂ IsWord ws c → (∀ w ∈ ws, ' ' ∉ w) →
      (∀ p ∈ c.map BlockContent.itemText, ' ' ∉ p) ∧ (c.map BlockContent.itemText = ws ↔ ∀ w ∈ ws, ExactWord w) := by
    intro ws c h
    induction h with
    | nil => simp
    | cons hw _ ih =>
      intro hs
      obtain ⟨h1, h2⟩ := ih fun w hw => hs w (by simp [hw])
      constructor
      · intro p hp
        simp only [List.map_cons, List.mem_cons] at hp
        rcases hp with rfl | hp
        · exact isWord_no_space hw (hs _ (by simp))
        · exact h1 p hp
      · simp only [List.map_cons, List.cons.injEq, isWord_text hw, h2, List.mem_cons, forall_eq_or_imp]
  obtain ⟨h1, h2⟩ := key h hsp
  rw [← h2]
  constructor
  · intro he
    rw [← joinWith_splitOn ' ' s] at he
    refine joinWith_inj ?_ ?_ h1 ?_ ?_ (c := ' ')
    · intro hc
      have := h.length_eq
      simp only [List.map_eq_nil_iff] at hc
      rw [hc] at this
      exact hne (List.length_eq_zero_iff.mp this)
    · exact hne
    · exact hsp
    · exact he
  · intro he
    rw [he, joinWith_splitOn]

/-- C48 is false: the spec with a text of two words is read as two texts. -/
theorem c48_text_then_parse_false : ∃ c : BlockContent B, c ≠ [] ∧
    BlockContent.parseWoParams (BlockContent.text c) ≠ .ok (c.map bare) :=
  ⟨[.text (s% "a b")], by simp, by
    intro h
    have := ((c48_text_then_parse_partial _).mp h).2 _ (List.mem_singleton.mpr rfl)
    exact this.1 (by decide)⟩

/-- C48 is false: `%sfoo` is read, and written as `%s`. -/
theorem c48_parse_then_text_false : ∃ (s : Str) (c : BlockContent B),
    BlockContent.parseWoParams s = .ok c ∧ BlockContent.text c ≠ s := by
  refine ⟨s% "%sfoo", [.param (.string none .empty)], rfl, ?_⟩
  simp [BlockContent.text, BlockContent.itemText, BlockContent.nameText]

/-- C48: which specs are read, and as what: word by word. -/
theorem c48_accepts (s : Str) (c : BlockContent B) :
    BlockContent.parseWoParams s = .ok c ↔ All₂ IsWord (splitOn ' ' s) c := BlockContent.words_eq_ok

example : BlockContent.parseWoParams (s% "set %m.view text %s.x") =
    .ok [.text (s% "set"), .param (.menu (s% "view") (.empty : ArgValue B Str)), .text (s% "text"),
      .param (.string (some (s% "x")) .empty)] := rfl
example : ItemOk (.param (.menu (s% "view") (.empty : ArgValue B Str))) := by simp [ItemOk]
example : ExactWord (s% "%m.view") := fun _ => ⟨'m', .inr ⟨s% "view", by decide, rfl⟩⟩

/-! ## C49 — Taking and applying arguments -/

/-- Put arguments in the places of the parameters, in order. -/
def putArgs : BlockContent B → List (Argument B) → BlockContent B
  | [], _ => []
  | .text s :: is, as => .text s :: putArgs is as
  | .param _ :: is, a :: as => .param a :: putArgs is as
  | .param a :: is, [] => .param a :: putArgs is []

/-- C49: taking the arguments leaves every item without its argument, the text is the same, there is one argument per
parameter, and putting them back in order gives the content. -/
theorem c49_take (c : BlockContent B) :
    (BlockContent.takeArgs c).1 = c.map bare ∧
    BlockContent.text (BlockContent.takeArgs c).1 = BlockContent.text c ∧
    (BlockContent.takeArgs c).2 = BlockContent.getArgs c ∧
    putArgs (BlockContent.takeArgs c).1 (BlockContent.takeArgs c).2 = c := by
  have h1 : (BlockContent.takeArgs c).1 = c.map bare := by
    simp only [BlockContent.takeArgs, BlockContent.withoutArgs]
    apply List.map_congr_left
    intro i _
    cases i with
    | text s => rfl
    | param p => cases p <;> rfl
  refine ⟨h1, ?_, rfl, ?_⟩
  · rw [h1, BlockContent.text_eq_joinWith, BlockContent.text_eq_joinWith, List.map_map]
    congr 1
    exact List.map_congr_left fun i _ => itemText_bare i
  · rw [h1]
    simp only [BlockContent.takeArgs]
    clear h1
    induction c with
    | nil => rfl
    | cons i c ih =>
      cases i with
      | text s =>
        simp only [List.map_cons, bare, putArgs, BlockContent.getArgs, List.filterMap_cons] at ih ⊢
        rw [ih]
      | param p =>
        have ih' := ih
        have hp : ∃ q, bare (.param p) = .param q := by cases p <;> exact ⟨_, rfl⟩
        obtain ⟨q, hq⟩ := hp
        simp only [List.map_cons, hq, BlockContent.getArgs, List.filterMap_cons, putArgs] at ih' ⊢
        rw [ih']

/-- The kinds of parameters. -/
inductive Kind where | string | number | boolean | menu
deriving DecidableEq

/-- The kinds of the empty parameters, in order. -/
def holes : BlockContent B → List Kind
  | [] => []
  | .param (.string _ .empty) :: is => .string :: holes is
  | .param (.number _ .empty) :: is => .number :: holes is
  | .param (.boolean _ .empty) :: is => .boolean :: holes is
  | .param (.menu _ .empty) :: is => .menu :: holes is
  | _ :: is => holes is

/-- An argument text fits a parameter: a reference to a block number, or a text of the right kind. -/
def Fits (k : Kind) (a : Str) : Prop :=
  match a with
  | '@' :: d => (parseU32 d).isSome
  | a => match k with
    | .string | .menu => True
    | .number => (Floats.read64 a).isSome
    | .boolean => a = s% "true" ∨ a = s% "false"

/-- Filling: the empty parameters take the texts in order, everything else is unchanged. -/
inductive Filled : BlockContent B → List Str → BlockContent B → Prop
  | nil (as : List Str) : Filled [] as []
  | text (s : Str) {is as is'} (h : Filled is as is') : Filled (.text s :: is) as (.text s :: is')
  | string (n : Option Str) (a : Str) {v is as is'} (hv : IsArg some a v) (h : Filled is as is') :
      Filled (.param (.string n .empty) :: is) (a :: as) (.param (.string n v) :: is')
  | number (n : Option Str) (a : Str) {v is as is'} (hv : IsArg Floats.read64 a v) (h : Filled is as is') :
      Filled (.param (.number n .empty) :: is) (a :: as) (.param (.number n v) :: is')
  | boolean (n : Option Str) (a : Str) {v is as is'} (hv : IsArg parseBool a v) (h : Filled is as is') :
      Filled (.param (.boolean n .empty) :: is) (a :: as) (.param (.boolean n v) :: is')
  | menu (n : Str) (a : Str) {v is as is'} (hv : IsArg some a v) (h : Filled is as is') :
      Filled (.param (.menu n .empty) :: is) (a :: as) (.param (.menu n v) :: is')
  | keep (p : Argument B) {is as is'} (hp : holes [.param p] = []) (h : Filled is as is') :
      Filled (.param p :: is) as (.param p :: is')

omit [Floats] in
theorem isArg_unique {α : Type} {f : Str → Option α} {a : Str} {v v' : ArgValue B α} (h : IsArg f a v) (h' : IsArg f a v') :
    v = v' := by
  have h1 := BlockContent.argText_ok (bad := fun _ => .ranOutOfArgs).mpr h
  rw [BlockContent.argText_ok.mpr h'] at h1
  simpa using h1.symm

/-- Whether an argument text can be read is whether it fits. -/
theorem isArg_fits (a : Str) :
    ((∃ v : ArgValue B Str, IsArg some a v) ↔ Fits .string a) ∧ ((∃ v : ArgValue B Str, IsArg some a v) ↔ Fits .menu a) ∧
    ((∃ v : ArgValue B Floats.F64, IsArg Floats.read64 a v) ↔ Fits .number a) ∧
    ((∃ v : ArgValue B Bool, IsArg parseBool a v) ↔ Fits .boolean a) := by
  have key : ∀ {α : Type} (f : Str → Option α) (k : Kind),
      (∀ a : Str, a.head? ≠ some '@' → (Fits k a ↔ (f a).isSome)) →
      ((∃ v : ArgValue B α, IsArg f a v) ↔ Fits k a) := by
    intro α f k hf
    constructor
    · rintro ⟨v, hv⟩
      cases hv with
      | ref d id h => simp [Fits, h]
      | val _ x h hx => rw [hf a h, hx]; rfl
    · intro h
      by_cases ha : a.head? = some '@'
      · cases a with
        | nil => simp at ha
        | cons x d =>
          simp at ha; subst ha
          simp only [Fits] at h
          obtain ⟨id, hid⟩ := Option.isSome_iff_exists.mp h
          exact ⟨_, .ref d id hid⟩
      · rw [hf a ha] at h
        obtain ⟨x, hx⟩ := Option.isSome_iff_exists.mp h
        exact ⟨_, .val a x ha hx⟩
  have fit : ∀ (k : Kind) (a : Str), a.head? ≠ some '@' → (Fits k a ↔ match k with
    | .string | .menu => True
    | .number => (Floats.read64 a).isSome
    | .boolean => a = s% "true" ∨ a = s% "false") := by
    intro k a ha
    unfold Fits
    split
    · simp at ha
    · exact Iff.rfl
  refine ⟨key some .string ?_, key some .menu ?_, key Floats.read64 .number ?_, key parseBool .boolean ?_⟩
  · intro a ha; rw [fit _ _ ha]; simp
  · intro a ha; rw [fit _ _ ha]; simp
  · intro a ha; rw [fit _ _ ha]
  · intro a ha; rw [fit _ _ ha]; unfold parseBool; grind

omit [Floats] in
theorem fill_empty_ok {α : Type} {f : Str → Option α} {bad : Str → BlockContentParseError} {args as : List Str}
    {v : ArgValue B α} : BlockContent.fill f bad .empty args = .ok (v, as) ↔ ∃ a, args = a :: as ∧ IsArg f a v := by
  simp only [BlockContent.fill, Out.bind_eq_ok, Prod.exists, BlockContent.takeArg_ok, BlockContent.argText_ok, Out.pure_eq,
    Out.ok.injEq, Prod.mk.injEq]
  grind

omit [Floats] in
theorem fill_keep {α : Type} {f : Str → Option α} {bad : Str → BlockContentParseError} {args : List Str} {v : ArgValue B α}
    (h : v ≠ .empty) : BlockContent.fill f bad v args = .ok (v, args) := by
  cases v <;> first | rfl | exact absurd rfl h

/-- C49: applying argument texts fills the empty parameters in order, one text each. -/
theorem c49_apply (c c' : BlockContent B) (args : List Str) :
    BlockContent.applyArgs c args = .ok c' ↔ Filled c args c' := by
  induction c generalizing args c' with
  | nil =>
    constructor
    · intro h; simp [BlockContent.applyArgs] at h; subst h; exact .nil _
    · intro h; cases h; rfl
  | cons i c ih =>
    rw [BlockContent.applyArgs]
    simp only [Out.bind_eq_ok, Prod.exists, Out.pure_eq, Out.ok.injEq, ih]
    cases i with
    | text s =>
      simp only [BlockContent.applyArg, Out.ok.injEq, Prod.mk.injEq]
      constructor
      · rintro ⟨i, as, ⟨rfl, rfl⟩, is, h, rfl⟩; exact .text s h
      · intro h; cases h with
        | text _ h => exact ⟨_, _, ⟨rfl, rfl⟩, _, h, rfl⟩
    | param p =>
      cases p with
      | string n v =>
        simp only [BlockContent.applyArg, Out.bind_eq_ok, Prod.exists, Out.pure_eq, Out.ok.injEq, Prod.mk.injEq]
        by_cases hv : v = .empty
        · subst hv
          simp only [fill_empty_ok]
          constructor
          · rintro ⟨i, as, ⟨v, _, ⟨a, rfl, hv⟩, rfl, rfl⟩, is, h, rfl⟩; exact .string n a hv h
          · intro h; cases h with
            | string _ a hv h => exact ⟨_, _, ⟨_, _, ⟨a, rfl, hv⟩, rfl, rfl⟩, _, h, rfl⟩
            | keep _ hp _ => simp [holes] at hp
        · simp only [fill_keep hv, Out.ok.injEq, Prod.mk.injEq]
          constructor
          · rintro ⟨i, as, ⟨v, _, ⟨rfl, rfl⟩, rfl, rfl⟩, is, h, rfl⟩
            exact .keep _ (by cases v <;> first | rfl | exact absurd rfl hv) h
          · intro h; cases h with
            | string _ a hv' h => exact absurd rfl hv
            | keep _ hp h => exact ⟨_, _, ⟨_, _, ⟨rfl, rfl⟩, rfl, rfl⟩, _, h, rfl⟩
      | number n v =>
        simp only [BlockContent.applyArg, Out.bind_eq_ok, Prod.exists, Out.pure_eq, Out.ok.injEq, Prod.mk.injEq]
        by_cases hv : v = .empty
        · subst hv
          simp only [fill_empty_ok]
          constructor
          · rintro ⟨i, as, ⟨v, _, ⟨a, rfl, hv⟩, rfl, rfl⟩, is, h, rfl⟩; exact .number n a hv h
          · intro h; cases h with
            | number _ a hv h => exact ⟨_, _, ⟨_, _, ⟨a, rfl, hv⟩, rfl, rfl⟩, _, h, rfl⟩
            | keep _ hp _ => simp [holes] at hp
        · simp only [fill_keep hv, Out.ok.injEq, Prod.mk.injEq]
          constructor
          · rintro ⟨i, as, ⟨v, _, ⟨rfl, rfl⟩, rfl, rfl⟩, is, h, rfl⟩
            exact .keep _ (by cases v <;> first | rfl | exact absurd rfl hv) h
          · intro h; cases h with
            | number _ a hv' h => exact absurd rfl hv
            | keep _ hp h => exact ⟨_, _, ⟨_, _, ⟨rfl, rfl⟩, rfl, rfl⟩, _, h, rfl⟩
      | boolean n v =>
        simp only [BlockContent.applyArg, Out.bind_eq_ok, Prod.exists, Out.pure_eq, Out.ok.injEq, Prod.mk.injEq]
        by_cases hv : v = .empty
        · subst hv
          simp only [fill_empty_ok]
          constructor
          · rintro ⟨i, as, ⟨v, _, ⟨a, rfl, hv⟩, rfl, rfl⟩, is, h, rfl⟩; exact .boolean n a hv h
          · intro h; cases h with
            | boolean _ a hv h => exact ⟨_, _, ⟨_, _, ⟨a, rfl, hv⟩, rfl, rfl⟩, _, h, rfl⟩
            | keep _ hp _ => simp [holes] at hp
        · simp only [fill_keep hv, Out.ok.injEq, Prod.mk.injEq]
          constructor
          · rintro ⟨i, as, ⟨v, _, ⟨rfl, rfl⟩, rfl, rfl⟩, is, h, rfl⟩
            exact .keep _ (by cases v <;> first | rfl | exact absurd rfl hv) h
          · intro h; cases h with
            | boolean _ a hv' h => exact absurd rfl hv
            | keep _ hp h => exact ⟨_, _, ⟨_, _, ⟨rfl, rfl⟩, rfl, rfl⟩, _, h, rfl⟩
      | menu n v =>
        simp only [BlockContent.applyArg, Out.bind_eq_ok, Prod.exists, Out.pure_eq, Out.ok.injEq, Prod.mk.injEq]
        by_cases hv : v = .empty
        · subst hv
          simp only [fill_empty_ok]
          constructor
          · rintro ⟨i, as, ⟨v, _, ⟨a, rfl, hv⟩, rfl, rfl⟩, is, h, rfl⟩; exact .menu n a hv h
          · intro h; cases h with
            | menu _ a hv h => exact ⟨_, _, ⟨_, _, ⟨a, rfl, hv⟩, rfl, rfl⟩, _, h, rfl⟩
            | keep _ hp _ => simp [holes] at hp
        · simp only [fill_keep hv, Out.ok.injEq, Prod.mk.injEq]
          constructor
          · rintro ⟨i, as, ⟨v, _, ⟨rfl, rfl⟩, rfl, rfl⟩, is, h, rfl⟩
            exact .keep _ (by cases v <;> first | rfl | exact absurd rfl hv) h
          · intro h; cases h with
            | menu _ a hv' h => exact absurd rfl hv
            | keep _ hp h => exact ⟨_, _, ⟨_, _, ⟨rfl, rfl⟩, rfl, rfl⟩, _, h, rfl⟩

/-- One hole at most. -/
theorem holes_cons (i : SpecItem B) (c : BlockContent B) :
    (holes (i :: c) = holes c ∧ holes [i] = []) ∨ ∃ k, holes (i :: c) = k :: holes c ∧ holes [i] = [k] := by
  cases i with
  | text s => exact .inl ⟨rfl, rfl⟩
  | param p =>
    cases p with
    | string n v => cases v <;> first | exact .inl ⟨rfl, rfl⟩ | exact .inr ⟨_, rfl, rfl⟩
    | number n v => cases v <;> first | exact .inl ⟨rfl, rfl⟩ | exact .inr ⟨_, rfl, rfl⟩
    | boolean n v => cases v <;> first | exact .inl ⟨rfl, rfl⟩ | exact .inr ⟨_, rfl, rfl⟩
    | menu n v => cases v <;> first | exact .inl ⟨rfl, rfl⟩ | exact .inr ⟨_, rfl, rfl⟩

/-- C49: applying fails iff there are fewer texts than empty parameters, or one of the texts taken does not fit. -/
theorem c49_apply_fails (c : BlockContent B) (args : List Str) :
    (∃ e, BlockContent.applyArgs c args = .err e) ↔
      args.length < (holes c).length ∨ ∃ p ∈ (holes c).zip args, ¬ Fits p.1 p.2 := by
  have hok : (∃ c', Filled c args c') ↔ (holes c).length ≤ args.length ∧ ∀ p ∈ (holes c).zip args, Fits p.1 p.2 := by
    induction c generalizing args with
    | nil => simp only [holes, List.length_nil, Nat.zero_le, List.zip_nil_left, List.not_mem_nil, false_implies, implies_true,
        and_self, iff_true]; exact ⟨_, .nil _⟩
    | cons i c ih =>
      rcases holes_cons i c with ⟨h1, h2⟩ | ⟨k, h1, h2⟩
      · rw [h1, ← ih]
        constructor
        · rintro ⟨c', h⟩
          cases h <;> first
            | (next h => exact ⟨_, h⟩)
            | simp [holes] at h2
        · rintro ⟨c', h⟩
          cases i with
          | text s => exact ⟨_, .text s h⟩
          | param p => exact ⟨_, .keep p h2 h⟩
      · rw [h1]
        cases args with
        | nil =>
          simp only [List.length_cons, List.length_nil, Nat.le_zero_eq, Nat.add_one_ne_zero, false_and, iff_false]
          rintro ⟨c', h⟩
          cases h <;> first
            | simp [holes] at h2
            | (next hp _ => rw [hp] at h2; simp at h2)
        | cons a as =>
          have hf := isArg_fits (B := B) a
          simp only [List.length_cons, Nat.add_le_add_iff_right, List.zip_cons_cons, List.mem_cons, forall_eq_or_imp]
          have := ih as
          constructor
          · rintro ⟨c', h⟩
            cases h with
            | text s h => simp [holes] at h2
            | keep p hp h => rw [hp] at h2; simp at h2
            | string n _ hv h =>
              simp [holes] at h2; subst h2
              exact ⟨(this.mp ⟨_, h⟩).1, hf.1.mp ⟨_, hv⟩, (this.mp ⟨_, h⟩).2⟩
            | number n _ hv h =>
              simp [holes] at h2; subst h2
              exact ⟨(this.mp ⟨_, h⟩).1, hf.2.2.1.mp ⟨_, hv⟩, (this.mp ⟨_, h⟩).2⟩
            | boolean n _ hv h =>
              simp [holes] at h2; subst h2
              exact ⟨(this.mp ⟨_, h⟩).1, hf.2.2.2.mp ⟨_, hv⟩, (this.mp ⟨_, h⟩).2⟩
            | menu n _ hv h =>
              simp [holes] at h2; subst h2
              exact ⟨(this.mp ⟨_, h⟩).1, hf.2.1.mp ⟨_, hv⟩, (this.mp ⟨_, h⟩).2⟩
          · rintro ⟨hl, hfit, hrest⟩
            obtain ⟨c', hc⟩ := this.mpr ⟨hl, hrest⟩
            cases i with
            | text s => simp [holes] at h2
            | param p =>
              cases p with
              | string n v =>
                cases v <;> simp [holes] at h2
                subst h2
                obtain ⟨v, hv⟩ := hf.1.mpr hfit
                exact ⟨_, .string n a hv hc⟩
              | number n v =>
                cases v <;> simp [holes] at h2
                subst h2
                obtain ⟨v, hv⟩ := hf.2.2.1.mpr hfit
                exact ⟨_, .number n a hv hc⟩
              | boolean n v =>
                cases v <;> simp [holes] at h2
                subst h2
                obtain ⟨v, hv⟩ := hf.2.2.2.mpr hfit
                exact ⟨_, .boolean n a hv hc⟩
              | menu n v =>
                cases v <;> simp [holes] at h2
                subst h2
                obtain ⟨v, hv⟩ := hf.2.1.mpr hfit
                exact ⟨_, .menu n a hv hc⟩
  have hnp : BlockContent.applyArgs c args ≠ .panic := by
    clear hok
    induction c generalizing args with
    | nil => simp [BlockContent.applyArgs]
    | cons i c ih =>
      have hfill : ∀ {α : Type} (f : Str → Option α) (bad : Str → BlockContentParseError) (v : ArgValue B α) (as : List Str),
          BlockContent.fill f bad v as ≠ .panic := by
        intro α f bad v as
        by_cases hv : v = .empty
        · subst hv
          cases as with
          | nil => simp [BlockContent.fill, BlockContent.takeArg]
          | cons a as =>
            simp [BlockContent.fill, BlockContent.takeArg, Out.bind_eq_panic, BlockContent.argText_ne_panic]
        · rw [fill_keep hv]; simp
      have hi : BlockContent.applyArg i args ≠ .panic := by
        cases i with
        | text s => simp [BlockContent.applyArg]
        | param p =>
          cases p <;> simp [BlockContent.applyArg, Out.bind_eq_panic, hfill]
      rw [BlockContent.applyArgs]
      simp only [ne_eq, Out.bind_eq_panic, hi, false_or, Prod.exists, not_exists, Out.pure_eq, reduceCtorEq, and_false, exists_const,
        or_false, not_and]
      intro i' as _ 
      exact ih as
  have : (∃ e, BlockContent.applyArgs c args = .err e) ↔ ¬ ∃ c', BlockContent.applyArgs c args = .ok c' := by
    cases h : BlockContent.applyArgs c args with
    | ok c' => simp
    | err e => simp
    | panic => exact absurd h hnp
  rw [this]
  simp only [c49_apply, hok]
  simp only [Classical.not_and_iff_not_or_not, Nat.not_le, Classical.not_forall, exists_prop]

example : (BlockContent.applyArgs [.text (s% "a"), .param (.string none .empty), .param (.menu (s% "m") .empty)]
    [s% "hello", s% "@12", s% "spare"] : Out _ (BlockContent B)) =
    .ok [.text (s% "a"), .param (.string none (.value (s% "hello"))), .param (.menu (s% "m") (.placeholder 12))] := rfl
example : (BlockContent.applyArgs [.param (.boolean none .empty)] [s% "maybe"] : Out _ (BlockContent B)) =
    .err (.invalidBooleanArgument (s% "maybe")) := rfl
example : (BlockContent.takeArgs [.param (.string none (.value (s% "x"))), .text (s% "t")] : BlockContent B × _) =
    ([.param (.string none .empty), .text (s% "t")], [.string none (.value (s% "x"))]) := rfl

/-! ## C50 — Panics of spec parsing -/

/-- C50, what holds: reading a spec without arguments panics iff it has a word of one of the three bad shapes after
readable words. Missing: those specs, on which the code does panic. -/
theorem c50_panics_partial (s : Str) :
    (BlockContent.parseWoParams s : Out _ (BlockContent B)) = .panic ↔
      ∃ pre w post, splitOn ' ' s = pre ++ w :: post ∧ (∀ p ∈ pre, ∃ i : SpecItem B, IsWord p i) ∧ PanicWord w := by
  unfold BlockContent.parseWoParams
  generalize splitOn ' ' s = ws
  induction ws with
  | nil => simp [BlockContent.words]
  | cons w ws ih =>
    rw [BlockContent.words]
    simp only [Out.bind_eq_panic, BlockContent.word_panic, BlockContent.word_ok, Out.pure_eq, reduceCtorEq, and_false,
      exists_const, or_false, ih]
    constructor
    · rintro (h | ⟨i, hi, pre, w', post, rfl, h1, h2⟩)
      · exact ⟨[], w, ws, rfl, by simp, h⟩
      · refine ⟨w :: pre, w', post, rfl, ?_, h2⟩
        intro p hp
        rcases List.mem_cons.mp hp with rfl | hp
        · exact ⟨i, hi⟩
        · exact h1 p hp
    · rintro ⟨pre, w', post, h, h1, h2⟩
      cases pre with
      | nil => simp at h; obtain ⟨rfl, rfl⟩ := h; exact .inl h2
      | cons p pre =>
        simp at h; obtain ⟨rfl, rfl⟩ := h
        obtain ⟨i, hi⟩ := h1 w (by simp)
        exact .inr ⟨i, hi, pre, w', post, rfl, fun p hp => h1 p (by simp [hp]), h2⟩

/-- C50, what holds: reading a spec with its arguments panics iff it has a word of one of the three bad shapes, and the
words before it are read with the arguments. -/
theorem c50_args_panics_partial (s : Str) (args : List Str) :
    (BlockContent.parse s args : Out _ (BlockContent B)) = .panic ↔
      ∃ pre w post, splitOn ' ' s = pre ++ w :: post ∧ (∃ c : BlockContent B, Reads pre args c) ∧ PanicWord w := by
  unfold BlockContent.parse
  generalize splitOn ' ' s = ws
  induction ws generalizing args with
  | nil => simp [BlockContent.wordsArgs]
  | cons w ws ih =>
    rw [BlockContent.wordsArgs]
    simp only [Out.bind_eq_panic, BlockContent.wordArgs_panic, Prod.exists, Out.pure_eq, reduceCtorEq, and_false,
      exists_const, or_false, ih]
    constructor
    · rintro (h | ⟨i, as, hi, pre, w', post, rfl, ⟨c, hc⟩, h2⟩)
      · exact ⟨[], w, ws, rfl, ⟨_, .nil _⟩, h⟩
      · refine ⟨w :: pre, w', post, rfl, ⟨i :: c, ?_⟩, h2⟩
        rw [← BlockContent.wordsArgs_ok] at hc ⊢
        simp [BlockContent.wordsArgs, hi, hc]
    · rintro ⟨pre, w', post, h, ⟨c, hc⟩, h2⟩
      cases pre with
      | nil => simp at h; obtain ⟨rfl, rfl⟩ := h; exact .inl h2
      | cons p pre =>
        simp at h; obtain ⟨rfl, rfl⟩ := h
        rw [← BlockContent.wordsArgs_ok, BlockContent.wordsArgs] at hc
        simp only [Out.bind_eq_ok, Prod.exists, Out.pure_eq, Out.ok.injEq] at hc
        obtain ⟨i, as, hi, c', hc', rfl⟩ := hc
        exact .inr ⟨i, as, hi, pre, w', post, rfl, ⟨c', BlockContent.wordsArgs_ok.mp hc'⟩, h2⟩

/-- C50 is false: a lone percent sign is enough. -/
theorem c50_panics_false : (BlockContent.parseWoParams (s% "50 %") : Out _ (BlockContent B)) = .panic ∧
    (BlockContent.parse (s% "50 %") [] : Out _ (BlockContent B)) = .panic := ⟨rfl, rfl⟩

/-- C50: specs without a percent sign are always read. -/
theorem c50_plain (s : Str) (h : '%' ∉ s) :
    BlockContent.parseWoParams s = .ok ((splitOn ' ' s).map (SpecItem.text (B := B))) := by
  rw [c48_accepts]
  have hw : ∀ w ∈ splitOn ' ' s, w.head? ≠ some '%' := by
    intro w hw hh
    apply h
    rw [← joinWith_splitOn ' ' s]
    have : ∀ (ps : List Str), w ∈ ps → '%' ∈ joinWith ' ' ps := by
      intro ps hps
      induction ps with
      | nil => simp at hps
      | cons p ps ih =>
        have hm : '%' ∈ w := List.mem_of_head? hh
        cases ps with
        | nil => simp at hps; subst hps; exact hm
        | cons q ps =>
          rcases List.mem_cons.mp hps with rfl | hps
          · simp [joinWith, hm]
          · simp [joinWith, ih hps]
    exact this _ hw
  have := All₂.of_map (R := IsWord (B := B)) id SpecItem.text (cs := splitOn ' ' s) fun w hw' => .text w (hw w hw')
  rwa [List.map_id] at this

example : (BlockContent.parse (s% "x %m %s") [] : Out _ (BlockContent B)) = .panic := rfl
example : PanicWord (s% "%€.x") := .inr (.inr ⟨'€', s% "x", rfl, by decide⟩)
example : (BlockContent.parse (s% "x %s.a") [s% "@7"] : Out _ (BlockContent B)) =
    .ok [.text (s% "x"), .param (.string (some (s% "a")) (.placeholder 7))] := rfl

end Swrs.Api
