import Verif.Model.ApiSpec
import Verif.Base.StrLemmas
import Verif.Base.All2
/-!
# Words of a block spec
-/
namespace Swrs.Api
variable [Floats] {B : Type}

/-- The name in the rest of a parameter word: a nonempty text after a dot. -/
def nameOf : Str → Option Str
  | '.' :: c :: n => some (c :: n)
  | _ => none

omit [Floats] in
theorem nameOf_eq_some {t n : Str} : nameOf t = some n ↔ t = '.' :: n ∧ n ≠ [] := by
  unfold nameOf
  split
  · constructor
    · intro h; simp at h; subst h; simp
    · rintro ⟨h, _⟩; simp at h; simp [h]
  · next h =>
    constructor
    · simp
    · rintro ⟨rfl, hn⟩
      obtain ⟨c, n', rfl⟩ := List.exists_cons_of_ne_nil hn
      exact absurd rfl (h c n')

/-- The words on which reading a spec panics: a lone `%`, a menu without a name, and a parameter letter of three or four
bytes followed by a dot. -/
def PanicWord (w : Str) : Prop :=
  w = s% "%" ∨ (∃ t, w = '%' :: 'm' :: t ∧ nameOf t = none) ∨ (∃ c t, w = '%' :: c :: '.' :: t ∧ 3 ≤ c.utf8Size)

/-- The words that are read, and the item they stand for. -/
inductive IsWord : Str → SpecItem B → Prop
  | text (s : Str) (h : s.head? ≠ some '%') : IsWord s (.text s)
  | string (t : Str) : IsWord ('%' :: 's' :: t) (.param (.string (nameOf t) .empty))
  | number (t : Str) : IsWord ('%' :: 'd' :: t) (.param (.number (nameOf t) .empty))
  | boolean (t : Str) : IsWord ('%' :: 'b' :: t) (.param (.boolean (nameOf t) .empty))
  | menu (t n : Str) (h : nameOf t = some n) : IsWord ('%' :: 'm' :: t) (.param (.menu n .empty))

/-- The words that are refused. -/
def ErrWord (w : Str) (e : BlockContentParseError) : Prop :=
  ∃ c t, w = '%' :: c :: t ∧ c ≠ 's' ∧ c ≠ 'd' ∧ c ≠ 'b' ∧ c ≠ 'm' ∧ ¬ (t.head? = some '.' ∧ 3 ≤ c.utf8Size) ∧
    e = .unknownSpecParam [c] w

omit [Floats] in
theorem utf8Size_pos (c : Char) : 0 < c.utf8Size := Char.utf8Size_pos c

namespace BlockContent
omit [Floats] in
theorem wordName_ascii {c : Char} (hc : c.utf8Size = 1) (t : Str) : wordName ('%' :: c :: t) = .ok (nameOf t) := by
  unfold wordName
  cases t with
  | nil => rfl
  | cons d n =>
    have e : ('%' :: c :: d :: n)[2]? = some d := rfl
    rw [e]
    by_cases hd : d = '.'
    · subst hd
      have h1 : Char.utf8Size '%' = 1 := by decide
      have h2 : Char.utf8Size '.' = 1 := by decide
      cases n with
      | nil => rw [if_neg (by simp [hc, h1, h2])]; rfl
      | cons x n =>
        have hx := utf8Size_pos x
        rw [if_pos (by refine ⟨rfl, ?_⟩; simp only [byteLen_cons, hc, h1, h2]; omega)]
        have := sliceFrom_append ['%', c, '.'] (x :: n)
        simp only [byteLen_cons, byteLen_nil, hc, h1, h2, List.cons_append, List.nil_append] at this
        rw [show (1 + (1 + (1 + 0))) = 3 from rfl] at this
        rw [this]; rfl
    · rw [if_neg (by simp [hd])]
      unfold nameOf
      split
      · next h => simp at h; exact absurd h.1 hd
      · rfl

omit [Floats] in
theorem wordName_wide {c : Char} (hc : c.utf8Size ≠ 1) (t : Str) : (3 ≤ c.utf8Size ∧ t.head? = some '.' ∧ wordName ('%' :: c :: t) = .panic) ∨
    (¬ (t.head? = some '.' ∧ 3 ≤ c.utf8Size) ∧ ∃ n, wordName ('%' :: c :: t) = .ok n) := by
  have h1 : Char.utf8Size '%' = 1 := by decide
  have h2 : Char.utf8Size '.' = 1 := by decide
  have hp := utf8Size_pos c
  unfold wordName
  cases t with
  | nil => exact .inr ⟨by simp, none, rfl⟩
  | cons d n =>
    have e : ('%' :: c :: d :: n)[2]? = some d := rfl
    rw [e]
    by_cases hd : d = '.'
    · subst hd
      rw [if_pos (by refine ⟨rfl, ?_⟩; simp only [byteLen_cons, h1, h2]; omega)]
      by_cases h3 : c.utf8Size = 2
      · right
        refine ⟨by simp [h3], some ('.' :: n), ?_⟩
        have := sliceFrom_append ['%', c] ('.' :: n)
        simp only [byteLen_cons, byteLen_nil, h3, h1, List.cons_append, List.nil_append] at this
        rw [show (1 + (2 + 0)) = 3 from rfl] at this
        rw [this]; rfl
      · left
        refine ⟨by omega, rfl, ?_⟩
        have : sliceFrom ('%' :: c :: '.' :: n) 3 = none := by
          rw [sliceFrom, if_pos (by rw [h1]; decide), h1]
          rw [show 2 + 1 - 1 = 1 + 1 from rfl, sliceFrom, if_neg (by omega)]
        rw [this]; rfl
    · rw [if_neg (by simp [hd])]
      exact .inr ⟨by simp [hd], none, rfl⟩

omit [Floats] in
theorem utf8Size_eq_one_of {c : Char} (h : c = 's' ∨ c = 'd' ∨ c = 'b' ∨ c = 'm') : c.utf8Size = 1 := by
  rcases h with rfl | rfl | rfl | rfl <;> decide

omit [Floats] in
theorem startsWith_false {c : Char} {s : Str} (h : s.head? ≠ some c) : startsWith [c] s = false := by
  cases hs : startsWith [c] s with
  | false => rfl
  | true => exact absurd ((startsWith_single c s).mp hs) h

omit [Floats] in
theorem startsWith_cons (c : Char) (s : Str) : startsWith [c] (c :: s) = true := by simp

/-- What reading a word does. -/
theorem word_cases (w : Str) :
    (∃ i : SpecItem B, IsWord w i ∧ word w = .ok i) ∨ (PanicWord w ∧ (word w : Out _ (SpecItem B)) = .panic) ∨
    (∃ e, ErrWord w e ∧ (word w : Out _ (SpecItem B)) = .err e) := by
  unfold word
  by_cases h0 : w.head? = some '%'
  · cases w with
    | nil => simp at h0
    | cons x w =>
      simp at h0; subst h0
      rw [if_neg (by rw [startsWith_cons]; simp)]
      cases w with
      | nil => exact .inr (.inl ⟨.inl rfl, rfl⟩)
      | cons c t =>
        have e : ('%' :: c :: t)[1]? = some c := rfl
        rw [e]
        by_cases hs : c = 's'
        · subst hs
          rw [wordName_ascii (by decide)]
          exact .inl ⟨_, .string t, by simp [Out.unwrap]⟩
        by_cases hb : c = 'b'
        · subst hb
          rw [wordName_ascii (by decide)]
          exact .inl ⟨_, .boolean t, by simp [Out.unwrap]⟩
        by_cases hd : c = 'd'
        · subst hd
          rw [wordName_ascii (by decide)]
          exact .inl ⟨_, .number t, by simp [Out.unwrap]⟩
        by_cases hm : c = 'm'
        · subst hm
          rw [wordName_ascii (by decide)]
          cases hn : nameOf t with
          | none => exact .inr (.inl ⟨.inr (.inl ⟨t, rfl, hn⟩), by simp [Out.unwrap]⟩)
          | some n => exact .inl ⟨_, .menu t n hn, by simp [Out.unwrap]⟩
        have fin : ∀ n, wordName ('%' :: c :: t) = .ok n → ¬ (t.head? = some '.' ∧ 3 ≤ c.utf8Size) →
            ∃ e, ErrWord ('%' :: c :: t) e ∧ (((wordName ('%' :: c :: t)) >>= fun name => Out.unwrap (some c) >>= fun c =>
              if c = 's' then pure (.param (.string name .empty))
              else if c = 'b' then pure (.param (.boolean name .empty))
              else if c = 'd' then pure (.param (.number name .empty))
              else if c = 'm' then (do
                let n ← Out.unwrap name
                pure (.param (.menu n .empty)))
              else .err (.unknownSpecParam [c] ('%' :: c :: t)) : Out BlockContentParseError (SpecItem B))) = .err e := by
          intro n hn hc
          refine ⟨_, ⟨c, t, rfl, hs, hd, hb, hm, hc, rfl⟩, ?_⟩
          rw [hn]
          simp [Out.unwrap, hs, hb, hd, hm]
        by_cases h1 : c.utf8Size = 1
        · exact .inr (.inr (fin _ (wordName_ascii h1 t) (by rw [h1]; omega)))
        · rcases wordName_wide h1 t with ⟨h3, ht, hp⟩ | ⟨hc, n, hn⟩
          · obtain ⟨t', rfl⟩ : ∃ t', t = '.' :: t' := by
              cases t with
              | nil => simp at ht
              | cons a t' => simp at ht; exact ⟨t', by rw [ht]⟩
            refine .inr (.inl ⟨.inr (.inr ⟨c, t', rfl, h3⟩), ?_⟩)
            rw [hp]; rfl
          · exact .inr (.inr (fin n hn hc))
  · rw [if_pos (startsWith_false h0)]
    exact .inl ⟨_, .text w h0, rfl⟩

omit [Floats] in
theorem startsWith_at {v : Str} : startsWith (s% "@") v = true → ∃ r, v = '@' :: r ∧ sliceFrom v 1 = some r := by
  intro h
  rw [startsWith_iff] at h
  obtain ⟨r, rfl⟩ := h
  exact ⟨r, rfl, sliceFrom_append ['@'] r⟩

omit [Floats] in
theorem argText_ne_panic {α : Type} (f : Str → Option α) (bad : Str → BlockContentParseError) (v : Str) :
    (argText f bad v : Out _ (ArgValue B α)) ≠ .panic := by
  unfold argText
  split
  · next h =>
    obtain ⟨r, rfl, hs⟩ := startsWith_at h
    rw [hs]
    simp only [Out.unwrap, Out.ok_bind]
    cases parseU32 r <;> simp
  · cases f v <;> simp

end BlockContent

theorem IsWord.not_panic {w : Str} {i : SpecItem B} (h : IsWord w i) : ¬ PanicWord w := by
  cases h with
  | text _ h =>
    rintro (rfl | ⟨t, rfl, _⟩ | ⟨c, t, rfl, _⟩) <;> simp at h
  | string t =>
    rintro (h | ⟨_, h, _⟩ | ⟨c, _, h, hc⟩)
    · simp at h
    · simp at h
    · simp at h; rw [← h.1] at hc; exact absurd hc (by decide)
  | number t =>
    rintro (h | ⟨_, h, _⟩ | ⟨c, _, h, hc⟩)
    · simp at h
    · simp at h
    · simp at h; rw [← h.1] at hc; exact absurd hc (by decide)
  | boolean t =>
    rintro (h | ⟨_, h, _⟩ | ⟨c, _, h, hc⟩)
    · simp at h
    · simp at h
    · simp at h; rw [← h.1] at hc; exact absurd hc (by decide)
  | menu t n hn =>
    rintro (h | ⟨t', h, ht⟩ | ⟨c, _, h, hc⟩)
    · simp at h
    · simp at h; subst h; rw [hn] at ht; simp at ht
    · simp at h; rw [← h.1] at hc; exact absurd hc (by decide)

omit [Floats] in
theorem ErrWord.not_panic {w : Str} {e : BlockContentParseError} (h : ErrWord w e) : ¬ PanicWord w := by
  obtain ⟨c, t, rfl, hs, hd, hb, hm, hc, _⟩ := h
  rintro (h | ⟨t', h, ht⟩ | ⟨c', t', h, hc'⟩)
  · simp at h
  · simp at h; exact hm h.1
  · simp at h; obtain ⟨rfl, rfl⟩ := h; exact hc ⟨rfl, hc'⟩

theorem IsWord.not_err {w : Str} {i : SpecItem B} {e : BlockContentParseError} (h : IsWord w i) : ¬ ErrWord w e := by
  rintro ⟨c, t, rfl, hs, hd, hb, hm, _⟩
  cases h with
  | text _ h => simp at h
  | string t => exact hs rfl
  | number t => exact hd rfl
  | boolean t => exact hb rfl
  | menu t n hn => exact hm rfl

theorem IsWord.unique {w : Str} {i j : SpecItem B} (h : IsWord w i) (h' : IsWord w j) : i = j := by
  cases h with
  | text _ h => cases h' <;> first | rfl | (simp at h)
  | string t => cases h' with
    | text _ h => simp at h
    | string => rfl
  | number t => cases h' with
    | text _ h => simp at h
    | number => rfl
  | boolean t => cases h' with
    | text _ h => simp at h
    | boolean => rfl
  | menu t n hn => cases h' with
    | text _ h => simp at h
    | menu _ n' hn' => rw [hn] at hn'; simp at hn'; rw [hn']

namespace BlockContent

theorem word_ok {w : Str} {i : SpecItem B} : word w = .ok i ↔ IsWord w i := by
  rcases word_cases (B := B) w with ⟨j, hj, h⟩ | ⟨hp, h⟩ | ⟨e, he, h⟩
  · rw [h]; simp only [Out.ok.injEq]
    exact ⟨fun h => h ▸ hj, fun h => hj.unique h⟩
  · rw [h]; simp only [reduceCtorEq, false_iff]
    exact fun h => h.not_panic hp
  · rw [h]; simp only [reduceCtorEq, false_iff]
    exact fun h => h.not_err he

theorem word_panic {w : Str} : (word w : Out _ (SpecItem B)) = .panic ↔ PanicWord w := by
  rcases word_cases (B := B) w with ⟨j, hj, h⟩ | ⟨hp, h⟩ | ⟨e, he, h⟩
  · rw [h]; simp only [reduceCtorEq, false_iff]; exact hj.not_panic
  · rw [h]; simp [hp]
  · rw [h]; simp only [reduceCtorEq, false_iff]; exact he.not_panic

theorem word_err {w : Str} {e : BlockContentParseError} : (word w : Out _ (SpecItem B)) = .err e ↔ ErrWord w e := by
  rcases word_cases (B := B) w with ⟨j, hj, h⟩ | ⟨hp, h⟩ | ⟨e', he, h⟩
  · rw [h]; simp only [reduceCtorEq, false_iff]; exact hj.not_err
  · rw [h]; simp only [reduceCtorEq, false_iff]; exact fun h => h.not_panic hp
  · rw [h]; simp only [Out.err.injEq]
    constructor
    · intro h; exact h ▸ he
    · rintro ⟨c, t, h1, _, _, _, _, _, h2⟩
      obtain ⟨c', t', h1', _, _, _, _, _, h2'⟩ := he
      rw [h1] at h1'; simp at h1'
      rw [h2, h2', h1'.1]

theorem words_eq_ok {ws : List Str} {is : BlockContent B} : words ws = .ok is ↔ All₂ IsWord ws is := by
  induction ws generalizing is with
  | nil =>
    constructor
    · intro h; simp [words] at h; subst h; exact .nil
    · intro h; cases h; rfl
  | cons w ws ih =>
    rw [words]
    simp only [Out.bind_eq_ok, word_ok, Out.pure_eq, Out.ok.injEq, ih]
    constructor
    · rintro ⟨i, h1, is', h2, rfl⟩; exact .cons h1 h2
    · intro h
      cases h with
      | cons h1 h2 => exact ⟨_, h1, _, h2, rfl⟩

theorem words_append (pre post : List Str) :
    (words (pre ++ post) : Out _ (BlockContent B)) = (words pre).bind fun a => (words post).bind fun b => .ok (a ++ b) := by
  induction pre with
  | nil =>
    simp only [words, Out.bind, List.nil_append]
    cases (words post : Out _ (BlockContent B)) <;> rfl
  | cons w pre ih =>
    simp only [List.cons_append, words, ih]
    cases (word w : Out _ (SpecItem B)) with
    | ok i =>
      cases (words pre : Out _ (BlockContent B)) with
      | ok is =>
        cases (words post : Out _ (BlockContent B)) <;> rfl
      | err e => rfl
      | panic => rfl
    | err e => rfl
    | panic => rfl

end BlockContent
end Swrs.Api

namespace Swrs
/-- A text with `n` separators has `n + 1` pieces. -/
theorem splitOn_length (c : Char) (s : Str) : (splitOn c s).length = s.count c + 1 := by
  induction s with
  | nil => rfl
  | cons x s ih =>
    by_cases h : x = c
    · subst h
      have := splitOn_append_sep (c := x) (a := []) (b := s) (by simp)
      rw [List.nil_append] at this
      rw [this]; simp [ih]
    · have hx : (x :: s).count c = s.count c := by simp [h]
      rw [hx, ← ih]
      rw [splitOn, if_neg h]
      have := splitOn_ne_nil c s
      split
      · next h => exact absurd h this
      · next h => simp [h]

theorem joinWith_inj {c : Char} {ps qs : List Str} (hp : ps ≠ []) (hq : qs ≠ []) (h1 : ∀ p ∈ ps, c ∉ p) (h2 : ∀ p ∈ qs, c ∉ p)
    (h : joinWith c ps = joinWith c qs) : ps = qs := by
  rw [← splitOn_joinWith hp h1, h, splitOn_joinWith hq h2]

theorem count_joinWith (c : Char) {ps : List Str} (h : ps ≠ []) :
    (joinWith c ps).count c + 1 = ps.length + (ps.map (List.count c)).sum := by
  induction ps with
  | nil => exact absurd rfl h
  | cons p ps ih =>
    cases ps with
    | nil => simp [joinWith]; omega
    | cons q ps =>
      have := ih (by simp)
      simp only [joinWith, List.count_append, List.count_cons_self, List.map_cons, List.sum_cons, List.length_cons] at this ⊢
      omega

namespace Api
variable [Floats] {B : Type}
namespace BlockContent

theorem text_eq_joinWith (c : BlockContent B) : text c = joinWith ' ' (c.map itemText) := by
  unfold text
  induction c with
  | nil => rfl
  | cons i c ih =>
    cases c with
    | nil => simp [joinWith]
    | cons j c =>
      simp only [List.map_cons, joinWith, List.flatMap_cons] at ih ⊢
      rw [← ih, List.append_assoc, List.append_assoc, List.dropLast_append_of_ne_nil (by simp), List.singleton_append,
        List.dropLast_cons_of_ne_nil (by simp)]

end BlockContent

/-- What the text of an argument stands for: a reference to a block, or a value. -/
inductive IsArg {α : Type} (f : Str → Option α) : Str → ArgValue B α → Prop
  | ref (d : Str) (id : UInt32) (h : parseU32 d = some id) : IsArg f ('@' :: d) (.placeholder id)
  | val (a : Str) (x : α) (h : a.head? ≠ some '@') (hx : f a = some x) : IsArg f a (.value x)

/-- A spec and its argument texts: each parameter takes one text. -/
inductive Reads : List Str → List Str → BlockContent B → Prop
  | nil (as : List Str) : Reads [] as []
  | text (w : Str) {ws as is} (h : w.head? ≠ some '%') (t : Reads ws as is) : Reads (w :: ws) as (.text w :: is)
  | string (t a : Str) {v ws as is} (h : IsArg some a v) (r : Reads ws as is) :
      Reads (('%' :: 's' :: t) :: ws) (a :: as) (.param (.string (nameOf t) v) :: is)
  | number (t a : Str) {v ws as is} (h : IsArg Floats.read64 a v) (r : Reads ws as is) :
      Reads (('%' :: 'd' :: t) :: ws) (a :: as) (.param (.number (nameOf t) v) :: is)
  | boolean (t a : Str) {v ws as is} (h : IsArg parseBool a v) (r : Reads ws as is) :
      Reads (('%' :: 'b' :: t) :: ws) (a :: as) (.param (.boolean (nameOf t) v) :: is)
  | menu (t n a : Str) {ws as is} (h : nameOf t = some n) (r : Reads ws as is) :
      Reads (('%' :: 'm' :: t) :: ws) (a :: as) (.param (.menu n (.value a)) :: is)

namespace BlockContent

omit [Floats] in
theorem argText_ok {α : Type} {f : Str → Option α} {bad : Str → BlockContentParseError} {a : Str} {v : ArgValue B α} :
    argText f bad a = .ok v ↔ IsArg f a v := by
  unfold argText
  split
  · next h =>
    obtain ⟨r, rfl, hs⟩ := startsWith_at h
    rw [hs]
    simp only [Out.unwrap, Out.ok_bind, Out.bind_eq_ok, Out.ofOption_eq_ok, Out.pure_eq, Out.ok.injEq]
    constructor
    · rintro ⟨id, h1, rfl⟩; exact .ref r id h1
    · intro h
      cases h with
      | ref _ id h => exact ⟨id, h, rfl⟩
      | val _ x h => simp at h
  · next h =>
    simp only [Out.bind_eq_ok, Out.ofOption_eq_ok, Out.pure_eq, Out.ok.injEq]
    constructor
    · rintro ⟨x, h1, rfl⟩
      exact .val a x (fun h' => h ((startsWith_single _ _).mpr h')) h1
    · intro h'
      cases h' with
      | ref d id _ => exact absurd (startsWith_cons '@' d) h
      | val _ x _ hx => exact ⟨x, hx, rfl⟩

/-- The argument of an item that has just been read. -/
def withArg (args : List Str) : SpecItem B → Out BlockContentParseError (SpecItem B × List Str)
  | .text s => .ok (.text s, args)
  | .param (.string n _) => do
    let (a, args) ← takeArg args
    let v ← argText some (fun _ => .ranOutOfArgs) a
    pure (.param (.string n v), args)
  | .param (.boolean n _) => do
    let (a, args) ← takeArg args
    let v ← argText parseBool .invalidBooleanArgument a
    pure (.param (.boolean n v), args)
  | .param (.number n _) => do
    let (a, args) ← takeArg args
    let v ← argText Floats.read64 .invalidNumberArgument a
    pure (.param (.number n v), args)
  | .param (.menu n _) => do
    let (a, args) ← takeArg args
    pure (.param (.menu n (.value a)), args)

/-- Reading a word together with its arguments starts as reading it alone. -/
theorem wordArgs_eq (w : Str) (args : List Str) : (wordArgs w args : Out _ (SpecItem B × List Str)) =
    word w >>= withArg args := by
  unfold wordArgs word
  split
  · rfl
  · cases wordName w with
    | err e => rfl
    | panic => rfl
    | ok name =>
      simp only [Out.ok_bind]
      cases w[1]? with
      | none => rfl
      | some c =>
        simp only [Out.unwrap, Out.ok_bind]
        split
        · rfl
        split
        · rfl
        split
        · rfl
        split
        · cases name <;> rfl
        · rfl

omit [Floats] in
theorem takeArg_ok {args as : List Str} {a : Str} : takeArg args = .ok (a, as) ↔ args = a :: as := by
  cases args <;> simp [takeArg]

omit [Floats] in
theorem takeArg_ne_panic (args : List Str) : takeArg args ≠ .panic := by
  cases args <;> simp [takeArg]

theorem wordArgs_panic {w : Str} {args : List Str} : (wordArgs w args : Out _ (SpecItem B × List Str)) = .panic ↔ PanicWord w := by
  rw [wordArgs_eq, ← word_panic (B := B)]
  cases hw : (word w : Out _ (SpecItem B)) with
  | err e => simp
  | panic => simp
  | ok i =>
    simp only [Out.ok_bind, reduceCtorEq, iff_false]
    cases i with
    | text s => simp [withArg]
    | param p =>
      cases p <;> cases args <;>
        simp only [withArg, takeArg, Out.err_bind, Out.ok_bind, Out.bind_eq_panic, Out.pure_eq, reduceCtorEq, not_false_eq_true] <;>
        simp [argText_ne_panic]

theorem wordsArgs_ok {ws args : List Str} {is : BlockContent B} : wordsArgs ws args = .ok is ↔ Reads ws args is := by
  induction ws generalizing args is with
  | nil =>
    constructor
    · intro h; simp [wordsArgs] at h; subst h; exact .nil _
    · intro h; cases h; rfl
  | cons w ws ih =>
    rw [wordsArgs]
    simp only [Out.bind_eq_ok, Prod.exists, Out.pure_eq, Out.ok.injEq, ih, wordArgs_eq, word_ok]
    constructor
    · rintro ⟨i, rest, ⟨j, hj, h⟩, is', h2, rfl⟩
      cases hj with
      | text _ h1 => simp [withArg] at h; obtain ⟨rfl, rfl⟩ := h; exact .text w h1 h2
      | string t =>
        simp only [withArg, Out.bind_eq_ok, Prod.exists, takeArg_ok, argText_ok, Out.pure_eq, Out.ok.injEq, Prod.mk.injEq] at h
        obtain ⟨a, as, rfl, v, hv, rfl, rfl⟩ := h
        exact .string t a hv h2
      | number t =>
        simp only [withArg, Out.bind_eq_ok, Prod.exists, takeArg_ok, argText_ok, Out.pure_eq, Out.ok.injEq, Prod.mk.injEq] at h
        obtain ⟨a, as, rfl, v, hv, rfl, rfl⟩ := h
        exact .number t a hv h2
      | boolean t =>
        simp only [withArg, Out.bind_eq_ok, Prod.exists, takeArg_ok, argText_ok, Out.pure_eq, Out.ok.injEq, Prod.mk.injEq] at h
        obtain ⟨a, as, rfl, v, hv, rfl, rfl⟩ := h
        exact .boolean t a hv h2
      | menu t n hn =>
        simp only [withArg, Out.bind_eq_ok, Prod.exists, takeArg_ok, Out.pure_eq, Out.ok.injEq, Prod.mk.injEq] at h
        obtain ⟨a, as, rfl, rfl, rfl⟩ := h
        exact .menu t n a hn h2
    · intro h
      cases h with
      | text _ h1 r => exact ⟨_, _, ⟨_, .text w h1, rfl⟩, _, r, rfl⟩
      | string t a hv r =>
        exact ⟨_, _, ⟨_, .string t, by simp [withArg, takeArg, argText_ok.mpr hv]⟩, _, r, rfl⟩
      | number t a hv r =>
        exact ⟨_, _, ⟨_, .number t, by simp [withArg, takeArg, argText_ok.mpr hv]⟩, _, r, rfl⟩
      | boolean t a hv r =>
        exact ⟨_, _, ⟨_, .boolean t, by simp [withArg, takeArg, argText_ok.mpr hv]⟩, _, r, rfl⟩
      | menu t n a hn r =>
        exact ⟨_, _, ⟨_, .menu t n hn, by simp [withArg, takeArg]⟩, _, r, rfl⟩

end BlockContent
end Api
end Swrs
