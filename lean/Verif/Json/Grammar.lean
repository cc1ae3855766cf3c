import Verif.Json.RoundTrip
/-!
# The JSON grammar

An independent description of JSON texts (RFC 8259), and the proof that the
parser of `Verif.Json.Text` accepts exactly these texts.
-/
namespace Swrs.Json

/-- Only JSON white space. -/
def Space (w : Str) : Prop := ∀ c ∈ w, c = ' ' ∨ c = '\n' ∨ c = '\t' ∨ c = '\r'

/-- One or more ASCII digits. -/
def Digs (d : Str) : Prop := d ≠ [] ∧ ∀ c ∈ d, isDigit c = true

/-- Number without sign: `int frac? exp?`. -/
def UNumber (t : Str) : Prop :=
  ∃ i f e, t = i ++ (f ++ e) ∧
    (i = ['0'] ∨ (Digs i ∧ i.head? ≠ some '0')) ∧
    (f = [] ∨ ∃ d, Digs d ∧ f = '.' :: d) ∧
    (e = [] ∨ ∃ x d, (x = 'e' ∨ x = 'E') ∧ Digs d ∧ (e = x :: d ∨ e = x :: '+' :: d ∨ e = x :: '-' :: d))

/-- A JSON number. -/
def Number (t : Str) : Prop := UNumber t ∨ ∃ u, UNumber u ∧ t = '-' :: u

/-- Four hex digits and their value. -/
def Hex4 (h : Str) (n : Nat) : Prop :=
  ∃ a b c d x y z w, h = [a, b, c, d] ∧ digitVal 16 a = some x ∧ digitVal 16 b = some y ∧
    digitVal 16 c = some z ∧ digitVal 16 d = some w ∧ n = ((x * 16 + y) * 16 + z) * 16 + w

/-- The letter escapes. -/
def escapes : List (Char × Char) :=
  [('"', '"'), ('\\', '\\'), ('/', '/'), ('b', Char.ofNat 8), ('f', Char.ofNat 12), ('n', Char.ofNat 10),
    ('r', Char.ofNat 13), ('t', Char.ofNat 9)]

/-- `t` begins with the escape of the second half of a surrogate pair. -/
def LowEscape (t : Str) : Prop :=
  ∃ y lo u, t = '\\' :: 'u' :: (y ++ u) ∧ Hex4 y lo ∧ 0xDC00 ≤ lo ∧ lo < 0xE000

/-- `Lit s t`: `t` is a string literal without the opening quote, with the closing one; `s` is its value, which it has if
no escape is half of a surrogate pair without the other half. -/
inductive Lit : Option Str → Str → Prop where
  | close : Lit (some []) ['"']
  | raw {c : Char} {s : Option Str} {t : Str} (h1 : c ≠ '"') (h2 : c ≠ '\\') (h3 : 32 ≤ c.toNat) (h : Lit s t) :
    Lit (s.map (c :: ·)) (c :: t)
  | esc {e c : Char} {s : Option Str} {t : Str} (h1 : (e, c) ∈ escapes) (h : Lit s t) :
    Lit (s.map (c :: ·)) ('\\' :: e :: t)
  | uni {s : Option Str} {x t : Str} {n : Nat} (h1 : Hex4 x n) (h2 : n < 0xD800 ∨ 0xE000 ≤ n) (h : Lit s t) :
    Lit (s.map (Char.ofNat n :: ·)) ('\\' :: 'u' :: (x ++ t))
  | pair {s : Option Str} {x y t : Str} {hi lo : Nat} (h1 : Hex4 x hi) (h2 : 0xD800 ≤ hi ∧ hi < 0xDC00) (h3 : Hex4 y lo)
    (h4 : 0xDC00 ≤ lo ∧ lo < 0xE000) (h : Lit s t) :
    Lit (s.map (Char.ofNat ((hi - 0xD800) * 0x400 + (lo - 0xDC00) + 0x10000) :: ·))
      ('\\' :: 'u' :: (x ++ '\\' :: 'u' :: (y ++ t)))
  | lone {s : Option Str} {x t : Str} {n : Nat} (h1 : Hex4 x n) (h2 : 0xD800 ≤ n ∧ n < 0xE000)
    (h3 : ¬ (n < 0xDC00 ∧ LowEscape t)) (h : Lit s t) : Lit none ('\\' :: 'u' :: (x ++ t))

mutual
/-- `Val j t`: `t` is a text of the value `j`, without white space around it. -/
inductive Val : Json → Str → Prop where
  | null : Val .null (s% "null")
  | tt : Val (.bool true) (s% "true")
  | ff : Val (.bool false) (s% "false")
  | num {t : Str} (h : Number t) : Val (.num t) t
  | str {s t : Str} (h : Lit (some s) t) : Val (.str s) ('"' :: t)
  | badStr {t : Str} (h : Lit none t) : Val .bad ('"' :: t)
  | arr0 {w : Str} (h : Space w) : Val (.arr []) ('[' :: (w ++ [']']))
  | arr {vs : List Json} {t : Str} (h : Elems vs t) : Val (.arr vs) ('[' :: t)
  | obj0 {w : Str} (h : Space w) : Val (.obj []) ('{' :: (w ++ ['}']))
  | obj {ms : List (Str × Json)} {t : Str} (h : Members (ms.map fun m => (some m.1, m.2)) t) : Val (.obj ms) ('{' :: t)
  | badObj {ms : List (Option Str × Json)} {t : Str} (h : Members ms t) (hk : ∃ m ∈ ms, m.1 = none) : Val .bad ('{' :: t)
/-- One or more elements with the closing bracket. -/
inductive Elems : List Json → Str → Prop where
  | one {w w' t : Str} {v : Json} (h : Space w) (hv : Val v t) (h' : Space w') :
    Elems [v] (w ++ (t ++ (w' ++ [']'])))
  | cons {w w' t u : Str} {v : Json} {vs : List Json} (h : Space w) (hv : Val v t) (h' : Space w') (hs : Elems vs u) :
    Elems (v :: vs) (w ++ (t ++ (w' ++ ',' :: u)))
/-- One or more members with the closing brace. -/
inductive Members : List (Option Str × Json) → Str → Prop where
  | one {w l w1 w2 t w3 : Str} {k : Option Str} {v : Json} (h : Space w) (hk : Lit k l) (h1 : Space w1) (h2 : Space w2) (hv : Val v t)
    (h3 : Space w3) : Members [(k, v)] (w ++ '"' :: (l ++ (w1 ++ ':' :: (w2 ++ (t ++ (w3 ++ ['}']))))))
  | cons {w l w1 w2 t w3 u : Str} {k : Option Str} {v : Json} {ms : List (Option Str × Json)} (h : Space w) (hk : Lit k l) (h1 : Space w1)
    (h2 : Space w2) (hv : Val v t) (h3 : Space w3) (hs : Members ms u) :
    Members ((k, v) :: ms) (w ++ '"' :: (l ++ (w1 ++ ':' :: (w2 ++ (t ++ (w3 ++ ',' :: u))))))
end

/-- `IsText j s`: `s` is a JSON text of `j`, with any white space around the tokens. -/
def IsText (j : Json) (s : Str) : Prop := ∃ w t w', s = w ++ (t ++ w') ∧ Space w ∧ Val j t ∧ Space w'

/-! ### white space -/

theorem isSpace_iff {c : Char} : isSpace c = true ↔ c = ' ' ∨ c = '\n' ∨ c = '\t' ∨ c = '\r' := by
  simp [isSpace, or_assoc]

theorem skip_space {w s : Str} (hw : Space w) (hs : ∀ c, s.head? = some c → isSpace c = false) : skip (w ++ s) = s := by
  unfold skip
  exact (takeWhile_stop (p := isSpace) (fun c hc => isSpace_iff.mpr (hw c hc)) hs).2

theorem skip_split (s : Str) : ∃ w, Space w ∧ s = w ++ skip s ∧ ∀ c, (skip s).head? = some c → isSpace c = false := by
  refine ⟨s.takeWhile isSpace, ?_, (List.takeWhile_append_dropWhile).symm, ?_⟩
  · intro c hc
    have : ∀ (s : Str), ∀ c ∈ s.takeWhile isSpace, isSpace c = true := by
      intro s
      induction s with
      | nil => simp
      | cons x s ih =>
        intro c hc
        rw [List.takeWhile_cons] at hc
        split at hc
        · rcases List.mem_cons.mp hc with rfl | hc
          · assumption
          · exact ih c hc
        · simp at hc
    exact isSpace_iff.mp (this s c hc)
  · intro c hc
    have := List.head?_dropWhile_not isSpace s
    unfold skip at hc
    rw [hc] at this
    simpa using this

theorem stop_space {w r : Str} (hw : Space w) (hr : Stop r) : Stop (w ++ r) := by
  cases w with
  | nil => exact hr
  | cons c w =>
    intro d hd
    simp at hd; subst hd
    rcases hw c (by simp) with rfl | rfl | rfl | rfl <;> decide

/-! ### numbers -/

theorem isNumTok_of_number {t : Str} (h : Number t) : isNumTok t = true := by
  have hstop : ∀ {e : Str}, (e = [] ∨ ∃ x d, (x = 'e' ∨ x = 'E') ∧ Digs d ∧
      (e = x :: d ∨ e = x :: '+' :: d ∨ e = x :: '-' :: d)) →
      (∀ c, e.head? = some c → isDigit c = false ∧ c ≠ '.') ∧ lexExp e = some (e, []) := by
    rintro e (rfl | ⟨x, d, hx, hd, he⟩)
    · exact ⟨by simp, rfl⟩
    · have hl : lexDigits d = some (d, []) := by
        have := lexDigits_append (r := []) hd.1 hd.2 (by simp)
        simpa using this
      have hxd : isDigit x = false ∧ x ≠ '.' := by rcases hx with rfl | rfl <;> decide
      have hne : ∀ y r, d = y :: r → y ≠ '+' ∧ y ≠ '-' := by
        rintro y r rfl
        have := hd.2 y (by simp)
        constructor <;> (rintro rfl; revert this; decide)
      rcases he with rfl | rfl | rfl
      · refine ⟨by rintro c h; simp at h; subst h; exact hxd, ?_⟩
        simp only [lexExp, if_pos hx]
        split
        next r => exact absurd rfl (hne _ _ rfl).1
        next r => exact absurd rfl (hne _ _ rfl).2
        next => rw [hl]; rfl
      · refine ⟨by rintro c h; simp at h; subst h; exact hxd, ?_⟩
        simp only [lexExp, if_pos hx, hl]; rfl
      · refine ⟨by rintro c h; simp at h; subst h; exact hxd, ?_⟩
        simp only [lexExp, if_pos hx, hl]; rfl
  have hu : ∀ {t : Str}, UNumber t → lexUNum t = some (t, []) ∧ ∃ c r, t = c :: r ∧ isDigit c = true := by
    rintro t ⟨i, f, e, rfl, hi, hf, he⟩
    obtain ⟨he1, he2⟩ := hstop he
    have hfe : ∀ c, (f ++ e).head? = some c → isDigit c = false := by
      intro c hc
      rcases hf with rfl | ⟨d, hd, rfl⟩
      · exact (he1 c (by simpa using hc)).1
      · simp at hc; subst hc; decide
    have h1 : lexInt (i ++ (f ++ e)) = some (i, f ++ e) := by
      rcases hi with rfl | ⟨hd, h0⟩
      · rfl
      · cases i with
        | nil => exact absurd rfl hd.1
        | cons c i =>
          have hc0 : c ≠ '0' := by simpa using h0
          have := lexDigits_append hd.1 hd.2 hfe
          unfold lexInt
          split
          next heq => simp at heq; exact absurd heq.1 hc0
          next => exact this
    have h2 : lexFrac (f ++ e) = some (f, e) := by
      rcases hf with rfl | ⟨d, hd, rfl⟩
      · unfold lexFrac
        rw [List.nil_append]
        split
        next => exact absurd rfl (he1 _ rfl).2
        next => rfl
      · have := lexDigits_append (r := e) hd.1 hd.2 (fun c hc => (he1 c hc).1)
        simp only [lexFrac, List.cons_append, this]; rfl
    refine ⟨?_, ?_⟩
    · unfold lexUNum
      simp only [h1, Option.bind_some, h2, he2, Option.map_some]
    · rcases hi with rfl | ⟨hd, _⟩
      · exact ⟨'0', _, rfl, by decide⟩
      · cases i with
        | nil => exact absurd rfl hd.1
        | cons c i => exact ⟨c, _, rfl, hd.2 c (by simp)⟩
  unfold isNumTok
  rw [decide_eq_true_eq]
  rcases h with h | ⟨u, h, rfl⟩
  · obtain ⟨h1, c, r, rfl, h2⟩ := hu h
    unfold lexNum
    split
    next heq => rw [(List.cons.inj heq).1] at h2; exact absurd h2 (by decide)
    next => exact h1
  · obtain ⟨h1, _⟩ := hu h
    simp [lexNum, h1]

theorem number_of_lexNum {s t r : Str} (h : lexNum s = some (t, r)) : s = t ++ r ∧ Number t := by
  have hd : ∀ {s d r : Str}, lexDigits s = some (d, r) → s = d ++ r ∧ Digs d := by
    intro s d r h
    obtain ⟨h1, h2, h3, _⟩ := lexDigits_eq_some h
    exact ⟨h1, h2, h3⟩
  have hi : ∀ {s i r : Str}, lexInt s = some (i, r) → s = i ++ r ∧ (i = ['0'] ∨ (Digs i ∧ i.head? ≠ some '0')) := by
    intro s i r h
    unfold lexInt at h
    split at h
    next => simp at h; obtain ⟨rfl, rfl⟩ := h; exact ⟨rfl, .inl rfl⟩
    next hne =>
      obtain ⟨rfl, h2⟩ := hd h
      refine ⟨rfl, .inr ⟨h2, ?_⟩⟩
      intro h0
      cases i with
      | nil => simp at h0
      | cons c i => simp at h0; subst h0; exact hne _ rfl
  have hf : ∀ {s f r : Str}, lexFrac s = some (f, r) → s = f ++ r ∧ (f = [] ∨ ∃ d, Digs d ∧ f = '.' :: d) := by
    intro s f r h
    unfold lexFrac at h
    split at h
    next x =>
      simp only [Option.map_eq_some_iff, Prod.exists] at h
      obtain ⟨d, r', h1, h2⟩ := h
      obtain ⟨rfl, h3⟩ := hd h1
      simp at h2; obtain ⟨rfl, rfl⟩ := h2
      exact ⟨rfl, .inr ⟨d, h3, rfl⟩⟩
    next => simp at h; obtain ⟨rfl, rfl⟩ := h; exact ⟨rfl, .inl rfl⟩
  have he : ∀ {s e r : Str}, lexExp s = some (e, r) → s = e ++ r ∧ (e = [] ∨ ∃ x d, (x = 'e' ∨ x = 'E') ∧ Digs d ∧
      (e = x :: d ∨ e = x :: '+' :: d ∨ e = x :: '-' :: d)) := by
    intro s e r h
    unfold lexExp at h
    split at h
    next => simp at h; obtain ⟨rfl, rfl⟩ := h; exact ⟨rfl, .inl rfl⟩
    next c s =>
      split at h
      next hc =>
        split at h
        · simp only [Option.map_eq_some_iff, Prod.exists] at h
          obtain ⟨d, r', h1, h2⟩ := h
          obtain ⟨rfl, h3⟩ := hd h1
          simp at h2; obtain ⟨rfl, rfl⟩ := h2
          exact ⟨rfl, .inr ⟨c, d, hc, h3, .inr (.inl rfl)⟩⟩
        · simp only [Option.map_eq_some_iff, Prod.exists] at h
          obtain ⟨d, r', h1, h2⟩ := h
          obtain ⟨rfl, h3⟩ := hd h1
          simp at h2; obtain ⟨rfl, rfl⟩ := h2
          exact ⟨rfl, .inr ⟨c, d, hc, h3, .inr (.inr rfl)⟩⟩
        · simp only [Option.map_eq_some_iff, Prod.exists] at h
          obtain ⟨d, r', h1, h2⟩ := h
          obtain ⟨rfl, h3⟩ := hd h1
          simp at h2; obtain ⟨rfl, rfl⟩ := h2
          exact ⟨rfl, .inr ⟨c, d, hc, h3, .inl rfl⟩⟩
      next => simp at h; obtain ⟨rfl, rfl⟩ := h; exact ⟨rfl, .inl rfl⟩
  have hu : ∀ {s t r : Str}, lexUNum s = some (t, r) → s = t ++ r ∧ UNumber t := by
    intro s t r h
    unfold lexUNum at h
    simp only [Option.bind_eq_some_iff, Option.map_eq_some_iff, Prod.exists] at h
    obtain ⟨i, r1, h1, f, r2, h2, e, r3, h3, h4⟩ := h
    simp at h4; obtain ⟨rfl, rfl⟩ := h4
    obtain ⟨rfl, k1⟩ := hi h1
    obtain ⟨rfl, k2⟩ := hf h2
    obtain ⟨rfl, k3⟩ := he h3
    exact ⟨by simp, i, f, e, rfl, k1, k2, k3⟩
  unfold lexNum at h
  split at h
  next x =>
    simp only [Option.map_eq_some_iff, Prod.exists] at h
    obtain ⟨u, r', h1, h2⟩ := h
    simp at h2; obtain ⟨rfl, rfl⟩ := h2
    obtain ⟨rfl, h3⟩ := hu h1
    exact ⟨rfl, .inr ⟨u, h3, rfl⟩⟩
  next =>
    obtain ⟨rfl, h3⟩ := hu h
    exact ⟨rfl, .inl h3⟩

/-! ### strings -/

theorem hex4_iff {a b c d : Char} {n : Nat} : hex4 a b c d = some n ↔ Hex4 [a, b, c, d] n := by
  unfold hex4 Hex4
  constructor
  · intro h
    split at h
    next x y z w ha hb hc hd =>
      simp at h; subst h
      exact ⟨a, b, c, d, x, y, z, w, rfl, ha, hb, hc, hd, rfl⟩
    next => simp at h
  · rintro ⟨a, b, c, d, x, y, z, w, h, ha, hb, hc, hd, rfl⟩
    simp only [List.cons.injEq, and_true] at h
    obtain ⟨rfl, rfl, rfl, rfl⟩ := h
    rw [ha, hb, hc, hd]

theorem escVal_iff {e c : Char} : escVal e = some c ↔ (e, c) ∈ escapes := by
  unfold escVal escapes
  simp only [List.mem_cons, Prod.mk.injEq, List.not_mem_nil, or_false]
  repeat' split
  all_goals first
    | (subst_vars; simp [eq_comm]; done)
    | simp_all

theorem lit_length {s : Option Str} {t : Str} (h : Lit s t) : 1 ≤ t.length := by cases h <;> simp

theorem surrogate_some {hi : Nat} {x r : Str} {c : Char} (h : surrogate hi x = some (c, r)) :
    hi < 0xDC00 ∧ ∃ y lo, x = '\\' :: 'u' :: (y ++ r) ∧ Hex4 y lo ∧ 0xDC00 ≤ lo ∧ lo < 0xE000 ∧
      c = Char.ofNat ((hi - 0xD800) * 0x400 + (lo - 0xDC00) + 0x10000) := by
  unfold surrogate at h
  split at h
  next a b c d r =>
    split at h
    next => simp at h
    next lo hlo =>
      split at h
      next hc =>
        simp at h; obtain ⟨rfl, rfl⟩ := h
        exact ⟨hc.1, [a, b, c, d], lo, rfl, hex4_iff.mp hlo, hc.2.1, hc.2.2, rfl⟩
      next => simp at h
  next => simp at h

theorem surrogate_none {s : Option Str} {t rest : Str} {hi : Nat} (ht : Lit s t) (h : ¬ (hi < 0xDC00 ∧ LowEscape t)) :
    surrogate hi (t ++ rest) = none := by
  cases hs : surrogate hi (t ++ rest) with
  | none => rfl
  | some p =>
    obtain ⟨c, r⟩ := p
    obtain ⟨h1, y, lo, hx, hy, h2, h3, _⟩ := surrogate_some hs
    exfalso
    refine h ⟨h1, ?_⟩
    have hex : ∀ {x t' : Str} {n : Nat}, Hex4 x n → x ++ (t' ++ rest) = y ++ r → LowEscape ('\\' :: 'u' :: (x ++ t')) := by
      intro x t' n hx' he
      refine ⟨x, lo, t', rfl, ?_, h2, h3⟩
      obtain ⟨a, b, c, d, _, _, _, _, rfl, _⟩ := hx'
      have hy' := hy
      obtain ⟨a', b', c', d', _, _, _, _, rfl, _⟩ := hy'
      simp only [List.cons_append, List.nil_append, List.cons.injEq] at he
      obtain ⟨rfl, rfl, rfl, rfl, _⟩ := he
      exact hy
    cases ht with
    | close => simp at hx
    | raw _ h5 _ _ => simp only [List.cons_append, List.cons.injEq] at hx; exact absurd hx.1 h5
    | @esc e c s t h5 _ =>
      simp only [List.cons_append, List.cons.injEq] at hx
      obtain ⟨_, rfl, _⟩ := hx
      simp [escapes] at h5
    | uni h5 _ _ => exact hex h5 (by simpa using hx)
    | pair h5 _ _ _ _ => exact hex h5 (by simpa using hx)
    | lone h5 _ _ _ => exact hex h5 (by simpa using hx)

theorem lexStr_lit {s : Option Str} {t : Str} (h : Lit s t) (rest : Str) (n : Nat) (hn : t.length ≤ n) :
    lexStr n (t ++ rest) = some (s, rest) := by
  induction h generalizing n with
  | close =>
    obtain ⟨m, rfl⟩ : ∃ m, n = m + 1 := ⟨n - 1, by simp at hn; omega⟩
    simp [lexStr]
  | @raw c s t h1 h2 h3 _ ih =>
    obtain ⟨m, rfl⟩ : ∃ m, n = m + 1 := ⟨n - 1, by simp at hn; omega⟩
    rw [List.cons_append, lexStr.eq_def]; dsimp only; rw [if_neg h1, if_neg h2, if_neg (by omega), ih m (by simp at hn; omega)]
    rfl
  | @esc e c s t h1 _ ih =>
    obtain ⟨m, rfl⟩ : ∃ m, n = m + 1 := ⟨n - 1, by simp at hn; omega⟩
    have hu : e ≠ 'u' := by
      rintro rfl
      have : ∀ c, ('u', c) ∉ escapes := by intro c; simp [escapes]
      exact this c h1
    have ih := ih m (by simp at hn; omega)
    rw [List.cons_append, List.cons_append, lexStr.eq_def]; dsimp only; rw [if_neg (by decide), if_pos rfl]
    split
    next heq => simp at heq; exact absurd heq.1 hu
    next e' r' _ heq =>
      simp at heq; obtain ⟨rfl, rfl⟩ := heq
      rw [escVal_iff.mpr h1]
      simp only [ih, Option.map_some, consLit]
    next heq => simp at heq
  | @uni x s t k h1 h2 _ ih =>
    obtain ⟨a, b, c, d, _, _, _, _, rfl, _⟩ := id h1
    obtain ⟨m, rfl⟩ : ∃ m, n = m + 1 := ⟨n - 1, by simp at hn; omega⟩
    have ih := ih m (by simp at hn; omega)
    simp only [List.cons_append, List.nil_append]
    rw [lexStr.eq_def]; dsimp only; rw [if_neg (by decide), if_pos rfl]
    simp only [hex4_iff.mpr h1]
    rw [if_neg (by omega), ih]
    rfl
  | @pair x y s t hi lo h1 h2 h3 h4 _ ih =>
    obtain ⟨a, b, c, d, _, _, _, _, rfl, _⟩ := id h1
    obtain ⟨a', b', c', d', _, _, _, _, rfl, _⟩ := id h3
    obtain ⟨m, rfl⟩ : ∃ m, n = m + 1 := ⟨n - 1, by simp at hn; omega⟩
    have ih := ih m (by simp at hn; omega)
    simp only [List.cons_append, List.nil_append]
    rw [lexStr.eq_def]; dsimp only; rw [if_neg (by decide), if_pos rfl]
    have hs : surrogate hi ('\\' :: 'u' :: a' :: b' :: c' :: d' :: (t ++ rest)) =
        some (Char.ofNat ((hi - 0xD800) * 0x400 + (lo - 0xDC00) + 0x10000), t ++ rest) := by
      simp only [surrogate, hex4_iff.mpr h3, if_pos (show hi < 0xDC00 ∧ 0xDC00 ≤ lo ∧ lo < 0xE000 from ⟨h2.2, h4⟩)]
    simp only [hex4_iff.mpr h1, if_pos (show 0xD800 ≤ hi ∧ hi < 0xE000 by omega), hs, ih, Option.map_some, consLit]
  | @lone s x t k h1 h2 h3 ht ih =>
    obtain ⟨a, b, c, d, _, _, _, _, rfl, _⟩ := id h1
    obtain ⟨m, rfl⟩ : ∃ m, n = m + 1 := ⟨n - 1, by simp at hn; omega⟩
    have ih := ih m (by simp at hn; omega)
    simp only [List.cons_append, List.nil_append]
    rw [lexStr.eq_def]; dsimp only; rw [if_neg (by decide), if_pos rfl]
    simp only [hex4_iff.mpr h1, if_pos h2, surrogate_none ht h3, ih, Option.map_some]

theorem lit_of_lexStr {n : Nat} {s : Option Str} {x r : Str} (h : lexStr n x = some (s, r)) : ∃ t, x = t ++ r ∧ Lit s t := by
  induction n generalizing x s with
  | zero => simp [lexStr] at h
  | succ n ih =>
    cases x with
    | nil => simp [lexStr] at h
    | cons c x =>
      rw [lexStr.eq_def] at h
      dsimp only at h
      split at h
      next hc => subst hc; simp at h; obtain ⟨rfl, rfl⟩ := h; exact ⟨['"'], rfl, .close⟩
      next hq =>
        split at h
        next hb =>
          subst hb
          split at h
          next a b c d x =>
            split at h
            next => simp at h
            next hi hhi =>
              split at h
              next hr =>
                split at h
                next v r0 hs =>
                  simp only [Option.map_eq_some_iff, Prod.exists] at h
                  obtain ⟨s', r', h1, h2⟩ := h
                  simp only [consLit, Prod.mk.injEq] at h2; obtain ⟨rfl, rfl⟩ := h2
                  obtain ⟨t, rfl, ht⟩ := ih h1
                  obtain ⟨h3, y, lo, rfl, hy, h4, h5, hv⟩ := surrogate_some hs
                  rw [hv]
                  exact ⟨_, by simp, .pair (hex4_iff.mp hhi) ⟨hr.1, h3⟩ hy ⟨h4, h5⟩ ht⟩
                next hs =>
                  simp only [Option.map_eq_some_iff, Prod.exists] at h
                  obtain ⟨s', r', h1, h2⟩ := h
                  simp only [Prod.mk.injEq] at h2; obtain ⟨rfl, rfl⟩ := h2
                  obtain ⟨t, rfl, ht⟩ := ih h1
                  refine ⟨'\\' :: 'u' :: ([a, b, c, d] ++ t), by simp, .lone (hex4_iff.mp hhi) hr ?_ ht⟩
                  rintro ⟨h3, y, lo, u, rfl, hy, h4, h5⟩
                  obtain ⟨a', b', c', d', _, _, _, _, rfl, _⟩ := id hy
                  simp [surrogate, hex4_iff.mpr hy, h3, h4, h5] at hs
              next hr =>
                simp only [Option.map_eq_some_iff, Prod.exists] at h
                obtain ⟨s', r', h1, h2⟩ := h
                simp only [consLit, Prod.mk.injEq] at h2; obtain ⟨rfl, rfl⟩ := h2
                obtain ⟨t, rfl, ht⟩ := ih h1
                exact ⟨'\\' :: 'u' :: ([a, b, c, d] ++ t), by simp, .uni (hex4_iff.mp hhi) (by omega) ht⟩
          next e x _ =>
            split at h
            next => simp at h
            next v hv =>
              simp only [Option.map_eq_some_iff, Prod.exists] at h
              obtain ⟨s', r', h1, h2⟩ := h
              simp only [consLit, Prod.mk.injEq] at h2; obtain ⟨rfl, rfl⟩ := h2
              obtain ⟨t, rfl, ht⟩ := ih h1
              exact ⟨'\\' :: e :: t, by simp, .esc (escVal_iff.mp hv) ht⟩
          next => simp at h
        next hb =>
          split at h
          next => simp at h
          next hc =>
            simp only [Option.map_eq_some_iff, Prod.exists] at h
            obtain ⟨s', r', h1, h2⟩ := h
            simp only [consLit, Prod.mk.injEq] at h2; obtain ⟨rfl, rfl⟩ := h2
            obtain ⟨t, rfl, ht⟩ := ih h1
            exact ⟨c :: t, rfl, .raw hq hb (by omega) ht⟩

theorem lexString_lit {s : Option Str} {t : Str} (h : Lit s t) (rest : Str) : lexString (t ++ rest) = some (s, rest) := by
  unfold lexString
  exact lexStr_lit h rest _ (by simp; omega)

/-! ### values -/

theorem val_head {j : Json} {t : Str} (h : Val j t) :
    ∃ c r, t = c :: r ∧ isSpace c = false ∧ c ≠ ']' ∧ c ≠ '}' := by
  cases h with
  | num h =>
    obtain ⟨c, r, rfl, hc⟩ := numTok_head (isNumTok_of_number h)
    refine ⟨c, r, rfl, ?_⟩
    have hd : isDigit c = true → isSpace c = false ∧ c ≠ ']' ∧ c ≠ '}' := by
      intro h
      refine ⟨?_, ?_, ?_⟩
      · rw [Bool.eq_false_iff]
        intro hs
        rcases isSpace_iff.mp hs with rfl | rfl | rfl | rfl <;> exact absurd h (by decide)
      · rintro rfl; exact absurd h (by decide)
      · rintro rfl; exact absurd h (by decide)
    rcases hc with rfl | hc
    · decide
    · exact hd hc
  | _ => exact ⟨_, _, rfl, by decide⟩

theorem elems_head {vs : List Json} {u : Str} (h : Elems vs u) :
    ∃ w c r, u = w ++ c :: r ∧ Space w ∧ isSpace c = false ∧ c ≠ ']' := by
  cases h with
  | one h hv h' =>
    obtain ⟨c, r, rfl, h1, h2, _⟩ := val_head hv
    exact ⟨_, c, _, rfl, h, h1, h2⟩
  | cons h hv h' _ =>
    obtain ⟨c, r, rfl, h1, h2, _⟩ := val_head hv
    exact ⟨_, c, _, rfl, h, h1, h2⟩

theorem members_head {ms : List (Option Str × Json)} {u : Str} (h : Members ms u) : ∃ w r, u = w ++ '"' :: r ∧ Space w := by
  cases h with
  | one h => exact ⟨_, _, rfl, h⟩
  | cons h => exact ⟨_, _, rfl, h⟩

theorem keyed_none {ms : List (Option Str × Json)} : keyed ms = none ↔ ∃ m ∈ ms, m.1 = none := by
  induction ms with
  | nil => simp [keyed]
  | cons m ms ih =>
    obtain ⟨k, v⟩ := m
    cases k with
    | none => simp [keyed]
    | some k => simp [keyed, ih]

/-- The parser reads every text of the grammar. -/
theorem parse_grammar (f : Nat) :
    (∀ j t w rest, Val j t → Space w → Stop rest → 2 * t.length ≤ f →
      parseVal f (w ++ (t ++ rest)) = some (j, rest)) ∧
    (∀ vs u rest, Elems vs u → 2 * u.length ≤ f →
      parseElems f (u ++ rest) = some (vs, rest)) ∧
    (∀ ms u rest, Members ms u → 2 * u.length ≤ f →
      parseMembers f (u ++ rest) = some (ms, rest)) := by
  induction f with
  | zero =>
    refine ⟨?_, ?_, ?_⟩
    · intro j t w rest h _ _ hf
      obtain ⟨c, r, rfl, _⟩ := val_head h
      simp at hf
    · intro vs u rest h hf
      obtain ⟨w, c, r, rfl, _⟩ := elems_head h
      simp at hf
    · intro ms u rest h hf
      obtain ⟨w, r, rfl, _⟩ := members_head h
      simp at hf
  | succ f ih =>
    obtain ⟨ihv, ihe, ihm⟩ := ih
    have hobj : ∀ {rest : Str} (ms : List (Option Str × Json)) (u : Str), Members ms u → 2 * u.length ≤ f →
        (match skip (u ++ rest) with
          | '}' :: r => some (obj [], r)
          | r => (parseMembers f r).map fun (ms, r) => (objOf ms, r)) = some (objOf ms, rest) := by
      intro rest ms u h hu
      obtain ⟨w0, r, rfl, hw0⟩ := members_head h
      have h2 : skip (w0 ++ '"' :: r ++ rest) = '"' :: (r ++ rest) := by
        rw [List.append_assoc]; exact skip_space hw0 (by simp [isSpace])
      have h3 : Members ms ('"' :: r) := by
        have key : ∀ {u : Str}, Members ms u → u = w0 ++ '"' :: r → Members ms ('"' :: r) := by
          intro u hu he
          have e2 := skip_space (s := '"' :: r) hw0 (by simp [isSpace])
          cases hu with
          | one g0 g1 g2 g3 g4 g5 =>
            have e1 : ∀ r, skip (_ ++ '"' :: r) = '"' :: r := fun r => skip_space g0 (by simp [isSpace])
            have e3 := e1 _ ▸ congrArg skip he
            rw [e2] at e3
            rw [← e3]
            exact .one (w := []) (by simp [Space]) g1 g2 g3 g4 g5
          | cons g0 g1 g2 g3 g4 g5 g6 =>
            have e1 : ∀ r, skip (_ ++ '"' :: r) = '"' :: r := fun r => skip_space g0 (by simp [isSpace])
            have e3 := e1 _ ▸ congrArg skip he
            rw [e2] at e3
            rw [← e3]
            exact .cons (w := []) (by simp [Space]) g1 g2 g3 g4 g5 g6
        exact key h rfl
      have h4 := ihm _ _ rest h3 (by simp at hu ⊢; omega)
      rw [h2]
      rw [List.cons_append] at h4
      show Option.map _ (parseMembers f ('"' :: (r ++ rest))) = _
      rw [h4]; rfl
    have hcomma : ∀ (w r : Str), Space w → skip (w ++ ',' :: r) = ',' :: r := fun w r hw =>
      skip_space hw (by simp [isSpace])
    refine ⟨?_, ?_, ?_⟩
    · intro j t w rest h hw hr hf
      have hsk : skip (w ++ (t ++ rest)) = t ++ rest := by
        obtain ⟨c, r, rfl, h1, _⟩ := val_head h
        exact skip_space hw (by simp [h1])
      rw [parseVal, hsk]
      cases h with
      | null => rfl
      | tt => rfl
      | ff => rfl
      | num h =>
        have hv := parseVal_num (f := f) (isNumTok_of_number h) hr
        rw [parseVal] at hv
        have hsk0 : skip (t ++ rest) = t ++ rest := by
          obtain ⟨c, r, rfl, h1, _⟩ := val_head (.num h)
          exact skip_space (w := []) (by simp [Space]) (by simp [h1])
        rw [hsk0] at hv
        exact hv
      | str h =>
        simp only [List.cons_append, lexString_lit h, Option.map_some, strOf]
      | badStr h =>
        simp only [List.cons_append, lexString_lit h, Option.map_some, strOf]
      | arr0 h =>
        simp only [List.cons_append, List.append_assoc] 
        have h2 := skip_space (s := ']' :: rest) h (by simp [isSpace])
        simp only [h2, List.nil_append]
      | @arr vs u h =>
        simp only [List.cons_append] 
        obtain ⟨w0, c, r, rfl, hw0, hc, hc'⟩ := elems_head h
        have h2 : skip (w0 ++ c :: r ++ rest) = c :: (r ++ rest) := by
          rw [List.append_assoc]; exact skip_space hw0 (by simp [hc])
        have hsplit : ∃ w1 u1, Space w1 ∧ w0 ++ c :: r = w1 ++ u1 := ⟨w0, c :: r, hw0, rfl⟩
        -- the elements are read from the text without its leading white space
        have h3 : ∃ vs', vs' = vs ∧ Elems vs' (c :: r) := by
          refine ⟨vs, rfl, ?_⟩
          have key : ∀ {u : Str}, Elems vs u → u = w0 ++ c :: r → Elems vs (c :: r) := by
            intro u hu he
            cases hu with
            | @one w w' t v hw1 hv h' =>
              obtain ⟨c', r', rfl, h5, _⟩ := val_head hv
              have e1 := skip_space (s := c' :: r' ++ (w' ++ [']'])) hw1 (by simp [h5])
              have e2 := skip_space (s := c :: r) hw0 (by simp [hc])
              rw [he, e2] at e1
              rw [e1]
              exact .one (w := []) (by simp [Space]) hv h'
            | @cons w w' t u v vs hw1 hv h' hs =>
              obtain ⟨c', r', rfl, h5, _⟩ := val_head hv
              have e1 := skip_space (s := c' :: r' ++ (w' ++ ',' :: u)) hw1 (by simp [h5])
              have e2 := skip_space (s := c :: r) hw0 (by simp [hc])
              rw [he, e2] at e1
              rw [e1]
              exact .cons (w := []) (by simp [Space]) hv h' hs
          exact key h rfl
        obtain ⟨_, rfl, h3⟩ := h3
        have h4 := ihe _ _ rest h3 (by simp at hf ⊢; omega)
        rw [h2]
        split
        next heq => simp at heq; exact absurd heq.1 hc'
        next => rw [← List.cons_append, h4]; rfl
      | obj0 h =>
        simp only [List.cons_append, List.append_assoc] 
        have h2 := skip_space (s := '}' :: rest) h (by simp [isSpace])
        simp only [h2, List.nil_append]
      | @obj ms u h =>
        have h4 := hobj (rest := rest) _ u h (by simp at hf; omega)
        have e : objOf (ms.map fun m => (some m.1, m.2)) = obj ms := by
          have := keyed_withKeys ms
          unfold withKeys at this
          simp only [objOf, this]
        rw [e] at h4
        exact h4
      | @badObj ms u h hk =>
        have h4 := hobj (rest := rest) _ u h (by simp at hf; omega)
        have e : objOf ms = bad := by simp only [objOf, keyed_none.mpr hk]
        rw [e] at h4
        exact h4
    · intro vs u rest h hf
      cases h with
      | @one w w' t v h hv h' =>
        obtain ⟨c, r, ht, _⟩ := val_head hv
        have h1 := ihv v t w (w' ++ ']' :: rest) hv h (stop_space h' (stop_rbrack _))
          (by simp at hf; omega)
        have h2 : skip (w' ++ ']' :: rest) = ']' :: rest := skip_space h' (by simp [isSpace])
        simp only [List.append_assoc, List.cons_append, List.nil_append]
        simp only [parseElems, h1, h2]
      | @cons w w' t u v vs h hv h' hs =>
        obtain ⟨c, r, ht, _⟩ := val_head hv
        have h1 := ihv v t w (w' ++ ',' :: (u ++ rest)) hv h (stop_space h' (stop_comma _))
          (by simp at hf; omega)
        have h2 := hcomma w' (u ++ rest) h'
        have h3 := ihe vs u rest hs (by simp at hf; omega)
        simp only [List.append_assoc, List.cons_append]
        simp only [parseElems, h1, h2, h3, Option.map_some]
    · intro ms u rest h hf
      cases h with
      | @one w l w1 w2 t w3 k v h hk h1 h2 hv h3 =>
        have e1 := ihv v t w2 (w3 ++ '}' :: rest) hv h2 (stop_space h3 (stop_rbrace _))
          (by simp at hf; omega)
        have e2 : skip (w3 ++ '}' :: rest) = '}' :: rest := skip_space h3 (by simp [isSpace])
        have e3 : ∀ r, skip (w ++ '"' :: r) = '"' :: r := fun r => skip_space h (by simp [isSpace])
        have e4 : ∀ r, skip (w1 ++ ':' :: r) = ':' :: r := fun r => skip_space h1 (by simp [isSpace])
        simp only [List.append_assoc, List.cons_append, List.nil_append]
        simp only [parseMembers, e3, lexString_lit hk, e4, e1, e2]
      | @cons w l w1 w2 t w3 u k v ms h hk h1 h2 hv h3 hs =>
        have e1 := ihv v t w2 (w3 ++ ',' :: (u ++ rest)) hv h2 (stop_space h3 (stop_comma _))
          (by simp at hf; omega)
        have e2 := hcomma w3 (u ++ rest) h3
        have e3 : ∀ r, skip (w ++ '"' :: r) = '"' :: r := fun r => skip_space h (by simp [isSpace])
        have e4 : ∀ r, skip (w1 ++ ':' :: r) = ':' :: r := fun r => skip_space h1 (by simp [isSpace])
        have e5 := ihm ms u rest hs (by simp at hf; omega)
        simp only [List.append_assoc, List.cons_append]
        simp only [parseMembers, e3, lexString_lit hk, e4, e1, e2, e5, Option.map_some]

/-- What the parser reads is a text of the grammar. -/
theorem grammar_parse (f : Nat) :
    (∀ x j r, parseVal f x = some (j, r) → ∃ w t, x = w ++ (t ++ r) ∧ Space w ∧ Val j t) ∧
    (∀ x vs r, parseElems f x = some (vs, r) → ∃ u, x = u ++ r ∧ Elems vs u) ∧
    (∀ x ms r, parseMembers f x = some (ms, r) → ∃ u, x = u ++ r ∧ Members ms u) := by
  induction f with
  | zero => exact ⟨by simp [parseVal], by simp [parseElems], by simp [parseMembers]⟩
  | succ f ih =>
    obtain ⟨ihv, ihe, ihm⟩ := ih
    refine ⟨?_, ?_, ?_⟩
    · intro x j r h
      obtain ⟨w, hw, hx, _⟩ := skip_split x
      rw [parseVal] at h
      generalize skip x = y at h hx
      subst hx
      split at h
      · simp at h; obtain ⟨rfl, rfl⟩ := h; exact ⟨w, _, rfl, hw, .null⟩
      · simp at h; obtain ⟨rfl, rfl⟩ := h; exact ⟨w, _, rfl, hw, .tt⟩
      · simp at h; obtain ⟨rfl, rfl⟩ := h; exact ⟨w, _, rfl, hw, .ff⟩
      · simp only [Option.map_eq_some_iff, Prod.exists] at h
        obtain ⟨s, r', h1, h2⟩ := h
        simp at h2; obtain ⟨rfl, rfl⟩ := h2
        obtain ⟨t, rfl, ht⟩ := lit_of_lexStr h1
        refine ⟨w, '"' :: t, rfl, hw, ?_⟩
        cases s with
        | none => exact .badStr ht
        | some s => exact .str ht
      · obtain ⟨w0, hw0, hx0, _⟩ := skip_split ‹Str›
        split at h
        next heq =>
          simp at h; obtain ⟨rfl, rfl⟩ := h
          rw [heq] at hx0
          refine ⟨w, '[' :: (w0 ++ [']']), by rw [hx0]; simp, hw, .arr0 hw0⟩
        next =>
          simp only [Option.map_eq_some_iff, Prod.exists] at h
          obtain ⟨vs, r', h1, h2⟩ := h
          simp at h2; obtain ⟨rfl, rfl⟩ := h2
          obtain ⟨u, h3, h4⟩ := ihe _ _ _ h1
          rw [h3] at hx0
          refine ⟨w, '[' :: (w0 ++ u), by rw [hx0]; simp, hw, .arr ?_⟩
          cases h4 with
          | one h hv h' =>
            rw [← List.append_assoc]
            refine .one ?_ hv h'
            intro c hc
            rcases List.mem_append.mp hc with hc | hc
            · exact hw0 c hc
            · exact h c hc
          | cons h hv h' hs =>
            rw [← List.append_assoc]
            refine .cons ?_ hv h' hs
            intro c hc
            rcases List.mem_append.mp hc with hc | hc
            · exact hw0 c hc
            · exact h c hc
      · obtain ⟨w0, hw0, hx0, _⟩ := skip_split ‹Str›
        split at h
        next heq =>
          simp at h; obtain ⟨rfl, rfl⟩ := h
          rw [heq] at hx0
          refine ⟨w, '{' :: (w0 ++ ['}']), by rw [hx0]; simp, hw, .obj0 hw0⟩
        next =>
          simp only [Option.map_eq_some_iff, Prod.exists] at h
          obtain ⟨vs, r', h1, h2⟩ := h
          simp at h2; obtain ⟨rfl, rfl⟩ := h2
          obtain ⟨u, h3, h4⟩ := ihm _ _ _ h1
          rw [h3] at hx0
          refine ⟨w, '{' :: (w0 ++ u), by rw [hx0]; simp, hw, ?_⟩
          have h5 : Members vs (w0 ++ u) := by
           cases h4 with
          | one g0 g1 g2 g3 g4 g5 =>
            rw [← List.append_assoc]
            refine .one ?_ g1 g2 g3 g4 g5
            intro c hc
            rcases List.mem_append.mp hc with hc | hc
            · exact hw0 c hc
            · exact g0 c hc
          | cons g0 g1 g2 g3 g4 g5 g6 =>
            rw [← List.append_assoc]
            refine .cons ?_ g1 g2 g3 g4 g5 g6
            intro c hc
            rcases List.mem_append.mp hc with hc | hc
            · exact hw0 c hc
            · exact g0 c hc
          unfold objOf
          split
          next ns hk => rw [keyed_eq hk] at h5; exact .obj h5
          next hk => exact .badObj h5 (keyed_none.mp hk)
      · simp only [Option.map_eq_some_iff, Prod.exists] at h
        obtain ⟨t, r', h1, h2⟩ := h
        simp at h2; obtain ⟨rfl, rfl⟩ := h2
        obtain ⟨rfl, h3⟩ := number_of_lexNum h1
        exact ⟨w, t, rfl, hw, .num h3⟩
    · intro x vs r h
      rw [parseElems] at h
      split at h
      · simp at h
      next v r1 hv =>
        obtain ⟨w, t, rfl, hw, ht⟩ := ihv _ _ _ hv
        obtain ⟨w1, hw1, hx1, _⟩ := skip_split r1
        split at h
        next r2 heq =>
          simp only [Option.map_eq_some_iff, Prod.exists] at h
          obtain ⟨vs', r', h1, h2⟩ := h
          simp at h2; obtain ⟨rfl, rfl⟩ := h2
          obtain ⟨u, rfl, h4⟩ := ihe _ _ _ h1
          rw [heq] at hx1
          refine ⟨w ++ (t ++ (w1 ++ ',' :: u)), by rw [hx1]; simp, .cons hw ht hw1 h4⟩
        next r2 heq =>
          simp at h; obtain ⟨rfl, rfl⟩ := h
          rw [heq] at hx1
          refine ⟨w ++ (t ++ (w1 ++ [']'])), by rw [hx1]; simp, .one hw ht hw1⟩
        next => simp at h
    · intro x ms r h
      rw [parseMembers] at h
      obtain ⟨w, hw, hx, _⟩ := skip_split x
      split at h
      next r0 heq0 =>
        rw [heq0] at hx
        split at h
        · simp at h
        next k r1 hk =>
          obtain ⟨l, rfl, hl⟩ := lit_of_lexStr hk
          obtain ⟨w1, hw1, hx1, _⟩ := skip_split r1
          split at h
          next r2 heq1 =>
            rw [heq1] at hx1
            split at h
            · simp at h
            next v r3 hv =>
              obtain ⟨w2, t, rfl, hw2, ht⟩ := ihv _ _ _ hv
              obtain ⟨w3, hw3, hx3, _⟩ := skip_split r3
              split at h
              next r4 heq =>
                simp only [Option.map_eq_some_iff, Prod.exists] at h
                obtain ⟨vs', r', h1, h2⟩ := h
                simp at h2; obtain ⟨rfl, rfl⟩ := h2
                obtain ⟨u, rfl, h4⟩ := ihm _ _ _ h1
                rw [heq] at hx3
                exact ⟨_, by rw [hx, hx1, hx3]; simp, .cons hw hl hw1 hw2 ht hw3 h4⟩
              next r4 heq =>
                simp at h; obtain ⟨rfl, rfl⟩ := h
                rw [heq] at hx3
                exact ⟨_, by rw [hx, hx1, hx3]; simp, .one hw hl hw1 hw2 ht hw3⟩
              next => simp at h
          next => simp at h
      next => simp at h

/-- **The JSON parser accepts exactly the texts of the grammar** -/
theorem parse_iff {s : Str} {j : Json} : parse s = some j ↔ IsText j s := by
  constructor
  · intro h
    unfold parse at h
    split at h
    next j' r hv =>
      split at h
      next hr =>
        simp at h; subst h
        obtain ⟨w, t, rfl, hw, ht⟩ := (grammar_parse _).1 _ _ _ hv
        obtain ⟨w', hw', hx', _⟩ := skip_split r
        rw [hr, List.append_nil] at hx'
        subst hx'
        exact ⟨w, t, _, rfl, hw, ht, hw'⟩
      next => simp at h
    next => simp at h
  · rintro ⟨w, t, w', rfl, hw, ht, hw'⟩
    unfold parse
    have hs : Stop w' := by
      have := stop_space hw' stop_nil
      rwa [List.append_nil] at this
    have h := (parse_grammar (2 * (w ++ (t ++ w')).length + 2)).1 j t w w' ht hw hs (by simp; omega)
    have hsk : skip w' = [] := by
      have := skip_space (s := []) hw' (by simp)
      rwa [List.append_nil] at this
    rw [h]
    simp only [hsk, if_true]

/-- A text has one value. -/
theorem IsText.unique {j j' : Json} {s : Str} (h : IsText j s) (h' : IsText j' s) : j = j' :=
  Option.some.inj ((parse_iff.mpr h).symm.trans (parse_iff.mpr h'))

end Swrs.Json
