import Verif.Props.CutOff
/-!
# C119: a change of one line changes one record
-/
set_option linter.unusedSectionVars false
namespace Swrs
open Sections

/-- Specification: the texts differ in one line, which is `l` in the one and `l'` in the other; neither is blank or looks like a header. -/
def c119_Changed (s s' l l' : Str) : Prop := ∃ pre post, lines s = pre ++ l :: post ∧ lines s' = pre ++ l' :: post ∧
  l ≠ [] ∧ l' ≠ [] ∧ l.head? ≠ some '@' ∧ l'.head? ≠ some '@'

/-- Specification: the lists differ in one entry, which is what `l` says in the one and what `l'` says in the other. -/
def c119_One {α : Type} (read : Str → Option α) (l l' : Str) (as bs : List α) : Prop :=
  ∃ p x y q, as = p ++ x :: q ∧ bs = p ++ y :: q ∧ read l = some x ∧ read l' = some y

/-! ### The lists of files and resources -/

theorem c119_gloop_acc {σ α : Type} {header : Str → Option σ} {read : Str → Option α} (p : List (σ × α)) (x y : σ × α) :
    ∀ (ls : List Str) (sec : Option σ) (q r : List (σ × α)) (n : Nat), gloop header read ls sec (p ++ x :: q) n = .ok r →
      ∃ q', r = p ++ x :: q' ∧ gloop header read ls sec (p ++ y :: q) n = .ok (p ++ y :: q')
  | [], sec, q, r, n, h => ⟨q, (Except.ok.inj h).symm, rfl⟩
  | l :: ls, sec, q, r, n, h => by
    rw [gloop_cons] at h ⊢
    split at h
    · exact c119_gloop_acc p x y ls _ q r _ h
    · split at h
      · exact c119_gloop_acc p x y ls _ q r _ h
      · split at h
        · rename_i hl
          simp only [hl, if_true]
          exact ⟨q, (Except.ok.inj h).symm, rfl⟩
        · rename_i hl
          simp only [hl, if_false]
          split at h
          · cases h
          · rename_i a ha
            rw [List.append_assoc, List.cons_append] at h
            obtain ⟨q', h1, h2⟩ := c119_gloop_acc p x y ls _ _ r _ h
            refine ⟨q', h1, ?_⟩
            rw [List.append_assoc, List.cons_append]
            exact h2

theorem c119_gloop {σ α : Type} {header : Str → Option σ} {read : Str → Option α} {l l' : Str} (hl : l ≠ []) (hl' : l' ≠ [])
    (hh : header l = none) (hh' : header l' = none) (post : List Str) :
    ∀ (pre : List Str) (sec : Option σ) (acc r r' : List (σ × α)) (n : Nat), gloop header read (pre ++ l :: post) sec acc n = .ok r →
      gloop header read (pre ++ l' :: post) sec acc n = .ok r' →
      r = r' ∨ ∃ p k x y q, r = p ++ (k, x) :: q ∧ r' = p ++ (k, y) :: q ∧ read l = some x ∧ read l' = some y
  | [], sec, acc, r, r', n, h, h' => by
    rw [List.nil_append, gloop_cons] at h h'
    rw [hh] at h
    rw [hh'] at h'
    cases sec with
    | none => exact .inl (Except.ok.inj (h.symm.trans h'))
    | some k =>
      simp only [if_neg hl] at h
      simp only [if_neg hl'] at h'
      cases hx : read l with
      | none => rw [hx] at h; cases h
      | some x =>
        cases hy : read l' with
        | none => rw [hy] at h'; cases h'
        | some y =>
          rw [hx] at h
          rw [hy] at h'
          obtain ⟨q, h1, h2⟩ := c119_gloop_acc acc (k, x) (k, y) post _ [] r _ h
          exact .inr ⟨acc, k, x, y, q, h1, Except.ok.inj (h'.symm.trans h2), rfl, rfl⟩
  | c :: pre, sec, acc, r, r', n, h, h' => by
    rw [List.cons_append, gloop_cons] at h h'
    split at h
    · rename_i hc
      rw [hc] at h'
      exact c119_gloop hl hl' hh hh' post pre _ _ r r' _ h h'
    · rename_i hc
      rw [hc] at h'
      split at h
      · exact c119_gloop hl hl' hh hh' post pre _ _ r r' _ h h'
      · split at h
        · rename_i he
          simp only [if_pos he] at h'
          exact .inl (Except.ok.inj (h.symm.trans h'))
        · rename_i he
          simp only [if_neg he] at h'
          split at h
          · cases h
          · rename_i a ha
            rw [ha] at h'
            exact c119_gloop hl hl' hh hh' post pre _ _ r r' _ h h'

theorem c119_only {σ α : Type} [DecidableEq σ] {p q : List (σ × α)} {k : σ} {x y : α} {read : Str → Option α} {l l' : Str} (hx : read l = some x)
    (hy : read l' = some y) : c119_One read l l' (only k (p ++ (k, x) :: q)) (only k (p ++ (k, y) :: q)) ∧
    ∀ k', k' ≠ k → only k' (p ++ (k, x) :: q) = only k' (p ++ (k, y) :: q) := by
  constructor
  · refine ⟨only k p, x, y, only k q, ?_, ?_, hx, hy⟩ <;> simp [only]
  · intro k' hk
    simp [only, Ne.symm hk]

/-- C119: a list of files of which one line is changed, and which is read, differs in one activity or in one custom view, or not at all. -/
theorem c119_file {s s' l l' : Str} (hc : c119_Changed s s' l l') {f f' : File} (h : File.parse s = .ok f) (h' : File.parse s' = .ok f') :
    f' = f ∨ (c119_One FileItem.parse l l' f.activities f'.activities ∧ f'.customViews = f.customViews) ∨
      (f'.activities = f.activities ∧ c119_One FileItem.parse l l' f.customViews f'.customViews) := by
  obtain ⟨pre, post, h1, h2, hl, hl', hh, hh'⟩ := hc
  rw [c116_file_gloop, h1] at h
  rw [c116_file_gloop, h2] at h'
  split at h
  · rename_i r hr
    split at h'
    · rename_i r' hr'
      obtain rfl := Out.ok.inj h
      obtain rfl := Out.ok.inj h'
      rcases c119_gloop hl hl' (c116_fileHeader hh) (c116_fileHeader hh') post pre _ _ r r' _ hr hr' with rfl | ⟨p, k, x, y, q, rfl, rfl, hx, hy⟩
      · exact .inl rfl
      · obtain ⟨a, b⟩ := c119_only (p := p) (q := q) (k := k) hx hy
        cases k with
        | activity => exact .inr (.inl ⟨a, (b _ (by decide)).symm⟩)
        | customView => exact .inr (.inr ⟨(b _ (by decide)).symm, a⟩)
    · cases h'
  · cases h

/-- C119: a list of resources of which one line is changed, and which is read, differs in one image, one sound or one font, or not at all. -/
theorem c119_resource {s s' l l' : Str} (hc : c119_Changed s s' l l') {f f' : Resource} (h : Resource.parse s = .ok f)
    (h' : Resource.parse s' = .ok f') :
    f' = f ∨ (c119_One ResourceItem.parse l l' f.images f'.images ∧ f'.sounds = f.sounds ∧ f'.fonts = f.fonts) ∨
      (c119_One ResourceItem.parse l l' f.sounds f'.sounds ∧ f'.images = f.images ∧ f'.fonts = f.fonts) ∨
      (c119_One ResourceItem.parse l l' f.fonts f'.fonts ∧ f'.images = f.images ∧ f'.sounds = f.sounds) := by
  obtain ⟨pre, post, h1, h2, hl, hl', hh, hh'⟩ := hc
  rw [c116_resource_gloop, h1] at h
  rw [c116_resource_gloop, h2] at h'
  split at h
  · rename_i r hr
    split at h'
    · rename_i r' hr'
      obtain rfl := Out.ok.inj h
      obtain rfl := Out.ok.inj h'
      rcases c119_gloop hl hl' (c116_resourceHeader hh) (c116_resourceHeader hh') post pre _ _ r r' _ hr hr' with
        rfl | ⟨p, k, x, y, q, rfl, rfl, hx, hy⟩
      · exact .inl rfl
      · obtain ⟨a, b⟩ := c119_only (p := p) (q := q) (k := k) hx hy
        cases k with
        | images => exact .inr (.inl ⟨a, (b _ (by decide)).symm, (b _ (by decide)).symm⟩)
        | sounds => exact .inr (.inr (.inl ⟨a, (b _ (by decide)).symm, (b _ (by decide)).symm⟩))
        | fonts => exact .inr (.inr (.inr ⟨a, (b _ (by decide)).symm, (b _ (by decide)).symm⟩))
    · cases h'
  · cases h

/-! ### The libraries -/

namespace Library

/-- The locals are the same but for one header, where they are what `l` and `l'` say. -/
def c119_Near (l l' h : Str) (a a' : Acc) : Prop := (∀ x ∈ headers, x ≠ h → c116_get a x = c116_get a' x) ∧
  (c116_get a h = c116_get a' h ∨ ∃ i j, c116_get a h = some i ∧ c116_get a' h = some j ∧ LibraryItem.parse l = some i ∧ LibraryItem.parse l' = some j)

theorem c119_near_set {l l' h x : Str} {a a' : Acc} (hn : c119_Near l l' h a a') (hh : h ∈ headers) (hx : x ∈ headers) (i : LibraryItem) :
    c119_Near l l' h (a.set x i) (a'.set x i) := by
  constructor
  · intro z hz hzh
    rw [c116_get_set i hz hx, c116_get_set i hz hx, hn.1 z hz hzh]
  · rw [c116_get_set i hh hx, c116_get_set i hh hx]
    by_cases e : h = x
    · rw [if_pos e, if_pos e]; exact .inl rfl
    · rw [if_neg e, if_neg e]; exact hn.2

theorem c119_near_loop {l l' h : Str} (hh : h ∈ headers) : ∀ (ls : List Str) (a a' b b' : Acc) (n : Nat), c119_Near l l' h a a' → loop ls a n = .ok b →
    loop ls a' n = .ok b' → c119_Near l l' h b b'
  | [], a, a', b, b', n, hn, h1, h2 => by
    rw [loop, Out.ok.injEq] at h1 h2
    rw [← h1, ← h2]; exact hn
  | [x], a, a', b, b', n, hn, h1, h2 => by
    rw [loop.eq_def] at h1 h2
    simp only at h1 h2
    split at h1
    · cases h1
    · rename_i hx
      rw [if_neg hx, loop, Out.ok.injEq] at h2
      rw [loop, Out.ok.injEq] at h1
      rw [← h1, ← h2]; exact hn
  | x :: y :: ls, a, a', b, b', n, hn, h1, h2 => by
    rw [loop.eq_def] at h1 h2
    simp only at h1 h2
    split at h1
    · rename_i hx
      rw [if_pos hx] at h2
      split at h1
      · cases h1
      · rename_i i hi
        rw [hi] at h2
        exact c119_near_loop hh ls _ _ b b' _ (c119_near_set hn hh (c116_isHeader.mp hx) i) h1 h2
    · rename_i hx
      rw [if_neg hx] at h2
      exact c119_near_loop hh (y :: ls) _ _ b b' _ hn h1 h2

theorem c119_loop {l l' : Str} (hl : isHeader l = false) (hl' : isHeader l' = false) (post : List Str) : ∀ (pre : List Str) (a b b' : Acc) (n : Nat),
    loop (pre ++ l :: post) a n = .ok b → loop (pre ++ l' :: post) a n = .ok b' → ∃ h, h ∈ headers ∧ c119_Near l l' h b b'
  | [], a, b, b', n, h1, h2 => by
    rw [List.nil_append, loop.eq_def] at h1 h2
    simp only [hl, hl', Bool.false_eq_true, if_false] at h1 h2
    rw [h1] at h2
    exact ⟨s% "@compat", by decide, by rw [Out.ok.inj h2]; exact ⟨fun _ _ _ => rfl, .inl rfl⟩⟩
  | [x], a, b, b', n, h1, h2 => by
    rw [List.singleton_append, loop.eq_def] at h1 h2
    simp only at h1 h2
    split at h1
    · rename_i hx
      rw [if_pos hx] at h2
      split at h1
      · cases h1
      · rename_i i hi
        split at h2
        · cases h2
        · rename_i j hj
          have hx' := c116_isHeader.mp hx
          refine ⟨x, hx', c119_near_loop hx' post _ _ b b' _ ⟨?_, .inr ⟨i, j, ?_, ?_, hi, hj⟩⟩ h1 h2⟩
          · intro z hz hzx
            rw [c116_get_set _ hz hx', c116_get_set _ hz hx', if_neg hzx, if_neg hzx]
          · rw [c116_get_set _ hx' hx', if_pos rfl]
          · rw [c116_get_set _ hx' hx', if_pos rfl]
    · rename_i hx
      rw [if_neg hx] at h2
      exact c119_loop hl hl' post [] a b b' _ h1 h2
  | x :: y :: pre, a, b, b', n, h1, h2 => by
    rw [List.cons_append, List.cons_append, loop.eq_def] at h1 h2
    simp only at h1 h2
    split at h1
    · rename_i hx
      rw [if_pos hx] at h2
      split at h1
      · cases h1
      · rename_i i hi
        rw [hi] at h2
        exact c119_loop hl hl' post pre _ b b' _ h1 h2
    · rename_i hx
      rw [if_neg hx] at h2
      exact c119_loop hl hl' post (y :: pre) a b b' _ h1 h2

end Library

/-- C119: a library file of which one line is changed, and which is read, differs in one library, or not at all. -/
theorem c119_library {s s' l l' : Str} (hc : c119_Changed s s' l l') {b b' : Library} (h : Library.parse s = .ok b) (h' : Library.parse s' = .ok b') :
    b' = b ∨ ∃ i j, LibraryItem.parse l = some i ∧ LibraryItem.parse l' = some j ∧
      ((b.firebaseDb = i ∧ b' = { b with firebaseDb := j }) ∨ (b.compat = i ∧ b' = { b with compat := j }) ∨
        (b.admob = i ∧ b' = { b with admob := j }) ∨ (b.googleMap = i ∧ b' = { b with googleMap := j })) := by
  obtain ⟨pre, post, h1, h2, -, -, hh, hh'⟩ := hc
  obtain ⟨a, ha, e⟩ := Library.c116_parse h
  obtain ⟨a', ha', e'⟩ := Library.c116_parse h'
  have key : ∀ {l : Str}, l.head? ≠ some '@' → Library.isHeader l = false := by
    intro l hl
    rw [Bool.eq_false_iff, ne_eq, Library.c116_isHeader]
    intro hm
    simp only [Library.headers, List.mem_cons, List.not_mem_nil, or_false] at hm
    rcases hm with rfl | rfl | rfl | rfl <;> exact hl rfl
  rw [h1] at ha
  rw [h2] at ha'
  obtain ⟨x, hx, hn, hd⟩ := Library.c119_loop (key hh) (key hh') post pre _ _ _ _ ha ha'
  clear ha ha' h1 h2 h h'
  subst e e'
  obtain ⟨b1, b2, b3, b4⟩ := b
  obtain ⟨d1, d2, d3, d4⟩ := b'
  have n1 : _ → some b1 = some d1 := hn (s% "@firebaseDB") (by decide)
  have n2 : _ → some b2 = some d2 := hn (s% "@compat") (by decide)
  have n3 : _ → some b3 = some d3 := hn (s% "@admob") (by decide)
  have n4 : _ → some b4 = some d4 := hn (s% "@googleMap") (by decide)
  simp only [Library.headers, List.mem_cons, List.not_mem_nil, or_false] at hx
  rcases hx with rfl | rfl | rfl | rfl
  · obtain rfl := Option.some.inj (n2 (by decide))
    obtain rfl := Option.some.inj (n3 (by decide))
    obtain rfl := Option.some.inj (n4 (by decide))
    rcases hd with hd | ⟨i, j, e1, e2, hi, hj⟩
    · obtain rfl : b1 = d1 := Option.some.inj hd
      exact .inl rfl
    · obtain rfl : b1 = i := Option.some.inj e1
      obtain rfl : d1 = j := Option.some.inj e2
      exact .inr ⟨_, _, hi, hj, .inl ⟨rfl, rfl⟩⟩
  · obtain rfl := Option.some.inj (n1 (by decide))
    obtain rfl := Option.some.inj (n3 (by decide))
    obtain rfl := Option.some.inj (n4 (by decide))
    rcases hd with hd | ⟨i, j, e1, e2, hi, hj⟩
    · obtain rfl : b2 = d2 := Option.some.inj hd
      exact .inl rfl
    · obtain rfl : b2 = i := Option.some.inj e1
      obtain rfl : d2 = j := Option.some.inj e2
      exact .inr ⟨_, _, hi, hj, .inr (.inl ⟨rfl, rfl⟩)⟩
  · obtain rfl := Option.some.inj (n1 (by decide))
    obtain rfl := Option.some.inj (n2 (by decide))
    obtain rfl := Option.some.inj (n4 (by decide))
    rcases hd with hd | ⟨i, j, e1, e2, hi, hj⟩
    · obtain rfl : b3 = d3 := Option.some.inj hd
      exact .inl rfl
    · obtain rfl : b3 = i := Option.some.inj e1
      obtain rfl : d3 = j := Option.some.inj e2
      exact .inr ⟨_, _, hi, hj, .inr (.inr (.inl ⟨rfl, rfl⟩))⟩
  · obtain rfl := Option.some.inj (n1 (by decide))
    obtain rfl := Option.some.inj (n2 (by decide))
    obtain rfl := Option.some.inj (n3 (by decide))
    rcases hd with hd | ⟨i, j, e1, e2, hi, hj⟩
    · obtain rfl : b4 = d4 := Option.some.inj hd
      exact .inl rfl
    · obtain rfl : b4 = i := Option.some.inj e1
      obtain rfl : d4 = j := Option.some.inj e2
      exact .inr ⟨_, _, hi, hj, .inr (.inr (.inr ⟨rfl, rfl⟩))⟩

/-! ### View files -/

namespace View
variable [Floats] [MapPol]

theorem c119_parseLoop_acc (p : List AndroidView) (x y : AndroidView) : ∀ (ls : List Str) (q : List AndroidView) (n : Nat) (r : Layout × List Str),
    Layout.parseLoop ls (p ++ x :: q) n = .ok r →
      ∃ q', r.1 = ⟨p ++ x :: q'⟩ ∧ Layout.parseLoop ls (p ++ y :: q) n = .ok (⟨p ++ y :: q'⟩, r.2)
  | [], q, n, r, h => by
    rw [Layout.parseLoop, Out.ok.injEq] at h
    rw [← h]
    exact ⟨q, rfl, rfl⟩
  | l :: ls, q, n, r, h => by
    rw [Layout.parseLoop] at h ⊢
    split at h
    · rename_i hl
      rw [if_pos hl]
      rw [Out.ok.injEq] at h
      rw [← h]
      exact ⟨q, rfl, rfl⟩
    · rename_i hl
      rw [if_neg hl]
      split at h
      · rw [List.append_assoc, List.cons_append] at h
        obtain ⟨q', h1, h2⟩ := c119_parseLoop_acc p x y ls _ _ r h
        refine ⟨q', h1, ?_⟩
        rw [List.append_assoc, List.cons_append]
        exact h2
      · cases h

theorem c119_parseLoop {l l' : Str} (hl : l ≠ []) (hl' : l' ≠ []) (post : List Str) : ∀ (pre : List Str) (acc : List AndroidView) (n : Nat)
    (r r' : Layout × List Str), Layout.parseLoop (pre ++ l :: post) acc n = .ok r → Layout.parseLoop (pre ++ l' :: post) acc n = .ok r' →
      (r.1 = r'.1 ∧ ∃ a, r.2 = a ++ l :: post ∧ r'.2 = a ++ l' :: post) ∨
      (r.2 = r'.2 ∧ c119_One AndroidView.parse l l' r.1.views r'.1.views)
  | [], acc, n, r, r', h, h' => by
    rw [List.nil_append, Layout.parseLoop] at h h'
    rw [if_neg hl] at h
    rw [if_neg hl'] at h'
    split at h
    · rename_i x hx
      split at h'
      · rename_i y hy
        obtain ⟨q, h1, h2⟩ := c119_parseLoop_acc acc x y post [] _ r h
        have := Out.ok.inj (h'.symm.trans h2)
        rw [this]
        refine .inr ⟨rfl, acc, x, y, q, ?_, rfl, hx, hy⟩
        rw [h1]
      · cases h'
    · cases h
  | c :: pre, acc, n, r, r', h, h' => by
    rw [List.cons_append, Layout.parseLoop] at h h'
    split at h
    · rename_i hc
      rw [if_pos hc] at h'
      rw [Out.ok.injEq] at h h'
      rw [← h, ← h']
      exact .inl ⟨rfl, pre, rfl, rfl⟩
    · rename_i hc
      rw [if_neg hc] at h'
      split at h
      · rename_i v hv
        rw [hv] at h'
        exact c119_parseLoop hl hl' post pre _ _ r r' h h'
      · cases h

/-- Specification: the views are the same but for one entry of one layout, or but for one floating button. -/
def c119_Views (l l' : Str) (v w : View) : Prop :=
  (∃ name, (∀ n, v.layouts.get n = w.layouts.get n ∨ (n = name ∧ ∃ a b, v.layouts.get n = some ⟨a⟩ ∧ w.layouts.get n = some ⟨b⟩ ∧
      c119_One AndroidView.parse l l' a b)) ∧ ∀ n, v.fabs.get n = w.fabs.get n) ∨
  (∃ name, (∀ n, v.layouts.get n = w.layouts.get n) ∧ ∀ n, v.fabs.get n = w.fabs.get n ∨ (n = name ∧ ∃ x y, v.fabs.get n = some x ∧
      w.fabs.get n = some y ∧ AndroidView.parse l = some x ∧ AndroidView.parse l' = some y))

theorem c119_refl (l l' : Str) (v : View) : c119_Views l l' v v := .inl ⟨[], fun _ => .inl rfl, fun _ => rfl⟩

theorem c119_layout {l l' : Str} {v w : View} (h : c119_Views l l' v w) (k : Str) (x : Layout) :
    c119_Views l l' ⟨v.layouts.insert k x, v.fabs⟩ ⟨w.layouts.insert k x, w.fabs⟩ := by
  rcases h with ⟨name, h1, h2⟩ | ⟨name, h1, h2⟩
  · refine .inl ⟨name, fun n => ?_, h2⟩
    simp only [LMap.get_insert]
    by_cases hn : n = k
    · exact .inl (by rw [if_pos hn, if_pos hn])
    · rw [if_neg hn, if_neg hn]; exact h1 n
  · refine .inr ⟨name, fun n => ?_, h2⟩
    simp only [LMap.get_insert, h1]

theorem c119_fab {l l' : Str} {v w : View} (h : c119_Views l l' v w) (k : Str) (x : AndroidView) :
    c119_Views l l' ⟨v.layouts, v.fabs.insert k x⟩ ⟨w.layouts, w.fabs.insert k x⟩ := by
  rcases h with ⟨name, h1, h2⟩ | ⟨name, h1, h2⟩
  · refine .inl ⟨name, h1, fun n => ?_⟩
    simp only [LMap.get_insert, h2]
  · refine .inr ⟨name, h1, fun n => ?_⟩
    simp only [LMap.get_insert]
    by_cases hn : n = k
    · exact .inl (by rw [if_pos hn, if_pos hn])
    · rw [if_neg hn, if_neg hn]; exact h2 n

theorem c119_same {l l' : Str} (total : Nat) : ∀ (fuel : Nat) (ls : List Str) (n : Nat) (v w : View) (r r' : View), c119_Views l l' v w →
    loop total fuel ls n v.layouts v.fabs = .ok r → loop total fuel ls n w.layouts w.fabs = .ok r' → c119_Views l l' r r' := by
  intro fuel
  induction fuel with
  | zero =>
    intro ls n v w r r' hv h h'
    rw [loop, Out.ok.injEq] at h h'
    rw [← h, ← h']; exact hv
  | succ fuel ih =>
    intro ls n v w r r' hv h h'
    cases ls with
    | nil =>
      rw [loop, Out.ok.injEq] at h h'
      rw [← h, ← h']; exact hv
    | cons line rest =>
      rw [loop] at h h'
      split at h
      · rename_i hat
        rw [if_pos hat] at h'
        split at h
        · cases h
        · rename_i screen container hs
          rw [hs] at h'
          simp only at h'
          split at h
          · rename_i hx
            rw [if_pos hx] at h'
            split at h
            · rename_i ly rest' hp
              rw [hp] at h'
              exact ih rest' _ _ _ r r' (c119_layout hv screen ly) h h'
            · cases h
            · cases h
          · rename_i hx
            rw [if_neg hx] at h'
            split at h
            · rename_i hf
              rw [if_pos hf] at h'
              cases rest with
              | nil => cases h
              | cons x rest' =>
                simp only at h h'
                split at h
                · rename_i a ha
                  rw [ha] at h'
                  exact ih rest' _ _ _ r r' (c119_fab hv screen a) h h'
                · cases h
            · rename_i hf
              rw [if_neg hf] at h'
              exact ih rest _ _ _ r r' hv h h'
      · rename_i hat
        rw [if_neg hat, Out.ok.injEq] at h'
        rw [Out.ok.injEq] at h
        rw [← h, ← h']; exact hv

theorem c119_loop {l l' : Str} (hl : l ≠ []) (hl' : l' ≠ []) (hh : l.head? ≠ some '@') (hh' : l'.head? ≠ some '@') (post : List Str) (total : Nat) :
    ∀ (fuel : Nat) (pre : List Str) (n : Nat) (v r r' : View),
      loop total fuel (pre ++ l :: post) n v.layouts v.fabs = .ok r → loop total fuel (pre ++ l' :: post) n v.layouts v.fabs = .ok r' →
      c119_Views l l' r r' := by
  have no : ∀ {x : Str}, x.head? ≠ some '@' → ¬ startsWith ['@'] x = true := by
    intro x hx
    cases x with
    | nil => decide
    | cons c x => rw [startsWith_single]; exact hx
  intro fuel
  induction fuel with
  | zero =>
    intro pre n v r r' h h'
    rw [loop, Out.ok.injEq] at h h'
    rw [← h, ← h']; exact c119_refl _ _ _
  | succ fuel ih =>
    intro pre n v r r' h h'
    cases pre with
    | nil =>
      rw [List.nil_append, loop] at h h'
      rw [if_neg (no hh), Out.ok.injEq] at h
      rw [if_neg (no hh'), Out.ok.injEq] at h'
      rw [← h, ← h']; exact c119_refl _ _ _
    | cons line rest =>
      rw [List.cons_append, loop] at h h'
      split at h
      · rename_i hat
        rw [if_pos hat] at h'
        split at h
        · cases h
        · rename_i screen container hs
          rw [hs] at h'
          simp only at h'
          split at h
          · rename_i hx
            rw [if_pos hx] at h'
            split at h
            · rename_i ly r1 hp
              split at h'
              · rename_i ly' r1' hp'
                rcases c119_parseLoop hl hl' post rest _ _ _ _ hp hp' with ⟨h1, a, h2, h3⟩ | ⟨h1, h2⟩
                · simp only at h1 h2 h3
                  subst h1 h2 h3
                  rw [List.length_append, List.length_cons] at h h'
                  exact ih a _ ⟨v.layouts.insert screen ly, v.fabs⟩ r r' h h'
                · simp only at h1 h2
                  subst h1
                  refine c119_same total fuel r1 _ ⟨v.layouts.insert screen ly, v.fabs⟩ ⟨v.layouts.insert screen ly', v.fabs⟩ r r' ?_ h h'
                  refine .inl ⟨screen, fun n => ?_, fun _ => rfl⟩
                  simp only [LMap.get_insert]
                  by_cases hn : n = screen
                  · exact .inr ⟨hn, ly.views, ly'.views, by rw [if_pos hn], by rw [if_pos hn], h2⟩
                  · exact .inl (by rw [if_neg hn, if_neg hn])
              · cases h'
              · cases h'
            · cases h
            · cases h
          · rename_i hx
            rw [if_neg hx] at h'
            split at h
            · rename_i hf
              rw [if_pos hf] at h'
              cases rest with
              | nil =>
                simp only [List.nil_append] at h h'
                split at h
                · rename_i a ha
                  split at h'
                  · rename_i b hb
                    refine c119_same total fuel post _ ⟨v.layouts, v.fabs.insert screen a⟩ ⟨v.layouts, v.fabs.insert screen b⟩ r r' ?_ h h'
                    refine .inr ⟨screen, fun _ => rfl, fun n => ?_⟩
                    simp only [LMap.get_insert]
                    by_cases hn : n = screen
                    · exact .inr ⟨hn, a, b, by rw [if_pos hn], by rw [if_pos hn], ha, hb⟩
                    · exact .inl (by rw [if_neg hn, if_neg hn])
                  · cases h'
                · cases h
              | cons x rest' =>
                simp only [List.cons_append] at h h'
                split at h
                · rename_i a ha
                  rw [ha] at h'
                  exact ih rest' _ ⟨v.layouts, v.fabs.insert screen a⟩ r r' h h'
                · cases h
            · rename_i hf
              rw [if_neg hf] at h'
              exact ih rest _ v r r' h h'
      · rename_i hat
        rw [if_neg hat, Out.ok.injEq] at h'
        rw [Out.ok.injEq] at h
        rw [← h, ← h']; exact c119_refl _ _ _

/-- C119: a view file of which one line is changed, and which is read, differs in one view of one layout, or in one floating button, or not at all. -/
theorem c119_view {s s' l l' : Str} (hc : c119_Changed s s' l l') {v w : View} (h : View.parse s = .ok v) (h' : View.parse s' = .ok w) :
    c119_Views l l' v w := by
  obtain ⟨pre, post, h1, h2, hl, hl', hh, hh'⟩ := hc
  unfold View.parse at h h'
  rw [h1] at h
  rw [h2] at h'
  have hlen : (pre ++ l' :: post).length = (pre ++ l :: post).length := by simp
  rw [hlen] at h'
  exact c119_loop hl hl' hh hh' post _ _ pre _ ⟨[], []⟩ v w h h'

end View

/-! ### Logic files -/

namespace Logic
variable [Floats] [MapPol]

/-- Specification: two parts of a screen that differ in one record. -/
def c119_Slots (l l' : Str) : c115_Slot → c115_Slot → Prop
  | .vars p, .vars q => ∃ x y, Variable.parse l = .ok x ∧ Variable.parse l' = .ok y ∧ ∀ n, n ≠ x.name → n ≠ y.name → p.map.get n = q.map.get n
  | .lists p, .lists q => ∃ x y, ListVariable.parse l = .ok x ∧ ListVariable.parse l' = .ok y ∧ ∀ n, n ≠ x.name → n ≠ y.name → p.map.get n = q.map.get n
  | .mbs p, .mbs q => ∃ x y, MoreBlock.parse l = .ok x ∧ MoreBlock.parse l' = .ok y ∧ ∀ n, n ≠ x.id → n ≠ y.id → p.map.get n = q.map.get n
  | .comps p, .comps q => c119_One Component.parse l l' p.items q.items
  | .events p, .events q => c119_One Event.parse l l' p.items q.items
  | .code p, .code q => c119_One Block.parse l l' p.blocks q.blocks
  | _, _ => False

/-- Specification: two logics that are the same but for one record of one part of one screen. -/
def c119_Logics (l l' : Str) (r r' : Logic) : Prop := ∃ name kind, ∀ n, match r.screens.get n, r'.screens.get n with
  | none, none => True
  | some a, some b => a.name = b.name ∧ ∀ k, c115_at a k = c115_at b k ∨
      (n = name ∧ k = kind ∧ ∃ v w, c115_at a k = some v ∧ c115_at b k = some w ∧ c119_Slots l l' v w)
  | _, _ => False

theorem c119_reads_mid {α : Type} {p : Str → Option α} {l : Str} {q : List Str} : ∀ {b : List Str} {vs : List α}, ReadsAll p (b ++ l :: q) vs →
    ∃ u x w, vs = u ++ x :: w ∧ ReadsAll p b u ∧ p l = some x ∧ ReadsAll p q w
  | [], vs, h => by
    cases h with
    | cons hne h t => exact ⟨[], _, _, rfl, .nil, h, t⟩
  | c :: b, vs, h => by
    cases h with
    | cons hne h t =>
      obtain ⟨u, x, w, rfl, h1, h2, h3⟩ := c119_reads_mid t
      exact ⟨_ :: u, x, w, rfl, .cons hne h h1, h2, h3⟩

theorem c119_reads_unique {α : Type} {p : Str → Option α} : ∀ {ls : List Str} {as bs : List α}, ReadsAll p ls as → ReadsAll p ls bs → as = bs
  | [], as, bs, h, h' => by cases h; cases h'; rfl
  | l :: ls, as, bs, h, h' => by
    cases h with
    | cons _ h t =>
      cases h' with
      | cons _ h' t' => rw [Option.some.inj (h.symm.trans h'), c119_reads_unique t t']

theorem c119_reads {α : Type} {p : Str → Option α} {l l' : Str} {b q : List Str} {vs ws : List α} (h : ReadsAll p (b ++ l :: q) vs)
    (h' : ReadsAll p (b ++ l' :: q) ws) : c119_One p l l' vs ws := by
  obtain ⟨u, x, w, rfl, h1, h2, h3⟩ := c119_reads_mid h
  obtain ⟨u', x', w', rfl, h1', h2', h3'⟩ := c119_reads_mid h'
  rw [c119_reads_unique h1 h1', c119_reads_unique h3 h3']
  exact ⟨u', x, x', w', rfl, rfl, h2, h2'⟩

theorem c119_line {α : Type} {f : Str → Option α} {l l' : Str} {vs ws : List α} (h : c119_One (fun l => (lineParser f l).toOption) l l' vs ws) :
    c119_One f l l' vs ws := by
  obtain ⟨p, x, y, q, h1, h2, h3, h4⟩ := h
  have key : ∀ {l : Str} {x : α}, (lineParser f l).toOption = some x → f l = some x := by
    intro l x h
    unfold lineParser at h
    cases hf : f l with
    | none => rw [hf] at h; cases h
    | some y => rw [hf] at h; exact h
  exact ⟨p, x, y, q, h1, h2, key h3, key h4⟩

theorem c119_map {ε α : Type} {f : Str → Out ε α} (name : α → Str) {l l' : Str} {vs ws : List α} (h : c119_One (fun l => (f l).toOption) l l' vs ws) :
    ∃ x y, f l = .ok x ∧ f l' = .ok y ∧ ∀ n, n ≠ name x → n ≠ name y →
      (LMap.collect (vs.map fun v => (name v, v))).get n = (LMap.collect (ws.map fun v => (name v, v))).get n := by
  obtain ⟨p, x, y, q, rfl, rfl, h3, h4⟩ := h
  refine ⟨x, y, toOption_eq_some.mp h3, toOption_eq_some.mp h4, fun n hx hy => ?_⟩
  rw [LMap.get_collect, LMap.get_collect]
  unfold LMap.last
  simp only [List.map_append, List.map_cons, List.reverse_append, List.reverse_cons, List.append_assoc, List.singleton_append]
  generalize ((q.map fun v => (name v, v)).reverse) = a
  induction a with
  | nil => simp [LMap.get, Ne.symm hx, Ne.symm hy]
  | cons e a ih =>
    obtain ⟨k, e⟩ := e
    simp only [List.cons_append, LMap.get]
    rw [ih]

theorem c119_slots {l l' : Str} {b q : List Str} {k : c115_Kind} {v w : c115_Slot} (h : c115_Reads (b ++ l :: q) k v)
    (h' : c115_Reads (b ++ l' :: q) k w) : c119_Slots l l' v w := by
  cases k with
  | code c =>
    obtain ⟨x, h1, rfl⟩ := h
    obtain ⟨y, h2, rfl⟩ := h'
    exact c119_line (c119_reads h1 h2)
  | pool suf =>
    simp only [c115_Reads] at h h'
    split at h
    · rw [if_pos ‹_›] at h'
      obtain ⟨x, h1, rfl⟩ := h
      obtain ⟨y, h2, rfl⟩ := h'
      exact c119_map (·.name) (c119_reads h1 h2)
    rw [if_neg ‹_›] at h'
    split at h
    · rw [if_pos ‹_›] at h'
      obtain ⟨x, h1, rfl⟩ := h
      obtain ⟨y, h2, rfl⟩ := h'
      exact c119_map (·.name) (c119_reads h1 h2)
    rw [if_neg ‹_›] at h'
    split at h
    · rw [if_pos ‹_›] at h'
      obtain ⟨x, h1, rfl⟩ := h
      obtain ⟨y, h2, rfl⟩ := h'
      exact c119_line (c119_reads h1 h2)
    rw [if_neg ‹_›] at h'
    split at h
    · rw [if_pos ‹_›] at h'
      obtain ⟨x, h1, rfl⟩ := h
      obtain ⟨y, h2, rfl⟩ := h'
      exact c119_line (c119_reads h1 h2)
    rw [if_neg ‹_›] at h'
    split at h
    · rw [if_pos ‹_›] at h'
      obtain ⟨x, h1, rfl⟩ := h
      obtain ⟨y, h2, rfl⟩ := h'
      exact c119_map (·.id) (c119_reads h1 h2)
    · exact h.elim

theorem c119_sections {l l' : Str} (hl : l ≠ []) (hl' : l' ≠ []) (hh : l.head? ≠ some '@') (hh' : l'.head? ≠ some '@') (pre post : List Str) :
    sections (pre ++ l :: post) = sections (pre ++ l' :: post) ∨
    ∃ A hd b q B, sections (pre ++ l :: post) = A ++ (hd :: (b ++ l :: q)) :: B ∧ sections (pre ++ l' :: post) = A ++ (hd :: (b ++ l' :: q)) :: B := by
  have first : ∃ q P', ∀ x : Str, x ≠ [] → (x :: post).splitOn ([] : Str) = (x :: q) :: P' := by
    rcases splitOn_blank post with ⟨body, rest, rfl, hb⟩ | hn
    · refine ⟨body, rest.splitOn [], fun x hx => ?_⟩
      rw [← List.cons_append, List.splitOn_append_cons_self, List.splitOn_eq_singleton (by simp [hb, Ne.symm hx])]; rfl
    · exact ⟨post, [], fun x hx => List.splitOn_eq_singleton (by simp [hn, Ne.symm hx])⟩
  obtain ⟨q, P', hq⟩ := first
  obtain ⟨P, p, q1, P1, h1, h2, h3⟩ := c116_paragraphs pre (l :: post)
  obtain ⟨R, r, q2, P2, g1, g2, g3⟩ := c116_paragraphs pre (l' :: post)
  obtain ⟨rfl, e⟩ := List.append_inj' (h1.symm.trans g1) rfl
  obtain ⟨rfl, -⟩ := List.cons.inj e
  rw [hq l hl] at h2
  rw [hq l' hl'] at g2
  obtain ⟨rfl, rfl⟩ := List.cons.inj h2
  obtain ⟨rfl, rfl⟩ := List.cons.inj g2
  unfold sections
  rw [h3, g3]
  by_cases hP : ∀ x ∈ P, isSection x = true
  · rw [List.takeWhile_append_of_pos hP, List.takeWhile_append_of_pos hP]
    have no : ∀ {x : Str}, x.head? ≠ some '@' → isSection (x :: q) = false := by
      intro x hx
      show startsWith ['@'] x = false
      cases x with
      | nil => rfl
      | cons c x => rw [Bool.eq_false_iff, ne_eq, startsWith_single]; exact hx
    cases p with
    | nil =>
      rw [List.nil_append, List.nil_append, List.takeWhile_cons, List.takeWhile_cons, no hh, no hh']
      exact .inl rfl
    | cons hd b =>
      rw [List.takeWhile_cons, List.takeWhile_cons, List.cons_append, List.cons_append, show isSection (hd :: (b ++ l :: q)) = startsWith ['@'] hd from rfl,
        show isSection (hd :: (b ++ l' :: q)) = startsWith ['@'] hd from rfl]
      by_cases hs : startsWith ['@'] hd = true
      · rw [if_pos hs, if_pos hs]
        exact .inr ⟨P, hd, b, q, _, rfl, rfl⟩
      · rw [if_neg hs, if_neg hs]
        exact .inl rfl
  · left
    clear h1 h3 g1 g3
    induction P with
    | nil => exact absurd (by simp) hP
    | cons x P ih =>
      rw [List.cons_append, List.cons_append, List.takeWhile_cons, List.takeWhile_cons]
      by_cases hx : isSection x = true
      · rw [if_pos hx, if_pos hx, ih fun h => hP fun y hy => by
          rcases List.mem_cons.mp hy with rfl | hy
          · exact hx
          · exact h y hy]
      · rw [if_neg hx, if_neg hx]

theorem c119_last {A B : List (List Str)} {hd n : Str} {k : c115_Kind} {x body : List Str} (y : List Str) (h : c115_Last (A ++ (hd :: x) :: B) n k body) :
    c115_Last (A ++ (hd :: y) :: B) n k body ∨ (c115_Header hd n k ∧ body = x ∧ c115_Last (A ++ (hd :: y) :: B) n k y) := by
  obtain ⟨pre, hd', post, e, h1, h2⟩ := h
  rcases List.append_eq_append_iff.mp e with ⟨a, rfl, ha⟩ | ⟨a, rfl, ha⟩
  · cases a with
    | nil =>
      obtain ⟨e1, rfl⟩ := List.cons.inj ha
      obtain ⟨rfl, rfl⟩ := List.cons.inj e1
      exact .inr ⟨h1, rfl, A, hd, B, rfl, h1, h2⟩
    | cons c a =>
      obtain ⟨rfl, rfl⟩ := List.cons.inj ha
      exact .inl ⟨A ++ (hd :: y) :: a, hd', post, by simp, h1, h2⟩
  · cases a with
    | nil =>
      obtain ⟨e1, rfl⟩ := List.cons.inj ha
      obtain ⟨rfl, rfl⟩ := List.cons.inj e1
      exact .inr ⟨h1, rfl, pre, hd', post, by simp, h1, h2⟩
    | cons c a =>
      obtain ⟨rfl, rfl⟩ := List.cons.inj ha
      refine .inl ⟨pre, hd', a ++ (hd :: y) :: B, by simp, h1, fun hd' body' hm => ?_⟩
      rcases List.mem_append.mp hm with hm | hm
      · exact h2 hd' body' (by simp [hm])
      · rcases List.mem_cons.mp hm with hm | hm
        · obtain ⟨rfl, rfl⟩ := List.cons.inj hm
          exact h2 hd' x (by simp)
        · exact h2 hd' body' (by simp [hm])

/-- C119: a logic file of which one line is changed, and which is read, differs in one record of one part of one screen, or not at all. -/
theorem c119_logic {s s' l l' : Str} (hc : c119_Changed s s' l l') {r r' : Logic} (h : Logic.parse s = .ok r) (h' : Logic.parse s' = .ok r') :
    c119_Logics l l' r r' := by
  obtain ⟨pre, post, h1, h2, hl, hl', hh, hh'⟩ := hc
  rcases c119_sections hl hl' hh hh' pre post with e | ⟨A, hd, b, q, B, e1, e2⟩
  · have e0 : sections (lines s) = sections (lines s') := by rw [h1, h2, e]
    have := c115_logic_last h h' fun n k body => by rw [e0]
    refine ⟨[], .code [], fun n => ?_⟩
    have := this n
    split
    · trivial
    · rename_i a b ha hb
      rw [ha, hb] at this
      refine ⟨this.name, fun k => .inl ?_⟩
      obtain ⟨t1, t2, t3, t4, t5, t6, t7⟩ := this
      cases k <;> simp only [c115_at, t2, t3, t4, t5, t6, t7]
    · rename_i hx hy
      split at this
      · rename_i hu hv; exact hx hu hv
      · rename_i a b hu hv; exact hy a b hu hv
      · exact this
  · obtain ⟨es, he, _⟩ := (c69_ok s r).mp h
    obtain ⟨es', he', _⟩ := (c69_ok s' r').mp h'
    have head : ∃ n k, c115_Header hd n k := by
      have hm : hd :: (b ++ l :: q) ∈ sections (lines s) := by rw [h1, e1]; simp
      obtain ⟨e, _, hd', body, e3, hsec⟩ := he.left _ hm
      obtain ⟨rfl, rfl⟩ := List.cons.inj e3
      obtain ⟨k, _, hk, _⟩ := c115_sec hsec
      exact ⟨_, k, hk⟩
    obtain ⟨n₀, k₀, hk₀⟩ := head
    refine ⟨n₀, k₀, fun n => ?_⟩
    have e1' := e1
    have e2' := e2
    rw [← h1] at e1'
    rw [← h2] at e2'
    rw [c69_screen he h n, c69_screen he' h' n]
    have fwd : ∀ {n k body}, c115_Last (sections (lines s)) n k body → ∃ body', c115_Last (sections (lines s')) n k body' := by
      intro n k body hb
      rw [e1'] at hb
      rw [e2']
      rcases c119_last (b ++ l' :: q) hb with hb | ⟨_, _, hb⟩
      · exact ⟨_, hb⟩
      · exact ⟨_, hb⟩
    have bwd : ∀ {n k body}, c115_Last (sections (lines s')) n k body → ∃ body', c115_Last (sections (lines s)) n k body' := by
      intro n k body hb
      rw [e2'] at hb
      rw [e1']
      rcases c119_last (b ++ l :: q) hb with hb | ⟨_, _, hb⟩
      · exact ⟨_, hb⟩
      · exact ⟨_, hb⟩
    have hmem : n ∈ es.map (·.1) ↔ n ∈ es'.map (·.1) := by
      rw [c115_named he, c115_named he']
      constructor
      · rintro ⟨k, body, hb⟩; exact ⟨k, fwd hb⟩
      · rintro ⟨k, body, hb⟩; exact ⟨k, bwd hb⟩
    by_cases hn : n ∈ es.map (·.1)
    · rw [if_pos hn, if_pos (hmem.mp hn)]
      obtain ⟨a1, a2⟩ := c115_parts he n (ScreenLogic.newEmpty n)
      obtain ⟨b1, b2⟩ := c115_parts he' n (ScreenLogic.newEmpty n)
      refine ⟨a1.trans b1.symm, fun k => ?_⟩
      have none_of : ∀ {ps : List (List Str)} {body : List Str}, (∀ hd body, hd :: body ∈ ps → ¬ c115_Header hd n k) →
          c115_Last ps n k body → False := by
        rintro ps body hno ⟨pre, hd, post, rfl, hh, _⟩
        exact hno hd body (by simp) hh
      rcases a2 k with ⟨body, v, l1, l2, l3⟩ | ⟨l1, l2⟩ <;> rcases b2 k with ⟨body', v', m1, m2, m3⟩ | ⟨m1, m2⟩
      · have l1' := l1
        rw [e1'] at l1'
        rcases c119_last (b ++ l' :: q) l1' with hb | ⟨hk, hb, hb'⟩
        · rw [← e2'] at hb
          have := c115_last_unique hb m1
          subst this
          exact .inl (l3.trans ((congrArg some (c115_reads_unique l2 m2)).trans m3.symm))
        · rw [← e2'] at hb'
          have := c115_last_unique hb' m1
          subst this hb
          obtain ⟨en, ek⟩ := c115_header_unique hk hk₀
          exact .inr ⟨en, ek, v, v', l3, m3, c119_slots l2 m2⟩
      · obtain ⟨_, hb⟩ := fwd l1
        exact (none_of m1 hb).elim
      · obtain ⟨_, hb⟩ := bwd m1
        exact (none_of l1 hb).elim
      · exact .inl (l2.trans m2.symm)
    · rw [if_neg hn, if_neg (fun hn' => hn (hmem.mpr hn'))]
      trivial

end Logic

/-! ### Project files -/

open Json in
/-- C119: a project file of which one member is changed, and which is read, differs at most in the field of that member. -/
theorem c119_project [Floats] {s s' k : Str} {x y : Json} {a b : List (Str × Json)} (h : IsText (.obj (a ++ (k, x) :: b)) s)
    (h' : IsText (.obj (a ++ (k, y) :: b)) s') {p q : Project} (hp : Project.parse s = .ok p) (hq : Project.parse s' = .ok q) :
    (k ≠ s% "sc_id" → q.id = p.id) ∧ (k ≠ s% "my_app_name" → q.appName = p.appName) ∧ (k ≠ s% "my_ws_name" → q.workspaceName = p.workspaceName) ∧
    (k ≠ s% "my_sc_pkg_name" → q.packageName = p.packageName) ∧ (k ≠ s% "sc_ver_code" → q.versionCode = p.versionCode) ∧
    (k ≠ s% "sc_ver_name" → q.versionName = p.versionName) ∧ (k ≠ s% "my_sc_reg_dt" → q.dateCreated = p.dateCreated) ∧
    (k ≠ s% "custom_icon" → q.customIcon = p.customIcon) ∧ (k ≠ s% "sketchware_ver" → q.sketchwareVersion = p.sketchwareVersion) ∧
    (k ≠ s% "color_primary" → q.colorPalette.colorPrimary = p.colorPalette.colorPrimary) ∧
    (k ≠ s% "color_primary_dark" → q.colorPalette.colorPrimaryDark = p.colorPalette.colorPrimaryDark) ∧
    (k ≠ s% "color_accent" → q.colorPalette.colorAccent = p.colorPalette.colorAccent) ∧
    (k ≠ s% "color_control_normal" → q.colorPalette.colorControlNormal = p.colorPalette.colorControlNormal) ∧
    (k ≠ s% "color_control_highlight" → q.colorPalette.colorControlHighlight = p.colorPalette.colorControlHighlight) := by
  rw [c82_project_read h] at hp
  rw [c82_project_read h'] at hq
  have same : ∀ z, k ≠ z → valuesOf (a ++ (k, y) :: b) z = valuesOf (a ++ (k, x) :: b) z := by
    intro z hz
    simp [valuesOf, hz]
  obtain ⟨⟨t1, a1, c1⟩, a2, a3, a4, ⟨t5, a5, c5⟩, a6, ⟨t7, a7, c7⟩, a8, ⟨t9, a9, c9⟩, ⟨u1, d1, e1⟩, ⟨u2, d2, e2⟩, ⟨u3, d3, e3⟩, ⟨u4, d4, e4⟩,
    ⟨u5, d5, e5⟩, _⟩ := hp
  obtain ⟨⟨t1', a1', c1'⟩, a2', a3', a4', ⟨t5', a5', c5'⟩, a6', ⟨t7', a7', c7'⟩, a8', ⟨t9', a9', c9'⟩, ⟨u1', d1', e1'⟩, ⟨u2', d2', e2'⟩,
    ⟨u3', d3', e3'⟩, ⟨u4', d4', e4'⟩, ⟨u5', d5', e5'⟩, _⟩ := hq
  have one : ∀ {z : Str} {i j : Json}, valuesOf (a ++ (k, x) :: b) z = [i] → valuesOf (a ++ (k, y) :: b) z = [j] → k ≠ z → j = i := by
    intro z i j hi hj hz
    rw [same z hz, hi] at hj
    exact (List.cons.inj hj).1.symm
  refine ⟨fun hz => ?_, fun hz => ?_, fun hz => ?_, fun hz => ?_, fun hz => ?_, fun hz => ?_, fun hz => ?_, fun hz => ?_, fun hz => ?_, fun hz => ?_,
    fun hz => ?_, fun hz => ?_, fun hz => ?_, fun hz => ?_⟩
  · have := Json.str.inj (one a1 a1' hz); subst this
    exact UInt16.toNat_inj.mp (Option.some.inj (c1'.symm.trans c1))
  · exact Json.str.inj (one a2 a2' hz)
  · exact Json.str.inj (one a3 a3' hz)
  · exact Json.str.inj (one a4 a4' hz)
  · have := Json.str.inj (one a5 a5' hz); subst this
    exact UInt16.toNat_inj.mp (Option.some.inj (c5'.symm.trans c5))
  · exact Json.str.inj (one a6 a6' hz)
  · have := Json.str.inj (one a7 a7' hz); subst this
    exact Out.ok.inj (c7'.symm.trans c7)
  · exact Json.bool.inj (one a8 a8' hz)
  · have := Json.num.inj (one a9 a9' hz); subst this
    exact UInt8.toNat_inj.mp (Int.ofNat.inj (Option.some.inj (c9'.symm.trans c9)))
  · have := one d1 d1' hz; subst this; exact Option.some.inj (e1'.symm.trans e1)
  · have := one d2 d2' hz; subst this; exact Option.some.inj (e2'.symm.trans e2)
  · have := one d3 d3' hz; subst this; exact Option.some.inj (e3'.symm.trans e3)
  · have := one d4 d4' hz; subst this; exact Option.some.inj (e4'.symm.trans e4)
  · have := one d5 d5' hz; subst this; exact Option.some.inj (e5'.symm.trans e5)


/-! ### Examples -/

/-- `c119_file`: the name of an activity is changed. -/
example : ∃ (s s' l l' : Str) (f f' : File), c119_Changed s s' l l' ∧ File.parse s = .ok f ∧ File.parse s' = .ok f' ∧ f ≠ f' := by
  refine ⟨s% "@activity\n" ++ FileItem.reconstruct ⟨s% "a", .activity, .unspecified, ⟨true, false, false, false⟩, .portrait, .none⟩,
    s% "@activity\n" ++ FileItem.reconstruct ⟨s% "b", .activity, .unspecified, ⟨true, false, false, false⟩, .portrait, .none⟩,
    FileItem.reconstruct ⟨s% "a", .activity, .unspecified, ⟨true, false, false, false⟩, .portrait, .none⟩,
    FileItem.reconstruct ⟨s% "b", .activity, .unspecified, ⟨true, false, false, false⟩, .portrait, .none⟩,
    ⟨[⟨s% "a", .activity, .unspecified, ⟨true, false, false, false⟩, .portrait, .none⟩], []⟩,
    ⟨[⟨s% "b", .activity, .unspecified, ⟨true, false, false, false⟩, .portrait, .none⟩], []⟩, ⟨[s% "@activity"], [], ?_⟩, ?_⟩ <;> decide +kernel
/-- `c119_resource`: the type of a sound is changed. -/
example : ∃ (s s' l l' : Str) (f f' : Resource), c119_Changed s s' l l' ∧ Resource.parse s = .ok f ∧ Resource.parse s' = .ok f' ∧ f ≠ f' := by
  refine ⟨s% "@sounds\n" ++ ResourceItem.reconstruct ⟨s% "a", s% "b", 1⟩, s% "@sounds\n" ++ ResourceItem.reconstruct ⟨s% "a", s% "b", 2⟩,
    ResourceItem.reconstruct ⟨s% "a", s% "b", 1⟩, ResourceItem.reconstruct ⟨s% "a", s% "b", 2⟩,
    ⟨[], [⟨s% "a", s% "b", 1⟩], []⟩, ⟨[], [⟨s% "a", s% "b", 2⟩], []⟩, ⟨[s% "@sounds"], [], ?_⟩, ?_⟩ <;> decide +kernel
/-- `c119_library`: the data of a library is changed. -/
example : ∃ (s s' l l' : Str) (f f' : Library), c119_Changed s s' l l' ∧ Library.parse s = .ok f ∧ Library.parse s' = .ok f' ∧ f ≠ f' := by
  refine ⟨Library.reconstruct ⟨sampleLib [], sampleLib [], sampleLib [], sampleLib []⟩, Library.reconstruct ⟨sampleLib (s% "x"), sampleLib [], sampleLib [], sampleLib []⟩,
    LibraryItem.reconstruct (sampleLib []), LibraryItem.reconstruct (sampleLib (s% "x")), ⟨sampleLib [], sampleLib [], sampleLib [], sampleLib []⟩,
    ⟨sampleLib (s% "x"), sampleLib [], sampleLib [], sampleLib []⟩, ⟨[s% "@firebaseDB"], [s% "@compat", LibraryItem.reconstruct (sampleLib []), s% "@admob",
      LibraryItem.reconstruct (sampleLib []), s% "@googleMap", LibraryItem.reconstruct (sampleLib [])], ?_⟩, ?_⟩ <;> decide +kernel
/-- `c119_view`: a floating button is changed. -/
example [Floats] [MapPol] (x y : AndroidView) (l l' : Str) (hx : AndroidView.parse l = some x) (hy : AndroidView.parse l' = some y) (hn : '\n' ∉ l)
    (hn' : '\n' ∉ l') : c119_Changed (s% "@a.xml_fab\n" ++ l) (s% "@a.xml_fab\n" ++ l') l l' ∧
    View.parse (s% "@a.xml_fab\n" ++ l) = .ok ⟨[], [(s% "a", x)]⟩ ∧ View.parse (s% "@a.xml_fab\n" ++ l') = .ok ⟨[], [(s% "a", y)]⟩ := by
  have key : ∀ {l : Str} {x : AndroidView}, AndroidView.parse l = some x → '\n' ∉ l → lines (s% "@a.xml_fab\n" ++ l) = [s% "@a.xml_fab", l] ∧
      View.parse (s% "@a.xml_fab\n" ++ l) = .ok ⟨[], [(s% "a", x)]⟩ := by
    intro l x hx hn
    have h1 : lines (s% "@a.xml_fab\n" ++ l) = [s% "@a.xml_fab", l] := by
      show splitOn _ _ = _
      rw [show s% "@a.xml_fab\n" ++ l = s% "@a.xml_fab" ++ '\n' :: l from rfl, splitOn_append_sep (by decide), splitOn_of_not_mem hn]
    have h2 : Section.WF (.fab (s% "a") l x) := ⟨by decide, hx⟩
    refine ⟨h1, View.c115_made_parse (ss := [.fab (s% "a") l x]) ⟨by simp [h2], .inl ⟨[], h1, by simp⟩⟩⟩
  have k1 := key hx hn
  have k2 := key hy hn'
  have a1 := c116_noHeader (r := []) c116_androidView hx
  have a2 := c116_noHeader (r := []) c116_androidView hy
  rw [List.append_nil] at a1 a2
  exact ⟨⟨[s% "@a.xml_fab"], [], k1.1, k2.1, a1.1, a2.1, a1.2, a2.2⟩, k1.2, k2.2⟩
/-- `c119_logic`: a variable is changed, and its name with it. -/
example [Floats] [MapPol] : ∃ (s s' l l' : Str) (r r' : Logic), c119_Changed s s' l l' ∧ Logic.parse s = .ok r ∧ Logic.parse s' = .ok r' ∧ r ≠ r' :=
  ⟨s% "@A.java_var\n1:x", s% "@A.java_var\n0:y", s% "1:x", s% "0:y",
    ⟨[(s% "A", { ScreenLogic.newEmpty (s% "A") with «variables» := some ⟨[(s% "x", ⟨s% "x", .integer⟩)]⟩ })]⟩,
    ⟨[(s% "A", { ScreenLogic.newEmpty (s% "A") with «variables» := some ⟨[(s% "y", ⟨s% "y", .boolean⟩)]⟩ })]⟩,
    ⟨[s% "@A.java_var"], [], by decide⟩, rfl, rfl, by simp⟩
set_option maxRecDepth 100000 in
/-- `c119_project`: the version is changed. -/
example : ∃ (s s' k : Str) (x y : Json) (a b : List (Str × Json)), Json.IsText (.obj (a ++ (k, x) :: b)) s ∧ Json.IsText (.obj (a ++ (k, y) :: b)) s' ∧
    (∃ p, @Project.parse toyFloats.toFloats s = .ok p) ∧ (∃ p, @Project.parse toyFloats.toFloats s' = .ok p) ∧ s ≠ s' := by
  refine ⟨c114_projectText, s% "{\"sketchware_ver\":151" ++ c114_projectText.drop 22, s% "sketchware_ver", .num (s% "150"), .num (s% "151"), [],
    ((Json.parse c114_projectText).map fun | .obj ms => ms.drop 1 | _ => []).getD [], ?_, ?_,
    ⟨⟨601, s% "A", s% "W", s% "a.b", 1, s% "1.0", 1641092645, false, .default, 150⟩, ?_⟩,
    ⟨⟨601, s% "A", s% "W", s% "a.b", 1, s% "1.0", 1641092645, false, .default, 151⟩, ?_⟩, ?_⟩
  · exact Json.parse_iff.mp (by with_unfolding_all rfl)
  · exact Json.parse_iff.mp (by with_unfolding_all rfl)
  · decide +kernel
  · decide +kernel
  · decide +kernel

end Swrs
