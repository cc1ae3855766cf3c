import Verif.Props.Joined
/-!
# C122: one line more
-/
set_option linter.unusedSectionVars false
namespace Swrs
open Sections

/-! ### The lists of files and resources -/

/-- Specification: the section that begins with this header is being read at the end of these lines: it is the last header, and no blank line has come
after a header. -/
def c122_Under (headers : List Str) (hd : Str) (pre : List Str) : Prop :=
  (∃ a b, pre = a ++ hd :: b ∧ ∀ x ∈ b, x ∉ headers) ∧ ∀ a b, pre = a ++ [] :: b → ∀ x ∈ a, x ∉ headers

theorem c122_gloop_acc {σ α : Type} {header : Str → Option σ} {read : Str → Option α} (acc : List (σ × α)) (ls : List Str) (sec : Option σ) (n : Nat) :
    ∀ (c : List (σ × α)), gloop header read ls sec (acc ++ c) n = match gloop header read ls sec c n with
      | .ok q => .ok (acc ++ q)
      | .error e => .error e := by
  induction ls generalizing sec n with
  | nil => intro c; rfl
  | cons x ls ih =>
    intro c
    rw [gloop_cons, gloop_cons]
    cases header x with
    | some k => exact ih _ _ c
    | none =>
      cases sec with
      | none => exact ih _ _ c
      | some k =>
        simp only
        by_cases hx : x = []
        · simp only [if_pos hx]
        · simp only [if_neg hx]
          cases read x with
          | none => rfl
          | some a =>
            simp only
            rw [List.append_assoc]
            exact ih _ _ _

theorem c122_gloop_n {σ α : Type} {header : Str → Option σ} {read : Str → Option α} {ls : List Str} {sec : Option σ} {acc r : List (σ × α)} {n n' : Nat}
    (h : gloop header read ls sec acc n = .ok r) : gloop header read ls sec acc n' = .ok r := by
  have := c121_gloop_acc [] ls sec acc r n n' h
  simpa using this

/-- The section after some lines. -/
def c122_sec {σ : Type} (header : Str → Option σ) (ls : List Str) (sec : Option σ) : Option σ := ls.foldl (fun s x => (header x).or s) sec

theorem c122_go {σ α : Type} {header : Str → Option σ} {read : Str → Option α} {m : List Str} :
    ∀ (pre : List Str) (sec : Option σ) (acc r : List (σ × α)) (n : Nat), (∀ u v, pre = u ++ [] :: v → sec = none ∧ ∀ h ∈ u, header h = none) →
      gloop header read (pre ++ m) sec acc n = .ok r → ∃ rp, gloop header read pre sec acc n = .ok rp ∧
        ∀ m', gloop header read (pre ++ m') sec acc n = gloop header read m' (c122_sec header pre sec) rp (n + pre.length)
  | [], sec, acc, r, n, _, h => ⟨acc, rfl, fun m' => rfl⟩
  | x :: pre, sec, acc, r, n, hb, h => by
    have hn : n + (x :: pre).length = n + 1 + pre.length := by rw [List.length_cons]; omega
    rw [List.cons_append, gloop_cons] at h
    rw [hn]
    simp only [List.cons_append, gloop_cons]
    cases hx : header x with
    | some k =>
      rw [hx] at h
      obtain ⟨rp, h1, h2⟩ := c122_go pre (some k) acc r (n + 1) (fun u v e => by
        have := (hb (x :: u) v (by rw [e]; rfl)).2 x (by simp)
        rw [hx] at this; cases this) h
      refine ⟨rp, h1, fun m' => ?_⟩
      rw [show c122_sec header (x :: pre) sec = c122_sec header pre (some k) by simp [c122_sec, hx]]
      exact h2 m'
    | none =>
      rw [hx] at h
      rw [show c122_sec header (x :: pre) sec = c122_sec header pre sec by simp [c122_sec, hx]]
      cases sec with
      | none =>
        exact c122_go pre none acc r (n + 1) (fun u v e => ⟨rfl, fun h hh => (hb (x :: u) v (by rw [e]; rfl)).2 h (by simp [hh])⟩) h
      | some k =>
        by_cases hxe : x = []
        · have := (hb [] pre (by rw [hxe]; rfl)).1
          cases this
        · simp only [if_neg hxe] at h ⊢
          cases hr : read x with
          | none => rw [hr] at h; cases h
          | some a =>
            rw [hr] at h
            exact c122_go pre (some k) _ r (n + 1) (fun u v e => by have := (hb (x :: u) v (by rw [e]; rfl)).1; cases this) h

theorem c122_last {σ : Type} (header : Str → Option σ) (ls : List Str) :
    (∀ x ∈ ls, header x = none) ∨ ∃ a hd k b, ls = a ++ hd :: b ∧ header hd = some k ∧ ∀ x ∈ b, header x = none := by
  induction ls with
  | nil => exact .inl (by simp)
  | cons x ls ih =>
    rcases ih with ih | ⟨a, hd, k, b, rfl, h1, h2⟩
    · cases hx : header x with
      | none =>
        left
        intro y hy
        rcases List.mem_cons.mp hy with rfl | hy
        · exact hx
        · exact ih y hy
      | some k => exact .inr ⟨[], x, k, ls, rfl, hx, ih⟩
    · exact .inr ⟨x :: a, hd, k, b, rfl, h1, h2⟩

theorem c122_sec_none {σ : Type} {header : Str → Option σ} : ∀ (ls : List Str) (sec : Option σ), (∀ x ∈ ls, header x = none) → c122_sec header ls sec = sec
  | [], _, _ => rfl
  | x :: ls, sec, h => by
    rw [show c122_sec header (x :: ls) sec = c122_sec header ls ((header x).or sec) from rfl, h x (by simp), Option.none_or]
    exact c122_sec_none ls sec fun y hy => h y (by simp [hy])

theorem c122_sec_append {σ : Type} {header : Str → Option σ} {a b : List Str} {hd : Str} {k : σ} (sec : Option σ) (hk : header hd = some k)
    (hb : ∀ x ∈ b, header x = none) : c122_sec header (a ++ hd :: b) sec = some k := by
  unfold c122_sec
  rw [List.foldl_append, List.foldl_cons, hk, Option.some_or]
  exact c122_sec_none b (some k) hb

/-- The general reader with one line more. -/
theorem c122_gloop {σ α : Type} {header : Str → Option σ} {read : Str → Option α} {headers : List Str} (hh : ∀ l, header l ≠ none ↔ l ∈ headers)
    (h0 : header [] = none) {pre post : List Str} {l : Str} (hl : l ≠ []) (hn : l ∉ headers) {r : List (σ × α)}
    (h : gloop header read (pre ++ post) none [] 0 = .ok r) :
    (∀ hd k, header hd = some k → c122_Under headers hd pre → ∃ rp q, gloop header read pre none [] 0 = .ok rp ∧ r = rp ++ q ∧
      (∀ x, read l = some x → gloop header read (pre ++ l :: post) none [] 0 = .ok (rp ++ (k, x) :: q)) ∧
      (read l = none → gloop header read (pre ++ l :: post) none [] 0 = .error (pre.length, k, l))) ∧
    ((∀ hd ∈ headers, ¬ c122_Under headers hd pre) → gloop header read (pre ++ l :: post) none [] 0 = .ok r) := by
  have hno : ∀ x, x ∉ headers ↔ header x = none := by
    intro x
    rw [← hh]
    cases header x <;> simp
  have hln := (hno l).mp hn
  constructor
  · rintro hd k hk ⟨⟨a, b, e, hb⟩, hbl⟩
    obtain ⟨rp, h1, h2⟩ := c122_go pre none [] r 0 (fun u v e => ⟨rfl, fun x hx => (hno x).mp (hbl u v e x hx)⟩) h
    have hs : c122_sec header pre none = some k := by rw [e]; exact c122_sec_append none hk fun x hx => (hno x).mp (hb x hx)
    rw [h2, hs] at h
    have g1 := c122_gloop_acc (header := header) (read := read) rp post (some k) (0 + pre.length) []
    rw [List.append_nil, h] at g1
    cases hq : gloop header read post (some k) [] (0 + pre.length) with
    | error e => rw [hq] at g1; cases g1
    | ok q =>
      rw [hq] at g1
      refine ⟨rp, q, h1, Except.ok.inj g1, fun x hx => ?_, fun hx => ?_⟩
      · rw [h2, hs, gloop_cons, hln]
        simp only [if_neg hl, hx]
        have g2 := c122_gloop_acc (header := header) (read := read) (rp ++ [(k, x)]) post (some k) (0 + pre.length + 1) []
        rw [List.append_nil, c122_gloop_n hq] at g2
        rw [g2]; simp
      · rw [h2, hs, gloop_cons, hln]
        simp only [if_neg hl, hx, Nat.zero_add]
  · intro hu
    by_cases hbl : ∀ a b, pre = a ++ [] :: b → ∀ x ∈ a, x ∉ headers
    · obtain ⟨rp, h1, h2⟩ := c122_go pre none [] r 0 (fun u v e => ⟨rfl, fun x hx => (hno x).mp (hbl u v e x hx)⟩) h
      rcases c122_last header pre with hp | ⟨a, hd, k, b, e, hk, hb⟩
      · have hs := c122_sec_none pre none hp
        rw [h2, hs] at h
        rw [h2, hs, gloop_cons, hln]
        exact c122_gloop_n h
      · exact absurd ⟨⟨a, b, e, fun x hx => (hno x).mpr (hb x hx)⟩, hbl⟩ (hu hd ((hh hd).mp (by rw [hk]; simp)))
    · have : ∃ a b x, pre = a ++ [] :: b ∧ x ∈ a ∧ x ∈ headers := Classical.byContradiction fun hc =>
        hbl fun a b e x hx hm => hc ⟨a, b, x, e, hx, hm⟩
      obtain ⟨a, b, x, rfl, hx, hm⟩ := this
      rw [c121_gloop_stop h0 _ _ _ hx ((hh x).mpr hm)] at h ⊢
      exact h

/-- C122: a list of files with one line more. In a section, after what is read from the lines before, comes the record of the line, or the list is
refused with the number and the content of the line; elsewhere the line has no effect. The line is neither blank nor begins with `@`. -/
theorem c122_file {s s' a l : Str} {post : List Str} (hs : lines s = lines a ++ post) (hs' : lines s' = lines a ++ l :: post) (hl : l ≠ [])
    (hh : l.head? ≠ some '@') {f : File} (h : File.parse s = .ok f) :
    (c122_Under [s% "@activity", s% "@customview"] (s% "@activity") (lines a) → ∃ f₀ q, File.parse a = .ok f₀ ∧ f.activities = f₀.activities ++ q ∧
      (∀ x, FileItem.parse l = some x → File.parse s' = .ok { f with activities := f₀.activities ++ x :: q }) ∧
      (FileItem.parse l = none → File.parse s' = .err (.item (lines a).length l))) ∧
    (c122_Under [s% "@activity", s% "@customview"] (s% "@customview") (lines a) → ∃ f₀ q, File.parse a = .ok f₀ ∧ f.customViews = f₀.customViews ++ q ∧
      (∀ x, FileItem.parse l = some x → File.parse s' = .ok { f with customViews := f₀.customViews ++ x :: q }) ∧
      (FileItem.parse l = none → File.parse s' = .err (.item (lines a).length l))) ∧
    ((∀ hd ∈ [s% "@activity", s% "@customview"], ¬ c122_Under [s% "@activity", s% "@customview"] hd (lines a)) → File.parse s' = .ok f) := by
  have hn : l ∉ [s% "@activity", s% "@customview"] := by
    intro hm
    simp only [List.mem_cons, List.not_mem_nil, or_false] at hm
    rcases hm with rfl | rfl <;> exact hh rfl
  rw [c116_file_gloop, hs] at h
  cases hr : gloop fileHeader FileItem.parse (lines a ++ post) none [] 0 with
  | error e => rw [hr] at h; cases h
  | ok r =>
    rw [hr] at h
    obtain rfl := Out.ok.inj h
    obtain ⟨g1, g2⟩ := c122_gloop c121_fileHeader rfl hl hn hr
    refine ⟨fun hu => ?_, fun hu => ?_, fun hu => ?_⟩
    · obtain ⟨rp, q, h1, rfl, h3, h4⟩ := g1 _ .activity rfl hu
      refine ⟨_, only .activity q, by rw [c116_file_gloop, h1], c121_only _ _ _, fun x hx => ?_, fun hx => ?_⟩
      · rw [c116_file_gloop, hs', h3 x hx]
        simp [only]
      · rw [c116_file_gloop, hs', h4 hx]
    · obtain ⟨rp, q, h1, rfl, h3, h4⟩ := g1 _ .customView rfl hu
      refine ⟨_, only .customView q, by rw [c116_file_gloop, h1], c121_only _ _ _, fun x hx => ?_, fun hx => ?_⟩
      · rw [c116_file_gloop, hs', h3 x hx]
        simp [only]
      · rw [c116_file_gloop, hs', h4 hx]
    · rw [c116_file_gloop, hs', g2 hu]

/-- C122: so with a list of resources. -/
theorem c122_resource {s s' a l : Str} {post : List Str} (hs : lines s = lines a ++ post) (hs' : lines s' = lines a ++ l :: post) (hl : l ≠ [])
    (hh : l.head? ≠ some '@') {f : Resource} (h : Resource.parse s = .ok f) :
    (c122_Under [s% "@images", s% "@sounds", s% "@fonts"] (s% "@images") (lines a) → ∃ f₀ q, Resource.parse a = .ok f₀ ∧ f.images = f₀.images ++ q ∧
      (∀ x, ResourceItem.parse l = some x → Resource.parse s' = .ok { f with images := f₀.images ++ x :: q }) ∧
      (ResourceItem.parse l = none → Resource.parse s' = .err (.item .images (lines a).length))) ∧
    (c122_Under [s% "@images", s% "@sounds", s% "@fonts"] (s% "@sounds") (lines a) → ∃ f₀ q, Resource.parse a = .ok f₀ ∧ f.sounds = f₀.sounds ++ q ∧
      (∀ x, ResourceItem.parse l = some x → Resource.parse s' = .ok { f with sounds := f₀.sounds ++ x :: q }) ∧
      (ResourceItem.parse l = none → Resource.parse s' = .err (.item .sounds (lines a).length))) ∧
    (c122_Under [s% "@images", s% "@sounds", s% "@fonts"] (s% "@fonts") (lines a) → ∃ f₀ q, Resource.parse a = .ok f₀ ∧ f.fonts = f₀.fonts ++ q ∧
      (∀ x, ResourceItem.parse l = some x → Resource.parse s' = .ok { f with fonts := f₀.fonts ++ x :: q }) ∧
      (ResourceItem.parse l = none → Resource.parse s' = .err (.item .fonts (lines a).length))) ∧
    ((∀ hd ∈ [s% "@images", s% "@sounds", s% "@fonts"], ¬ c122_Under [s% "@images", s% "@sounds", s% "@fonts"] hd (lines a)) →
      Resource.parse s' = .ok f) := by
  have hn : l ∉ [s% "@images", s% "@sounds", s% "@fonts"] := by
    intro hm
    simp only [List.mem_cons, List.not_mem_nil, or_false] at hm
    rcases hm with rfl | rfl | rfl <;> exact hh rfl
  rw [c116_resource_gloop, hs] at h
  cases hr : gloop resourceHeader ResourceItem.parse (lines a ++ post) none [] 0 with
  | error e => rw [hr] at h; cases h
  | ok r =>
    rw [hr] at h
    obtain rfl := Out.ok.inj h
    obtain ⟨g1, g2⟩ := c122_gloop c121_resourceHeader rfl hl hn hr
    refine ⟨fun hu => ?_, fun hu => ?_, fun hu => ?_, fun hu => ?_⟩
    · obtain ⟨rp, q, h1, rfl, h3, h4⟩ := g1 _ .images rfl hu
      refine ⟨_, only .images q, by rw [c116_resource_gloop, h1], c121_only _ _ _, fun x hx => ?_, fun hx => ?_⟩
      · rw [c116_resource_gloop, hs', h3 x hx]
        simp [only]
      · rw [c116_resource_gloop, hs', h4 hx]; rfl
    · obtain ⟨rp, q, h1, rfl, h3, h4⟩ := g1 _ .sounds rfl hu
      refine ⟨_, only .sounds q, by rw [c116_resource_gloop, h1], c121_only _ _ _, fun x hx => ?_, fun hx => ?_⟩
      · rw [c116_resource_gloop, hs', h3 x hx]
        simp [only]
      · rw [c116_resource_gloop, hs', h4 hx]; rfl
    · obtain ⟨rp, q, h1, rfl, h3, h4⟩ := g1 _ .fonts rfl hu
      refine ⟨_, only .fonts q, by rw [c116_resource_gloop, h1], c121_only _ _ _, fun x hx => ?_, fun hx => ?_⟩
      · rw [c116_resource_gloop, hs', h3 x hx]
        simp [only]
      · rw [c116_resource_gloop, hs', h4 hx]; rfl
    · rw [c116_resource_gloop, hs', g2 hu]

/-- The general reader with one line less. -/
theorem c122_gloop_less {σ α : Type} {header : Str → Option σ} {read : Str → Option α} (h0 : header [] = none) {pre post : List Str} {l : Str} (hl : l ≠ [])
    (hn : header l = none) {r : List (σ × α)} (h : gloop header read (pre ++ l :: post) none [] 0 = .ok r) :
    ∃ r', gloop header read (pre ++ post) none [] 0 = .ok r' := by
  by_cases hbl : ∀ a b, pre = a ++ [] :: b → ∀ x ∈ a, header x = none
  · obtain ⟨rp, h1, h2⟩ := c122_go pre none [] r 0 (fun u v e => ⟨rfl, hbl u v e⟩) h
    rw [h2, gloop_cons, hn] at h
    rw [h2]
    cases hs : c122_sec header pre none with
    | none =>
      rw [hs] at h
      exact ⟨r, c122_gloop_n h⟩
    | some k =>
      rw [hs] at h
      simp only [if_neg hl] at h
      cases hr : read l with
      | none => rw [hr] at h; cases h
      | some x =>
        rw [hr] at h
        simp only at h
        have g := c122_gloop_acc (header := header) (read := read) (rp ++ [(k, x)]) post (some k) (0 + pre.length + 1) []
        rw [List.append_nil, h] at g
        cases hq : gloop header read post (some k) [] (0 + pre.length + 1) with
        | error e => rw [hq] at g; cases g
        | ok q =>
          have g' := c122_gloop_acc (header := header) (read := read) rp post (some k) (0 + pre.length) []
          rw [List.append_nil, c122_gloop_n hq] at g'
          exact ⟨_, g'⟩
  · have : ∃ a b x, pre = a ++ [] :: b ∧ x ∈ a ∧ header x ≠ none := Classical.byContradiction fun hc =>
      hbl fun a b e x hx => Classical.byContradiction fun hm => hc ⟨a, b, x, e, hx, hm⟩
    obtain ⟨a, b, x, rfl, hx, hm⟩ := this
    rw [c121_gloop_stop h0 _ _ _ hx hm] at h ⊢
    exact ⟨r, h⟩

/-- C122: a list of files from which a line is taken away that is neither blank nor begins with `@` is still read. -/
theorem c122_file_less {s s' l : Str} {pre post : List Str} (hs : lines s = pre ++ post) (hs' : lines s' = pre ++ l :: post) (hl : l ≠ [])
    (hh : l.head? ≠ some '@') {f : File} (h : File.parse s' = .ok f) : ∃ f', File.parse s = .ok f' := by
  have hn : fileHeader l = none := by
    unfold fileHeader
    rw [if_neg (by rintro rfl; exact hh rfl), if_neg (by rintro rfl; exact hh rfl)]
  rw [c116_file_gloop, hs'] at h
  cases hr : gloop fileHeader FileItem.parse (pre ++ l :: post) none [] 0 with
  | error e => rw [hr] at h; cases h
  | ok r =>
    obtain ⟨r', hr'⟩ := c122_gloop_less rfl hl hn hr
    exact ⟨_, by rw [c116_file_gloop, hs, hr']⟩

/-- C122: so with a list of resources. -/
theorem c122_resource_less {s s' l : Str} {pre post : List Str} (hs : lines s = pre ++ post) (hs' : lines s' = pre ++ l :: post) (hl : l ≠ [])
    (hh : l.head? ≠ some '@') {f : Resource} (h : Resource.parse s' = .ok f) : ∃ f', Resource.parse s = .ok f' := by
  have hn : resourceHeader l = none := by
    unfold resourceHeader
    rw [if_neg (by rintro rfl; exact hh rfl), if_neg (by rintro rfl; exact hh rfl), if_neg (by rintro rfl; exact hh rfl)]
  rw [c116_resource_gloop, hs'] at h
  cases hr : gloop resourceHeader ResourceItem.parse (pre ++ l :: post) none [] 0 with
  | error e => rw [hr] at h; cases h
  | ok r =>
    obtain ⟨r', hr'⟩ := c122_gloop_less rfl hl hn hr
    exact ⟨_, by rw [c116_resource_gloop, hs, hr']⟩

/-! ### The libraries -/

namespace Library

theorem c122_n {ls : List Str} {a b : Acc} {n n' : Nat} (h : loop ls a n = .ok b) : loop ls a n' = .ok b := by
  have e : ∀ a, c121_over {} a = a := fun a => by cases a; simp [c121_over]
  have := c121_loop {} ls a b n n' h
  rwa [e, e] at this

/-- The same but for one library, which is `i` in the second. -/
def c122_Near (i : LibraryItem) (h : Str) (a a' : Acc) : Prop := (∀ x ∈ headers, x ≠ h → c116_get a' x = c116_get a x) ∧
  (c116_get a' h = c116_get a h ∨ c116_get a' h = some i)

theorem c122_near_loop {i : LibraryItem} {h : Str} (hh : h ∈ headers) : ∀ (ls : List Str) (a a' b : Acc) (n n' : Nat), c122_Near i h a a' → loop ls a n = .ok b →
    ∃ b', loop ls a' n' = .ok b' ∧ c122_Near i h b b'
  | [], a, a', b, n, n', hn, h1 => by
    rw [loop.eq_def] at h1 ⊢
    exact ⟨a', rfl, (Out.ok.inj h1) ▸ hn⟩
  | [x], a, a', b, n, n', hn, h1 => by
    rw [loop.eq_def] at h1 ⊢
    simp only at h1 ⊢
    by_cases hx : isHeader x = true
    · rw [if_pos hx] at h1; cases h1
    · rw [if_neg hx] at h1 ⊢
      exact c122_near_loop hh [] a a' b _ _ hn h1
  | x :: y :: ls, a, a', b, n, n', hn, h1 => by
    rw [loop.eq_def] at h1 ⊢
    simp only at h1 ⊢
    by_cases hx : isHeader x = true
    · rw [if_pos hx] at h1 ⊢
      cases hy : LibraryItem.parse y with
      | none => rw [hy] at h1; cases h1
      | some j =>
        rw [hy] at h1
        refine c122_near_loop hh ls _ _ b _ _ ⟨fun z hz hzh => ?_, ?_⟩ h1
        · rw [c116_get_set j hz (c116_isHeader.mp hx), c116_get_set j hz (c116_isHeader.mp hx), hn.1 z hz hzh]
        · rw [c116_get_set j hh (c116_isHeader.mp hx), c116_get_set j hh (c116_isHeader.mp hx)]
          split
          · exact .inl rfl
          · exact hn.2
    · rw [if_neg hx] at h1 ⊢
      exact c122_near_loop hh (y :: ls) a a' b _ _ hn h1

theorem c122_loop {l : Str} (hl : isHeader l = false) (post : List Str) : ∀ (pre : List Str) (a r : Acc) (n : Nat), loop (pre ++ post) a n = .ok r →
    loop (pre ++ l :: post) a n = .ok r ∨ ∃ hd ∈ headers, pre.getLast? = some hd ∧
      (LibraryItem.parse l = none → ∃ m, loop (pre ++ l :: post) a n = .err (.item hd m)) ∧
      ∀ i, LibraryItem.parse l = some i → ∃ r', loop (pre ++ l :: post) a n = .ok r' ∧ c122_Near i hd r r'
  | [], a, r, n, h => by
    left
    rw [List.nil_append] at h ⊢
    cases post with
    | nil =>
      rw [loop.eq_def]
      simp only [hl]
      exact c122_n h
    | cons y post =>
      rw [loop.eq_def]
      simp only [hl]
      exact c122_n h
  | [x], a, r, n, h => by
    rw [List.singleton_append] at h ⊢
    by_cases hx : isHeader x = true
    · right
      refine ⟨x, c116_isHeader.mp hx, rfl, ?_⟩
      rw [loop.eq_def]
      simp only [hx, if_true]
      refine ⟨fun hi => ?_, fun i hi => ?_⟩
      · rw [hi]; exact ⟨_, rfl⟩
      · rw [hi]
        simp only
        rw [loop.eq_def] at h
        cases post with
        | nil => simp only [hx, if_true] at h; cases h
        | cons y post =>
          simp only [hx, if_true] at h
          cases hy : LibraryItem.parse y with
          | none => rw [hy] at h; cases h
          | some j =>
            rw [hy] at h
            simp only at h
            have hyn : isHeader y = false := by
              rw [Bool.eq_false_iff, ne_eq, c116_isHeader]
              intro hm
              have := (c116_noHeader (r := []) c116_libraryItem hy).2
              rw [List.append_nil] at this
              simp only [headers, List.mem_cons, List.not_mem_nil, or_false] at hm
              rcases hm with rfl | rfl | rfl | rfl <;> exact this rfl
            have near : c122_Near i x (a.set x j) (a.set x i) := by
              refine ⟨fun z hz hzx => ?_, .inr ?_⟩
              · rw [c116_get_set i hz (c116_isHeader.mp hx), c116_get_set j hz (c116_isHeader.mp hx), if_neg hzx, if_neg hzx]
              · rw [c116_get_set i (c116_isHeader.mp hx) (c116_isHeader.mp hx), if_pos rfl]
            have key : ∀ n', ∃ r', loop (y :: post) (a.set x i) n' = .ok r' ∧ c122_Near i x r r' := by
              intro n'
              obtain ⟨b', h1, h2⟩ := c122_near_loop (c116_isHeader.mp hx) post _ _ _ _ (n' + 1) near h
              refine ⟨b', ?_, h2⟩
              rw [loop.eq_def]
              cases post with
              | nil => simp only [hyn]; exact h1
              | cons z post => simp only [hyn]; exact h1
            exact key _
    · left
      have hx' : isHeader x = false := by simpa using hx
      have e1 : ∀ ls, loop (x :: ls) a n = loop ls a (n + 1) := by
        intro ls
        rw [loop.eq_def]
        cases ls <;> simp [hx']
      rw [e1] at h ⊢
      rcases c122_loop hl post [] a r (n + 1) h with h | ⟨_, _, h, _⟩
      · exact h
      · cases h
  | x :: y :: pre, a, r, n, h => by
    rw [List.cons_append, List.cons_append, loop.eq_def] at h
    rw [List.cons_append, List.cons_append, loop.eq_def]
    simp only at h ⊢
    by_cases hx : isHeader x = true
    · rw [if_pos hx] at h ⊢
      cases hy : LibraryItem.parse y with
      | none => rw [hy] at h; cases h
      | some j =>
        rw [hy] at h
        simp only at h ⊢
        rcases c122_loop hl post pre _ r _ h with h | ⟨hd, h1, h2, h3⟩
        · exact .inl h
        · refine .inr ⟨hd, h1, ?_, h3⟩
          cases pre with
          | nil => cases h2
          | cons z pre => rw [List.getLast?_cons_cons, List.getLast?_cons_cons]; exact h2
    · rw [if_neg hx] at h ⊢
      rcases c122_loop hl post (y :: pre) _ r _ h with h | ⟨hd, h1, h2, h3⟩
      · exact .inl h
      · exact .inr ⟨hd, h1, by rw [List.getLast?_cons_cons]; exact h2, h3⟩

end Library

/-- C122: a library file with one line more. The line has no effect, or it comes after a header: then it is read as the library of that header, and no
other one changes, or the file is refused with that header. The line does not begin with `@`. -/
theorem c122_library {s s' l : Str} {pre post : List Str} (hs : lines s = pre ++ post) (hs' : lines s' = pre ++ l :: post)
    (hh : l.head? ≠ some '@') {b : Library} (h : Library.parse s = .ok b) :
    Library.parse s' = .ok b ∨ ∃ hd, pre.getLast? = some hd ∧
      (LibraryItem.parse l = none → ∃ m, Library.parse s' = .err (.item hd m)) ∧
      ∀ i, LibraryItem.parse l = some i → Library.parse s' = .ok b ∨
        (hd = s% "@firebaseDB" ∧ Library.parse s' = .ok { b with firebaseDb := i }) ∨ (hd = s% "@compat" ∧ Library.parse s' = .ok { b with compat := i }) ∨
        (hd = s% "@admob" ∧ Library.parse s' = .ok { b with admob := i }) ∨ (hd = s% "@googleMap" ∧ Library.parse s' = .ok { b with googleMap := i }) := by
  have hl : Library.isHeader l = false := by
    rw [Bool.eq_false_iff, ne_eq, Library.c116_isHeader]
    intro hm
    simp only [Library.headers, List.mem_cons, List.not_mem_nil, or_false] at hm
    rcases hm with rfl | rfl | rfl | rfl <;> exact hh rfl
  obtain ⟨a, ha, rfl⟩ := Library.c116_parse h
  rw [hs] at ha
  rcases Library.c122_loop hl post pre _ _ _ ha with h1 | ⟨hd, h1, h2, h3, h4⟩
  · left
    unfold Library.parse
    rw [hs', h1]; rfl
  · refine .inr ⟨hd, h2, fun hi => ?_, fun i hi => ?_⟩
    · obtain ⟨m, hm⟩ := h3 hi
      refine ⟨m, ?_⟩
      unfold Library.parse
      rw [hs', hm]; rfl
    · obtain ⟨⟨r1, r2, r3, r4⟩, hr, n1, n2⟩ := h4 i hi
      have e1 := n1 (s% "@firebaseDB") (by decide)
      have e2 := n1 (s% "@compat") (by decide)
      have e3 := n1 (s% "@admob") (by decide)
      have e4 := n1 (s% "@googleMap") (by decide)
      simp only [Library.headers, List.mem_cons, List.not_mem_nil, or_false] at h1
      unfold Library.parse
      rw [hs', hr]
      rcases h1 with rfl | rfl | rfl | rfl
      · obtain rfl := e2 (by decide)
        obtain rfl := e3 (by decide)
        obtain rfl := e4 (by decide)
        rcases n2 with e | e <;> obtain rfl := e
        · exact .inl rfl
        · exact .inr (.inl ⟨rfl, rfl⟩)
      · obtain rfl := e1 (by decide)
        obtain rfl := e3 (by decide)
        obtain rfl := e4 (by decide)
        rcases n2 with e | e <;> obtain rfl := e
        · exact .inl rfl
        · exact .inr (.inr (.inl ⟨rfl, rfl⟩))
      · obtain rfl := e1 (by decide)
        obtain rfl := e2 (by decide)
        obtain rfl := e4 (by decide)
        rcases n2 with e | e <;> obtain rfl := e
        · exact .inl rfl
        · exact .inr (.inr (.inr (.inl ⟨rfl, rfl⟩)))
      · obtain rfl := e1 (by decide)
        obtain rfl := e2 (by decide)
        obtain rfl := e3 (by decide)
        rcases n2 with e | e <;> obtain rfl := e
        · exact .inl rfl
        · exact .inr (.inr (.inr (.inr ⟨rfl, rfl⟩)))

/-! ### View files -/

theorem c122_split {α : Type} {p : Str → Option α} {q : List Str} : ∀ {b : List Str} {vs : List α}, ReadsAll p (b ++ q) vs →
    ∃ u w, vs = u ++ w ∧ ReadsAll p b u ∧ ReadsAll p q w ∧ u.length = b.length
  | [], vs, h => ⟨[], vs, rfl, .nil, h, rfl⟩
  | c :: b, vs, h => by
    cases h with
    | cons hne h t =>
      obtain ⟨u, w, rfl, h1, h2, h3⟩ := c122_split t
      exact ⟨_ :: u, w, rfl, .cons hne h h1, h2, by simp [h3]⟩

/-- The lines up to a blank one go at least as far as other lines without a blank one. -/
theorem c122_prefix {b post pre rest : List Str} (hb : [] ∉ b) (e : b ++ post = pre ++ [] :: rest) : ∃ q, pre = b ++ q ∧ post = q ++ [] :: rest := by
  rcases List.append_eq_append_iff.mp e with ⟨a, ha, ha'⟩ | ⟨a, ha, ha'⟩
  · exact ⟨a, ha, ha'⟩
  · cases a with
    | nil => exact ⟨[], by simpa using ha.symm, by simpa using ha'.symm⟩
    | cons c a =>
      obtain ⟨rfl, rfl⟩ := List.cons.inj ha'
      exact absurd (by rw [ha]; simp) hb

namespace View
variable [Floats] [MapPol]

/-- Specification: the same views, but for one view more in the layout of this name, after as many as this. -/
structure c122_Views (name : Str) (i : Nat) (x : AndroidView) (v w : View) : Prop where
  layouts : ∀ n, w.layouts.get n = v.layouts.get n ∨
    (n = name ∧ ∃ a b, a.length = i ∧ v.layouts.get n = some ⟨a ++ b⟩ ∧ w.layouts.get n = some ⟨a ++ x :: b⟩)
  fabs : ∀ n, w.fabs.get n = v.fabs.get n

theorem c122_apply {name : Str} {i : Nat} {x : AndroidView} {v w : View} (h : c122_Views name i x v w) (y : Section) :
    c122_Views name i x (y.apply v) (y.apply w) := by
  cases y with
  | layout k ls vs =>
    refine ⟨fun n => ?_, h.fabs⟩
    simp only [Section.apply, LMap.get_insert]
    split
    · exact .inl rfl
    · exact h.layouts n
  | fab k l y =>
    refine ⟨h.layouts, fun n => ?_⟩
    simp only [Section.apply, LMap.get_insert]
    split
    · rfl
    · exact h.fabs n
  | other k kind => exact h

theorem c122_fold {name : Str} {i : Nat} {x : AndroidView} (ss : List Section) : ∀ {v w : View}, c122_Views name i x v w →
    c122_Views name i x (ss.foldl Section.apply v) (ss.foldl Section.apply w) := by
  induction ss with
  | nil => exact fun h => h
  | cons y ss ih => exact fun h => ih (c122_apply h y)

/-- C122: a view file with one line more in a layout, which is not blank. If the line is a view, the file is read, with this view more in the layout, after
those of the lines before, unless a later layout has the same name; otherwise the file is refused with the layout, the line and its number in the layout. -/
theorem c122_view {s s' l name : Str} {ss : List Section} {b post : List Str} (hw : ∀ x ∈ ss, x.WF) (hd : '.' ∉ name)
    (hs : lines s = ss.flatMap Section.toLines ++ ('@' :: (name ++ s% ".xml")) :: (b ++ post))
    (hs' : lines s' = ss.flatMap Section.toLines ++ ('@' :: (name ++ s% ".xml")) :: (b ++ l :: post)) (hb : [] ∉ b) (hl : l ≠ [])
    {v : View} (h : View.parse s = .ok v) :
    (∀ x, AndroidView.parse l = some x → ∃ w, View.parse s' = .ok w ∧ c122_Views name b.length x v w) ∧
    (AndroidView.parse l = none → ∃ u, View.parse s' = .err (.layout name (s% "xml") ⟨u, l, b.length⟩)) := by
  have add : ∀ {u w : List AndroidView} {x : AndroidView} {z : View}, u.length = b.length →
      c122_Views name b.length x (Section.apply z (.layout name [] (u ++ w))) (Section.apply z (.layout name [] (u ++ x :: w))) := by
    intro u w x z hu
    refine ⟨fun n => ?_, fun _ => rfl⟩
    simp only [Section.apply, LMap.get_insert]
    split
    · rename_i hn
      exact .inr ⟨hn, u, w, hu, rfl, rfl⟩
    · exact .inl rfl
  rcases Layout.parseIter_cases (b ++ post) with ⟨pre, vs, rest, e, hr, _⟩ | ⟨vs, hr, _⟩ | ⟨pre, vs, y, rest, e, hr, h1, h2, _⟩
  · obtain ⟨q, rfl, rfl⟩ := c122_prefix hb e
    obtain ⟨u, w, rfl, r1, r2, r3⟩ := c122_split hr
    obtain ⟨ss₂, e₂, w1, w2, w3⟩ := decompose rest
    have hs1 : lines s = (ss ++ .layout name (b ++ q) (u ++ w) :: ss₂).flatMap Section.toLines ++ e₂.toLines := by
      rw [hs, w3]; simp [Section.toLines]
    have hwf : ∀ y ∈ ss ++ .layout name (b ++ q) (u ++ w) :: ss₂, y.WF := by
      intro y hy
      rcases List.mem_append.mp hy with hy | hy
      · exact hw y hy
      · rcases List.mem_cons.mp hy with rfl | hy
        · exact ⟨hd, hr⟩
        · exact w1 y hy
    rw [parse_of_lines hwf w2 hs1, List.foldl_append, List.foldl_cons] at h
    refine ⟨fun x hx => ?_, fun hx => ?_⟩
    · have hs2 : lines s' = (ss ++ .layout name (b ++ l :: q) (u ++ x :: w) :: ss₂).flatMap Section.toLines ++ e₂.toLines := by
        rw [hs', w3]; simp [Section.toLines]
      have hwf' : ∀ y ∈ ss ++ .layout name (b ++ l :: q) (u ++ x :: w) :: ss₂, y.WF := by
        intro y hy
        rcases List.mem_append.mp hy with hy | hy
        · exact hw y hy
        · rcases List.mem_cons.mp hy with rfl | hy
          · exact ⟨hd, r1.append (.cons hl hx r2)⟩
          · exact w1 y hy
      have near := c122_fold ss₂ (add (z := ss.foldl Section.apply ⟨[], []⟩) (w := w) (x := x) r3)
      rw [parse_of_lines hwf' w2 hs2, List.foldl_append, List.foldl_cons]
      cases e₂ with
      | stop rest => exact ⟨_, rfl, (Out.ok.inj h) ▸ near⟩
      | layout k ls vs => exact ⟨_, rfl, (Out.ok.inj h) ▸ c122_apply near (.layout k ls vs)⟩
      | noDot => cases h
      | badView => cases h
      | badFab => cases h
      | noFab => cases h
    · refine ⟨u.getLast?, ?_⟩
      rw [parse_of_lines (ss := ss) (e := .badView name b u l (q ++ [] :: rest)) hw ⟨hd, r1, hl, hx⟩ hs']
      rfl
  · obtain ⟨u, w, rfl, r1, r2, r3⟩ := c122_split hr
    rw [parse_of_lines (ss := ss) (e := .layout name (b ++ post) (u ++ w)) hw ⟨hd, hr⟩ hs] at h
    obtain rfl := Out.ok.inj h
    refine ⟨fun x hx => ?_, fun hx => ?_⟩
    · rw [parse_of_lines (ss := ss) (e := .layout name (b ++ l :: post) (u ++ x :: w)) hw ⟨hd, r1.append (.cons hl hx r2)⟩ hs']
      exact ⟨_, rfl, add r3⟩
    · refine ⟨u.getLast?, ?_⟩
      rw [parse_of_lines (ss := ss) (e := .badView name b u l post) hw ⟨hd, r1, hl, hx⟩ hs']
      rfl
  · rw [parse_of_lines (ss := ss) (e := .badView name pre vs y rest) hw ⟨hd, hr, h1, h2⟩ (by rw [hs, e]; rfl)] at h
    cases h

/-- C122: a view file from which a line of a layout is taken away is still read. -/
theorem c122_view_less {s s' l name : Str} {ss : List Section} {b post : List Str} (hw : ∀ x ∈ ss, x.WF) (hd : '.' ∉ name)
    (hs : lines s = ss.flatMap Section.toLines ++ ('@' :: (name ++ s% ".xml")) :: (b ++ post))
    (hs' : lines s' = ss.flatMap Section.toLines ++ ('@' :: (name ++ s% ".xml")) :: (b ++ l :: post)) (hb : [] ∉ b) (hl : l ≠ [])
    {w : View} (h : View.parse s' = .ok w) : ∃ v, View.parse s = .ok v := by
  have hb' : [] ∉ b ++ [l] := by simp [hb, Ne.symm hl]
  have e0 : b ++ l :: post = (b ++ [l]) ++ post := by simp
  rcases Layout.parseIter_cases (b ++ l :: post) with ⟨pre, vs, rest, e, hr, _⟩ | ⟨vs, hr, _⟩ | ⟨pre, vs, y, rest, e, hr, h1, h2, _⟩
  · obtain ⟨q, rfl, rfl⟩ := c122_prefix hb' (e0.symm.trans e)
    have hr0 := hr
    rw [List.append_assoc] at hr0
    obtain ⟨u, z, rfl, r1, r2, r3⟩ := c122_split hr0
    cases r2 with
    | cons _ hx r2 =>
    rename_i x0 xs0 _ _
    obtain ⟨ss₂, e₂, w1, w2, w3⟩ := decompose rest
    have hs1 : lines s' = (ss ++ .layout name (b ++ [l] ++ q) (u ++ x0 :: xs0) :: ss₂).flatMap Section.toLines ++ e₂.toLines := by
      rw [hs', w3]; simp [Section.toLines]
    have hwf : ∀ y ∈ ss ++ .layout name (b ++ [l] ++ q) (u ++ x0 :: xs0) :: ss₂, y.WF := by
      intro y hy
      rcases List.mem_append.mp hy with hy | hy
      · exact hw y hy
      · rcases List.mem_cons.mp hy with rfl | hy
        · exact ⟨hd, hr⟩
        · exact w1 y hy
    rw [parse_of_lines hwf w2 hs1] at h
    have hs2 : lines s = (ss ++ .layout name (b ++ q) (u ++ xs0) :: ss₂).flatMap Section.toLines ++ e₂.toLines := by
      rw [hs, w3]; simp [Section.toLines]
    have hwf' : ∀ y ∈ ss ++ .layout name (b ++ q) (u ++ xs0) :: ss₂, y.WF := by
      intro y hy
      rcases List.mem_append.mp hy with hy | hy
      · exact hw y hy
      · rcases List.mem_cons.mp hy with rfl | hy
        · exact ⟨hd, r1.append r2⟩
        · exact w1 y hy
    rw [parse_of_lines hwf' w2 hs2]
    cases e₂ with
    | stop rest => exact ⟨_, rfl⟩
    | layout k ls vs => exact ⟨_, rfl⟩
    | noDot => cases h
    | badView => cases h
    | badFab => cases h
    | noFab => cases h
  · obtain ⟨u, z, rfl, r1, r2, r3⟩ := c122_split hr
    cases r2 with
    | cons _ hx r2 =>
    rw [parse_of_lines (ss := ss) (e := .layout name (b ++ post) (u ++ _)) hw ⟨hd, r1.append r2⟩ hs]
    exact ⟨_, rfl⟩
  · rw [parse_of_lines (ss := ss) (e := .badView name pre vs y rest) hw ⟨hd, hr, h1, h2⟩ (by rw [hs', e]; rfl)] at h
    cases h

end View

/-! ### Logic files -/

namespace Logic
variable [Floats] [MapPol]

/-- Specification: the line can stand in a section of this kind. -/
def c122_Readable (l : Str) : c115_Kind → Prop
  | .pool suf =>
    if suf = s% "java_var" then ∃ x, Variable.parse l = .ok x
    else if suf = s% "java_list" then ∃ x, ListVariable.parse l = .ok x
    else if suf = s% "java_components" then ∃ x, Component.parse l = some x
    else if suf = s% "java_events" then ∃ x, Event.parse l = some x
    else if suf = s% "java_func" then ∃ x, MoreBlock.parse l = .ok x
    else False
  | .code _ => ∃ x, Block.parse l = some x

/-- Specification: a list with one record more, after as many as this. -/
def c122_More {α : Type} (read : Str → Option α) (l : Str) (i : Nat) (as bs : List α) : Prop :=
  ∃ p x q, p.length = i ∧ as = p ++ q ∧ bs = p ++ x :: q ∧ read l = some x

/-- Specification: a map with one declaration more: nothing else changes, and a declaration of the same name after it counts. -/
def c122_Decl {α : Type} (x : α) (name : Str) (a b : LMap Str α) : Prop :=
  (∀ n, n ≠ name → b.get n = a.get n) ∧ (b.get name = some x ∨ b.get name = a.get name ∧ a.get name ≠ none)

/-- Specification: two parts of a screen, of which the second has one record more. -/
def c122_Slots (l : Str) (i : Nat) : c115_Slot → c115_Slot → Prop
  | .vars p, .vars q => ∃ x, Variable.parse l = .ok x ∧ c122_Decl x x.name p.map q.map
  | .lists p, .lists q => ∃ x, ListVariable.parse l = .ok x ∧ c122_Decl x x.name p.map q.map
  | .mbs p, .mbs q => ∃ x, MoreBlock.parse l = .ok x ∧ c122_Decl x x.id p.map q.map
  | .comps p, .comps q => c122_More Component.parse l i p.items q.items
  | .events p, .events q => c122_More Event.parse l i p.items q.items
  | .code p, .code q => c122_More Block.parse l i p.blocks q.blocks
  | _, _ => False

/-- Specification: two logics that are the same but for one record more in this part of this screen. -/
def c122_Logics (l : Str) (i : Nat) (name : Str) (kind : c115_Kind) (r r' : Logic) : Prop := ∀ n, match r.screens.get n, r'.screens.get n with
  | none, none => True
  | some a, some b => a.name = b.name ∧ ∀ k, c115_at a k = c115_at b k ∨
      (n = name ∧ k = kind ∧ ∃ v w, c115_at a k = some v ∧ c115_at b k = some w ∧ c122_Slots l i v w)
  | _, _ => False

theorem c122_reads {α : Type} {p : Str → Option α} {l : Str} {b q : List Str} {vs ws : List α} (h : ReadsAll p (b ++ q) vs)
    (h' : ReadsAll p (b ++ l :: q) ws) : c122_More p l b.length vs ws := by
  obtain ⟨u, w, rfl, h1, h2, h3⟩ := c122_split h
  obtain ⟨u', x', w', rfl, h1', h2', h3'⟩ := c119_reads_mid h'
  obtain rfl := c119_reads_unique h1 h1'
  obtain rfl := c119_reads_unique h2 h3'
  exact ⟨u, x', w, h3, rfl, rfl, h2'⟩

theorem c122_lineParser {α : Type} {f : Str → Option α} {l : Str} {x : α} : (lineParser f l).toOption = some x ↔ f l = some x := by
  unfold lineParser
  cases f l <;> simp

theorem c122_line {α : Type} {f : Str → Option α} {l : Str} {i : Nat} {vs ws : List α} (h : c122_More (fun l => (lineParser f l).toOption) l i vs ws) :
    c122_More f l i vs ws := by
  obtain ⟨p, x, q, h1, h2, h3, h4⟩ := h
  exact ⟨p, x, q, h1, h2, h3, c122_lineParser.mp h4⟩

theorem c122_map {ε α : Type} {f : Str → Out ε α} (name : α → Str) {l : Str} {i : Nat} {vs ws : List α} (h : c122_More (fun l => (f l).toOption) l i vs ws) :
    ∃ x, f l = .ok x ∧ c122_Decl x (name x) (LMap.collect (vs.map fun v => (name v, v))) (LMap.collect (ws.map fun v => (name v, v))) := by
  obtain ⟨p, x, q, -, rfl, rfl, h4⟩ := h
  refine ⟨x, toOption_eq_some.mp h4, fun n hx => ?_, ?_⟩
  · rw [LMap.get_collect, LMap.get_collect]
    unfold LMap.last
    simp only [List.map_append, List.map_cons, List.reverse_append, List.reverse_cons, List.append_assoc, List.singleton_append]
    generalize ((q.map fun v => (name v, v)).reverse) = a
    induction a with
    | nil => simp [LMap.get, Ne.symm hx]
    | cons e a ih =>
      obtain ⟨k, e⟩ := e
      simp only [List.cons_append, LMap.get]
      rw [ih]
  · rw [LMap.get_collect, LMap.get_collect]
    unfold LMap.last
    simp only [List.map_append, List.map_cons, List.reverse_append, List.reverse_cons, List.append_assoc, List.singleton_append]
    generalize ((q.map fun v => (name v, v)).reverse) = a
    induction a with
    | nil => exact .inl (by simp [LMap.get])
    | cons e a ih =>
      obtain ⟨k, e⟩ := e
      simp only [List.cons_append, LMap.get]
      split
      · exact .inr ⟨rfl, by simp⟩
      · exact ih

theorem c122_slots {l : Str} {b q : List Str} {k : c115_Kind} {v w : c115_Slot} (h : c115_Reads (b ++ q) k v)
    (h' : c115_Reads (b ++ l :: q) k w) : c122_Slots l b.length v w := by
  cases k with
  | code c =>
    obtain ⟨x, h1, rfl⟩ := h
    obtain ⟨y, h2, rfl⟩ := h'
    exact c122_line (c122_reads h1 h2)
  | pool suf =>
    simp only [c115_Reads] at h h'
    split at h
    · rw [if_pos ‹_›] at h'
      obtain ⟨x, h1, rfl⟩ := h
      obtain ⟨y, h2, rfl⟩ := h'
      exact c122_map (·.name) (c122_reads h1 h2)
    rw [if_neg ‹_›] at h'
    split at h
    · rw [if_pos ‹_›] at h'
      obtain ⟨x, h1, rfl⟩ := h
      obtain ⟨y, h2, rfl⟩ := h'
      exact c122_map (·.name) (c122_reads h1 h2)
    rw [if_neg ‹_›] at h'
    split at h
    · rw [if_pos ‹_›] at h'
      obtain ⟨x, h1, rfl⟩ := h
      obtain ⟨y, h2, rfl⟩ := h'
      exact c122_line (c122_reads h1 h2)
    rw [if_neg ‹_›] at h'
    split at h
    · rw [if_pos ‹_›] at h'
      obtain ⟨x, h1, rfl⟩ := h
      obtain ⟨y, h2, rfl⟩ := h'
      exact c122_line (c122_reads h1 h2)
    rw [if_neg ‹_›] at h'
    split at h
    · rw [if_pos ‹_›] at h'
      obtain ⟨x, h1, rfl⟩ := h
      obtain ⟨y, h2, rfl⟩ := h'
      exact c122_map (·.id) (c122_reads h1 h2)
    · exact h.elim

/-- The lines of a section with one more. -/
theorem c122_poolReads {ε α : Type} {f : Str → Out ε α} {l : Str} {b q : List Str} {vs : List α} (hl : l ≠ []) (h : PoolReads f (b ++ q) vs) :
    (∃ ws, PoolReads f (b ++ l :: q) ws) ↔ ∃ x, f l = .ok x := by
  obtain ⟨u, w, rfl, h1, h2, -⟩ := c122_split h
  constructor
  · rintro ⟨ws, hw⟩
    obtain ⟨u', x', w', rfl, -, h2', -⟩ := c119_reads_mid hw
    exact ⟨x', toOption_eq_some.mp h2'⟩
  · rintro ⟨x, hx⟩
    exact ⟨_, h1.append (.cons hl (toOption_eq_some.mpr hx) h2)⟩

theorem c122_lineParser_ok {α : Type} {f : Str → Option α} {l : Str} : (∃ x, lineParser f l = .ok x) ↔ ∃ x, f l = some x := by
  unfold lineParser
  cases f l <;> simp

theorem c122_sec_reads {hd : Str} {body : List Str} {n : Str} {eff : ScreenLogic → ScreenLogic} {l : Str} {b q : List Str} (hl : l ≠ [])
    (h : Sec hd body n eff) (e : body = b ++ q) {k : c115_Kind} (hk : c115_Header hd n k) :
    (c122_Readable l k → ∃ eff', Sec hd (b ++ l :: q) n eff') ∧ ((∃ v, c115_Reads (b ++ l :: q) k v) → c122_Readable l k) := by
  subst e
  cases h with
  | var hx h =>
    obtain ⟨-, rfl⟩ := c115_header_unique hk (k' := .pool (s% "java_var")) ⟨by decide, _, hx, rfl⟩
    have := c122_poolReads hl h
    refine ⟨fun hr => ?_, fun ⟨v, ws, h1, h2⟩ => this.mp ⟨ws, h1⟩⟩
    obtain ⟨ws, hws⟩ := this.mpr hr
    exact ⟨_, .var hx hws⟩
  | list hx h =>
    obtain ⟨-, rfl⟩ := c115_header_unique hk (k' := .pool (s% "java_list")) ⟨by decide, _, hx, rfl⟩
    have := c122_poolReads hl h
    refine ⟨fun hr => ?_, fun ⟨v, ws, h1, h2⟩ => this.mp ⟨ws, h1⟩⟩
    obtain ⟨ws, hws⟩ := this.mpr hr
    exact ⟨_, .list hx hws⟩
  | components hx h =>
    obtain ⟨-, rfl⟩ := c115_header_unique hk (k' := .pool (s% "java_components")) ⟨by decide, _, hx, rfl⟩
    have := (c122_poolReads hl h).trans c122_lineParser_ok
    refine ⟨fun hr => ?_, fun ⟨v, ws, h1, h2⟩ => this.mp ⟨ws, h1⟩⟩
    obtain ⟨ws, hws⟩ := this.mpr hr
    exact ⟨_, .components hx hws⟩
  | events hx h =>
    obtain ⟨-, rfl⟩ := c115_header_unique hk (k' := .pool (s% "java_events")) ⟨by decide, _, hx, rfl⟩
    have := (c122_poolReads hl h).trans c122_lineParser_ok
    refine ⟨fun hr => ?_, fun ⟨v, ws, h1, h2⟩ => this.mp ⟨ws, h1⟩⟩
    obtain ⟨ws, hws⟩ := this.mpr hr
    exact ⟨_, .events hx hws⟩
  | func hx h =>
    obtain ⟨-, rfl⟩ := c115_header_unique hk (k' := .pool (s% "java_func")) ⟨by decide, _, hx, rfl⟩
    have := c122_poolReads hl h
    refine ⟨fun hr => ?_, fun ⟨v, ws, h1, h2⟩ => this.mp ⟨ws, h1⟩⟩
    obtain ⟨ws, hws⟩ := this.mpr hr
    exact ⟨_, .func hx hws⟩
  | @blocks _ hh _ bs hn hb h =>
    obtain ⟨k', v, hk', hv, -⟩ := c115_sec (Sec.blocks hn hb h)
    obtain ⟨-, rfl⟩ := c115_header_unique hk hk'
    cases k with
    | pool suf =>
      exfalso
      obtain ⟨hs, x, hx, rfl⟩ := hk
      have : endsWith suf ('@' :: (hh.screenName ++ x :: suf)) = true := endsWith_iff.mpr ⟨'@' :: (hh.screenName ++ [x]), by simp⟩
      obtain ⟨h1, h2, h3, h4, h5⟩ := hn
      simp only [c115_pools, List.mem_cons, List.not_mem_nil, or_false] at hs
      rcases hs with rfl | rfl | rfl | rfl | rfl
      · rw [h1] at this; cases this
      · rw [h2] at this; cases this
      · rw [h3] at this; cases this
      · rw [h4] at this; cases this
      · rw [h5] at this; cases this
    | code c =>
      have := (c122_poolReads hl h).trans c122_lineParser_ok
      refine ⟨fun hr => ?_, fun ⟨v, ws, h1, h2⟩ => this.mp ⟨ws, h1⟩⟩
      obtain ⟨ws, hws⟩ := this.mpr hr
      exact ⟨_, .blocks hn hb hws⟩

/-- Specification: the last paragraph of these lines. -/
def c122_LastPar (ls : List Str) (hd : Str) (b : List Str) : Prop := [] ∉ hd :: b ∧ (ls = hd :: b ∨ ∃ x, ls = x ++ [] :: hd :: b)

/-- Specification: every paragraph of these lines has a header. -/
def c122_Whole (ls : List Str) : Prop := ∀ p ∈ ls.splitOn ([] : Str), ∃ x b, p = ('@' :: x) :: b

/-- Every list of lines ends in a paragraph, which is empty if the last line is blank. -/
theorem c122_par (pre : List Str) : ∃ P p, pre.splitOn ([] : Str) = P ++ [p] ∧ [] ∉ p ∧ (pre = p ∧ P = [] ∨ ∃ x, pre = x ++ [] :: p) := by
  induction h : pre.length using Nat.strongRecOn generalizing pre with
  | _ n ih =>
  rcases splitOn_blank pre with ⟨body, rest, rfl, hb⟩ | hn
  · obtain ⟨P, p, h1, h2, h3⟩ := ih rest.length (by rw [← h]; simp; omega) rest rfl
    refine ⟨body :: P, p, ?_, h2, .inr ?_⟩
    · rw [List.splitOn_append_cons_self, List.splitOn_eq_singleton hb, h1]; rfl
    · rcases h3 with ⟨rfl, -⟩ | ⟨x, rfl⟩
      · exact ⟨body, rfl⟩
      · exact ⟨body ++ [] :: x, by simp⟩
  · exact ⟨[], pre, by rw [List.splitOn_eq_singleton hn]; rfl, hn, .inl ⟨rfl, rfl⟩⟩

theorem c122_sections {l y : Str} (hl : l ≠ []) {pre : List Str} (hp : pre.getLast? = some y) (hy : y ≠ []) (post : List Str) :
    (c122_Whole pre → ∃ A hd b q B, c122_LastPar pre hd b ∧ sections (pre ++ post) = A ++ (hd :: (b ++ q)) :: B ∧
      sections (pre ++ l :: post) = A ++ (hd :: (b ++ l :: q)) :: B) ∧
    (¬ c122_Whole pre → sections (pre ++ l :: post) = sections (pre ++ post)) := by
  obtain ⟨P, p, h1, hb, h4⟩ := c122_par pre
  obtain ⟨R, r, q, P1, g1, g2, g3⟩ := c116_paragraphs pre post
  obtain ⟨R', r', q', P1', k1, k2, k3⟩ := c116_paragraphs pre (l :: post)
  obtain ⟨rfl, e⟩ := List.append_inj' (h1.symm.trans g1) rfl
  obtain ⟨rfl, -⟩ := List.cons.inj e
  obtain ⟨rfl, e⟩ := List.append_inj' (h1.symm.trans k1) rfl
  obtain ⟨rfl, -⟩ := List.cons.inj e
  have e2 : q' = l :: q ∧ P1' = P1 := by
    rcases splitOn_blank post with ⟨body, rest, rfl, hbb⟩ | hn
    · rw [List.splitOn_append_cons_self, List.splitOn_eq_singleton hbb] at g2
      rw [← List.cons_append, List.splitOn_append_cons_self, List.splitOn_eq_singleton (by simp [hbb, Ne.symm hl])] at k2
      obtain ⟨rfl, rfl⟩ := List.cons.inj g2
      obtain ⟨rfl, rfl⟩ := List.cons.inj k2
      exact ⟨rfl, rfl⟩
    · rw [List.splitOn_eq_singleton hn] at g2
      rw [List.splitOn_eq_singleton (by simp [hn, Ne.symm hl])] at k2
      obtain ⟨rfl, rfl⟩ := List.cons.inj g2
      obtain ⟨rfl, rfl⟩ := List.cons.inj k2
      exact ⟨rfl, rfl⟩
  obtain ⟨rfl, rfl⟩ := e2
  obtain ⟨hd, b, rfl⟩ : ∃ hd b, p = hd :: b := by
    cases p with
    | cons hd b => exact ⟨hd, b, rfl⟩
    | nil =>
      rcases h4 with ⟨rfl, -⟩ | ⟨x, rfl⟩
      · cases hp
      · rw [List.getLast?_append, List.getLast?_singleton] at hp
        exact absurd (Option.some.inj hp).symm hy
  have hsec : ∀ m, isSection (hd :: (b ++ m)) = isSection (hd :: b) := fun m => rfl
  unfold sections
  rw [g3, k3]
  constructor
  · intro hw
    have hP : ∀ x ∈ P, isSection x = true := fun x hx => (c121_isSection x).mpr (hw x (by rw [h1]; simp [hx]))
    have hh : isSection (hd :: b) = true := (c121_isSection _).mpr (hw _ (by rw [h1]; simp))
    rw [List.takeWhile_append_of_pos hP, List.takeWhile_append_of_pos hP, List.takeWhile_cons, List.takeWhile_cons, List.cons_append, List.cons_append,
      hsec, hsec, hh]
    refine ⟨P, hd, b, q, _, ⟨hb, ?_⟩, rfl, rfl⟩
    rcases h4 with ⟨h, -⟩ | h
    · exact .inl h
    · exact .inr h
  · intro hw
    by_cases hP : ∀ x ∈ P, isSection x = true
    · have hh : ¬ isSection (hd :: b) = true := by
        intro hh
        refine hw fun x hx => (c121_isSection x).mp ?_
        rw [h1] at hx
        rcases List.mem_append.mp hx with hx | hx
        · exact hP x hx
        · rw [List.mem_singleton.mp hx]; exact hh
      rw [List.takeWhile_append_of_pos hP, List.takeWhile_append_of_pos hP, List.takeWhile_cons, List.takeWhile_cons, List.cons_append, List.cons_append,
        hsec, hsec, if_neg hh, if_neg hh]
    · have key : ∀ m, (P ++ m).takeWhile isSection = P.takeWhile isSection := by
        intro m
        rw [List.takeWhile_append, if_neg]
        intro e
        exact hP (c121_takeWhile.mp ((List.takeWhile_prefix _).eq_of_length e))
      rw [key, key]

/-- Two logic files of which one section has other lines. -/
theorem c122_replaced {s s' : Str} {r r' : Logic} (h : Logic.parse s = .ok r) (h' : Logic.parse s' = .ok r') {A B : List (List Str)} {hd : Str}
    {x y : List Str} (e1 : sections (lines s) = A ++ (hd :: x) :: B) (e2 : sections (lines s') = A ++ (hd :: y) :: B) {n₀ : Str} {k₀ : c115_Kind}
    (hk₀ : c115_Header hd n₀ k₀) (n : Str) : match r.screens.get n, r'.screens.get n with
      | none, none => True
      | some a, some b => a.name = b.name ∧ ∀ k, c115_at a k = c115_at b k ∨
          (n = n₀ ∧ k = k₀ ∧ ∃ v w, c115_at a k = some v ∧ c115_at b k = some w ∧ c115_Reads x k v ∧ c115_Reads y k w)
      | _, _ => False := by
  obtain ⟨es, he, _⟩ := (c69_ok s r).mp h
  obtain ⟨es', he', _⟩ := (c69_ok s' r').mp h'
  rw [c69_screen he h n, c69_screen he' h' n]
  have fwd : ∀ {n k body}, c115_Last (sections (lines s)) n k body → ∃ body', c115_Last (sections (lines s')) n k body' := by
    intro n k body hb
    rw [e1] at hb
    rw [e2]
    rcases c119_last y hb with hb | ⟨_, _, hb⟩
    · exact ⟨_, hb⟩
    · exact ⟨_, hb⟩
  have bwd : ∀ {n k body}, c115_Last (sections (lines s')) n k body → ∃ body', c115_Last (sections (lines s)) n k body' := by
    intro n k body hb
    rw [e2] at hb
    rw [e1]
    rcases c119_last x hb with hb | ⟨_, _, hb⟩
    · exact ⟨_, hb⟩
    · exact ⟨_, hb⟩
  have hmem : n ∈ es.map (·.1) ↔ n ∈ es'.map (·.1) := by
    rw [c115_named he, c115_named he']
    constructor
    · rintro ⟨k, body, hb⟩; exact ⟨k, fwd hb⟩
    · rintro ⟨k, body, hb⟩; exact ⟨k, bwd hb⟩
  by_cases hn : n ∈ es.map (·.1)
  · rw [if_pos hn, if_pos (hmem.mp hn)]
    obtain ⟨a1, a2⟩ := c115_parts he n (ScreenLogic.newEmpty n)
    obtain ⟨b1, b2⟩ := c115_parts he' n (ScreenLogic.newEmpty n)
    refine ⟨a1.trans b1.symm, fun k => ?_⟩
    have none_of : ∀ {ps : List (List Str)} {body : List Str}, (∀ hd body, hd :: body ∈ ps → ¬ c115_Header hd n k) →
        c115_Last ps n k body → False := by
      rintro ps body hno ⟨pre, hd, post, rfl, hh, _⟩
      exact hno hd body (by simp) hh
    rcases a2 k with ⟨body, v, l1, l2, l3⟩ | ⟨l1, l2⟩ <;> rcases b2 k with ⟨body', v', m1, m2, m3⟩ | ⟨m1, m2⟩
    · have l1' := l1
      rw [e1] at l1'
      rcases c119_last y l1' with hb | ⟨hk, hb, hb'⟩
      · rw [← e2] at hb
        have := c115_last_unique hb m1
        subst this
        exact .inl (l3.trans ((congrArg some (c115_reads_unique l2 m2)).trans m3.symm))
      · rw [← e2] at hb'
        have := c115_last_unique hb' m1
        subst this hb
        obtain ⟨en, ek⟩ := c115_header_unique hk hk₀
        exact .inr ⟨en, ek, v, v', l3, m3, l2, m2⟩
    · obtain ⟨_, hb⟩ := fwd l1
      exact (none_of m1 hb).elim
    · obtain ⟨_, hb⟩ := bwd m1
      exact (none_of l1 hb).elim
    · exact .inl (l2.trans m2.symm)
  · rw [if_neg hn, if_neg (fun hn' => hn (hmem.mpr hn'))]
    trivial

theorem c122_all_mid {α β : Type} {R : α → β → Prop} {x : α} {as' : List α} : ∀ {as : List α} {bs : List β}, All₂ R (as ++ x :: as') bs →
    ∃ b₁ y b₂, bs = b₁ ++ y :: b₂ ∧ All₂ R as b₁ ∧ R x y ∧ All₂ R as' b₂
  | [], _, .cons h t => ⟨[], _, _, rfl, .nil, h, t⟩
  | a :: as, _, .cons h t => by
    obtain ⟨b₁, y, b₂, rfl, h1, h2, h3⟩ := c122_all_mid t
    exact ⟨_ :: b₁, y, b₂, rfl, .cons h h1, h2, h3⟩

/-- C122: a logic file with one line more that is not blank and comes after a line that is not. If all paragraphs up to there have headers, the line belongs
to the section of the last header: the file is read exactly if the line can stand there, and then differs in this record only, or not at all if the section
comes again later. Otherwise the line has no effect. -/
theorem c122_logic {s s' l y : Str} {pre post : List Str} (hs : lines s = pre ++ post) (hs' : lines s' = pre ++ l :: post) (hl : l ≠ [])
    (hp : pre.getLast? = some y) (hy : y ≠ []) {r : Logic} (h : parse s = .ok r) :
    (c122_Whole pre → ∃ hd b n k, c122_LastPar pre hd b ∧ c115_Header hd n k ∧ ((∃ r', parse s' = .ok r') ↔ c122_Readable l k) ∧
      ∀ r', parse s' = .ok r' → c122_Logics l b.length n k r r') ∧
    (¬ c122_Whole pre → parse s' = .ok r) := by
  obtain ⟨g1, g2⟩ := c122_sections hl hp hy post
  obtain ⟨es, he, hr⟩ := (c69_ok s r).mp h
  constructor
  · intro hw
    obtain ⟨A, hd, b, q, B, h1, h2, h3⟩ := g1 hw
    have he2 := he
    rw [hs, h2] at he2
    obtain ⟨e₁, e, e₂, rfl, m1, m2, m3⟩ := c122_all_mid he2
    obtain ⟨hd', body, eb, hsec⟩ := m2
    obtain ⟨rfl, rfl⟩ := List.cons.inj eb
    obtain ⟨k, v, hk, hv, -⟩ := c115_sec hsec
    obtain ⟨k1, k2⟩ := c122_sec_reads hl hsec rfl hk
    refine ⟨hd, b, e.1, k, h1, hk, ⟨fun ⟨r', hr'⟩ => ?_, fun hread => ?_⟩, fun r' hr' n => ?_⟩
    · obtain ⟨es', he', _⟩ := (c69_ok s' r').mp hr'
      rw [hs', h3] at he'
      obtain ⟨_, e', _, rfl, _, ⟨hd', body, eb, hsec'⟩, _⟩ := c122_all_mid he'
      obtain ⟨rfl, rfl⟩ := List.cons.inj eb
      obtain ⟨k', v', hk', hv', -⟩ := c115_sec hsec'
      obtain ⟨-, rfl⟩ := c115_header_unique hk hk'
      exact k2 ⟨v', hv'⟩
    · obtain ⟨eff', hsec'⟩ := k1 hread
      refine ⟨_, (c69_ok s' _).mpr ⟨e₁ ++ (e.1, eff') :: e₂, ?_, rfl⟩⟩
      rw [hs', h3]
      exact c121_all_append m1 (.cons ⟨hd, _, rfl, hsec'⟩ m3)
    · have := c122_replaced h hr' (by rw [hs, h2]) (by rw [hs', h3]) hk n
      split
      · trivial
      · rename_i a c ha hc
        rw [ha, hc] at this
        refine ⟨this.1, fun k' => ?_⟩
        rcases this.2 k' with h | ⟨rfl, rfl, v, w, q1, q2, q3, q4⟩
        · exact .inl h
        · exact .inr ⟨rfl, rfl, v, w, q1, q2, c122_slots q3 q4⟩
      · rename_i hx hy
        split at this
        · rename_i hu hv; exact hx hu hv
        · rename_i a c hu hv; exact hy a c hu hv
        · exact this
  · intro hw
    refine (c69_ok s' r).mpr ⟨es, ?_, hr⟩
    rw [hs', g2 hw, ← hs]
    exact he

theorem c122_reads_less {ε α : Type} {f : Str → Out ε α} {l : Str} {b q : List Str} {vs : List α} (h : PoolReads f (b ++ l :: q) vs) :
    ∃ ws, PoolReads f (b ++ q) ws := by
  obtain ⟨u, x, w, rfl, h1, -, h3⟩ := c119_reads_mid h
  exact ⟨_, h1.append h3⟩

theorem c122_sec_less {hd : Str} {body : List Str} {n : Str} {eff : ScreenLogic → ScreenLogic} {l : Str} {b q : List Str}
    (h : Sec hd body n eff) (e : body = b ++ l :: q) : ∃ eff', Sec hd (b ++ q) n eff' := by
  subst e
  cases h with
  | var hx h => obtain ⟨_, hw⟩ := c122_reads_less h; exact ⟨_, .var hx hw⟩
  | list hx h => obtain ⟨_, hw⟩ := c122_reads_less h; exact ⟨_, .list hx hw⟩
  | components hx h => obtain ⟨_, hw⟩ := c122_reads_less h; exact ⟨_, .components hx hw⟩
  | events hx h => obtain ⟨_, hw⟩ := c122_reads_less h; exact ⟨_, .events hx hw⟩
  | func hx h => obtain ⟨_, hw⟩ := c122_reads_less h; exact ⟨_, .func hx hw⟩
  | blocks hn hb h => obtain ⟨_, hw⟩ := c122_reads_less h; exact ⟨_, .blocks hn hb hw⟩

/-- C122: a logic file from which a line is taken away that is not blank and comes after a line that is not is still read. -/
theorem c122_logic_less {s s' l y : Str} {pre post : List Str} (hs : lines s = pre ++ post) (hs' : lines s' = pre ++ l :: post) (hl : l ≠ [])
    (hp : pre.getLast? = some y) (hy : y ≠ []) {r : Logic} (h : parse s' = .ok r) : ∃ r', parse s = .ok r' := by
  obtain ⟨g1, g2⟩ := c122_sections hl hp hy post
  obtain ⟨es, he, hr⟩ := (c69_ok s' r).mp h
  by_cases hw : c122_Whole pre
  · obtain ⟨A, hd, b, q, B, h1, h2, h3⟩ := g1 hw
    rw [hs', h3] at he
    obtain ⟨e₁, e, e₂, rfl, m1, ⟨hd', body, eb, hsec⟩, m3⟩ := c122_all_mid he
    obtain ⟨rfl, rfl⟩ := List.cons.inj eb
    obtain ⟨eff', hsec'⟩ := c122_sec_less hsec rfl
    refine ⟨_, (c69_ok s _).mpr ⟨e₁ ++ (e.1, eff') :: e₂, ?_, rfl⟩⟩
    rw [hs, h2]
    exact c121_all_append m1 (.cons ⟨hd, _, rfl, hsec'⟩ m3)
  · refine ⟨r, (c69_ok s r).mpr ⟨es, ?_, hr⟩⟩
    rw [hs, ← g2 hw, ← hs']
    exact he

end Logic

/-! ### The hypotheses can be met -/

/-- `c122_file` and `c122_file_less`: an activity between two others. -/
example : ∃ (x y z : FileItem) (s s' a : Str), lines s = lines a ++ [z.reconstruct] ∧ lines s' = lines a ++ y.reconstruct :: [z.reconstruct] ∧
    File.parse s = .ok ⟨[x, z], []⟩ ∧ c122_Under [s% "@activity", s% "@customview"] (s% "@activity") (lines a) ∧ File.parse a = .ok ⟨[x], []⟩ ∧
    FileItem.parse y.reconstruct = some y ∧ y.reconstruct ≠ [] ∧ y.reconstruct.head? ≠ some '@' ∧ File.parse s' = .ok ⟨[x, y, z], []⟩ := by
  refine ⟨⟨s% "a", .activity, .unspecified, ⟨true, false, false, false⟩, .portrait, .none⟩, ⟨s% "b", .activity, .unspecified, ⟨true, false, false, false⟩, .portrait, .none⟩,
    ⟨s% "c", .activity, .unspecified, ⟨true, false, false, false⟩, .portrait, .none⟩,
    s% "@activity\n" ++ FileItem.reconstruct ⟨s% "a", .activity, .unspecified, ⟨true, false, false, false⟩, .portrait, .none⟩ ++ '\n' ::
      FileItem.reconstruct ⟨s% "c", .activity, .unspecified, ⟨true, false, false, false⟩, .portrait, .none⟩,
    s% "@activity\n" ++ FileItem.reconstruct ⟨s% "a", .activity, .unspecified, ⟨true, false, false, false⟩, .portrait, .none⟩ ++ '\n' ::
      FileItem.reconstruct ⟨s% "b", .activity, .unspecified, ⟨true, false, false, false⟩, .portrait, .none⟩ ++ '\n' ::
      FileItem.reconstruct ⟨s% "c", .activity, .unspecified, ⟨true, false, false, false⟩, .portrait, .none⟩,
    s% "@activity\n" ++ FileItem.reconstruct ⟨s% "a", .activity, .unspecified, ⟨true, false, false, false⟩, .portrait, .none⟩,
    by decide +kernel, by decide +kernel, by decide +kernel, ⟨⟨[], [FileItem.reconstruct ⟨s% "a", .activity, .unspecified, ⟨true, false, false, false⟩, .portrait, .none⟩],
      by decide +kernel, by decide +kernel⟩, fun u v e => ?_⟩, by decide +kernel, by decide +kernel, by decide +kernel, by decide +kernel, by decide +kernel⟩
  have : ([] : Str) ∉ lines (s% "@activity\n" ++ FileItem.reconstruct ⟨s% "a", .activity, .unspecified, ⟨true, false, false, false⟩, .portrait, .none⟩) := by
    decide +kernel
  exact absurd (by rw [e]; simp) this
/-- `c122_resource` and `c122_resource_less`: a line before the first header, and a line that is no resource. -/
example : ∃ s s' t a : Str, lines s = lines [] ++ [s% "@images"] ∧ lines s' = lines [] ++ s% "x" :: [s% "@images"] ∧ Resource.parse s = .ok ⟨[], [], []⟩ ∧
    (∀ hd ∈ [s% "@images", s% "@sounds", s% "@fonts"], ¬ c122_Under [s% "@images", s% "@sounds", s% "@fonts"] hd (lines [])) ∧
    Resource.parse s' = .ok ⟨[], [], []⟩ ∧ lines t = lines a ++ s% "x" :: [] ∧ lines s = lines a ++ [] ∧
    c122_Under [s% "@images", s% "@sounds", s% "@fonts"] (s% "@images") (lines a) ∧ Resource.parse t = .err (.item .images (lines a).length) := by
  refine ⟨s% "\n@images", s% "\nx\n@images", s% "\n@images\nx", s% "\n@images", by decide, by decide, by decide +kernel, ?_, by decide +kernel, by decide, by decide,
    ⟨⟨[[]], [], by decide, by simp⟩, ?_⟩, by decide +kernel⟩
  · rintro hd hm ⟨⟨a, b, e, -⟩, -⟩
    have : hd ∈ lines [] := by rw [e]; simp
    rw [show lines [] = [[]] from rfl, List.mem_singleton] at this
    subst this
    revert hm
    decide
  · intro a b e x hx
    rw [show lines (s% "\n@images") = [[], s% "@images"] by decide] at e
    cases a with
    | nil => simp at hx
    | cons c a =>
      obtain ⟨rfl, e⟩ := List.cons.inj e
      cases a with
      | nil => simp at e
      | cons d a =>
        obtain ⟨-, e⟩ := List.cons.inj e
        simp at e
/-- `c122_library`: another library after a header. -/
example : ∃ (s s' : Str) (i : LibraryItem) (b : Library) (post : List Str), lines s = [s% "@firebaseDB"] ++ post ∧
    lines s' = [s% "@firebaseDB"] ++ i.reconstruct :: post ∧ i.reconstruct.head? ≠ some '@' ∧ Library.parse s = .ok b ∧
    Library.parse s' = .ok { b with firebaseDb := i } ∧ LibraryItem.parse i.reconstruct = some i ∧ b.firebaseDb ≠ i :=
  ⟨Library.reconstruct ⟨sampleLib [], sampleLib [], sampleLib [], sampleLib []⟩,
    s% "@firebaseDB\n" ++ (sampleLib (s% "x")).reconstruct ++ (Library.reconstruct ⟨sampleLib [], sampleLib [], sampleLib [], sampleLib []⟩).drop 11,
    sampleLib (s% "x"), ⟨sampleLib [], sampleLib [], sampleLib [], sampleLib []⟩,
    (lines (Library.reconstruct ⟨sampleLib [], sampleLib [], sampleLib [], sampleLib []⟩)).drop 1, by decide +kernel⟩
/-- `View.c122_view` and `View.c122_view_less`: a view in an empty layout. -/
example [Floats] [MapPol] (x : AndroidView) (l : Str) (hx : AndroidView.parse l = some x) (hn : '\n' ∉ l) : ∃ s s' : Str,
    lines s = ([] : List Section).flatMap Section.toLines ++ ('@' :: (s% "a" ++ s% ".xml")) :: ([] ++ [[], s% "@b.xml"]) ∧
    lines s' = ([] : List Section).flatMap Section.toLines ++ ('@' :: (s% "a" ++ s% ".xml")) :: ([] ++ l :: [[], s% "@b.xml"]) ∧ l ≠ [] ∧
    View.parse s = .ok ⟨[(s% "a", ⟨[]⟩), (s% "b", ⟨[]⟩)], []⟩ := by
  refine ⟨s% "@a.xml\n\n@b.xml", s% "@a.xml" ++ '\n' :: (l ++ '\n' :: s% "\n@b.xml"), rfl, ?_, (c116_noHeader (r := []) c116_androidView hx).1, rfl⟩
  show splitOn _ _ = _
  rw [splitOn_append_sep (by decide), splitOn_append_sep hn]
  rfl
/-- `Logic.c122_logic` and `Logic.c122_logic_less`: a variable between two others; and a line that is no variable. -/
example [Floats] [MapPol] : ∃ s s' s'' : Str, lines s = [s% "@A.java_var", s% "1:x"] ++ [s% "1:z"] ∧ lines s' = [s% "@A.java_var", s% "1:x"] ++ s% "0:y" :: [s% "1:z"] ∧
    lines s'' = [s% "@A.java_var", s% "1:x"] ++ s% "y" :: [s% "1:z"] ∧
    Logic.c122_Whole [s% "@A.java_var", s% "1:x"] ∧ ¬ Logic.c122_Whole [s% "A.java_var", s% "1:x"] ∧
    Logic.parse s = .ok ⟨[(s% "A", { ScreenLogic.newEmpty (s% "A") with «variables» := some ⟨[(s% "x", ⟨s% "x", .integer⟩), (s% "z", ⟨s% "z", .integer⟩)]⟩ })]⟩ ∧
    Logic.parse s' = .ok ⟨[(s% "A", { ScreenLogic.newEmpty (s% "A") with
      «variables» := some ⟨[(s% "x", ⟨s% "x", .integer⟩), (s% "y", ⟨s% "y", .boolean⟩), (s% "z", ⟨s% "z", .integer⟩)]⟩ })]⟩ ∧
    (∀ r, Logic.parse s'' ≠ .ok r) := by
  refine ⟨s% "@A.java_var\n1:x\n1:z", s% "@A.java_var\n1:x\n0:y\n1:z", s% "@A.java_var\n1:x\ny\n1:z", rfl, rfl, rfl, ?_, ?_, rfl, rfl, fun r h => ?_⟩
  · unfold Logic.c122_Whole
    rw [show ([s% "@A.java_var", s% "1:x"] : List Str).splitOn ([] : Str) = [[s% "@A.java_var", s% "1:x"]] by decide]
    intro p hp
    rw [List.mem_singleton] at hp
    exact ⟨_, _, hp⟩
  · intro h
    obtain ⟨x, b, e⟩ := h [s% "A.java_var", s% "1:x"] (by decide)
    cases e
  · obtain ⟨e, he⟩ : ∃ e, Logic.parse (s% "@A.java_var\n1:x\ny\n1:z") = .err e := ⟨_, rfl⟩
    rw [he] at h
    cases h

end Swrs
