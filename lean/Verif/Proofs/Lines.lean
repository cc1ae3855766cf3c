import Verif.Json.Decode
/-! Lemmas about texts made of lines, and about JSON objects as lines. -/
namespace Swrs

/-- A line holding a JSON object: starts with `{`, ends with `}`, no line break. -/
structure JLine (l : Str) : Prop where
  head : l.head? = some '{'
  last : l.getLast? = some '}'
  noNl : '\n' ∉ l

theorem jline_obj {kvs : Json.Obj} (hv : (Json.obj kvs).Valid) : JLine (Json.obj kvs).print where
  head := by simp [Json.print]
  last := by
    rw [Json.print, ← List.cons_append, List.getLast?_append]; simp
  noNl := Json.print_no_nl _ hv

theorem JLine.ne_nil {l : Str} (h : JLine l) : l ≠ [] := by
  rintro rfl; have := h.head; simp at this

theorem JLine.ne_of_head {l t : Str} {c : Char} (h : JLine l) (ht : t.head? = some c) (hc : c ≠ '{') :
    l ≠ t := by
  rintro rfl; rw [h.head] at ht; simp at ht; exact hc ht.symm

theorem JLine.not_at {l : Str} (h : JLine l) : startsWith ['@'] l = false := by
  cases hs : startsWith ['@'] l with
  | false => rfl
  | true =>
    rw [startsWith_single, h.head] at hs; simp at hs

theorem JLine.head_not_ws {l : Str} (h : JLine l) : ∀ c, l.head? = some c → isWs c = false := by
  intro c hc; rw [h.head] at hc; simp at hc; subst hc; decide
theorem JLine.last_not_ws {l : Str} (h : JLine l) : ∀ c, l.getLast? = some c → isWs c = false := by
  intro c hc; rw [h.last] at hc; simp at hc; subst hc; decide

/-- The lines are not blank and are read, one by one, as the given values. -/
inductive ReadsAll {α : Type} (p : Str → Option α) : List Str → List α → Prop where
  | nil : ReadsAll p [] []
  | cons {l : Str} {a : α} {ls : List Str} {as : List α} (hne : l ≠ []) (h : p l = some a) (t : ReadsAll p ls as) :
    ReadsAll p (l :: ls) (a :: as)

theorem ReadsAll.map {α : Type} {p : Str → Option α} {f : α → Str} {as : List α}
    (h : ∀ a ∈ as, f a ≠ [] ∧ p (f a) = some a) : ReadsAll p (as.map f) as := by
  induction as with
  | nil => exact .nil
  | cons a as ih =>
    exact .cons (h a (by simp)).1 (h a (by simp)).2 (ih fun b hb => h b (by simp [hb]))

/-- Each piece followed by a separator. -/
def unlines (ps : List Str) : Str := ps.foldr (fun p s => p ++ '\n' :: s) []

@[simp] theorem unlines_nil : unlines [] = [] := rfl
@[simp] theorem unlines_cons (p : Str) (ps : List Str) : unlines (p :: ps) = p ++ '\n' :: unlines ps := rfl

theorem unlines_append (ps qs : List Str) : unlines (ps ++ qs) = unlines ps ++ unlines qs := by
  induction ps with
  | nil => rfl
  | cons p ps ih => simp [ih]

theorem foldl_unlines {α : Type} (f : α → Str) (as : List α) (acc : Str) :
    as.foldl (fun acc i => acc ++ (f i ++ ['\n'])) acc = acc ++ unlines (as.map f) := by
  induction as generalizing acc with
  | nil => simp
  | cons a as ih => simp [ih]

theorem lines_unlines {ps : List Str} (h : ∀ p ∈ ps, '\n' ∉ p) (rest : Str) :
    lines (unlines ps ++ rest) = ps ++ lines rest := by
  induction ps with
  | nil => rfl
  | cons p ps ih =>
    simp only [unlines_cons, List.append_assoc, List.cons_append]
    rw [lines, splitOn_append_sep (h p (by simp))]
    have := ih fun q hq => h q (by simp [hq])
    simp only [lines] at this
    rw [this]

theorem unlines_eq_joinWith {ps : List Str} (hne : ps ≠ []) : unlines ps = joinWith '\n' ps ++ ['\n'] := by
  induction ps with
  | nil => exact absurd rfl hne
  | cons p ps ih =>
    cases ps with
    | nil => simp [joinWith]
    | cons q qs => rw [unlines_cons, ih (by simp)]; simp [joinWith]

theorem lines_joinWith_append {ps : List Str} (hne : ps ≠ []) (h : ∀ p ∈ ps, '\n' ∉ p) (rest : Str) :
    lines (joinWith '\n' ps ++ '\n' :: rest) = ps ++ lines rest := by
  have := lines_unlines h rest
  rw [unlines_eq_joinWith hne] at this
  simpa using this

theorem joinWith_head {ps : List Str} {p : Str} (h : p ≠ []) : (joinWith '\n' (p :: ps)).head? = p.head? := by
  cases p with
  | nil => exact absurd rfl h
  | cons c p => cases ps <;> simp [joinWith]

theorem joinWith_last {ps : List Str} (hne : ps ≠ []) (h : ∀ p ∈ ps, p ≠ []) :
    ∃ p ∈ ps, (joinWith '\n' ps).getLast? = p.getLast? := by
  induction ps with
  | nil => exact absurd rfl hne
  | cons p ps ih =>
    cases ps with
    | nil => exact ⟨p, by simp, by simp [joinWith]⟩
    | cons q qs =>
      obtain ⟨r, hr, hl⟩ := ih (by simp) fun x hx => h x (by simp [hx])
      refine ⟨r, by simp [hr], ?_⟩
      rw [joinWith]
      have hrne : r ≠ [] := h r (by simp [hr])
      have hj : joinWith '\n' (q :: qs) ≠ [] := by
        intro h0; rw [h0] at hl; simp at hl; exact hrne (by simpa using hl.symm)
      rw [List.getLast?_append, List.getLast?_cons, hl]
      cases hq : r.getLast? with
      | none => simp at hq; exact absurd hq hrne
      | some c => simp

/-- Trimming a block of JSON lines keeps the lines. -/
theorem trim_jlines {ps : List Str} (h : ∀ p ∈ ps, JLine p) (w w' : Str)
    (hw : ∀ c ∈ w, isWs c = true) (hw' : ∀ c ∈ w', isWs c = true) :
    trim (w ++ joinWith '\n' ps ++ w') = joinWith '\n' ps := by
  apply trim_frame hw hw'
  · intro c hc
    cases ps with
    | nil => simp [joinWith] at hc
    | cons p ps =>
      rw [joinWith_head (h p (by simp)).ne_nil] at hc
      exact (h p (by simp)).head_not_ws c hc
  · intro c hc
    by_cases hne : ps = []
    · subst hne; simp [joinWith] at hc
    · obtain ⟨p, hp, hl⟩ := joinWith_last hne fun p hp => (h p hp).ne_nil
      rw [hl] at hc
      exact (h p hp).last_not_ws c hc

theorem trim_unlines {ps : List Str} (h : ∀ p ∈ ps, JLine p) : trim (unlines ps) = joinWith '\n' ps := by
  by_cases hne : ps = []
  · subst hne; rfl
  · rw [unlines_eq_joinWith hne]
    have := trim_jlines h [] ['\n'] (by simp) (by simp [isWs])
    simpa using this

theorem foldl_nl {α : Type} (f : α → Str) (as : List α) (acc : Str) :
    as.foldl (fun acc i => acc ++ ('\n' :: f i)) acc = acc ++ (as.map f).flatMap ('\n' :: ·) := by
  induction as generalizing acc with
  | nil => simp
  | cons a as ih => simp [ih]

theorem flatMap_nl {ps : List Str} (hne : ps ≠ []) :
    ps.flatMap ('\n' :: ·) = '\n' :: joinWith '\n' ps := by
  induction ps with
  | nil => exact absurd rfl hne
  | cons p ps ih =>
    cases ps with
    | nil => simp [joinWith]
    | cons q qs =>
      rw [List.flatMap_cons, ih (by simp)]; simp [joinWith]

theorem trim_flatMap_nl {ps : List Str} (h : ∀ p ∈ ps, JLine p) :
    trim (ps.flatMap ('\n' :: ·)) = joinWith '\n' ps := by
  by_cases hne : ps = []
  · subst hne; rfl
  · rw [flatMap_nl hne]
    have := trim_jlines h ['\n'] [] (by simp [isWs]) (by simp)
    simpa using this

theorem getLast?_joinWith_concat {ps : List Str} {p : Str} (hp : p ≠ []) :
    (joinWith '\n' (ps ++ [p])).getLast? = p.getLast? := by
  induction ps with
  | nil => simp [joinWith]
  | cons q ps ih =>
    cases hps : ps ++ [p] with
    | nil => simp at hps
    | cons r rs =>
      rw [hps] at ih
      rw [List.cons_append, hps, joinWith, List.getLast?_append, List.getLast?_cons, ih]
      cases hl : p.getLast? with
      | none => simp at hl; exact absurd hl hp
      | some c => simp

end Swrs
