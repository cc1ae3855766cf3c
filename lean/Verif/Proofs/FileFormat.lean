import Verif.Proofs.Format
import Verif.Proofs.FileLike
import Verif.Proofs.PoolText
/-! # The text of whole files: specification and lemmas -/
namespace Swrs

namespace Format

/-- Texts with a separator between them. -/
def between (sep : String) : List Str → Str
  | [] => []
  | [t] => t
  | t :: u :: ts => t ++ sep.toList ++ between sep (u :: ts)

/-- Texts with an end of line after each. -/
def ended : List Str → Str
  | [] => []
  | t :: ts => t ++ "\n".toList ++ ended ts

/-- A text that trimming does not change, and that is not empty. -/
def Tidy (t : Str) : Prop := t ≠ [] ∧ trim t = t

theorem between_nl (ts : List Str) : between "\n" ts = joinWith '\n' ts := by
  induction ts with
  | nil => rfl
  | cons t ts ih =>
    cases ts with
    | nil => rfl
    | cons u us =>
      rw [between, ih, joinWith, show "\n".toList = ['\n'] from rfl]; simp

theorem ended_eq (ts : List Str) : ended ts = unlines ts := by
  induction ts with
  | nil => rfl
  | cons t ts ih => rw [ended, ih, unlines_cons, show "\n".toList = ['\n'] from rfl]; simp

theorem tidy_iff {t : Str} : Tidy t ↔ t ≠ [] ∧ (∀ c, t.head? = some c → isWs c = false) ∧
    ∀ c, t.getLast? = some c → isWs c = false := by
  refine and_congr_right fun hne => ⟨fun h => ?_, fun h => trim_eq h.1 h.2⟩
  have h2 : ∀ c, t.getLast? = some c → isWs c = false := by
    rw [← h]; unfold trim; exact trimEnd_getLast _
  refine ⟨?_, h2⟩
  intro c hc
  cases hw : isWs c with
  | false => rfl
  | true =>
    exfalso
    cases t with
    | nil => exact hne rfl
    | cons d t =>
      simp at hc; subst hc
      have h1 := congrArg List.length h
      have h3 : trimStart (d :: t) = trimStart t := by simp [trimStart, hw]
      unfold trim at h1
      rw [h3] at h1
      have h4 := (trimEnd_prefix (trimStart t)).length_le
      have h5 := (trimStart_suffix t).length_le
      simp only [List.length_cons] at h1
      omega

theorem Tidy.ne {t : Str} (h : Tidy t) : t ≠ [] := h.1
theorem Tidy.head {t : Str} (h : Tidy t) : ∀ c, t.head? = some c → isWs c = false := (tidy_iff.1 h).2.1
theorem Tidy.last {t : Str} (h : Tidy t) : ∀ c, t.getLast? = some c → isWs c = false := (tidy_iff.1 h).2.2

theorem Tidy.append {t u : Str} (ht : Tidy t) (m : Str) (hu : Tidy u) : Tidy (t ++ m ++ u) := by
  refine tidy_iff.2 ⟨by simp [ht.ne], fun c hc => ht.head c ?_, fun c hc => hu.last c ?_⟩
  · cases t with
    | nil => exact absurd rfl ht.ne
    | cons d t => simpa using hc
  · rw [List.getLast?_append] at hc
    cases hl : u.getLast? with
    | none => simp at hl; exact absurd hl hu.ne
    | some d => rw [hl] at hc; simpa using hc

theorem tidy_between {sep : String} {ts : List Str} (hne : ts ≠ []) (h : ∀ t ∈ ts, Tidy t) : Tidy (between sep ts) := by
  induction ts with
  | nil => exact absurd rfl hne
  | cons t ts ih =>
    cases ts with
    | nil => exact h t (by simp)
    | cons u us => exact (h t (by simp)).append _ (ih (by simp) fun v hv => h v (by simp [hv]))

theorem trim_framed {t w w' : Str} (h : t = [] ∨ Tidy t) (hw : ∀ c ∈ w, isWs c = true) (hw' : ∀ c ∈ w', isWs c = true) :
    trim (w ++ t ++ w') = t := by
  rcases h with h | h
  · exact trim_frame hw hw' (by simp [h]) (by simp [h])
  · exact trim_frame hw hw' h.head h.last

theorem between_or {sep : String} {ts : List Str} (h : ∀ t ∈ ts, Tidy t) : between sep ts = [] ∨ Tidy (between sep ts) := by
  by_cases hne : ts = []
  · exact .inl (by rw [hne]; rfl)
  · exact .inr (tidy_between hne h)

/-- A separator after each text is one between them and one at the end. -/
theorem flatMap_after {sep : String} {ts : List Str} (hne : ts ≠ []) :
    ts.flatMap (· ++ sep.toList) = between sep ts ++ sep.toList := by
  induction ts with
  | nil => exact absurd rfl hne
  | cons t ts ih =>
    cases ts with
    | nil => simp [between]
    | cons u us => rw [List.flatMap_cons, ih (by simp)]; simp [between]

theorem flatMap_before {sep : String} {ts : List Str} (hne : ts ≠ []) :
    ts.flatMap (sep.toList ++ ·) = sep.toList ++ between sep ts := by
  induction ts with
  | nil => exact absurd rfl hne
  | cons t ts ih =>
    cases ts with
    | nil => simp [between]
    | cons u us => rw [List.flatMap_cons, ih (by simp)]; simp [between]

theorem trim_after {sep : String} {ts : List Str} (hs : ∀ c ∈ sep.toList, isWs c = true) (h : ∀ t ∈ ts, Tidy t) :
    trim (ts.flatMap (· ++ sep.toList)) = between sep ts := by
  by_cases hne : ts = []
  · subst hne; rfl
  · rw [flatMap_after hne]
    have := trim_framed (w := []) (between_or (sep := sep) h) (by simp) hs
    simpa using this

theorem trimEnd_after {sep : String} {ts : List Str} (hs : ∀ c ∈ sep.toList, isWs c = true) (h : ∀ t ∈ ts, Tidy t) :
    trimEnd (ts.flatMap (· ++ sep.toList)) = between sep ts := by
  by_cases hne : ts = []
  · subst hne; rfl
  · rw [flatMap_after hne]
    exact trimEnd_frame hs (tidy_between hne h).last

theorem trim_before {sep : String} {ts : List Str} (hs : ∀ c ∈ sep.toList, isWs c = true) (h : ∀ t ∈ ts, Tidy t) :
    trim (ts.flatMap (sep.toList ++ ·)) = between sep ts := by
  by_cases hne : ts = []
  · subst hne; rfl
  · rw [flatMap_before hne]
    have := trim_framed (w' := []) (between_or (sep := sep) h) hs (by simp)
    simpa using this

theorem between_flatten {sep : String} {xs ys : List Str} (hx : xs ≠ []) (hy : ys ≠ []) :
    between sep (xs ++ ys) = between sep xs ++ sep.toList ++ between sep ys := by
  induction xs with
  | nil => exact absurd rfl hx
  | cons x xs ih =>
    cases xs with
    | nil =>
      cases ys with
      | nil => exact absurd rfl hy
      | cons y ys => simp [between]
    | cons z zs =>
      have := ih (by simp)
      simp only [List.cons_append] at this ⊢
      simp only [between, this, List.append_assoc]

/-- Joining groups of texts, none of them empty, joins all of them. -/
theorem between_groups {sep : String} {gs : List (List Str)} (h : ∀ g ∈ gs, g ≠ []) :
    between sep (gs.map (between sep)) = between sep gs.flatten := by
  induction gs with
  | nil => rfl
  | cons g gs ih =>
    cases gs with
    | nil => simp [between]
    | cons g' gs =>
      have := ih fun k hk => h k (by simp [hk])
      have hf : (g' :: gs).flatten ≠ [] := by simp [h g' (by simp)]
      rw [List.map_cons, List.map_cons, between, ← List.map_cons, this, List.flatten_cons (l := g),
        between_flatten (h g (by simp)) hf]

/-- A record is tidy. -/
theorem tidy_record (fs : List (String × Str)) : Tidy (record fs) := by
  unfold record
  exact tidy_iff.2 ⟨by simp, by intro c hc; simp at hc; subst hc; decide, by
    intro c hc
    rw [List.getLast?_append] at hc
    simp at hc; subst hc; decide⟩

end Format

open Format

theorem foldLines_tidy {ls : List Str} (h : ∀ l ∈ ls, Tidy l) : foldLines ls = between "\n" ls := by
  unfold foldLines
  have := foldl_nl id ls []
  simp only [id, List.map_id, List.nil_append] at this
  rw [this, show (fun x : Str => '\n' :: x) = ("\n".toList ++ ·) from rfl]
  exact trim_before (by decide) h

end Swrs
