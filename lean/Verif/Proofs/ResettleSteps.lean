import Verif.Proofs.Resettle
/-!
Every save of a logic file that was read shortens the names, as long as some name does not survive.
-/
set_option linter.unusedSectionVars false
namespace Swrs

theorem All₂.append {α β : Type} {R : α → β → Prop} {as as' : List α} {bs bs' : List β} (h : All₂ R as bs) (h' : All₂ R as' bs') :
    All₂ R (as ++ as') (bs ++ bs') := by
  induction h with
  | nil => exact h'
  | cons h _ ih => exact .cons h ih

theorem All₂.filterMap {α β γ : Type} {R : α → β → Prop} {f : γ → Option α} {g : γ → Option β} {cs : List γ}
    (h : ∀ c ∈ cs, (f c = none ∧ g c = none) ∨ ∃ a b, f c = some a ∧ g c = some b ∧ R a b) :
    All₂ R (cs.filterMap f) (cs.filterMap g) := by
  induction cs with
  | nil => exact .nil
  | cons c cs ih =>
    have ih := ih fun d hd => h d (by simp [hd])
    rcases h c (by simp) with ⟨h1, h2⟩ | ⟨a, b, h1, h2, h3⟩
    · rw [List.filterMap_cons_none h1, List.filterMap_cons_none h2]; exact ih
    · rw [List.filterMap_cons_some h1, List.filterMap_cons_some h2]; exact .cons h3 ih

theorem All₂.flatMap {α β γ : Type} {R : α → β → Prop} {f : γ → List α} {g : γ → List β} {cs : List γ}
    (h : ∀ c ∈ cs, All₂ R (f c) (g c)) : All₂ R (cs.flatMap f) (cs.flatMap g) := by
  induction cs with
  | nil => exact .nil
  | cons c cs ih => exact (h c (by simp)).append (ih fun d hd => h d (by simp [hd]))

theorem sum_le {os : List (Nat × Prop)} {ws : List Nat} (h : All₂ (fun (o : Nat × Prop) (w : Nat) => w ≤ o.1 ∧ (w = o.1 → o.2)) os ws) :
    ws.sum < (os.map (·.1)).sum ∨ (ws.sum = (os.map (·.1)).sum ∧ ∀ o ∈ os, o.2) := by
  induction h with
  | nil => exact .inr ⟨rfl, by simp⟩
  | @cons o w os ws h _ ih =>
    obtain ⟨h1, h2⟩ := h
    simp only [List.map_cons, List.sum_cons, List.forall_mem_cons]
    by_cases e : w = o.1
    · rcases ih with ih | ⟨ih1, ih2⟩
      · left; omega
      · right; exact ⟨by omega, h2 e, ih2⟩
    · left
      rcases ih with ih | ⟨ih1, _⟩ <;> omega

theorem sum_zero {os : List (Nat × Prop)} (h : ∀ o ∈ os, o.1 = 0 → o.2) : 0 < (os.map (·.1)).sum ∨ ∀ o ∈ os, o.2 := by
  induction os with
  | nil => simp
  | cons o os ih =>
    simp only [List.map_cons, List.sum_cons, List.forall_mem_cons] at h ⊢
    by_cases e : o.1 = 0
    · rcases ih h.2 with ih | ih
      · left; omega
      · exact .inr ⟨h.1 e, ih⟩
    · left; omega

theorem reads_bulk {ε α : Type} {p : Str → Out ε α} (g : α → Nat) (hg : ∀ l a, p l = .ok a → g a ≤ l.length) {ls : List Str} {as : List α}
    (h : PoolReads p ls as) : (as.map g).sum ≤ bulk ls := by
  induction h with
  | nil => exact Nat.le_refl _
  | @cons l a ls as hne hp _ ih =>
    have := hg l a (toOption_eq_some.mp hp)
    simp only [bulk, List.map_cons, List.sum_cons] at ih ⊢
    omega

theorem Variable.reads_bulk {ls : List Str} {vs : List Variable} (h : PoolReads Variable.parse ls vs) :
    (vs.map fun v => 1 + v.name.length).sum ≤ bulk ls := by
  refine Swrs.reads_bulk _ (fun l a h => ?_) h
  obtain ⟨t, rfl, _⟩ := Variable.parse_eq_ok.mp h
  simp; omega

theorem ListVariable.reads_bulk {ls : List Str} {vs : List ListVariable} (h : PoolReads ListVariable.parse ls vs) :
    (vs.map fun v => 1 + v.name.length).sum ≤ bulk ls := by
  refine Swrs.reads_bulk _ (fun l a h => ?_) h
  obtain ⟨t, rfl, _⟩ := ListVariable.parse_eq_ok.mp h
  simp; omega

theorem MoreBlock.reads_bulk {ls : List Str} {vs : List MoreBlock} (h : PoolReads MoreBlock.parse ls vs) :
    (vs.map fun v => 1 + v.id.length + v.spec.length).sum ≤ bulk ls := by
  refine Swrs.reads_bulk _ (fun l a h => ?_) h
  obtain ⟨rfl, _⟩ := MoreBlock.parse_eq_ok.mp h
  simp [MoreBlock.reconstruct]; omega

/-- The lines of the sections are shorter than the text. -/
theorem bulk_lines (s : Str) : bulk (lines s) ≤ s.length := by
  induction s with
  | nil => exact Nat.le_refl _
  | cons c s ih =>
    have ih : bulk (splitOn '\n' s) ≤ s.length := ih
    unfold lines
    rw [splitOn]
    split
    · simp only [bulk, List.map_cons, List.sum_cons, List.length_nil, List.length_cons] at ih ⊢
      omega
    · cases h : splitOn '\n' s with
      | nil => simp [bulk]
      | cons p ps =>
        rw [h] at ih
        simp only [bulk, List.map_cons, List.sum_cons, List.length_cons] at ih ⊢
        omega

theorem bulk_append (a b : List Str) : bulk (a ++ b) = bulk a + bulk b := by
  simp [bulk]

theorem bulk_splitOn (ls : List Str) : ((ls.splitOn ([] : Str)).map bulk).sum ≤ bulk ls := by
  generalize hlen : ls.length = len
  induction len using Nat.strongRecOn generalizing ls with
  | _ len ih =>
    rcases Logic.splitOn_blank ls with ⟨a, b, rfl, ha⟩ | hm
    · rw [List.splitOn_append_cons_self, List.splitOn_eq_singleton ha, List.singleton_append, List.map_cons, List.sum_cons]
      have := ih b.length (by subst hlen; simp; omega) b rfl
      rw [bulk_append]
      have e : bulk ([] :: b) = bulk b := by simp [bulk]
      omega
    · rw [List.splitOn_eq_singleton hm]; simp

theorem bulk_sections (s : Str) : ((Logic.sections (lines s)).map bulk).sum ≤ s.length := by
  have h1 : ((Logic.sections (lines s)).map bulk).sum ≤ (((lines s).splitOn ([] : Str)).map bulk).sum := by
    unfold Logic.sections
    conv => rhs; rw [← List.takeWhile_append_dropWhile (p := Logic.isSection) (l := (lines s).splitOn ([] : Str))]
    rw [List.map_append, List.sum_append]
    omega
  exact Nat.le_trans h1 (Nat.le_trans (bulk_splitOn _) (bulk_lines s))

section
variable [Floats] [MapPol]

/-! ### how a section weighs that was written -/

namespace Logic

theorem weighs_pool {n suf : Str} {body : List Str} {w : Nat} (h : Weighs ('@' :: (n ++ suf)) body w) :
    (suf = s% ".java_var" → ∃ vs, PoolReads Variable.parse body vs ∧ w = (vs.map fun v => 1 + v.name.length).sum) ∧
    (suf = s% ".java_list" → ∃ vs, PoolReads ListVariable.parse body vs ∧ w = (vs.map fun v => 1 + v.name.length).sum) ∧
    (suf = s% ".java_components" → w = 0) ∧
    (suf = s% ".java_events" → w = 0) ∧
    (suf = s% ".java_func" → ∃ vs, PoolReads MoreBlock.parse body vs ∧
      w = (vs.map fun v => 1 + v.id.length + v.spec.length).sum) := by
  generalize hh : '@' :: (n ++ suf) = hd at h
  have hlast : ∀ c, suf.getLast? = some c → hd.getLast? = some c := by
    intro c hc; rw [← hh, ← List.cons_append, List.getLast?_append, hc]; rfl
  have hends : ∀ w, suf = '.' :: w → endsWith w hd = true := by
    rintro w rfl; rw [← hh]; exact not_pool_self _ _ _
  cases h with
  | @var k x _ vs h =>
    have hl := pool_last k (s% "java_var") x 'r' rfl
    refine ⟨fun _ => ⟨vs, h, rfl⟩, ?_, ?_, ?_, ?_⟩
    · rintro rfl; have := hlast 't' rfl; rw [hl] at this; simp at this
    · rintro rfl; have := hlast 's' rfl; rw [hl] at this; simp at this
    · rintro rfl; have := hlast 's' rfl; rw [hl] at this; simp at this
    · rintro rfl; have := hlast 'c' rfl; rw [hl] at this; simp at this
  | @list k x _ vs h =>
    have hl := pool_last k (s% "java_list") x 't' rfl
    refine ⟨?_, fun _ => ⟨vs, h, rfl⟩, ?_, ?_, ?_⟩
    · rintro rfl; have := hlast 'r' rfl; rw [hl] at this; simp at this
    · rintro rfl; have := hlast 's' rfl; rw [hl] at this; simp at this
    · rintro rfl; have := hlast 's' rfl; rw [hl] at this; simp at this
    · rintro rfl; have := hlast 'c' rfl; rw [hl] at this; simp at this
  | @components k x _ =>
    have hl := pool_last k (s% "java_components") x 's' rfl
    refine ⟨?_, ?_, fun _ => rfl, fun _ => rfl, ?_⟩
    · rintro rfl; have := hlast 'r' rfl; rw [hl] at this; simp at this
    · rintro rfl; have := hlast 't' rfl; rw [hl] at this; simp at this
    · rintro rfl; have := hlast 'c' rfl; rw [hl] at this; simp at this
  | @events k x _ =>
    have hl := pool_last k (s% "java_events") x 's' rfl
    refine ⟨?_, ?_, fun _ => rfl, fun _ => rfl, ?_⟩
    · rintro rfl; have := hlast 'r' rfl; rw [hl] at this; simp at this
    · rintro rfl; have := hlast 't' rfl; rw [hl] at this; simp at this
    · rintro rfl; have := hlast 'c' rfl; rw [hl] at this; simp at this
  | @func k x _ vs h =>
    have hl := pool_last k (s% "java_func") x 'c' rfl
    refine ⟨?_, ?_, ?_, ?_, fun _ => ⟨vs, h, rfl⟩⟩
    · rintro rfl; have := hlast 'r' rfl; rw [hl] at this; simp at this
    · rintro rfl; have := hlast 't' rfl; rw [hl] at this; simp at this
    · rintro rfl; have := hlast 's' rfl; rw [hl] at this; simp at this
    · rintro rfl; have := hlast 's' rfl; rw [hl] at this; simp at this
  | blocks hn hl hb =>
    obtain ⟨n1, n2, n3, n4, n5⟩ := hn
    refine ⟨?_, ?_, ?_, ?_, ?_⟩
    · rintro rfl; rw [hends _ rfl] at n1; simp at n1
    · rintro rfl; rw [hends _ rfl] at n2; simp at n2
    · rintro rfl; rw [hends _ rfl] at n3; simp at n3
    · rintro rfl; rw [hends _ rfl] at n4; simp at n4
    · rintro rfl; rw [hends _ rfl] at n5; simp at n5

/-- A section that is not one of containers weighs less than its text. -/
theorem weighs_bulk {hd : Str} {body : List Str} {w : Nat} (h : Weighs hd body w) (hp : ¬ NotPool hd) : w ≤ bulk body ∧ 6 ≤ hd.length := by
  cases h with
  | var h => exact ⟨Variable.reads_bulk h, by simp⟩
  | list h => exact ⟨ListVariable.reads_bulk h, by simp⟩
  | components => exact ⟨by omega, by simp⟩
  | events => exact ⟨by omega, by simp⟩
  | func h => exact ⟨MoreBlock.reads_bulk h, by simp⟩
  | blocks hn _ _ => exact absurd hn hp
end Logic

theorem trimEnd_length (s : Str) : (trimEnd s).length ≤ s.length := (trimEnd_prefix s).length_le

theorem trimStart_length (s : Str) : (trimStart s).length ≤ s.length := (trimStart_suffix s).length_le

theorem trimEnd_of_length {s : Str} (h : (trimEnd s).length = s.length) : trimEnd s = s := (trimEnd_prefix s).eq_of_length h

theorem trimStart_of_length {s : Str} (h : (trimStart s).length = s.length) : trimStart s = s := (trimStart_suffix s).eq_of_length h

/-- What is read from the written lines of a pool named by the end of the line. -/
theorem SuffixNamed.weigh {ε α : Type} {p : Str → Out ε α} {f key : α → Str} (S : SuffixNamed p f key) (as : List α) {vs : List α}
    (h : PoolReads p (foldBody (as.map f)) vs) : (vs.map fun v => 1 + (key v).length).sum ≤ (as.map fun v => 1 + (key v).length).sum ∧
      ((vs.map fun v => 1 + (key v).length).sum = (as.map fun v => 1 + (key v).length).sum →
        ∀ a, as.getLast? = some a → trimEnd (key a) = key a) := by
  rcases List.eq_nil_or_concat as with rfl | ⟨ini, a, rfl⟩
  · cases h
    exact ⟨Nat.le_refl _, by simp⟩
  · rw [List.concat_eq_append] at h ⊢
    have hs : adjS ((ini ++ [a]).map f) = (ini ++ [a]).map f := by
      cases ini with
      | nil => simp [adjS, S.trimStart_eq]
      | cons b ini => simp [adjS, S.trimStart_eq]
    rw [foldBody, hs, List.map_append, List.map_singleton, adjE_concat, S.trimEnd_line] at h
    have hr : PoolReads p (ini.map f ++ [S.pre a ++ ':' :: trimEnd (key a)]) (ini ++ [S.setName a (trimEnd (key a))]) := by
      apply ReadsAll.append
      · apply ReadsAll.map
        intro b _
        exact ⟨by rw [S.f_eq]; simp, by rw [S.f_eq, S.parse_pre, S.set_key]; rfl⟩
      · exact .cons (by simp) (by rw [S.parse_pre]; rfl) .nil
    rw [h.unique hr]
    have := trimEnd_length (key a)
    simp only [List.map_append, List.sum_append, List.map_cons, List.map_nil, List.sum_cons, List.sum_nil, S.key_set,
      List.getLast?_append, List.getLast?_singleton, Option.some_or, Option.some.injEq]
    refine ⟨by omega, ?_⟩
    rintro he _ rfl
    exact trimEnd_of_length (by omega)

theorem MoreBlock.weigh (as : List MoreBlock) (hc : ∀ a ∈ as, ':' ∉ a.id) {vs : List MoreBlock}
    (h : PoolReads MoreBlock.parse (foldBody (as.map MoreBlock.reconstruct)) vs) :
    (vs.map fun v => 1 + v.id.length + v.spec.length).sum ≤ (as.map fun v => 1 + v.id.length + v.spec.length).sum ∧
      ((vs.map fun v => 1 + v.id.length + v.spec.length).sum = (as.map fun v => 1 + v.id.length + v.spec.length).sum →
        (∀ a, as.head? = some a → trimStart a.id = a.id) ∧ ∀ a, as.getLast? = some a → trimEnd a.spec = a.spec) := by
  rw [foldBody, MoreBlock.adjS_map, MoreBlock.adjE_map] at h
  have hr : PoolReads MoreBlock.parse ((adjLast (adjFirst as)).map reconstruct) (adjLast (adjFirst as)) := by
    apply ReadsAll.map
    intro m hm
    refine ⟨by simp [reconstruct], ?_⟩
    rw [parse_reconstruct]; rfl
    have : m.id ∈ (adjFirst as).map (·.id) := by
      rw [← adjLast_ids]; exact List.mem_map_of_mem hm
    cases as with
    | nil => simp [adjFirst] at this
    | cons x ms =>
      simp only [adjFirst, List.map_cons, List.mem_cons, List.mem_map] at this
      rcases this with h1 | ⟨y, hy, h1⟩
      · rw [h1]; intro hh
        exact hc x (by simp) ((trimStart_suffix _).subset hh)
      · rw [← h1]; exact hc y (by simp [hy])
  rw [h.unique hr]
  have key1 : ∀ as : List MoreBlock, ((adjLast as).map fun v => 1 + v.id.length + v.spec.length).sum ≤
        (as.map fun v => 1 + v.id.length + v.spec.length).sum ∧
      (((adjLast as).map fun v => 1 + v.id.length + v.spec.length).sum = (as.map fun v => 1 + v.id.length + v.spec.length).sum →
        ∀ a, as.getLast? = some a → trimEnd a.spec = a.spec) := by
    intro as
    rcases List.eq_nil_or_concat as with rfl | ⟨ini, a, rfl⟩
    · exact ⟨Nat.le_refl _, by simp⟩
    · rw [List.concat_eq_append, adjLast_concat]
      have := trimEnd_length a.spec
      simp only [List.map_append, List.sum_append, List.map_cons, List.map_nil, List.sum_cons, List.sum_nil,
        List.getLast?_append, List.getLast?_singleton, Option.some_or, Option.some.injEq]
      refine ⟨by omega, ?_⟩
      rintro he _ rfl
      exact trimEnd_of_length (by omega)
  obtain ⟨k1, k2⟩ := key1 (adjFirst as)
  cases as with
  | nil => exact ⟨Nat.le_refl _, by simp⟩
  | cons m ms =>
    have := trimStart_length m.id
    simp only [adjFirst, List.map_cons, List.sum_cons] at k1 k2 ⊢
    refine ⟨by omega, fun he => ⟨?_, ?_⟩⟩
    · intro a ha; simp at ha; subst ha
      exact trimStart_of_length (by omega)
    · intro a ha
      have h2 := k2 (by omega)
      cases ms with
      | nil => simp at ha; subst ha; exact h2 ⟨trimStart m.id, m.spec⟩ rfl
      | cons x ms => rw [List.getLast?_cons_cons] at ha h2; exact h2 a ha

/-! ### where the sections come from -/

/-- The ending of the header of a pool. -/
inductive PoolEnd (suf : Str) : Prop
  | var (h : suf = s% ".java_var")
  | list (h : suf = s% ".java_list")
  | components (h : suf = s% ".java_components")
  | events (h : suf = s% ".java_events")
  | func (h : suf = s% ".java_func")

theorem PoolEnd.not {suf : Str} (h : PoolEnd suf) (n : Str) : ¬ NotPool ('@' :: (n ++ suf)) := by
  rintro ⟨n1, n2, n3, n4, n5⟩
  cases h with
  | var h => subst h; rw [Logic.not_pool_self] at n1; simp at n1
  | list h => subst h; rw [Logic.not_pool_self] at n2; simp at n2
  | components h => subst h; rw [Logic.not_pool_self] at n3; simp at n3
  | events h => subst h; rw [Logic.not_pool_self] at n4; simp at n4
  | func h => subst h; rw [Logic.not_pool_self] at n5; simp at n5

/-- The number of characters of a section. -/
def TSec.size (t : TSec) : Nat := bulk t.ls

theorem TSec.size_eq (t : TSec) : t.size = t.hd.length + bulk t.body := by simp [TSec.size, TSec.ls, bulk]

theorem pool_bulk {n suf : Str} {ls : List Str} {w : Nat} (hs : PoolEnd suf)
    (h : Logic.Weighs (poolSec n suf ls).hd (poolSec n suf ls).body w) : w + 6 ≤ (poolSec n suf ls).size := by
  have := Logic.weighs_bulk h (hs.not n)
  rw [TSec.size_eq]
  omega

namespace ScreenLogic
variable {s : ScreenLogic}

def varO (s : ScreenLogic) : Option (Nat × Prop) := s.variables.map fun p =>
  ((p.map.map fun e => 1 + e.2.name.length).sum, ∀ e, p.map.getLast? = some e → c90_Closed e.2.name)
def listO (s : ScreenLogic) : Option (Nat × Prop) := s.listVariables.map fun p =>
  ((p.map.map fun e => 1 + e.2.name.length).sum, ∀ e, p.map.getLast? = some e → c90_Closed e.2.name)
def compO (s : ScreenLogic) : Option (Nat × Prop) := s.components.map fun _ => (0, True)
def eventO (s : ScreenLogic) : Option (Nat × Prop) := s.events.map fun _ => (0, True)
def funcO (s : ScreenLogic) : Option (Nat × Prop) := s.moreBlocks.map fun p =>
  ((p.map.map fun e => 1 + e.2.id.length + e.2.spec.length).sum,
    (∀ e, p.map.head? = some e → ∀ c, e.2.id.head? = some c → isWs c = false) ∧ ∀ e, p.map.getLast? = some e → c90_Closed e.2.spec)
def blocksO (s : ScreenLogic) : List (Nat × Prop) := s.blockContainers.map fun e =>
  (1 + e.1.length + bulk (e.2.blocks.map Block.reconstruct), (∀ w ∈ c28_poolWords, e.1 ≠ w ∧ ¬ (s% "java_" ++ w) <:+ e.1) ∧
    (s.blockContainers.getLast? = some e → e.2.blocks = [] → c90_Closed e.1))

/-- The section comes from a part with this length, and when the length is the same after saving, the part survives. -/
def From (t : TSec) (o : Nat × Prop) : Prop := (o.1 = 0 → o.2) ∧
  ∀ w, Logic.Weighs t.hd t.body w → (w ≤ o.1 ∧ (w = o.1 → o.2)) ∧ w + 6 ≤ t.size

theorem var_from (s : ScreenLogic) : (s.varR = none ∧ s.varO = none) ∨ ∃ a b, s.varR = some a ∧ s.varO = some b ∧ From a b := by
  unfold varR varO
  cases s.variables with
  | none => exact .inl ⟨rfl, rfl⟩
  | some p =>
    refine .inr ⟨_, _, rfl, rfl, ?_, ?_⟩
    · intro h0 e he
      have := List.mem_of_getLast? he
      have h1 : 1 + e.2.name.length ∈ p.map.map fun e => 1 + e.2.name.length := List.mem_map_of_mem this
      have h2 := List.sum_eq_zero_iff_forall_eq_nat.mp h0 _ h1
      omega
    · intro w h
      refine ⟨?_, pool_bulk (.var rfl) h⟩
      obtain ⟨vs, h1, rfl⟩ := (Logic.weighs_pool h).1 rfl
      have e0 : p.map.map (fun e => e.2.reconstruct) = (p.map.map (·.2)).map Variable.reconstruct := by simp
      rw [show (poolSec s.name (s% ".java_var") (p.map.map fun e => e.2.reconstruct)).body =
        foldBody (p.map.map fun e => e.2.reconstruct) from rfl, e0] at h1
      obtain ⟨h2, h3⟩ := Variable.suffixNamed.weigh _ h1
      rw [List.map_map] at h2 h3
      refine ⟨h2, fun he e hl => ?_⟩
      exact trimEnd_eq_self.mp (h3 he e.2 (by rw [List.getLast?_map, hl]; rfl))

theorem list_from (s : ScreenLogic) : (s.listR = none ∧ s.listO = none) ∨ ∃ a b, s.listR = some a ∧ s.listO = some b ∧ From a b := by
  unfold listR listO
  cases s.listVariables with
  | none => exact .inl ⟨rfl, rfl⟩
  | some p =>
    refine .inr ⟨_, _, rfl, rfl, ?_, ?_⟩
    · intro h0 e he
      have := List.mem_of_getLast? he
      have h1 : 1 + e.2.name.length ∈ p.map.map fun e => 1 + e.2.name.length := List.mem_map_of_mem this
      have h2 := List.sum_eq_zero_iff_forall_eq_nat.mp h0 _ h1
      omega
    · intro w h
      refine ⟨?_, pool_bulk (.list rfl) h⟩
      obtain ⟨vs, h1, rfl⟩ := (Logic.weighs_pool h).2.1 rfl
      have e0 : p.map.map (fun e => e.2.reconstruct) = (p.map.map (·.2)).map ListVariable.reconstruct := by simp
      rw [show (poolSec s.name (s% ".java_list") (p.map.map fun e => e.2.reconstruct)).body =
        foldBody (p.map.map fun e => e.2.reconstruct) from rfl, e0] at h1
      obtain ⟨h2, h3⟩ := ListVariable.suffixNamed.weigh _ h1
      rw [List.map_map] at h2 h3
      refine ⟨h2, fun he e hl => ?_⟩
      exact trimEnd_eq_self.mp (h3 he e.2 (by rw [List.getLast?_map, hl]; rfl))

theorem comp_from (s : ScreenLogic) : (s.compR = none ∧ s.compO = none) ∨ ∃ a b, s.compR = some a ∧ s.compO = some b ∧ From a b := by
  unfold compR compO
  cases s.components with
  | none => exact .inl ⟨rfl, rfl⟩
  | some p =>
    refine .inr ⟨_, _, rfl, rfl, fun _ => trivial, ?_⟩
    intro w h
    refine ⟨?_, pool_bulk (.components rfl) h⟩
    have := (Logic.weighs_pool h).2.2.1 rfl
    subst this
    exact ⟨Nat.le_refl _, fun _ => trivial⟩

theorem event_from (s : ScreenLogic) : (s.eventR = none ∧ s.eventO = none) ∨ ∃ a b, s.eventR = some a ∧ s.eventO = some b ∧ From a b := by
  unfold eventR eventO
  cases s.events with
  | none => exact .inl ⟨rfl, rfl⟩
  | some p =>
    refine .inr ⟨_, _, rfl, rfl, fun _ => trivial, ?_⟩
    intro w h
    refine ⟨?_, pool_bulk (.events rfl) h⟩
    have := (Logic.weighs_pool h).2.2.2.1 rfl
    subst this
    exact ⟨Nat.le_refl _, fun _ => trivial⟩

theorem Clean.func_from (hc : s.Clean) : (s.funcR = none ∧ s.funcO = none) ∨ ∃ a b, s.funcR = some a ∧ s.funcO = some b ∧ From a b := by
  unfold funcR funcO
  cases hm : s.moreBlocks with
  | none => exact .inl ⟨rfl, rfl⟩
  | some p =>
    refine .inr ⟨_, _, rfl, rfl, ?_, ?_⟩
    · intro h0
      have hne : ∀ e ∈ p.map, False := by
        intro e he
        have h1 : 1 + e.2.id.length + e.2.spec.length ∈ p.map.map fun e => 1 + e.2.id.length + e.2.spec.length := List.mem_map_of_mem he
        have h2 := List.sum_eq_zero_iff_forall_eq_nat.mp h0 _ h1
        omega
      exact ⟨fun e he => (hne e (List.mem_of_head? he)).elim, fun e he => (hne e (List.mem_of_getLast? he)).elim⟩
    · intro w h
      refine ⟨?_, pool_bulk (.func rfl) h⟩
      obtain ⟨vs, h1, rfl⟩ := (Logic.weighs_pool h).2.2.2.2 rfl
      have e0 : p.map.map (fun e => e.2.reconstruct) = (p.map.map (·.2)).map MoreBlock.reconstruct := by simp
      rw [show (poolSec s.name (s% ".java_func") (p.map.map fun e => e.2.reconstruct)).body =
        foldBody (p.map.map fun e => e.2.reconstruct) from rfl, e0] at h1
      obtain ⟨h2, h3⟩ := MoreBlock.weigh _ (by
        simp only [List.mem_map]; rintro a ⟨e, he, rfl⟩; exact (hc.func p hm e he).2.2.2) h1
      rw [List.map_map] at h2 h3
      refine ⟨h2, fun he => ⟨fun e hl => ?_, fun e hl => ?_⟩⟩
      · exact trimStart_eq_self.mp ((h3 he).1 e.2 (by rw [List.head?_map, hl]; rfl))
      · exact trimEnd_eq_self.mp ((h3 he).2 e.2 (by rw [List.getLast?_map, hl]; rfl))

/-- The section of a container: with its name, or with the name without the blanks at the end. -/
theorem block_from {n id : Str} (h1 : ¬ javaSep <:+: n) (h2 : ¬ javaSep <:+: id) {bs : List Block} {K : Prop} {w N : Nat}
    (hle : id.length ≤ N)
    (hK : (∀ w ∈ c28_poolWords, id ≠ w ∧ ¬ (s% "java_" ++ w) <:+ id) → id.length = N → K)
    (h : Logic.Weighs ('@' :: (n ++ (s% ".java_" ++ id))) (bs.map Block.reconstruct) w) :
    (w ≤ 1 + N + bulk (bs.map Block.reconstruct) ∧ (w = 1 + N + bulk (bs.map Block.reconstruct) → K)) ∧
      w + 6 ≤ ('@' :: (n ++ (s% ".java_" ++ id))).length + bulk (bs.map Block.reconstruct) := by
  by_cases hp : NotPool ('@' :: (n ++ (s% ".java_" ++ id)))
  · generalize hh : '@' :: (n ++ (s% ".java_" ++ id)) = hd at h hp
    have hl0 : hd.length = 7 + n.length + id.length := by subst hh; simp; omega
    generalize hb : bs.map Block.reconstruct = body at h
    have hno : ∀ (k suf : Str) (x : Char), hd = '@' :: (k ++ x :: suf) → endsWith suf hd = true := by
      rintro k suf x rfl; exact Logic.not_pool_self _ _ _
    obtain ⟨n1, n2, n3, n4, n5⟩ := hp
    cases h with
    | var _ => rw [hno _ _ _ rfl] at n1; simp at n1
    | list _ => rw [hno _ _ _ rfl] at n2; simp at n2
    | components => rw [hno _ _ _ rfl] at n3; simp at n3
    | events => rw [hno _ _ _ rfl] at n4; simp at n4
    | func _ => rw [hno _ _ _ rfl] at n5; simp at n5
    | @blocks _ bh _ bs' hn hl hr =>
      subst hb
      have := hr.unique (PoolReads.lineParser Block.jline Block.parse_reconstruct bs)
      subst this
      subst hh
      have := header_self h1 h2
      rw [show s% ".java_" = javaSep from rfl, this] at hl
      have := Out.ok.inj hl
      subst this
      simp only
      refine ⟨⟨by omega, fun he => hK ?_ (by omega)⟩, by omega⟩
      exact (notPool_words n id).mp hn
  · have := Logic.weighs_bulk h hp
    exact ⟨⟨by omega, by omega⟩, by omega⟩

theorem Clean.blocks_from (hc : s.Clean) (hnd : s.blockContainers.keys.Nodup) : All₂ From s.blocksR s.blocksO := by
  unfold blocksR blocksO
  rcases List.eq_nil_or_concat s.blockContainers with h0 | ⟨ini, e, h0⟩
  · rw [h0]; exact .nil
  rw [List.concat_eq_append] at h0
  have hlast : s.blockContainers.getLast? = some e := by rw [h0]; simp
  have hnot : ∀ x ∈ ini, x ≠ e := by
    rintro x hx rfl
    rw [h0, LMap.keys, List.map_append, List.nodup_append] at hnd
    exact hnd.2.2 _ (List.mem_map_of_mem hx) _ (by simp) rfl
  have main : ∀ K : Str × BlockContainer → Prop,
      (∀ x ∈ s.blockContainers, (∀ w ∈ c28_poolWords, x.1 ≠ w ∧ ¬ (s% "java_" ++ w) <:+ x.1) →
        (s.blockContainers.getLast? = some x → x.2.blocks = [] → c90_Closed x.1) → K x) →
      All₂ From (closeLast (s.blockContainers.map s.blockSec))
        (s.blockContainers.map fun x => (1 + x.1.length + bulk (x.2.blocks.map Block.reconstruct), K x)) := by
    intro K hK
    conv => enter [2]; rw [h0]
    conv => enter [3]; rw [h0]
    rw [List.map_append, List.map_singleton, closeLast_concat, List.map_append, List.map_singleton]
    refine All₂.append (All₂.of_map _ _ ?_) (.cons ?_ .nil)
    · intro x hx
      have hxm : x ∈ s.blockContainers := by rw [h0]; simp [hx]
      have hb := hc.blocks x hxm
      refine ⟨fun h => by simp only at h; omega, fun w hw => ?_⟩
      rw [TSec.size_eq]
      refine block_from hb.2.1 hb.2.2 (Nat.le_refl _) (fun hk _ => hK x hxm hk ?_) hw
      intro hl
      rw [hlast] at hl
      exact absurd (Option.some.inj hl).symm (hnot x hx)
    · have hem : e ∈ s.blockContainers := by rw [h0]; simp
      have hb := hc.blocks e hem
      refine ⟨fun h => by simp only at h; omega, fun w hw => ?_⟩
      rw [TSec.size_eq]
      unfold TSec.close at hw ⊢
      split at hw
      next hbody =>
        rw [if_pos hbody]
        have hbl : e.2.blocks = [] := by simpa [blockSec] using hbody
        have ehd : trimEnd (s.blockSec e).hd = '@' :: (s.name ++ (s% ".java_" ++ trimEnd e.1)) := trimEnd_header _ _
        simp only [ehd] at hw ⊢
        refine block_from (bs := e.2.blocks) hb.2.1 (infix_trimEnd hb.2.2) (trimEnd_length _) (fun hk hl => ?_) hw
        have := trimEnd_of_length hl
        rw [this] at hk
        exact hK e hem hk fun _ _ => trimEnd_eq_self.mp this
      next hbody =>
        rw [if_neg hbody]
        refine block_from hb.2.1 hb.2.2 (Nat.le_refl _) (fun hk _ => hK e hem hk fun _ hbl => ?_) hw
        exact absurd (by simp [blockSec, hbl]) hbody
  exact main _ fun x _ h1 h2 => ⟨h1, h2⟩

/-- Everything a screen is made of survives. -/
theorem kept_of (h1 : ∀ o, s.varO = some o → o.2) (h2 : ∀ o, s.listO = some o → o.2) (h3 : ∀ o, s.funcO = some o → o.2)
    (h4 : ∀ o ∈ s.blocksO, o.2) : c90_ScreenKept s := by
  refine ⟨fun p hp => ?_, fun p hp => ?_, fun p hp => ?_, fun e he => ?_, fun e he => ?_⟩
  · exact h1 _ (by rw [varO, hp]; rfl)
  · exact h2 _ (by rw [listO, hp]; rfl)
  · exact h3 _ (by rw [funcO, hp]; rfl)
  · exact (h4 _ (List.mem_map_of_mem he)).1
  · exact (h4 _ (List.mem_map_of_mem (List.mem_of_getLast? he))).2 he
end ScreenLogic

namespace Logic
open ScreenLogic

def origins (ss : List ScreenLogic) : List (Nat × Prop) :=
  ss.filterMap varO ++ ss.filterMap listO ++ ss.filterMap compO ++ ss.filterMap eventO ++ ss.filterMap funcO ++ ss.flatMap blocksO

theorem itemsR_secs (ss : List ScreenLogic) : (itemsR ss).filterMap id =
    ss.filterMap varR ++ ss.filterMap listR ++ ss.filterMap compR ++ ss.filterMap eventR ++ ss.filterMap funcR ++ ss.flatMap blocksR := by
  have hs : ∀ ts : List TSec, (ts.map some).filterMap id = ts := by
    intro ts; rw [List.filterMap_map]; simp
  rw [itemsR, List.filterMap_append, hs]
  congr 1
  induction ss with
  | nil => rfl
  | cons s ss ih =>
    rw [List.flatMap_cons, List.filterMap_append, ih, List.flatMap_cons]
    congr 1
    unfold blockItemsR
    split
    next h => rw [blocksR, h]; rfl
    next => exact hs _

theorem origins_from {ss : List ScreenLogic} (h : ∀ s ∈ ss, s.Clean) (hnd : ∀ s ∈ ss, s.blockContainers.keys.Nodup) :
    All₂ From ((itemsR ss).filterMap id) (origins ss) := by
  rw [itemsR_secs]
  refine ((((All₂.append ?_ ?_).append ?_).append ?_).append ?_).append ?_
  · exact All₂.filterMap fun s _ => s.var_from
  · exact All₂.filterMap fun s _ => s.list_from
  · exact All₂.filterMap fun s _ => s.comp_from
  · exact All₂.filterMap fun s _ => s.event_from
  · exact All₂.filterMap fun s hs => (h s hs).func_from
  · exact All₂.flatMap fun s hs => (h s hs).blocks_from (hnd s hs)

theorem sum_filterMap {f : ScreenLogic → Option (Nat × Prop)} (g : Nat × Prop → Nat) (ss : List ScreenLogic) :
    ((ss.filterMap f).map g).sum = (ss.map fun s => (f s).elim 0 g).sum := by
  induction ss with
  | nil => rfl
  | cons s ss ih =>
    cases hf : f s with
    | none => rw [List.filterMap_cons_none hf, ih]; simp [hf]
    | some o => rw [List.filterMap_cons_some hf, List.map_cons, List.sum_cons, ih]; simp [hf]

theorem origins_weight (ss : List ScreenLogic) : ((origins ss).map (·.1)).sum = (ss.map ScreenLogic.weight).sum := by
  simp only [origins, List.map_append, List.sum_append, sum_filterMap]
  induction ss with
  | nil => rfl
  | cons s ss ih =>
    simp only [List.map_cons, List.sum_cons, List.flatMap_cons, List.map_append, List.sum_append]
    have e : s.weight = (s.varO.elim 0 fun x => x.1) + (s.listO.elim 0 fun x => x.1) + (s.compO.elim 0 fun x => x.1) +
        (s.eventO.elim 0 fun x => x.1) + (s.funcO.elim 0 fun x => x.1) + (s.blocksO.map fun x => x.1).sum := by
      unfold ScreenLogic.weight varO listO compO eventO funcO blocksO
      rw [List.map_map]
      cases s.variables <;> cases s.listVariables <;> cases s.components <;> cases s.events <;> cases s.moreBlocks <;> rfl
    omega

/-- **Saving shortens.** When the saved text of a logic file that was read is read, either all names survive, or what is read is smaller.
It is also smaller than the text, unless there is none. -/
theorem save_shortens {l l' : Logic} (h : l.Inv) (hcl : ∀ s ∈ l.screens.map (·.2), s.Clean) (hp : parse l.reconstruct = .ok l') :
    (l'.weight < l.weight ∨ ∀ s ∈ l.screens.map (·.2), c90_ScreenKept s) ∧
    (leading (itemsR (l.screens.map (·.2))) ≠ [] → l'.weight + 6 ≤ l.reconstruct.length) := by
  have hgood := itemsR_good hcl h.blocks
  have hs := sections_leading (fun t ht => by obtain ⟨_, _, hx⟩ := hgood t ht; exact ⟨hx.raw, hx.full⟩) (itemsR_closed hcl h.blocks)
  have hbulk := bulk_sections l.reconstruct
  rw [reconstruct_itemsR l hcl h.blocks] at hp hbulk ⊢
  rw [hs, List.map_map] at hbulk
  rw [parse_sections, hs] at hp
  have hare := areSections (lines (trim (itemsText (itemsR (l.screens.map (·.2))))))
  rw [hs] at hare
  rcases runSecs_cases _ hare 0 [] with ⟨es, h1, h2⟩ | ⟨pre, q, post, es, h1, h2, h3, h4⟩ | ⟨pre, q, post, es, e, h1, h2, h3, h4⟩
  · rw [h2] at hp
    have := Out.ok.inj hp
    subst this
    obtain ⟨ws, hw, hb⟩ := weight_applyAll h1
    have b1 := hb [] List.nodup_nil (by simp)
    obtain ⟨rest, hrest⟩ := leading_prefix (itemsR (l.screens.map (·.2)))
    have hf := origins_from hcl h.blocks
    rw [← hrest] at hf
    have hsplit : ∀ {ts us : List TSec} {os : List (Nat × Prop)}, All₂ From (ts ++ us) os →
        ∃ os1 os2, os = os1 ++ os2 ∧ All₂ From ts os1 ∧ All₂ From us os2 := by
      intro ts us
      induction ts with
      | nil => intro os h; exact ⟨[], os, rfl, .nil, h⟩
      | cons t ts ih =>
        intro os h
        cases h with
        | cons h1 h2 =>
          obtain ⟨a, b, rfl, h3, h4⟩ := ih h2
          exact ⟨_ :: a, b, rfl, .cons h1 h3, h4⟩
    obtain ⟨os1, os2, he, hf1, hf2⟩ := hsplit hf
    have hos : All₂ (fun (o : Nat × Prop) (w : Nat) => w ≤ o.1 ∧ (w = o.1 → o.2)) os1 ws ∧
        All₂ (fun t w => w + 6 ≤ TSec.size t) (leading (itemsR (l.screens.map (·.2)))) ws := by
      clear hs hare h1 h2 hrest hf hf2 hb b1 hp he hbulk
      generalize leading (itemsR (l.screens.map (·.2))) = ts at hw hf1
      induction ts generalizing os1 ws with
      | nil => cases hf1; cases hw; exact ⟨.nil, .nil⟩
      | cons t ts ih =>
        cases hf1 with
        | cons g1 g2 =>
          cases hw with
          | cons k1 k2 =>
            obtain ⟨i1, i2⟩ := ih _ _ k2 g2
            obtain ⟨hd, body, e1, k1⟩ := k1
            simp only [TSec.ls, List.cons.injEq] at e1
            obtain ⟨rfl, rfl⟩ := e1
            exact ⟨.cons (g1.2 _ k1).1 i1, .cons (g1.2 _ k1).2 i2⟩
    have s1 := sum_le hos.1
    have s2 := sum_zero (os := os2) (fun o ho => by obtain ⟨t, _, ht⟩ := hf2.right o ho; exact ht.1)
    have c1 := origins_weight (l.screens.map (·.2))
    rw [he, List.map_append, List.sum_append, List.map_map] at c1
    have d1 : l.weight = (l.screens.map (ScreenLogic.weight ∘ fun e => e.2)).sum := rfl
    simp only [LMap.total_nil, Nat.zero_add] at b1
    have d3 : (Logic.mk (applyAll es [])).weight ≤ ws.sum := b1
    constructor
    · rcases s1 with s1 | ⟨s1, k1⟩
      · left; omega
      · rcases s2 with s2 | k2
        · left; omega
        · right
          have hall : ∀ o ∈ origins (l.screens.map (·.2)), o.2 := by
            rw [he]; intro o ho
            rcases List.mem_append.mp ho with ho | ho
            · exact k1 o ho
            · exact k2 o ho
          intro s hs
          refine kept_of (fun o ho => hall o ?_) (fun o ho => hall o ?_) (fun o ho => hall o ?_) (fun o ho => hall o ?_)
          · have : o ∈ (l.screens.map (·.2)).filterMap varO := List.mem_filterMap.mpr ⟨s, hs, ho⟩
            simp only [origins, List.mem_append]; grind
          · have : o ∈ (l.screens.map (·.2)).filterMap listO := List.mem_filterMap.mpr ⟨s, hs, ho⟩
            simp only [origins, List.mem_append]; grind
          · have : o ∈ (l.screens.map (·.2)).filterMap funcO := List.mem_filterMap.mpr ⟨s, hs, ho⟩
            simp only [origins, List.mem_append]; grind
          · have : o ∈ (l.screens.map (·.2)).flatMap blocksO := List.mem_flatMap.mpr ⟨s, hs, ho⟩
            simp only [origins, List.mem_append]; grind
    · intro hne
      have key : ∀ {ts : List TSec} {ws : List Nat}, All₂ (fun t w => w + 6 ≤ TSec.size t) ts ws → ts ≠ [] →
          ws.sum + 6 ≤ (ts.map (bulk ∘ TSec.ls)).sum := by
        intro ts ws hh
        induction hh with
        | nil => intro h; exact absurd rfl h
        | @cons t w ts ws h1 h2 ih =>
          intro _
          have e : TSec.size t = (bulk ∘ TSec.ls) t := rfl
          rw [e] at h1
          by_cases ht : ts = []
          · subst ht; cases h2; simp at h1 ⊢; omega
          · have := ih ht
            simp only [List.map_cons, List.sum_cons]
            omega
      have := key hos.2 hne
      omega
  · rw [h4] at hp; simp at hp
  · rw [h4] at hp; simp at hp
end Logic
end
end Swrs
