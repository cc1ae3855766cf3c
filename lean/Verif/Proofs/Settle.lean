import Verif.Proofs.Resave
/-!
# The order of screens after saving, and what is left of their code (for C101)
-/
set_option linter.unusedSectionVars false
namespace Swrs
namespace Settle

/-! ### buckets -/

variable {α : Type}

/-- The elements by the first predicate they satisfy. -/
def bF : List (α → Bool) → List α → List α
  | [], _ => []
  | p :: ps, xs => xs.filter p ++ bF ps (xs.filter fun x => !p x)

/-- The elements by the first predicate they satisfy, the first predicate last. -/
def bL : List (α → Bool) → List α → List α
  | [], _ => []
  | p :: ps, xs => bL ps (xs.filter fun x => !p x) ++ xs.filter p

theorem mem_bF (ps : List (α → Bool)) (xs : List α) (x : α) : x ∈ bF ps xs ↔ x ∈ xs ∧ ∃ p ∈ ps, p x = true := by
  induction ps generalizing xs with
  | nil => simp [bF]
  | cons p ps ih =>
    simp only [bF, List.mem_append, List.mem_filter, ih, List.mem_cons, exists_eq_or_imp]
    cases p x <;> simp

theorem mem_bL (ps : List (α → Bool)) (xs : List α) (x : α) : x ∈ bL ps xs ↔ x ∈ xs ∧ ∃ p ∈ ps, p x = true := by
  induction ps generalizing xs with
  | nil => simp [bL]
  | cons p ps ih =>
    simp only [bL, List.mem_append, List.mem_filter, ih, List.mem_cons, exists_eq_or_imp]
    cases p x <;> simp

theorem perm_bF (ps : List (α → Bool)) (xs : List α) (h : ∀ x ∈ xs, ∃ p ∈ ps, p x = true) : (bF ps xs).Perm xs := by
  induction ps generalizing xs with
  | nil =>
    cases xs with
    | nil => exact .refl _
    | cons x xs => obtain ⟨p, hp, _⟩ := h x (by simp); simp at hp
  | cons p ps ih =>
    refine (List.Perm.append_left _ (ih _ ?_)).trans (List.filter_append_perm p xs)
    intro x hx
    simp only [List.mem_filter, Bool.not_eq_true'] at hx
    obtain ⟨q, hq, h1⟩ := h x hx.1
    rcases List.mem_cons.mp hq with rfl | hq
    · rw [hx.2] at h1; simp at h1
    · exact ⟨q, hq, h1⟩

theorem perm_bL (ps : List (α → Bool)) (xs : List α) (h : ∀ x ∈ xs, ∃ p ∈ ps, p x = true) : (bL ps xs).Perm xs := by
  induction ps generalizing xs with
  | nil =>
    cases xs with
    | nil => exact .refl _
    | cons x xs => obtain ⟨p, hp, _⟩ := h x (by simp); simp at hp
  | cons p ps ih =>
    refine (List.perm_append_comm.trans (List.Perm.append_left _ (ih _ ?_))).trans (List.filter_append_perm p xs)
    intro x hx
    simp only [List.mem_filter, Bool.not_eq_true'] at hx
    obtain ⟨q, hq, h1⟩ := h x hx.1
    rcases List.mem_cons.mp hq with rfl | hq
    · rw [hx.2] at h1; simp at h1
    · exact ⟨q, hq, h1⟩

theorem bF_idem (ps : List (α → Bool)) (xs : List α) : bF ps (bF ps xs) = bF ps xs := by
  induction ps generalizing xs with
  | nil => rfl
  | cons p ps ih =>
    have hy : ∀ y ∈ bF ps (xs.filter fun x => !p x), p y = false := by
      intro y hy; rw [mem_bF, List.mem_filter] at hy; simpa using hy.1.2
    have e1 : (bF ps (xs.filter fun x => !p x)).filter p = [] := by
      rw [List.filter_eq_nil_iff]; intro y h; simp [hy y h]
    have e2 : ((bF ps (xs.filter fun x => !p x)).filter fun x => !p x) = bF ps (xs.filter fun x => !p x) := by
      rw [List.filter_eq_self]; intro y h; simp [hy y h]
    have e3 : ((xs.filter p).filter fun x => !p x) = [] := by
      rw [List.filter_eq_nil_iff]; intro y h; simp [(List.mem_filter.mp h).2]
    have e4 : (xs.filter p).filter p = xs.filter p := by
      rw [List.filter_eq_self]; intro y h; exact (List.mem_filter.mp h).2
    simp only [bF, List.filter_append, e1, e2, e3, e4, List.append_nil, List.nil_append, ih]

theorem bL_idem (ps : List (α → Bool)) (xs : List α) : bL ps (bL ps xs) = bL ps xs := by
  induction ps generalizing xs with
  | nil => rfl
  | cons p ps ih =>
    have hy : ∀ y ∈ bL ps (xs.filter fun x => !p x), p y = false := by
      intro y hy; rw [mem_bL, List.mem_filter] at hy; simpa using hy.1.2
    have e1 : (bL ps (xs.filter fun x => !p x)).filter p = [] := by
      rw [List.filter_eq_nil_iff]; intro y h; simp [hy y h]
    have e2 : ((bL ps (xs.filter fun x => !p x)).filter fun x => !p x) = bL ps (xs.filter fun x => !p x) := by
      rw [List.filter_eq_self]; intro y h; simp [hy y h]
    have e3 : ((xs.filter p).filter fun x => !p x) = [] := by
      rw [List.filter_eq_nil_iff]; intro y h; simp [(List.mem_filter.mp h).2]
    have e4 : (xs.filter p).filter p = xs.filter p := by
      rw [List.filter_eq_self]; intro y h; exact (List.mem_filter.mp h).2
    simp only [bL, List.filter_append, e1, e2, e3, e4, List.append_nil, List.nil_append, ih]

/-- The number of the first predicate an element satisfies. -/
def rank (ps : List (α → Bool)) (x : α) : Nat := ps.findIdx fun p => p x

theorem rank_cons (p : α → Bool) (ps : List (α → Bool)) (x : α) : rank (p :: ps) x = if p x then 0 else rank ps x + 1 := by
  unfold rank; rw [List.findIdx_cons]; cases p x <;> rfl

theorem bF_sorted (ps : List (α → Bool)) (xs : List α) : (bF ps xs).Pairwise fun a b => rank ps a ≤ rank ps b := by
  induction ps generalizing xs with
  | nil => exact .nil
  | cons p ps ih =>
    rw [bF, List.pairwise_append]
    refine ⟨?_, ?_, ?_⟩
    · refine List.Pairwise.imp_of_mem (R := fun _ _ => True) ?_ (List.pairwise_of_forall fun _ _ => trivial)
      intro a b ha hb _
      simp [rank_cons, (List.mem_filter.mp ha).2]
    · refine List.Pairwise.imp_of_mem ?_ (ih (xs.filter fun x => !p x))
      intro a b ha hb h
      rw [mem_bF, List.mem_filter] at ha hb
      have h1 : p a = false := by simpa using ha.1.2
      have h2 : p b = false := by simpa using hb.1.2
      simp [rank_cons, h1, h2, h]
    · intro a ha b hb
      simp [rank_cons, (List.mem_filter.mp ha).2]

theorem sorted_split (p : α → Bool) (ps : List (α → Bool)) (xs : List α)
    (h : xs.Pairwise fun a b => rank (p :: ps) a ≤ rank (p :: ps) b) : xs.filter p ++ (xs.filter fun x => !p x) = xs := by
  induction xs with
  | nil => rfl
  | cons x xs ih =>
    rw [List.pairwise_cons] at h
    cases hp : p x with
    | true => simp [hp, ih h.2]
    | false =>
      have : ∀ y ∈ xs, p y = false := by
        intro y hy
        have := h.1 y hy
        rw [rank_cons, rank_cons, hp] at this
        cases hy : p y with
        | false => rfl
        | true => simp [hy] at this
      have e1 : xs.filter p = [] := by rw [List.filter_eq_nil_iff]; intro y h; simp [this y h]
      have e2 : (xs.filter fun x => !p x) = xs := by rw [List.filter_eq_self]; intro y h; simp [this y h]
      simp [hp, e1, e2]

theorem bF_of_sorted (ps : List (α → Bool)) (xs : List α) (hx : ∀ x ∈ xs, ∃ p ∈ ps, p x = true)
    (h : xs.Pairwise fun a b => rank ps a ≤ rank ps b) : bF ps xs = xs := by
  induction ps generalizing xs with
  | nil =>
    cases xs with
    | nil => rfl
    | cons x xs => obtain ⟨p, hp, _⟩ := hx x (by simp); simp at hp
  | cons p ps ih =>
    rw [bF, ih, sorted_split p ps xs h]
    · intro x hm
      simp only [List.mem_filter, Bool.not_eq_true'] at hm
      obtain ⟨q, hq, h1⟩ := hx x hm.1
      rcases List.mem_cons.mp hq with rfl | hq
      · rw [hm.2] at h1; simp at h1
      · exact ⟨q, hq, h1⟩
    · refine List.Pairwise.imp_of_mem ?_ (h.sublist List.filter_sublist)
      intro a b ha hb h
      have h1 : p a = false := by simpa using (List.mem_filter.mp ha).2
      have h2 : p b = false := by simpa using (List.mem_filter.mp hb).2
      simpa [rank_cons, h1, h2] using h

theorem mem_takeWhile_imp {p : α → Bool} {xs : List α} {x : α} (h : x ∈ xs.takeWhile p) : p x = true := by
  induction xs with
  | nil => simp at h
  | cons y ys ih =>
    rw [List.takeWhile_cons] at h
    split at h
    next hp =>
      rcases List.mem_cons.mp h with rfl | h
      · exact hp
      · exact ih h
    next => simp at h

theorem dropWhile_eq_nil_iff {p : α → Bool} {xs : List α} : xs.dropWhile p = [] ↔ ∀ x ∈ xs, p x = true := by
  induction xs with
  | nil => simp
  | cons y ys ih =>
    rw [List.dropWhile_cons]
    split
    next hp => simp [ih, hp]
    next hp => simp [hp]

/-! ### the order of keys -/

variable {κ : Type} [DecidableEq κ]

/-- Where `entry` puts a key. -/
def place [MapPol] (ks : List κ) (k : κ) : List κ :=
  if k ∈ ks then (if MapPol.entryToBack then ks.filter (· ≠ k) ++ [k] else ks) else ks ++ [k]

theorem keys_upsert [MapPol] {β : Type} (m : LMap κ β) (k : κ) (d : β) (f : β → β) :
    (m.upsert k d f).keys = place m.keys k := by
  unfold LMap.upsert place
  cases hg : m.get k with
  | none =>
    have := LMap.get_eq_none.mp hg
    simp [this]
  | some v =>
    have := LMap.get_isSome.mp ⟨v, hg⟩
    simp only [this, if_true]
    split
    · rw [LMap.keys_append, LMap.keys_erase]; simp
    · rw [LMap.keys_set]

/-- Placing names that are distinct, each possibly several times in a row. -/
theorem place_first [MapPol] (h : MapPol.entryToBack = false) (ks : List κ) (xs : List κ) (hn : xs.Nodup) :
    xs.foldl place ks = ks ++ xs.filter (· ∉ ks) := by
  induction xs generalizing ks with
  | nil => simp
  | cons x xs ih =>
    rw [List.nodup_cons] at hn
    rw [List.foldl_cons, ih _ hn.2]
    unfold place
    by_cases hx : x ∈ ks
    · simp [hx, h]
    · simp only [hx, if_false]
      rw [List.filter_cons_of_pos (by simpa using hx), List.append_assoc, List.singleton_append]
      congr 2
      apply List.filter_congr
      intro y hy
      have : y ≠ x := fun e => hn.1 (e ▸ hy)
      simp [this]

theorem place_last [MapPol] (h : MapPol.entryToBack = true) (ks : List κ) (xs : List κ) (hn : xs.Nodup) :
    xs.foldl place ks = ks.filter (· ∉ xs) ++ xs := by
  induction xs generalizing ks with
  | nil => rw [List.filter_eq_self.mpr (by simp)]; simp
  | cons x xs ih =>
    rw [List.nodup_cons] at hn
    have hp : place ks x = ks.filter (· ≠ x) ++ [x] := by
      unfold place
      split
      · simp
      · next hx =>
        congr 1
        symm; rw [List.filter_eq_self]
        intro y hy
        have : y ≠ x := fun e => hx (e ▸ hy)
        simpa using this
    rw [List.foldl_cons, ih _ hn.2, hp, List.filter_append, List.filter_filter]
    have : [x].filter (· ∉ xs) = [x] := by simp [hn.1]
    rw [this, List.append_assoc, List.singleton_append]
    congr 1
    apply List.filter_congr
    intro y _
    by_cases e : y = x <;> by_cases e' : y ∈ xs <;> simp [e, e']

theorem place_again [MapPol] (ks : List κ) (k : κ) (n : Nat) :
    (List.replicate n k).foldl place (place ks k) = place ks k := by
  have hp : place (place ks k) k = place ks k := by
    unfold place
    by_cases hb : MapPol.entryToBack = true
    · by_cases hk : k ∈ ks
      · simp [hk, hb, List.filter_append]
      · simp [hk, hb, List.filter_append]
        exact fun a ha e => hk (e ▸ ha)
    · by_cases hk : k ∈ ks <;> simp [hk, hb]
  induction n with
  | zero => rfl
  | succ n ih => rw [List.replicate_succ, List.foldl_cons, hp, ih]

theorem bL_filter (ps : List (α → Bool)) (q : α → Bool) (xs : List α) : bL ps (xs.filter q) = (bL ps xs).filter q := by
  induction ps generalizing xs with
  | nil => rfl
  | cons p ps ih =>
    rw [bL, bL, List.filter_append, ← ih, List.filter_filter, List.filter_filter, List.filter_filter, List.filter_filter]
    congr 2
    · congr 1; funext x; exact Bool.and_comm _ _
    · funext x; exact Bool.and_comm _ _

theorem filter_map_name {f : α → κ} {ss : List α} (hi : ∀ x ∈ ss, ∀ y ∈ ss, f x = f y → x = y) (p : α → Bool) {x : α}
    (hx : x ∈ ss) : f x ∈ (ss.filter p).map f ↔ p x = true := by
  simp only [List.mem_map, List.mem_filter]
  constructor
  · rintro ⟨y, ⟨hy, hp⟩, e⟩; rw [← hi y hy x hx e]; exact hp
  · intro h; exact ⟨x, ⟨hx, h⟩, rfl⟩

theorem order_first [MapPol] (h : MapPol.entryToBack = false) {f : α → κ} {ss : List α} (hn : (ss.map f).Nodup)
    (hi : ∀ x ∈ ss, ∀ y ∈ ss, f x = f y → x = y) (ps : List (α → Bool)) (ks : List κ) (d : α → Bool)
    (hd : ∀ x ∈ ss, f x ∈ ks ↔ d x = true) :
    (ps.flatMap fun p => (ss.filter p).map f).foldl place ks = ks ++ (bF ps (ss.filter fun x => !d x)).map f := by
  induction ps generalizing ks d with
  | nil => simp [bF]
  | cons p ps ih =>
    rw [List.flatMap_cons, List.foldl_append, place_first h _ _ (hn.sublist (List.filter_sublist.map f))]
    have e1 : ((ss.filter p).map f).filter (· ∉ ks) = ((ss.filter fun x => !d x).filter p).map f := by
      rw [List.filter_map, List.filter_filter, List.filter_filter]
      congr 1
      apply List.filter_congr
      intro x hx
      have := hd x hx
      cases hdx : d x <;> simp [hdx] at this <;> simp [this, Function.comp]
    rw [e1, ih _ (fun x => d x || p x)]
    · simp only [bF, List.map_append, List.append_assoc, List.filter_filter]
      congr 5
      funext x; cases d x <;> cases p x <;> rfl
    · intro x hx
      rw [List.mem_append, hd x hx, List.filter_filter, filter_map_name hi _ hx]
      cases d x <;> simp

theorem order_last [MapPol] (h : MapPol.entryToBack = true) {f : α → κ} {ss : List α} (hn : (ss.map f).Nodup)
    (hi : ∀ x ∈ ss, ∀ y ∈ ss, f x = f y → x = y) (ps : List (α → Bool)) :
    (ps.reverse.flatMap fun p => (ss.filter p).map f).foldl place [] = (bL ps ss).map f := by
  induction ps with
  | nil => rfl
  | cons p ps ih =>
    rw [List.reverse_cons, List.flatMap_append, List.foldl_append, ih]
    simp only [List.flatMap_cons, List.flatMap_nil, List.append_nil]
    rw [place_last h _ _ (hn.sublist (List.filter_sublist.map f)), bL, List.map_append]
    congr 1
    rw [List.filter_map, bL_filter]
    congr 1
    apply List.filter_congr
    intro x hx
    have := filter_map_name hi p (((mem_bL ps ss x).mp hx).1)
    show decide (f x ∉ (ss.filter p).map f) = !p x
    cases hp : p x with
    | true => exact decide_eq_false fun h => h (this.mpr hp)
    | false => exact decide_eq_true fun h => by rw [this.mp h] at hp; cases hp

theorem place_runs [MapPol] {f : α → κ} (n : α → Nat) (ss : List α) (ks : List κ) :
    (ss.flatMap fun s => List.replicate (n s) (f s)).foldl place ks =
      ((ss.filter fun s => decide (n s ≠ 0)).map f).foldl place ks := by
  induction ss generalizing ks with
  | nil => rfl
  | cons s ss ih =>
    rw [List.flatMap_cons, List.foldl_append, ih]
    cases hs : n s with
    | zero => simp [hs]
    | succ k => simp [hs, List.replicate_succ, place_again]

end Settle

/-! ### the screens of a saved file -/

open Settle
section
variable [Floats] [MapPol]

/-- The kinds of sections of a screen, in the order of the text. -/
def ScreenLogic.kinds : List (ScreenLogic → Bool) :=
  [fun s => s.variables.isSome, fun s => s.listVariables.isSome, fun s => s.components.isSome, fun s => s.events.isSome,
   fun s => s.moreBlocks.isSome, fun s => decide (s.blockContainers.length ≠ 0)]

/-- The order in which the screens of a text are found. -/
def Logic.found (ss : List ScreenLogic) : List ScreenLogic :=
  if MapPol.entryToBack then bL ScreenLogic.kinds.reverse ss else bF ScreenLogic.kinds ss

theorem Logic.mem_kinds (s : ScreenLogic) : (∃ p ∈ ScreenLogic.kinds, p s = true) ↔ ¬ s.Empty := by
  simp only [ScreenLogic.kinds, List.mem_cons, List.not_mem_nil, or_false, exists_eq_or_imp, exists_eq_left,
    ScreenLogic.Empty, Option.isSome_iff_ne_none, decide_eq_true_eq, ne_eq, List.length_eq_zero_iff]
  grind

theorem Logic.names_filterMap {sec : ScreenLogic → Option TSec} {β : Type} {get : ScreenLogic → Option β}
    (h : ∀ s, (sec s).map (·.name) = (get s).map fun _ => s.name) (ss : List ScreenLogic) :
    (ss.filterMap sec).map (·.name) = (ss.filter fun s => (get s).isSome).map (·.name) := by
  induction ss with
  | nil => rfl
  | cons s ss ih =>
    have := h s
    cases hg : get s with
    | none =>
      rw [hg] at this; simp at this
      simp [hg, this, ih]
    | some a =>
      rw [hg] at this
      simp only [Option.map_some, Option.map_eq_some_iff] at this
      obtain ⟨t, h1, h2⟩ := this
      simp [hg, h1, ih, h2]

theorem Logic.names_secs (ss : List ScreenLogic) (ks : List Str) : ((secs ss).map (·.name)).foldl place ks =
    (ScreenLogic.kinds.flatMap fun p => (ss.filter p).map (·.name)).foldl place ks := by
  have e : (ss.flatMap fun s => s.blockContainers.map s.blockSec).map (·.name) =
      ss.flatMap fun s => List.replicate s.blockContainers.length s.name := by
    rw [List.map_flatMap]
    congr 1; funext s
    rw [List.map_map, List.eq_replicate_iff]
    refine ⟨by simp, ?_⟩
    simp only [List.mem_map, Function.comp]; rintro _ ⟨e, _, rfl⟩; rfl
  have e1 : (ss.filterMap ScreenLogic.varSec).map (·.name) = (ss.filter fun s => s.variables.isSome).map (·.name) :=
    names_filterMap (fun s => by unfold ScreenLogic.varSec; cases s.variables <;> rfl) ss
  have e2 : (ss.filterMap ScreenLogic.listSec).map (·.name) = (ss.filter fun s => s.listVariables.isSome).map (·.name) :=
    names_filterMap (fun s => by unfold ScreenLogic.listSec; cases s.listVariables <;> rfl) ss
  have e3 : (ss.filterMap ScreenLogic.compSec).map (·.name) = (ss.filter fun s => s.components.isSome).map (·.name) :=
    names_filterMap (fun s => by unfold ScreenLogic.compSec; cases s.components <;> rfl) ss
  have e4 : (ss.filterMap ScreenLogic.eventSec).map (·.name) = (ss.filter fun s => s.events.isSome).map (·.name) :=
    names_filterMap (fun s => by unfold ScreenLogic.eventSec; cases s.events <;> rfl) ss
  have e5 : (ss.filterMap ScreenLogic.funcSec).map (·.name) = (ss.filter fun s => s.moreBlocks.isSome).map (·.name) :=
    names_filterMap (fun s => by unfold ScreenLogic.funcSec; cases s.moreBlocks <;> rfl) ss
  simp only [secs, poolSecs, List.map_append, List.foldl_append, e, e1, e2, e3, e4, e5, place_runs, ScreenLogic.kinds,
    List.flatMap_cons, List.flatMap_nil, List.append_nil]

theorem Logic.keys_applyAll (ts : List TSec) (l : LMap Str ScreenLogic) :
    (applyAll (ts.map fun t => (t.name, t.eff)) l).keys = (ts.map (·.name)).foldl place l.keys := by
  induction ts generalizing l with
  | nil => rfl
  | cons t ts ih =>
    have : applyAll ((t :: ts).map fun t => (t.name, t.eff)) l = applyAll (ts.map fun t => (t.name, t.eff)) (update l t.name t.eff) :=
      rfl
    rw [this, ih, update, keys_upsert]; rfl

theorem LMap.ext_get {κ β : Type} [DecidableEq κ] {m n : LMap κ β} (hk : m.keys = n.keys) (hn : n.keys.Nodup)
    (h : ∀ k, m.get k = n.get k) : m = n := by
  induction m generalizing n with
  | nil => cases n with
    | nil => rfl
    | cons e n => simp at hk
  | cons e m ih =>
    cases n with
    | nil => simp at hk
    | cons e' n =>
      obtain ⟨k, v⟩ := e
      obtain ⟨k', v'⟩ := e'
      simp only [LMap.keys_cons, List.cons.injEq] at hk
      obtain ⟨rfl, hk⟩ := hk
      have h0 := h k
      simp [LMap.get] at h0
      subst h0
      simp only [LMap.keys_cons, List.nodup_cons] at hn
      rw [ih hk hn.2]
      intro k''
      by_cases e : k'' = k
      · subst e
        rw [LMap.get_eq_none.mpr hn.1, LMap.get_eq_none.mpr (hk ▸ hn.1)]
      · have := h k''
        simpa [LMap.get, Ne.symm e] using this

/-- The screens of a text: all of them, in the order in which they are found. -/
theorem Logic.applyAll_secs (ss : List ScreenLogic) (hn : (ss.map (·.name)).Nodup) (he : ∀ s ∈ ss, ¬ s.Empty)
    (hb : ∀ s ∈ ss, s.blockContainers.keys.Nodup) :
    applyAll ((secs ss).map fun t => (t.name, t.eff)) [] = (found ss).map fun s => (s.name, s) := by
  have hi : ∀ x ∈ ss, ∀ y ∈ ss, x.name = y.name → x = y := by
    intro x hx y hy e
    have h1 := filter_name hn hx
    have h2 := filter_name hn hy
    rw [e, h2] at h1; simpa using h1.symm
  have hk : (applyAll ((secs ss).map fun t => (t.name, t.eff)) []).keys = (found ss).map (·.name) := by
    rw [keys_applyAll, names_secs]
    unfold found
    split
    next h =>
      have := order_last h hn hi ScreenLogic.kinds.reverse
      rw [List.reverse_reverse] at this
      exact this
    next h =>
      have := order_first (by simpa using h) hn hi ScreenLogic.kinds [] (fun _ => false) (by simp)
      rw [List.filter_eq_self.mpr (by simp), List.nil_append] at this
      exact this
  have hp : (found ss).Perm ss := by
    unfold found
    split
    · exact perm_bL _ _ fun s hs => by simpa using (mem_kinds s).mpr (he s hs)
    · exact perm_bF _ _ fun s hs => (mem_kinds s).mpr (he s hs)
  have hk2 : LMap.keys ((found ss).map fun s => (s.name, s)) = (found ss).map (·.name) := by
    simp [LMap.keys, List.map_map, Function.comp]
  have hn2 : ((found ss).map (·.name)).Nodup := (hp.map _).nodup_iff.mpr hn
  refine LMap.ext_get (hk.trans hk2.symm) (hk2 ▸ hn2) fun k => ?_
  rw [get_secs, secs_filter]
  by_cases hx : ∃ s ∈ ss, s.name = k
  · obtain ⟨s, hs, rfl⟩ := hx
    rw [filter_name hn hs, if_neg (fun h => he s hs ((secs_one_nil s).mp h)), fold_secs s (hb s hs)]
    symm
    refine LMap.get_of_mem (hk2 ▸ hn2) ?_
    exact List.mem_map.mpr ⟨s, hp.mem_iff.mpr hs, rfl⟩
  · have h0 : ∀ s ∈ ss, s.name ≠ k := fun s hs h => hx ⟨s, hs, h⟩
    rw [filter_none h0]
    rw [if_pos (by rfl)]
    symm
    rw [LMap.get_eq_none, hk2]
    simp only [List.mem_map]; rintro ⟨s, hs, h⟩
    exact h0 s (hp.mem_iff.mp hs) h

/-- A screen without its code. -/
def ScreenLogic.strip (s : ScreenLogic) : ScreenLogic := { s with blockContainers := [] }

/-- The screen has code. -/
def ScreenLogic.hasCode (s : ScreenLogic) : Bool := decide (s.blockContainers.length ≠ 0)

/-- The screen has something. -/
def ScreenLogic.hasAny (s : ScreenLogic) : Bool := ScreenLogic.kinds.any fun p => p s

/-- From the first screen without code on, code is lost, and screens that had nothing else. -/
def Logic.cut (ss : List ScreenLogic) : List ScreenLogic :=
  ss.takeWhile ScreenLogic.hasCode ++ ((ss.dropWhile ScreenLogic.hasCode).map ScreenLogic.strip).filter ScreenLogic.hasAny

namespace Logic

theorem hasAny_iff (s : ScreenLogic) : s.hasAny = true ↔ ¬ s.Empty := by
  rw [← mem_kinds]; unfold ScreenLogic.hasAny; rw [List.any_eq_true]

theorem hasCode_iff (s : ScreenLogic) : s.hasCode = true ↔ s.blockContainers ≠ [] := by
  simp [ScreenLogic.hasCode]

theorem poolSecs_append (a b : List ScreenLogic) : ∀ t, t ∈ poolSecs (a ++ b) ↔ t ∈ poolSecs a ∨ t ∈ poolSecs b := by
  intro t; simp only [poolSecs, List.filterMap_append, List.mem_append]; grind

theorem filterMap_strip {sec : ScreenLogic → Option TSec} (h1 : ∀ s, sec s.strip = sec s)
    (h2 : ∀ s : ScreenLogic, s.Empty → sec s = none) (ss : List ScreenLogic) :
    ((ss.map ScreenLogic.strip).filter ScreenLogic.hasAny).filterMap sec = ss.filterMap sec := by
  induction ss with
  | nil => rfl
  | cons s ss ih =>
    rw [List.map_cons, List.filter_cons]
    by_cases h : s.strip.hasAny = true
    · rw [if_pos h, List.filterMap_cons, List.filterMap_cons, ih, h1]
    · have : sec s = none := by
        rw [← h1]; exact h2 _ (Classical.byContradiction fun hh => h ((hasAny_iff _).mpr hh))
      rw [if_neg h, List.filterMap_cons, ih, this]

theorem poolSecs_cut (ss : List ScreenLogic) : poolSecs (cut ss) = poolSecs ss := by
  have key : ∀ {sec : ScreenLogic → Option TSec}, (∀ s, sec s.strip = sec s) → (∀ s : ScreenLogic, s.Empty → sec s = none) →
      (cut ss).filterMap sec = ss.filterMap sec := by
    intro sec h1 h2
    rw [cut, List.filterMap_append, filterMap_strip h1 h2, ← List.filterMap_append, List.takeWhile_append_dropWhile]
  unfold poolSecs
  rw [key, key, key, key, key]
  · intro s; rfl
  · intro s h; simp [ScreenLogic.funcSec, h.2.2.2.2.1]
  · intro s; rfl
  · intro s h; simp [ScreenLogic.eventSec, h.2.2.2.1]
  · intro s; rfl
  · intro s h; simp [ScreenLogic.compSec, h.2.2.1]
  · intro s; rfl
  · intro s h; simp [ScreenLogic.listSec, h.2.1]
  · intro s; rfl
  · intro s h; simp [ScreenLogic.varSec, h.1]

theorem secs_cut (ss : List ScreenLogic) : secs (cut ss) = poolSecs ss ++
    (ss.takeWhile ScreenLogic.hasCode).flatMap fun s => s.blockContainers.map s.blockSec := by
  rw [secs, poolSecs_cut, cut, List.flatMap_append]
  have : ((((ss.dropWhile ScreenLogic.hasCode).map ScreenLogic.strip).filter ScreenLogic.hasAny).flatMap
      fun s => s.blockContainers.map s.blockSec) = [] := by
    rw [List.flatMap_eq_nil_iff]
    intro s hs
    simp only [List.mem_filter, List.mem_map] at hs
    obtain ⟨⟨x, _, rfl⟩, _⟩ := hs
    rfl
  rw [this, List.append_nil]

theorem split_none {β : Type} {x y : List β} {b c : List (Option β)} (h : x.map some ++ none :: b = y.map some ++ none :: c) :
    x = y := by
  induction x generalizing y with
  | nil => cases y with
    | nil => rfl
    | cons z y => simp at h
  | cons z x ih => cases y with
    | nil => simp at h
    | cons w y =>
      simp only [List.map_cons, List.cons_append, List.cons.injEq, Option.some.injEq] at h
      rw [h.1, ih h.2]

theorem dropWhile_head {ss : List ScreenLogic} {s : ScreenLogic} {post : List ScreenLogic}
    (h : ss.dropWhile ScreenLogic.hasCode = s :: post) : s.blockContainers = [] := by
  have := List.head?_dropWhile_not ScreenLogic.hasCode ss
  rw [h] at this
  simp only [List.head?_cons] at this
  refine Classical.byContradiction fun hh => ?_
  rw [(hasCode_iff s).mpr hh] at this; simp at this

theorem poolSecs_of_codeless {ss : List ScreenLogic} {s : ScreenLogic} (hs : s ∈ ss) (he : ¬ s.Empty)
    (hb : s.blockContainers = []) : poolSecs ss ≠ [] := by
  intro h
  obtain ⟨h1, h2, h3, h4, h5⟩ := (poolSecs_nil ss).mp h s hs
  exact he ⟨h1, h2, h3, h4, h5, hb⟩

theorem names_cut {ss : List ScreenLogic} (hn : (ss.map (·.name)).Nodup) : ((cut ss).map (·.name)).Nodup := by
  refine hn.sublist ?_
  have h1 : ((((ss.dropWhile ScreenLogic.hasCode).map ScreenLogic.strip).filter ScreenLogic.hasAny).map (·.name)).Sublist
      ((ss.dropWhile ScreenLogic.hasCode).map (·.name)) := by
    have := (List.filter_sublist (p := ScreenLogic.hasAny)
      (l := (ss.dropWhile ScreenLogic.hasCode).map ScreenLogic.strip)).map (·.name)
    rw [List.map_map] at this
    exact this
  conv => rhs; rw [← List.takeWhile_append_dropWhile (p := ScreenLogic.hasCode) (l := ss)]
  rw [cut, List.map_append, List.map_append]
  exact List.Sublist.append (List.Sublist.refl _) h1

theorem mem_cut {ss : List ScreenLogic} {s : ScreenLogic} (h : s ∈ cut ss) :
    (s ∈ ss ∧ s.blockContainers ≠ []) ∨ ∃ t ∈ ss, s = t.strip ∧ ¬ s.Empty := by
  rw [cut, List.mem_append] at h
  rcases h with h | h
  · exact .inl ⟨(List.takeWhile_prefix _).subset h, (hasCode_iff s).mp (Settle.mem_takeWhile_imp h)⟩
  · simp only [List.mem_filter, List.mem_map] at h
    obtain ⟨⟨t, ht, rfl⟩, h2⟩ := h
    exact .inr ⟨t, (List.dropWhile_suffix _).subset ht, rfl, (hasAny_iff _).mp h2⟩

/-- What is read from a saved file. -/
theorem parse_cut {l : Logic} (h : l.Inv) (hp : ∀ s ∈ l.screens.map (·.2), s.PartsOk)
    (he : ∀ s ∈ l.screens.map (·.2), ¬ s.Empty) :
    parse l.reconstruct = .ok ⟨(found (cut (l.screens.map (·.2)))).map fun s => (s.name, s)⟩ := by
  have hnames : ((l.screens.map (·.2)).map (·.name)).Nodup := by
    rw [List.map_map]
    have : l.screens.map ((fun s : ScreenLogic => s.name) ∘ fun e : Str × ScreenLogic => e.2) = l.screens.keys := by
      unfold LMap.keys
      apply List.map_congr_left
      intro e he; exact (h.key e he).symm
    rw [this]; exact h.nodup
  have hbl := h.blocks
  rw [reconstruct_items l hp]
  have hok := items_ok hp
  have hcl := items_closed hp
  generalize l.screens.map (·.2) = ss at *
  have fin : ∀ ts, parse (trim (itemsText (items ss))) = .ok ⟨applyAll (ts.map fun t => (t.name, t.eff)) []⟩ →
      ts = secs (cut ss) → parse (trim (itemsText (items ss))) = .ok ⟨(found (cut ss)).map fun s => (s.name, s)⟩ := by
    rintro ts h1 rfl
    rw [h1, applyAll_secs _ (names_cut hnames)]
    · intro s hs
      rcases mem_cut hs with ⟨hs, _⟩ | ⟨t, _, _, h⟩
      · exact he s hs
      · exact h
    · intro s hs
      rcases mem_cut hs with ⟨hs, _⟩ | ⟨t, _, rfl, _⟩
      · exact hbl s hs
      · exact List.Pairwise.nil
  have hsplit : ss.takeWhile ScreenLogic.hasCode ++ ss.dropWhile ScreenLogic.hasCode = ss := List.takeWhile_append_dropWhile
  by_cases hg : Gap (items ss)
  · obtain ⟨a, ts, b, hi, ha, ⟨t, ht⟩, hpg⟩ := parse_items_gap hok hcl hg
    refine fin ts hpg ?_
    rw [secs_cut]
    have hP : (ss.takeWhile ScreenLogic.hasCode).flatMap ScreenLogic.blockItems =
        ((ss.takeWhile ScreenLogic.hasCode).flatMap fun s => s.blockContainers.map s.blockSec).map some := by
      rw [List.map_flatMap]
      have : ∀ xs : List ScreenLogic, (∀ s ∈ xs, s.blockContainers ≠ []) → xs.flatMap ScreenLogic.blockItems =
          xs.flatMap fun s => (s.blockContainers.map s.blockSec).map some := by
        intro xs hx
        induction xs with
        | nil => rfl
        | cons x xs ih =>
          rw [List.flatMap_cons, List.flatMap_cons, ih fun s hs => hx s (by simp [hs])]
          congr 1
          unfold ScreenLogic.blockItems
          rw [if_neg (hx x (by simp)), List.map_map]; rfl
      exact this _ fun s hs => (hasCode_iff s).mp (Settle.mem_takeWhile_imp hs)
    have hX : items ss = (poolSecs ss ++ (ss.takeWhile ScreenLogic.hasCode).flatMap fun s => s.blockContainers.map s.blockSec).map some ++
        (ss.dropWhile ScreenLogic.hasCode).flatMap ScreenLogic.blockItems := by
      conv => lhs; rw [items, ← hsplit]
      rw [List.flatMap_append, hP, hsplit, List.map_append, List.append_assoc]
    cases hD : ss.dropWhile ScreenLogic.hasCode with
    | nil =>
      rw [hD] at hX
      have : none ∈ items ss := by rw [hi]; simp
      rw [hX] at this; simp at this
    | cons s post =>
      have hs : s.blockContainers = [] := dropWhile_head hD
      have hm : s ∈ ss := by rw [← hsplit, hD]; simp
      have hne := poolSecs_of_codeless hm (he s hm) hs
      have hbi : s.blockItems = [none] := by simp [ScreenLogic.blockItems, hs]
      rw [hD, List.flatMap_cons, hbi, hi] at hX
      cases a with
      | nil => exact split_none (by simpa using hX)
      | cons x a =>
        have : x = none := ha x (by simp)
        subst this
        cases hps : poolSecs ss with
        | nil => exact absurd hps hne
        | cons u us => rw [hps] at hX; simp at hX
  · refine fin (secs ss) (by rw [parse_items hok hcl hg, items_secs]) ?_
    rw [secs_cut, secs]
    congr 1
    have ht : Tight ss := Classical.byContradiction fun h => hg ((gap_iff _).mpr h)
    conv => lhs; rw [← hsplit]
    rw [List.flatMap_append]
    have : ((ss.dropWhile ScreenLogic.hasCode).flatMap fun s => s.blockContainers.map s.blockSec) = [] := by
      cases hD : ss.dropWhile ScreenLogic.hasCode with
      | nil => rfl
      | cons s post =>
        have hs : s.blockContainers = [] := dropWhile_head hD
        have hm : s ∈ ss := by rw [← hsplit, hD]; simp
        rw [List.flatMap_eq_nil_iff]
        intro t htm
        rcases List.mem_cons.mp htm with rfl | htp
        · simp [hs]
        · refine Classical.byContradiction fun hc => ?_
          have hc' : t.blockContainers ≠ [] := fun e => hc (by simp [e])
          have := (ht (ss.takeWhile ScreenLogic.hasCode) s post (by rw [← hD, hsplit]) hs ⟨t, htp, hc'⟩).2 s hm
          exact he s hm ⟨this.1, this.2.1, this.2.2.1, this.2.2.2.1, this.2.2.2.2, hs⟩
    rw [this, List.append_nil]

/-! ### saving again -/

theorem found_perm {ss : List ScreenLogic} (he : ∀ s ∈ ss, ¬ s.Empty) : (found ss).Perm ss := by
  unfold found
  split
  · exact perm_bL _ _ fun s hs => by simpa using (mem_kinds s).mpr (he s hs)
  · exact perm_bF _ _ fun s hs => (mem_kinds s).mpr (he s hs)

theorem found_idem (ss : List ScreenLogic) : found (found ss) = found ss := by
  unfold found
  split
  · exact bL_idem _ _
  · exact bF_idem _ _

/-- Screens with code first. -/
def CodeFirst (ss : List ScreenLogic) : Prop := ∀ s ∈ ss.dropWhile ScreenLogic.hasCode, s.blockContainers = []

theorem cut_codeFirst {ss : List ScreenLogic} (h : CodeFirst ss) (he : ∀ s ∈ ss, ¬ s.Empty) : cut ss = ss := by
  unfold cut
  have : ((ss.dropWhile ScreenLogic.hasCode).map ScreenLogic.strip).filter ScreenLogic.hasAny = ss.dropWhile ScreenLogic.hasCode := by
    have e : (ss.dropWhile ScreenLogic.hasCode).map ScreenLogic.strip = ss.dropWhile ScreenLogic.hasCode := by
      conv => rhs; rw [← List.map_id (ss.dropWhile ScreenLogic.hasCode)]
      apply List.map_congr_left
      intro s hs
      have := h s hs
      cases s; simp only at this; subst this; rfl
    rw [e, List.filter_eq_self]
    intro s hs
    exact (hasAny_iff s).mpr (he s ((List.dropWhile_suffix _).subset hs))
  rw [this, List.takeWhile_append_dropWhile]

theorem codeFirst_append {a b : List ScreenLogic} (ha : ∀ s ∈ a, s.blockContainers ≠ []) (hb : ∀ s ∈ b, s.blockContainers = []) :
    CodeFirst (a ++ b) := by
  intro s hs
  rw [List.dropWhile_append, if_pos (by
    rw [List.isEmpty_iff, Settle.dropWhile_eq_nil_iff]; intro x hx; exact (hasCode_iff x).mpr (ha x hx))] at hs
  exact hb s ((List.dropWhile_suffix _).subset hs)

theorem rank_strip {s : ScreenLogic} (h : ¬ s.strip.Empty) : rank ScreenLogic.kinds s.strip = rank ScreenLogic.kinds s ∧
    rank ScreenLogic.kinds s ≤ 4 := by
  obtain ⟨name, bc, v, lv, c, e, f⟩ := s
  simp only [ScreenLogic.strip, ScreenLogic.Empty, and_true] at h
  cases v <;> cases lv <;> cases c <;> cases e <;> cases f <;>
    simp_all [ScreenLogic.kinds, rank_cons, ScreenLogic.strip]

theorem strip_of_rank {s : ScreenLogic} (h : rank ScreenLogic.kinds s ≤ 4) : ¬ s.strip.Empty := by
  obtain ⟨name, bc, v, lv, c, e, f⟩ := s
  cases v <;> cases lv <;> cases c <;> cases e <;> cases f <;>
    simp_all [ScreenLogic.kinds, rank_cons, ScreenLogic.strip, ScreenLogic.Empty]

/-- After two rounds the screens with code come first. -/
theorem codeFirst_found (xs : List ScreenLogic) (he : ∀ s ∈ xs, ¬ s.Empty) : CodeFirst (found (cut (found xs))) := by
  have hsplit : (found xs).takeWhile ScreenLogic.hasCode ++ (found xs).dropWhile ScreenLogic.hasCode = found xs :=
    List.takeWhile_append_dropWhile
  have hef : ∀ s ∈ found xs, ¬ s.Empty := fun s hs => he s ((found_perm he).mem_iff.mp hs)
  cases hD : (found xs).dropWhile ScreenLogic.hasCode with
  | nil =>
    have hall : ∀ s ∈ found xs, s.blockContainers ≠ [] := by
      rw [Settle.dropWhile_eq_nil_iff] at hD
      exact fun s hs => (hasCode_iff s).mp (hD s hs)
    have : cut (found xs) = found xs := cut_codeFirst (by intro s hs; rw [hD] at hs; simp at hs) hef
    rw [this, found_idem]
    intro s hs; rw [hD] at hs; simp at hs
  | cons d post =>
    have hd : d.blockContainers = [] := dropWhile_head hD
    have hdm : d ∈ found xs := by rw [← hsplit, hD]; simp
    by_cases hb : MapPol.entryToBack = true
    · -- the first screen has no code
      have hf : found xs = bL ScreenLogic.kinds.reverse xs := by unfold found; rw [if_pos hb]
      have hP : (found xs).takeWhile ScreenLogic.hasCode = [] := by
        have hl : found xs = bL (ScreenLogic.kinds.reverse.tail) (xs.filter fun s => !s.hasCode) ++ xs.filter ScreenLogic.hasCode := hf
        have hh : d ∈ bL (ScreenLogic.kinds.reverse.tail) (xs.filter fun s => !s.hasCode) := by
          rw [hl, List.mem_append] at hdm
          refine hdm.resolve_right fun h => ?_
          exact (hasCode_iff d).mp (List.mem_filter.mp h).2 hd
        rw [hl]
        cases hx : bL (ScreenLogic.kinds.reverse.tail) (xs.filter fun s => !s.hasCode) with
        | nil => rw [hx] at hh; simp at hh
        | cons y ys =>
          have hy : y ∈ bL (ScreenLogic.kinds.reverse.tail) (xs.filter fun s => !s.hasCode) := by rw [hx]; simp
          rw [mem_bL, List.mem_filter] at hy
          have : y.hasCode = false := by simpa using hy.1.2
          rw [List.cons_append, List.takeWhile_cons, this]; simp
      have hc : ∀ s ∈ cut (found xs), s.blockContainers = [] := by
        intro s hs
        rw [cut, hP, List.nil_append, List.mem_filter, List.mem_map] at hs
        obtain ⟨⟨t, _, rfl⟩, _⟩ := hs
        rfl
      intro s hs
      refine hc s ((found_perm ?_).mem_iff.mp ((List.dropWhile_suffix _).subset hs))
      intro s hs
      rcases mem_cut hs with ⟨hs, _⟩ | ⟨t, _, _, h⟩
      · exact hef s hs
      · exact h
    · -- the screens are still sorted
      have hf : ∀ ys, found ys = bF ScreenLogic.kinds ys := by intro ys; unfold found; rw [if_neg hb]
      have hsort : (found xs).Pairwise fun a b => rank ScreenLogic.kinds a ≤ rank ScreenLogic.kinds b := by
        rw [hf]; exact bF_sorted _ _
      rw [← hsplit, hD, List.pairwise_append] at hsort
      obtain ⟨s1, s2, s3⟩ := hsort
      have hdr : ¬ d.strip.Empty := by
        have : d.strip = d := by cases d; simp only at hd; subst hd; rfl
        rw [this]; exact hef d hdm
      have hsorted : (cut (found xs)).Pairwise fun a b => rank ScreenLogic.kinds a ≤ rank ScreenLogic.kinds b := by
        rw [cut, hD, List.pairwise_append]
        refine ⟨s1, ?_, ?_⟩
        · have : ((d :: post).map ScreenLogic.strip).Pairwise fun a b => ¬ a.Empty → ¬ b.Empty →
              rank ScreenLogic.kinds a ≤ rank ScreenLogic.kinds b := by
            rw [List.pairwise_map]
            refine s2.imp ?_
            intro a b h ha hb
            rw [(rank_strip ha).1, (rank_strip hb).1]; exact h
          refine List.Pairwise.imp_of_mem ?_ (this.sublist List.filter_sublist)
          intro a b ha hb h
          exact h ((hasAny_iff a).mp (List.mem_filter.mp ha).2) ((hasAny_iff b).mp (List.mem_filter.mp hb).2)
        · intro a ha b hb
          rw [List.mem_filter, List.mem_map] at hb
          obtain ⟨⟨t, ht, rfl⟩, hb⟩ := hb
          rw [(rank_strip ((hasAny_iff _).mp hb)).1]
          exact s3 a ha t ht
      have hne : ∀ s ∈ cut (found xs), ¬ s.Empty := by
        intro s hs
        rcases mem_cut hs with ⟨hs, _⟩ | ⟨t, _, _, h⟩
        · exact hef s hs
        · exact h
      rw [hf (cut (found xs)), bF_of_sorted _ _ (fun s hs => (mem_kinds s).mpr (hne s hs)) hsorted, cut]
      refine codeFirst_append (fun s hs => (hasCode_iff s).mp (Settle.mem_takeWhile_imp hs)) ?_
      intro s hs
      rw [List.mem_filter, List.mem_map] at hs
      obtain ⟨⟨t, _, rfl⟩, _⟩ := hs
      rfl

/-- After two rounds nothing changes. -/
theorem settled (ss : List ScreenLogic) (he : ∀ s ∈ ss, ¬ s.Empty) :
    found (cut (found (cut (found (cut ss))))) = found (cut (found (cut ss))) := by
  have h0 : ∀ ss : List ScreenLogic, (∀ s ∈ ss, ¬ s.Empty) → ∀ s ∈ cut ss, ¬ s.Empty := by
    intro ss he s hs
    rcases mem_cut hs with ⟨hs, _⟩ | ⟨t, _, _, h⟩
    · exact he s hs
    · exact h
  have h1 := h0 ss he
  have h2 : ∀ s ∈ found (cut ss), ¬ s.Empty := fun s hs => h1 s ((found_perm h1).mem_iff.mp hs)
  have h3 := h0 _ h2
  have h4 : ∀ s ∈ found (cut (found (cut ss))), ¬ s.Empty := fun s hs => h3 s ((found_perm h3).mem_iff.mp hs)
  rw [cut_codeFirst (codeFirst_found (cut ss) h1) h4, found_idem]

end Logic
end
end Swrs
