import Verif.Props.LogicRead
import Verif.Props.PoliciesApi
/-!
# C115: the order of the sections of a logic file and of a view file
-/
set_option linter.unusedSectionVars false
namespace Swrs
namespace Logic
variable [Floats] [MapPol]

/-- What a section of a logic file is for: a pool, by the end of its header, or the code of a container. -/
inductive c115_Kind where
  | pool (suffix : Str)
  | code (container : Str)
deriving DecidableEq

/-- The ends of the headers of pools. -/
def c115_pools : List Str := [s% "java_var", s% "java_list", s% "java_components", s% "java_events", s% "java_func"]

/-- The header of a section for the kind `k` of the screen `name`. -/
def c115_Header (hd name : Str) : c115_Kind → Prop
  | .pool suf => suf ∈ c115_pools ∧ ∃ x : Char, x.utf8Size = 1 ∧ hd = '@' :: (name ++ x :: suf)
  | .code c => (∀ suf ∈ c115_pools, ¬ suf <:+ hd) ∧ BlockContainerHeader.parse hd = .ok ⟨name, c⟩

/-- The last section for a kind of a screen, and its lines. -/
def c115_Last (ps : List (List Str)) (name : Str) (k : c115_Kind) (body : List Str) : Prop :=
  ∃ pre hd post, ps = pre ++ (hd :: body) :: post ∧ c115_Header hd name k ∧ ∀ hd' body', hd' :: body' ∈ post → ¬ c115_Header hd' name k

/-- Two screens hold the same: equal pools, and the same code in every container. -/
structure c115_Screens (a b : ScreenLogic) : Prop where
  name : a.name = b.name
  «variables» : a.variables = b.variables
  listVariables : a.listVariables = b.listVariables
  components : a.components = b.components
  events : a.events = b.events
  moreBlocks : a.moreBlocks = b.moreBlocks
  code : ∀ c, a.blockContainers.get c = b.blockContainers.get c

/-- Two logics hold the same. -/
def c115_Logics (r r' : Logic) : Prop := ∀ n, match r.screens.get n, r'.screens.get n with
  | none, none => True
  | some a, some b => c115_Screens a b
  | _, _ => False

/-! ### Slots -/

/-- What a section is read as. -/
inductive c115_Slot where
  | vars (p : VariablePool)
  | lists (p : ListVariablePool)
  | comps (p : ComponentPool)
  | events (p : EventPool)
  | mbs (p : MoreBlockPool)
  | code (b : BlockContainer)

/-- The part of a screen for a kind. -/
def c115_at (s : ScreenLogic) : c115_Kind → Option c115_Slot
  | .pool suf =>
    if suf = s% "java_var" then s.variables.map .vars
    else if suf = s% "java_list" then s.listVariables.map .lists
    else if suf = s% "java_components" then s.components.map .comps
    else if suf = s% "java_events" then s.events.map .events
    else if suf = s% "java_func" then s.moreBlocks.map .mbs
    else none
  | .code c => (s.blockContainers.get c).map .code

/-- How the lines of a section are read. -/
def c115_Reads (body : List Str) : c115_Kind → c115_Slot → Prop
  | .pool suf, v =>
    if suf = s% "java_var" then ∃ vs, PoolReads Variable.parse body vs ∧ v = .vars ⟨LMap.collect (vs.map fun v => (v.name, v))⟩
    else if suf = s% "java_list" then ∃ vs, PoolReads ListVariable.parse body vs ∧ v = .lists ⟨LMap.collect (vs.map fun v => (v.name, v))⟩
    else if suf = s% "java_components" then ∃ vs, PoolReads (lineParser Component.parse) body vs ∧ v = .comps ⟨vs⟩
    else if suf = s% "java_events" then ∃ vs, PoolReads (lineParser Event.parse) body vs ∧ v = .events ⟨vs⟩
    else if suf = s% "java_func" then ∃ vs, PoolReads MoreBlock.parse body vs ∧ v = .mbs ⟨LMap.collect (vs.map fun v => (v.id, v))⟩
    else False
  | .code _, v => ∃ bs, PoolReads (lineParser Block.parse) body bs ∧ v = .code ⟨bs⟩

theorem c115_reads_unique {body : List Str} {k : c115_Kind} {v w : c115_Slot} (h : c115_Reads body k v) (h' : c115_Reads body k w) : v = w := by
  cases k with
  | code c =>
    obtain ⟨a, h1, rfl⟩ := h
    obtain ⟨b, h2, rfl⟩ := h'
    rw [h1.unique h2]
  | pool suf =>
    simp only [c115_Reads] at h h'
    split at h
    · rw [if_pos ‹_›] at h'
      obtain ⟨a, h1, rfl⟩ := h
      obtain ⟨b, h2, rfl⟩ := h'
      rw [h1.unique h2]
    rw [if_neg ‹_›] at h'
    split at h
    · rw [if_pos ‹_›] at h'
      obtain ⟨a, h1, rfl⟩ := h
      obtain ⟨b, h2, rfl⟩ := h'
      rw [h1.unique h2]
    rw [if_neg ‹_›] at h'
    split at h
    · rw [if_pos ‹_›] at h'
      obtain ⟨a, h1, rfl⟩ := h
      obtain ⟨b, h2, rfl⟩ := h'
      rw [h1.unique h2]
    rw [if_neg ‹_›] at h'
    split at h
    · rw [if_pos ‹_›] at h'
      obtain ⟨a, h1, rfl⟩ := h
      obtain ⟨b, h2, rfl⟩ := h'
      rw [h1.unique h2]
    rw [if_neg ‹_›] at h'
    split at h
    · rw [if_pos ‹_›] at h'
      obtain ⟨a, h1, rfl⟩ := h
      obtain ⟨b, h2, rfl⟩ := h'
      rw [h1.unique h2]
    · exact h.elim

theorem c115_pools_suffix : ∀ a ∈ c115_pools, ∀ b ∈ c115_pools, a <:+ b → a = b := by
  decide

/-- A header is for one kind of one screen. -/
theorem c115_header_unique {hd n n' : Str} {k k' : c115_Kind} (h : c115_Header hd n k) (h' : c115_Header hd n' k') : n = n' ∧ k = k' := by
  cases k with
  | pool suf =>
    obtain ⟨hs, x, hx, rfl⟩ := h
    have hsuf : suf <:+ '@' :: (n ++ x :: suf) := ⟨'@' :: (n ++ [x]), by simp⟩
    cases k' with
    | pool suf' =>
      obtain ⟨hs', y, hy, e⟩ := h'
      have hsuf' : suf' <:+ '@' :: (n ++ x :: suf) := ⟨'@' :: (n' ++ [y]), by rw [e]; simp⟩
      have : suf = suf' := by
        rcases List.suffix_or_suffix_of_suffix hsuf hsuf' with h | h
        · exact c115_pools_suffix _ hs _ hs' h
        · exact (c115_pools_suffix _ hs' _ hs h).symm
      subst this
      simp only [List.cons.injEq, true_and] at e
      have := List.append_inj_left' e rfl
      exact ⟨this, rfl⟩
    | code c => exact absurd hsuf (h'.1 suf hs)
  | code c =>
    cases k' with
    | pool suf' =>
      obtain ⟨hs', y, hy, rfl⟩ := h'
      exact absurd ⟨'@' :: (n' ++ [y]), by simp⟩ (h.1 suf' hs')
    | code c' =>
      have := Out.ok.inj (h.2.symm.trans h'.2)
      simp only [BlockContainerHeader.mk.injEq] at this
      exact ⟨this.1, by rw [this.2]⟩

/-- What a readable section does. -/
theorem c115_sec {hd : Str} {body : List Str} {n : Str} {eff : ScreenLogic → ScreenLogic} (h : Sec hd body n eff) :
    ∃ k v, c115_Header hd n k ∧ c115_Reads body k v ∧
      ∀ s, (eff s).name = s.name ∧ c115_at (eff s) k = some v ∧ ∀ k', k' ≠ k → c115_at (eff s) k' = c115_at s k' := by
  have other : ∀ {a : Str} {k' : c115_Kind}, k' ≠ .pool a → (∃ b, k' = .pool b ∧ b ≠ a) ∨ ∃ c, k' = .code c := by
    intro a k' hk
    cases k' with
    | pool b => exact .inl ⟨b, rfl, fun e => hk (by rw [e])⟩
    | code c => exact .inr ⟨c, rfl⟩
  cases h with
  | var hx h =>
    refine ⟨.pool (s% "java_var"), _, ⟨by decide, _, hx, rfl⟩, ⟨_, h, rfl⟩, fun s => ⟨rfl, rfl, ?_⟩⟩
    intro k' hk
    rcases other hk with ⟨b, rfl, hb⟩ | ⟨c, rfl⟩
    · simp only [c115_at, if_neg hb]
    · rfl
  | list hx h =>
    refine ⟨.pool (s% "java_list"), _, ⟨by decide, _, hx, rfl⟩, ⟨_, h, rfl⟩, fun s => ⟨rfl, rfl, ?_⟩⟩
    intro k' hk
    rcases other hk with ⟨b, rfl, hb⟩ | ⟨c, rfl⟩
    · simp only [c115_at, if_neg hb]
    · rfl
  | components hx h =>
    refine ⟨.pool (s% "java_components"), _, ⟨by decide, _, hx, rfl⟩, ⟨_, h, rfl⟩, fun s => ⟨rfl, rfl, ?_⟩⟩
    intro k' hk
    rcases other hk with ⟨b, rfl, hb⟩ | ⟨c, rfl⟩
    · simp only [c115_at, if_neg hb]
    · rfl
  | events hx h =>
    refine ⟨.pool (s% "java_events"), _, ⟨by decide, _, hx, rfl⟩, ⟨_, h, rfl⟩, fun s => ⟨rfl, rfl, ?_⟩⟩
    intro k' hk
    rcases other hk with ⟨b, rfl, hb⟩ | ⟨c, rfl⟩
    · simp only [c115_at, if_neg hb]
    · rfl
  | func hx h =>
    refine ⟨.pool (s% "java_func"), _, ⟨by decide, _, hx, rfl⟩, ⟨_, h, rfl⟩, fun s => ⟨rfl, rfl, ?_⟩⟩
    intro k' hk
    rcases other hk with ⟨b, rfl, hb⟩ | ⟨c, rfl⟩
    · simp only [c115_at, if_neg hb]
    · rfl
  | @blocks _ hh _ bs hn hl h =>
    refine ⟨.code hh.containerName, .code ⟨bs⟩, ⟨?_, hl⟩, ⟨_, h, rfl⟩, fun s => ⟨rfl, ?_, ?_⟩⟩
    · obtain ⟨h1, h2, h3, h4, h5⟩ := hn
      intro suf hs ⟨r, hr⟩
      have : endsWith suf hd = true := endsWith_iff.mpr ⟨r, hr.symm⟩
      simp only [c115_pools, List.mem_cons, List.not_mem_nil, or_false] at hs
      rcases hs with rfl | rfl | rfl | rfl | rfl
      · rw [h1] at this; cases this
      · rw [h2] at this; cases this
      · rw [h3] at this; cases this
      · rw [h4] at this; cases this
      · rw [h5] at this; cases this
    · simp only [c115_at, LMap.get_insert, if_true, Option.map_some]
    · intro k' hk
      cases k' with
      | pool b => rfl
      | code c =>
        simp only [c115_at, LMap.get_insert]
        rw [if_neg (fun e => hk (by rw [e]))]

/-- A screen after its sections. -/
def c115_fold (es : List (Str × (ScreenLogic → ScreenLogic))) (n : Str) (s : ScreenLogic) : ScreenLogic :=
  ((es.filter fun e => e.1 = n).map (·.2)).foldl (fun s f => f s) s

theorem c115_fold_cons (e : Str × (ScreenLogic → ScreenLogic)) (es : List (Str × (ScreenLogic → ScreenLogic))) (n : Str) (s : ScreenLogic) :
    c115_fold (e :: es) n s = c115_fold es n (if e.1 = n then e.2 s else s) := by
  unfold c115_fold
  by_cases h : e.1 = n
  · rw [List.filter_cons_of_pos (by simpa using h), List.map_cons, List.foldl_cons, if_pos h]
  · rw [List.filter_cons_of_neg (by simpa using h), if_neg h]

theorem c115_last_cons {ps : List (List Str)} {n : Str} {k : c115_Kind} {body : List Str} (h : c115_Last ps n k body) (p : List Str) :
    c115_Last (p :: ps) n k body := by
  obtain ⟨pre, hd, post, rfl, h1, h2⟩ := h
  exact ⟨p :: pre, hd, post, rfl, h1, h2⟩

/-- Each part of a screen is what its last section is read as. -/
theorem c115_parts {ps : List (List Str)} {es : List (Str × (ScreenLogic → ScreenLogic))} (h : All₂ SectionReads ps es) (n : Str) :
    ∀ s, (c115_fold es n s).name = s.name ∧
    ∀ k, (∃ body v, c115_Last ps n k body ∧ c115_Reads body k v ∧ c115_at (c115_fold es n s) k = some v) ∨
      ((∀ hd body, hd :: body ∈ ps → ¬ c115_Header hd n k) ∧ c115_at (c115_fold es n s) k = c115_at s k) := by
  induction h with
  | nil => exact fun s => ⟨rfl, fun k => .inr ⟨by simp, rfl⟩⟩
  | @cons p e ps es hp hps ih =>
    intro s
    obtain ⟨hd, body, rfl, hsec⟩ := hp
    obtain ⟨k₀, v₀, hk, hr, he⟩ := c115_sec hsec
    rw [c115_fold_cons]
    refine ⟨?_, fun k => ?_⟩
    · rw [(ih _).1]
      split
      · exact (he s).1
      · rfl
    · rcases (ih (if e.1 = n then e.2 s else s)).2 k with ⟨b, v, h1, h2, h3⟩ | ⟨h1, h2⟩
      · exact .inl ⟨b, v, c115_last_cons h1 _, h2, h3⟩
      · by_cases hm : e.1 = n ∧ k = k₀
        · obtain ⟨rfl, rfl⟩ := hm
          refine .inl ⟨body, v₀, ⟨[], hd, ps, rfl, hk, h1⟩, hr, ?_⟩
          rw [h2, if_pos rfl, (he s).2.1]
        · refine .inr ⟨?_, ?_⟩
          · intro hd' body' hmem hh
            rcases List.mem_cons.mp hmem with hmem | hmem
            · obtain ⟨rfl, rfl⟩ := List.cons.inj hmem
              obtain ⟨a, b⟩ := c115_header_unique hk hh
              exact hm ⟨a, b.symm⟩
            · exact h1 _ _ hmem hh
          · rw [h2]
            split
            · rename_i hn
              exact (he s).2.2 k fun hk' => hm ⟨hn, hk'⟩
            · rfl

/-- A screen has a section exactly when it has a last one for some kind. -/
theorem c115_named {ps : List (List Str)} {es : List (Str × (ScreenLogic → ScreenLogic))} (h : All₂ SectionReads ps es) (n : Str) :
    n ∈ es.map (·.1) ↔ ∃ k body, c115_Last ps n k body := by
  constructor
  · intro hn
    obtain ⟨e, he, rfl⟩ := List.mem_map.mp hn
    obtain ⟨p, hp, hd, body, rfl, hsec⟩ := h.right e he
    obtain ⟨k, v, hk, _, _⟩ := c115_sec hsec
    rcases (c115_parts h e.1 (ScreenLogic.newEmpty [])).2 k with ⟨b, _, hl, _⟩ | ⟨hno, _⟩
    · exact ⟨k, b, hl⟩
    · exact absurd hk (hno _ _ hp)
  · rintro ⟨k, body, pre, hd, post, rfl, hk, _⟩
    obtain ⟨e, he, hd', body', hp, hsec⟩ := h.left (hd :: body) (by simp)
    obtain ⟨rfl, rfl⟩ := List.cons.inj hp
    obtain ⟨k', _, hk', _⟩ := c115_sec hsec
    obtain ⟨rfl, _⟩ := c115_header_unique hk hk'
    exact List.mem_map.mpr ⟨e, he, rfl⟩

theorem c115_last_unique {ps : List (List Str)} {n : Str} {k : c115_Kind} {b b' : List Str} (h : c115_Last ps n k b) (h' : c115_Last ps n k b') :
    b = b' := by
  obtain ⟨pre, hd, post, rfl, h1, h2⟩ := h
  obtain ⟨pre', hd', post', e, h1', h2'⟩ := h'
  rcases List.append_eq_append_iff.mp e with ⟨a, rfl, ha⟩ | ⟨a, rfl, ha⟩
  · cases a with
    | nil => exact (List.cons.inj (List.cons.inj ha).1).2
    | cons c a =>
      obtain ⟨rfl, rfl⟩ := List.cons.inj ha
      exact absurd h1' (h2 hd' b' (by simp))
  · cases a with
    | nil => exact (List.cons.inj (List.cons.inj ha).1).2.symm
    | cons c a =>
      obtain ⟨rfl, rfl⟩ := List.cons.inj ha
      exact absurd h1 (h2' hd b (by simp))

theorem c115_screens_of_at {a b : ScreenLogic} (hn : a.name = b.name) (h : ∀ k, c115_at a k = c115_at b k) : c115_Screens a b := by
  have inj : ∀ {α : Type} {f : α → c115_Slot} (_ : ∀ x y, f x = f y → x = y) {x y : Option α}, x.map f = y.map f → x = y := by
    intro α f hf x y hxy
    cases x <;> cases y <;> simp_all
    exact hf _ _ hxy
  refine ⟨hn, ?_, ?_, ?_, ?_, ?_, ?_⟩
  · exact inj (fun x y e => c115_Slot.vars.inj e) (h (.pool (s% "java_var")))
  · exact inj (fun x y e => c115_Slot.lists.inj e) (h (.pool (s% "java_list")))
  · exact inj (fun x y e => c115_Slot.comps.inj e) (h (.pool (s% "java_components")))
  · exact inj (fun x y e => c115_Slot.events.inj e) (h (.pool (s% "java_events")))
  · exact inj (fun x y e => c115_Slot.mbs.inj e) (h (.pool (s% "java_func")))
  · exact fun c => inj (fun x y e => c115_Slot.code.inj e) (h (.code c))

/-- C115: two logic files that are read hold the same if for every screen the last section of each kind has the same lines. -/
theorem c115_logic_last {s t : Str} {r r' : Logic} (hs : parse s = .ok r) (ht : parse t = .ok r')
    (h : ∀ n k body, c115_Last (sections (lines s)) n k body ↔ c115_Last (sections (lines t)) n k body) : c115_Logics r r' := by
  obtain ⟨es, he, _⟩ := (c69_ok s r).mp hs
  obtain ⟨es', he', _⟩ := (c69_ok t r').mp ht
  intro n
  rw [c69_screen he hs n, c69_screen he' ht n]
  have hmem : n ∈ es.map (·.1) ↔ n ∈ es'.map (·.1) := by
    rw [c115_named he, c115_named he']
    simp only [h]
  by_cases hn : n ∈ es.map (·.1)
  · rw [if_pos hn, if_pos (hmem.mp hn)]
    obtain ⟨a1, a2⟩ := c115_parts he n (ScreenLogic.newEmpty n)
    obtain ⟨b1, b2⟩ := c115_parts he' n (ScreenLogic.newEmpty n)
    refine c115_screens_of_at (a1.trans b1.symm) fun k => ?_
    have none_of : ∀ {ps qs : List (List Str)} {body : List Str}, (∀ hd body, hd :: body ∈ ps → ¬ c115_Header hd n k) →
        c115_Last ps n k body → False := by
      rintro ps _ body hno ⟨pre, hd, post, rfl, hh, _⟩
      exact hno hd body (by simp) hh
    rcases a2 k with ⟨body, v, l1, l2, l3⟩ | ⟨l1, l2⟩ <;> rcases b2 k with ⟨body', v', m1, m2, m3⟩ | ⟨m1, m2⟩
    · have := c115_last_unique ((h _ _ _).mp l1) m1
      subst this
      exact l3.trans ((congrArg some (c115_reads_unique l2 m2)).trans m3.symm)
    · exact (none_of (qs := []) m1 ((h _ _ _).mp l1)).elim
    · exact (none_of (qs := []) l1 ((h _ _ _).mpr m1)).elim
    · exact l2.trans m2.symm
  · rw [if_neg hn, if_neg (fun hn' => hn (hmem.mpr hn'))]
    trivial

/-- No two sections are for the same kind of the same screen. -/
def c115_Apart (ps : List (List Str)) : Prop :=
  ps.Pairwise fun p q => ∀ hd body hd' body' n k, p = hd :: body → q = hd' :: body' → c115_Header hd n k → ¬ c115_Header hd' n k

theorem c115_last_of_apart {ps : List (List Str)} (h : c115_Apart ps) (n : Str) (k : c115_Kind) (body : List Str) :
    c115_Last ps n k body ↔ ∃ hd, hd :: body ∈ ps ∧ c115_Header hd n k := by
  constructor
  · rintro ⟨pre, hd, post, rfl, hh, _⟩
    exact ⟨hd, by simp, hh⟩
  · rintro ⟨hd, hm, hh⟩
    obtain ⟨pre, post, rfl⟩ := List.append_of_mem hm
    refine ⟨pre, hd, post, rfl, hh, fun hd' body' hm' => ?_⟩
    have := (List.pairwise_append.mp h).2.1
    exact (List.pairwise_cons.mp this).1 _ hm' _ _ _ _ n k rfl rfl hh

theorem c115_apart_perm {ps qs : List (List Str)} (h : c115_Apart ps) (hp : ps.Perm qs) : c115_Apart qs :=
  h.perm hp fun {_ _} hxy _ _ _ _ n k e1 e2 h1 h2 => hxy _ _ _ _ n k e2 e1 h2 h1

theorem c115_reads_perm {ps qs : List (List Str)} {es : List (Str × (ScreenLogic → ScreenLogic))} (h : All₂ SectionReads ps es)
    (hp : qs.Perm ps) : ∃ es', All₂ SectionReads qs es' :=
  Api.c110_all_exists fun q hq => by
    obtain ⟨e, _, he⟩ := h.left q (hp.subset hq)
    exact ⟨e, he⟩

/-- C115: the order of the sections of a logic file does not matter if no two of them are for the same: with its sections in another order a
logic file that is read is read, and holds the same. -/
theorem c115_logic {s t : Str} {r : Logic} (hs : parse s = .ok r) (hp : (sections (lines t)).Perm (sections (lines s)))
    (hd : c115_Apart (sections (lines s))) : ∃ r', parse t = .ok r' ∧ c115_Logics r r' := by
  obtain ⟨es, he, _⟩ := (c69_ok s r).mp hs
  obtain ⟨es', he'⟩ := c115_reads_perm he hp
  have ht := (c69_ok t ⟨applyAll es' []⟩).mpr ⟨es', he', rfl⟩
  refine ⟨_, ht, c115_logic_last hs ht fun n k body => ?_⟩
  rw [c115_last_of_apart hd, c115_last_of_apart (c115_apart_perm hd hp.symm)]
  simp only [hp.mem_iff]

end Logic

/-! ## View files -/

namespace View
variable [Floats] [MapPol]

/-- The file consists of these sections; the last one may be a layout that is closed by the end of the file. -/
def c115_Made (s : Str) (ss : List Section) : Prop :=
  (∀ x ∈ ss, x.WF) ∧
  ((∃ rest, lines s = ss.flatMap Section.toLines ++ rest ∧ ∀ l, rest.head? = some l → l.head? ≠ some '@') ∨
   ∃ ss₀ name ls vs, ss = ss₀ ++ [.layout name ls vs] ∧ lines s = ss₀.flatMap Section.toLines ++ ('@' :: (name ++ s% ".xml")) :: ls)

theorem c115_made_parse {s : Str} {ss : List Section} (h : c115_Made s ss) : View.parse s = .ok (ss.foldl Section.apply ⟨[], []⟩) := by
  obtain ⟨hw, ⟨rest, hl, hr⟩ | ⟨ss₀, name, ls, vs, rfl, hl⟩⟩ := h
  · rw [parse_of_lines (e := .stop rest) hw (fun l hl => by
      have := hr l hl
      cases l with
      | nil => rfl
      | cons c l =>
        rw [Bool.eq_false_iff, ne_eq, startsWith_single]
        exact this) hl]
    rfl
  · have hlast := hw (.layout name ls vs) (by simp)
    rw [parse_of_lines (ss := ss₀) (e := .layout name ls vs) (fun x hx => hw x (by simp [hx])) hlast hl, List.foldl_append]
    rfl

/-- What is accepted is made of sections. -/
theorem c115_made {s : Str} {v : View} (h : View.parse s = .ok v) : ∃ ss, c115_Made s ss := by
  obtain ⟨ss, e, hs, he, hl⟩ := View.decompose (lines s)
  rw [View.parse_of_lines hs he hl] at h
  cases e with
  | stop rest =>
    refine ⟨ss, hs, .inl ⟨rest, hl, fun l hl => ?_⟩⟩
    have := he l hl
    cases l with
    | nil => simp
    | cons c l =>
      rw [Bool.eq_false_iff, ne_eq, startsWith_single] at this
      exact this
  | layout name ls vs =>
    refine ⟨ss ++ [.layout name ls vs], ?_, .inr ⟨ss, name, ls, vs, rfl, hl⟩⟩
    intro x hx
    rcases List.mem_append.mp hx with hx | hx
    · exact hs x hx
    · rw [List.mem_singleton] at hx
      subst hx
      exact he
  | noDot => exact absurd h (by simp [Ending.result])
  | badView => exact absurd h (by simp [Ending.result])
  | badFab => exact absurd h (by simp [Ending.result])
  | noFab => exact absurd h (by simp [Ending.result])

/-- No two sections are layouts of the same name or floating buttons of the same name. -/
def c115_Apart (ss : List Section) : Prop := ss.Pairwise fun x y => match x, y with
  | .layout n _ _, .layout n' _ _ => n ≠ n'
  | .fab n _ _, .fab n' _ _ => n ≠ n'
  | _, _ => True

/-- Two view files hold the same layouts and floating buttons. -/
structure c115_Views (v w : View) : Prop where
  layouts : ∀ n, v.layouts.get n = w.layouts.get n
  fabs : ∀ n, v.fabs.get n = w.fabs.get n

theorem c115_fold_layouts (ss : List Section) (h : c115_Apart ss) (n : Str) (v : View) :
    (∀ ls vs, .layout n ls vs ∈ ss → (ss.foldl Section.apply v).layouts.get n = some ⟨vs⟩) ∧
    ((∀ ls vs, .layout n ls vs ∉ ss) → (ss.foldl Section.apply v).layouts.get n = v.layouts.get n) := by
  induction ss generalizing v with
  | nil => exact ⟨by simp, fun _ => rfl⟩
  | cons x ss ih =>
    obtain ⟨hx, hss⟩ := List.pairwise_cons.mp h
    obtain ⟨ih1, ih2⟩ := ih hss (x.apply v)
    rw [List.foldl_cons]
    constructor
    · intro ls vs hm
      rcases List.mem_cons.mp hm with rfl | hm
      · rw [ih2 fun ls' vs' hm' => hx _ hm' rfl]
        simp only [Section.apply, LMap.get_insert, if_true]
      · exact ih1 ls vs hm
    · intro hno
      rw [ih2 fun ls vs hm => hno ls vs (by simp [hm])]
      cases x with
      | layout n' ls vs =>
        simp only [Section.apply, LMap.get_insert]
        rw [if_neg]
        rintro rfl
        exact hno ls vs (by simp)
      | fab => rfl
      | other => rfl

theorem c115_fold_fabs (ss : List Section) (h : c115_Apart ss) (n : Str) (v : View) :
    (∀ l w, .fab n l w ∈ ss → (ss.foldl Section.apply v).fabs.get n = some w) ∧
    ((∀ l w, .fab n l w ∉ ss) → (ss.foldl Section.apply v).fabs.get n = v.fabs.get n) := by
  induction ss generalizing v with
  | nil => exact ⟨by simp, fun _ => rfl⟩
  | cons x ss ih =>
    obtain ⟨hx, hss⟩ := List.pairwise_cons.mp h
    obtain ⟨ih1, ih2⟩ := ih hss (x.apply v)
    rw [List.foldl_cons]
    constructor
    · intro ls vs hm
      rcases List.mem_cons.mp hm with rfl | hm
      · rw [ih2 fun ls' vs' hm' => hx _ hm' rfl]
        simp only [Section.apply, LMap.get_insert, if_true]
      · exact ih1 ls vs hm
    · intro hno
      rw [ih2 fun ls vs hm => hno ls vs (by simp [hm])]
      cases x with
      | fab n' ls vs =>
        simp only [Section.apply, LMap.get_insert]
        rw [if_neg]
        rintro rfl
        exact hno ls vs (by simp)
      | layout => rfl
      | other => rfl

theorem c115_apart_perm {ss ss' : List Section} (h : c115_Apart ss) (hp : ss.Perm ss') : c115_Apart ss' :=
  h.perm hp fun {x y} hxy => by
    cases x <;> cases y <;> first | trivial | exact fun e => hxy e.symm

/-- C115: the order of the sections of a view file does not matter if no two of them are for the same: with its sections in another order a
view file that is read is read, and holds the same. -/
theorem c115_view {s t : Str} {v : View} {ss ss' : List Section} (h : View.parse s = .ok v) (hs : c115_Made s ss) (ht : c115_Made t ss')
    (hp : ss'.Perm ss) (hd : c115_Apart ss) : ∃ w, View.parse t = .ok w ∧ c115_Views v w := by
  rw [c115_made_parse hs] at h
  obtain rfl := Out.ok.inj h
  refine ⟨_, c115_made_parse ht, ?_, ?_⟩
  · intro n
    by_cases hm : ∃ ls vs, .layout n ls vs ∈ ss
    · obtain ⟨ls, vs, hm⟩ := hm
      rw [(c115_fold_layouts ss hd n _).1 ls vs hm, (c115_fold_layouts ss' (c115_apart_perm hd hp.symm) n _).1 ls vs (hp.mem_iff.mpr hm)]
    · rw [(c115_fold_layouts ss hd n _).2 fun ls vs h => hm ⟨ls, vs, h⟩,
        (c115_fold_layouts ss' (c115_apart_perm hd hp.symm) n _).2 fun ls vs h => hm ⟨ls, vs, hp.mem_iff.mp h⟩]
  · intro n
    by_cases hm : ∃ ls vs, .fab n ls vs ∈ ss
    · obtain ⟨ls, vs, hm⟩ := hm
      rw [(c115_fold_fabs ss hd n _).1 ls vs hm, (c115_fold_fabs ss' (c115_apart_perm hd hp.symm) n _).1 ls vs (hp.mem_iff.mpr hm)]
    · rw [(c115_fold_fabs ss hd n _).2 fun ls vs h => hm ⟨ls, vs, h⟩,
        (c115_fold_fabs ss' (c115_apart_perm hd hp.symm) n _).2 fun ls vs h => hm ⟨ls, vs, hp.mem_iff.mp h⟩]

end View

/-! ## Projects -/

namespace Api
variable [MapPol] [Floats]

/-- The same outcome, and the same containers are left. -/
def c115_Left {ε α : Type} (x y : Out ε (α × Containers)) : Prop :=
  (∃ a cs cs', x = .ok (a, cs) ∧ y = .ok (a, cs') ∧ ∀ k, cs.get k = cs'.get k) ∨ (∃ e, x = .err e ∧ y = .err e) ∨ (x = .panic ∧ y = .panic)

theorem c115_takeCode (id : Str) {cs cs' : Containers} (h : ∀ k, cs.get k = cs'.get k) : c115_Left (takeCode id cs) (takeCode id cs') := by
  unfold takeCode
  rw [h id]
  cases (tryFrom ((cs'.get id).getD ⟨[]⟩)) with
  | ok code => exact .inl ⟨code, _, _, rfl, rfl, fun k => by rw [LMap.get_erase, LMap.get_erase, h]⟩
  | err e => exact .inr (.inl ⟨_, rfl, rfl⟩)
  | panic => exact .inr (.inr ⟨rfl, rfl⟩)

theorem c115_bind {ε α β : Type} {x y : Out ε (α × Containers)} {f g : α × Containers → Out ε (β × Containers)} (h : c115_Left x y)
    (hf : ∀ a cs cs', (∀ k, cs.get k = cs'.get k) → c115_Left (f (a, cs)) (g (a, cs'))) : c115_Left (x >>= f) (y >>= g) := by
  rcases h with ⟨a, cs, cs', rfl, rfl, h⟩ | ⟨e, rfl, rfl⟩ | ⟨rfl, rfl⟩
  · exact hf a cs cs' h
  · exact .inr (.inl ⟨e, rfl, rfl⟩)
  · exact .inr (.inr ⟨rfl, rfl⟩)

theorem c115_pure {ε α : Type} (a : α) {cs cs' : Containers} (h : ∀ k, cs.get k = cs'.get k) :
    c115_Left (ε := ε) (pure (a, cs)) (pure (a, cs')) := .inl ⟨a, cs, cs', rfl, rfl, h⟩

theorem c115_moreBlocksOf (ms : List (Str × Swrs.MoreBlock)) : ∀ {cs cs' : Containers}, (∀ k, cs.get k = cs'.get k) →
    c115_Left (moreBlocksOf ms cs) (moreBlocksOf ms cs') := by
  induction ms with
  | nil => exact fun h => .inl ⟨_, _, _, rfl, rfl, h⟩
  | cons m ms ih =>
    intro cs cs' h
    obtain ⟨id, mb⟩ := m
    simp only [moreBlocksOf]
    refine c115_bind ?_ fun a cs cs' h => c115_bind (ih h) fun b cs cs' h => c115_pure _ h
    unfold moreBlockOf
    cases (BlockContent.parseWoParams mb.spec) with
    | ok spec => exact c115_bind (c115_takeCode _ h) fun a cs cs' h => c115_pure _ h
    | err e => exact .inr (.inl ⟨_, rfl, rfl⟩)
    | panic => exact .inr (.inr ⟨rfl, rfl⟩)

theorem c115_eventsOf (es : List Swrs.Event) : ∀ {cs cs' : Containers}, (∀ k, cs.get k = cs'.get k) →
    c115_Left (eventsOf es cs) (eventsOf es cs') := by
  induction es with
  | nil => exact fun h => .inl ⟨_, _, _, rfl, rfl, h⟩
  | cons e es ih =>
    intro cs cs' h
    simp only [eventsOf]
    refine c115_bind ?_ fun a cs cs' h => c115_bind (ih h) fun b cs cs' h => c115_pure _ h
    unfold eventOf
    cases (Event.tryFrom e) with
    | ok e => exact c115_bind (c115_takeCode _ h) fun a cs cs' h => c115_pure _ h
    | err e => exact .inr (.inl ⟨_, rfl, rfl⟩)
    | panic => exact .inr (.inr ⟨rfl, rfl⟩)

/-- C115: a screen is made alike of logics that hold the same. -/
theorem c115_screen (ln gn : Str) (file : FileItem) (view : Layout) {a b : ScreenLogic} (fab : Option View) (h : Logic.c115_Screens a b) :
    Screen.fromParsed ln gn file view a fab = Screen.fromParsed ln gn file view b fab := by
  obtain ⟨h1, h2, h3, h4, h5, h6, h7⟩ := h
  have hev : parserEvents a = parserEvents b := by
    have : onCreateId ∈ a.blockContainers.keys ↔ onCreateId ∈ b.blockContainers.keys := by
      rw [← LMap.get_isSome, ← LMap.get_isSome, h7]
    simp only [parserEvents, h5, this]
  unfold Screen.fromParsed
  rw [h2, h3, h4, h6, hev]
  rcases c115_moreBlocksOf ((b.moreBlocks.map (·.map)).getD []) h7 with ⟨m, cs, cs', e1, e2, h⟩ | ⟨e, e1, e2⟩ | ⟨e1, e2⟩
  · rw [e1, e2]
    simp only [Out.ok_bind]
    rcases c115_eventsOf (parserEvents b) h with ⟨m, cs, cs', e1, e2, h⟩ | ⟨e, e1, e2⟩ | ⟨e1, e2⟩
    · rw [e1, e2]; rfl
    · rw [e1, e2]
    · rw [e1, e2]
  · rw [e1, e2]
  · rw [e1, e2]

/-- Two parsed projects hold the same. -/
structure c115_Projects (p q : Swrs.SketchwareProject) : Prop where
  project : p.project = q.project
  file : p.file = q.file
  library : p.library = q.library
  resource : p.resource = q.resource
  view : View.c115_Views p.view q.view
  logic : Logic.c115_Logics p.logic q.logic
  resourceFiles : p.resourceFiles = q.resourceFiles

theorem c115_customViews (items : List FileItem) {ls ls' : LMap Str Layout} (h : ∀ k, ls.get k = ls'.get k) :
    customViewsConv items ls = customViewsConv items ls' :=
  c110_customViews items (c110_maps_eq.mpr h)

theorem c115_activities (items : List FileItem) {ls ls' : LMap Str Layout} {lg lg' : LMap Str ScreenLogic} {fs fs' : LMap Str AndroidView}
    (h1 : ∀ k, ls.get k = ls'.get k) (h2 : Logic.c115_Logics ⟨lg⟩ ⟨lg'⟩) (h3 : ∀ k, fs.get k = fs'.get k) :
    (∃ ss l l', activitiesConv items ls lg fs = .ok (ss, l) ∧ activitiesConv items ls' lg' fs' = .ok (ss, l') ∧ ∀ k, l.get k = l'.get k) ∨
    (∃ e, activitiesConv items ls lg fs = .err e ∧ activitiesConv items ls' lg' fs' = .err e) ∨
    (activitiesConv items ls lg fs = .panic ∧ activitiesConv items ls' lg' fs' = .panic) := by
  induction items generalizing ls ls' lg lg' fs fs' with
  | nil => exact .inl ⟨_, _, _, rfl, rfl, h1⟩
  | cons f items ih =>
    have hrest := ih (ls := ls.erase f.filename) (ls' := ls'.erase f.filename) (lg := lg.erase (viewNameToLogic f.filename))
      (lg' := lg'.erase (viewNameToLogic f.filename)) (fs := fs.erase f.filename) (fs' := fs'.erase f.filename)
      (fun k => by rw [LMap.get_erase, LMap.get_erase, h1])
      (fun k => by
        have := h2 k
        show match LMap.get (LMap.erase lg _) k, LMap.get (LMap.erase lg' _) k with
          | none, none => True
          | some a, some b => Logic.c115_Screens a b
          | _, _ => False
        rw [LMap.get_erase, LMap.get_erase]
        by_cases hk : k = viewNameToLogic f.filename
        · rw [if_pos hk, if_pos hk]
          trivial
        · rw [if_neg hk, if_neg hk]
          exact this)
      (fun k => by rw [LMap.get_erase, LMap.get_erase, h3])
    have hsc : ∃ a b, (lg.get (viewNameToLogic f.filename)).getD (ScreenLogic.newEmpty f.filename) = a ∧
        (lg'.get (viewNameToLogic f.filename)).getD (ScreenLogic.newEmpty f.filename) = b ∧ Logic.c115_Screens a b := by
      refine ⟨_, _, rfl, rfl, ?_⟩
      have := h2 (viewNameToLogic f.filename)
      simp only at this
      cases e1 : lg.get (viewNameToLogic f.filename) <;> cases e2 : lg'.get (viewNameToLogic f.filename) <;> rw [e1, e2] at this
      · exact ⟨rfl, rfl, rfl, rfl, rfl, rfl, fun _ => rfl⟩
      · exact this.elim
      · exact this.elim
      · exact this
    obtain ⟨a, b, ea, eb, hab⟩ := hsc
    simp only [activitiesConv, ea, eb, h1, h3, hab.name, c115_screen _ _ f _ _ hab]
    cases (Screen.fromParsed f.filename b.name f ((ls'.get f.filename).getD ⟨[]⟩) b ((fs'.get f.filename).map View.ofRaw)) with
    | ok s =>
      rcases hrest with ⟨ss, l, l', e1, e2, h⟩ | ⟨e, e1, e2⟩ | ⟨e1, e2⟩
      · refine .inl ⟨s :: ss, l, l', ?_, ?_, h⟩
        · simp only [Out.mapErr_ok, Out.ok_bind, e1]; rfl
        · simp only [Out.mapErr_ok, Out.ok_bind, e2]; rfl
      · refine .inr (.inl ⟨e, ?_, ?_⟩)
        · simp only [Out.mapErr_ok, Out.ok_bind, e1]; rfl
        · simp only [Out.mapErr_ok, Out.ok_bind, e2]; rfl
      · refine .inr (.inr ⟨?_, ?_⟩)
        · simp only [Out.mapErr_ok, Out.ok_bind, e1]; rfl
        · simp only [Out.mapErr_ok, Out.ok_bind, e2]; rfl
    | err e => exact .inr (.inl ⟨_, rfl, rfl⟩)
    | panic => exact .inr (.inr ⟨rfl, rfl⟩)

/-- C115: parsed projects that hold the same are opened through the API alike: as equal projects, with the same error or with a panic. -/
theorem c115_conv (rnd : ResourceType → Nat → UInt32) {p q : Swrs.SketchwareProject} (h : c115_Projects p q) :
    SketchwareProject.tryFrom rnd p = SketchwareProject.tryFrom rnd q := by
  obtain ⟨h1, h2, h3, h4, h5, h6, h7⟩ := h
  unfold SketchwareProject.tryFrom
  rw [h1, h2, h3, h4, h7]
  rcases c115_activities q.file.activities h5.layouts h6 h5.fabs with ⟨ss, l, l', e1, e2, h⟩ | ⟨e, e1, e2⟩ | ⟨e1, e2⟩
  · rw [e1, e2]
    simp only [Out.ok_bind]
    rw [c115_customViews _ h]
  · rw [e1, e2]
  · rw [e1, e2]

/-- C115: a project can be opened with the sections of its logic file and of its view file in any order, if no two sections are for the
same, and is opened through the API alike. -/
theorem c115_opened (ex : PathBuf → Bool) (rnd : ResourceType → Nat → UInt32) {raw : RawSketchwareProject} {view logic : Str}
    {p : Swrs.SketchwareProject} {ss ss' : List Section} (h : Swrs.SketchwareProject.parseFrom ex raw = .ok p)
    (hs : View.c115_Made raw.view ss) (ht : View.c115_Made view ss') (hp : ss'.Perm ss) (hd : View.c115_Apart ss)
    (hl : (Logic.sections (lines logic)).Perm (Logic.sections (lines raw.logic))) (ha : Logic.c115_Apart (Logic.sections (lines raw.logic))) :
    ∃ q, Swrs.SketchwareProject.parseFrom ex { raw with view, logic } = .ok q ∧
      SketchwareProject.tryFrom rnd p = SketchwareProject.tryFrom rnd q := by
  obtain ⟨h1, h2, h3, h4, h5, h6, h7⟩ := (c58_parts ex raw p).mp h
  obtain ⟨w, hw, hvw⟩ := View.c115_view h5 hs ht hp hd
  obtain ⟨r, hr, hlr⟩ := Logic.c115_logic h6 hl ha
  refine ⟨{ p with view := w, logic := r }, (c58_parts ex _ _).mpr ⟨h1, h2, h3, h4, hw, hr, h7⟩, c115_conv rnd ⟨rfl, rfl, rfl, rfl, hvw, hlr, rfl⟩⟩

end Api

/-! ## Examples -/

section
variable [Floats] [MapPol]

/-- `c115_logic`: two sections the other way round. -/
example : ∃ s t r, Logic.parse s = .ok r ∧ (Logic.sections (lines t)).Perm (Logic.sections (lines s)) ∧
    Logic.c115_Apart (Logic.sections (lines s)) ∧ Logic.sections (lines s) ≠ Logic.sections (lines t) ∧ r.screens ≠ [] := by
  refine ⟨s% "@A.java_x\n\n@B.java_y", s% "@B.java_y\n\n@A.java_x",
    ⟨[(s% "A", { ScreenLogic.newEmpty (s% "A") with blockContainers := [(s% "x", ⟨[]⟩)] }),
      (s% "B", { ScreenLogic.newEmpty (s% "B") with blockContainers := [(s% "y", ⟨[]⟩)] })]⟩, rfl, ?_, ?_, ?_, ?_⟩
  · rw [show Logic.sections (lines (s% "@B.java_y\n\n@A.java_x")) = [[s% "@B.java_y"], [s% "@A.java_x"]] by decide +kernel,
      show Logic.sections (lines (s% "@A.java_x\n\n@B.java_y")) = [[s% "@A.java_x"], [s% "@B.java_y"]] by decide +kernel]
    exact List.Perm.swap _ _ _
  · rw [show Logic.sections (lines (s% "@A.java_x\n\n@B.java_y")) = [[s% "@A.java_x"], [s% "@B.java_y"]] by decide +kernel]
    refine List.pairwise_pair.mpr ?_
    intro hd body hd' body' n k e1 e2 h1 h2
    obtain ⟨rfl, _⟩ := List.cons.inj e1
    obtain ⟨rfl, _⟩ := List.cons.inj e2
    have a : Logic.c115_Header (s% "@A.java_x") (s% "A") (.code (s% "x")) := ⟨by decide, rfl⟩
    have b : Logic.c115_Header (s% "@B.java_y") (s% "B") (.code (s% "y")) := ⟨by decide, rfl⟩
    have := (Logic.c115_header_unique a h1).2.trans (Logic.c115_header_unique b h2).2.symm
    exact absurd this (by decide)
  · decide +kernel
  · simp

/-- C115: with two sections for the same their order matters: the later one is kept. -/
theorem c115_logic_false : ∃ s t r r', Logic.parse s = .ok r ∧ Logic.parse t = .ok r' ∧
    (Logic.sections (lines t)).Perm (Logic.sections (lines s)) ∧ ¬ Logic.c115_Logics r r' := by
  refine ⟨s% "@A.java_var\n0:a\n\n@A.java_var\n0:b", s% "@A.java_var\n0:b\n\n@A.java_var\n0:a",
    ⟨[(s% "A", ⟨s% "A", [], some ⟨[(s% "b", ⟨s% "b", .boolean⟩)]⟩, none, none, none, none⟩)]⟩,
    ⟨[(s% "A", ⟨s% "A", [], some ⟨[(s% "a", ⟨s% "a", .boolean⟩)]⟩, none, none, none, none⟩)]⟩, ?_, ?_, ?_, ?_⟩
  · rename_i P
    obtain ⟨i, e⟩ := P
    cases i <;> cases e <;> rfl
  · rename_i P
    obtain ⟨i, e⟩ := P
    cases i <;> cases e <;> rfl
  · rw [show Logic.sections (lines (s% "@A.java_var\n0:a\n\n@A.java_var\n0:b")) = [[s% "@A.java_var", s% "0:a"], [s% "@A.java_var", s% "0:b"]]
        by decide +kernel,
      show Logic.sections (lines (s% "@A.java_var\n0:b\n\n@A.java_var\n0:a")) = [[s% "@A.java_var", s% "0:b"], [s% "@A.java_var", s% "0:a"]]
        by decide +kernel]
    exact List.Perm.swap _ _ _
  · intro h
    have h := (h (s% "A")).«variables»
    simp at h

/-- `c115_view`: two layouts and a floating button in another order. -/
example (v : AndroidView) (l : Str) (hl : AndroidView.parse l = some v) (hn : '\n' ∉ l) : ∃ s t ss ss' w, View.parse s = .ok w ∧
    View.c115_Made s ss ∧ View.c115_Made t ss' ∧ ss'.Perm ss ∧ View.c115_Apart ss ∧ ss ≠ ss' := by
  have h1 : Section.WF (.layout (s% "a") [] []) := ⟨by decide, .nil⟩
  have h2 : Section.WF (.fab (s% "a") l v) := ⟨by decide, hl⟩
  have m1 : View.c115_Made (s% "@a.xml\n\n@a.xml_fab\n" ++ l) [.layout (s% "a") [] [], .fab (s% "a") l v] := by
    refine ⟨by simp [h1, h2], .inl ⟨[], ?_, by simp⟩⟩
    show splitOn _ _ = _
    rw [show (s% "@a.xml\n\n@a.xml_fab\n" ++ l) = s% "@a.xml" ++ '\n' :: ([] ++ '\n' :: (s% "@a.xml_fab" ++ '\n' :: l)) from rfl,
      splitOn_append_sep (by decide), splitOn_append_sep (by decide), splitOn_append_sep (by decide), splitOn_of_not_mem hn]
    rfl
  have m2 : View.c115_Made (s% "@a.xml_fab\n" ++ (l ++ s% "\n@a.xml\n\n")) [.fab (s% "a") l v, .layout (s% "a") [] []] := by
    refine ⟨by simp [h1, h2], .inl ⟨[[]], ?_, by simp⟩⟩
    show splitOn _ _ = _
    rw [show (s% "@a.xml_fab\n" ++ (l ++ s% "\n@a.xml\n\n")) = s% "@a.xml_fab" ++ '\n' :: (l ++ '\n' :: (s% "@a.xml\n\n")) from rfl,
      splitOn_append_sep (by decide), splitOn_append_sep hn]
    rfl
  exact ⟨_, _, _, _, _, View.c115_made_parse m1, m1, m2, List.Perm.swap _ _ _, List.pairwise_pair.mpr trivial, by simp⟩

end
end Swrs
