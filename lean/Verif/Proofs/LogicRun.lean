import Verif.Proofs.LogicHeader
/-! Sections of the logic file and the loop over them. -/
set_option linter.unusedSectionVars false
namespace Swrs
variable [Floats] [MapPol]

/-- A header line that is not the header of a pool. -/
def NotPool (line : Str) : Prop :=
  endsWith (s% "java_var") line = false ∧ endsWith (s% "java_list") line = false ∧
  endsWith (s% "java_components") line = false ∧ endsWith (s% "java_events") line = false ∧
  endsWith (s% "java_func") line = false

/-- `Sec header body name eff`: the header and the lines of a readable section of a logic file, the name of its
screen and its effect on the screen. -/
inductive Sec : Str → List Str → Str → (ScreenLogic → ScreenLogic) → Prop where
  | var {name : Str} {x : Char} {body : List Str} {vs : List Variable} (hx : x.utf8Size = 1)
    (h : PoolReads Variable.parse body vs) :
    Sec ('@' :: (name ++ x :: s% "java_var")) body name fun s =>
      { s with variables := some ⟨LMap.collect (vs.map fun v => (v.name, v))⟩ }
  | list {name : Str} {x : Char} {body : List Str} {vs : List ListVariable} (hx : x.utf8Size = 1)
    (h : PoolReads ListVariable.parse body vs) :
    Sec ('@' :: (name ++ x :: s% "java_list")) body name fun s =>
      { s with listVariables := some ⟨LMap.collect (vs.map fun v => (v.name, v))⟩ }
  | components {name : Str} {x : Char} {body : List Str} {vs : List Component} (hx : x.utf8Size = 1)
    (h : PoolReads (lineParser Component.parse) body vs) :
    Sec ('@' :: (name ++ x :: s% "java_components")) body name fun s => { s with components := some ⟨vs⟩ }
  | events {name : Str} {x : Char} {body : List Str} {vs : List Event} (hx : x.utf8Size = 1)
    (h : PoolReads (lineParser Event.parse) body vs) :
    Sec ('@' :: (name ++ x :: s% "java_events")) body name fun s => { s with events := some ⟨vs⟩ }
  | func {name : Str} {x : Char} {body : List Str} {vs : List MoreBlock} (hx : x.utf8Size = 1)
    (h : PoolReads MoreBlock.parse body vs) :
    Sec ('@' :: (name ++ x :: s% "java_func")) body name fun s =>
      { s with moreBlocks := some ⟨LMap.collect (vs.map fun v => (v.id, v))⟩ }
  | blocks {line : Str} {hd : BlockContainerHeader} {body : List Str} {bs : List Block} (hn : NotPool line)
    (hl : BlockContainerHeader.parse line = .ok hd) (h : PoolReads (lineParser Block.parse) body bs) :
    Sec line body hd.screenName fun s =>
      { s with blockContainers := s.blockContainers.insert hd.containerName ⟨bs⟩ }

theorem ReadsAll.ne_nil {α : Type} {p : Str → Option α} {ls : List Str} {as : List α} (h : ReadsAll p ls as) :
    ∀ l ∈ ls, l ≠ [] := by
  induction h with
  | nil => simp
  | cons hne _ _ ih => intro l hl; simp at hl; rcases hl with rfl | hl; exact hne; exact ih l hl

namespace Logic

theorem ends_var (name : Str) (x : Char) (suf : Str) :
    endsWith suf ('@' :: (name ++ x :: suf)) = true :=
  endsWith_iff.mpr ⟨'@' :: (name ++ [x]), by simp⟩

theorem ends_false {p q : Str} (h : ¬ p.reverse <+: q.reverse ∧ ¬ q.reverse <+: p.reverse) (r : Str) :
    endsWith p (r ++ q) = false := by
  rw [Bool.eq_false_iff]
  intro he
  obtain ⟨r', hr'⟩ := endsWith_iff.mp he
  have := congrArg List.reverse hr'
  simp only [List.reverse_append] at this
  rw [List.append_eq_append_iff] at this
  rcases this with ⟨e, h1, _⟩ | ⟨e, h1, _⟩
  · exact h.2 ⟨e, h1.symm⟩
  · exact h.1 ⟨e, h1.symm⟩

theorem ends_false' {p q : Str} (h : ¬ p.reverse <+: q.reverse ∧ ¬ q.reverse <+: p.reverse) (name : Str) (x : Char) :
    endsWith p ('@' :: (name ++ x :: q)) = false := by
  have := ends_false h ('@' :: (name ++ [x]))
  simpa using this

theorem screenOf_name {S name : Str} {x : Char} (hx : x.utf8Size = 1) {n : Nat} (hn : byteLen S + 1 = n) :
    screenOf ('@' :: (name ++ x :: S)) n = some name := by
  subst hn
  have := (screenOf_eq_some (mid := name ++ [x]) (S := S) (name := name)).mpr ⟨x, rfl, hx⟩
  simpa using this

/-- A section closed by a blank line, or by the end of the file. -/
theorem step_sec {hd : Str} {body : List Str} {name : Str} {eff : ScreenLogic → ScreenLogic}
    (h : Sec hd body name eff) (n : Nat) (l : LMap Str ScreenLogic) :
    (∀ rest, step hd (body ++ [] :: rest) n l = .ok (update l name eff, rest)) ∧
    step hd body n l = .ok (update l name eff, []) := by
  cases h with
  | var hx h =>
    constructor
    · intro rest
      rw [step, if_pos (ends_var _ _ _), screenOf_name (S := s% "java_var") (n := 9) hx rfl, VariablePool.parseIter, readPool_blank _ h]; rfl
    · rw [step, if_pos (ends_var _ _ _), screenOf_name (S := s% "java_var") (n := 9) hx rfl, VariablePool.parseIter, readPool_eof _ h]; rfl
  | list hx h =>
    constructor
    · intro rest
      rw [step, if_neg (by rw [ends_false' (by decide)]; simp), if_pos (ends_var _ _ _), screenOf_name (S := s% "java_list") (n := 10) hx rfl,
        ListVariablePool.parseIter, readPool_blank _ h]; rfl
    · rw [step, if_neg (by rw [ends_false' (by decide)]; simp), if_pos (ends_var _ _ _), screenOf_name (S := s% "java_list") (n := 10) hx rfl,
        ListVariablePool.parseIter, readPool_eof _ h]; rfl
  | components hx h =>
    constructor
    · intro rest
      rw [step, if_neg (by rw [ends_false' (by decide)]; simp), if_neg (by rw [ends_false' (by decide)]; simp),
        if_pos (ends_var _ _ _), screenOf_name (S := s% "java_components") (n := 16) hx rfl, ComponentPool.parseIter, readPool_blank _ h]; rfl
    · rw [step, if_neg (by rw [ends_false' (by decide)]; simp), if_neg (by rw [ends_false' (by decide)]; simp),
        if_pos (ends_var _ _ _), screenOf_name (S := s% "java_components") (n := 16) hx rfl, ComponentPool.parseIter, readPool_eof _ h]; rfl
  | events hx h =>
    constructor
    · intro rest
      rw [step, if_neg (by rw [ends_false' (by decide)]; simp), if_neg (by rw [ends_false' (by decide)]; simp),
        if_neg (by rw [ends_false' (by decide)]; simp),
        if_pos (ends_var _ _ _), screenOf_name (S := s% "java_events") (n := 12) hx rfl, EventPool.parseIter, readPool_blank _ h]; rfl
    · rw [step, if_neg (by rw [ends_false' (by decide)]; simp), if_neg (by rw [ends_false' (by decide)]; simp),
        if_neg (by rw [ends_false' (by decide)]; simp),
        if_pos (ends_var _ _ _), screenOf_name (S := s% "java_events") (n := 12) hx rfl, EventPool.parseIter, readPool_eof _ h]; rfl
  | func hx h =>
    constructor
    · intro rest
      rw [step, if_neg (by rw [ends_false' (by decide)]; simp), if_neg (by rw [ends_false' (by decide)]; simp),
        if_neg (by rw [ends_false' (by decide)]; simp), if_neg (by rw [ends_false' (by decide)]; simp),
        if_pos (ends_var _ _ _), screenOf_name (S := s% "java_func") (n := 10) hx rfl, MoreBlockPool.parseIter, readPool_blank _ h]; rfl
    · rw [step, if_neg (by rw [ends_false' (by decide)]; simp), if_neg (by rw [ends_false' (by decide)]; simp),
        if_neg (by rw [ends_false' (by decide)]; simp), if_neg (by rw [ends_false' (by decide)]; simp),
        if_pos (ends_var _ _ _), screenOf_name (S := s% "java_func") (n := 10) hx rfl, MoreBlockPool.parseIter, readPool_eof _ h]; rfl
  | blocks hn hl h =>
    obtain ⟨h1, h2, h3, h4, h5⟩ := hn
    constructor
    · intro rest
      rw [step, if_neg (by rw [h1]; simp), if_neg (by rw [h2]; simp), if_neg (by rw [h3]; simp),
        if_neg (by rw [h4]; simp), if_neg (by rw [h5]; simp), hl, BlockContainer.parseIter, readPool_blank _ h]; rfl
    · rw [step, if_neg (by rw [h1]; simp), if_neg (by rw [h2]; simp), if_neg (by rw [h3]; simp),
        if_neg (by rw [h4]; simp), if_neg (by rw [h5]; simp), hl, BlockContainer.parseIter, readPool_eof _ h]; rfl

theorem sec_at {hd : Str} {body : List Str} {name : Str} {eff : ScreenLogic → ScreenLogic}
    (h : Sec hd body name eff) : startsWith ['@'] hd = true := by
  cases h with
  | blocks hn hl h =>
    cases hs : startsWith ['@'] hd with
    | true => rfl
    | false =>
      have := BlockContainerHeader.parse_err_iff.mpr (.inl ⟨hs, rfl⟩)
      rw [this] at hl; simp at hl
  | _ => simp

/-! ### the loop -/

theorem step_length {line : Str} {rest rest' : List Str} {n : Nat} {l l' : LMap Str ScreenLogic}
    (h : step line rest n l = .ok (l', rest')) : rest'.length ≤ rest.length := by
  unfold step at h
  split at h
  · simp only [Out.bind_eq_ok, Out.mapErr_eq_ok, VariablePool.parseIter] at h
    obtain ⟨_, _, ⟨_, _⟩, ⟨⟨_, _⟩, hr, h1⟩, h2⟩ := h
    have := readPool_length _ hr
    simp at h1 h2; obtain ⟨_, rfl⟩ := h1; obtain ⟨_, rfl⟩ := h2; exact this
  split at h
  · simp only [Out.bind_eq_ok, Out.mapErr_eq_ok, ListVariablePool.parseIter] at h
    obtain ⟨_, _, ⟨_, _⟩, ⟨⟨_, _⟩, hr, h1⟩, h2⟩ := h
    have := readPool_length _ hr
    simp at h1 h2; obtain ⟨_, rfl⟩ := h1; obtain ⟨_, rfl⟩ := h2; exact this
  split at h
  · simp only [Out.bind_eq_ok, Out.mapErr_eq_ok, ComponentPool.parseIter] at h
    obtain ⟨_, _, ⟨_, _⟩, ⟨⟨_, _⟩, hr, h1⟩, h2⟩ := h
    have := readPool_length _ hr
    simp at h1 h2; obtain ⟨_, rfl⟩ := h1; obtain ⟨_, rfl⟩ := h2; exact this
  split at h
  · simp only [Out.bind_eq_ok, Out.mapErr_eq_ok, EventPool.parseIter] at h
    obtain ⟨_, _, ⟨_, _⟩, ⟨⟨_, _⟩, hr, h1⟩, h2⟩ := h
    have := readPool_length _ hr
    simp at h1 h2; obtain ⟨_, rfl⟩ := h1; obtain ⟨_, rfl⟩ := h2; exact this
  split at h
  · simp only [Out.bind_eq_ok, Out.mapErr_eq_ok, MoreBlockPool.parseIter] at h
    obtain ⟨_, _, ⟨_, _⟩, ⟨⟨_, _⟩, hr, h1⟩, h2⟩ := h
    have := readPool_length _ hr
    simp at h1 h2; obtain ⟨_, rfl⟩ := h1; obtain ⟨_, rfl⟩ := h2; exact this
  · simp only [Out.bind_eq_ok, Out.mapErr_eq_ok, BlockContainer.parseIter] at h
    obtain ⟨_, _, ⟨_, _⟩, ⟨⟨_, _⟩, hr, h1⟩, h2⟩ := h
    have := readPool_length _ hr
    simp at h1 h2; obtain ⟨_, rfl⟩ := h1; obtain ⟨_, rfl⟩ := h2; exact this

theorem loop_fuel (f g : Nat) (ls : List Str) (n : Nat) (l : LMap Str ScreenLogic)
    (hf : ls.length < f) (hg : ls.length < g) : loop f ls n l = loop g ls n l := by
  induction f generalizing g ls n l with
  | zero => omega
  | succ f ih =>
    cases g with
    | zero => omega
    | succ g =>
      cases ls with
      | nil => rfl
      | cons line rest =>
        simp only [List.length_cons] at hf hg
        rw [loop, loop]
        split
        · cases hs : step line rest n l with
          | ok r =>
            obtain ⟨l', rest'⟩ := r
            have := step_length hs
            simp only [Out.ok_bind]
            exact ih _ _ _ _ (by omega) (by omega)
          | err e => rfl
          | panic => rfl
        · rfl

/-- The loop with just enough rounds. -/
def run (ls : List Str) (n : Nat) (l : LMap Str ScreenLogic) : Out LogicParseError Logic :=
  loop (ls.length + 1) ls n l

theorem parse_run (s : Str) : parse s = run (lines s) 0 [] := rfl

theorem run_nil (n : Nat) (l : LMap Str ScreenLogic) : run [] n l = .ok ⟨l⟩ := rfl

theorem run_stop {line : Str} (h : startsWith ['@'] line = false) (rest : List Str) (n : Nat)
    (l : LMap Str ScreenLogic) : run (line :: rest) n l = .ok ⟨l⟩ := by
  rw [run, loop, h]; rfl

theorem run_step {line : Str} (h : startsWith ['@'] line = true) (rest : List Str) (n : Nat)
    (l : LMap Str ScreenLogic) :
    run (line :: rest) n l = (step line rest n l >>= fun r => run r.2 (n + 1) r.1) := by
  rw [run, loop, h]
  simp only [if_true]
  cases hs : step line rest n l with
  | ok r =>
    obtain ⟨l', rest'⟩ := r
    have := step_length hs
    simp only [Out.ok_bind]
    exact loop_fuel _ _ _ _ _ (by simp; omega) (by omega)
  | err e => rfl
  | panic => rfl

theorem run_sec {hd : Str} {body : List Str} {name : Str} {eff : ScreenLogic → ScreenLogic}
    (h : Sec hd body name eff) (rest : List Str) (n : Nat) (l : LMap Str ScreenLogic) :
    run (hd :: (body ++ [] :: rest)) n l = run rest (n + 1) (update l name eff) := by
  rw [run_step (sec_at h), (step_sec h n l).1]; rfl

theorem run_sec_eof {hd : Str} {body : List Str} {name : Str} {eff : ScreenLogic → ScreenLogic}
    (h : Sec hd body name eff) (n : Nat) (l : LMap Str ScreenLogic) :
    run (hd :: body) n l = .ok ⟨update l name eff⟩ := by
  rw [run_step (sec_at h), (step_sec h n l).2]; rfl

/-- Complete sections, each closed by a blank line, with their effects. -/
inductive Secs : List Str → List (Str × (ScreenLogic → ScreenLogic)) → Prop where
  | nil : Secs [] []
  | cons {hd : Str} {body : List Str} {name : Str} {eff : ScreenLogic → ScreenLogic} {ls : List Str}
    {es : List (Str × (ScreenLogic → ScreenLogic))} (h : Sec hd body name eff) (t : Secs ls es) :
    Secs (hd :: (body ++ [] :: ls)) ((name, eff) :: es)

/-- The effects of sections on the screens. -/
def applyAll (es : List (Str × (ScreenLogic → ScreenLogic))) (l : LMap Str ScreenLogic) : LMap Str ScreenLogic :=
  es.foldl (fun l e => update l e.1 e.2) l

theorem run_secs {ls : List Str} {es : List (Str × (ScreenLogic → ScreenLogic))} (h : Secs ls es) (rest : List Str)
    (n : Nat) (l : LMap Str ScreenLogic) : run (ls ++ rest) n l = run rest (n + es.length) (applyAll es l) := by
  induction h generalizing n l with
  | nil => rfl
  | cons hs _ ih =>
    have : ∀ (hd : Str) (body ls rest : List Str), hd :: (body ++ [] :: ls) ++ rest = hd :: (body ++ [] :: (ls ++ rest)) := by
      intros; simp
    rw [this, run_sec hs, ih]
    simp only [applyAll, List.length_cons, List.foldl_cons]
    congr 1; omega

theorem Secs.append {ls ls' : List Str} {es es' : List (Str × (ScreenLogic → ScreenLogic))} (h : Secs ls es)
    (h' : Secs ls' es') : Secs (ls ++ ls') (es ++ es') := by
  induction h with
  | nil => exact h'
  | cons hs _ ih =>
    have : ∀ (hd : Str) (body ls rest : List Str), hd :: (body ++ [] :: ls) ++ rest = hd :: (body ++ [] :: (ls ++ rest)) := by
      intros; simp
    rw [this]
    exact .cons hs ih

end Logic
end Swrs
