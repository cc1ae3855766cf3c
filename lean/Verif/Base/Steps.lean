import Verif.Base.Out
/-!
# Steps done in order, up to the first that fails

Used to say which of several possible failures a conversion reports.
-/
namespace Swrs
variable {ε ε' α β σ : Type}

namespace Out
/-- The outcome without its value. -/
def void : Out ε α → Out ε Unit
  | ok _ => ok ()
  | err e => err e
  | panic => panic

@[simp] theorem void_ok (a : α) : (ok a : Out ε α).void = ok () := rfl
@[simp] theorem void_err (e : ε) : (err e : Out ε α).void = err e := rfl
@[simp] theorem void_panic : (panic : Out ε α).void = panic := rfl

theorem void_eq_err {x : Out ε α} {e : ε} : x.void = .err e ↔ x = .err e := by cases x <;> simp
theorem void_eq_panic {x : Out ε α} : x.void = .panic ↔ x = .panic := by cases x <;> simp
theorem void_eq_ok {x : Out ε α} : x.void = .ok () ↔ ∃ a, x = .ok a := by cases x <;> simp

theorem bind_assoc {γ : Type} (x : Out ε α) (f : α → Out ε β) (g : β → Out ε γ) : ((x >>= f) >>= g) = (x >>= fun a => f a >>= g) := by
  cases x <;> rfl
theorem void_bind (x : Out ε α) (f : α → Out ε β) : (x >>= f).void = (x >>= fun a => (f a).void) := by cases x <;> rfl
theorem void_mapErr (x : Out ε α) (f : ε → ε') : (x.mapErr f).void = x.void.mapErr f := by cases x <;> rfl
theorem bind_void (x : Out ε α) (y : Out ε β) : (x >>= fun _ => y) = (x.void >>= fun _ => y) := by cases x <;> rfl
end Out

/-- The steps in order are `steps`; `result earlier s` is the outcome of `s` after the steps `earlier`. All succeed. -/
def AllDone (result : List σ → σ → Out ε Unit) (steps : List σ) : Prop :=
  ∀ pre s post, steps = pre ++ s :: post → result pre s = .ok ()

/-- The first step that does not succeed has outcome `o`. -/
def StopsWith (result : List σ → σ → Out ε Unit) (steps : List σ) (o : Out ε Unit) : Prop :=
  o ≠ .ok () ∧ ∃ pre s post, steps = pre ++ s :: post ∧ AllDone result pre ∧ result pre s = o

/-- Doing the steps in order. -/
def runSteps (result : List σ → σ → Out ε Unit) : List σ → List σ → Out ε Unit
  | _, [] => .ok ()
  | earlier, s :: rest => result earlier s >>= fun _ => runSteps result (earlier ++ [s]) rest

theorem allDone_nil (result : List σ → σ → Out ε Unit) : AllDone result [] := by
  intro pre s post h
  simp at h

theorem allDone_snoc {result : List σ → σ → Out ε Unit} {steps : List σ} {s : σ} :
    AllDone result (steps ++ [s]) ↔ AllDone result steps ∧ result steps s = .ok () := by
  constructor
  · intro h
    refine ⟨fun pre t post ht => h pre t (post ++ [s]) (by simp [ht]), h steps s [] rfl⟩
  · rintro ⟨h, hs⟩ pre t post ht
    rcases List.eq_nil_or_concat post with rfl | ⟨post', x, rfl⟩
    · obtain ⟨h1, h2⟩ := List.append_inj' ht rfl
      subst h1
      cases h2
      exact hs
    · have h2 : steps ++ [s] = (pre ++ t :: post') ++ [x] := by rw [ht]; simp
      obtain ⟨h2, _⟩ := List.append_inj' h2 rfl
      exact h pre t post' h2

theorem runSteps_append (result : List σ → σ → Out ε Unit) (earlier a b : List σ) :
    runSteps result earlier (a ++ b) = (runSteps result earlier a >>= fun _ => runSteps result (earlier ++ a) b) := by
  induction a generalizing earlier with
  | nil => simp [runSteps]
  | cons s a ih =>
    rw [List.cons_append]
    simp only [runSteps]
    rw [ih]
    cases result earlier s <;> simp

theorem void_bind_run {result : List σ → σ → Out ε Unit} {earlier a b : List σ} {x : Out ε α} {k : α → Out ε β}
    (hx : x.void = runSteps result earlier a) (hk : ∀ v, x = .ok v → (k v).void = runSteps result (earlier ++ a) b) :
    (x >>= k).void = runSteps result earlier (a ++ b) := by
  rw [runSteps_append, ← hx]
  cases x with
  | ok v => exact hk v rfl
  | err e => rfl
  | panic => rfl

/-- Running stops at the first step that fails. -/
theorem runSteps_from {result : List σ → σ → Out ε Unit} {earlier : List σ} (he : AllDone result earlier) (steps : List σ) :
    (runSteps result earlier steps = .ok () ∧ AllDone result (earlier ++ steps)) ∨
    StopsWith result (earlier ++ steps) (runSteps result earlier steps) := by
  induction steps generalizing earlier with
  | nil => exact .inl ⟨rfl, by simpa using he⟩
  | cons s steps ih =>
    simp only [runSteps]
    cases hr : result earlier s with
    | ok u =>
      have := ih (allDone_snoc.mpr ⟨he, hr⟩)
      simpa using this
    | err e => exact .inr ⟨by simp, earlier, s, steps, rfl, he, by simp [hr]⟩
    | panic => exact .inr ⟨by simp, earlier, s, steps, rfl, he, by simp [hr]⟩

theorem stopsWith_unique {result : List σ → σ → Out ε Unit} {steps : List σ} {o o' : Out ε Unit} (h : StopsWith result steps o)
    (h' : StopsWith result steps o') : o = o' := by
  obtain ⟨h1, pre, s, post, h2, h3, h4⟩ := h
  obtain ⟨h1', pre', s', post', h2', h3', h4'⟩ := h'
  rw [h2] at h2'
  rcases List.append_eq_append_iff.mp h2' with ⟨c, h5, h6⟩ | ⟨c, h5, h6⟩
  · cases c with
    | nil =>
      simp only [List.append_nil] at h5
      subst h5
      cases h6
      rw [← h4, h4']
    | cons x c =>
      cases h6
      exact absurd (h4 ▸ h3' pre s c h5) h1
  · cases c with
    | nil =>
      simp only [List.append_nil] at h5
      subst h5
      cases h6
      rw [← h4, h4']
    | cons x c =>
      cases h6
      exact absurd (h4' ▸ h3 pre' s' c h5) h1'

theorem not_stopsWith_of_done {result : List σ → σ → Out ε Unit} {steps : List σ} (h : AllDone result steps) (o : Out ε Unit) :
    ¬ StopsWith result steps o := by
  rintro ⟨h1, pre, s, post, h2, _, h4⟩
  exact h1 (h4 ▸ h pre s post h2)

/-- If an outcome is that of running the steps, then it fails with the first step that does, and otherwise succeeds. -/
theorem outcome_of_run {result : List σ → σ → Out ε Unit} {steps : List σ} {x : Out ε α} (h : x.void = runSteps result [] steps) :
    ((∃ a, x = .ok a) ↔ AllDone result steps) ∧ (∀ e, x = .err e ↔ StopsWith result steps (.err e)) ∧
    (x = .panic ↔ StopsWith result steps .panic) := by
  have hr := runSteps_from (allDone_nil result) steps
  rw [List.nil_append, ← h] at hr
  rcases hr with ⟨h1, h2⟩ | h1
  · obtain ⟨a, rfl⟩ := Out.void_eq_ok.mp h1
    simp [h2, not_stopsWith_of_done h2]
  · refine ⟨⟨fun ⟨a, ha⟩ => absurd (by rw [ha]; rfl) h1.1, fun hd => absurd h1 (not_stopsWith_of_done hd _)⟩, fun e => ?_, ?_⟩
    · rw [← Out.void_eq_err]
      exact ⟨fun h => h ▸ h1, fun h => stopsWith_unique h1 h⟩
    · rw [← Out.void_eq_panic]
      exact ⟨fun h => h ▸ h1, fun h => stopsWith_unique h1 h⟩
end Swrs
