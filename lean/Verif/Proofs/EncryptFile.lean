import Verif.Proofs.Crypto
/-!
# States of a file encryption
-/
namespace Swrs.EncryptFile
variable {P : Type} [DecidableEq P]

theorem set_set (fs : Fs P) (p : P) (a b : Bytes) : (fs.set p a).set p b = fs.set p b := by
  funext q; simp only [Fs.set]; split <;> rfl

theorem set_same (fs : Fs P) (p : P) (a : Bytes) : fs.set p a p = some a := by simp [Fs.set]
theorem set_other (fs : Fs P) {p q : P} (a : Bytes) (h : q ≠ p) : fs.set p a q = fs q := by simp [Fs.set, h]

/-- What holds at each point of the execution. -/
def Inv (file target : P) (fs : Fs P) : Fs P × Pc → Prop
  | (fs', .start) => fs' = fs
  | (fs', .write c) => fs' = fs ∧ ∃ d, fs file = some d ∧ c = encryptSw d
  | (fs', .writing rest) => ∃ d w, fs file = some d ∧ encryptSw d = w ++ rest ∧ fs' = fs.set target w
  | (fs', .done r) =>
    (r = .ok () ∧ ∃ d, fs file = some d ∧ fs' = fs.set target (encryptSw d)) ∨
    (r = .err .io ∧ (fs' = fs ∨ ∃ d w, fs file = some d ∧ w <+: encryptSw d ∧ fs' = fs.set target w))

theorem inv_steps {file target : P} {fs : Fs P} {s t : Fs P × Pc} (h : Steps file target s t) (hs : Inv file target fs s) :
    Inv file target fs t := by
  induction h with
  | refl => exact hs
  | step _ h ih =>
    cases h with
    | read h => simp only [Inv] at ih ⊢; subst ih; exact ⟨rfl, _, h, rfl⟩
    | readFails => simp only [Inv] at ih ⊢; exact .inr ⟨trivial, .inl ih⟩
    | create =>
      simp only [Inv] at ih ⊢
      obtain ⟨rfl, d, h1, rfl⟩ := ih
      exact ⟨d, [], h1, by simp, rfl⟩
    | createFails => simp only [Inv] at ih ⊢; exact .inr ⟨trivial, .inl ih.1⟩
    | append ha ho =>
      simp only [Inv] at ih ⊢
      obtain ⟨d, w, h1, h2, rfl⟩ := ih
      rw [set_same] at ho
      simp at ho; subst ho
      exact ⟨d, _, h1, by rw [h2, List.append_assoc], set_set _ _ _ _⟩
    | appendFails =>
      simp only [Inv] at ih ⊢
      obtain ⟨d, w, h1, h2, rfl⟩ := ih
      exact .inr ⟨trivial, .inr ⟨d, w, h1, ⟨_, h2.symm⟩, rfl⟩⟩
    | finish =>
      simp only [Inv] at ih ⊢
      obtain ⟨d, w, h1, h2, rfl⟩ := ih
      rw [List.append_nil] at h2
      exact .inl ⟨trivial, d, h1, by rw [h2]⟩

theorem inv_reaches {file : P} {out : Option P} {fs fs' : Fs P} {pc : Pc} (h : Reaches file out fs fs' pc) :
    Inv file (out.getD file) fs (fs', pc) := inv_steps h rfl

/-- Every prefix of the ciphertext is written at some point. -/
theorem reaches_prefix {file : P} {out : Option P} {fs : Fs P} {d w rest : Bytes} (hd : fs file = some d)
    (hw : encryptSw d = w ++ rest) : Reaches file out fs (fs.set (out.getD file) w) (.writing rest) := by
  have h1 : Reaches file out fs (fs.set (out.getD file) []) (.writing (w ++ rest)) := by
    rw [← hw]
    exact .step (.step (.refl _) (.read hd)) .create
  by_cases h : w = []
  · subst h; exact h1
  · have := Steps.step h1 (Step.append (a := w) (b := rest) h (set_same _ _ _))
    rw [set_set, List.nil_append] at this
    exact this

theorem reaches_done {file : P} {out : Option P} {fs : Fs P} {d : Bytes} (hd : fs file = some d) :
    Reaches file out fs (fs.set (out.getD file) (encryptSw d)) (.done (.ok ())) :=
  .step (reaches_prefix hd (w := encryptSw d) (rest := []) (by simp)) .finish

end Swrs.EncryptFile
