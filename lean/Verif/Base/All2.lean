/-!
# Lists related element by element
-/
namespace Swrs

/-- The two lists have the same length and their elements are related in order. -/
inductive All₂ {α β : Type} (R : α → β → Prop) : List α → List β → Prop
  | nil : All₂ R [] []
  | cons {a : α} {b : β} {as : List α} {bs : List β} (h : R a b) (t : All₂ R as bs) : All₂ R (a :: as) (b :: bs)

namespace All₂
variable {α β γ : Type} {R S : α → β → Prop}

theorem imp (h : ∀ a b, R a b → S a b) {as : List α} {bs : List β} (H : All₂ R as bs) : All₂ S as bs := by
  induction H with
  | nil => exact .nil
  | cons hab _ ih => exact .cons (h _ _ hab) ih

theorem imp_mem {as : List α} {bs : List β} (H : All₂ R as bs) (h : ∀ a ∈ as, ∀ b ∈ bs, R a b → S a b) : All₂ S as bs := by
  induction H with
  | nil => exact .nil
  | cons hab _ ih =>
    exact .cons (h _ (by simp) _ (by simp) hab) (ih fun a ha b hb => h a (by simp [ha]) b (by simp [hb]))

theorem length_eq {as : List α} {bs : List β} (H : All₂ R as bs) : as.length = bs.length := by
  induction H with
  | nil => rfl
  | cons _ _ ih => simp [ih]

theorem left {as : List α} {bs : List β} (H : All₂ R as bs) : ∀ a ∈ as, ∃ b ∈ bs, R a b := by
  induction H with
  | nil => simp
  | cons hab _ ih =>
    intro a ha
    rcases List.mem_cons.mp ha with rfl | ha
    · exact ⟨_, by simp, hab⟩
    · obtain ⟨b, hb, h⟩ := ih a ha; exact ⟨b, by simp [hb], h⟩

theorem right {as : List α} {bs : List β} (H : All₂ R as bs) : ∀ b ∈ bs, ∃ a ∈ as, R a b := by
  induction H with
  | nil => simp
  | cons hab _ ih =>
    intro b hb
    rcases List.mem_cons.mp hb with rfl | hb
    · exact ⟨_, by simp, hab⟩
    · obtain ⟨a, ha, h⟩ := ih b hb; exact ⟨a, by simp [ha], h⟩

/-- A functional relation to an image. -/
theorem map_iff (f : α → β) {as : List α} {bs : List β} : All₂ (fun a b => f a = b) as bs ↔ bs = as.map f := by
  constructor
  · intro H
    induction H with
    | nil => rfl
    | cons h _ ih => rw [ih, ← h]; rfl
  · rintro rfl
    induction as with
    | nil => exact .nil
    | cons a as ih => exact .cons rfl ih

theorem of_map (f : γ → α) (g : γ → β) {cs : List γ} (h : ∀ c ∈ cs, R (f c) (g c)) : All₂ R (cs.map f) (cs.map g) := by
  induction cs with
  | nil => exact .nil
  | cons c cs ih => exact .cons (h c (by simp)) (ih fun c hc => h c (by simp [hc]))

theorem map_left (f : γ → α) {cs : List γ} {bs : List β} : All₂ R (cs.map f) bs ↔ All₂ (fun c b => R (f c) b) cs bs := by
  induction cs generalizing bs with
  | nil =>
    constructor <;> intro h <;> cases h <;> exact .nil
  | cons c cs ih =>
    constructor
    · intro h
      cases h with
      | cons h1 h2 => exact .cons h1 (ih.mp h2)
    · intro h
      cases h with
      | cons h1 h2 => exact .cons h1 (ih.mpr h2)

theorem refl_of {R : α → α → Prop} {as : List α} (h : ∀ a ∈ as, R a a) : All₂ R as as := by
  induction as with
  | nil => exact .nil
  | cons a as ih => exact .cons (h a (by simp)) (ih fun a ha => h a (by simp [ha]))

theorem unique (hR : ∀ a b c, R a b → R a c → b = c) {as : List α} {bs cs : List β} (h : All₂ R as bs) (h' : All₂ R as cs) : bs = cs := by
  induction h generalizing cs with
  | nil =>
    cases h'
    rfl
  | cons h _ ih =>
    cases h' with
    | cons h1 h2 => rw [hR _ _ _ h h1, ih h2]

theorem mem_map (f : γ → α) (g : γ → β) {cs : List γ} (H : All₂ R (cs.map f) (cs.map g)) : ∀ c ∈ cs, R (f c) (g c) := by
  induction cs with
  | nil => simp
  | cons c cs ih =>
    cases H with
    | cons h t =>
      intro d hd
      rcases List.mem_cons.mp hd with rfl | hd
      · exact h
      · exact ih t d hd

end All₂
end Swrs
