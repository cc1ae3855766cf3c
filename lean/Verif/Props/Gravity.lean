import Verif.Model.View
import Verif.Proofs.Aes
/-!
# C65: gravity
-/
namespace Swrs

/-! ## C65 — Gravity flags -/

/-- The flags a gravity is composed of. -/
inductive GravityFlag where
  | centerHorizontal | left | right | centerVertical | center | top | bottom
deriving DecidableEq, Repr

namespace GravityFlag
/-- The number of a flag in Android (`android.view.Gravity`). -/
def number : GravityFlag → UInt8
  | centerHorizontal => 1 | left => 3 | right => 5 | centerVertical => 16 | center => 17 | top => 48 | bottom => 80
/-- What `Gravity` reports for the flag. -/
def reported (g : Gravity) : GravityFlag → Bool
  | centerHorizontal => g.centerHorizontal | left => g.left | right => g.right | centerVertical => g.centerVertical
  | center => g.center | top => g.top | bottom => g.bottom
/-- A gravity with the given flags: their numbers combined with "or". -/
def combine (fs : List GravityFlag) : Gravity := .new (fs.foldr (fun f n => f.number ||| n) 0)
end GravityFlag
open GravityFlag

/-- C65: the constants are those of Android. -/
theorem c65_constants : Gravity.NONE = 0 ∧ Gravity.CENTER_HORIZONTAL = number .centerHorizontal ∧ Gravity.LEFT = number .left ∧
    Gravity.RIGHT = number .right ∧ Gravity.CENTER_VERTICAL = number .centerVertical ∧ Gravity.CENTER = number .center ∧
    Gravity.TOP = number .top ∧ Gravity.BOTTOM = number .bottom := by decide

theorem accessors (n : UInt8) :
    ((Gravity.new n).centerHorizontal = n.toNat.testBit 0) ∧
    ((Gravity.new n).left = (n.toNat.testBit 0 && n.toNat.testBit 1)) ∧
    ((Gravity.new n).right = (n.toNat.testBit 0 && n.toNat.testBit 2)) ∧
    ((Gravity.new n).centerVertical = n.toNat.testBit 4) ∧
    ((Gravity.new n).center = (n.toNat.testBit 0 && n.toNat.testBit 4)) ∧
    ((Gravity.new n).top = (n.toNat.testBit 4 && n.toNat.testBit 5)) ∧
    ((Gravity.new n).bottom = (n.toNat.testBit 4 && n.toNat.testBit 6)) :=
  Aes.forall_byte (p := fun n =>
    ((Gravity.new n).centerHorizontal = n.toNat.testBit 0) ∧
    ((Gravity.new n).left = (n.toNat.testBit 0 && n.toNat.testBit 1)) ∧
    ((Gravity.new n).right = (n.toNat.testBit 0 && n.toNat.testBit 2)) ∧
    ((Gravity.new n).centerVertical = n.toNat.testBit 4) ∧
    ((Gravity.new n).center = (n.toNat.testBit 0 && n.toNat.testBit 4)) ∧
    ((Gravity.new n).top = (n.toNat.testBit 4 && n.toNat.testBit 5)) ∧
    ((Gravity.new n).bottom = (n.toNat.testBit 4 && n.toNat.testBit 6))) (by decide +kernel) n

theorem testBit_combine (fs : List GravityFlag) (i : Nat) :
    (fs.foldr (fun f n => f.number ||| n) (0 : UInt8)).toNat.testBit i = fs.any fun f => f.number.toNat.testBit i := by
  induction fs with
  | nil => simp
  | cons f fs ih => rw [List.foldr_cons, UInt8.toNat_or, Nat.testBit_or, ih, List.any_cons]

/-- C65 is false: a gravity that is only `LEFT` also reports `center_horizontal`. -/
theorem c65_reported_false : ¬ ∀ (fs : List GravityFlag) (f : GravityFlag), reported (combine fs) f = true ↔ f ∈ fs := by
  intro h
  exact absurd ((h [.left] .centerHorizontal).1 (by decide)) (by decide)

/-- C65, what holds: `left`, `right`, `top` and `bottom` are reported iff they were set; `center_horizontal` iff a horizontal flag or
`center` was set, `center_vertical` iff a vertical one or `center` was, and `center` iff both are reported. -/
theorem c65_reported_partial (fs : List GravityFlag) :
    ((combine fs).left = true ↔ .left ∈ fs) ∧ ((combine fs).right = true ↔ .right ∈ fs) ∧
    ((combine fs).top = true ↔ .top ∈ fs) ∧ ((combine fs).bottom = true ↔ .bottom ∈ fs) ∧
    ((combine fs).centerHorizontal = true ↔ ∃ f ∈ fs, f = .centerHorizontal ∨ f = .left ∨ f = .right ∨ f = .center) ∧
    ((combine fs).centerVertical = true ↔ ∃ f ∈ fs, f = .centerVertical ∨ f = .top ∨ f = .bottom ∨ f = .center) ∧
    ((combine fs).center = true ↔ (combine fs).centerHorizontal = true ∧ (combine fs).centerVertical = true) := by
  obtain ⟨h1, h2, h3, h4, h5, h6, h7⟩ := accessors (fs.foldr (fun f n => f.number ||| n) 0)
  simp only [testBit_combine] at h1 h2 h3 h4 h5 h6 h7
  have b0 : ∀ f : GravityFlag, f.number.toNat.testBit 0 = true ↔ f = .centerHorizontal ∨ f = .left ∨ f = .right ∨ f = .center := by
    intro f; cases f <;> decide
  have b1 : ∀ f : GravityFlag, f.number.toNat.testBit 1 = true ↔ f = .left := by intro f; cases f <;> decide
  have b2 : ∀ f : GravityFlag, f.number.toNat.testBit 2 = true ↔ f = .right := by intro f; cases f <;> decide
  have b4 : ∀ f : GravityFlag, f.number.toNat.testBit 4 = true ↔ f = .centerVertical ∨ f = .top ∨ f = .bottom ∨ f = .center := by
    intro f; cases f <;> decide
  have b5 : ∀ f : GravityFlag, f.number.toNat.testBit 5 = true ↔ f = .top := by intro f; cases f <;> decide
  have b6 : ∀ f : GravityFlag, f.number.toNat.testBit 6 = true ↔ f = .bottom := by intro f; cases f <;> decide
  refine ⟨?_, ?_, ?_, ?_, ?_, ?_, ?_⟩
  · show (Gravity.new _).left = true ↔ _
    rw [h2, Bool.and_eq_true, List.any_eq_true, List.any_eq_true]
    simp only [b0, b1]
    exact ⟨fun ⟨_, f, hf, e⟩ => e ▸ hf, fun h => ⟨⟨_, h, by simp⟩, _, h, rfl⟩⟩
  · show (Gravity.new _).right = true ↔ _
    rw [h3, Bool.and_eq_true, List.any_eq_true, List.any_eq_true]
    simp only [b0, b2]
    exact ⟨fun ⟨_, f, hf, e⟩ => e ▸ hf, fun h => ⟨⟨_, h, by simp⟩, _, h, rfl⟩⟩
  · show (Gravity.new _).top = true ↔ _
    rw [h6, Bool.and_eq_true, List.any_eq_true, List.any_eq_true]
    simp only [b4, b5]
    exact ⟨fun ⟨_, f, hf, e⟩ => e ▸ hf, fun h => ⟨⟨_, h, by simp⟩, _, h, rfl⟩⟩
  · show (Gravity.new _).bottom = true ↔ _
    rw [h7, Bool.and_eq_true, List.any_eq_true, List.any_eq_true]
    simp only [b4, b6]
    exact ⟨fun ⟨_, f, hf, e⟩ => e ▸ hf, fun h => ⟨⟨_, h, by simp⟩, _, h, rfl⟩⟩
  · show (Gravity.new _).centerHorizontal = true ↔ _
    rw [h1, List.any_eq_true]
    simp only [b0]
  · show (Gravity.new _).centerVertical = true ↔ _
    rw [h4, List.any_eq_true]
    simp only [b4]
  · show (Gravity.new _).center = true ↔ (Gravity.new _).centerHorizontal = true ∧ (Gravity.new _).centerVertical = true
    rw [h5, h1, h4, Bool.and_eq_true]

/-- C65: the default gravity reports nothing. -/
theorem c65_default (f : GravityFlag) : reported .default f = false := by cases f <;> decide

-- bottom and right
example : let g := combine [.bottom, .right]
    g.value = 85 ∧ g.bottom ∧ g.right ∧ g.top = false ∧ g.left = false ∧ g.center := by decide

end Swrs
