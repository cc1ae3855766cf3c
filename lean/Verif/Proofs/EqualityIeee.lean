import Verif.Float.Equality
import Verif.Proofs.Equality
/-!
# The laws of `==` hold for IEEE 754 values
-/
namespace Swrs
open Ieee
namespace Ieee

/-- NaN. -/
def Value.nanB {F : Format} : Value F → Bool
  | .nan => true
  | _ => false

/-- The negative zero. -/
def Value.negZero {F : Format} : Value F → Bool
  | .fin true k => k.val == 0
  | _ => false

variable {F : Format}

theorem rustEq_self (x : Value F) : x.rustEq x = !x.nanB := by
  cases x <;> simp [Value.rustEq, Value.nanB]

theorem rustEq_symm (x y : Value F) (h : x.rustEq y = true) : y.rustEq x = true := by
  cases x <;> cases y <;> simp [Value.rustEq] at h ⊢
  · exact h.symm
  · obtain ⟨h, h'⟩ := h
    refine ⟨h.symm, ?_⟩
    rcases h' with h' | h'
    · exact .inl h'.symm
    · exact .inr (by rw [← h]; exact h')

theorem rustEq_trans (x y z : Value F) (h : x.rustEq y = true) (h' : y.rustEq z = true) : x.rustEq z = true := by
  cases x <;> cases y <;> simp [Value.rustEq] at h <;> cases z <;> simp [Value.rustEq] at h' ⊢
  · exact h.trans h'
  · obtain ⟨h1, h2⟩ := h
    obtain ⟨h3, h4⟩ := h'
    refine ⟨h1.trans h3, ?_⟩
    rcases h2 with h2 | h2
    · rcases h4 with h4 | h4
      · exact .inl (h2.trans h4)
      · exact .inr (by rw [h1]; exact h4)
    · exact .inr h2

theorem rustEq_same (x y : Value F) (h : x.rustEq y = true) (hz : x.negZero = y.negZero) : x = y := by
  cases x with
  | nan => simp [Value.rustEq] at h
  | inf a => cases y <;> simp [Value.rustEq] at h; rw [h]
  | fin a k =>
    cases y with
    | nan => simp [Value.rustEq] at h
    | inf b => simp [Value.rustEq] at h
    | fin b l =>
      simp [Value.rustEq] at h
      obtain ⟨h1, h2⟩ := h
      have hk : k = l := Subtype.ext h1
      subst hk
      rcases h2 with h2 | h2
      · rw [h2]
      · cases a <;> cases b <;> simp [Value.negZero, h2] at hz ⊢

theorem round_ne_nan (hp : F.prec ≠ 0) (neg : Bool) (n d : Nat) : Value.round F hp neg n d ≠ .nan := by
  unfold Value.round
  intro h
  repeat' split at h
  all_goals cases h

theorem readF32_ne_nan (tok : Str) : readF32 tok ≠ some .nan := by
  intro h
  unfold readF32 at h
  obtain ⟨n, _, hn⟩ := Option.map_eq_some_iff.1 h
  split at hn <;> exact round_ne_nan _ _ _ _ hn

end Ieee

/-- The laws, with the notions of NaN and of the negative zero of IEEE 754. -/
@[reducible] def ieeeEqLaws : @FloatEqLaws ieeeFloats.toFloats ieeeEq :=
  letI := ieeeFloats
  letI := ieeeEq
  { nan32 := Value.nanB (F := f32)
    negZero32 := Value.negZero (F := f32)
    negZero64 := Value.negZero (F := f64)
    self32 := rustEq_self
    self64 := fun x => by
      show Value.rustEq (F := f64) x x = _
      rw [rustEq_self]
      cases x <;> rfl
    symm32 := rustEq_symm
    symm64 := rustEq_symm
    trans32 := rustEq_trans
    trans64 := rustEq_trans
    same32 := rustEq_same
    same64 := rustEq_same
    read_nan := fun tok x h => by
      have h' : readF32 tok = some x := h
      cases x with
      | nan => exact absurd h' (readF32_ne_nan tok)
      | inf _ => rfl
      | fin _ _ => rfl }

end Swrs
