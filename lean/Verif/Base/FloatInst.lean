import Verif.Base.Float
/-!
# An instance of the floating point interface

The laws of `FloatLaws` are satisfiable: here the values are the integers and one non-finite value.
Only used to show that hypotheses are satisfiable; the theorems hold for every instance.
-/
namespace Swrs

/-- Integral floats and a NaN. -/
@[reducible] def toyFloats : FloatLaws where
  F32 := Option Int
  finite := Option.isSome
  print x := match x with
    | some n => intStr n
    | none => []
  read tok := (Json.intOfTok tok).map some
  f64ToI32 _ := none
  zero := some 0
  one := some 1
  F64 := Option Int
  isNaN := Option.isNone
  show64 x := match x with
    | some n => intStr n
    | none => s% "NaN"
  read64 s := (Json.intOfTok s).map some
  print_num x h := by
    cases x with
    | none => simp at h
    | some n => exact Json.isNumTok_intStr n
  read_print x h := by
    cases x with
    | none => simp at h
    | some n => simp [Json.intOfTok_intStr]
  finite_zero := rfl
  finite_one := rfl
  read64_show64 x h := by
    cases x with
    | none => simp at h
    | some n => simp [Json.intOfTok_intStr]
  show64_at x := by
    cases x with
    | none => simp
    | some n =>
      intro h
      cases n with
      | ofNat n =>
        have h : (natStr 10 n).head? = some '@' := h
        exact absurd (natStr_digits rfl n '@' (List.mem_of_mem_head? h)) (by decide)
      | negSucc n => exact absurd h (by simp [intStr])

end Swrs
