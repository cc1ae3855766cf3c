import Verif.Props.View
import Verif.Float.Instance
/-!
# C90: a number that is too large for its field
-/
namespace Swrs
attribute [local instance] ieeeFloats

/-- The text of a fresh view with another number for its opacity. -/
def c90_viewText (alpha : Str) : Str :=
  (Json.obj ((AndroidView.newEmpty (s% "a") 3 (s% "root") 0).members.map fun e =>
    if e.1 = s% "alpha" then (e.1, .num alpha) else e)).print

/-- C90 is false of views with a number that is too large for `f32`: the view is read, with an infinite number; the saved view has `null` in its
place and is refused. -/
theorem c90_infinite_false : ∃ v : AndroidView, AndroidView.parse (c90_viewText (s% "1e39")) = some v ∧
    AndroidView.parse v.reconstruct = none := by
  have h : (AndroidView.parse (c90_viewText (s% "1e39"))).map (fun v => Floats.finite v.alpha) = some false := by
    decide +kernel
  rw [Option.map_eq_some_iff] at h
  obtain ⟨v, hv, hf⟩ := h
  refine ⟨v, hv, (c21_view_round_trip_partial v).2.1 ?_⟩
  intro hF
  rw [hF.1] at hf
  simp at hf

-- with an ordinary number the view is read and the number is finite
example : (AndroidView.parse (c90_viewText (s% "0.5"))).map (fun v => Floats.finite v.alpha) = some true := by
  decide +kernel

end Swrs
