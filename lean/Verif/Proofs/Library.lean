import Verif.Proofs.FileLike
/-! `Library::parse` against a scan of the lines. -/
namespace Swrs.Library

/-- Specification: the four section headers. -/
def headers : List Str := [s% "@firebaseDB", s% "@compat", s% "@admob", s% "@googleMap"]

theorem isHeader_eq (l : Str) : isHeader l = decide (l ∈ headers) := by
  simp [isHeader, headers, Bool.or_assoc]

/-- Specification: what the lines contain. `items` are the headers with the line following each;
`dangling` is the header at the very end, if any. -/
def scan : List Str → List (Str × Str) × Option Str
  | [] => ([], none)
  | [l] => if l ∈ headers then ([], some l) else ([], none)
  | l :: i :: rest =>
    if l ∈ headers then ((l, i) :: (scan rest).1, (scan rest).2)
    else scan (i :: rest)

/-- Specification: the item of the last occurrence of a header. -/
def lastItem (h : Str) (es : List (Str × Str)) : Option LibraryItem :=
  ((es.filter (·.1 = h)).getLast?).bind fun e => LibraryItem.parse e.2

/-- State after the sections `es`, when all of them parse. -/
def accOf (a : Acc) : List (Str × Str) → Acc
  | [] => a
  | (h, i) :: es => match LibraryItem.parse i with
    | some v => accOf (a.set h v) es
    | none => a

theorem loop_eq (ls : List Str) (a : Acc) (n : Nat) :
    (∀ b, loop ls a n = .ok b ↔ (scan ls).2 = none ∧
      (∀ e ∈ (scan ls).1, (LibraryItem.parse e.2).isSome) ∧ accOf a (scan ls).1 = b) ∧
    loop ls a n ≠ .panic := by
  induction ls using scan.induct generalizing a n with
  | case1 => simp [loop, scan, accOf]
  | case2 l h => simp [loop, scan, h, isHeader_eq]
  | case3 l h => simp [loop, scan, h, accOf, isHeader_eq]
  | case4 l i rest h ih =>
    simp only [loop, isHeader_eq, h, decide_true, if_true, scan]
    cases hp : LibraryItem.parse i with
    | none => simp [hp]
    | some v =>
      simp only [List.mem_cons, forall_eq_or_imp, hp, Option.isSome_some, true_and, accOf]
      exact ih (a.set l v) (n + 1)
  | case5 l i rest h ih =>
    have e : loop (l :: i :: rest) a n = loop (i :: rest) a (n + 1) := by
      rw [loop]; simp [h, isHeader_eq]
    have e2 : scan (l :: i :: rest) = scan (i :: rest) := by rw [scan]; simp [h]
    rw [e, e2]
    exact ih a (n + 1)

theorem scan_headers (ls : List Str) : ∀ e ∈ (scan ls).1, isHeader e.1 = true := by
  simp only [isHeader_eq, decide_eq_true_eq]
  induction ls using scan.induct with
  | case1 => simp [scan]
  | case2 l h => simp [scan, h]
  | case3 l h => simp [scan, h]
  | case4 l i rest h ih => simp only [scan, h, if_true, List.mem_cons, forall_eq_or_imp]; exact ⟨trivial, ih⟩
  | case5 l i rest h ih => simp only [scan, h]; exact ih

theorem isHeader_iff (l : Str) : isHeader l = true ↔
    l = s% "@firebaseDB" ∨ l = s% "@compat" ∨ l = s% "@admob" ∨ l = s% "@googleMap" := by
  simp [isHeader, or_assoc]

/-- Component of the accumulator for a header. -/
def Acc.slot (a : Acc) (h : Str) : Option LibraryItem :=
  if h = s% "@firebaseDB" then a.firebaseDb
  else if h = s% "@compat" then a.compat
  else if h = s% "@admob" then a.admob
  else a.googleMap

theorem slot_set (a : Acc) {h h' : Str} (v : LibraryItem) (h1 : isHeader h = true) (h2 : isHeader h' = true) :
    (a.set h v).slot h' = if h' = h then some v else a.slot h' := by
  rw [isHeader_iff] at h1 h2
  rcases h1 with rfl | rfl | rfl | rfl <;> rcases h2 with rfl | rfl | rfl | rfl <;> rfl

theorem slot_accOf (es : List (Str × Str)) (a : Acc) (hh : ∀ e ∈ es, isHeader e.1 = true)
    (hp : ∀ e ∈ es, (LibraryItem.parse e.2).isSome) (h : Str) (h2 : isHeader h = true) :
    (accOf a es).slot h = match lastItem h es with | some v => some v | none => a.slot h := by
  induction es generalizing a with
  | nil => simp [accOf, lastItem]
  | cons e es ih =>
    obtain ⟨k, i⟩ := e
    have hk := hh (k, i) (by simp)
    have hpk := hp (k, i) (by simp)
    simp only at hk hpk
    cases hv : LibraryItem.parse i with
    | none => rw [hv] at hpk; simp at hpk
    | some v =>
      simp only [accOf, hv]
      rw [ih _ (fun e he => hh e (by simp [he])) (fun e he => hp e (by simp [he])), slot_set _ _ hk h2]
      unfold lastItem
      by_cases hkh : k = h
      · subst hkh
        simp only [List.filter_cons, decide_true, if_true]
        cases hf : (es.filter (fun e => decide (e.1 = k))).getLast? with
        | none =>
          simp at hf
          rw [List.getLast?_cons]
          have : es.filter (fun e => decide (e.1 = k)) = [] := by
            simp; exact hf
          simp [this, hv]
        | some x =>
          have hx : x ∈ es := by
            have := List.mem_of_getLast? hf
            exact (List.mem_filter.mp this).1
          have := hp x (by simp [hx])
          rw [List.getLast?_cons, hf]
          simp only [Option.bind_some, Option.getD_some]
          cases hpx : LibraryItem.parse x.2 with
          | none => rw [hpx] at this; simp at this
          | some w => rfl
      · have hkh' : ¬ h = k := fun e => hkh e.symm
        simp only [List.filter_cons, hkh, decide_false, hkh', if_false]
        rfl

end Swrs.Library
