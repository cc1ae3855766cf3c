import Verif.Proofs.Counters
import Verif.Props.ViewCount
/-!
# C99: the counters of the code are wide enough

The functions `parse32` and `toContainer32` count with `u32` as the code does; `Overflow` says whether an overflow panics.
-/
namespace Swrs
section
variable [Overflow]

omit [Overflow] in
/-- A text has one line more than it has line ends. -/
theorem lines_length (s : Str) : (lines s).length = s.count '\n' + 1 := splitOn_length '\n' s

omit [Overflow] in
/-- C99: a text has no more line ends than bytes, so a text of less than 4 GiB (minus 4) meets the hypothesis of the theorems below. -/
theorem c99_bytes (s : Str) : s.count '\n' ≤ byteLen s := by
  induction s with
  | nil => exact Nat.le_refl 0
  | cons c s ih =>
    rw [byteLen_cons, List.count_cons]
    have := Char.utf8Size_pos c
    split <;> omega

/-- C99: reading a file list counts right: with the `u32` of the code the result, the panics and the line numbers are those of
`File.parse`. -/
theorem c99_file (s : Str) (h : s.count '\n' + 4 ≤ 2 ^ 32) : File.parse32 s = File.parse s :=
  File.loop32_eq (lines s) .none _ 0 (by rw [lines_length]; omega)

/-- C99: the same for the resource file. -/
theorem c99_resource (s : Str) (h : s.count '\n' + 4 ≤ 2 ^ 32) : Resource.parse32 s = Resource.parse s :=
  Resource.loop32_eq (lines s) .none _ 0 (by rw [lines_length]; omega)

/-- C99: the same for the library file. -/
theorem c99_library (s : Str) (h : s.count '\n' + 4 ≤ 2 ^ 32) : Library.parse32 s = Library.parse s := by
  unfold Library.parse32 Library.parse
  rw [show Library.loop32 (lines s) {} 0 = _ from Library.loop32_eq (lines s) {} 0 (by rw [lines_length]; omega)]

/-- C99: the same for the view file, where the end of the text is counted twice at most. -/
theorem c99_view [Floats] [MapPol] (s : Str) (h : s.count '\n' + 4 ≤ 2 ^ 32) : View.parse32 s = View.parse s := by
  rw [← c66_view]
  exact View.loop32_eq (s.count '\n' + 1) (by omega) ((lines s).length + 1) (.new (lines s)) [] []
    (.inl (by show 0 + (lines s).length ≤ _; rw [lines_length]; omega))

/-- C99: the same for the logic file, where the lines of each pool are counted by a `usize` and shown as a `u32`. -/
theorem c99_logic [Floats] [MapPol] (s : Str) (h : s.count '\n' + 4 ≤ 2 ^ 32) : Logic.parse32 s = Logic.parse s :=
  Logic.loop32_eq ((lines s).length + 1) (lines s) 0 [] (by rw [lines_length]; omega)

/-- C99: giving ids to blocks: with the `u32` of the code the container is that of `toContainer`, if there are less than 2³² − 10 blocks,
counting each boolean literal. -/
theorem c99_blocks [Floats] (bs : List Api.Block) (h : Api.blocksSize bs + 10 < 2 ^ 32) : Api.toContainer32 bs = Api.toContainer bs := by
  unfold Api.toContainer32 Api.toContainer
  rw [show (decr 10 : Out Empty UInt32) = .ok (UInt32.ofNat 9) from decr_eq (by omega), Out.ok_bind,
    Api.convertBlocks32_eq bs 9 (by omega)]
  cases Api.convertBlocks bs 9 <;> rfl
end

/-! ### The limits are real -/

/-- The counter at its last value panics with overflow checks. -/
theorem incr_last {ε : Type} : (@incr ⟨true⟩ ε (UInt32.ofNat 4294967295)) = .panic := rfl

/-- C99: with overflow checks a file list of 2³² empty lines or more panics. -/
theorem c99_file_limit (k : Nat) (h : 2 ^ 32 ≤ k + 1) : @File.parse32 ⟨true⟩ (List.replicate k '\n') = .panic := by
  let _ : Overflow := ⟨true⟩
  have hl : ∀ k, lines (List.replicate k '\n') = List.replicate (k + 1) [] := by
    intro k
    induction k with
    | zero => rfl
    | succ k ih =>
      rw [List.replicate_succ, List.replicate_succ, ← ih]
      exact splitOn_append_sep (c := '\n') (a := []) (b := List.replicate k '\n') (by simp)
  have hp : ∀ (k n : Nat) (f : File), n < 4294967296 → 4294967296 ≤ n + k → File.loop32 (List.replicate k []) .none f (UInt32.ofNat n) = .panic := by
    intro k
    induction k with
    | zero => intro n f h1 h2; omega
    | succ k ih =>
      intro n f h1 h2
      rw [List.replicate_succ]
      show (incr (UInt32.ofNat n) >>= fun n => File.loop32 (List.replicate k []) .none f n) = .panic
      by_cases he : n = 4294967295
      · subst he
        rw [incr_last]
        rfl
      · rw [incr_eq (by omega)]
        exact ih (n + 1) f (by omega) (by omega)
  unfold File.parse32
  rw [hl]
  exact hp (k + 1) 0 _ (by omega) (by omega)

/-- A block without arguments and substacks. -/
def plainBlock [Floats] : Api.Block := .new .operator [] [] .regular

/-- C99: with overflow checks a container of more than 2³² − 10 blocks panics. -/
theorem c99_blocks_limit [Floats] (k : Nat) (h : 2 ^ 32 ≤ k + 9) : @Api.toContainer32 _ ⟨true⟩ (List.replicate k plainBlock) = .panic := by
  let _ : Overflow := ⟨true⟩
  have hp : ∀ (k n : Nat), n < 4294967296 → 4294967296 ≤ n + k →
      Api.convertBlocks32 (List.replicate k plainBlock) (UInt32.ofNat n) = .panic := by
    intro k
    induction k with
    | zero => intro n h1 h2; omega
    | succ k ih =>
      intro n h1 h2
      rw [List.replicate_succ, Api.convertBlocks32]
      by_cases he : n = 4294967295
      · subst he
        unfold plainBlock Api.Block.new Api.convertBlock32
        rw [incr_last]
        rfl
      · have hb : Api.convertBlock32 plainBlock (UInt32.ofNat n) (List.replicate k plainBlock).isEmpty = .panic ∨
            ∃ ps, Api.convertBlock32 plainBlock (UInt32.ofNat n) (List.replicate k plainBlock).isEmpty = .ok (ps, UInt32.ofNat (n + 1)) := by
          generalize (List.replicate k plainBlock).isEmpty = last
          unfold plainBlock Api.Block.new Api.convertBlock32
          rw [incr_eq (by omega), Out.ok_bind, Api.convertItems32, Out.ok_bind]
          cases last with
          | true => exact .inr ⟨_, rfl⟩
          | false =>
            show ((incr (UInt32.ofNat (n + 1)) >>= _) = _) ∨ ∃ ps, (incr (UInt32.ofNat (n + 1)) >>= _) = _
            by_cases h3 : n + 1 = 4294967295
            · rw [h3, incr_last]
              exact .inl rfl
            · rw [incr_eq (by omega)]
              exact .inr ⟨_, rfl⟩
        rcases hb with hb | ⟨ps, hb⟩
        · rw [hb]; rfl
        · rw [hb, Out.ok_bind]
          show (Api.convertBlocks32 (List.replicate k plainBlock) (UInt32.ofNat (n + 1)) >>= _) = _
          rw [ih (n + 1) (by omega) (by omega)]
          rfl
  unfold Api.toContainer32
  rw [show (decr 10 : Out Empty UInt32) = .ok (UInt32.ofNat 9) from decr_eq (by omega), Out.ok_bind, hp k 9 (by omega) (by omega)]
  rfl

/-! ### Examples -/

-- an error on the second line, with and without overflow checks
example [Overflow] : File.parse32 (s% "@activity\nbad") = .err (.item 1 (s% "bad")) := (c99_file _ (by decide)).trans rfl
example : (s% "@activity\nbad").count '\n' + 4 ≤ 2 ^ 32 := by decide
-- the counting iterator wraps around without overflow checks
example : @incr ⟨false⟩ Empty 4294967295 = .ok 0 := rfl
-- five blocks
example [Floats] [Overflow] : ∃ c, Api.toContainer32 (List.replicate 5 plainBlock) = .ok c ∧
    c.blocks.map (·.id) = [natStr 10 10, natStr 10 11, natStr 10 12, natStr 10 13, natStr 10 14] := by
  rw [c99_blocks _ (by show 5 + 10 < _; decide)]
  exact ⟨_, rfl, rfl⟩
end Swrs
