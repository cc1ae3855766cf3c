import Verif.Json.Grammar
import Verif.Model.Sketch
import Verif.Proofs.Library
/-!
# Windows line ends and byte order marks
-/
namespace Swrs

/-- The text with a carriage return before every line break. -/
def c114_crlf (s : Str) : Str := s.flatMap fun c => if c = '\n' then ['\r', '\n'] else [c]

theorem crlf_cons (c : Char) (s : Str) : c114_crlf (c :: s) = (if c = '\n' then ['\r', '\n'] else [c]) ++ c114_crlf s := rfl

theorem crlf_append (s t : Str) : c114_crlf (s ++ t) = c114_crlf s ++ c114_crlf t := by simp [c114_crlf]

theorem crlf_of_not_mem {s : Str} (h : '\n' ∉ s) : c114_crlf s = s := by
  induction s with
  | nil => rfl
  | cons c s ih =>
    simp only [List.mem_cons, not_or] at h
    rw [crlf_cons, if_neg (fun hc => h.1 hc.symm), ih h.2]; rfl

/-- Every line but the last gets a carriage return. -/
theorem lines_crlf (s : Str) : ∃ ls x, lines s = ls ++ [x] ∧ lines (c114_crlf s) = ls.map (· ++ ['\r']) ++ [x] := by
  induction s with
  | nil => exact ⟨[], [], rfl, rfl⟩
  | cons c s ih =>
    obtain ⟨ls, x, h1, h2⟩ := ih
    by_cases hc : c = '\n'
    · subst hc
      refine ⟨[] :: ls, x, ?_, ?_⟩
      · show splitOn _ _ = _
        simp only [splitOn, if_true]
        rw [show splitOn '\n' s = lines s from rfl, h1]; rfl
      · rw [crlf_cons, if_pos rfl]
        show splitOn _ _ = _
        simp only [List.cons_append, List.nil_append, splitOn, if_true]
        rw [if_neg (by decide), show splitOn '\n' (c114_crlf s) = lines (c114_crlf s) from rfl, h2]
        rfl
    · have e : ∀ t : Str, lines (c :: t) = match lines t with | [] => [[c]] | p :: ps => (c :: p) :: ps := by
        intro t
        show splitOn _ _ = _
        simp only [splitOn, if_neg hc]
        rfl
      rw [crlf_cons, if_neg hc, List.cons_append, List.nil_append, e, e, h1, h2]
      cases ls with
      | nil => exact ⟨[], c :: x, rfl, rfl⟩
      | cons l ls => exact ⟨(c :: l) :: ls, x, rfl, rfl⟩

/-! ## Lists -/

theorem cr_ne {l h : Str} (hh : h.getLast? ≠ some '\r') : l ++ ['\r'] ≠ h := by
  rintro rfl; simp at hh

/-! ## Views -/

theorem View.loop_crlf [Floats] [MapPol] (x : Str) (total : Nat) : ∀ (ls : List Str) (fuel n : Nat) (v : View),
    View.loop total fuel (ls.map (· ++ ['\r']) ++ [x]) n [] [] = .ok v →
    v.fabs = [] ∧ (v.layouts = [] ∨ ∃ k, x = '@' :: (k ++ s% ".xml") ∧ v.layouts = [(k, ⟨[]⟩)])
  | ls, 0, n, v, h => by
    obtain rfl := Out.ok.inj h
    exact ⟨rfl, .inl rfl⟩
  | [], fuel + 1, n, v, h => by
    simp only [List.map_nil, List.nil_append, View.loop] at h
    split at h
    · rename_i hat
      split at h
      · exact absurd h (by simp)
      · rename_i sc co hs
        obtain ⟨r, hr⟩ := startsWith_iff.mp hat
        split at h
        · rename_i hc
          have e : Layout.parseIter ([] : List Str) = .ok (⟨[]⟩, []) := rfl
          rw [e] at h
          have h' : View.loop total fuel [] (total - 0) [(sc, ⟨[]⟩)] [] = .ok v := h
          have h'' : v = ⟨[(sc, ⟨[]⟩)], []⟩ := by
            cases fuel <;> exact (Out.ok.inj h').symm
          subst h''
          refine ⟨rfl, .inr ⟨sc, ?_, rfl⟩⟩
          rw [hr] at hs ⊢
          have := (splitOnce_eq_some.mp hs).1
          simp only [List.cons_append, List.nil_append, List.drop_succ_cons, List.drop_zero] at this
          rw [this, hc]
          rfl
        · split at h
          · exact absurd h (by simp)
          · have : v = ⟨[], []⟩ := by cases fuel <;> exact (Out.ok.inj h).symm
            subst this
            exact ⟨rfl, .inl rfl⟩
    · obtain rfl := Out.ok.inj h
      exact ⟨rfl, .inl rfl⟩
  | l :: ls, fuel + 1, n, v, h => by
    simp only [List.map_cons, List.cons_append, View.loop] at h
    split at h
    · rename_i hat
      split at h
      · exact absurd h (by simp)
      · rename_i sc co hs
        have hco : co.getLast? = some '\r' := by
          obtain ⟨r, hr⟩ := startsWith_iff.mp hat
          rw [hr] at hs
          have h1 := (splitOnce_eq_some.mp hs).1
          simp only [List.cons_append, List.nil_append, List.drop_succ_cons, List.drop_zero] at h1
          have h2 : ('@' :: r).getLast? = some '\r' := by
            rw [show '@' :: r = ['@'] ++ r from rfl, ← hr]; simp
          rw [h1] at h2
          cases co with
          | nil => simp [List.getLast?_cons] at h2
          | cons c co =>
            rw [show '@' :: (sc ++ '.' :: c :: co) = ('@' :: (sc ++ ['.'])) ++ c :: co by simp, List.getLast?_append] at h2
            simpa [List.getLast?_cons] using h2
        rw [if_neg (by rintro rfl; revert hco; decide), if_neg (by rintro rfl; revert hco; decide)] at h
        exact View.loop_crlf x total ls fuel (n + 1) v h
    · obtain rfl := Out.ok.inj h
      exact ⟨rfl, .inl rfl⟩

/-! ## Logics -/

theorem readPool_crlf {ε ε' α : Type} (p : Str → Out ε α) (mk : Nat → Str → ε → ε') (x : Str) : ∀ (ls : List Str) (n : Nat) (acc : List α)
    (as : List α) (rest : List Str), readPool p mk (ls.map (· ++ ['\r']) ++ [x]) n acc = .ok (as, rest) → rest = []
  | [], n, acc, as, rest, h => by
    simp only [List.map_nil, List.nil_append, readPool] at h
    split at h
    · exact (congrArg Prod.snd (Out.ok.inj h)).symm
    · split at h
      · exact (congrArg Prod.snd (Out.ok.inj h)).symm
      · exact absurd h (by simp)
      · exact absurd h (by simp)
  | l :: ls, n, acc, as, rest, h => by
    simp only [List.map_cons, List.cons_append, readPool] at h
    rw [if_neg (by simp)] at h
    split at h
    · exact readPool_crlf p mk x ls _ _ as rest h
    · exact absurd h (by simp)
    · exact absurd h (by simp)

theorem endsWith_cr {p l : Str} (hp : p ≠ []) (h : p.getLast? ≠ some '\r') : endsWith p (l ++ ['\r']) = false := by
  rw [Bool.eq_false_iff]
  intro he
  obtain ⟨r, hr⟩ := endsWith_iff.mp he
  have := congrArg List.getLast? hr
  rw [List.getLast?_append, List.getLast?_append] at this
  cases hg : p.getLast? with
  | none => exact hp (List.getLast?_eq_none_iff.mp hg)
  | some c =>
    rw [hg] at this h
    exact h (by simpa using this.symm)

/-! ## Project -/

open Json in
theorem crlf_space {w : Str} (h : Space w) : Space (c114_crlf w) := by
  intro c hc
  simp only [c114_crlf, List.mem_flatMap] at hc
  obtain ⟨d, hd, hc⟩ := hc
  split at hc
  · simp only [List.mem_cons, List.not_mem_nil, or_false] at hc
    rcases hc with rfl | rfl <;> simp
  · simp only [List.mem_singleton] at hc
    subst hc
    exact h c hd

open Json in
theorem hex4_nl {x : Str} {n : Nat} (h : Hex4 x n) : '\n' ∉ x := by
  obtain ⟨a, b, c, d, _, _, _, _, rfl, h1, h2, h3, h4, _⟩ := h
  intro hm
  simp only [List.mem_cons, List.not_mem_nil, or_false] at hm
  rcases hm with rfl | rfl | rfl | rfl
  · exact absurd h1 (by rw [show digitVal 16 '\n' = none from by decide]; nofun)
  · exact absurd h2 (by rw [show digitVal 16 '\n' = none from by decide]; nofun)
  · exact absurd h3 (by rw [show digitVal 16 '\n' = none from by decide]; nofun)
  · exact absurd h4 (by rw [show digitVal 16 '\n' = none from by decide]; nofun)

open Json in
theorem lit_nl {v : Option Str} {t : Str} (h : Lit v t) : '\n' ∉ t := by
  induction h with
  | close => decide
  | raw h1 h2 h3 _ ih =>
    rw [List.mem_cons, not_or]
    exact ⟨by rintro rfl; exact absurd h3 (by decide), ih⟩
  | @esc e c s t h1 _ ih =>
    rw [List.mem_cons, List.mem_cons, not_or, not_or]
    refine ⟨by decide, ?_, ih⟩
    rintro rfl
    revert h1
    simp [escapes]
  | uni h1 _ _ ih =>
    simp only [List.mem_cons, List.mem_append, not_or]
    exact ⟨by decide, by decide, hex4_nl h1, ih⟩
  | pair h1 _ h3 _ _ ih =>
    simp only [List.mem_cons, List.mem_append, not_or]
    exact ⟨by decide, by decide, hex4_nl h1, by decide, by decide, hex4_nl h3, ih⟩
  | lone h1 _ _ _ ih =>
    simp only [List.mem_cons, List.mem_append, not_or]
    exact ⟨by decide, by decide, hex4_nl h1, ih⟩

open Json in
theorem digs_nl {d : Str} (h : Digs d) : '\n' ∉ d := fun hm => absurd (h.2 _ hm) (by decide)

open Json in
theorem unumber_nl {t : Str} (h : UNumber t) : '\n' ∉ t := by
  obtain ⟨i, f, e, rfl, hi, hf, he⟩ := h
  simp only [List.mem_append, not_or]
  refine ⟨?_, ?_, ?_⟩
  · rcases hi with rfl | hi
    · decide
    · exact digs_nl hi.1
  · rcases hf with rfl | ⟨d, hd, rfl⟩
    · simp
    · rw [List.mem_cons, not_or]; exact ⟨by decide, digs_nl hd⟩
  · rcases he with rfl | ⟨x, d, hx, hd, rfl | rfl | rfl⟩
    · simp
    all_goals
      simp only [List.mem_cons, not_or]
      have := digs_nl hd
      rcases hx with rfl | rfl <;> exact (by simp [this])

open Json in
theorem number_nl {t : Str} (h : Number t) : '\n' ∉ t := by
  rcases h with h | ⟨u, h, rfl⟩
  · exact unumber_nl h
  · rw [List.mem_cons, not_or]; exact ⟨by decide, unumber_nl h⟩

theorem crlf_cons_ne {c : Char} (h : c ≠ '\n') (s : Str) : c114_crlf (c :: s) = c :: c114_crlf s := by
  rw [crlf_cons, if_neg h]; rfl

open Json in
mutual
theorem val_crlf : ∀ {j : Json} {t : Str}, Val j t → Val j (c114_crlf t)
  | _, _, .null => by exact .null
  | _, _, .tt => by exact .tt
  | _, _, .ff => by exact .ff
  | _, _, .num h => by rw [crlf_of_not_mem (number_nl h)]; exact .num h
  | _, _, .str h => by rw [crlf_cons_ne (by decide), crlf_of_not_mem (lit_nl h)]; exact .str h
  | _, _, .badStr h => by rw [crlf_cons_ne (by decide), crlf_of_not_mem (lit_nl h)]; exact .badStr h
  | _, _, .arr0 h => by rw [crlf_cons_ne (by decide), crlf_append]; exact .arr0 (crlf_space h)
  | _, _, .arr h => by rw [crlf_cons_ne (by decide)]; exact .arr (elems_crlf h)
  | _, _, .obj0 h => by rw [crlf_cons_ne (by decide), crlf_append]; exact .obj0 (crlf_space h)
  | _, _, .obj h => by rw [crlf_cons_ne (by decide)]; exact .obj (members_crlf h)
  | _, _, .badObj h hk => by rw [crlf_cons_ne (by decide)]; exact .badObj (members_crlf h) hk
theorem elems_crlf : ∀ {vs : List Json} {t : Str}, Elems vs t → Elems vs (c114_crlf t)
  | _, _, .one h hv h' => by
    rw [crlf_append, crlf_append, crlf_append]
    exact .one (crlf_space h) (val_crlf hv) (crlf_space h')
  | _, _, .cons h hv h' hs => by
    rw [crlf_append, crlf_append, crlf_append, crlf_cons_ne (by decide)]
    exact .cons (crlf_space h) (val_crlf hv) (crlf_space h') (elems_crlf hs)
theorem members_crlf : ∀ {ms : List (Option Str × Json)} {t : Str}, Members ms t → Members ms (c114_crlf t)
  | _, _, .one h hk h1 h2 hv h3 => by
    rw [crlf_append, crlf_cons_ne (by decide), crlf_append, crlf_append, crlf_cons_ne (by decide), crlf_append, crlf_append, crlf_append,
      crlf_of_not_mem (lit_nl hk)]
    exact .one (crlf_space h) hk (crlf_space h1) (crlf_space h2) (val_crlf hv) (crlf_space h3)
  | _, _, .cons h hk h1 h2 hv h3 hs => by
    rw [crlf_append, crlf_cons_ne (by decide), crlf_append, crlf_append, crlf_cons_ne (by decide), crlf_append, crlf_append, crlf_append,
      crlf_cons_ne (by decide), crlf_of_not_mem (lit_nl hk)]
    exact .cons (crlf_space h) hk (crlf_space h1) (crlf_space h2) (val_crlf hv) (crlf_space h3) (members_crlf hs)
end

open Json in
theorem isText_crlf {j : Json} {s : Str} (h : IsText j s) : IsText j (c114_crlf s) := by
  obtain ⟨w, t, w', rfl, h1, h2, h3⟩ := h
  exact ⟨c114_crlf w, c114_crlf t, c114_crlf w', by rw [crlf_append, crlf_append], crlf_space h1, val_crlf h2, crlf_space h3⟩

/-! ## Byte order marks -/

theorem File.loop_count (ls : List Str) : ∀ (sec : FileSection) (f : File) (n m : Nat) (g : File),
    File.loop ls sec f n = .ok g → File.loop ls sec f m = .ok g := by
  induction ls with
  | nil => intro sec f n m g h; exact h
  | cons l ls ih =>
    intro sec f n m g h
    simp only [File.loop] at h ⊢
    split at h
    · rw [if_pos ‹_›]; exact ih _ _ _ _ _ h
    rw [if_neg ‹_›]
    split at h
    · rw [if_pos ‹_›]; exact ih _ _ _ _ _ h
    rw [if_neg ‹_›]
    split at h
    · rw [if_pos ‹_›]
      split at h
      · rw [if_pos ‹_›]; exact h
      rw [if_neg ‹_›]
      split at h
      · exact absurd h (by simp)
      · rename_i i hi
        exact ih _ _ _ _ _ h
    · rw [if_neg ‹_›]; exact ih _ _ _ _ _ h

theorem Resource.loop_count (ls : List Str) : ∀ (sec : ResourceSection) (f : Resource) (n m : Nat) (g : Resource),
    Resource.loop ls sec f n = .ok g → Resource.loop ls sec f m = .ok g := by
  induction ls with
  | nil => intro sec f n m g h; exact h
  | cons l ls ih =>
    intro sec f n m g h
    simp only [Resource.loop] at h ⊢
    split at h
    · rw [if_pos ‹_›]; exact ih _ _ _ _ _ h
    rw [if_neg ‹_›]
    split at h
    · rw [if_pos ‹_›]; exact ih _ _ _ _ _ h
    rw [if_neg ‹_›]
    split at h
    · rw [if_pos ‹_›]; exact ih _ _ _ _ _ h
    rw [if_neg ‹_›]
    split at h
    · rw [if_pos ‹_›]
      split at h
      · rw [if_pos ‹_›]; exact h
      rw [if_neg ‹_›]
      split at h
      · exact absurd h (by simp)
      · rename_i i hi
        exact ih _ _ _ _ _ h
    · rw [if_neg ‹_›]; exact ih _ _ _ _ _ h

/-- U+FEFF, which some editors put before a text. -/
def c114_bom : Char := Char.ofNat 0xFEFF

theorem bom_ne {l h : Str} (hh : h.head? ≠ some c114_bom) : c114_bom :: l ≠ h := by
  rintro rfl; simp at hh

theorem lines_bom {l s : Str} (hl : '\n' ∉ l) : lines (c114_bom :: (l ++ '\n' :: s)) = (c114_bom :: l) :: lines s := by
  have := splitOn_append_sep (c := '\n') (a := c114_bom :: l) (b := s) (by
    rw [List.mem_cons, not_or]; exact ⟨by decide, hl⟩)
  exact this

end Swrs
