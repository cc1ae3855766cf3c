import Verif.Proofs.Date
import Verif.Base.NumSpec
import Mathlib.Data.List.Forall2
/-!
# C83: what is read from the text of a date
-/
namespace Swrs
namespace Date

/-- Specification: the texts of two bytes that are numbers: two digits, or a plus sign and a digit. -/
def TwoBytes (t : Str) (n : Int) : Prop := ∃ d, Digits d ∧ n = decimal d ∧ (d.length = 2 ∧ t = d ∨ d.length = 1 ∧ t = '+' :: d)

/-- Specification: the texts of four bytes that are numbers: four digits, or a sign and three digits. -/
def FourBytes (t : Str) (n : Int) : Prop := ∃ d, Digits d ∧
  (d.length = 4 ∧ t = d ∧ n = decimal d ∨ d.length = 3 ∧ t = '+' :: d ∧ n = decimal d ∨ d.length = 3 ∧ t = '-' :: d ∧ n = -decimal d)

/-- Specification: the parts of the text of a date: their length in bytes and which texts are numbers there (the year, then month, day,
hour, minute and second). -/
def parts : List (Nat × (Str → Int → Prop)) :=
  [(4, FourBytes), (2, TwoBytes), (2, TwoBytes), (2, TwoBytes), (2, TwoBytes), (2, TwoBytes)]

/-- Specification: `v` begins with the given parts, whose numbers are `ns`, and `r` follows. -/
def Begins : List (Nat × (Str → Int → Prop)) → Str → List Int → Str → Prop
  | [], v, ns, r => ns = [] ∧ v = r
  | p :: ps, v, ns, r => ∃ t u n ns', v = t ++ u ∧ byteLen t = p.1 ∧ p.2 t n ∧ ns = n :: ns' ∧ Begins ps u ns' r

/-! ### proofs -/

theorem byteLen_isDigit {d : Str} (h : ∀ c ∈ d, isDigit c = true) : byteLen d = d.length := by
  induction d with
  | nil => rfl
  | cons c d ih =>
    have hc := h c (by simp)
    have : c.utf8Size = 1 := by
      unfold isDigit at hc
      simp only [Bool.and_eq_true, decide_eq_true_eq] at hc
      exact Char.utf8Size_eq_one_iff.mpr (by
        rw [UInt32.le_iff_toNat_le]
        have : c.val.toNat = c.toNat := rfl
        simp only [this]; simp; omega)
    simp [this, ih fun c hc => h c (by simp [hc])]; omega

theorem decimal_lt {d : Str} (h : ∀ c ∈ d, isDigit c = true) : decimal d < 10 ^ d.length := by
  have : digitsVal 10 d 0 = some (decimal d) := digitsVal_ten.mpr ⟨h, rfl⟩
  have := digitsVal_lt this
  simpa using this

theorem twoBytes_iff {t : Str} {n : Int} (ht : byteLen t = 2) :
    ((parseUnsigned 10 4294967295 t).map Int.ofNat = some n) ↔ TwoBytes t n := by
  rw [Option.map_eq_some_iff]
  constructor
  · rintro ⟨m, h, rfl⟩
    obtain ⟨h1, d, hd, rfl, h2⟩ := parseUnsigned_iff.mp h
    have hl := byteLen_isDigit hd.2
    refine ⟨d, hd, rfl, ?_⟩
    rcases h2 with rfl | rfl
    · exact .inl ⟨by omega, rfl⟩
    · refine .inr ⟨?_, rfl⟩
      simp only [byteLen_cons, hl, show Char.utf8Size '+' = 1 from by decide] at ht
      omega
  · rintro ⟨d, hd, rfl, h⟩
    refine ⟨decimal d, parseUnsigned_iff.mpr ⟨?_, d, hd, rfl, ?_⟩, rfl⟩
    · have := decimal_lt hd.2
      rcases h with ⟨h, _⟩ | ⟨h, _⟩ <;> rw [h] at this <;> omega
    · rcases h with ⟨_, h⟩ | ⟨_, h⟩
      · exact .inl h
      · exact .inr h

theorem fourBytes_iff {t : Str} {n : Int} (ht : byteLen t = 4) :
    parseSigned (-2147483648) 2147483647 t = some n ↔ FourBytes t n := by
  unfold parseSigned
  constructor
  · intro h
    split at h
    next => simp at h
    next hne =>
      split at h
      next => simp at h
      next m hm =>
        have h : (if (signSplit t).1 then -(m : Int) else (m : Int)) = n := by
          simp only [Option.ite_none_right_eq_some, Option.some.injEq] at h
          exact h.2
        obtain ⟨hdig, hm⟩ := digitsVal_ten.mp hm
        have hl := byteLen_isDigit hdig
        have hcase : (∃ r, t = '+' :: r) ∨ (∃ r, t = '-' :: r) ∨ signSplit t = (false, t) := by
          unfold signSplit; split
          · exact .inl ⟨_, rfl⟩
          · exact .inr (.inl ⟨_, rfl⟩)
          · exact .inr (.inr rfl)
        rcases hcase with ⟨r, rfl⟩ | ⟨r, rfl⟩ | e
        · simp only [signSplit, byteLen_cons, show Char.utf8Size '+' = 1 from by decide] at ht hl h hne hdig hm
          exact ⟨r, ⟨hne, hdig⟩, .inr (.inl ⟨by omega, rfl, by rw [decimal, hm]; simpa using h.symm⟩)⟩
        · simp only [signSplit, byteLen_cons, show Char.utf8Size '-' = 1 from by decide] at ht hl h hne hdig hm
          exact ⟨r, ⟨hne, hdig⟩, .inr (.inr ⟨by omega, rfl, by rw [decimal, hm]; simpa using h.symm⟩)⟩
        · simp only [e] at hl h hne hdig hm
          exact ⟨t, ⟨hne, hdig⟩, .inl ⟨by omega, rfl, by rw [decimal, hm]; simpa using h.symm⟩⟩
  · rintro ⟨d, hd, h⟩
    have hlt := decimal_lt hd.2
    have hv : digitsVal 10 d 0 = some (decimal d) := digitsVal_ten.mpr ⟨hd.2, rfl⟩
    rcases h with ⟨hl, rfl, rfl⟩ | ⟨hl, rfl, rfl⟩ | ⟨hl, rfl, rfl⟩
    · have e : signSplit t = (false, t) := by
        unfold signSplit
        split
        next r => exact absurd (hd.2 '+' (by simp)) (by decide)
        next r => exact absurd (hd.2 '-' (by simp)) (by decide)
        next => rfl
      rw [hl] at hlt
      simp only [e, hd.1, if_false, hv, Bool.false_eq_true]
      rw [if_pos (by omega)]
    · rw [hl] at hlt
      simp only [signSplit, hd.1, if_false, hv, Bool.false_eq_true]
      rw [if_pos (by omega)]
    · rw [hl] at hlt
      simp only [signSplit, hd.1, if_false, hv, if_true]
      rw [if_pos (by omega)]

/-- Reading parts one after the other. -/
def readParts : List (Nat × (Str → Option Int)) → Str → Out Unit (List Int)
  | [], _ => .ok []
  | p :: ps, v => do
    let t ← Out.unwrap (sliceTo v p.1)
    let n ← Out.ofOption () (p.2 t)
    let ns ← readParts ps (v.drop t.length)
    pure (n :: ns)

/-- The readers of the parts. -/
def readers : List (Nat × (Str → Option Int)) :=
  let two : Nat × (Str → Option Int) := (2, fun t => (parseUnsigned 10 4294967295 t).map Int.ofNat)
  [(4, parseSigned (-2147483648) 2147483647), two, two, two, two, two]

/-- The date with the given numbers. -/
def finish : List Int → Out Unit UInt64
  | [y, m, d, hh, mm, ss] =>
    if validDate y m.toNat d.toNat && validTime hh.toNat mm.toNat ss.toNat then
      .ok (Int64.ofInt (timestamp ⟨y, m.toNat, d.toNat, hh.toNat, mm.toNat, ss.toNat⟩)).toUInt64
    else .panic
  | _ => .err ()

theorem slice_at {p r : Str} {a b w : Nat} (ha : byteLen p = a) (hb : b = a + w) : slice (p ++ r) a b = sliceTo r w := by
  cases h : sliceTo r w with
  | some t =>
    obtain ⟨u, rfl, hl⟩ := sliceTo_eq_some.mp h
    subst ha hb hl
    rw [← List.append_assoc]
    exact slice_append p t u
  | none =>
    cases h' : slice (p ++ r) a b with
    | none => rfl
    | some t =>
      exfalso
      obtain ⟨p', r', he, h1, h2⟩ := slice_some h'
      rw [List.append_assoc] at he
      have hp : p = p' := by
        have e1 : sliceTo (p ++ r) a = some p := sliceTo_eq_some.mpr ⟨r, rfl, ha⟩
        have e2 : sliceTo (p ++ r) a = some p' := sliceTo_eq_some.mpr ⟨_, he, h1⟩
        exact Option.some.inj (e1.symm.trans e2)
      subst hp
      have hr := List.append_cancel_left he
      have : sliceTo r w = some t := sliceTo_eq_some.mpr ⟨r', hr, by omega⟩
      rw [h] at this; simp at this

theorem deserialize_eq (v : Str) : deserialize v = (do let ns ← readParts readers v; finish ns) := by
  have cut : ∀ {r t : Str} {w : Nat}, sliceTo r w = some t → r = t ++ r.drop t.length ∧ byteLen t = w := by
    intro r t w h
    obtain ⟨u, rfl, hl⟩ := sliceTo_eq_some.mp h
    simp [hl]
  unfold deserialize readers
  have s0 : slice v 0 4 = sliceTo v 4 := slice_at (p := []) rfl rfl
  rw [s0]
  simp only [readParts]
  cases h0 : sliceTo v 4 with
  | none => rfl
  | some t0 =>
  obtain ⟨e0, l0⟩ := cut h0
  generalize v.drop t0.length = v1 at e0
  subst e0
  simp only [Out.unwrap_some, Out.ok_bind, List.drop_left]
  cases parseSigned (-2147483648) 2147483647 t0 with
  | none => rfl
  | some y =>
  simp only [Out.ofOption_some, Out.ok_bind]
  have s1 : slice (t0 ++ v1) 4 6 = sliceTo v1 2 := slice_at l0 rfl
  rw [s1]
  cases h1 : sliceTo v1 2 with
  | none => rfl
  | some t1 =>
  obtain ⟨e1, l1⟩ := cut h1
  generalize v1.drop t1.length = v2 at e1
  subst e1
  simp only [Out.unwrap_some, Out.ok_bind, List.drop_left]
  cases parseUnsigned 10 4294967295 t1 with
  | none => rfl
  | some mo =>
  simp only [Out.ofOption_some, Out.ok_bind, Option.map_some]
  have s2 : slice (t0 ++ (t1 ++ v2)) 6 8 = sliceTo v2 2 := by
    rw [← List.append_assoc]; exact slice_at (by simp [l0, l1]) rfl
  rw [s2]
  cases h2 : sliceTo v2 2 with
  | none => rfl
  | some t2 =>
  obtain ⟨e2, l2⟩ := cut h2
  generalize v2.drop t2.length = v3 at e2
  subst e2
  simp only [Out.unwrap_some, Out.ok_bind, List.drop_left]
  cases parseUnsigned 10 4294967295 t2 with
  | none => rfl
  | some d =>
  simp only [Out.ofOption_some, Out.ok_bind, Option.map_some]
  have s3 : slice (t0 ++ (t1 ++ (t2 ++ v3))) 8 10 = sliceTo v3 2 := by
    rw [← List.append_assoc, ← List.append_assoc]; exact slice_at (by simp [l0, l1, l2]) rfl
  rw [s3]
  cases h3 : sliceTo v3 2 with
  | none => rfl
  | some t3 =>
  obtain ⟨e3, l3⟩ := cut h3
  generalize v3.drop t3.length = v4 at e3
  subst e3
  simp only [Out.unwrap_some, Out.ok_bind, List.drop_left]
  cases parseUnsigned 10 4294967295 t3 with
  | none => rfl
  | some hh =>
  simp only [Out.ofOption_some, Out.ok_bind, Option.map_some]
  have s4 : slice (t0 ++ (t1 ++ (t2 ++ (t3 ++ v4)))) 10 12 = sliceTo v4 2 := by
    rw [← List.append_assoc, ← List.append_assoc, ← List.append_assoc]; exact slice_at (by simp [l0, l1, l2, l3]) rfl
  rw [s4]
  cases h4 : sliceTo v4 2 with
  | none => rfl
  | some t4 =>
  obtain ⟨e4, l4⟩ := cut h4
  generalize v4.drop t4.length = v5 at e4
  subst e4
  simp only [Out.unwrap_some, Out.ok_bind, List.drop_left]
  cases parseUnsigned 10 4294967295 t4 with
  | none => rfl
  | some mm =>
  simp only [Out.ofOption_some, Out.ok_bind, Option.map_some]
  have s5 : slice (t0 ++ (t1 ++ (t2 ++ (t3 ++ (t4 ++ v5))))) 12 14 = sliceTo v5 2 := by
    rw [← List.append_assoc, ← List.append_assoc, ← List.append_assoc, ← List.append_assoc]
    exact slice_at (by simp [l0, l1, l2, l3, l4]) rfl
  rw [s5]
  cases h5 : sliceTo v5 2 with
  | none => rfl
  | some t5 =>
  simp only [Out.unwrap_some, Out.ok_bind]
  cases parseUnsigned 10 4294967295 t5 with
  | none => rfl
  | some ss => rfl

/-- A reader of a part and its specification. -/
def Agree (p : Nat × (Str → Option Int)) (q : Nat × (Str → Int → Prop)) : Prop :=
  p.1 = q.1 ∧ ∀ t n, byteLen t = p.1 → (p.2 t = some n ↔ q.2 t n)

theorem agree_parts : List.Forall₂ Agree readers parts := by
  have two : Agree (2, fun t => (parseUnsigned 10 4294967295 t).map Int.ofNat) (2, TwoBytes) :=
    ⟨rfl, fun t n h => twoBytes_iff h⟩
  exact .cons ⟨rfl, fun t n h => fourBytes_iff h⟩ (.cons two (.cons two (.cons two (.cons two (.cons two .nil)))))

theorem readParts_ok {ps : List (Nat × (Str → Option Int))} {qs : List (Nat × (Str → Int → Prop))} (h : List.Forall₂ Agree ps qs)
    (v : Str) (ns : List Int) : readParts ps v = .ok ns ↔ ∃ r, Begins qs v ns r := by
  induction h generalizing v ns with
  | nil => simp [readParts, Begins, eq_comm]
  | @cons p q ps qs hp _ ih =>
    obtain ⟨hw, hp⟩ := hp
    rw [readParts]
    simp only [Begins]
    constructor
    · intro h
      cases hs : sliceTo v p.1 with
      | none => rw [hs] at h; simp at h
      | some t =>
        obtain ⟨u, rfl, hl⟩ := sliceTo_eq_some.mp hs
        rw [hs] at h
        simp only [Out.unwrap_some, Out.ok_bind, Out.bind_eq_ok, Out.ofOption_eq_ok, List.drop_left] at h
        obtain ⟨n, hn, ns', hr, he⟩ := h
        obtain ⟨r, hb⟩ := (ih _ _).mp hr
        simp at he
        exact ⟨r, t, u, n, ns', rfl, by rw [hl, hw], (hp t n hl).mp hn, he.symm, hb⟩
    · rintro ⟨r, t, u, n, ns', rfl, hl, hn, rfl, hb⟩
      have hs : sliceTo (t ++ u) p.1 = some t := sliceTo_eq_some.mpr ⟨u, rfl, by rw [hl, hw]⟩
      have hr := (ih u ns').mpr ⟨r, hb⟩
      rw [hs]
      simp only [Out.unwrap_some, Out.ok_bind, (hp t n (by rw [hl, hw])).mpr hn, Out.ofOption_some, List.drop_left, hr]
      rfl

theorem readParts_err {ps : List (Nat × (Str → Option Int))} {qs : List (Nat × (Str → Int → Prop))} (h : List.Forall₂ Agree ps qs)
    (v : Str) : readParts ps v = .err () ↔ ∃ pre q post ns r t u, qs = pre ++ q :: post ∧ Begins pre v ns r ∧ r = t ++ u ∧
      byteLen t = q.1 ∧ ∀ n, ¬ q.2 t n := by
  induction h generalizing v with
  | nil => simp [readParts]
  | @cons p q ps qs hp _ ih =>
    obtain ⟨hw, hp⟩ := hp
    rw [readParts]
    constructor
    · intro h
      cases hs : sliceTo v p.1 with
      | none => rw [hs] at h; simp at h
      | some t =>
        obtain ⟨u, rfl, hl⟩ := sliceTo_eq_some.mp hs
        rw [hs] at h
        simp only [Out.unwrap_some, Out.ok_bind, List.drop_left] at h
        cases hn : p.2 t with
        | none =>
          refine ⟨[], q, qs, [], t ++ u, t, u, rfl, ⟨rfl, rfl⟩, rfl, by rw [hl, hw], ?_⟩
          intro n hq
          rw [(hp t n hl).mpr hq] at hn; simp at hn
        | some n =>
          rw [hn] at h
          simp only [Out.ofOption_some, Out.ok_bind, Out.bind_eq_err] at h
          rcases h with h | ⟨_, _, h⟩
          · obtain ⟨pre, q', post, ns, r, t', u', rfl, h1, h2, h3, h4⟩ := (ih u).mp h
            exact ⟨q :: pre, q', post, n :: ns, r, t', u', rfl, ⟨t, u, n, ns, rfl, by rw [hl, hw], (hp t n hl).mp hn, rfl, h1⟩, h2, h3, h4⟩
          · simp at h
    · rintro ⟨pre, q', post, ns, r, t', u', he, h1, h2, h3, h4⟩
      cases pre with
      | nil =>
        obtain ⟨rfl, rfl⟩ := h1
        simp only [List.nil_append, List.cons.injEq] at he
        obtain ⟨rfl, rfl⟩ := he
        subst h2
        rw [sliceTo_eq_some.mpr ⟨u', rfl, by rw [h3, hw]⟩]
        have hn : p.2 t' = none := by
          cases hn : p.2 t' with
          | none => rfl
          | some n => exact absurd ((hp t' n (by rw [h3, hw])).mp hn) (h4 n)
        simp [hn]
      | cons q0 pre =>
        simp only [List.cons_append, List.cons.injEq] at he
        obtain ⟨rfl, rfl⟩ := he
        obtain ⟨t, u, n, ns', rfl, hl, hn, rfl, hb⟩ := h1
        have hr := (ih u).mpr ⟨pre, q', post, ns', r, t', u', rfl, hb, h2, h3, h4⟩
        rw [sliceTo_eq_some.mpr ⟨u, rfl, by rw [hl, hw]⟩]
        simp [(hp t n (by rw [hl, hw])).mpr hn, hr]

theorem readParts_panic {ps : List (Nat × (Str → Option Int))} {qs : List (Nat × (Str → Int → Prop))} (h : List.Forall₂ Agree ps qs)
    (v : Str) : readParts ps v = .panic ↔ ∃ pre q post ns r, qs = pre ++ q :: post ∧ Begins pre v ns r ∧
      ∀ t u, r = t ++ u → byteLen t ≠ q.1 := by
  induction h generalizing v with
  | nil => simp [readParts]
  | @cons p q ps qs hp _ ih =>
    obtain ⟨hw, hp⟩ := hp
    rw [readParts]
    constructor
    · intro h
      cases hs : sliceTo v p.1 with
      | none =>
        refine ⟨[], q, qs, [], v, rfl, ⟨rfl, rfl⟩, ?_⟩
        intro t u he hl
        rw [sliceTo_eq_some.mpr ⟨u, he, by rw [hl, hw]⟩] at hs
        simp at hs
      | some t =>
        obtain ⟨u, rfl, hl⟩ := sliceTo_eq_some.mp hs
        rw [hs] at h
        simp only [Out.unwrap_some, Out.ok_bind, List.drop_left] at h
        cases hn : p.2 t with
        | none => rw [hn] at h; simp at h
        | some n =>
          rw [hn] at h
          simp only [Out.ofOption_some, Out.ok_bind, Out.bind_eq_panic] at h
          rcases h with h | ⟨_, _, h⟩
          · obtain ⟨pre, q', post, ns, r, rfl, h1, h2⟩ := (ih u).mp h
            exact ⟨q :: pre, q', post, n :: ns, r, rfl, ⟨t, u, n, ns, rfl, by rw [hl, hw], (hp t n hl).mp hn, rfl, h1⟩, h2⟩
          · simp at h
    · rintro ⟨pre, q', post, ns, r, he, h1, h2⟩
      cases pre with
      | nil =>
        obtain ⟨rfl, rfl⟩ := h1
        simp only [List.nil_append, List.cons.injEq] at he
        obtain ⟨rfl, rfl⟩ := he
        have hs : sliceTo v p.1 = none := by
          cases hs : sliceTo v p.1 with
          | none => rfl
          | some t =>
            obtain ⟨u, rfl, hl⟩ := sliceTo_eq_some.mp hs
            exact absurd (by rw [hl, hw]) (h2 t u rfl)
        rw [hs]; rfl
      | cons q0 pre =>
        simp only [List.cons_append, List.cons.injEq] at he
        obtain ⟨rfl, rfl⟩ := he
        obtain ⟨t, u, n, ns', rfl, hl, hn, rfl, hb⟩ := h1
        have hr := (ih u).mpr ⟨pre, q', post, ns', r, rfl, hb, h2⟩
        rw [sliceTo_eq_some.mpr ⟨u, rfl, by rw [hl, hw]⟩]
        simp [(hp t n (by rw [hl, hw])).mpr hn, hr]

theorem Begins.length {qs : List (Nat × (Str → Int → Prop))} {v r : Str} {ns : List Int} (h : Begins qs v ns r) : ns.length = qs.length := by
  induction qs generalizing v ns with
  | nil => simp [h.1]
  | cons q qs ih => obtain ⟨_, _, _, ns', _, _, _, rfl, h⟩ := h; simp [ih h]

end Date

open Date in
/-- C83: a date is read exactly from texts that begin with a year of four bytes and month, day, hour, minute and second of two bytes
each, which are a date and a time of day. What follows does not matter. -/
theorem c83_date_read (v : Str) (n : UInt64) : deserialize v = .ok n ↔
    ∃ y m d hh mm ss r, Begins parts v [y, m, d, hh, mm, ss] r ∧ (DateTime.mk y m.toNat d.toNat hh.toNat mm.toNat ss.toNat).Valid ∧
      n = (Int64.ofInt (timestamp ⟨y, m.toNat, d.toNat, hh.toNat, mm.toNat, ss.toNat⟩)).toUInt64 := by
  rw [deserialize_eq, Out.bind_eq_ok]
  constructor
  · rintro ⟨ns, h1, h2⟩
    obtain ⟨r, hb⟩ := (readParts_ok agree_parts v ns).mp h1
    match ns, hb.length with
    | [y, m, d, hh, mm, ss], _ =>
      simp only [finish] at h2
      split at h2
      next hv =>
        simp only [Bool.and_eq_true] at hv
        exact ⟨y, m, d, hh, mm, ss, r, hb, hv, (Out.ok.inj h2).symm⟩
      next => simp at h2
  · rintro ⟨y, m, d, hh, mm, ss, r, hb, hv, rfl⟩
    refine ⟨_, (readParts_ok agree_parts v _).mpr ⟨r, hb⟩, ?_⟩
    have : (validDate y m.toNat d.toNat && validTime hh.toNat mm.toNat ss.toNat) = true := by
      rw [Bool.and_eq_true]; exact hv
    simp only [finish, this, if_true]

open Date in
/-- C83: reading a date panics exactly when one of the six parts is not there (the text ends before it, or a character is cut in two)
after numbers in the parts before, or when all are numbers, but they are no date or no time of day. -/
theorem c83_date_panics (v : Str) : deserialize v = .panic ↔
    (∃ pre q post ns r, parts = pre ++ q :: post ∧ Begins pre v ns r ∧ ∀ t u, r = t ++ u → byteLen t ≠ q.1) ∨
    ∃ y m d hh mm ss r, Begins parts v [y, m, d, hh, mm, ss] r ∧
      ¬ (DateTime.mk y m.toNat d.toNat hh.toNat mm.toNat ss.toNat).Valid := by
  rw [deserialize_eq, Out.bind_eq_panic, readParts_panic agree_parts]
  refine or_congr Iff.rfl ?_
  constructor
  · rintro ⟨ns, h1, h2⟩
    obtain ⟨r, hb⟩ := (readParts_ok agree_parts v ns).mp h1
    match ns, hb.length with
    | [y, m, d, hh, mm, ss], _ =>
      simp only [finish] at h2
      split at h2
      next hv => simp at h2
      next hv =>
        refine ⟨y, m, d, hh, mm, ss, r, hb, fun h => hv ?_⟩
        rw [Bool.and_eq_true]; exact h
  · rintro ⟨y, m, d, hh, mm, ss, r, hb, hv⟩
    refine ⟨_, (readParts_ok agree_parts v _).mpr ⟨r, hb⟩, ?_⟩
    have : ¬ (validDate y m.toNat d.toNat && validTime hh.toNat mm.toNat ss.toNat) = true := by
      rw [Bool.and_eq_true]; exact hv
    simp only [finish, this]
    rfl

open Date in
/-- C83: reading a date gives an error exactly when the first part that is not a number is there. -/
theorem c83_date_errors (v : Str) : deserialize v = .err () ↔
    ∃ pre q post ns r t u, parts = pre ++ q :: post ∧ Begins pre v ns r ∧ r = t ++ u ∧ byteLen t = q.1 ∧ ∀ n, ¬ q.2 t n := by
  rw [deserialize_eq, Out.bind_eq_err, readParts_err agree_parts]
  constructor
  · rintro (h | ⟨ns, h1, h2⟩)
    · exact h
    · exfalso
      obtain ⟨r, hb⟩ := (readParts_ok agree_parts v ns).mp h1
      have hl := hb.length
      match ns, hl with
      | [y, m, d, hh, mm, ss], _ =>
        simp only [finish] at h2
        split at h2 <;> simp at h2
  · exact .inl

-- a date with signs and text after it; a text that is too short, a character cut in two, no date; a letter
example : Date.deserialize (s% "-001+2+3+4+5+6xyz") = .ok (Int64.ofInt (Date.timestamp ⟨-1, 2, 3, 4, 5, 6⟩)).toUInt64 ∧
    Date.deserialize (s% "2022") = .panic ∧ Date.deserialize (s% "2022é1234567") = .err () ∧ Date.deserialize (s% "202é123456789") = .panic ∧
    Date.deserialize (s% "20220230000000") = .panic ∧ Date.deserialize (s% "2022x") = .panic ∧
    Date.deserialize (s% "2022xy") = .err () := by decide +kernel

end Swrs
