import Verif.Props.BlocksOut
/-!
# C45: for which lists of blocks the next pointers are right
-/
namespace Swrs.Api
variable [Floats]

theorem c45_step {b : Block} {bs : List Block} {ctr : Nat} {ps : List ParserBlock} {c : Nat} (h : convertBlocks (b :: bs) ctr = .ok (ps, c)) :
    ∃ p rest rs, ps = p :: rest ++ rs ∧ Written b p ∧ p.id = natStr 10 (ctr + 1) ∧ p.nextBlock = nextOf bs.isEmpty (ctr + blockSize b) ∧
      convertBlocks bs (ctr + blockSize b) = .ok (rs, c) := by
  simp only [convertBlocks, Out.bind_eq_ok, Prod.exists, Out.pure_eq, Out.ok.injEq, Prod.mk.injEq] at h
  obtain ⟨qs, c1, h1, rs, c2, h2, rfl, rfl⟩ := h
  obtain ⟨p, rest, rfl, hw, hid, hnext⟩ := convertBlock_head h1
  obtain rfl := (convertBlock_ready _ _ _ _ _ h1).2
  exact ⟨p, rest, rs, rfl, hw, hid, hnext, h2⟩

theorem c45_follow {bs : List Block} {ctr : Nat} {ps : List ParserBlock} {c : Nat}
    (h : convertBlocks bs ctr = .ok (ps, c)) (hc : ctr + blocksSize bs.dropLast < 2147483647) (hne : bs ≠ []) :
    ∃ hs, Follow ps (natStr 10 (ctr + 1)) hs ∧ All₂ Written bs hs ∧ hs.head? = ps.head? := by
  induction bs generalizing ctr ps c with
  | nil => exact absurd rfl hne
  | cons b bs ih =>
    obtain ⟨p, rest, rs, rfl, hw, hid, hnext, h2⟩ := c45_step h
    cases bs with
    | nil => exact ⟨[p], hid ▸ .last p (by simp) (by rw [hnext]; rfl), .cons hw .nil, rfl⟩
    | cons b' bs =>
      rw [List.dropLast_cons_cons, blocksSize] at hc
      obtain ⟨hs, h3, h4, _⟩ := ih h2 (by omega) (by simp)
      have hn : p.nextBlock = Int32.ofNat (ctr + blockSize b + 1) := hnext
      refine ⟨p :: hs, hid ▸ .next p (by simp) ?_ ?_, .cons hw h4, rfl⟩
      · rw [hn]; exact ofNat_ne (by omega)
      · rw [hn, Int32.toInt_ofNat_of_lt (by omega)]
        exact h3.mono fun q hq => by simp [hq]

omit [Floats] in
theorem c45_negative {n : Nat} (h : 2147483648 ≤ n) (h' : n < 4294967296) : ∃ k, (Int32.ofNat n).toInt = Int.negSucc k := by
  have : (Int32.ofNat n).toInt = (n : Int) - 4294967296 := by
    show (Int32.ofNat n).toBitVec.toInt = _
    rw [show (Int32.ofNat n).toBitVec = BitVec.ofNat 32 n from rfl, BitVec.toInt_eq_toNat_cond, BitVec.toNat_ofNat, Nat.mod_eq_of_lt h', if_neg (by omega)]
    rfl
  exact ⟨4294967295 - n, by rw [this]; omega⟩

/-- If the id of the last block of the list does not fit, the blocks visited are fewer. -/
theorem c45_short {all : List ParserBlock} (hd : (all.map (·.id)).Nodup) (hall : ∀ q ∈ all, ∃ i, q.id = natStr 10 i) {bs : List Block} {ctr : Nat} {ps : List ParserBlock} {c : Nat}
    (h : convertBlocks bs ctr = .ok (ps, c)) (hps : ∀ q ∈ ps, q ∈ all) (hctr : ctr < 2147483647) (hc : c < 4294967296)
    (hbig : 2147483647 ≤ ctr + blocksSize bs.dropLast) {hs : List ParserBlock} (hf : Follow all (natStr 10 (ctr + 1)) hs) : hs.length < bs.length := by
  induction bs generalizing ctr ps c hs with
  | nil => simp only [List.dropLast_nil, blocksSize] at hbig; omega
  | cons b bs ih =>
    obtain ⟨p, rest, rs, rfl, hw, hid, hnext, h2⟩ := c45_step h
    cases bs with
    | nil => simp only [List.dropLast_singleton, blocksSize] at hbig; omega
    | cons b' bs =>
      rw [List.dropLast_cons_cons, blocksSize] at hbig
      have hn : p.nextBlock = Int32.ofNat (ctr + blockSize b + 1) := hnext
      have hp : p ∈ all := hps p (by simp)
      have hle : ctr + blockSize b + 1 ≤ c := by
        obtain ⟨p', rest', rs', rfl, -⟩ := c45_step h2
        have := (convertBlocks_seq _ _ _ _ h2).1
        simp only [List.length_append, List.length_cons] at this
        omega
      rw [← hid] at hf
      generalize e : p.id = id' at hf
      by_cases hsmall : ctr + blockSize b < 2147483647
      · have hv : (Int32.ofNat (ctr + blockSize b + 1)).toInt = ((ctr + blockSize b + 1 : Nat) : Int) := Int32.toInt_ofNat_of_lt (by omega)
        cases hf with
        | last q hq hq' =>
          obtain rfl := mem_unique hd hp hq e
          rw [hn] at hq'
          exact absurd hq' (ofNat_ne (by omega))
        | next q hq hq' t =>
          obtain rfl := mem_unique hd hp hq e
          rw [hn, hv] at t
          have := ih h2 (fun q hq => hps q (by simp [hq])) hsmall hc (by omega) t
          simp only [List.length_cons] at this ⊢
          omega
      · cases hf with
        | last q hq hq' => simp
        | next q hq hq' t =>
          obtain rfl := mem_unique hd hp hq e
          obtain ⟨k, hk⟩ := c45_negative (n := ctr + blockSize b + 1) (by omega) (by omega)
          rw [hn, hk] at t
          obtain ⟨z, hz, hzid, _⟩ := t.mem
          obtain ⟨j, hj⟩ := hall z hz
          rw [hj] at hzid
          have hdig := natStr_digits rfl j
          rw [hzid] at hdig
          exact absurd (hdig '-' (by simp only [intStr]; exact List.mem_cons_self)) (by decide)

/-- C45, exactly: in a container of fewer than 2³² − 9 blocks (the ids are `u32`, C99), following the next pointers from the first block visits exactly the blocks of the list, in
order, and ends with −1, if and only if there are at most 2³¹ − 11 blocks in front of the last block of the list, counted with all arguments and substacks. -/
theorem c45_chain_iff (bs : List Block) (c : BlockContainer) (h : toContainer bs = .ok c) (hne : bs ≠ []) (hsize : c.blocks.length < 4294967287) :
    (∃ first rest, c.blocks = first :: rest ∧ ∃ hs, All₂ Written bs hs ∧ hs.head? = some first ∧ ∀ hs', Follow c.blocks first.id hs' ↔ hs' = hs) ↔
      blocksSize bs.dropLast ≤ 2147483637 := by
  have hd := c44_distinct bs c h
  have hids := c44_ids bs c h
  obtain ⟨n, h⟩ := toContainer_ok.mp h
  have hn := (convertBlocks_seq _ _ _ _ h).1
  obtain ⟨b, bs', rfl⟩ := List.exists_cons_of_ne_nil hne
  obtain ⟨p, rest, rs, hcb, -, hid, -⟩ := c45_step h
  constructor
  · rintro ⟨first, rest', e, hs, hw, -, hf⟩
    refine Nat.le_of_not_lt fun hbig => ?_
    rw [hcb] at e
    obtain rfl := (List.cons.inj e).1
    have := c45_short hd (fun q hq => by
      have hm : q.id ∈ c.blocks.map (·.id) := List.mem_map.mpr ⟨q, hq, rfl⟩
      rw [hids] at hm
      obtain ⟨i, -, hi⟩ := List.mem_map.mp hm
      exact ⟨_, hi.symm⟩) h (fun _ h => h) (by omega) (by omega) (by omega) (hid ▸ (hf hs).mpr rfl)
    rw [hw.length_eq] at this
    omega
  · intro hs
    obtain ⟨hs, h1, h2, h3⟩ := c45_follow h (by omega) hne
    refine ⟨p, rest ++ rs, hcb, hs, h2, by rw [h3, hcb]; rfl, fun hs' => ⟨fun h' => ?_, ?_⟩⟩
    · rw [hid] at h'
      exact (h1.unique hd h').symm
    · rintro rfl
      rw [hid]; exact h1

/-- `c45_chain_iff`: two blocks, for which it holds. -/
example : ∃ c, toContainer [c45_block, c45_block] = .ok c ∧ c.blocks.length < 4294967287 ∧ blocksSize [c45_block, c45_block].dropLast ≤ 2147483637 := by
  obtain ⟨ps, h, -⟩ := c45_many 2 9
  refine ⟨⟨ps⟩, toContainer_ok.mpr ⟨_, h⟩, ?_, ?_⟩
  · have := (convertBlocks_seq _ _ _ _ h).1
    simp only
    omega
  · simp [c45_block, Block.new, blocksSize, blockSize, itemsSize, stackSize]

/-- `c45_chain_iff`: many blocks, for which it does not hold. -/
example : ∃ (bs : List Block) (c : BlockContainer), toContainer bs = .ok c ∧ bs ≠ [] ∧ c.blocks.length < 4294967287 ∧ ¬ blocksSize bs.dropLast ≤ 2147483637 := by
  obtain ⟨k, hk⟩ : ∃ k : Nat, k = 2147483648 := ⟨_, rfl⟩
  obtain ⟨ps, h, -⟩ := c45_many k 9
  refine ⟨List.replicate k c45_block, ⟨ps⟩, toContainer_ok.mpr ⟨_, h⟩, ?_, ?_, ?_⟩
  · intro e
    have := congrArg List.length e
    rw [List.length_replicate] at this
    simp only [List.length_nil] at this
    omega
  · have := (convertBlocks_seq _ _ _ _ h).1
    simp only
    omega
  · have size : ∀ n, blocksSize (List.replicate n c45_block) = n := by
      intro n
      induction n with
      | zero => rfl
      | succ n ih =>
        rw [List.replicate_succ, blocksSize, ih]
        simp [c45_block, Block.new, blockSize, itemsSize, stackSize]
        omega
    rw [List.dropLast_replicate, size]
    omega

end Swrs.Api
