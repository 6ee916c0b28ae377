import Verif.Bbs.Lemmas

/-!
# BBS+: byte-level lemmas for the payload and the proofs
-/

namespace Idemix.Bbs

variable {S : Suite} (L : Lib S)

/-! ## The bit vector -/

/-- Bit `i` of a bit vector, least significant bit of byte 0 first. -/
def bvBit (bv : Bytes) (i : Nat) : Bool := bit (bv.getD (i / 8) 0) (i % 8)

theorem bitvectorToIndexes_eq (bv : Bytes) (s : Nat) :
    bitvectorToIndexes bv s = (List.range' s (8 * bv.length)).filter fun i => bvBit bv (i - s) := by
  induction bv generalizing s with
  | nil => rfl
  | cons v vs ih =>
    rw [bitvectorToIndexes, ih, byteIndexes_eq 8 v s (bit_lt v)]
    have : 8 * (v :: vs).length = 8 + 8 * vs.length := by simp; omega
    rw [this, List.range'_append_1.symm, List.filter_append]
    congr 1
    · apply List.filter_congr
      intro i hi
      rw [List.mem_range'_1] at hi
      have h1 : (i - s) / 8 = 0 := by omega
      have h2 : (i - s) % 8 = i - s := by omega
      simp [bvBit, h1, h2]
    · apply List.filter_congr
      intro i hi
      rw [List.mem_range'_1] at hi
      have h1 : (i - s) / 8 = (i - (s + 8)) / 8 + 1 := by omega
      have h2 : (i - s) % 8 = (i - (s + 8)) % 8 := by omega
      simp [bvBit, h1, h2]

theorem setBit_ok (bv : Bytes) (r : Nat) (h : r < 8 * bv.length) :
    ∃ bv', setBit bv (r : Int) = .ok bv' ∧ bv'.length = bv.length ∧
      ∀ i, bvBit bv' i = (bvBit bv i || decide (i = r)) := by
  have h1 : ((r : Int).tdiv 8) = ((r / 8 : Nat) : Int) := by
    rw [Int.tdiv_eq_ediv_of_nonneg (by omega)]; rfl
  have h2 : ((r : Int).tmod 8) = ((r % 8 : Nat) : Int) := by
    rw [Int.tmod_eq_emod_of_nonneg (by omega)]; rfl
  have h3 : ¬ ((bv.length : Int) ≤ ((r / 8 : Nat) : Int)) := by omega
  have h4 : ¬ (((r / 8 : Nat) : Int) < 0 ∨ ((r % 8 : Nat) : Int) < 0) := by omega
  refine ⟨bv.modify (r / 8) (fun v => v ||| (1 <<< (UInt8.ofNat (r % 8)))), by
    rw [setBit]; simp only [h1, h2, if_neg h3, if_neg h4, Int.toNat_natCast], by simp, ?_⟩
  intro i
  simp only [bvBit, List.getD_eq_getElem?_getD, List.getElem?_modify]
  by_cases hi : r / 8 = i / 8
  · have hlt : i / 8 < bv.length := by omega
    simp only [hi, if_true, List.getElem?_eq_getElem hlt, Option.map_eq_map, Option.map_some, Option.getD_some]
    rw [bit_setBit _ _ _ (Nat.mod_lt _ (by omega))]
    congr 1
    simp only [decide_eq_decide]
    omega
  · have : i ≠ r := by rintro rfl; exact hi rfl
    simp [hi, this]

theorem setBits_ok (rs : List Nat) (bv : Bytes) (h : ∀ r ∈ rs, r < 8 * bv.length) :
    ∃ bv', setBits bv (rs.map fun r : Nat => (r : Int)) = .ok bv' ∧ bv'.length = bv.length ∧
      ∀ i, bvBit bv' i = (bvBit bv i || decide (i ∈ rs)) := by
  induction rs generalizing bv with
  | nil => exact ⟨bv, rfl, rfl, by simp⟩
  | cons r rs ih =>
    obtain ⟨b1, e1, l1, f1⟩ := setBit_ok bv r (h r (by simp))
    obtain ⟨b2, e2, l2, f2⟩ := ih b1 (by rw [l1]; exact fun x hx => h x (by simp [hx]))
    refine ⟨b2, by simp [setBits, e1, e2], by rw [l2, l1], ?_⟩
    intro i
    rw [f2, f1]
    simp [Bool.or_assoc]

theorem setBits_ok_inv (rs : List Int) (bv bv' : Bytes) (h : setBits bv rs = .ok bv') :
    ∀ r ∈ rs, 0 ≤ r ∧ r < 8 * bv.length := by
  induction rs generalizing bv with
  | nil => simp
  | cons r rs ih =>
    simp only [setBits, Res.bind_eq_ok] at h
    obtain ⟨b1, e1, e2⟩ := h
    have key : 0 ≤ r ∧ r < 8 * bv.length := by
      rw [setBit] at e1
      by_cases c1 : (bv.length : Int) ≤ r.tdiv 8
      · simp [c1] at e1
      · by_cases c2 : r.tdiv 8 < 0 ∨ r.tmod 8 < 0
        · simp [c1, c2] at e1
        · have := Int.mul_tdiv_add_tmod r 8
          have h8 : r.tmod 8 < 8 := Int.tmod_lt_of_pos r (by omega)
          omega
    have l1 : b1.length = bv.length := by
      obtain ⟨m, hm⟩ := Int.eq_ofNat_of_zero_le key.1
      obtain ⟨b, e, l, _⟩ := setBit_ok bv m (by omega)
      rw [hm, e] at e1
      cases e1
      exact l
    intro x hx
    rcases List.mem_cons.mp hx with rfl | hx
    · exact key
    · rw [← l1]; exact ih b1 e2 x hx

theorem lenInBytes_nat (n : Nat) : lenInBytes (n : Int) = ((2 + n / 8 + 1 : Nat) : Int) := by
  rw [lenInBytes, Int.tdiv_eq_ediv_of_nonneg (by omega)]
  push_cast
  rfl

theorem bvBit_zeros (n i : Nat) : bvBit (List.replicate n 0) i = false := by
  have : (List.replicate n (0 : UInt8)).getD (i / 8) 0 = 0 := by
    rw [List.getD_eq_getElem?_getD, List.getElem?_replicate]
    split <;> rfl
  rw [bvBit, this]
  simp [bit]

/-- The encoded payload: two bytes of count and `n/8 + 1` bytes of bits, whose bit `i` is set iff `i` is
revealed. -/
theorem payload_toBytes (n : Nat) (rs : List Nat) (hn : n ≤ 0xFFFF) (hr : ∀ r ∈ rs, r < 8 * (n / 8 + 1)) :
    ∃ bv, Payload.toBytes ⟨n, rs.map fun r : Nat => (r : Int)⟩ = .ok (beBytes 2 n ++ bv.reverse) ∧
      bv.length = n / 8 + 1 ∧ ∀ i, bvBit bv i = decide (i ∈ rs) := by
  obtain ⟨bv, e, l, f⟩ := setBits_ok rs (List.replicate (n / 8 + 1) 0) (by simpa using hr)
  refine ⟨bv, ?_, by simpa using l, fun i => by simp [f, bvBit_zeros]⟩
  have h1 : decide (((2 + n / 8 + 1 : Nat) : Int) < 0) = false := by simp; omega
  have h2 : decide ((n : Int) < 0 ∨ 0xFFFF < (n : Int)) = false := by simp; omega
  have h3 : 2 + n / 8 + 1 - 2 = n / 8 + 1 := by omega
  simp only [Payload.toBytes, lenInBytes_nat, Int.toNat_natCast, h1, h2, h3, Res.guardPanic_false,
    Res.guardErr_false, Res.ok_bind, e, Res.pure_def]

theorem payload_toBytes_inv {p : Payload} {raw : Bytes} (h : p.toBytes = .ok raw) :
    0 ≤ p.count ∧ p.count ≤ 0xFFFF ∧ ∀ r ∈ p.revealed, 0 ≤ r ∧ r < 8 * (p.count / 8 + 1) := by
  simp only [Payload.toBytes, Res.bind_eq_ok, Res.guardPanic_eq_ok, Res.guardErr_eq_ok, decide_eq_false_iff_not,
    exists_const] at h
  obtain ⟨_, h2, bv, e, _⟩ := h
  obtain ⟨n, hn⟩ := Int.eq_ofNat_of_zero_le (show 0 ≤ p.count by omega)
  refine ⟨by omega, by omega, ?_⟩
  intro r hr
  have := setBits_ok_inv _ _ _ e r hr
  have l : lenInBytes p.count = ((2 + n / 8 + 1 : Nat) : Int) := by rw [hn]; exact lenInBytes_nat n
  rw [l] at this
  simp at this
  omega

theorem parsePoKPayload_bytes (n : Nat) (bv rest : Bytes) (hn : n ≤ 0xFFFF) (hl : bv.length = n / 8 + 1) :
    parsePoKPayload (beBytes 2 n ++ bv.reverse ++ rest) =
      .ok (n, (List.range (8 * (n / 8 + 1))).filter fun i => bvBit bv i) := by
  have hlen : (beBytes 2 n ++ bv.reverse ++ rest).length = 2 + (n / 8 + 1) + rest.length := by simp [hl]; omega
  have s1 := goSlice_mid [] (beBytes 2 n) (bv.reverse ++ rest)
  have s2 := goSlice_mid (beBytes 2 n) bv.reverse rest
  simp only [List.nil_append, List.length_nil, Nat.zero_add, beBytes_length, List.length_reverse, hl,
    ← List.append_assoc] at s1 s2
  have h1 : decide ((beBytes 2 n ++ bv.reverse ++ rest).length < 2) = false := by
    rw [hlen]; simp; omega
  have hb : beNat (beBytes 2 n) = n := beNat_beBytes 2 n (by omega)
  have h2 : decide ((beBytes 2 n ++ bv.reverse ++ rest).length < 2 + n / 8 + 1) = false := by
    rw [hlen]; simp; omega
  have h3 : 2 + n / 8 + 1 = 2 + (n / 8 + 1) := by omega
  simp only [parsePoKPayload, h1, Res.guardErr_false, Res.ok_bind, s1, hb, lenInBytes_nat, Int.toNat_natCast,
    h2]
  rw [h3, s2]
  simp only [Res.ok_bind, List.reverse_reverse, bitvectorToIndexes_eq, hl, Nat.sub_zero, List.range_eq_range',
    Res.pure_def]

/-- What a successful parse says about the input. -/
theorem parsePoKPayload_ok {raw : Bytes} {n : Nat} {rs : List Nat} (h : parsePoKPayload raw = .ok (n, rs)) :
    n ≤ 0xFFFF ∧ 2 + n / 8 + 1 ≤ raw.length ∧ rs.Pairwise (· < ·) ∧ ∀ r ∈ rs, r < 8 * (n / 8 + 1) := by
  simp only [parsePoKPayload, Res.bind_eq_ok, Res.guardErr_eq_ok, decide_eq_false_iff_not, exists_const,
    Res.pure_def, Res.ok.injEq, Prod.mk.injEq] at h
  obtain ⟨h1, c, hc, h2, bv, hb, e1, e2⟩ := h
  have hl : c.length = 2 := by
    rw [goSlice_ok_of (by omega) (by omega)] at hc
    cases hc
    simp; omega
  have hn : beNat c < 256 ^ 2 := by
    match c, hl with
    | [a, b], _ =>
      have := UInt8.toNat_lt a
      have := UInt8.toNat_lt b
      simp [beNat]; omega
  rw [lenInBytes_nat, Int.toNat_natCast] at h2 hb
  have hbl : bv.length = beNat c / 8 + 1 := by
    rw [goSlice_ok_of (by omega) (by omega)] at hb
    cases hb
    simp; omega
  subst e1 e2
  rw [bitvectorToIndexes_eq]
  refine ⟨by omega, by omega, (List.pairwise_lt_range' (step := 1)).filter _, ?_⟩
  intro r hr
  have := (List.mem_filter.mp hr).1
  rw [List.mem_range'_1] at this
  simp [hbl] at this
  omega

/-! ## Proofs -/

theorem readResponses_bytes (h32 : S.scalarLen = frLen) (rs : List S.F) (pre rest : Bytes) :
    readResponses S (pre ++ (rs.map S.zrBytes).flatten ++ rest) rs.length pre.length = .ok rs := by
  induction rs generalizing pre with
  | nil => rfl
  | cons r rs ih =>
    have s := goSlice_mid pre (S.zrBytes r) ((rs.map S.zrBytes).flatten ++ rest)
    have i := ih (pre ++ S.zrBytes r)
    simp only [S.zrBytes_len, h32, List.length_append] at s i
    have e : pre ++ ((r :: rs).map S.zrBytes).flatten ++ rest =
        pre ++ S.zrBytes r ++ ((rs.map S.zrBytes).flatten ++ rest) := by simp
    have e' : pre ++ ((r :: rs).map S.zrBytes).flatten ++ rest =
        pre ++ S.zrBytes r ++ (rs.map S.zrBytes).flatten ++ rest := by simp
    rw [List.length_cons, readResponses]
    conv_lhs => arg 1; rw [e, s]
    rw [Res.ok_bind, e', i]
    simp

/-- Encoding of a proof with fewer than `2^32` responses. -/
def ProofG1.enc (p : ProofG1 S) : Bytes :=
  S.g1Comp p.commitment ++ beBytes 4 p.responses.length ++ (p.responses.map S.zrBytes).flatten

theorem ProofG1.toBytes_eq (p : ProofG1 S) (h : p.responses.length ≤ 0xFFFFFFFF) : p.toBytes = .ok p.enc := by
  have : decide (0xFFFFFFFF < p.responses.length) = false := by simpa using h
  simp only [ProofG1.toBytes, this, Res.guardPanic_false, Res.ok_bind, Res.pure_def, ProofG1.enc]

theorem flatten_zr_length (rs : List S.F) : (rs.map S.zrBytes).flatten.length = rs.length * S.scalarLen := by
  induction rs with
  | nil => simp
  | cons r rs ih => simp [ih]; ring

theorem ProofG1.enc_length (h32 : S.scalarLen = frLen) (p : ProofG1 S) :
    p.enc.length = S.g1CompLen + 4 + p.responses.length * frLen := by
  rw [ProofG1.enc, List.length_append, flatten_zr_length, h32]
  simp

theorem parseProofG1_enc (h32 : S.scalarLen = frLen) (p : ProofG1 S) (rest : Bytes)
    (h : p.responses.length ≤ 0xFFFFFFFF) : parseProofG1 S (p.enc ++ rest) = .ok p := by
  have hl := p.enc_length h32
  have h1 : decide ((p.enc ++ rest).length < S.g1CompLen + 4) = false := by
    rw [List.length_append, hl]; simp; omega
  have e : p.enc ++ rest = S.g1Comp p.commitment ++ beBytes 4 p.responses.length ++
      ((p.responses.map S.zrBytes).flatten ++ rest) := by simp [ProofG1.enc]
  have s1 := goSlice_mid [] (S.g1Comp p.commitment) (beBytes 4 p.responses.length ++
      ((p.responses.map S.zrBytes).flatten ++ rest))
  have s2 := goSlice_mid (S.g1Comp p.commitment) (beBytes 4 p.responses.length)
      ((p.responses.map S.zrBytes).flatten ++ rest)
  simp only [List.nil_append, List.length_nil, Nat.zero_add, S.g1Comp_len, beBytes_length,
    ← List.append_assoc] at s1 s2
  rw [← ProofG1.enc] at s1 s2
  have hb : beNat (beBytes 4 p.responses.length) = p.responses.length := beNat_beBytes 4 _ (by omega)
  have h2 : decide ((p.enc ++ rest).length < S.g1CompLen + 4 + p.responses.length * frLen) = false := by
    rw [List.length_append, hl]; simp
  have r := readResponses_bytes h32 p.responses (S.g1Comp p.commitment ++ beBytes 4 p.responses.length) rest
  rw [← ProofG1.enc] at r
  simp only [List.length_append, S.g1Comp_len, beBytes_length] at r
  simp only [parseProofG1, h1, Res.guardErr_false, Res.ok_bind, s1, Suite.g1OfComp_g1Comp, Res.ofOption_some,
    s2, hb, h2, r, Res.pure_def]

/-- Encoding of a signature proof. -/
def SigProof.enc (p : SigProof S) : Bytes :=
  S.g1Comp p.aPrime ++ S.g1Comp p.aBar ++ S.g1Comp p.d ++ beBytes 4 p.vc1.enc.length ++ p.vc1.enc ++ p.vc2.enc

theorem SigProof.toBytes_eq (p : SigProof S) (h1 : p.vc1.responses.length ≤ 0xFFFFFFFF)
    (h1' : p.vc1.enc.length ≤ 0xFFFFFFFF) (h2 : p.vc2.responses.length ≤ 0xFFFFFFFF) :
    p.toBytes = .ok p.enc := by
  have : decide (0xFFFFFFFF < p.vc1.enc.length) = false := by simpa using h1'
  simp only [SigProof.toBytes, p.vc1.toBytes_eq h1, p.vc2.toBytes_eq h2, this, Res.guardPanic_false,
    Res.ok_bind, Res.pure_def, SigProof.enc]

theorem parseSignatureProof_enc (h32 : S.scalarLen = frLen) (p : SigProof S) (rest : Bytes)
    (h1 : p.vc1.responses.length ≤ 0xFFFFFFFF) (h1' : p.vc1.enc.length ≤ 0xFFFFFFFF)
    (h2 : p.vc2.responses.length ≤ 0xFFFFFFFF) :
    parseSignatureProof S (p.enc ++ rest) = .ok p := by
  have s1 := goSlice_mid [] (S.g1Comp p.aPrime)
    (S.g1Comp p.aBar ++ S.g1Comp p.d ++ beBytes 4 p.vc1.enc.length ++ p.vc1.enc ++ p.vc2.enc ++ rest)
  have s2 := goSlice_mid (S.g1Comp p.aPrime) (S.g1Comp p.aBar)
    (S.g1Comp p.d ++ beBytes 4 p.vc1.enc.length ++ p.vc1.enc ++ p.vc2.enc ++ rest)
  have s3 := goSlice_mid (S.g1Comp p.aPrime ++ S.g1Comp p.aBar) (S.g1Comp p.d)
    (beBytes 4 p.vc1.enc.length ++ p.vc1.enc ++ p.vc2.enc ++ rest)
  have s4 := goSlice_mid (S.g1Comp p.aPrime ++ S.g1Comp p.aBar ++ S.g1Comp p.d)
    (beBytes 4 p.vc1.enc.length) (p.vc1.enc ++ p.vc2.enc ++ rest)
  have s5 := goSlice_mid (S.g1Comp p.aPrime ++ S.g1Comp p.aBar ++ S.g1Comp p.d ++
    beBytes 4 p.vc1.enc.length) p.vc1.enc (p.vc2.enc ++ rest)
  have s6 := goSlice_mid (S.g1Comp p.aPrime ++ S.g1Comp p.aBar ++ S.g1Comp p.d ++
    beBytes 4 p.vc1.enc.length ++ p.vc1.enc) (p.vc2.enc ++ rest) []
  simp only [List.nil_append, List.length_nil, Nat.zero_add, S.g1Comp_len, beBytes_length,
    List.length_append, ← List.append_assoc, List.append_nil] at s1 s2 s3 s4 s5 s6
  rw [← SigProof.enc] at s1 s2 s3 s4 s5 s6
  have hlen : (p.enc ++ rest).length = S.g1CompLen + S.g1CompLen + S.g1CompLen + 4 + p.vc1.enc.length +
      (p.vc2.enc.length + rest.length) := by simp [SigProof.enc]; omega
  have g : decide ((p.enc ++ rest).length < S.g1CompLen * 3) = false := by rw [hlen]; simp; omega
  have hb : beNat (beBytes 4 p.vc1.enc.length) = p.vc1.enc.length := beNat_beBytes 4 _ (by omega)
  have q1 := parseProofG1_enc h32 p.vc1 [] h1
  rw [List.append_nil] at q1
  simp only [parseSignatureProof, g, Res.guardErr_false, Res.ok_bind, s1, Suite.g1OfComp_g1Comp,
    Res.ofOption_some, s2, s3, s4, hb, s5, q1]
  rw [hlen, s6]
  simp only [Res.ok_bind, parseProofG1_enc h32 p.vc2 rest h2, Res.pure_def]

end Idemix.Bbs
