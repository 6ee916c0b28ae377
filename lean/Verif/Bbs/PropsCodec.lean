import Verif.Bbs.Codec
import Verif.Bbs.Spec
import Verif.Toy32

/-!
# C28-C31, C33-C35: codecs, generators, scalars and keys of BBS+
-/

namespace Idemix.Bbs

variable {S : Suite} (L : Lib S)

namespace Ex

open Toy

/-- Suite and library of the examples. -/
abbrev S32 := suite32
abbrev L32 := lib32

end Ex

open Ex Toy

/-! ## C28 -/

/-- **C28 (round trip).** A payload with at most 65535 messages and any set of indices in range is encoded, and
parsing the encoding, whatever follows it, gives the count and the sorted set of indices. -/
theorem C28_payload_roundtrip (n : Nat) (revealed : List Nat) (hn : n ≤ 65535) (hr : ∀ r ∈ revealed, r < n) :
    ∃ raw, Payload.toBytes ⟨n, revealed.map fun r : Nat => (r : Int)⟩ = .ok raw ∧
      raw.length = 2 + n / 8 + 1 ∧
      ∀ rest, ∃ rs, parsePoKPayload (raw ++ rest) = .ok (n, rs) ∧ rs.Pairwise (· < ·) ∧
        ∀ i, i ∈ rs ↔ i ∈ revealed := by
  obtain ⟨bv, e, l, f⟩ := payload_toBytes n revealed hn (fun r h => by have := hr r h; omega)
  refine ⟨_, e, by simp [l]; omega, ?_⟩
  intro rest
  refine ⟨_, parsePoKPayload_bytes n bv rest hn l, (List.pairwise_lt_range).filter _, ?_⟩
  intro i
  rw [List.mem_filter, f]
  simp only [List.mem_range, decide_eq_true_eq]
  constructor
  · exact fun h => h.2
  · intro h
    have := hr i h
    exact ⟨by omega, h⟩

example : Payload.toBytes ⟨10, [9, 0, 3]⟩ = .ok [0, 10, 2, 9] ∧
    parsePoKPayload ([0, 10, 2, 9] ++ [77]) = .ok (10, [0, 3, 9]) := by decide

/-- **C28 (refusal).** Only counts from 0 to 65535 are encoded. -/
theorem C28_count_refused (p : Payload) (h : p.count < 0 ∨ 65535 < p.count) : ∀ raw, p.toBytes ≠ .ok raw := by
  intro raw hr
  have := payload_toBytes_inv hr
  omega

example : Payload.toBytes ⟨65536, [0]⟩ = .err "MessagesCount out of range for uint16" := by decide

/-- **C28 (refusal, partial).** Negative indices and indices of `8 * (n / 8 + 1)` or more are not encoded.
What is missing: indices from `n` up to that bound are encoded, see `C28_range_violated`. -/
theorem C28_index_refused_partial (p : Payload) (r : Int) (hr : r ∈ p.revealed)
    (h : r < 0 ∨ 8 * (p.count / 8 + 1) ≤ r) : ∀ raw, p.toBytes ≠ .ok raw := by
  intro raw e
  have := (payload_toBytes_inv e).2.2 r hr
  omega

example : Payload.toBytes ⟨10, [16]⟩ = .err "invalid size of PoK payload" := by decide

/-- **C28 (violated).** For every count, every index beyond the count but within the last byte is encoded, and
parsing returns it although there is no such message. -/
theorem C28_range_violated (n r : Nat) (hn : n ≤ 65535) (h : n ≤ r) (h' : r < 8 * (n / 8 + 1)) :
    ∃ raw, Payload.toBytes ⟨n, [r]⟩ = .ok raw ∧ parsePoKPayload raw = .ok (n, [r]) := by
  obtain ⟨bv, e, l, f⟩ := payload_toBytes n [r] hn (by simpa using h')
  refine ⟨_, e, ?_⟩
  have p := parsePoKPayload_bytes n bv [] hn l
  rw [List.append_nil] at p
  rw [p]
  congr 2
  apply List.Perm.eq_of_pairwise (le := (· < ·))
  · intro a b _ _ h1 h2; omega
  · exact (List.pairwise_lt_range).filter _
  · simp
  · rw [List.perm_ext_iff_of_nodup ((List.nodup_range).filter _) (by simp)]
    intro a
    rw [List.mem_filter, f]
    simp only [List.mem_range, List.mem_singleton, decide_eq_true_eq]
    constructor
    · exact fun h => h.2
    · rintro rfl; exact ⟨h', rfl⟩

example : parsePoKPayload [0, 1, 32] = .ok (1, [5]) := by decide

/-- **C28 (length).** A successful parse has read exactly `2 + n/8 + 1` bytes: what follows is ignored, and
every shorter prefix is rejected with an error. -/
theorem C28_parse_length (raw : Bytes) (n : Nat) (rs : List Nat) (h : parsePoKPayload raw = .ok (n, rs)) :
    2 + n / 8 + 1 ≤ raw.length ∧ n ≤ 65535 ∧ rs.Pairwise (· < ·) ∧
      (∀ rest, parsePoKPayload (raw.take (2 + n / 8 + 1) ++ rest) = .ok (n, rs)) ∧
      ∀ k, k < 2 + n / 8 + 1 → ∃ e, parsePoKPayload (raw.take k) = .err e := by
  obtain ⟨h1, h2, h3, _⟩ := parsePoKPayload_ok h
  have hc : beNat ((raw.take 2).drop 0) = n := by
    simp only [parsePoKPayload, Res.bind_eq_ok, Res.guardErr_eq_ok, decide_eq_false_iff_not, exists_const,
      Res.pure_def, Res.ok.injEq, Prod.mk.injEq] at h
    obtain ⟨_, c, hc, _, _, _, e1, _⟩ := h
    rw [goSlice_ok_of (by omega) (by omega)] at hc
    cases hc
    exact e1
  have unfoldLong : ∀ b : Bytes, 2 + n / 8 + 1 ≤ b.length → b.take 2 = raw.take 2 →
      parsePoKPayload b = .ok (n, bitvectorToIndexes ((b.take (2 + n / 8 + 1)).drop 2).reverse 0) := by
    intro b hb ht
    have g1 : decide (b.length < 2) = false := by simp; omega
    have g2 : decide (b.length < 2 + n / 8 + 1) = false := by simp; omega
    simp only [parsePoKPayload, g1, Res.guardErr_false, Res.ok_bind]
    rw [goSlice_ok_of (by omega) (by omega), Res.ok_bind, ht, hc, lenInBytes_nat, Int.toNat_natCast, g2,
      Res.guardErr_false, Res.ok_bind, goSlice_ok_of (by omega) hb]
    rfl
  refine ⟨h2, h1, h3, ?_, ?_⟩
  · intro rest
    have hl : (raw.take (2 + n / 8 + 1)).length = 2 + n / 8 + 1 := by simp; omega
    rw [unfoldLong _ (by simp; omega) (by
      rw [List.take_append_of_le_length (by omega), List.take_take]; congr 1; omega)]
    rw [unfoldLong raw h2 rfl] at h
    rw [← h, List.take_append_of_le_length (by omega), List.take_take, Nat.min_self]
  · intro k hk
    have hl : (raw.take k).length = k := by simp; omega
    by_cases hk2 : k < 2
    · refine ⟨"invalid size of PoK payload", ?_⟩
      have : decide ((raw.take k).length < 2) = true := by rw [hl]; simpa using hk2
      rw [parsePoKPayload, this]
      rfl
    · refine ⟨"invalid size of PoK payload", ?_⟩
      have g1 : decide ((raw.take k).length < 2) = false := by rw [hl]; simp; omega
      have g2 : decide ((raw.take k).length < 2 + n / 8 + 1) = true := by rw [hl]; simpa using hk
      have ht : (raw.take k).take 2 = raw.take 2 := by rw [List.take_take]; congr 1; omega
      simp only [parsePoKPayload, g1, Res.guardErr_false, Res.ok_bind]
      rw [goSlice_ok_of (by omega) (by omega), Res.ok_bind, ht, hc, lenInBytes_nat, Int.toNat_natCast, g2]
      rfl

example : parsePoKPayload [0, 10, 2] = .err "invalid size of PoK payload" := by decide

/-! ## C29 -/

/-- **C29 (signature).** Every signature is serialised to `g1CompLen + 64` bytes and parsed back. -/
theorem C29_signature_roundtrip (h32 : S.scalarLen = 32) (σ : Sig S) :
    ∃ raw, σ.toBytes = .ok raw ∧ raw.length = S.g1CompLen + 64 ∧ parseSignature S raw = .ok σ := by
  refine ⟨_, sig_toBytes h32 σ, by simp [h32], ?_⟩
  exact parseSignature_bytes h32 σ.a σ.e σ.s

example : ∃ raw, Sig.toBytes (S := S32) ⟨3, 4, 5⟩ = .ok raw ∧ raw.length = 65 :=
  ⟨[3] ++ enc32 4 ++ enc32 5, by decide, by decide⟩

/-- **C29 (proof of knowledge).** A proof with any number of responses (below `2^32`) is serialised and parsed
back, whatever follows. -/
theorem C29_proof_roundtrip (h32 : S.scalarLen = 32) (p : ProofG1 S) (hr : p.responses.length < 2 ^ 32) :
    ∃ raw, p.toBytes = .ok raw ∧ ∀ rest, parseProofG1 S (raw ++ rest) = .ok p :=
  ⟨p.enc, p.toBytes_eq (by omega), fun rest => parseProofG1_enc h32 p rest (by omega)⟩

set_option maxRecDepth 8000 in
example : ∃ raw, ProofG1.toBytes (S := S32) ⟨3, [1, 2, 6]⟩ = .ok raw ∧ raw.length = 101 :=
  ⟨_, rfl, by decide⟩

/-- **C29 (signature proof).** A signature proof, with any number of responses that fits the 32-bit lengths, is
serialised and parsed back, whatever follows. -/
theorem C29_signatureProof_roundtrip (h32 : S.scalarLen = 32) (p : SigProof S)
    (h1 : S.g1CompLen + 4 + p.vc1.responses.length * 32 < 2 ^ 32) (h2 : p.vc2.responses.length < 2 ^ 32) :
    ∃ raw, p.toBytes = .ok raw ∧ ∀ rest, parseSignatureProof S (raw ++ rest) = .ok p := by
  have hl := p.vc1.enc_length h32
  simp only [frLen] at hl
  refine ⟨p.enc, p.toBytes_eq (by omega) (by omega) (by omega), fun rest => ?_⟩
  exact parseSignatureProof_enc h32 p rest (by omega) (by omega) (by omega)

set_option maxRecDepth 20000 in
example : ∃ raw, SigProof.toBytes (S := S32) ⟨3, 1, 2, ⟨4, [1, 2]⟩, ⟨5, [1, 2, 3]⟩⟩ = .ok raw ∧
    raw.length = 3 + 4 + 69 + 101 :=
  ⟨_, rfl, by decide⟩

/-- **C29 (keys).** Keys are parsed back from their encodings. -/
theorem C29_key_roundtrip (h32 : S.scalarLen = 32) (x : S.F) (w : S.G2) :
    unmarshalPrivateKey S (S.zrBytes x) = .ok x ∧ unmarshalPublicKey S (S.g2Comp w) = .ok w :=
  ⟨unmarshalPrivateKey_bytes h32 x, unmarshalPublicKey_comp w⟩

/-! ## C30 -/

/-- **C30 (signature).** Parsing a signature never panics. -/
theorem C30_signature_no_panic (raw : Bytes) : parseSignature S raw ≠ .panic := by
  by_cases h : raw.length = S.g1CompLen + 2 * frLen
  · simp only [parseSignature, h, ne_eq, not_true_eq_false, decide_false, Res.guardErr_false, Res.ok_bind]
    rw [goSlice_ok_of (by omega) (by omega), goSlice_ok_of (by omega) (by omega),
      goSlice_ok_of (by omega) (by omega)]
    simp only [Res.ok_bind]
    cases S.g1OfComp ((raw.take S.g1CompLen).drop 0) <;> simp
  · simp [parseSignature, h]

/-- **C30 (payload).** Parsing a payload never panics. -/
theorem C30_payload_no_panic (raw : Bytes) : parsePoKPayload raw ≠ .panic := by
  by_cases h : raw.length < 2
  · simp [parsePoKPayload, h]
  · have g : decide (raw.length < 2) = false := by simpa using h
    simp only [parsePoKPayload, g, Res.guardErr_false, Res.ok_bind]
    rw [goSlice_ok_of (by omega) (by omega), Res.ok_bind, lenInBytes_nat, Int.toNat_natCast]
    by_cases h2 : raw.length < 2 + beNat ((raw.take 2).drop 0) / 8 + 1
    · simp only [h2, decide_true, Res.guardErr_true, Res.err_bind]; simp
    · simp only [h2, decide_false, Res.guardErr_false, Res.ok_bind]
      rw [goSlice_ok_of (by omega) (by omega)]
      simp

theorem readResponses_ok (raw : Bytes) (n off : Nat) (h : off + n * frLen ≤ raw.length) :
    ∃ rs, readResponses S raw n off = .ok rs ∧ rs.length = n := by
  induction n generalizing off with
  | zero => exact ⟨[], rfl, rfl⟩
  | succ n ih =>
    have : off + frLen + n * frLen ≤ raw.length := by
      rw [Nat.succ_mul] at h; omega
    obtain ⟨rs, e, l⟩ := ih (off + frLen) this
    refine ⟨S.zrOfBytes ((raw.take (off + frLen)).drop off) :: rs, ?_, by simp [l]⟩
    rw [readResponses, goSlice_ok_of (by omega) (by omega), Res.ok_bind, e]
    rfl

/-- **C30 (proof).** Parsing a proof never panics. -/
theorem C30_proof_no_panic (raw : Bytes) : parseProofG1 S raw ≠ .panic := by
  by_cases h : raw.length < S.g1CompLen + 4
  · simp [parseProofG1, h]
  · have g : decide (raw.length < S.g1CompLen + 4) = false := by simpa using h
    simp only [parseProofG1, g, Res.guardErr_false, Res.ok_bind]
    rw [goSlice_ok_of (by omega) (by omega), goSlice_ok_of (by omega) (by omega), Res.ok_bind]
    cases S.g1OfComp _ with
    | none => simp
    | some c =>
      simp only [Res.ofOption_some, Res.ok_bind]
      generalize beNat _ = len
      by_cases h2 : raw.length < S.g1CompLen + 4 + len * frLen
      · simp [h2]
      · obtain ⟨rs, e, _⟩ := readResponses_ok (S := S) raw len (S.g1CompLen + 4) (by omega)
        simp [h2, e]

/-- **C30 (violated).** `ParseSignatureProof` slices its input without checking that the four length bytes and
the first proof are there: every string consisting of three valid points panics. -/
theorem C30_signatureProof_violated (a b c : S.G1) :
    parseSignatureProof S (S.g1Comp a ++ S.g1Comp b ++ S.g1Comp c) = .panic := by
  have s1 := goSlice_mid [] (S.g1Comp a) (S.g1Comp b ++ S.g1Comp c)
  have s2 := goSlice_mid (S.g1Comp a) (S.g1Comp b) (S.g1Comp c)
  have s3 := goSlice_mid (S.g1Comp a ++ S.g1Comp b) (S.g1Comp c) []
  simp only [List.nil_append, List.length_nil, Nat.zero_add, S.g1Comp_len, List.length_append,
    ← List.append_assoc, List.append_nil] at s1 s2 s3
  have g : decide ((S.g1Comp a ++ S.g1Comp b ++ S.g1Comp c).length < S.g1CompLen * 3) = false := by
    simp; omega
  simp only [parseSignatureProof, g, Res.guardErr_false, Res.ok_bind, s1, Suite.g1OfComp_g1Comp,
    Res.ofOption_some, s2, s3]
  rw [goSlice, if_pos (by simp; omega)]
  rfl

example : parseSignatureProof S32 [0, 0, 0] = .panic := rfl

/-- **C30 (violated, in use).** Hence verifying a proof of 6 bytes panics, for every key and nonce. -/
theorem C30_verifyProof_violated (a b c : S.G1) (messages : List Bytes) (nonce rawPk : Bytes) :
    verifyProof L messages ([0, 1, 1] ++ (S.g1Comp a ++ S.g1Comp b ++ S.g1Comp c)) nonce rawPk = .panic := by
  have p : parsePoKPayload ([0, 1, 1] ++ (S.g1Comp a ++ S.g1Comp b ++ S.g1Comp c)) = .ok (1, [0]) := by
    have := parsePoKPayload_bytes 1 [1] (S.g1Comp a ++ S.g1Comp b ++ S.g1Comp c) (by decide) (by decide)
    exact this
  rw [verifyProof, verifyProofFr, p]
  simp only [Res.ok_bind]
  rw [show (lenInBytes ((1 : Nat) : Int)).toNat = 3 from by decide]
  rw [goSlice_ok_of (by simp) (Nat.le_refl _), List.take_length]
  simp only [Res.ok_bind]
  rw [show ([0, 1, 1] ++ (S.g1Comp a ++ S.g1Comp b ++ S.g1Comp c) : Bytes).drop 3 =
    S.g1Comp a ++ S.g1Comp b ++ S.g1Comp c from rfl, C30_signatureProof_violated]
  rfl

/-- **C30 (signature proof, partial).** Parsing a signature proof does not panic when the input contains the
length bytes and as many bytes as they announce. What is missing: shorter inputs, for which the code panics
(`C30_signatureProof_violated`). -/
theorem C30_signatureProof_partial (raw : Bytes) (h : 3 * S.g1CompLen + 4 ≤ raw.length)
    (h' : 3 * S.g1CompLen + 4 + beNat ((raw.drop (3 * S.g1CompLen)).take 4) ≤ raw.length) :
    parseSignatureProof S raw ≠ .panic := by
  have g : decide (raw.length < S.g1CompLen * 3) = false := by simp; omega
  have e : (raw.take (S.g1CompLen + S.g1CompLen + S.g1CompLen + 4)).drop
      (S.g1CompLen + S.g1CompLen + S.g1CompLen) = (raw.drop (3 * S.g1CompLen)).take 4 := by
    rw [List.drop_take]
    congr 1
    · omega
    · congr 1; omega
  simp only [parseSignatureProof, g, Res.guardErr_false, Res.ok_bind]
  rw [goSlice_ok_of (by omega) (by omega), goSlice_ok_of (by omega) (by omega),
    goSlice_ok_of (by omega) (by omega), goSlice_ok_of (by omega) (by omega), e]
  simp only [Res.ok_bind]
  generalize beNat ((raw.drop (3 * S.g1CompLen)).take 4) = len at h' ⊢
  rw [goSlice_ok_of (by omega) (by omega), goSlice_ok_of (by omega) (by omega)]
  simp only [Res.ok_bind]
  cases S.g1OfComp _ with
  | none => simp
  | some p1 =>
    cases S.g1OfComp _ with
    | none => simp
    | some p2 =>
      cases S.g1OfComp _ with
      | none => simp
      | some p3 =>
        simp only [Res.ofOption_some, Res.ok_bind]
        cases hq : parseProofG1 S ((raw.take (S.g1CompLen + S.g1CompLen + S.g1CompLen + 4 + len)).drop
            (S.g1CompLen + S.g1CompLen + S.g1CompLen + 4)) with
        | panic => exact absurd hq (C30_proof_no_panic _)
        | err m => simp
        | ok q =>
          simp only [Res.ok_bind]
          cases hq' : parseProofG1 S ((raw.take raw.length).drop
              (S.g1CompLen + S.g1CompLen + S.g1CompLen + 4 + len)) with
          | panic => exact absurd hq' (C30_proof_no_panic _)
          | err m => simp
          | ok q => simp

example : parseSignatureProof S32 ([0, 0, 0] ++ [0, 0, 0, 5] ++ [0, 0, 0, 0, 0] ++ [0, 0, 0, 0, 0]) =
    .ok ⟨0, 0, 0, ⟨0, []⟩, ⟨0, []⟩⟩ := rfl

/-! ## C31 -/

theorem genData_length (w : S.G2) (n i : Nat) : (genData w n i).length = S.g2Len + 10 := by
  simp [genData]

theorem genData_inj {w w' : S.G2} {n n' i i' : Nat} (hn : n < 2 ^ 32) (hn' : n' < 2 ^ 32) (hi : i < 2 ^ 32)
    (hi' : i' < 2 ^ 32) (h : genData w n i = genData w' n' i') : w = w' ∧ n = n' ∧ i = i' := by
  simp only [genData, List.append_assoc] at h
  obtain ⟨h1, h⟩ := List.append_inj h (by simp)
  obtain ⟨_, h⟩ := List.append_inj h rfl
  obtain ⟨h2, h⟩ := List.append_inj h (by simp)
  obtain ⟨_, h3⟩ := List.append_inj h rfl
  exact ⟨S.g2Bytes_inj h1, beBytes_inj (by omega) (by omega) h3, beBytes_inj (by omega) (by omega) h2⟩

/-- **C31 (one key).** For a public key and a message count the strings hashed to the generators
`h0, h1, ..., hn` are `n + 1` pairwise different strings of equal length. -/
theorem C31_inputs_distinct (w : S.G2) (n : Nat) (hn : n < 2 ^ 32) :
    ∃ d0 ds, genInputs w n = .ok (d0, ds) ∧ ds.length = n ∧ (d0 :: ds).Nodup ∧
      (∀ d ∈ d0 :: ds, d.length = S.g2Len + 10) ∧
      toPKG w n = .ok ⟨S.hashToG1 d0 dstG1, ds.map fun d => S.hashToG1 d dstG1, w, n⟩ := by
  refine ⟨_, _, genInputs_eq w n (by omega), by simp, ?_, ?_, ?_⟩
  · have e : genData w n 0 :: (List.range n).map (fun i => genData w n (i + 1)) =
        (List.range (n + 1)).map (genData w n) := by
      rw [List.range_succ_eq_map]; simp
    rw [e]
    refine List.Nodup.map_on ?_ List.nodup_range
    intro a ha b hb h
    rw [List.mem_range] at ha hb
    exact (genData_inj hn hn (by omega) (by omega) h).2.2
  · intro d hd
    simp only [List.mem_cons, List.mem_map] at hd
    rcases hd with rfl | ⟨i, _, rfl⟩ <;> exact genData_length ..
  · rw [toPKG_eq w n (by omega), pkg, List.map_map]
    rfl

/-- **C31 (several keys).** The strings hashed for another public key or another message count are different
ones. -/
theorem C31_inputs_disjoint (w w' : S.G2) (n n' : Nat) (hn : n < 2 ^ 32) (hn' : n' < 2 ^ 32)
    (hne : w ≠ w' ∨ n ≠ n') (d0 d0' : Bytes) (ds ds' : List Bytes)
    (h : genInputs w n = .ok (d0, ds)) (h' : genInputs w' n' = .ok (d0', ds')) :
    ∀ d ∈ d0 :: ds, d ∉ d0' :: ds' := by
  rw [genInputs_eq w n (by omega)] at h
  rw [genInputs_eq w' n' (by omega)] at h'
  cases h; cases h'
  have mem : ∀ (v : S.G2) (m : Nat) d, d ∈ genData v m 0 :: (List.range m).map (fun i => genData v m (i + 1)) →
      ∃ i, i ≤ m ∧ d = genData v m i := by
    intro v m d hd
    simp only [List.mem_cons, List.mem_map, List.mem_range] at hd
    rcases hd with rfl | ⟨i, hi, rfl⟩
    · exact ⟨0, by omega, rfl⟩
    · exact ⟨i + 1, by omega, rfl⟩
  intro d hd hd'
  obtain ⟨i, hi, rfl⟩ := mem w n d hd
  obtain ⟨i', hi', e⟩ := mem w' n' _ hd'
  obtain ⟨e1, e2, _⟩ := genData_inj hn hn' (by omega) (by omega) e
  rcases hne with h | h
  · exact h e1
  · exact h e2

example : genInputs (S := S32) (3 : Toy.K) 2 =
    .ok ([3, 0, 0, 0, 0, 0, 0, 0, 0, 0, 2],
      [[3, 0, 0, 0, 0, 1, 0, 0, 0, 0, 2], [3, 0, 0, 0, 0, 2, 0, 0, 0, 0, 2]]) := by decide

/-! ## C33 -/

/-- **C33.** If the curve library reads byte strings as big-endian integers modulo the group order, the scalar
derived from a message is its 48-byte digest, read as one big-endian integer, modulo the group order. -/
theorem C33_okm_scalar (hz : ∀ b, S.zrOfBytes b = ((beNat b : Nat) : S.F)) (m : Bytes) :
    frFromOKM L m = ((beNat (L.okm m) : Nat) : S.F) := by
  have hl := L.okm_len m
  have e : L.okm m = (L.okm m).take 24 ++ (L.okm m).drop 24 := (List.take_append_drop _ _).symm
  have hd : ((L.okm m).drop 24).length = 24 := by simp [hl]
  have hf : beNat f2192Bytes = 256 ^ 24 := by decide
  simp only [frFromOKM, hz, beNat_zeros, hf]
  conv_rhs => rw [e, beNat_append, hd]
  push_cast
  rfl

example : (∀ b, S32.zrOfBytes b = ((beNat b : Nat) : S32.F)) := fun _ => rfl

/-! ## C34 -/

/-- **C34 (deterministic).** With a seed of 32 bytes the result does not depend on the random source. -/
theorem C34_seed_deterministic (seed r r' : Bytes) :
    generateKeyPair L (some seed) r = generateKeyPair L (some seed) r' := rfl

/-- **C34 (length).** Seeds of a length other than 0 and 32 are refused. -/
theorem C34_seed_length (seed r : Bytes) (h : seed.length ≠ 0) (h' : seed.length ≠ 32) :
    ∃ e, generateKeyPair L (some seed) r = .err e := by
  refine ⟨"invalid size of seed", ?_⟩
  simp [generateKeyPair, frLen, h, h']

/-- **C34 (key pair).** The keys returned belong together. -/
theorem C34_key_pair (seed : Option Bytes) (r : Bytes) (w : S.G2) (x : S.F)
    (h : generateKeyPair L seed r = .ok (w, x)) : w = x • S.genG2 := by
  simp only [generateKeyPair, Res.bind_eq_ok, Res.pure_def, Res.ok.injEq, Prod.mk.injEq] at h
  obtain ⟨_, _, okm, _, h1, h2⟩ := h
  rw [← h1, h2]
  rfl

example : ∃ w x, generateKeyPair L32 (some (List.replicate 32 7)) [] = .ok (w, x) :=
  ⟨_, _, rfl⟩

/-- **C34 (violated).** An empty seed that is not nil passes the length check but is not replaced by fresh
randomness: the key is a constant everybody can compute. -/
theorem C34_empty_seed_violated (r : Bytes) : generateKeyPair L (some []) r =
    (do let okm ← L.hkdf [0] S.scalarLen; pure (publicKey (frFromOKM L okm), frFromOKM L okm)) := by
  simp [generateKeyPair, generateOKM]

/-- **C34 (partial).** Without a seed the key material is derived from the fresh random bytes, and with a seed of
32 bytes from the seed. What is missing: empty seeds (`C34_empty_seed_violated`). -/
theorem C34_partial (seed : Option Bytes) (r : Bytes) (h : ∀ s, seed = some s → s.length = 32) :
    generateKeyPair L seed r =
      (do let okm ← L.hkdf (seed.getD r ++ [0]) S.scalarLen; pure (publicKey (frFromOKM L okm), frFromOKM L okm)) := by
  cases seed with
  | none => simp [generateKeyPair, generateOKM]
  | some s => simp [generateKeyPair, generateOKM, h s rfl, frLen]

/-! ## C35 -/

/-- **C35 (value).** With at least as many scalars as bases the result is the sum of the products; surplus
scalars are ignored; for no bases there is no result. -/
theorem C35_multiexp (bases : List S.G1) (scalars : List S.F) (h : bases.length ≤ scalars.length) :
    sumOfG1Products bases scalars =
      .ok (if bases = [] then none
        else some ((bases.zip scalars).map fun p => p.2 • p.1).sum) := by
  by_cases hb : bases = []
  · subst hb; simp [sumOfG1Products, sumLoop]
  · rw [sumOfG1Products, sumLoop_eq _ _ _ h hb, if_neg hb]
    simp only [Option.getD_none, zero_add]
    congr 2
    clear h hb
    induction bases generalizing scalars with
    | nil => simp
    | cons b bs ih => cases scalars <;> simp [ih]

/-- **C35 (too few scalars).** With fewer scalars than bases the call panics. -/
theorem C35_too_few (bases : List S.G1) (scalars : List S.F) (h : scalars.length < bases.length) :
    sumOfG1Products bases scalars = .panic := sumLoop_short _ _ _ h

example : sumOfG1Products (S := S32) [1, 2, 3] [4, 5, 6, 1] = .ok (some ((4 + 10 + 18 : Nat) : Toy.K)) ∧
    sumOfG1Products (S := S32) [1, 2] [4, 5] = .ok (some ((14 : Nat) : Toy.K)) := by decide

end Idemix.Bbs
