import Verif.Bbs.Proof
import Verif.Bbs.PropsSig

/-!
# C26, C27: selective disclosure
-/

namespace Idemix.Bbs

variable {S : Suite} (L : Lib S)

open Ex

/-! ## C26 -/

theorem insertionSort_cast (rs : List Nat) :
    (rs.map fun r : Nat => (r : Int)).insertionSort (· ≤ ·) =
      (rs.insertionSort (· ≤ ·)).map fun r : Nat => (r : Int) := by
  symm
  apply List.map_insertionSort
  intro a _ b _
  simp

theorem honest_enc_small (h32 : S.scalarLen = frLen) (hg : S.g1CompLen < 2 ^ 31) (σ : Sig S) (ms : List S.F)
    (rs : List Nat) (pk : PKG S) (ρ : PoKRand S) (c : S.F) (hl : ms.length = pk.h.length)
    (hn : pk.h.length ≤ 0xFFFF) :
    ((honestPoK σ ms rs pk ρ).respond c).vc1.responses.length ≤ 0xFFFFFFFF ∧
      ((honestPoK σ ms rs pk ρ).respond c).vc1.enc.length ≤ 0xFFFFFFFF ∧
      ((honestPoK σ ms rs pk ρ).respond c).vc2.responses.length ≤ 0xFFFFFFFF := by
  have e := keepHidden_length_eq rs 0 hl
  have l1 : ((honestPoK σ ms rs pk ρ).respond c).vc1.responses.length = 2 := by
    simp [PoK.respond, honestPoK]
  have l2 : ((honestPoK σ ms rs pk ρ).respond c).vc2.responses.length = (keepHidden rs 0 pk.h).length + 2 := by
    simp [PoK.respond, honestPoK, e]
  have := keep_length rs 0 pk.h
  refine ⟨by omega, ?_, by omega⟩
  rw [ProofG1.enc_length h32, l1]
  simp only [frLen]
  omega

/-- What `DeriveProofZr` returns for an honest prover, and that it verifies. -/
theorem deriveProofZr_verifies (h32 : S.scalarLen = frLen) (hg : S.g1CompLen < 2 ^ 31) (messages : List (SigMsg S))
    (h : InOrder messages) (hn : messages.length ≤ 0xFFFF) (rawSig nonce rawPk : Bytes) (σ : Sig S) (w : S.G2)
    (hσ : parseSignature S rawSig = .ok σ) (hw : unmarshalPublicKey S rawPk = .ok w)
    (hv : Valid (pkg w messages.length) σ (messages.map (·.fr))) (revealed : List Nat) (h0 : revealed ≠ [])
    (hlen : revealed.length ≤ messages.length) (hr : ∀ r ∈ revealed, r < messages.length) (ρ : PoKRand S)
    (hρ : ρ.r1 ≠ 0) :
    ∃ proof, deriveProofZr L messages rawSig nonce rawPk (revealed.map fun r : Nat => (r : Int)) ρ = .ok proof ∧
      ∀ shown : List (SigMsg S), shown.map (·.fr) = Spec.shown revealed (messages.map (·.fr)) →
        verifyProofFr L shown proof nonce rawPk = .ok () := by
  set rs := revealed.insertionSort (· ≤ ·) with hrs
  have hmem : ∀ i, i ∈ rs ↔ i ∈ revealed := fun i => List.mem_insertionSort (r := (· ≤ ·))
  have hrs' : ∀ r ∈ rs, r < messages.length := fun r hr' => hr r ((hmem r).mp hr')
  have hrl : rs.length ≤ messages.length := by rw [hrs, List.length_insertionSort]; exact hlen
  have hl : (messages.map (·.fr)).length = (pkg w messages.length).h.length := by simp
  have hpok := newPoKOfSignature_eq L.zrOfInt_one σ messages rs (pkg w messages.length) ρ h (by simp) hrs' hrl hv
  set pok := honestPoK σ (messages.map (·.fr)) rs (pkg w messages.length) ρ with hpk
  set c := frFromOKM L (pok.toBytes ++ nonceBytes L nonce) with hc
  have hgen : pok.generateProof c = .ok (pok.respond c) :=
    honest_generateProof σ _ rs (pkg w messages.length) ρ c hl
  obtain ⟨s1, s2, s3⟩ := honest_enc_small h32 hg σ _ rs (pkg w messages.length) ρ c hl (by simpa using hn)
  have henc : (pok.respond c).toBytes = .ok (pok.respond c).enc := SigProof.toBytes_eq _ s1 s2 s3
  obtain ⟨bv, pe, pl, pf⟩ := payload_toBytes messages.length rs hn (fun r hr' => by
    have := hrs' r hr'; omega)
  refine ⟨beBytes 2 messages.length ++ bv.reverse ++ (pok.respond c).enc, ?_, ?_⟩
  · have g : decide ((revealed.map fun r : Nat => (r : Int)).length = 0) = false := by
      simpa using h0
    simp only [deriveProofZr, g, Res.guardErr_false, Res.ok_bind, insertionSort_cast, ← hrs, hw, hσ,
      toPKG_eq w messages.length (by omega), hpok]
    rw [hgen, pe]
    simp only [Res.ok_bind, henc, Res.pure_def]
  · intro shown hs
    rw [shown_eq] at hs
    set rs' := (List.range (8 * (messages.length / 8 + 1))).filter fun i => bvBit bv i with hrs''
    have hm' : ∀ i, i ∈ rs ↔ i ∈ rs' := by
      intro i
      rw [hrs'', List.mem_filter, pf, List.mem_range, decide_eq_true_eq]
      constructor
      · intro hi; have := hrs' i hi; exact ⟨by omega, hi⟩
      · exact fun hi => hi.2
    have hsort : rs'.Pairwise (· < ·) := (List.pairwise_lt_range).filter _
    have hlt : ∀ r ∈ rs', r < messages.length := fun r hi => hrs' r ((hm' r).mpr hi)
    have hk := revealed_length hsort hlt messages rfl
    have hcount : rs'.length ≤ messages.length := by
      have := keep_length rs' 0 messages
      omega
    have hsl : shown.length = rs'.length := by
      rw [← List.length_map (f := (·.fr)), hs, keepShown_length_eq (ys := messages) _ _ (by simp),
        keepShown_congr (fun i => ((hmem i).symm.trans (hm' i))), hk]
    have hpay := parsePoKPayload_bytes messages.length bv (pok.respond c).enc hn pl
    have hoff : (lenInBytes ((messages.length : Nat) : Int)).toNat = (beBytes 2 messages.length ++ bv.reverse).length := by
      rw [lenInBytes_nat]; simp [pl]; omega
    have hsl2 := goSlice_mid (beBytes 2 messages.length ++ bv.reverse) (pok.respond c).enc []
    rw [List.append_nil] at hsl2
    have hparse := parseSignatureProof_enc h32 (pok.respond c) [] s1 s2 s3
    rw [List.append_nil] at hparse
    have g2 : decide (shown.length < rs'.length) = false := by simp [hsl]
    have hb := honest_toBytes σ (messages.map (·.fr)) rs rs' (pkg w messages.length) ρ c hm' (by
      simp only [pkg_count]; exact_mod_cast hcount)
    rw [← hpk] at hb
    simp only [verifyProofFr, hpay, Res.ok_bind, hoff]
    rw [List.length_append (as := beBytes 2 messages.length ++ bv.reverse), hsl2]
    simp only [Res.ok_bind, hparse, hw, toPKG_eq w messages.length (by omega), ← hrs'', g2, Res.guardErr_false, hb,
      ← hc]
    exact honest_verifies L.zrOfInt_one σ _ rs rs' (pkg w messages.length) ρ c shown hl hv hρ hm' (by
      simp only [pkg_count]; exact_mod_cast hcount) (by rw [hs]; exact keepShown_congr (fun i => (hmem i).symm) 0 _)

theorem shown_map {α β : Type} (f : α → β) (rs : List Nat) (xs : List α) :
    Spec.shown rs (xs.map f) = (Spec.shown rs xs).map f := by
  rw [shown_eq, shown_eq, keepShown_map]

/-- **C26.** Let a signature verify for a vector of at most 65535 messages. For every non-empty selection of at
most that many positions (in particular every non-empty set), every nonce and all random choices with
`r1 ≠ 0`, `DeriveProof` succeeds and `VerifyProof` accepts the proof for the messages at these positions. -/
theorem C26_derived_proof_verifies (h32 : S.scalarLen = 32) (hg : S.g1CompLen < 2 ^ 31) (messages : List Bytes)
    (hn : messages.length ≤ 65535) (rawSig nonce rawPk : Bytes) (hv : verify L messages rawSig rawPk = .ok ())
    (revealed : List Nat) (h0 : revealed ≠ []) (hlen : revealed.length ≤ messages.length)
    (hr : ∀ r ∈ revealed, r < messages.length) (ρ : PoKRand S) (hρ : ρ.r1 ≠ 0) :
    ∃ proof, deriveProof L messages rawSig nonce rawPk (revealed.map fun r : Nat => (r : Int)) ρ = .ok proof ∧
      verifyProof L (Spec.shown revealed messages) proof nonce rawPk = .ok () := by
  obtain ⟨σ, w, hσ, hw, v⟩ := (verify_ok_iff L _ _ _ (by omega)).mp hv
  obtain ⟨proof, h1, h2⟩ := deriveProofZr_verifies L h32 hg (messagesToFr L messages)
    (messagesToFr_inOrder L messages) (by simpa using hn) rawSig nonce rawPk σ w hσ hw
    (by simpa [messagesToFr_fr] using v) revealed h0 (by simpa using hlen) (by simpa using hr) ρ hρ
  refine ⟨proof, h1, h2 _ ?_⟩
  rw [messagesToFr_fr, messagesToFr_fr, shown_map]

/-- **C26 (scalars).** The same for messages given as scalars. -/
theorem C26_derived_proof_scalars (h32 : S.scalarLen = 32) (hg : S.g1CompLen < 2 ^ 31) (ms : List S.F)
    (hn : ms.length ≤ 65535) (rawSig nonce rawPk : Bytes) (σ : Sig S) (w : S.G2)
    (hσ : parseSignature S rawSig = .ok σ) (hw : unmarshalPublicKey S rawPk = .ok w)
    (hv : Spec.Signature w (Spec.generator w ms.length 0) (Spec.generators w ms.length) σ.a σ.e σ.s ms)
    (revealed : List Nat) (h0 : revealed ≠ []) (hlen : revealed.length ≤ ms.length)
    (hr : ∀ r ∈ revealed, r < ms.length) (ρ : PoKRand S) (hρ : ρ.r1 ≠ 0) :
    ∃ proof, deriveProofZr L (ms.mapIdx fun i m => ⟨m, i⟩) rawSig nonce rawPk
        (revealed.map fun r : Nat => (r : Int)) ρ = .ok proof ∧
      verifyProofFr L ((Spec.shown revealed ms).mapIdx fun i m => ⟨m, i⟩) proof nonce rawPk = .ok () := by
  have ho : InOrder (S := S) (ms.mapIdx fun i m => ⟨m, i⟩) := by intro i h; simp
  have hm : ∀ xs : List S.F, (xs.mapIdx fun i m => (⟨m, i⟩ : SigMsg S)).map (·.fr) = xs := by
    intro xs; apply List.ext_getElem?; intro i; simp
    cases xs[i]? <;> rfl
  have hv' := (valid_iff_signature w ms.length σ ms rfl).mpr hv
  obtain ⟨proof, h1, h2⟩ := deriveProofZr_verifies L h32 hg (ms.mapIdx fun i m => ⟨m, i⟩) ho (by simpa using hn)
    rawSig nonce rawPk σ w hσ hw (by simpa [hm] using hv') revealed h0 (by simpa using hlen) (by simpa using hr) ρ hρ
  exact ⟨proof, h1, h2 _ (by rw [hm, hm])⟩

/-- **C26 (empty set).** Deriving a proof that reveals nothing is refused. -/
theorem C26_empty_refused (messages : List Bytes) (rawSig nonce rawPk : Bytes) (ρ : PoKRand S) :
    deriveProof L messages rawSig nonce rawPk [] ρ = .err "no message to reveal" := by
  simp [deriveProof, deriveProofZr]

set_option maxRecDepth 40000 in
example : ∃ proof, deriveProof L32 [[1], [2, 3], [4]] ([6] ++ Toy.enc32 2 ++ Toy.enc32 5) [9] (Toy.enc 3) [2, 0]
      ⟨3, 4, fun i => i, fun i => i + 2⟩ = .ok proof ∧
    verifyProof L32 [[1], [4]] proof [9] (Toy.enc 3) = .ok () :=
  ⟨_, rfl, by decide⟩

/-! ## C27 -/

/-- The challenge `VerifyProof` computes from the first messages of a proof. -/
def Spec.challenge (sp : SigProof S) (rs : List Nat) (w : S.G2) (n : Nat) (nonce : Bytes) : S.F :=
  frFromOKM L (S.g1Bytes sp.aBar ++ S.g1Bytes sp.aPrime ++ S.g1Bytes (Spec.generator w n 0) ++
    S.g1Bytes sp.vc1.commitment ++ S.g1Bytes sp.d ++ S.g1Bytes (Spec.generator w n 0) ++
    ((keepHidden rs 0 (Spec.generators w n)).map S.g1Bytes).flatten ++ S.g1Bytes sp.vc2.commitment ++
    S.zrBytes (frFromOKM L nonce))

theorem bytesForChallenge_ok {sp : SigProof S} {rs : List Nat} {w : S.G2} {n : Nat} {cb nonce : Bytes}
    (h : sp.bytesForChallenge rs (pkg w n) = .ok cb) :
    frFromOKM L (cb ++ nonceBytes L nonce) = Spec.challenge L sp rs w n nonce := by
  simp only [SigProof.bytesForChallenge, Res.bind_eq_ok, Res.pure_def, Res.ok.injEq, hiddenGens_eq] at h
  obtain ⟨_, _, h⟩ := h
  rw [← h]
  rfl

theorem verifyProofFr_ok {messages : List (SigMsg S)} {proof nonce rawPk : Bytes} {u : Unit}
    (h : verifyProofFr L messages proof nonce rawPk = .ok u) :
    ∃ n rs sp w, parsePoKPayload proof = .ok (n, rs) ∧
      parseSignatureProof S (proof.drop (2 + n / 8 + 1)) = .ok sp ∧ unmarshalPublicKey S rawPk = .ok w ∧
      n ≤ 65535 ∧ rs.length ≤ messages.length ∧
      sp.verify defaultVC2Verify (Spec.challenge L sp rs w n nonce) (pkg w n) rs messages = .ok u := by
  simp only [verifyProofFr, Res.bind_eq_ok, Res.guardErr_eq_ok, decide_eq_false_iff_not] at h
  obtain ⟨⟨n, rs⟩, hp, rest, hrest, sp, hsp, w, hw, pk, hpk, _, hlen, cb, hcb, hv⟩ := h
  obtain ⟨hn, hraw, _, _⟩ := parsePoKPayload_ok hp
  simp only [lenInBytes_nat, Int.toNat_natCast] at hrest
  rw [goSlice_ok_of hraw (Nat.le_refl _), List.take_length] at hrest
  cases hrest
  rw [toPKG_eq w n (by omega)] at hpk
  cases hpk
  rw [bytesForChallenge_ok L hcb] at hv
  exact ⟨n, rs, sp, w, hp, hsp, hw, hn, by simpa using hlen, hv⟩

/-- The verifier has got the same first messages. -/
def Spec.SameFirst (p q : SigProof S) : Prop :=
  p.aPrime = q.aPrime ∧ p.aBar = q.aBar ∧ p.d = q.d ∧ p.vc1.commitment = q.vc1.commitment ∧
    p.vc2.commitment = q.vc2.commitment

/-- A proof with as many responses as there are secrets for `n` messages of which those in `rs` are revealed. -/
def Spec.WellFormed (p : SigProof S) (rs : List Nat) (n : Nat) : Prop :=
  p.vc1.responses.length = 2 ∧ p.vc2.responses.length = 2 + ((List.range n).filter fun i => !rs.contains i).length

theorem hidden_count (rs : List Nat) (n : Nat) (xs : List S.G1) (hx : xs.length = n) :
    (keepHidden rs 0 xs).length = ((List.range n).filter fun i => !rs.contains i).length := by
  have key : ∀ (xs : List S.G1) i, (keepHidden rs i xs).length =
      ((List.range' i xs.length).filter fun i => !rs.contains i).length := by
    intro xs
    induction xs with
    | nil => intro i; rfl
    | cons x xs ih =>
      intro i
      simp only [keepHidden, List.length_cons, List.range'_succ, List.filter_cons]
      cases hc : rs.contains i <;> simp [ih (i + 1)]
  rw [key xs 0, hx, List.range_eq_range']

theorem sigProof_extract {pk : PKG S} (hone : S.zrOfInt 1 = 1) {rs : List Nat} {messages : List (SigMsg S)}
    {p q : SigProof S} {c₁ c₂ : S.F} (hs : Spec.SameFirst p q) (hc : c₁ ≠ c₂)
    (hcount : (rs.length : Int) ≤ 2 + pk.count) (hlen : (keepShown rs 0 pk.h).length ≤ messages.length)
    (hp1 : p.vc1.responses.length = 2) (hq1 : q.vc1.responses.length = 2)
    (hp2 : p.vc2.responses.length = (keepHidden rs 0 pk.h).length + 2)
    (hq2 : q.vc2.responses.length = (keepHidden rs 0 pk.h).length + 2)
    (h₁ : p.verify defaultVC2Verify c₁ pk rs messages = .ok ())
    (h₂ : q.verify defaultVC2Verify c₂ pk rs messages = .ok ()) :
    ∃ ms, Spec.Signature pk.w pk.h0 pk.h (Spec.extract p q c₁ c₂).A (Spec.extract p q c₁ c₂).e
        (Spec.extract p q c₁ c₂).s ms ∧
      Spec.shown rs ms = (messages.map (·.fr)).take (keepShown rs 0 pk.h).length ∧
      Spec.unshown rs ms = (Spec.extract p q c₁ c₂).hidden := by
  obtain ⟨e1, e2, e3, e4, e5⟩ := hs
  rw [sigProof_verify_ok_iff, defaultVC2Verify_eq hone _ _ _ _ _ _ hcount hlen, badSignature_ok,
    ProofG1.verify_exact _ _ _ _ (by simpa using hp1), ProofG1.verify_exact _ _ _ _ (by simpa using hp2)] at h₁
  rw [sigProof_verify_ok_iff, defaultVC2Verify_eq hone _ _ _ _ _ _ hcount hlen, badSignature_ok,
    ProofG1.verify_exact _ _ _ _ (by simpa using hq1), ProofG1.verify_exact _ _ _ _ (by simpa using hq2),
    ← e1, ← e2, ← e3, ← e4, ← e5] at h₂
  obtain ⟨a1, a2, a3⟩ := h₁
  obtain ⟨b1, b2, b3⟩ := h₂
  have x := schnorr_extract a2 b2 (by simpa using hp1) (by simpa using hq1) hc
  have y := schnorr_extract a3 b3 (by simpa using hp2) (by simpa using hq2) hc
  have hX : Spec.extract p q c₁ c₂ =
    (let x := (List.zipWith (· - ·) p.vc1.responses q.vc1.responses).map ((c₂ - c₁)⁻¹ * ·)
     let y := (List.zipWith (· - ·) p.vc2.responses q.vc2.responses).map ((c₂ - c₁)⁻¹ * ·)
     ⟨-y.getD 0 0 • p.aPrime, -x.getD 0 0, y.getD 1 0 - y.getD 0 0 * x.getD 1 0, y.drop 2⟩) := rfl
  rw [hX]
  clear hX
  set xs := (List.zipWith (· - ·) p.vc1.responses q.vc1.responses).map ((c₂ - c₁)⁻¹ * ·) with hxs
  set ys := (List.zipWith (· - ·) p.vc2.responses q.vc2.responses).map ((c₂ - c₁)⁻¹ * ·) with hys
  have lx : xs.length = 2 := by simp [hxs, hp1, hq1]
  have ly : ys.length = (keepHidden rs 0 pk.h).length + 2 := by simp [hys, hp2, hq2]
  match xs, lx with
  | [x0, x1], _ =>
    match ys, ly with
    | y0 :: y1 :: yt, ly =>
      have lyt : yt.length = (keepHidden rs 0 pk.h).length := by simpa using ly
      set sh := (messages.map (·.fr)).take (keepShown rs 0 pk.h).length with hsh
      have lsh : sh.length = (keepShown rs 0 pk.h).length := by simp [hsh]; omega
      obtain ⟨m1, m2, m3⟩ := merge_spec rs pk.h 0 sh yt lsh lyt
      refine ⟨merge rs pk.h.length 0 sh yt, ⟨m1, ?_⟩, by rw [shown_eq, m2], by rw [unshown_eq, m3]; rfl⟩
      simp only [List.getD_cons_zero, List.getD_cons_succ]
      rw [← lin_sum, lin_keep rs 0 _ pk.h m1, m2, m3]
      simp only [Suite.lin_cons, Suite.lin_nil_left] at x y
      have hd : p.d = p.aBar - x0 • p.aPrime - x1 • pk.h0 := by
        have : x0 • p.aPrime + x1 • pk.h0 = p.aBar - p.d := by simpa using x
        rw [eq_comm, sub_sub, this]; abel
      have hB : S.genG1 + (y1 - y0 * x1) • pk.h0 + (S.lin sh (keepShown rs 0 pk.h) +
          S.lin yt (keepHidden rs 0 pk.h)) = -y0 • p.aBar + (y0 * x0) • p.aPrime := by
        rw [discValue, ← lin_take (messages.map (·.fr)), ← hsh] at y
        have y' : S.lin yt (keepHidden rs 0 pk.h) =
            -(S.genG1 + S.lin sh (keepShown rs 0 pk.h)) - y0 • p.d - y1 • pk.h0 := by
          rw [← y]; abel
        rw [y', hd]
        module
      rw [hB]
      simp only [map_add, map_smul, LinearMap.add_apply, LinearMap.smul_apply, a1]
      module

/-- **C27 (partial).** Let two proofs with the same payload and equal first messages be accepted for the same
revealed messages, under possibly different random oracles and nonces, with different challenges. Provided
that the proofs have the right number of responses, the extractor `Spec.extract` computes a signature under the
public key on a vector of `n` scalars, whose entries at the revealed positions are the messages the verifier passed,
and whose other entries are the extracted ones.
What is missing: the code does not check the number of responses, and without that the property is false
(`C27_violated`); also the verifier cannot choose the revealed positions, and surplus messages are ignored
(`C27_surplus_violated`). -/
theorem C27_extraction_partial (L₁ L₂ : Lib S) (messages : List (SigMsg S)) (proof₁ proof₂ nonce₁ nonce₂ rawPk : Bytes)
    (n : Nat) (rs : List Nat) (p q : SigProof S) (w : S.G2)
    (h₁ : verifyProofFr L₁ messages proof₁ nonce₁ rawPk = .ok ())
    (h₂ : verifyProofFr L₂ messages proof₂ nonce₂ rawPk = .ok ())
    (hp : parsePoKPayload proof₁ = .ok (n, rs)) (hq : parsePoKPayload proof₂ = .ok (n, rs))
    (hp' : parseSignatureProof S (proof₁.drop (2 + n / 8 + 1)) = .ok p)
    (hq' : parseSignatureProof S (proof₂.drop (2 + n / 8 + 1)) = .ok q)
    (hw : unmarshalPublicKey S rawPk = .ok w) (hs : Spec.SameFirst p q)
    (wp : Spec.WellFormed p rs n) (wq : Spec.WellFormed q rs n)
    (hc : Spec.challenge L₁ p rs w n nonce₁ ≠ Spec.challenge L₂ q rs w n nonce₂) :
    let x := Spec.extract p q (Spec.challenge L₁ p rs w n nonce₁) (Spec.challenge L₂ q rs w n nonce₂)
    ∃ ms, Spec.Signature w (Spec.generator w n 0) (Spec.generators w n) x.A x.e x.s ms ∧
      Spec.shown rs ms = (messages.map (·.fr)).take (Spec.shown rs ms).length ∧ Spec.unshown rs ms = x.hidden := by
  obtain ⟨n₁, rs₁, sp₁, w₁, a1, a2, a3, a4, a5, a6⟩ := verifyProofFr_ok L₁ h₁
  obtain ⟨n₂, rs₂, sp₂, w₂, b1, b2, b3, b4, b5, b6⟩ := verifyProofFr_ok L₂ h₂
  rw [hp] at a1; cases a1
  rw [hq] at b1; cases b1
  rw [hp'] at a2; cases a2
  rw [hq'] at b2; cases b2
  rw [hw] at a3 b3; cases a3; cases b3
  have hk := hidden_count rs n (pkg w n).h (by simp)
  have hsl : (keepShown rs 0 (pkg w n).h).length ≤ rs.length := keepShown_length_le rs 0 _
  have hcount : (rs.length : Int) ≤ 2 + (pkg w n).count := by
    have a7 := (sigProof_verify_ok_iff _ _ _ _ _ _).mp a6
    simp only [defaultVC2Verify, Res.bind_eq_ok, Res.guardPanic_eq_ok, decide_eq_false_iff_not] at a7
    obtain ⟨_, _, _, h, _⟩ := a7
    omega
  obtain ⟨ms, r1, r2, r3⟩ := sigProof_extract L₁.zrOfInt_one hs hc hcount (by omega) wp.1 wq.1
    (by rw [wp.2, hk]; omega) (by rw [wq.2, hk]; omega) a6 b6
  refine ⟨ms, r1, ?_, r3⟩
  rw [r2]
  simp

/-- A proof made from nothing: all points zero, and one response too many in both parts. -/
def Spec.forgery (S : Suite) (n hidden : Nat) (bits : Bytes) : Bytes :=
  beBytes 2 n ++ bits ++
    (S.g1Comp 0 ++ S.g1Comp 0 ++ S.g1Comp 0 ++ beBytes 4 (S.g1CompLen + 4 + 3 * 32) ++
      (S.g1Comp 0 ++ beBytes 4 3 ++ (List.replicate 3 (S.zrBytes 0)).flatten) ++
      (S.g1Comp 0 ++ beBytes 4 (2 + hidden + 1) ++ (List.replicate (2 + hidden + 1) (S.zrBytes 0)).flatten))

theorem lin_zeros (k : Nat) (c : S.F) (Ps : List S.G1) (h : Ps.length ≤ k) :
    S.lin (List.replicate k 0 ++ [c]) Ps = 0 := by
  induction Ps generalizing k with
  | nil => simp
  | cons P Ps ih =>
    cases k with
    | zero => simp at h
    | succ k => rw [List.replicate_succ, List.cons_append, Suite.lin_cons, ih k (by simpa using h)]; simp

/-- **C27 (violated).** `ProofG1.Verify` does not compare the number of responses with the number of bases; with
one response too many the challenge is paired with nothing. So there is, for every message count and every set
of revealed positions, a fixed byte string that is accepted as a proof under every public key, for all messages
and nonces. Neither key nor signature is used to make it. -/
theorem C27_violated (h32 : S.scalarLen = 32) (hg : S.g1CompLen < 2 ^ 31) (n : Nat) (hn : n ≤ 65535)
    (revealed : List Nat) (hr : ∀ r ∈ revealed, r < n) :
    ∃ bits : Bytes, ∀ (w : S.G2) (messages : List Bytes) (nonce : Bytes), revealed.length ≤ messages.length →
      verifyProof L messages (Spec.forgery S n n bits) nonce (S.g2Comp w) = .ok () := by
  obtain ⟨bv, _, pl, pf⟩ := payload_toBytes n revealed hn (fun r h => by have := hr r h; omega)
  refine ⟨bv.reverse, fun w messages nonce hl => ?_⟩
  set sp : SigProof S := ⟨0, 0, 0, ⟨0, List.replicate 3 0⟩, ⟨0, List.replicate (2 + n + 1) 0⟩⟩ with hsp
  have l1 : sp.vc1.enc.length = S.g1CompLen + 4 + 3 * 32 := by
    rw [ProofG1.enc_length h32]; simp [hsp, frLen]
  have henc : Spec.forgery S n n bv.reverse = beBytes 2 n ++ bv.reverse ++ sp.enc := by
    simp only [Spec.forgery, SigProof.enc, l1]
    simp [hsp, ProofG1.enc, List.map_replicate]
  set rs' := (List.range (8 * (n / 8 + 1))).filter fun i => bvBit bv i with hrs''
  have hm' : ∀ i, i ∈ rs' ↔ i ∈ revealed := by
    intro i
    rw [hrs'', List.mem_filter, pf, List.mem_range, decide_eq_true_eq]
    constructor
    · exact fun hi => hi.2
    · intro hi; have := hr i hi; exact ⟨by omega, hi⟩
  have hsort : rs'.Pairwise (· < ·) := (List.pairwise_lt_range).filter _
  have hlt : ∀ r ∈ rs', r < n := fun r hi => hr r ((hm' r).mp hi)
  have hk := revealed_length hsort hlt (pkg w n).h (by simp)
  have hcount : rs'.length ≤ n := by
    have := keep_length rs' 0 (pkg w n).h
    rw [pkg_h_length] at this
    omega
  have hle : rs'.length ≤ revealed.length := by
    refine (List.Nodup.subperm (hsort.imp (fun h => by omega)) ?_).length_le
    exact fun i hi => (hm' i).mp hi
  have hpay := parsePoKPayload_bytes n bv sp.enc hn pl
  have hoff : (lenInBytes ((n : Nat) : Int)).toNat = (beBytes 2 n ++ bv.reverse).length := by
    rw [lenInBytes_nat]; simp [pl]; omega
  have hsl2 := goSlice_mid (beBytes 2 n ++ bv.reverse) sp.enc []
  rw [List.append_nil] at hsl2
  have hparse := parseSignatureProof_enc h32 sp [] (by simp [hsp]) (by rw [l1]; omega) (by simp [hsp]; omega)
  rw [List.append_nil] at hparse
  have g2 : decide ((messagesToFr L messages).length < rs'.length) = false := by simp; omega
  have g3 : decide ((7 + ((pkg w n).count - (rs'.length : Int))) * (S.g1CompLen : Int) < 0) = false := by
    rw [decide_eq_false_iff_not, not_lt, pkg_count]
    apply mul_nonneg <;> omega
  obtain ⟨cb, hcb⟩ : ∃ cb, sp.bytesForChallenge rs' (pkg w n) = .ok cb := by
    simp only [SigProof.bytesForChallenge]
    rw [g3]
    exact ⟨_, rfl⟩
  rw [verifyProof, henc]
  simp only [verifyProofFr, hpay, Res.ok_bind, hoff]
  rw [List.length_append (as := beBytes 2 n ++ bv.reverse), hsl2]
  simp only [Res.ok_bind, hparse, unmarshalPublicKey_comp, toPKG_eq w n (by omega), ← hrs'', g2, Res.guardErr_false,
    hcb]
  rw [sigProof_verify_ok_iff, defaultVC2Verify_eq L.zrOfInt_one _ _ _ _ _ _ (by simp only [pkg_count]; omega)
    (by rw [hk, messagesToFr_length]; omega), badSignature_ok, ProofG1.verify_ok_iff, ProofG1.verify_ok_iff]
  have hh := keep_length rs' 0 (pkg w n).h
  rw [pkg_h_length] at hh
  refine ⟨by simp [hsp], ⟨by simp [hsp], ?_⟩, by simp [hsp]; omega, ?_⟩
  · exact lin_zeros 3 _ _ (by simp)
  · exact lin_zeros (2 + n + 1) _ _ (by simp; omega)

set_option maxRecDepth 40000 in
example : ∀ m : UInt8, m ∈ [1, 2, 77] →
    verifyProof L32 [[m]] (Spec.forgery S32 3 3 [4]) [5] (Toy.enc 3) = .ok () := by decide

/-- **C27 (violated, surplus messages).** If a proof is accepted for some revealed messages then it is accepted for
these followed by any others: a verifier who passes more messages than the proof reveals is not told. -/
theorem C27_surplus_violated (messages extra : List Bytes) (proof nonce rawPk : Bytes)
    (h : verifyProof L messages proof nonce rawPk = .ok ()) :
    verifyProof L (messages ++ extra) proof nonce rawPk = .ok () := by
  have hf : ∃ e', (messagesToFr L (messages ++ extra)) = messagesToFr L messages ++ e' :=
    ⟨_, by rw [messagesToFr, List.mapIdx_append]; rfl⟩
  obtain ⟨e', he⟩ := hf
  unfold verifyProof at h ⊢
  rw [he]
  simp only [verifyProofFr, Res.bind_eq_ok, Res.guardErr_eq_ok, decide_eq_false_iff_not] at h ⊢
  obtain ⟨⟨n, rs⟩, hp, rest, hrest, sp, hsp, w, hw, pk, hpk, _, hlen, cb, hcb, hv⟩ := h
  refine ⟨⟨n, rs⟩, hp, rest, hrest, sp, hsp, w, hw, pk, hpk, (), ?_, cb, hcb, ?_⟩
  · simp only [List.length_append] at hlen ⊢; omega
  · obtain ⟨_, _, rfl⟩ := toPKG_ok hpk
    rw [sigProof_verify_ok_iff] at hv ⊢
    refine ⟨hv.1, hv.2.1, ?_⟩
    have hv3 := hv.2.2
    have hc : (rs.length : Int) ≤ 2 + (pkg w (n : Int).toNat).count := by
      simp only [defaultVC2Verify, Res.bind_eq_ok, Res.guardPanic_eq_ok, decide_eq_false_iff_not] at hv3
      obtain ⟨_, h, _⟩ := hv3
      omega
    have hs : (keepShown rs 0 (pkg w (n : Int).toNat).h).length ≤ (messagesToFr L messages).length := by
      have := keepShown_length_le rs 0 (pkg w (n : Int).toNat).h
      simp only at hlen
      omega
    rw [defaultVC2Verify_eq L.zrOfInt_one _ _ _ _ _ _ hc hs] at hv3
    rw [defaultVC2Verify_eq L.zrOfInt_one _ _ _ _ _ _ hc (by simp only [List.length_append]; omega)]
    have e : discValue (pkg w (n : Int).toNat) rs ((messagesToFr L messages ++ e').map (·.fr)) =
        discValue (pkg w (n : Int).toNat) rs ((messagesToFr L messages).map (·.fr)) := by
      unfold discValue
      rw [← lin_take, List.map_append, List.take_append_of_le_length (by simpa using hs), lin_take]
    rw [e]
    exact hv3

end Idemix.Bbs
