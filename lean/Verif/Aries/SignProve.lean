import Verif.Aries.SignLemmas

/-!
# Aries signatures: the honest signer's run and the verifier's
-/

namespace Idemix.Aries

open Bbs
open Dlog (SigType VerType AuditData SignerMetadata)

variable {S : Suite} (L : Lib S)

/-- Which verification types are meant for which signature types. -/
def Spec.Matches (t : SigType) (v : VerType) : Prop :=
  (t = .standard ∧ (v = .expectStandard ∨ v = .bestEffort ∨ v = .basic)) ∨
  (t = .eidNym ∧ (v = .expectEidNym ∨ v = .bestEffort)) ∨
  (t = .eidNymRhNym ∧ (v = .expectEidNymRhNym ∨ v = .bestEffort)) ∨
  (t = .smartcard ∧ v = .expectSmartcard) ∨ (t = .smartcardNoNyms ∧ v = .expectSmartcardNoNyms)

/-! ## Proofs about two bases -/

/-- The committed proof for two bases. -/
def pairComm (h0 h : S.G1) (t0 t1 : S.F) : Committed S := ⟨[h0, h], [t0, t1], t0 • h0 + t1 • h⟩

/-- The proof for two bases. -/
def pairProof (h0 h : S.G1) (t0 t1 c r v : S.F) : ProofG1 S := ⟨t0 • h0 + t1 • h, [t0 - c * r, t1 - c * v]⟩

theorem finish_pair (h0 h : S.G1) (t0 t1 : S.F) : finish [h0, h] [t0, t1] = .ok (pairComm h0 h t0 t1) := by
  rw [finish, build_eq (by simp) (by simp)]
  simp [pairComm]

theorem pairComm_generate (h0 h : S.G1) (t0 t1 c r v : S.F) :
    (pairComm h0 h t0 t1).generateProof c [r, v] = .ok (pairProof h0 h t0 t1 c r v) := by
  simp [Committed.generateProof, pairComm, pairProof]

theorem pairProof_verifies (h0 h : S.G1) (t0 t1 c r v : S.F) :
    (pairProof h0 h t0 t1 c r v).verify [h0, h] (r • h0 + v • h) c = .ok () := by
  rw [ProofG1.verify_exact _ _ _ _ (by simp [pairProof])]
  simp only [pairProof, Suite.lin_cons, Suite.lin_nil_left]
  module

theorem checkComm_pair (pk : PKG S) (sp : SigProof S) (H : S.G1) (t0 t1 c r v : S.F) (e i : Nat)
    (hH : pk.h[e]? = some H) (hr : sp.vc2.responses[i]? = some (t1 - c * v)) (idx resp : Int) (he : idx = e)
    (hi : resp = i) :
    checkComm pk sp (pairProof pk.h0 H t0 t1 c r v) (r • pk.h0 + v • H) idx resp c = .ok () := by
  subst he hi
  have h1 : Res.index (pairProof pk.h0 H t0 t1 c r v).responses 1 = .ok (t1 - c * v) := by
    have := Res.index_nat (pairProof pk.h0 H t0 t1 c r v).responses 1
    rw [show (1 : Int) = ((1 : Nat) : Int) from rfl, this]
    rfl
  rw [checkComm, h1]
  simp only [Res.ok_bind, Res.index_nat, hr, Res.deref_some, ne_eq, not_true_eq_false, decide_false,
    Res.guardErr_false, hH]
  exact pairProof_verifies _ _ _ _ _ _ _

/-! ## The main proof -/

/-- Shape of the second commitment of a proof of knowledge. -/
structure Honest (pk : PKG S) (vals : List S.F) (rs : List Nat) (pok : PoK S) : Prop where
  bases : pok.vc2.bases = pok.d :: pk.h0 :: keepHidden rs 0 pk.h
  blind : pok.vc2.blind.length = pok.vc2.bases.length
  secrets : ∃ a b, pok.secrets2 = a :: b :: keepHidden rs 0 vals
  len : vals.length = pk.h.length

/-- The blinding factor at a position. -/
def blindAt (pok : PoK S) (i : Nat) : S.F := pok.vc2.blind.getD i 0

variable {pk : PKG S} {vals : List S.F} {rs : List Nat} {pok : PoK S}

theorem Honest.base (h : Honest pk vals rs pok) (e : Nat) (H : S.G1) (he : pk.h[e]? = some H) (hn : e ∉ rs) :
    pok.vc2.bases[2 + rank rs e]? = some H := by
  obtain ⟨hl, hH⟩ := List.getElem?_eq_some_iff.mp he
  rw [h.bases, Nat.add_comm, List.getElem?_cons_succ, List.getElem?_cons_succ, keepHidden_rank rs pk.h e hl hn, hH]

theorem Honest.lt (h : Honest pk vals rs pok) (e : Nat) (he : e < pk.h.length) (hn : e ∉ rs) :
    2 + rank rs e < pok.vc2.bases.length :=
  (List.getElem?_eq_some_iff.mp (h.base e _ (List.getElem?_eq_getElem he) hn)).1

theorem Honest.blind_at (h : Honest pk vals rs pok) (e : Nat) (he : e < pk.h.length) (hn : e ∉ rs) :
    pok.vc2.blind[2 + rank rs e]? = some (blindAt pok (2 + rank rs e)) := by
  have := h.lt e he hn
  rw [← h.blind] at this
  rw [blindAt, List.getD_eq_getElem?_getD, List.getElem?_eq_getElem this]
  rfl

theorem Honest.response (h : Honest pk vals rs pok) (e : Nat) (v : S.F) (he : vals[e]? = some v) (hn : e ∉ rs)
    (c : S.F) :
    (pok.respond c).vc2.responses[2 + rank rs e]? = some (blindAt pok (2 + rank rs e) - c * v) := by
  obtain ⟨hl, hv⟩ := List.getElem?_eq_some_iff.mp he
  obtain ⟨a, b, hs⟩ := h.secrets
  have hsec : pok.secrets2[2 + rank rs e]? = some v := by
    rw [hs, Nat.add_comm, List.getElem?_cons_succ, List.getElem?_cons_succ, keepHidden_rank rs vals e hl hn, hv]
  simp only [PoK.respond, List.getElem?_zipWith, h.blind_at e (by rw [← h.len]; exact hl) hn, hsec]

theorem honest_honest (σ : Sig S) (ms : List S.F) (rs : List Nat) (pk : PKG S) (ρ : PoKRand S)
    (hl : ms.length = pk.h.length) : Honest pk ms rs (honestPoK σ ms rs pk ρ) :=
  ⟨rfl, by simp [honestPoK], ⟨_, _, rfl⟩, hl⟩

theorem card_honest (σ : Sig S) (ms : List S.F) (rs : List Nat) (pk : PKG S) (r : S.F) (ρ : PoKRand S)
    (hl : ms.length = pk.h.length) : Honest pk ms (0 :: rs) (cardHonest σ ms rs pk r ρ) :=
  ⟨rfl, by simp [cardHonest, honestPoK], ⟨_, _, rfl⟩, hl⟩

/-! ## Commitments -/

/-- Metadata passed to the signer fits: the attribute is the credential's and the commitment is the one that the
randomness gives. -/
def Spec.Fits (h0 h : S.G1) (value : S.F) (a : Option (AuditData S)) : Prop :=
  ∀ d, a = some d → d.attr = value ∧ d.nym = some (d.rand • h0 + value • h)

/-- The randomness that is used. -/
def usedRand (a : Option (AuditData S)) (fresh : S.F) : S.F := (a.map (·.rand)).getD fresh

/-- The commitment an honest signer makes to the attribute at generator `e`. -/
def attrC (pk : PKG S) (pok : PoK S) (rs : List Nat) (e : Nat) (H : S.G1) (r v t0 : S.F) : AttrComm S :=
  ⟨2 + rank rs e, pairComm pk.h0 H t0 (blindAt pok (2 + rank rs e)), r • pk.h0 + v • H, r⟩

theorem attrNym_eq (pk : PKG S) (e : Nat) (H : S.G1) (hH : pk.h[e]? = some H) (v : S.F) (a : Option (AuditData S))
    (fresh : S.F) (hf : Spec.Fits pk.h0 H v a) :
    attrNym pk v e a fresh = .ok (usedRand a fresh • pk.h0 + v • H, usedRand a fresh) := by
  cases a with
  | none =>
    simp only [attrNym, Res.index_nat, hH, Res.deref_some, Res.ok_bind]
    rw [build_eq (by simp) (by simp)]
    simp [usedRand]
  | some d =>
    obtain ⟨h1, h2⟩ := hf d rfl
    simp only [attrNym, Res.index_nat, hH, Res.deref_some, Res.ok_bind, h1, ne_eq, not_true_eq_false, decide_false,
      Res.guardErr_false]
    rw [build_eq (by simp) (by simp)]
    simp [usedRand, h2]

theorem attrCommitment_eq (h : Honest pk vals rs pok) (e : Nat) (H : S.G1) (hH : pk.h[e]? = some H) (hn : e ∉ rs)
    (v : S.F) (a : Option (AuditData S)) (fresh t0 : S.F) (hf : Spec.Fits pk.h0 H v a)
    (hd : (pk.h0 :: pk.h).Nodup) (hD : pok.d ∉ pk.h) :
    attrCommitment pk pok v e a fresh t0 = .ok (attrC pk pok rs e H (usedRand a fresh) v t0) := by
  have hb := h.base e H hH hn
  obtain ⟨hl, _⟩ := List.getElem?_eq_some_iff.mp hH
  have hbl := h.blind_at e hl hn
  have hfind : indexInCommitment pok.vc2 e pk = .ok (2 + rank rs e) := by
    simp only [indexInCommitment, Res.index_nat, hH, Res.deref_some, Res.ok_bind]
    have hb' := hb
    rw [h.bases, Nat.add_comm, List.getElem?_cons_succ] at hb'
    have hnd : (pk.h0 :: keepHidden rs 0 pk.h).Nodup :=
      hd.sublist ((keepHidden_sublist rs 0 pk.h).cons_cons _)
    have hne : ¬ H = pok.d := fun e => hD (e ▸ List.mem_of_getElem? hH)
    rw [h.bases, List.findIdx?_cons]
    simp only [hne, decide_false, Bool.false_eq_true, if_false]
    rw [findIdx_first _ H _ hb' hnd]
    simp only [Option.map_some, Res.ofOption_some]
    congr 1
    omega
  simp only [attrCommitment, attrNym_eq pk e H hH v a fresh hf, Res.ok_bind, hfind, Res.index_nat, hH,
    Res.deref_some, hbl, finish_pair, Res.pure_def, attrC]

theorem commitNym_eq (h : Honest pk vals rs pok) (k : Nat) (H : S.G1) (hH : pk.h[k]? = some H)
    (hn : ∀ i ≤ k, i ∉ rs) (t0 : S.F) :
    commitNym pk pok k t0 = .ok (pairComm pk.h0 H t0 (blindAt pok (2 + k))) := by
  obtain ⟨hl, _⟩ := List.getElem?_eq_some_iff.mp hH
  have hbl := h.blind_at k hl (hn k (Nat.le_refl k))
  rw [rank_all rs k (fun i hi => hn i (by omega))] at hbl
  have e : (2 : Int) + (k : Int) = ((2 + k : Nat) : Int) := by push_cast; ring
  simp only [commitNym, Res.index_nat, hH, Res.deref_some, Res.ok_bind, e, hbl, finish_pair]

/-! ## Packaging -/

/-- The signature an honest signer sends. -/
def packSig (payload : Bytes) (sp : SigProof S) (nonce : S.F) (nym : S.G1) (pn : Option (ProofG1 S))
    (eid : Option (AttrComm S)) (pe : Option (ProofG1 S)) (rh : Option (AttrComm S)) (pr : Option (ProofG1 S))
    (cri : CRI) : Signature :=
  ⟨payload ++ sp.enc, S.zrBytes nonce, S.g1Bytes nym, (pn.map (·.enc)).getD [],
    (eid.map fun a => S.g1Bytes a.comm).getD [], (pe.map (·.enc)).getD [], ((eid.map (·.index)).getD 0 : Nat),
    (rh.map fun a => S.g1Bytes a.comm).getD [], (pr.map (·.enc)).getD [], ((rh.map (·.index)).getD 0 : Nat),
    cri.epochPk, cri.epochPkSig, cri.epoch, some ⟨cri.alg, []⟩⟩

/-- The number of responses fits the encoding. -/
def Small (p : Option (ProofG1 S)) : Prop := ∀ q, p = some q → q.responses.length ≤ 0xFFFFFFFF

theorem proofBytes_eq (p : Option (ProofG1 S)) (h : Small p) : proofBytes p = .ok ((p.map (·.enc)).getD []) := by
  cases p with
  | none => rfl
  | some p => simp [proofBytes, p.toBytes_eq (h p rfl)]

theorem onlyIf_eq {α : Type} (b : Bool) (x : Res α) (y : α) (h : b = true → x = .ok y) :
    onlyIf b x = .ok (if b then some y else none) := by
  cases b
  · rfl
  · simp [onlyIf, h rfl]; rfl

theorem onlyIf_map {α β : Type} (b : Bool) (x : Res α) (o : Option β) (f : β → α) (h : o.isSome = b)
    (hx : ∀ y, o = some y → x = .ok (f y)) : onlyIf b x = .ok (o.map f) := by
  subst h
  cases o with
  | none => rfl
  | some y => simp [onlyIf, hx y rfl]; rfl

theorem criCodec_wire {raw : Bytes} {c : CRI} (h : Wire.criCodec.unmarshal raw = .ok c) : c.Wire := by
  simp only [Wire.criCodec, Proto.codec, Res.ofOption_eq_ok, Option.bind_eq_some_iff, Wire.criOf,
    Option.some.injEq] at h
  obtain ⟨m, _, rfl⟩ := h
  constructor
  · simp only [Proto.getInt64, Proto.signed64, Proto.Int64]; split <;> omega
  · simp only [Proto.getInt32, Proto.signed32, Proto.Int32]; split <;> omega

/-! ## The verifier's flags -/

theorem flags {t : SigType} {v : VerType} (h : Spec.Matches t v) (sig : Signature)
    (he : sig.nymEid.isEmpty = !eidEnabled t) (hep : sig.nymEidProof.isEmpty = !eidEnabled t)
    (hr : sig.nymRh.isEmpty = !rhEnabled t) (hrp : sig.nymRhProof.isEmpty = !rhEnabled t) :
    cardVer v = cardType t ∧ wantEid sig v = eidEnabled t ∧ wantRh sig v = rhEnabled t ∧
      checkPresence sig v = .ok () ∧ sigLabel t = .ok (verLabel sig v) ∧
      (decide (t = .eidNym) || decide (t = .eidNymRhNym) || decide (t = .smartcard)) = eidEnabled t := by
  rcases h with ⟨rfl, rfl | rfl | rfl⟩ | ⟨rfl, rfl | rfl⟩ | ⟨rfl, rfl | rfl⟩ | ⟨rfl, rfl⟩ | ⟨rfl, rfl⟩ <;>
    simp [eidEnabled, rhEnabled] at he hep hr hrp <;>
    simp [cardVer, cardType, wantEid, wantRh, checkPresence, sigLabel, verLabel, eidEnabled, rhEnabled, he, hep, hr, hrp]

/-! ## The signer's run -/

theorem respond_if (b : Bool) (a : AttrComm S) (c m : S.F) (p : ProofG1 S)
    (h : a.proof.generateProof c [a.r, m] = .ok p) :
    respond ((if b then some a else none : Option (AttrComm S)).map (·.proof)) c
      [((if b then some a else none : Option (AttrComm S)).map (·.r)).getD 0, m] = .ok (if b then some p else none) := by
  cases b
  · rfl
  · simp [respond, h]

theorem respond_nym_if (b : Bool) (a : Committed S) (c : S.F) (ms : List S.F) (p : ProofG1 S)
    (h : a.generateProof c ms = .ok p) :
    respond (if b then some a else none : Option (Committed S)) c ms = .ok (if b then some p else none) := by
  cases b
  · rfl
  · simp [respond, h]

/-- What is hashed of an attribute commitment. -/
def commHash (b : Bool) (a : AttrComm S) : Bytes :=
  if b then S.g1Bytes a.comm ++ S.g1Bytes a.proof.commitment else []

theorem hashComm_if (b : Bool) (a : AttrComm S) :
    hashComm b (if b then some a else none) = .ok (commHash b a) := by
  cases b
  · rfl
  · simp [hashComm, commHash]

/-- What is hashed of the pseudonym's proof. -/
def nymHash (b : Bool) (a : Committed S) : Bytes := if b then S.g1Bytes a.commitment else []

theorem hashNym_if (b : Bool) (a : Committed S) : hashNym b (if b then some a else none) = .ok (nymHash b a) := by
  cases b
  · rfl
  · simp [hashNym, nymHash]

/-- The challenge of an honest signature. -/
def honestChallenge (label : Bytes) (pok : PoK S) (nym : S.G1) (t : SigType) (cn : Committed S) (E R : AttrComm S)
    (msg : Bytes) (nonce : S.F) : S.F :=
  withNonce L (frFromOKM L (label ++ pok.toBytes ++ S.g1Bytes nym ++ nymHash (!cardType t) cn ++
    commHash (eidEnabled t) E ++ commHash (rhEnabled t) R ++ nonceBytes L msg)) (S.zrBytes nonce)

/-- The signature of an honest signer. -/
def honestSig (payload : Bytes) (t : SigType) (pk : PKG S) (pok : PoK S) (rs : List Nat) (k e r : Nat)
    (Hk He Hr : S.G1) (sk rNym mE mR rE rR : S.F) (cri : CRI) (ρ : SignRand S) (ch : S.F) : Signature :=
  packSig payload (pok.respond ch) ρ.nonce (rNym • pk.h0 + sk • Hk)
    (if !cardType t then some (pairProof pk.h0 Hk ρ.nym0 (blindAt pok (2 + k)) ch rNym sk) else none)
    (if eidEnabled t then some (attrC pk pok rs e He rE mE ρ.eid0) else none)
    (if eidEnabled t then some (pairProof pk.h0 He ρ.eid0 (blindAt pok (2 + rank rs e)) ch rE mE) else none)
    (if rhEnabled t then some (attrC pk pok rs r Hr rR mR ρ.rh0) else none)
    (if rhEnabled t then some (pairProof pk.h0 Hr ρ.rh0 (blindAt pok (2 + rank rs r)) ch rR mR) else none) cri

theorem rhEnabled_eid {t : SigType} (h : rhEnabled t = true) : eidEnabled t = true := by
  simp only [rhEnabled, decide_eq_true_eq] at h
  subst h
  rfl

theorem sign_eq (w : S.G2) (n k e r : Nat) (credBytes criRaw msg payload label : Bytes) (c : Credential) (cri : CRI)
    (attributes : List IdemixAttribute) (sk rNym mE mR : S.F) (Hk He Hr : S.G1) (vals : List S.F) (rs : List Nat)
    (pok : PoK S) (eidIndex rhIndex : Int) (t : SigType) (md : Option (SignerMetadata S)) (ρ : SignRand S)
    (hargs : signArgs attributes rhIndex eidIndex t = .ok ())
    (hcri : Wire.criCodec.unmarshal criRaw = .ok cri) (halg : cri.alg = 0)
    (hc : Wire.credCodec.unmarshal credBytes = .ok c) (hk : c.skPos = k)
    (hpok : getPoK c attributes sk (pkg w (n + 1)) t (rNym • (pkg w (n + 1)).h0 + sk • Hk) rNym ρ.pok =
      .ok (pok, tag 0 vals))
    (hon : Honest (pkg w (n + 1)) vals rs pok) (hgen : ∀ ch, pok.generateProof ch = .ok (pok.respond ch))
    (hse : shiftIndex eidIndex k = e) (hsr : shiftIndex rhIndex k = r)
    (hHk : (pkg w (n + 1)).h[k]? = some Hk) (hHe : (pkg w (n + 1)).h[e]? = some He)
    (hHr : (pkg w (n + 1)).h[r]? = some Hr) (hmE : vals[e]? = some mE) (hmR : vals[r]? = some mR)
    (hnk : cardType t = false → ∀ i ≤ k, i ∉ rs) (hne : eidEnabled t = true → e ∉ rs)
    (hnr : rhEnabled t = true → r ∉ rs)
    (hd : eidEnabled t = true → ((pkg w (n + 1)).h0 :: (pkg w (n + 1)).h).Nodup ∧ pok.d ∉ (pkg w (n + 1)).h)
    (hfe : eidEnabled t = true → Spec.Fits (pkg w (n + 1)).h0 He mE (md.bind (·.eidNymAuditData)))
    (hfr : rhEnabled t = true → Spec.Fits (pkg w (n + 1)).h0 Hr mR (md.bind (·.rhNymAuditData)))
    (hlab : sigLabel t = .ok label)
    (hflag : (decide (t = .eidNym) || decide (t = .eidNymRhNym) || decide (t = .smartcard)) = eidEnabled t)
    (hpay : Payload.toBytes ⟨attributes.length + 1,
      (revealedAttributesIndex attributes).map fun i : Nat => (i : Int)⟩ = .ok payload)
    (hsmall : ∀ ch, (pok.respond ch).toBytes = .ok (pok.respond ch).enc) :
    let rE := usedRand (md.bind (·.eidNymAuditData)) ρ.rEid
    let rR := usedRand (md.bind (·.rhNymAuditData)) ρ.rRh
    let E := attrC (pkg w (n + 1)) pok rs e He rE mE ρ.eid0
    let R := attrC (pkg w (n + 1)) pok rs r Hr rR mR ρ.rh0
    let ch := honestChallenge L label pok (rNym • (pkg w (n + 1)).h0 + sk • Hk) t
      (pairComm (pkg w (n + 1)).h0 Hk ρ.nym0 (blindAt pok (2 + k))) E R msg ρ.nonce
    sign L credBytes sk (rNym • (pkg w (n + 1)).h0 + sk • Hk) rNym (.val (ipkFor w n)) attributes msg rhIndex eidIndex
        criRaw t md ρ =
      .ok (Proto.encode (Wire.sig (honestSig payload t (pkg w (n + 1)) pok rs k e r Hk He Hr sk rNym mE mR rE rR cri
        ρ ch)), signMeta t (if eidEnabled t then some E else none) (if rhEnabled t then some R else none) mE mR) := by
  intro rE rR E R ch
  have galg : decide (cri.alg ≠ 0) = false := by simp [halg]
  have s1 : onlyIf (!cardType t) (commitNym (pkg w (n + 1)) pok k ρ.nym0) =
      .ok (if !cardType t then some (pairComm (pkg w (n + 1)).h0 Hk ρ.nym0 (blindAt pok (2 + k))) else none) := by
    apply onlyIf_eq
    intro h
    exact commitNym_eq hon k Hk hHk (hnk (by simpa using h)) ρ.nym0
  have htag : ∀ (i : Nat) (m : S.F), vals[i]? = some m → (tag 0 vals)[i]? = some ⟨m, i⟩ := by
    intro i m hi
    obtain ⟨h1, h2⟩ := List.getElem?_eq_some_iff.mp hi
    have h1' : i < (tag 0 vals).length := by simpa using h1
    rw [List.getElem?_eq_getElem h1']
    have a := tag_idx 0 vals i h1'
    have b : ((tag 0 vals).map (·.fr))[i]'(by simpa using h1) = vals[i] := by simp only [tag_fr]
    rw [List.getElem_map] at b
    rw [Nat.zero_add] at a
    congr 1
    rw [← h2, ← b, ← a]
  have s2 : onlyIf (eidEnabled t) (attrCommitment (pkg w (n + 1)) pok mE (e : Int) (md.bind (·.eidNymAuditData))
      ρ.rEid ρ.eid0) = .ok (if eidEnabled t then some E else none) := by
    apply onlyIf_eq
    intro h
    exact attrCommitment_eq hon e He hHe (hne h) mE _ _ _ (hfe h) (hd h).1 (hd h).2
  have s3 : onlyIf (rhEnabled t) (attrCommitment (pkg w (n + 1)) pok mR (r : Int) (md.bind (·.rhNymAuditData))
      ρ.rRh ρ.rh0) = .ok (if rhEnabled t then some R else none) := by
    apply onlyIf_eq
    intro h
    have h' := rhEnabled_eid h
    exact attrCommitment_eq hon r Hr hHr (hnr h) mR _ _ _ (hfr h) (hd h').1 (hd h').2
  have s4 : challengeHash L pok (rNym • (pkg w (n + 1)).h0 + sk • Hk)
      (if !cardType t then some (pairComm (pkg w (n + 1)).h0 Hk ρ.nym0 (blindAt pok (2 + k))) else none)
      (if eidEnabled t then some E else none) (if rhEnabled t then some R else none) msg t ρ.nonce = .ok ch := by
    rw [challengeHash, hlab, hflag]
    have : decide (t = .eidNymRhNym) = rhEnabled t := rfl
    simp only [this, hashComm_if, hashNym_if, Res.ok_bind, Res.pure_def]
    rfl
  have s5 := respond_nym_if (!cardType t) (pairComm (pkg w (n + 1)).h0 Hk ρ.nym0 (blindAt pok (2 + k))) ch [rNym, sk] _
    (pairComm_generate _ _ _ _ _ _ _)
  have s6 := respond_if (eidEnabled t) E ch mE _ (pairComm_generate _ _ _ _ _ _ _)
  have s7 := respond_if (rhEnabled t) R ch mR _ (pairComm_generate _ _ _ _ _ _ _)
  have sm : ∀ (b : Bool) (h0 h : S.G1) (t0 t1 c r v : S.F), Small (if b then some (pairProof h0 h t0 t1 c r v) else none) := by
    intro b h0 h t0 t1 c r v q hq
    split at hq
    · cases hq; simp [pairProof]
    · cases hq
  simp only [sign, hargs, Res.ok_bind, Dyn.get_val, hcri, galg, Res.guardErr_false, hc, ipkFor, hpok, hk, s1, hse, hsr,
    Res.index_nat, htag e mE hmE, htag r mR hmR, Res.deref_some, s2, s3, s4, hgen, s5, s6, s7]
  simp only [packageProof, hpay, Res.ok_bind, hsmall, proofBytes_eq _ (sm _ _ _ _ _ _ _ _), Wire.sigCodec_marshal,
    Res.pure_def]
  rfl

end Idemix.Aries
