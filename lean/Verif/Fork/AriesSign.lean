import Verif.Fork.BbsProof
import Verif.Forge.Aries
import Verif.Forge.Props

/-!
# C100: whoever makes accepted signatures of the aries scheme has a credential

As C89, for the aries scheme. C40 computes a credential from two signatures with the same first messages and different challenges. Here they
are obtained from any forger in the random oracle model, by playing it twice.
-/

namespace Idemix.Fork

open Idemix (Suite Res Bytes IdemixAttribute)
open Idemix.Bbs Idemix.Aries
open Spec

variable {S : Suite}

/-! ## Specification -/

/-- What a verifier asks for: attributes, some of them disclosed, the position of the secret key, those of the enrollment identifier and of
the revocation handle, the type of verification, and the positions of the disclosed attributes among the signed messages. -/
structure Spec.AriesPolicy where
  attributes : List IdemixAttribute
  secret : Nat
  rhIndex : Int
  eidIndex : Int
  vt : Dlog.VerType
  revealed : List Nat

/-- No attribute is of an undefined type, none is disclosed before the secret key, the positions are those of the attributes disclosed, and
the type of verification says which commitments there are; no smart card. -/
structure Spec.AriesPolicy.Sensible (p : AriesPolicy) : Prop where
  secret : p.secret ≤ p.attributes.length
  known : ∀ a ∈ p.attributes, a.type = 0 ∨ a.type = 1 ∨ a.type = 2
  front : ∀ a ∈ p.attributes.take p.secret, a.type = 0
  revealed : ∀ j, j ∈ p.revealed ↔ ∃ i a, j = Aries.Spec.slot p.secret i ∧ p.attributes[i]? = some a ∧ a.type ≠ 0
  noCard : Aries.Spec.NoCard p.vt
  exact : p.vt ≠ .bestEffort

/-- A signature, the message, and the scalar of the message. -/
structure Spec.Presented (S : Suite) where
  raw : Bytes
  msg : Bytes
  ν : S.F

/-- The signature as a verifier reads it, with the proof for the pseudonym. -/
def Spec.AriesPolicy.read (p : AriesPolicy) (S : Suite) (raw : Bytes) : Res (Aries.Signature × Parsed S × ProofG1 S) := do
  let sig ← Aries.Wire.sigCodec.unmarshal raw
  let P ← parseParts S sig p.vt p.attributes.length
  let pn ← Res.ofOption "no proof for the pseudonym" P.nymProof
  pure (sig, P, pn)

/-- What is hashed first: the label, the first messages of the main proof, the pseudonym and the first message of its proof, the commitments
with the first messages of theirs, and the scalar of the message. -/
def Spec.signQuestion (w : S.G2) (n : Nat) (sig : Aries.Signature) (P : Parsed S) (tn : S.G1) (ν : S.F) : Bytes :=
  (if P.rh.isSome then Dlog.signWithEidNymRhNymLabel else if P.eid.isSome then Dlog.signWithEidNymLabel else Dlog.signLabel) ++
    (S.g1Bytes P.sp.aBar ++ S.g1Bytes P.sp.aPrime ++ S.g1Bytes (Bbs.Spec.generator w (n + 1) 0) ++
      S.g1Bytes P.sp.vc1.commitment ++ S.g1Bytes P.sp.d ++ S.g1Bytes (Bbs.Spec.generator w (n + 1) 0) ++
      ((Bbs.Spec.unshown P.rev (Bbs.Spec.generators w (n + 1))).map S.g1Bytes).flatten ++ S.g1Bytes P.sp.vc2.commitment) ++
    sig.nym ++ S.g1Bytes tn ++
    (match P.eid with | some e => sig.nymEid ++ S.g1Bytes e.1.commitment | none => []) ++
    (match P.rh with | some e => sig.nymRh ++ S.g1Bytes e.1.commitment | none => []) ++ S.zrBytes ν

/-- The verifier accepts. It also checks what `Verify` does not: which positions are disclosed, the number of responses in each proof, and the
length of the pseudonym. Its challenge is not the answer to a question that was asked before. -/
structure Spec.AriesPolicy.Accepted (p : AriesPolicy) (R : RandomOracle S) (before : Table S.F) (ipk : IPK S) (h : Bytes → S.F)
    (a : Presented S) (sig : Aries.Signature) (P : Parsed S) (pn : ProofG1 S) : Prop where
  verified : Aries.verify (R.lib (after before h)) (.val ipk) a.raw a.msg p.attributes p.rhIndex p.eidIndex p.secret p.vt none = .ok ()
  message : after before h a.msg = a.ν
  read : p.read S a.raw = .ok (sig, P, pn)
  positions : P.rev = p.revealed
  formed : Bbs.Spec.WellFormed P.sp p.revealed (p.attributes.length + 1) ∧ pn.responses.length = 2
  pseudonym : sig.nym.length = S.g1Len
  fresh₁ : before.lookup (signQuestion ipk.w p.attributes.length sig P pn.commitment a.ν) = none
  fresh₂ : before.lookup (S.zrBytes (h (signQuestion ipk.w p.attributes.length sig P pn.commitment a.ν)) ++ sig.nonce) = none

/-- A forger that may ask the hash function and comes up with a signature, and a verifier. The values of the disclosed attributes have been
hashed `before`. -/
def Spec.presentations (R : RandomOracle S) (before : Table S.F) (ipk : IPK S) (p : AriesPolicy) (forger : Strategy S.F (Presented S)) :
    Game S.F (Presented S) where
  forger := forger
  first a := match p.read S a.raw with
    | .ok (sig, P, pn) => signQuestion ipk.w p.attributes.length sig P pn.commitment a.ν
    | _ => []
  second a c := S.zrBytes c ++ match p.read S a.raw with
    | .ok (sig, _, _) => sig.nonce
    | _ => []
  accepts h a := ∃ sig P pn, p.Accepted R before ipk h a sig P pn

/-- What is computed from two plays: a signature of the issuer with its messages, and the blinding of the pseudonym. -/
def Spec.possessionOf (R : RandomOracle S) (before : Table S.F) (ipk : IPK S) (p : AriesPolicy)
    (r : (Presented S × Table S.F) × (Presented S × Table S.F)) : Res (ForgeAries.Spec.Forgery S × S.F) := do
  let (sig₁, P₁, pn₁) ← p.read S r.1.1.raw
  let (sig₂, P₂, pn₂) ← p.read S r.2.1.raw
  let c₁ := oracle r.1.2 (S.zrBytes (oracle r.1.2 (signQuestion ipk.w p.attributes.length sig₁ P₁ pn₁.commitment r.1.1.ν)) ++ sig₁.nonce)
  let c₂ := oracle r.2.2 (S.zrBytes (oracle r.2.2 (signQuestion ipk.w p.attributes.length sig₂ P₂ pn₂.commitment r.2.1.ν)) ++ sig₂.nonce)
  let x := Bbs.Spec.extract P₁.sp P₂.sp c₁ c₂
  let disclosed ← attributesToSignatureMessage (R.lib (oracle before)) p.attributes p.secret
  pure (⟨x.A, x.e, x.s, Bbs.merge p.revealed (p.attributes.length + 1) 0 (disclosed.map (·.fr)) x.hidden⟩,
    (Bbs.Spec.witness c₁ c₂ pn₁.responses pn₂.responses).headD 0)

/-- The values `ys` of attributes are as disclosed. -/
def Spec.AriesPolicy.Shows (p : AriesPolicy) (L : Lib S) (ys : List S.F) : Prop :=
  ∀ (i : Nat) a, p.attributes[i]? = some a → a.type ≠ 0 → ∃ y, ys[i]? = some y ∧ Aries.Spec.Encodes L a y

/-- `z` is a credential of the issuer with the attributes that the verifier asked for, and `r` opens the pseudonym in the signature to the
user secret of the credential. -/
def Spec.Possesses (R : RandomOracle S) (before : Table S.F) (ipk : IPK S) (p : AriesPolicy) (raw : Bytes) (z : ForgeAries.Spec.Forgery S)
    (r : S.F) : Prop :=
  ∃ sk ys sig h nym, z.messages = Aries.Spec.withSecret p.secret sk ys ∧ ys.length = p.attributes.length ∧ z.Valid ipk ∧
    p.Shows (R.lib (oracle before)) ys ∧ Aries.Wire.sigCodec.unmarshal raw = .ok sig ∧ S.g1OfBytes sig.nym = some nym ∧
    ipk.pkg.h[p.secret]? = some h ∧ nym = r • ipk.pkg.h0 + sk • h

/-! ## Proofs -/

/-- If all that was asked before is shorter than a scalar, the challenge is new. -/
theorem fresh_of_short {before : Table S.F} (h : ∀ e ∈ before, e.1.length < S.scalarLen) (w : S.G2) (n : Nat) (sig : Aries.Signature)
    (P : Parsed S) (tn : S.G1) (ν c : S.F) :
    before.lookup (signQuestion w n sig P tn ν) = none ∧ before.lookup (S.zrBytes c ++ sig.nonce) = none := by
  have key : ∀ x : Bytes, S.scalarLen ≤ x.length → before.lookup x = none := by
    intro x hx
    cases hl : before.lookup x with
    | none => rfl
    | some c => have := h _ (mem_of_lookup hl); simp only at this; omega
  exact ⟨key _ (by simp only [signQuestion, List.length_append, S.zrBytes_len]; omega),
    key _ (by simp only [List.length_append, S.zrBytes_len]; omega)⟩

theorem AriesPolicy.read_ok {p : AriesPolicy} {raw : Bytes} {sig : Aries.Signature} {P : Parsed S} {pn : ProofG1 S}
    (h : p.read S raw = .ok (sig, P, pn)) : Aries.Wire.sigCodec.unmarshal raw = .ok sig ∧
      parseParts S sig p.vt p.attributes.length = .ok P ∧ P.nymProof = some pn := by
  simp only [Spec.AriesPolicy.read, Res.bind_eq_ok, Res.pure_def, Res.ok.injEq, Prod.mk.injEq, Res.ofOption_eq_ok] at h
  obtain ⟨s, h1, Q, h2, q, h3, rfl, rfl, rfl⟩ := h
  exact ⟨h1, h2, h3⟩

theorem want_exact {sig sig' : Aries.Signature} {v : Dlog.VerType} (hv : v ≠ .bestEffort) :
    wantRh sig v = wantRh sig' v ∧ wantEid sig v = wantEid sig' v := by
  have h1 : wantRh sig v = wantRh sig' v := by simp [wantRh, hv]
  exact ⟨h1, by simp [wantEid, hv, h1]⟩

theorem signQuestion_inj {w : S.G2} {n : Nat} {sig sig' : Aries.Signature} {P P' : Parsed S} {tn tn' : S.G1} {ν ν' : S.F}
    (hn : sig.nym.length = S.g1Len) (hn' : sig'.nym.length = S.g1Len) (he : P.eid.isSome = P'.eid.isSome) (hr : P.rh.isSome = P'.rh.isSome)
    (hrev : P.rev = P'.rev) (h : signQuestion w n sig P tn ν = signQuestion w n sig' P' tn' ν') :
    Bbs.Spec.SameFirst P.sp P'.sp ∧ sig.nym = sig'.nym ∧ tn = tn' := by
  simp only [signQuestion, hrev, hr, he, List.append_assoc] at h
  obtain ⟨-, h⟩ := List.append_inj h rfl
  obtain ⟨hb, h⟩ := List.append_inj h (by simp [S.g1Bytes_len])
  obtain ⟨ha, h⟩ := List.append_inj h (by simp [S.g1Bytes_len])
  obtain ⟨-, h⟩ := List.append_inj h rfl
  obtain ⟨h1, h⟩ := List.append_inj h (by simp [S.g1Bytes_len])
  obtain ⟨hd, h⟩ := List.append_inj h (by simp [S.g1Bytes_len])
  obtain ⟨-, h⟩ := List.append_inj h rfl
  obtain ⟨-, h⟩ := List.append_inj h rfl
  obtain ⟨h2, h⟩ := List.append_inj h (by simp [S.g1Bytes_len])
  obtain ⟨h3, h⟩ := List.append_inj h (by rw [hn, hn'])
  obtain ⟨h4, h⟩ := List.append_inj h (by simp [S.g1Bytes_len])
  exact ⟨⟨S.g1Bytes_inj ha, S.g1Bytes_inj hb, S.g1Bytes_inj hd, S.g1Bytes_inj h1, S.g1Bytes_inj h2⟩, h3, S.g1Bytes_inj h4⟩

theorem signChallenge_question (L : Lib S) (w : S.G2) (n : Nat) (sig : Aries.Signature) (P : Parsed S) (tn : S.G1) (msg : Bytes) :
    Aries.Spec.signChallenge L w n sig P.sp P.rev tn (P.eid.map (·.1.commitment)) (P.rh.map (·.1.commitment)) msg =
      frFromOKM L (S.zrBytes (frFromOKM L (signQuestion w n sig P tn (frFromOKM L msg))) ++ sig.nonce) := by
  obtain ⟨rev, sp, nym, np, eid, rh⟩ := P
  cases eid <;> cases rh <;> rfl

/-- The challenge of an accepted signature is the answer to the two questions. -/
theorem accepted_challenge {p : AriesPolicy} {R : RandomOracle S} {before : Table S.F} {ipk : IPK S} {h : Bytes → S.F} {a : Presented S}
    {sig : Aries.Signature} {P : Parsed S} {pn : ProofG1 S} (A : p.Accepted R before ipk h a sig P pn) :
    Aries.Spec.signChallenge (R.lib (after before h)) ipk.w p.attributes.length sig P.sp P.rev pn.commitment
      (P.eid.map (·.1.commitment)) (P.rh.map (·.1.commitment)) a.msg =
      h (S.zrBytes (h (signQuestion ipk.w p.attributes.length sig P pn.commitment a.ν)) ++ sig.nonce) := by
  have e1 := A.fresh₁
  have e2 := A.fresh₂
  rw [signChallenge_question, R.scalar, R.scalar, R.scalar, A.message]
  simp only [after, e1, Option.getD_none, e2]

/-- Two plays as in `Forked` give a credential. -/
theorem forked_presentation {R : RandomOracle S} {before : Table S.F} {ipk : IPK S} {p : AriesPolicy} (hp : p.Sensible)
    (hkey : Aries.Spec.IsKey ipk ipk.w p.attributes.length) (hb : ∀ a ∈ p.attributes, ∀ b, a.value = .bytes b → ∃ c, before.lookup b = some c)
    {forger : Strategy S.F (Presented S)} {r : (Presented S × Table S.F) × (Presented S × Table S.F)}
    (h : (presentations R before ipk p forger).Forked r) :
    ∃ z t, possessionOf R before ipk p r = .ok (z, t) ∧ Possesses R before ipk p r.1.1.raw z t := by
  obtain ⟨⟨sig₁, P₁, pn₁, A₁⟩, ⟨sig₂, P₂, pn₂, A₂⟩, hfirst, hans⟩ := h
  obtain ⟨⟨a₁, tab₁⟩, ⟨a₂, tab₂⟩⟩ := r
  simp only [presentations, Game.answer] at A₁ A₂ hfirst hans
  rw [A₁.read, A₂.read] at hfirst hans
  simp only at hfirst hans
  have c₁ := accepted_challenge A₁
  have c₂ := accepted_challenge A₂
  obtain ⟨u₁, p₁, n₁⟩ := AriesPolicy.read_ok A₁.read
  obtain ⟨u₂, p₂, n₂⟩ := AriesPolicy.read_ok A₂.read
  obtain ⟨_, _, _, _, y₁, _, e₁, r₁⟩ := parseParts_ok p₁
  obtain ⟨_, _, _, _, y₂, _, e₂, r₂⟩ := parseParts_ok p₂
  obtain ⟨wr, we⟩ := want_exact (sig := sig₁) (sig' := sig₂) hp.exact
  obtain ⟨hsame, hnym, htn⟩ := signQuestion_inj A₁.pseudonym A₂.pseudonym (by rw [onlyIf_isSome e₁, onlyIf_isSome e₂, we])
    (by rw [onlyIf_isSome r₁, onlyIf_isSome r₂, wr]) (by rw [A₁.positions, A₂.positions]) hfirst
  have hor : ∀ h : Bytes → S.F, ∀ a ∈ p.attributes, ∀ b, a.value = .bytes b →
      frFromOKM (R.lib (after before h)) b = frFromOKM (R.lib (oracle before)) b := by
    intro h a ha b hv
    obtain ⟨c, hc⟩ := hb a ha b hv
    rw [R.scalar, R.scalar, after_some hc]
  have hsec : p.secret ∉ p.revealed := by
    rw [hp.revealed]
    rintro ⟨i, a, h1, -⟩
    exact slot_ne _ _ h1.symm
  have hslot : ∀ i j, Aries.Spec.slot p.secret i = Aries.Spec.slot p.secret j → i = j := by
    intro i j
    simp only [Aries.Spec.slot]
    split <;> split <;> omega
  have T : Aries.Spec.TwoSignatures (R.lib (after before (oracle tab₁))) (R.lib (after before (oracle tab₂))) ipk.w p.attributes.length
      p.secret p.attributes sig₁ sig₂ P₁ P₂ pn₁ pn₂ a₁.msg a₂.msg :=
    { length := rfl
      key := hp.secret
      known := hp.known
      front := hp.front
      revealed := by
        intro i
        rw [A₁.positions, hp.revealed]
        constructor
        · rintro ⟨j, a, h1, h2, h3⟩
          rw [hslot _ _ h1]
          exact ⟨a, h2, h3⟩
        · rintro ⟨a, h2, h3⟩
          exact ⟨i, a, rfl, h2, h3⟩
      secret := by rw [A₁.positions]; exact hsec
      sameRev := by rw [A₁.positions, A₂.positions]
      sameFirst := hsame
      sameNym := by
        rw [hnym] at y₁
        exact Option.some.inj (y₂.symm.trans y₁)
      nym₁ := n₁
      nym₂ := n₂
      sameNymFirst := htn
      formed₁ := by rw [A₁.positions]; exact A₁.formed
      formed₂ := by rw [A₂.positions]; exact A₂.formed
      oracle := by
        intro a ha b hv
        rw [hor _ a ha b hv, hor _ a ha b hv]
      differ := by rw [c₁, c₂]; exact hans }
  have hC := C40_extraction_partial _ _ ipk ipk.w p.attributes.length p.secret hkey p.attributes sig₁ sig₂ P₁ P₂ pn₁ pn₂ a₁.msg a₂.msg
    a₁.raw a₂.raw p.eidIndex p.rhIndex p.vt p.attributes.length none none hp.noCard A₁.verified A₂.verified u₁ u₂ p₁ p₂ T
  simp only [c₁, c₂] at hC
  obtain ⟨ms, hsig, hval, hhid, t, sk, hh, nym, hw, hmk, hhk, hy, hny⟩ := hC
  have hlen : ms.length = p.attributes.length + 1 := by
    have := hsig.1
    rw [(isKey_iff _ _ _).mp hkey] at this
    simpa [ipkFor] using this
  have hks := hp.secret
  -- the vector is the secret with the values of the attributes
  obtain ⟨ys, hys, hyl⟩ : ∃ ys, ms = Aries.Spec.withSecret p.secret sk ys ∧ ys.length = p.attributes.length := by
    refine ⟨ms.take p.secret ++ ms.drop (p.secret + 1), ?_, by simp; omega⟩
    have hl : (ms.take p.secret).length = p.secret := by simp; omega
    have h1 : ms.drop p.secret = sk :: ms.drop (p.secret + 1) := by
      obtain ⟨hlt, rfl⟩ := List.getElem?_eq_some_iff.mp hmk
      exact List.drop_eq_getElem_cons hlt
    conv_lhs => rw [← List.take_append_drop p.secret ms, h1]
    rw [Aries.Spec.withSecret, List.take_left' hl, List.drop_left' hl]
    simp
  have hshows : p.Shows (R.lib (oracle before)) ys := by
    intro i a ha hne
    obtain ⟨y, h1, h2⟩ := hval i a ha hne
    rw [hys, withSecret_slot _ _ _ _ (by omega)] at h1
    refine ⟨y, h1, ?_⟩
    rcases h2 with ⟨h2, b, h3, h4⟩ | h2
    · exact .inl ⟨h2, b, h3, by rw [h4, hor _ a (List.mem_of_getElem? ha) b h3]⟩
    · exact .inr h2
  have hag : List.Forall₂ (Aries.Spec.Agrees (R.lib (oracle before))) p.attributes ys := by
    rw [List.forall₂_iff_get]
    refine ⟨hyl.symm, fun i h1 h2 ht => ?_⟩
    obtain ⟨y, h3, h4⟩ := hshows i _ (List.getElem?_eq_getElem h1) (by
      simp only [List.get_eq_getElem] at ht
      omega)
    rw [List.getElem?_eq_getElem h2] at h3
    cases h3
    exact h4
  obtain ⟨dm, hd1, hd2⟩ := attributesToSignatureMessage_agrees (R.lib (oracle before)) p.secret sk hag hp.known hp.secret hp.front
  have hrev : ∀ j, j ∈ notHidden 1 p.attributes ↔ j ∈ p.revealed := by
    intro j
    have hm := notHidden_mem 1 p.attributes
    rw [hp.revealed]
    constructor
    · intro hj
      have hge := notHidden_ge 1 _ j hj
      obtain ⟨i, rfl⟩ : ∃ i, j = 1 + i := ⟨j - 1, by omega⟩
      rw [hm] at hj
      obtain ⟨a, ha, hne⟩ := hj
      refine ⟨i, a, ?_, ha, hne⟩
      have : p.secret ≤ i := by
        by_contra hlt
        refine hne (hp.front a ?_)
        rw [List.mem_iff_getElem?]
        exact ⟨i, by rw [List.getElem?_take, if_pos (by omega), ha]⟩
      simp only [Aries.Spec.slot, this, if_true]
      omega
    · rintro ⟨i, a, rfl, ha, hne⟩
      have : p.secret ≤ i := by
        by_contra hlt
        refine hne (hp.front a ?_)
        rw [List.mem_iff_getElem?]
        exact ⟨i, by rw [List.getElem?_take, if_pos (by omega), ha]⟩
      simp only [Aries.Spec.slot, this, if_true]
      rw [show i + 1 = 1 + i by omega, hm]
      exact ⟨a, ha, hne⟩
  have hmerge : Bbs.merge p.revealed (p.attributes.length + 1) 0 (dm.map (·.fr)) (Bbs.Spec.extract P₁.sp P₂.sp
      (oracle tab₁ (S.zrBytes (oracle tab₁ (signQuestion ipk.w p.attributes.length sig₁ P₁ pn₁.commitment a₁.ν)) ++ sig₁.nonce))
      (oracle tab₂ (S.zrBytes (oracle tab₂ (signQuestion ipk.w p.attributes.length sig₂ P₂ pn₂.commitment a₂.ν)) ++ sig₂.nonce))).hidden =
      ms := by
    have h := merge_keep p.revealed ms 0 (dm.map (·.fr)) (Bbs.Spec.extract P₁.sp P₂.sp
      (oracle tab₁ (S.zrBytes (oracle tab₁ (signQuestion ipk.w p.attributes.length sig₁ P₁ pn₁.commitment a₁.ν)) ++ sig₁.nonce))
      (oracle tab₂ (S.zrBytes (oracle tab₂ (signQuestion ipk.w p.attributes.length sig₂ P₂ pn₂.commitment a₂.ν)) ++ sig₂.nonce))).hidden
      (by rw [hd2, ← hys, keepShown_ext 0 ms (fun j _ => hrev j)])
      (by rw [← hhid, unshown_eq, A₁.positions])
    rwa [hlen] at h
  refine ⟨⟨_, _, _, ms⟩, t, ?_, sk, ys, sig₁, hh, nym, hys, hyl, hsig, hshows, u₁, hy, hhk, hny⟩
  simp only [possessionOf, A₁.read, A₂.read, Res.ok_bind, hd1, Res.pure_def, hmerge, hw, List.headD_cons]

theorem decode_second (R : RandomOracle S) (before : Table S.F) (ipk : IPK S) (p : AriesPolicy) (forger : Strategy S.F (Presented S))
    (a : Presented S) (c : S.F) : S.zrOfBytes (((presentations R before ipk p forger).second a c).take S.scalarLen) = c := by
  simp only [presentations]
  rw [List.take_append_of_le_length (by simp), List.take_of_length_le (by simp), S.zrOfBytes_zrBytes]

open scoped Classical in
/-- **C100 (partial).** Take any forger of signatures of the aries scheme for an issuer key and a policy, and any number `q` of hash questions.
If it succeeds for the fraction `ε` of all the answers that the hash function may give, then for at least the fraction `ε² / q - 2 q ε / |F|` of
all pairs of answers, a credential with the attributes that the verifier asked for is computed from a play and its fork, with an opening of the
pseudonym. What is missing: `Verify` does not check which positions are disclosed, nor the number of responses
(`C40_disclosure_violated`, `C40_violated`), which `Spec.AriesPolicy.Accepted` does; smart cards. -/
theorem C100_knowledge_partial [Fintype S.F] (R : RandomOracle S) (before : Table S.F) (ipk : IPK S) (p : AriesPolicy) (hp : p.Sensible)
    (hkey : Aries.Spec.IsKey ipk ipk.w p.attributes.length) (hb : ∀ a ∈ p.attributes, ∀ b, a.value = .bytes b → ∃ c, before.lookup b = some c)
    (forger : Strategy S.F (Presented S)) (q : Nat) :
    let g := presentations R before ipk p forger
    let W := Finset.univ.filter fun ω : Fin q → S.F => ∃ a tab, g.Wins ω a tab
    Fintype.card S.F * W.card ^ 2 ≤
      q * Fintype.card S.F * (Finset.univ.filter fun ωs : (Fin q → S.F) × (Fin q → S.F) =>
        ∃ r z t, g.fork ωs.1 ωs.2 = some r ∧ possessionOf R before ipk p r = .ok (z, t) ∧
          Possesses R before ipk p r.1.1.raw z t).card +
      2 * q ^ 2 * W.card * Fintype.card (Fin q → S.F) := by
  intro g W
  refine le_trans (forks g q (fun x => S.zrOfBytes (x.take S.scalarLen)) (decode_second R before ipk p forger))
    (Nat.add_le_add_right (Nat.mul_le_mul_left _ (Finset.card_le_card ?_)) _)
  intro ωs h
  simp only [Finset.mem_filter, Finset.mem_univ, true_and] at h ⊢
  obtain ⟨r, h1, h2⟩ := h
  obtain ⟨z, t, h3, h4⟩ := forked_presentation hp hkey hb h2
  exact ⟨r, z, t, h1, h3, h4⟩

/-! ## Impostors -/

/-- Somebody who asks an issuer for credentials and then tries to make signatures, with the help of the hash function. -/
structure Spec.AriesImpostor (S : Suite) where
  ask : IPK S → List Bytes → ForgeAries.Spec.Ask S
  attack : IPK S → List Bytes → Strategy S.F (Presented S)

/-- The forger of credentials that plays the attack twice. -/
def Spec.AriesImpostor.forger (B : AriesImpostor S) (R : RandomOracle S) (before : Table S.F) (p : AriesPolicy) {q : Nat}
    (ω ω' : Fin q → S.F) : ForgeAries.Spec.Forger S where
  ask := B.ask
  forge ipk creds :=
    match (presentations R before ipk p (B.attack ipk creds)).fork ω ω' with
    | none => ⟨0, 0, 0, []⟩
    | some r =>
      match possessionOf R before ipk p r with
      | .ok (z, _) => z
      | _ => ⟨0, 0, 0, []⟩

open ForgeAries.Spec in
theorem ariesIssued_ask {L : Lib S} {f f' : Forger S} (h : f.ask = f'.ask) {isk : ISK S} {n k : Nat} {b0 : S.F} {bs es ss : List S.F}
    {creds : List Bytes} (I : Issued L f isk n k b0 bs es ss creds) : Issued L f' isk n k b0 bs es ss creds := by
  have hp : ∀ m, f.play isk.pk (issuer L isk k es ss) m = f'.play isk.pk (issuer L isk k es ss) m := by
    intro m
    induction m with
    | zero => rfl
    | succ m ih => rw [Forger.play, Forger.play, ih, h]
  have ha : ∀ i, asked f' isk.pk creds i = asked f isk.pk creds i := by intro i; rw [asked, asked, h]
  exact
    { key := I.key, position := I.position, some_attribute := I.some_attribute, few := I.few, len := I.len,
      played := by rw [← hp]; exact I.played
      h0 := I.h0, h := I.h
      count := by intro i hi; rw [ha]; exact I.count i hi
      encodes := by intro i hi; rw [ha]; exact I.encodes i hi
      known := by intro i hi; rw [ha]; exact I.known i hi
      regular := I.regular }

open ForgeAries.Spec in
open scoped Classical in
/-- **C100 (partial).** An impostor who asked for credentials, none of which has the attributes that a verifier asks for, and whose signatures
the verifier accepts for the fraction `ε` of all the answers of the hash function, gives for at least the fraction `ε² / q - 2 q ε / |F|` of all
pairs of answers a forger of credentials, from which the reduction of C88 solves the strong Diffie–Hellman problem for all but at most the
fraction `1 / |F|` of its choices. See `C100_knowledge_partial` for what is missing, and `C88_solved_partial`. -/
theorem C100_impostors_partial [Fintype S.F] (h32 : S.scalarLen = 32) (R : RandomOracle S) (before : Table S.F) (L : Lib S) (p : AriesPolicy)
    (hp : p.Sensible) (hb : ∀ a ∈ p.attributes, ∀ b, a.value = .bytes b → ∃ c, before.lookup b = some c) (B : AriesImpostor S) (q : Nat)
    {isk : ISK S} {b0 : S.F} {bs es ss : List S.F} {creds : List Bytes}
    (I : ∀ ω ω' : Fin q → S.F, Issued L (B.forger R before p ω ω') isk p.attributes.length p.secret b0 bs es ss creds)
    (hes : es.Nodup) (hne : es ≠ [])
    (uncertified : ∀ i < es.length, ¬ p.Shows (R.lib (oracle before)) (B.ask isk.pk (creds.take i)).values)
    (θ u0 : S.F) (hθ : θ ≠ 0) (hu : u0 ≠ 0) :
    let W := Finset.univ.filter fun ω : Fin q → S.F =>
      ∃ a tab, (presentations R before isk.pk p (B.attack isk.pk creds)).Wins ω a tab
    Fintype.card S.F * W.card ^ 2 ≤
      q * Fintype.card S.F * (Finset.univ.filter fun ωs : (Fin q → S.F) × (Fin q → S.F) => ∃ j < es.length,
        Fintype.card S.F * (Finset.univ.filter fun us : Fin (p.attributes.length + 1) → S.F =>
          ¬ Solved (B.forger R before p ωs.1 ωs.2) isk p.attributes.length p.secret b0 bs es ss creds j ⟨θ, u0, List.ofFn us⟩).card ≤
          Fintype.card (Fin (p.attributes.length + 1) → S.F)).card +
      2 * q ^ 2 * W.card * Fintype.card (Fin q → S.F) := by
  intro W
  refine le_trans (forks (presentations R before isk.pk p (B.attack isk.pk creds)) q (fun x => S.zrOfBytes (x.take S.scalarLen))
    (decode_second R before isk.pk p _)) (Nat.add_le_add_right (Nat.mul_le_mul_left _ (Finset.card_le_card ?_)) _)
  rintro ⟨ω, ω'⟩ h
  simp only [Finset.mem_filter, Finset.mem_univ, true_and] at h ⊢
  obtain ⟨r, h1, h2⟩ := h
  have hkey : Aries.Spec.IsKey isk.pk isk.pk.w p.attributes.length := by
    have := (I ω ω').key
    rwa [show isk.sk • S.genG2 = isk.pk.w from this.1.symm] at this
  obtain ⟨z, t, h3, sk, ys, _, _, _, hz, hyl, hv, hs, -⟩ := forked_presentation hp hkey hb h2
  have hf : (B.forger R before p ω ω').forge isk.pk creds = z := by
    simp only [Spec.AriesImpostor.forger, h1, h3]
  obtain ⟨j, hj, hguess⟩ := Forge.C87_guess hes hne z.e
  refine ⟨j, hj, ForgeAries.C88_solved_partial h32 (I ω ω') hj θ u0 hθ hu ?_ ?_ ?_⟩
  · rw [hf]; exact hv
  · rw [hf, hz]
    intro heq
    refine uncertified j hj ?_
    have hvl := (I ω ω').numValues hj
    have hk := hp.secret
    have : ys = (asked (B.forger R before p ω ω') isk.pk creds j).values := by
      apply List.ext_getElem?
      intro i
      rw [← withSecret_slot p.secret i sk ys (by omega), heq, Ask.messages, withSecret_slot _ _ _ _ (by omega)]
    rw [show (B.ask isk.pk (creds.take j)).values = ys from this.symm]
    exact hs
  · rw [hf]; exact hguess

/-! ## Examples -/

namespace AriesSignEx

open Idemix.Bbs.Ex Idemix.Aries.Ex BbsEx

/-- The second of two attributes is disclosed, the first is the enrollment identifier; the secret key is between them. -/
def policy : AriesPolicy := ⟨[⟨0, .other⟩, ⟨1, .bytes [8]⟩], 1, 0, 0, .expectEidNym, [2]⟩

/-- The scalar of the attribute. -/
def before : Table Toy.K := [([8], 4)]

theorem sensible : policy.Sensible where
  secret := by decide
  known := by decide
  front := by decide
  revealed := by
    intro j
    constructor
    · intro h
      exact ⟨1, ⟨1, .bytes [8]⟩, by simpa [policy, Aries.Spec.slot] using h, rfl, by decide⟩
    · rintro ⟨i, a, rfl, ha, hne⟩
      rcases i with _ | _ | i
      · simp only [policy, List.getElem?_cons_zero, Option.some.injEq] at ha
        subst ha
        exact absurd rfl hne
      · simp [policy, Aries.Spec.slot]
      · simp [policy] at ha
  noCard := ⟨by decide, by decide⟩
  exact := by decide

example : Aries.Spec.IsKey Aries.Ex.isk.pk Aries.Ex.isk.pk.w policy.attributes.length ∧
    ∀ a ∈ policy.attributes, ∀ b, a.value = .bytes b → ∃ c, before.lookup b = some c := by
  refine ⟨(isKey_iff _ _ _).mpr rfl, ?_⟩
  intro a ha b hb
  simp only [policy, List.mem_cons, List.not_mem_nil, or_false] at ha
  rcases ha with rfl | rfl
  · simp at hb
  · simp only [AttrValue.bytes.injEq] at hb
    exact ⟨4, by rw [← hb]; rfl⟩

/-- A credential with the attributes 2 and 4, and the secret key 4 between them. -/
def cred : Bytes := Proto.encode (Aries.Wire.cred (issued (S := S32) (3 : Toy.K) 2 1 [(2 : Toy.K), (4 : Toy.K)] (4 : Toy.K) (2 : Toy.K) (1 : Toy.K) 1))

/-- The signature for the message `[9]` with these answers of the hash function. -/
def signed (tab : Table Toy.K) : Bytes :=
  match Aries.sign (random.lib (oracle tab)) cred (4 : Toy.K)
      ((5 : Toy.K) • Aries.Ex.isk.pk.pkg.h0 + (4 : Toy.K) • Aries.Ex.isk.pk.pkg.h.getD 1 0 : Toy.K) (5 : Toy.K)
      (.val Aries.Ex.isk.pk) policy.attributes [9] 0 0 cri2 .eidNym none rand2 with
  | .ok (raw, _) => raw
  | _ => []

/-- The two questions. -/
def first (ν : Toy.K) : Bytes := (presentations random before Aries.Ex.isk.pk policy (.done ⟨[], [], (0 : Toy.K)⟩)).first ⟨signed [([9], ν)], [9], ν⟩
def second (c : Toy.K) : Bytes := Toy.enc32 c ++ Toy.enc32 6

/-- The holder of the credential, who asks for the scalar of the message and for the challenge. -/
def holder : Strategy Toy.K (Presented S32) :=
  .ask [9] fun ν => .ask (first ν) fun c => .ask (second c) fun c' =>
    .done ⟨signed [([9], ν), (first ν, c), (second c, c')], [9], ν⟩

def game : Game Toy.K (Presented S32) := presentations random before Aries.Ex.isk.pk policy holder

/-- The answers. -/
def answers (c : Toy.K) : Table Toy.K := [([9], (3 : Toy.K)), (first (3 : Toy.K), (5 : Toy.K)), (second (5 : Toy.K), c)]

set_option maxRecDepth 40000 in
set_option synthInstance.maxSize 2000 in
/-- The signature is accepted. -/
theorem holder_wins : ∀ c : Toy.K, game.Wins (q := 3) ![(3 : Toy.K), (5 : Toy.K), c] ⟨signed (answers c), [9], (3 : Toy.K)⟩ (answers c) := by
  intro c
  have h1 : ∀ c : Toy.K, (game.play (q := 3) ![(3 : Toy.K), (5 : Toy.K), c]).map (β := Bytes × Bytes × Toy.K × List (Bytes × Toy.K))
      (fun r => (r.1.raw, r.1.msg, r.1.ν, r.2)) = some (signed (answers c), [9], (3 : Toy.K), answers c) := by
    decide +kernel
  have h2 : ∀ c : Toy.K, (match policy.read S32 (signed (answers c)) with
      | .ok (sig, P, pn) => decide (P.rev = [2] ∧ P.sp.vc1.responses.length = 2 ∧ P.sp.vc2.responses.length = 4 ∧ pn.responses.length = 2 ∧
        sig.nym.length = S32.g1Len)
      | _ => false) = true := by
    decide +kernel
  refine ⟨?_, ?_⟩
  · have h := h1 c
    rw [Option.map_eq_some_iff] at h
    obtain ⟨⟨⟨a, b, d⟩, tab⟩, h, e⟩ := h
    simp only [Prod.mk.injEq] at e
    obtain ⟨rfl, rfl, rfl, rfl⟩ := e
    exact h
  · have h := h2 c
    cases hp : policy.read S32 (signed (answers c)) with
    | err m => rw [hp] at h; cases h
    | panic => rw [hp] at h; cases h
    | ok x =>
      obtain ⟨sig, P, pn⟩ := x
      rw [hp] at h
      obtain ⟨e1, e2, e3, e4, e5⟩ := of_decide_eq_true h
      have hs : ∀ e ∈ before, e.1.length < S32.scalarLen := by decide
      exact ⟨sig, P, pn,
        { verified := by clear h hp h1 h2; revert c; decide +kernel
          message := by clear h hp h1 h2; revert c; decide +kernel
          read := hp
          positions := e1
          formed := ⟨⟨e2, by rw [e3]; rfl⟩, e4⟩
          pseudonym := e5
          fresh₁ := (fresh_of_short hs _ _ _ _ _ _ (0 : Toy.K)).1
          fresh₂ := (fresh_of_short hs (0 : Toy.K) 0 sig P (0 : Toy.K) (0 : Toy.K) _).2 }⟩

set_option maxRecDepth 40000 in
/-- Two plays give away the credential and the randomness of the pseudonym. -/
example : ((game.fork (q := 3) ![(3 : Toy.K), (5 : Toy.K), (1 : Toy.K)] ![(3 : Toy.K), (2 : Toy.K), (4 : Toy.K)]).map fun r =>
    match possessionOf random before Aries.Ex.isk.pk policy r with
    | .ok (z, t) => decide (z.e = (2 : Toy.K) ∧ z.s = (1 : Toy.K) ∧ z.messages = [(2 : Toy.K), (4 : Toy.K), (4 : Toy.K)] ∧ t = (5 : Toy.K))
    | _ => false) = some true := by decide +kernel

/-- An impostor who asks for a credential with other attributes and then plays the holder; the group of the example is the field. -/
def impostor : AriesImpostor S32 := ⟨ForgeAries.Ex.forger.ask, fun _ _ => holder⟩

open ForgeAries.Spec in
set_option maxRecDepth 40000 in
/-- They meet the hypotheses of `C100_impostors_partial`. -/
example : (∀ ω ω' : Fin 3 → Toy.K, Issued L32 (impostor.forger random before policy ω ω') Aries.Ex.isk 2 1 ForgeAries.Ex.b0 ForgeAries.Ex.bs
      [(2 : Toy.K)] [(3 : Toy.K)] [ForgeAries.Ex.cred]) ∧
    ∀ i < 1, ¬ policy.Shows (random.lib (oracle before)) (impostor.ask Aries.Ex.isk.pk ([ForgeAries.Ex.cred].take i)).values := by
  refine ⟨fun ω ω' => by refine ariesIssued_ask ?_ ForgeAries.Ex.issued; rfl, ?_⟩
  rintro i - h
  obtain ⟨y, h1, h2⟩ := h 1 ⟨1, .bytes [8]⟩ rfl (by decide)
  simp only [Aries.Spec.Encodes] at h2
  rcases h2 with ⟨-, b, hb, rfl⟩ | ⟨h2, -⟩
  · cases hb
    revert h1
    show ¬ (some (S32.zrOfInt 5) = some (frFromOKM (random.lib (oracle before)) [8]))
    rw [random.scalar]
    decide
  · exact absurd h2 (by decide)

end AriesSignEx

end Idemix.Fork
