import Verif.Tools.PropsPeers
import Verif.Dlog.PropsAnon
import Verif.Dlog.PropsHide
import Verif.Aries.PropsAnon
import Verif.Aries.PropsHide

/-!
# What the identities and signatures of an MSP give away: C76

A member sets up an MSP from its signer configuration, sends its serialized identity and signs messages, in any number of
sessions. The theorems compare what the sessions publish if different members are behind them.

Concrete cases that meet the hypotheses of the theorems are in `Verif/Tools/ExamplesAnon.lean`.
-/

namespace Idemix.Gen

open Msp (CurveId CspId World IMsp Ref Heap SetupRnd Platform SigningIdentity IdemixConfig SignerConfig)
open Provider (Backend Key NymSigOpts SignerOpts)
open Proto (utf8Valid)

namespace Spec

/-- A session: set-up from the configuration `raw` with the random choices `σ` makes a default signer, whose serialized
identity is `b` and whose signature on each message `msg i`, with the random choices `τ i`, is `sig i`. -/
def Publishes {W : World} {I : Type} (aries : Bool) (version : Int) (raw : Bytes) (me : Ref) (σ : SetupRnd W)
    (msg : I → Bytes) (τ : I → (p : CspId) → (W.B p).Rnd) (b : Bytes) (sig : I → Bytes) : Prop :=
  ∃ m x, (Msp.newMsp W aries version).setup me (some ⟨Msp.Spec.configType aries, raw⟩) σ = (m, .ok ()) ∧
    m.getDefaultSigningIdentity = .ok x ∧
    ∀ h : Heap W, h me = m → x.identity.serialize h = .ok b ∧ ∀ i, x.sign h (msg i) (τ i) = .ok (sig i)

/-- What a session of the dlog scheme draws: the randomness of the pseudonym, of the proof, and of the signature on each
message. -/
abbrev DlogTape (S : Suite) (I : Type) : Type :=
  S.F × {ρ : Dlog.SigRand S // Dlog.SigTape .standard [1, 1, 0, 0] ρ} × (I → Dlog.NymRand S)

/-- The random choices of set-up with those of the tape. Set-up draws nothing else; the rest is arbitrary. -/
def dlogSetup {P : Platform} {I : Type} (c : CurveId) (σ : SetupRnd P.world) (t : DlogTape (P.S c) I) : SetupRnd P.world :=
  Function.update σ ⟨false, c⟩
    (let ρ : Provider.DlogRnd (P.S c) (P.env c).dsa × Provider.DlogRnd (P.S c) (P.env c).dsa := σ ⟨false, c⟩
     ({ ρ.1 with scalar := t.1 }, { ρ.2 with sig := t.2.1.1 }))

/-- The random choices of signatures with those of the tape. -/
def dlogSign {P : Platform} {I : Type} (c : CurveId) (τ : I → (p : CspId) → (P.world.B p).Rnd) (t : DlogTape (P.S c) I)
    (i : I) : (p : CspId) → (P.world.B p).Rnd :=
  Function.update (τ i) ⟨false, c⟩
    (let ρ : Provider.DlogRnd (P.S c) (P.env c).dsa := τ i ⟨false, c⟩
     { ρ with nymSig := t.2.2 i })

/-- The random choices of a proof of the aries scheme that discloses two of four attributes: `r1` must not be zero, and the
choices that are not used are zero, so that two different tapes are two different sequences of random choices. -/
structure AriesProofTape {S : Suite} (ρ : Aries.SignRand S) : Prop where
  r1 : ρ.pok.r1 ≠ 0
  masks1 : ∀ i, 2 ≤ i → ρ.pok.vc1 i = 0
  masks2 : ∀ i, 5 ≤ i → ρ.pok.vc2 i = 0
  unused : ρ.rEid = 0 ∧ ρ.eid0 = 0 ∧ ρ.rRh = 0 ∧ ρ.rh0 = 0

/-- See `DlogTape`. A signature on a message draws a nonce and two blindings. -/
abbrev AriesTape (S : Suite) (I : Type) : Type :=
  S.F × {ρ : Aries.SignRand S // AriesProofTape ρ} × (I → S.F × S.F × S.F)

/-- See `dlogSetup`. -/
def ariesSetup {P : Platform} {I : Type} (c : CurveId) (σ : SetupRnd P.world) (t : AriesTape (P.S c) I) : SetupRnd P.world :=
  Function.update σ ⟨true, c⟩
    (let ρ : Provider.AriesRnd (P.S c) (P.env c).dsa × Provider.AriesRnd (P.S c) (P.env c).dsa := σ ⟨true, c⟩
     ({ ρ.1 with scalar := t.1 }, { ρ.2 with sig := t.2.1.1 }))

/-- See `dlogSign`. -/
def ariesSign {P : Platform} {I : Type} (c : CurveId) (τ : I → (p : CspId) → (P.world.B p).Rnd) (t : AriesTape (P.S c) I)
    (i : I) : (p : CspId) → (P.world.B p).Rnd :=
  Function.update (τ i) ⟨true, c⟩
    (let ρ : Provider.AriesRnd (P.S c) (P.env c).dsa := τ i ⟨true, c⟩
     { ρ with nonce := (t.2.2 i).1, blindings := Aries.Spec.tape (t.2.2 i).2.1 (t.2.2 i).2.2 })

/-- What an observer reads from a serialized identity of the dlog scheme: the authority's signature in the revocation
information that the proof carries. -/
def dlogMark (b : Bytes) : Res Bytes := do
  let outer ← Msp.Wire.serialCodec.unmarshal b
  let inner ← Msp.Wire.identCodec.unmarshal outer.idBytes
  let sig ← Dlog.Wire.sigCodec.unmarshal inner.proof
  pure sig.revocationPkSig

/-- See `dlogMark`. -/
def ariesMark (b : Bytes) : Res Bytes := do
  let outer ← Msp.Wire.serialCodec.unmarshal b
  let inner ← Msp.Wire.identCodec.unmarshal outer.idBytes
  let sig ← Aries.Wire.sigCodec.unmarshal inner.proof
  pure sig.epochPkSig

end Spec

/-! ## The bytes of an identity -/

/-- The serialized form of a signer's identity. -/
def sent {S : Suite} (T : Translator S) (name ou : Bytes) (role : Int) (nym : S.G1) (proof ski : Bytes) : Res Bytes := do
  let raw := (T.g1ToProto nym).x ++ (T.g1ToProto nym).y
  let ou ← Msp.Wire.unitCodec.marshal ⟨name, ou, ski⟩
  let role ← Msp.Wire.roleCodec.marshal ⟨name, role⟩
  let inner ← Msp.Wire.identCodec.marshal ⟨some (raw.take (raw.length / 2)), some (raw.drop (raw.length / 2)), ou, role,
    proof, []⟩
  Msp.Wire.serialCodec.marshal ⟨name, inner⟩

theorem sent_ok {S : Suite} (T : Translator S) {name ou : Bytes} (role : Int) (nym : S.G1) (proof ski : Bytes)
    (u1 : utf8Valid name = true) (u2 : utf8Valid ou = true) : ∃ b, sent T name ou role nym proof ski = .ok b := by
  simp [sent, Msp.Wire.unitCodec, Msp.Wire.roleCodec, Msp.Wire.identCodec, Msp.Wire.serialCodec, Proto.codec, u1, u2,
    show utf8Valid [] = true from rfl]

theorem serialize_sent {W : World} (h : Heap W) (me : Ref) (name : Bytes) (p : CspId) (e : Bool) (s : SignerConfig)
    (sk : (W.S p).F) (nym : (W.S p).G1) (r : (W.S p).F) (proof ski : Bytes) (hn : (h me).name = name) :
    (Msp.Spec.signer me name p e s sk nym r proof ski).identity.serialize h =
      sent (W.B p).T name s.ou (Msp.Spec.mspRole s.role) nym proof ski := by
  subst hn
  rfl

theorem publishes_of {W : World} {I : Type} {aries : Bool} {version : Int} {raw : Bytes} {conf : IdemixConfig}
    (hconf : Msp.Wire.configCodec.unmarshal raw = .ok conf) (me : Ref) (σ : SetupRnd W) (c : CurveId)
    (hc : Msp.Spec.SelectsCurve aries conf.curveId c) (ipk : (W.B ⟨aries, c⟩).IPK) (hne : conf.ipk ≠ [])
    (hipk : (W.B ⟨aries, c⟩).issuerPkFromBytes conf.ipk Msp.Spec.names = .ok ipk) (rpk : (W.B ⟨aries, c⟩).dsa.Pk)
    (hrpk : Msp.Spec.RevocationKey (W.B ⟨aries, c⟩) conf.revocationPk rpk) (s : SignerConfig) (hs : conf.signer = some s)
    (sk : (W.S ⟨aries, c⟩).F) (nym : (W.S ⟨aries, c⟩).G1) (r : (W.S ⟨aries, c⟩).F) (proof ski : Bytes)
    (hsigner : Msp.Spec.Signer (W.B ⟨aries, c⟩) ipk s (σ ⟨aries, c⟩) sk nym r proof ski) (msg : I → Bytes)
    (τ : I → (p : CspId) → (W.B p).Rnd) (sig : I → Bytes)
    (hsig : ∀ i, (W.B ⟨aries, c⟩).nymSign sk nym r ipk (msg i) (τ i ⟨aries, c⟩) = .ok (sig i)) (b : Bytes)
    (hb : sent (W.B ⟨aries, c⟩).T conf.name s.ou (Msp.Spec.mspRole s.role) nym proof ski = .ok b) :
    Spec.Publishes aries version raw me σ msg τ b sig := by
  have hset := (Msp.C58_setup_exact (Msp.newMsp W aries version) _ me _ raw σ).mpr
    ⟨conf, c, ipk, rpk, hconf, rfl, hc, hne, hipk, hrpk, .inr ⟨s, sk, nym, r, proof, ski, hs, hsigner, rfl⟩⟩
  refine ⟨_, _, hset, rfl, fun h hh => ⟨?_, fun i => ?_⟩⟩
  · exact (serialize_sent h me conf.name ⟨aries, c⟩ _ s sk nym r proof ski (by rw [hh]; rfl)).trans hb
  · set m := Msp.newMsp W aries version with hm
    obtain ⟨o, ho⟩ := sign_nym_ok (W := W) (p := ⟨aries, c⟩) (e := m.exportable) (e' := m.exportable) (hsig i)
    have hp : (h me).provider = .ok ⟨aries, c⟩ := by rw [hh]; rfl
    have hr : (h me).registry ⟨aries, c⟩ = Provider.provider (W.B ⟨aries, c⟩) m.exportable := by rw [hh]; rfl
    have hk : (h me).ipk = some ⟨⟨aries, c⟩, .issuerPk ipk⟩ := by rw [hh]; rfl
    change SigningIdentity.sign h (Msp.Spec.signer me conf.name ⟨aries, c⟩ m.exportable s sk nym r proof ski) _ _ = _
    simp only [SigningIdentity.sign, Msp.Spec.signer, hp, hr, hk, Res.ok_bind, Option.map_some,
      Msp.AnyKey.under_self, ho, Res.pure_def]

/-! ## The dlog scheme -/

section

variable {S : Suite}

/-- A member with a generated configuration: the parts of `dlog_generated`. -/
structure Member (E : Dlog.Env S) (admin : Bool) (ou : Bytes) (ipk : Dlog.IssuerPublicKey) (s : SignerConfig)
    (cred : Dlog.Credential) (cri : Dlog.CRI) (sk : S.F) (eid rh : Bytes) : Prop where
  hnames : ipk.attributeNames.length = 4
  hou : s.ou = ou
  hrole : s.role = roleMask admin
  heid : s.enrollmentId = eid
  hsk : s.sk = S.zrBytes sk
  hcred : Dlog.Wire.credCodec.unmarshal s.cred = .ok cred
  hcri : Dlog.Wire.criCodec.unmarshal s.cri = .ok cri
  hattrs : cred.attrs = (Spec.values S (roleMask admin) ou eid rh).map S.zrBytes
  hver : cred.ver E.T sk ipk = .ok ()
  hnontrivial : ∃ A, E.T.g1FromProto cred.a = .ok A ∧ A ≠ 0
  halg : cri.revocationAlg = 0
  hpk : ∃ P, E.T.g2FromProto cri.epochPk = .ok P

theorem Member.honest {E : Dlog.Env S} {admin : Bool} {ou : Bytes} {ipk : Dlog.IssuerPublicKey} {s : SignerConfig}
    {cred : Dlog.Credential} {cri : Dlog.CRI} {sk : S.F} {eid rh : Bytes} (h : Member E admin ou ipk s cred cri sk eid rh)
    {nym : S.G1} {r : S.F} (hn : Dlog.makeNym E.T sk ipk r = .ok (nym, r)) :
    Dlog.HonestSigner E.T cred ipk sk nym r [1, 1, 0, 0] 3 cri :=
  ⟨h.hver, h.hnontrivial, hn, by rw [h.hnames, h.hattrs]; rfl, by rw [h.hnames]; rfl, ⟨by decide, rfl⟩, h.halg, h.hpk⟩

/-- The attributes that the proof of a signer discloses: unit and role. -/
abbrev shownAttrs : List IdemixAttribute := [⟨1, .other⟩, ⟨2, .other⟩, ⟨0, .other⟩, ⟨0, .other⟩]

/-- The signatures of two openings of one pseudonym. -/
theorem nymTapes_same {T : Translator S} {ipk : Dlog.IssuerPublicKey} {hSk hRand : S.G1}
    (hk : T.g1FromProto ipk.hSk = .ok hSk) (hr : T.g1FromProto ipk.hRand = .ok hRand) (sk₁ sk₂ r b : S.F) (nym : S.G1)
    (msg : Bytes) (hb : (sk₁ - sk₂) • hSk + (-b) • hRand = 0) (ρ : Dlog.NymRand S) :
    Dlog.newNymSignature T sk₂ nym (r + b) ipk msg (Dlog.nymTapes hSk hRand nym ipk.hash msg (sk₁ - sk₂) (-b) hb ρ) =
      Dlog.newNymSignature T sk₁ nym r ipk msg ρ := by
  rw [Dlog.newNymSignature_eq hk hr, Dlog.newNymSignature_eq hk hr]
  simp only [Dlog.nymTapes, Equiv.coe_fn_mk, Dlog.nymChal_shift hSk hRand _ ipk.hash msg _ _ _ hb]
  simp only [Dlog.nymShift]
  refine congrArg Res.ok ?_
  congr 2 <;> ring

/-- One session: the pseudonym, the proof and the signatures of one member are those of the other with other random
choices. -/
theorem dlog_session {I : Type} {E : Dlog.Env S} {admin : Bool} {ou : Bytes} {ipk : Dlog.IssuerPublicKey}
    {s₁ s₂ : SignerConfig} {cred₁ cred₂ : Dlog.Credential} {cri : Dlog.CRI} {sk₁ sk₂ : S.F} {eid₁ rh₁ eid₂ rh₂ : Bytes}
    (h₁ : Member E admin ou ipk s₁ cred₁ cri sk₁ eid₁ rh₁) (h₂ : Member E admin ou ipk s₂ cred₂ cri sk₂ eid₂ rh₂)
    (hSk hRand : S.G1) (hk : E.T.g1FromProto ipk.hSk = .ok hSk) (hr : E.T.g1FromProto ipk.hRand = .ok hRand)
    (hne : hRand ≠ 0) (msg : I → Bytes) :
    ∃ φ : Spec.DlogTape S I ≃ Spec.DlogTape S I, ∀ t, ∃ (nym : S.G1) (proof : Bytes) (sig : I → Bytes),
      E.makeNym (some sk₁) (.val ipk) t.1 = .ok (nym, t.1) ∧
      E.makeNym (some sk₂) (.val ipk) (φ t).1 = .ok (nym, (φ t).1) ∧
      (∃ md, E.sign s₁.cred (some sk₁) (some nym) (some t.1) (.val ipk) shownAttrs [] 3 2 s₁.cri t.2.1.1 .standard none =
        .ok (proof, md)) ∧
      (∃ md, E.sign s₂.cred (some sk₂) (some nym) (some (φ t).1) (.val ipk) shownAttrs [] 3 2 s₂.cri (φ t).2.1.1 .standard
        none = .ok (proof, md)) ∧
      ∀ i, E.nymSign (some sk₁) (some nym) (some t.1) (.val ipk) (msg i) (t.2.2 i) = .ok (sig i) ∧
        E.nymSign (some sk₂) (some nym) (some (φ t).1) (.val ipk) (msg i) ((φ t).2.2 i) = .ok (sig i) := by
  obtain ⟨b, hb⟩ : ∃ b : S.F, (sk₁ - sk₂) • hSk + (-b) • hRand = 0 := by
    obtain ⟨b, hb⟩ := S.g1_span hne ((sk₁ - sk₂) • hSk)
    exact ⟨b, by rw [hb, neg_smul, add_neg_cancel]⟩
  have e : ∀ r : S.F, sk₂ • hSk + (r + b) • hRand = sk₁ • hSk + r • hRand := by
    intro r
    have : sk₂ • hSk + (r + b) • hRand = sk₁ • hSk + r • hRand - ((sk₁ - sk₂) • hSk + (-b) • hRand) := by module
    rw [this, hb, sub_zero]
  have n₁ : ∀ r, Dlog.makeNym E.T sk₁ ipk r = .ok (sk₁ • hSk + r • hRand, r) := fun r => by simp [Dlog.makeNym, hk, hr]
  have n₂ : ∀ r, Dlog.makeNym E.T sk₂ ipk (r + b) = .ok (sk₁ • hSk + r • hRand, r + b) := fun r => by
    simp [Dlog.makeNym, hk, hr, e]
  have hφ := fun r => Dlog.C12_perfect_anonymity E.T cred₁ cred₂ ipk sk₁ sk₂ _ r (r + b) [1, 1, 0, 0] [] 3 2 cri
    (h₁.honest (n₁ r)) (h₂.honest (n₂ r)) (by
      intro i d hd hd0
      match i with
      | 0 => rw [h₁.hattrs, h₂.hattrs]; rfl
      | 1 => rw [h₁.hattrs, h₂.hattrs]; rfl
      | 2 => cases hd; exact absurd rfl hd0
      | 3 => cases hd; exact absurd rfl hd0
      | i + 4 => simp at hd) hRand hr hne .standard (.inl rfl) (fun h => absurd rfl h)
  choose φ hφ using hφ
  refine ⟨Equiv.prodShear (Equiv.addRight b) fun r => Equiv.prodCongr (φ r) (Equiv.piCongrRight fun i =>
    Dlog.nymTapes hSk hRand (sk₁ • hSk + r • hRand) ipk.hash (msg i) (sk₁ - sk₂) (-b) hb), ?_⟩
  rintro ⟨r, ρ, τ⟩
  obtain ⟨sig, m₁, m₂, q₁, q₂⟩ := hφ r ρ
  have hD : Dlog.disclosureOf shownAttrs = [1, 1, 0, 0] := rfl
  have hs : ∀ i, ∃ g, Dlog.newNymSignature E.T sk₁ (sk₁ • hSk + r • hRand) r ipk (msg i) (τ i) = .ok g := fun i =>
    ⟨_, Dlog.newNymSignature_eq hk hr _ _ _ _ _⟩
  choose g hg using hs
  refine ⟨sk₁ • hSk + r • hRand, Proto.encode (Dlog.Wire.sig sig), fun i => Proto.encode (Dlog.Wire.nymSig (g i)), ?_, ?_,
    ⟨m₁, ?_⟩, ⟨m₂, ?_⟩, fun i => ⟨?_, ?_⟩⟩
  · simp [Dlog.Env.makeNym, n₁]
  · simp [Dlog.Env.makeNym, Equiv.prodShear, n₂]
  · simp [Dlog.Env.sign, h₁.hcred, h₁.hcri, hD, q₁]
  · simp [Dlog.Env.sign, h₂.hcred, h₂.hcri, hD, Equiv.prodShear, q₂]
  · simp only [Dlog.Env.nymSign, Dyn.get_val, Res.ok_bind, Res.deref_some, hg, Dlog.nymSig_marshal, Res.recovered_ok]
  · have := nymTapes_same hk hr sk₁ sk₂ r b (sk₁ • hSk + r • hRand) (msg i) hb (τ i)
    simp only [Dlog.Env.nymSign, Dyn.get_val, Res.ok_bind, Res.deref_some, Equiv.prodShear_apply, Equiv.prodCongr_apply,
      Prod.map, Equiv.piCongrRight_apply, Pi.map_apply, Equiv.coe_addRight, this, hg, Dlog.nymSig_marshal, Res.recovered_ok]

theorem generated_reads (E : Dlog.Env S) {κ : Dlog.IssuerRand S} {isk raw : Bytes} {ipk : Dlog.IssuerPublicKey}
    (hlen : κ.attrs.length = 4) (hbar : κ.barG1 ≠ 0) (h : generateIssuerKey E κ = .ok (isk, raw))
    (hi : E.newPublicKeyFromBytes raw Msp.Spec.names = .ok ipk) :
    Dlog.Reads E.T ipk ⟨κ.hSk • S.genG1, κ.hRand • S.genG1, κ.attrs.map (· • S.genG1), κ.isk • S.genG2⟩ := by
  obtain ⟨key, raw', _, g1, g2, -, -, g4, -⟩ := Dlog.C01_generated_issuer_key_imports E Msp.attributeNames κ
    names_nodup names_utf8 hlen hbar
  simp only [generateIssuerKey, Res.bind_eq_ok, Res.pure_def, Res.ok.injEq, Prod.mk.injEq] at h
  obtain ⟨key', h1, raw'', h2, -, h3⟩ := h
  rw [Dlog.Env.newKey, h1] at g1
  obtain rfl : key' = key := Res.ok.inj g1
  rw [h2] at g2
  have g4 : E.newPublicKeyFromBytes raw' Msp.Spec.names = .ok key'.ipk := g4
  rw [← Res.ok.inj g2, h3, hi] at g4
  rw [Res.ok.inj g4]
  exact (reads_new h1).1

end

/-- **C76, dlog scheme (partial).** Members of one organizational unit with one role have signer configurations made by the
generator, with the same revocation information. In any number of sessions, one for each `j`, one of them sets up an MSP
from its configuration, sends its serialized identity and signs messages. For any two ways `who₁`, `who₂` to say which
member is behind which session there is a one-to-one correspondence of the random choices of the sessions that leads to the
same identities and signatures: whatever the MSPs publish has the same distribution whoever is behind it. In particular it
does not tell whether two sessions are of one member. The choice of `HRand` and of the blinding scalars `r1` is not zero.

What is missing: the generator makes the revocation information anew for each member (`C76_dlog_marked_violated`), so that
its members do not have the same. -/
theorem C76_dlog_members_hidden_partial (P : Platform) (c : CurveId) (κ : Dlog.IssuerRand (P.S c)) (hκ : κ.hRand ≠ 0)
    (admin : Bool) (ou : Bytes) (hou : ou ≠ []) (u1 : utf8Valid ou = true) (revKey : (P.env c).dsa.Sk) (pkix : Bytes)
    (hpkix : (P.ec c).pkix ((P.env c).dsa.pub revKey) = .ok pkix) (isk ipk : Bytes)
    (hkey : generateIssuerKey (P.env c) κ = .ok (isk, ipk))
    {U : Type} (eid rh : U → Bytes) (ρ : U → SignerRnd (P.S c) (P.env c).dsa) (heid : ∀ u, eid u ≠ [])
    (u2 : ∀ u, utf8Valid (eid u) = true) (u3 : ∀ u, utf8Valid (rh u) = true)
    (hρ : ∀ u, Spec.Samples κ (ρ u).sk (ρ u).e (ρ u).s (Spec.values (P.S c) (roleMask admin) ou (eid u) (rh u)))
    (hsign : ∀ u d, ∃ sig, (P.env c).dsa.sign revKey (ρ u).dsa d = .ok sig) (config : U → Bytes)
    (hconfig : ∀ u, generateSignerConfig (P.env c) (roleMask admin) ou (eid u) (rh u) isk ipk revKey (ρ u) = .ok (config u))
    (s : U → SignerConfig) (hs : ∀ u, Msp.Wire.signerCodec.unmarshal (config u) = .ok (s u))
    (same : ∀ u v, (s u).cri = (s v).cri)
    (version : Int) (me : Ref) (msp : IdemixConfig) (hipk : msp.ipk = ipk)
    (hrpk : msp.revocationPk = (P.ec c).pemEncode pkix)
    (hcurve : msp.curveId = ascii (Msp.Spec.curveName c) ∨ msp.curveId = [] ∧ c = .fp256bnAmcl)
    (raw : U → Bytes) (hraw : ∀ u, Msp.Wire.configCodec.unmarshal (raw u) = .ok { msp with signer := some (s u) })
    {J I : Type} (msg : J → I → Bytes) (who₁ who₂ : J → U) (σ : J → SetupRnd P.world)
    (τ : J → I → (p : CspId) → (P.world.B p).Rnd) :
    ∃ φ : (J → Spec.DlogTape (P.S c) I) ≃ (J → Spec.DlogTape (P.S c) I), ∀ t j, ∃ b sig,
      Spec.Publishes false version (raw (who₁ j)) me (Spec.dlogSetup c (σ j) (t j)) (msg j) (Spec.dlogSign c (τ j) (t j))
        b sig ∧
      Spec.Publishes false version (raw (who₂ j)) me (Spec.dlogSetup c (σ j) (φ t j)) (msg j)
        (Spec.dlogSign c (τ j) (φ t j)) b sig := by
  have gen : ∀ u, ∃ k cred cri, ipk ≠ [] ∧ (P.env c).newPublicKeyFromBytes ipk Msp.Spec.names = .ok k ∧
      Member (P.env c) admin ou k (s u) cred cri (ρ u).sk (eid u) (rh u) := by
    intro u
    obtain ⟨isk', ipk', config', k, cred, cri, s', g1, g2, g3, g4, g5, g6, g7, g8, g9, -, g10, g11, g12, g13, g14, g15, g16,
      g17⟩ := dlog_generated (P.env c) κ (ρ u) admin ou (eid u) (rh u) hou (heid u) u1 (u2 u) (u3 u) (hρ u) revKey (hsign u)
    rw [hkey] at g1
    cases g1
    rw [hconfig u] at g2
    cases g2
    rw [hs u] at g6
    cases g6
    exact ⟨k, cred, cri, g3, g4, g5, g7, g8, g9, g10, g11, g12, g13, g14, g15, g16, g17⟩
  have hsel : Msp.Spec.SelectsCurve false msp.curveId c := ⟨by simpa using hcurve, by simp⟩
  have hrev : Msp.Spec.RevocationKey (P.world.B ⟨false, c⟩) msp.revocationPk ((P.env c).dsa.pub revKey) := by
    rw [hrpk]
    exact ⟨(P.ec c).encode_ne _, pkix, (P.ec c).decode_encode _, (P.ec c).parse_pkix _ _ hpkix⟩
  have one : ∀ j, ∃ φ : Spec.DlogTape (P.S c) I ≃ Spec.DlogTape (P.S c) I, ∀ t, ∃ b sig,
      Spec.Publishes false version (raw (who₁ j)) me (Spec.dlogSetup c (σ j) t) (msg j) (Spec.dlogSign c (τ j) t) b sig ∧
      Spec.Publishes false version (raw (who₂ j)) me (Spec.dlogSetup c (σ j) (φ t)) (msg j) (Spec.dlogSign c (τ j) (φ t))
        b sig := by
    intro j
    obtain ⟨k, cred₁, cri, hne, hk, m₁⟩ := gen (who₁ j)
    obtain ⟨k', cred₂, cri', -, hk', m₂⟩ := gen (who₂ j)
    rw [hk] at hk'
    cases hk'
    obtain rfl : cri = cri' := by
      have := m₁.hcri
      rw [same _ (who₂ j), m₂.hcri] at this
      exact (Res.ok.inj this).symm
    have hreads := generated_reads (P.env c) (hρ (who₁ j)).attrs (hρ (who₁ j)).bar hkey hk
    have hne' : κ.hRand • (P.S c).genG1 ≠ 0 := fun h => hκ ((smul_eq_zero.mp h).resolve_right (P.S c).genG1_ne)
    obtain ⟨φ, hφ⟩ := dlog_session (I := I) m₁ m₂ _ _ hreads.hSk hreads.hRand hne' (msg j)
    refine ⟨φ, fun t => ?_⟩
    obtain ⟨nym, proof, sig, n₁, n₂, ⟨md₁, p₁⟩, ⟨md₂, p₂⟩, g⟩ := hφ t
    obtain ⟨w1, -⟩ := config_wire (hraw (who₁ j))
    obtain ⟨b, hb⟩ := sent_ok (P.env c).T (Msp.Spec.mspRole (roleMask admin)) nym proof k.hash w1 u1
    have pub : ∀ (u : U) (cred : Dlog.Credential) (t : Spec.DlogTape (P.S c) I) (md),
        Member (P.env c) admin ou k (s u) cred cri (ρ u).sk (eid u) (rh u) →
        (P.env c).makeNym (some (ρ u).sk) (.val k) t.1 = .ok (nym, t.1) →
        (P.env c).sign (s u).cred (some (ρ u).sk) (some nym) (some t.1) (.val k) shownAttrs [] 3 2 (s u).cri t.2.1.1
          .standard none = .ok (proof, md) →
        (∀ i, (P.env c).nymSign (some (ρ u).sk) (some nym) (some t.1) (.val k) (msg j i) (t.2.2 i) = .ok (sig i)) →
        Spec.Publishes false version (raw u) me (Spec.dlogSetup c (σ j) t) (msg j) (Spec.dlogSign c (τ j) t) b sig := by
      intro u cred t md m hn hp hsg
      let ρ' : Provider.DlogRnd (P.S c) (P.env c).dsa × Provider.DlogRnd (P.S c) (P.env c).dsa :=
        Spec.dlogSetup c (σ j) t ⟨false, c⟩
      have e1 : ρ'.1.scalar = t.1 := by simp [ρ', Spec.dlogSetup]
      have e2 : ρ'.2.sig = t.2.1.1 := by simp [ρ', Spec.dlogSetup]
      obtain ⟨nym', r', proof', ski', ⟨q1, q2, q3, q4, q5, q6, md', q7⟩, -⟩ := dlog_signer (P.env c) (P.ec c) admin ou
        (eid u) (rh u) k (s u) cred cri (ρ u).sk m.hnames m.hou m.hrole m.heid m.hsk m.hcred m.hcri m.hattrs m.hver
        m.hnontrivial m.halg m.hpk ρ' (by rw [e2]; exact t.2.1.2.masks) (by rw [e2]; exact t.2.1.2.blinding)
      have q3' : (P.env c).makeNym (some (ρ u).sk) (.val k) ρ'.1.scalar = .ok (nym', r') := q3
      rw [e1, hn] at q3'
      cases q3'
      have q7' : (P.env c).sign (s u).cred (some (ρ u).sk) (some nym) (some t.1) (.val k) shownAttrs [] 3 2 (s u).cri
        ρ'.2.sig .standard none = .ok (proof', md') := q7
      rw [e2, hp] at q7'
      cases q7'
      refine publishes_of (W := P.world) (hraw u) me _ c hsel (.val k) (by rw [hipk]; exact hne) ?_ _ hrev (s u) rfl
        (ρ u).sk nym t.1 proof k.hash ⟨q1, q2, q3, .inl rfl, q5, q6, md, q7⟩ (msg j) _ sig ?_ b ?_
      · rw [hipk]
        change ((P.env c).newPublicKeyFromBytes ipk Msp.Spec.names >>= fun k => pure (Dyn.val k)) = _
        rw [hk]; rfl
      · intro i
        have e3 : (Spec.dlogSign c (τ j) t i ⟨false, c⟩ : Provider.DlogRnd (P.S c) (P.env c).dsa).nymSig = t.2.2 i :=
          congrArg Provider.DlogRnd.nymSig (Function.update_self (β := fun p => (P.world.B p).Rnd) ⟨false, c⟩ _ (τ j i))
        change (P.env c).nymSign (some (ρ u).sk) (some nym) (some t.1) (.val k) (msg j i)
          (Spec.dlogSign c (τ j) t i ⟨false, c⟩ : Provider.DlogRnd (P.S c) (P.env c).dsa).nymSig = _
        rw [e3]
        exact hsg i
      · rw [m.hou, m.hrole]
        exact hb
    exact ⟨b, sig, pub _ cred₁ t md₁ m₁ n₁ p₁ fun i => (g i).1, pub _ cred₂ (φ t) md₂ m₂ n₂ p₂ fun i => (g i).2⟩
  choose φ hφ using one
  exact ⟨Equiv.piCongrRight φ, fun t j => hφ j (t j)⟩

/-! ## The aries scheme -/

section

variable {S : Suite}

/-- A member with a generated configuration: the parts of `aries_generated`. -/
structure AriesMember (L : Bbs.Lib S) (admin : Bool) (ou : Bytes) (x : S.F) (s : SignerConfig) (cri : Aries.CRI)
    (sk e s' : S.F) (eid rh : Bytes) : Prop where
  hou : s.ou = ou
  hrole : s.role = roleMask admin
  heid : s.enrollmentId = eid
  hsk : s.sk = S.zrBytes sk
  hcred : s.cred = Proto.encode (Aries.Wire.cred (Aries.issued x 4 0 (Spec.valuesAries L (roleMask admin) ou eid rh) sk e
    s' 0))
  hcri : Aries.Wire.criCodec.unmarshal s.cri = .ok cri
  halg : cri.alg = 0
  hx : x + e ≠ 0
  hnontrivial : ∃ c σ, Aries.Wire.credCodec.unmarshal s.cred = .ok c ∧ Bbs.parseSignature S c.cred = .ok σ ∧ σ.a ≠ 0

/-- The attributes that a member discloses, with their values. -/
abbrev ownAttrs (admin : Bool) (ou : Bytes) : List IdemixAttribute :=
  [⟨1, .bytes ou⟩, ⟨2, .int (roleMask admin)⟩, ⟨0, .other⟩, ⟨0, .other⟩]

theorem AriesMember.holder {L : Bbs.Lib S} (h32 : S.scalarLen = 32) {admin : Bool} {ou : Bytes} {x : S.F} {s : SignerConfig}
    {cri : Aries.CRI} {sk e s' : S.F} {eid rh : Bytes} (h : AriesMember L admin ou x s cri sk e s' eid rh) {nym : S.G1}
    {r : S.F} (hn : Aries.makeNym sk (.val (Aries.ipkFor (Bbs.publicKey x) 4)) 0 r = .ok (nym, r)) :
    ∃ σ attrs, Aries.Spec.Holder L (Aries.ipkFor (Bbs.publicKey x) 4) 4 0 (ownAttrs admin ou) nym s.cred sk r σ attrs := by
  obtain ⟨c, σ, g1, g2, g3⟩ := h.hnontrivial
  have hc : Aries.Wire.credCodec.unmarshal s.cred =
      .ok (Aries.issued x 4 0 (Spec.valuesAries L (roleMask admin) ou eid rh) sk e s' 0) := by
    rw [h.hcred]; exact Aries.Wire.credCodec_rt _ (by simp [Aries.Credential.Wire, Aries.issued, Proto.Int32])
  rw [g1] at hc
  obtain rfl := Res.ok.inj hc
  refine ⟨σ, _, ⟨?_, ⟨_, g1, g2, rfl, rfl⟩, by simp [Aries.issued, Spec.valuesAries], g3, ⟨r, hn⟩⟩⟩
  have hvalid := Bbs.valid_of_sign (x := x) (e := e) (s := s') (pk := Bbs.pkg (Bbs.publicKey x) (4 + 1)) rfl h.hx
    (Aries.Spec.withSecret 0 sk (Spec.valuesAries L (roleMask admin) ou eid rh))
  rw [h.hcred]
  exact (Aries.issued_valid_iff L h32 x 4 0 0 (by omega) (by omega) _ rfl sk e s' _
    (.cons (agrees_bytes L _) (.cons (agrees_int L _) (.cons (agrees_hidden L _) (.cons (agrees_hidden L _) .nil))))).mpr
    hvalid

theorem tape_iff (admin : Bool) (ou : Bytes) (ipk : Aries.IPK S) (sk : S.F) (σ : Bbs.Sig S) (attrs : List S.F)
    (ρ : Aries.SignRand S) : Aries.Spec.Tape ipk .standard (ownAttrs admin ou) 0 sk σ attrs ρ ↔ Spec.AriesProofTape ρ := by
  have hv : Aries.Spec.hiddenValues .standard (ownAttrs admin ou) = 3 := rfl
  constructor
  · intro h
    have h1 := h.eid (by simp [Aries.Spec.CommitsEid])
    have h2 := h.rh (by simp)
    exact ⟨h.r1, h.masks1, fun i hi => h.masks2 i (by rw [hv]; omega), h1.1, h1.2, h2.1, h2.2⟩
  · intro h
    exact ⟨h.r1, fun hh => by simp [Aries.Spec.CommitsEid] at hh, h.masks1,
      fun i hi => h.masks2 i (by rw [hv] at hi; omega), by simp,
      fun _ => ⟨h.unused.1, h.unused.2.1⟩, fun _ => ⟨h.unused.2.2.1, h.unused.2.2.2⟩⟩

/-- See `dlog_session`. -/
theorem aries_session {I : Type} {L : Bbs.Lib S} (h32 : S.scalarLen = 32) (hg : S.g1CompLen < 2 ^ 31) {admin : Bool}
    {ou : Bytes} {x : S.F} {s₁ s₂ : SignerConfig} {cri : Aries.CRI} {sk₁ sk₂ e₁ e₂ s₁' s₂' : S.F} {eid₁ rh₁ eid₂ rh₂ : Bytes}
    (h₁ : AriesMember L admin ou x s₁ cri sk₁ e₁ s₁' eid₁ rh₁) (h₂ : AriesMember L admin ou x s₂ cri sk₂ e₂ s₂' eid₂ rh₂)
    (hcri : s₁.cri = s₂.cri) (hne : (Aries.ipkFor (Bbs.publicKey x) 4).pkg.h0 ≠ 0) (msg : I → Bytes) :
    ∃ φ : Spec.AriesTape S I ≃ Spec.AriesTape S I, ∀ t, ∃ (nym : S.G1) (proof : Bytes) (sig : I → Bytes),
      Aries.makeNym sk₁ (.val (Aries.ipkFor (Bbs.publicKey x) 4)) 0 t.1 = .ok (nym, t.1) ∧
      Aries.makeNym sk₂ (.val (Aries.ipkFor (Bbs.publicKey x) 4)) 0 (φ t).1 = .ok (nym, (φ t).1) ∧
      (∃ md, Aries.sign L s₁.cred sk₁ nym t.1 (.val (Aries.ipkFor (Bbs.publicKey x) 4)) shownAttrs [] 3 2 s₁.cri .standard
        none t.2.1.1 = .ok (proof, md)) ∧
      (∃ md, Aries.sign L s₂.cred sk₂ nym (φ t).1 (.val (Aries.ipkFor (Bbs.publicKey x) 4)) shownAttrs [] 3 2 s₂.cri
        .standard none (φ t).2.1.1 = .ok (proof, md)) ∧
      ∀ i, Aries.nymSign L sk₁ nym t.1 (.val (Aries.ipkFor (Bbs.publicKey x) 4)) (msg i) 0 (t.2.2 i).1
          (Aries.Spec.tape (t.2.2 i).2.1 (t.2.2 i).2.2) = .ok (sig i) ∧
        Aries.nymSign L sk₂ nym (φ t).1 (.val (Aries.ipkFor (Bbs.publicKey x) 4)) (msg i) 0 ((φ t).2.2 i).1
          (Aries.Spec.tape ((φ t).2.2 i).2.1 ((φ t).2.2 i).2.2) = .ok (sig i) := by
  set w := Bbs.publicKey x with hw
  set ipk := Aries.ipkFor w 4 with hipk
  have hkey : Aries.Spec.IsKey ipk w 4 := (Aries.isKey_iff _ _ _).mpr rfl
  have hk' : 0 < (Bbs.pkg w (4 + 1)).h.length := by simp
  set g := (Bbs.pkg w (4 + 1)).h0 with hgdef
  set H := (Bbs.pkg w (4 + 1)).h[0] with hH
  have mk : ∀ sk r : S.F, Aries.makeNym sk (.val ipk) 0 r = .ok (r • g + sk • H, r) := by
    intro sk r
    have hi : Res.index (Bbs.pkg w (4 + 1)).h 0 = .ok H := by
      have := Res.index_nat (Bbs.pkg w (4 + 1)).h 0
      rw [List.getElem?_eq_getElem hk', Res.deref_some] at this
      exact this
    simp only [Aries.makeNym, Dyn.get_val, Res.ok_bind, hipk, Aries.ipkFor, hi]
    rw [Bbs.build_eq (by simp) (by simp)]
    simp [Suite.lin_cons, hgdef]
  obtain ⟨b, hb⟩ : ∃ b : S.F, b • g + (sk₂ - sk₁) • H = 0 := by
    obtain ⟨b, hb⟩ := S.g1_span (P := g) hne ((sk₂ - sk₁) • H)
    exact ⟨-b, by rw [hb, neg_smul, neg_add_cancel]⟩
  have e : ∀ r : S.F, (r + b) • g + sk₂ • H = r • g + sk₁ • H := by
    intro r
    have : (r + b) • g + sk₂ • H = r • g + sk₁ • H + (b • g + (sk₂ - sk₁) • H) := by module
    rw [this, hb, add_zero]
  have hφ : ∀ r : S.F, ∃ φ : {ρ : Aries.SignRand S // Spec.AriesProofTape ρ} ≃ {ρ : Aries.SignRand S // Spec.AriesProofTape ρ},
      ∀ ρ, ∃ sig m₁ m₂,
        Aries.sign L s₁.cred sk₁ (r • g + sk₁ • H) r (.val ipk) (ownAttrs admin ou) [] (3 : Nat) (2 : Nat) s₂.cri .standard none
          ρ.1 = .ok (sig, m₁) ∧
        Aries.sign L s₂.cred sk₂ (r • g + sk₁ • H) (r + b) (.val ipk) (ownAttrs admin ou) [] (3 : Nat) (2 : Nat) s₂.cri
          .standard none (φ ρ).1 = .ok (sig, m₂) := by
    intro r
    obtain ⟨σ₁, attrs₁, hh₁⟩ := h₁.holder h32 (mk sk₁ r)
    obtain ⟨σ₂, attrs₂, hh₂⟩ := h₂.holder h32 (nym := r • g + sk₁ • H) (r := r + b) (by rw [← e]; exact mk sk₂ (r + b))
    obtain ⟨φ, hφ⟩ := Aries.C64_aries_anonymity L h32 hg ipk w 4 0 2 3 hkey (by omega) hne s₂.cri [] cri (ownAttrs admin ou)
      .standard rfl (by omega) (by omega) (by omega) h₂.hcri h₂.halg (.inl rfl)
      ⟨by simp, by simp [Aries.Spec.CommitsEid], by simp, by simp, by simp⟩ _ _ _ _ _ _ _ _ _ _ _ hh₁ hh₂
    refine ⟨((Equiv.subtypeEquivRight fun ρ => (tape_iff admin ou ipk sk₁ σ₁ attrs₁ ρ).symm).trans φ).trans
      (Equiv.subtypeEquivRight fun ρ => tape_iff admin ou ipk sk₂ σ₂ attrs₂ ρ), fun ρ => ?_⟩
    exact hφ ⟨ρ.1, (tape_iff admin ou ipk sk₁ σ₁ attrs₁ ρ.1).mpr ρ.2⟩
  choose φ hφ using hφ
  refine ⟨Equiv.prodShear (Equiv.addRight b) fun r => Equiv.prodCongr (φ r) (Equiv.piCongrRight fun i =>
    Equiv.prodShear (Equiv.refl S.F) fun nonce => Aries.pairTapes g H
      (fun t => Aries.nymChallenge L (r • g + sk₁ • H) g H t (msg i) (S.zrBytes nonce)) b (sk₂ - sk₁) hb), ?_⟩
  rintro ⟨r, ρ, τ⟩
  obtain ⟨sig, m₁, m₂, q₁, q₂⟩ := hφ r ρ
  have st : ∀ cred sk nym r ρ, Aries.sign L cred sk nym r (.val ipk) shownAttrs [] 3 2 s₂.cri .standard none ρ =
      Aries.sign L cred sk nym r (.val ipk) (ownAttrs admin ou) [] (3 : Nat) (2 : Nat) s₂.cri .standard none ρ :=
    fun cred sk nym r ρ => (sign_types L cred sk nym r (.val ipk) _ _ [] s₂.cri .standard none ρ).symm
  refine ⟨r • g + sk₁ • H, sig, fun i => _, mk _ _, ?_, ⟨m₁, ?_⟩, ⟨m₂, ?_⟩, fun i =>
    ⟨Aries.nymSign_eq L w 4 0 hk' _ _ _ _ _ _ _ rfl, ?_⟩⟩
  · simp only [Equiv.prodShear_apply, Equiv.coe_addRight, mk, e]
  · rw [hcri, st]; exact q₁
  · rw [st]; exact q₂
  · have f := Aries.pairShift_first g H
      (fun t => Aries.nymChallenge L (r • g + sk₁ • H) g H t (msg i) (S.zrBytes (τ i).1)) b (sk₂ - sk₁) hb (τ i).2
    refine (Aries.nymSign_eq L w 4 0 hk' _ _ _ _ _ _ _ rfl).trans ?_
    simp only [Aries.Spec.tape, if_true, one_ne_zero, if_false, ← hgdef, ← hH, Equiv.piCongrRight_apply, Pi.map_apply,
      Equiv.prodShear_apply, Equiv.prodCongr_apply, Prod.map, Equiv.coe_addRight, Equiv.refl_apply, Aries.pairTapes,
      Equiv.coe_fn_mk, f]
    refine congrArg (fun l => Res.ok (Proto.encode (Aries.Wire.nymSig ⟨(⟨_, l⟩ : Bbs.ProofG1 S).enc, _⟩))) ?_
    simp only [Aries.pairShift, List.cons.injEq, and_true]
    constructor <;> ring

end

/-- **C76, aries scheme (partial).** As `C76_dlog_members_hidden_partial`. No credential is trivial, and the generator for the
randomness of pseudonyms is not zero. -/
theorem C76_aries_members_hidden_partial (P : Platform) (c : CurveId) (hc : c = .bls12_381Bbs ∨ c = .bls12_381BbsGurvy)
    (h32 : (P.S c).scalarLen = 32) (hg : (P.S c).g1CompLen < 2 ^ 31) (hg1 : 0 < (P.S c).g1Len) (seed okm : Bytes)
    (hseed : seed.length = 32) (hokm : (P.lib c).hkdf (seed ++ [0]) (P.S c).scalarLen = .ok okm)
    (admin : Bool) (ou : Bytes) (hou : ou ≠ []) (u1 : utf8Valid ou = true) (revKey : (P.env c).dsa.Sk) (pkix : Bytes)
    (hpkix : (P.ec c).pkix ((P.env c).dsa.pub revKey) = .ok pkix) (isk ipk : Bytes)
    (hkey : generateIssuerKeyAries (P.lib c) seed = .ok (isk, ipk))
    (hgen : ∀ k, Aries.newPublicKeyFromBytes (P.S c) ipk Msp.Spec.names = .ok k → k.pkg.h0 ≠ 0)
    {U : Type} (eid rh : U → Bytes) (ρ : U → AriesSignerRnd (P.S c) (P.env c).dsa) (heid : ∀ u, eid u ≠ [])
    (u2 : ∀ u, utf8Valid (eid u) = true) (u3 : ∀ u, utf8Valid (rh u) = true)
    (hx : ∀ u, Bbs.frFromOKM (P.lib c) okm + (ρ u).e ≠ 0)
    (hsign : ∀ u d, ∃ sig, (P.env c).dsa.sign revKey (ρ u).dsa d = .ok sig) (config : U → Bytes)
    (hconfig : ∀ u, generateSignerConfigAries (P.lib c) (P.env c).dsa (roleMask admin) ou (eid u) (rh u) isk ipk revKey
      (ρ u) = .ok (config u))
    (s : U → SignerConfig) (hs : ∀ u, Msp.Wire.signerCodec.unmarshal (config u) = .ok (s u))
    (hnontrivial : ∀ u, ∃ c' σ, Aries.Wire.credCodec.unmarshal (s u).cred = .ok c' ∧
      Bbs.parseSignature (P.S c) c'.cred = .ok σ ∧ σ.a ≠ 0)
    (same : ∀ u v, (s u).cri = (s v).cri)
    (version : Int) (me : Ref) (msp : IdemixConfig) (hipk : msp.ipk = ipk)
    (hrpk : msp.revocationPk = (P.ec c).pemEncode pkix)
    (hcurve : msp.curveId = ascii (Msp.Spec.curveName c) ∨ msp.curveId = [] ∧ c = .bls12_381Bbs)
    (raw : U → Bytes) (hraw : ∀ u, Msp.Wire.configCodec.unmarshal (raw u) = .ok { msp with signer := some (s u) })
    {J I : Type} (msg : J → I → Bytes) (who₁ who₂ : J → U) (σ : J → SetupRnd P.world)
    (τ : J → I → (p : CspId) → (P.world.B p).Rnd) :
    ∃ φ : (J → Spec.AriesTape (P.S c) I) ≃ (J → Spec.AriesTape (P.S c) I), ∀ t j, ∃ b sig,
      Spec.Publishes true version (raw (who₁ j)) me (Spec.ariesSetup c (σ j) (t j)) (msg j) (Spec.ariesSign c (τ j) (t j))
        b sig ∧
      Spec.Publishes true version (raw (who₂ j)) me (Spec.ariesSetup c (σ j) (φ t j)) (msg j)
        (Spec.ariesSign c (τ j) (φ t j)) b sig := by
  set x := Bbs.frFromOKM (P.lib c) okm with hxdef
  set k := Aries.ipkFor (Bbs.publicKey x) 4 with hkdef
  have gen : ∀ u, ∃ cri, ipk ≠ [] ∧ Aries.newPublicKeyFromBytes (P.S c) ipk Msp.Spec.names = .ok k ∧
      AriesMember (P.lib c) admin ou x (s u) cri (ρ u).sk (ρ u).e ((ρ u).s + (ρ u).blinding) (eid u) (rh u) := by
    intro u
    obtain ⟨isk', ipk', config', cri, s', g1, g2, g3, g4, g5, g6, g7, g8, -, g10, g11, g12, g13⟩ :=
      aries_generated (P.lib c) h32 (P.env c).dsa seed okm hseed hokm (ρ u) admin ou (eid u) (rh u) hou (heid u) u1 (u2 u)
        (u3 u) (hx u) revKey (hsign u)
    rw [hkey] at g1
    cases g1
    rw [hconfig u] at g2
    cases g2
    rw [hs u] at g5
    cases g5
    exact ⟨cri, g3, g4, g6, g7, g8, g10, g11, g12, g13, hx u, hnontrivial u⟩
  have hsel : Msp.Spec.SelectsCurve true msp.curveId c := ⟨by simpa using hcurve, by simpa using hc⟩
  have hrev : Msp.Spec.RevocationKey (P.world.B ⟨true, c⟩) msp.revocationPk ((P.env c).dsa.pub revKey) := by
    rw [hrpk]
    exact ⟨(P.ec c).encode_ne _, pkix, (P.ec c).decode_encode _, (P.ec c).parse_pkix _ _ hpkix⟩
  have one : ∀ j, ∃ φ : Spec.AriesTape (P.S c) I ≃ Spec.AriesTape (P.S c) I, ∀ t, ∃ b sig,
      Spec.Publishes true version (raw (who₁ j)) me (Spec.ariesSetup c (σ j) t) (msg j) (Spec.ariesSign c (τ j) t) b sig ∧
      Spec.Publishes true version (raw (who₂ j)) me (Spec.ariesSetup c (σ j) (φ t)) (msg j) (Spec.ariesSign c (τ j) (φ t))
        b sig := by
    intro j
    obtain ⟨cri, hne, hk, m₁⟩ := gen (who₁ j)
    obtain ⟨cri', -, -, m₂⟩ := gen (who₂ j)
    obtain rfl : cri = cri' := by
      have := m₁.hcri
      rw [same _ (who₂ j), m₂.hcri] at this
      exact (Res.ok.inj this).symm
    obtain ⟨φ, hφ⟩ := aries_session (I := I) h32 hg m₁ m₂ (same _ _) (hgen _ hk) (msg j)
    refine ⟨φ, fun t => ?_⟩
    obtain ⟨nym, proof, sig, n₁, n₂, ⟨md₁, p₁⟩, ⟨md₂, p₂⟩, g⟩ := hφ t
    obtain ⟨w1, -⟩ := config_wire (hraw (who₁ j))
    obtain ⟨b, hb⟩ := sent_ok (P.env c).T (Msp.Spec.mspRole (roleMask admin)) nym proof k.hash w1 u1
    have pub : ∀ (u : U) (t : Spec.AriesTape (P.S c) I) (md),
        AriesMember (P.lib c) admin ou x (s u) cri (ρ u).sk (ρ u).e ((ρ u).s + (ρ u).blinding) (eid u) (rh u) →
        Aries.makeNym (ρ u).sk (.val k) 0 t.1 = .ok (nym, t.1) →
        Aries.sign (P.lib c) (s u).cred (ρ u).sk nym t.1 (.val k) shownAttrs [] 3 2 (s u).cri .standard none t.2.1.1 =
          .ok (proof, md) →
        (∀ i, Aries.nymSign (P.lib c) (ρ u).sk nym t.1 (.val k) (msg j i) 0 (t.2.2 i).1
          (Aries.Spec.tape (t.2.2 i).2.1 (t.2.2 i).2.2) = .ok (sig i)) →
        Spec.Publishes true version (raw u) me (Spec.ariesSetup c (σ j) t) (msg j) (Spec.ariesSign c (τ j) t) b sig := by
      intro u t md m hn hp hsg
      let ρ' : Provider.AriesRnd (P.S c) (P.env c).dsa × Provider.AriesRnd (P.S c) (P.env c).dsa :=
        Spec.ariesSetup c (σ j) t ⟨true, c⟩
      have e1 : ρ'.1.scalar = t.1 := by simp [ρ', Spec.ariesSetup]
      have e2 : ρ'.2.sig = t.2.1.1 := by simp [ρ', Spec.ariesSetup]
      obtain ⟨nym', r', proof', ski', ⟨q1, q2, q3, q4, q5, q6, md', q7⟩, -⟩ := aries_signer (P.lib c) h32 hg hg1 (P.env c).T
        (P.env c).dsa (P.ec c) admin ou (eid u) (rh u) x (ρ u).e _ m.hx (s u) cri (ρ u).sk m.hou m.hrole m.heid m.hsk m.hcred
        m.hcri m.halg ρ' (by rw [e2]; exact t.2.1.2.r1)
      have q3' : Aries.makeNym (ρ u).sk (.val k) 0 ρ'.1.scalar = .ok (nym', r') := q3
      rw [e1, hn] at q3'
      cases q3'
      have q7' : Aries.sign (P.lib c) (s u).cred (ρ u).sk nym t.1 (.val k) shownAttrs [] 3 2 (s u).cri .standard none
        ρ'.2.sig = .ok (proof', md') := q7
      rw [e2, hp] at q7'
      cases q7'
      refine publishes_of (W := P.world) (hraw u) me _ c hsel (.val k) (by rw [hipk]; exact hne) ?_ _ hrev (s u) rfl
        (ρ u).sk nym t.1 proof k.hash ⟨q1, q2, q3, .inl rfl, q5, q6, md, q7⟩ (msg j) _ sig ?_ b ?_
      · rw [hipk]
        change (Aries.newPublicKeyFromBytes (P.S c) ipk Msp.Spec.names >>= fun k => pure (Dyn.val k)) = _
        rw [hk]; rfl
      · intro i
        have e3 : (Spec.ariesSign c (τ j) t i ⟨true, c⟩ : Provider.AriesRnd (P.S c) (P.env c).dsa).nonce = (t.2.2 i).1 :=
          congrArg Provider.AriesRnd.nonce (Function.update_self (β := fun p => (P.world.B p).Rnd) ⟨true, c⟩ _ (τ j i))
        have e4 : (Spec.ariesSign c (τ j) t i ⟨true, c⟩ : Provider.AriesRnd (P.S c) (P.env c).dsa).blindings =
            Aries.Spec.tape (t.2.2 i).2.1 (t.2.2 i).2.2 :=
          congrArg Provider.AriesRnd.blindings (Function.update_self (β := fun p => (P.world.B p).Rnd) ⟨true, c⟩ _ (τ j i))
        change Aries.nymSign (P.lib c) (ρ u).sk nym t.1 (.val k) (msg j i) 0
          (Spec.ariesSign c (τ j) t i ⟨true, c⟩ : Provider.AriesRnd (P.S c) (P.env c).dsa).nonce
          (Spec.ariesSign c (τ j) t i ⟨true, c⟩ : Provider.AriesRnd (P.S c) (P.env c).dsa).blindings = _
        rw [e3, e4]
        exact hsg i
      · rw [m.hou, m.hrole]
        exact hb
    exact ⟨b, sig, pub _ t md₁ m₁ n₁ p₁ fun i => (g i).1, pub _ (φ t) md₂ m₂ n₂ p₂ fun i => (g i).2⟩
  choose φ hφ using one
  exact ⟨Equiv.piCongrRight φ, fun t j => hφ j (t j)⟩

/-! ## The revocation information -/

/-- The proof can be read back from a serialized identity. -/
theorem sent_proof {S : Suite} {T : Translator S} {name ou : Bytes} {role : Int} {nym : S.G1} {proof ski b : Bytes}
    (h : sent T name ou role nym proof ski = .ok b) (h2 : 2 ≤ ((T.g1ToProto nym).x ++ (T.g1ToProto nym).y).length) :
    ∃ outer inner, Msp.Wire.serialCodec.unmarshal b = .ok outer ∧ Msp.Wire.identCodec.unmarshal outer.idBytes = .ok inner ∧
      inner.proof = proof := by
  simp only [sent, Res.bind_eq_ok] at h
  obtain ⟨ou', -, role', -, inner, h4, h5⟩ := h
  have e5 := Msp.Wire.serialCodec.rt _ _ trivial h5
  have e4 := Msp.Wire.identCodec.rt _ _ ⟨by
      simp only [Option.some.injEq, ne_eq]
      intro hh
      have := congrArg List.length hh
      simp only [List.length_take, List.length_nil] at this
      omega, by
      simp only [Option.some.injEq, ne_eq]
      intro hh
      have := congrArg List.length hh
      simp only [List.length_drop, List.length_nil] at this
      omega⟩ h4
  exact ⟨_, _, e5, e4, rfl⟩

/-- What a session publishes, from `C58_setup_exact`. -/
theorem publishes_inv {W : World} {I : Type} {aries : Bool} {version : Int} {raw : Bytes} {me : Ref} {σ : SetupRnd W}
    {msg : I → Bytes} {τ : I → (p : CspId) → (W.B p).Rnd} {b : Bytes} {sig : I → Bytes}
    (h : Spec.Publishes aries version raw me σ msg τ b sig) {conf : IdemixConfig}
    (hconf : Msp.Wire.configCodec.unmarshal raw = .ok conf) {s : SignerConfig} (hs : conf.signer = some s) {c : CurveId}
    (hc : Msp.Spec.SelectsCurve aries conf.curveId c) :
    ∃ (ipk : (W.B ⟨aries, c⟩).IPK) (sk : (W.S ⟨aries, c⟩).F) (nym : (W.S ⟨aries, c⟩).G1) (r : (W.S ⟨aries, c⟩).F)
      (proof ski : Bytes), Msp.Spec.Signer (W.B ⟨aries, c⟩) ipk s (σ ⟨aries, c⟩) sk nym r proof ski ∧
      sent (W.B ⟨aries, c⟩).T conf.name s.ou (Msp.Spec.mspRole s.role) nym proof ski = .ok b := by
  obtain ⟨m, x, h1, h2, h3⟩ := h
  obtain ⟨conf', c', ipk, rpk, e1, -, e3, -, -, -, e7⟩ := (Msp.C58_setup_exact _ _ _ _ _ _).mp h1
  rw [hconf] at e1
  cases e1
  cases Msp.selects_unique e3 hc
  rcases e7 with ⟨e7, -⟩ | ⟨s', sk, nym, r, proof, ski, e7, e8, rfl⟩
  · rw [hs] at e7
    cases e7
  · rw [hs] at e7
    cases e7
    cases h2
    refine ⟨ipk, sk, nym, r, proof, ski, e8, ?_⟩
    exact (serialize_sent (fun _ => _) me conf.name ⟨aries, c⟩ _ s sk nym r proof ski rfl).symm.trans (h3 (fun _ => _) rfl).1

theorem packSigner_cri {role : Int} {ou eid rh sk cred cri config : Bytes} {s : SignerConfig}
    (h : packSigner role ou eid rh sk cred cri = .ok config) (hs : Msp.Wire.signerCodec.unmarshal config = .ok s) :
    s.cri = cri := by
  simp only [packSigner, Res.bind_eq_ok, Res.guardErr_eq_ok, Bool.or_eq_false_iff, decide_eq_false_iff_not] at h
  obtain ⟨-, hr, h⟩ := h
  have := Msp.Wire.signerCodec.rt ⟨cred, sk, ou, role, eid, cri, rh, [], []⟩ config
    (show Proto.Int32 role by simp only [Proto.Int32]; omega) h
  rw [hs] at this
  rw [Res.ok.inj this]

/-- The revocation information in a generated configuration. -/
theorem dlog_config_cri {S : Suite} {E : Dlog.Env S} {role : Int} {ou eid rh isk ipk config mark : Bytes} {revKey : E.dsa.Sk}
    {ρ : SignerRnd S E.dsa} {s : SignerConfig}
    (hconfig : generateSignerConfig E role ou eid rh isk ipk revKey ρ = .ok config)
    (hs : Msp.Wire.signerCodec.unmarshal config = .ok s)
    (hmark : E.dsa.sign revKey ρ.dsa (Dlog.Spec.criDigest E (E.T.g2ToProto S.genG2) 0 0) = .ok mark) :
    s.cri = Proto.encode (Dlog.Wire.cri ⟨0, some (E.T.g2ToProto S.genG2), mark, 0, []⟩) := by
  simp only [generateSignerConfig, Res.bind_eq_ok, Dlog.cri_marshal, Res.ok.injEq] at hconfig
  obtain ⟨-, -, -, -, ipk', -, msg', -, cred, -, credBytes, -, cri, hcri, criBytes, rfl, hp⟩ := hconfig
  rw [packSigner_cri hp hs]
  simp only [Dlog.Spec.criDigest] at hmark
  simp only [Dlog.Env.createCRI, Res.ofOption_some, Res.ok_bind, if_true, Dlog.criBody, Dlog.cri_marshal, hmark,
    Res.pure_def, Res.ok.injEq] at hcri
  rw [← hcri]

/-- See `dlog_config_cri`. -/
theorem aries_config_cri {S : Suite} {L : Bbs.Lib S} {dsa : Ecdsa} {role : Int} {ou eid rh isk ipk config mark : Bytes}
    {revKey : dsa.Sk} {ρ : AriesSignerRnd S dsa} {s : SignerConfig}
    (hconfig : generateSignerConfigAries L dsa role ou eid rh isk ipk revKey ρ = .ok config)
    (hs : Msp.Wire.signerCodec.unmarshal config = .ok s)
    (hmark : dsa.sign revKey ρ.dsa (dsa.sha256 (Proto.encode (Aries.Wire.cri ⟨0, S.g2Bytes S.genG2, [], 0, []⟩))) =
      .ok mark) :
    s.cri = Proto.encode (Aries.Wire.cri ⟨0, S.g2Bytes S.genG2, mark, 0, []⟩) := by
  simp only [generateSignerConfigAries, Res.bind_eq_ok] at hconfig
  obtain ⟨-, -, -, -, isk', -, ⟨cr, bl⟩, -, -, -, cred, -, cred', -, -, -, cri, hcri, hp⟩ := hconfig
  rw [packSigner_cri hp hs]
  simp only [Aries.revSign, Res.ofOption_some, Res.ok_bind, if_true, Aries.Wire.criCodec_marshal, hmark,
    Res.ok.injEq] at hcri
  exact hcri.symm

/-- **C76, dlog scheme (violated).** Every identity that an MSP publishes carries the authority's signature from the
revocation information of the signer's configuration, in the clear. The generator makes that signature anew for each
configuration, and ECDSA signatures are randomized: here `mark u` is the one of member `u`. So an observer who reads `mark`
from serialized identities recognises all sessions of one configuration, and tells the members apart. -/
theorem C76_dlog_marked_violated (P : Platform) (c : CurveId) (k : Nat) (hk : 0 < k) (hT : Spec.RealTranslator (P.env c) k)
    (role : Int) (ou isk ipk : Bytes) (revKey : (P.env c).dsa.Sk)
    {U : Type} (eid rh : U → Bytes) (ρ : U → SignerRnd (P.S c) (P.env c).dsa) (config : U → Bytes)
    (hconfig : ∀ u, generateSignerConfig (P.env c) role ou (eid u) (rh u) isk ipk revKey (ρ u) = .ok (config u))
    (s : U → SignerConfig) (hs : ∀ u, Msp.Wire.signerCodec.unmarshal (config u) = .ok (s u)) (mark : U → Bytes)
    (hmark : ∀ u, (P.env c).dsa.sign revKey (ρ u).dsa
      (Dlog.Spec.criDigest (P.env c) ((P.env c).T.g2ToProto (P.S c).genG2) 0 0) = .ok (mark u))
    (u : U) (raw : Bytes) (conf : IdemixConfig) (hraw : Msp.Wire.configCodec.unmarshal raw = .ok conf)
    (hsig : conf.signer = some (s u))
    (hcurve : conf.curveId = ascii (Msp.Spec.curveName c) ∨ conf.curveId = [] ∧ c = .fp256bnAmcl)
    {I : Type} (version : Int) (me : Ref) (σ : SetupRnd P.world) (msg : I → Bytes)
    (τ : I → (p : CspId) → (P.world.B p).Rnd) (b : Bytes) (sig : I → Bytes)
    (h : Spec.Publishes false version raw me σ msg τ b sig) : Spec.dlogMark b = .ok (mark u) := by
  obtain ⟨k', sk, nym, r, proof, ski, ⟨-, -, -, -, -, -, md, hsn⟩, hb⟩ :=
    publishes_inv h hraw hsig (c := c) ⟨by simpa using hcurve, by simp⟩
  obtain ⟨outer, inner, e1, e2, rfl⟩ := sent_proof hb (real_length hk hT nym)
  have hsn' : (P.env c).sign (s u).cred (some sk) (some nym) (some r) k' shownAttrs [] 3 2 (s u).cri (σ ⟨false, c⟩).2.sig
    .standard none = .ok (inner.proof, md) := hsn
  have hcri : Dlog.Wire.criCodec.unmarshal (s u).cri =
      .ok ⟨0, some ((P.env c).T.g2ToProto (P.S c).genG2), mark u, 0, []⟩ := by
    rw [dlog_config_cri (hconfig u) (hs u) (hmark u)]
    exact Dlog.Wire.criCodec.rt _ _ ⟨by simp [Proto.Int64], by simp [Proto.Int32]⟩ rfl
  simp only [Dlog.Env.sign, Res.recovered_eq_ok, Res.bind_eq_ok, hcri, Res.ok.injEq, Dlog.sig_marshal] at hsn'
  obtain ⟨i, -, cr, -, _, rfl, sk', -, nym', -, r', -, ⟨sg, m⟩, hn, raw', rfl, hr⟩ := hsn'
  have hw := Dlog.newSignature_wire (by simp [Proto.Int64]) hn
  obtain ⟨hr, -⟩ := Prod.mk.inj (Res.ok.inj hr)
  have hu := Dlog.Wire.sigCodec.rt sg _ hw (Dlog.sig_marshal sg)
  rw [hr] at hu
  simp only [Spec.dlogMark, e1, e2, hu, Res.ok_bind, Res.pure_def, Res.ok.injEq]
  simp only [Dlog.newSignature, Res.bind_eq_ok, Dlog.finalise, Res.pure_def, Res.ok.injEq, Prod.mk.injEq] at hn
  obtain ⟨p, -, e, -, r, -, lb, -, np, -, pd, -, pd2, -, sa, -, rfl, -⟩ := hn
  rfl

/-- **C76, aries scheme (violated).** As `C76_dlog_marked_violated`. -/
theorem C76_aries_marked_violated (P : Platform) (c : CurveId) (hc : c = .bls12_381Bbs ∨ c = .bls12_381BbsGurvy)
    (k : Nat) (hk : 0 < k) (hT : Spec.RealTranslator (P.env c) k)
    (role : Int) (ou isk ipk : Bytes) (revKey : (P.env c).dsa.Sk)
    {U : Type} (eid rh : U → Bytes) (ρ : U → AriesSignerRnd (P.S c) (P.env c).dsa) (config : U → Bytes)
    (hconfig : ∀ u, generateSignerConfigAries (P.lib c) (P.env c).dsa role ou (eid u) (rh u) isk ipk revKey (ρ u) =
      .ok (config u))
    (s : U → SignerConfig) (hs : ∀ u, Msp.Wire.signerCodec.unmarshal (config u) = .ok (s u)) (mark : U → Bytes)
    (hmark : ∀ u, (P.env c).dsa.sign revKey (ρ u).dsa ((P.env c).dsa.sha256
      (Proto.encode (Aries.Wire.cri ⟨0, (P.S c).g2Bytes (P.S c).genG2, [], 0, []⟩))) = .ok (mark u))
    (u : U) (raw : Bytes) (conf : IdemixConfig) (hraw : Msp.Wire.configCodec.unmarshal raw = .ok conf)
    (hsig : conf.signer = some (s u))
    (hcurve : conf.curveId = ascii (Msp.Spec.curveName c) ∨ conf.curveId = [] ∧ c = .bls12_381Bbs)
    {I : Type} (version : Int) (me : Ref) (σ : SetupRnd P.world) (msg : I → Bytes)
    (τ : I → (p : CspId) → (P.world.B p).Rnd) (b : Bytes) (sig : I → Bytes)
    (h : Spec.Publishes true version raw me σ msg τ b sig) : Spec.ariesMark b = .ok (mark u) := by
  obtain ⟨k', sk, nym, r, proof, ski, ⟨-, -, -, -, -, -, md, hsn⟩, hb⟩ :=
    publishes_inv h hraw hsig (c := c) ⟨by simpa using hcurve, by simpa using hc⟩
  obtain ⟨outer, inner, e1, e2, rfl⟩ := sent_proof hb (real_length hk hT nym)
  have hsn' : Aries.sign (P.lib c) (s u).cred sk nym r k' shownAttrs [] 3 2 (s u).cri .standard none
    (σ ⟨true, c⟩).2.sig = .ok (inner.proof, md) := hsn
  have hcri : Aries.Wire.criCodec.unmarshal (s u).cri = .ok ⟨0, (P.S c).g2Bytes (P.S c).genG2, mark u, 0, []⟩ := by
    rw [aries_config_cri (hconfig u) (hs u) (hmark u)]
    exact Aries.Wire.criCodec_rt _ ⟨by simp [Proto.Int64], by simp [Proto.Int32]⟩
  simp only [Aries.sign, Res.bind_eq_ok, hcri, Res.ok.injEq] at hsn'
  obtain ⟨-, -, i, -, _, rfl, -, -, cr, -, ⟨pok, msgs⟩, -, cn, -, mEid, -, eid', heid, mRh, -, rh', hrh, ch, -, pf, -, pn, -,
    pe, -, pr, -, raw', hp, hr⟩ := hsn'
  obtain ⟨rfl, -⟩ := Prod.mk.inj (Res.ok.inj hr)
  obtain rfl : eid' = none := by simpa [Aries.onlyIf, Aries.eidEnabled] using heid.symm
  obtain rfl : rh' = none := by simpa [Aries.onlyIf, Aries.rhEnabled] using hrh.symm
  simp only [Aries.packageProof, Res.bind_eq_ok, Aries.Wire.sigCodec_marshal, Res.ok.injEq] at hp
  obtain ⟨pl, -, mn, -, bn, -, be, -, br, -, hp⟩ := hp
  obtain ⟨x, hx, hm, hw⟩ : ∃ x : Aries.Signature, Proto.encode (Aries.Wire.sig x) = inner.proof ∧ x.epochPkSig = mark u ∧
      x.Wire := ⟨_, hp, rfl, by simp [Aries.Signature.Wire, Proto.Int32, Proto.Int64]⟩
  have hu := Aries.Wire.sigCodec_rt _ hw
  rw [hx] at hu
  simp only [Spec.ariesMark, e1, e2, hu, Res.ok_bind, Res.pure_def, hm]

end Idemix.Gen
