import Verif.Aries.PropsSign
import Verif.Aries.Smartcard
import Mathlib.Tactic.IntervalCases

/-!
# C43, C44: the software smart card
-/

namespace Idemix.Aries

open Bbs Bbs.Ex
open Dlog (SigType VerType AuditData SignerMetadata)

variable {S : Suite} (L : Lib S)

/-! ## C43 -/

/-- The card works with the generators of the issuer key: those for the randomness, the secret key (number 0) and the
enrollment identifier (number 3). -/
def Spec.CardFor (sc : Card S) (ipk : IPK S) : Prop :=
  ipk.pkg.h0 = sc.h0 ∧ ipk.pkg.h[0]? = some sc.h1 ∧ ipk.pkg.h[3]? = some sc.h2

theorem nymSign_parts (sha : Bytes → Bytes) (sc : Card S) (msg seed : Bytes) (hs : seed.length = 16) (xt rt : S.F) :
    let b := prf S sc.k1 seed • sc.h0 + sc.uid • sc.h1
    let b' := rt • sc.h0 + xt • sc.h1
    let c : S.F := S.zrOfBytes (sha (cardHashInput sc.h0 sc.h1 sc.h2 b b' sc.getNymEid.2 msg))
    let sig := sc.nymSign sha msg seed xt rt
    goSlice sig 0 16 = .ok seed ∧ goSlice sig 16 (16 + S.g1Len) = .ok (S.g1Bytes b) ∧
      goSlice sig (16 + S.g1Len) (16 + S.g1Len + S.g1Len) = .ok (S.g1Bytes b') ∧
      goSlice sig (16 + S.g1Len + S.g1Len) (16 + S.g1Len + S.g1Len + S.scalarLen) = .ok (S.zrBytes (xt + c * sc.uid)) ∧
      goSlice sig (16 + S.g1Len + S.g1Len + S.scalarLen) (16 + S.g1Len + S.g1Len + S.scalarLen + S.scalarLen) =
        .ok (S.zrBytes (rt + c * prf S sc.k1 seed)) := by
  intro b b' c sig
  have e : sig = seed ++ S.g1Bytes b ++ S.g1Bytes b' ++ S.zrBytes (xt + c * sc.uid) ++
    S.zrBytes (rt + c * prf S sc.k1 seed) := rfl
  have l1 : ∀ p : S.G1, (S.g1Bytes p).length = S.g1Len := S.g1Bytes_len
  have l2 : ∀ p : S.F, (S.zrBytes p).length = S.scalarLen := S.zrBytes_len
  refine ⟨?_, ?_, ?_, ?_, ?_⟩
  · have := goSlice_mid [] seed (S.g1Bytes b ++ S.g1Bytes b' ++ S.zrBytes (xt + c * sc.uid) ++
      S.zrBytes (rt + c * prf S sc.k1 seed))
    rw [e]
    simpa [hs, List.append_assoc] using this
  · have := goSlice_mid seed (S.g1Bytes b) (S.g1Bytes b' ++ S.zrBytes (xt + c * sc.uid) ++
      S.zrBytes (rt + c * prf S sc.k1 seed))
    rw [e]
    simpa [hs, l1, List.append_assoc] using this
  · have := goSlice_mid (seed ++ S.g1Bytes b) (S.g1Bytes b') (S.zrBytes (xt + c * sc.uid) ++
      S.zrBytes (rt + c * prf S sc.k1 seed))
    rw [e]
    simpa [hs, l1, List.append_assoc] using this
  · have := goSlice_mid (seed ++ S.g1Bytes b ++ S.g1Bytes b') (S.zrBytes (xt + c * sc.uid))
      (S.zrBytes (rt + c * prf S sc.k1 seed))
    rw [e]
    simpa [hs, l1, l2, List.append_assoc, Nat.add_assoc] using this
  · have := goSlice_mid (seed ++ S.g1Bytes b ++ S.g1Bytes b' ++ S.zrBytes (xt + c * sc.uid))
      (S.zrBytes (rt + c * prf S sc.k1 seed)) []
    rw [e]
    simpa [hs, l1, l2, List.append_assoc, Nat.add_assoc] using this

/-- **C43 (pseudonym signatures).** For every card, message, seed and randomness, signing succeeds; the pseudonym
returned opens to the randomness returned and the secret key of the card; and the signature verifies for the card's
current commitment to the enrollment identifier. -/
theorem C43_nym_signatures_verify (hone : S.zrOfInt 1 = 1) (sha : Bytes → Bytes) (ipk : IPK S) (sc : Card S) (hsc : Spec.CardFor sc ipk)
    (digest seed : Bytes) (hs : seed.length = 16) (xt rt : S.F) :
    ∃ sig nym r, cardSign sha (.val sc) digest seed xt rt = .ok (sig, nym, r) ∧
      nym = r • ipk.pkg.h0 + sc.uid • sc.h1 ∧
      cardVerify sha (.val ipk) sc.getNymEid.2 sig digest = .ok () := by
  obtain ⟨g0, g1, g3⟩ := hsc
  obtain ⟨p1, p2, p3, p4, p5⟩ := nymSign_parts sha sc digest seed hs xt rt
  refine ⟨sc.nymSign sha digest seed xt rt, prf S sc.k1 seed • sc.h0 + sc.uid • sc.h1, prf S sc.k1 seed, ?_, ?_, ?_⟩
  · simp only [cardSign, Dyn.get_val, Res.ok_bind, p1, p2, Suite.g1OfBytes_g1Bytes, Res.ofOption_some, Res.pure_def]
  · rw [g0]
  · have i0 : Res.index ipk.pkg.h 0 = .ok sc.h1 := by
      rw [show (0 : Int) = ((0 : Nat) : Int) from rfl, Res.index_nat, g1, Res.deref_some]
    have i3 : Res.index ipk.pkg.h 3 = .ok sc.h2 := by
      rw [show (3 : Int) = ((3 : Nat) : Int) from rfl, Res.index_nat, g3, Res.deref_some]
    simp only [cardVerify, i0, i3, Res.ok_bind, nymVerifyCard, g0, p2, p3, p4, p5, Suite.g1OfBytes_g1Bytes,
      Res.ofOption_some, Suite.zrOfBytes_zrBytes, hone, one_smul, Res.guardErr_eq_ok, decide_eq_false_iff_not,
      not_not]
    module

/-- **C43 (signatures, partial).** Let the card have made a commitment `tau` to the enrollment identifier with
randomness `s` and then a pseudonym signature with pseudonym `nym`, and let the credential be one on the card's secret
key and enrollment identifier. The signature that the host makes for that pseudonym with the card's commitment as
metadata verifies, and so does the pseudonym signature for the same commitment, which is the one in the signature.
What is missing: the unlikely draws that `Apart` and `r1 ≠ 0` exclude, as in `C39_signatures_verify_partial`. -/
theorem C43_signatures_verify_partial (h32 : S.scalarLen = 32) (hg : S.g1CompLen < 2 ^ 31) (hg1 : 0 < S.g1Len)
    (sha : Bytes → Bytes) (ipk : IPK S) (w : S.G2) (n rh : Nat) (hkey : Spec.IsKey ipk w n) (hn : n + 1 ≤ 65535)
    (sc : Card S) (hsc : Spec.CardFor sc ipk) (digest seed : Bytes) (hs : seed.length = 16) (xt rt : S.F)
    (credBytes criRaw msg : Bytes) (c : Credential) (σ : Sig S) (cri : CRI) (attributes : List IdemixAttribute)
    (ρ : SignRand S) (vRh : S.F)
    (hlen : attributes.length = n) (hcred : credVerify L sc.uid (.val ipk) credBytes attributes = .ok ())
    (hc : Wire.credCodec.unmarshal credBytes = .ok c) (hcn : c.attrs.length = n) (hk : c.skPos = 0)
    (hσ : parseSignature S c.cred = .ok σ) (hcri : Wire.criCodec.unmarshal criRaw = .ok cri) (halg : cri.alg = 0)
    (hreq : Spec.Request .smartcard attributes 0 2 rh)
    (hve : (c.attrs.map S.zrOfBytes)[2]? = some sc.eid) (hvr : (c.attrs.map S.zrOfBytes)[rh]? = some vRh)
    (hρ : ρ.pok.r1 ≠ 0)
    (hap : Spec.Apart ipk.pkg.h0 ipk.pkg.h σ (Spec.withSecret 0 sc.uid (c.attrs.map S.zrOfBytes)) ρ.pok.r1 ρ.pok.r2) :
    let s := sc.getNymEid.1
    let tau := sc.getNymEid.2
    let md : SignerMetadata S := ⟨some ⟨some tau, s, sc.eid⟩, none, [], []⟩
    ∃ nymSig nym r raw m, cardSign sha (.val sc) digest seed xt rt = .ok (nymSig, nym, r) ∧
      sign L credBytes sc.uid nym r (.val ipk) attributes msg rh 2 criRaw .smartcard (some md) ρ = .ok (raw, some m) ∧
      m.eidNymAuditData = md.eidNymAuditData ∧
      verify L (.val ipk) raw msg attributes rh 2 0 .expectSmartcard (some m) = .ok () ∧
      verify L (.val ipk) raw msg attributes rh 2 0 .expectSmartcard none = .ok () ∧
      cardVerify sha (.val ipk) tau nymSig digest = .ok () := by
  intro s tau md
  obtain ⟨nymSig, nym, r, h1, h2, h3⟩ := C43_nym_signatures_verify L.zrOfInt_one sha ipk sc hsc digest seed hs xt rt
  obtain ⟨g0, g1, g3⟩ := hsc
  have htau : tau = s • ipk.pkg.h0 + sc.eid • sc.h2 := by rw [g0]; rfl
  have i0 : Res.index ipk.pkg.h 0 = .ok sc.h1 := by
    rw [show (0 : Int) = ((0 : Nat) : Int) from rfl, Res.index_nat, g1, Res.deref_some]
  have hnym : makeNym sc.uid (.val ipk) ((0 : Nat) : Int) r = .ok (nym, r) := by
    simp only [makeNym, Dyn.get_val, Res.ok_bind, Nat.cast_zero, i0]
    rw [build_eq (by simp) (by simp)]
    simp only [Suite.lin_cons, Suite.lin_nil_left, Res.ok_bind, Res.pure_def, add_zero, h2]
  obtain ⟨raw, m, s1, s2, s3, _⟩ := C39_signatures_verify_partial L h32 hg hg1 ipk w n 0 2 rh hkey hn credBytes criRaw msg
    c σ cri attributes sc.uid r r nym .smartcard (some md) ρ sc.eid vRh hlen hcred hc hcn hk hσ hnym hcri halg
    (by simp [Spec.Defined]) hreq hve hvr hρ (fun _ => hap)
    (by
      intro h hh _ d hd
      have : h = sc.h2 := by
        have e : Spec.slot 0 2 = 3 := rfl
        rw [e, g3] at hh
        exact (Option.some.inj hh).symm
      subst this
      cases hd
      exact ⟨rfl, by rw [htau]⟩)
    (by intro _ _ h; cases h)
  obtain ⟨m', h, rfl, hh, e⟩ := s3 (by simp [Spec.CommitsEid])
  refine ⟨nymSig, nym, r, raw, m', h1, s1, ?_, s2 _ (by simp [Spec.Matches]) _ (.inr rfl),
    s2 _ (by simp [Spec.Matches]) _ (.inl rfl), h3⟩
  have e3 : Spec.slot 0 2 = 3 := rfl
  rw [e3, g3] at hh
  cases hh
  rw [e]
  simp [Spec.opening, md, htau]

/-- What a card signature says: the first message, the commitment and the two responses. -/
structure Spec.CardTranscript (S : Suite) where
  B : S.G1
  B' : S.G1
  x : S.F
  r : S.F

/-- The layout: 16 bytes of seed, two points and two scalars. -/
def Spec.CardLayout (proof : Bytes) (t : Spec.CardTranscript S) : Prop :=
  S.g1OfBytes ((proof.drop 16).take S.g1Len) = some t.B ∧
    S.g1OfBytes ((proof.drop (16 + S.g1Len)).take S.g1Len) = some t.B' ∧
    t.x = S.zrOfBytes ((proof.drop (16 + 2 * S.g1Len)).take S.scalarLen) ∧
    t.r = S.zrOfBytes ((proof.drop (16 + 2 * S.g1Len + S.scalarLen)).take S.scalarLen)

/-- The challenge of a card signature. -/
def Spec.cardChallenge (sha : Bytes → Bytes) (h0 h1 h2 tau : S.G1) (t : Spec.CardTranscript S) (msg : Bytes) : S.F :=
  S.zrOfBytes (sha (([h0, h1, h2, t.B, t.B', tau].map fun P => (S.g1Bytes P).drop 1).flatten ++ msg))

/-- **C43 (exact).** A card signature is accepted exactly if its parts parse and satisfy the Schnorr equation. -/
theorem C43_nym_verify_exact (hone : S.zrOfInt 1 = 1) (sha : Bytes → Bytes) (h0 h1 h2 tau : S.G1) (proof msg : Bytes) :
    nymVerifyCard S sha h0 h1 h2 proof tau msg = .ok () ↔
      16 + 2 * S.g1Len + 2 * S.scalarLen ≤ proof.length ∧ ∃ t, Spec.CardLayout proof t ∧
        t.r • h0 + t.x • h1 = t.B' + Spec.cardChallenge sha h0 h1 h2 tau t msg • t.B := by
  have sl : ∀ (a len : Nat) (x : Bytes), goSlice proof a (a + len) = .ok x ↔
      a + len ≤ proof.length ∧ (proof.drop a).take len = x := by
    intro a len x
    by_cases h : a + len ≤ proof.length
    · rw [goSlice_ok_of (by omega) h]
      simp only [Res.ok.injEq, h, true_and, List.drop_take, Nat.add_sub_cancel_left]
    · rw [goSlice, if_pos (by omega)]
      simp [h]
  have hc : ∀ t : Spec.CardTranscript S, cardHashInput h0 h1 h2 t.B t.B' tau msg =
      ([h0, h1, h2, t.B, t.B', tau].map fun P => (S.g1Bytes P).drop 1).flatten ++ msg := by
    intro t; simp [cardHashInput, List.append_assoc]
  simp only [nymVerifyCard, Res.bind_eq_ok, sl, Res.ofOption_eq_ok, Res.guardErr_eq_ok, decide_eq_false_iff_not, not_not,
    hone, one_smul, Spec.CardLayout]
  constructor
  · rintro ⟨_, ⟨a1, rfl⟩, b, a2, _, ⟨a3, rfl⟩, b', a4, _, ⟨a5, rfl⟩, _, ⟨a6, rfl⟩, a7⟩
    refine ⟨by omega, ⟨b, b', _, _⟩, ⟨a2, a4, rfl, rfl⟩, ?_⟩
    have := hc ⟨b, b', 0, 0⟩
    simp only at this
    simp only [Spec.cardChallenge, ← this]
    have e1 : 16 + S.g1Len + S.g1Len = 16 + 2 * S.g1Len := by omega
    rw [e1] at a7
    exact a7
  · rintro ⟨hl, ⟨b, b', x, r⟩, ⟨a2, a4, rfl, rfl⟩, a7⟩
    have e1 : 16 + S.g1Len + S.g1Len = 16 + 2 * S.g1Len := by omega
    refine ⟨_, ⟨by omega, rfl⟩, b, a2, _, ⟨by omega, rfl⟩, b', a4, _, ⟨by omega, rfl⟩, _, ⟨by omega, rfl⟩, ?_⟩
    have := hc ⟨b, b', 0, 0⟩
    simp only at this
    rw [this, e1]
    exact a7

/-- **C43 (extraction).** Two accepted card signatures for the same pseudonym `B` and first message whose challenges
differ give away an opening of the pseudonym: the quotients of the differences of responses and of challenges. The hash
functions and the messages may differ. -/
theorem C43_extraction (hone : S.zrOfInt 1 = 1) (sha₁ sha₂ : Bytes → Bytes) (h0 h1 h2 tau₁ tau₂ : S.G1)
    (proof₁ proof₂ msg₁ msg₂ : Bytes) (t₁ t₂ : Spec.CardTranscript S)
    (a₁ : nymVerifyCard S sha₁ h0 h1 h2 proof₁ tau₁ msg₁ = .ok ())
    (a₂ : nymVerifyCard S sha₂ h0 h1 h2 proof₂ tau₂ msg₂ = .ok ())
    (l₁ : Spec.CardLayout proof₁ t₁) (l₂ : Spec.CardLayout proof₂ t₂) (hB : t₁.B = t₂.B) (hB' : t₁.B' = t₂.B')
    (hne : Spec.cardChallenge sha₁ h0 h1 h2 tau₁ t₁ msg₁ ≠ Spec.cardChallenge sha₂ h0 h1 h2 tau₂ t₂ msg₂) :
    let d := Spec.cardChallenge sha₁ h0 h1 h2 tau₁ t₁ msg₁ - Spec.cardChallenge sha₂ h0 h1 h2 tau₂ t₂ msg₂
    t₁.B = (d⁻¹ * (t₁.r - t₂.r)) • h0 + (d⁻¹ * (t₁.x - t₂.x)) • h1 := by
  intro d
  have uniq : ∀ {p : Bytes} {s t : Spec.CardTranscript S}, Spec.CardLayout p s → Spec.CardLayout p t → s = t := by
    rintro p ⟨b, b', x, r⟩ ⟨c, c', y, q⟩ ⟨e1, e2, e3, e4⟩ ⟨f1, f2, f3, f4⟩
    simp only at *
    rw [e1] at f1; cases f1
    rw [e2] at f2; cases f2
    rw [← e3] at f3; cases f3
    rw [← e4] at f4; cases f4
    rfl
  obtain ⟨_, s₁, m₁, q₁⟩ := (C43_nym_verify_exact hone sha₁ h0 h1 h2 tau₁ proof₁ msg₁).mp a₁
  obtain ⟨_, s₂, m₂, q₂⟩ := (C43_nym_verify_exact hone sha₂ h0 h1 h2 tau₂ proof₂ msg₂).mp a₂
  rw [uniq m₁ l₁] at q₁
  rw [uniq m₂ l₂] at q₂
  have hd : d ≠ 0 := sub_ne_zero.mpr hne
  have key : d • t₁.B = (t₁.r - t₂.r) • h0 + (t₁.x - t₂.x) • h1 := by
    have e1 : t₁.r • h0 + t₁.x • h1 - (t₂.r • h0 + t₂.x • h1) = d • t₁.B := by
      rw [q₁, q₂, ← hB, ← hB']
      simp only [d]
      module
    rw [← e1]
    module
  have := congrArg (fun P => d⁻¹ • P) key
  simp only [smul_smul, inv_mul_cancel₀ hd, one_smul, smul_add] at this
  exact this

namespace Ex

/-- The toy suite with a hash onto the curve that takes all seven values. -/
@[reducible] def S7 : Suite := { Toy.suite32 with hashToG1 := fun m d => Toy.hash (d ++ m) }

/-- A library for it. -/
@[reducible] def L7 : Lib S7 := ⟨Toy.lib32.okm, Toy.lib32.okm_len, Toy.lib32.hkdf, Toy.lib32.zrOfInt_one⟩

/-- An issuer key for four attributes. -/
def ipk4 : IPK S7 := ipkFor (publicKey (S := S7) (2 : Toy.K)) 4

/-- Four attribute values, of which number 2 is the enrollment identifier. -/
def vals4 : List Toy.K := [(1 : Toy.K), (3 : Toy.K), (5 : Toy.K), (2 : Toy.K)]

/-- A credential on them with the secret key 4 in front. -/
def cred4 : Bytes := Proto.encode (Wire.cred (issued (S := S7) (2 : Toy.K) 4 0 vals4 (4 : Toy.K) (2 : Toy.K) (1 : Toy.K) 0))

/-- A card holding that secret key and enrollment identifier. -/
def card4 : Card S7 :=
  ⟨ipk4.pkg.h0, ipk4.pkg.h.getD 0 (0 : Toy.K), ipk4.pkg.h.getD 3 (0 : Toy.K), (4 : Toy.K), (5 : Toy.K),
    fun b => b.map (· + 3), fun b => b.map (· + 5), 0⟩

/-- All four attributes hidden. -/
def hidden4 : List IdemixAttribute := List.replicate 4 ⟨0, .bytes []⟩

/-- A stand-in for the hash. -/
def sha4 (b : Bytes) : Bytes := [b.foldl (· + ·) 0]

/-- A seed. -/
def seed4 : Bytes := List.replicate 16 6

end Ex

open Ex in
set_option maxRecDepth 40000 in
/-- The hypotheses of `C43_signatures_verify_partial` are met. -/
example : Spec.IsKey ipk4 (publicKey (S := S7) (2 : Toy.K)) 4 ∧ Spec.CardFor card4 ipk4 ∧
    credVerify L7 card4.uid (.val ipk4) cred4 hidden4 = .ok () ∧ Spec.Request .smartcard hidden4 0 2 3 ∧
    Spec.Apart ipk4.pkg.h0 ipk4.pkg.h
      (⟨((2 + 2 : Toy.K)⁻¹ • bValue (pkg (publicKey (S := S7) (2 : Toy.K)) 5) (1 : Toy.K) ((4 : Toy.K) :: vals4) : Toy.K),
        (2 : Toy.K), (1 : Toy.K)⟩ : Sig S7) (Spec.withSecret 0 (4 : Toy.K) vals4) (3 : Toy.K) (1 : Toy.K) :=
  ⟨(isKey_iff _ _ _).mpr rfl, ⟨rfl, by decide, by decide⟩, by decide,
    ⟨by decide, fun _ => ⟨_, rfl, rfl⟩, fun _ => ⟨_, rfl, rfl⟩, by decide, by decide⟩, ⟨by decide, by decide⟩⟩

open Ex in
set_option maxRecDepth 40000 in
/-- Card signatures verify, and not for another message. -/
example : ∃ sig nym r, cardSign sha4 (.val card4) [9] seed4 (3 : Toy.K) (2 : Toy.K) = .ok (sig, nym, r) ∧
    cardVerify sha4 (.val ipk4) card4.getNymEid.2 sig [9] = .ok () ∧
    cardVerify sha4 (.val ipk4) card4.getNymEid.2 sig [8] ≠ .ok () := ⟨_, _, _, rfl, by decide, by decide⟩

open Ex in
set_option maxRecDepth 40000 in
/-- Two card signatures as in `C43_extraction`: the same randomness, different messages, different challenges. -/
example : ∃ t₁ t₂ : Spec.CardTranscript S7,
    Spec.CardLayout (card4.nymSign sha4 [9] seed4 (3 : Toy.K) (2 : Toy.K)) t₁ ∧
    Spec.CardLayout (card4.nymSign sha4 [8] seed4 (3 : Toy.K) (2 : Toy.K)) t₂ ∧ t₁.B = t₂.B ∧ t₁.B' = t₂.B' ∧
    Spec.cardChallenge sha4 card4.h0 card4.h1 card4.h2 card4.getNymEid.2 t₁ [9] ≠
      Spec.cardChallenge sha4 card4.h0 card4.h1 card4.h2 card4.getNymEid.2 t₂ [8] :=
  ⟨⟨_, _, _, _⟩, ⟨_, _, _, _⟩, ⟨rfl, rfl, rfl, rfl⟩, ⟨rfl, rfl, rfl, rfl⟩, by decide, by decide, by decide⟩

/-! ## C44 -/

theorem lo_byte (c : Int16) : (c &&& 0xff).toInt8.toUInt8 = UInt8.ofNat c.toUInt16.toNat := by
  apply UInt8.toBitVec_inj.mp
  apply BitVec.eq_of_getLsbD_eq
  intro i hi
  have : (UInt8.ofNat c.toUInt16.toNat).toBitVec = c.toBitVec.setWidth 8 := by
    apply BitVec.eq_of_toNat_eq
    simp
  rw [this]
  have h0 : (255#16).getLsbD i = true := by
    interval_cases i <;> rfl
  have h1 : i < 16 := by omega
  simp only [Int8.toBitVec_toUInt8, Int16.toBitVec_toInt8, Int16.toBitVec_and, Int16.toBitVec_ofNat,
    BitVec.getLsbD_signExtend, BitVec.getLsbD_and, BitVec.getLsbD_setWidth, hi, h1, decide_true, Bool.true_and, if_true]
  rw [show BitVec.getLsbD (255 : BitVec 16) i = true from h0, Bool.and_true]

theorem hi_byte (c : Int16) : ((c >>> 8) &&& 0xff).toInt8.toUInt8 = UInt8.ofNat (c.toUInt16.toNat / 256) := by
  apply UInt8.toBitVec_inj.mp
  apply BitVec.eq_of_getLsbD_eq
  intro i hi
  have : (UInt8.ofNat (c.toUInt16.toNat / 256)).toBitVec = (c.toBitVec >>> 8).setWidth 8 := by
    apply BitVec.eq_of_toNat_eq
    simp [Nat.shiftRight_eq_div_pow]
    rfl
  rw [this]
  have h0 : (255#16).getLsbD i = true := by
    interval_cases i <;> rfl
  have h1 : i < 16 := by omega
  have h2 : 8 + i < 16 := by omega
  simp only [Int8.toBitVec_toUInt8, Int16.toBitVec_toInt8, Int16.toBitVec_and, Int16.toBitVec_ofNat,
    BitVec.getLsbD_signExtend, BitVec.getLsbD_and, BitVec.getLsbD_setWidth, hi, h1, decide_true, Bool.true_and, if_true]
  rw [show BitVec.getLsbD (255 : BitVec 16) i = true from h0, Bool.and_true]
  have h3 : (c >>> 8).toBitVec = c.toBitVec.sshiftRight 8 := by
    rw [Int16.toBitVec_shiftRight]; rfl
  rw [h3, BitVec.getLsbD_sshiftRight, BitVec.getLsbD_ushiftRight]
  simp [h1, h2]

/-- The block of 16 bytes that holds a number, little endian in its first two bytes. -/
def Spec.block (n : Nat) : Bytes := [UInt8.ofNat n, UInt8.ofNat (n / 256)] ++ List.replicate 14 0

theorem ctrBlock_eq (c : Int16) : ctrBlock c = Spec.block c.toUInt16.toNat := by
  rw [ctrBlock, Spec.block, lo_byte, hi_byte]

theorem block_mod (n : Nat) : Spec.block (n % 65536) = Spec.block n := by
  have e1 : UInt8.ofNat (n % 65536) = UInt8.ofNat n := by
    apply UInt8.toNat_inj.mp; simp
  have e2 : UInt8.ofNat (n % 65536 / 256) = UInt8.ofNat (n / 256) := by
    apply UInt8.toNat_inj.mp; simp; omega
  rw [Spec.block, Spec.block, e1, e2]

theorem block_inj (m n : Nat) : Spec.block m = Spec.block n ↔ m % 65536 = n % 65536 := by
  constructor
  · intro h
    simp only [Spec.block, List.cons_append, List.cons.injEq] at h
    have h1 := congrArg UInt8.toNat h.1
    have h2 := congrArg UInt8.toNat h.2.1
    simp at h1 h2
    omega
  · intro h
    rw [← block_mod m, h, block_mod]

/-- What can be asked of a card: the next commitment to the enrollment identifier (`NymEid`), or a pseudonym signature
(`NymSign`). -/
inductive CardOp (S : Suite) where
  | derive
  | sign (msg seed : Bytes) (xt rt : S.F)

/-- Running a history of requests: what the derivations return, in order. Signing leaves the card as it is
(`smartcard.go:71-122`, `NymSign` writes no field). -/
def Card.run (sc : Card S) : List (CardOp S) → List (S.F × S.G1)
  | [] => []
  | .derive :: ops => sc.nymEid.2 :: Card.run sc.nymEid.1 ops
  | .sign .. :: ops => Card.run sc ops

/-- The number of derivations in a history. -/
def Spec.derivations : List (CardOp S) → Nat
  | [] => 0
  | .derive :: ops => Spec.derivations ops + 1
  | .sign .. :: ops => Spec.derivations ops

/-- The generator input of the `i`-th derivation (from 0) on a card whose counter stands at `c`. -/
def Spec.input (c : Int16) (i : Nat) : Bytes := Spec.block (c.toUInt16.toNat + i + 1)

/-- **C44 (inputs).** In every history, the `i`-th derivation returns the generator applied to `Spec.input c i` and the
commitment made with it, whatever the block function under the card's key is. -/
theorem C44_derivation_inputs (sc : Card S) (ops : List (CardOp S)) :
    sc.run ops = (List.range (Spec.derivations ops)).map fun i =>
      (prf S sc.k0 (Spec.input sc.ctr i), prf S sc.k0 (Spec.input sc.ctr i) • sc.h0 + sc.eid • sc.h2) := by
  induction ops generalizing sc with
  | nil => rfl
  | cons op ops ih =>
    cases op with
    | sign => simp only [Card.run, Spec.derivations, ih]
    | derive =>
      have e : ∀ i, Spec.input (sc.ctr + 1) i = Spec.input sc.ctr (i + 1) := by
        intro i
        rw [Spec.input, Spec.input, block_inj]
        have : (sc.ctr + 1).toUInt16.toNat = (sc.ctr.toUInt16.toNat + 1) % 65536 := by
          rw [Int16.toUInt16_add, UInt16.toNat_add]; rfl
        omega
      have e0 : ctrBlock (sc.ctr + 1) = Spec.input sc.ctr 0 := by
        rw [ctrBlock_eq, Spec.input, block_inj]
        have : (sc.ctr + 1).toUInt16.toNat = (sc.ctr.toUInt16.toNat + 1) % 65536 := by
          rw [Int16.toUInt16_add, UInt16.toNat_add]; rfl
        omega
      simp only [Card.run, Spec.derivations, ih, List.range_succ_eq_map, List.map_cons, List.map_map]
      simp only [Card.nymEid, Card.getNymEid, e0, e, Function.comp_def]

/-- **C44 (exact).** Two derivations of a history use the same generator input exactly if the number of derivations from
one to the other is a multiple of 65536. -/
theorem C44_repeats (c : Int16) (i j : Nat) : Spec.input c i = Spec.input c j ↔ i % 65536 = j % 65536 := by
  rw [Spec.input, Spec.input, block_inj]
  omega

/-- **C44 (partial).** The inputs of up to 65536 successive derivations are pairwise distinct. What is missing: the card
does not stop after that many, see `C44_violated`. -/
theorem C44_inputs_distinct_partial (c : Int16) (n : Nat) (hn : n ≤ 65536) :
    ((List.range n).map (Spec.input c)).Nodup := by
  rw [List.nodup_map_iff_inj_on List.nodup_range]
  intro i hi j hj h
  rw [C44_repeats] at h
  simp only [List.mem_range] at hi hj
  omega

/-- **C44 is violated.** On every card, in every history with more than 65536 derivations, the derivation 65536 places
after any other returns the same randomness and the same commitment: the counter is a 16-bit integer and wraps. -/
theorem C44_violated (sc : Card S) (ops : List (CardOp S)) (i : Nat) (hi : i + 65536 < Spec.derivations ops) :
    ∃ out, (sc.run ops)[i]? = some out ∧ (sc.run ops)[i + 65536]? = some out := by
  have e : Spec.input sc.ctr (i + 65536) = Spec.input sc.ctr i := by rw [C44_repeats]; omega
  rw [C44_derivation_inputs]
  have h1 : i < Spec.derivations ops := by omega
  refine ⟨(prf S sc.k0 (Spec.input sc.ctr i), prf S sc.k0 (Spec.input sc.ctr i) • sc.h0 + sc.eid • sc.h2), ?_, ?_⟩
  rotate_left
  · rw [List.getElem?_map, List.getElem?_range hi, Option.map_some, e]
  · rw [List.getElem?_map, List.getElem?_range h1, Option.map_some]

/-- Such histories exist. -/
example : Spec.derivations (List.replicate 70000 (CardOp.derive : CardOp S)) = 70000 := by
  have : ∀ n, Spec.derivations (List.replicate n (CardOp.derive : CardOp S)) = n := by
    intro n
    induction n with
    | zero => rfl
    | succ n ih => rw [List.replicate_succ, Spec.derivations, ih]
  exact this _

end Idemix.Aries
