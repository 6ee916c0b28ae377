import Verif.Base.ProtoFields
import Verif.Aries.Lemmas
import Verif.Bbs.PropsProof

/-!
# Aries: issuance, credentials, keys, pseudonym signatures, revocation information

C36, C37, C38, C42 and the aries parts of C20 and C45.
-/

namespace Idemix.Aries

open Bbs Bbs.Ex

variable {S : Suite} (L : Lib S)

namespace Ex

/-- An issuer key for two attributes. -/
def isk : ISK S32 := ⟨ipkFor (publicKey (S := S32) (3 : Toy.K)) 2, (3 : Toy.K)⟩

/-- Two attributes: a string and a number. -/
def attrs : List IdemixAttribute := [⟨1, .bytes [7]⟩, ⟨2, .int 5⟩]

/-- Their values. -/
def vals : List Toy.K := [frFromOKM L32 [7], S32.zrOfInt 5]

theorem attrs_vals : List.Forall₂ (Spec.Encodes L32) attrs vals :=
  .cons (.inl ⟨rfl, _, rfl, rfl⟩) (.cons (.inr ⟨rfl, _, rfl, rfl⟩) .nil)

end Ex

/-! ## C36 -/

/-- **C36 (keys).** A key made for a list of attribute names has one generator more than there are names; exporting
and importing it gives the same key. -/
theorem C36_keys (h32 : S.scalarLen = 32) (names : List Bytes) (hn : names.length < 2 ^ 32 - 1) (seed : Bytes)
    (isk : ISK S) (h : newKey L names seed = .ok isk) :
    Spec.IsKey isk.pk (isk.sk • S.genG2) names.length ∧
      newKeyFromBytes S isk.bytes names = .ok isk ∧ newPublicKeyFromBytes S isk.pk.bytes names = .ok isk.pk := by
  simp only [newKey, generateKeyPair, Res.bind_eq_ok, Res.pure_def, Res.ok.injEq] at h
  obtain ⟨⟨w, x⟩, ⟨_, _, okm, _, h1⟩, pk, h2, rfl⟩ := h
  simp only [Prod.mk.injEq] at h1 h2
  obtain ⟨rfl, rfl⟩ := h1
  rw [toPKG_names _ _ (by omega)] at h2
  cases h2
  refine ⟨(isKey_iff _ _ _).mpr rfl, ?_, ?_⟩
  · simp only [newKeyFromBytes, ISK.bytes, unmarshalPrivateKey_bytes h32, Res.ok_bind, toPKG_names _ _ hn]
    rfl
  · simp only [newPublicKeyFromBytes, IPK.bytes, unmarshalPublicKey_comp, Res.ok_bind, toPKG_names _ _ hn]
    rfl

example : ∃ isk, newKey L32 [[1], [2]] (List.replicate 32 9) = .ok isk := ⟨_, rfl⟩

/-- The credential that comes out of an honest issuance. -/
def issued (x : S.F) (n k : Nat) (vs : List S.F) (sk e s : S.F) (pos : Int) : Credential :=
  ⟨S.g1Comp ((x + e)⁻¹ • bValue (pkg (publicKey x) (n + 1)) s (Spec.withSecret k sk vs)) ++ S.zrBytes e ++ S.zrBytes s,
    vs.map S.zrBytes, pos⟩

theorem issue_eq (h32 : S.scalarLen = 32) (x : S.F) (n k : Nat) (hn0 : 0 < n) (hn : n < 0xFFFFFFFF) (hk : k ≤ n)
    (attributes : List IdemixAttribute) (vs : List S.F) (henc : List.Forall₂ (Spec.Encodes L) attributes vs)
    (hl : attributes.length = n) (sk s : S.F) (nonce : Bytes) (ρ : Nat → S.F) (e s' : S.F) :
    ∃ request blinding signed,
      blind L sk (.val (ipkFor (publicKey x) n)) nonce k s ρ = .ok (request, blinding) ∧
      blindVerify L request (.val (ipkFor (publicKey x) n)) nonce k = .ok () ∧
      credSign L (.val ⟨ipkFor (publicKey x) n, x⟩) request attributes k e s' = .ok signed ∧
      unblind S signed blinding = .ok (Proto.encode (Wire.cred (issued x n k vs sk e (s' + s) 0))) := by
  have hvl : vs.length = n := by rw [← henc.length_eq]; exact hl
  have hk' : k < (pkg (publicKey x) (n + 1)).h.length := by simp; omega
  set H := (pkg (publicKey x) (n + 1)).h[k] with hH
  set b := honestBlind L (pkg (publicKey x) (n + 1)) H sk s ρ nonce with hb
  have hbl : b.proof.responses.length ≤ 0xFFFFFFFF := by simp [hb, honestBlind]
  set A := (x + e)⁻¹ • bValue (pkg (publicKey x) (n + 1)) (s' + s) (Spec.withSecret k sk vs) with hA
  have hp : parseBlindedMessages S b.enc = .ok b := parseBlinded_enc h32 b hbl
  have hbs := blindSign_eq L.zrOfInt_one h32 n k hn hn0 hk vs hvl x e s' sk s H
    (by rw [List.getElem?_eq_getElem hk'])
  have hat := attributesToSignatureMessage_encodes L k henc (by omega)
  let c0 : Credential := ⟨S.g1Comp A ++ S.zrBytes e ++ S.zrBytes s', vs.map S.zrBytes, 0⟩
  have w0 : c0.Wire := by simp [Credential.Wire, c0, Proto.Int32]
  have hsign : credSign L (.val (⟨ipkFor (publicKey x) n, x⟩ : ISK S)) b.enc attributes k e s' =
      .ok (Proto.encode (Wire.cred c0)) := by
    have e1 : (tag 0 (vs.take k) ++ tag (k + 1) (vs.drop k)).map (fun m => S.zrBytes m.fr) = vs.map S.zrBytes := by
      have : (fun m : SigMsg S => S.zrBytes m.fr) = S.zrBytes ∘ (·.fr) := rfl
      rw [this, ← List.map_map, List.map_append, tag_fr, tag_fr, List.take_append_drop]
    have e2 : n - (tag 0 (vs.take k) ++ tag (k + 1) (vs.drop k)).length = 0 := by
      simp; omega
    simp only [credSign, Dyn.get_val, Res.ok_bind, hp, hat]
    have : b.c = s • (pkg (publicKey x) (n + 1)).h0 + sk • H := rfl
    rw [this, hl, hbs, Res.ok_bind, e1, e2]
    simp [c0, hA]
  refine ⟨b.enc, S.zrBytes s, _, blind_eq L (publicKey x) n k hn hk sk s ρ nonce, ?_, hsign, ?_⟩
  · rw [blindVerify_ok_iff L _ n k hn hk]
    exact ⟨b, hp, honestBlind_verifies L _ H sk s ρ nonce⟩
  · simp only [unblind, Wire.credCodec_rt c0 w0, Res.ok_bind, unblindSign, c0, parseSignature_bytes h32,
      S.zrOfBytes_zrBytes, sig_toBytes h32, Wire.credCodec_marshal, Wire.cred_unknown, Res.pure_def, List.append_nil]
    rfl

theorem issued_valid_iff (h32 : S.scalarLen = 32) (x : S.F) (n k pos : Nat) (hn : n < 2 ^ 31) (hpos : pos ≤ n)
    (vs : List S.F) (hvl : vs.length = n) (sk e s : S.F) (supplied : List IdemixAttribute)
    (hag : List.Forall₂ (Spec.Agrees L) supplied vs) :
    credVerify L sk (.val (ipkFor (publicKey x) n)) (Proto.encode (Wire.cred (issued x n k vs sk e s pos))) supplied =
      .ok () ↔
    Valid (pkg (publicKey x) (n + 1))
      ⟨(x + e)⁻¹ • bValue (pkg (publicKey x) (n + 1)) s (Spec.withSecret k sk vs), e, s⟩
      (Spec.withSecret pos sk vs) := by
  have hw : (issued x n k vs sk e s pos).Wire := by
    simp only [issued, Credential.Wire, Proto.Int32]; omega
  have hv : ((issued x n k vs sk e s pos).attrs.map S.zrOfBytes).take n = vs := by
    simp [issued, List.map_map, Function.comp_def, hvl, List.take_of_length_le]
  have hparse : parseSignature S (issued x n k vs sk e s pos).cred =
    .ok ⟨(x + e)⁻¹ • bValue (pkg (publicKey x) (n + 1)) s (Spec.withSecret k sk vs), e, s⟩ :=
    parseSignature_bytes h32 _ _ _
  rw [credVerify_ok_iff L sk (publicKey x) n _ _ (by rw [hag.length_eq]; exact hvl)]
  constructor
  · rintro ⟨c, σ, k', h1, h2, h3, h4, h5, h6, h7⟩
    rw [Wire.credCodec_rt _ hw] at h1
    cases h1
    rw [hparse] at h2
    cases h2
    rw [hv] at h7
    have : k' = pos := by simp only [issued] at h3; omega
    rwa [this] at h7
  · intro h
    refine ⟨_, _, pos, Wire.credCodec_rt _ hw, hparse, rfl, hpos, by simp [issued, hvl], ?_, ?_⟩
    · rwa [hv]
    · rwa [hv]

/-- **C36.** Blind issuance completes, for every user secret, nonce, attribute vector, position `k` of the secret
and randomness: the request is accepted for its nonce; the issuer signs it; unblinding succeeds; and the resulting
credential carries the attribute values and, with the position of the secret recorded in it, verifies for the user
against every list of attributes that agrees with the values. The issuer's random `e` must not be the negative of
its key. -/
theorem C36_issuance (h32 : S.scalarLen = 32) (isk : ISK S) (n k : Nat)
    (hkey : Spec.IsKey isk.pk (isk.sk • S.genG2) n) (hn0 : 0 < n) (hn : n < 2 ^ 31) (hk : k ≤ n)
    (attributes : List IdemixAttribute) (vs : List S.F) (henc : List.Forall₂ (Spec.Encodes L) attributes vs)
    (hl : attributes.length = n) (sk s : S.F) (nonce : Bytes) (ρ : Nat → S.F) (e s' : S.F) (hx : isk.sk + e ≠ 0) :
    ∃ request blinding signed cred c,
      blind L sk (.val isk.pk) nonce k s ρ = .ok (request, blinding) ∧
      blindVerify L request (.val isk.pk) nonce k = .ok () ∧
      credSign L (.val isk) request attributes k e s' = .ok signed ∧
      unblind S signed blinding = .ok cred ∧
      Wire.credCodec.unmarshal cred = .ok c ∧ c.attrs = vs.map S.zrBytes ∧
      ∃ raw, Wire.credCodec.marshal { c with skPos := k } = .ok raw ∧
        ∀ supplied, List.Forall₂ (Spec.Agrees L) supplied vs → credVerify L sk (.val isk.pk) raw supplied = .ok () := by
  obtain ⟨pk, x⟩ := isk
  rw [isKey_iff] at hkey
  simp only at hkey hx
  subst hkey
  obtain ⟨req, bl, sg, h1, h2, h3, h4⟩ := issue_eq L h32 x n k hn0 (by omega) hk attributes vs henc hl sk s nonce ρ e s'
  refine ⟨req, bl, sg, _, _, h1, h2, h3, h4, Wire.credCodec_rt _ (by simp [Credential.Wire, issued, Proto.Int32]), rfl,
    _, Wire.credCodec_marshal _, fun supplied hag => ?_⟩
  exact (issued_valid_iff L h32 x n k k hn hk vs (by rw [← henc.length_eq]; exact hl) sk e (s' + s) supplied hag).mpr
    (valid_of_sign rfl hx _)

set_option maxRecDepth 20000 in
example : Spec.IsKey Ex.isk.pk (Ex.isk.sk • S32.genG2) 2 ∧ Ex.isk.sk + (2 : Toy.K) ≠ 0 ∧
    List.Forall₂ (Spec.Encodes L32) Ex.attrs Ex.vals :=
  ⟨(isKey_iff _ _ _).mpr rfl, by decide, Ex.attrs_vals⟩

/-- **C36 (position 0).** If the secret has position 0 — which the library always records — the unblinded
credential verifies as it is. -/
theorem C36_issuance_position_zero (h32 : S.scalarLen = 32) (isk : ISK S) (n : Nat)
    (hkey : Spec.IsKey isk.pk (isk.sk • S.genG2) n) (hn0 : 0 < n) (hn : n < 2 ^ 31)
    (attributes : List IdemixAttribute) (vs : List S.F) (henc : List.Forall₂ (Spec.Encodes L) attributes vs)
    (hl : attributes.length = n) (sk s : S.F) (nonce : Bytes) (ρ : Nat → S.F) (e s' : S.F) (hx : isk.sk + e ≠ 0) :
    ∃ request blinding signed cred,
      blind L sk (.val isk.pk) nonce 0 s ρ = .ok (request, blinding) ∧
      blindVerify L request (.val isk.pk) nonce 0 = .ok () ∧
      credSign L (.val isk) request attributes 0 e s' = .ok signed ∧
      unblind S signed blinding = .ok cred ∧ credVerify L sk (.val isk.pk) cred attributes = .ok () := by
  obtain ⟨pk, x⟩ := isk
  rw [isKey_iff] at hkey
  simp only at hkey hx
  subst hkey
  obtain ⟨req, bl, sg, h1, h2, h3, h4⟩ := issue_eq L h32 x n 0 hn0 (by omega) (by omega) attributes vs henc hl sk s
    nonce ρ e s'
  refine ⟨req, bl, sg, _, h1, h2, h3, h4, ?_⟩
  exact (issued_valid_iff L h32 x n 0 0 hn (by omega) vs (by rw [← henc.length_eq]; exact hl) sk e (s' + s) attributes
    (henc.imp fun _ _ h => fun _ => h)).mpr (valid_of_sign rfl hx _)

/-! ## C37 -/

/-- A request for an arbitrary commitment, made from public data only: the challenge covers a commitment that the
verification equation does not use. -/
def Spec.forgedRequest (c : S.G1) (nonce : Bytes) : Bytes :=
  S.g1Comp c ++ S.g1Comp 0 ++
    (S.g1Comp (blindChallenge L c 0 nonce • c) ++ beBytes 4 2 ++ S.zrBytes 0 ++ S.zrBytes 0)

/-- **C37 (violated).** For every group element `c` and every nonce there is an accepted request for `c`, computed
without knowledge of an opening of `c` or of any secret: the challenge is computed from one commitment while the
verification equation uses another, chosen afterwards. The proof has the right number of responses. -/
theorem C37_violated (h32 : S.scalarLen = 32) (ipk : IPK S) (w : S.G2) (n k : Nat) (hkey : Spec.IsKey ipk w n)
    (hn : n < 2 ^ 32 - 1) (hk : k ≤ n) (c : S.G1) (nonce : Bytes) :
    blindVerify L (Spec.forgedRequest L c nonce) (.val ipk) nonce k = .ok () := by
  rw [isKey_iff] at hkey
  subst hkey
  let b : Blinded S := ⟨c, 0, ⟨blindChallenge L c 0 nonce • c, [0, 0]⟩⟩
  have hb : Spec.forgedRequest L c nonce = b.enc := by
    simp [Spec.forgedRequest, Blinded.enc, ProofG1.enc, b]
  rw [hb, blindVerify_ok_iff L w n k hn hk]
  refine ⟨b, parseBlinded_enc h32 b (by simp [b]), ?_⟩
  rw [ProofG1.verify_exact _ _ _ _ (by simp [b])]
  simp [b]

/-- **C37 (violated, second way).** The number of responses is not checked either: with a third response the
challenge is not used at all. -/
theorem C37_responses_violated (h32 : S.scalarLen = 32) (ipk : IPK S) (w : S.G2) (n k : Nat)
    (hkey : Spec.IsKey ipk w n) (hn : n < 2 ^ 32 - 1) (hk : k ≤ n) (c : S.G1) (nonce : Bytes) :
    blindVerify L (S.g1Comp c ++ S.g1Comp 0 ++
      (S.g1Comp 0 ++ beBytes 4 3 ++ S.zrBytes 0 ++ S.zrBytes 0 ++ S.zrBytes 0)) (.val ipk) nonce k = .ok () := by
  rw [isKey_iff] at hkey
  subst hkey
  let b : Blinded S := ⟨c, 0, ⟨0, [0, 0, 0]⟩⟩
  have hb : S.g1Comp c ++ S.g1Comp 0 ++
      (S.g1Comp 0 ++ beBytes 4 3 ++ S.zrBytes 0 ++ S.zrBytes 0 ++ S.zrBytes 0) = b.enc := by
    simp [Blinded.enc, ProofG1.enc, b]
  rw [hb, blindVerify_ok_iff L w n k hn hk]
  refine ⟨b, parseBlinded_enc h32 b (by simp [b]), ?_⟩
  rw [ProofG1.verify_ok_iff]
  simp [b]

set_option maxRecDepth 20000 in
example : blindVerify L32 (Spec.forgedRequest L32 (5 : Toy.K) [1, 2]) (.val Ex.isk.pk) [1, 2] 1 = .ok () ∧
    Spec.IsKey Ex.isk.pk (Ex.isk.sk • S32.genG2) 2 := ⟨by decide, (isKey_iff _ _ _).mpr rfl⟩

/-- Two proofs over the bases `[g, h]` for one statement and commitment, with two responses each. -/
theorem pair_extract {g h st t : S.G1} {p q : ProofG1 S} {c₁ c₂ : S.F} (hp : p.commitment = t) (hq : q.commitment = t)
    (lp : p.responses.length = 2) (lq : q.responses.length = 2) (hc : c₁ ≠ c₂)
    (h₁ : p.verify [g, h] st c₁ = .ok ()) (h₂ : q.verify [g, h] st c₂ = .ok ()) :
    ∃ r x, Bbs.Spec.witness c₁ c₂ p.responses q.responses = [r, x] ∧ st = r • g + x • h := by
  rw [ProofG1.verify_exact _ _ _ _ (by simpa using lp), hp] at h₁
  rw [ProofG1.verify_exact _ _ _ _ (by simpa using lq), hq] at h₂
  have := schnorr_extract h₁ h₂ (by simpa using lp) (by simpa using lq) hc
  obtain ⟨a, b, e⟩ : ∃ a b, Bbs.Spec.witness c₁ c₂ p.responses q.responses = [a, b] := by
    have : (Bbs.Spec.witness c₁ c₂ p.responses q.responses).length = 2 := by simp [Bbs.Spec.witness, lp, lq]
    match h : Bbs.Spec.witness c₁ c₂ p.responses q.responses, this with
    | [a, b], _ => exact ⟨a, b, rfl⟩
  refine ⟨a, b, e, ?_⟩
  have e' : List.map (fun x => (c₂ - c₁)⁻¹ * x) (List.zipWith (fun x1 x2 => x1 - x2) p.responses q.responses) = [a, b] := e
  rw [e'] at this
  simpa using this.symm

/-- **C37 (partial).** Take two accepted requests for the same commitment `c` that hash and use the same first
message, have two responses each, and get different challenges. They give away an opening of `c`: it is computed
from the challenges and responses. What is missing: the code checks neither that the hashed first message is the
one used, nor the number of responses, and without either the property is false (`C37_violated`,
`C37_responses_violated`). -/
theorem C37_extraction_partial (L₁ L₂ : Lib S) (ipk : IPK S) (w : S.G2) (n k : Nat) (hkey : Spec.IsKey ipk w n)
    (hn : n < 2 ^ 32 - 1) (hk : k ≤ n) (request₁ request₂ nonce₁ nonce₂ : Bytes) (b₁ b₂ : Blinded S)
    (h₁ : blindVerify L₁ request₁ (.val ipk) nonce₁ k = .ok ())
    (h₂ : blindVerify L₂ request₂ (.val ipk) nonce₂ k = .ok ())
    (p₁ : parseBlindedMessages S request₁ = .ok b₁) (p₂ : parseBlindedMessages S request₂ = .ok b₂)
    (hc : b₁.c = b₂.c) (ht : b₁.pokC = b₂.pokC)
    (u₁ : b₁.proof.commitment = b₁.pokC) (u₂ : b₂.proof.commitment = b₂.pokC)
    (l₁ : b₁.proof.responses.length = 2) (l₂ : b₂.proof.responses.length = 2)
    (hne : blindChallenge L₁ b₁.c b₁.pokC nonce₁ ≠ blindChallenge L₂ b₂.c b₂.pokC nonce₂) :
    ∃ s sk H, Bbs.Spec.witness (blindChallenge L₁ b₁.c b₁.pokC nonce₁) (blindChallenge L₂ b₂.c b₂.pokC nonce₂)
        b₁.proof.responses b₂.proof.responses = [s, sk] ∧
      ipk.pkg.h[k]? = some H ∧ b₁.c = s • ipk.pkg.h0 + sk • H := by
  rw [isKey_iff] at hkey
  subst hkey
  rw [blindVerify_ok_iff L₁ w n k hn hk] at h₁
  rw [blindVerify_ok_iff L₂ w n k hn hk] at h₂
  obtain ⟨b, hb, h₁⟩ := h₁
  rw [p₁] at hb; cases hb
  obtain ⟨b, hb, h₂⟩ := h₂
  rw [p₂] at hb; cases hb
  rw [← hc] at h₂
  rw [← hc] at hne ⊢
  obtain ⟨s, sk, e1, e2⟩ := pair_extract u₁ (u₂.trans ht.symm) l₁ l₂ hne h₁ h₂
  exact ⟨s, sk, _, e1, List.getElem?_eq_getElem _, e2⟩

/-- **C37 (nonce, partial).** A request with two responses that is accepted for two nonces either commits to nothing
(its commitment is the neutral element) or exhibits two inputs of the hash function, both computed from the request and
the nonces, with the same image; the inputs differ if the nonces do. What is missing is the count of responses, which the
code does not check (`C37_responses_violated`). -/
theorem C37_nonce_binding_partial (ipk : IPK S) (w : S.G2) (n k : Nat) (hkey : Spec.IsKey ipk w n)
    (hn : n < 2 ^ 32 - 1) (hk : k ≤ n) (request nonce₁ nonce₂ : Bytes) (b : Blinded S)
    (h₁ : blindVerify L request (.val ipk) nonce₁ k = .ok ())
    (h₂ : blindVerify L request (.val ipk) nonce₂ k = .ok ())
    (p : parseBlindedMessages S request = .ok b) (l : b.proof.responses.length = 2) :
    b.c = 0 ∨ frFromOKM L (S.g1Bytes b.c ++ S.g1Bytes b.pokC ++ nonce₁) =
      frFromOKM L (S.g1Bytes b.c ++ S.g1Bytes b.pokC ++ nonce₂) := by
  rw [isKey_iff] at hkey
  subst hkey
  rw [blindVerify_ok_iff L w n k hn hk] at h₁ h₂
  obtain ⟨b', hb, h₁⟩ := h₁
  rw [p] at hb; cases hb
  obtain ⟨b', hb, h₂⟩ := h₂
  rw [p] at hb; cases hb
  rw [ProofG1.verify_exact _ _ _ _ (by simpa using l)] at h₁ h₂
  have e : (blindChallenge L b.c b.pokC nonce₁ - blindChallenge L b.c b.pokC nonce₂) • b.c = 0 := by
    rw [sub_smul, sub_eq_zero]
    exact add_left_cancel (h₁.trans h₂.symm)
  rcases smul_eq_zero.mp e with e | e
  · exact .inr (sub_eq_zero.mp e)
  · exact .inl e

set_option maxRecDepth 20000 in
/-- A request accepted for two nonces, which collide in the toy hash function, and refused for a third. -/
example : Spec.IsKey Ex.isk.pk (Ex.isk.sk • S32.genG2) 2 ∧
    blindVerify L32 (Spec.forgedRequest L32 (5 : Toy.K) [1]) (.val Ex.isk.pk) [1] (1 : Nat) = .ok () ∧
    blindVerify L32 (Spec.forgedRequest L32 (5 : Toy.K) [1]) (.val Ex.isk.pk) [8] (1 : Nat) = .ok () ∧
    blindVerify L32 (Spec.forgedRequest L32 (5 : Toy.K) [1]) (.val Ex.isk.pk) [2] (1 : Nat) ≠ .ok () ∧
    (parseBlindedMessages S32 (Spec.forgedRequest L32 (5 : Toy.K) [1]) >>= fun b => Res.ok (b.c, b.proof.responses.length)) =
      .ok ((5 : Toy.K), 2) :=
  ⟨(isKey_iff _ _ _).mpr rfl, by decide, by decide, by decide, by decide⟩

/-! ## C38 -/

/-- **C38 (exact).** `Verify` accepts a credential for a list of as many attributes as the key has exactly if it
parses, records a position `k` in range for the secret, carries at least that many attribute values, each supplied
attribute that is not hidden agrees with the value, and the BBS+ equation holds for the vector of values with the
secret at position `k`. -/
theorem C38_verify_exact (sk : S.F) (ipk : IPK S) (w : S.G2) (n : Nat) (hkey : Spec.IsKey ipk w n) (credBytes : Bytes)
    (attributes : List IdemixAttribute) (hl : attributes.length = n) :
    credVerify L sk (.val ipk) credBytes attributes = .ok () ↔
      ∃ c σ, ∃ k : Nat, Wire.credCodec.unmarshal credBytes = .ok c ∧ parseSignature S c.cred = .ok σ ∧
        c.skPos = k ∧ k ≤ n ∧ n ≤ c.attrs.length ∧
        List.Forall₂ (Spec.Agrees L) attributes ((c.attrs.map S.zrOfBytes).take n) ∧
        Bbs.Spec.Signature ipk.w ipk.pkg.h0 ipk.pkg.h σ.a σ.e σ.s
          (Spec.withSecret k sk ((c.attrs.map S.zrOfBytes).take n)) := by
  rw [isKey_iff] at hkey
  subst hkey
  rw [credVerify_ok_iff L sk w n credBytes attributes hl]
  constructor
  · rintro ⟨c, σ, k, h1, h2, h3, h4, h5, h6, h7⟩
    refine ⟨c, σ, k, h1, h2, h3, h4, h5, h6, ?_⟩
    exact (valid_iff_signature w (n + 1) σ _ (by simp [withSecret_length]; omega)).mp h7
  · rintro ⟨c, σ, k, h1, h2, h3, h4, h5, h6, h7⟩
    refine ⟨c, σ, k, h1, h2, h3, h4, h5, h6, ?_⟩
    exact (valid_iff_signature w (n + 1) σ _ (by simp [withSecret_length]; omega)).mpr h7

/-- **C38 (positions, violated).** The library never records the position of the secret. For a position `k` other
than 0 the credential issued for the attributes verifies (as issued) only if the difference of the two vectors, with
the secret at position 0 and at position `k`, is a linear relation between the generators — or these vectors are
equal. -/
theorem C38_position_violated (h32 : S.scalarLen = 32) (isk : ISK S) (n k : Nat)
    (hkey : Spec.IsKey isk.pk (isk.sk • S.genG2) n) (hn0 : 0 < n) (hn : n < 2 ^ 31) (hk : k ≤ n)
    (attributes : List IdemixAttribute) (vs : List S.F) (henc : List.Forall₂ (Spec.Encodes L) attributes vs)
    (hl : attributes.length = n) (sk s : S.F) (nonce : Bytes) (ρ : Nat → S.F) (e s' : S.F) (hx : isk.sk + e ≠ 0) :
    ∃ request blinding signed cred,
      blind L sk (.val isk.pk) nonce k s ρ = .ok (request, blinding) ∧
      blindVerify L request (.val isk.pk) nonce k = .ok () ∧
      credSign L (.val isk) request attributes k e s' = .ok signed ∧
      unblind S signed blinding = .ok cred ∧
      (credVerify L sk (.val isk.pk) cred attributes = .ok () ↔
        S.lin (Spec.withSecret 0 sk vs) isk.pk.pkg.h = S.lin (Spec.withSecret k sk vs) isk.pk.pkg.h) := by
  obtain ⟨pk, x⟩ := isk
  rw [isKey_iff] at hkey
  simp only at hkey hx
  subst hkey
  have hvl : vs.length = n := by rw [← henc.length_eq]; exact hl
  obtain ⟨req, bl, sg, h1, h2, h3, h4⟩ := issue_eq L h32 x n k hn0 (by omega) hk attributes vs henc hl sk s nonce ρ e s'
  refine ⟨req, bl, sg, _, h1, h2, h3, h4, ?_⟩
  have key := issued_valid_iff L h32 x n k 0 hn (by omega) vs hvl sk e (s' + s) attributes
    (henc.imp fun _ _ h => fun _ => h)
  refine key.trans ?_
  have v := valid_of_sign (pk := pkg (publicKey x) (n + 1)) (s := s' + s) rfl hx (Spec.withSecret k sk vs)
  constructor
  · intro h
    have := valid_b_unique rfl h v
    unfold bValue at this
    exact add_left_cancel this
  · intro h
    unfold Valid at v ⊢
    rw [v]
    unfold bValue
    have h' : S.lin (Spec.withSecret 0 sk vs) (pkg (publicKey x) (n + 1)).h =
      S.lin (Spec.withSecret k sk vs) (pkg (publicKey x) (n + 1)).h := h
    rw [h']

set_option maxRecDepth 40000 in
/-- A concrete credential issued for position 1 that does not verify. -/
example : ∃ request blinding signed cred,
    blind L32 (4 : Toy.K) (.val Ex.isk.pk) [1] 1 (2 : Toy.K) (fun _ => (1 : Toy.K)) = .ok (request, blinding) ∧
    blindVerify L32 request (.val Ex.isk.pk) [1] 1 = .ok () ∧
    credSign L32 (.val Ex.isk) request Ex.attrs 1 (2 : Toy.K) (3 : Toy.K) = .ok signed ∧
    unblind S32 signed blinding = .ok cred ∧
    credVerify L32 (4 : Toy.K) (.val Ex.isk.pk) cred Ex.attrs ≠ .ok () :=
  ⟨_, _, _, _, rfl, by decide, rfl, rfl, by decide⟩

/-! ## C42 -/

theorem nymVerify_ok_iff (w : S.G2) (n k : Nat) (hk : k ≤ n) (nym : S.G1) (sigBytes digest : Bytes) :
    nymVerify L (.val (ipkFor w n)) nym sigBytes digest k = .ok () ↔
      ∃ sig p, Wire.nymSigCodec.unmarshal sigBytes = .ok sig ∧ parseProofG1 S sig.main = .ok p ∧
        2 ≤ p.responses.length ∧
        p.verify [(pkg w (n + 1)).h0, (pkg w (n + 1)).h[k]'(by simp; omega)] nym
          (nymChallenge L nym (pkg w (n + 1)).h0 ((pkg w (n + 1)).h[k]'(by simp; omega)) p.commitment digest sig.nonce) =
          .ok () := by
  have hk' : k < (pkg w (n + 1)).h.length := by simp; omega
  simp only [nymVerify, Dyn.get_val, Res.ok_bind, ipkFor, Res.index_nat, List.getElem?_eq_getElem hk', Res.deref_some,
    Res.bind_eq_ok, Res.guardErr_eq_ok, decide_eq_false_iff_not, Nat.not_lt]
  constructor
  · rintro ⟨sig, h1, p, h2, _, h3, h4⟩
    exact ⟨sig, p, h1, h2, h3, h4⟩
  · rintro ⟨sig, p, h1, h2, h3, h4⟩
    exact ⟨sig, h1, p, h2, (), h3, h4⟩

/-- **C42 (completeness).** A pseudonym signature made with an opening of the pseudonym verifies. -/
theorem C42_complete (h32 : S.scalarLen = 32) (ipk : IPK S) (w : S.G2) (n k : Nat) (hkey : Spec.IsKey ipk w n)
    (hk : k ≤ n) (sk rNym nonce : S.F) (nym : S.G1 × S.F) (ρ : Nat → S.F) (digest : Bytes)
    (hnym : makeNym sk (.val ipk) k rNym = .ok nym) :
    nym.2 = rNym ∧ ∃ sig, nymSign L sk nym.1 nym.2 (.val ipk) digest k nonce ρ = .ok sig ∧
      nymVerify L (.val ipk) nym.1 sig digest k = .ok () := by
  rw [isKey_iff] at hkey
  subst hkey
  have hk' : k < (pkg w (n + 1)).h.length := by simp; omega
  simp only [makeNym, Dyn.get_val, Res.ok_bind, ipkFor, Res.index_nat, List.getElem?_eq_getElem hk', Res.deref_some] at hnym
  rw [build_eq (by simp) (by simp)] at hnym
  simp only [Res.ok_bind, Res.pure_def, Res.ok.injEq] at hnym
  subst hnym
  refine ⟨rfl, ?_⟩
  have f := finish_eq [(pkg w (n + 1)).h0, (pkg w (n + 1)).h[k]] ρ (by simp)
  simp only [List.length_cons, List.length_nil, Nat.zero_add, Nat.reduceAdd] at f
  set g := (pkg w (n + 1)).h0 with hg
  set H := (pkg w (n + 1)).h[k] with hH
  set nym := S.lin [rNym, sk] [g, H] with hnym
  set t := S.lin (blindings 2 ρ) [g, H] with ht
  set c := nymChallenge L nym g H t digest (S.zrBytes nonce) with hc
  let p : ProofG1 S := ⟨t, [ρ 0 - c * rNym, ρ 1 - c * sk]⟩
  have hp : Committed.generateProof ⟨[g, H], blindings 2 ρ, t⟩ c [rNym, sk] = .ok p := by
    simp [Committed.generateProof, blindings, List.range_succ, p]
  refine ⟨Proto.encode (Wire.nymSig ⟨p.enc, S.zrBytes nonce⟩), ?_, ?_⟩
  · have hget : (ipkFor w n).pkg.h[k]? = some H := List.getElem?_eq_getElem hk'
    have hg' : (ipkFor w n).pkg.h0 = g := rfl
    simp only [nymSign, Dyn.get_val, Res.ok_bind, Res.index_nat, hget, Res.deref_some, hg', f, ← ht, ← hc, hp, p.toBytes_eq (by simp [p]), Wire.nymSigCodec_marshal]
  · change nymVerify L (.val (ipkFor w n)) _ _ _ _ = _
    rw [nymVerify_ok_iff L w n k hk]
    have hparse := parseProofG1_enc h32 p [] (by simp [p])
    rw [List.append_nil] at hparse
    refine ⟨_, p, Wire.nymSigCodec_rt _, hparse, by simp [p], ?_⟩
    rw [ProofG1.verify_exact _ _ _ _ (by simp [p])]
    simp only [p, ← hc, ← hg, ← hH]
    simp only [ht, hnym, Suite.lin_cons, Suite.lin_nil_left, blindings, List.range_succ, List.range_zero,
      List.nil_append, List.map_append, List.map_cons, List.map_nil, List.singleton_append]
    module

set_option maxRecDepth 40000 in
example : ∃ nym sig, makeNym (4 : Toy.K) (.val Ex.isk.pk) 1 (5 : Toy.K) = .ok nym ∧
    nymSign L32 (4 : Toy.K) nym.1 nym.2 (.val Ex.isk.pk) [9] 1 (2 : Toy.K) (fun i => ((i : Nat) : Toy.K)) = .ok sig ∧
    nymVerify L32 (.val Ex.isk.pk) nym.1 sig [9] 1 = .ok () ∧
    nymVerify L32 (.val Ex.isk.pk) nym.1 sig [8] 1 ≠ .ok () := ⟨_, _, rfl, rfl, by decide, by decide⟩

/-- A fixed byte string: all zero, with three responses. -/
def Spec.forgedNymSignature (S : Suite) : Bytes :=
  Proto.encode (Wire.nymSig ⟨S.g1Comp 0 ++ beBytes 4 3 ++ S.zrBytes 0 ++ S.zrBytes 0 ++ S.zrBytes 0, []⟩)

/-- **C42 (violated).** One fixed byte string is accepted as a signature of every message for every pseudonym under
every issuer key: with a third response the challenge is not used. -/
theorem C42_violated (h32 : S.scalarLen = 32) (ipk : IPK S) (w : S.G2) (n k : Nat) (hkey : Spec.IsKey ipk w n)
    (hk : k ≤ n) (nym : S.G1) (digest : Bytes) :
    nymVerify L (.val ipk) nym (Spec.forgedNymSignature S) digest k = .ok () := by
  rw [isKey_iff] at hkey
  subst hkey
  let p : ProofG1 S := ⟨0, [0, 0, 0]⟩
  have hp : S.g1Comp 0 ++ beBytes 4 3 ++ S.zrBytes 0 ++ S.zrBytes 0 ++ S.zrBytes 0 = p.enc := by
    simp [ProofG1.enc, p]
  have hparse := parseProofG1_enc h32 p [] (by simp [p])
  rw [List.append_nil] at hparse
  rw [Spec.forgedNymSignature, hp, nymVerify_ok_iff L w n k hk]
  refine ⟨_, p, Wire.nymSigCodec_rt _, hparse, by simp [p], ?_⟩
  rw [ProofG1.verify_ok_iff]
  simp [p]

/-- **C42 (partial).** Two signatures for one pseudonym, accepted under two oracles with the same first message and
different challenges, and with two responses each, give away an opening of the pseudonym: it is computed from the
challenges and responses. What is missing: the code accepts more than two responses, and then the property is false
(`C42_violated`). -/
theorem C42_extraction_partial (L₁ L₂ : Lib S) (ipk : IPK S) (w : S.G2) (n k : Nat) (hkey : Spec.IsKey ipk w n)
    (hk : k ≤ n) (nym : S.G1) (sig₁ sig₂ digest₁ digest₂ : Bytes) (s₁ s₂ : NymSignature) (p₁ p₂ : ProofG1 S)
    (H : S.G1) (hH : ipk.pkg.h[k]? = some H)
    (h₁ : nymVerify L₁ (.val ipk) nym sig₁ digest₁ k = .ok ())
    (h₂ : nymVerify L₂ (.val ipk) nym sig₂ digest₂ k = .ok ())
    (hs₁ : Wire.nymSigCodec.unmarshal sig₁ = .ok s₁) (hs₂ : Wire.nymSigCodec.unmarshal sig₂ = .ok s₂)
    (hp₁ : parseProofG1 S s₁.main = .ok p₁) (hp₂ : parseProofG1 S s₂.main = .ok p₂)
    (l₁ : p₁.responses.length = 2) (l₂ : p₂.responses.length = 2) (ht : p₁.commitment = p₂.commitment)
    (c₁ c₂ : S.F) (hc₁ : c₁ = nymChallenge L₁ nym ipk.pkg.h0 H p₁.commitment digest₁ s₁.nonce)
    (hc₂ : c₂ = nymChallenge L₂ nym ipk.pkg.h0 H p₂.commitment digest₂ s₂.nonce) (hne : c₁ ≠ c₂) :
    ∃ r sk, Bbs.Spec.witness c₁ c₂ p₁.responses p₂.responses = [r, sk] ∧ nym = r • ipk.pkg.h0 + sk • H := by
  rw [isKey_iff] at hkey
  subst hkey
  have hk' : k < (pkg w (n + 1)).h.length := by simp; omega
  have hH' : (pkg w (n + 1)).h[k] = H := by
    have : (pkg w (n + 1)).h[k]? = some H := hH
    simpa [List.getElem?_eq_getElem hk'] using this
  rw [nymVerify_ok_iff L₁ w n k hk] at h₁
  rw [nymVerify_ok_iff L₂ w n k hk] at h₂
  obtain ⟨s, p, a1, a2, -, h₁⟩ := h₁
  rw [hs₁] at a1; cases a1
  rw [hp₁] at a2; cases a2
  obtain ⟨s, p, a1, a2, -, h₂⟩ := h₂
  rw [hs₂] at a1; cases a1
  rw [hp₂] at a2; cases a2
  rw [hH'] at h₁ h₂
  subst hc₁ hc₂
  exact pair_extract rfl ht.symm l₁ l₂ hne h₁ h₂

set_option maxRecDepth 40000 in
/-- A signature made by the library has two responses. -/
example : ∃ sig s p, nymSign L32 (4 : Toy.K) (6 : Toy.K) (5 : Toy.K) (.val Ex.isk.pk) [9] 1 (2 : Toy.K)
      (fun i => ((i : Nat) : Toy.K)) = .ok sig ∧
    Wire.nymSigCodec.unmarshal sig = .ok s ∧ parseProofG1 S32 s.main = .ok p ∧ p.responses.length = 2 :=
  ⟨_, _, _, rfl, rfl, rfl, rfl⟩

/-! ## C45 -/

/-- **C45 (user secret key).** Importing accepts exactly the strings of the scalar length and returns the scalar
they encode; an exported key imports to itself. -/
theorem C45_aries_user_key (raw : Bytes) (x : S.F) :
    (userKeyFromBytes S raw = .ok x ↔ raw.length = S.scalarLen ∧ x = S.zrOfBytes raw) ∧
      userKeyFromBytes S (S.zrBytes x) = .ok x := by
  constructor
  · simp only [userKeyFromBytes, Res.bind_eq_ok, Res.guardErr_eq_ok, decide_eq_false_iff_not, not_not, Res.pure_def,
      Res.ok.injEq]
    constructor
    · rintro ⟨_, h1, h2⟩; exact ⟨h1, h2.symm⟩
    · rintro ⟨h1, h2⟩; exact ⟨(), h1, h2.symm⟩
  · simp [userKeyFromBytes]

/-- **C45 (pseudonym).** Importing a pseudonym with its randomness accepts exactly the strings `r ‖ point` of the two
lengths whose second part is the encoding of a point. -/
theorem C45_aries_nym (raw : Bytes) (P : S.G1) (r : S.F) :
    (nymFromBytes S raw = .ok (P, r) ↔ ∃ a b, raw = a ++ b ∧ a.length = S.scalarLen ∧ b.length = S.g1Len ∧
        r = S.zrOfBytes a ∧ S.g1OfBytes b = some P) ∧
      nymFromBytes S (S.zrBytes r ++ S.g1Bytes P) = .ok (P, r) := by
  have main : nymFromBytes S raw = .ok (P, r) ↔ ∃ a b, raw = a ++ b ∧ a.length = S.scalarLen ∧ b.length = S.g1Len ∧
        r = S.zrOfBytes a ∧ S.g1OfBytes b = some P := by
    simp only [nymFromBytes, Res.bind_eq_ok, Res.guardErr_eq_ok, decide_eq_false_iff_not, not_not, Res.pure_def,
      Res.ok.injEq, Res.ofOption_eq_ok, Prod.mk.injEq]
    constructor
    · rintro ⟨_, h1, a, h2, b, h3, P', h4, rfl, rfl⟩
      have e : raw = raw.take S.scalarLen ++ raw.drop S.scalarLen := (List.take_append_drop _ _).symm
      have s1 := goSlice_mid [] (raw.take S.scalarLen) (raw.drop S.scalarLen)
      have s2 := goSlice_mid (raw.take S.scalarLen) (raw.drop S.scalarLen) []
      have e1 : (raw.take S.scalarLen).length = S.scalarLen := by simp; omega
      have e2 : S.scalarLen + (raw.drop S.scalarLen).length = raw.length := by simp; omega
      simp only [List.nil_append, List.append_nil, List.length_nil, e1, e2, List.take_append_drop, Nat.zero_add] at s1 s2
      rw [s1] at h2; cases h2
      rw [s2] at h3; cases h3
      exact ⟨_, _, e, e1, by simp; omega, rfl, h4⟩
    · rintro ⟨a, b, rfl, h1, h2, rfl, h3⟩
      have s1 := goSlice_mid [] a b
      have s2 := goSlice_mid a b []
      simp only [List.nil_append, List.append_nil, List.length_nil, h1, Nat.zero_add] at s1 s2
      refine ⟨(), by simp; omega, a, s1, b, by rw [List.length_append, h1]; exact s2, P, h3, rfl, rfl⟩
  refine ⟨main, ?_⟩
  simp only [nymFromBytes]
  have s1 := goSlice_mid [] (S.zrBytes r) (S.g1Bytes P)
  have s2 := goSlice_mid (S.zrBytes r) (S.g1Bytes P) []
  simp only [List.nil_append, List.append_nil, List.length_nil, S.zrBytes_len, S.g1Bytes_len, Nat.zero_add] at s1 s2
  have g : decide ((S.zrBytes r ++ S.g1Bytes P).length ≠ S.scalarLen + S.g1Len) = false := by simp
  rw [g]
  simp [s1, s2]

/-- **C45 (public pseudonym).** Importing a pseudonym accepts exactly the encodings of points of the point length;
an exported one imports to itself. -/
theorem C45_aries_public_nym (raw : Bytes) (P : S.G1) :
    (publicNymFromBytes S raw = .ok P ↔ raw.length = S.g1Len ∧ S.g1OfBytes raw = some P) ∧
      publicNymFromBytes S (S.g1Bytes P) = .ok P := by
  constructor
  · simp only [publicNymFromBytes, Res.bind_eq_ok, Res.guardErr_eq_ok, decide_eq_false_iff_not, not_not,
      Res.ofOption_eq_ok]
    constructor
    · rintro ⟨_, h1, h2⟩; exact ⟨h1, h2⟩
    · rintro ⟨h1, h2⟩; exact ⟨(), h1, h2⟩
  · simp [publicNymFromBytes]

example : nymFromBytes S32 (S32.zrBytes (4 : Toy.K) ++ S32.g1Bytes (5 : Toy.K)) = .ok ((5 : Toy.K), (4 : Toy.K)) ∧
    nymFromBytes S32 (S32.zrBytes (4 : Toy.K)) ≠ .ok ((5 : Toy.K), (4 : Toy.K)) := ⟨rfl, by decide⟩

/-! ## C20 -/

/-- What the revocation authority signs, before hashing. -/
def Spec.criBody (epoch : Int) (epochPk : Bytes) (alg : Int) (data : Bytes) : Bytes :=
  Proto.encode (Wire.cri ⟨epoch, epochPk, [], alg, data⟩)

theorem criBody_inj {e e' : Int} {p p' : Bytes} {a a' : Int} {d d' : Bytes} (he : Proto.Int64 e) (he' : Proto.Int64 e')
    (ha : Proto.Int32 a) (ha' : Proto.Int32 a') (h : Spec.criBody e p a d = Spec.criBody e' p' a' d') :
    e = e' ∧ p = p' ∧ a = a' ∧ d = d' := by
  have h1 := Wire.criCodec_rt ⟨e, p, [], a, d⟩ ⟨he, ha⟩
  have h2 := Wire.criCodec_rt ⟨e', p', [], a', d'⟩ ⟨he', ha'⟩
  unfold Spec.criBody at h
  rw [h, h2] at h1
  simp only [Res.ok.injEq, CRI.mk.injEq, true_and] at h1
  exact ⟨h1.1.symm, h1.2.1.symm, h1.2.2.1.symm, h1.2.2.2.symm⟩

/-- **C20 (aries, completeness).** Information signed by the authority carries the requested epoch and algorithm and
verifies for them. -/
theorem C20_aries_signed_verifies (dsa : Ecdsa) (key : dsa.Sk) (epoch alg : Int) (he : Proto.Int64 epoch)
    (wbb : S.G2) (ρ : dsa.Rnd) (raw : Bytes) (h : revSign S dsa (some key) epoch alg wbb ρ = .ok raw) :
    (∃ cri, Wire.criCodec.unmarshal raw = .ok cri ∧ cri.epoch = epoch ∧ cri.alg = alg) ∧
      revVerify dsa (some (dsa.pub key)) raw epoch alg = .ok () := by
  simp only [revSign, Res.ofOption_some, Res.ok_bind, Wire.criCodec_marshal, Res.bind_eq_ok] at h
  obtain ⟨sig, h1, h2⟩ := h
  split at h2
  · next ha =>
    subst ha
    simp only [if_true, Res.ok.injEq] at h1 h2
    subst h2
    have hw : CRI.Wire ⟨epoch, S.g2Bytes S.genG2, sig, 0, []⟩ := ⟨he, by simp [Proto.Int32]⟩
    have hu := Wire.criCodec_rt _ hw
    refine ⟨⟨_, hu, rfl, rfl⟩, ?_⟩
    have := dsa.complete _ _ _ _ h1
    simp [revVerify, hu, this, Wire.cri_unknown]
  · cases h2

/-- **C20 (aries, violated).** The epoch and algorithm carried are not looked at: changing them in information that
the authority signed does not change the verdict. -/
theorem C20_aries_violated (dsa : Ecdsa) (pk : dsa.Pk) (cri : CRI) (hw : cri.Wire) (epoch alg epoch' alg' : Int)
    (he : Proto.Int64 epoch') (ha : Proto.Int32 alg') :
    revVerify dsa (some pk) (Proto.encode (Wire.cri { cri with epoch := epoch', alg := alg' })) epoch alg =
      revVerify dsa (some pk) (Proto.encode (Wire.cri cri)) epoch alg := by
  simp [revVerify, Wire.criCodec_rt cri hw, Wire.criCodec_rt { cri with epoch := epoch', alg := alg' } ⟨he, ha⟩,
    Wire.cri_unknown]

theorem criBody_unknown {raw : Bytes} {cri : CRI} (h : Wire.criCodec.unmarshal raw = .ok cri) {e e' : Int} {p p' : Bytes}
    {a a' : Int} {d d' : Bytes} (he : Proto.Int64 e) (he' : Proto.Int64 e') (ha : Proto.Int32 a) (ha' : Proto.Int32 a')
    (hb : Spec.criBody e p a d ++ Proto.unknown Wire.criKnown raw = Spec.criBody e' p' a' d') :
    e = e' ∧ p = p' ∧ a = a' ∧ d = d' := by
  obtain ⟨m, hm⟩ : ∃ m, Proto.decode raw = some m := by
    cases hd : Proto.decode raw with
    | none => simp [Wire.criCodec, Proto.codec, hd, Res.ofOption] at h
    | some m => exact ⟨m, rfl⟩
  have hu := Proto.unknown_decodes Wire.criKnown hm
  have h1 := Proto.decode_append (Proto.decode_encode _ (Wire.cri_plain ⟨e, p, [], a, d⟩)) (Proto.unknown Wire.criKnown raw)
  unfold Spec.criBody at hb
  rw [hb, Proto.decode_encode _ (Wire.cri_plain _), hu, Option.map_some, Option.some.injEq] at h1
  have h2 := congrArg Wire.criOf h1
  rw [Wire.criOf_cri _ ⟨he', ha'⟩] at h2
  have hn : ∀ t ∈ m.filter (fun t => !Wire.criKnown t.1 t.2.wireType),
      (t.1, t.2.wireType) ∉ [(1, 0), (2, 2), (3, 2), (4, 0), (5, 2)] := by
    intro t ht
    have := (List.mem_filter.mp ht).2
    simpa [Wire.criKnown, imp_iff_not_or] using this
  generalize m.filter (fun t => !Wire.criKnown t.1 t.2.wireType) = u at hn h2
  have l2 := Proto.lens_insert hn (Wire.cri ⟨e, p, [], a, d⟩) [] (k := 2) (by simp)
  have l3 := Proto.lens_insert hn (Wire.cri ⟨e, p, [], a, d⟩) [] (k := 3) (by simp)
  have l5 := Proto.lens_insert hn (Wire.cri ⟨e, p, [], a, d⟩) [] (k := 5) (by simp)
  have v1 := Proto.varints_insert hn (Wire.cri ⟨e, p, [], a, d⟩) [] (k := 1) (by simp)
  have v4 := Proto.varints_insert hn (Wire.cri ⟨e, p, [], a, d⟩) [] (k := 4) (by simp)
  simp only [List.append_nil] at l2 l3 l5 v1 v4
  have h3 : Wire.criOf (Wire.cri ⟨e, p, [], a, d⟩ ++ u) = Wire.criOf (Wire.cri ⟨e, p, [], a, d⟩) := by
    simp only [Wire.criOf, Proto.getInt64, Proto.getInt32, Proto.getBytes, l2, l3, l5, v1, v4]
  rw [h3, Wire.criOf_cri _ ⟨he, ha⟩] at h2
  simp only [Option.some.injEq, CRI.mk.injEq, true_and] at h2
  exact ⟨h2.1.symm, h2.2.1.symm, h2.2.2.1.symm, h2.2.2.2.symm⟩

/-- **C20 (aries, partial).** Let `issued` list what the authority signed (epoch, epoch key, algorithm, data).
Information accepted for an epoch and algorithm has the epoch key and data that the authority signed for this
very epoch and algorithm, or contains a signature on a digest that the authority never signed, or
collides under SHA-256 with something it signed. What is missing: the epoch and algorithm that the information itself
carries need not be these (`C20_aries_violated`). -/
theorem C20_aries_partial (dsa : Ecdsa) (pk : dsa.Pk) (raw : Bytes) (epoch alg : Int) (he : Proto.Int64 epoch)
    (ha : Proto.Int32 alg) (issued : List (Int × Bytes × Int × Bytes))
    (hissued : ∀ x ∈ issued, Proto.Int64 x.1 ∧ Proto.Int32 x.2.2.1)
    (h : revVerify dsa (some pk) raw epoch alg = .ok ()) :
    ∃ cri, Wire.criCodec.unmarshal raw = .ok cri ∧
      ((epoch, cri.epochPk, alg, cri.data) ∈ issued ∨
       (∃ d, dsa.verify pk d cri.epochPkSig = true ∧
         ∀ x ∈ issued, d ≠ dsa.sha256 (Spec.criBody x.1 x.2.1 x.2.2.1 x.2.2.2)) ∨
       ∃ x ∈ issued, ∃ b, b = Spec.criBody epoch cri.epochPk alg cri.data ++ Proto.unknown Wire.criKnown raw ∧
         b ≠ Spec.criBody x.1 x.2.1 x.2.2.1 x.2.2.2 ∧
         dsa.sha256 b = dsa.sha256 (Spec.criBody x.1 x.2.1 x.2.2.1 x.2.2.2)) := by
  simp only [revVerify, Res.bind_eq_ok, Res.ofOption_some, Res.ok_bind, Wire.criCodec_marshal, Res.guardErr_eq_ok,
    Bool.not_eq_false'] at h
  obtain ⟨cri, h1, h3⟩ := h
  refine ⟨cri, h1, ?_⟩
  by_cases hf : ∀ x ∈ issued, dsa.sha256 (Spec.criBody epoch cri.epochPk alg cri.data ++ Proto.unknown Wire.criKnown raw) ≠
      dsa.sha256 (Spec.criBody x.1 x.2.1 x.2.2.1 x.2.2.2)
  · exact .inr (.inl ⟨_, h3, hf⟩)
  · push Not at hf
    obtain ⟨⟨e, p, a, d⟩, hx, heq⟩ := hf
    by_cases hm : Spec.criBody epoch cri.epochPk alg cri.data ++ Proto.unknown Wire.criKnown raw = Spec.criBody e p a d
    · obtain ⟨rfl, rfl, rfl, rfl⟩ := criBody_unknown h1 he (hissued _ hx).1 ha (hissued _ hx).2 hm
      exact .inl hx
    · exact .inr (.inr ⟨_, hx, _, rfl, hm, heq⟩)

set_option maxRecDepth 20000 in
example : ∃ raw, revSign S32 Ecdsa.toy (some (9 : UInt8)) 3 0 (1 : Toy.K) () = .ok raw ∧
    revVerify Ecdsa.toy (some (9 : UInt8)) raw 3 0 = .ok () ∧ revVerify Ecdsa.toy (some (9 : UInt8)) raw 4 0 ≠ .ok () ∧
    revVerify Ecdsa.toy (some (8 : UInt8)) raw 3 0 ≠ .ok () :=
  ⟨_, rfl, by decide, by decide, by decide⟩

end Idemix.Aries
