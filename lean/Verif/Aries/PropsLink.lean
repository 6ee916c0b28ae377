import Verif.Aries.PropsAudit

/-!
# C106: signatures with one pseudonym are made with one secret (aries scheme)
-/

namespace Idemix.Aries

open Bbs Bbs.Ex
open Dlog (SigType VerType AuditData SignerMetadata AuditType)
open Dlog.Spec (Relation)

variable {S : Suite}

/-- What is extracted from a signer (as in `C40_extraction_partial`): two signatures of theirs that are accepted for one issuer key
and the same attributes, with equal first messages and different challenges. -/
structure Spec.Rewound (ipk : IPK S) (w : S.G2) (n k : Nat) where
  (L₁ L₂ : Lib S)
  attributes : List IdemixAttribute
  (sig₁ sig₂ : Signature)
  (P₁ P₂ : Parsed S)
  (pn₁ pn₂ : ProofG1 S)
  (msg₁ msg₂ raw₁ raw₂ : Bytes)
  (eid rh : Int)
  v : VerType
  m : Nat
  (md₁ md₂ : Option (SignerMetadata S))
  hv : Spec.NoCard v
  h₁ : verify L₁ (.val ipk) raw₁ msg₁ attributes rh eid k v md₁ = .ok ()
  h₂ : verify L₂ (.val ipk) raw₂ msg₂ attributes rh eid k v md₂ = .ok ()
  u₁ : Wire.sigCodec.unmarshal raw₁ = .ok sig₁
  u₂ : Wire.sigCodec.unmarshal raw₂ = .ok sig₂
  p₁ : parseParts S sig₁ v m = .ok P₁
  p₂ : parseParts S sig₂ v m = .ok P₂
  ht : Spec.TwoSignatures L₁ L₂ w n k attributes sig₁ sig₂ P₁ P₂ pn₁ pn₂ msg₁ msg₂

namespace Spec.Rewound

variable {ipk : IPK S} {w : S.G2} {n k : Nat} (R : Spec.Rewound ipk w n k)

/-- The challenge of the first signature. -/
def c₁ : S.F := Spec.signChallenge R.L₁ w n R.sig₁ R.P₁.sp R.P₁.rev R.pn₁.commitment (R.P₁.eid.map (·.1.commitment))
  (R.P₁.rh.map (·.1.commitment)) R.msg₁

/-- The challenge of the second signature. -/
def c₂ : S.F := Spec.signChallenge R.L₂ w n R.sig₂ R.P₂.sp R.P₂.rev R.pn₂.commitment (R.P₂.eid.map (·.1.commitment))
  (R.P₂.rh.map (·.1.commitment)) R.msg₂

/-- The randomness of the pseudonym and the secret, as extracted. -/
def opening : List S.F := Bbs.Spec.witness R.c₁ R.c₂ R.pn₁.responses R.pn₂.responses

/-- `ms` is certified by what is extracted from the signer, is hidden as extracted and disclosed as the verifier was told. -/
def Holds (ms : List S.F) : Prop :=
  let x := Bbs.Spec.extract R.P₁.sp R.P₂.sp R.c₁ R.c₂
  Bbs.Spec.Signature w ipk.pkg.h0 ipk.pkg.h x.A x.e x.s ms ∧ Bbs.Spec.unshown R.P₁.rev ms = x.hidden ∧
    ∀ (i : Nat) a, R.attributes[i]? = some a → a.type ≠ 0 → ∃ x, ms[Spec.slot k i]? = some x ∧ Spec.Encodes R.L₁ a x

end Spec.Rewound

/-- What is extracted from a signer with a pseudonym only (as in `C42_extraction_partial`). -/
structure Spec.NymRewound (ipk : IPK S) (k : Nat) (H nym : S.G1) where
  (L₁ L₂ : Lib S)
  (raw₁ raw₂ msg₁ msg₂ : Bytes)
  (s₁ s₂ : NymSignature)
  (p₁ p₂ : ProofG1 S)
  h₁ : nymVerify L₁ (.val ipk) nym raw₁ msg₁ k = .ok ()
  h₂ : nymVerify L₂ (.val ipk) nym raw₂ msg₂ k = .ok ()
  hs₁ : Wire.nymSigCodec.unmarshal raw₁ = .ok s₁
  hs₂ : Wire.nymSigCodec.unmarshal raw₂ = .ok s₂
  hp₁ : parseProofG1 S s₁.main = .ok p₁
  hp₂ : parseProofG1 S s₂.main = .ok p₂
  l₁ : p₁.responses.length = 2
  l₂ : p₂.responses.length = 2
  ht : p₁.commitment = p₂.commitment
  differ : nymChallenge L₁ nym ipk.pkg.h0 H p₁.commitment msg₁ s₁.nonce ≠
    nymChallenge L₂ nym ipk.pkg.h0 H p₂.commitment msg₂ s₂.nonce

/-- The randomness of the pseudonym and the secret, as extracted. -/
def Spec.NymRewound.opening {ipk : IPK S} {k : Nat} {H nym : S.G1} (R : Spec.NymRewound ipk k H nym) : List S.F :=
  Bbs.Spec.witness (nymChallenge R.L₁ nym ipk.pkg.h0 H R.p₁.commitment R.msg₁ R.s₁.nonce)
    (nymChallenge R.L₂ nym ipk.pkg.h0 H R.p₂.commitment R.msg₂ R.s₂.nonce) R.p₁.responses R.p₂.responses

theorem one_secret {g h N : S.G1} {x r y s : S.F} (h₁ : N = r • g + x • h) (h₂ : N = s • g + y • h) :
    x = y ∨ Relation S [r - s, x - y] [g, h] := by
  by_cases e : x = y
  · exact .inl e
  · exact .inr (Dlog.relation_two (R := 0) (by rw [← h₁, ← h₂]) fun e' => e e'.2)

/-- **C106 (aries, partial).** If two signatures carry the same pseudonym, whatever else they are about, then the values that are
extracted from their signers and that the issuer certified have the same secret at position `k`, or a relation between the
generators of pseudonyms is computed. What is missing: what is missing in `C40_extraction_partial`. -/
theorem C106_aries_signatures_partial (ipk : IPK S) (w : S.G2) (n k : Nat) (hkey : Spec.IsKey ipk w n)
    (R R' : Spec.Rewound ipk w n k) (sameNym : R.sig₁.nym = R'.sig₁.nym) :
    ∃ ms ms' r sk r' sk' h, R.Holds ms ∧ R'.Holds ms' ∧ R.opening = [r, sk] ∧ R'.opening = [r', sk'] ∧ ms[k]? = some sk ∧
      ms'[k]? = some sk' ∧ ipk.pkg.h[k]? = some h ∧ (sk = sk' ∨ Relation S [r - r', sk - sk'] [ipk.pkg.h0, h]) := by
  obtain ⟨ms, a1, a2, a3, r, sk, h, N, a4, a5, a6, a7, a8⟩ := C40_extraction_partial R.L₁ R.L₂ ipk w n k hkey R.attributes R.sig₁
    R.sig₂ R.P₁ R.P₂ R.pn₁ R.pn₂ R.msg₁ R.msg₂ R.raw₁ R.raw₂ R.eid R.rh R.v R.m R.md₁ R.md₂ R.hv R.h₁ R.h₂ R.u₁ R.u₂ R.p₁ R.p₂ R.ht
  obtain ⟨ms', b1, b2, b3, r', sk', h', N', b4, b5, b6, b7, b8⟩ := C40_extraction_partial R'.L₁ R'.L₂ ipk w n k hkey R'.attributes
    R'.sig₁ R'.sig₂ R'.P₁ R'.P₂ R'.pn₁ R'.pn₂ R'.msg₁ R'.msg₂ R'.raw₁ R'.raw₂ R'.eid R'.rh R'.v R'.m R'.md₁ R'.md₂ R'.hv R'.h₁ R'.h₂
    R'.u₁ R'.u₂ R'.p₁ R'.p₂ R'.ht
  rw [a6] at b6
  cases b6
  rw [sameNym, b7] at a7
  cases a7
  exact ⟨ms, ms', r, sk, r', sk', h, ⟨a1, a3, a2⟩, ⟨b1, b3, b2⟩, a4, b4, a5, b5, a6, one_secret a8 b8⟩

/-- **C106 (aries, partial), pseudonym signatures.** If a pseudonym signature is accepted for the pseudonym in a signature, then
the secret of whoever made it is the one that the issuer certified to the signer, or a relation between the generators is
computed. What is missing: what is missing in `C40_extraction_partial` and in `C42_extraction_partial`. -/
theorem C106_aries_nym_signatures_partial (ipk : IPK S) (w : S.G2) (n k : Nat) (hkey : Spec.IsKey ipk w n)
    (R : Spec.Rewound ipk w n k) (nym H : S.G1) (hnym : S.g1OfBytes R.sig₁.nym = some nym) (hH : ipk.pkg.h[k]? = some H)
    (R' : Spec.NymRewound ipk k H nym) :
    ∃ ms r sk r' sk', R.Holds ms ∧ R.opening = [r, sk] ∧ R'.opening = [r', sk'] ∧ ms[k]? = some sk ∧
      (sk = sk' ∨ Relation S [r - r', sk - sk'] [ipk.pkg.h0, H]) := by
  obtain ⟨ms, a1, a2, a3, r, sk, h, N, a4, a5, a6, a7, a8⟩ := C40_extraction_partial R.L₁ R.L₂ ipk w n k hkey R.attributes R.sig₁
    R.sig₂ R.P₁ R.P₂ R.pn₁ R.pn₂ R.msg₁ R.msg₂ R.raw₁ R.raw₂ R.eid R.rh R.v R.m R.md₁ R.md₂ R.hv R.h₁ R.h₂ R.u₁ R.u₂ R.p₁ R.p₂ R.ht
  obtain ⟨r', sk', b1, b2⟩ := C42_extraction_partial R'.L₁ R'.L₂ ipk w n k hkey R.ht.key nym R'.raw₁ R'.raw₂ R'.msg₁ R'.msg₂ R'.s₁ R'.s₂
    R'.p₁ R'.p₂ H hH R'.h₁ R'.h₂ R'.hs₁ R'.hs₂ R'.hp₁ R'.hp₂ R'.l₁ R'.l₂ R'.ht _ _ rfl rfl R'.differ
  rw [hH] at a6
  cases a6
  rw [hnym] at a7
  cases a7
  exact ⟨ms, r, sk, r', sk', ⟨a1, a3, a2⟩, a4, b1, a5, one_secret a8 b2⟩

/-! ## Examples -/

namespace Ex

set_option maxRecDepth 40000 in
/-- The samples on `a` and `b` as in the example of C40. -/
def linked (a b : Bytes) (h : (verify L32 (.val ipk2) (sample a) a shown2 0 1 0 .expectEidNym none = .ok () ∧
      verify L32 (.val ipk2) (sample b) b shown2 0 1 0 .expectEidNym none = .ok ()) ∧
    Wire.sigCodec.unmarshal (sample a) = .ok (sampleSig a) ∧ Wire.sigCodec.unmarshal (sample b) = .ok (sampleSig b) ∧
    parseParts S32 (sampleSig a) .expectEidNym 1 = .ok (sampleParts a) ∧
    parseParts S32 (sampleSig b) .expectEidNym 1 = .ok (sampleParts b) ∧
    Spec.TwoSignatures L32 L32 (publicKey (S := S32) (2 : Toy.K)) 2 0 shown2 (sampleSig a) (sampleSig b)
      (sampleParts a) (sampleParts b) (samplePn a) (samplePn b) a b) :
    Spec.Rewound ipk2 (publicKey (S := S32) (2 : Toy.K)) 2 0 where
  L₁ := L32
  L₂ := L32
  attributes := shown2
  sig₁ := sampleSig a
  sig₂ := sampleSig b
  P₁ := sampleParts a
  P₂ := sampleParts b
  pn₁ := samplePn a
  pn₂ := samplePn b
  msg₁ := a
  msg₂ := b
  raw₁ := sample a
  raw₂ := sample b
  eid := 1
  rh := 0
  v := .expectEidNym
  m := 1
  md₁ := none
  md₂ := none
  hv := by simp [Spec.NoCard]
  h₁ := h.1.1
  h₂ := h.1.2
  u₁ := h.2.1
  u₂ := h.2.2.1
  p₁ := h.2.2.2.1
  p₂ := h.2.2.2.2.1
  ht := h.2.2.2.2.2

set_option maxRecDepth 40000 in
/-- The samples on `[9]` and `[10]`. -/
def link₁ : Spec.Rewound ipk2 (publicKey (S := S32) (2 : Toy.K)) 2 0 := linked [9] [10] <| by
  have hr : (sampleParts [9]).rev = [1] := by rfl
  have hr' : (sampleParts [10]).rev = [1] := by rfl
  refine ⟨⟨by decide, by decide⟩, by rfl, by rfl, by rfl, by rfl, ?_⟩
  refine ⟨by rfl, by decide, by decide, by decide, ?_, by rw [hr]; decide, by rw [hr, hr'],
    ⟨by decide, by decide, by decide, by decide, by decide⟩, by decide, by rfl, by rfl, by decide,
    ⟨⟨by rfl, by rfl⟩, by rfl⟩, ⟨⟨by rfl, by rfl⟩, by rfl⟩, fun _ _ _ _ => rfl, by decide⟩
  intro i
  rw [hr]
  rcases i with _ | _ | i <;> simp [Spec.slot, shown2]

set_option maxRecDepth 40000 in
/-- The samples on `[11]` and `[13]`. -/
def link₂ : Spec.Rewound ipk2 (publicKey (S := S32) (2 : Toy.K)) 2 0 := linked [11] [13] <| by
  have hr : (sampleParts [11]).rev = [1] := by rfl
  have hr' : (sampleParts [13]).rev = [1] := by rfl
  refine ⟨⟨by decide, by decide⟩, by rfl, by rfl, by rfl, by rfl, ?_⟩
  refine ⟨by rfl, by decide, by decide, by decide, ?_, by rw [hr]; decide, by rw [hr, hr'],
    ⟨by decide, by decide, by decide, by decide, by decide⟩, by decide, by rfl, by rfl, by decide,
    ⟨⟨by rfl, by rfl⟩, by rfl⟩, ⟨⟨by rfl, by rfl⟩, by rfl⟩, fun _ _ _ _ => rfl, by decide⟩
  intro i
  rw [hr]
  rcases i with _ | _ | i <;> simp [Spec.slot, shown2]

/-- A pseudonym signature with the pseudonym of the samples, on a message. -/
def linkNymRaw (msg : Bytes) : Bytes :=
  match nymSign L32 (4 : Toy.K) (4 : Toy.K) (5 : Toy.K) (.val ipk2) msg 0 (2 : Toy.K) (fun i => ((i : Nat) : Toy.K)) with
  | .ok s => s
  | _ => []

/-- The decoded pseudonym signature. -/
def linkNymSig (msg : Bytes) : NymSignature :=
  match Wire.nymSigCodec.unmarshal (linkNymRaw msg) with
  | .ok s => s
  | _ => ⟨[], []⟩

/-- Its proof. -/
def linkNymProof (msg : Bytes) : ProofG1 S32 :=
  match parseProofG1 S32 (linkNymSig msg).main with
  | .ok p => p
  | _ => ⟨0, []⟩

set_option maxRecDepth 40000 in
/-- Two pseudonym signatures with the same coins. -/
def linkNym : Spec.NymRewound ipk2 0 (ipk2.pkg.h[0]?.getD (0 : Toy.K)) (4 : Toy.K) where
  L₁ := L32
  L₂ := L32
  raw₁ := linkNymRaw [9]
  raw₂ := linkNymRaw [10]
  msg₁ := [9]
  msg₂ := [10]
  s₁ := linkNymSig [9]
  s₂ := linkNymSig [10]
  p₁ := linkNymProof [9]
  p₂ := linkNymProof [10]
  h₁ := by decide
  h₂ := by decide
  hs₁ := by rfl
  hs₂ := by rfl
  hp₁ := by rfl
  hp₂ := by rfl
  l₁ := by rfl
  l₂ := by rfl
  ht := by decide
  differ := by decide

end Ex

open Ex in
set_option maxRecDepth 40000 in
/-- All carry the same pseudonym, and the signer's secret is extracted from each. -/
example : link₁.sig₁.nym = link₂.sig₁.nym ∧ link₁.raw₁ ≠ link₂.raw₁ ∧ S32.g1OfBytes link₁.sig₁.nym = some (4 : Toy.K) ∧
    link₁.opening = [(5 : Toy.K), (4 : Toy.K)] ∧ link₂.opening = [(5 : Toy.K), (4 : Toy.K)] ∧
    linkNym.opening = [(5 : Toy.K), (4 : Toy.K)] := by
  decide

end Idemix.Aries
