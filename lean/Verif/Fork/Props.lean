import Verif.Fork.Adaptive
import Verif.Dlog.PropsNym

/-!
# C89 for pseudonym signatures, and examples
-/

namespace Idemix.Fork

open Idemix.Dlog
open Idemix (Suite Res Bytes)
open Spec

variable {S : Suite} (T : Translator S)

/-- The first hash question of a verifier of a pseudonym signature. -/
def Spec.nymQuestion (ipk : IssuerPublicKey) (nym : S.G1) (sig : NymSignature) (msg : Bytes) : Bytes :=
  match T.g1FromProto ipk.hSk, T.g1FromProto ipk.hRand with
  | .ok hSk, .ok hRand => Dlog.Spec.nymTranscript signLabel ⟨hSk, hRand, [], 0⟩ nym (S.zrOfBytes sig.proofC)
      (S.zrOfBytes sig.proofSSk) (S.zrOfBytes sig.proofSRNym) ipk.hash msg
  | _, _ => []

/-- A forger of signatures for the pseudonym `nym`, and a verifier. -/
def Spec.nymSignatures (ipk : IssuerPublicKey) (nym : S.G1) (forger : Strategy S.F (NymSignature × Bytes)) :
    Game S.F (NymSignature × Bytes) where
  forger := forger
  first a := nymQuestion T ipk nym a.1 a.2
  second a c := S.zrBytes c ++ S.zrBytes (S.zrOfBytes a.1.nonce)
  accepts h a := a.1.ver (T.withHash h) nym ipk a.2 = .ok ()

/-- The opening of C17: a user secret and the randomness of the pseudonym. -/
def Spec.openingOf (S : Suite) (sig₁ sig₂ : NymSignature) : S.F × S.F :=
  let x := Dlog.Spec.witness (S.zrOfBytes sig₁.proofC) (S.zrOfBytes sig₂.proofC)
  (x (S.zrOfBytes sig₁.proofSSk) (S.zrOfBytes sig₂.proofSSk), x (S.zrOfBytes sig₁.proofSRNym) (S.zrOfBytes sig₂.proofSRNym))

open scoped Classical in
/-- C89. Whoever makes signatures for a pseudonym that are accepted for the fraction `ε` of all answers of the hash function, knows an opening
of the pseudonym: it is computed from a play and its fork for at least the fraction `ε² / q - 2 q ε / |F|` of all pairs of answers. -/
theorem C89_pseudonyms [Fintype S.F] (ipk : IssuerPublicKey) (hSk hRand nym : S.G1) (hk : T.g1FromProto ipk.hSk = .ok hSk)
    (hr : T.g1FromProto ipk.hRand = .ok hRand) (forger : Strategy S.F (NymSignature × Bytes)) (q : Nat) :
    let g := nymSignatures T ipk nym forger
    let W := Finset.univ.filter fun ω : Fin q → S.F => ∃ a tab, g.Wins ω a tab
    Fintype.card S.F * W.card ^ 2 ≤
      q * Fintype.card S.F * (Finset.univ.filter fun ωs : (Fin q → S.F) × (Fin q → S.F) =>
        ∃ r, g.fork ωs.1 ωs.2 = some r ∧
          nym = (openingOf S r.1.1.1 r.2.1.1).1 • hSk + (openingOf S r.1.1.1 r.2.1.1).2 • hRand).card +
      2 * q ^ 2 * W.card * Fintype.card (Fin q → S.F) := by
  intro g W
  refine le_trans (forks g q (fun x => S.zrOfBytes (x.take S.scalarLen)) ?_)
    (Nat.add_le_add_right (Nat.mul_le_mul_left _ (Finset.card_le_card ?_)) _)
  · intro a c
    show S.zrOfBytes ((S.zrBytes c ++ _).take S.scalarLen) = c
    rw [List.take_append_of_le_length (by simp), List.take_of_length_le (by simp), S.zrOfBytes_zrBytes]
  · intro ωs h
    simp only [Finset.mem_filter, Finset.mem_univ, true_and] at h ⊢
    obtain ⟨r, h1, acc₁, acc₂, hfirst, hans⟩ := h
    refine ⟨r, h1, ?_⟩
    have hq : ∀ sig msg, nymQuestion T ipk nym sig msg = Dlog.Spec.nymTranscript signLabel ⟨hSk, hRand, [], 0⟩ nym
        (S.zrOfBytes sig.proofC) (S.zrOfBytes sig.proofSSk) (S.zrOfBytes sig.proofSRNym) ipk.hash msg := by
      intro sig msg
      rw [nymQuestion, hk, hr]
    exact C17_nym_signature_extraction T (oracle r.1.2) (oracle r.2.2) ipk nym r.1.1.1 r.2.1.1 r.1.1.2 r.2.1.2
      ⟨hSk, hRand, [], 0⟩ hk hr acc₁ acc₂ (nymQuestion T ipk nym) hq hfirst hans

/-! ## Examples -/

namespace Ex

open Idemix.Dlog.Ex

/-- The verifier of the example of C09. -/
def policy : Policy Toy.suite := ⟨discl, vals, 2, 1, .expectEidNymRhNym⟩

/-- The signature of the user of C09 with the challenge `c`. -/
def signed (c : Toy.K) : Signature :=
  match newSignature (Toy.tr.withHash fun _ => c) cred (4 : Toy.K) nym (2 : Toy.K) key.ipk discl [8] 2 1 cri
    ⟨(2 : Toy.K), (3 : Toy.K), 1, 4, 5, 6, 1, 2, 3, [4, 5], 2, 3, 4, 5⟩ .eidNymRhNym none with
  | .ok (sig, _) => sig
  | _ => ⟨none, none, none, [], [], [], [], [], [], [], [], none, [], none, [], 0, none, none, none⟩

/-- A signer as a forger: it asks two questions and uses the second answer as its challenge. -/
def signer : Strategy Toy.K (Signature × Bytes) :=
  .ask (question Toy.tr key.ipk policy (signed 1) [8]) fun c => .ask (Toy.suite.zrBytes c ++ Toy.suite.zrBytes (1 : Toy.K)) fun c =>
    .done (signed c, [8])

set_option maxRecDepth 40000 in
/-- Its signatures are accepted. -/
example : (signatures Toy.tr key.ipk policy signer).Wins (q := 2) (fun i => if i = 0 then (3 : Toy.K) else (5 : Toy.K)) (signed 5, [8])
    [(question Toy.tr key.ipk policy (signed 1) [8], (3 : Toy.K)),
      (Toy.suite.zrBytes (3 : Toy.K) ++ Toy.suite.zrBytes (1 : Toy.K), (5 : Toy.K))] := ⟨by decide +kernel, by show _ = _; decide +kernel⟩

/-- The credential of the signer is computed from two plays: its user secret is 4, its attributes are 1, 0, 6. -/
example : (((signatures Toy.tr key.ipk policy signer).fork (q := 2) (fun i => if i = 0 then (3 : Toy.K) else (5 : Toy.K))
      (fun i => if i = 0 then (3 : Toy.K) else (6 : Toy.K))).map fun r =>
        match credentialOf Toy.tr policy r.1.1.1 r.2.1.1 with
        | .ok (x, attrs) => x.sk :: x.e :: attrs
        | _ => []) = some [(4 : Toy.K), (2 : Toy.K), 1, 0, 6] := by decide +kernel

/-- A policy that the credential of C06 does not meet: its first attribute is 1. -/
def otherPolicy : Policy Toy.suite := ⟨discl, [some 2, none, none], 2, 1, .expectEidNymRhNym⟩

/-- An impostor that asks for the credential of C06 and signs with it. -/
def impostor : Impostor Toy.suite := ⟨Forge.Ex.forger.ask, fun _ _ => signer⟩

/-- The hypotheses of `C89_impostors`. -/
example : (∀ ω ω' : Fin 2 → Toy.K, Forge.Spec.Issued Toy.tr mar names (impostor.forger Toy.tr otherPolicy ω ω') rnd key [(2 : Toy.K)]
      [(2 : Toy.K)] [cred]) ∧
    ∀ i < [(2 : Toy.K)].length, ¬ Dlog.Spec.Discloses otherPolicy.D otherPolicy.values (impostor.ask key.ipk ([cred].take i)).attrs := by
  refine ⟨fun _ _ => issued_ask (f := Forge.Ex.forger) (f' := impostor.forger Toy.tr otherPolicy _ _) rfl Forge.Ex.issued, fun i _ h => ?_⟩
  obtain ⟨b, h1, h2⟩ := h.2 0 1 rfl (by decide)
  cases h1
  revert h2
  decide

/-- The pseudonym signature of the user of C09 with the challenge `c`. -/
def nymSigned (c : Toy.K) : NymSignature :=
  match newNymSignature (Toy.tr.withHash fun _ => c) (4 : Toy.K) nym (2 : Toy.K) key.ipk [9] ⟨(1 : Toy.K), (3 : Toy.K), (5 : Toy.K)⟩ with
  | .ok sig => sig
  | _ => ⟨[], [], [], []⟩

/-- See `signer`. -/
def nymSigner : Strategy Toy.K (NymSignature × Bytes) :=
  .ask (nymQuestion Toy.tr key.ipk nym (nymSigned 1) [9]) fun c =>
    .ask (Toy.suite.zrBytes c ++ Toy.suite.zrBytes (Toy.suite.zrOfBytes (nymSigned 1).nonce)) fun c => .done (nymSigned c, [9])

/-- Its signatures are accepted. -/
example : (nymSignatures Toy.tr key.ipk nym nymSigner).Wins (q := 2) (fun i => if i = 0 then (3 : Toy.K) else (5 : Toy.K)) (nymSigned 5, [9])
    [(nymQuestion Toy.tr key.ipk nym (nymSigned 1) [9], (3 : Toy.K)),
      (Toy.suite.zrBytes (3 : Toy.K) ++ Toy.suite.zrBytes (Toy.suite.zrOfBytes (nymSigned 1).nonce), (5 : Toy.K))] :=
  ⟨by decide +kernel, by show _ = _; decide +kernel⟩

/-- What a dishonest holder of the credential of C06 makes, whose first attribute is 1. -/
def misdisclosed : Res (Signature × List (Option Toy.K)) :=
  misdisclose Toy.tr cred (4 : Toy.K) nym (2 : Toy.K) key.ipk discl [8] 2 1 cri sigRnd .eidNymRhNym .expectEidNymRhNym vals [(3 : Toy.K), 0, 0]

/-- It is accepted for the value 3, and not for 1. -/
example : (match misdisclosed with
    | .ok (sig, values) => decide (values = [some (3 : Toy.K), none, none] ∧
      sig.ver Toy.tr discl (some key.ipk) [8] values 2 1 () 0 .expectEidNymRhNym none = .ok () ∧
      sig.ver Toy.tr discl (some key.ipk) [8] vals 2 1 () 0 .expectEidNymRhNym none ≠ .ok ())
    | _ => false) = true := by decide +kernel

/-- A signer that chooses between two policies, and keeps to the one that its credential meets. -/
example : (signaturesFor Toy.tr key.ipk ![policy, otherPolicy]
      (.ask (question Toy.tr key.ipk policy (signed 1) [8]) fun c => .ask (Toy.suite.zrBytes c ++ Toy.suite.zrBytes (1 : Toy.K)) fun c =>
        .done (signed c, [8], 0))).Wins (q := 2) (fun i => if i = 0 then (3 : Toy.K) else (5 : Toy.K)) (signed 5, [8], 0)
    [(question Toy.tr key.ipk policy (signed 1) [8], (3 : Toy.K)),
      (Toy.suite.zrBytes (3 : Toy.K) ++ Toy.suite.zrBytes (1 : Toy.K), (5 : Toy.K))] := ⟨by decide +kernel, by show _ = _; decide +kernel⟩

end Ex

end Idemix.Fork
