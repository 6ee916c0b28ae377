import Verif.Fork.BbsProof
import Verif.Aries.PropsIssue
import Verif.Aries.PropsCard

/-!
# C99: whoever makes accepted aries requests and pseudonym signatures knows the secret

C37, C42 and C43 compute a secret from two requests or signatures with the same first message and different challenges. Here they are
obtained from any program that asks the hash function, by running it twice.
-/

namespace Idemix.Fork

open Idemix (Suite Res Bytes)
open Idemix.Bbs
open Idemix.Aries
open Spec

variable {S : Suite}

/-! ## Requests -/

/-- What is hashed to check a request. -/
def Spec.blindQuestion (S : Suite) (nonce request : Bytes) : Bytes :=
  match parseBlindedMessages S request with
  | .ok b => S.g1Bytes b.c ++ S.g1Bytes b.pokC ++ nonce
  | _ => []

/-- Somebody who asks for a credential, and an issuer who checks the request, and also what `BlindVerify` does not: that the first message
that is hashed is the one that is used, and that there are two responses. -/
def Spec.blindRequests (R : RandomOracle S) (ipk : IPK S) (k : Nat) (nonce : Bytes) (user : Strategy S.F Bytes) : Single S.F Bytes where
  forger := user
  question := blindQuestion S nonce
  accepts h request := blindVerify (R.lib h) request (.val ipk) nonce k = .ok () ∧
    ∃ b, parseBlindedMessages S request = .ok b ∧ b.proof.commitment = b.pokC ∧ b.proof.responses.length = 2

/-- What is computed from two plays. -/
def Spec.blindOpening (S : Suite) (nonce : Bytes) (r : (Bytes × Table S.F) × (Bytes × Table S.F)) : List S.F :=
  match parseBlindedMessages S r.1.1, parseBlindedMessages S r.2.1 with
  | .ok b₁, .ok b₂ => Bbs.Spec.witness (oracle r.1.2 (blindQuestion S nonce r.1.1)) (oracle r.2.2 (blindQuestion S nonce r.2.1))
      b₁.proof.responses b₂.proof.responses
  | _, _ => []

/-- The request commits to the secret `sk`, with the blinding `s`. -/
def Spec.Commits (ipk : IPK S) (k : Nat) (request : Bytes) (opening : List S.F) : Prop :=
  ∃ b s sk H, parseBlindedMessages S request = .ok b ∧ opening = [s, sk] ∧ ipk.pkg.h[k]? = some H ∧ b.c = s • ipk.pkg.h0 + sk • H

theorem forked_blind {R : RandomOracle S} {ipk : IPK S} {w : S.G2} {n k : Nat} (hkey : Aries.Spec.IsKey ipk w n) (hn : n < 2 ^ 32 - 1)
    (hk : k ≤ n) {nonce : Bytes} {user : Strategy S.F Bytes} {r : (Bytes × Table S.F) × (Bytes × Table S.F)}
    (h : (blindRequests R ipk k nonce user).Forked r) : Commits ipk k r.1.1 (blindOpening S nonce r) := by
  obtain ⟨⟨a₁, b₁, p₁, u₁, l₁⟩, ⟨a₂, b₂, p₂, u₂, l₂⟩, hQ, hA⟩ := h
  have q₁ : blindQuestion S nonce r.1.1 = S.g1Bytes b₁.c ++ S.g1Bytes b₁.pokC ++ nonce := by rw [blindQuestion, p₁]
  have q₂ : blindQuestion S nonce r.2.1 = S.g1Bytes b₂.c ++ S.g1Bytes b₂.pokC ++ nonce := by rw [blindQuestion, p₂]
  simp only [blindRequests] at hQ hA a₁ a₂
  have hq := hQ
  rw [q₁, q₂] at hq
  obtain ⟨hq, -⟩ := List.append_inj hq (by simp)
  obtain ⟨hc, ht⟩ := List.append_inj hq (by simp)
  have e₁ : blindChallenge (R.lib (oracle r.1.2)) b₁.c b₁.pokC nonce = oracle r.1.2 (blindQuestion S nonce r.1.1) := by
    rw [blindChallenge, R.scalar, q₁]
  have e₂ : blindChallenge (R.lib (oracle r.2.2)) b₂.c b₂.pokC nonce = oracle r.2.2 (blindQuestion S nonce r.2.1) := by
    rw [blindChallenge, R.scalar, q₂]
  obtain ⟨s, sk, H, h1, h2, h3⟩ := C37_extraction_partial _ _ ipk w n k hkey hn hk _ _ nonce nonce b₁ b₂ a₁ a₂ p₁ p₂ (S.g1Bytes_inj hc)
    (S.g1Bytes_inj ht) u₁ u₂ l₁ l₂ (by rw [e₁, e₂]; exact hA)
  rw [e₁, e₂] at h1
  refine ⟨b₁, s, sk, H, p₁, ?_, h2, h3⟩
  simp only [blindOpening, p₁, p₂, h1]

open scoped Classical in
/-- **C99 (requests, partial).** Take anybody who asks an aries issuer for credentials, with at most `q` hash questions, counting that of the
issuer. If the request is accepted for the fraction `ε` of all answers that the hash function may give, then for at least the fraction
`ε² / q - 2 q ε / |F|` of all pairs of answers the secret to which the request commits is computed from two plays. What is missing: the code
checks neither that the hashed first message is the one used nor the number of responses, and without these checks the property is false
(`C37_violated`, `C37_responses_violated`). -/
theorem C99_requests_partial [Fintype S.F] (R : RandomOracle S) (ipk : IPK S) (w : S.G2) (n k : Nat) (hkey : Aries.Spec.IsKey ipk w n)
    (hn : n < 2 ^ 32 - 1) (hk : k ≤ n) (nonce : Bytes) (user : Strategy S.F Bytes) (q : Nat) :
    let g := blindRequests R ipk k nonce user
    let W := Finset.univ.filter fun ω : Fin q → S.F => ∃ request tab, g.Wins ω request tab
    Fintype.card S.F * W.card ^ 2 ≤
      q * Fintype.card S.F * (Finset.univ.filter fun ωs : (Fin q → S.F) × (Fin q → S.F) =>
        ∃ r, g.fork ωs.1 ωs.2 = some r ∧ Commits ipk k r.1.1 (blindOpening S nonce r)).card +
      2 * q ^ 2 * W.card * Fintype.card (Fin q → S.F) := by
  intro g W
  refine le_trans (Single.forks g q) (Nat.add_le_add_right (Nat.mul_le_mul_left _ (Finset.card_le_card ?_)) _)
  intro ωs h
  simp only [Finset.mem_filter, Finset.mem_univ, true_and] at h ⊢
  obtain ⟨r, h1, h2⟩ := h
  exact ⟨r, h1, forked_blind hkey hn hk h2⟩

/-! ## Pseudonym signatures -/

/-- A signature, for some message, by the owner of some pseudonym. -/
structure Spec.NymSigned (S : Suite) where
  nym : S.G1
  digest : Bytes
  sig : Bytes

/-- The parts of a signature. -/
def Spec.NymSigned.parse (x : NymSigned S) : Option (NymSignature × ProofG1 S) :=
  match Wire.nymSigCodec.unmarshal x.sig with
  | .ok s => match parseProofG1 S s.main with
    | .ok p => some (s, p)
    | _ => none
  | _ => none

/-- What is hashed first; `h0` and `h` are the bases of pseudonyms. -/
def Spec.NymSigned.first (h0 h : S.G1) (x : NymSigned S) : Bytes :=
  match x.parse with
  | some (_, p) => [110, 121, 109, 45, 115, 105, 103] ++ S.g1Bytes x.nym ++ S.g1Bytes h0 ++ S.g1Bytes h ++ S.g1Bytes p.commitment ++ x.digest
  | none => []

/-- What is hashed then; `c` is the first answer. -/
def Spec.NymSigned.second (x : NymSigned S) (c : S.F) : Bytes :=
  match x.parse with
  | some (s, _) => S.zrBytes c ++ s.nonce
  | none => S.zrBytes c

/-- Somebody who makes pseudonym signatures, and a verifier who also counts the responses. -/
def Spec.ariesNymSignatures (R : RandomOracle S) (ipk : IPK S) (k : Nat) (h : S.G1) (signer : Strategy S.F (NymSigned S)) : Game S.F (NymSigned S) where
  forger := signer
  first := NymSigned.first ipk.pkg.h0 h
  second := NymSigned.second
  accepts o x := nymVerify (R.lib o) (.val ipk) x.nym x.sig x.digest k = .ok () ∧ ∃ s p, x.parse = some (s, p) ∧ p.responses.length = 2

/-- What is computed from two plays. -/
def Spec.nymOpening (g : Game S.F (NymSigned S)) (r : (NymSigned S × Table S.F) × (NymSigned S × Table S.F)) : List S.F :=
  match r.1.1.parse, r.2.1.parse with
  | some (_, p₁), some (_, p₂) => Bbs.Spec.witness (g.answer r.1.1 r.1.2) (g.answer r.2.1 r.2.2) p₁.responses p₂.responses
  | _, _ => []

theorem parse_some {x : NymSigned S} {s : NymSignature} {p : ProofG1 S} (h : x.parse = some (s, p)) :
    Wire.nymSigCodec.unmarshal x.sig = .ok s ∧ parseProofG1 S s.main = .ok p := by
  rw [NymSigned.parse] at h
  split at h
  · next s' hs =>
    split at h
    · next p' hp => cases h; exact ⟨hs, hp⟩
    · cases h
  · cases h

theorem forked_ariesNym {R : RandomOracle S} {ipk : IPK S} {w : S.G2} {n k : Nat} (hkey : Aries.Spec.IsKey ipk w n) (hk : k ≤ n) {H : S.G1}
    (hH : ipk.pkg.h[k]? = some H) {signer : Strategy S.F (NymSigned S)} {r : (NymSigned S × Table S.F) × (NymSigned S × Table S.F)}
    (h : (ariesNymSignatures R ipk k H signer).Forked r) :
    ∃ rn sk, nymOpening (ariesNymSignatures R ipk k H signer) r = [rn, sk] ∧ r.1.1.nym = rn • ipk.pkg.h0 + sk • H ∧
      r.1.1.nym = r.2.1.nym ∧ r.1.1.digest = r.2.1.digest := by
  obtain ⟨⟨a₁, s₁, p₁, e₁, l₁⟩, ⟨a₂, s₂, p₂, e₂, l₂⟩, hQ, hA⟩ := h
  simp only [ariesNymSignatures] at a₁ a₂ hQ
  have q₁ := NymSigned.first.eq_1 ipk.pkg.h0 H r.1.1
  have q₂ := NymSigned.first.eq_1 ipk.pkg.h0 H r.2.1
  rw [e₁] at q₁
  rw [e₂] at q₂
  simp only at q₁ q₂
  have hq := hQ
  rw [q₁, q₂] at hq
  obtain ⟨hq, hd⟩ := List.append_inj hq (by simp)
  obtain ⟨hq, ht⟩ := List.append_inj hq (by simp)
  obtain ⟨hq, -⟩ := List.append_inj hq (by simp)
  obtain ⟨hq, -⟩ := List.append_inj hq (by simp)
  obtain ⟨-, hnym⟩ := List.append_inj hq (by simp)
  have c₁ : (ariesNymSignatures R ipk k H signer).answer r.1.1 r.1.2 =
      nymChallenge (R.lib (oracle r.1.2)) r.1.1.nym ipk.pkg.h0 H p₁.commitment r.1.1.digest s₁.nonce := by
    simp only [Game.answer, ariesNymSignatures, NymSigned.second, e₁, q₁, nymChallenge, withNonce, R.scalar, nymSigLabel]
  have c₂ : (ariesNymSignatures R ipk k H signer).answer r.2.1 r.2.2 =
      nymChallenge (R.lib (oracle r.2.2)) r.1.1.nym ipk.pkg.h0 H p₂.commitment r.2.1.digest s₂.nonce := by
    simp only [Game.answer, ariesNymSignatures, NymSigned.second, e₂, q₂, nymChallenge, withNonce, R.scalar, nymSigLabel, S.g1Bytes_inj hnym]
  rw [← S.g1Bytes_inj hnym] at a₂
  obtain ⟨f₁, f₁'⟩ := parse_some e₁
  obtain ⟨f₂, f₂'⟩ := parse_some e₂
  obtain ⟨rn, sk, h1, h2⟩ := C42_extraction_partial _ _ ipk w n k hkey hk r.1.1.nym _ _ _ _ s₁ s₂ p₁ p₂ H hH a₁ a₂ f₁ f₂ f₁' f₂' l₁ l₂
    (S.g1Bytes_inj ht) _ _ c₁ c₂ hA
  refine ⟨rn, sk, ?_, h2, S.g1Bytes_inj hnym, hd⟩
  simp only [nymOpening, e₁, e₂, h1]

open scoped Classical in
/-- **C99 (pseudonym signatures, partial).** Take anybody who makes aries pseudonym signatures, for pseudonyms and messages of their choice,
with at most `q` hash questions, counting those of the verifier. If the signature is accepted for the fraction `ε` of all answers that the hash
function may give, then for at least the fraction `ε² / q - 2 q ε / |F|` of all pairs of answers two plays end with signatures for the same
pseudonym and message, from which the secret and the randomness of the pseudonym are computed. What is missing: the code accepts more than two
responses, and then the property is false (`C42_violated`). -/
theorem C99_nym_signatures_partial [Fintype S.F] (R : RandomOracle S) (ipk : IPK S) (w : S.G2) (n k : Nat) (hkey : Aries.Spec.IsKey ipk w n)
    (hk : k ≤ n) (H : S.G1) (hH : ipk.pkg.h[k]? = some H) (signer : Strategy S.F (NymSigned S)) (q : Nat) :
    let g := ariesNymSignatures R ipk k H signer
    let W := Finset.univ.filter fun ω : Fin q → S.F => ∃ x tab, g.Wins ω x tab
    Fintype.card S.F * W.card ^ 2 ≤
      q * Fintype.card S.F * (Finset.univ.filter fun ωs : (Fin q → S.F) × (Fin q → S.F) =>
        ∃ r rn sk, g.fork ωs.1 ωs.2 = some r ∧ nymOpening g r = [rn, sk] ∧ r.1.1.nym = rn • ipk.pkg.h0 + sk • H ∧
          r.1.1.nym = r.2.1.nym ∧ r.1.1.digest = r.2.1.digest).card +
      2 * q ^ 2 * W.card * Fintype.card (Fin q → S.F) := by
  intro g W
  refine le_trans (forks g q (fun x => S.zrOfBytes (x.take S.scalarLen)) ?_)
    (Nat.add_le_add_right (Nat.mul_le_mul_left _ (Finset.card_le_card ?_)) _)
  · intro x c
    show S.zrOfBytes ((NymSigned.second x c).take _) = c
    rw [NymSigned.second]
    split
    · rw [List.take_left' (by simp), S.zrOfBytes_zrBytes]
    · rw [List.take_of_length_le (by simp), S.zrOfBytes_zrBytes]
  intro ωs h
  simp only [Finset.mem_filter, Finset.mem_univ, true_and] at h ⊢
  obtain ⟨r, h1, h2⟩ := h
  obtain ⟨rn, sk, h3⟩ := forked_ariesNym hkey hk hH h2
  exact ⟨r, rn, sk, h1, h3⟩

/-! ## Card signatures -/

/-- What a card shows: a signature, the pseudonym of its enrollment identifier, and the message. -/
structure Spec.CardSigned (S : Suite) where
  nymEid : S.G1
  msg : Bytes
  proof : Bytes

/-- The parts of a card signature. -/
def Spec.CardSigned.parts (x : CardSigned S) : Option (Aries.Spec.CardTranscript S) :=
  match S.g1OfBytes ((x.proof.drop 16).take S.g1Len), S.g1OfBytes ((x.proof.drop (16 + S.g1Len)).take S.g1Len) with
  | some B, some B' => some ⟨B, B', S.zrOfBytes ((x.proof.drop (16 + 2 * S.g1Len)).take S.scalarLen),
      S.zrOfBytes ((x.proof.drop (16 + 2 * S.g1Len + S.scalarLen)).take S.scalarLen)⟩
  | _, _ => none

/-- What is hashed. -/
def Spec.CardSigned.question (h0 h1 h2 : S.G1) (x : CardSigned S) : Bytes :=
  match x.parts with
  | some t => ([h0, h1, h2, t.B, t.B', x.nymEid].map fun P => (S.g1Bytes P).drop 1).flatten ++ x.msg
  | none => []

/-- Somebody who makes card signatures, and a verifier. SHA-256 is replaced with a function that returns the bytes of random scalars. -/
def Spec.cardSignatures (S : Suite) (h0 h1 h2 : S.G1) (card : Strategy S.F (CardSigned S)) : Single S.F (CardSigned S) where
  forger := card
  question := CardSigned.question h0 h1 h2
  accepts o x := nymVerifyCard S (fun y => S.zrBytes (o y)) h0 h1 h2 x.proof x.nymEid x.msg = .ok ()

/-- What is computed from two plays: the randomness and the secret. -/
def Spec.cardOpening (h0 h1 h2 : S.G1) (r : (CardSigned S × Table S.F) × (CardSigned S × Table S.F)) : S.F × S.F :=
  match r.1.1.parts, r.2.1.parts with
  | some t₁, some t₂ =>
    let d := oracle r.1.2 (r.1.1.question h0 h1 h2) - oracle r.2.2 (r.2.1.question h0 h1 h2)
    (d⁻¹ * (t₁.r - t₂.r), d⁻¹ * (t₁.x - t₂.x))
  | _, _ => (0, 0)

/-- The pseudonym in a card signature. -/
def Spec.CardSigned.nym (x : CardSigned S) : Option S.G1 := x.parts.map (·.B)

theorem parts_layout {x : CardSigned S} {t : Aries.Spec.CardTranscript S} (h : Aries.Spec.CardLayout x.proof t) : x.parts = some t := by
  obtain ⟨h1, h2, h3, h4⟩ := h
  rw [CardSigned.parts, h1, h2]
  simp only [← h3, ← h4]

theorem forked_card (hone : S.zrOfInt 1 = 1) (hinj : ∀ P Q : S.G1, (S.g1Bytes P).drop 1 = (S.g1Bytes Q).drop 1 → P = Q) {h0 h1 h2 : S.G1}
    {card : Strategy S.F (CardSigned S)} {r : (CardSigned S × Table S.F) × (CardSigned S × Table S.F)}
    (h : (cardSignatures S h0 h1 h2 card).Forked r) :
    r.1.1.nym = some ((cardOpening h0 h1 h2 r).1 • h0 + (cardOpening h0 h1 h2 r).2 • h1) ∧ r.1.1.nym = r.2.1.nym ∧
      r.1.1.nymEid = r.2.1.nymEid ∧ r.1.1.msg = r.2.1.msg := by
  obtain ⟨a₁, a₂, hQ, hA⟩ := h
  simp only [cardSignatures] at a₁ a₂ hQ hA
  obtain ⟨-, t₁, l₁, -⟩ := (C43_nym_verify_exact hone _ _ _ _ _ _ _).mp a₁
  obtain ⟨-, t₂, l₂, -⟩ := (C43_nym_verify_exact hone _ _ _ _ _ _ _).mp a₂
  have q₁ : r.1.1.question h0 h1 h2 =
      ([h0, h1, h2, t₁.B, t₁.B', r.1.1.nymEid].map fun P => (S.g1Bytes P).drop 1).flatten ++ r.1.1.msg := by
    rw [CardSigned.question, parts_layout l₁]
  have q₂ : r.2.1.question h0 h1 h2 =
      ([h0, h1, h2, t₂.B, t₂.B', r.2.1.nymEid].map fun P => (S.g1Bytes P).drop 1).flatten ++ r.2.1.msg := by
    rw [CardSigned.question, parts_layout l₂]
  have hq := hQ
  rw [q₁, q₂] at hq
  obtain ⟨hq, hmsg⟩ := List.append_inj hq (by simp)
  simp only [List.map_cons, List.map_nil, List.flatten_cons, List.flatten_nil, List.append_nil, List.append_cancel_left_eq] at hq
  obtain ⟨hB, hq⟩ := List.append_inj hq (by simp)
  obtain ⟨hB', hE⟩ := List.append_inj hq (by simp)
  have c₁ : Aries.Spec.cardChallenge (fun y => S.zrBytes (oracle r.1.2 y)) h0 h1 h2 r.1.1.nymEid t₁ r.1.1.msg =
      oracle r.1.2 (r.1.1.question h0 h1 h2) := by rw [Aries.Spec.cardChallenge, S.zrOfBytes_zrBytes, q₁]
  have c₂ : Aries.Spec.cardChallenge (fun y => S.zrBytes (oracle r.2.2 y)) h0 h1 h2 r.2.1.nymEid t₂ r.2.1.msg =
      oracle r.2.2 (r.2.1.question h0 h1 h2) := by rw [Aries.Spec.cardChallenge, S.zrOfBytes_zrBytes, q₂]
  have key := C43_extraction hone _ _ h0 h1 h2 _ _ _ _ _ _ t₁ t₂ a₁ a₂ l₁ l₂ (hinj _ _ hB) (hinj _ _ hB') (by rw [c₁, c₂]; exact hA)
  simp only [c₁, c₂] at key
  refine ⟨?_, ?_, hinj _ _ hE, hmsg⟩
  · simp only [CardSigned.nym, cardOpening, parts_layout l₁, parts_layout l₂, Option.map_some, ← key]
  · simp only [CardSigned.nym, parts_layout l₁, parts_layout l₂, Option.map_some, hinj _ _ hB]

open scoped Classical in
/-- **C99 (card signatures).** Take anybody who makes signatures like those of smartcards, with at most `q` hash questions, counting that of
the verifier. If the signature is accepted for the fraction `ε` of all answers that the hash function may give, then for at least the fraction
`ε² / q - 2 q ε / |F|` of all pairs of answers two plays end with signatures for the same pseudonyms and message, from which the secret and the
randomness of the pseudonym are computed. The first byte of points is not hashed: no two points may differ in it only. -/
theorem C99_card_signatures [Fintype S.F] (hone : S.zrOfInt 1 = 1)
    (hinj : ∀ P Q : S.G1, (S.g1Bytes P).drop 1 = (S.g1Bytes Q).drop 1 → P = Q) (h0 h1 h2 : S.G1) (card : Strategy S.F (CardSigned S)) (q : Nat) :
    let g := cardSignatures S h0 h1 h2 card
    let W := Finset.univ.filter fun ω : Fin q → S.F => ∃ x tab, g.Wins ω x tab
    Fintype.card S.F * W.card ^ 2 ≤
      q * Fintype.card S.F * (Finset.univ.filter fun ωs : (Fin q → S.F) × (Fin q → S.F) =>
        ∃ r, g.fork ωs.1 ωs.2 = some r ∧
          r.1.1.nym = some ((cardOpening h0 h1 h2 r).1 • h0 + (cardOpening h0 h1 h2 r).2 • h1) ∧ r.1.1.nym = r.2.1.nym ∧
          r.1.1.nymEid = r.2.1.nymEid ∧ r.1.1.msg = r.2.1.msg).card +
      2 * q ^ 2 * W.card * Fintype.card (Fin q → S.F) := by
  intro g W
  refine le_trans (Single.forks g q) (Nat.add_le_add_right (Nat.mul_le_mul_left _ (Finset.card_le_card ?_)) _)
  intro ωs h
  simp only [Finset.mem_filter, Finset.mem_univ, true_and] at h ⊢
  obtain ⟨r, h1, h2⟩ := h
  exact ⟨r, h1, forked_card hone hinj h2⟩

/-! ## Examples -/

namespace AriesEx

open Idemix.Bbs.Ex Idemix.Aries.Ex BbsEx

/-- The user with the secret 4 asks for a credential; `c` is the challenge. -/
def request (c : Toy.K) : Bytes :=
  match blind (random.lib fun _ => c) (4 : Toy.K) (.val isk.pk) [1] 1 (2 : Toy.K) (fun i => ((i + 1 : Nat) : Toy.K)) with
  | .ok r => r.1
  | _ => []

def user : Strategy Toy.K Bytes := .ask (blindQuestion S32 [1] (request 1)) fun c => .done (request c)

set_option maxRecDepth 40000 in
/-- The request is accepted for every answer. -/
example : ∀ c : Toy.K, (blindRequests random isk.pk 1 [1] user).Wins (q := 1) (fun _ => c) (request c)
    [(blindQuestion S32 [1] (request 1), c)] := by
  intro c
  obtain ⟨b, h⟩ : ∃ b, parseBlindedMessages S32 (request c) = .ok b ∧ b.proof.commitment = b.pokC ∧ b.proof.responses.length = 2 := by
    have : ∀ c : Toy.K, (match parseBlindedMessages S32 (request c) with
      | .ok b => decide (b.proof.commitment = b.pokC ∧ b.proof.responses.length = 2) | _ => false) = true := by decide +kernel
    specialize this c
    split at this
    · next b h => exact ⟨b, h, by simpa using this⟩
    · cases this
  refine ⟨?_, ?_, b, h⟩
  · clear h; revert c; decide +kernel
  · clear h; revert c; decide +kernel

/-- Two plays give away the secret, and the blinding. -/
example : ((blindRequests random isk.pk 1 [1] user).fork (q := 1) (fun _ => (3 : Toy.K)) (fun _ => (4 : Toy.K))).map
    (fun r => blindOpening S32 [1] r) = some [(2 : Toy.K), (4 : Toy.K)] := by decide +kernel

/-- The base of the secret. -/
def base : Toy.K := isk.pk.pkg.h.getD 1 (0 : Toy.K)

set_option maxRecDepth 40000 in
example : isk.pk.pkg.h[1]? = some base := by decide

/-- The pseudonym with the randomness 5 of the user. -/
def nym : Toy.K := (5 : Toy.K) * isk.pk.pkg.h0 + (4 : Toy.K) * base

/-- The signature of the user for `[9]`; `c` is the challenge. -/
def signed (c : Toy.K) : NymSigned S32 where
  nym := nym
  digest := [9]
  sig := match nymSign (random.lib fun _ => c) (4 : Toy.K) nym (5 : Toy.K) (.val isk.pk) [9] 1 (2 : Toy.K) (fun i => ((i + 3 : Nat) : Toy.K)) with
    | .ok x => x
    | _ => []

def signer : Strategy Toy.K (NymSigned S32) :=
  .ask ((signed 1).first isk.pk.pkg.h0 base) fun c => .ask ((signed 1).second c) fun c' => .done (signed c')

def nymGame : Game Toy.K (NymSigned S32) := ariesNymSignatures random isk.pk 1 base signer

set_option maxRecDepth 40000 in
set_option synthInstance.maxSize 2000 in
/-- The signature is accepted for every two answers. -/
example : ∀ c c' : Toy.K, nymGame.Wins (q := 2) ![c, c'] (signed c')
    [((signed 1).first isk.pk.pkg.h0 base, c), ((signed 1).second c, c')] := by
  intro c c'
  have h1 : ∀ c c' : Toy.K, (nymGame.play (q := 2) ![c, c']).map (β := Toy.K × Bytes × Bytes × List (Bytes × Toy.K))
      (fun r => (r.1.nym, r.1.digest, r.1.sig, r.2)) =
      some ((signed c').nym, (signed c').digest, (signed c').sig, [((signed 1).first isk.pk.pkg.h0 base, c), ((signed 1).second c, c')]) := by
    decide +kernel
  have h2 : ∀ c' : Toy.K, (match (signed c').parse with | some x => decide (x.2.responses.length = 2) | none => false) = true := by
    decide +kernel
  refine ⟨?_, ?_, ?_⟩
  · have h := h1 c c'
    rw [Option.map_eq_some_iff] at h
    obtain ⟨⟨⟨a, b, d⟩, tab⟩, h, e⟩ := h
    simp only [Prod.mk.injEq] at e
    obtain ⟨rfl, rfl, rfl, rfl⟩ := e
    exact h
  · clear h1 h2; revert c c'; decide +kernel
  · have h := h2 c'
    cases hp : (signed c').parse with
    | none => rw [hp] at h; cases h
    | some x => rw [hp] at h; exact ⟨x.1, x.2, rfl, by simpa using h⟩

/-- Two plays give away the randomness and the secret. -/
example : (nymGame.fork (q := 2) ![(3 : Toy.K), (2 : Toy.K)] ![(4 : Toy.K), (6 : Toy.K)]).map (nymOpening nymGame) =
    some [(5 : Toy.K), (4 : Toy.K)] := by decide +kernel

/-- A card with the secret 4. -/
def card : Card S32 :=
  ⟨isk.pk.pkg.h0, base, isk.pk.pkg.h.getD 2 (0 : Toy.K), (4 : Toy.K), (5 : Toy.K), fun b => b.map (· + 3), fun b => b.map (· + 5), 0⟩

/-- What it shows; `c` is the challenge. -/
def shown (c : Toy.K) : CardSigned S32 :=
  ⟨card.getNymEid.2, [9], card.nymSign (fun _ => S32.zrBytes c) [9] seed4 (2 : Toy.K) (6 : Toy.K)⟩

def cardPlayer : Strategy Toy.K (CardSigned S32) := .ask ((shown 1).question card.h0 card.h1 card.h2) fun c => .done (shown c)

def cardGame : Single Toy.K (CardSigned S32) := cardSignatures S32 card.h0 card.h1 card.h2 cardPlayer

set_option maxRecDepth 40000 in
example : (∀ P Q : Toy.K, (S32.g1Bytes P).drop 1 = (S32.g1Bytes Q).drop 1 → P = Q) ∧ S32.zrOfInt 1 = (1 : Toy.K) := by decide

set_option maxRecDepth 40000 in
set_option synthInstance.maxSize 2000 in
/-- It is accepted for every answer. -/
example : ∀ c : Toy.K, cardGame.Wins (q := 1) (fun _ => c) (shown c) [((shown 1).question card.h0 card.h1 card.h2, c)] := by
  intro c
  have h1 : ∀ c : Toy.K, (cardGame.play (q := 1) fun _ => c).map (β := Toy.K × Bytes × Bytes × List (Bytes × Toy.K))
      (fun r => (r.1.nymEid, r.1.msg, r.1.proof, r.2)) =
      some ((shown c).nymEid, (shown c).msg, (shown c).proof, [((shown 1).question card.h0 card.h1 card.h2, c)]) := by decide +kernel
  refine ⟨?_, ?_⟩
  · have h := h1 c
    rw [Option.map_eq_some_iff] at h
    obtain ⟨⟨⟨a, b, d⟩, tab⟩, h, e⟩ := h
    simp only [Prod.mk.injEq] at e
    obtain ⟨rfl, rfl, rfl, rfl⟩ := e
    exact h
  · show _ = _
    clear h1; revert c; decide +kernel

/-- Two plays give away the secret. -/
example : ((cardGame.fork (q := 1) (fun _ => (3 : Toy.K)) (fun _ => (4 : Toy.K))).map fun r =>
    (cardOpening card.h0 card.h1 card.h2 r).2) = some (4 : Toy.K) := by decide +kernel

end AriesEx

end Idemix.Fork
