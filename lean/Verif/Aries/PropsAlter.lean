import Verif.Dlog.PropsAlter
import Verif.Aries.PropsExtra
import Verif.Aries.PropsBinding

/-!
# Altered signatures of the aries scheme and of smart cards (C103)

See `Verif/Dlog/PropsAlter.lean`.
-/

namespace Idemix.Aries

open Bbs Bbs.Ex Proto Proto.Spec
open Dlog.Spec (Relation)

variable {S : Suite} (L : Lib S)

/-- **C103 is violated (aries, bytes).** Whoever sees an accepted signature or pseudonym signature can prepend a field
that nobody declared: these other bytes are accepted too. -/
theorem C103_aries_bytes_violated (key : Dyn (IPK S)) :
    (∀ b msg attributes rhIndex eidIndex skIndex v md,
      verify L key b msg attributes rhIndex eidIndex skIndex v md = .ok () →
      [88, 7] ++ b ≠ b ∧ verify L key ([88, 7] ++ b) msg attributes rhIndex eidIndex skIndex v md = .ok ()) ∧
    (∀ b nym digest skIndex, nymVerify L key nym b digest skIndex = .ok () →
      [88, 7] ++ b ≠ b ∧ nymVerify L key nym ([88, 7] ++ b) digest skIndex = .ok ()) := by
  have hne : ∀ b : Bytes, [88, 7] ++ b ≠ b := fun b h => by have := congrArg List.length h; simp at this; omega
  obtain ⟨-, -, -, hv, -, hn⟩ := C95_aries_partial L key
  refine ⟨fun b msg attributes rhIndex eidIndex skIndex v md h => ⟨hne b, ?_⟩, fun b nym digest skIndex h => ⟨hne b, ?_⟩⟩
  · rw [hv b ([88, 7] ++ b) _ _ _ _ _ _ _ (.insert (b₁ := []) b .nil (Ex.extra (by decl)))]
    exact h
  · rw [hn b ([88, 7] ++ b) _ _ _ (.insert (b₁ := []) b .nil (Ex.extra (by decl)))]
    exact h

/-- **C103 (aries pseudonym signatures, partial).** Two pseudonym signatures with two responses each that are accepted for
one pseudonym, key and message, and are answers to the same challenge `c`, have the same commitment, responses and
nonce, or their transcripts or final hash inputs collide, or the differences of their responses are a relation between the
generators of the randomness and of the secret. What is missing: the bytes (`C103_aries_bytes_violated`) and the number of
responses, which the code does not check (`C42_violated`). -/
theorem C103_aries_nym_signature_partial (ipk : IPK S) (w : S.G2) (n k : Nat) (hkey : Spec.IsKey ipk w n) (hk : k ≤ n)
    (nym : S.G1) (hnym : nym ≠ 0) (raw₁ raw₂ msg : Bytes) (sig₁ sig₂ : NymSignature) (p₁ p₂ : ProofG1 S) (g h : S.G1)
    (hg : g = Bbs.Spec.generator w (n + 1) 0) (hh : (Bbs.Spec.generators w (n + 1))[k]? = some h)
    (acc₁ : nymVerify L (.val ipk) nym raw₁ msg k = .ok ()) (acc₂ : nymVerify L (.val ipk) nym raw₂ msg k = .ok ())
    (hs₁ : Wire.nymSigCodec.unmarshal raw₁ = .ok sig₁) (hs₂ : Wire.nymSigCodec.unmarshal raw₂ = .ok sig₂)
    (hp₁ : parseProofG1 S sig₁.main = .ok p₁) (hp₂ : parseProofG1 S sig₂.main = .ok p₂)
    (l₁ : p₁.responses.length = 2) (l₂ : p₂.responses.length = 2)
    (c : S.F) (hc₁ : S.lin p₁.responses [g, h] + c • nym = p₁.commitment)
    (hc₂ : S.lin p₂.responses [g, h] + c • nym = p₂.commitment)
    (q₁ q₂ : Bytes) (hq₁ : q₁ = Spec.nymTranscript nym g h p₁.commitment msg)
    (hq₂ : q₂ = Spec.nymTranscript nym g h p₂.commitment msg) :
    (p₁.commitment = p₂.commitment ∧ p₁.responses = p₂.responses ∧ sig₁.nonce = sig₂.nonce) ∨
      Relation S (List.zipWith (· - ·) p₁.responses p₂.responses) [g, h] ∨ Spec.OkmCollision L q₁ q₂ ∨
      Spec.OkmCollision L (Spec.second L q₁ sig₁.nonce) (Spec.second L q₂ sig₂.nonce) := by
  rw [isKey_iff] at hkey
  subst hkey
  have hk' : k < (pkg w (n + 1)).h.length := by simp; omega
  have hh' : (pkg w (n + 1)).h[k] = h := by
    have : (pkg w (n + 1)).h[k]? = some h := hh
    simpa [List.getElem?_eq_getElem hk'] using this
  have hg' : (pkg w (n + 1)).h0 = g := hg.symm
  have answers : ∀ raw (sig : NymSignature) (p : ProofG1 S), nymVerify L (.val (ipkFor w n)) nym raw msg k = .ok () →
      Wire.nymSigCodec.unmarshal raw = .ok sig → parseProofG1 S sig.main = .ok p → p.responses.length = 2 →
      S.lin p.responses [g, h] + c • nym = p.commitment →
      c = frFromOKM L (Spec.second L (Spec.nymTranscript nym g h p.commitment msg) sig.nonce) := by
    intro raw sig p acc hs hp l hc
    rw [nymVerify_ok_iff L w n k hk] at acc
    obtain ⟨s, p', a1, a2, -, acc⟩ := acc
    rw [hs] at a1; cases a1
    rw [hp] at a2; cases a2
    rw [ProofG1.verify_exact _ _ _ _ (by simpa using l), hh', hg'] at acc
    exact S.smul_left_inj hnym (add_left_cancel (hc.trans acc.symm))
  have a₁ := answers _ _ _ acc₁ hs₁ hp₁ l₁ hc₁
  have a₂ := answers _ _ _ acc₂ hs₂ hp₂ l₂ hc₂
  rw [← hq₁] at a₁
  rw [← hq₂] at a₂
  by_cases hs : Spec.second L q₁ sig₁.nonce = Spec.second L q₂ sig₂.nonce
  swap
  · exact .inr (.inr (.inr ⟨hs, by rw [← a₁, ← a₂]⟩))
  obtain ⟨e1, e2⟩ := List.append_inj hs (by simp)
  by_cases hq : q₁ = q₂
  swap
  · exact .inr (.inr (.inl ⟨hq, S.zrBytes_inj e1⟩))
  rw [hq₁, hq₂] at hq
  have ht : p₁.commitment = p₂.commitment :=
    S.g1Bytes_inj (List.append_cancel_left (List.append_cancel_right hq))
  rw [ht] at hc₁
  have e := add_right_cancel (hc₁.trans hc₂.symm)
  by_cases hr : p₁.responses = p₂.responses
  · exact .inl ⟨ht, hr, e2⟩
  · have hl : p₁.responses.length = p₂.responses.length := by rw [l₁, l₂]
    refine .inr (.inl ⟨by simp [l₁, l₂], Dlog.exists_sub_ne hl hr, ?_⟩)
    rw [S.lin_sub hl, e, sub_self]

variable {L} in
theorem encodes_unique {as : List IdemixAttribute} {vs vs' : List S.F} (h : List.Forall₂ (Spec.Encodes L) as vs)
    (h' : List.Forall₂ (Spec.Encodes L) as vs') : vs = vs' := by
  induction h generalizing vs' with
  | nil => cases h'; rfl
  | cons hd _ ih =>
    cases h' with
    | cons hd' tl' =>
      have := ((attrFr_some_iff L).mpr hd).symm.trans ((attrFr_some_iff L).mpr hd')
      rw [ih tl', Option.some.inj (Res.ok.inj this)]

/-- **C103 (aries signatures, partial).** Two standard signatures that are accepted for one key, message and list of
attributes, reveal the same positions, have as many responses as there are secrets, and are answers to the
same challenge `c`, have the same content: points, responses, pseudonym with its proof, and nonce. Otherwise their
transcripts or final hash inputs collide, or the differences of their responses are a relation: between `A'` and the first
generator, between the generators of the pseudonym, or between `D`, the first generator and those of the hidden attributes.
What is missing: the bytes (`C103_aries_bytes_violated`), the number of responses, which the code does not check
(`C40_violated`). Signatures with commitments are in `C103_aries_commitments_partial`. -/
theorem C103_aries_signature_partial (ipk : IPK S) (w : S.G2) (n k : Nat) (hkey : Spec.IsKey ipk w n)
    (raw₁ raw₂ msg : Bytes) (attributes : List IdemixAttribute) (rh₁ rh₂ eid₁ eid₂ : Int)
    (md₁ md₂ : Option (Dlog.SignerMetadata S))
    (acc₁ : verify L (.val ipk) raw₁ msg attributes rh₁ eid₁ k .expectStandard md₁ = .ok ())
    (acc₂ : verify L (.val ipk) raw₂ msg attributes rh₂ eid₂ k .expectStandard md₂ = .ok ())
    (sig₁ sig₂ : Signature) (main₁ main₂ : SigProof S) (rs : List Nat) (nym₁ nym₂ : S.G1)
    (tn₁ te₁ tr₁ tn₂ te₂ tr₂ : Option S.G1)
    (parts₁ : Spec.Parts .expectStandard raw₁ sig₁ main₁ rs nym₁ tn₁ te₁ tr₁)
    (parts₂ : Spec.Parts .expectStandard raw₂ sig₂ main₂ rs nym₂ tn₂ te₂ tr₂)
    (p₁ p₂ : ProofG1 S) (hp₁ : parseProofG1 S sig₁.nymProof = .ok p₁) (hp₂ : parseProofG1 S sig₂.nymProof = .ok p₂)
    (g H : S.G1) (hg : g = Bbs.Spec.generator w (n + 1) 0) (hH : (Bbs.Spec.generators w (n + 1))[k]? = some H)
    (hidden : List S.G1) (hhid : hidden = Bbs.Spec.unshown rs (Bbs.Spec.generators w (n + 1)))
    (l₁ : main₁.vc1.responses.length = 2 ∧ p₁.responses.length = 2 ∧ main₁.vc2.responses.length = 2 + hidden.length)
    (l₂ : main₂.vc1.responses.length = 2 ∧ p₂.responses.length = 2 ∧ main₂.vc2.responses.length = 2 + hidden.length)
    (ne₁ : main₁.aBar ≠ main₁.d) (ne₂ : main₂.aBar ≠ main₂.d) (c : S.F)
    (hc₁ : S.lin main₁.vc1.responses [main₁.aPrime, g] + c • (main₁.aBar - main₁.d) = main₁.vc1.commitment)
    (hc₂ : S.lin main₂.vc1.responses [main₂.aPrime, g] + c • (main₂.aBar - main₂.d) = main₂.vc1.commitment)
    (q₁ q₂ : Bytes) (hq₁ : q₁ = Spec.transcript L .expectStandard w n sig₁ main₁ rs tn₁ te₁ tr₁ msg)
    (hq₂ : q₂ = Spec.transcript L .expectStandard w n sig₂ main₂ rs tn₂ te₂ tr₂ msg) :
    (main₁ = main₂ ∧ sig₁.nym = sig₂.nym ∧ p₁ = p₂ ∧ sig₁.nonce = sig₂.nonce) ∨
      Relation S (List.zipWith (· - ·) main₁.vc1.responses main₂.vc1.responses) [main₁.aPrime, g] ∨
      Relation S (List.zipWith (· - ·) p₁.responses p₂.responses) [g, H] ∨
      Relation S (List.zipWith (· - ·) main₁.vc2.responses main₂.vc2.responses) (main₁.d :: g :: hidden) ∨
      Spec.OkmCollision L q₁ q₂ ∨
      Spec.OkmCollision L (Spec.second L q₁ sig₁.nonce) (Spec.second L q₂ sig₂.nonce) := by
  rw [isKey_iff] at hkey
  subst hkey
  have hv : ¬ Spec.CardVer .expectStandard := by simp [Spec.CardVer]
  obtain ⟨_, _, _, _, _, _, _, vs, c₁, hp, e₁, a₁, a1, a2, a3⟩ := accepted acc₁
  obtain ⟨rfl, rfl, rfl, rfl, rfl, rfl, rfl⟩ := parts_unique hp parts₁
  obtain ⟨_, _, _, _, _, _, _, vs₂, c₂, hp', e₂, a₂, b1, b2, b3⟩ := accepted acc₂
  obtain ⟨rfl, rfl, rfl, rfl, rfl, rfl, rfl⟩ := parts_unique hp' parts₂
  obtain rfl := encodes_unique e₁ e₂
  obtain ⟨_, _, r1, r2, a2⟩ := a2 hv
  rw [hp₁] at r1; cases r1
  rw [hH] at r2; cases r2
  obtain ⟨_, _, r1, r2, b2⟩ := b2 hv
  rw [hp₂] at r1; cases r1
  rw [hH] at r2; cases r2
  have answers : ∀ {x y P : S.G1} {c' : S.F}, P ≠ 0 → x + c • P = y → x + c' • P = y → c = c' := fun hP h h' =>
    S.smul_left_inj hP (add_left_cancel (h.trans h'.symm))
  rw [← hg] at a1 a2 a3 b1 b2 b3
  simp only [if_neg hv, Spec.claimed, ← hhid] at a3 b3
  obtain rfl := answers (sub_ne_zero.mpr ne₁) hc₁ (a1 l₁.1)
  obtain rfl := answers (sub_ne_zero.mpr ne₂) hc₂ (b1 l₂.1)
  rw [← hq₁] at a₁
  rw [← hq₂] at a₂
  by_cases hs : Spec.second L q₁ sig₁.nonce = Spec.second L q₂ sig₂.nonce
  swap
  · exact .inr (.inr (.inr (.inr (.inr ⟨hs, by rw [← a₁, ← a₂]⟩))))
  obtain ⟨s1, s2⟩ := List.append_inj hs (by simp)
  by_cases hq : q₁ = q₂
  swap
  · exact .inr (.inr (.inr (.inr (.inl ⟨hq, S.zrBytes_inj s1⟩))))
  have first : ∀ {pr : Bytes} {p : ProofG1 S} {t : Option S.G1}, parseProofG1 S pr = .ok p →
      Spec.First S (¬ Spec.CardVer .expectStandard) pr t → t = some p.commitment := by
    rintro pr p t h (⟨_, q, h1, h2⟩ | ⟨h1, _⟩)
    · rw [h] at h1; cases h1; exact h2
    · exact absurd hv h1
  have none : ∀ {u : Prop} {pr : Bytes} {t : Option S.G1}, ¬u → Spec.First S u pr t → t = Option.none := by
    rintro u pr t h (⟨h1, _⟩ | ⟨_, h1⟩)
    · exact absurd h1 h
    · exact h1
  have noEid : ∀ sig, ¬ Spec.UsesEid sig .expectStandard := by intro sig; simp [Spec.UsesEid]
  have noRh : ∀ sig, ¬ Spec.UsesRh sig .expectStandard := by intro sig; simp [Spec.UsesRh]
  obtain rfl := first hp₁ parts₁.tn
  obtain rfl := first hp₂ parts₂.tn
  obtain rfl := none (noEid _) parts₁.te
  obtain rfl := none (noEid _) parts₂.te
  obtain rfl := none (noRh _) parts₁.tr
  obtain rfl := none (noRh _) parts₂.tr
  rw [hq₁, hq₂] at hq
  simp only [Spec.transcript, if_neg hv, List.append_nil, List.nil_append, List.append_assoc] at hq
  have hq := List.append_cancel_left hq
  obtain ⟨u1, hq⟩ := List.append_inj hq (by simp)
  obtain ⟨u2, hq⟩ := List.append_inj hq (by simp)
  have hq := List.append_cancel_left hq
  obtain ⟨u3, hq⟩ := List.append_inj hq (by simp)
  obtain ⟨u4, hq⟩ := List.append_inj hq (by simp)
  have hq := List.append_cancel_left (List.append_cancel_left hq)
  obtain ⟨u5, hq⟩ := List.append_inj hq (by simp)
  rw [← List.append_assoc, ← List.append_assoc] at hq
  obtain ⟨u6, u7⟩ := List.append_inj' (List.append_cancel_right hq) (by simp)
  replace u1 := S.g1Bytes_inj u1
  replace u2 := S.g1Bytes_inj u2
  replace u3 := S.g1Bytes_inj u3
  replace u4 := S.g1Bytes_inj u4
  replace u5 := S.g1Bytes_inj u5
  replace u7 := S.g1Bytes_inj u7
  have un : nym₁ = nym₂ := by
    have := parts₁.nym
    rw [u6, parts₂.nym] at this
    exact (Option.some.inj this).symm
  have rel : ∀ {as bs : List S.F} {Ps : List S.G1} {R Q : S.G1}, as.length = Ps.length → bs.length = Ps.length →
      S.lin as Ps + R = Q → S.lin bs Ps + R = Q → as ≠ bs → Relation S (List.zipWith (· - ·) as bs) Ps := by
    intro as bs Ps R Q la lb ha hb hne
    have hl : as.length = bs.length := by rw [la, lb]
    refine ⟨by simp [la, lb], Dlog.exists_sub_ne hl hne, ?_⟩
    rw [S.lin_sub hl, add_right_cancel (ha.trans hb.symm), sub_self]
  by_cases h1 : main₁.vc1.responses = main₂.vc1.responses
  swap
  · refine .inr (.inl (rel l₁.1 l₂.1 hc₁ ?_ h1))
    rw [u1, u2, u3, u4]; exact hc₂
  by_cases h2 : p₁.responses = p₂.responses
  swap
  · refine .inr (.inr (.inl (rel l₁.2.1 l₂.2.1 (a2 l₁.2.1) ?_ h2)))
    rw [un, u7]; exact b2 l₂.2.1
  by_cases h3 : main₁.vc2.responses = main₂.vc2.responses
  swap
  · refine .inr (.inr (.inr (.inl (rel (by simp [l₁.2.2]; omega) (by simp [l₂.2.2]; omega) (a3 l₁.2.2) ?_ h3))))
    rw [u4, u5]; exact b3 l₂.2.2
  left
  obtain ⟨_, _, _, ⟨_, _⟩, ⟨_, _⟩⟩ := main₁
  obtain ⟨_, _, _, ⟨_, _⟩, ⟨_, _⟩⟩ := main₂
  obtain ⟨_, _⟩ := p₁
  obtain ⟨_, _⟩ := p₂
  simp only at u1 u2 u3 u4 u5 u7 h1 h2 h3
  subst u1 u2 u3 u4 u5 u7 h1 h2 h3
  exact ⟨rfl, u6, rfl, s2⟩

/-- **C103 is violated (smart cards).** The first sixteen bytes of a card signature are read by nobody, and neither is
what follows the responses: with any others the signature is accepted too. -/
theorem C103_card_violated (hone : S.zrOfInt 1 = 1) (sha : Bytes → Bytes) (h0 h1 h2 tau : S.G1)
    (proof msg seed' extra : Bytes) (hs : seed'.length = 16)
    (acc : nymVerifyCard S sha h0 h1 h2 proof tau msg = .ok ()) :
    nymVerifyCard S sha h0 h1 h2 (seed' ++ proof.drop 16 ++ extra) tau msg = .ok () := by
  rw [C43_nym_verify_exact hone] at acc ⊢
  obtain ⟨hl, t, ⟨a1, a2, a3, a4⟩, e⟩ := acc
  have key : ∀ i j, 16 + i + j ≤ proof.length →
      ((seed' ++ proof.drop 16 ++ extra).drop (16 + i)).take j = (proof.drop (16 + i)).take j := by
    intro i j hij
    rw [List.append_assoc, ← List.drop_drop, List.drop_left' hs, List.drop_append_of_le_length (by simp; omega),
      List.take_append_of_le_length (by simp; omega), List.drop_drop]
  refine ⟨by simp; omega, t, ⟨?_, ?_, ?_, ?_⟩, e⟩
  · rw [key 0 _ (by omega)]; exact a1
  · rw [key _ _ (by omega)]; exact a2
  · rw [key _ _ (by omega)]; exact a3
  · rw [Nat.add_assoc, key _ _ (by omega), ← Nat.add_assoc]; exact a4

/-- **C103 (smart cards, partial).** Two card signatures that are accepted for one pseudonym and message, and have the
same points, have the same responses, or the differences are a relation between the two bases of the card. What is
missing: the bytes that nobody reads (`C103_card_violated`). -/
theorem C103_card_partial (hone : S.zrOfInt 1 = 1) (sha : Bytes → Bytes) (h0 h1 h2 tau : S.G1) (proof₁ proof₂ msg : Bytes)
    (t₁ t₂ : Spec.CardTranscript S) (a₁ : nymVerifyCard S sha h0 h1 h2 proof₁ tau msg = .ok ())
    (a₂ : nymVerifyCard S sha h0 h1 h2 proof₂ tau msg = .ok ())
    (l₁ : Spec.CardLayout proof₁ t₁) (l₂ : Spec.CardLayout proof₂ t₂) (hB : t₁.B = t₂.B) (hB' : t₁.B' = t₂.B') :
    t₁ = t₂ ∨ Relation S [t₁.r - t₂.r, t₁.x - t₂.x] [h0, h1] := by
  have uniq : ∀ {p : Bytes} {s t : Spec.CardTranscript S}, Spec.CardLayout p s → Spec.CardLayout p t → s = t := by
    rintro p ⟨b, b', x, r⟩ ⟨c, c', y, q⟩ ⟨e1, e2, e3, e4⟩ ⟨f1, f2, f3, f4⟩
    simp only at *
    rw [e1] at f1; cases f1
    rw [e2] at f2; cases f2
    rw [← e3] at f3; cases f3
    rw [← e4] at f4; cases f4
    rfl
  obtain ⟨_, s₁, m₁, q₁⟩ := (C43_nym_verify_exact hone sha h0 h1 h2 tau proof₁ msg).mp a₁
  obtain ⟨_, s₂, m₂, q₂⟩ := (C43_nym_verify_exact hone sha h0 h1 h2 tau proof₂ msg).mp a₂
  rw [uniq m₁ l₁] at q₁
  rw [uniq m₂ l₂] at q₂
  by_cases h : t₁.r = t₂.r ∧ t₁.x = t₂.x
  · left
    cases t₁; cases t₂
    simp_all
  · right
    refine Dlog.relation_two (R := 0) ?_ h
    rw [q₁, q₂, hB', hB]
    simp only [Spec.cardChallenge, hB, hB']

/-! ## Examples -/

set_option maxRecDepth 40000 in
/-- An accepted pseudonym signature, also with a field that nobody declared in front; it has two responses. -/
example : Spec.IsKey Ex.isk.pk (publicKey (S := S32) (3 : Toy.K)) 2 ∧
    ∃ nym raw s s' p, makeNym (4 : Toy.K) (.val Ex.isk.pk) 1 (5 : Toy.K) = .ok nym ∧
    nymSign L32 (4 : Toy.K) nym.1 nym.2 (.val Ex.isk.pk) [9] 1 (2 : Toy.K) (fun i => ((i : Nat) : Toy.K)) = .ok raw ∧
    nymVerify L32 (.val Ex.isk.pk) nym.1 raw [9] 1 = .ok () ∧
    nymVerify L32 (.val Ex.isk.pk) nym.1 ([88, 7] ++ raw) [9] 1 = .ok () ∧
    Wire.nymSigCodec.unmarshal raw = .ok s ∧ Wire.nymSigCodec.unmarshal ([88, 7] ++ raw) = .ok s' ∧ s'.nonce = s.nonce ∧
    parseProofG1 S32 s.main = .ok p ∧ parseProofG1 S32 s'.main = .ok p ∧ p.responses.length = 2 ∧ nym.1 ≠ 0 ∧
    ∃ (h : S32.G1) (c : S32.F), (Bbs.Spec.generators (publicKey (S := S32) (3 : Toy.K)) 3)[1]? = some h ∧
      S32.lin p.responses [Bbs.Spec.generator (publicKey (S := S32) (3 : Toy.K)) 3 0, h] + c • nym.1 = p.commitment :=
  ⟨(isKey_iff _ _ _).mpr rfl, _, _, _, _, _, rfl, rfl, by decide, by decide, rfl, rfl, rfl, rfl, rfl, rfl, by decide, _,
    (3 : Toy.K), rfl, by decide⟩

namespace Ex

/-- A standard signature that discloses the first attribute. -/
def plain : Bytes :=
  match sign L32 cred2 (4 : Toy.K) (4 : Toy.K) (5 : Toy.K) (.val ipk2) shown2 [9] 0 1 cri2 .standard none rand2 with
  | .ok (raw, _) => raw
  | _ => []

/-- The decoded signature. -/
def plainSig : Signature :=
  match Wire.sigCodec.unmarshal plain with
  | .ok s => s
  | _ => ⟨[], [], [], [], [], [], 0, [], [], 0, [], [], 0, none⟩

/-- What the verifier parses. -/
def plainParts : Parsed S32 :=
  match parseParts S32 plainSig .expectStandard 1 with
  | .ok s => s
  | _ => ⟨[], ⟨0, 0, 0, ⟨0, []⟩, ⟨0, []⟩⟩, 0, none, none, none⟩

/-- The proof for the pseudonym. -/
def plainPn : ProofG1 S32 := plainParts.nymProof.getD ⟨0, []⟩

end Ex

open Ex in
set_option maxRecDepth 40000 in
/-- An accepted standard signature, also with a field that nobody declared in front: the numbers of responses, and the
challenge that it answers. -/
example : Spec.IsKey ipk2 (publicKey (S := S32) (2 : Toy.K)) 2 ∧
    verify L32 (.val ipk2) plain [9] shown2 0 1 (0 : Nat) .expectStandard none = .ok () ∧
    verify L32 (.val ipk2) ([88, 7] ++ plain) [9] shown2 0 1 (0 : Nat) .expectStandard none = .ok () ∧
    plainParts.sp.vc1.responses.length = 2 ∧ plainPn.responses.length = 2 ∧
    plainParts.sp.vc2.responses.length = 2 + (Bbs.Spec.unshown plainParts.rev
      (Bbs.Spec.generators (publicKey (S := S32) (2 : Toy.K)) 3)).length ∧
    plainParts.sp.aBar ≠ plainParts.sp.d ∧
    S32.lin plainParts.sp.vc1.responses [plainParts.sp.aPrime, Bbs.Spec.generator (publicKey (S := S32) (2 : Toy.K)) 3 0] +
      (3 : Toy.K) • (plainParts.sp.aBar - plainParts.sp.d) = plainParts.sp.vc1.commitment :=
  ⟨(isKey_iff _ _ _).mpr rfl, by decide, by decide, by decide, by decide, by decide, by decide, by decide⟩

open Ex in
set_option maxRecDepth 40000 in
/-- A signature of a card, and the same with another seed and more bytes. -/
example : ∃ sig nym r, cardSign sha4 (.val card4) [8] seed4 (3 : Toy.K) (2 : Toy.K) = .ok (sig, nym, r) ∧
    nymVerifyCard S7 sha4 card4.h0 card4.h1 card4.h2 sig card4.getNymEid.2 [8] = .ok () ∧
    nymVerifyCard S7 sha4 card4.h0 card4.h1 card4.h2 (List.replicate 16 1 ++ sig.drop 16 ++ [1, 2])
      card4.getNymEid.2 [8] = .ok () ∧ S7.zrOfInt 1 = 1 :=
  ⟨_, _, _, rfl, by decide, by decide, by decide⟩

end Idemix.Aries
