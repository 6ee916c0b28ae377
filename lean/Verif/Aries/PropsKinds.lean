import Verif.Base.Text
import Verif.Aries.PropsBinding

/-!
# C69, aries: what is hashed for the different kinds of proofs

What is hashed for a signature is `Spec.transcript` and then `Spec.second` (`accepted`, C63), for a pseudonym signature
`Spec.nymTranscript` and then `Spec.second` (`C42_binding_partial`), for a request `Spec.requestQuestion`
(`C37_nonce_binding_partial`).
-/

namespace Idemix.Aries

open Bbs Bbs.Ex
open Dlog (VerType signLabel signWithEidNymLabel signWithEidNymRhNymLabel)

variable {S : Suite} (L : Lib S)

/-- What is hashed for a request with the commitment `c` and the first message `t`. -/
def Spec.requestQuestion (c t : S.G1) (nonce : Bytes) : Bytes := S.g1Bytes c ++ S.g1Bytes t ++ nonce

/-- No point of `G1` is encoded to a string that begins with one of the letters `n`, `s`, `W`, `R`, `N`. -/
def Spec.NoLetter (S : Suite) : Prop :=
  ∀ P : S.G1, ∀ b ∈ (S.g1Bytes P).head?, b ≠ 0x6e ∧ b ≠ 0x73 ∧ b ≠ 0x57 ∧ b ≠ 0x52 ∧ b ≠ 0x4e

/-- The challenges of requests come from the same hash function as the final challenges of signatures: this is when the two
questions are one string. -/
def Spec.RequestIsSecond (c t : S.G1) (nonce q nonce' : Bytes) : Prop :=
  ∃ rest, S.g1Bytes c = S.zrBytes (frFromOKM L q) ++ rest ∧ nonce' = rest ++ S.g1Bytes t ++ nonce

variable {L}

theorem g1Bytes_cons (P : S.G1) : ∃ b rest, S.g1Bytes P = b :: rest := by
  cases h : S.g1Bytes P with
  | nil =>
    have := S.g1Bytes_len P
    have h1 := S.scalarLen_le
    have h2 := S.scalarLen_pos
    rw [h] at this
    simp at this
    omega
  | cons b rest => exact ⟨b, rest, rfl⟩

theorem transcript_label (v : VerType) (w : S.G2) (n : Nat) (sig : Signature) (p : SigProof S) (rs : List Nat)
    (tn te tr : Option S.G1) (msg : Bytes) :
    ∃ x, Spec.transcript L v w n sig p rs tn te tr msg = Spec.verLabel v te tr ++ S.g1Bytes p.aBar ++ x :=
  ⟨_, by simp only [Spec.transcript, List.append_assoc]; rfl⟩

/-- The labels of signatures. -/
inductive Spec.IsLabel : Bytes → Prop
  | std : Spec.IsLabel signLabel
  | eid : Spec.IsLabel signWithEidNymLabel
  | rh : Spec.IsLabel signWithEidNymRhNymLabel
  | card : Spec.IsLabel signWithSmartcardLabel
  | noNyms : Spec.IsLabel signWithSmartcardNoNymsLabel

/-- The labels are the texts of the code. -/
theorem label_texts : signLabel = ascii "sign" ∧ signWithEidNymLabel = ascii "signWithEidNym" ∧
    signWithEidNymRhNymLabel = ascii "signWithEidNymRhNym" ∧ signWithSmartcardLabel = ascii "signWithSmartcard" ∧
    signWithSmartcardNoNymsLabel = ascii "signWithSmartcardNoNyms" := by
  refine ⟨?_, ?_, ?_, ?_, ?_⟩ <;> decide

theorem verLabel_isLabel (v : VerType) (te tr : Option S.G1) : Spec.IsLabel (Spec.verLabel v te tr) := by
  unfold Spec.verLabel
  split
  · split
    · exact .card
    · exact .noNyms
  · split
    · exact .rh
    · split
      · exact .eid
      · exact .std

theorem labels_apart (hS : Spec.NoLetter S) {l l' : Bytes} (h : Spec.IsLabel l) (h' : Spec.IsLabel l') (P Q : S.G1)
    (x y : Bytes) (e : l ++ S.g1Bytes P ++ x = l' ++ S.g1Bytes Q ++ y) : l = l' := by
  obtain ⟨b, r, hb⟩ := g1Bytes_cons P
  obtain ⟨c, s, hc⟩ := g1Bytes_cons Q
  obtain ⟨-, -, b1, b2, b3⟩ := hS P b (by rw [hb]; rfl)
  obtain ⟨-, -, c1, c2, c3⟩ := hS Q c (by rw [hc]; rfl)
  rw [hb, hc] at e
  cases h <;> cases h' <;>
    first
      | rfl
      | (exfalso
         simp only [signLabel, signWithEidNymLabel, signWithEidNymRhNymLabel, signWithSmartcardLabel,
           signWithSmartcardNoNymsLabel, List.cons_append, List.nil_append, List.cons.injEq] at e
         simp_all)

variable (L)

/-- **C69 (aries).** What is hashed first for a signature, for a pseudonym signature and for a request is never the same
string, whatever the arguments, and for two signatures only if they have the same label. What is missing is the final
question of signatures and pseudonym signatures: see `C69_aries_request_exact`. -/
theorem C69_aries_kinds_partial (hS : Spec.NoLetter S) (v v' : VerType) (w w' : S.G2) (n n' : Nat) (sig sig' : Signature)
    (p p' : SigProof S) (rs rs' : List Nat) (tn te tr tn' te' tr' : Option S.G1) (msg msg' : Bytes)
    (nym g h t c t' : S.G1) (m nonce : Bytes) :
    Spec.transcript L v w n sig p rs tn te tr msg ≠ Spec.nymTranscript nym g h t m ∧
    Spec.transcript L v w n sig p rs tn te tr msg ≠ Spec.requestQuestion c t' nonce ∧
    Spec.nymTranscript nym g h t m ≠ Spec.requestQuestion c t' nonce ∧
    (Spec.transcript L v w n sig p rs tn te tr msg = Spec.transcript L v' w' n' sig' p' rs' tn' te' tr' msg' →
      Spec.verLabel v te tr = Spec.verLabel v' te' tr') := by
  obtain ⟨x, hx⟩ := transcript_label (L := L) v w n sig p rs tn te tr msg
  obtain ⟨y, hy⟩ := transcript_label (L := L) v' w' n' sig' p' rs' tn' te' tr' msg'
  obtain ⟨b, r, hb⟩ := g1Bytes_cons c
  obtain ⟨b1, b2, -⟩ := hS c b (by rw [hb]; rfl)
  have hl := verLabel_isLabel v te tr
  refine ⟨?_, ?_, ?_, ?_⟩
  · rw [hx]
    generalize Spec.verLabel v te tr = l at hl
    intro e
    cases hl <;> cases e
  · rw [hx]
    generalize Spec.verLabel v te tr = l at hl
    intro e
    simp only [Spec.requestQuestion, hb] at e
    cases hl <;> exact b2 (List.cons.inj e).1.symm
  · intro e
    simp only [Spec.requestQuestion, Spec.nymTranscript, hb] at e
    exact b1 (List.cons.inj e).1.symm
  · rw [hx, hy]
    exact labels_apart hS hl (verLabel_isLabel v' te' tr') _ _ _ _

/-- **C69 (aries requests).** The question of a request is the final question of a signature or pseudonym signature exactly
if the encoding of the commitment begins with the first hash and the nonce of the signature is the rest. The nonce of a
signature is an arbitrary string to the verifier, so nothing but the choice of the commitment excludes this; see
`C69_aries_request_violated`. -/
theorem C69_aries_request_exact (c t : S.G1) (nonce q nonce' : Bytes) :
    Spec.requestQuestion c t nonce = Spec.second L q nonce' ↔ Spec.RequestIsSecond L c t nonce q nonce' := by
  simp only [Spec.requestQuestion, Spec.second, Spec.RequestIsSecond]
  constructor
  · intro h
    rw [List.append_assoc] at h
    rcases List.append_eq_append_iff.mp h with ⟨a, h1, h2⟩ | ⟨a, h1, h2⟩
    · have hl := congrArg List.length h1
      rw [List.length_append, S.zrBytes_len, S.g1Bytes_len] at hl
      have := S.scalarLen_le
      have : a = [] := List.eq_nil_of_length_eq_zero (by omega)
      subst this
      exact ⟨[], by simpa using h1.symm, by simpa using h2.symm⟩
    · exact ⟨a, h1, by simpa using h2⟩
  · rintro ⟨rest, h1, rfl⟩
    rw [h1]
    simp

theorem Ex.noLetter : Spec.NoLetter S32 := by unfold Spec.NoLetter; decide

/-- A pseudonym signature for the pseudonym 5 whose nonce is made of a point and a byte. -/
def Ex.mixedNymSignature : Bytes :=
  Proto.encode (Wire.nymSig ⟨S32.g1Comp (1 : Toy.K) ++ beBytes 4 2 ++ S32.zrBytes (0 : Toy.K) ++ S32.zrBytes (5 : Toy.K),
    S32.g1Bytes (5 : Toy.K) ++ [1]⟩)

set_option maxRecDepth 40000 in
/-- **C69 (violated for requests).** A request made by the library for the nonce `[1]` and a pseudonym signature, both
accepted under one issuer key, whose challenges are the hash of one and the same string: that of a request carries no label,
and the final question of a signature carries none either. -/
theorem C69_aries_request_violated :
    ∃ request s b, blind L32 (4 : Toy.K) (.val Ex.isk.pk) [1] 1 (5 : Toy.K) (fun i => ((i : Nat) : Toy.K) + 1) = .ok (request, s) ∧
      blindVerify L32 request (.val Ex.isk.pk) [1] 1 = .ok () ∧ parseBlindedMessages S32 request = .ok b ∧
      nymVerify L32 (.val Ex.isk.pk) (5 : Toy.K) Ex.mixedNymSignature [6] 1 = .ok () ∧
      Spec.requestQuestion b.c b.pokC [1] =
        Spec.second L32 (Spec.nymTranscript (S := S32) (5 : Toy.K) (3 : Toy.K) (1 : Toy.K) (1 : Toy.K) [6])
          (S32.g1Bytes (5 : Toy.K) ++ [1]) :=
  ⟨_, _, _, rfl, by decide, rfl, by decide, by decide⟩

end Idemix.Aries
