import Verif.Msp.PropsKnowledge
import Verif.Msp.PropsNym
import Verif.Aries.PropsBinding

/-!
# C104: a signature of a member counts for one message and one identity
-/

namespace Idemix.Msp

open Spec

/-- **C104 is violated (attribution).** Signatures count for a pseudonym, and the pseudonym of an identity is in no way
tied to its unit and role (C56). Take any two valid identities `i` and `j` of an MSP. There is an identity with the
unit and role of `i` that the MSP validates and for which all signatures of `j` count. -/
theorem C104_attribution_violated {W : World} (h : Heap W) (me : Ref) (i j : Identity W) (hi : i.msp = me)
    (hj : j.msp = me) (vi : validate h me (.identity i) = .ok ()) :
    ∃ x : Identity W, x.ou = i.ou ∧ x.role = i.role ∧ x.msp = me ∧ validate h me (.identity x) = .ok () ∧
      ∀ msg sig, j.verify h msg sig = .ok () → x.verify h msg sig = .ok () := by
  refine ⟨{ i with nym := j.nym }, rfl, rfl, hi, vi, fun msg sig hs => ?_⟩
  rw [C56_verify_exact] at hs ⊢
  rw [hj] at hs
  rw [show ({ i with nym := j.nym } : Identity W).msp = me from hi]
  exact hs

/-- **C104 (dlog, partial).** One signature that counts for two messages and identities, of one MSP or of two: the messages
are equal, the identities have the same pseudonym and the MSPs have issuer keys with the same hash, or the two transcripts
collide, or the two final hash inputs do. (Hashes of keys that are generated or imported have the length of a scalar.) What
is missing: the rest of the identity (`C104_attribution_violated`). -/
theorem C104_dlog_partial (P : Platform) (c : CurveId) (h h' : Heap P.world) (i j : Identity P.world)
    (ipk ipk' : Dlog.IssuerPublicKey) (hk : HasDlogKey (h i.msp) c ipk) (hk' : HasDlogKey (h' j.msp) c ipk')
    (k k' : Dlog.Spec.Key (P.S c)) (hr : Dlog.Reads (P.env c).T ipk k) (hr' : Dlog.Reads (P.env c).T ipk' k')
    (l : ipk.hash.length = (P.S c).scalarLen) (l' : ipk'.hash.length = (P.S c).scalarLen) (msg msg' raw : Bytes)
    (hs : i.verify h msg raw = .ok ()) (hs' : j.verify h' msg' raw = .ok ()) :
    ∃ (nym nym' : (P.S c).G1) (σ : Dlog.NymSignature) (t t' : Bytes),
      i.nym = ⟨⟨false, c⟩, .nymPk nym⟩ ∧ j.nym = ⟨⟨false, c⟩, .nymPk nym'⟩ ∧
      Dlog.Wire.nymSigCodec.unmarshal raw = .ok σ ∧
      t = Dlog.Spec.nymTranscript Dlog.signLabel k nym ((P.S c).zrOfBytes σ.proofC) ((P.S c).zrOfBytes σ.proofSSk)
        ((P.S c).zrOfBytes σ.proofSRNym) ipk.hash msg ∧
      t' = Dlog.Spec.nymTranscript Dlog.signLabel k' nym' ((P.S c).zrOfBytes σ.proofC) ((P.S c).zrOfBytes σ.proofSSk)
        ((P.S c).zrOfBytes σ.proofSRNym) ipk'.hash msg' ∧
      ((msg = msg' ∧ i.nym = j.nym ∧ ipk.hash = ipk'.hash) ∨ (P.S c).Collision t t' ∨
        (P.S c).Collision (Dlog.Spec.second (P.S c) t ((P.S c).zrOfBytes σ.nonce))
          (Dlog.Spec.second (P.S c) t' ((P.S c).zrOfBytes σ.nonce))) := by
  have reads : ∀ (h : Heap P.world) (x : Identity P.world) m ipk, HasDlogKey (h x.msp) c ipk → x.verify h m raw = .ok () →
      ∃ nym, x.nym = ⟨⟨false, c⟩, .nymPk nym⟩ ∧ (P.env c).nymVerify (.val ipk) (some nym) raw m = .ok () := by
    intro h x m ipk hk hs
    obtain ⟨k1, k2⟩ := hk
    rw [C56_verify_exact] at hs
    obtain ⟨p, ipk', nym, h1, h2, h3, -, h5⟩ := hs
    cases k1.symm.trans h1
    cases k2.symm.trans h2
    exact ⟨nym, h3, h5⟩
  obtain ⟨nym, n1, v1⟩ := reads h i msg ipk hk hs
  obtain ⟨nym', n2, v2⟩ := reads h' j msg' ipk' hk' hs'
  simp only [Dlog.Env.nymVerify, Res.recovered_eq_ok, Res.bind_eq_ok, Dyn.get_val, Res.ok_bind] at v1 v2
  obtain ⟨σ, u1, _, ⟨⟩, v1⟩ := v1
  obtain ⟨_, u2, _, ⟨⟩, v2⟩ := v2
  cases u1.symm.trans u2
  refine ⟨nym, nym', σ, _, _, n1, n2, u1, rfl, rfl, ?_⟩
  rcases Dlog.C17_nym_signature_binding (P.env c).T σ σ nym nym' ipk ipk' msg msg' k k' hr.hSk hr.hRand hr'.hSk hr'.hRand v1 v2
    rfl _ _ rfl rfl with ⟨a, b, -, d⟩ | a | a
  · exact .inl ⟨a, by rw [n1, n2, b], d l l'⟩
  · exact .inr (.inl a)
  · exact .inr (.inr a)

/-- **C104 (aries, partial).** One signature, with two responses, that counts for two messages and identities of an MSP:
the identities have proportional pseudonyms, by the two challenges. If they have the same pseudonym, and it is not the
identity of the group, the messages are equal, or the hash to scalars collides on the two transcripts or on the two final
hash inputs. What is missing: the rest of the identity (`C104_attribution_violated`), and the number of responses, which the
code does not check (`C42_violated`). -/
theorem C104_aries_partial (P : Platform) (c : CurveId) (h : Heap P.world) (me : Ref) (i j : Identity P.world)
    (hi : i.msp = me) (hj : j.msp = me) (ipk : Aries.IPK (P.S c)) (hk : HasAriesKey (h me) c ipk) (w : (P.S c).G2) (n : Nat)
    (hkey : Aries.Spec.IsKey ipk w n) (msg msg' raw : Bytes) (σ : Aries.NymSignature) (p : Bbs.ProofG1 (P.S c))
    (hσ : Aries.Wire.nymSigCodec.unmarshal raw = .ok σ) (hp : Bbs.parseProofG1 (P.S c) σ.main = .ok p)
    (l : p.responses.length = 2) (hs : i.verify h msg raw = .ok ()) (hs' : j.verify h msg' raw = .ok ()) :
    ∃ (nym nym' g s : (P.S c).G1) (t t' : Bytes),
      i.nym = ⟨⟨true, c⟩, .nymPk nym⟩ ∧ j.nym = ⟨⟨true, c⟩, .nymPk nym'⟩ ∧
      g = Bbs.Spec.generator w (n + 1) 0 ∧ (Bbs.Spec.generators w (n + 1))[0]? = some s ∧
      t = Aries.Spec.nymTranscript nym g s p.commitment msg ∧ t' = Aries.Spec.nymTranscript nym' g s p.commitment msg' ∧
      Bbs.frFromOKM (P.lib c) (Aries.Spec.second (P.lib c) t σ.nonce) • nym =
        Bbs.frFromOKM (P.lib c) (Aries.Spec.second (P.lib c) t' σ.nonce) • nym' ∧
      (i.nym = j.nym → nym = 0 ∨ msg = msg' ∨ Aries.Spec.OkmCollision (P.lib c) t t' ∨
        Aries.Spec.OkmCollision (P.lib c) (Aries.Spec.second (P.lib c) t σ.nonce)
          (Aries.Spec.second (P.lib c) t' σ.nonce)) := by
  obtain ⟨k1, k2⟩ := hk
  have reads : ∀ (x : Identity P.world) m, x.msp = me → x.verify h m raw = .ok () → ∃ nym,
      x.nym = ⟨⟨true, c⟩, .nymPk nym⟩ ∧ Aries.nymVerify (P.lib c) (.val ipk) nym raw m 0 = .ok () := by
    intro x m hx hs
    rw [C56_verify_exact, hx] at hs
    obtain ⟨p, ipk', nym, h1, h2, h3, -, h5⟩ := hs
    cases k1.symm.trans h1
    cases k2.symm.trans h2
    exact ⟨nym, h3, h5⟩
  obtain ⟨nym, n1, v1⟩ := reads i msg hi hs
  obtain ⟨nym', n2, v2⟩ := reads j msg' hj hs'
  obtain ⟨s, hs0⟩ : ∃ s, (Bbs.Spec.generators w (n + 1))[0]? = some s := by simp [Bbs.Spec.generators]
  obtain ⟨a, b⟩ := Aries.C42_binding_partial (P.lib c) ipk w n 0 hkey (Nat.zero_le _) nym nym' raw msg msg' σ p _ s rfl hs0 v1 v2 hσ
    hp l _ _ rfl rfl
  refine ⟨nym, nym', _, s, _, _, n1, n2, rfl, hs0, rfl, rfl, a, fun e => b ?_⟩
  rw [n1, n2] at e
  cases e
  rfl

/-! ## Non-vacuity -/

namespace Ex

/-- The identity of the member, with the pseudonym of the holder of the secret 5. -/
def other : Identity (P1 1).world := { identity 1 with nym := ⟨⟨false, .fp256bnAmcl⟩, .nymPk (6 : Toy.K)⟩ }

/-- A signature on `[1, 2, 3]` by the holder of the secret 5. -/
def signed : Bytes :=
  match ((P1 1).env .fp256bnAmcl).nymSign (some (5 : Toy.K)) (some (6 : Toy.K)) (some (2 : Toy.K)) (.val ipk) [1, 2, 3]
      ⟨(1 : Toy.K), (2 : Toy.K), (3 : Toy.K)⟩ with
  | .ok b => b
  | _ => []

/-- A pseudonym of the holder of the secret 5 at an MSP of the aries scheme. -/
def nym4 : Toy.K × Toy.K :=
  match Aries.makeNym (S := Toy.suite32) (5 : Toy.K) (.val ipk4) 0 (2 : Toy.K) with
  | .ok n => n
  | _ => (0, 0)

/-- The identity of the member of that MSP, with this pseudonym. -/
def other4 : Identity (P2 1).world := { identity4 1 with nym := ⟨⟨true, .fp256bnAmcl⟩, .nymPk nym4.1⟩ }

/-- A signature on `[1, 2, 3]` under this pseudonym. -/
def signed4 : Bytes :=
  match Aries.nymSign (lib 1 .fp256bnAmcl) (5 : Toy.K) nym4.1 nym4.2 (.val ipk4) [1, 2, 3] 0 (2 : Toy.K)
      (fun i => ((i + 1 : Nat) : Toy.K)) with
  | .ok b => b
  | _ => []

/-- The proof in it. -/
def proof4 : Bytes × Bbs.ProofG1 Toy.suite32 :=
  match Aries.Wire.nymSigCodec.unmarshal signed4 with
  | .ok s => match Bbs.parseProofG1 Toy.suite32 s.main with
    | .ok p => (s.main, p)
    | _ => ([], ⟨0, []⟩)
  | _ => ([], ⟨0, []⟩)

end Ex

set_option maxRecDepth 40000 in
/-- `C104_attribution_violated`, `C104_dlog_partial`: a member of the unit `[115]` and the holder of the secret 5, whose
signature counts for an identity in that unit. -/
example : ((Ex.P1 1).env .fp256bnAmcl).makeNym (some (5 : Toy.K)) (.val Ex.ipk) (2 : Toy.K) = .ok ((6 : Toy.K), (2 : Toy.K)) ∧
    HasDlogKey (P := Ex.P1 1) (Ex.msp 1) .fp256bnAmcl Ex.ipk ∧
    validate (fun _ => Ex.msp 1) 0 (.identity (Ex.identity 1)) = .ok () ∧ Dlog.Reads Toy.tr Ex.ipk Ex.key ∧
    Ex.ipk.hash.length = Toy.suite.scalarLen ∧ Ex.other.verify (fun _ => Ex.msp 1) [1, 2, 3] Ex.signed = .ok () := by
  exact ⟨by rfl, ⟨rfl, rfl⟩, by rfl, ⟨rfl, rfl, rfl, rfl⟩, rfl, by rfl⟩

set_option maxRecDepth 40000 in
/-- `C104_aries_partial`: the same at an MSP of the aries scheme. -/
example : Aries.Spec.IsKey Ex.ipk4 (Bbs.publicKey (S := Toy.suite32) (2 : Toy.K)) 4 ∧
    HasAriesKey (P := Ex.P2 1) (Ex.msp4 1) .fp256bnAmcl Ex.ipk4 ∧ Ex.nym4.1 ≠ 0 ∧
    Aries.Wire.nymSigCodec.unmarshal Ex.signed4 = .ok ⟨Ex.proof4.1, Toy.suite32.zrBytes (2 : Toy.K)⟩ ∧
    Bbs.parseProofG1 Toy.suite32 Ex.proof4.1 = .ok Ex.proof4.2 ∧ Ex.proof4.2.responses.length = 2 ∧
    Ex.other4.verify (fun _ => Ex.msp4 1) [1, 2, 3] Ex.signed4 = .ok () := by
  exact ⟨(Aries.isKey_iff _ _ _).mpr rfl, ⟨rfl, rfl⟩, by decide +kernel, by rfl, by rfl, by rfl, by rfl⟩

end Idemix.Msp
