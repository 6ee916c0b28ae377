import Verif.Aries.PropsIssue

/-!
# C88: which attributes an aries credential certifies
-/

namespace Idemix.Aries

open Bbs Bbs.Ex

variable {S : Suite} (L : Lib S)

/-- `BlindSign` for any commitment. -/
theorem blindSign_any (hone : S.zrOfInt 1 = 1) (h32 : S.scalarLen = frLen) (n k : Nat) (hn : n < 0xFFFFFFFF) (hn0 : 0 < n)
    (hk : k ≤ n) (vs : List S.F) (hl : vs.length = n) (x e s : S.F) (c : S.G1) :
    blindSign (tag 0 (vs.take k) ++ tag (k + 1) (vs.drop k)) ((n : Int) + 1) c (S.zrBytes x) e s =
    .ok (S.g1Comp ((x + e)⁻¹ • (bValue (pkg (publicKey x) (n + 1)) s (Spec.withSecret k 0 vs) + c)) ++
      S.zrBytes e ++ S.zrBytes s) := by
  have hpl : (pkg (publicKey x) (n + 1)).h.length = n + 1 := by simp
  have htp := toPKG_names (publicKey x) n hn
  generalize pkg (publicKey x) (n + 1) = pk at *
  have m1 := msgBases_tag pk 0 (vs.take k) (by simp; omega)
  have m2 := msgBases_tag pk (k + 1) (vs.drop k) (by simp; omega)
  have m := msgBases_append pk _ _ _ _ m1 m2
  have g : decide ((tag 0 (vs.take k) ++ tag (k + 1) (vs.drop k)).length = 0) = false := by
    apply decide_eq_false
    simp only [List.length_append, tag_length, List.length_take, List.length_drop]
    omega
  have e1 : (List.take k vs).length = k := by simp; omega
  have e2 : (pk.h.drop (k + 1)).length = (vs.drop k).length := by simp; omega
  rw [blindSign, unmarshalPrivateKey_bytes h32, Res.ok_bind, htp, Res.ok_bind, g]
  simp only [Res.guardErr_false, Res.ok_bind, m]
  rw [build_eq (by simp; omega) (by simp)]
  simp only [Res.ok_bind, signWithKeyB, htp]
  rw [sig_toBytes h32]
  simp only [List.map_append, tag_fr, List.drop_zero, e1]
  rw [List.take_of_length_le (le_of_eq e2), S.lin_append (by simp; omega), S.lin_append (by simp; omega)]
  rw [bValue, lin_withSecret k 0 vs pk.h (by omega) (by omega)]
  simp only [Suite.lin_cons, Suite.lin_nil_left, hone]
  congr 5
  module

/-- `Cred.Sign` for any commitment. -/
theorem credSign_any (h32 : S.scalarLen = 32) (x : S.F) (n k : Nat) (hn0 : 0 < n) (hn : n < 0xFFFFFFFF) (hk : k ≤ n)
    (attributes : List IdemixAttribute) (vs : List S.F) (henc : List.Forall₂ (Spec.Encodes L) attributes vs)
    (hl : attributes.length = n) (request : Bytes) (b : Blinded S) (hb : parseBlindedMessages S request = .ok b) (e s : S.F) :
    credSign L (.val ⟨ipkFor (publicKey x) n, x⟩) request attributes k e s =
      .ok (Proto.encode (Wire.cred ⟨S.g1Comp ((x + e)⁻¹ • (bValue (pkg (publicKey x) (n + 1)) s (Spec.withSecret k 0 vs) + b.c)) ++
        S.zrBytes e ++ S.zrBytes s, vs.map S.zrBytes, 0⟩)) := by
  have hvl : vs.length = n := by rw [← henc.length_eq]; exact hl
  have hbs := blindSign_any L.zrOfInt_one h32 n k hn hn0 hk vs hvl x e s b.c
  have hat := attributesToSignatureMessage_encodes L k henc (by omega)
  have e1 : (tag 0 (vs.take k) ++ tag (k + 1) (vs.drop k)).map (fun m => S.zrBytes m.fr) = vs.map S.zrBytes := by
    have : (fun m : SigMsg S => S.zrBytes m.fr) = S.zrBytes ∘ (·.fr) := rfl
    rw [this, ← List.map_map, List.map_append, tag_fr, tag_fr, List.take_append_drop]
  have e2 : n - (tag 0 (vs.take k) ++ tag (k + 1) (vs.drop k)).length = 0 := by
    simp; omega
  simp only [credSign, Dyn.get_val, Res.ok_bind, hb, hat]
  rw [hl, hbs, Res.ok_bind, e1, e2]
  simp

/-- The commitment that makes an issuer who signs the attribute values `vs` certify the values `wanted` and the secret `sk`. -/
def Spec.escalation (ipk : IPK S) (k : Nat) (vs wanted : List S.F) (sk r : S.F) : S.G1 :=
  r • ipk.pkg.h0 + S.lin (Spec.withSecret k sk wanted) ipk.pkg.h - S.lin (Spec.withSecret k 0 vs) ipk.pkg.h

/-- What the issuer signs, unblinded and with the values replaced, is the credential issued for the other values. -/
theorem escalate_eq (h32 : S.scalarLen = 32) (x : S.F) (n k : Nat) (hn0 : 0 < n) (hn : n < 2 ^ 31) (hk : k ≤ n)
    (attributes : List IdemixAttribute) (vs : List S.F) (henc : List.Forall₂ (Spec.Encodes L) attributes vs)
    (hl : attributes.length = n) (wanted : List S.F) (sk r : S.F) (nonce : Bytes) (e s : S.F) :
    ∃ signed cred c, credSign L (.val ⟨ipkFor (publicKey x) n, x⟩)
        (Spec.forgedRequest L (Spec.escalation (ipkFor (publicKey x) n) k vs wanted sk r) nonce) attributes k e s = .ok signed ∧
      unblind S signed (S.zrBytes r) = .ok cred ∧ Wire.credCodec.unmarshal cred = .ok c ∧
      Wire.credCodec.marshal { c with attrs := wanted.map S.zrBytes, skPos := k } =
        .ok (Proto.encode (Wire.cred (issued x n k wanted sk e (s + r) k))) := by
  set c := Spec.escalation (ipkFor (publicKey x) n) k vs wanted sk r with hc
  let b : Blinded S := ⟨c, 0, ⟨blindChallenge L c 0 nonce • c, [0, 0]⟩⟩
  have hb : Spec.forgedRequest L c nonce = b.enc := by simp [Spec.forgedRequest, Blinded.enc, ProofG1.enc, b]
  have hp : parseBlindedMessages S (Spec.forgedRequest L c nonce) = .ok b := by
    rw [hb]; exact parseBlinded_enc h32 b (by simp [b])
  have hs := credSign_any L h32 x n k hn0 (by omega) hk attributes vs henc hl _ b hp e s
  have hB : bValue (pkg (publicKey x) (n + 1)) s (Spec.withSecret k 0 vs) + b.c =
      bValue (pkg (publicKey x) (n + 1)) (s + r) (Spec.withSecret k sk wanted) := by
    simp only [b, hc, Spec.escalation, bValue, ipkFor, publicKey]
    module
  rw [hB] at hs
  let c0 : Credential := ⟨S.g1Comp ((x + e)⁻¹ • bValue (pkg (publicKey x) (n + 1)) (s + r) (Spec.withSecret k sk wanted)) ++
    S.zrBytes e ++ S.zrBytes s, vs.map S.zrBytes, 0⟩
  have w0 : c0.Wire := by simp [Credential.Wire, c0, Proto.Int32]
  let c1 : Credential := { issued x n k wanted sk e (s + r) 0 with attrs := vs.map S.zrBytes }
  have w1 : c1.Wire := by simp [Credential.Wire, c1, issued, Proto.Int32]
  refine ⟨_, _, c1, hs, ?_, Wire.credCodec_rt c1 w1, Wire.credCodec_marshal _⟩
  simp only [unblind, Wire.credCodec_rt c0 w0, c0, Res.ok_bind, unblindSign, parseSignature_bytes h32,
    S.zrOfBytes_zrBytes, sig_toBytes h32, Wire.credCodec_marshal, Wire.cred_unknown, Res.pure_def, List.append_nil]
  rfl

/-- **C88 (violated).** A user whom the issuer grants a credential for the attributes `attributes` gets one for any other
attribute values `wanted` instead: the request is accepted, the issuer signs it for `attributes`, and the credential, with the
values in it replaced, verifies for the user and every list of attributes that agrees with `wanted`. -/
theorem C88_violated (h32 : S.scalarLen = 32) (isk : ISK S) (n k : Nat)
    (hkey : Spec.IsKey isk.pk (isk.sk • S.genG2) n) (hn0 : 0 < n) (hn : n < 2 ^ 31) (hk : k ≤ n)
    (attributes : List IdemixAttribute) (vs : List S.F) (henc : List.Forall₂ (Spec.Encodes L) attributes vs)
    (hl : attributes.length = n) (wanted : List S.F) (hw : wanted.length = n) (sk r : S.F) (nonce : Bytes) (e s : S.F)
    (hx : isk.sk + e ≠ 0) :
    let request := Spec.forgedRequest L (Spec.escalation isk.pk k vs wanted sk r) nonce
    blindVerify L request (.val isk.pk) nonce k = .ok () ∧
    ∃ signed cred c raw, credSign L (.val isk) request attributes k e s = .ok signed ∧
      unblind S signed (S.zrBytes r) = .ok cred ∧ Wire.credCodec.unmarshal cred = .ok c ∧
      Wire.credCodec.marshal { c with attrs := wanted.map S.zrBytes, skPos := k } = .ok raw ∧
      ∀ supplied, List.Forall₂ (Spec.Agrees L) supplied wanted → credVerify L sk (.val isk.pk) raw supplied = .ok () := by
  have h1 := C37_violated L h32 isk.pk _ n k hkey (by omega) hk (Spec.escalation isk.pk k vs wanted sk r) nonce
  refine ⟨h1, ?_⟩
  obtain ⟨pk, x⟩ := isk
  rw [isKey_iff] at hkey
  simp only at hkey hx
  subst hkey
  obtain ⟨signed, cred, c, e1, e2, e3, e4⟩ := escalate_eq L h32 x n k hn0 hn hk attributes vs henc hl wanted sk r nonce e s
  exact ⟨signed, cred, c, _, e1, e2, e3, e4, fun supplied hag =>
    (issued_valid_iff L h32 x n k k hn hk wanted hw sk e (s + r) supplied hag).mpr (valid_of_sign rfl hx _)⟩

set_option maxRecDepth 40000 in
/-- The hypotheses hold for values that differ from those that the issuer signs, and then the credential does not verify for
the attributes that the issuer signed. -/
example : Spec.IsKey Ex.isk.pk (Ex.isk.sk • S32.genG2) 2 ∧ Ex.isk.sk + (2 : Toy.K) ≠ 0 ∧
    List.Forall₂ (Spec.Encodes L32) Ex.attrs Ex.vals ∧ Ex.vals ≠ [(6 : Toy.K), (5 : Toy.K)] ∧
    ∃ signed cred c raw, credSign L32 (.val Ex.isk) (Spec.forgedRequest L32
        (Spec.escalation Ex.isk.pk 1 Ex.vals [(6 : Toy.K), (5 : Toy.K)] (4 : Toy.K) (3 : Toy.K)) [1]) Ex.attrs 1
        (2 : Toy.K) (3 : Toy.K) = .ok signed ∧
      unblind S32 signed (S32.zrBytes (3 : Toy.K)) = .ok cred ∧ Wire.credCodec.unmarshal cred = .ok c ∧
      Wire.credCodec.marshal { c with attrs := [(6 : Toy.K), (5 : Toy.K)].map S32.zrBytes, skPos := 1 } = .ok raw ∧
      credVerify L32 (4 : Toy.K) (.val Ex.isk.pk) raw [⟨0, .other⟩, ⟨2, .int 5⟩] = .ok () ∧
      credVerify L32 (4 : Toy.K) (.val Ex.isk.pk) raw Ex.attrs ≠ .ok () :=
  ⟨(isKey_iff _ _ _).mpr rfl, by decide, Ex.attrs_vals, by decide, _, _, _, _, rfl, rfl, rfl, rfl, by decide, by decide⟩

end Idemix.Aries
