import Verif.Dlog.Wire

/-!
# Wire format of the aries messages

The messages of `bccsp/schemes/aries/cred.proto`. Absent and empty bytes fields are the same.
-/

namespace Idemix.Aries

open Proto

/-- `Credential` (`cred.proto:14-18`). -/
structure Credential where
  cred : Bytes
  attrs : List Bytes
  skPos : Int
  deriving DecidableEq, Repr

/-- `NonRevocationProof` (`cred.proto:41-44`). -/
structure NonRevocationProof where
  alg : Int
  proof : Bytes
  deriving DecidableEq, Repr

/-- `Signature` (`cred.proto:21-38`). -/
structure Signature where
  main : Bytes
  nonce : Bytes
  nym : Bytes
  nymProof : Bytes
  nymEid : Bytes
  nymEidProof : Bytes
  nymEidIdx : Int
  nymRh : Bytes
  nymRhProof : Bytes
  nymRhIdx : Int
  epochPk : Bytes
  epochPkSig : Bytes
  epoch : Int
  nonRevocationProof : Option NonRevocationProof
  deriving DecidableEq, Repr

/-- `CredentialRevocationInformation` (`cred.proto:46-61`). -/
structure CRI where
  epoch : Int
  epochPk : Bytes
  epochPkSig : Bytes
  alg : Int
  data : Bytes
  deriving DecidableEq, Repr

/-- `NymSignature` (`cred.proto:63-66`). -/
structure NymSignature where
  main : Bytes
  nonce : Bytes
  deriving DecidableEq, Repr

/-- Numbers in the range of their Go types. -/
def Credential.Wire (c : Credential) : Prop := Int32 c.skPos
/-- See `Credential.Wire`. -/
def CRI.Wire (c : CRI) : Prop := Int64 c.epoch ∧ Int32 c.alg
/-- See `Credential.Wire`. -/
def Signature.Wire (s : Signature) : Prop :=
  Int32 s.nymEidIdx ∧ Int32 s.nymRhIdx ∧ Int64 s.epoch ∧ ∀ p, s.nonRevocationProof = some p → Int32 p.alg

namespace Wire

/-- `Credential` (`cred.proto:14-18`). -/
def cred (c : Credential) : Msg := bytesF 1 c.cred ++ (repF 2 c.attrs ++ intF 3 c.skPos)
/-- See `cred`. -/
def credOf (m : Msg) : Option Credential := some ⟨getBytes 1 m, lens 2 m, getInt32 3 m⟩

/-- `NonRevocationProof` (`cred.proto:41-44`). -/
def nonRev (p : NonRevocationProof) : Msg := intF 1 p.alg ++ bytesF 2 p.proof
/-- See `nonRev`. -/
def nonRevOf (m : Msg) : NonRevocationProof := ⟨getInt32 1 m, getBytes 2 m⟩

/-- `Signature` (`cred.proto:21-38`). -/
def sig (s : Signature) : Msg :=
  bytesF 1 s.main ++ (bytesF 2 s.nonce ++ (bytesF 3 s.nym ++ (bytesF 4 s.nymProof ++ (bytesF 5 s.nymEid ++
    (bytesF 6 s.nymEidProof ++ (intF 7 s.nymEidIdx ++ (bytesF 8 s.nymRh ++ (bytesF 9 s.nymRhProof ++
    (intF 10 s.nymRhIdx ++ (bytesF 11 s.epochPk ++ (bytesF 12 s.epochPkSig ++ (intF 13 s.epoch ++
    msgF 14 (s.nonRevocationProof.map nonRev)))))))))))))
/-- See `sig`. -/
def sigOf (m : Msg) : Option Signature := do
  let nr ← getMsg 14 m
  some ⟨getBytes 1 m, getBytes 2 m, getBytes 3 m, getBytes 4 m, getBytes 5 m, getBytes 6 m, getInt32 7 m,
    getBytes 8 m, getBytes 9 m, getInt32 10 m, getBytes 11 m, getBytes 12 m, getInt64 13 m, nr.map nonRevOf⟩

/-- `CredentialRevocationInformation` (`cred.proto:46-61`). -/
def cri (c : CRI) : Msg :=
  intF 1 c.epoch ++ (bytesF 2 c.epochPk ++ (bytesF 3 c.epochPkSig ++ (intF 4 c.alg ++ bytesF 5 c.data)))
/-- See `cri`. -/
def criOf (m : Msg) : Option CRI :=
  some ⟨getInt64 1 m, getBytes 2 m, getBytes 3 m, getInt32 4 m, getBytes 5 m⟩

/-- Declared fields of `Credential`. -/
def credKnown (k w : Nat) : Bool := (k, w) ∈ [(1, 2), (2, 2), (3, 0)]

/-- Declared fields of `CredentialRevocationInformation`. -/
def criKnown (k w : Nat) : Bool := (k, w) ∈ [(1, 0), (2, 2), (3, 2), (4, 0), (5, 2)]

/-- `NymSignature` (`cred.proto:63-66`). -/
def nymSig (s : NymSignature) : Msg := bytesF 1 s.main ++ bytesF 2 s.nonce
/-- See `nymSig`. -/
def nymSigOf (m : Msg) : Option NymSignature := some ⟨getBytes 1 m, getBytes 2 m⟩

/-! ## Round trips -/

theorem getInt32_one {k : Nat} {m : Msg} {i : Int}
    (h : varints k m = if i = 0 then [] else [(i % 18446744073709551616).toNat]) (hi : Int32 i) :
    getInt32 k m = i := by
  rw [getInt32, h, getLast_int, signed32_of _ hi]

theorem getInt64_one {k : Nat} {m : Msg} {i : Int}
    (h : varints k m = if i = 0 then [] else [(i % 18446744073709551616).toNat]) (hi : Int64 i) :
    getInt64 k m = i := by
  rw [getInt64, h, getLast_int, signed64_of _ hi]

theorem cred_plain (c : Credential) : Msg.Plain (cred c) := by unfold cred; plain_wire

theorem credOf_cred (c : Credential) (h : c.Wire) : credOf (cred c) = some c := by
  have g1 : getBytes 1 (cred c) = c.cred := by unfold cred; field_simp_wire
  have g2 : lens 2 (cred c) = c.attrs := by unfold cred; field_simp_wire
  have g3 : getInt32 3 (cred c) = c.skPos := getInt32_one (by unfold cred; field_simp_wire) h
  simp only [credOf, g1, g2, g3]

theorem nonRev_plain (p : NonRevocationProof) : Msg.Plain (nonRev p) := by unfold nonRev; plain_wire

theorem nonRevOf_nonRev (p : NonRevocationProof) (h : Int32 p.alg) : nonRevOf (nonRev p) = p := by
  have g1 : getInt32 1 (nonRev p) = p.alg := getInt32_one (by unfold nonRev; field_simp_wire) h
  have g2 : getBytes 2 (nonRev p) = p.proof := by unfold nonRev; field_simp_wire
  simp only [nonRevOf, g1, g2]

theorem sig_plain (s : Signature) : Msg.Plain (sig s) := by unfold sig; plain_wire

theorem sigOf_sig (s : Signature) (h : s.Wire) : sigOf (sig s) = some s := by
  obtain ⟨h1, h2, h3, h4⟩ := h
  have g1 : getBytes 1 (sig s) = s.main := by unfold sig; field_simp_wire
  have g2 : getBytes 2 (sig s) = s.nonce := by unfold sig; field_simp_wire
  have g3 : getBytes 3 (sig s) = s.nym := by unfold sig; field_simp_wire
  have g4 : getBytes 4 (sig s) = s.nymProof := by unfold sig; field_simp_wire
  have g5 : getBytes 5 (sig s) = s.nymEid := by unfold sig; field_simp_wire
  have g6 : getBytes 6 (sig s) = s.nymEidProof := by unfold sig; field_simp_wire
  have g7 : getInt32 7 (sig s) = s.nymEidIdx := getInt32_one (by unfold sig; field_simp_wire) h1
  have g8 : getBytes 8 (sig s) = s.nymRh := by unfold sig; field_simp_wire
  have g9 : getBytes 9 (sig s) = s.nymRhProof := by unfold sig; field_simp_wire
  have g10 : getInt32 10 (sig s) = s.nymRhIdx := getInt32_one (by unfold sig; field_simp_wire) h2
  have g11 : getBytes 11 (sig s) = s.epochPk := by unfold sig; field_simp_wire
  have g12 : getBytes 12 (sig s) = s.epochPkSig := by unfold sig; field_simp_wire
  have g13 : getInt64 13 (sig s) = s.epoch := getInt64_one (by unfold sig; field_simp_wire) h3
  have g14 : getMsg 14 (sig s) = some (s.nonRevocationProof.map nonRev) :=
    Dlog.Wire.getMsg_one (by unfold sig; field_simp_wire) (by
      rintro f hf
      rw [Option.map_eq_some_iff] at hf
      obtain ⟨p, -, rfl⟩ := hf
      exact nonRev_plain p)
  have g14' : (s.nonRevocationProof.map nonRev).map nonRevOf = s.nonRevocationProof := by
    cases hp : s.nonRevocationProof with
    | none => rfl
    | some p => simp [nonRevOf_nonRev p (h4 p hp)]
  simp only [sigOf, g1, g2, g3, g4, g5, g6, g7, g8, g9, g10, g11, g12, g13, g14, g14', Option.bind_eq_bind,
    Option.bind_some]

theorem cri_plain (c : CRI) : Msg.Plain (cri c) := by unfold cri; plain_wire

theorem cred_unknown (c : Credential) : unknown credKnown (encode (cred c)) = [] := by
  refine unknown_encode _ _ (cred_plain c) fun t ht => ?_
  simp only [cred, bytesF, intF, repF, List.mem_append, List.mem_map] at ht
  rcases ht with ht | ⟨b, -, ht⟩ | ht
  · split at ht <;> simp only [List.mem_singleton, List.not_mem_nil] at ht
    subst ht; rfl
  · subst ht; rfl
  · split at ht <;> simp only [List.mem_singleton, List.not_mem_nil] at ht
    subst ht; rfl

theorem cri_unknown (c : CRI) : unknown criKnown (encode (cri c)) = [] := by
  refine unknown_encode _ _ (cri_plain c) fun t ht => ?_
  simp only [cri, bytesF, intF, List.mem_append] at ht
  rcases ht with ht | ht | ht | ht | ht <;> split at ht <;> simp only [List.mem_singleton, List.not_mem_nil] at ht <;>
    subst ht <;> rfl

theorem criOf_cri (c : CRI) (h : c.Wire) : criOf (cri c) = some c := by
  have g1 : getInt64 1 (cri c) = c.epoch := getInt64_one (by unfold cri; field_simp_wire) h.1
  have g2 : getBytes 2 (cri c) = c.epochPk := by unfold cri; field_simp_wire
  have g3 : getBytes 3 (cri c) = c.epochPkSig := by unfold cri; field_simp_wire
  have g4 : getInt32 4 (cri c) = c.alg := getInt32_one (by unfold cri; field_simp_wire) h.2
  have g5 : getBytes 5 (cri c) = c.data := by unfold cri; field_simp_wire
  simp only [criOf, g1, g2, g3, g4, g5]

theorem nymSig_plain (s : NymSignature) : Msg.Plain (nymSig s) := by unfold nymSig; plain_wire

theorem nymSigOf_nymSig (s : NymSignature) : nymSigOf (nymSig s) = some s := by
  have g1 : getBytes 1 (nymSig s) = s.main := by unfold nymSig; field_simp_wire
  have g2 : getBytes 2 (nymSig s) = s.nonce := by unfold nymSig; field_simp_wire
  simp only [nymSigOf, g1, g2]

/-- Codec of credentials. -/
def credCodec : Codec Credential Credential.Wire :=
  codec _ (fun _ => true) cred credOf cred_plain fun c h _ => credOf_cred c h
/-- Codec of signatures. -/
def sigCodec : Codec Signature Signature.Wire :=
  codec _ (fun _ => true) sig sigOf sig_plain fun s h _ => sigOf_sig s h
/-- Codec of pseudonym signatures. -/
def nymSigCodec : Codec NymSignature (fun _ => True) :=
  codec _ (fun _ => true) nymSig nymSigOf nymSig_plain fun s _ _ => nymSigOf_nymSig s
/-- Codec of revocation information. -/
def criCodec : Codec CRI CRI.Wire :=
  codec _ (fun _ => true) cri criOf cri_plain fun c h _ => criOf_cri c h

@[simp] theorem credCodec_marshal (c : Credential) : credCodec.marshal c = .ok (encode (cred c)) := rfl
@[simp] theorem sigCodec_marshal (s : Signature) : sigCodec.marshal s = .ok (encode (sig s)) := rfl
@[simp] theorem nymSigCodec_marshal (s : NymSignature) : nymSigCodec.marshal s = .ok (encode (nymSig s)) := rfl
@[simp] theorem criCodec_marshal (c : CRI) : criCodec.marshal c = .ok (encode (cri c)) := rfl

theorem credCodec_rt (c : Credential) (h : c.Wire) : credCodec.unmarshal (encode (cred c)) = .ok c :=
  credCodec.rt c _ h (credCodec_marshal c)
theorem sigCodec_rt (s : Signature) (h : s.Wire) : sigCodec.unmarshal (encode (sig s)) = .ok s :=
  sigCodec.rt s _ h (sigCodec_marshal s)
theorem nymSigCodec_rt (s : NymSignature) : nymSigCodec.unmarshal (encode (nymSig s)) = .ok s :=
  nymSigCodec.rt s _ trivial (nymSigCodec_marshal s)
theorem criCodec_rt (c : CRI) (h : c.Wire) : criCodec.unmarshal (encode (cri c)) = .ok c :=
  criCodec.rt c _ h (criCodec_marshal c)

end Wire
end Idemix.Aries
