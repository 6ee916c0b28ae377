import Verif.Base.ProtoRaw
import Verif.Dlog.Types

/-!
# Wire format of the dlog messages

The messages of `bccsp/schemes/dlog/crypto/idemix.proto` and
`bccsp/schemes/dlog/crypto/translator/amcl/amcl.proto` as protobuf field lists, with their codecs.
-/

namespace Idemix.Dlog

open Proto

/-- Issuer public keys that survive the round trip: no nil entries among the attribute bases (a nil entry
is sent as an empty message). Keys with unknown fields do as well if these are what the unmarshaller can have kept; this
is not claimed here. -/
def IssuerPublicKey.Wire (ipk : IssuerPublicKey) : Prop := (∀ e ∈ ipk.hAttrs, e.isSome) ∧ ipk.unknown = {}

/-- Requests that survive the round trip: the nonce is not the empty slice (an empty field is not sent). -/
def CredRequest.Wire (r : CredRequest) : Prop := r.issuerNonce ≠ some []

/-- Revocation information that survives the round trip: numbers in the range of their Go types. -/
def CRI.Wire (c : CRI) : Prop := Int64 c.epoch ∧ Int32 c.revocationAlg

/-- Signatures that survive the round trip: responses of pseudonyms are not the empty slice, and numbers
are in the range of their Go types. -/
def Signature.Wire (s : Signature) : Prop :=
  (∀ n, s.eidNym = some n → n.proofS ≠ some []) ∧ (∀ n, s.rhNym = some n → n.proofS ≠ some []) ∧
    Int64 s.epoch ∧ ∀ p, s.nonRevocationProof = some p → Int32 p.revocationAlg

namespace Wire

/-- `ECP` (`amcl.proto`, message ECP). -/
def ecp (p : ECP) : Msg := bytesF 1 p.x ++ bytesF 2 p.y
/-- See `ecp`. -/
def ecpOf (m : Msg) : ECP := ⟨getBytes 1 m, getBytes 2 m⟩
/-- `ECP2` (`amcl.proto`, message ECP2). -/
def ecp2 (p : ECP2) : Msg := bytesF 1 p.xa ++ (bytesF 2 p.xb ++ (bytesF 3 p.ya ++ bytesF 4 p.yb))
/-- See `ecp2`. -/
def ecp2Of (m : Msg) : ECP2 := ⟨getBytes 1 m, getBytes 2 m, getBytes 3 m, getBytes 4 m⟩

/-- Field `k` as a point. -/
def getEcp (k : Nat) (m : Msg) : Option (Option ECP) := (getMsg k m).map fun o => o.map ecpOf
/-- Field `k` as a point of the second group. -/
def getEcp2 (k : Nat) (m : Msg) : Option (Option ECP2) := (getMsg k m).map fun o => o.map ecp2Of

/-- A message field with the unknown fields of its message; nil is absent. -/
def msgU (k : Nat) (e : Bytes) : Option Msg → Msg
  | none => []
  | some m => [(k, .len (encode m ++ e))]

/-- Encodings followed by their unknown fields. -/
def withUnknown : List Bytes → List Bytes → List Bytes
  | b :: bs, e :: es => (b ++ e) :: withUnknown bs es
  | bs, _ => bs

/-- The list, empty if all its entries are. -/
def trimmed (l : List Bytes) : List Bytes := if l.all (fun b => b.isEmpty) then [] else l

/-- Declared fields of `ECP`: 1 and 2, bytes. -/
def ecpKnown (k w : Nat) : Bool := decide (1 ≤ k ∧ k ≤ 2) && w == 2
/-- Declared fields of `ECP2`: 1 to 4, bytes. -/
def ecp2Known (k w : Nat) : Bool := decide (1 ≤ k ∧ k ≤ 4) && w == 2
/-- Declared fields of `IssuerPublicKey`: 1 to 10, all with a length. -/
def ipkKnown (k w : Nat) : Bool := decide (1 ≤ k ∧ k ≤ 10) && w == 2

/-- `IssuerPublicKey` (`idemix.proto`), its declared fields. -/
def ipk (i : IssuerPublicKey) : Msg :=
  repF 1 i.attributeNames ++ (msgU 2 i.unknown.hSk (i.hSk.map ecp) ++ (msgU 3 i.unknown.hRand (i.hRand.map ecp) ++
    (repF 4 (withUnknown (i.hAttrs.map fun o => encode ((o.map ecp).getD [])) i.unknown.hAttrs) ++
    (msgU 5 i.unknown.w (i.w.map ecp2) ++ (msgU 6 i.unknown.barG1 (i.barG1.map ecp) ++
    (msgU 7 i.unknown.barG2 (i.barG2.map ecp) ++ (bytesF 8 i.proofC ++ (bytesF 9 i.proofS ++ bytesF 10 i.hash))))))))
/-- See `ipk`; the unknown fields of the points, not those of the key itself. -/
def ipkOf (m : Msg) : Option IssuerPublicKey :=
  if (lens 1 m).all utf8Valid then do
    let hSk ← getEcp 2 m
    let hRand ← getEcp 3 m
    let hAttrs ← (lens 4 m).mapM decode
    let w ← getEcp2 5 m
    let barG1 ← getEcp 6 m
    let barG2 ← getEcp 7 m
    some ⟨lens 1 m, hSk, hRand, hAttrs.map fun a => some (ecpOf a), w, barG1, barG2, getBytes 8 m,
      getBytes 9 m, getBytes 10 m,
      { hSk := (lens 2 m).flatMap (unknown ecpKnown)
        hRand := (lens 3 m).flatMap (unknown ecpKnown)
        hAttrs := trimmed ((lens 4 m).map (unknown ecpKnown))
        w := (lens 5 m).flatMap (unknown ecp2Known)
        barG1 := (lens 6 m).flatMap (unknown ecpKnown)
        barG2 := (lens 7 m).flatMap (unknown ecpKnown) }⟩
  else none

/-- The key with these unknown fields of its own. -/
def withTop (i : IssuerPublicKey) (e : Bytes) : IssuerPublicKey := { i with unknown := { i.unknown with top := e } }

/-- `IssuerKey` (`idemix.proto`). The model has no issuer key without public part. -/
def key (k : IssuerKey) : Msg := bytesF 1 k.isk ++ msgU 2 k.ipk.unknown.top (some (ipk k.ipk))
/-- See `key`. An absent public part is reported as an error here; the code returns a key with a nil public
part. -/
def keyOf (m : Msg) : Option IssuerKey := do
  let o ← getMsg 2 m
  let f ← o
  let i ← ipkOf f
  some ⟨getBytes 1 m, withTop i ((lens 2 m).flatMap (unknown ipkKnown))⟩

/-- `Credential` (`idemix.proto`). -/
def cred (c : Credential) : Msg :=
  msgF 1 (c.a.map ecp) ++ (msgF 2 (c.b.map ecp) ++ (bytesF 3 c.e ++ (bytesF 4 c.s ++ repF 5 c.attrs)))
/-- See `cred`. -/
def credOf (m : Msg) : Option Credential := do
  let a ← getEcp 1 m
  let b ← getEcp 2 m
  some ⟨a, b, getBytes 3 m, getBytes 4 m, lens 5 m⟩

/-- `CredRequest` (`idemix.proto`). -/
def req (r : CredRequest) : Msg :=
  msgF 1 (r.nym.map ecp) ++ (bytesF 2 (r.issuerNonce.getD []) ++ (bytesF 3 r.proofC ++ bytesF 4 r.proofS))
/-- See `req`. -/
def reqOf (m : Msg) : Option CredRequest := do
  let nym ← getEcp 1 m
  some ⟨nym, getBytes? 2 m, getBytes 3 m, getBytes 4 m⟩

/-- `EIDNym` and `RHNym` (`idemix.proto`). -/
def attrNym (n : AttrNym) : Msg := msgF 1 (n.nym.map ecp) ++ bytesF 2 (n.proofS.getD [])
/-- See `attrNym`. -/
def attrNymOf (m : Msg) : Option AttrNym := do
  let nym ← getEcp 1 m
  some ⟨nym, getBytes? 2 m⟩
/-- Field `k` as a pseudonym. -/
def getAttrNym (k : Nat) (m : Msg) : Option (Option AttrNym) := do
  let o ← getMsg k m
  match o with
  | none => some none
  | some f => do
    let n ← attrNymOf f
    some (some n)

/-- `NonRevocationProof` (`idemix.proto`). -/
def nonRev (p : NonRevocationProof) : Msg := intF 1 p.revocationAlg ++ bytesF 2 p.proof
/-- See `nonRev`. -/
def nonRevOf (m : Msg) : NonRevocationProof := ⟨getInt32 1 m, getBytes 2 m⟩

/-- `Signature` (`idemix.proto`). -/
def sig (s : Signature) : Msg :=
  msgF 1 (s.aPrime.map ecp) ++ (msgF 2 (s.aBar.map ecp) ++ (msgF 3 (s.bPrime.map ecp) ++
    (bytesF 4 s.proofC ++ (bytesF 5 s.proofSSk ++ (bytesF 6 s.proofSE ++ (bytesF 7 s.proofSR2 ++
    (bytesF 8 s.proofSR3 ++ (bytesF 9 s.proofSSPrime ++ (repF 10 s.proofSAttrs ++ (bytesF 11 s.nonce ++
    (msgF 12 (s.nym.map ecp) ++ (bytesF 13 s.proofSRNym ++ (msgF 14 (s.revocationEpochPk.map ecp2) ++
    (bytesF 15 s.revocationPkSig ++ (intF 16 s.epoch ++ (msgF 17 (s.nonRevocationProof.map nonRev) ++
    (msgF 18 (s.eidNym.map attrNym) ++ msgF 19 (s.rhNym.map attrNym))))))))))))))))))
/-- See `sig`. -/
def sigOf (m : Msg) : Option Signature := do
  let aPrime ← getEcp 1 m
  let aBar ← getEcp 2 m
  let bPrime ← getEcp 3 m
  let nym ← getEcp 12 m
  let epk ← getEcp2 14 m
  let nr ← getMsg 17 m
  let eid ← getAttrNym 18 m
  let rh ← getAttrNym 19 m
  some ⟨aPrime, aBar, bPrime, getBytes 4 m, getBytes 5 m, getBytes 6 m, getBytes 7 m, getBytes 8 m,
    getBytes 9 m, lens 10 m, getBytes 11 m, nym, getBytes 13 m, epk, getBytes 15 m, getInt64 16 m,
    nr.map nonRevOf, eid, rh⟩

/-- `NymSignature` (`idemix.proto`). -/
def nymSig (s : NymSignature) : Msg :=
  bytesF 1 s.proofC ++ (bytesF 2 s.proofSSk ++ (bytesF 3 s.proofSRNym ++ bytesF 4 s.nonce))
/-- See `nymSig`. -/
def nymSigOf (m : Msg) : Option NymSignature :=
  some ⟨getBytes 1 m, getBytes 2 m, getBytes 3 m, getBytes 4 m⟩

/-- `CredentialRevocationInformation` (`idemix.proto`). -/
def cri (c : CRI) : Msg :=
  intF 1 c.epoch ++ (msgF 2 (c.epochPk.map ecp2) ++ (bytesF 3 c.epochPkSig ++ (intF 4 c.revocationAlg ++
    bytesF 5 c.revocationData)))
/-- See `cri`. -/
def criOf (m : Msg) : Option CRI := do
  let pk ← getEcp2 2 m
  some ⟨getInt64 1 m, pk, getBytes 3 m, getInt32 4 m, getBytes 5 m⟩

/-- Revocation information of which the epoch key has the unknown fields `u`. -/
def criU (c : CRI) (u : Bytes) : Msg :=
  intF 1 c.epoch ++ (msgU 2 u (c.epochPk.map ecp2) ++ (bytesF 3 c.epochPkSig ++ (intF 4 c.revocationAlg ++
    bytesF 5 c.revocationData)))

/-- The unknown fields of the epoch key in encoded revocation information. -/
def epochPkUnknown (b : Bytes) : Bytes :=
  ((decode b).map fun m => (lens 2 m).flatMap (unknown ecp2Known)).getD []

/-! ## Round trips -/

theorem ecp_plain (p : ECP) : Msg.Plain (ecp p) :=
  plain_append (plain_bytesF (by decide) _) (plain_bytesF (by decide) _)

theorem ecp2_plain (p : ECP2) : Msg.Plain (ecp2 p) :=
  plain_append (plain_bytesF (by decide) _) (plain_append (plain_bytesF (by decide) _)
    (plain_append (plain_bytesF (by decide) _) (plain_bytesF (by decide) _)))

theorem ecpOf_ecp (p : ECP) : ecpOf (ecp p) = p := by
  simp [ecpOf, ecp, getBytes, lens_append, lens_bytesF, getLast_bytes]

theorem ecp2Of_ecp2 (p : ECP2) : ecp2Of (ecp2 p) = p := by
  simp [ecp2Of, ecp2, getBytes, lens_append, lens_bytesF, getLast_bytes]

theorem getMsg_one {k : Nat} {m : Msg} {o : Option Msg} (h : lens k m = (o.map encode).toList)
    (hp : ∀ f, o = some f → Msg.Plain f) : getMsg k m = some o := by
  unfold getMsg
  cases o with
  | none => simp [h]
  | some f => simp [h, decode_encode f (hp f rfl)]

theorem getEcp_one {k : Nat} {m : Msg} {o : Option ECP} (h : lens k m = ((o.map ecp).map encode).toList) :
    getEcp k m = some o := by
  unfold getEcp
  rw [getMsg_one h (by rintro f hf; cases o with
    | none => cases hf
    | some p => cases hf; exact ecp_plain p)]
  cases o <;> simp [ecpOf_ecp]

theorem getEcp2_one {k : Nat} {m : Msg} {o : Option ECP2} (h : lens k m = ((o.map ecp2).map encode).toList) :
    getEcp2 k m = some o := by
  unfold getEcp2
  rw [getMsg_one h (by rintro f hf; cases o with
    | none => cases hf
    | some p => cases hf; exact ecp2_plain p)]
  cases o <;> simp [ecp2Of_ecp2]

/-- Automation: look up one field of an encoded message. -/
macro "field_simp_wire" : tactic => `(tactic|
  simp [lens_append, lens_bytesF, lens_msgF, lens_repF, lens_intF, varints_append, varints_bytesF,
    varints_msgF, varints_repF, varints_intF, getBytes, getBytes?, getLast_bytes, getInt32, getInt64,
    getLast_int])

theorem plain_msgU {k : Nat} (hk : 1 ≤ k ∧ k ≤ 536870911) (e : Bytes) (o : Option Msg) : Msg.Plain (msgU k e o) := by
  intro t ht
  cases o with
  | none => cases ht
  | some m => simp only [msgU, List.mem_singleton] at ht; subst ht; exact ⟨hk, .inr ⟨_, rfl⟩⟩

theorem msgU_nil (k : Nat) (o : Option Msg) : msgU k [] o = msgF k o := by
  cases o <;> simp [msgU, msgF]

theorem withUnknown_nil (l : List Bytes) : withUnknown l [] = l := by cases l <;> rfl

theorem ecp_unknown (p : ECP) : unknown ecpKnown (encode (ecp p)) = [] := by
  refine unknown_encode _ _ (ecp_plain p) fun t ht => ?_
  simp only [ecp, bytesF, List.mem_append] at ht
  rcases ht with ht | ht <;> split at ht <;> simp only [List.mem_singleton, List.not_mem_nil] at ht <;> subst ht <;> rfl

theorem ecp2_unknown (p : ECP2) : unknown ecp2Known (encode (ecp2 p)) = [] := by
  refine unknown_encode _ _ (ecp2_plain p) fun t ht => ?_
  simp only [ecp2, bytesF, List.mem_append] at ht
  rcases ht with ht | ht | ht | ht <;> split at ht <;> simp only [List.mem_singleton, List.not_mem_nil] at ht <;>
    subst ht <;> rfl

theorem ecp_unknowns (o : Option ECP) : (((o.map ecp).map encode).toList).flatMap (unknown ecpKnown) = [] := by
  cases o <;> simp [ecp_unknown]

theorem ecp2_unknowns (o : Option ECP2) : (((o.map ecp2).map encode).toList).flatMap (unknown ecp2Known) = [] := by
  cases o <;> simp [ecp2_unknown]

theorem bases_unknowns (l : List (Option ECP)) :
    trimmed ((l.map fun o => encode ((o.map ecp).getD [])).map (unknown ecpKnown)) = [] := by
  have h : ((l.map fun o => encode ((o.map ecp).getD [])).map (unknown ecpKnown)).all (fun b => b.isEmpty) = true := by
    simp only [List.all_map, List.all_eq_true, Function.comp_apply]
    intro o _
    cases o with
    | none => rfl
    | some p => simp [ecp_unknown]
  rw [trimmed, if_pos h]

macro "plain_wire" : tactic => `(tactic|
  repeat' first
    | apply plain_append
    | exact plain_bytesF (by decide) _
    | exact plain_msgF (by decide) _
    | exact plain_msgU (by decide) _ _
    | exact plain_repF (by decide) _
    | exact plain_intF (by decide) _)

theorem ipk_plain (i : IssuerPublicKey) : Msg.Plain (ipk i) := by unfold ipk; plain_wire

theorem decode_points (l : List (Option ECP)) (h : ∀ e ∈ l, e.isSome) :
    ((l.map fun o => encode ((o.map ecp).getD [])).mapM decode).map
      (List.map fun a => some (ecpOf a)) = some l := by
  induction l with
  | nil => rfl
  | cons o l ih =>
    have ho := h o (by simp)
    obtain ⟨p, rfl⟩ := Option.isSome_iff_exists.mp ho
    have ih := ih (fun e he => h e (by simp [he]))
    rw [Option.map_eq_some_iff] at ih
    obtain ⟨a, ha, hb⟩ := ih
    simp [List.mapM_cons, decode_encode _ (ecp_plain p), ha, ecpOf_ecp, hb]

theorem ipk_known (i : IssuerPublicKey) : ∀ t ∈ ipk i, ipkKnown t.1 t.2.wireType = true := by
  have hb : ∀ k b, 1 ≤ k ∧ k ≤ 10 → ∀ t ∈ bytesF k b, ipkKnown t.1 t.2.wireType = true := by
    intro k b hk t ht
    unfold bytesF at ht
    split at ht
    · cases ht
    · simp only [List.mem_singleton] at ht; subst ht; simp [ipkKnown, hk, WVal.wireType]
  have hm : ∀ k e o, 1 ≤ k ∧ k ≤ 10 → ∀ t ∈ msgU k e o, ipkKnown t.1 t.2.wireType = true := by
    intro k e o hk t ht
    cases o with
    | none => cases ht
    | some m => simp only [msgU, List.mem_singleton] at ht; subst ht; simp [ipkKnown, hk, WVal.wireType]
  have hr : ∀ k l, 1 ≤ k ∧ k ≤ 10 → ∀ t ∈ repF k l, ipkKnown t.1 t.2.wireType = true := by
    intro k l hk t ht
    simp only [repF, List.mem_map] at ht
    obtain ⟨b, -, rfl⟩ := ht
    simp [ipkKnown, hk, WVal.wireType]
  intro t ht
  simp only [ipk, List.mem_append] at ht
  rcases ht with ht | ht | ht | ht | ht | ht | ht | ht | ht | ht
  · exact hr _ _ (by decide) t ht
  · exact hm _ _ _ (by decide) t ht
  · exact hm _ _ _ (by decide) t ht
  · exact hr _ _ (by decide) t ht
  · exact hm _ _ _ (by decide) t ht
  · exact hm _ _ _ (by decide) t ht
  · exact hm _ _ _ (by decide) t ht
  · exact hb _ _ (by decide) t ht
  · exact hb _ _ (by decide) t ht
  · exact hb _ _ (by decide) t ht

theorem ipk_unknown (i : IssuerPublicKey) : unknown ipkKnown (encode (ipk i)) = [] :=
  unknown_encode _ _ (ipk_plain i) (ipk_known i)

theorem ipkOf_ipk (i : IssuerPublicKey) (h : i.Wire) (hc : i.attributeNames.all utf8Valid = true) :
    ipkOf (ipk i) = some i := by
  obtain ⟨h, hu⟩ := h
  have e : ipk i = repF 1 i.attributeNames ++ (msgF 2 (i.hSk.map ecp) ++ (msgF 3 (i.hRand.map ecp) ++
      (repF 4 (i.hAttrs.map fun o => encode ((o.map ecp).getD [])) ++ (msgF 5 (i.w.map ecp2) ++
      (msgF 6 (i.barG1.map ecp) ++ (msgF 7 (i.barG2.map ecp) ++ (bytesF 8 i.proofC ++ (bytesF 9 i.proofS ++
      bytesF 10 i.hash)))))))) := by
    rw [ipk, hu]
    simp only [msgU_nil, withUnknown_nil]
  have l1 : lens 1 (ipk i) = i.attributeNames := by rw [e]; field_simp_wire
  have l2 : lens 2 (ipk i) = ((i.hSk.map ecp).map encode).toList := by rw [e]; field_simp_wire
  have l3 : lens 3 (ipk i) = ((i.hRand.map ecp).map encode).toList := by rw [e]; field_simp_wire
  have l4 : lens 4 (ipk i) = i.hAttrs.map fun o => encode ((o.map ecp).getD []) := by
    rw [e]; field_simp_wire
  have l5 : lens 5 (ipk i) = ((i.w.map ecp2).map encode).toList := by rw [e]; field_simp_wire
  have l6 : lens 6 (ipk i) = ((i.barG1.map ecp).map encode).toList := by rw [e]; field_simp_wire
  have l7 : lens 7 (ipk i) = ((i.barG2.map ecp).map encode).toList := by rw [e]; field_simp_wire
  have g2 : getEcp 2 (ipk i) = some i.hSk := getEcp_one l2
  have g3 : getEcp 3 (ipk i) = some i.hRand := getEcp_one l3
  have g5 : getEcp2 5 (ipk i) = some i.w := getEcp2_one l5
  have g6 : getEcp 6 (ipk i) = some i.barG1 := getEcp_one l6
  have g7 : getEcp 7 (ipk i) = some i.barG2 := getEcp_one l7
  have g8 : getBytes 8 (ipk i) = i.proofC := by rw [e]; field_simp_wire
  have g9 : getBytes 9 (ipk i) = i.proofS := by rw [e]; field_simp_wire
  have g10 : getBytes 10 (ipk i) = i.hash := by rw [e]; field_simp_wire
  have hd := decode_points i.hAttrs h
  rw [Option.map_eq_some_iff] at hd
  obtain ⟨a, ha, hb⟩ := hd
  simp only [ipkOf, l1, l2, l3, l4, l5, l6, l7, hc, if_true, g2, g3, g5, g6, g7, g8, g9, g10, ha, hb,
    Option.bind_eq_bind, Option.bind_some, ecp_unknowns, ecp2_unknowns, bases_unknowns]
  rw [← hu]

theorem withTop_nil {i : IssuerPublicKey} (h : i.unknown = {}) : withTop i [] = i := by
  unfold withTop
  rw [h, ← h]

theorem key_plain (k : IssuerKey) : Msg.Plain (key k) := by unfold key; plain_wire

theorem keyOf_key (k : IssuerKey) (h : k.ipk.Wire) (hc : k.ipk.attributeNames.all utf8Valid = true) :
    keyOf (key k) = some k := by
  have e : key k = bytesF 1 k.isk ++ msgF 2 (some (ipk k.ipk)) := by
    rw [key, h.2]
    simp only [msgU_nil]
  have l2 : lens 2 (key k) = [encode (ipk k.ipk)] := by rw [e]; field_simp_wire
  have g1 : getBytes 1 (key k) = k.isk := by rw [e]; field_simp_wire
  have g2 : getMsg 2 (key k) = some (some (ipk k.ipk)) :=
    getMsg_one l2 (by rintro f hf; cases hf; exact ipk_plain _)
  simp only [keyOf, g1, g2, l2, Option.bind_eq_bind, Option.bind_some, ipkOf_ipk k.ipk h hc, List.flatMap_cons,
    List.flatMap_nil, List.append_nil, ipk_unknown, withTop_nil h.2]

theorem cred_plain (c : Credential) : Msg.Plain (cred c) := by unfold cred; plain_wire

theorem credOf_cred (c : Credential) : credOf (cred c) = some c := by
  have g1 : getEcp 1 (cred c) = some c.a := getEcp_one (by unfold cred; field_simp_wire)
  have g2 : getEcp 2 (cred c) = some c.b := getEcp_one (by unfold cred; field_simp_wire)
  have g3 : getBytes 3 (cred c) = c.e := by unfold cred; field_simp_wire
  have g4 : getBytes 4 (cred c) = c.s := by unfold cred; field_simp_wire
  have g5 : lens 5 (cred c) = c.attrs := by unfold cred; field_simp_wire
  simp only [credOf, g1, g2, g3, g4, g5, Option.bind_eq_bind, Option.bind_some]

theorem req_plain (r : CredRequest) : Msg.Plain (req r) := by unfold req; plain_wire

theorem optBytes (o : Option Bytes) (h : o ≠ some []) :
    ((if o.getD [] = [] then [] else [o.getD []] : List Bytes).getLast?.filter fun b => b ≠ []) = o := by
  cases o with
  | none => simp
  | some b =>
    have : b ≠ [] := fun e => h (by rw [e])
    simp [this]

theorem reqOf_req (r : CredRequest) (h : r.Wire) : reqOf (req r) = some r := by
  have g1 : getEcp 1 (req r) = some r.nym := getEcp_one (by unfold req; field_simp_wire)
  have l2 : lens 2 (req r) =
      if r.issuerNonce.getD [] = [] then [] else [r.issuerNonce.getD []] := by unfold req; field_simp_wire
  have g2 : getBytes? 2 (req r) = r.issuerNonce := by
    unfold getBytes?; rw [l2]; exact optBytes _ h
  have g3 : getBytes 3 (req r) = r.proofC := by unfold req; field_simp_wire
  have g4 : getBytes 4 (req r) = r.proofS := by unfold req; field_simp_wire
  simp only [reqOf, g1, g2, g3, g4, Option.bind_eq_bind, Option.bind_some]

theorem attrNym_plain (n : AttrNym) : Msg.Plain (attrNym n) := by unfold attrNym; plain_wire

theorem attrNymOf_attrNym (n : AttrNym) (h : n.proofS ≠ some []) : attrNymOf (attrNym n) = some n := by
  have g1 : getEcp 1 (attrNym n) = some n.nym := getEcp_one (by unfold attrNym; field_simp_wire)
  have l2 : lens 2 (attrNym n) = if n.proofS.getD [] = [] then [] else [n.proofS.getD []] := by
    unfold attrNym; field_simp_wire
  have g2 : getBytes? 2 (attrNym n) = n.proofS := by
    unfold getBytes?; rw [l2]; exact optBytes _ h
  simp only [attrNymOf, g1, g2, Option.bind_eq_bind, Option.bind_some]

theorem getAttrNym_one {k : Nat} {m : Msg} {o : Option AttrNym}
    (h : lens k m = ((o.map attrNym).map encode).toList) (hw : ∀ n, o = some n → n.proofS ≠ some []) :
    getAttrNym k m = some o := by
  unfold getAttrNym
  rw [getMsg_one h (by rintro f hf; cases o with
    | none => cases hf
    | some p => cases hf; exact attrNym_plain p)]
  cases o with
  | none => rfl
  | some n => simp [attrNymOf_attrNym n (hw n rfl)]

theorem nonRev_plain (p : NonRevocationProof) : Msg.Plain (nonRev p) := by unfold nonRev; plain_wire

theorem nonRevOf_nonRev (p : NonRevocationProof) (h : Int32 p.revocationAlg) :
    nonRevOf (nonRev p) = p := by
  have g1 : getInt32 1 (nonRev p) = p.revocationAlg := by
    have : varints 1 (nonRev p) =
        if p.revocationAlg = 0 then [] else [(p.revocationAlg % 18446744073709551616).toNat] := by
      unfold nonRev; field_simp_wire
    rw [getInt32, this, getLast_int, signed32_of _ h]
  have g2 : getBytes 2 (nonRev p) = p.proof := by unfold nonRev; field_simp_wire
  simp only [nonRevOf, g1, g2]

theorem sig_plain (s : Signature) : Msg.Plain (sig s) := by unfold sig; plain_wire

theorem sigOf_sig (s : Signature) (h : s.Wire) : sigOf (sig s) = some s := by
  obtain ⟨h1, h2, h3, h4⟩ := h
  have g1 : getEcp 1 (sig s) = some s.aPrime := getEcp_one (by unfold sig; field_simp_wire)
  have g2 : getEcp 2 (sig s) = some s.aBar := getEcp_one (by unfold sig; field_simp_wire)
  have g3 : getEcp 3 (sig s) = some s.bPrime := getEcp_one (by unfold sig; field_simp_wire)
  have g4 : getBytes 4 (sig s) = s.proofC := by unfold sig; field_simp_wire
  have g5 : getBytes 5 (sig s) = s.proofSSk := by unfold sig; field_simp_wire
  have g6 : getBytes 6 (sig s) = s.proofSE := by unfold sig; field_simp_wire
  have g7 : getBytes 7 (sig s) = s.proofSR2 := by unfold sig; field_simp_wire
  have g8 : getBytes 8 (sig s) = s.proofSR3 := by unfold sig; field_simp_wire
  have g9 : getBytes 9 (sig s) = s.proofSSPrime := by unfold sig; field_simp_wire
  have g10 : lens 10 (sig s) = s.proofSAttrs := by unfold sig; field_simp_wire
  have g11 : getBytes 11 (sig s) = s.nonce := by unfold sig; field_simp_wire
  have g12 : getEcp 12 (sig s) = some s.nym := getEcp_one (by unfold sig; field_simp_wire)
  have g13 : getBytes 13 (sig s) = s.proofSRNym := by unfold sig; field_simp_wire
  have g14 : getEcp2 14 (sig s) = some s.revocationEpochPk := getEcp2_one (by unfold sig; field_simp_wire)
  have g15 : getBytes 15 (sig s) = s.revocationPkSig := by unfold sig; field_simp_wire
  have g16 : getInt64 16 (sig s) = s.epoch := by
    have : varints 16 (sig s) =
        if s.epoch = 0 then [] else [(s.epoch % 18446744073709551616).toNat] := by
      unfold sig; field_simp_wire
    rw [getInt64, this, getLast_int, signed64_of _ h3]
  have g17 : getMsg 17 (sig s) = some (s.nonRevocationProof.map nonRev) :=
    getMsg_one (by unfold sig; field_simp_wire) (by
      rintro f hf
      rw [Option.map_eq_some_iff] at hf
      obtain ⟨p, -, rfl⟩ := hf
      exact nonRev_plain p)
  have g17' : (s.nonRevocationProof.map nonRev).map nonRevOf = s.nonRevocationProof := by
    cases hp : s.nonRevocationProof with
    | none => rfl
    | some p => simp [nonRevOf_nonRev p (h4 p hp)]
  have g18 : getAttrNym 18 (sig s) = some s.eidNym :=
    getAttrNym_one (by unfold sig; field_simp_wire) h1
  have g19 : getAttrNym 19 (sig s) = some s.rhNym :=
    getAttrNym_one (by unfold sig; field_simp_wire) h2
  simp only [sigOf, g1, g2, g3, g4, g5, g6, g7, g8, g9, g10, g11, g12, g13, g14, g15, g16, g17, g17', g18, g19,
    Option.bind_eq_bind, Option.bind_some]

theorem nymSig_plain (s : NymSignature) : Msg.Plain (nymSig s) := by unfold nymSig; plain_wire

theorem nymSigOf_nymSig (s : NymSignature) : nymSigOf (nymSig s) = some s := by
  have g1 : getBytes 1 (nymSig s) = s.proofC := by unfold nymSig; field_simp_wire
  have g2 : getBytes 2 (nymSig s) = s.proofSSk := by unfold nymSig; field_simp_wire
  have g3 : getBytes 3 (nymSig s) = s.proofSRNym := by unfold nymSig; field_simp_wire
  have g4 : getBytes 4 (nymSig s) = s.nonce := by unfold nymSig; field_simp_wire
  simp only [nymSigOf, g1, g2, g3, g4]

theorem cri_plain (c : CRI) : Msg.Plain (cri c) := by unfold cri; plain_wire

theorem criU_nil (c : CRI) : criU c [] = cri c := by
  have : msgU 2 [] (c.epochPk.map ecp2) = msgF 2 (c.epochPk.map ecp2) := msgU_nil 2 _
  rw [criU, cri, this]

theorem criU_plain (c : CRI) (u : Bytes) : Msg.Plain (criU c u) := by unfold criU; plain_wire

theorem epochPkUnknown_cri (c : CRI) : epochPkUnknown (encode (cri c)) = [] := by
  have l2 : lens 2 (cri c) = ((c.epochPk.map ecp2).map encode).toList := by unfold cri; field_simp_wire
  rw [epochPkUnknown, decode_encode _ (cri_plain c), Option.map_some, Option.getD_some, l2, ecp2_unknowns]

theorem criOf_cri (c : CRI) (h : c.Wire) : criOf (cri c) = some c := by
  have g1 : getInt64 1 (cri c) = c.epoch := by
    have : varints 1 (cri c) =
        if c.epoch = 0 then [] else [(c.epoch % 18446744073709551616).toNat] := by
      unfold cri; field_simp_wire
    rw [getInt64, this, getLast_int, signed64_of _ h.1]
  have g4 : getInt32 4 (cri c) = c.revocationAlg := by
    have : varints 4 (cri c) =
        if c.revocationAlg = 0 then [] else [(c.revocationAlg % 18446744073709551616).toNat] := by
      unfold cri; field_simp_wire
    rw [getInt32, this, getLast_int, signed32_of _ h.2]
  have g2 : getEcp2 2 (cri c) = some c.epochPk := getEcp2_one (by unfold cri; field_simp_wire)
  have g3 : getBytes 3 (cri c) = c.epochPkSig := by unfold cri; field_simp_wire
  have g5 : getBytes 5 (cri c) = c.revocationData := by unfold cri; field_simp_wire
  simp only [criOf, g1, g2, g3, g4, g5, Option.bind_eq_bind, Option.bind_some]

/-! ## Codecs -/

/-- Codec of issuer public keys. -/
def ipkCodec : Codec IssuerPublicKey IssuerPublicKey.Wire where
  marshal i := if i.attributeNames.all utf8Valid then .ok (encode (ipk i) ++ i.unknown.top)
    else .err "string field contains invalid UTF-8"
  unmarshal b := Res.ofOption "cannot parse invalid wire-format data"
    (((decode b).bind ipkOf).map fun i => withTop i (unknown ipkKnown b))
  rt i b hw h := by
    split at h
    · next hc =>
      cases h
      have e : encode (ipk i) ++ i.unknown.top = encode (ipk i) := by rw [hw.2]; exact List.append_nil _
      rw [e]
      simp only [decode_encode _ (ipk_plain i), Option.bind_some, ipkOf_ipk i hw hc, Option.map_some, ipk_unknown,
        withTop_nil hw.2, Res.ofOption_some]
    · cases h
  marshal_np a h := by split at h <;> cases h
  unmarshal_np b h := by
    cases hh : ((decode b).bind ipkOf).map fun i => withTop i (unknown ipkKnown b) <;> rw [hh] at h <;> cases h
/-- Codec of issuer keys. -/
def keyCodec : Codec IssuerKey (fun k => k.ipk.Wire) :=
  codec _ (fun k => k.ipk.attributeNames.all utf8Valid) key keyOf key_plain keyOf_key
/-- Codec of credential requests. -/
def reqCodec : Codec CredRequest CredRequest.Wire :=
  codec _ (fun _ => true) req reqOf req_plain fun r h _ => reqOf_req r h
/-- Codec of credentials. -/
def credCodec : Codec Credential (fun _ => True) :=
  codec _ (fun _ => true) cred credOf cred_plain fun c _ _ => credOf_cred c
/-- Codec of signatures. -/
def sigCodec : Codec Signature Signature.Wire :=
  codec _ (fun _ => true) sig sigOf sig_plain fun s h _ => sigOf_sig s h
/-- Codec of pseudonym signatures. -/
def nymSigCodec : Codec NymSignature (fun _ => True) :=
  codec _ (fun _ => true) nymSig nymSigOf nymSig_plain fun s _ _ => nymSigOf_nymSig s
/-- Codec of revocation information. -/
def criCodec : Codec CRI CRI.Wire :=
  codec _ (fun _ => true) cri criOf cri_plain fun c h _ => criOf_cri c h

end Wire
end Idemix.Dlog
