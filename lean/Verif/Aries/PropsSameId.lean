import Verif.Aries.PropsLink

/-!
# C107: signatures with one commitment are of holders of one enrollment identifier (aries scheme)
-/

namespace Idemix.Aries

open Bbs Bbs.Ex
open Dlog (SigType VerType AuditData SignerMetadata AuditType)
open Dlog.Spec (Relation)

variable {S : Suite}

/-- `ms` is certified by what is extracted from the signer, and is hidden as extracted. -/
def Spec.Rewound.Certified {ipk : IPK S} {w : S.G2} {n k : Nat} (R : Spec.Rewound ipk w n k) (ms : List S.F) : Prop :=
  let x := Bbs.Spec.extract R.P₁.sp R.P₂.sp R.c₁ R.c₂
  Bbs.Spec.Signature w ipk.pkg.h0 ipk.pkg.h x.A x.e x.s ms ∧ Bbs.Spec.unshown R.P₁.rev ms = x.hidden

/-- The same for signers who commit to an enrollment identifier at index `i` (as in `C41_eid_partial`). -/
structure Spec.EidRewound (ipk : IPK S) (w : S.G2) (n k i : Nat) extends Spec.Rewound ipk w n k where
  (pe₁ pe₂ : ProofG1 S)
  comm : S.G1
  index : eid = i
  e₁ : P₁.eid = some (pe₁, comm)
  e₂ : P₂.eid = some (pe₂, comm)
  hf : pe₁.commitment = pe₂.commitment
  l₁ : pe₁.responses.length = 2
  l₂ : pe₂.responses.length = 2
  hh : Spec.Hides attributes i
  i₁ : sig₁.nymEidIdx = (2 + (Bbs.Spec.unshown P₁.rev (List.range (Spec.slot k i))).length : Nat)
  i₂ : sig₂.nymEidIdx = sig₁.nymEidIdx

/-- The same for signers who commit to a revocation handle at index `i` (as in `C41_rh_partial`). -/
structure Spec.RhRewound (ipk : IPK S) (w : S.G2) (n k i : Nat) extends Spec.Rewound ipk w n k where
  (pr₁ pr₂ : ProofG1 S)
  comm : S.G1
  index : rh = i
  e₁ : P₁.rh = some (pr₁, comm)
  e₂ : P₂.rh = some (pr₂, comm)
  hf : pr₁.commitment = pr₂.commitment
  l₁ : pr₁.responses.length = 2
  l₂ : pr₂.responses.length = 2
  hh : Spec.Hides attributes i
  i₁ : sig₁.nymRhIdx = (2 + (Bbs.Spec.unshown P₁.rev (List.range (Spec.slot k i))).length : Nat)
  i₂ : sig₂.nymRhIdx = sig₁.nymRhIdx

/-- **C107 (aries, partial).** Let two signatures, whatever else they are about, carry the same commitment to an enrollment identifier
at index `i`. Then the values that are extracted from their signers and that the issuer certified have the same enrollment identifier, or a
relation between the generators is computed. What is missing: what is missing in `C41_eid_partial`, and verification types that
do not ask for the commitment (`C105_aries_violated`). -/
theorem C107_aries_enrollment_partial (ipk : IPK S) (w : S.G2) (n k i : Nat) (hkey : Spec.IsKey ipk w n)
    (R R' : Spec.EidRewound ipk w n k i) (same : R.sig₁.nymEid = R'.sig₁.nymEid) :
    ∃ ms ms' r value r' value' h, R.Certified ms ∧ R'.Certified ms' ∧
      Bbs.Spec.witness R.c₁ R.c₂ R.pe₁.responses R.pe₂.responses = [r, value] ∧
      Bbs.Spec.witness R'.c₁ R'.c₂ R'.pe₁.responses R'.pe₂.responses = [r', value'] ∧ ms[Spec.slot k i]? = some value ∧
      ms'[Spec.slot k i]? = some value' ∧ ipk.pkg.h[Spec.slot k i]? = some h ∧
      (value = value' ∨ Relation S [r - r', value - value'] [ipk.pkg.h0, h]) := by
  have main : ∀ R : Spec.EidRewound ipk w n k i, ∃ ms r value h, R.Certified ms ∧
      Bbs.Spec.witness R.c₁ R.c₂ R.pe₁.responses R.pe₂.responses = [r, value] ∧ ms[Spec.slot k i]? = some value ∧
      ipk.pkg.h[Spec.slot k i]? = some h ∧ R.comm = r • ipk.pkg.h0 + value • h ∧ S.g1OfBytes R.sig₁.nymEid = some R.comm := by
    intro R
    have h₁ := R.h₁
    have h₂ := R.h₂
    rw [R.index] at h₁ h₂
    obtain ⟨ms, a1, a2, r, value, h, a3, a4, a5, a6⟩ := C41_eid_partial R.L₁ R.L₂ ipk w n k hkey R.attributes R.sig₁ R.sig₂ R.P₁ R.P₂
      R.pn₁ R.pn₂ R.pe₁ R.pe₂ R.comm R.msg₁ R.msg₂ R.raw₁ R.raw₂ i R.rh R.v R.m R.md₁ R.md₂ R.hv h₁ h₂ R.u₁ R.u₂ R.p₁ R.p₂ R.ht
      R.e₁ R.e₂ R.hf R.l₁ R.l₂ R.hh R.i₁ R.i₂
    refine ⟨ms, r, value, h, ⟨a1, a2⟩, a3, a4, a5, a6, ?_⟩
    obtain ⟨-, -, -, -, -, -, pe, pr⟩ := parseParts_ok R.p₁
    rcases onlyIf_comm pe with ⟨-, q⟩ | ⟨-, q, P', b1, b2⟩
    · rw [R.e₁] at q; cases q
    · rw [R.e₁] at b1; cases b1; exact b2
  obtain ⟨ms, r, value, h, a1, a2, a3, a4, a5, a6⟩ := main R
  obtain ⟨ms', r', value', h', b1, b2, b3, b4, b5, b6⟩ := main R'
  rw [a4] at b4
  cases b4
  rw [same, b6] at a6
  have e := Option.some.inj a6
  exact ⟨ms, ms', r, value, r', value', h, a1, b1, a2, b2, a3, b3, a4, one_secret a5 (e ▸ b5)⟩

/-- **C107 (aries, partial), revocation handles.** Let two signatures, whatever else they are about, carry the same commitment to a revocation handle
at index `i`. Then the values that are extracted from their signers and that the issuer certified have the same revocation handle, or a
relation between the generators is computed. What is missing: what is missing in `C41_rh_partial`, and verification types that
do not ask for the commitment (`C105_aries_violated`). -/
theorem C107_aries_handle_partial (ipk : IPK S) (w : S.G2) (n k i : Nat) (hkey : Spec.IsKey ipk w n)
    (R R' : Spec.RhRewound ipk w n k i) (same : R.sig₁.nymRh = R'.sig₁.nymRh) :
    ∃ ms ms' r value r' value' h, R.Certified ms ∧ R'.Certified ms' ∧
      Bbs.Spec.witness R.c₁ R.c₂ R.pr₁.responses R.pr₂.responses = [r, value] ∧
      Bbs.Spec.witness R'.c₁ R'.c₂ R'.pr₁.responses R'.pr₂.responses = [r', value'] ∧ ms[Spec.slot k i]? = some value ∧
      ms'[Spec.slot k i]? = some value' ∧ ipk.pkg.h[Spec.slot k i]? = some h ∧
      (value = value' ∨ Relation S [r - r', value - value'] [ipk.pkg.h0, h]) := by
  have main : ∀ R : Spec.RhRewound ipk w n k i, ∃ ms r value h, R.Certified ms ∧
      Bbs.Spec.witness R.c₁ R.c₂ R.pr₁.responses R.pr₂.responses = [r, value] ∧ ms[Spec.slot k i]? = some value ∧
      ipk.pkg.h[Spec.slot k i]? = some h ∧ R.comm = r • ipk.pkg.h0 + value • h ∧ S.g1OfBytes R.sig₁.nymRh = some R.comm := by
    intro R
    have h₁ := R.h₁
    have h₂ := R.h₂
    rw [R.index] at h₁ h₂
    obtain ⟨ms, a1, a2, r, value, h, a3, a4, a5, a6⟩ := C41_rh_partial R.L₁ R.L₂ ipk w n k hkey R.attributes R.sig₁ R.sig₂ R.P₁ R.P₂
      R.pn₁ R.pn₂ R.pr₁ R.pr₂ R.comm R.msg₁ R.msg₂ R.raw₁ R.raw₂ R.eid i R.v R.m R.md₁ R.md₂ R.hv h₁ h₂ R.u₁ R.u₂ R.p₁ R.p₂ R.ht
      R.e₁ R.e₂ R.hf R.l₁ R.l₂ R.hh R.i₁ R.i₂
    refine ⟨ms, r, value, h, ⟨a1, a2⟩, a3, a4, a5, a6, ?_⟩
    obtain ⟨-, -, -, -, -, -, pe, pr⟩ := parseParts_ok R.p₁
    rcases onlyIf_comm pr with ⟨-, q⟩ | ⟨-, q, P', b1, b2⟩
    · rw [R.e₁] at q; cases q
    · rw [R.e₁] at b1; cases b1; exact b2
  obtain ⟨ms, r, value, h, a1, a2, a3, a4, a5, a6⟩ := main R
  obtain ⟨ms', r', value', h', b1, b2, b3, b4, b5, b6⟩ := main R'
  rw [a4] at b4
  cases b4
  rw [same, b6] at a6
  have e := Option.some.inj a6
  exact ⟨ms, ms', r, value, r', value', h, a1, b1, a2, b2, a3, b3, a4, one_secret a5 (e ▸ b5)⟩

/-! ## Examples -/

namespace Ex

set_option maxRecDepth 40000 in
/-- The samples on `[9]` and `[10]`. -/
def id₁ : Spec.EidRewound ipk2 (publicKey (S := S32) (2 : Toy.K)) 2 0 1 where
  toRewound := link₁
  pe₁ := samplePe [9]
  pe₂ := samplePe [10]
  comm := ((sampleParts [9]).eid.map (·.2)).getD (0 : Toy.K)
  index := rfl
  e₁ := by rfl
  e₂ := by rfl
  hf := by decide
  l₁ := by rfl
  l₂ := by rfl
  hh := ⟨_, rfl, rfl⟩
  i₁ := by decide +kernel
  i₂ := by decide +kernel

set_option maxRecDepth 40000 in
/-- The samples on `[11]` and `[13]`. -/
def id₂ : Spec.EidRewound ipk2 (publicKey (S := S32) (2 : Toy.K)) 2 0 1 where
  toRewound := link₂
  pe₁ := samplePe [11]
  pe₂ := samplePe [13]
  comm := ((sampleParts [11]).eid.map (·.2)).getD (0 : Toy.K)
  index := rfl
  e₁ := by rfl
  e₂ := by rfl
  hf := by decide
  l₁ := by rfl
  l₂ := by rfl
  hh := ⟨_, rfl, rfl⟩
  i₁ := by decide +kernel
  i₂ := by decide +kernel

/-- Signatures with both commitments, which disclose nothing. -/
def twoComm (msg : Bytes) : Bytes :=
  match sign L32 cred2 (4 : Toy.K) (4 : Toy.K) (5 : Toy.K) (.val ipk2) hidden2 msg 0 1 cri2 .eidNymRhNym none rand2 with
  | .ok (raw, _) => raw
  | _ => []

/-- The decoded signature. -/
def twoCommSig (msg : Bytes) : Signature :=
  match Wire.sigCodec.unmarshal (twoComm msg) with
  | .ok s => s
  | _ => ⟨[], [], [], [], [], [], 0, [], [], 0, [], [], 0, none⟩

/-- What the verifier parses. -/
def twoCommParts (msg : Bytes) : Parsed S32 :=
  match parseParts S32 (twoCommSig msg) .expectEidNymRhNym 1 with
  | .ok s => s
  | _ => ⟨[], ⟨0, 0, 0, ⟨0, []⟩, ⟨0, []⟩⟩, 0, none, none, none⟩

/-- The proof for the pseudonym. -/
def twoCommPn (msg : Bytes) : ProofG1 S32 := (twoCommParts msg).nymProof.getD ⟨0, []⟩

/-- The proof for the commitment to the revocation handle. -/
def twoCommPr (msg : Bytes) : ProofG1 S32 := ((twoCommParts msg).rh.map (·.1)).getD ⟨0, []⟩

set_option maxRecDepth 40000 in
theorem twoComm_signatures :
    Spec.TwoSignatures L32 L32 (publicKey (S := S32) (2 : Toy.K)) 2 0 hidden2 (twoCommSig [9]) (twoCommSig [10])
      (twoCommParts [9]) (twoCommParts [10]) (twoCommPn [9]) (twoCommPn [10]) [9] [10] := by
  have hr : (twoCommParts [9]).rev = [] := by rfl
  have hr' : (twoCommParts [10]).rev = [] := by rfl
  refine ⟨by rfl, by decide, by decide, by decide, ?_, by rw [hr]; decide, by rw [hr, hr'],
    ⟨by decide, by decide, by decide, by decide, by decide⟩, by decide, by rfl, by rfl, by decide,
    ⟨⟨by rfl, by rfl⟩, by rfl⟩, ⟨⟨by rfl, by rfl⟩, by rfl⟩, fun _ _ _ _ => rfl, by decide⟩
  intro i
  rw [hr]
  rcases i with _ | _ | i <;> simp [hidden2]

set_option maxRecDepth 40000 in
/-- The signatures on `[9]` and `[10]` with both commitments. -/
def handle₁ : Spec.RhRewound ipk2 (publicKey (S := S32) (2 : Toy.K)) 2 0 0 where
  L₁ := L32
  L₂ := L32
  attributes := hidden2
  sig₁ := twoCommSig [9]
  sig₂ := twoCommSig [10]
  P₁ := twoCommParts [9]
  P₂ := twoCommParts [10]
  pn₁ := twoCommPn [9]
  pn₂ := twoCommPn [10]
  msg₁ := [9]
  msg₂ := [10]
  raw₁ := twoComm [9]
  raw₂ := twoComm [10]
  eid := 1
  rh := 0
  v := .expectEidNymRhNym
  m := 1
  md₁ := none
  md₂ := none
  hv := by simp [Spec.NoCard]
  h₁ := by decide
  h₂ := by decide
  u₁ := by rfl
  u₂ := by rfl
  p₁ := by rfl
  p₂ := by rfl
  ht := twoComm_signatures
  pr₁ := twoCommPr [9]
  pr₂ := twoCommPr [10]
  comm := ((twoCommParts [9]).rh.map (·.2)).getD (0 : Toy.K)
  index := rfl
  e₁ := by rfl
  e₂ := by rfl
  hf := by decide
  l₁ := by rfl
  l₂ := by rfl
  hh := ⟨_, rfl, rfl⟩
  i₁ := by decide +kernel
  i₂ := by decide +kernel

end Ex

open Ex in
set_option maxRecDepth 40000 in
/-- They carry the same commitment, and the enrollment identifier 5 is extracted from both. -/
example : id₁.sig₁.nymEid = id₂.sig₁.nymEid ∧ id₁.raw₁ ≠ id₂.raw₁ ∧
    Bbs.Spec.witness id₁.c₁ id₁.c₂ id₁.pe₁.responses id₁.pe₂.responses = [(2 : Toy.K), (5 : Toy.K)] ∧
    Bbs.Spec.witness id₂.c₁ id₂.c₂ id₂.pe₁.responses id₂.pe₂.responses = [(2 : Toy.K), (5 : Toy.K)] := by
  decide

end Idemix.Aries
