import Verif.Msp.PropsIdentity
import Verif.Dlog.PropsBridge2
import Verif.Aries.PropsExtract

/-!
# C73: identities that validate rest on credentials of the issuer
-/

namespace Idemix.Msp

open Provider (Backend Key)
open Spec

/-- The platform with other random oracles of the curves, for forking arguments. The BBS+ library has its own oracles
and is passed. -/
def Platform.withHash (P : Platform) (h : (c : CurveId) → Bytes → (P.S c).F)
    (lib : (c : CurveId) → Bbs.Lib ((P.S c).withHash (h c))) : Platform where
  S c := (P.S c).withHash (h c)
  env c := ⟨(P.env c).T.withHash (h c), (P.env c).rawG1, (P.env c).coordLen, (P.env c).dsa⟩
  lib := lib
  ec := P.ec

/-- The platform with another BBS+ library, which includes the random oracles of the aries scheme. -/
def Platform.withLib (P : Platform) (lib : (c : CurveId) → Bbs.Lib (P.S c)) : Platform := { P with lib := lib }

/-- The MSP `m` uses the dlog scheme on the curve `c` and has the issuer key `ipk`. -/
def Spec.HasDlogKey {P : Platform} (m : IMsp P.world) (c : CurveId) (ipk : Dlog.IssuerPublicKey) : Prop :=
  m.csp = some ⟨false, c⟩ ∧
    m.ipk = some ⟨⟨false, c⟩, .issuerPk (B := Provider.dlogBackend (P.env c) (P.ec c)) (.val ipk)⟩

/-- The MSP `m` uses the aries scheme on the curve `c` and has the issuer key `ipk`. -/
def Spec.HasAriesKey {P : Platform} (m : IMsp P.world) (c : CurveId) (ipk : Aries.IPK (P.S c)) : Prop :=
  m.csp = some ⟨true, c⟩ ∧
    m.ipk = some ⟨⟨true, c⟩,
      .issuerPk (B := Provider.ariesBackend (P.lib c) (P.env c).T (P.env c).dsa (P.ec c)) (.val ipk)⟩

/-- The attributes that validation of an identity asks for. -/
def Spec.identityAttributes (ou : Bytes) (role : Int) : List IdemixAttribute :=
  [⟨1, .bytes ou⟩, ⟨2, .int (credentialRole role)⟩, ⟨0, .other⟩, ⟨0, .other⟩]

/-- What validation asks of the dlog scheme. -/
theorem validate_dlog {P : Platform} {H : Heap P.world} {me : Ref} {i : Identity P.world} {c : CurveId}
    {ipk : Dlog.IssuerPublicKey} (own : i.msp = me) (hk : HasDlogKey (H me) c ipk)
    (acc : validate H me (.identity i) = .ok ()) :
    ∃ rpk epoch, (P.env c).verify (.val ipk) i.proof [] (identityAttributes i.ou.ou i.role.role) 3 2 rpk epoch .basic
      none = .ok () := by
  obtain ⟨p, k, rpk, h1, h2, -, -, h5⟩ := (C57_own_identities_partial H me i own).mp acc
  obtain ⟨g1, g2⟩ := hk
  cases g1.symm.trans h1
  cases g2.symm.trans h2
  exact ⟨rpk, _, h5⟩

/-- What validation asks of the aries scheme. -/
theorem validate_aries {P : Platform} {H : Heap P.world} {me : Ref} {i : Identity P.world} {c : CurveId}
    {ipk : Aries.IPK (P.S c)} (own : i.msp = me) (hk : HasAriesKey (H me) c ipk)
    (acc : validate H me (.identity i) = .ok ()) :
    Aries.verify (P.lib c) (.val ipk) i.proof [] (identityAttributes i.ou.ou i.role.role) 3 2 0 .basic none =
      .ok () := by
  obtain ⟨p, k, rpk, h1, h2, -, -, h5⟩ := (C57_own_identities_partial H me i own).mp acc
  obtain ⟨g1, g2⟩ := hk
  cases g1.symm.trans h1
  cases g2.symm.trans h2
  exact h5

theorem identityValues {S : Suite} {ou : Bytes} {role : Int} {values : List (Option S.F)}
    (h : List.Forall₂ (fun a o => (Dlog.Spec.Hidden a ∧ o = none) ∨ ∃ x, Dlog.Spec.Denotes S a x ∧ o = some x)
      (identityAttributes ou role) values) :
    values = [some (S.hashToZr ou), some (S.zrOfInt (credentialRole role)), none, none] := by
  unfold identityAttributes at h
  cases h with
  | cons h1 h => cases h with
    | cons h2 h => cases h with
      | cons h3 h => cases h with
        | cons h4 h =>
          cases h
          rcases h1 with ⟨h1, -⟩ | ⟨_, h1, rfl⟩
          · simp [Dlog.Spec.Hidden] at h1
          · cases h1
            rcases h2 with ⟨h2, -⟩ | ⟨_, h2, rfl⟩
            · simp [Dlog.Spec.Hidden] at h2
            · cases h2
              rcases h3 with ⟨-, rfl⟩ | ⟨_, h3, -⟩
              · rcases h4 with ⟨-, rfl⟩ | ⟨_, h4, -⟩
                · rfl
                · cases h4
              · cases h3

/-- **C73** (dlog). Let identities with the same unit and role be accepted by MSPs with the same issuer key, against the
oracles `h₁` and `h₂` (which agree on the unit), with the same first hash question in their proofs and different final
answers. Then the extractor of C10 computes from the two proofs a credential of the issuer on exactly this unit, this
role, and two hidden attributes. -/
theorem C73_dlog_identity_rests_on_credential (P : Platform) (c : CurveId)
    (h₁ h₂ : (c : CurveId) → Bytes → (P.S c).F) (lib₁ : (c : CurveId) → Bbs.Lib ((P.S c).withHash (h₁ c)))
    (lib₂ : (c : CurveId) → Bbs.Lib ((P.S c).withHash (h₂ c)))
    (H₁ : Heap (P.withHash h₁ lib₁).world) (H₂ : Heap (P.withHash h₂ lib₂).world) (me₁ me₂ : Ref)
    (i₁ : Identity (P.withHash h₁ lib₁).world) (i₂ : Identity (P.withHash h₂ lib₂).world)
    (own₁ : i₁.msp = me₁) (own₂ : i₂.msp = me₂) (ipk : Dlog.IssuerPublicKey) (hk₁ : HasDlogKey (H₁ me₁) c ipk)
    (hk₂ : HasDlogKey (H₂ me₂) c ipk) (acc₁ : validate H₁ me₁ (.identity i₁) = .ok ())
    (acc₂ : validate H₂ me₂ (.identity i₂) = .ok ()) (ou : Bytes) (role : Int)
    (hou₁ : i₁.ou.ou = ou) (hou₂ : i₂.ou.ou = ou) (hrole₁ : i₁.role.role = role) (hrole₂ : i₂.role.role = role)
    (agree : h₁ c ou = h₂ c ou)
    (k : Dlog.Spec.Key (P.S c)) (hk : Dlog.Reads (P.env c).T ipk k) (sig₁ sig₂ : Dlog.Signature)
    (hs₁ : Dlog.Wire.sigCodec.unmarshal i₁.proof = .ok sig₁) (hs₂ : Dlog.Wire.sigCodec.unmarshal i₂.proof = .ok sig₂)
    (v₁ v₂ : Dlog.Spec.Sig (P.S c)) (hv₁ : Dlog.Views (P.env c).T sig₁ .basic v₁)
    (hv₂ : Dlog.Views (P.env c).T sig₂ .basic v₂) (q₁ q₂ : Bytes)
    (hq₁ : q₁ = v₁.transcript (Dlog.sigLabelOf v₁) k ipk.hash [1, 1, 0, 0]
      [h₁ c ou, (P.S c).zrOfInt (credentialRole role)] 2 3 [])
    (hq₂ : q₂ = v₂.transcript (Dlog.sigLabelOf v₂) k ipk.hash [1, 1, 0, 0]
      [h₁ c ou, (P.S c).zrOfInt (credentialRole role)] 2 3 [])
    (sameQuery : q₁ = q₂)
    (differentAnswers : h₁ c (Dlog.Spec.second ((P.S c).withHash (h₁ c)) q₁ v₁.nonce) ≠
      h₂ c (Dlog.Spec.second ((P.S c).withHash (h₂ c)) q₂ v₂.nonce)) :
    let x := v₁.extract v₂
    ∃ eid rh : (P.S c).F, x.hidden = [eid, rh] ∧
      Dlog.Spec.IsCredential k x.A x.e x.s x.sk [h₁ c ou, (P.S c).zrOfInt (credentialRole role), eid, rh] ∧
      (x.A ≠ 0 ∨ Dlog.Spec.signed k x.sk x.s [h₁ c ou, (P.S c).zrOfInt (credentialRole role), eid, rh] = 0) ∧
      v₁.nym = Dlog.Spec.nym k x.sk x.rNym := by
  intro x
  obtain ⟨rpk₁, ep₁, w₁⟩ := validate_dlog own₁ hk₁ acc₁
  obtain ⟨rpk₂, ep₂, w₂⟩ := validate_dlog own₂ hk₂ acc₂
  rw [Dlog.C13_bridge_verify_exact] at w₁ w₂
  obtain ⟨s₁, vals₁, e₁, f₁, g₁⟩ := w₁
  obtain ⟨s₂, vals₂, e₂, f₂, g₂⟩ := w₂
  cases hs₁.symm.trans e₁
  cases hs₂.symm.trans e₂
  have v1 : vals₁ = ([some (h₁ c ou), some ((P.S c).zrOfInt (credentialRole role)), none, none] : List (Option (P.S c).F)) := by
    rw [← hou₁, ← hrole₁]; exact identityValues f₁
  have v2 : vals₂ = ([some (h₁ c ou), some ((P.S c).zrOfInt (credentialRole role)), none, none] : List (Option (P.S c).F)) := by
    rw [agree, ← hou₂, ← hrole₂]; exact identityValues f₂
  subst v1
  subst v2
  obtain ⟨attrs, d1, d2, d3, d4, d5⟩ := Dlog.C10_signature_extraction (P.env c).T (h₁ c) (h₂ c) ipk sig₁ sig₂ [1, 1, 0, 0] [] []
    [some (h₁ c ou), some ((P.S c).zrOfInt (credentialRole role)), none, none] 3 2 rpk₁ rpk₂ ep₁ ep₂ .basic none none g₁ g₂
    k hk v₁ v₂ hv₁ hv₂ (.inl (by simp)) [h₁ c ou, (P.S c).zrOfInt (credentialRole role)] rfl q₁ q₂ hq₁ hq₂ sameQuery
    differentAnswers
  obtain ⟨dl, dd⟩ := d1
  match attrs, dl, d2, d3, d4, dd with
  | [a, b, e, r], _, d2, d3, d4, dd =>
    obtain ⟨a', ha, ha'⟩ := dd 0 1 rfl (by decide)
    obtain ⟨b', hb, hb'⟩ := dd 1 1 rfl (by decide)
    simp only [List.getElem?_cons_zero, Option.some.injEq, List.getElem?_cons_succ] at ha ha' hb hb'
    obtain rfl : a = h₁ c ou := ha.trans ha'.symm
    obtain rfl : b = (P.S c).zrOfInt (credentialRole role) := hb.trans hb'.symm
    exact ⟨e, r, d2.symm, d3, d4, d5⟩

/-- **C73** (aries, partial). The same for the aries scheme: the two runs have the libraries `lib₁` and `lib₂`, which
contain the oracles. What is missing is what is missing in C40: the proofs must have the right number of responses and
reveal the positions that the verifier expects (`Aries.Spec.TwoSignatures`). -/
theorem C73_aries_identity_rests_on_credential_partial (P : Platform) (c : CurveId)
    (lib₁ lib₂ : (c : CurveId) → Bbs.Lib (P.S c)) (H₁ : Heap (P.withLib lib₁).world) (H₂ : Heap (P.withLib lib₂).world)
    (me₁ me₂ : Ref) (i₁ : Identity (P.withLib lib₁).world) (i₂ : Identity (P.withLib lib₂).world)
    (own₁ : i₁.msp = me₁) (own₂ : i₂.msp = me₂) (ipk : Aries.IPK (P.S c)) (w : (P.S c).G2)
    (hkey : Aries.Spec.IsKey ipk w 4)
    (hk₁ : HasAriesKey (P := P.withLib lib₁) (H₁ me₁) c ipk) (hk₂ : HasAriesKey (P := P.withLib lib₂) (H₂ me₂) c ipk)
    (acc₁ : validate H₁ me₁ (.identity i₁) = .ok ()) (acc₂ : validate H₂ me₂ (.identity i₂) = .ok ())
    (ou : Bytes) (role : Int) (hou₁ : i₁.ou.ou = ou) (hou₂ : i₂.ou.ou = ou) (hrole₁ : i₁.role.role = role)
    (hrole₂ : i₂.role.role = role) (sig₁ sig₂ : Aries.Signature)
    (hs₁ : Aries.Wire.sigCodec.unmarshal i₁.proof = .ok sig₁) (hs₂ : Aries.Wire.sigCodec.unmarshal i₂.proof = .ok sig₂)
    (Q₁ Q₂ : Aries.Parsed (P.S c)) (m : Nat) (p₁ : Aries.parseParts (P.S c) sig₁ .basic m = .ok Q₁)
    (p₂ : Aries.parseParts (P.S c) sig₂ .basic m = .ok Q₂) (pn₁ pn₂ : Bbs.ProofG1 (P.S c))
    (ht : Aries.Spec.TwoSignatures (lib₁ c) (lib₂ c) w 4 0 (identityAttributes ou role) sig₁ sig₂ Q₁ Q₂ pn₁ pn₂ [] []) :
    let c₁ := Aries.Spec.signChallenge (lib₁ c) w 4 sig₁ Q₁.sp Q₁.rev pn₁.commitment (Q₁.eid.map (·.1.commitment))
      (Q₁.rh.map (·.1.commitment)) []
    let c₂ := Aries.Spec.signChallenge (lib₂ c) w 4 sig₂ Q₂.sp Q₂.rev pn₂.commitment (Q₂.eid.map (·.1.commitment))
      (Q₂.rh.map (·.1.commitment)) []
    let x := Bbs.Spec.extract Q₁.sp Q₂.sp c₁ c₂
    ∃ sk eid rh : (P.S c).F, x.hidden = [sk, eid, rh] ∧
      Bbs.Spec.Signature w ipk.pkg.h0 ipk.pkg.h x.A x.e x.s
        [sk, Bbs.frFromOKM (lib₁ c) ou, (P.S c).zrOfInt (credentialRole role), eid, rh] := by
  intro c₁ c₂ x
  have w₁ := validate_aries (P := P.withLib lib₁) own₁ hk₁ acc₁
  have w₂ := validate_aries (P := P.withLib lib₂) own₂ hk₂ acc₂
  rw [hou₁, hrole₁] at w₁
  rw [hou₂, hrole₂] at w₂
  obtain ⟨ms, r1, r2, r3, r, sk, h, nym, -, r5, -⟩ := Aries.C40_extraction_partial (lib₁ c) (lib₂ c) ipk w 4 0 hkey
    (identityAttributes ou role) sig₁ sig₂ Q₁ Q₂ pn₁ pn₂ [] [] i₁.proof i₂.proof 2 3 .basic m none none
    ⟨by simp, by simp⟩ w₁ w₂ hs₁ hs₂ p₁ p₂ ht
  have m0 : 0 ∉ Q₁.rev := ht.secret
  have m1 : 1 ∈ Q₁.rev := (ht.revealed 0).mpr ⟨_, rfl, by simp⟩
  have m2 : 2 ∈ Q₁.rev := (ht.revealed 1).mpr ⟨_, rfl, by simp⟩
  have m3 : 3 ∉ Q₁.rev := by
    intro hm
    obtain ⟨a, ha, hty⟩ := (ht.revealed 2).mp hm
    simp only [identityAttributes, List.getElem?_cons_succ, List.getElem?_cons_zero, Option.some.injEq] at ha
    subst ha
    exact hty rfl
  have m4 : 4 ∉ Q₁.rev := by
    intro hm
    obtain ⟨a, ha, hty⟩ := (ht.revealed 3).mp hm
    simp only [identityAttributes, List.getElem?_cons_succ, List.getElem?_cons_zero, Option.some.injEq] at ha
    subst ha
    exact hty rfl
  have hl : ms.length = 5 := by
    rw [r1.1, hkey.2.2.2.1]
    simp [Bbs.Spec.generators]
  match ms, hl, r1, r2, r3 with
  | [a, b, d, e, f], _, r1, r2, r3 =>
    obtain ⟨y, hy, ey⟩ := r2 0 _ rfl (by simp)
    obtain ⟨z, hz, ez⟩ := r2 1 _ rfl (by simp)
    simp only [Aries.Spec.slot, Nat.zero_le, if_true, List.getElem?_cons_succ, List.getElem?_cons_zero,
      Option.some.injEq] at hy hz
    subst hy
    subst hz
    simp only [Aries.Spec.Encodes] at ey ez
    rcases ey with ⟨-, b', hb, rfl⟩ | ⟨h, -⟩
    · rcases ez with ⟨h, -⟩ | ⟨-, z', hz, rfl⟩
      · exact absurd h (by decide)
      · cases hb
        cases hz
        refine ⟨a, e, f, ?_, r1⟩
        rw [← r3, Bbs.unshown_eq]
        simp [Bbs.keepHidden, m0, m1, m2, m3, m4]
    · exact absurd h (by decide)

namespace Ex

/-- The toy platform. -/
@[reducible] def P0 : Platform :=
  ⟨fun _ => Toy.suite, fun _ => Dlog.Ex.env, fun _ => ⟨Toy.lib32.okm, Toy.lib32.okm_len, Toy.lib32.hkdf, by decide⟩,
    fun _ => Provider.Ex.ec⟩

/-- An oracle that answers 0 for the unit `[115]` and `c` otherwise. -/
def oracle (c : Toy.K) (_ : CurveId) (b : Bytes) : Toy.K := if b = [115] then 0 else c

/-- The platform with this oracle. -/
@[reducible] def P1 (c : Toy.K) : Platform :=
  P0.withHash (oracle c) fun _ => ⟨Toy.lib32.okm, Toy.lib32.okm_len, Toy.lib32.hkdf, rfl⟩

/-- An issuer key for four attributes. -/
def ipk : Dlog.IssuerPublicKey :=
  { attributeNames := [[1], [2], [3], [4]], hSk := some ⟨[3], []⟩, hRand := some ⟨[6], []⟩,
    hAttrs := [some ⟨[2], []⟩, some ⟨[4], []⟩, some ⟨[5], []⟩, some ⟨[1], []⟩], w := some ⟨[3], [], [], []⟩,
    barG1 := some ⟨[2], []⟩, barG2 := some ⟨[6], []⟩, proofC := [1], proofS := [1], hash := [5] }

/-- The same, decoded. -/
def key : Dlog.Spec.Key Toy.suite := ⟨(3 : Toy.K), (6 : Toy.K), [(2 : Toy.K), 4, 5, 1], (3 : Toy.K)⟩

/-- A credential for the unit `[115]`, the role `MEMBER`, and the hidden values 2 and 3. -/
def cred : Dlog.Credential := ⟨some ⟨[3], []⟩, some ⟨[1], []⟩, [2], [1], [[0], [1], [2], [3]]⟩

/-- The signature that a user makes against the oracle, always with the same randomness. -/
def sig (c : Toy.K) : Dlog.Signature :=
  match Dlog.newSignature (Toy.tr.withHash (oracle c .fp256bnAmcl)) cred (4 : Toy.K) Dlog.Ex.nym (2 : Toy.K) ipk [1, 1, 0, 0]
      [] 3 2 Dlog.Ex.cri ⟨(2 : Toy.K), (3 : Toy.K), 1, 4, 5, 6, 1, 2, 3, [4, 5], 2, 3, 4, 5⟩ .standard none with
  | .ok (s, _) => s
  | _ => ⟨none, none, none, [], [], [], [], [], [], [], [], none, [], none, [], 0, none, none, none⟩

/-- The MSP with that key. -/
def msp (c : Toy.K) : IMsp (P1 c).world :=
  { newMsp (P1 c).world false 1 with
    csp := some ⟨false, .fp256bnAmcl⟩
    ipk := some ⟨⟨false, .fp256bnAmcl⟩, .issuerPk (B := Provider.dlogBackend ((P1 c).env .fp256bnAmcl) Provider.Ex.ec)
      (.val ipk)⟩ }

/-- The identity with that signature. -/
def identity (c : Toy.K) : Identity (P1 c).world :=
  ⟨⟨⟨false, .fp256bnAmcl⟩, .nymPk (0 : Toy.K)⟩, 0, [], [], ⟨[], 0⟩, ⟨[], [115], []⟩, Proto.encode (Dlog.Wire.sig (sig c))⟩

end Ex

set_option maxRecDepth 20000 in
/-- Two identities of one user against two oracles meet the hypotheses of `C73_dlog_identity_rests_on_credential`. -/
example : HasDlogKey (P := Ex.P1 1) (Ex.msp 1) .fp256bnAmcl Ex.ipk ∧ HasDlogKey (P := Ex.P1 2) (Ex.msp 2) .fp256bnAmcl Ex.ipk ∧
    validate (fun _ => Ex.msp 1) 0 (.identity (Ex.identity 1)) = .ok () ∧
    validate (fun _ => Ex.msp 2) 0 (.identity (Ex.identity 2)) = .ok () ∧
    Ex.oracle 1 .fp256bnAmcl [115] = Ex.oracle 2 .fp256bnAmcl [115] ∧ Dlog.Reads Toy.tr Ex.ipk Ex.key ∧
    Dlog.Wire.sigCodec.unmarshal (Ex.identity 1).proof = .ok (Ex.sig 1) ∧
    Dlog.Wire.sigCodec.unmarshal (Ex.identity 2).proof = .ok (Ex.sig 2) ∧
    Dlog.Views Toy.tr (Ex.sig 1) .basic (Dlog.Ex.view (Ex.sig 1)) ∧
    Dlog.Views Toy.tr (Ex.sig 2) .basic (Dlog.Ex.view (Ex.sig 2)) ∧
    (Dlog.Ex.view (Ex.sig 1)).transcript (Dlog.sigLabelOf (Dlog.Ex.view (Ex.sig 1))) Ex.key Ex.ipk.hash [1, 1, 0, 0] [0, 1]
        2 3 [] =
      (Dlog.Ex.view (Ex.sig 2)).transcript (Dlog.sigLabelOf (Dlog.Ex.view (Ex.sig 2))) Ex.key Ex.ipk.hash [1, 1, 0, 0]
        [0, 1] 2 3 [] ∧
    ((Dlog.Ex.view (Ex.sig 1)).extract (Dlog.Ex.view (Ex.sig 2))).hidden = [(2 : Toy.K), 3] := by
  refine ⟨⟨rfl, rfl⟩, ⟨rfl, rfl⟩, by rfl, by rfl, by rfl, ⟨rfl, rfl, rfl, rfl⟩, by rfl, by rfl,
    ⟨by constructor <;> rfl, .inl ⟨rfl, rfl⟩, .inl ⟨rfl, rfl⟩⟩, ⟨by constructor <;> rfl, .inl ⟨rfl, rfl⟩, .inl ⟨rfl, rfl⟩⟩, by decide,
    by decide⟩

namespace Ex

/-- The toy platform with 32-byte scalars. -/
@[reducible] def P32 : Platform :=
  ⟨fun _ => Toy.suite32, fun _ => ⟨Provider.Ex.tr32, fun _ => .err "", 16, Ecdsa.toy⟩, fun _ => Toy.lib32,
    fun _ => Provider.Ex.ec⟩

/-- The library whose oracle answers 0 for the unit `[115]` and `c` otherwise. -/
@[reducible] def lib (c : Toy.K) (_ : CurveId) : Bbs.Lib Toy.suite32 where
  okm := fun m => List.replicate 47 0 ++ Toy.enc (if m = [115] then 0 else c)
  okm_len := fun m => by simp [Toy.enc]
  hkdf := Toy.lib32.hkdf
  zrOfInt_one := by decide

/-- The platform with it. -/
@[reducible] def P2 (c : Toy.K) : Platform := P32.withLib (lib c)

/-- The issuer key with the secret 2 for four attributes. -/
def ipk4 : Aries.IPK Toy.suite32 := Aries.ipkFor (Bbs.publicKey (S := Toy.suite32) (2 : Toy.K)) 4

/-- A credential for the unit `[115]`, the role `MEMBER`, and the hidden values 2 and 3, with the secret key 4. -/
def cred4 : Bytes :=
  Proto.encode (Aries.Wire.cred (Aries.issued (S := Toy.suite32) (2 : Toy.K) 4 0 [(0 : Toy.K), 1, 2, 3] (4 : Toy.K)
    (2 : Toy.K) (1 : Toy.K) 0))

/-- The signature that a user makes against the oracle. -/
def raw4 (c : Toy.K) : Bytes :=
  match Aries.sign (lib c .fp256bnAmcl) cred4 (4 : Toy.K) (1 : Toy.K) (5 : Toy.K) (.val ipk4) (identityAttributes [115] 0)
      [] 3 2 Aries.Ex.cri2 .standard none Aries.Ex.rand2 with
  | .ok (s, _) => s
  | _ => []

/-- The same, decoded. -/
def sig4 (c : Toy.K) : Aries.Signature :=
  match Aries.Wire.sigCodec.unmarshal (raw4 c) with
  | .ok s => s
  | _ => ⟨[], [], [], [], [], [], 0, [], [], 0, [], [], 0, none⟩

/-- What the verifier parses. -/
def parts4 (c : Toy.K) : Aries.Parsed Toy.suite32 :=
  match Aries.parseParts Toy.suite32 (sig4 c) .basic 2 with
  | .ok s => s
  | _ => ⟨[], ⟨0, 0, 0, ⟨0, []⟩, ⟨0, []⟩⟩, 0, none, none, none⟩

/-- The proof for the pseudonym. -/
def pn4 (c : Toy.K) : Bbs.ProofG1 Toy.suite32 := (parts4 c).nymProof.getD ⟨0, []⟩

/-- The MSP with that key. -/
def msp4 (c : Toy.K) : IMsp (P2 c).world :=
  { newMsp (P2 c).world true 1 with
    csp := some ⟨true, .fp256bnAmcl⟩
    ipk := some ⟨⟨true, .fp256bnAmcl⟩, .issuerPk (B := Provider.ariesBackend (lib c .fp256bnAmcl) Provider.Ex.tr32
      Ecdsa.toy Provider.Ex.ec) (.val ipk4)⟩ }

/-- The identity with that signature. -/
def identity4 (c : Toy.K) : Identity (P2 c).world :=
  ⟨⟨⟨true, .fp256bnAmcl⟩, .nymPk (0 : Toy.K)⟩, 0, [], [], ⟨[], 0⟩, ⟨[], [115], []⟩, raw4 c⟩

end Ex

open Ex in
set_option maxRecDepth 40000 in
/-- Two identities of one user against two oracles meet the hypotheses of
`C73_aries_identity_rests_on_credential_partial`. -/
example : Aries.Spec.IsKey ipk4 (Bbs.publicKey (S := Toy.suite32) (2 : Toy.K)) 4 ∧
    HasAriesKey (P := P2 1) (msp4 1) .fp256bnAmcl ipk4 ∧ HasAriesKey (P := P2 2) (msp4 2) .fp256bnAmcl ipk4 ∧
    validate (fun _ => msp4 1) 0 (.identity (identity4 1)) = .ok () ∧
    validate (fun _ => msp4 2) 0 (.identity (identity4 2)) = .ok () ∧
    Aries.Wire.sigCodec.unmarshal (identity4 1).proof = .ok (sig4 1) ∧
    Aries.Wire.sigCodec.unmarshal (identity4 2).proof = .ok (sig4 2) ∧
    Aries.parseParts Toy.suite32 (sig4 1) .basic 2 = .ok (parts4 1) ∧
    Aries.parseParts Toy.suite32 (sig4 2) .basic 2 = .ok (parts4 2) ∧
    Aries.Spec.TwoSignatures (lib 1 .fp256bnAmcl) (lib 2 .fp256bnAmcl) (Bbs.publicKey (S := Toy.suite32) (2 : Toy.K)) 4 0
      (identityAttributes [115] 0) (sig4 1) (sig4 2) (parts4 1) (parts4 2) (pn4 1) (pn4 2) [] [] := by
  have hr : (parts4 1).rev = [1, 2] := by rfl
  have hr' : (parts4 2).rev = [1, 2] := by rfl
  refine ⟨(Aries.isKey_iff _ _ _).mpr rfl, ⟨rfl, rfl⟩, ⟨rfl, rfl⟩, by rfl, by rfl, by rfl, by rfl, by rfl, by rfl, ?_⟩
  refine ⟨by rfl, by decide, by decide, by decide, ?_, by rw [hr]; decide, by rw [hr, hr'],
    ⟨by decide, by decide, by decide, by decide, by decide⟩, by decide, by rfl, by rfl, by decide,
    ⟨⟨by rfl, by rfl⟩, by rfl⟩, ⟨⟨by rfl, by rfl⟩, by rfl⟩, ?_, by decide⟩
  · intro i
    rw [hr]
    rcases i with _ | _ | _ | _ | i <;> simp [Aries.Spec.slot, identityAttributes]
  · intro a ha b hb
    simp only [identityAttributes, List.mem_cons, List.not_mem_nil, or_false] at ha
    rcases ha with rfl | rfl | rfl | rfl <;> cases hb
    rfl

end Idemix.Msp
