import Verif.Fork.Visit
import Verif.Dlog.PropsCred
import Verif.Dlog.PropsAnon
import Verif.Dlog.PropsKinds

/-!
# C93: pseudonyms are safe for users who show their credential

The owner of pseudonyms also has a credential of the issuer. Somebody has the owner sign with the pseudonyms, and show the credential with
them, as often as they like, on messages and with disclosures of their choice; they even know the group elements of the credential. Then
they try to sign another message with one of the pseudonyms. From a successful attacker the discrete logarithm of the generator `HSk` to the
base `HRand` of the issuer key is computed.
-/

namespace Idemix.Fork

open Idemix.Dlog
open Idemix (Suite Translator Res Bytes)
open Spec

/-! ## Specification -/

/-- An issuer with its key, and the attributes of a user. -/
structure Spec.Setting (S : Suite) where
  T : Translator S
  ipk : IssuerPublicKey
  k : Dlog.Spec.Key S
  isk : S.F
  attrs : List S.F
  reads : Reads T ipk k
  one_attr_per_name : attrs.length = ipk.attributeNames.length
  bases : ipk.attributeNames.length ≤ k.hAttrs.length

/-- The secrets of a user with `m` pseudonyms: the user secret, the randomness of the pseudonyms, and the numbers of the credential. -/
structure Spec.Secrets (S : Suite) (m : Nat) where
  sk : S.F
  r : Fin m → S.F
  e : S.F
  s : S.F

/-- The random choices for one presentation of a credential with `N` attributes. There is a mask for each attribute, of which the code draws
only as many as attributes are hidden (`ShowRand.sigRand`). -/
structure Spec.ShowRand (S : Suite) (N : Nat) where
  r1 : S.F
  r2 : S.F
  nonce : S.F
  rSk : S.F
  re : S.F
  rR2 : S.F
  rR3 : S.F
  rSPrime : S.F
  rRNym : S.F
  rAttrs : Fin N → S.F
  rEid : S.F
  rREid : S.F
  rRh : S.F
  rRRh : S.F

/-- A way to show a credential: what is disclosed, the message, where the revocation handle and the enrollment id are, the revocation
information, the type of the signature. -/
structure Spec.Show where
  D : Bytes
  msg : Bytes
  rhIndex : Int
  eidIndex : Int
  cri : CRI
  st : SigType

/-- What can be shown: the enrollment id and the revocation handle are hidden. -/
structure Spec.Show.Possible (p : Show) (N : Nat) : Prop where
  one_byte_per_name : p.D.length = N
  rh_hidden : 0 ≤ p.rhIndex ∧ p.D[p.rhIndex.toNat]? = some 0
  eid_hidden : p.st ≠ .standard → 0 ≤ p.eidIndex ∧ p.D[p.eidIndex.toNat]? = some 0
  type : p.st = .standard ∨ p.st = .eidNym ∨ p.st = .eidNymRhNym
  cri_alg : p.cri.revocationAlg = 0

/-- What a user may be asked to do: to sign a message with a pseudonym, or to show the credential with a pseudonym. -/
inductive Spec.Wish (m N : Nat) where
  | sign (j : Fin m) (msg : Bytes)
  | present (j : Fin m) (p : Show) (possible : p.Possible N)

/-- What the user answers: a pseudonym signature; or a signature, with the randomness of the enrollment id and revocation handle
pseudonyms in it (which an auditor gets). -/
inductive Spec.Answer (F : Type) where
  | signed (sig : NymSignature)
  | shown (sig : Signature) (rEid rRh : F)

/-- What somebody knows about the user from the beginning: the pseudonyms, and the credential without its number `s`. -/
structure Spec.Public (S : Suite) (m : Nat) where
  nyms : Fin m → S.G1
  A : S.G1
  B : S.G1
  e : S.F

/-- What an attacker comes up with: a signature of a message for a pseudonym. -/
structure Spec.Claim (m : Nat) where
  j : Fin m
  sig : NymSignature
  msg : Bytes

variable {S : Suite} {m n : Nat} (W : Setting S)

/-- The number of attributes. -/
abbrev Spec.Setting.N : Nat := W.ipk.attributeNames.length

/-- The user as owner of a pseudonym (`Spec.Owner`, of C91). -/
def Spec.Secrets.owner (x : Secrets S m) (j : Fin m) : Owner S 0 := ⟨x.sk, x.r j, fun _ => ⟨0, 0, 0⟩⟩

/-- A pseudonym (what `MakeNym` computes, see `C93_pseudonyms`). -/
def Spec.Secrets.nym (x : Secrets S m) (j : Fin m) : S.G1 := (x.owner j).nym W.k.hSk W.k.hRand

/-- What the issuer signs. -/
def Spec.Secrets.B (x : Secrets S m) : S.G1 := Dlog.Spec.signed W.k x.sk x.s W.attrs

/-- The signature of the issuer. -/
def Spec.Secrets.A (x : Secrets S m) : S.G1 := (W.isk + x.e)⁻¹ • x.B W

/-- The credential: what the issuer issues to this user (see `C93_credential`). -/
def Spec.Secrets.credential (x : Secrets S m) : Credential :=
  ⟨some (W.T.g1ToProto (x.A W)), some (W.T.g1ToProto (x.B W)), S.zrBytes x.e, S.zrBytes x.s, W.attrs.map S.zrBytes⟩

/-- What is known of the user. -/
def Spec.Secrets.known (x : Secrets S m) : Public S m := ⟨x.nym W, x.A W, x.B W, x.e⟩

/-- The choices as the code gets them. -/
def Spec.ShowRand.sigRand {N : Nat} (ρ : ShowRand S N) (D : Bytes) : SigRand S :=
  ⟨ρ.r1, ρ.r2, ρ.nonce, ρ.rSk, ρ.re, ρ.rR2, ρ.rR3, ρ.rSPrime, ρ.rRNym, (List.ofFn ρ.rAttrs).take (D.count 0), ρ.rEid, ρ.rREid, ρ.rRh,
    ρ.rRRh⟩

/-- See `ShowRand.sigRand`; with another hash function. -/
def Spec.ShowRand.with {N : Nat} (ρ : ShowRand S N) (D : Bytes) (h : Bytes → S.F) : SigRand (S.withHash h) :=
  ⟨ρ.r1, ρ.r2, ρ.nonce, ρ.rSk, ρ.re, ρ.rR2, ρ.rR3, ρ.rSPrime, ρ.rRNym, (List.ofFn ρ.rAttrs).take (D.count 0), ρ.rEid, ρ.rREid, ρ.rRh,
    ρ.rRRh⟩

/-- All that the user knows when showing the credential with a pseudonym. -/
def Spec.Secrets.holder (x : Secrets S m) (j : Fin m) : Holder S := ⟨x.A W, x.B W, x.e, x.s, x.sk, x.nym W j, x.r j, W.attrs⟩

/-- The first question of the user to the hash function, when showing the credential. That the code asks this one is `C93_shows`. -/
def Spec.Secrets.firstShow (x : Secrets S m) (j : Fin m) (p : Show) (ρ : SigRand S) : Bytes :=
  honestTranscript W.k (x.holder W j) p.D ρ (eidPart W.k (x.holder W j) p.D p.eidIndex.toNat p.st ρ)
    (rhPart W.k (x.holder W j) p.D p.rhIndex.toNat p.st ρ) W.ipk.hash p.msg

/-- The signature, if the two answers of the hash function are `c₁` and `c₂`: the code of `signature.go`, with a hash function that gives
these answers. -/
def Spec.Secrets.signature (x : Secrets S m) (j : Fin m) (p : Show) (ρ : ShowRand S W.N) (c₁ c₂ : S.F) : Option Signature :=
  let h : Bytes → S.F := fun y => if y = x.firstShow W j p (ρ.sigRand p.D) then c₁ else c₂
  match newSignature (W.T.withHash h) (x.credential W) x.sk (Secrets.nym (S := S) W x j) (x.r j) W.ipk p.D p.msg p.rhIndex p.eidIndex p.cri
      (ρ.with p.D h) p.st none with
  | .ok (sig, _) => some sig
  | _ => none

/-- A signature that is never used: the user is only asked what is possible (`C93_shows`). -/
def Spec.noSignature : Signature :=
  ⟨none, none, none, [], [], [], [], [], [], [], [], none, [], none, [], 0, none, none, none⟩

/-- The user. -/
def Spec.Secrets.service (x : Secrets S m) : Service S.F (NymRand S × ShowRand S W.N) (Wish m W.N) (Answer S.F) where
  first
    | .sign j msg => fun ρ => (x.owner j).first W.ipk W.k.hSk W.k.hRand msg ρ.1
    | .present j p _ => fun ρ => x.firstShow W j p (ρ.2.sigRand p.D)
  second
    | .sign _ _ => fun ρ c => S.zrBytes c ++ S.zrBytes ρ.1.nonce
    | .present _ _ _ => fun ρ c => S.zrBytes c ++ S.zrBytes ρ.2.nonce
  reply
    | .sign j msg => fun ρ c₁ c₂ => .signed ((x.owner j).signature W.T W.ipk W.k.hSk W.k.hRand msg ρ.1 c₁ c₂)
    | .present j p _ => fun ρ c₁ c₂ => .shown ((x.signature W j p ρ.2 c₁ c₂).getD noSignature) ρ.2.rEid ρ.2.rRh

/-- The random choices of a user, for each history of an attack. -/
abbrev Spec.Tape (S : Suite) (N n : Nat) := History S.F n → NymRand S × ShowRand S N

/-- An attacker: knows what is public, asks the hash function, and makes requests. -/
abbrev Spec.Attacker := Public S m → Visitor S.F (Wish m W.N) (Answer S.F) (Claim m)

/-- The attack succeeds if the signature is accepted and the user has not signed the message with the pseudonym. -/
def Spec.claims (attack : Attacker (m := m) W) (x : Secrets S m) (tape : Tape S W.N n) : Game S.F (Visit S.F (Wish m W.N) (Claim m)) where
  forger := (attack (x.known W)).against (fun _ => x.service W) tape [] []
  first a := nymQuestion W.T W.ipk (x.nym W a.result.j) a.result.sig a.result.msg
  second a c := S.zrBytes c ++ S.zrBytes (S.zrOfBytes a.result.sig.nonce)
  accepts h a := a.result.sig.ver (W.T.withHash h) (Secrets.nym (S := S) W x a.result.j) W.ipk a.result.msg = .ok () ∧
    ∀ s ∈ a.log, ∀ j msg, s.req = .sign j msg → x.nym W j = x.nym W a.result.j → msg ≠ a.result.msg

/-- The reduction: play the user, and the attacker twice. -/
def Spec.solveMember (attack : Attacker (m := m) W) (x : Secrets S m) (tape : Tape S W.N n) {q : Nat} (ω ω' : Fin q → S.F) : S.F :=
  match (claims W attack x tape).fork ω ω' with
  | some r => (x.sk - (openingOf S r.1.1.result.sig r.2.1.result.sig).1)⁻¹ *
      ((openingOf S r.1.1.result.sig r.2.1.result.sig).2 - x.r r.1.1.result.j)
  | none => 0

/-! ## The user -/

variable {W}

theorem hk : W.T.g1FromProto W.ipk.hSk = .ok W.k.hSk := W.reads.hSk
theorem hr : W.T.g1FromProto W.ipk.hRand = .ok W.k.hRand := W.reads.hRand

/-- The pseudonyms are what the code computes from the secret of the user and their randomness. -/
theorem C93_pseudonyms (x : Secrets S m) (j : Fin m) : makeNym W.T x.sk W.ipk (x.r j) = .ok (x.nym W j, x.r j) :=
  C91_owner_pseudonym hk hr (x.owner j)

/-- The credential is what the issuer issues on a request of the user. -/
theorem C93_credential (isk : Bytes) (hisk : S.zrOfBytes isk = W.isk) (x : Secrets S m) (rSk : S.F) (nonce : Bytes) (req : CredRequest)
    (hreq : newCredRequest W.T x.sk (some nonce) W.ipk rSk = .ok req) (cred : Credential)
    (h : newCredential W.T ⟨isk, W.ipk⟩ req W.attrs x.e x.s = .ok cred) : cred = x.credential W := by
  simp only [newCredential, Res.bind_eq_ok, Res.guardErr_eq_ok, Res.pure_def, Res.ok.injEq] at h
  obtain ⟨_, h1, _, h2, nym, h3, hRand, h4, hAttrs, h5, b, h6, rfl⟩ := h
  have e1 : hRand = W.k.hRand := Res.ok.inj (h4.symm.trans hr)
  have e2 : hAttrs = W.k.hAttrs := Res.ok.inj (h5.symm.trans W.reads.hAttrs)
  subst e1 e2
  have hn : nym = x.sk • W.k.hSk := by
    simp only [newCredRequest, hk, Res.ok_bind, Res.bind_eq_ok, Res.pure_def, Res.ok.injEq] at hreq
    obtain ⟨_, -, rfl⟩ := hreq
    exact Res.ok.inj (h3.symm.trans (W.T.g1_rt _))
  rw [addPairs_ok _ _ _ (by rw [W.one_attr_per_name]; exact W.bases), Res.ok.injEq] at h6
  have hb : b = x.B W := by
    rw [← h6, hn]
    simp only [Secrets.B, Dlog.Spec.signed]
  simp only [Secrets.credential, Secrets.A, hb, hisk]

theorem sigRand_len {N : Nat} (ρ : ShowRand S N) {D : Bytes} (h : D.length = N) : (ρ.sigRand D).rAttrs.length = nHid D := by
  simp only [ShowRand.sigRand, List.length_take, List.length_ofFn, nHid]
  exact Nat.min_eq_left (by rw [← h]; exact List.count_le_length)

theorem signPre (x : Secrets S m) (j : Fin m) {p : Show} (hp : p.Possible W.N) (ρ : ShowRand S W.N) :
    SignPre W.T (x.credential W) W.ipk p.D p.rhIndex p.cri (ρ.sigRand p.D) W.k (x.holder W j) where
  reads := W.reads
  a := W.T.g1_rt _
  b := W.T.g1_rt _
  e := (S.zrOfBytes_zrBytes _).symm
  s := (S.zrOfBytes_zrBytes _).symm
  attrs := by simp [Secrets.holder, Secrets.credential, Function.comp_def]
  attrs_len := by simp [Secrets.credential, hp.one_byte_per_name, W.one_attr_per_name]
  D_len := hp.one_byte_per_name
  rh_nonneg := hp.rh_hidden.1
  rh_lt := by
    have := (List.getElem?_eq_some_iff.mp hp.rh_hidden.2).1
    have := hp.rh_hidden.1
    omega
  alg := hp.cri_alg
  tape := sigRand_len ρ hp.one_byte_per_name
  bases := by rw [hp.one_byte_per_name]; exact W.bases
  rh_resp := count_take_lt hp.rh_hidden.2

variable (W) in
/-- The signature with the challenge `c`. -/
def wireShow (x : Secrets S m) (j : Fin m) (p : Show) (ρ : SigRand S) (c : S.F) : Signature :=
  toWire W.T p.cri (honest W.k (x.holder W j) p.D ρ (eidPart W.k (x.holder W j) p.D p.eidIndex.toNat p.st ρ)
    (rhPart W.k (x.holder W j) p.D p.rhIndex.toNat p.st ρ) c)

theorem newSignature_plain (x : Secrets S m) (j : Fin m) {p : Show} (hp : p.Possible W.N) (ρ : ShowRand S W.N) :
    ∃ md, newSignature W.T (x.credential W) x.sk (x.nym W j) (x.r j) W.ipk p.D p.msg p.rhIndex p.eidIndex p.cri (ρ.sigRand p.D) p.st
      none = .ok (wireShow W x j p (ρ.sigRand p.D) (S.hashToZr (S.zrBytes (S.hashToZr (x.firstShow W j p (ρ.sigRand p.D))) ++
        S.zrBytes ρ.nonce)), md) :=
  newSignature_sigOf (signPre x j hp ρ) hp.type (fun h => hp.eid_hidden (by rintro e; rw [e] at h; cases h)) hp.rh_hidden.2

variable (W) in
/-- The same issuer and user, with another hash function. -/
def Spec.Setting.over (h : Bytes → S.F) : Setting (S.withHash h) where
  T := W.T.withHash h
  ipk := W.ipk
  k := ⟨W.k.hSk, W.k.hRand, W.k.hAttrs, W.k.w⟩
  isk := W.isk
  attrs := W.attrs
  reads := ⟨W.reads.hSk, W.reads.hRand, W.reads.hAttrs, W.reads.w⟩
  one_attr_per_name := W.one_attr_per_name
  bases := W.bases

theorem firstShow_over (x : Secrets S m) (j : Fin m) {p : Show} (hp : p.Possible W.N) (ρ : ShowRand S W.N) (h : Bytes → S.F) :
    (⟨x.sk, x.r, x.e, x.s⟩ : Secrets (S.withHash h) m).firstShow (Setting.over W h) j p (ρ.with p.D h) =
      x.firstShow W j p (ρ.sigRand p.D) := by
  obtain ⟨D, msg, ri, ei, cri, st⟩ := p
  rcases hp.type with h | h | h <;> (simp only at h; subst h; rfl)

theorem wireShow_over (x : Secrets S m) (j : Fin m) {p : Show} (hp : p.Possible W.N) (ρ : ShowRand S W.N) (h : Bytes → S.F) (c : S.F) :
    wireShow (Setting.over W h) (⟨x.sk, x.r, x.e, x.s⟩ : Secrets (S.withHash h) m) j p (ρ.with p.D h) c =
      wireShow W x j p (ρ.sigRand p.D) c := by
  obtain ⟨D, msg, ri, ei, cri, st⟩ := p
  rcases hp.type with h | h | h <;> (simp only at h; subst h; rfl)

theorem show_withHash (x : Secrets S m) (j : Fin m) {p : Show} (hp : p.Possible W.N) (ρ : ShowRand S W.N) (h : Bytes → S.F) :
    ∃ md, newSignature (W.T.withHash h) (x.credential W) x.sk (Secrets.nym (S := S) W x j) (x.r j) W.ipk p.D p.msg p.rhIndex p.eidIndex p.cri
      (ρ.with p.D h) p.st none = .ok (wireShow W x j p (ρ.sigRand p.D) (h (S.zrBytes (h (x.firstShow W j p (ρ.sigRand p.D))) ++
        S.zrBytes ρ.nonce)), md) := by
  obtain ⟨md, e⟩ := newSignature_plain (W := Setting.over W h) (m := m) ⟨x.sk, x.r, x.e, x.s⟩ j (p := p) hp
    ⟨ρ.r1, ρ.r2, ρ.nonce, ρ.rSk, ρ.re, ρ.rR2, ρ.rR3, ρ.rSPrime, ρ.rRNym, ρ.rAttrs, ρ.rEid, ρ.rREid, ρ.rRh, ρ.rRRh⟩
  refine ⟨md, ?_⟩
  rw [← firstShow_over x j hp ρ h, ← wireShow_over x j hp ρ h]
  exact e

theorem second_ne_show (x : Secrets S m) (j : Fin m) (p : Show) (ρ : SigRand S) (c₁ c : S.F) :
    S.zrBytes c₁ ++ S.zrBytes c ≠ x.firstShow W j p ρ := by
  intro h
  have h1 := congrArg List.length h
  have h2 := S.scalarLen_le
  have h3 := S.scalarLen_pos
  simp only [Secrets.firstShow, honestTranscript, List.length_append, Suite.g1Bytes_len, Suite.zrBytes_len] at h1
  omega

theorem signature_show (x : Secrets S m) (j : Fin m) {p : Show} (hp : p.Possible W.N) (ρ : ShowRand S W.N) (c₁ c₂ : S.F) :
    x.signature W j p ρ c₁ c₂ = some (wireShow W x j p (ρ.sigRand p.D) c₂) := by
  obtain ⟨md, e⟩ := show_withHash x j hp ρ fun y => if y = x.firstShow W j p (ρ.sigRand p.D) then c₁ else c₂
  rw [Secrets.signature]
  simp only [e, if_true, if_neg (second_ne_show x j p (ρ.sigRand p.D) c₁ ρ.nonce)]

/-- The user shows the credential as the code does: whatever the hash function, if its answers to the two questions are `c₁` and `c₂`. -/
theorem C93_shows (x : Secrets S m) (j : Fin m) (p : Show) (hp : p.Possible W.N) (ρ : ShowRand S W.N) (h : Bytes → S.F) (c₁ c₂ : S.F)
    (h₁ : h (x.firstShow W j p (ρ.sigRand p.D)) = c₁) (h₂ : h (S.zrBytes c₁ ++ S.zrBytes ρ.nonce) = c₂) :
    ∃ sig md, x.signature W j p ρ c₁ c₂ = some sig ∧
      newSignature (W.T.withHash h) (x.credential W) x.sk (Secrets.nym (S := S) W x j) (x.r j) W.ipk p.D p.msg p.rhIndex p.eidIndex p.cri
        (ρ.with p.D h) p.st none = .ok (sig, md) := by
  obtain ⟨md, e⟩ := show_withHash x j hp ρ h
  exact ⟨_, md, signature_show x j hp ρ c₁ c₂, by rw [e, h₁, h₂]⟩

/-! ## Other secrets -/

/-- A user with the secret `sk` whose pseudonyms and credential look the same, if `l` is the logarithm of `HSk`. -/
def Spec.Secrets.other (x : Secrets S m) (l sk : S.F) : Secrets S m :=
  ⟨sk, fun j => x.r j + (x.sk - sk) * l, x.e, x.s + (x.sk - sk) * l⟩

/-- The choices with which the other user answers the same, for the challenge `c`. -/
def showShift {N : Nat} (c a b : S.F) (ρ : ShowRand S N) : ShowRand S N :=
  { ρ with rSk := ρ.rSk + c * a, rSPrime := ρ.rSPrime + c * b, rRNym := ρ.rRNym + c * b }

/-- See `showShift`. -/
def wishShift {N : Nat} (x : Secrets S m) (l sk : S.F) (s : Session S.F (Wish m N)) (ρ : NymRand S × ShowRand S N) :
    NymRand S × ShowRand S N :=
  (nymShift s.challenge (x.sk - sk) (-((x.sk - sk) * l)) ρ.1, showShift s.challenge (x.sk - sk) (-((x.sk - sk) * l)) ρ.2)

theorem wishShift_inj {N : Nat} (x : Secrets S m) (l sk : S.F) (s : Session S.F (Wish m N)) :
    Function.Injective (wishShift x l sk s) := by
  rintro ⟨⟨a1, a2, a3⟩, ⟨b1, b2, b3, b4, b5, b6, b7, b8, b9, b10, b11, b12, b13, b14⟩⟩
    ⟨⟨a1', a2', a3'⟩, ⟨b1', b2', b3', b4', b5', b6', b7', b8', b9', b10', b11', b12', b13', b14'⟩⟩ h
  simpa [wishShift, nymShift, showShift] using h

section

variable {l : S.F} (hl : W.k.hSk = l • W.k.hRand) (x : Secrets S m) (sk : S.F)
include hl

theorem other_nym (j : Fin m) : (x.other l sk).nym W j = x.nym W j := by
  simp only [Secrets.nym, Secrets.owner, Owner.nym, Secrets.other, hl]
  module

theorem other_B : (x.other l sk).B W = x.B W := by
  simp only [Secrets.B, Dlog.Spec.signed, Secrets.other, hl]
  module

theorem other_A : (x.other l sk).A W = x.A W := by
  rw [Secrets.A, other_B hl, Secrets.A]
  rfl

theorem other_known : (x.other l sk).known W = x.known W := by
  rw [Secrets.known, other_A hl, other_B hl, Secrets.known, funext (other_nym hl x sk)]
  rfl

theorem other_holder (j : Fin m) : (x.other l sk).holder W j =
    ⟨x.A W, x.B W, x.e, x.s + (x.sk - sk) * l, sk, x.nym W j, x.r j + (x.sk - sk) * l, W.attrs⟩ := by
  rw [Secrets.holder, other_A hl, other_B hl, other_nym hl]
  rfl

/-- The other user answers alike. -/
theorem other_alike (s : Session S.F (Wish m W.N)) (ρ : NymRand S × ShowRand S W.N) :
    Alike (x.service W) ((x.other l sk).service W) s.req s.challenge ρ (wishShift x l sk s ρ) := by
  obtain ⟨req, heard, c⟩ := s
  cases req with
  | sign j msg =>
    have hz : (x.sk - sk) • W.k.hSk + (-((x.sk - sk) * l)) • W.k.hRand = 0 := by rw [hl]; module
    have hn : ((x.other l sk).owner j).nym W.k.hSk W.k.hRand = (x.owner j).nym W.k.hSk W.k.hRand := other_nym hl x sk j
    refine ⟨?_, fun c₁ => ⟨rfl, ?_⟩⟩
    · simp only [Secrets.service, wishShift]
      rw [first_eq, first_eq, hn, nymFirst_shift _ _ _ _ _ hz]
    · simp only [Secrets.service, wishShift]
      rw [signature_eq hk hr, signature_eq hk hr]
      simp only [nymShift, Secrets.owner, Secrets.other]
      congr 3 <;> ring
  | present j p hp =>
    refine ⟨?_, fun c₁ => ⟨rfl, ?_⟩⟩
    · simp only [Secrets.service, wishShift, Secrets.firstShow, other_holder hl]
      have e2 : ∀ ρ : ShowRand S W.N, ∀ c a : S.F, (ρ.rSPrime + c * -(a * l)) • W.k.hRand + (ρ.rR3 • (ρ.r1 • x.B W - ρ.r2 • W.k.hRand) +
          (ρ.rSk + c * a) • W.k.hSk) = ρ.rSPrime • W.k.hRand + (ρ.rR3 • (ρ.r1 • x.B W - ρ.r2 • W.k.hRand) + ρ.rSk • W.k.hSk) := by
        intro ρ c a; rw [hl]; module
      have e3 : ∀ ρ : ShowRand S W.N, ∀ c a : S.F, (ρ.rSk + c * a) • W.k.hSk + (ρ.rRNym + c * -(a * l)) • W.k.hRand =
          ρ.rSk • W.k.hSk + ρ.rRNym • W.k.hRand := by
        intro ρ c a; rw [hl]; module
      obtain ⟨D, msg, ri, ei, cri, st⟩ := p
      rcases hp.type with h | h | h <;>
        (simp only at h; subst h
         simp only [honestTranscript, showShift, ShowRand.sigRand, e2, e3]
         rfl)
    · simp only [Secrets.service, wishShift]
      rw [signature_show x j hp, signature_show _ j hp]
      have g1 : ∀ a : S.F, a + c * (x.sk - sk) + c * sk = a + c * x.sk := by intro a; ring
      have g2 : ∀ a b : S.F, a + c * -((x.sk - sk) * l) + c * (x.s + (x.sk - sk) * l - b) = a + c * (x.s - b) := by intro a b; ring
      have g3 : ∀ a b : S.F, a + c * -((x.sk - sk) * l) + c * (b + (x.sk - sk) * l) = a + c * b := by intro a b; ring
      obtain ⟨D, msg, ri, ei, cri, st⟩ := p
      rcases hp.type with h | h | h <;>
        (simp only at h; subst h
         simp only [wireShow, other_holder hl, toWire, honest, showShift, ShowRand.sigRand, g1, g2, g3]
         rfl)

end

/-! ## Presentations that look like the forged signature -/

theorem claims_first (attack : Attacker (m := m) W) (x : Secrets S m) (tape : Tape S W.N n) (a : Visit S.F (Wish m W.N) (Claim m)) :
    (claims W attack x tape).first a = Dlog.Spec.nymTranscript signLabel ⟨W.k.hSk, W.k.hRand, [], 0⟩ (x.nym W a.result.j)
      (S.zrOfBytes a.result.sig.proofC) (S.zrOfBytes a.result.sig.proofSSk) (S.zrOfBytes a.result.sig.proofSRNym) W.ipk.hash
      a.result.msg := by
  simp only [claims, nymQuestion, hk, hr]

variable (W) in
/-- A presentation asks the hash function the question of the forged signature. -/
def Mixed (x : Secrets S m) (tape : Tape S W.N n) (Q : Bytes) (log : List (Session S.F (Wish m W.N))) : Prop :=
  ∃ s ∈ log, ∃ j p hp, s.req = .present j p hp ∧ (x.service W).first s.req (tape (history n s.heard)) = Q

variable (W) in
/-- The second commitment of a presentation is the pseudonym `P`. -/
def Meets (x : Secrets S m) (P : S.G1) : Wish m W.N → NymRand S × ShowRand S W.N → Prop
  | .sign _ _, _ => False
  | .present _ p _, ρ => ρ.2.rSPrime • W.k.hRand + (ρ.2.rR3 • (ρ.2.r1 • x.B W - ρ.2.r2 • W.k.hRand) + ρ.2.rSk • W.k.hSk) +
      S.lin (ρ.2.sigRand p.D).rAttrs (hid p.D W.k.hAttrs) = P

theorem meets_of (hS : Dlog.Spec.Apart S) {x : Secrets S m} {j : Fin m} {p : Show} {hp : p.Possible W.N} {ρ : NymRand S × ShowRand S W.N}
    {nym : S.G1} {c s r : S.F} {hash msg : Bytes}
    (h : (x.service W).first (.present j p hp) ρ = Dlog.Spec.nymTranscript signLabel ⟨W.k.hSk, W.k.hRand, [], 0⟩ nym c s r hash msg) :
    Meets W x nym (.present j p hp) ρ := by
  simp only [Secrets.service, Secrets.firstShow, honestTranscript, Dlog.Spec.nymTranscript, List.append_assoc] at h
  have hlab : (if (rhPart W.k (x.holder W j) p.D p.rhIndex.toNat p.st (ρ.2.sigRand p.D)).isSome then signWithEidNymRhNymLabel
      else if (eidPart W.k (x.holder W j) p.D p.eidIndex.toNat p.st (ρ.2.sigRand p.D)).isSome then signWithEidNymLabel
      else signLabel) = signLabel := by
    split_ifs with h1 h2
    · rw [if_pos h1] at h
      exact absurd (by simpa only [List.append_assoc] using h.symm) (labels_apart hS _ _ _ _).2.1
    · rw [if_neg h1, if_pos h2] at h
      exact absurd (by simpa only [List.append_assoc] using h.symm) (labels_apart hS _ _ _ _).1
    · rfl
  rw [hlab] at h
  obtain ⟨-, h⟩ := List.append_inj (List.append_cancel_left h) (by simp)
  obtain ⟨h, -⟩ := List.append_inj h (by simp)
  exact S.g1Bytes_inj h

/-! ## Counting -/

noncomputable instance {N : Nat} [Fintype S.F] : Fintype (ShowRand S N) :=
  Fintype.ofInjective
    (fun ρ => (((ρ.r1, ρ.r2, ρ.nonce, ρ.rSk, ρ.re, ρ.rR2, ρ.rR3), ρ.rSPrime, ρ.rRNym, ρ.rEid, ρ.rREid, ρ.rRh, ρ.rRRh), ρ.rAttrs) :
      ShowRand S N → ((S.F × S.F × S.F × S.F × S.F × S.F × S.F) × S.F × S.F × S.F × S.F × S.F × S.F) × (Fin N → S.F)) (by
    rintro ⟨b1, b2, b3, b4, b5, b6, b7, b8, b9, b10, b11, b12, b13, b14⟩ ⟨b1', b2', b3', b4', b5', b6', b7', b8', b9', b10', b11', b12', b13', b14'⟩ h
    simp only [Prod.mk.injEq] at h
    obtain ⟨⟨⟨rfl, rfl, rfl, rfl, rfl, rfl, rfl⟩, rfl, rfl, rfl, rfl, rfl, rfl⟩, rfl⟩ := h
    rfl)

/-- The secrets of a user. -/
def secretsEquiv (S : Suite) (m : Nat) : S.F × (Fin m → S.F) × S.F × S.F ≃ Secrets S m :=
  ⟨fun p => ⟨p.1, p.2.1, p.2.2.1, p.2.2.2⟩, fun x => (x.sk, x.r, x.e, x.s), fun _ => rfl, fun _ => rfl⟩

instance [Fintype S.F] : Fintype (Secrets S m) := Fintype.ofEquiv _ (secretsEquiv S m)

theorem card_secrets [Fintype S.F] : Fintype.card (Secrets S m) = Fintype.card S.F * Fintype.card ((Fin m → S.F) × S.F × S.F) := by
  rw [← Fintype.card_congr (secretsEquiv S m), Fintype.card_prod]

section

variable [Fintype S.F] {attack : Attacker (m := m) W} {q : Nat}

open scoped Classical in
theorem card_meets (hne : W.k.hRand ≠ 0) (x : Secrets S m) (P : S.G1) {v : Visitor S.F (Wish m W.N) (Answer S.F) (Claim m)}
    (hw : v.Within n) (ω : List S.F) :
    Fintype.card S.F * (Finset.univ.filter fun tape : Tape S W.N n =>
      ∃ p ∈ calls (fun _ => x.service W) tape v [] [] ω, Meets W x P p.1 (tape (history n p.2))).card ≤
      n * Fintype.card (Tape S W.N n) := by
  refine card_unlucky hw (fun (d : S.F) ρ => (ρ.1, { ρ.2 with rSPrime := ρ.2.rSPrime + d })) (Meets W x P) ?_ ω
  rintro (⟨j, msg⟩ | ⟨j, p, hp⟩) ⟨a, ρ⟩ ⟨a', ρ'⟩ d d' h h' e
  · exact h.elim
  · obtain ⟨b1, b2, b3, b4, b5, b6, b7, b8, b9, b10, b11, b12, b13, b14⟩ := ρ
    obtain ⟨b1', b2', b3', b4', b5', b6', b7', b8', b9', b10', b11', b12', b13', b14'⟩ := ρ'
    simp only [Prod.mk.injEq, ShowRand.mk.injEq] at e
    obtain ⟨rfl, rfl, rfl, rfl, rfl, rfl, rfl, rfl, hs, rfl, rfl, rfl, rfl, rfl, rfl⟩ := e
    simp only [Meets, ShowRand.sigRand] at h h'
    have : b8 = b8' := S.smul_left_inj hne (add_right_cancel (add_right_cancel (h.trans h'.symm)))
    subst this
    exact ⟨add_left_cancel hs, rfl⟩

open scoped Classical in
/-- Plays in which a presentation asks the question of the forged signature. -/
theorem card_mixed (hS : Dlog.Spec.Apart S) (hne : W.k.hRand ≠ 0) (hw : ∀ pub, (attack pub).Within n) :
    Fintype.card S.F * (Finset.univ.filter fun p : (Secrets S m × Tape S W.N n) × (Fin q → S.F) =>
      ∃ a tab, (claims W attack p.1.1 p.1.2).play p.2 = some (a, tab) ∧
        Mixed W p.1.1 p.1.2 ((claims W attack p.1.1 p.1.2).first a) a.log).card ≤
      m * n * Fintype.card (Secrets S m × Tape S W.N n) * Fintype.card (Fin q → S.F) := by
  have one : ∀ (x : Secrets S m) (ω : Fin q → S.F), Fintype.card S.F * (Finset.univ.filter fun tape : Tape S W.N n =>
      ∃ a tab, (claims W attack x tape).play ω = some (a, tab) ∧
        Mixed W x tape ((claims W attack x tape).first a) a.log).card ≤ m * (n * Fintype.card (Tape S W.N n)) := by
    intro x ω
    calc Fintype.card S.F * (Finset.univ.filter fun tape : Tape S W.N n =>
          ∃ a tab, (claims W attack x tape).play ω = some (a, tab) ∧ Mixed W x tape ((claims W attack x tape).first a) a.log).card
        ≤ Fintype.card S.F * ∑ j : Fin m, (Finset.univ.filter fun tape : Tape S W.N n =>
            ∃ p ∈ calls (fun _ => x.service W) tape (attack (x.known W)) [] [] (List.ofFn ω),
              Meets W x (x.nym W j) p.1 (tape (history n p.2))).card := by
          refine Nat.mul_le_mul_left _ (le_trans (Finset.card_le_card ?_) Finset.card_biUnion_le)
          intro tape h
          simp only [Finset.mem_filter, Finset.mem_univ, true_and, Finset.mem_biUnion] at h ⊢
          obtain ⟨a, tab, hplay, s, hs, j, p, hp, hreq, hQ⟩ := h
          refine ⟨a.result.j, (s.req, s.heard), ?_, ?_⟩
          · rw [play_visit (σ := fun _ => x.service W) (tape := tape) (v := attack (x.known W)) rfl] at hplay
            obtain ⟨new, e1, e2⟩ := log_calls _ hplay
            rw [← e2]
            rw [e1, List.nil_append] at hs
            exact List.mem_map.mpr ⟨s, hs, rfl⟩
          · rw [hreq] at hQ ⊢
            rw [claims_first] at hQ
            exact meets_of hS hQ
      _ = ∑ j : Fin m, Fintype.card S.F * (Finset.univ.filter fun tape : Tape S W.N n =>
            ∃ p ∈ calls (fun _ => x.service W) tape (attack (x.known W)) [] [] (List.ofFn ω),
              Meets W x (x.nym W j) p.1 (tape (history n p.2))).card := Finset.mul_sum _ _ _
      _ ≤ ∑ _j : Fin m, n * Fintype.card (Tape S W.N n) := Finset.sum_le_sum fun j _ => card_meets hne x _ (hw _) _
      _ = m * (n * Fintype.card (Tape S W.N n)) := by rw [Finset.sum_const, Finset.card_univ, Fintype.card_fin, smul_eq_mul]
  calc Fintype.card S.F * (Finset.univ.filter fun p : (Secrets S m × Tape S W.N n) × (Fin q → S.F) =>
        ∃ a tab, (claims W attack p.1.1 p.1.2).play p.2 = some (a, tab) ∧
          Mixed W p.1.1 p.1.2 ((claims W attack p.1.1 p.1.2).first a) a.log).card
      = ∑ x : Secrets S m, ∑ ω : Fin q → S.F, Fintype.card S.F * (Finset.univ.filter fun tape : Tape S W.N n =>
          ∃ a tab, (claims W attack x tape).play ω = some (a, tab) ∧
            Mixed W x tape ((claims W attack x tape).first a) a.log).card := by
        simp only [Finset.card_filter, Fintype.sum_prod_type, Finset.mul_sum]
        exact Finset.sum_congr rfl fun x _ => Finset.sum_comm
    _ ≤ ∑ _x : Secrets S m, ∑ _ω : Fin q → S.F, m * (n * Fintype.card (Tape S W.N n)) :=
        Finset.sum_le_sum fun x _ => Finset.sum_le_sum fun ω _ => one x ω
    _ = _ := by
        simp only [Finset.sum_const, Finset.card_univ, smul_eq_mul, Fintype.card_prod]
        ring

variable (W) in
/-- The game in which forged signatures that share their question with a presentation do not count. -/
def unmixed (attack : Attacker (m := m) W) (x : Secrets S m) (tape : Tape S W.N n) : Game S.F (Visit S.F (Wish m W.N) (Claim m)) :=
  { claims W attack x tape with
    accepts := fun h a => (claims W attack x tape).accepts h a ∧ ¬ Mixed W x tape ((claims W attack x tape).first a) a.log }

variable (W) in
/-- The user with the secret 0 and choices that give the same answers in two plays. -/
def flatMember (l : S.F) (x : Secrets S m) (log : List (Session S.F (Wish m W.N))) (tape : Tape S W.N n) : Secrets S m × Tape S W.N n :=
  (x.other l 0, twist log (wishShift x l 0) tape)

omit [Fintype S.F] in
theorem fork_flatMember {l : S.F} (hl : W.k.hSk = l • W.k.hRand) (hw : ∀ pub, (attack pub).Within n) {x : Secrets S m}
    {tape : Tape S W.N n} {ω ω' : Fin q → S.F}
    {r : (Visit S.F (Wish m W.N) (Claim m) × Table S.F) × (Visit S.F (Wish m W.N) (Claim m) × Table S.F)}
    (h : (unmixed W attack x tape).fork ω ω' = some r) (hF : (unmixed W attack x tape).Forked r)
    (hP : Parts (unmixed W attack x tape) ω ω' r) :
    (unmixed W attack (flatMember W l x (r.1.1.log ++ r.2.1.log) tape).1 (flatMember W l x (r.1.1.log ++ r.2.1.log) tape).2).fork ω ω' =
      some r := by
  have hQ : (unmixed W attack x tape).first = (claims W attack x tape).first := rfl
  refine fork_twist (σ := fun _ => x.service W) (σ' := fun _ => (x.other l 0).service W) (tape := tape) (v := attack (x.known W))
    (G := unmixed W attack x tape)
    (G' := unmixed W attack (x.other l 0) (twist (r.1.1.log ++ r.2.1.log) (wishShift x l 0) tape)) (tw := wishShift x l 0) rfl (hw _) ?_ ?_ rfl h hP ?_ ?_ ?_
  · show ((attack ((x.other l 0).known W)).against _ _ [] []) = _
    rw [other_known hl]
  · funext a
    simp only [unmixed, claims, other_nym hl]
  · intro s hs e
    obtain ⟨⟨-, hfresh⟩, hmix⟩ := hF.1
    rw [hQ] at e
    cases hreq : s.req with
    | sign j msg =>
      rw [hreq, claims_first] at e
      simp only [Secrets.service, Owner.first, Dlog.Spec.nymTranscript, List.append_assoc] at e
      obtain ⟨-, e⟩ := List.append_inj (List.append_cancel_left e) (by simp)
      obtain ⟨e1, e⟩ := List.append_inj e (by simp)
      obtain ⟨-, e2⟩ := List.append_inj e (by simp)
      exact hfresh s hs j msg hreq (S.g1Bytes_inj e1) e2
    | present j p hp => exact hmix ⟨s, hs, j, p, hp, hreq, e⟩
  · intro heard req ρ c
    rw [hQ, claims_first]
    cases req <;> exact second_ne _ _ _ _ _ _ _ _ _
  · intro s _ ρ
    exact other_alike hl x 0 s ρ

open scoped Classical in
/-- Forks from which the secret of the user itself is computed. -/
theorem card_ownMember {l : S.F} (hl : W.k.hSk = l • W.k.hRand) (hw : ∀ pub, (attack pub).Within n) :
    (Finset.univ.filter fun p : (Secrets S m × Tape S W.N n) × (Fin q → S.F) × (Fin q → S.F) =>
      ∃ r, (unmixed W attack p.1.1 p.1.2).fork p.2.1 p.2.2 = some r ∧ (unmixed W attack p.1.1 p.1.2).Forked r ∧
        Parts (unmixed W attack p.1.1 p.1.2) p.2.1 p.2.2 r ∧
        (openingOf S r.1.1.result.sig r.2.1.result.sig).1 = p.1.1.sk).card ≤
    Fintype.card ((Fin m → S.F) × S.F × S.F) * Fintype.card (Tape S W.N n) * Fintype.card (Fin q → S.F) ^ 2 := by
  let P := (Secrets S m × Tape S W.N n) × (Fin q → S.F) × (Fin q → S.F)
  let logs (p : P) : List (Session S.F (Wish m W.N)) :=
    match (unmixed W attack p.1.1 p.1.2).fork p.2.1 p.2.2 with
    | some r => r.1.1.log ++ r.2.1.log
    | none => []
  let Φ (p : P) : (((Fin m → S.F) × S.F × S.F) × Tape S W.N n) × (Fin q → S.F) × (Fin q → S.F) :=
    let o := flatMember W l p.1.1 (logs p) p.1.2
    (((o.1.r, o.1.e, o.1.s), o.2), p.2)
  have hcard : Fintype.card ((((Fin m → S.F) × S.F × S.F) × Tape S W.N n) × (Fin q → S.F) × (Fin q → S.F)) =
      Fintype.card ((Fin m → S.F) × S.F × S.F) * Fintype.card (Tape S W.N n) * Fintype.card (Fin q → S.F) ^ 2 := by
    rw [Fintype.card_prod, Fintype.card_prod (α := (Fin m → S.F) × S.F × S.F), Fintype.card_prod (α := Fin q → S.F), sq]
  rw [← hcard, ← Finset.card_univ]
  refine Finset.card_le_card_of_injOn Φ (fun _ _ => Finset.mem_coe.mpr (Finset.mem_univ _)) ?_
  rintro ⟨⟨x₁, t₁⟩, ω, ω'⟩ h₁ ⟨⟨x₂, t₂⟩, ω₂, ω₂'⟩ h₂ e
  simp only [Finset.coe_filter, Finset.mem_univ, true_and, Set.mem_ofPred_eq] at h₁ h₂
  obtain ⟨r₁, a1, a2, a3, a4⟩ := h₁
  obtain ⟨r₂, b1, b2, b3, b4⟩ := h₂
  have l₁ : logs ((x₁, t₁), ω, ω') = r₁.1.1.log ++ r₁.2.1.log := by simp only [logs, a1]
  have l₂ : logs ((x₂, t₂), ω₂, ω₂') = r₂.1.1.log ++ r₂.2.1.log := by simp only [logs, b1]
  simp only [Φ, l₁, l₂, Prod.mk.injEq] at e
  obtain ⟨⟨⟨er, ee, es⟩, et⟩, rfl, rfl⟩ := e
  have ho : flatMember W l x₁ (r₁.1.1.log ++ r₁.2.1.log) t₁ = flatMember W l x₂ (r₂.1.1.log ++ r₂.2.1.log) t₂ := by
    simp only [flatMember, Secrets.other] at er ee es et ⊢
    rw [et, er, ee, es]
  have f₁ := fork_flatMember hl hw a1 a2 a3
  have f₂ := fork_flatMember hl hw b1 b2 b3
  rw [ho] at f₁
  obtain rfl : r₁ = r₂ := Option.some.inj (f₁.symm.trans f₂)
  have hs : x₁.sk = x₂.sk := a4.symm.trans b4
  obtain ⟨sk₁, ρ₁, e₁, s₁⟩ := x₁
  obtain ⟨sk₂, ρ₂, e₂, s₂⟩ := x₂
  simp only at hs
  subst hs
  simp only [flatMember, Secrets.other, add_left_inj] at er ee es
  have er' : ρ₁ = ρ₂ := funext fun j => by simpa using congrFun er j
  subst er' ee es
  have ht := twist_inj (fun s _ => wishShift_inj _ l 0 s) et
  rw [show t₁ = t₂ from ht]

end

open scoped Classical in
/-- C93. A user has `m` pseudonyms and a credential, and signs and shows on demand. Take any attacker that makes at most `n` moves, and any
number `q` of hash questions. If it signs a message that the user has not signed with the pseudonym, for the fraction `ε` of all secrets and
choices of the user and all answers of the hash function, then the reduction computes the discrete logarithm of `HSk` to the base `HRand` for
at least the fraction `ε² / q - (1 + (1 + 2 q + 2 m n / q) ε) / |F|` of the choices that it makes. -/
theorem C93_pseudonyms_with_credentials [Fintype S.F] (W : Setting S) (hS : Dlog.Spec.Apart S) (hne : W.k.hRand ≠ 0) (m n : Nat)
    (attack : Attacker (m := m) W) (hw : ∀ pub, (attack pub).Within n) (q : Nat) :
    let users := Secrets S m × Tape S W.N n
    let V := Finset.univ.filter fun p : users × (Fin q → S.F) => ∃ a tab, (claims W attack p.1.1 p.1.2).Wins p.2 a tab
    let D := Finset.univ.filter fun p : users × (Fin q → S.F) × (Fin q → S.F) =>
      W.k.hSk = solveMember W attack p.1.1 p.1.2 p.2.1 p.2.2 • W.k.hRand
    let u := Fintype.card users
    let answers := Fintype.card (Fin q → S.F)
    Fintype.card S.F * V.card ^ 2 ≤
      q * Fintype.card S.F * u * D.card + q * u ^ 2 * answers ^ 2 + (q + 2 * q ^ 2 + 2 * m * n) * u * V.card * answers := by
  intro users V D u answers
  obtain ⟨l, hl⟩ := S.g1_span hne W.k.hSk
  let G (o : users) := unmixed W attack o.1 o.2
  let w (o : users) := (Finset.univ.filter fun ω : Fin q → S.F => ∃ a tab, (G o).Wins ω a tab).card
  let V₁ := Finset.univ.filter fun p : users × (Fin q → S.F) => ∃ a tab, (G p.1).Wins p.2 a tab
  let fk (o : users) := (Finset.univ.filter fun p : (Fin q → S.F) × (Fin q → S.F) => ∃ r, (G o).fork p.1 p.2 = some r ∧ (G o).Forked r).card
  have per : ∀ o, Fintype.card S.F * w o ^ 2 ≤ q * Fintype.card S.F * fk o + 2 * q ^ 2 * w o * answers := by
    intro o
    refine forks (G o) q (fun x => S.zrOfBytes (x.take S.scalarLen)) ?_
    intro a c
    show S.zrOfBytes ((S.zrBytes c ++ _).take S.scalarLen) = c
    rw [List.take_append_of_le_length (by simp), List.take_of_length_le (by simp), S.zrOfBytes_zrBytes]
  have hV : V₁.card = ∑ o, w o := card_filter_prod _
  let same (o : users) := (Finset.univ.filter fun p : (Fin q → S.F) × (Fin q → S.F) =>
      ∃ r, (G o).fork p.1 p.2 = some r ∧ (G o).Forked r ∧ ¬ Parts (G o) p.1 p.2 r)
  let own (o : users) := (Finset.univ.filter fun p : (Fin q → S.F) × (Fin q → S.F) =>
      ∃ r, (G o).fork p.1 p.2 = some r ∧ (G o).Forked r ∧ Parts (G o) p.1 p.2 r ∧
        (openingOf S r.1.1.result.sig r.2.1.result.sig).1 = o.1.sk)
  let dl (o : users) := (Finset.univ.filter fun p : (Fin q → S.F) × (Fin q → S.F) =>
      W.k.hSk = solveMember W attack o.1 o.2 p.1 p.2 • W.k.hRand)
  have hD : D.card = ∑ o, (dl o).card := card_filter_prod _
  have hsplit : ∀ o, fk o ≤ (dl o).card + (own o).card + (same o).card := by
    intro o
    refine le_trans (Finset.card_le_card ?_) (le_trans (Finset.card_union_le _ _) (Nat.add_le_add_right (Finset.card_union_le _ _) _))
    rintro ⟨ω, ω'⟩ h
    simp only [Finset.mem_filter, Finset.mem_univ, true_and, Finset.mem_union, dl, own, same] at h ⊢
    obtain ⟨r, h1, h2⟩ := h
    by_cases hP : Parts (G o) ω ω' r
    · left
      by_cases hs : (openingOf S r.1.1.result.sig r.2.1.result.sig).1 = o.1.sk
      · exact .inr ⟨r, h1, h2, hP, hs⟩
      · left
        obtain ⟨⟨⟨acc₁, -⟩, -⟩, ⟨⟨acc₂, -⟩, -⟩, hq, hc⟩ := h2
        have hq' := hq
        change (claims W attack o.1 o.2).first _ = (claims W attack o.1 o.2).first _ at hq'
        rw [claims_first, claims_first] at hq'
        simp only [Dlog.Spec.nymTranscript, List.append_assoc] at hq'
        obtain ⟨-, hq'⟩ := List.append_inj (List.append_cancel_left hq') (by simp)
        have hn : o.1.nym W r.1.1.result.j = o.1.nym W r.2.1.result.j := S.g1Bytes_inj (List.append_inj hq' (by simp)).1
        have hQ : ∀ sig msg, nymQuestion W.T W.ipk (o.1.nym W r.1.1.result.j) sig msg =
            Dlog.Spec.nymTranscript signLabel ⟨W.k.hSk, W.k.hRand, [], 0⟩ (o.1.nym W r.1.1.result.j) (S.zrOfBytes sig.proofC)
              (S.zrOfBytes sig.proofSSk) (S.zrOfBytes sig.proofSRNym) W.ipk.hash msg := by
          intro sig msg
          rw [nymQuestion, hk, hr]
        have hf₂ : (G o).first r.2.1 = nymQuestion W.T W.ipk (o.1.nym W r.1.1.result.j) r.2.1.result.sig r.2.1.result.msg := by
          rw [hn]; rfl
        have hf₁ : (G o).first r.1.1 = nymQuestion W.T W.ipk (o.1.nym W r.1.1.result.j) r.1.1.result.sig r.1.1.result.msg := rfl
        rw [hf₁, hf₂] at hq
        have := C17_nym_signature_extraction W.T (oracle r.1.2) (oracle r.2.2) W.ipk (o.1.nym W r.1.1.result.j) r.1.1.result.sig
          r.2.1.result.sig r.1.1.result.msg r.2.1.result.msg ⟨W.k.hSk, W.k.hRand, [], 0⟩ hk hr acc₁ (by rw [hn]; exact acc₂)
          (nymQuestion W.T W.ipk (o.1.nym W r.1.1.result.j)) hQ hq (by
            simp only [Game.answer, hf₁, hf₂] at hc
            exact hc)
        rw [solveMember, show (claims W attack o.1 o.2).fork ω ω' = some r from h1]
        exact logarithm_of (o := o.1.owner r.1.1.result.j)
          (a := ⟨r.1.1.result.sig, [], []⟩) (a' := ⟨r.2.1.result.sig, [], []⟩) this hs
    · exact .inr ⟨r, h1, h2, hP⟩
  have hsame : ∀ o, Fintype.card S.F * (same o).card ≤ w o * answers := fun o => card_same (G o)
  have hown : Fintype.card S.F * ∑ o, (own o).card ≤ u * answers ^ 2 := by
    have h1 := card_ownMember (q := q) hl hw
    rw [card_filter_prod] at h1
    refine le_trans (Nat.mul_le_mul_left _ h1) (le_of_eq ?_)
    simp only [u, users, answers, Fintype.card_prod (α := Secrets S m), card_secrets]
    ring
  have hfk : Fintype.card S.F * ∑ o, fk o ≤ Fintype.card S.F * D.card + u * answers ^ 2 + V₁.card * answers := by
    calc Fintype.card S.F * ∑ o, fk o ≤ Fintype.card S.F * ∑ o, ((dl o).card + (own o).card + (same o).card) :=
          Nat.mul_le_mul_left _ (Finset.sum_le_sum fun o _ => hsplit o)
      _ = Fintype.card S.F * D.card + Fintype.card S.F * ∑ o, (own o).card + ∑ o, Fintype.card S.F * (same o).card := by
          rw [Finset.sum_add_distrib, Finset.sum_add_distrib, hD, mul_add, mul_add, Finset.mul_sum (f := fun o => (same o).card)]
      _ ≤ Fintype.card S.F * D.card + u * answers ^ 2 + ∑ o, w o * answers :=
          Nat.add_le_add (Nat.add_le_add_left hown _) (Finset.sum_le_sum fun o _ => hsame o)
      _ = _ := by rw [← Finset.sum_mul, hV]
  have main : Fintype.card S.F * V₁.card ^ 2 ≤
      q * Fintype.card S.F * u * D.card + q * u ^ 2 * answers ^ 2 + (q + 2 * q ^ 2) * u * V₁.card * answers := by
    calc Fintype.card S.F * V₁.card ^ 2 ≤ Fintype.card S.F * (u * ∑ o, w o ^ 2) := by
          rw [hV]
          refine Nat.mul_le_mul_left _ (le_trans (sq_sum_le_card_mul_sum_sq (s := Finset.univ) (f := w)) (le_of_eq ?_))
          rw [Finset.card_univ, Nat.cast_id]
      _ = u * ∑ o, Fintype.card S.F * w o ^ 2 := by rw [← Finset.mul_sum]; ring
      _ ≤ u * ∑ o, (q * Fintype.card S.F * fk o + 2 * q ^ 2 * w o * answers) :=
          Nat.mul_le_mul_left _ (Finset.sum_le_sum fun o _ => per o)
      _ = u * (q * (Fintype.card S.F * ∑ o, fk o) + 2 * q ^ 2 * V₁.card * answers) := by
          rw [Finset.sum_add_distrib, ← Finset.mul_sum, ← Finset.sum_mul, ← Finset.mul_sum, hV]; ring
      _ ≤ u * (q * (Fintype.card S.F * D.card + u * answers ^ 2 + V₁.card * answers) + 2 * q ^ 2 * V₁.card * answers) :=
          Nat.mul_le_mul_left _ (Nat.add_le_add_right (Nat.mul_le_mul_left _ hfk) _)
      _ = _ := by ring
  let M := Finset.univ.filter fun p : users × (Fin q → S.F) =>
      ∃ a tab, (claims W attack p.1.1 p.1.2).play p.2 = some (a, tab) ∧
        Mixed W p.1.1 p.1.2 ((claims W attack p.1.1 p.1.2).first a) a.log
  have hM : Fintype.card S.F * M.card ≤ m * n * u * answers := card_mixed hS hne hw
  have hV₁ : V₁.card ≤ V.card := by
    refine Finset.card_le_card fun p h => ?_
    simp only [Finset.mem_filter, Finset.mem_univ, true_and, V₁, V] at h ⊢
    obtain ⟨a, tab, h1, h2⟩ := h
    exact ⟨a, tab, h1, h2.1⟩
  have hVM : V.card ≤ V₁.card + M.card := by
    refine le_trans (Finset.card_le_card fun p h => ?_) (Finset.card_union_le _ _)
    simp only [Finset.mem_filter, Finset.mem_univ, true_and, Finset.mem_union, V₁, V, M] at h ⊢
    obtain ⟨a, tab, h1, h2⟩ := h
    by_cases hm : Mixed W p.1.1 p.1.2 ((claims W attack p.1.1 p.1.2).first a) a.log
    · exact .inr ⟨a, tab, h1, hm⟩
    · exact .inl ⟨a, tab, h1, h2, hm⟩
  have sq : V.card ^ 2 ≤ V₁.card ^ 2 + 2 * V.card * M.card := by
    calc V.card ^ 2 ≤ V.card * (V₁.card + M.card) := by rw [_root_.sq]; exact Nat.mul_le_mul_left _ hVM
      _ = V.card * V₁.card + V.card * M.card := Nat.mul_add _ _ _
      _ ≤ (V₁.card + M.card) * V₁.card + V.card * M.card := Nat.add_le_add_right (Nat.mul_le_mul_right _ hVM) _
      _ = V₁.card ^ 2 + (M.card * V₁.card + V.card * M.card) := by ring
      _ ≤ V₁.card ^ 2 + (M.card * V.card + V.card * M.card) :=
          Nat.add_le_add_left (Nat.add_le_add_right (Nat.mul_le_mul_left _ hV₁) _) _
      _ = _ := by ring
  calc Fintype.card S.F * V.card ^ 2 ≤ Fintype.card S.F * (V₁.card ^ 2 + 2 * V.card * M.card) := Nat.mul_le_mul_left _ sq
    _ = Fintype.card S.F * V₁.card ^ 2 + 2 * V.card * (Fintype.card S.F * M.card) := by ring
    _ ≤ (q * Fintype.card S.F * u * D.card + q * u ^ 2 * answers ^ 2 + (q + 2 * q ^ 2) * u * V₁.card * answers) +
        2 * V.card * (m * n * u * answers) := Nat.add_le_add main (Nat.mul_le_mul_left _ hM)
    _ ≤ (q * Fintype.card S.F * u * D.card + q * u ^ 2 * answers ^ 2 + (q + 2 * q ^ 2) * u * V.card * answers) +
        2 * V.card * (m * n * u * answers) := by
        refine Nat.add_le_add_right (Nat.add_le_add_left (Nat.mul_le_mul_right _ (Nat.mul_le_mul_left _ hV₁)) _) _
    _ = _ := by ring

end Idemix.Fork
