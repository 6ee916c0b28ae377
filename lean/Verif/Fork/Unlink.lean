import Verif.Fork.Member

/-!
# C94: who signs remains hidden from those who choose what is signed

The members of an issuer have pseudonyms. Somebody has them sign with the pseudonyms and show their credentials with them, as often as they
like, on messages and with disclosures of their choice, and may know all the secrets and credentials of the members. There are two ways to
distribute the pseudonyms among the members, in both of which the disclosed attributes are the same. They cannot tell which is the case.
-/

namespace Idemix.Fork

open Idemix.Dlog
open Idemix (Suite Translator Res Bytes)
open Spec

/-! ## Specification -/

/-- A member: the user secret, the numbers of the credential, the attributes. -/
structure Spec.Person (S : Suite) (N : Nat) where
  sk : S.F
  e : S.F
  s : S.F
  attrs : List S.F
  one_attr_per_name : attrs.length = N

/-- An issuer and its members. -/
structure Spec.Group (S : Suite) (U : Nat) where
  T : Translator S
  ipk : IssuerPublicKey
  k : Dlog.Spec.Key S
  isk : S.F
  reads : Reads T ipk k
  issuer : k.w = isk • S.genG2
  bases : ipk.attributeNames.length ≤ k.hAttrs.length
  person : Fin U → Person S ipk.attributeNames.length

variable {S : Suite} {U m n : Nat} (G : Group S U)

/-- The number of attributes. -/
abbrev Spec.Group.N : Nat := G.ipk.attributeNames.length

/-- The issuer with the attributes of a member. -/
def Spec.Group.setting (i : Fin U) : Setting S where
  T := G.T
  ipk := G.ipk
  k := G.k
  isk := G.isk
  attrs := (G.person i).attrs
  reads := G.reads
  one_attr_per_name := (G.person i).one_attr_per_name
  bases := G.bases

/-- A member with the randomness of pseudonyms. -/
def Spec.Group.secrets (i : Fin U) (r : Fin m → S.F) : Secrets S m := ⟨(G.person i).sk, r, (G.person i).e, (G.person i).s⟩

/-- The credentials of the members are real: their first element, the signature of the issuer, is not zero. -/
def Spec.Group.Real : Prop := ∀ i, (G.secrets (m := 0) i fun _ => 0).A (G.setting i) ≠ 0

/-- The pseudonym that is asked for. -/
def Spec.Wish.pseudonym {m N : Nat} : Wish m N → Fin m
  | .sign j _ => j
  | .present j _ _ => j

/-- The owner of a pseudonym is not given away by what is disclosed: the two candidates have the same disclosed attributes. -/
def Spec.Group.Agree (L R : Fin m → Fin U) : Wish m G.N → Prop
  | .sign _ _ => True
  | .present j p _ => ∀ (i : Nat) (d : UInt8), p.D[i]? = some d → d ≠ 0 →
      (G.person (L j)).attrs[i]? = (G.person (R j)).attrs[i]?

/-- What somebody sees of an answer: the signature. (What is needed for an audit is not shown.) -/
inductive Spec.Seen where
  | signed (sig : NymSignature)
  | shown (sig : Signature)

/-- See `Seen`. -/
def Spec.Answer.seen {F : Type} : Answer F → Seen
  | .signed sig => .signed sig
  | .shown sig _ _ => .shown sig

/-- The pseudonyms, if `who` owns them. -/
def Spec.Group.nyms (who : Fin m → Fin U) (r : Fin m → S.F) (j : Fin m) : S.G1 :=
  (G.secrets (who j) r).nym (G.setting (who j)) j

/-- The members, each with the pseudonyms that `who` gives to them, doing what they are asked to (as in C93). -/
def Spec.Group.service (who : Fin m → Fin U) (r : Fin m → S.F) (Q : Wish m G.N → Prop) :
    Service S.F (NymRand S × ShowRand S G.N) {w : Wish m G.N // Q w} Seen where
  first w ρ := ((G.secrets (who w.1.pseudonym) r).service (G.setting (who w.1.pseudonym))).first w.1 ρ
  second w ρ c := ((G.secrets (who w.1.pseudonym) r).service (G.setting (who w.1.pseudonym))).second w.1 ρ c
  reply w ρ c₁ c₂ := (((G.secrets (who w.1.pseudonym) r).service (G.setting (who w.1.pseudonym))).reply w.1 ρ c₁ c₂).seen

/-- Somebody who knows the pseudonyms. -/
abbrev Spec.Watcher (Q : Wish m G.N → Prop) (β : Type) := (Fin m → S.G1) → Visitor S.F {w : Wish m G.N // Q w} Seen β

/-- What they come up with, if `who` owns the pseudonyms. -/
def Spec.Group.watched {Q : Wish m G.N → Prop} {β : Type} (who : Fin m → Fin U) (watch : Watcher G Q β) (r : Fin m → S.F)
    (tape : Tape S G.N n) {q : Nat} (ω : Fin q → S.F) : Option β :=
  (((watch (G.nyms who r)).against (fun _ => G.service who r Q) tape [] []).run [] (List.ofFn ω)).map fun a => a.1.result

/-! ## Members -/

variable {G}

section

variable {i i' : Fin U} {r r' : Fin m → S.F} {j : Fin m}

theorem A_any : (G.secrets i r).A (G.setting i) = (G.secrets (m := 0) i fun _ => 0).A (G.setting i) := rfl

theorem goodUser (hreal : G.Real) {D : Bytes} (hD : D.length = G.N) :
    GoodUser G.k D ((G.secrets i r).holder (G.setting i) j) where
  B := rfl
  cred := by
    have h0 : G.isk + (G.person i).e ≠ 0 := by
      intro h
      apply hreal i
      show (G.isk + (G.person i).e)⁻¹ • _ = _
      rw [h, inv_zero, zero_smul]
    show S.pair (G.k.w + (G.person i).e • S.genG2) ((G.isk + (G.person i).e)⁻¹ • _) = _
    rw [G.issuer, ← add_smul, map_smul, map_smul, LinearMap.smul_apply, smul_smul, inv_mul_cancel₀ h0, one_smul]
    rfl
  A := hreal i
  nym := rfl
  len := (G.person i).one_attr_per_name.trans hD.symm

theorem goodPos {p : Show} (hp : p.Possible G.N) : GoodPos G.k p.D p.eidIndex.toNat p.rhIndex.toNat p.st where
  bases := hp.one_byte_per_name.trans_le G.bases
  eid h := (hp.eid_hidden (by rintro e; rw [e] at h; cases h)).2
  rh _ := hp.rh_hidden.2

end

/-! ## Other choices -/

/-- The choices with which `u'` shows the credential as `u` does. -/
noncomputable def reshow {N : Nat} (k : Dlog.Spec.Key S) (u u' : Holder S) (p : Show) (c : S.F) (ρ : ShowRand S N) : ShowRand S N :=
  let ρ' := retapeWith k u u' p.D p.eidIndex.toNat p.rhIndex.toNat p.st c (ρ.sigRand p.D)
  { r1 := ρ'.r1, r2 := ρ'.r2, nonce := ρ.nonce, rSk := ρ'.rSk, re := ρ'.re, rR2 := ρ'.rR2, rR3 := ρ'.rR3, rSPrime := ρ'.rSPrime,
    rRNym := ρ'.rRNym,
    rAttrs := fun i => ρ.rAttrs i + c * (hid p.D u.attrs).getD i 0 - c * (hid p.D u'.attrs).getD i 0
    rEid := if p.st.hasEid then ρ'.rEid else ρ.rEid
    rREid := if p.st.hasEid then ρ'.rREid else ρ.rREid
    rRh := if p.st.hasRh then ρ'.rRh else ρ.rRh
    rRRh := if p.st.hasRh then ρ'.rRRh else ρ.rRRh }

section

variable {N : Nat} {k : Dlog.Spec.Key S} {u u' : Holder S} {p : Show} {c : S.F} {ρ : ShowRand S N}

theorem reshow_attrs (hp : p.Possible N) (hu : GoodUser k p.D u) (hu' : GoodUser k p.D u') :
    ((reshow k u u' p c ρ).sigRand p.D).rAttrs =
      (retapeWith k u u' p.D p.eidIndex.toNat p.rhIndex.toNat p.st c (ρ.sigRand p.D)).rAttrs := by
  have h1 := hid_length p.D u.attrs (le_of_eq hu.len.symm)
  have h2 := hid_length p.D u'.attrs (le_of_eq hu'.len.symm)
  have h3 : p.D.count 0 ≤ N := hp.one_byte_per_name ▸ List.count_le_length
  rw [nHid] at h1 h2
  refine List.ext_getElem ?_ fun i a b => ?_
  · simp [ShowRand.sigRand, retapeWith, h1, h2, h3]
  · simp only [ShowRand.sigRand, List.length_take, List.length_ofFn] at a
    have hi : i < p.D.count 0 := by omega
    simp only [ShowRand.sigRand, reshow, retapeWith, List.getElem_take, List.getElem_ofFn, List.getElem_zipWith, List.getD_eq_getElem?_getD,
      List.getElem?_eq_getElem (h1.symm ▸ hi), List.getElem?_eq_getElem (h2.symm ▸ hi), Option.getD_some]

theorem reshow_eid : eidPart k u' p.D p.eidIndex.toNat p.st
      { (reshow k u u' p c ρ).sigRand p.D with rAttrs := (retapeWith k u u' p.D p.eidIndex.toNat p.rhIndex.toNat p.st c (ρ.sigRand p.D)).rAttrs } =
    eidPart k u' p.D p.eidIndex.toNat p.st (retapeWith k u u' p.D p.eidIndex.toNat p.rhIndex.toNat p.st c (ρ.sigRand p.D)) := by
  cases h : p.st.hasEid with
  | false => simp [eidPart, h]
  | true => simp [eidPart, h, freshPart, ShowRand.sigRand, reshow]

theorem reshow_rh : rhPart k u' p.D p.rhIndex.toNat p.st
      { (reshow k u u' p c ρ).sigRand p.D with rAttrs := (retapeWith k u u' p.D p.eidIndex.toNat p.rhIndex.toNat p.st c (ρ.sigRand p.D)).rAttrs } =
    rhPart k u' p.D p.rhIndex.toNat p.st (retapeWith k u u' p.D p.eidIndex.toNat p.rhIndex.toNat p.st c (ρ.sigRand p.D)) := by
  cases h : p.st.hasRh with
  | false => simp [rhPart, h]
  | true => simp [rhPart, h, freshPart, ShowRand.sigRand, reshow]

theorem reshow_honest (hne : k.hRand ≠ 0) (hp : p.Possible N) (hu : GoodUser k p.D u) (hu' : GoodUser k p.D u') (hnym : u.nym = u'.nym) :
    honest k u' p.D ((reshow k u u' p c ρ).sigRand p.D) (eidPart k u' p.D p.eidIndex.toNat p.st ((reshow k u u' p c ρ).sigRand p.D))
        (rhPart k u' p.D p.rhIndex.toNat p.st ((reshow k u u' p c ρ).sigRand p.D)) c =
      honest k u p.D (ρ.sigRand p.D) (eidPart k u p.D p.eidIndex.toNat p.st (ρ.sigRand p.D))
        (rhPart k u p.D p.rhIndex.toNat p.st (ρ.sigRand p.D)) c := by
  rw [← retapeWith_honest hne hu hu' hnym (sigRand_len ρ hp.one_byte_per_name) c _ rfl]
  have e : (reshow k u u' p c ρ).sigRand p.D = { (reshow k u u' p c ρ).sigRand p.D with
      rAttrs := (retapeWith k u u' p.D p.eidIndex.toNat p.rhIndex.toNat p.st c (ρ.sigRand p.D)).rAttrs } := by
    rw [← reshow_attrs hp hu hu']
  rw [e, reshow_eid, reshow_rh]
  rfl

theorem reshow_r1 (hu : GoodUser k p.D u) (hu' : GoodUser k p.D u') (hr : ρ.r1 ≠ 0) : (reshow k u u' p c ρ).r1 ≠ 0 := by
  intro h0
  have := dl_spec hu'.A (ρ.r1 • u.A)
  change (reshow k u u' p c ρ).r1 • u'.A = _ at this
  rw [h0, zero_smul] at this
  exact hu.A (S.smul_right_inj hr (by rw [smul_zero, ← this]))

theorem reshow_transcript (hne : k.hRand ≠ 0) (hp : p.Possible N) (hpos : GoodPos k p.D p.eidIndex.toNat p.rhIndex.toNat p.st)
    (hu : GoodUser k p.D u) (hu' : GoodUser k p.D u') (hnym : u.nym = u'.nym) (hdis : dis p.D u.attrs = dis p.D u'.attrs) (hr : ρ.r1 ≠ 0)
    (hash : Bytes) :
    honestTranscript k u' p.D ((reshow k u u' p c ρ).sigRand p.D)
        (eidPart k u' p.D p.eidIndex.toNat p.st ((reshow k u u' p c ρ).sigRand p.D))
        (rhPart k u' p.D p.rhIndex.toNat p.st ((reshow k u u' p c ρ).sigRand p.D)) hash p.msg =
      honestTranscript k u p.D (ρ.sigRand p.D) (eidPart k u p.D p.eidIndex.toNat p.st (ρ.sigRand p.D))
        (rhPart k u p.D p.rhIndex.toNat p.st (ρ.sigRand p.D)) hash p.msg := by
  rw [← honest_transcript (ρ := (reshow k u u' p c ρ).sigRand p.D) (c := c) (ei := p.eidIndex.toNat) (ri := p.rhIndex.toNat) hu'.B
      (reshow_r1 (c := c) hu hu' hr) hu'.len
      (sigRand_len _ hp.one_byte_per_name) hu'.nym (eidPart_good hu' hpos _) (rhPart_good hu' hpos _),
    ← honest_transcript (c := c) (ei := p.eidIndex.toNat) (ri := p.rhIndex.toNat) hu.B hr hu.len
      (sigRand_len _ hp.one_byte_per_name) hu.nym (eidPart_good hu hpos _) (rhPart_good hu hpos _),
    reshow_honest hne hp hu hu' hnym, hdis]

theorem reshow_inj (hne : k.hRand ≠ 0) (hu : GoodUser k p.D u) (hu' : GoodUser k p.D u') :
    Function.Injective (reshow (N := N) k u u' p c) := by
  rintro ⟨b1, b2, b3, b4, b5, b6, b7, b8, b9, b10, b11, b12, b13, b14⟩ ⟨b1', b2', b3', b4', b5', b6', b7', b8', b9', b10', b11', b12', b13', b14'⟩ h
  have dl_inj : ∀ {P : S.G1}, P ≠ 0 → ∀ {Q Q' : S.G1}, dl P Q = dl P Q' → Q = Q' := by
    intro P hP Q Q' e
    rw [← dl_spec hP Q, e, dl_spec hP]
  have shift_inj : ∀ (X Y : S.G1) {a a' : S.F}, dl k.hRand (X + a • k.hRand - Y) = dl k.hRand (X + a' • k.hRand - Y) → a = a' := by
    intro X Y a a' e
    exact S.smul_left_inj hne (add_left_cancel (sub_left_inj.mp (dl_inj hne e)))
  simp only [reshow, retapeWith, ShowRand.sigRand, ShowRand.mk.injEq] at h
  obtain ⟨h1, h2, h3, h4, h5, h6, h7, h8, h9, h10, h11, h12, h13, h14⟩ := h
  have e1 : b1 = b1' := S.smul_left_inj hu.A (dl_inj hu'.A h1)
  subst e1 h3
  have e2 : b2 = b2' := by
    have := dl_inj hne h2
    exact S.smul_left_inj hne (sub_right_inj.mp (sub_right_inj.mp this))
  subst e2
  have e10 : b10 = b10' := by
    funext i
    have := congrFun h10 i
    simpa using this
  have e4 : b4 = b4' := by simpa using h4
  have e5 : b5 = b5' := by simpa using h5
  have e6 : b6 = b6' := by simpa using h6
  have e7 : b7 = b7' := by simpa using h7
  have e8 : b8 = b8' := by simpa using h8
  have e9 : b9 = b9' := by simpa using h9
  have e11 : b11 = b11' := by
    cases he : p.st.hasEid with
    | false => simpa [he] using h11
    | true =>
      simp only [he, if_true] at h11
      exact shift_inj _ _ h11
  subst e11
  have e12 : b12 = b12' := by
    cases he : p.st.hasEid with
    | false => simpa [he] using h12
    | true => simpa [he] using h12
  have e13 : b13 = b13' := by
    cases he : p.st.hasRh with
    | false => simpa [he] using h13
    | true =>
      simp only [he, if_true] at h13
      exact shift_inj _ _ h13
  subst e13
  have e14 : b14 = b14' := by
    cases he : p.st.hasRh with
    | false => simpa [he] using h14
    | true => simpa [he] using h14
  subst e10 e4 e5 e6 e7 e8 e9 e12 e14
  rfl

end

/-! ## Two ways to distribute the pseudonyms -/

/-- The randomness with which `R` have the pseudonyms of `L`. -/
def others (G : Group S U) (l : S.F) (L R : Fin m → Fin U) (r : Fin m → S.F) (j : Fin m) : S.F :=
  r j + ((G.person (L j)).sk - (G.person (R j)).sk) * l

/-- See `others`. -/
def othersEquiv (G : Group S U) (l : S.F) (L R : Fin m → Fin U) : (Fin m → S.F) ≃ (Fin m → S.F) where
  toFun := others G l L R
  invFun := others G l R L
  left_inv r := by funext j; simp only [others]; ring
  right_inv r := by funext j; simp only [others]; ring

/-- Presentations that give away who makes them. -/
def Unlucky {Q : Wish m G.N → Prop} (w : {w : Wish m G.N // Q w}) (ρ : NymRand S × ShowRand S G.N) : Prop :=
  match w.1 with
  | .sign _ _ => False
  | .present _ _ _ => ρ.2.r1 = 0

open scoped Classical in
/-- The choices of `R` that correspond to those of `L`. -/
noncomputable def rewish {Q : Wish m G.N → Prop} (l : S.F) (L R : Fin m → Fin U) (r : Fin m → S.F)
    (s : Session S.F {w : Wish m G.N // Q w}) (ρ : NymRand S × ShowRand S G.N) : NymRand S × ShowRand S G.N :=
  match s.req.1 with
  | .sign j _ => (nymShift s.challenge ((G.person (L j)).sk - (G.person (R j)).sk) (r j - others G l L R r j) ρ.1, ρ.2)
  | .present j p _ => (ρ.1, if ρ.2.r1 = 0 then ρ.2 else
      reshow G.k ((G.secrets (L j) r).holder (G.setting (L j)) j) ((G.secrets (R j) (others G l L R r)).holder (G.setting (R j)) j) p
        s.challenge ρ.2)

section

variable {l : S.F} (hl : G.k.hSk = l • G.k.hRand) {L R : Fin m → Fin U} {r : Fin m → S.F}
include hl

theorem others_nyms : G.nyms R (others G l L R r) = G.nyms L r := by
  funext j
  simp only [Group.nyms, Secrets.nym, Secrets.owner, Owner.nym, Group.secrets, Group.setting, others, hl]
  module

theorem rewish_alike (hreal : G.Real) (hne : G.k.hRand ≠ 0) {Q : Wish m G.N → Prop} (hQ : ∀ w, Q w → G.Agree L R w)
    (s : Session S.F {w : Wish m G.N // Q w}) (ρ : NymRand S × ShowRand S G.N) (hu : ¬ Unlucky s.req ρ) :
    Alike (G.service L r Q) (G.service R (others G l L R r) Q) s.req s.challenge ρ (rewish l L R r s ρ) := by
  obtain ⟨⟨req, hq⟩, heard, c⟩ := s
  have hn : ∀ j, (G.secrets (R j) (others G l L R r)).nym (G.setting (R j)) j = (G.secrets (L j) r).nym (G.setting (L j)) j :=
    congrFun (others_nyms hl)
  cases req with
  | sign j msg =>
    have hz : ((G.person (L j)).sk - (G.person (R j)).sk) • G.k.hSk + (r j - others G l L R r j) • G.k.hRand = 0 := by
      rw [hl, others]; module
    have hn' : ((G.secrets (R j) (others G l L R r)).owner j).nym G.k.hSk G.k.hRand = ((G.secrets (L j) r).owner j).nym G.k.hSk G.k.hRand :=
      hn j
    refine ⟨?_, fun c₁ => ⟨rfl, ?_⟩⟩
    · simp only [Group.service, Wish.pseudonym, Secrets.service, rewish]
      rw [first_eq, first_eq]
      simp only [Group.setting]
      rw [hn', nymFirst_shift _ _ _ _ _ hz]
    · simp only [Group.service, Wish.pseudonym, Secrets.service, rewish, Answer.seen]
      rw [signature_eq hk hr, signature_eq hk hr]
      simp only [nymShift, Secrets.owner, Group.secrets]
      congr 3 <;> ring
  | present j p hp =>
    have hr1 : ρ.2.r1 ≠ 0 := hu
    have g := goodUser (i := L j) (r := r) (j := j) hreal hp.one_byte_per_name
    have g' := goodUser (i := R j) (r := others G l L R r) (j := j) hreal hp.one_byte_per_name
    have hdis : dis p.D (G.person (L j)).attrs = dis p.D (G.person (R j)).attrs :=
      dis_eq_of_pos p.D _ _ (le_of_eq (g.len.symm)) (le_of_eq (g'.len.symm)) (hQ _ hq)
    refine ⟨?_, fun c₁ => ⟨?_, ?_⟩⟩
    · simp only [Group.service, Wish.pseudonym, Secrets.service, rewish, if_neg hr1, Secrets.firstShow]
      exact reshow_transcript hne hp (goodPos hp) g g' (hn j).symm hdis hr1 _
    · simp only [Group.service, Wish.pseudonym, Secrets.service, rewish, if_neg hr1]
      rfl
    · simp only [Group.service, Wish.pseudonym, Secrets.service, rewish, if_neg hr1, Answer.seen]
      have a := signature_show (W := G.setting (L j)) (G.secrets (L j) r) j hp ρ.2 c₁ c
      have b := signature_show (W := G.setting (R j)) (G.secrets (R j) (others G l L R r)) j hp
        (reshow G.k ((G.secrets (L j) r).holder (G.setting (L j)) j) ((G.secrets (R j) (others G l L R r)).holder (G.setting (R j)) j) p c
          ρ.2) c₁ c
      refine congrArg Seen.shown ((congrArg (Option.getD · noSignature) b).trans
        (Eq.trans ?_ (congrArg (Option.getD · noSignature) a).symm))
      exact congrArg (toWire G.T p.cri) (reshow_honest (c := c) (ρ := ρ.2) hne hp g g' (hn j).symm)

omit hl in
theorem rewish_inj (hreal : G.Real) (hne : G.k.hRand ≠ 0) {Q : Wish m G.N → Prop} (s : Session S.F {w : Wish m G.N // Q w}) :
    Function.Injective (rewish l L R r s) := by
  obtain ⟨⟨req, hq⟩, heard, c⟩ := s
  rintro ⟨a, ρ⟩ ⟨a', ρ'⟩ h
  cases req with
  | sign j msg =>
    simp only [rewish, Prod.mk.injEq] at h
    obtain ⟨h, rfl⟩ := h
    obtain ⟨a1, a2, a3⟩ := a
    obtain ⟨a1', a2', a3'⟩ := a'
    simpa [nymShift] using h
  | present j p hp =>
    simp only [rewish, Prod.mk.injEq] at h
    obtain ⟨rfl, h⟩ := h
    have g := goodUser (i := L j) (r := r) (j := j) hreal hp.one_byte_per_name
    have g' := goodUser (i := R j) (r := others G l L R r) (j := j) hreal hp.one_byte_per_name
    by_cases h1 : ρ.r1 = 0 <;> by_cases h2 : ρ'.r1 = 0
    · rw [if_pos h1, if_pos h2] at h; rw [h]
    · rw [if_pos h1, if_neg h2] at h
      exact absurd (h ▸ h1) (reshow_r1 g g' h2)
    · rw [if_neg h1, if_pos h2] at h
      exact absurd (h.symm ▸ h2) (reshow_r1 g g' h1)
    · rw [if_neg h1, if_neg h2] at h
      rw [reshow_inj hne g g' h]

end

open scoped Classical in
theorem card_unluckyShow [Fintype S.F] {Q : Wish m G.N → Prop} {β : Type} (who : Fin m → Fin U) (r : Fin m → S.F)
    {v : Visitor S.F {w : Wish m G.N // Q w} Seen β} (hw : v.Within n) (ω : List S.F) :
    Fintype.card S.F * (Finset.univ.filter fun tape : Tape S G.N n =>
      ∃ p ∈ calls (fun _ => G.service who r Q) tape v [] [] ω, Unlucky p.1 (tape (history n p.2))).card ≤
      n * Fintype.card (Tape S G.N n) := by
  refine card_unlucky hw (fun (d : S.F) ρ => (ρ.1, { ρ.2 with r1 := ρ.2.r1 + d })) Unlucky ?_ ω
  rintro ⟨⟨j, msg⟩ | ⟨j, p, hp⟩, hq⟩ ⟨a, ρ⟩ ⟨a', ρ'⟩ d d' h h' e
  · exact h.elim
  · obtain ⟨b1, b2, b3, b4, b5, b6, b7, b8, b9, b10, b11, b12, b13, b14⟩ := ρ
    obtain ⟨b1', b2', b3', b4', b5', b6', b7', b8', b9', b10', b11', b12', b13', b14'⟩ := ρ'
    simp only [Unlucky] at h h'
    subst h h'
    simp only [Prod.mk.injEq, ShowRand.mk.injEq, zero_add] at e
    obtain ⟨rfl, rfl, rfl, rfl, rfl, rfl, rfl, rfl, rfl, rfl, rfl, rfl, rfl, rfl, rfl⟩ := e
    exact ⟨rfl, rfl⟩

open scoped Classical in
theorem watched_le [Fintype S.F] (hreal : G.Real) (hne : G.k.hRand ≠ 0) (L R : Fin m → Fin U) {Q : Wish m G.N → Prop}
    (hQ : ∀ w, Q w → G.Agree L R w) {β : Type} (watch : Watcher G Q β) (hw : ∀ nyms, (watch nyms).Within n) (q : Nat) (P : β → Prop) :
    Fintype.card S.F * (Finset.univ.filter fun p : ((Fin m → S.F) × Tape S G.N n) × (Fin q → S.F) =>
        ∃ b, G.watched L watch p.1.1 p.1.2 p.2 = some b ∧ P b).card ≤
      Fintype.card S.F * (Finset.univ.filter fun p : ((Fin m → S.F) × Tape S G.N n) × (Fin q → S.F) =>
        ∃ b, G.watched R watch p.1.1 p.1.2 p.2 = some b ∧ P b).card +
      n * Fintype.card (((Fin m → S.F) × Tape S G.N n) × (Fin q → S.F)) := by
  obtain ⟨l, hl⟩ := S.g1_span hne G.k.hSk
  have shape : ∀ (who : Fin m → Fin U), (Finset.univ.filter fun p : ((Fin m → S.F) × Tape S G.N n) × (Fin q → S.F) =>
        ∃ b, G.watched who watch p.1.1 p.1.2 p.2 = some b ∧ P b).card =
      ∑ r : Fin m → S.F, ∑ ω : Fin q → S.F, (Finset.univ.filter fun tape : Tape S G.N n =>
        ∃ b, G.watched who watch r tape ω = some b ∧ P b).card := by
    intro who
    simp only [Finset.card_filter, Fintype.sum_prod_type]
    exact Finset.sum_congr rfl fun x _ => Finset.sum_comm
  have one : ∀ (r : Fin m → S.F) (ω : Fin q → S.F),
      Fintype.card S.F * (Finset.univ.filter fun tape : Tape S G.N n => ∃ b, G.watched L watch r tape ω = some b ∧ P b).card ≤
        Fintype.card S.F * (Finset.univ.filter fun tape : Tape S G.N n =>
          ∃ b, G.watched R watch (others G l L R r) tape ω = some b ∧ P b).card + n * Fintype.card (Tape S G.N n) := by
    intro r ω
    have h := card_against_le (σ := fun _ => G.service L r Q) (σ' := fun _ => G.service R (others G l L R r) Q) (hw (G.nyms L r))
      Unlucky (rewish l L R r) (fun s ρ hu => rewish_alike hl hreal hne hQ s ρ hu) (fun s => rewish_inj hreal hne s) (List.ofFn ω)
      (fun a _ => P a.result)
    have conv : ∀ (who : Fin m → Fin U) (r' : Fin m → S.F), G.nyms who r' = G.nyms L r → ∀ tape : Tape S G.N n,
        (∃ a tab, ((watch (G.nyms L r)).against (fun _ => G.service who r' Q) tape [] []).run [] (List.ofFn ω) = some (a, tab) ∧ P a.result) ↔
          ∃ b, G.watched who watch r' tape ω = some b ∧ P b := by
      intro who r' e tape
      simp only [Group.watched, e, Option.map_eq_some_iff]
      constructor
      · rintro ⟨a, tab, h1, h2⟩
        exact ⟨_, ⟨_, h1, rfl⟩, h2⟩
      · rintro ⟨b, ⟨⟨a, tab⟩, h1, rfl⟩, h2⟩
        exact ⟨a, tab, h1, h2⟩
    simp only [conv L r rfl, conv R _ (others_nyms hl)] at h
    refine le_trans (Nat.mul_le_mul_left _ h) ?_
    rw [Nat.mul_add]
    exact Nat.add_le_add_left (card_unluckyShow L r (hw _) _) _
  rw [shape, shape, Finset.mul_sum, ← (othersEquiv G l L R).sum_comp (fun r => ∑ ω : Fin q → S.F,
    (Finset.univ.filter fun tape : Tape S G.N n => ∃ b, G.watched R watch r tape ω = some b ∧ P b).card), Finset.mul_sum]
  calc ∑ r : Fin m → S.F, Fintype.card S.F * ∑ ω : Fin q → S.F, (Finset.univ.filter fun tape : Tape S G.N n =>
          ∃ b, G.watched L watch r tape ω = some b ∧ P b).card
      ≤ ∑ r : Fin m → S.F, ∑ ω : Fin q → S.F, (Fintype.card S.F * (Finset.univ.filter fun tape : Tape S G.N n =>
          ∃ b, G.watched R watch (others G l L R r) tape ω = some b ∧ P b).card + n * Fintype.card (Tape S G.N n)) := by
        refine Finset.sum_le_sum fun r _ => ?_
        rw [Finset.mul_sum]
        exact Finset.sum_le_sum fun ω _ => one r ω
    _ = _ := by
        simp only [Finset.sum_add_distrib, Finset.sum_const, Finset.card_univ, smul_eq_mul, Fintype.card_prod, Finset.mul_sum]
        refine congrArg₂ (· + ·) rfl ?_
        ring

/-- The pseudonyms of the members are what the code computes from their secrets. -/
theorem C94_pseudonyms (G : Group S U) (who : Fin m → Fin U) (r : Fin m → S.F) (j : Fin m) :
    makeNym G.T (G.person (who j)).sk G.ipk (r j) = .ok (G.nyms who r j, r j) :=
  C93_pseudonyms (W := G.setting (who j)) (G.secrets (who j) r) j

/-- The members answer as the code does: whatever the hash function, a member who is asked to sign returns what `NewNymSignature` returns,
and one who is asked to show the credential returns what `NewSignature` returns for the credential that the issuer has issued. -/
theorem C94_members_answer (G : Group S U) (who : Fin m → Fin U) (r : Fin m → S.F) (Q : Wish m G.N → Prop) (w : {w : Wish m G.N // Q w})
    (ρ : NymRand S × ShowRand S G.N) (h : Bytes → S.F) (c₁ c₂ : S.F) (h₁ : h ((G.service who r Q).first w ρ) = c₁)
    (h₂ : h ((G.service who r Q).second w ρ c₁) = c₂) :
    match w.1 with
    | .sign j msg => ∃ sig, (G.service who r Q).reply w ρ c₁ c₂ = .signed sig ∧
        newNymSignature (G.T.withHash h) (G.person (who j)).sk (Group.nyms (S := S) G who r j) (r j) G.ipk msg
          ⟨ρ.1.nonce, ρ.1.rSk, ρ.1.rRNym⟩ = .ok sig
    | .present j p _ => ∃ sig md, (G.service who r Q).reply w ρ c₁ c₂ = .shown sig ∧
        newSignature (G.T.withHash h) ((G.secrets (who j) r).credential (G.setting (who j))) (G.person (who j)).sk
          (Group.nyms (S := S) G who r j) (r j) G.ipk p.D p.msg p.rhIndex p.eidIndex p.cri (ρ.2.with p.D h) p.st none = .ok (sig, md) := by
  obtain ⟨w, hw⟩ := w
  cases w with
  | sign j msg =>
    exact ⟨_, rfl, C91_owner_signs (T := G.T) (ipk := G.ipk) G.reads.hSk G.reads.hRand ((G.secrets (who j) r).owner j) msg ρ.1 h c₁ c₂ h₁ h₂⟩
  | present j p hp =>
    obtain ⟨sig, md, e, e'⟩ := C93_shows (W := G.setting (who j)) (G.secrets (who j) r) j p hp ρ.2 h c₁ c₂ h₁ h₂
    exact ⟨sig, md, congrArg (fun o : Option Signature => Seen.shown (o.getD noSignature)) e, e'⟩

open scoped Classical in
/-- C94. The pseudonyms may belong to the members `L` or to the members `R`. Take anybody who makes at most `n` moves: signatures with the
pseudonyms and presentations of credentials with them, on messages and with disclosures of their choice, as long as the two possible owners
of a pseudonym agree on what is disclosed; and questions to the hash function. Whatever property `P` of what they come up with: it is as
frequent if the pseudonyms belong to `L` as if they belong to `R`, up to the fraction `n / |F|` of all choices of the members and answers of
the hash function. -/
theorem C94_unlinkable [Fintype S.F] (G : Group S U) (hreal : G.Real) (hne : G.k.hRand ≠ 0) (m n : Nat) (L R : Fin m → Fin U) {β : Type}
    (watch : Watcher G (G.Agree L R) β) (hw : ∀ nyms, (watch nyms).Within n) (q : Nat) (P : β → Prop) :
    let all := ((Fin m → S.F) × Tape S G.N n) × (Fin q → S.F)
    let left := (Finset.univ.filter fun p : all => ∃ b, G.watched L watch p.1.1 p.1.2 p.2 = some b ∧ P b).card
    let right := (Finset.univ.filter fun p : all => ∃ b, G.watched R watch p.1.1 p.1.2 p.2 = some b ∧ P b).card
    Fintype.card S.F * left ≤ Fintype.card S.F * right + n * Fintype.card all ∧
      Fintype.card S.F * right ≤ Fintype.card S.F * left + n * Fintype.card all := by
  refine ⟨watched_le hreal hne L R (fun _ h => h) watch hw q P, watched_le hreal hne R L (fun w h => ?_) watch hw q P⟩
  cases w with
  | sign j msg => trivial
  | present j p hp => exact fun i d h1 h2 => (h i d h1 h2).symm

end Idemix.Fork
