import Verif.Aries.PropsSign
import Verif.Bbs.PropsAnon

/-!
# C64: aries signatures are anonymous
-/

namespace Idemix.Aries

open Bbs
open Dlog (SigType VerType AuditData SignerMetadata dl dl_spec dl_unique)

variable {S : Suite} (L : Lib S)

/-! ## The signer's tape for another user -/

/-- A signer: signature, signed values, secret key, randomness of the pseudonym, enrollment identifier, revocation
handle. -/
structure AUser (S : Suite) where
  σ : Sig S
  vals : List S.F
  sk : S.F
  rNym : S.F
  mE : S.F
  mR : S.F

/-- What is the same for all signers: key, type, revealed positions, positions of the secret key, the enrollment
identifier and the revocation handle and their generators, label, message and revocation data. -/
structure Setting (S : Suite) where
  pk : PKG S
  t : SigType
  rs : List Nat
  k : Nat
  e : Nat
  r : Nat
  Hk : S.G1
  He : S.G1
  Hr : S.G1
  payload : Bytes
  label : Bytes
  msg : Bytes
  cri : CRI

variable {L} (X : Setting S)

def AUser.prover (u : AUser S) : Prover S := ⟨u.σ, u.vals, if cardType X.t then u.rNym else 0⟩

def AUser.pok (u : AUser S) (ρ : SignRand S) : PoK S := (u.prover X).run X.rs X.pk ρ.pok

def AUser.nym (u : AUser S) : S.G1 := u.rNym • X.pk.h0 + u.sk • X.Hk

variable (L) in
def AUser.chal (u : AUser S) (ρ : SignRand S) : S.F :=
  honestChallenge L X.label (u.pok X ρ) (u.nym X) X.t (pairComm X.pk.h0 X.Hk ρ.nym0 (blindAt (u.pok X ρ) (2 + X.k)))
    (attrC X.pk (u.pok X ρ) X.rs X.e X.He ρ.rEid u.mE ρ.eid0)
    (attrC X.pk (u.pok X ρ) X.rs X.r X.Hr ρ.rRh u.mR ρ.rh0) X.msg ρ.nonce

def AUser.sig (u : AUser S) (ρ : SignRand S) (c : S.F) : Signature :=
  honestSig X.payload X.t X.pk (u.pok X ρ) X.rs X.k X.e X.r X.Hk X.He X.Hr u.sk u.rNym u.mE u.mR ρ.rEid ρ.rRh X.cri ρ c

/-- The other signer's tape. -/
noncomputable def reSign (c : S.F) (u u' : AUser S) (ρ : SignRand S) : SignRand S :=
  let rE := dl X.pk.h0 (ρ.rEid • X.pk.h0 + u.mE • X.He - u'.mE • X.He)
  let rR := dl X.pk.h0 (ρ.rRh • X.pk.h0 + u.mR • X.Hr - u'.mR • X.Hr)
  { pok := retape X.pk X.rs c (u.prover X) (u'.prover X) ρ.pok
    nym0 := if cardType X.t then ρ.nym0 else ρ.nym0 - c * u.rNym + c * u'.rNym
    rEid := if eidEnabled X.t then rE else ρ.rEid
    eid0 := if eidEnabled X.t then ρ.eid0 - c * ρ.rEid + c * rE else ρ.eid0
    rRh := if rhEnabled X.t then rR else ρ.rRh
    rh0 := if rhEnabled X.t then ρ.rh0 - c * ρ.rRh + c * rR else ρ.rh0
    nonce := ρ.nonce }

/-- A signer with a valid credential. -/
structure Ready (u : AUser S) : Prop where
  a : u.σ.a ≠ 0
  len : u.vals.length = X.pk.h.length
  valid : Valid X.pk u.σ u.vals
  key : u.vals[X.k]? = some u.sk
  eid : u.vals[X.e]? = some u.mE
  rh : u.vals[X.r]? = some u.mR

/-- The setting hides what it has to hide. -/
structure Hiding : Prop where
  h0 : X.pk.h0 ≠ 0
  key : cardType X.t = false → ∀ i ≤ X.k, i ∉ X.rs
  eid : eidEnabled X.t = true → X.e ∉ X.rs
  rh : rhEnabled X.t = true → X.r ∉ X.rs

variable {X}

theorem run_honest {pk : PKG S} {rs : List Nat} (p : Prover S) (hl : p.ms.length = pk.h.length) (ρ : PoKRand S) :
    Honest pk p.ms rs (p.run rs pk ρ) :=
  ⟨rfl, by simp [Prover.run, runPoK, honestPoK], ⟨_, _, rfl⟩, hl⟩

/-- Equal responses and equal commitments: equal proofs. -/
theorem pair_same {h0 H : S.G1} {t0 t1 t0' t1' c r v r' v' : S.F} (e0 : t0' - c * r' = t0 - c * r)
    (e1 : t1' - c * v' = t1 - c * v) (ec : r' • h0 + v' • H = r • h0 + v • H) :
    t0' • h0 + t1' • H = t0 • h0 + t1 • H ∧ pairProof h0 H t0' t1' c r' v' = pairProof h0 H t0 t1 c r v := by
  have key : t0' • h0 + t1' • H = t0 • h0 + t1 • H := by
    have a : ∀ t0 t1 r v : S.F, t0 • h0 + t1 • H = (t0 - c * r) • h0 + (t1 - c * v) • H + c • (r • h0 + v • H) := by
      intro t0 t1 r v; module
    rw [a t0' t1' r' v', e0, e1, ec, ← a]
  exact ⟨key, by simp only [pairProof, key, e0, e1]⟩

section

variable {u u' : AUser S} {c : S.F} {ρ : SignRand S}

theorem blind_same (hu : Ready X u) (hu' : Ready X u') (hal : Alike X.pk X.rs (u.prover X) (u'.prover X))
    (hr : ρ.pok.r1 ≠ 0) {i : Nat} {v v' : S.F} (hv : u.vals[i]? = some v) (hv' : u'.vals[i]? = some v') (hn : i ∉ X.rs) :
    blindAt (u'.pok X (reSign X c u u' ρ)) (2 + rank X.rs i) - c * v' =
      blindAt (u.pok X ρ) (2 + rank X.rs i) - c * v := by
  have h := (run_honest (pk := X.pk) (rs := X.rs) (u.prover X) hu.len ρ.pok).response i v hv hn c
  have h' := (run_honest (pk := X.pk) (rs := X.rs) (u'.prover X) hu'.len (reSign X c u u' ρ).pok).response i v' hv' hn c
  have e : ((u'.prover X).run X.rs X.pk (reSign X c u u' ρ).pok).respond c = ((u.prover X).run X.rs X.pk ρ.pok).respond c :=
    (retape_same hal hr).2.2
  rw [e, h] at h'
  exact (Option.some.inj h').symm

/-- With its tape the other signer computes the same challenge and, for that challenge, the same signature. -/
theorem reSign_same (hX : Hiding X) (hu : Ready X u) (hu' : Ready X u')
    (hal : Alike X.pk X.rs (u.prover X) (u'.prover X)) (hnym : u'.nym X = u.nym X) (hr : ρ.pok.r1 ≠ 0) :
    u'.chal L X (reSign X c u u' ρ) = u.chal L X ρ ∧ u'.sig X (reSign X c u u' ρ) c = u.sig X ρ c := by
  obtain ⟨_, eb, er⟩ := retape_same (c := c) hal hr
  have eb' : (u'.pok X (reSign X c u u' ρ)).toBytes = (u.pok X ρ).toBytes := eb
  have er' : (u'.pok X (reSign X c u u' ρ)).respond c = (u.pok X ρ).respond c := er
  have hn : cardType X.t = false → (reSign X c u u' ρ).nym0 • X.pk.h0 +
        blindAt (u'.pok X (reSign X c u u' ρ)) (2 + X.k) • X.Hk =
        ρ.nym0 • X.pk.h0 + blindAt (u.pok X ρ) (2 + X.k) • X.Hk ∧
      pairProof X.pk.h0 X.Hk (reSign X c u u' ρ).nym0 (blindAt (u'.pok X (reSign X c u u' ρ)) (2 + X.k)) c u'.rNym u'.sk =
        pairProof X.pk.h0 X.Hk ρ.nym0 (blindAt (u.pok X ρ) (2 + X.k)) c u.rNym u.sk := by
    intro h
    have hb := blind_same (c := c) hu hu' hal hr hu.key hu'.key (hX.key h X.k (Nat.le_refl _))
    rw [rank_all X.rs X.k (fun i hi => hX.key h i (by omega))] at hb
    refine pair_same ?_ hb hnym
    simp only [reSign, h, Bool.false_eq_true, if_false]
    ring
  have comm : ∀ (b : Bool) (H : S.G1) (r m m' : S.F), b = true →
      (if b then dl X.pk.h0 (r • X.pk.h0 + m • H - m' • H) else r) • X.pk.h0 + m' • H = r • X.pk.h0 + m • H := by
    intro b H r m m' hb
    rw [if_pos hb, dl_spec hX.h0]; abel
  have he : eidEnabled X.t = true → _ := fun h => pair_same (h0 := X.pk.h0) (H := X.He)
    (t0' := (reSign X c u u' ρ).eid0) (t0 := ρ.eid0) (r' := (reSign X c u u' ρ).rEid) (r := ρ.rEid)
    (by simp only [reSign, h]; simp) (blind_same (c := c) hu hu' hal hr hu.eid hu'.eid (hX.eid h))
    (comm _ X.He ρ.rEid u.mE u'.mE h)
  have hrr : rhEnabled X.t = true → _ := fun h => pair_same (h0 := X.pk.h0) (H := X.Hr)
    (t0' := (reSign X c u u' ρ).rh0) (t0 := ρ.rh0) (r' := (reSign X c u u' ρ).rRh) (r := ρ.rRh)
    (by simp only [reSign, h]; simp) (blind_same (c := c) hu hu' hal hr hu.rh hu'.rh (hX.rh h))
    (comm _ X.Hr ρ.rRh u.mR u'.mR h)
  have ce : eidEnabled X.t = true → (reSign X c u u' ρ).rEid • X.pk.h0 + u'.mE • X.He =
    ρ.rEid • X.pk.h0 + u.mE • X.He := fun h => comm _ X.He ρ.rEid u.mE u'.mE h
  have cr : rhEnabled X.t = true → (reSign X c u u' ρ).rRh • X.pk.h0 + u'.mR • X.Hr =
    ρ.rRh • X.pk.h0 + u.mR • X.Hr := fun h => comm _ X.Hr ρ.rRh u.mR u'.mR h
  have hnonce : (reSign X c u u' ρ).nonce = ρ.nonce := rfl
  have n1 : nymHash (!cardType X.t) (pairComm X.pk.h0 X.Hk (reSign X c u u' ρ).nym0
      (blindAt (u'.pok X (reSign X c u u' ρ)) (2 + X.k))) =
      nymHash (!cardType X.t) (pairComm X.pk.h0 X.Hk ρ.nym0 (blindAt (u.pok X ρ) (2 + X.k))) := by
    cases h : cardType X.t
    · simp only [nymHash, pairComm, (hn h).1]
    · rfl
  have n2 : commHash (eidEnabled X.t) (attrC X.pk (u'.pok X (reSign X c u u' ρ)) X.rs X.e X.He
      (reSign X c u u' ρ).rEid u'.mE (reSign X c u u' ρ).eid0) =
      commHash (eidEnabled X.t) (attrC X.pk (u.pok X ρ) X.rs X.e X.He ρ.rEid u.mE ρ.eid0) := by
    cases h : eidEnabled X.t
    · rfl
    · simp only [commHash, attrC, pairComm, (he h).1, ce h]
  have n3 : commHash (rhEnabled X.t) (attrC X.pk (u'.pok X (reSign X c u u' ρ)) X.rs X.r X.Hr
      (reSign X c u u' ρ).rRh u'.mR (reSign X c u u' ρ).rh0) =
      commHash (rhEnabled X.t) (attrC X.pk (u.pok X ρ) X.rs X.r X.Hr ρ.rRh u.mR ρ.rh0) := by
    cases h : rhEnabled X.t
    · rfl
    · simp only [commHash, attrC, pairComm, (hrr h).1, cr h]
  refine ⟨?_, ?_⟩
  · simp only [AUser.chal, honestChallenge, eb', hnym, n1, n2, n3, hnonce]
  · have hnym' : u'.rNym • X.pk.h0 + u'.sk • X.Hk = u.rNym • X.pk.h0 + u.sk • X.Hk := hnym
    have p1 : (if !cardType X.t then some (pairProof X.pk.h0 X.Hk (reSign X c u u' ρ).nym0
        (blindAt (u'.pok X (reSign X c u u' ρ)) (2 + X.k)) c u'.rNym u'.sk) else none) =
        (if !cardType X.t then some (pairProof X.pk.h0 X.Hk ρ.nym0 (blindAt (u.pok X ρ) (2 + X.k)) c u.rNym u.sk)
          else none) := by
      cases h : cardType X.t
      · rw [(hn h).2]
      · rfl
    simp only [AUser.sig, honestSig, packSig, er', hnym', p1, hnonce]
    cases h1 : eidEnabled X.t <;> cases h2 : rhEnabled X.t <;>
      simp only [Bool.false_eq_true, if_false, if_true, Option.map_some, Option.map_none, Option.getD_some,
        Option.getD_none, attrC]
    · rw [cr h2, (hrr h2).2]
    · rw [ce h1, (he h1).2]
    · rw [ce h1, (he h1).2, cr h2, (hrr h2).2]

theorem reSign_reSign (hX : Hiding X) (hal : Alike X.pk X.rs (u.prover X) (u'.prover X)) :
    reSign X c u' u (reSign X c u u' ρ) = ρ := by
  have d3 : ∀ (H : S.G1) (r m m' : S.F),
      dl X.pk.h0 (dl X.pk.h0 (r • X.pk.h0 + m • H - m' • H) • X.pk.h0 + m' • H - m • H) = r := by
    intro H r m m'
    apply dl_unique hX.h0
    rw [dl_spec hX.h0]; abel
  cases ρ with
  | mk pok nym0 rEid eid0 rRh rh0 nonce =>
  simp only [reSign, retape_retape hal, SignRand.mk.injEq, true_and, and_true]
  cases cardType X.t <;> cases eidEnabled X.t <;> cases rhEnabled X.t <;> simp [d3]

end

/-! ## C64 -/

namespace Spec

/-- The user holds a credential of the issuer on `attrs` and on `sk`, which they accepted together with the attributes
to disclose, and can open the pseudonym. -/
structure Holder (L : Lib S) (ipk : IPK S) (n k : Nat) (attributes : List IdemixAttribute) (nym : S.G1) (credBytes : Bytes)
    (sk rNym : S.F) (σ : Sig S) (attrs : List S.F) : Prop where
  accepted : credVerify L sk (.val ipk) credBytes attributes = .ok ()
  cred : ∃ c, Wire.credCodec.unmarshal credBytes = .ok c ∧ parseSignature S c.cred = .ok σ ∧ c.skPos = k ∧
    attrs = c.attrs.map S.zrOfBytes
  count : attrs.length = n
  nontrivial : σ.a ≠ 0
  pseudonym : ∃ r0, makeNym sk (.val ipk) k r0 = .ok (nym, rNym)

/-- The number of values the proof of knowledge hides: the attributes that are not disclosed and, unless a card holds
it, the secret key. -/
def hiddenValues (t : SigType) (attributes : List IdemixAttribute) : Nat :=
  (attributes.filter fun a => a.type = 0).length + if t = .smartcard ∨ t = .smartcardNoNyms then 0 else 1

/-- The random choices of a signer: `r1` must not be zero, the blinded element must not be a generator (`Apart`), and the
choices that are not used for the type of signature are zero, so that two different tapes are two different sequences
of random choices. -/
structure Tape (ipk : IPK S) (t : SigType) (attributes : List IdemixAttribute) (k : Nat) (sk : S.F) (σ : Sig S)
    (attrs : List S.F) (ρ : SignRand S) : Prop where
  r1 : ρ.pok.r1 ≠ 0
  apart : CommitsEid t → Apart ipk.pkg.h0 ipk.pkg.h σ (withSecret k sk attrs) ρ.pok.r1 ρ.pok.r2
  masks1 : ∀ i, 2 ≤ i → ρ.pok.vc1 i = 0
  masks2 : ∀ i, 2 + hiddenValues t attributes ≤ i → ρ.pok.vc2 i = 0
  nym : t = .smartcard ∨ t = .smartcardNoNyms → ρ.nym0 = 0
  eid : ¬ CommitsEid t → ρ.rEid = 0 ∧ ρ.eid0 = 0
  rh : t ≠ .eidNymRhNym → ρ.rRh = 0 ∧ ρ.rh0 = 0

end Spec

theorem cardType_iff {t : SigType} : cardType t = true ↔ t = .smartcard ∨ t = .smartcardNoNyms := by
  simp [cardType]

theorem keepHidden_filter (i : Nat) (as : List IdemixAttribute) :
    keepHidden (notHidden i as) i as = as.filter fun a => a.type = 0 := by
  induction as generalizing i with
  | nil => rfl
  | cons a as ih =>
    by_cases h : a.type = 0
    · have hn : i ∉ notHidden (i + 1) as := fun hm => by
        have := notHidden_ge (i + 1) as i hm; omega
      rw [notHidden, if_neg (by simpa using h), keepHidden, if_neg (by simpa using hn), ih, List.filter_cons,
        if_pos (by simpa using h)]
    · rw [notHidden, if_pos h, keepHidden, if_pos (by simp), List.filter_cons, if_neg (by simpa using h), ← ih (i + 1)]
      apply keepHidden_ext
      intro j hj
      simp only [List.mem_cons]
      constructor
      · rintro (h | h)
        · omega
        · exact h
      · exact .inr

/-- The positions that the prover treats as revealed. -/
def shownPositions (t : SigType) (attributes : List IdemixAttribute) : List Nat :=
  if cardType t then 0 :: notHidden 1 attributes else notHidden 1 attributes

theorem hiddenValues_eq {t : SigType} {attributes : List IdemixAttribute} {α : Type} (xs : List α)
    (h : xs.length = attributes.length + 1) :
    (keepHidden (shownPositions t attributes) 0 xs).length = Spec.hiddenValues t attributes := by
  rw [keepHidden_length_eq (ys := hiddenAttr :: attributes) _ _ (by simpa using h)]
  cases hc : cardType t with
  | true =>
    simp only [shownPositions, hc, if_true, keepHidden_zero, keepHidden_filter, Spec.hiddenValues, ← cardType_iff]
    rfl
  | false =>
    have hn : 0 ∉ notHidden 1 attributes := fun hm => by have := notHidden_ge 1 attributes 0 hm; omega
    simp only [shownPositions, hc, Bool.false_eq_true, if_false, Spec.hiddenValues, ← cardType_iff]
    rw [keepHidden, if_neg (by simpa using hn), keepHidden_filter]
    rfl

variable {t : SigType} {attributes : List IdemixAttribute}

theorem getD_out (l : List S.F) {i : Nat} (hi : l.length ≤ i) : l.getD i 0 = 0 := by
  rw [List.getD_eq_getElem?_getD, List.getElem?_eq_none hi]; rfl

theorem reSign_tape {ipk : IPK S} {k : Nat} {u u' : AUser S} {attrs attrs' : List S.F} {c : S.F} {ρ : SignRand S}
    (hp : X.pk = ipk.pkg) (hrs : X.rs = shownPositions X.t attributes) (hd : Spec.Defined X.t)
    (hlen : ipk.pkg.h.length = attributes.length + 1) (hv : u.vals = Spec.withSecret k u.sk attrs)
    (hv' : u'.vals = Spec.withSecret k u'.sk attrs')
    (hal : Alike X.pk X.rs (u.prover X) (u'.prover X)) (ht : Spec.Tape ipk X.t attributes k u.sk u.σ attrs ρ) :
    Spec.Tape ipk X.t attributes k u'.sk u'.σ attrs' (reSign X c u u' ρ) := by
  have hlen1 : ∀ (p : Prover S), p.ms.length = X.pk.h.length → ∀ τ,
      (p.run X.rs X.pk τ).secrets2.length = 2 + Spec.hiddenValues X.t attributes := by
    intro p hl τ
    change (keepHidden X.rs 0 p.ms).length + 1 + 1 = _
    rw [hrs, hiddenValues_eq p.ms (by rw [hl, hp, hlen])]
    omega
  refine ⟨retape_r1 hal ht.r1, ?_, ?_, ?_, ?_, ?_, ?_⟩
  · intro h
    obtain ⟨h1, h2⟩ := ht.apart h
    refine ⟨h1, ?_⟩
    have hD := (retape_same (c := c) hal ht.r1).1
    have hD' : (reSign X c u u' ρ).pok.r1 • bValue X.pk u'.σ.s u'.vals + -(reSign X c u u' ρ).pok.r2 • X.pk.h0 =
      ρ.pok.r1 • bValue X.pk u.σ.s u.vals + -ρ.pok.r2 • X.pk.h0 := hD
    rw [hv, hv', neg_smul, neg_smul, ← sub_eq_add_neg, ← sub_eq_add_neg, hp] at hD'
    change (reSign X c u u' ρ).pok.r1 • bValue ipk.pkg u'.σ.s _ - (reSign X c u u' ρ).pok.r2 • ipk.pkg.h0 ∉ _
    rw [hD']
    exact h2
  · intro i hi
    simp only [reSign, retape]
    rw [ht.masks1 i hi, getD_out _ hi, getD_out _ hi]
    ring
  · intro i hi
    simp only [reSign, retape]
    rw [ht.masks2 i hi, getD_out _ (by rw [hlen1 _ hal.len]; exact hi), getD_out _ (by rw [hlen1 _ hal.len']; exact hi)]
    ring
  · intro h
    simp only [reSign, cardType_iff.mpr h, if_true]
    exact ht.nym h
  · intro h
    have : eidEnabled X.t = false := by rw [Bool.eq_false_iff]; exact fun hh => h ((eidEnabled_iff hd).mp hh)
    simp only [reSign, this, Bool.false_eq_true, if_false]
    exact ht.eid h
  · intro h
    have : rhEnabled X.t = false := by simpa [rhEnabled] using h
    simp only [reSign, this, Bool.false_eq_true, if_false]
    exact ht.rh h

theorem keepShown_card {α : Type} (rs : List Nat) (h0 : 0 ∉ rs) (x : α) (xs : List α) :
    keepShown (0 :: rs) 0 (x :: xs) = x :: keepShown rs 0 (x :: xs) := by
  have e : ∀ (ys : List α) i, 1 ≤ i → keepShown (0 :: rs) i ys = keepShown rs i ys := by
    intro ys
    induction ys with
    | nil => intro i _; rfl
    | cons y ys ih =>
      intro i hi
      rw [keepShown, keepShown, ih (i + 1) (by omega)]
      have : (0 :: rs).contains i = rs.contains i := by
        have : i ≠ 0 := by omega
        simp [this]
      rw [this]
  rw [keepShown, if_pos (by simp), e xs 1 (Nat.le_refl _)]
  rw [keepShown, if_neg (by simpa using h0)]

/-- What a holder's `Sign` does in the setting of a request. -/
theorem sign_run (h32 : S.scalarLen = 32) (hg : S.g1CompLen < 2 ^ 31) (w : S.G2) (n k eid rh : Nat) (hn : n + 1 ≤ 65535)
    (criRaw msg : Bytes) (cri : CRI) (attributes : List IdemixAttribute) (t : SigType) (hlen : attributes.length = n)
    (heid : eid < n) (hrh : rh < n) (hkn : k ≤ n)
    (hcri : Wire.criCodec.unmarshal criRaw = .ok cri) (halg : cri.alg = 0)
    (ht : Spec.Defined t) (hreq : Spec.Request t attributes k eid rh) (h0 : (pkg w (n + 1)).h0 ≠ 0) :
    ∃ X : Setting S, X.pk = pkg w (n + 1) ∧ X.t = t ∧ X.rs = shownPositions t attributes ∧ Hiding X ∧
      ∀ (nym : S.G1) (credBytes : Bytes) (sk rNym : S.F) (σ : Sig S) (attrs : List S.F),
        Spec.Holder L (ipkFor w n) n k attributes nym credBytes sk rNym σ attrs →
        ∃ u : AUser S, u.sk = sk ∧ u.σ = σ ∧ u.vals = Spec.withSecret k sk attrs ∧ Ready X u ∧ nym = u.nym X ∧
          (∀ ms, attributesToSignatureMessage L attributes k = .ok ms →
            (u.prover X).off • X.pk.h0 + S.lin (keepShown X.rs 0 u.vals) (keepShown X.rs 0 X.pk.h) =
              (if cardType t then nym else 0) + S.lin (ms.map (·.fr)) (keepShown (notHidden 1 attributes) 0 X.pk.h)) ∧
          (∃ ms, attributesToSignatureMessage L attributes k = .ok ms) ∧
          ∀ ρ, Spec.Tape (ipkFor w n) t attributes k sk σ attrs ρ → ∃ m,
            sign L credBytes sk nym rNym (.val (ipkFor w n)) attributes msg rh eid criRaw t none ρ =
              .ok (Proto.encode (Wire.sig (u.sig X ρ (u.chal L X ρ))), m) := by
  set pk := pkg w (n + 1) with hpk
  have hpl : pk.h.length = n + 1 := by simp [hpk]
  have slot_lt : ∀ i, i < n → Spec.slot k i < n + 1 := by
    intro i hi; simp only [Spec.slot]; split <;> omega
  obtain ⟨Hk, hHk⟩ : ∃ H, pk.h[k]? = some H := ⟨_, List.getElem?_eq_getElem (by omega)⟩
  obtain ⟨He, hHe⟩ : ∃ H, pk.h[Spec.slot k eid]? = some H :=
    ⟨_, List.getElem?_eq_getElem (by have := slot_lt eid heid; omega)⟩
  obtain ⟨Hr, hHr⟩ : ∃ H, pk.h[Spec.slot k rh]? = some H :=
    ⟨_, List.getElem?_eq_getElem (by have := slot_lt rh hrh; omega)⟩
  set rs := notHidden 1 attributes with hrs
  have hrge : ∀ r ∈ rs, 1 ≤ r ∧ r < n + 1 := fun r hr => by
    have := notHidden_ge 1 attributes r hr; omega
  have hrsl : rs.length ≤ n := by have := notHidden_length 1 attributes; rw [← hrs] at this; omega
  have h0rs : (0 : Nat) ∉ rs := fun h => by have := hrge 0 h; omega
  obtain ⟨bv, pe, pl, pf⟩ := payload_toBytes (n + 1) rs (by omega) (fun r hr => by
    have := hrge r hr; omega)
  have hpe : Payload.toBytes ⟨attributes.length + 1,
      (revealedAttributesIndex attributes).map fun i : Nat => (i : Int)⟩ = .ok (beBytes 2 (n + 1) ++ bv.reverse) := by
    rw [hlen]; exact pe
  obtain ⟨⟨label, hlab⟩, hflag⟩ := defined_flags ht
  have card0 : cardType t = true → k = 0 := fun h => hreq.card (cardType_iff.mp h)
  have hpos : ∀ i, Spec.slot 0 i ≠ 0 := by intro i; simp [Spec.slot]
  have hnk : cardType t = false → ∀ i ≤ k, i ∉ shownPositions t attributes := fun h => by
    simp only [shownPositions, h, Bool.false_eq_true, if_false]
    exact front_slot hreq.front
  have hsub : ∀ i, Spec.Hides attributes i → Spec.slot k i ∉ shownPositions t attributes := fun i h => by
    cases hc : cardType t with
    | false =>
      simp only [shownPositions, hc, Bool.false_eq_true, if_false]
      exact sub_slot hreq.front h
    | true =>
      simp only [shownPositions, hc, if_true]
      rw [List.mem_cons, not_or]
      refine ⟨?_, sub_slot hreq.front h⟩
      rw [card0 hc]; exact hpos i
  have hne : eidEnabled t = true → Spec.slot k eid ∉ shownPositions t attributes := fun h =>
    hsub _ (hreq.eid ((eidEnabled_iff ht).mp h))
  have hnr : rhEnabled t = true → Spec.slot k rh ∉ shownPositions t attributes := fun h =>
    hsub _ (hreq.rh (.inl (by simpa [rhEnabled] using h)))
  refine ⟨⟨pk, t, shownPositions t attributes, k, Spec.slot k eid, Spec.slot k rh, Hk, He, Hr, beBytes 2 (n + 1) ++ bv.reverse,
    label, msg, cri⟩, rfl, rfl, rfl, ⟨h0, hnk, hne, hnr⟩, ?_⟩
  intro nym credBytes sk rNym σ attrs hold
  obtain ⟨c, hc, hσ, hk, hattrs⟩ := hold.cred
  have hcn : c.attrs.length = n := by rw [← hold.count, hattrs, List.length_map]
  obtain ⟨r0, hnym⟩ := hold.pseudonym
  obtain ⟨c', σ', k', hc', hσ', hk', _, _, hagree, hvalid⟩ :=
    (credVerify_ok_iff L sk w n credBytes attributes hlen).mp hold.accepted
  rw [hc] at hc'
  cases hc'
  rw [hσ] at hσ'
  cases hσ'
  rw [hk, Nat.cast_inj] at hk'
  subst hk'
  rw [← hattrs] at hagree hvalid
  have hvl : attrs.length = n := hold.count
  rw [List.take_of_length_le hvl.le] at hagree hvalid
  set vals := Spec.withSecret k sk attrs with hvals
  have hl : vals.length = pk.h.length := by rw [hpl, hvals, withSecret_length, hvl]
  have hny : nym = rNym • pk.h0 + sk • Hk := by
    simp only [makeNym, Dyn.get_val, Res.ok_bind, ipkFor, ← hpk, Res.index_nat, hHk, Res.deref_some] at hnym
    rw [build_eq (by simp) (by simp)] at hnym
    simp only [Suite.lin_cons, Suite.lin_nil_left, Res.ok_bind, Res.pure_def, Res.ok.injEq, Prod.mk.injEq] at hnym
    obtain ⟨h1, h2⟩ := hnym
    rw [← h1, ← h2, add_zero]
  obtain ⟨vEid, hve⟩ : ∃ v, attrs[eid]? = some v := ⟨_, List.getElem?_eq_getElem (by omega)⟩
  obtain ⟨vRh, hvr⟩ : ∃ v, attrs[rh]? = some v := ⟨_, List.getElem?_eq_getElem (by omega)⟩
  have hmE : vals[Spec.slot k eid]? = some vEid := by rw [hvals, withSecret_slot _ _ _ _ (by omega)]; exact hve
  have hmR : vals[Spec.slot k rh]? = some vRh := by rw [hvals, withSecret_slot _ _ _ _ (by omega)]; exact hvr
  have hmK : vals[k]? = some sk := by rw [hvals, withSecret_key _ _ _ (by omega)]
  obtain ⟨ms, hms, hmf⟩ := attributesToSignatureMessage_agrees L k sk hagree hreq.known (by omega) hreq.front
  have hmsg : c.toSignatureMessage sk = .ok (tag 0 vals) := by
    rw [hvals, hattrs]; exact toSignatureMessage_eq c sk k hk (by omega)
  refine ⟨⟨σ, vals, sk, rNym, vEid, vRh⟩, rfl, rfl, rfl, ⟨hold.nontrivial, hl, hvalid, hmK, hmE, hmR⟩, hny, ?_,
    ⟨ms, hms⟩, ?_⟩
  · intro ms' hms'
    rw [hms] at hms'
    obtain rfl := Res.ok.inj hms'
    rw [hmf, ← hvals, ← hrs]
    cases hct : cardType t with
    | false => simp [AUser.prover, shownPositions, hct, hrs]
    | true =>
      obtain rfl := card0 hct
      have hv0 : vals = sk :: attrs := by simp [hvals, Spec.withSecret]
      obtain ⟨hs, hh⟩ : ∃ hs, pk.h = Hk :: hs := by
        cases hh : pk.h with
        | nil => rw [hh] at hHk; simp at hHk
        | cons a l => rw [hh] at hHk; simp only [List.getElem?_cons_zero, Option.some.injEq] at hHk; exact ⟨l, by rw [hHk]⟩
      simp only [AUser.prover, shownPositions, hct, if_true, ← hrs, hv0, hh, keepShown_card rs h0rs, Suite.lin_cons, hny]
      abel
  · intro ρ hρ
    have hapart : eidEnabled t = true → (pk.h0 :: pk.h).Nodup ∧
        ρ.pok.r1 • bValue pk σ.s vals + -ρ.pok.r2 • pk.h0 ∉ pk.h := by
      intro h
      obtain ⟨h1, h2⟩ := hρ.apart ((eidEnabled_iff ht).mp h)
      refine ⟨h1, ?_⟩
      rw [neg_smul, ← sub_eq_add_neg]
      exact h2
    rw [hny]
    have fits : ∀ (H : S.G1) v, Spec.Fits pk.h0 H v none := fun H v d hd => by cases hd
    cases hct : cardType t with
    | false =>
      have hr : (⟨σ, vals, 0⟩ : Prover S).run rs pk ρ.pok = honestPoK σ vals rs pk ρ.pok := runPoK_zero _ _ _ _ _
      have hsp : shownPositions t attributes = rs := by simp [shownPositions, hct, hrs]
      have hpok : getPoK c attributes sk pk t (rNym • pk.h0 + sk • Hk) rNym ρ.pok =
          .ok (honestPoK σ vals rs pk ρ.pok, tag 0 vals) := by
        have := newPoKOfSignature_eq L.zrOfInt_one σ (tag 0 vals) rs pk ρ.pok (tag_inOrder vals) (by simp [hl])
          (fun r hr => by have := hrge r hr; simp; omega) (by simp; omega) (by rw [tag_fr]; exact hvalid)
        rw [tag_fr] at this
        simp only [getPoK, hσ, hmsg, Res.ok_bind, hct, revealedAttributesIndex, ← hrs, this, Res.pure_def]
      have small : ∀ ch, _ := fun ch => honest_enc_small h32 hg σ vals rs pk ρ.pok ch hl (by omega)
      rw [hsp] at hnk hne hnr
      have := sign_eq L w n k (Spec.slot k eid) (Spec.slot k rh) credBytes criRaw msg _ label c cri attributes sk
        rNym vEid vRh Hk He Hr vals rs _ eid rh t none ρ (signArgs_ok hreq) hcri halg hc hk hpok
        (honest_honest σ vals rs pk ρ.pok hl)
        (fun ch => honest_generateProof σ vals rs pk ρ.pok ch hl) (shiftIndex_slot k eid) (shiftIndex_slot k rh) hHk hHe
        hHr hmE hmR hnk hne hnr (fun h => hapart h) (fun h => fits _ _) (fun h => fits _ _) hlab hflag
        hpe (fun ch => SigProof.toBytes_eq _ (small ch).1 (small ch).2.1 (small ch).2.2)
      simp only [AUser.sig, AUser.chal, AUser.pok, AUser.prover, AUser.nym, hct, Bool.false_eq_true, if_false, hsp, hr]
      exact ⟨_, this⟩
    | true =>
      obtain rfl := card0 hct
      have hv0 : vals = sk :: attrs := by simp [hvals, Spec.withSecret]
      have hr : (⟨σ, vals, rNym⟩ : Prover S).run (0 :: rs) pk ρ.pok = cardHonest σ vals rs pk rNym ρ.pok := rfl
      have hsp : shownPositions t attributes = 0 :: rs := by simp [shownPositions, hct, hrs]
      have hpok : getPoK c attributes sk pk t (rNym • pk.h0 + sk • Hk) rNym ρ.pok =
          .ok (cardHonest σ vals rs pk rNym ρ.pok, tag 0 vals) := by
        have := cardPoK_eq L.zrOfInt_one σ sk attrs attributes pk rNym ρ.pok (by omega) (by omega) Hk hHk
        rw [← hv0, ← hrs] at this
        simp only [getPoK, hσ, hmsg, Res.ok_bind, hct, hk]
        rw [Nat.cast_zero, this]
        rfl
      have small : ∀ ch, _ := fun ch => card_enc_small h32 hg σ vals rs pk rNym ρ.pok ch hl (by omega)
      rw [hsp] at hnk hne hnr
      have := sign_eq L w n 0 (Spec.slot 0 eid) (Spec.slot 0 rh) credBytes criRaw msg _ label c cri attributes sk
        rNym vEid vRh Hk He Hr vals (0 :: rs) _ eid rh t none ρ (signArgs_ok hreq) hcri halg hc hk hpok
        (card_honest σ vals rs pk rNym ρ.pok hl)
        (fun ch => card_generateProof σ vals rs pk rNym ρ.pok ch hl) (shiftIndex_slot 0 eid) (shiftIndex_slot 0 rh) hHk hHe
        hHr hmE hmR hnk hne hnr (fun h => hapart h) (fun h => fits _ _) (fun h => fits _ _) hlab hflag
        hpe (fun ch => SigProof.toBytes_eq _ (small ch).1 (small ch).2.1 (small ch).2.2)
      simp only [AUser.sig, AUser.chal, AUser.pok, AUser.prover, AUser.nym, hct, if_true, hsp, hr]
      exact ⟨_, this⟩

variable (L) in
/-- **C64.** Two users with credentials of one issuer, who agree on the attributes to disclose and can both open the
pseudonym: there is a bijection of the random choices of `Sign` under which both make the identical signature, for every
signature type, message and request. So for uniformly random choices the signature does not tell which of them made it.
-/
theorem C64_aries_anonymity (h32 : S.scalarLen = 32) (hg : S.g1CompLen < 2 ^ 31) (ipk : IPK S) (w : S.G2)
    (n k eid rh : Nat) (hkey : Spec.IsKey ipk w n) (hn : n + 1 ≤ 65535) (h0 : ipk.pkg.h0 ≠ 0)
    (criRaw msg : Bytes) (cri : CRI) (attributes : List IdemixAttribute) (t : SigType) (hlen : attributes.length = n)
    (heid : eid < n) (hrh : rh < n) (hk : k ≤ n) (hcri : Wire.criCodec.unmarshal criRaw = .ok cri) (halg : cri.alg = 0)
    (ht : Spec.Defined t) (hreq : Spec.Request t attributes k eid rh) (nym : S.G1)
    (cred₁ cred₂ : Bytes) (sk₁ sk₂ rNym₁ rNym₂ : S.F) (σ₁ σ₂ : Sig S) (attrs₁ attrs₂ : List S.F)
    (h₁ : Spec.Holder L ipk n k attributes nym cred₁ sk₁ rNym₁ σ₁ attrs₁)
    (h₂ : Spec.Holder L ipk n k attributes nym cred₂ sk₂ rNym₂ σ₂ attrs₂) :
    ∃ φ : {ρ : SignRand S // Spec.Tape ipk t attributes k sk₁ σ₁ attrs₁ ρ} ≃
        {ρ : SignRand S // Spec.Tape ipk t attributes k sk₂ σ₂ attrs₂ ρ}, ∀ ρ, ∃ sig m₁ m₂,
      sign L cred₁ sk₁ nym rNym₁ (.val ipk) attributes msg rh eid criRaw t none ρ.1 = .ok (sig, m₁) ∧
      sign L cred₂ sk₂ nym rNym₂ (.val ipk) attributes msg rh eid criRaw t none (φ ρ).1 = .ok (sig, m₂) := by
  rw [isKey_iff] at hkey
  subst hkey
  obtain ⟨X, hp, hXt, hrs, hX, hrun⟩ := sign_run (L := L) h32 hg w n k eid rh hn criRaw msg cri attributes t hlen heid hrh hk
    hcri halg ht hreq h0
  obtain ⟨u₁, e1, e2, e3, r₁, n₁, s₁, ⟨ms, hms⟩, g₁⟩ := hrun nym cred₁ sk₁ rNym₁ σ₁ attrs₁ h₁
  obtain ⟨u₂, f1, f2, f3, r₂, n₂, s₂, _, g₂⟩ := hrun nym cred₂ sk₂ rNym₂ σ₂ attrs₂ h₂
  have hal : Alike X.pk X.rs (u₁.prover X) (u₂.prover X) :=
    ⟨hX.h0, r₁.a, r₂.a, r₁.len, r₂.len, r₁.valid, r₂.valid, (s₁ ms hms).trans (s₂ ms hms).symm⟩
  have hd : Spec.Defined X.t := by rw [hXt]; exact ht
  have hl : (ipkFor w n).pkg.h.length = attributes.length + 1 := by
    change (pkg w (n + 1)).h.length = _
    rw [pkg_h_length, hlen]
  subst e1 e2 f1 f2 hXt
  have to₁ : ∀ c ρ, Spec.Tape (ipkFor w n) X.t attributes k u₁.sk u₁.σ attrs₁ ρ →
      Spec.Tape (ipkFor w n) X.t attributes k u₂.sk u₂.σ attrs₂ (reSign X c u₁ u₂ ρ) := fun c ρ h =>
    reSign_tape hp hrs hd hl e3 f3 hal h
  have to₂ : ∀ c ρ, Spec.Tape (ipkFor w n) X.t attributes k u₂.sk u₂.σ attrs₂ ρ →
      Spec.Tape (ipkFor w n) X.t attributes k u₁.sk u₁.σ attrs₁ (reSign X c u₂ u₁ ρ) := fun c ρ h =>
    reSign_tape hp hrs hd hl f3 e3 hal.symm h
  have hny : u₂.nym X = u₁.nym X := n₂.symm.trans n₁
  refine ⟨⟨fun ρ => ⟨reSign X (u₁.chal L X ρ.1) u₁ u₂ ρ.1, to₁ _ _ ρ.2⟩,
    fun ρ => ⟨reSign X (u₂.chal L X ρ.1) u₂ u₁ ρ.1, to₂ _ _ ρ.2⟩, ?_, ?_⟩, ?_⟩
  · intro ρ
    apply Subtype.ext
    simp only [(reSign_same (L := L) hX r₁ r₂ hal hny ρ.2.r1).1]
    exact reSign_reSign hX hal
  · intro ρ
    apply Subtype.ext
    simp only [(reSign_same (L := L) hX r₂ r₁ hal.symm hny.symm ρ.2.r1).1]
    exact reSign_reSign hX hal.symm
  · intro ρ
    obtain ⟨m₁, q₁⟩ := g₁ ρ.1 ρ.2
    obtain ⟨m₂, q₂⟩ := g₂ _ (to₁ (u₁.chal L X ρ.1) ρ.1 ρ.2)
    obtain ⟨c1, c2⟩ := reSign_same (L := L) (c := u₁.chal L X ρ.1) hX r₁ r₂ hal hny ρ.2.r1
    refine ⟨_, m₁, m₂, q₁, ?_⟩
    rw [c1, c2] at q₂
    exact q₂

open Bbs.Ex

namespace Ex

/-- The credential of another user, with the secret key 1, who has the first attribute of `cred2` and a different second
one. -/
def cred3 : Bytes :=
  Proto.encode (Wire.cred (issued (S := S32) (2 : Toy.K) 2 0 [vals.getD 0 0, (3 : Toy.K)] (1 : Toy.K) (3 : Toy.K) (4 : Toy.K) 0))

set_option maxRecDepth 40000 in
theorem holder2 : Spec.Holder L32 ipk2 2 0 shown2 (4 : Toy.K) cred2 (4 : Toy.K) (5 : Toy.K)
    (⟨(1 : Toy.K), (2 : Toy.K), (1 : Toy.K)⟩ : Sig S32) vals :=
  ⟨by decide, ⟨_, rfl, rfl, rfl, by decide⟩, rfl, by decide, ⟨(5 : Toy.K), rfl⟩⟩

set_option maxRecDepth 40000 in
theorem holder3 : Spec.Holder L32 ipk2 2 0 shown2 (4 : Toy.K) cred3 (1 : Toy.K) (6 : Toy.K)
    (⟨(6 : Toy.K), (3 : Toy.K), (4 : Toy.K)⟩ : Sig S32) [vals.getD 0 0, (3 : Toy.K)] :=
  ⟨by decide, ⟨_, rfl, rfl, rfl, by decide⟩, rfl, by decide, ⟨(6 : Toy.K), rfl⟩⟩

set_option maxRecDepth 40000 in
/-- A tape of the first user. -/
theorem tape2 : Spec.Tape ipk2 .eidNym shown2 0 (4 : Toy.K) (⟨(1 : Toy.K), (2 : Toy.K), (1 : Toy.K)⟩ : Sig S32) vals
    ⟨⟨(3 : Toy.K), (1 : Toy.K), fun i => if i < 2 then ((2 * i + 1 : Nat) : Toy.K) else 0,
      fun i => if i < 4 then ((3 * i + 2 : Nat) : Toy.K) else 0⟩, (1 : Toy.K), (2 : Toy.K), (3 : Toy.K), 0, 0, (6 : Toy.K)⟩ := by
  refine ⟨by decide, fun _ => ⟨by decide, by decide⟩, fun i hi => if_neg (by omega), fun i hi => if_neg ?_,
    fun h => absurd h (by decide), fun h => absurd (Or.inl rfl) h, fun _ => ⟨rfl, rfl⟩⟩
  have : 2 + Spec.hiddenValues .eidNym shown2 = 4 := rfl
  omega

end Ex

open Ex in
set_option maxRecDepth 40000 in
/-- Two users of the toy issuer and a request that discloses the attribute on which they agree. -/
example : ∃ φ : {ρ : SignRand S32 // Spec.Tape ipk2 .eidNym shown2 0 (4 : Toy.K) ⟨(1 : Toy.K), (2 : Toy.K), (1 : Toy.K)⟩ vals ρ} ≃
      {ρ : SignRand S32 // Spec.Tape ipk2 .eidNym shown2 0 (1 : Toy.K) ⟨(6 : Toy.K), (3 : Toy.K), (4 : Toy.K)⟩
        [vals.getD 0 0, (3 : Toy.K)] ρ}, ∀ ρ, ∃ sig m₁ m₂,
    sign L32 cred2 (4 : Toy.K) (4 : Toy.K) (5 : Toy.K) (.val ipk2) shown2 [9] (0 : Nat) (1 : Nat) cri2 .eidNym none ρ.1 =
      .ok (sig, m₁) ∧
    sign L32 cred3 (1 : Toy.K) (4 : Toy.K) (6 : Toy.K) (.val ipk2) shown2 [9] (0 : Nat) (1 : Nat) cri2 .eidNym none (φ ρ).1 =
      .ok (sig, m₂) :=
  C64_aries_anonymity L32 rfl (by decide) ipk2 (publicKey (S := S32) (2 : Toy.K)) 2 0 1 0 ((isKey_iff _ _ _).mpr rfl)
    (by decide) (by decide) cri2 [9] _ shown2 .eidNym rfl (by decide) (by decide) (by decide) rfl rfl (by simp [Spec.Defined])
    ⟨by decide, fun _ => ⟨_, rfl, rfl⟩, fun h => absurd h (by decide), by decide, by decide⟩ _ _ _ _ _ _ _ _ _ _ _
    holder2 holder3

end Idemix.Aries
