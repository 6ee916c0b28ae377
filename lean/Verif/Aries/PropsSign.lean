import Verif.Aries.SignVerify
import Verif.Aries.PropsIssue

/-!
# C39: aries signatures verify
-/

namespace Idemix.Aries

open Bbs
open Dlog (SigType VerType AuditData SignerMetadata)

variable {S : Suite} (L : Lib S)

namespace Spec

/-- The number of the generator for attribute `i` when the secret key has number `k`. -/
def slot (k i : Nat) : Nat := if k ≤ i then i + 1 else i

/-- The signature type commits to the enrollment identifier. -/
def CommitsEid (t : SigType) : Prop := t = .eidNym ∨ t = .eidNymRhNym ∨ t = .smartcard

/-- The attribute is not disclosed. -/
def Hides (attributes : List IdemixAttribute) (i : Nat) : Prop := ∃ a, attributes[i]? = some a ∧ a.type = 0

/-- What a signer is asked for: no attribute of an undefined type, none disclosed that the signature commits to
(smart card signatures also need the revocation handle hidden), none disclosed that comes before the secret key, and
the secret key in front for smart cards. -/
structure Request (t : SigType) (attributes : List IdemixAttribute) (k eid rh : Nat) : Prop where
  known : ∀ a ∈ attributes, a.type = 0 ∨ a.type = 1 ∨ a.type = 2
  eid : CommitsEid t → Hides attributes eid
  rh : t = .eidNymRhNym ∨ t = .smartcard → Hides attributes rh
  front : ∀ a ∈ attributes.take k, a.type = 0
  card : t = .smartcard ∨ t = .smartcardNoNyms → k = 0

/-- The generators differ and the blinded element of the proof is none of them: the code finds out by comparison which
generator belongs to the enrollment identifier. -/
def Apart (h0 : S.G1) (h : List S.G1) (σ : Sig S) (ms : List S.F) (r1 r2 : S.F) : Prop :=
  (h0 :: h).Nodup ∧ r1 • (S.genG1 + σ.s • h0 + (List.zipWith (· • ·) ms h).sum) - r2 • h0 ∉ h

/-- The opening of a commitment to `v`. -/
def opening (h0 h : S.G1) (r v : S.F) : Option (AuditData S) := some ⟨some (r • h0 + v • h), r, v⟩

/-- The defined signature types. -/
def Defined (t : SigType) : Prop :=
  t = .standard ∨ t = .eidNym ∨ t = .eidNymRhNym ∨ t = .smartcard ∨ t = .smartcardNoNyms

end Spec

theorem shiftIndex_slot (k i : Nat) : shiftIndex (i : Int) (k : Int) = (Spec.slot k i : Nat) := by
  simp only [shiftIndex, Spec.slot, Nat.cast_le]
  split <;> simp

theorem withSecret_slot {α : Type} (k i : Nat) (x : α) (xs : List α) (hk : k ≤ xs.length) :
    (Spec.withSecret k x xs)[Spec.slot k i]? = xs[i]? := by
  simp only [Spec.withSecret, Spec.slot, List.append_assoc, List.singleton_append]
  have hl : (xs.take k).length = k := by simp; omega
  by_cases h : k ≤ i
  · rw [if_pos h, List.getElem?_append_right (by omega), hl]
    have : i + 1 - k = (i - k) + 1 := by omega
    rw [this, List.getElem?_cons_succ, List.getElem?_drop]
    congr 1; omega
  · rw [if_neg h, List.getElem?_append_left (by omega), List.getElem?_take, if_pos (by omega)]

theorem withSecret_key {α : Type} (k : Nat) (x : α) (xs : List α) (hk : k ≤ xs.length) :
    (Spec.withSecret k x xs)[k]? = some x := by
  simp only [Spec.withSecret, List.append_assoc, List.singleton_append]
  have hl : (xs.take k).length = k := by simp; omega
  rw [List.getElem?_append_right (by omega), hl]
  simp

theorem sub_slot {attributes : List IdemixAttribute} {k i : Nat} (hf : ∀ a ∈ attributes.take k, a.type = 0)
    (h : Spec.Hides attributes i) : Spec.slot k i ∉ notHidden 1 attributes := by
  obtain ⟨a, ha, ht⟩ := h
  intro hm
  simp only [Spec.slot] at hm
  split at hm
  · rw [Nat.add_comm, notHidden_mem] at hm
    obtain ⟨b, hb, hn⟩ := hm
    rw [ha] at hb
    cases hb
    exact hn ht
  · next hki =>
    have := (notHidden_ge 1 attributes i hm).1
    have e : i = 1 + (i - 1) := by omega
    rw [e, notHidden_mem] at hm
    obtain ⟨b, hb, hn⟩ := hm
    apply hn
    apply hf
    rw [List.mem_iff_getElem?]
    exact ⟨i - 1, by rw [List.getElem?_take, if_pos (by omega), hb]⟩

theorem front_slot {attributes : List IdemixAttribute} {k : Nat} (hf : ∀ a ∈ attributes.take k, a.type = 0) :
    ∀ i ≤ k, i ∉ notHidden 1 attributes := by
  intro i hi hm
  have := (notHidden_ge 1 attributes i hm).1
  have e : i = 1 + (i - 1) := by omega
  rw [e, notHidden_mem] at hm
  obtain ⟨b, hb, hn⟩ := hm
  apply hn
  apply hf
  rw [List.mem_iff_getElem?]
  exact ⟨i - 1, by rw [List.getElem?_take, if_pos (by omega), hb]⟩

theorem signArgs_ok {t : SigType} {attributes : List IdemixAttribute} {k eid rh : Nat}
    (h : Spec.Request t attributes k eid rh) : signArgs attributes rh eid t = .ok () := by
  have key : ∀ (i : Nat) msg, Spec.Hides attributes i → mustHide attributes i msg = .ok () := by
    rintro i msg ⟨a, ha, ht⟩
    simp [mustHide, Res.index_nat, ha, ht]
  have c1 : checkIf (decide (t = .eidNym) || decide (t = .smartcard))
      (mustHide attributes eid "disclosure of enrollment ID requested for EidNym signature") = .ok () := by
    cases hb : (decide (t = .eidNym) || decide (t = .smartcard)) with
    | false => rfl
    | true =>
      simp only [Bool.or_eq_true, decide_eq_true_eq] at hb
      exact key _ _ (h.eid (by rcases hb with rfl | rfl <;> simp [Spec.CommitsEid]))
  rw [signArgs, c1, Res.ok_bind]
  cases hb : (decide (t = .eidNymRhNym) || decide (t = .smartcard)) with
  | false => rfl
  | true =>
    simp only [Bool.or_eq_true, decide_eq_true_eq] at hb
    have h1 := key eid "disclosure of enrollment ID or RH requested for EidNymRhNym signature"
      (h.eid (by rcases hb with rfl | rfl <;> simp [Spec.CommitsEid]))
    have h2 := key rh "disclosure of enrollment ID or RH requested for EidNymRhNym signature" (h.rh hb)
    simp only [checkIf, h1, h2, Res.ok_bind]

theorem eidEnabled_iff {t : SigType} (hd : Spec.Defined t) : eidEnabled t = true ↔ Spec.CommitsEid t := by
  rcases hd with rfl | rfl | rfl | rfl | rfl <;> simp [eidEnabled, Spec.CommitsEid]

theorem card_enc_small (h32 : S.scalarLen = frLen) (hg : S.g1CompLen < 2 ^ 31) (σ : Sig S) (ms : List S.F)
    (rs : List Nat) (pk : PKG S) (r : S.F) (ρ : PoKRand S) (c : S.F) (hl : ms.length = pk.h.length)
    (hn : pk.h.length ≤ 0xFFFF) :
    ((cardHonest σ ms rs pk r ρ).respond c).vc1.responses.length ≤ 0xFFFFFFFF ∧
      ((cardHonest σ ms rs pk r ρ).respond c).vc1.enc.length ≤ 0xFFFFFFFF ∧
      ((cardHonest σ ms rs pk r ρ).respond c).vc2.responses.length ≤ 0xFFFFFFFF := by
  have := honest_enc_small h32 hg σ ms (0 :: rs) pk ρ c hl hn
  refine ⟨this.1, this.2.1, ?_⟩
  have e : ((cardHonest σ ms rs pk r ρ).respond c).vc2.responses.length =
      ((honestPoK σ ms (0 :: rs) pk ρ).respond c).vc2.responses.length := by
    simp [PoK.respond, cardHonest, honestPoK]
  rw [e]; exact this.2.2

theorem defined_flags {t : SigType} (hd : Spec.Defined t) :
    (∃ label, sigLabel t = .ok label) ∧
      (decide (t = .eidNym) || decide (t = .eidNymRhNym) || decide (t = .smartcard)) = eidEnabled t := by
  rcases hd with rfl | rfl | rfl | rfl | rfl <;> simp [eidEnabled, sigLabel]

theorem matches_card {t : SigType} {v : VerType} (h : Spec.Matches t v) : cardVer v = cardType t := by
  rcases h with ⟨rfl, rfl | rfl | rfl⟩ | ⟨rfl, rfl | rfl⟩ | ⟨rfl, rfl | rfl⟩ | ⟨rfl, rfl⟩ | ⟨rfl, rfl⟩ <;> rfl

theorem meta_eid {t : SigType} (ht : Spec.Defined t) {pk : PKG S} {pok : PoK S} {rs : List Nat} {e j : Nat} {He Hr : S.G1}
    {rE mE t0 rR mR t1 : S.F} {i : Nat} (hHe : pk.h[i]? = some He) :
    Spec.CommitsEid t → ∃ m' h, signMeta t (if eidEnabled t then some (attrC pk pok rs e He rE mE t0) else none)
        (if rhEnabled t then some (attrC pk pok rs j Hr rR mR t1) else none) mE mR = some m' ∧ pk.h[i]? = some h ∧
      m'.eidNymAuditData = Spec.opening pk.h0 h rE mE := by
  intro h
  have := (eidEnabled_iff ht).mpr h
  rcases h with rfl | rfl | rfl <;> exact ⟨_, He, rfl, hHe, rfl⟩

theorem meta_rh {t : SigType} {pk : PKG S} {pok : PoK S} {rs : List Nat} {e j : Nat} {He Hr : S.G1}
    {rE mE t0 rR mR t1 : S.F} {i : Nat} (hHr : pk.h[i]? = some Hr) :
    t = .eidNymRhNym → ∃ m' h, signMeta t (if eidEnabled t then some (attrC pk pok rs e He rE mE t0) else none)
        (if rhEnabled t then some (attrC pk pok rs j Hr rR mR t1) else none) mE mR = some m' ∧ pk.h[i]? = some h ∧
      m'.rhNymAuditData = Spec.opening pk.h0 h rR mR := by
  rintro rfl
  exact ⟨_, Hr, rfl, hHr, rfl⟩

/-- **C39 (partial).** Let a credential be one that its holder accepted (`credVerify`) together with the attributes to disclose,
and let the pseudonym be one made from the same secret key. For every signature type and request, every message,
randomness and fitting metadata, `Sign` succeeds and what it returns verifies under every verification type meant for
that signature type, without metadata and with the metadata returned. The metadata returned opens the commitments to
the enrollment identifier and the revocation handle, with the randomness supplied, if any, or else the one drawn. What is missing: requests that disclose an
attribute in front of the secret key (`Request.front`, `C39_position_violated`), and the unlikely draws that `Apart`
and `r1 ≠ 0` exclude. -/
theorem C39_signatures_verify_partial (h32 : S.scalarLen = 32) (hg : S.g1CompLen < 2 ^ 31) (hg1 : 0 < S.g1Len) (ipk : IPK S)
    (w : S.G2) (n k eid rh : Nat) (hkey : Spec.IsKey ipk w n) (hn : n + 1 ≤ 65535) (credBytes criRaw msg : Bytes)
    (c : Credential) (σ : Sig S) (cri : CRI) (attributes : List IdemixAttribute) (sk r0 rNym : S.F) (nym : S.G1) (t : SigType)
    (md : Option (SignerMetadata S)) (ρ : SignRand S) (vEid vRh : S.F)
    (hlen : attributes.length = n) (hcred : credVerify L sk (.val ipk) credBytes attributes = .ok ())
    (hc : Wire.credCodec.unmarshal credBytes = .ok c) (hcn : c.attrs.length = n) (hk : c.skPos = k)
    (hσ : parseSignature S c.cred = .ok σ)
    (hnym : makeNym sk (.val ipk) k r0 = .ok (nym, rNym))
    (hcri : Wire.criCodec.unmarshal criRaw = .ok cri) (halg : cri.alg = 0)
    (ht : Spec.Defined t) (hreq : Spec.Request t attributes k eid rh)
    (hve : (c.attrs.map S.zrOfBytes)[eid]? = some vEid) (hvr : (c.attrs.map S.zrOfBytes)[rh]? = some vRh)
    (hρ : ρ.pok.r1 ≠ 0)
    (hap : Spec.CommitsEid t → Spec.Apart ipk.pkg.h0 ipk.pkg.h σ (Spec.withSecret k sk (c.attrs.map S.zrOfBytes))
      ρ.pok.r1 ρ.pok.r2)
    (hfe : ∀ h, ipk.pkg.h[Spec.slot k eid]? = some h → Spec.CommitsEid t →
      Spec.Fits ipk.pkg.h0 h vEid (md.bind (·.eidNymAuditData)))
    (hfr : ∀ h, ipk.pkg.h[Spec.slot k rh]? = some h → t = .eidNymRhNym →
      Spec.Fits ipk.pkg.h0 h vRh (md.bind (·.rhNymAuditData))) :
    ∃ raw m, sign L credBytes sk nym rNym (.val ipk) attributes msg rh eid criRaw t md ρ = .ok (raw, m) ∧
      (∀ v, Spec.Matches t v → ∀ md', md' = none ∨ md' = m →
        verify L (.val ipk) raw msg attributes rh eid k v md' = .ok ()) ∧
      (Spec.CommitsEid t → ∃ m' h, m = some m' ∧ ipk.pkg.h[Spec.slot k eid]? = some h ∧
        m'.eidNymAuditData = Spec.opening ipk.pkg.h0 h (((md.bind (·.eidNymAuditData)).map (·.rand)).getD ρ.rEid) vEid) ∧
      (t = .eidNymRhNym → ∃ m' h, m = some m' ∧ ipk.pkg.h[Spec.slot k rh]? = some h ∧
        m'.rhNymAuditData = Spec.opening ipk.pkg.h0 h (((md.bind (·.rhNymAuditData)).map (·.rand)).getD ρ.rRh) vRh) := by
  rw [isKey_iff] at hkey
  subst hkey
  obtain ⟨c', σ', k', hc', hσ', hk', hkn, _, hagree, hvalid⟩ := (credVerify_ok_iff L sk w n credBytes attributes hlen).mp hcred
  rw [hc] at hc'
  cases hc'
  rw [hσ] at hσ'
  cases hσ'
  rw [hk, Nat.cast_inj] at hk'
  subst hk'
  set vs := c.attrs.map S.zrOfBytes with hvs
  have hvl : vs.length = n := by simp [hvs, hcn]
  rw [List.take_of_length_le hvl.le] at hagree hvalid
  set vals := Spec.withSecret k sk vs with hvals
  have hl : vals.length = (pkg w (n + 1)).h.length := by simp [hvals, withSecret_length, hvl]
  set pk := pkg w (n + 1) with hpk
  have hpl : pk.h.length = n + 1 := by simp [hpk]
  have heid : eid < n := by rw [← hvl]; exact (List.getElem?_eq_some_iff.mp hve).1
  have hrh : rh < n := by rw [← hvl]; exact (List.getElem?_eq_some_iff.mp hvr).1
  have slot_lt : ∀ i, i < n → Spec.slot k i < n + 1 := by
    intro i hi; simp only [Spec.slot]; split <;> omega
  obtain ⟨Hk, hHk⟩ : ∃ H, pk.h[k]? = some H := ⟨_, List.getElem?_eq_getElem (by omega)⟩
  obtain ⟨He, hHe⟩ : ∃ H, pk.h[Spec.slot k eid]? = some H :=
    ⟨_, List.getElem?_eq_getElem (by have := slot_lt eid heid; omega)⟩
  obtain ⟨Hr, hHr⟩ : ∃ H, pk.h[Spec.slot k rh]? = some H :=
    ⟨_, List.getElem?_eq_getElem (by have := slot_lt rh hrh; omega)⟩
  have hny : nym = rNym • pk.h0 + sk • Hk := by
    simp only [makeNym, Dyn.get_val, Res.ok_bind, ipkFor, ← hpk, Res.index_nat, hHk, Res.deref_some] at hnym
    rw [build_eq (by simp) (by simp)] at hnym
    simp only [Suite.lin_cons, Suite.lin_nil_left, Res.ok_bind, Res.pure_def, Res.ok.injEq, Prod.mk.injEq] at hnym
    obtain ⟨h1, h2⟩ := hnym
    rw [← h1, ← h2, add_zero]
  subst hny
  have hmE : vals[Spec.slot k eid]? = some vEid := by rw [hvals, withSecret_slot _ _ _ _ (by omega)]; exact hve
  have hmR : vals[Spec.slot k rh]? = some vRh := by rw [hvals, withSecret_slot _ _ _ _ (by omega)]; exact hvr
  have hmK : vals[k]? = some sk := by rw [hvals, withSecret_key _ _ _ (by omega)]
  set rs := notHidden 1 attributes with hrs
  have hrge : ∀ r ∈ rs, 1 ≤ r ∧ r < n + 1 := fun r hr => by
    have := notHidden_ge 1 attributes r hr; omega
  have hrsl : rs.length ≤ n := by have := notHidden_length 1 attributes; rw [← hrs] at this; omega
  obtain ⟨ms, hms, hmf⟩ := attributesToSignatureMessage_agrees L k sk hagree hreq.known (by omega) hreq.front
  obtain ⟨bv, pe, pl, pf⟩ := payload_toBytes (n + 1) rs (by omega) (fun r hr => by
    have := hrge r hr; omega)
  set rs' := (List.range (8 * ((n + 1) / 8 + 1))).filter fun i => bvBit bv i with hrs'
  have hm' : ∀ i, i ∈ rs ↔ i ∈ rs' := by
    intro i
    rw [hrs', List.mem_filter, pf, List.mem_range, decide_eq_true_eq]
    constructor
    · intro hi; have := hrge i hi; exact ⟨by omega, hi⟩
    · exact fun hi => hi.2
  have hsort : rs'.Pairwise (· < ·) := (List.pairwise_lt_range).filter _
  have hlt : ∀ r ∈ rs', r < n + 1 := fun r hi => (hrge r ((hm' r).mpr hi)).2
  have hvn : vals.length = n + 1 := by rw [hl, hpl]
  have hcount := revealed_length hsort hlt vals hvn
  have hmsl : ms.length = rs'.length := by
    rw [← List.length_map (f := (·.fr)), hmf, keepShown_congr hm', hcount]
  have h0rs : (0 : Nat) ∉ rs := fun h => by have := hrge 0 h; omega
  have h0rs' : (0 : Nat) ∉ rs' := fun h => h0rs ((hm' 0).mpr h)
  have hrsl' : rs'.length ≤ n := by
    have hk1 := keepShown_length_le rs' 1 vals.tail
    have hsplit : keepShown rs' 0 vals = keepShown rs' 1 vals.tail := by
      cases hv : vals with
      | nil => rfl
      | cons a l => rw [keepShown, if_neg (by simpa using h0rs')]; rfl
    have := keep_length rs' 1 vals.tail
    rw [← hcount, hsplit]
    simp only [List.length_tail] at this
    omega
  have hpayload : ∀ enc, parsePoKPayload (beBytes 2 (n + 1) ++ bv.reverse ++ enc) = .ok (n + 1, rs') := fun enc =>
    parsePoKPayload_bytes (n + 1) bv enc (by omega) pl
  have hoff : (lenInBytes ((n + 1 : Nat) : Int)).toNat = (beBytes 2 (n + 1) ++ bv.reverse).length := by
    rw [lenInBytes_nat]; simp [pl]; omega
  obtain ⟨⟨label, hlab⟩, hflag⟩ := defined_flags ht
  have hmsg : c.toSignatureMessage sk = .ok (tag 0 vals) := toSignatureMessage_eq c sk k hk (by omega)
  have hpe : Payload.toBytes ⟨attributes.length + 1,
      (revealedAttributesIndex attributes).map fun i : Nat => (i : Int)⟩ = .ok (beBytes 2 (n + 1) ++ bv.reverse) := by
    rw [hlen]; exact pe
  have hapart : eidEnabled t = true → (pk.h0 :: pk.h).Nodup ∧ ρ.pok.r1 • bValue pk σ.s vals + -ρ.pok.r2 • pk.h0 ∉ pk.h := by
    intro h
    obtain ⟨h1, h2⟩ := hap ((eidEnabled_iff ht).mp h)
    refine ⟨h1, ?_⟩
    rw [neg_smul, ← sub_eq_add_neg]
    exact h2
  have hcriw := criCodec_wire hcri
  cases hct : cardType t with
  | false =>
    have hpok : getPoK c attributes sk pk t (rNym • pk.h0 + sk • Hk) rNym ρ.pok =
        .ok (honestPoK σ vals rs pk ρ.pok, tag 0 vals) := by
      have := newPoKOfSignature_eq L.zrOfInt_one σ (tag 0 vals) rs pk ρ.pok (tag_inOrder vals) (by simp [hl])
        (fun r hr => by have := hrge r hr; simp; omega) (by simp; omega) (by rw [tag_fr]; exact hvalid)
      rw [tag_fr] at this
      simp only [getPoK, hσ, hmsg, Res.ok_bind, hct, revealedAttributesIndex, ← hrs, this, Res.pure_def]
    have hon := honest_honest σ vals rs pk ρ.pok hl
    have small : ∀ ch, _ := fun ch => honest_enc_small h32 hg σ vals rs pk ρ.pok ch hl (by omega)
    have hdef : (honestPoK σ vals rs pk ρ.pok).d = ρ.pok.r1 • bValue pk σ.s vals + -ρ.pok.r2 • pk.h0 := rfl
    have hnk : cardType t = false → ∀ i ≤ k, i ∉ rs := fun _ => front_slot hreq.front
    have hne : eidEnabled t = true → Spec.slot k eid ∉ rs := fun h =>
      sub_slot hreq.front (hreq.eid ((eidEnabled_iff ht).mp h))
    have hnr : rhEnabled t = true → Spec.slot k rh ∉ rs := fun h =>
      sub_slot hreq.front (hreq.rh (.inl (by simpa [rhEnabled] using h)))
    refine ⟨_, _, sign_eq L w n k (Spec.slot k eid) (Spec.slot k rh) credBytes criRaw msg _ label c cri attributes sk
      rNym vEid vRh Hk He Hr vals rs _ eid rh t md ρ (signArgs_ok hreq) hcri halg hc hk hpok hon
      (fun ch => honest_generateProof σ vals rs pk ρ.pok ch hl) (shiftIndex_slot k eid) (shiftIndex_slot k rh) hHk hHe
      hHr hmE hmR hnk hne hnr (fun h => by rw [hdef]; exact hapart h)
      (fun h => hfe He hHe ((eidEnabled_iff ht).mp h)) (fun h => hfr Hr hHr (by simpa [rhEnabled] using h)) hlab hflag
      hpe (fun ch => SigProof.toBytes_eq _ (small ch).1 (small ch).2.1 (small ch).2.2), ?_, meta_eid ht hHe, meta_rh hHr⟩
    intro v hv md' hmd'
    have hcv : cardVer v = false := by rw [matches_card hv, hct]
    refine verify_honest L h32 hg1 w n k (Spec.slot k eid) (Spec.slot k rh) (Spec.slot k eid) (Spec.slot k rh) hn _ label msg cri attributes sk rNym vEid
      vRh _ _ Hk He Hr vals rs rs' _ eid rh t v ρ ms hv hcriw halg hon hms (shiftIndex_slot k eid)
      (shiftIndex_slot k rh) hHk hHe hHr hmK hmE hmR hnk hne hnr hlab hpayload hoff ?_ (by omega) ?_ ?_ md' hmd'
    · intro ch
      have := parseSignatureProof_enc h32 ((honestPoK σ vals rs pk ρ.pok).respond ch) [] (small ch).1 (small ch).2.1
        (small ch).2.2
      rwa [List.append_nil] at this
    · intro ch
      simp only [revealedForChallenge, hcv]
      exact honest_toBytes σ vals rs rs' pk ρ.pok ch hm' (by rw [hpk, pkg_count]; push_cast; omega)
    · intro ch
      simp only [revealedForVerify, vc2For, hcv]
      exact honest_verifies L.zrOfInt_one σ vals rs rs' pk ρ.pok ch ms hl hvalid hρ hm'
        (by rw [hpk, pkg_count]; push_cast; omega) hmf
  | true =>
    have hk0 : k = 0 := by
      apply hreq.card
      simpa [cardType] using hct
    subst hk0
    have hv0 : vals = sk :: vs := by simp [hvals, Spec.withSecret]
    have hpok : getPoK c attributes sk pk t (rNym • pk.h0 + sk • Hk) rNym ρ.pok =
        .ok (cardHonest σ vals rs pk rNym ρ.pok, tag 0 vals) := by
      have := cardPoK_eq L.zrOfInt_one σ sk vs attributes pk rNym ρ.pok (by omega) (by omega) Hk hHk
      rw [← hv0, ← hrs] at this
      simp only [getPoK, hσ, hmsg, Res.ok_bind, hct, hk]
      rw [Nat.cast_zero, this]
      rfl
    have hon := card_honest σ vals rs pk rNym ρ.pok hl
    have small : ∀ ch, _ := fun ch => card_enc_small h32 hg σ vals rs pk rNym ρ.pok ch hl (by omega)
    have hdef : (cardHonest σ vals rs pk rNym ρ.pok).d = ρ.pok.r1 • bValue pk σ.s vals + -ρ.pok.r2 • pk.h0 := rfl
    have hnk : cardType t = false → ∀ i ≤ 0, i ∉ 0 :: rs := fun h => by rw [hct] at h; cases h
    have hpos : ∀ i, Spec.slot 0 i ≠ 0 := by intro i; simp [Spec.slot]
    have hne : eidEnabled t = true → Spec.slot 0 eid ∉ 0 :: rs := fun h => by
      rw [List.mem_cons, not_or]
      exact ⟨hpos _, sub_slot hreq.front (hreq.eid ((eidEnabled_iff ht).mp h))⟩
    have hnr : rhEnabled t = true → Spec.slot 0 rh ∉ 0 :: rs := fun h => by
      rw [List.mem_cons, not_or]
      exact ⟨hpos _, sub_slot hreq.front (hreq.rh (.inl (by simpa [rhEnabled] using h)))⟩
    refine ⟨_, _, sign_eq L w n 0 (Spec.slot 0 eid) (Spec.slot 0 rh) credBytes criRaw msg _ label c cri attributes sk
      rNym vEid vRh Hk He Hr vals (0 :: rs) _ eid rh t md ρ (signArgs_ok hreq) hcri halg hc hk hpok hon
      (fun ch => card_generateProof σ vals rs pk rNym ρ.pok ch hl) (shiftIndex_slot 0 eid) (shiftIndex_slot 0 rh) hHk hHe
      hHr hmE hmR hnk hne hnr (fun h => by rw [hdef]; exact hapart h)
      (fun h => hfe He hHe ((eidEnabled_iff ht).mp h)) (fun h => hfr Hr hHr (by simpa [rhEnabled] using h)) hlab hflag
      hpe (fun ch => SigProof.toBytes_eq _ (small ch).1 (small ch).2.1 (small ch).2.2), ?_, meta_eid ht hHe, meta_rh hHr⟩
    intro v hv md' hmd'
    have hcv : cardVer v = true := by rw [matches_card hv, hct]
    refine verify_honest L h32 hg1 w n 0 (Spec.slot 0 eid) (Spec.slot 0 rh) (Spec.slot 0 eid) (Spec.slot 0 rh) hn _ label msg cri attributes sk rNym vEid
      vRh _ _ Hk He Hr vals (0 :: rs) rs' _ eid rh t v ρ ms hv hcriw halg hon hms (shiftIndex_slot 0 eid)
      (shiftIndex_slot 0 rh) hHk hHe hHr hmK hmE hmR hnk hne hnr hlab hpayload hoff ?_ (by omega) ?_ ?_ md' hmd'
    · intro ch
      have := parseSignatureProof_enc h32 ((cardHonest σ vals rs pk rNym ρ.pok).respond ch) [] (small ch).1 (small ch).2.1
        (small ch).2.2
      rwa [List.append_nil] at this
    · intro ch
      simp only [revealedForChallenge, hcv, if_neg h0rs']
      refine card_toBytes σ vals rs (0 :: rs') pk rNym ρ.pok ch (fun i => ?_) ?_
      · simp only [List.mem_cons, hm' i]
      · rw [hpk, pkg_count, List.length_cons]; push_cast; omega
    · intro ch
      have hf : (rs'.filter fun i => i ≠ 0) = rs' := by
        rw [List.filter_eq_self]
        intro i hi
        simp only [ne_eq, decide_not, Bool.not_eq_eq_eq_not, Bool.not_true, decide_eq_false_iff_not]
        rintro rfl
        exact h0rs' hi
      simp only [revealedForVerify, vc2For, hcv, hf]
      rw [hv0]
      exact card_verifies L.zrOfInt_one σ sk vs rs rs' pk rNym ρ.pok ch ms Hk hHk (by rw [← hv0]; exact hl)
        (by rw [← hv0]; exact hvalid) hρ h0rs hm' (by rw [hpk, pkg_count]; push_cast; omega) (by rw [← hv0]; exact hmf)

open Bbs.Ex

namespace Ex

/-- An issuer key for two attributes whose generators differ. -/
def ipk2 : IPK S32 := ipkFor (publicKey (S := S32) (2 : Toy.K)) 2

/-- A credential with the secret key 4 in front. -/
def cred2 : Bytes := Proto.encode (Wire.cred (issued (S := S32) (2 : Toy.K) 2 0 vals (4 : Toy.K) (2 : Toy.K) (1 : Toy.K) 0))

/-- Information for revocation. -/
def cri2 : Bytes := Proto.encode (Wire.cri ⟨3, [], [], 0, []⟩)

/-- Randomness. -/
def rand2 : SignRand S32 :=
  ⟨⟨(3 : Toy.K), (1 : Toy.K), fun i => ((2 * i + 1 : Nat) : Toy.K), fun i => ((3 * i + 2 : Nat) : Toy.K)⟩, (1 : Toy.K),
    (2 : Toy.K), (3 : Toy.K), (4 : Toy.K), (5 : Toy.K), (6 : Toy.K)⟩

/-- Nothing disclosed. -/
def hidden2 : List IdemixAttribute := [⟨0, .bytes []⟩, ⟨0, .bytes []⟩]

/-- The first attribute disclosed. -/
def shown2 : List IdemixAttribute := [⟨1, .bytes [7]⟩, ⟨0, .bytes []⟩]

end Ex

open Ex in
set_option maxRecDepth 40000 in
example : Spec.IsKey ipk2 (publicKey (S := S32) (2 : Toy.K)) 2 ∧
    credVerify L32 (4 : Toy.K) (.val ipk2) cred2 hidden2 = .ok () ∧ credVerify L32 (4 : Toy.K) (.val ipk2) cred2 shown2 = .ok () ∧
    makeNym (4 : Toy.K) (.val ipk2) 0 (5 : Toy.K) = .ok ((4 : Toy.K), (5 : Toy.K)) ∧
    Spec.Apart ipk2.pkg.h0 ipk2.pkg.h (⟨(1 : Toy.K), (2 : Toy.K), (1 : Toy.K)⟩ : Sig S32)
      (Spec.withSecret 0 (4 : Toy.K) vals) (3 : Toy.K) (1 : Toy.K) ∧
    Spec.Request .eidNymRhNym hidden2 0 0 1 ∧ Spec.Request .smartcard hidden2 0 0 1 ∧ Spec.Request .eidNym shown2 0 1 0 :=
  ⟨(isKey_iff _ _ _).mpr rfl, by decide, by decide, rfl, ⟨by decide, by decide⟩,
    ⟨by decide, fun _ => ⟨_, rfl, rfl⟩, fun _ => ⟨_, rfl, rfl⟩, by decide, by decide⟩,
    ⟨by decide, fun _ => ⟨_, rfl, rfl⟩, fun _ => ⟨_, rfl, rfl⟩, by decide, by decide⟩,
    ⟨by decide, fun _ => ⟨_, rfl, rfl⟩, fun h => absurd h (by decide), by decide, by decide⟩⟩

open Ex in
set_option maxRecDepth 40000 in
example : ∃ raw m, sign L32 cred2 (4 : Toy.K) (4 : Toy.K) (5 : Toy.K) (.val ipk2) shown2 [9] 0 1 cri2 .eidNym none rand2 =
      .ok (raw, m) ∧
    verify L32 (.val ipk2) raw [9] shown2 0 1 0 .expectEidNym m = .ok () ∧
    verify L32 (.val ipk2) raw [8] shown2 0 1 0 .expectEidNym m ≠ .ok () ∧
    verify L32 (.val ipk2) raw [9] shown2 0 1 0 .expectStandard m ≠ .ok () := ⟨_, _, rfl, by decide, by decide, by decide⟩

/-- **C39 (violated).** If the secret key comes last and the holder discloses an attribute, `Sign` panics: disclosed
attributes are taken to have the number one more than their position, as if the secret key came first. -/
theorem C39_position_violated (ipk : IPK S) (w : S.G2) (n eid rh : Nat) (hkey : Spec.IsKey ipk w n)
    (credBytes criRaw msg : Bytes) (c : Credential) (cri : CRI) (attributes : List IdemixAttribute)
    (sk rNym : S.F) (nym : S.G1) (md : Option (SignerMetadata S)) (ρ : SignRand S) (hlen : attributes.length = n)
    (hcred : credVerify L sk (.val ipk) credBytes attributes = .ok ())
    (hc : Wire.credCodec.unmarshal credBytes = .ok c) (hcn : c.attrs.length = n) (hk : c.skPos = n)
    (hcri : Wire.criCodec.unmarshal criRaw = .ok cri) (halg : cri.alg = 0) (hshow : ∃ a ∈ attributes, a.type ≠ 0) :
    sign L credBytes sk nym rNym (.val ipk) attributes msg rh eid criRaw .standard md ρ = .panic := by
  rw [isKey_iff] at hkey
  subst hkey
  obtain ⟨c', σ, k', hc', hσ, hk', hkn, _, hagree, hvalid⟩ := (credVerify_ok_iff L sk w n credBytes attributes hlen).mp hcred
  rw [hc] at hc'
  cases hc'
  rw [hk, Nat.cast_inj] at hk'
  subst hk'
  set vs := c.attrs.map S.zrOfBytes with hvs
  have hvl : vs.length = n := by simp [hvs, hcn]
  rw [List.take_of_length_le hvl.le] at hvalid
  set vals := Spec.withSecret n sk vs with hvals
  have hl : vals.length = (pkg w (n + 1)).h.length := by simp [hvals, withSecret_length, hvl]
  set pk := pkg w (n + 1) with hpk
  have hpl : pk.h.length = n + 1 := by simp [hpk]
  set rs := notHidden 1 attributes with hrs
  have hrge : ∀ r ∈ rs, 1 ≤ r ∧ r < n + 1 := fun r hr => by
    have := notHidden_ge 1 attributes r hr; omega
  have hrsl : rs.length ≤ n := by have := notHidden_length 1 attributes; rw [← hrs] at this; omega
  have hmsg : c.toSignatureMessage sk = .ok (tag 0 vals) := toSignatureMessage_eq c sk n hk (by omega)
  have hpok : getPoK c attributes sk pk .standard nym rNym ρ.pok = .ok (honestPoK σ vals rs pk ρ.pok, tag 0 vals) := by
    have := newPoKOfSignature_eq L.zrOfInt_one σ (tag 0 vals) rs pk ρ.pok (tag_inOrder vals) (by simp [hl])
      (fun r hr => by have := hrge r hr; simp; omega) (by simp; omega) (by rw [tag_fr]; exact hvalid)
    rw [tag_fr] at this
    simp only [getPoK, hσ, hmsg, Res.ok_bind, cardType, decide_false, Bool.or_self, revealedAttributesIndex, ← hrs, this,
      Res.pure_def, reduceCtorEq]
  have hshort : (keepHidden rs 0 pk.h).length ≤ n := by
    obtain ⟨a, ha, hn0⟩ := hshow
    obtain ⟨j, hj⟩ := List.mem_iff_getElem?.mp ha
    have hm : 1 + j ∈ rs := (notHidden_mem 1 attributes j).mpr ⟨a, hj, hn0⟩
    have hlt := (hrge _ hm).2
    have h1 := keep_length rs 0 pk.h
    have h2 : 0 < (keepShown rs 0 pk.h).length := by
      rw [← shown_eq, List.length_pos_iff_exists_mem]
      refine ⟨pk.h[1 + j]'(by omega), ?_⟩
      simp only [Bbs.Spec.shown, List.mem_map, List.mem_filter, Prod.exists, exists_and_right, exists_eq_right]
      exact ⟨1 + j, by rw [List.mem_zipIdx_iff_getElem?, List.getElem?_eq_getElem (by omega)], by simpa using hm⟩
    omega
  have hbl : (honestPoK σ vals rs pk ρ.pok).vc2.blind.length ≤ 2 + n := by
    simp [honestPoK]; omega
  have hcn' : commitNym pk (honestPoK σ vals rs pk ρ.pok) (n : Int) ρ.nym0 = .panic := by
    have e : (2 : Int) + (n : Int) = ((2 + n : Nat) : Int) := by push_cast; rfl
    rw [commitNym, Res.index_nat, List.getElem?_eq_getElem (by omega), e, Res.index_nat,
      List.getElem?_eq_none (by omega)]
    rfl
  have galg : decide (cri.alg ≠ 0) = false := by simp [halg]
  have hargs : signArgs attributes rh eid .standard = .ok () := rfl
  simp only [sign, hargs, Res.ok_bind, Dyn.get_val, hcri, galg, Res.guardErr_false, hc, ipkFor, ← hpk, hpok, hk, hcn']
  rfl

open Ex in
set_option maxRecDepth 40000 in
example : credVerify L32 (4 : Toy.K) (.val ipk2)
      (Proto.encode (Wire.cred (issued (S := S32) (2 : Toy.K) 2 2 vals (4 : Toy.K) (2 : Toy.K) (1 : Toy.K) 2))) shown2 = .ok () ∧
    sign L32 (Proto.encode (Wire.cred (issued (S := S32) (2 : Toy.K) 2 2 vals (4 : Toy.K) (2 : Toy.K) (1 : Toy.K) 2)))
      (4 : Toy.K) (4 : Toy.K) (5 : Toy.K) (.val ipk2) shown2 [9] 0 1 cri2 .standard none rand2 = .panic := ⟨by decide, rfl⟩

end Idemix.Aries
