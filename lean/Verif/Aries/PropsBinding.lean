import Verif.Aries.PropsTypes
import Verif.Aries.PropsCard

/-!
# C63: an aries signature fixes its message and what it discloses; C42: a pseudonym signature fixes its message
-/

namespace Idemix.Aries

open Bbs Bbs.Ex
open Dlog (SigType VerType AuditData SignerMetadata AuditType signLabel signWithEidNymLabel signWithEidNymRhNymLabel)

variable {S : Suite} (L : Lib S)

/-- A collision of the hash to scalars. -/
def Spec.OkmCollision (a b : Bytes) : Prop := a ≠ b ∧ frFromOKM L a = frFromOKM L b

/-- Smart card types. -/
def Spec.CardVer (v : VerType) : Prop := v = .expectSmartcard ∨ v = .expectSmartcardNoNyms

instance (v : VerType) : Decidable (Spec.CardVer v) := inferInstanceAs (Decidable (_ ∨ _))

/-- The label of the challenge. -/
def Spec.verLabel (v : VerType) (te tr : Option S.G1) : Bytes :=
  if Spec.CardVer v then if te.isSome then signWithSmartcardLabel else signWithSmartcardNoNymsLabel
  else if tr.isSome then signWithEidNymRhNymLabel else if te.isSome then signWithEidNymLabel else signLabel

/-- What is hashed first to verify `sig` on `msg`: `p` is the main proof, `rs` the positions it reveals; `tn`, `te`, `tr`
are the first messages of the proofs for the pseudonym and the commitments to the enrollment identifier and revocation
handle, as far as they are there. With a smart card the secret key counts as revealed. -/
def Spec.transcript (v : VerType) (w : S.G2) (n : Nat) (sig : Signature) (p : SigProof S) (rs : List Nat)
    (tn te tr : Option S.G1) (msg : Bytes) : Bytes :=
  let hidden := Bbs.Spec.unshown (if Spec.CardVer v then 0 :: rs else rs) (Bbs.Spec.generators w (n + 1))
  let opt (raw : Bytes) (t : Option S.G1) : Bytes := match t with
    | some t => raw ++ S.g1Bytes t
    | none => []
  Spec.verLabel v te tr ++
    (S.g1Bytes p.aBar ++ S.g1Bytes p.aPrime ++ S.g1Bytes (Bbs.Spec.generator w (n + 1) 0) ++
      S.g1Bytes p.vc1.commitment ++ S.g1Bytes p.d ++ S.g1Bytes (Bbs.Spec.generator w (n + 1) 0) ++
      (hidden.map S.g1Bytes).flatten ++ S.g1Bytes p.vc2.commitment) ++
    sig.nym ++ opt [] tn ++ opt sig.nymEid te ++ opt sig.nymRh tr ++ S.zrBytes (frFromOKM L msg)

/-- What is hashed then. -/
def Spec.second (q nonce : Bytes) : Bytes := S.zrBytes (frFromOKM L q) ++ nonce

/-- The point that the main proof is about: `g1` with the disclosed values on their generators, and with a smart card also
the pseudonym. -/
def Spec.claimed (v : VerType) (w : S.G2) (n : Nat) (rs : List Nat) (vs : List S.F) (nym : S.G1) : S.G1 :=
  if Spec.CardVer v then
    S.genG1 + S.lin vs (Bbs.Spec.shown (rs.filter (· ≠ 0)) (Bbs.Spec.generators w (n + 1))) + nym
  else S.genG1 + S.lin vs (Bbs.Spec.shown rs (Bbs.Spec.generators w (n + 1)))

/-- The attributes whose values are disclosed. -/
def Spec.disclosed (attributes : List IdemixAttribute) : List IdemixAttribute :=
  attributes.filter fun a => a.type = 1 ∨ a.type = 2

/-- The parts of a signature. -/
structure Spec.Parts (v : VerType) (raw : Bytes) (sig : Signature) (main : SigProof S) (rs : List Nat) (nym : S.G1)
    (tn te tr : Option S.G1) : Prop where
  decoded : Wire.sigCodec.unmarshal raw = .ok sig
  payload : ∃ count, parsePoKPayload sig.main = .ok (count, rs) ∧
    parseSignatureProof S (sig.main.drop (2 + count / 8 + 1)) = .ok main
  nym : S.g1OfBytes sig.nym = some nym
  tn : Spec.First S (¬ Spec.CardVer v) sig.nymProof tn
  te : Spec.First S (Spec.UsesEid sig v) sig.nymEidProof te
  tr : Spec.First S (Spec.UsesRh sig v) sig.nymRhProof tr

variable {L}

theorem attrMsgs_disclosed (i : Nat) {as : List IdemixAttribute} {ms : List (SigMsg S)} (h : attrMsgs L i as = .ok ms) :
    List.Forall₂ (Spec.Encodes L) (Spec.disclosed as) (ms.map (·.fr)) := by
  induction as generalizing i ms with
  | nil => cases h; exact .nil
  | cons a as ih =>
    simp only [attrMsgs, Res.bind_eq_ok] at h
    obtain ⟨o, ho, rest, hr, h⟩ := h
    cases o with
    | none =>
      have := (attrFr_none_iff L).mp ho
      cases h
      rw [Spec.disclosed, List.filter_cons, if_neg (by simpa using this)]
      exact ih _ hr
    | some x =>
      have hx := (attrFr_some_iff L).mp ho
      have ht : a.type = 1 ∨ a.type = 2 := by
        rcases hx with h | h
        · exact .inl h.1
        · exact .inr h.1
      cases h
      rw [Spec.disclosed, List.filter_cons, if_pos (by simpa using ht)]
      exact .cons hx (ih _ hr)

theorem messages_disclosed {as : List IdemixAttribute} {k : Int} {ms : List (SigMsg S)}
    (h : attributesToSignatureMessage L as k = .ok ms) :
    List.Forall₂ (Spec.Encodes L) (Spec.disclosed as) (ms.map (·.fr)) := by
  simp only [attributesToSignatureMessage, Res.bind_eq_ok] at h
  obtain ⟨_, _, h⟩ := h
  have := attrMsgs_disclosed 0 h
  have e : Spec.disclosed (as.take k.toNat ++ [hiddenAttr] ++ as.drop k.toNat) = Spec.disclosed as := by
    have hh : Spec.disclosed [hiddenAttr] = [] := by simp [Spec.disclosed, hiddenAttr]
    rw [Spec.disclosed, List.filter_append, List.filter_append]
    change _ ++ Spec.disclosed [hiddenAttr] ++ _ = _
    rw [hh, List.append_nil, ← List.filter_append, List.take_append_drop, Spec.disclosed]
  rwa [e] at this

theorem noCard_iff {v : VerType} : Spec.NoCard v ↔ ¬ Spec.CardVer v := by
  simp [Spec.NoCard, Spec.CardVer]

/-- What acceptance comes down to. -/
theorem accepted {w : S.G2} {n : Nat} {raw msg : Bytes} {attributes : List IdemixAttribute} {rh eid : Int} {k : Nat}
    {v : VerType} {md : Option (SignerMetadata S)}
    (acc : verify L (.val (ipkFor w n)) raw msg attributes rh eid k v md = .ok ()) :
    ∃ sig main rs nym tn te tr vs c, Spec.Parts v raw sig main rs nym tn te tr ∧
      List.Forall₂ (Spec.Encodes L) (Spec.disclosed attributes) vs ∧
      c = frFromOKM L (Spec.second L (Spec.transcript L v w n sig main rs tn te tr msg) sig.nonce) ∧
      (main.vc1.responses.length = 2 →
        S.lin main.vc1.responses [main.aPrime, Bbs.Spec.generator w (n + 1) 0] + c • (main.aBar - main.d) =
          main.vc1.commitment) ∧
      (¬ Spec.CardVer v → ∃ q H, parseProofG1 S sig.nymProof = .ok q ∧
        (Bbs.Spec.generators w (n + 1))[k]? = some H ∧ (q.responses.length = 2 →
        S.lin q.responses [Bbs.Spec.generator w (n + 1) 0, H] + c • nym = q.commitment)) ∧
      (let hidden := Bbs.Spec.unshown (if Spec.CardVer v then 0 :: rs else rs) (Bbs.Spec.generators w (n + 1))
       main.vc2.responses.length = 2 + hidden.length →
        S.lin main.vc2.responses (main.d :: Bbs.Spec.generator w (n + 1) 0 :: hidden) +
          c • -Spec.claimed v w n rs vs nym = main.vc2.commitment) := by
  obtain ⟨sig, ms, P, c, a1, a2, a3, a4, a5, a6, a7, a8, a9, a10, a11, a12⟩ := verify_ok L acc
  obtain ⟨count, e1, e2, e3, e4, e5, e6, e7⟩ := parseParts_ok a5
  change verChallenge L (pkg w (n + 1)) sig v msg P = .ok c at a6
  change checkNymProof (pkg w (n + 1)) P.sp P.nymProof P.nym k c = .ok () at a9
  change P.sp.verify (vc2For v P.nym) c (pkg w (n + 1)) (revealedForVerify v P.rev) ms = .ok () at a12
  rw [sigProof_verify_ok_iff] at a12
  obtain ⟨_, v1, v2⟩ := a12
  have htn : Spec.First S (¬ Spec.CardVer v) sig.nymProof (P.nymProof.map (·.commitment)) := by
    by_cases hv : Spec.CardVer v
    · right
      have hcard : cardVer v = true := by rcases hv with rfl | rfl <;> rfl
      rw [hcard] at e5
      exact ⟨not_not.mpr hv, by rw [← Res.ok.inj e5]; rfl⟩
    · left
      rw [noCard (noCard_iff.mpr hv)] at e5
      have h' : ((parseProofG1 S sig.nymProof) >>= fun y => Res.ok (some y)) = .ok P.nymProof := e5
      rw [Res.bind_eq_ok] at h'
      obtain ⟨pn, hq, hn⟩ := h'
      exact ⟨hv, pn, hq, by rw [← Res.ok.inj hn]; rfl⟩
  refine ⟨sig, P.sp, P.rev, P.nym, P.nymProof.map (·.commitment), P.eid.map (·.1.commitment), P.rh.map (·.1.commitment),
    ms.map (·.fr), c, ⟨a1, ⟨count, e1, e2⟩, e4, htn, first_of (wantEid_iff sig v) e6, first_of (wantRh_iff sig v) e7⟩,
    messages_disclosed a4, ?_, ?_, ?_, ?_⟩
  · by_cases hv : Spec.CardVer v
    · rw [cardSignChallenge_eq hv a5 a6]
      have hcard : cardVer v = true := by rcases hv with rfl | rfl <;> rfl
      have hnp : P.nymProof = none := by
        rw [hcard] at e5; exact (Res.ok.inj e5).symm
      have hrh : P.rh = none := by
        have : wantRh sig v = false := by rcases hv with rfl | rfl <;> simp [wantRh]
        rw [this] at e7; exact (Res.ok.inj e7).symm
      simp only [Spec.cardSignChallenge, Spec.second, Spec.transcript, Spec.verLabel, hv, if_true, hnp, hrh, Option.map_none,
        List.append_nil]
      congr
    · have hn := noCard_iff.mpr hv
      rcases htn with ⟨_, q, hq, ht⟩ | ⟨h, _⟩
      · cases hp : P.nymProof with
        | none => rw [hp] at ht; cases ht
        | some pn =>
          rw [verChallenge_eq L hn a5 hp a6]
          simp only [Spec.signChallenge, Spec.second, Spec.transcript, Spec.verLabel, hv, if_false, Option.map_some,
            List.nil_append]
          rfl
      · exact absurd hv h
  · intro hl
    exact (ProofG1.verify_exact _ _ _ _ (by simpa using hl)).mp v1
  · intro hv
    rcases htn with ⟨_, q, hq, ht⟩ | ⟨h, _⟩
    · rw [noCard (noCard_iff.mpr hv)] at e5
      have h' : ((parseProofG1 S sig.nymProof) >>= fun y => Res.ok (some y)) = .ok P.nymProof := e5
      rw [Res.bind_eq_ok] at h'
      obtain ⟨pn, hq', hn⟩ := h'
      rw [hq] at hq'
      cases hq'
      have hn := (Res.ok.inj hn).symm
      rw [hn] at a9
      simp only [checkNymProof, checkComm, Res.bind_eq_ok, Res.guardErr_eq_ok, Res.index_nat, Res.deref_eq_ok] at a9
      obtain ⟨_, _, _, _, _, _, H, hH, hver⟩ := a9
      exact ⟨q, H, hq, hH, fun hl => (ProofG1.verify_exact _ _ _ _ (by simpa using hl)).mp hver⟩
    · exact absurd hv h
  · intro hidden hl
    by_cases hv : Spec.CardVer v
    · have hcard : cardVer v = true := by rcases hv with rfl | rfl <;> rfl
      simp only [vc2For, hcard, revealedForVerify] at v2
      have hg : (revealedForVerify v P.rev).length ≤ 2 + (pkg w (n + 1)).count ∧
          (keepShown (revealedForVerify v P.rev) 1 (pkg w (n + 1)).h.tail).length ≤ ms.length := by
        simp only [smartcardVC2Verify, Res.bind_eq_ok, Res.guardPanic_eq_ok, decide_eq_false_iff_not] at v2
        obtain ⟨_, g1, ⟨ds, bs⟩, hs, _⟩ := v2
        simp only [revealedForVerify, hcard]
        refine ⟨by omega, ?_⟩
        by_contra hlt
        rw [splitGens_short _ _ _ _ (by omega)] at hs
        cases hs
      simp only [revealedForVerify, hcard] at hg
      rw [smartcardVC2Verify_eq L.zrOfInt_one _ _ _ _ _ _ _ hg.1 hg.2, badSignature_ok] at v2
      have hne : (pkg w (n + 1)).h ≠ [] := by
        intro h
        have := pkg_h_length w (n + 1)
        rw [h] at this; cases this
      obtain ⟨x, xs, hx⟩ := List.exists_cons_of_ne_nil hne
      have hgens : Bbs.Spec.generators w (n + 1) = x :: xs := hx
      have ks : keepShown (P.rev.filter fun i => i ≠ 0) 1 (pkg w (n + 1)).h.tail =
          Bbs.Spec.shown (P.rev.filter (· ≠ 0)) (Bbs.Spec.generators w (n + 1)) := by
        rw [shown_eq, hgens, hx, List.tail_cons, keepShown, if_neg (by simp)]
      have kh : keepHidden (P.rev.filter fun i => i ≠ 0) 1 (pkg w (n + 1)).h.tail = hidden := by
        simp only [hidden, if_pos hv]
        rw [unshown_eq, hgens, hx, List.tail_cons, keepHidden, if_pos (by simp)]
        apply keepHidden_ext
        intro j hj
        simp only [List.mem_filter, List.mem_cons, decide_eq_true_eq]
        constructor
        · rintro ⟨h, _⟩; exact .inr h
        · rintro (h | h)
          · omega
          · exact ⟨h, by omega⟩
      rw [ks, kh] at v2
      simp only [Spec.claimed, if_pos hv]
      exact (ProofG1.verify_exact _ _ _ _ (by simp only [List.length_cons]; omega)).mp v2
    · have hcard : cardVer v = false := noCard (noCard_iff.mpr hv)
      simp only [vc2For, hcard, revealedForVerify] at v2
      have hg : P.rev.length ≤ 2 + (pkg w (n + 1)).count ∧
          (keepShown P.rev 0 (pkg w (n + 1)).h).length ≤ ms.length := by
        simp only [defaultVC2Verify, Res.bind_eq_ok, Res.guardPanic_eq_ok, decide_eq_false_iff_not] at v2
        obtain ⟨_, g1, ⟨ds, bs⟩, hs, _⟩ := v2
        refine ⟨by omega, ?_⟩
        by_contra hlt
        rw [splitGens_short _ _ _ _ (by omega)] at hs
        cases hs
      rw [defaultVC2Verify_eq L.zrOfInt_one _ _ _ _ _ _ hg.1 hg.2, badSignature_ok, discValue] at v2
      have hh : keepHidden P.rev 0 (pkg w (n + 1)).h = hidden := by
        simp only [hidden, if_neg hv]
        rw [unshown_eq]; rfl
      rw [hh] at v2
      simp only [Spec.claimed, if_neg hv, shown_eq]
      exact (ProofG1.verify_exact _ _ _ _ (by simp only [List.length_cons]; omega)).mp v2

theorem parts_unique {v : VerType} {raw : Bytes} {sig sig' : Signature} {main main' : SigProof S} {rs rs' : List Nat}
    {nym nym' : S.G1} {tn te tr tn' te' tr' : Option S.G1} (h : Spec.Parts v raw sig main rs nym tn te tr)
    (h' : Spec.Parts v raw sig' main' rs' nym' tn' te' tr') :
    sig' = sig ∧ main' = main ∧ rs' = rs ∧ nym' = nym ∧ tn' = tn ∧ te' = te ∧ tr' = tr := by
  have d := h'.decoded
  rw [h.decoded] at d
  cases d
  obtain ⟨_, p1, p2⟩ := h.payload
  obtain ⟨_, p1', p2'⟩ := h'.payload
  rw [p1] at p1'; cases p1'
  rw [p2] at p2'; cases p2'
  have e := h'.nym
  rw [h.nym] at e; cases e
  have f : ∀ {u : Prop} {b : Bytes} {t t' : Option S.G1}, Spec.First S u b t → Spec.First S u b t' → t' = t := by
    rintro u b t t' (⟨a, q, hq, rfl⟩ | ⟨a, rfl⟩) (⟨a', q', hq', rfl⟩ | ⟨a', rfl⟩)
    · rw [hq] at hq'; cases hq'; rfl
    · exact absurd a a'
    · exact absurd a' a
    · rfl
  exact ⟨rfl, rfl, rfl, rfl, f h.tn h'.tn, f h.te h'.te, f h.tr h'.tr⟩

theorem transcript_msg {v : VerType} {w : S.G2} {n : Nat} {sig : Signature} {p : SigProof S} {rs : List Nat}
    {tn te tr : Option S.G1} {msg₁ msg₂ : Bytes}
    (h : Spec.transcript L v w n sig p rs tn te tr msg₁ = Spec.transcript L v w n sig p rs tn te tr msg₂) :
    frFromOKM L msg₁ = frFromOKM L msg₂ := by
  simp only [Spec.transcript] at h
  exact S.zrBytes_inj (List.append_cancel_left h)

variable (L)

/-- **C63 (messages).** One signature accepted for two messages: the hash to scalars collides, on the messages or on the
two transcripts or on the inputs of the final hash, or the messages are equal; or else the challenges differ, and then
each proof in the signature that has as many responses as it has secrets is about the identity: the pseudonym is the
identity, and the two points of the main proof are equal. Which is missing here from the property: the number of
responses is not checked, see `C63_violated`. -/
theorem C63_message_binding_partial (ipk : IPK S) (w : S.G2) (n k : Nat) (hkey : Spec.IsKey ipk w n) (raw msg₁ msg₂ : Bytes)
    (attributes₁ attributes₂ : List IdemixAttribute) (rh₁ rh₂ eid₁ eid₂ : Int) (v : VerType)
    (md₁ md₂ : Option (SignerMetadata S))
    (acc₁ : verify L (.val ipk) raw msg₁ attributes₁ rh₁ eid₁ k v md₁ = .ok ())
    (acc₂ : verify L (.val ipk) raw msg₂ attributes₂ rh₂ eid₂ k v md₂ = .ok ()) :
    ∃ sig main rs nym tn te tr q₁ q₂, Spec.Parts v raw sig main rs nym tn te tr ∧
      q₁ = Spec.transcript L v w n sig main rs tn te tr msg₁ ∧ q₂ = Spec.transcript L v w n sig main rs tn te tr msg₂ ∧
      (msg₁ = msg₂ ∨ Spec.OkmCollision L msg₁ msg₂ ∨ Spec.OkmCollision L q₁ q₂ ∨
        Spec.OkmCollision L (Spec.second L q₁ sig.nonce) (Spec.second L q₂ sig.nonce) ∨
        ((main.vc1.responses.length = 2 → main.aBar = main.d) ∧
          (¬ Spec.CardVer v → ∃ q, parseProofG1 S sig.nymProof = .ok q ∧ (q.responses.length = 2 → nym = 0)))) := by
  rw [isKey_iff] at hkey
  subst hkey
  obtain ⟨sig, main, rs, nym, tn, te, tr, vs₁, c₁, hp, _, hc₁, a1, a2, _⟩ := accepted acc₁
  obtain ⟨_, _, _, _, _, _, _, vs₂, c₂, hp', _, hc₂, b1, b2, _⟩ := accepted acc₂
  obtain ⟨rfl, rfl, rfl, rfl, rfl, rfl, rfl⟩ := parts_unique hp' hp
  refine ⟨_, _, _, _, _, _, _, _, _, hp, rfl, rfl, ?_⟩
  by_cases hm : msg₁ = msg₂
  · exact .inl hm
  by_cases hc : c₁ = c₂
  · right
    by_cases hf : frFromOKM L msg₁ = frFromOKM L msg₂
    · exact .inl ⟨hm, hf⟩
    right
    have hq : Spec.transcript L v w n sig main rs tn te tr msg₁ ≠ Spec.transcript L v w n sig main rs tn te tr msg₂ :=
      fun h => hf (transcript_msg h)
    by_cases h2 : frFromOKM L (Spec.transcript L v w n sig main rs tn te tr msg₁) =
        frFromOKM L (Spec.transcript L v w n sig main rs tn te tr msg₂)
    · exact .inl ⟨hq, h2⟩
    · refine .inr (.inl ⟨fun h => h2 ?_, by rw [← hc₁, ← hc₂, hc]⟩)
      exact S.zrBytes_inj (List.append_cancel_right h)
  · right; right; right; right
    have key : ∀ {x y P : S.G1}, x + c₁ • P = y → x + c₂ • P = y → P = 0 := by
      intro x y P h1 h2
      have h3 : (c₁ - c₂) • P = 0 := by
        rw [sub_smul, sub_eq_zero]; exact add_left_cancel (h1.trans h2.symm)
      exact S.smul_right_inj (sub_ne_zero.mpr hc) (by rw [h3, smul_zero])
    refine ⟨fun hl => sub_eq_zero.mp (key (a1 hl) (b1 hl)), fun hv => ?_⟩
    obtain ⟨q, H, hq, hH, h1⟩ := a2 hv
    obtain ⟨q', H', hq', hH', h2⟩ := b2 hv
    rw [hq] at hq'; cases hq'
    rw [hH] at hH'; cases hH'
    exact ⟨q, hq, fun hl => key (h1 hl) (h2 hl)⟩

open Ex in
set_option maxRecDepth 40000 in
/-- Over the toy group, where the hash to scalars has collisions. -/
example : Spec.IsKey ipk2 (publicKey (S := S32) (2 : Toy.K)) 2 ∧
    verify L32 (.val ipk2) (sample [9]) [9] shown2 0 1 (0 : Nat) .expectEidNym none = .ok () ∧
    verify L32 (.val ipk2) (sample [9]) [16] shown2 0 1 (0 : Nat) .expectEidNym none = .ok () ∧
    Spec.OkmCollision L32 [9] [16] ∧
    verify L32 (.val ipk2) (sample [9]) [10] shown2 0 1 (0 : Nat) .expectEidNym none ≠ .ok () :=
  ⟨(isKey_iff _ _ _).mpr rfl, by decide, by decide, ⟨by decide, by decide⟩, by decide⟩

/-- **C63 (disclosed values).** One signature accepted for one message with two lists of attributes: if the main proof
has as many responses as it has secrets then the values disclosed have the same combination with the generators of the
positions revealed in the signature, or the challenge is zero. (Values beyond the number of revealed positions are not
bound at all, see `C40_disclosure_violated`.) -/
theorem C63_disclosure_binding_partial (ipk : IPK S) (w : S.G2) (n k : Nat) (hkey : Spec.IsKey ipk w n) (raw msg : Bytes)
    (attributes₁ attributes₂ : List IdemixAttribute) (rh₁ rh₂ eid₁ eid₂ : Int) (v : VerType)
    (md₁ md₂ : Option (SignerMetadata S))
    (acc₁ : verify L (.val ipk) raw msg attributes₁ rh₁ eid₁ k v md₁ = .ok ())
    (acc₂ : verify L (.val ipk) raw msg attributes₂ rh₂ eid₂ k v md₂ = .ok ()) :
    ∃ sig main rs nym tn te tr vs₁ vs₂, Spec.Parts v raw sig main rs nym tn te tr ∧
      List.Forall₂ (Spec.Encodes L) (Spec.disclosed attributes₁) vs₁ ∧
      List.Forall₂ (Spec.Encodes L) (Spec.disclosed attributes₂) vs₂ ∧
      (main.vc2.responses.length =
          2 + (Bbs.Spec.unshown (if Spec.CardVer v then 0 :: rs else rs) (Bbs.Spec.generators w (n + 1))).length →
        frFromOKM L (Spec.second L (Spec.transcript L v w n sig main rs tn te tr msg) sig.nonce) = 0 ∨
        let revealed := Bbs.Spec.shown (if Spec.CardVer v then rs.filter (· ≠ 0) else rs) (Bbs.Spec.generators w (n + 1))
        S.lin vs₁ revealed = S.lin vs₂ revealed) := by
  rw [isKey_iff] at hkey
  subst hkey
  obtain ⟨sig, main, rs, nym, tn, te, tr, vs₁, c₁, hp, e₁, hc₁, _, _, a⟩ := accepted acc₁
  obtain ⟨_, _, _, _, _, _, _, vs₂, c₂, hp', e₂, hc₂, _, _, b⟩ := accepted acc₂
  obtain ⟨rfl, rfl, rfl, rfl, rfl, rfl, rfl⟩ := parts_unique hp' hp
  refine ⟨_, _, _, _, _, _, _, vs₁, vs₂, hp, e₁, e₂, fun hl => ?_⟩
  have hc : c₂ = c₁ := by rw [hc₁, hc₂]
  subst hc
  rw [← hc₁]
  by_cases h0 : c₂ = 0
  · exact .inl h0
  right
  have h := add_left_cancel ((a hl).trans (b hl).symm)
  have h := neg_injective (S.smul_right_inj h0 h)
  simp only [Spec.claimed] at h
  split at h
  · rename_i hv
    simp only [if_pos hv]
    exact add_left_cancel (add_right_cancel h)
  · rename_i hv
    simp only [if_neg hv]
    exact add_left_cancel h

open Ex in
set_option maxRecDepth 40000 in
example : Spec.IsKey ipk2 (publicKey (S := S32) (2 : Toy.K)) 2 ∧
    verify L32 (.val ipk2) (sample [9]) [9] shown2 0 1 (0 : Nat) .expectEidNym none = .ok () ∧
    verify L32 (.val ipk2) (sample [9]) [9] [⟨1, .bytes [14]⟩, ⟨0, .bytes []⟩] 0 1 (0 : Nat) .expectEidNym none = .ok () ∧
    verify L32 (.val ipk2) (sample [9]) [9] [⟨1, .bytes [8]⟩, ⟨0, .bytes []⟩] 0 1 (0 : Nat) .expectEidNym none ≠ .ok () :=
  ⟨(isKey_iff _ _ _).mpr rfl, by decide, by decide, by decide⟩

/-- **C63 (violated).** One string is accepted for every message, with every list of attributes, and by the way under every
issuer key: its proofs have too many responses. -/
theorem C63_violated (h32 : S.scalarLen = 32) (hg : S.g1CompLen < 2 ^ 31) (hg1 : 0 < S.g1Len) (n : Nat)
    (hn : 0 < n) (hn' : n + 1 ≤ 65535) (ipk : IPK S) (w : S.G2) (hkey : Spec.IsKey ipk w n) :
    ∃ raw, ∀ msg attributes, attributes.length = n → (∀ a ∈ attributes, Spec.WellTyped a) →
      verify L (.val ipk) raw msg attributes 0 0 0 .expectStandard none = .ok () :=
  ⟨Spec.forgedSignature S n .standard, fun msg attributes hlen hty =>
    C40_violated L h32 hg hg1 n hn' .standard .expectStandard (by simp [Spec.Matches]) ipk w hkey msg attributes hlen hty
      0 0 0 hn hn (by omega)⟩

open Ex in
set_option maxRecDepth 40000 in
example : S32.scalarLen = 32 ∧ Spec.IsKey ipk2 (publicKey (S := S32) (2 : Toy.K)) 2 ∧
    verify L32 (.val ipk2) (Spec.forgedSignature S32 2 .standard) [1, 2, 3] shown2 0 0 0 .expectStandard none = .ok () ∧
    verify L32 (.val ipk2) (Spec.forgedSignature S32 2 .standard) [] hidden2 0 0 0 .expectStandard none = .ok () :=
  ⟨rfl, (isKey_iff _ _ _).mpr rfl, by decide, by decide⟩

/-! ## C42: pseudonym signatures -/

/-- What is hashed first for a pseudonym signature on `msg` for `nym` (the numbers spell `nym-sig`), with `g` and `h` the generators of the randomness and
of the secret, and `t` the first message of the proof. -/
def Spec.nymTranscript (nym g h t : S.G1) (msg : Bytes) : Bytes :=
  [110, 121, 109, 45, 115, 105, 103] ++ S.g1Bytes nym ++ S.g1Bytes g ++ S.g1Bytes h ++ S.g1Bytes t ++ msg

/-- **C42 (binding).** One string accepted as a signature of `msg₁` for `nym₁` and of `msg₂` for `nym₂`, with two responses:
the pseudonyms are proportional by the two challenges, which are hashes of the pseudonym, the message and the nonce in the
string. So if the pseudonym is one and not the identity then the messages are equal, or the hash to scalars collides on
the two transcripts or on the inputs of the final hash. What is missing is the number of responses, which the code does not
check (`C42_violated`). -/
theorem C42_binding_partial (ipk : IPK S) (w : S.G2) (n k : Nat) (hkey : Spec.IsKey ipk w n) (hk : k ≤ n)
    (nym₁ nym₂ : S.G1) (raw msg₁ msg₂ : Bytes) (sig : NymSignature) (p : ProofG1 S) (g h : S.G1)
    (hg : g = Bbs.Spec.generator w (n + 1) 0) (hh : (Bbs.Spec.generators w (n + 1))[k]? = some h)
    (acc₁ : nymVerify L (.val ipk) nym₁ raw msg₁ k = .ok ()) (acc₂ : nymVerify L (.val ipk) nym₂ raw msg₂ k = .ok ())
    (hs : Wire.nymSigCodec.unmarshal raw = .ok sig) (hp : parseProofG1 S sig.main = .ok p) (l : p.responses.length = 2)
    (q₁ q₂ : Bytes) (hq₁ : q₁ = Spec.nymTranscript nym₁ g h p.commitment msg₁)
    (hq₂ : q₂ = Spec.nymTranscript nym₂ g h p.commitment msg₂) :
    frFromOKM L (Spec.second L q₁ sig.nonce) • nym₁ = frFromOKM L (Spec.second L q₂ sig.nonce) • nym₂ ∧
      (nym₁ = nym₂ → nym₁ = 0 ∨ msg₁ = msg₂ ∨ Spec.OkmCollision L q₁ q₂ ∨
        Spec.OkmCollision L (Spec.second L q₁ sig.nonce) (Spec.second L q₂ sig.nonce)) := by
  rw [isKey_iff] at hkey
  subst hkey
  have hk' : k < (pkg w (n + 1)).h.length := by simp; omega
  have hh' : (pkg w (n + 1)).h[k] = h := by
    have : (pkg w (n + 1)).h[k]? = some h := hh
    simpa [List.getElem?_eq_getElem hk'] using this
  have hg' : (pkg w (n + 1)).h0 = g := hg.symm
  rw [nymVerify_ok_iff L w n k hk] at acc₁ acc₂
  obtain ⟨s, p', a1, a2, -, h₁⟩ := acc₁
  rw [hs] at a1; cases a1
  rw [hp] at a2; cases a2
  obtain ⟨s, p', a1, a2, -, h₂⟩ := acc₂
  rw [hs] at a1; cases a1
  rw [hp] at a2; cases a2
  rw [ProofG1.verify_exact _ _ _ _ (by simpa using l), hh', hg'] at h₁ h₂
  have e := add_left_cancel (h₁.trans h₂.symm)
  have e₁ : nymChallenge L nym₁ g h p.commitment msg₁ sig.nonce = frFromOKM L (Spec.second L q₁ sig.nonce) := by
    rw [hq₁]; rfl
  have e₂ : nymChallenge L nym₂ g h p.commitment msg₂ sig.nonce = frFromOKM L (Spec.second L q₂ sig.nonce) := by
    rw [hq₂]; rfl
  rw [e₁, e₂] at e
  refine ⟨e, fun hn => ?_⟩
  subst hn
  by_cases h0 : nym₁ = 0
  · exact .inl h0
  by_cases hm : msg₁ = msg₂
  · exact .inr (.inl hm)
  have hc : frFromOKM L (Spec.second L q₁ sig.nonce) = frFromOKM L (Spec.second L q₂ sig.nonce) := by
    have e : (frFromOKM L (Spec.second L q₁ sig.nonce) - frFromOKM L (Spec.second L q₂ sig.nonce)) • nym₁ = 0 := by
      rw [sub_smul, e, sub_self]
    rcases smul_eq_zero.mp e with e | e
    · exact sub_eq_zero.mp e
    · exact absurd e h0
  have hq : q₁ ≠ q₂ := by
    rw [hq₁, hq₂]
    exact fun h => hm (List.append_cancel_left h)
  by_cases hf : frFromOKM L q₁ = frFromOKM L q₂
  · exact .inr (.inr (.inl ⟨hq, hf⟩))
  · exact .inr (.inr (.inr ⟨fun h => hf (S.zrBytes_inj (List.append_cancel_right h)), hc⟩))

set_option maxRecDepth 40000 in
/-- A signature made by the library, accepted for two messages, which collide in the toy hash, and refused for a third. -/
example : Spec.IsKey Ex.isk.pk (publicKey (S := S32) (3 : Toy.K)) 2 ∧
    ∃ nym raw s p, makeNym (4 : Toy.K) (.val Ex.isk.pk) 1 (5 : Toy.K) = .ok nym ∧ nym.1 ≠ 0 ∧
    nymSign L32 (4 : Toy.K) nym.1 nym.2 (.val Ex.isk.pk) [9] 1 (2 : Toy.K) (fun i => ((i : Nat) : Toy.K)) = .ok raw ∧
    nymVerify L32 (.val Ex.isk.pk) nym.1 raw [9] 1 = .ok () ∧ nymVerify L32 (.val Ex.isk.pk) nym.1 raw [16] 1 = .ok () ∧
    nymVerify L32 (.val Ex.isk.pk) nym.1 raw [10] 1 ≠ .ok () ∧
    Wire.nymSigCodec.unmarshal raw = .ok s ∧ parseProofG1 S32 s.main = .ok p ∧ p.responses.length = 2 :=
  ⟨(isKey_iff _ _ _).mpr rfl, _, _, _, _, rfl, by decide, rfl, by decide, by decide, by decide, rfl, rfl, rfl⟩

end Idemix.Aries
