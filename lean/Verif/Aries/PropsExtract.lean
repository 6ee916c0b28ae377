import Verif.Aries.PropsVerify

/-!
# C40, C41: extraction from accepted aries signatures
-/

namespace Idemix.Aries

open Bbs Bbs.Ex
open Dlog (SigType VerType AuditData SignerMetadata signLabel signWithEidNymLabel signWithEidNymRhNymLabel)

variable {S : Suite} (L : Lib S)

/-! ## Values of disclosed attributes -/

theorem attrMsgs_oracle {L₁ L₂ : Lib S} (i : Nat) (as : List IdemixAttribute)
    (h : ∀ a ∈ as, ∀ b, a.value = .bytes b → frFromOKM L₁ b = frFromOKM L₂ b) :
    attrMsgs L₁ i as = attrMsgs L₂ i as := by
  induction as generalizing i with
  | nil => rfl
  | cons a as ih =>
    have hf : attrFr L₁ a = attrFr L₂ a := by
      simp only [attrFr]
      cases hv : a.value with
      | bytes b => simp only [h a (by simp) b hv]
      | int64 i => rfl
      | int i => rfl
      | other => rfl
    simp only [attrMsgs, hf, ih (i + 1) (fun b hb => h b (by simp [hb]))]

theorem attributesToSignatureMessage_oracle {L₁ L₂ : Lib S} (as : List IdemixAttribute) (k : Int)
    (h : ∀ a ∈ as, ∀ b, a.value = .bytes b → frFromOKM L₁ b = frFromOKM L₂ b) :
    attributesToSignatureMessage L₁ as k = attributesToSignatureMessage L₂ as k := by
  simp only [attributesToSignatureMessage]
  rw [attrMsgs_oracle]
  intro a ha b hb
  simp only [List.append_assoc, List.singleton_append, List.mem_append, List.mem_cons] at ha
  rcases ha with ha | rfl | ha
  · exact h a (List.mem_of_mem_take ha) b hb
  · simp [hiddenAttr] at hb
  · exact h a (List.mem_of_mem_drop ha) b hb

/-- Converse of `attrMsgs_agrees`. -/
theorem attrMsgs_shown (i : Nat) {as : List IdemixAttribute} {vs : List S.F} {ms : List (SigMsg S)}
    (h : attrMsgs L i as = .ok ms) (hk : ∀ a ∈ as, Known a) (hl : as.length = vs.length)
    (hs : keepShown (notHidden i as) i vs = ms.map (·.fr)) : List.Forall₂ (Spec.Agrees L) as vs := by
  induction as generalizing i vs ms with
  | nil => cases vs with
    | nil => exact .nil
    | cons _ _ => simp at hl
  | cons a as ih =>
    cases vs with
    | nil => simp at hl
    | cons v vs =>
      simp only [attrMsgs, Res.bind_eq_ok] at h
      obtain ⟨o, ho, rest, hr, h⟩ := h
      rcases hk a (by simp) with h0 | h12
      · have hf : attrFr L a = .ok none := (attrFr_none_iff L).mpr (by omega)
        rw [hf] at ho; cases ho
        cases h
        have hn : ¬ i ∈ notHidden (i + 1) as := fun hm => by have := notHidden_ge (i + 1) as i hm; omega
        simp only [notHidden, h0, ne_eq, not_true_eq_false, if_false, keepShown, List.contains_iff_mem, hn] at hs
        exact .cons (fun ht => by omega) (ih (i + 1) hr (fun b hb => hk b (by simp [hb])) (by simpa using hl) hs)
      · have hne : a.type ≠ 0 := by omega
        have hex : ∀ {α : Type} (xs : List α), keepShown (i :: notHidden (i + 1) as) (i + 1) xs = keepShown (notHidden (i + 1) as) (i + 1) xs := by
          intro α xs
          apply keepShown_ext
          intro j hj
          simp only [List.mem_cons]
          constructor
          · rintro (h | h)
            · omega
            · exact h
          · exact .inr
        simp only [notHidden, hne, ne_eq, not_false_eq_true, if_true, keepShown, List.contains_iff_mem, List.mem_cons,
          true_or, hex] at hs
        cases o with
        | none => exact absurd ((attrFr_none_iff L).mp ho) (by omega)
        | some x =>
          cases h
          simp only [List.map_cons, List.cons.injEq] at hs
          obtain ⟨rfl, hs⟩ := hs
          exact .cons (fun _ => (attrFr_some_iff L).mp ho)
            (ih (i + 1) hr (fun b hb => hk b (by simp [hb])) (by simpa using hl) hs)

theorem attrMsgs_length (i : Nat) {as : List IdemixAttribute} {ms : List (SigMsg S)}
    (h : attrMsgs L i as = .ok ms) (hk : ∀ a ∈ as, Known a) : ms.length = (notHidden i as).length := by
  induction as generalizing i ms with
  | nil => cases h; rfl
  | cons a as ih =>
    simp only [attrMsgs, Res.bind_eq_ok] at h
    obtain ⟨o, ho, rest, hr, h⟩ := h
    have := ih (i + 1) hr (fun b hb => hk b (by simp [hb]))
    rcases hk a (by simp) with h0 | h12
    · have hf : attrFr L a = .ok none := (attrFr_none_iff L).mpr (by omega)
      rw [hf] at ho; cases ho
      cases h
      simpa [notHidden, h0] using this
    · have hne : a.type ≠ 0 := by omega
      cases o with
      | none => exact absurd ((attrFr_none_iff L).mp ho) (by omega)
      | some x => cases h; simp [notHidden, hne, this]

theorem notHidden_sorted (i : Nat) (as : List IdemixAttribute) : (notHidden i as).Pairwise (· < ·) := by
  induction as generalizing i with
  | nil => exact .nil
  | cons a as ih =>
    simp only [notHidden]
    split
    · exact .cons (fun j hj => by have := notHidden_ge (i + 1) as j hj; omega) (ih (i + 1))
    · exact ih (i + 1)

theorem slot_cases (k j : Nat) : j = k ∨ ∃ i, j = Spec.slot k i := by
  by_cases h : j = k
  · exact .inl h
  · refine .inr ?_
    by_cases hl : j < k
    · exact ⟨j, by simp [Spec.slot]; omega⟩
    · exact ⟨j - 1, by simp only [Spec.slot]; split <;> omega⟩

theorem slot_ne (k i : Nat) : Spec.slot k i ≠ k := by
  simp only [Spec.slot]; split <;> omega

theorem withSecret_len {α : Type} (k : Nat) (x : α) (xs : List α) (hk : k ≤ xs.length) :
    (Spec.withSecret k x xs).length = xs.length + 1 := by
  simp only [Spec.withSecret, List.length_append, List.length_take, List.length_drop, List.length_singleton]; omega

/-! ## The challenge -/

/-- The challenge of a signature that does not involve a smart card: `sig` with main proof `p` revealing the positions
`rs`, the first message `tn` of the proof for the pseudonym, and the first messages `te`, `tr` of the proofs for the
commitments to the enrollment identifier and revocation handle, if any. -/
def Spec.signChallenge (w : S.G2) (n : Nat) (sig : Signature) (p : SigProof S) (rs : List Nat) (tn : S.G1)
    (te tr : Option S.G1) (msg : Bytes) : S.F :=
  let label := if tr.isSome then signWithEidNymRhNymLabel else if te.isSome then signWithEidNymLabel else signLabel
  let main := S.g1Bytes p.aBar ++ S.g1Bytes p.aPrime ++ S.g1Bytes (Bbs.Spec.generator w (n + 1) 0) ++
    S.g1Bytes p.vc1.commitment ++ S.g1Bytes p.d ++ S.g1Bytes (Bbs.Spec.generator w (n + 1) 0) ++
    ((Bbs.Spec.unshown rs (Bbs.Spec.generators w (n + 1))).map S.g1Bytes).flatten ++ S.g1Bytes p.vc2.commitment
  let eid := match te with
    | some t => sig.nymEid ++ S.g1Bytes t
    | none => []
  let rh := match tr with
    | some t => sig.nymRh ++ S.g1Bytes t
    | none => []
  let c := frFromOKM L (label ++ main ++ sig.nym ++ S.g1Bytes tn ++ eid ++ rh ++ S.zrBytes (frFromOKM L msg))
  frFromOKM L (S.zrBytes c ++ sig.nonce)

/-- Two signatures, with what the verifier parses from them, that are answers to different challenges after the same
first messages: same disclosed positions, equal first messages of the main proof and of the proof for the pseudonym,
and in each proof as many responses as there are secrets. The two runs may use different random oracles, which agree
on the bytes of the disclosed attributes. The disclosed positions are those of the attributes that the verifier passes
as disclosed, none of which comes before the secret key at `k`. -/
structure Spec.TwoSignatures (L₁ L₂ : Lib S) (w : S.G2) (n k : Nat) (attributes : List IdemixAttribute)
    (sig₁ sig₂ : Signature) (P₁ P₂ : Parsed S) (pn₁ pn₂ : ProofG1 S) (msg₁ msg₂ : Bytes) : Prop where
  length : attributes.length = n
  key : k ≤ n
  known : ∀ a ∈ attributes, a.type = 0 ∨ a.type = 1 ∨ a.type = 2
  front : ∀ a ∈ attributes.take k, a.type = 0
  revealed : ∀ i, Spec.slot k i ∈ P₁.rev ↔ ∃ a, attributes[i]? = some a ∧ a.type ≠ 0
  secret : k ∉ P₁.rev
  sameRev : P₂.rev = P₁.rev
  sameFirst : Bbs.Spec.SameFirst P₁.sp P₂.sp
  sameNym : P₂.nym = P₁.nym
  nym₁ : P₁.nymProof = some pn₁
  nym₂ : P₂.nymProof = some pn₂
  sameNymFirst : pn₁.commitment = pn₂.commitment
  formed₁ : Bbs.Spec.WellFormed P₁.sp P₁.rev (n + 1) ∧ pn₁.responses.length = 2
  formed₂ : Bbs.Spec.WellFormed P₂.sp P₂.rev (n + 1) ∧ pn₂.responses.length = 2
  oracle : ∀ a ∈ attributes, ∀ b, a.value = .bytes b → frFromOKM L₁ b = frFromOKM L₂ b
  differ : Spec.signChallenge L₁ w n sig₁ P₁.sp P₁.rev pn₁.commitment (P₁.eid.map (·.1.commitment))
      (P₁.rh.map (·.1.commitment)) msg₁ ≠
    Spec.signChallenge L₂ w n sig₂ P₂.sp P₂.rev pn₂.commitment (P₂.eid.map (·.1.commitment))
      (P₂.rh.map (·.1.commitment)) msg₂

/-- The verification types without smart card. -/
def Spec.NoCard (v : VerType) : Prop := v ≠ .expectSmartcard ∧ v ≠ .expectSmartcardNoNyms

theorem noCard {v : VerType} (h : Spec.NoCard v) : cardVer v = false := by
  simp [cardVer, h.1, h.2]

theorem wantEid_of_rh {sig : Signature} {v : VerType} (h : wantRh sig v = true) : wantEid sig v = true := by
  simp [wantEid, h]

theorem onlyIf_isSome {α : Type} {b : Bool} {x : Res α} {o : Option α} (h : onlyIf b x = .ok o) : o.isSome = b := by
  cases b with
  | false => cases h; rfl
  | true =>
    simp only [onlyIf, Res.bind] at h
    cases x with
    | ok y => cases h; rfl
    | err m => cases h
    | panic => cases h

theorem verChallenge_eq {w : S.G2} {n : Nat} {sig : Signature} {v : VerType} {m : Nat} {P : Parsed S} {pn : ProofG1 S}
    {msg : Bytes} {c : S.F} (hv : Spec.NoCard v) (hp : parseParts S sig v m = .ok P) (hn : P.nymProof = some pn)
    (h : verChallenge L (pkg w (n + 1)) sig v msg P = .ok c) :
    c = Spec.signChallenge L w n sig P.sp P.rev pn.commitment (P.eid.map (·.1.commitment))
      (P.rh.map (·.1.commitment)) msg := by
  obtain ⟨_, _, _, _, _, _, he, hr⟩ := parseParts_ok hp
  have se := onlyIf_isSome he
  have sr := onlyIf_isSome hr
  have hl : verLabel sig v = (if (P.rh.map (·.1.commitment)).isSome then signWithEidNymRhNymLabel
      else if (P.eid.map (·.1.commitment)).isSome then signWithEidNymLabel else signLabel) := by
    rw [Option.isSome_map, Option.isSome_map, se, sr]
    simp [verLabel, hv.1, hv.2]
  have hce : ∀ (raw : Bytes) (o : Option (ProofG1 S × S.G1)), commBytes raw o = (match o.map (·.1.commitment) with
      | some t => raw ++ S.g1Bytes t
      | none => []) := by
    intro raw o
    cases o <;> rfl
  simp only [verChallenge, SigProof.bytesForChallenge, Res.bind_eq_ok, Res.pure_def, Res.ok.injEq,
    revealedForChallenge, noCard hv] at h
  obtain ⟨_, ⟨_, _, rfl⟩, rfl⟩ := h
  simp only [Spec.signChallenge, withNonce, nonceBytes, hl, hce, hn, nymProofBytes, Option.map_some, Option.getD_some,
    hiddenGens_eq, unshown_eq]
  rfl

/-- Two proofs of one commitment that pass the equality check against the same response of the main proof. -/
theorem comm_extract {pk : PKG S} {sp₁ sp₂ : SigProof S} {q₁ q₂ : ProofG1 S} {comm : S.G1} {idx : Nat} {resp : Nat}
    {c₁ c₂ : S.F} (h₁ : checkComm pk sp₁ q₁ comm idx resp c₁ = .ok ()) (h₂ : checkComm pk sp₂ q₂ comm idx resp c₂ = .ok ())
    (l₁ : q₁.responses.length = 2) (l₂ : q₂.responses.length = 2) (hq : q₁.commitment = q₂.commitment) (hc : c₁ ≠ c₂) :
    ∃ h r x, pk.h[idx]? = some h ∧ Bbs.Spec.witness c₁ c₂ q₁.responses q₂.responses = [r, x] ∧
      comm = r • pk.h0 + x • h ∧ (Bbs.Spec.witness c₁ c₂ sp₁.vc2.responses sp₂.vc2.responses)[resp]? = some x := by
  simp only [checkComm, Res.bind_eq_ok, Res.guardErr_eq_ok, decide_eq_false_iff_not, not_not, Res.index_nat,
    Res.deref_eq_ok] at h₁ h₂
  obtain ⟨a₁, u₁, b₁, w₁, _, rfl, h, hh, v₁⟩ := h₁
  obtain ⟨a₂, u₂, b₂, w₂, _, rfl, h', hh', v₂⟩ := h₂
  rw [hh] at hh'
  cases hh'
  obtain ⟨r, x, e1, e2⟩ := pair_extract rfl hq.symm l₁ l₂ hc v₁ v₂
  refine ⟨h, r, x, hh, e1, e2, ?_⟩
  have g : ∀ (z₁ z₂ : List S.F) (i : Nat) (a b : S.F), z₁[i]? = some a → z₂[i]? = some b →
      (Bbs.Spec.witness c₁ c₂ z₁ z₂)[i]? = some ((c₂ - c₁)⁻¹ * (a - b)) := by
    intro z₁ z₂ i a b ha hb
    simp [Bbs.Spec.witness, List.getElem?_zipWith, ha, hb]
  have i1 : ∀ (z : List S.F) a, Res.index z 1 = .ok a → z[1]? = some a := by
    intro z a hz
    have : Res.index z ((1 : Nat) : Int) = .ok a := hz
    rwa [Res.index_nat, Res.deref_eq_ok] at this
  have t := g _ _ _ _ _ (i1 _ _ u₁) (i1 _ _ u₂)
  rw [e1] at t
  rw [g _ _ _ _ _ w₁ w₂]
  simpa using t.symm

/-- What two signatures give away: the signature, the values, and the link of each commitment checked against response
`2 + rank` of the main proof. -/
theorem two_extract {L₁ L₂ : Lib S} {w : S.G2} {n k : Nat} {attributes : List IdemixAttribute} {sig₁ sig₂ : Signature}
    {P₁ P₂ : Parsed S} {pn₁ pn₂ : ProofG1 S} {msg₁ msg₂ raw₁ raw₂ : Bytes} {eid rh : Int} {v : VerType} {m : Nat}
    {md₁ md₂ : Option (SignerMetadata S)} (hv : Spec.NoCard v)
    (h₁ : verify L₁ (.val (ipkFor w n)) raw₁ msg₁ attributes rh eid k v md₁ = .ok ())
    (h₂ : verify L₂ (.val (ipkFor w n)) raw₂ msg₂ attributes rh eid k v md₂ = .ok ())
    (u₁ : Wire.sigCodec.unmarshal raw₁ = .ok sig₁) (u₂ : Wire.sigCodec.unmarshal raw₂ = .ok sig₂)
    (p₁ : parseParts S sig₁ v m = .ok P₁) (p₂ : parseParts S sig₂ v m = .ok P₂)
    (ht : Spec.TwoSignatures L₁ L₂ w n k attributes sig₁ sig₂ P₁ P₂ pn₁ pn₂ msg₁ msg₂) :
    ∃ c₁ c₂, c₁ = Spec.signChallenge L₁ w n sig₁ P₁.sp P₁.rev pn₁.commitment (P₁.eid.map (·.1.commitment))
        (P₁.rh.map (·.1.commitment)) msg₁ ∧
      c₂ = Spec.signChallenge L₂ w n sig₂ P₂.sp P₂.rev pn₂.commitment (P₂.eid.map (·.1.commitment))
        (P₂.rh.map (·.1.commitment)) msg₂ ∧ c₁ ≠ c₂ ∧
      checkNymProof (pkg w (n + 1)) P₁.sp P₁.nymProof P₁.nym k c₁ = .ok () ∧
      checkNymProof (pkg w (n + 1)) P₂.sp P₂.nymProof P₂.nym k c₂ = .ok () ∧
      checkAttrComm (pkg w (n + 1)) P₁.sp P₁.eid (shiftIndex eid k) sig₁.nymEidIdx c₁ = .ok () ∧
      checkAttrComm (pkg w (n + 1)) P₂.sp P₂.eid (shiftIndex eid k) sig₂.nymEidIdx c₂ = .ok () ∧
      checkAttrComm (pkg w (n + 1)) P₁.sp P₁.rh (shiftIndex rh k) sig₁.nymRhIdx c₁ = .ok () ∧
      checkAttrComm (pkg w (n + 1)) P₂.sp P₂.rh (shiftIndex rh k) sig₂.nymRhIdx c₂ = .ok () ∧
      ∃ ms, Bbs.Spec.Signature w (pkg w (n + 1)).h0 (pkg w (n + 1)).h (Bbs.Spec.extract P₁.sp P₂.sp c₁ c₂).A
          (Bbs.Spec.extract P₁.sp P₂.sp c₁ c₂).e (Bbs.Spec.extract P₁.sp P₂.sp c₁ c₂).s ms ∧
        (∀ (i : Nat) a, attributes[i]? = some a → a.type ≠ 0 →
          ∃ x, ms[Spec.slot k i]? = some x ∧ Spec.Encodes L₁ a x) ∧
        Bbs.Spec.unshown P₁.rev ms = (Bbs.Spec.extract P₁.sp P₂.sp c₁ c₂).hidden ∧
        ∀ j ≤ n, j ∉ P₁.rev →
          (Bbs.Spec.witness c₁ c₂ P₁.sp.vc2.responses P₂.sp.vc2.responses)[2 + rank P₁.rev j]? = ms[j]? := by
  obtain ⟨s₁, ms₁, Q₁, c₁, a1, a2, a3, a4, a5, a6, a7, a8, a9, a10, a11, a12⟩ := verify_ok L₁ h₁
  obtain ⟨s₂, ms₂, Q₂, c₂, b1, b2, b3, b4, b5, b6, b7, b8, b9, b10, b11, b12⟩ := verify_ok L₂ h₂
  rw [u₁] at a1; cases a1
  rw [u₂] at b1; cases b1
  have same : ∀ {sig : Signature} {x y : Nat} {P Q : Parsed S}, parseParts S sig v x = .ok P → parseParts S sig v y = .ok Q →
      P = Q := by
    intro sig x y P Q hP hQ
    obtain ⟨_, e1, e2, _, e3, e4, e5, e6⟩ := parseParts_ok hP
    obtain ⟨_, f1, f2, _, f3, f4, f5, f6⟩ := parseParts_ok hQ
    cases P; cases Q
    simp only at *
    rw [e1] at f1; cases f1
    rw [e2] at f2; cases f2
    rw [e3] at f3; cases f3
    rw [e4] at f4; cases f4
    rw [e5] at f5; cases f5
    rw [e6] at f6; cases f6
    rfl
  have := same a5 p₁; subst this
  have := same b5 p₂; subst this
  rw [attributesToSignatureMessage_oracle (L₁ := L₁) (L₂ := L₂) _ _ ht.oracle] at a4
  rw [a4] at b4; cases b4
  have hc₁ := verChallenge_eq L₁ hv p₁ ht.nym₁ a6
  have hc₂ := verChallenge_eq L₂ hv p₂ ht.nym₂ b6
  have hne : c₁ ≠ c₂ := by rw [hc₁, hc₂]; exact ht.differ
  refine ⟨c₁, c₂, hc₁, hc₂, hne, a9, b9, a10, b10, a11, b11, ?_⟩
  rw [← attributesToSignatureMessage_oracle (L₁ := L₁) (L₂ := L₂) _ _ ht.oracle] at a4
  have hlen := ht.length
  have hkn := ht.key
  simp only [ipkFor, vc2For, noCard hv, revealedForVerify, ht.sameRev] at a12 b12
  set pk := pkg w (n + 1) with hpk
  have hpl : pk.h.length = n + 1 := by simp [hpk]
  have hrev : ∀ j, j ∈ Q₁.rev ↔ ∃ a, (Spec.withSecret k hiddenAttr attributes)[j]? = some a ∧ a.type ≠ 0 := by
    intro j
    rcases slot_cases k j with rfl | ⟨i, rfl⟩
    · rw [withSecret_key j _ _ (by omega)]
      simp [ht.secret, hiddenAttr]
    · rw [withSecret_slot k i _ _ (by omega), ht.revealed]
  have hrev' : ∀ j, j ∈ Q₁.rev ↔ j ∈ notHidden 0 (Spec.withSecret k hiddenAttr attributes) := by
    intro j
    have := notHidden_mem 0 (Spec.withSecret k hiddenAttr attributes) j
    rw [Nat.zero_add] at this
    rw [hrev, this]
  have hknown : ∀ a ∈ Spec.withSecret k hiddenAttr attributes, Known a := by
    intro a ha
    simp only [Spec.withSecret, List.append_assoc, List.singleton_append, List.mem_append, List.mem_cons] at ha
    rcases ha with ha | rfl | ha
    · exact ht.known a (List.mem_of_mem_take ha)
    · exact .inl rfl
    · exact ht.known a (List.mem_of_mem_drop ha)
  have g : (decide ((k : Int) < 0) || decide ((attributes.length : Int) < (k : Int))) = false := by
    simp; omega
  rw [attributesToSignatureMessage, g] at a4
  simp only [Res.guardPanic_false, Res.ok_bind, Int.toNat_natCast] at a4
  change attrMsgs L₁ 0 (Spec.withSecret k hiddenAttr attributes) = .ok ms₁ at a4
  have hml := attrMsgs_length L₁ 0 a4 hknown
  have hwl : (Spec.withSecret k hiddenAttr attributes).length = n + 1 := by rw [withSecret_len _ _ _ (by omega), hlen]
  have hks : (keepShown Q₁.rev 0 pk.h).length = ms₁.length := by
    rw [keepShown_ext 0 pk.h (fun j _ => hrev' j), hml]
    exact revealed_length (notHidden_sorted 0 _) (fun r hr => by have := notHidden_ge 0 _ r hr; omega) pk.h hpl
  have hcount : (Q₁.rev.length : Int) ≤ 2 + pk.count := by
    have a13 := (sigProof_verify_ok_iff _ _ _ _ _ _).mp a12
    simp only [defaultVC2Verify, Res.bind_eq_ok, Res.guardPanic_eq_ok, decide_eq_false_iff_not] at a13
    obtain ⟨_, _, _, h, _⟩ := a13
    omega
  have hk := hidden_count Q₁.rev (n + 1) pk.h hpl
  have w2 := ht.formed₂.1
  rw [ht.sameRev] at w2
  obtain ⟨ms, r1, r2, r3⟩ := sigProof_extract L₁.zrOfInt_one ht.sameFirst hne hcount (by omega) ht.formed₁.1.1 w2.1
    (by rw [ht.formed₁.1.2, hk]; omega) (by rw [w2.2, hk]; omega) a12 b12
  have hmsl : ms.length = n + 1 := by have := r1.1; omega
  refine ⟨ms, r1, ?_, r3, ?_⟩
  · rw [hks, ← List.length_map (f := fun m : SigMsg S => m.fr), List.take_length, shown_eq,
      keepShown_ext 0 ms (fun j _ => hrev' j)] at r2
    have hag := attrMsgs_shown L₁ 0 a4 hknown (by omega) r2
    intro i a ha hty
    have hi : (Spec.withSecret k hiddenAttr attributes)[Spec.slot k i]? = some a := by
      rw [withSecret_slot k i _ _ (by omega), ha]
    obtain ⟨hlt, _⟩ := List.getElem?_eq_some_iff.mp hi
    have hlt' : Spec.slot k i < ms.length := by omega
    refine ⟨ms[Spec.slot k i], List.getElem?_eq_getElem hlt', ?_⟩
    have := (List.forall₂_iff_get.mp hag).2 (Spec.slot k i) hlt hlt'
    simp only [List.get_eq_getElem] at this
    rw [List.getElem?_eq_getElem hlt] at hi
    cases hi
    apply this
    have := hknown _ (List.getElem_mem hlt)
    rcases this with h | h | h
    · exact absurd h hty
    · exact .inl h
    · exact .inr h
  · intro j hj hn
    have := keepHidden_rank Q₁.rev ms j (by omega) hn
    rw [← unshown_eq, r3] at this
    rw [List.getElem?_eq_getElem (l := ms) (by omega), ← this]
    simp [Bbs.Spec.extract, Bbs.Spec.witness, List.getElem?_drop]

/-- **C40 (partial).** Let two signatures with equal first messages be accepted for the same attributes, with
different challenges. Then `Bbs.Spec.extract` computes from them a signature of the issuer on a vector of values that
has the disclosed attributes' values at their positions, the extracted hidden values at the others, and at position `k`
the secret key with which, and with the extracted randomness, the pseudonym in the signature is made.
What is missing: the code checks neither the number of responses nor that the disclosed positions are those of the
attributes that the verifier passes, and without either the property is false (`C40_violated`,
`C40_disclosure_violated`). Signatures with a smart card are not covered. -/
theorem C40_extraction_partial (L₁ L₂ : Lib S) (ipk : IPK S) (w : S.G2) (n k : Nat) (hkey : Spec.IsKey ipk w n)
    (attributes : List IdemixAttribute) (sig₁ sig₂ : Signature) (P₁ P₂ : Parsed S) (pn₁ pn₂ : ProofG1 S)
    (msg₁ msg₂ raw₁ raw₂ : Bytes) (eid rh : Int) (v : VerType) (m : Nat) (md₁ md₂ : Option (SignerMetadata S))
    (hv : Spec.NoCard v)
    (h₁ : verify L₁ (.val ipk) raw₁ msg₁ attributes rh eid k v md₁ = .ok ())
    (h₂ : verify L₂ (.val ipk) raw₂ msg₂ attributes rh eid k v md₂ = .ok ())
    (u₁ : Wire.sigCodec.unmarshal raw₁ = .ok sig₁) (u₂ : Wire.sigCodec.unmarshal raw₂ = .ok sig₂)
    (p₁ : parseParts S sig₁ v m = .ok P₁) (p₂ : parseParts S sig₂ v m = .ok P₂)
    (ht : Spec.TwoSignatures L₁ L₂ w n k attributes sig₁ sig₂ P₁ P₂ pn₁ pn₂ msg₁ msg₂) :
    let c₁ := Spec.signChallenge L₁ w n sig₁ P₁.sp P₁.rev pn₁.commitment (P₁.eid.map (·.1.commitment))
      (P₁.rh.map (·.1.commitment)) msg₁
    let c₂ := Spec.signChallenge L₂ w n sig₂ P₂.sp P₂.rev pn₂.commitment (P₂.eid.map (·.1.commitment))
      (P₂.rh.map (·.1.commitment)) msg₂
    let x := Bbs.Spec.extract P₁.sp P₂.sp c₁ c₂
    ∃ ms, Bbs.Spec.Signature w ipk.pkg.h0 ipk.pkg.h x.A x.e x.s ms ∧
      (∀ (i : Nat) a, attributes[i]? = some a → a.type ≠ 0 → ∃ x, ms[Spec.slot k i]? = some x ∧ Spec.Encodes L₁ a x) ∧
      Bbs.Spec.unshown P₁.rev ms = x.hidden ∧
      ∃ r sk h nym, Bbs.Spec.witness c₁ c₂ pn₁.responses pn₂.responses = [r, sk] ∧ ms[k]? = some sk ∧
        ipk.pkg.h[k]? = some h ∧ S.g1OfBytes sig₁.nym = some nym ∧ nym = r • ipk.pkg.h0 + sk • h := by
  rw [isKey_iff] at hkey
  subst hkey
  intro c₁' c₂' x
  obtain ⟨c₁, c₂, hc₁, hc₂, hne, a1, a2, _, _, _, _, ms, r1, r2, r3, r4⟩ := two_extract hv h₁ h₂ u₁ u₂ p₁ p₂ ht
  have e₁ : c₁' = c₁ := hc₁.symm
  have e₂ : c₂' = c₂ := hc₂.symm
  have ex : x = Bbs.Spec.extract P₁.sp P₂.sp c₁ c₂ := by rw [← e₁, ← e₂]
  rw [ex, e₁, e₂]
  refine ⟨ms, r1, r2, r3, ?_⟩
  have hfr : ∀ j < k, j ∉ P₁.rev := by
    intro j hj hm
    have hs : j = Spec.slot k j := by simp only [Spec.slot]; rw [if_neg (by omega)]
    rw [hs, ht.revealed] at hm
    obtain ⟨a, ha, hty⟩ := hm
    apply hty
    apply ht.front
    rw [List.mem_iff_getElem?]
    exact ⟨j, by rw [List.getElem?_take, if_pos hj, ha]⟩
  have hr := r4 k ht.key ht.secret
  rw [rank_all _ _ hfr] at hr
  rw [ht.nym₁] at a1
  rw [ht.nym₂, ht.sameNym] at a2
  simp only [checkNymProof] at a1 a2
  have cast : (2 + (k : Int)) = ((2 + k : Nat) : Int) := by push_cast; rfl
  rw [cast] at a1 a2
  obtain ⟨h, r, sk, f1, f2, f3, f4⟩ := comm_extract a1 a2 ht.formed₁.2 ht.formed₂.2 ht.sameNymFirst hne
  obtain ⟨_, _, _, _, hn, _⟩ := parseParts_ok p₁
  exact ⟨r, sk, h, P₁.nym, f2, by rw [← hr, f4], f1, hn, f3⟩

/-! ## C41 -/

/-- **C41 (partial).** In the situation of `C40_extraction_partial`, let the signature commit to the enrollment
identifier (proof `pe₁`, commitment `nymEid`), with the same first message in both and two responses in each proof.
Provided that the position which the signature names is that of the attribute `eid` among the hidden ones, the
commitment opens to the value at the position of `eid` in the vector of values that the issuer signed. The same holds
for the revocation handle (`C41_rh_partial`).
What is missing: the code does not check the position that the signature names, and without this the property is
false (`C41_violated`); nor the number of responses, as in `C40_violated`. -/
theorem C41_eid_partial (L₁ L₂ : Lib S) (ipk : IPK S) (w : S.G2) (n k : Nat) (hkey : Spec.IsKey ipk w n)
    (attributes : List IdemixAttribute) (sig₁ sig₂ : Signature) (P₁ P₂ : Parsed S) (pn₁ pn₂ pe₁ pe₂ : ProofG1 S)
    (nymEid : S.G1) (msg₁ msg₂ raw₁ raw₂ : Bytes) (eid : Nat) (rh : Int) (v : VerType) (m : Nat)
    (md₁ md₂ : Option (SignerMetadata S)) (hv : Spec.NoCard v)
    (h₁ : verify L₁ (.val ipk) raw₁ msg₁ attributes rh eid k v md₁ = .ok ())
    (h₂ : verify L₂ (.val ipk) raw₂ msg₂ attributes rh eid k v md₂ = .ok ())
    (u₁ : Wire.sigCodec.unmarshal raw₁ = .ok sig₁) (u₂ : Wire.sigCodec.unmarshal raw₂ = .ok sig₂)
    (p₁ : parseParts S sig₁ v m = .ok P₁) (p₂ : parseParts S sig₂ v m = .ok P₂)
    (ht : Spec.TwoSignatures L₁ L₂ w n k attributes sig₁ sig₂ P₁ P₂ pn₁ pn₂ msg₁ msg₂)
    (e₁ : P₁.eid = some (pe₁, nymEid)) (e₂ : P₂.eid = some (pe₂, nymEid)) (hf : pe₁.commitment = pe₂.commitment)
    (l₁ : pe₁.responses.length = 2) (l₂ : pe₂.responses.length = 2) (hh : Spec.Hides attributes eid)
    (i₁ : sig₁.nymEidIdx = (2 + (Bbs.Spec.unshown P₁.rev (List.range (Spec.slot k eid))).length : Nat))
    (i₂ : sig₂.nymEidIdx = sig₁.nymEidIdx) :
    let c₁ := Spec.signChallenge L₁ w n sig₁ P₁.sp P₁.rev pn₁.commitment (P₁.eid.map (·.1.commitment))
      (P₁.rh.map (·.1.commitment)) msg₁
    let c₂ := Spec.signChallenge L₂ w n sig₂ P₂.sp P₂.rev pn₂.commitment (P₂.eid.map (·.1.commitment))
      (P₂.rh.map (·.1.commitment)) msg₂
    let x := Bbs.Spec.extract P₁.sp P₂.sp c₁ c₂
    ∃ ms, Bbs.Spec.Signature w ipk.pkg.h0 ipk.pkg.h x.A x.e x.s ms ∧ Bbs.Spec.unshown P₁.rev ms = x.hidden ∧
      ∃ r value h, Bbs.Spec.witness c₁ c₂ pe₁.responses pe₂.responses = [r, value] ∧
        ms[Spec.slot k eid]? = some value ∧ ipk.pkg.h[Spec.slot k eid]? = some h ∧
        nymEid = r • ipk.pkg.h0 + value • h := by
  rw [isKey_iff] at hkey
  subst hkey
  intro c₁' c₂' x
  obtain ⟨c₁, c₂, hc₁, hc₂, hne, _, _, a1, a2, _, _, ms, r1, r2, r3, r4⟩ := two_extract hv h₁ h₂ u₁ u₂ p₁ p₂ ht
  have e₁' : c₁' = c₁ := hc₁.symm
  have e₂' : c₂' = c₂ := hc₂.symm
  have ex : x = Bbs.Spec.extract P₁.sp P₂.sp c₁ c₂ := by rw [← e₁', ← e₂']
  rw [ex, e₁', e₂']
  refine ⟨ms, r1, r3, ?_⟩
  obtain ⟨a, ha, hty⟩ := hh
  have hlt := (List.getElem?_eq_some_iff.mp ha).1
  have hlen := ht.length
  have hsn : Spec.slot k eid ∉ P₁.rev := by
    rw [ht.revealed]
    rintro ⟨b, hb, hn⟩
    rw [ha] at hb
    cases hb
    exact hn hty
  have hr := r4 (Spec.slot k eid) (by simp only [Spec.slot]; split <;> omega) hsn
  rw [i₂] at a2
  rw [e₁, shiftIndex_slot, i₁, unshown_eq] at a1
  rw [e₂, shiftIndex_slot, i₁, unshown_eq] at a2
  obtain ⟨h, r, y, f1, f2, f3, f4⟩ := comm_extract a1 a2 l₁ l₂ hf hne
  exact ⟨r, y, h, f2, by rw [← hr]; exact f4, f1, f3⟩

/-- **C41 (partial), revocation handle.** See `C41_eid_partial`. -/
theorem C41_rh_partial (L₁ L₂ : Lib S) (ipk : IPK S) (w : S.G2) (n k : Nat) (hkey : Spec.IsKey ipk w n)
    (attributes : List IdemixAttribute) (sig₁ sig₂ : Signature) (P₁ P₂ : Parsed S) (pn₁ pn₂ pr₁ pr₂ : ProofG1 S)
    (nymRh : S.G1) (msg₁ msg₂ raw₁ raw₂ : Bytes) (eid : Int) (rh : Nat) (v : VerType) (m : Nat)
    (md₁ md₂ : Option (SignerMetadata S)) (hv : Spec.NoCard v)
    (h₁ : verify L₁ (.val ipk) raw₁ msg₁ attributes rh eid k v md₁ = .ok ())
    (h₂ : verify L₂ (.val ipk) raw₂ msg₂ attributes rh eid k v md₂ = .ok ())
    (u₁ : Wire.sigCodec.unmarshal raw₁ = .ok sig₁) (u₂ : Wire.sigCodec.unmarshal raw₂ = .ok sig₂)
    (p₁ : parseParts S sig₁ v m = .ok P₁) (p₂ : parseParts S sig₂ v m = .ok P₂)
    (ht : Spec.TwoSignatures L₁ L₂ w n k attributes sig₁ sig₂ P₁ P₂ pn₁ pn₂ msg₁ msg₂)
    (e₁ : P₁.rh = some (pr₁, nymRh)) (e₂ : P₂.rh = some (pr₂, nymRh)) (hf : pr₁.commitment = pr₂.commitment)
    (l₁ : pr₁.responses.length = 2) (l₂ : pr₂.responses.length = 2) (hh : Spec.Hides attributes rh)
    (i₁ : sig₁.nymRhIdx = (2 + (Bbs.Spec.unshown P₁.rev (List.range (Spec.slot k rh))).length : Nat))
    (i₂ : sig₂.nymRhIdx = sig₁.nymRhIdx) :
    let c₁ := Spec.signChallenge L₁ w n sig₁ P₁.sp P₁.rev pn₁.commitment (P₁.eid.map (·.1.commitment))
      (P₁.rh.map (·.1.commitment)) msg₁
    let c₂ := Spec.signChallenge L₂ w n sig₂ P₂.sp P₂.rev pn₂.commitment (P₂.eid.map (·.1.commitment))
      (P₂.rh.map (·.1.commitment)) msg₂
    let x := Bbs.Spec.extract P₁.sp P₂.sp c₁ c₂
    ∃ ms, Bbs.Spec.Signature w ipk.pkg.h0 ipk.pkg.h x.A x.e x.s ms ∧ Bbs.Spec.unshown P₁.rev ms = x.hidden ∧
      ∃ r value h, Bbs.Spec.witness c₁ c₂ pr₁.responses pr₂.responses = [r, value] ∧
        ms[Spec.slot k rh]? = some value ∧ ipk.pkg.h[Spec.slot k rh]? = some h ∧
        nymRh = r • ipk.pkg.h0 + value • h := by
  rw [isKey_iff] at hkey
  subst hkey
  intro c₁' c₂' x
  obtain ⟨c₁, c₂, hc₁, hc₂, hne, _, _, _, _, a1, a2, ms, r1, r2, r3, r4⟩ := two_extract hv h₁ h₂ u₁ u₂ p₁ p₂ ht
  have e₁' : c₁' = c₁ := hc₁.symm
  have e₂' : c₂' = c₂ := hc₂.symm
  have ex : x = Bbs.Spec.extract P₁.sp P₂.sp c₁ c₂ := by rw [← e₁', ← e₂']
  rw [ex, e₁', e₂']
  refine ⟨ms, r1, r3, ?_⟩
  obtain ⟨a, ha, hty⟩ := hh
  have hlt := (List.getElem?_eq_some_iff.mp ha).1
  have hlen := ht.length
  have hsn : Spec.slot k rh ∉ P₁.rev := by
    rw [ht.revealed]
    rintro ⟨b, hb, hn⟩
    rw [ha] at hb
    cases hb
    exact hn hty
  have hr := r4 (Spec.slot k rh) (by simp only [Spec.slot]; split <;> omega) hsn
  rw [i₂] at a2
  rw [e₁, shiftIndex_slot, i₁, unshown_eq] at a1
  rw [e₂, shiftIndex_slot, i₁, unshown_eq] at a2
  obtain ⟨h, r, y, f1, f2, f3, f4⟩ := comm_extract a1 a2 l₁ l₂ hf hne
  exact ⟨r, y, h, f2, by rw [← hr]; exact f4, f1, f3⟩
/-- A signature that hides everything and commits to attribute `other` in place of the enrollment identifier `eid`: it
is what `Sign` makes, except that the commitment and its proof use the value, the blinding factor and the position of
`other`. -/
def Spec.otherEid (w : S.G2) (n eid other : Nat) (σ : Sig S) (sk : S.F) (values : List S.F) (rNym r : S.F)
    (ρ : SignRand S) (msg : Bytes) : Signature :=
  let pk := pkg w (n + 1)
  let pok := honestPoK σ (sk :: values) [] pk ρ.pok
  let Hk := pk.h.getD 0 0
  let He := pk.h.getD (eid + 1) 0
  let v := values.getD other 0
  let ch := honestChallenge L signWithEidNymLabel pok (rNym • pk.h0 + sk • Hk) .eidNym
    (pairComm pk.h0 Hk ρ.nym0 (blindAt pok (2 + 0))) (attrC pk pok [] (other + 1) He r v ρ.eid0)
    (attrC pk pok [] (other + 1) He r v ρ.rh0) msg ρ.nonce
  honestSig (beBytes 2 (n + 1) ++ List.replicate ((n + 1) / 8 + 1) 0) .eidNym pk pok [] 0 (other + 1) (other + 1) Hk He He
    sk rNym v v r r ⟨0, [], [], 0, []⟩ ρ ch

/-- **C41 (violated).** The position at which the commitment to the enrollment identifier is checked comes from the
signature. So a holder of a credential can commit to the value of any other hidden attribute: the signature verifies
for the enrollment identifier at `eid`, all its proofs have the right number of responses, and an audit finds the
value of the attribute `other` to be the enrollment identifier. -/
theorem C41_violated (h32 : S.scalarLen = 32) (hg : S.g1CompLen < 2 ^ 31) (hg1 : 0 < S.g1Len) (ipk : IPK S) (w : S.G2)
    (n eid other rh : Nat) (hkey : Spec.IsKey ipk w n) (hn : n + 1 ≤ 65535) (he : eid < n) (ho : other < n) (hrh : rh < n)
    (σ : Sig S) (sk : S.F) (values : List S.F) (hv : values.length = n)
    (hσ : Bbs.Spec.Signature w ipk.pkg.h0 ipk.pkg.h σ.a σ.e σ.s (sk :: values)) (rNym r : S.F) (ρ : SignRand S)
    (hρ : ρ.pok.r1 ≠ 0) (msg : Bytes) (attributes : List IdemixAttribute) (hlen : attributes.length = n)
    (hh : ∀ a ∈ attributes, a.type = 0) :
    let sig := Spec.otherEid L w n eid other σ sk values rNym r ρ msg
    verify L (.val ipk) (Proto.encode (Wire.sig sig)) msg attributes rh eid 0 .expectEidNym none = .ok () ∧
      (∀ enrollmentID, values[other]? = some (frFromOKM L enrollmentID) →
        auditNymEid L (.val ipk) eid 0 (Proto.encode (Wire.sig sig)) enrollmentID r .expectSignature = .ok ()) ∧
      ∃ P pn pe nymEid, parseParts S sig .expectEidNym 0 = .ok P ∧ Bbs.Spec.WellFormed P.sp P.rev (n + 1) ∧
        P.nymProof = some pn ∧ pn.responses.length = 2 ∧ P.eid = some (pe, nymEid) ∧ pe.responses.length = 2 := by
  rw [isKey_iff] at hkey
  subst hkey
  intro sig
  set pk := pkg w (n + 1) with hpk
  have hpl : pk.h.length = n + 1 := by simp [hpk]
  have hvl : (sk :: values).length = pk.h.length := by simp [hpl, hv]
  have hvalid : Valid pk σ (sk :: values) := (valid_iff_signature w (n + 1) σ _ (by simp [hv])).mpr hσ
  have hgd : ∀ j, j < n + 1 → pk.h[j]? = some (pk.h.getD j 0) := by
    intro j hj
    rw [List.getD_eq_getElem?_getD, List.getElem?_eq_getElem (by omega)]
    rfl
  have hvd : values[other]? = some (values.getD other 0) := by
    rw [List.getD_eq_getElem?_getD, List.getElem?_eq_getElem (by omega)]
    rfl
  have hmsgs : attributesToSignatureMessage L attributes ((0 : Nat) : Int) = .ok [] := by
    have g : (decide (((0 : Nat) : Int) < 0) || decide ((attributes.length : Int) < ((0 : Nat) : Int))) = false := by
      simp
    rw [attributesToSignatureMessage, g]
    simp only [Res.guardPanic_false, Res.ok_bind]
    apply attrMsgs_hidden
    intro a ha
    simp only [List.append_assoc, List.singleton_append, List.mem_append, List.mem_cons] at ha
    rcases ha with ha | rfl | ha
    · exact hh a (List.mem_of_mem_take ha)
    · rfl
    · exact hh a (List.mem_of_mem_drop ha)
  set bv : Bytes := List.replicate ((n + 1) / 8 + 1) 0 with hbv
  have pl : bv.length = (n + 1) / 8 + 1 := by simp [hbv]
  have hnil : ((List.range (8 * ((n + 1) / 8 + 1))).filter fun i => bvBit bv i) = [] := by
    rw [List.filter_eq_nil_iff]
    intro i _
    simp [hbv, bvBit_zeros]
  have hrev : bv.reverse = bv := by simp [hbv]
  have hpayload : ∀ enc, parsePoKPayload (beBytes 2 (n + 1) ++ bv ++ enc) = .ok (n + 1, []) := by
    intro enc
    have := parsePoKPayload_bytes (n + 1) bv enc (by omega) pl
    rwa [hnil, hrev] at this
  have hoff : (lenInBytes ((n + 1 : Nat) : Int)).toNat = (beBytes 2 (n + 1) ++ bv).length := by
    rw [lenInBytes_nat]; simp [pl]; omega
  have hon := honest_honest σ (sk :: values) [] pk ρ.pok hvl
  have small : ∀ ch, _ := fun ch => honest_enc_small h32 hg σ (sk :: values) [] pk ρ.pok ch hvl (by omega)
  have hmO : (sk :: values)[other + 1]? = some (values.getD other 0) := by rw [List.getElem?_cons_succ, hvd]
  have hver := verify_honest L h32 hg1 w n 0 (other + 1) (other + 1) (eid + 1) (rh + 1) hn
    (beBytes 2 (n + 1) ++ bv) signWithEidNymLabel msg ⟨0, [], [], 0, []⟩ attributes sk rNym (values.getD other 0)
    (values.getD other 0) r r (pk.h.getD 0 0) (pk.h.getD (eid + 1) 0) (pk.h.getD (rh + 1) 0) (sk :: values) [] []
    (honestPoK σ (sk :: values) [] pk ρ.pok) eid rh .eidNym .expectEidNym ρ [] (by simp [Spec.Matches])
    ⟨by simp [Proto.Int64], by simp [Proto.Int32]⟩ rfl hon hmsgs (by simp [shiftIndex]) (by simp [shiftIndex])
    (hgd 0 (by omega)) (hgd (eid + 1) (by omega)) (hgd (rh + 1) (by omega)) rfl hmO hmO (by simp) (by simp) (by simp) rfl
    hpayload hoff
    (by
      intro ch
      have := parseSignatureProof_enc h32 ((honestPoK σ (sk :: values) [] pk ρ.pok).respond ch) [] (small ch).1
        (small ch).2.1 (small ch).2.2
      rwa [List.append_nil] at this)
    (by simp)
    (by
      intro ch
      exact honest_toBytes σ (sk :: values) [] [] pk ρ.pok ch (by simp) (by rw [hpk, pkg_count]; simp; omega))
    (by
      intro ch
      exact honest_verifies L.zrOfInt_one σ (sk :: values) [] [] pk ρ.pok ch [] hvl hvalid hρ (by simp)
        (by rw [hpk, pkg_count]; simp; omega)
        (by have := keepShown_length_le [] 0 (sk :: values); simp at this; rw [this]; rfl)) none (.inl rfl)
  have hver' : verify L (.val (ipkFor w n)) (Proto.encode (Wire.sig sig)) msg attributes rh eid 0 .expectEidNym none =
      .ok () := hver
  refine ⟨hver', ?_, ?_⟩
  · intro id hid
    have hu : Wire.sigCodec.unmarshal (Proto.encode (Wire.sig sig)) = .ok sig := by
      apply Wire.sigCodec_rt
      have hr := rank_le [] (other + 1)
      refine ⟨?_, ?_, by simp [sig, Spec.otherEid, honestSig, packSig, Proto.Int64], ?_⟩
      · change Proto.Int32 ((2 + rank [] (other + 1) : Nat) : Int)
        simp only [Proto.Int32]; omega
      · change Proto.Int32 ((0 : Nat) : Int)
        simp [Proto.Int32]
      · intro p hp
        simp only [sig, Spec.otherEid, honestSig, packSig, Option.some.injEq] at hp
        subst hp
        simp [Proto.Int32]
    have hnym : sig.nymEid = S.g1Bytes (r • pk.h0 + values.getD other 0 • pk.h.getD (eid + 1) 0) := rfl
    have hse : shiftIndex (eid : Int) 0 = ((eid + 1 : Nat) : Int) := by simp [shiftIndex]
    rw [hvd, Option.some.injEq] at hid
    simp only [auditNymEid, Dyn.get_val, Res.ok_bind, auditTarget, if_true, hu, hnym, Suite.g1OfBytes_g1Bytes,
      Res.ofOption_some, auditOpen, hse, Res.index_nat, ipkFor, ← hpk, hgd (eid + 1) (by omega), Res.deref_some, ← hid,
      add_comm (r • pk.h0), ne_eq, not_true_eq_false, decide_false, Res.guardErr_false]
  · obtain ⟨sp, hsp⟩ : ∃ sp, sp = (honestPoK σ (sk :: values) [] pk ρ.pok).respond
        (honestChallenge L signWithEidNymLabel (honestPoK σ (sk :: values) [] pk ρ.pok)
          (rNym • pk.h0 + sk • pk.h.getD 0 0) .eidNym (pairComm pk.h0 (pk.h.getD 0 0) ρ.nym0
            (blindAt (honestPoK σ (sk :: values) [] pk ρ.pok) (2 + 0)))
          (attrC pk (honestPoK σ (sk :: values) [] pk ρ.pok) [] (other + 1) (pk.h.getD (eid + 1) 0) r
            (values.getD other 0) ρ.eid0)
          (attrC pk (honestPoK σ (sk :: values) [] pk ρ.pok) [] (other + 1) (pk.h.getD (eid + 1) 0) r
            (values.getD other 0) ρ.rh0) msg ρ.nonce) := ⟨_, rfl⟩
    have hmain : sig.main = beBytes 2 (n + 1) ++ bv ++ sp.enc := by rw [hsp]; rfl
    have hparse : parseSignatureProof S sp.enc = .ok sp := by
      have := parseSignatureProof_enc h32 sp [] (by rw [hsp]; exact (small _).1) (by rw [hsp]; exact (small _).2.1)
        (by rw [hsp]; exact (small _).2.2)
      rwa [List.append_nil] at this
    have hsl2 := goSlice_mid (beBytes 2 (n + 1) ++ bv) sp.enc []
    rw [List.append_nil] at hsl2
    have f1 : wantEid sig .expectEidNym = true := rfl
    have f2 : wantRh sig .expectEidNym = false := rfl
    have f3 : (!cardVer .expectEidNym) = true := rfl
    obtain ⟨pn, hpn, hpn2⟩ : ∃ pn, parseProofG1 S sig.nymProof = .ok pn ∧ pn.responses.length = 2 :=
      ⟨_, pairProof_parse h32 _ _ _ _ _ _ _, rfl⟩
    obtain ⟨pe, hpe, hpe2⟩ : ∃ pe, parseProofG1 S sig.nymEidProof = .ok pe ∧ pe.responses.length = 2 :=
      ⟨_, pairProof_parse h32 _ _ _ _ _ _ _, rfl⟩
    obtain ⟨nym, hn1⟩ : ∃ nym, S.g1OfBytes sig.nym = some nym := ⟨_, S.g1OfBytes_g1Bytes _⟩
    obtain ⟨nymEid, hn2⟩ : ∃ nym, S.g1OfBytes sig.nymEid = some nym := ⟨_, S.g1OfBytes_g1Bytes _⟩
    have hp : parseParts S sig .expectEidNym 0 = .ok ⟨[], sp, nym, some pn, some (pe, nymEid), none⟩ := by
      simp only [parseParts, hmain, hpayload, Res.ok_bind, hoff]
      rw [List.length_append (as := beBytes 2 (n + 1) ++ bv), hsl2]
      simp only [Res.ok_bind, hparse, List.length_nil, Nat.lt_irrefl, decide_false, Res.guardErr_false, hn1,
        Res.ofOption_some, f1, f2, f3, onlyIf, parseComm, hpn, hpe, hn2, Res.pure_def]
      rfl
    refine ⟨_, pn, pe, _, hp, ⟨by rw [hsp]; simp [PoK.respond, honestPoK], ?_⟩, rfl, hpn2, rfl, hpe2⟩
    have hk := hidden_count ([] : List Nat) (n + 1) pk.h hpl
    have hk' := keepHidden_length_eq ([] : List Nat) 0 hvl
    change sp.vc2.responses.length = _
    rw [hsp]
    simp only [PoK.respond, honestPoK, List.length_zipWith, blindings_length, List.length_cons]
    omega


open Ex in
set_option maxRecDepth 40000 in
/-- Attribute 0 passes for the enrollment identifier at 1; the two values differ. -/
example : Bbs.Spec.Signature (publicKey (S := S32) (2 : Toy.K)) ipk2.pkg.h0 ipk2.pkg.h (1 : Toy.K) (2 : Toy.K) (1 : Toy.K)
      ((4 : Toy.K) :: vals) ∧ vals[0]? ≠ vals[1]? ∧
    verify L32 (.val ipk2) (Proto.encode (Wire.sig (Spec.otherEid L32 (publicKey (S := S32) (2 : Toy.K)) 2 1 0
      (⟨(1 : Toy.K), (2 : Toy.K), (1 : Toy.K)⟩ : Sig S32) (4 : Toy.K) vals (5 : Toy.K) (3 : Toy.K) rand2 [9]))) [9] hidden2 0 1 0
      .expectEidNym none = .ok () := ⟨⟨by rfl, by decide⟩, by decide, by decide⟩

namespace Ex

/-- A signature that discloses the first attribute and commits to the second as enrollment identifier. -/
def sample (msg : Bytes) : Bytes :=
  match sign L32 cred2 (4 : Toy.K) (4 : Toy.K) (5 : Toy.K) (.val ipk2) shown2 msg 0 1 cri2 .eidNym none rand2 with
  | .ok (raw, _) => raw
  | _ => []

/-- The decoded signature. -/
def sampleSig (msg : Bytes) : Signature :=
  match Wire.sigCodec.unmarshal (sample msg) with
  | .ok s => s
  | _ => ⟨[], [], [], [], [], [], 0, [], [], 0, [], [], 0, none⟩

/-- What the verifier parses. -/
def sampleParts (msg : Bytes) : Parsed S32 :=
  match parseParts S32 (sampleSig msg) .expectEidNym 1 with
  | .ok s => s
  | _ => ⟨[], ⟨0, 0, 0, ⟨0, []⟩, ⟨0, []⟩⟩, 0, none, none, none⟩

/-- The proof for the pseudonym. -/
def samplePn (msg : Bytes) : ProofG1 S32 := (sampleParts msg).nymProof.getD ⟨0, []⟩

/-- The proof for the commitment to the enrollment identifier. -/
def samplePe (msg : Bytes) : ProofG1 S32 := ((sampleParts msg).eid.map (·.1)).getD ⟨0, []⟩

end Ex

open Ex in
set_option maxRecDepth 40000 in
example : verify L32 (.val ipk2) (sample [9]) [9] shown2 0 1 0 .expectEidNym none = .ok () ∧
    verify L32 (.val ipk2) (sample [10]) [10] shown2 0 1 0 .expectEidNym none = .ok () ∧
    Wire.sigCodec.unmarshal (sample [9]) = .ok (sampleSig [9]) ∧
    parseParts S32 (sampleSig [9]) .expectEidNym 1 = .ok (sampleParts [9]) ∧
    parseParts S32 (sampleSig [10]) .expectEidNym 1 = .ok (sampleParts [10]) ∧
    (sampleSig [9]).nymEidIdx = 3 ∧ (samplePe [9]).responses.length = 2 ∧
    Spec.TwoSignatures L32 L32 (publicKey (S := S32) (2 : Toy.K)) 2 0 shown2 (sampleSig [9]) (sampleSig [10])
      (sampleParts [9]) (sampleParts [10]) (samplePn [9]) (samplePn [10]) [9] [10] := by
  have hr : (sampleParts [9]).rev = [1] := by rfl
  have hr' : (sampleParts [10]).rev = [1] := by rfl
  refine ⟨by decide, by decide, by rfl, by rfl, by rfl, by rfl, by rfl, ?_⟩
  refine ⟨by rfl, by decide, by decide, by decide, ?_, by rw [hr]; decide, by rw [hr, hr'],
    ⟨by decide, by decide, by decide, by decide, by decide⟩, by decide, by rfl, by rfl, by decide,
    ⟨⟨by rfl, by rfl⟩, by rfl⟩, ⟨⟨by rfl, by rfl⟩, by rfl⟩, fun _ _ _ _ => rfl, by decide⟩
  intro i
  rw [hr]
  rcases i with _ | _ | i <;> simp [Spec.slot, shown2]

end Idemix.Aries
