import Verif.Aries.PropsAlter

/-!
# C103 for aries signatures with commitments to attributes
-/

namespace Idemix.Aries

open Bbs Bbs.Ex
open Dlog (SigType VerType AuditData SignerMetadata AuditType signLabel signWithEidNymLabel signWithEidNymRhNymLabel)
open Dlog.Spec (Relation)

variable {S : Suite} {L : Lib S}

theorem first_unique {u : Prop} {b : Bytes} {t t' : Option S.G1} (h : Spec.First S u b t) (h' : Spec.First S u b t') :
    t' = t := by
  rcases h with ⟨a, q, hq, rfl⟩ | ⟨a, rfl⟩ <;> rcases h' with ⟨a', q', hq', rfl⟩ | ⟨a', rfl⟩
  · rw [hq] at hq'; cases hq'; rfl
  · exact absurd a a'
  · exact absurd a' a
  · rfl

/-- What acceptance without a card comes down to, with the commitments to attributes. -/
theorem accepted_comm {w : S.G2} {n : Nat} {raw msg : Bytes} {attributes : List IdemixAttribute} {rh eid k : Nat}
    {v : VerType} {md : Option (SignerMetadata S)} (hv : ¬ Spec.CardVer v)
    (acc : verify L (.val (ipkFor w n)) raw msg attributes rh eid k v md = .ok ()) :
    ∃ sig main rs nym tn te tr vs c, Spec.Parts v raw sig main rs nym tn te tr ∧
      List.Forall₂ (Spec.Encodes L) (Spec.disclosed attributes) vs ∧
      c = frFromOKM L (Spec.second L (Spec.transcript L v w n sig main rs tn te tr msg) sig.nonce) ∧
      (main.vc1.responses.length = 2 →
        S.lin main.vc1.responses [main.aPrime, Bbs.Spec.generator w (n + 1) 0] + c • (main.aBar - main.d) =
          main.vc1.commitment) ∧
      (∃ q H, parseProofG1 S sig.nymProof = .ok q ∧
        (Bbs.Spec.generators w (n + 1))[k]? = some H ∧ (q.responses.length = 2 →
        S.lin q.responses [Bbs.Spec.generator w (n + 1) 0, H] + c • nym = q.commitment)) ∧
      (let hidden := Bbs.Spec.unshown rs (Bbs.Spec.generators w (n + 1))
       main.vc2.responses.length = 2 + hidden.length →
        S.lin main.vc2.responses (main.d :: Bbs.Spec.generator w (n + 1) 0 :: hidden) +
          c • -Spec.claimed v w n rs vs nym = main.vc2.commitment) ∧
      (Spec.UsesEid sig v → Spec.Checked (pkg w (n + 1)) main sig.nymEid sig.nymEidProof (Spec.slot k eid) sig.nymEidIdx c) ∧
      (Spec.UsesRh sig v → Spec.Checked (pkg w (n + 1)) main sig.nymRh sig.nymRhProof (Spec.slot k rh) sig.nymRhIdx c) := by
  obtain ⟨sig, main, rs, nym, tn, te, tr, vs, c, hp, e, hc, a1, a2, a3⟩ := accepted acc
  obtain ⟨sig', count, rs', main', c', te', tr', p1, p2, p3, p4, p5, p6, -, -, -, -, p7, p8⟩ :=
    C13_aries_verification_types L (ipkFor w n) w n ((isKey_iff _ _ _).mpr rfl) raw msg attributes rh eid k v md acc
  rw [hp.decoded] at p1; cases p1
  obtain ⟨_, q1, q2⟩ := hp.payload
  rw [q1] at p2; cases p2
  rw [q2] at p3; cases p3
  obtain rfl := first_unique hp.te p4
  obtain rfl := first_unique hp.tr p5
  obtain ⟨-, q, hq, hc'⟩ := p6 (noCard_iff.mpr hv)
  have htn : tn = some q.commitment := by
    rcases hp.tn with ⟨_, q', h1, h2⟩ | ⟨h1, _⟩
    · rw [hq] at h1; cases h1; exact h2
    · exact absurd hv h1
  have : c' = c := by
    rw [hc, hc', htn]
    simp only [Spec.signChallenge, Spec.second, Spec.transcript, Spec.verLabel, hv, if_false, List.nil_append]
    rfl
  subst this
  simp only [if_neg hv] at a3
  exact ⟨sig, main, rs, nym, tn, te', tr', vs, c', hp, e, hc, a1, a2 hv, a3, p7, p8⟩

theorem cut_tail {a₁ a₂ e₁ e₂ r₁ r₂ m : Bytes} {x₁ x₂ y₁ y₂ : S.G1} (le : e₁.length = e₂.length) (lr : r₁.length = r₂.length)
    (h : a₁ ++ (S.g1Bytes x₁ ++ (e₁ ++ (S.g1Bytes y₁ ++ (r₁ ++ m)))) =
      a₂ ++ (S.g1Bytes x₂ ++ (e₂ ++ (S.g1Bytes y₂ ++ (r₂ ++ m))))) :
    a₁ = a₂ ∧ x₁ = x₂ ∧ e₁ = e₂ ∧ y₁ = y₂ ∧ r₁ = r₂ := by
  obtain ⟨h1, h⟩ := List.append_inj' h (by simp [le, lr])
  obtain ⟨h2, h⟩ := List.append_inj h (by simp)
  obtain ⟨h3, h⟩ := List.append_inj h le
  obtain ⟨h4, h⟩ := List.append_inj h (by simp)
  obtain ⟨h5, -⟩ := List.append_inj h lr
  exact ⟨h1, S.g1Bytes_inj h2, h3, S.g1Bytes_inj h4, h5⟩

/-- `raw` is a signature with a commitment to the enrollment identifier, and with one to the revocation handle if `v` asks for
it. Its parts are `sig`, the main proof `main` that reveals the positions `rs`, the pseudonym `nym`, and the proofs `p`, `pe` and
`pr` for the pseudonym and the commitments. Every proof has as many responses as it has secrets, where `m` is the number of
hidden attributes (with the secret), and the main proof is not about the identity. -/
structure Spec.Whole (v : VerType) (raw : Bytes) (m : Nat) (sig : Signature) (main : SigProof S) (rs : List Nat) (nym : S.G1)
    (p pe pr : ProofG1 S) (tr : Option S.G1) : Prop where
  parts : Spec.Parts v raw sig main rs nym (some p.commitment) (some pe.commitment) tr
  nymProof : parseProofG1 S sig.nymProof = .ok p
  eidProof : parseProofG1 S sig.nymEidProof = .ok pe
  rhProof : v = .expectEidNymRhNym → parseProofG1 S sig.nymRhProof = .ok pr ∧ pr.responses.length = 2
  first : main.vc1.responses.length = 2
  second : main.vc2.responses.length = 2 + m
  nymResponses : p.responses.length = 2
  eidResponses : pe.responses.length = 2
  proper : main.aBar ≠ main.d

variable (L)

/-- **C103 (aries signatures with commitments, partial).** Two signatures with commitments that are accepted for one key,
message and list of attributes, reveal the same positions, have as many responses as there are secrets, encode their
commitments in equally many bytes, and are answers to the same challenge `c`, have the same content: points, responses,
pseudonym, commitments, their proofs, and nonce. Otherwise their transcripts or final hash inputs collide, or the
differences of their responses are a relation: between `A'` and the first generator, between the generators of the
pseudonym or of a commitment, or between `D`, the first generator and those of the hidden attributes.
What is missing: the bytes (`C103_aries_bytes_violated`) and the number of responses, which the code does not check
(`C40_violated`). -/
theorem C103_aries_commitments_partial (ipk : IPK S) (w : S.G2) (n k eid rh : Nat) (hkey : Spec.IsKey ipk w n) (v : VerType)
    (hv : v = .expectEidNym ∨ v = .expectEidNymRhNym) (raw₁ raw₂ msg : Bytes) (attributes : List IdemixAttribute)
    (md₁ md₂ : Option (SignerMetadata S))
    (acc₁ : verify L (.val ipk) raw₁ msg attributes rh eid k v md₁ = .ok ())
    (acc₂ : verify L (.val ipk) raw₂ msg attributes rh eid k v md₂ = .ok ())
    (sig₁ sig₂ : Signature) (main₁ main₂ : SigProof S) (rs : List Nat) (nym₁ nym₂ : S.G1) (p₁ p₂ pe₁ pe₂ pr₁ pr₂ : ProofG1 S)
    (tr₁ tr₂ : Option S.G1) (g H He Hr : S.G1) (hidden : List S.G1)
    (hg : g = Bbs.Spec.generator w (n + 1) 0) (hH : (Bbs.Spec.generators w (n + 1))[k]? = some H)
    (hHe : (Bbs.Spec.generators w (n + 1))[Spec.slot k eid]? = some He)
    (hHr : v = .expectEidNymRhNym → (Bbs.Spec.generators w (n + 1))[Spec.slot k rh]? = some Hr)
    (hhid : hidden = Bbs.Spec.unshown rs (Bbs.Spec.generators w (n + 1)))
    (whole₁ : Spec.Whole v raw₁ hidden.length sig₁ main₁ rs nym₁ p₁ pe₁ pr₁ tr₁)
    (whole₂ : Spec.Whole v raw₂ hidden.length sig₂ main₂ rs nym₂ p₂ pe₂ pr₂ tr₂)
    (le : sig₁.nymEid.length = sig₂.nymEid.length) (lr : v = .expectEidNymRhNym → sig₁.nymRh.length = sig₂.nymRh.length)
    (c : S.F) (hc₁ : S.lin main₁.vc1.responses [main₁.aPrime, g] + c • (main₁.aBar - main₁.d) = main₁.vc1.commitment)
    (hc₂ : S.lin main₂.vc1.responses [main₂.aPrime, g] + c • (main₂.aBar - main₂.d) = main₂.vc1.commitment)
    (q₁ q₂ : Bytes)
    (hq₁ : q₁ = Spec.transcript L v w n sig₁ main₁ rs (some p₁.commitment) (some pe₁.commitment) tr₁ msg)
    (hq₂ : q₂ = Spec.transcript L v w n sig₂ main₂ rs (some p₂.commitment) (some pe₂.commitment) tr₂ msg) :
    (main₁ = main₂ ∧ sig₁.nym = sig₂.nym ∧ p₁ = p₂ ∧ sig₁.nymEid = sig₂.nymEid ∧ pe₁ = pe₂ ∧
        (v = .expectEidNymRhNym → sig₁.nymRh = sig₂.nymRh ∧ pr₁ = pr₂) ∧ sig₁.nonce = sig₂.nonce) ∨
      Relation S (List.zipWith (· - ·) main₁.vc1.responses main₂.vc1.responses) [main₁.aPrime, g] ∨
      Relation S (List.zipWith (· - ·) p₁.responses p₂.responses) [g, H] ∨
      Relation S (List.zipWith (· - ·) pe₁.responses pe₂.responses) [g, He] ∨
      (v = .expectEidNymRhNym ∧ Relation S (List.zipWith (· - ·) pr₁.responses pr₂.responses) [g, Hr]) ∨
      Relation S (List.zipWith (· - ·) main₁.vc2.responses main₂.vc2.responses) (main₁.d :: g :: hidden) ∨
      Spec.OkmCollision L q₁ q₂ ∨
      Spec.OkmCollision L (Spec.second L q₁ sig₁.nonce) (Spec.second L q₂ sig₂.nonce) := by
  rw [isKey_iff] at hkey
  subst hkey
  have hcard : ¬ Spec.CardVer v := by rcases hv with rfl | rfl <;> simp [Spec.CardVer]
  have uE : ∀ sig, Spec.UsesEid sig v := by intro sig; rcases hv with rfl | rfl <;> simp [Spec.UsesEid]
  obtain ⟨_, _, _, _, _, _, _, vs, c₁, hp, e₁, a₁, a1, a2, a3, a4, a5⟩ := accepted_comm hcard acc₁
  obtain ⟨rfl, rfl, rfl, rfl, rfl, rfl, rfl⟩ := parts_unique hp whole₁.parts
  obtain ⟨_, _, _, _, _, _, _, vs₂, c₂, hp', e₂, a₂, b1, b2, b3, b4, b5⟩ := accepted_comm hcard acc₂
  obtain ⟨rfl, rfl, rfl, rfl, rfl, rfl, rfl⟩ := parts_unique hp' whole₂.parts
  obtain rfl := encodes_unique e₁ e₂
  obtain ⟨_, _, r1, r2, a2⟩ := a2
  rw [whole₁.nymProof] at r1; cases r1
  rw [hH] at r2; cases r2
  obtain ⟨_, _, r1, r2, b2⟩ := b2
  rw [whole₂.nymProof] at r1; cases r1
  rw [hH] at r2; cases r2
  have answers : ∀ {x y P : S.G1} {c' : S.F}, P ≠ 0 → x + c • P = y → x + c' • P = y → c = c' := fun hP h h' =>
    S.smul_left_inj hP (add_left_cancel (h.trans h'.symm))
  rw [← hg] at a1 a2 a3 b1 b2 b3
  simp only [Spec.claimed, if_neg hcard, ← hhid] at a3 b3
  obtain rfl := answers (sub_ne_zero.mpr whole₁.proper) hc₁ (a1 whole₁.first)
  obtain rfl := answers (sub_ne_zero.mpr whole₂.proper) hc₂ (b1 whole₂.first)
  -- the equation of a commitment
  have comm : ∀ {main : SigProof S} {raw proof : Bytes} {j : Nat} {idx : Int} {q : ProofG1 S} {h : S.G1},
      Spec.Checked (pkg w (n + 1)) main raw proof j idx c → parseProofG1 S proof = .ok q → q.responses.length = 2 →
      (Bbs.Spec.generators w (n + 1))[j]? = some h →
      ∃ P, S.g1OfBytes raw = some P ∧ S.lin q.responses [g, h] + c • P = q.commitment := by
    rintro main raw proof j idx q h ⟨P, q', h', x, k1, k2, k3, -, -, -, -, k4⟩ hq hl hh
    rw [hq] at k2; cases k2
    have : h' = h := Option.some.inj (k3.symm.trans hh)
    subst this
    refine ⟨P, k1, ?_⟩
    rw [← k4, show [(pkg w (n + 1)).h0, h', P] = [(pkg w (n + 1)).h0, h'] ++ [P] from rfl, S.lin_append (by simpa using hl),
      show (pkg w (n + 1)).h0 = g from hg.symm]
    simp
  rw [← hq₁] at a₁
  rw [← hq₂] at a₂
  by_cases hs : Spec.second L q₁ sig₁.nonce = Spec.second L q₂ sig₂.nonce
  swap
  · exact .inr (.inr (.inr (.inr (.inr (.inr (.inr ⟨hs, by rw [← a₁, ← a₂]⟩))))))
  obtain ⟨s1, s2⟩ := List.append_inj hs (by simp)
  by_cases hq : q₁ = q₂
  swap
  · exact .inr (.inr (.inr (.inr (.inr (.inr (.inl ⟨hq, S.zrBytes_inj s1⟩))))))
  have rel : ∀ {as bs : List S.F} {Ps : List S.G1} {R Q : S.G1}, as.length = Ps.length → bs.length = Ps.length →
      S.lin as Ps + R = Q → S.lin bs Ps + R = Q → as ≠ bs → Relation S (List.zipWith (· - ·) as bs) Ps := by
    intro as bs Ps R Q la lb ha hb hne
    have hl : as.length = bs.length := by rw [la, lb]
    refine ⟨by simp [la, lb], Dlog.exists_sub_ne hl hne, ?_⟩
    rw [S.lin_sub hl, add_right_cancel (ha.trans hb.symm), sub_self]
  -- what the transcripts have in common
  obtain ⟨u1, u2, u3, u4, u5, u6, u7, u8, u9, u10⟩ : main₁.aBar = main₂.aBar ∧ main₁.aPrime = main₂.aPrime ∧
      main₁.vc1.commitment = main₂.vc1.commitment ∧ main₁.d = main₂.d ∧ main₁.vc2.commitment = main₂.vc2.commitment ∧
      sig₁.nym = sig₂.nym ∧ p₁.commitment = p₂.commitment ∧ sig₁.nymEid = sig₂.nymEid ∧ pe₁.commitment = pe₂.commitment ∧
      (v = .expectEidNymRhNym → sig₁.nymRh = sig₂.nymRh ∧ pr₁.commitment = pr₂.commitment) := by
    have go : ∀ {l R₁ R₂ : Bytes}, R₁.length = R₂.length →
        Spec.transcript L v w n sig₁ main₁ rs (some p₁.commitment) (some pe₁.commitment) tr₁ msg =
          l ++ (S.g1Bytes main₁.aBar ++ (S.g1Bytes main₁.aPrime ++ (S.g1Bytes g ++ (S.g1Bytes main₁.vc1.commitment ++
            (S.g1Bytes main₁.d ++ (S.g1Bytes g ++ ((hidden.map S.g1Bytes).flatten ++ (S.g1Bytes main₁.vc2.commitment ++
            (sig₁.nym ++ (S.g1Bytes p₁.commitment ++ (sig₁.nymEid ++ (S.g1Bytes pe₁.commitment ++ (R₁ ++
              S.zrBytes (frFromOKM L msg)))))))))))))) →
        Spec.transcript L v w n sig₂ main₂ rs (some p₂.commitment) (some pe₂.commitment) tr₂ msg =
          l ++ (S.g1Bytes main₂.aBar ++ (S.g1Bytes main₂.aPrime ++ (S.g1Bytes g ++ (S.g1Bytes main₂.vc1.commitment ++
            (S.g1Bytes main₂.d ++ (S.g1Bytes g ++ ((hidden.map S.g1Bytes).flatten ++ (S.g1Bytes main₂.vc2.commitment ++
            (sig₂.nym ++ (S.g1Bytes p₂.commitment ++ (sig₂.nymEid ++ (S.g1Bytes pe₂.commitment ++ (R₂ ++
              S.zrBytes (frFromOKM L msg)))))))))))))) →
        main₁.aBar = main₂.aBar ∧ main₁.aPrime = main₂.aPrime ∧
          main₁.vc1.commitment = main₂.vc1.commitment ∧ main₁.d = main₂.d ∧ main₁.vc2.commitment = main₂.vc2.commitment ∧
          sig₁.nym = sig₂.nym ∧ p₁.commitment = p₂.commitment ∧ sig₁.nymEid = sig₂.nymEid ∧
          pe₁.commitment = pe₂.commitment ∧ R₁ = R₂ := by
      intro l R₁ R₂ hR h1 h2
      have hq := hq₁.symm.trans (hq.trans hq₂)
      rw [h1, h2] at hq
      have hq := List.append_cancel_left hq
      obtain ⟨u1, hq⟩ := List.append_inj hq (by simp)
      obtain ⟨u2, hq⟩ := List.append_inj hq (by simp)
      have hq := List.append_cancel_left hq
      obtain ⟨u3, hq⟩ := List.append_inj hq (by simp)
      obtain ⟨u4, hq⟩ := List.append_inj hq (by simp)
      have hq := List.append_cancel_left (List.append_cancel_left hq)
      obtain ⟨u5, hq⟩ := List.append_inj hq (by simp)
      exact ⟨S.g1Bytes_inj u1, S.g1Bytes_inj u2, S.g1Bytes_inj u3, S.g1Bytes_inj u4, S.g1Bytes_inj u5, cut_tail le hR hq⟩
    rcases hv with rfl | rfl
    · have none : ∀ {sig t}, Spec.First S (Spec.UsesRh sig .expectEidNym) sig.nymRhProof t → t = Option.none := by
        rintro sig t (⟨h1, _⟩ | ⟨_, h1⟩)
        · exact absurd h1 (by simp [Spec.UsesRh])
        · exact h1
      obtain rfl := none whole₁.parts.tr
      obtain rfl := none whole₂.parts.tr
      obtain ⟨u1, u2, u3, u4, u5, u6, u7, u8, u9, -⟩ := go (l := signWithEidNymLabel) (R₁ := []) (R₂ := []) rfl
        (by simp [Spec.transcript, Spec.verLabel, if_neg hcard, ← hhid, ← hg])
        (by simp [Spec.transcript, Spec.verLabel, if_neg hcard, ← hhid, ← hg])
      exact ⟨u1, u2, u3, u4, u5, u6, u7, u8, u9, fun h => by cases h⟩
    · have some : ∀ {sig t q}, parseProofG1 S sig.nymRhProof = .ok q →
          Spec.First S (Spec.UsesRh sig .expectEidNymRhNym) sig.nymRhProof t → t = Option.some q.commitment := by
        rintro sig t q hq (⟨h1, q', h2, h3⟩ | ⟨h1, _⟩)
        · rw [hq] at h2; cases h2; exact h3
        · exact absurd (by simp [Spec.UsesRh]) h1
      obtain rfl := some (whole₁.rhProof rfl).1 whole₁.parts.tr
      obtain rfl := some (whole₂.rhProof rfl).1 whole₂.parts.tr
      obtain ⟨u1, u2, u3, u4, u5, u6, u7, u8, u9, u10⟩ := go (l := signWithEidNymRhNymLabel)
        (R₁ := sig₁.nymRh ++ S.g1Bytes pr₁.commitment) (R₂ := sig₂.nymRh ++ S.g1Bytes pr₂.commitment) (by simp [lr rfl])
        (by simp [Spec.transcript, Spec.verLabel, if_neg hcard, ← hhid, ← hg])
        (by simp [Spec.transcript, Spec.verLabel, if_neg hcard, ← hhid, ← hg])
      obtain ⟨w1, w2⟩ := List.append_inj u10 (lr rfl)
      exact ⟨u1, u2, u3, u4, u5, u6, u7, u8, u9, fun _ => ⟨w1, S.g1Bytes_inj w2⟩⟩
  have un : nym₁ = nym₂ := by
    have := whole₁.parts.nym
    rw [u6, whole₂.parts.nym] at this
    exact (Option.some.inj this).symm
  by_cases h1 : main₁.vc1.responses = main₂.vc1.responses
  swap
  · refine .inr (.inl (rel whole₁.first whole₂.first hc₁ ?_ h1))
    rw [u1, u2, u3, u4]; exact hc₂
  by_cases h2 : p₁.responses = p₂.responses
  swap
  · refine .inr (.inr (.inl (rel whole₁.nymResponses whole₂.nymResponses (a2 whole₁.nymResponses) ?_ h2)))
    rw [un, u7]; exact b2 whole₂.nymResponses
  by_cases h3 : pe₁.responses = pe₂.responses
  swap
  · obtain ⟨P, k1, k2⟩ := comm (a4 (uE _)) whole₁.eidProof whole₁.eidResponses hHe
    obtain ⟨Q, m1, m2⟩ := comm (b4 (uE _)) whole₂.eidProof whole₂.eidResponses hHe
    rw [u8, m1] at k1; cases k1
    refine .inr (.inr (.inr (.inl (rel whole₁.eidResponses whole₂.eidResponses k2 ?_ h3))))
    rw [u9]; exact m2
  by_cases h4 : v = .expectEidNymRhNym → pr₁.responses = pr₂.responses
  swap
  · obtain ⟨hr, h4⟩ := Classical.not_imp.mp h4
    have uR : ∀ sig, Spec.UsesRh sig v := by intro sig; simp [Spec.UsesRh, hr]
    obtain ⟨P, k1, k2⟩ := comm (a5 (uR _)) (whole₁.rhProof hr).1 (whole₁.rhProof hr).2 (hHr hr)
    obtain ⟨Q, m1, m2⟩ := comm (b5 (uR _)) (whole₂.rhProof hr).1 (whole₂.rhProof hr).2 (hHr hr)
    rw [(u10 hr).1, m1] at k1; cases k1
    refine .inr (.inr (.inr (.inr (.inl ⟨hr, rel (whole₁.rhProof hr).2 (whole₂.rhProof hr).2 k2 ?_ h4⟩))))
    rw [(u10 hr).2]; exact m2
  by_cases h5 : main₁.vc2.responses = main₂.vc2.responses
  swap
  · refine .inr (.inr (.inr (.inr (.inr (.inl (rel (by simp [whole₁.second]; omega) (by simp [whole₂.second]; omega)
      (a3 whole₁.second) ?_ h5))))))
    rw [u4, u5]; exact b3 whole₂.second
  left
  refine ⟨?_, u6, ?_, u8, ?_, fun hr => ⟨(u10 hr).1, ?_⟩, s2⟩
  · cases main₁ with | mk a b d v1 v2 => cases main₂ with | mk a' b' d' v1' v2' =>
      cases v1; cases v2; cases v1'; cases v2'; simp_all
  · cases p₁; cases p₂; simp_all
  · cases pe₁; cases pe₂; simp_all
  · have h4 := h4 hr
    have u10 := (u10 hr).2
    cases pr₁; cases pr₂; simp_all

/-! ## Example -/

namespace Ex

/-- A signature with both commitments, which discloses nothing. -/
def both : Bytes :=
  match sign L32 cred2 (4 : Toy.K) (4 : Toy.K) (5 : Toy.K) (.val ipk2) hidden2 [9] 0 1 cri2 .eidNymRhNym none rand2 with
  | .ok (raw, _) => raw
  | _ => []

/-- The decoded signature. -/
def bothSig : Signature :=
  match Wire.sigCodec.unmarshal both with
  | .ok s => s
  | _ => ⟨[], [], [], [], [], [], 0, [], [], 0, [], [], 0, none⟩

/-- What the verifier parses. -/
def bothParts : Parsed S32 :=
  match parseParts S32 bothSig .expectEidNymRhNym 1 with
  | .ok s => s
  | _ => ⟨[], ⟨0, 0, 0, ⟨0, []⟩, ⟨0, []⟩⟩, 0, none, none, none⟩

/-- The proofs for the pseudonym and the commitments. -/
def bothPn : ProofG1 S32 := bothParts.nymProof.getD ⟨0, []⟩
def bothPe : ProofG1 S32 := (bothParts.eid.getD (⟨0, []⟩, 0)).1
def bothPr : ProofG1 S32 := (bothParts.rh.getD (⟨0, []⟩, 0)).1

end Ex

open Ex in
set_option maxRecDepth 40000 in
/-- A signature with both commitments meets the hypotheses, and it is accepted also with a field that nobody declared in
front. -/
example : Spec.IsKey ipk2 (publicKey (S := S32) (2 : Toy.K)) 2 ∧
    verify L32 (.val ipk2) both [9] hidden2 (0 : Nat) (1 : Nat) (0 : Nat) .expectEidNymRhNym none = .ok () ∧
    verify L32 (.val ipk2) ([88, 7] ++ both) [9] hidden2 (0 : Nat) (1 : Nat) (0 : Nat) .expectEidNymRhNym none = .ok () ∧
    Spec.Whole .expectEidNymRhNym both
      (Bbs.Spec.unshown bothParts.rev (Bbs.Spec.generators (publicKey (S := S32) (2 : Toy.K)) 3)).length
      bothSig bothParts.sp bothParts.rev bothParts.nym bothPn bothPe bothPr (some bothPr.commitment) ∧
    S32.lin bothParts.sp.vc1.responses [bothParts.sp.aPrime, Bbs.Spec.generator (publicKey (S := S32) (2 : Toy.K)) 3 0] +
      (4 : Toy.K) • (bothParts.sp.aBar - bothParts.sp.d) = bothParts.sp.vc1.commitment := by
  exact ⟨(isKey_iff _ _ _).mpr rfl, by decide, by decide, ⟨⟨by rfl, ⟨_, by rfl, by rfl⟩, by rfl,
    .inl ⟨by simp [Spec.CardVer], _, by rfl, rfl⟩, .inl ⟨by simp [Spec.UsesEid], _, by rfl, rfl⟩,
    .inl ⟨by simp [Spec.UsesRh], _, by rfl, rfl⟩⟩, by rfl, by rfl, fun _ => ⟨by rfl, by rfl⟩, by rfl, by rfl, by rfl, by rfl,
    by decide⟩, by decide⟩

end Idemix.Aries
