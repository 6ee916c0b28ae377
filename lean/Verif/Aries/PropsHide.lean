import Verif.Aries.PropsIssue

/-!
# C71, C72: what credential requests and pseudonym signatures give away (aries)
-/

namespace Idemix.Aries

open Bbs Bbs.Ex

variable {S : Suite} (L : Lib S)

/-- Two random choices as the tape that `Blind` and `NymSigner.Sign` read. -/
def Spec.tape (a b : S.F) : Nat → S.F := fun i => if i = 0 then a else b

/-- Correct two random choices by multiples of the challenge `c`, itself a function of the first message. -/
def pairShift (g h : S.G1) (c : S.G1 → S.F) (a b : S.F) (x : S.F × S.F) : S.F × S.F :=
  (x.1 + c (x.1 • g + x.2 • h) * a, x.2 + c (x.1 • g + x.2 • h) * b)

theorem pairShift_first (g h : S.G1) (c : S.G1 → S.F) (a b : S.F) (h0 : a • g + b • h = 0) (x : S.F × S.F) :
    (pairShift g h c a b x).1 • g + (pairShift g h c a b x).2 • h = x.1 • g + x.2 • h := by
  have : (pairShift g h c a b x).1 • g + (pairShift g h c a b x).2 • h =
      x.1 • g + x.2 • h + c (x.1 • g + x.2 • h) • (a • g + b • h) := by
    simp only [pairShift]; module
  rw [this, h0, smul_zero, add_zero]

/-- It is one-to-one. -/
def pairTapes (g h : S.G1) (c : S.G1 → S.F) (a b : S.F) (h0 : a • g + b • h = 0) : S.F × S.F ≃ S.F × S.F where
  toFun := pairShift g h c a b
  invFun := pairShift g h c (-a) (-b)
  left_inv x := by
    have := pairShift_first g h c a b h0 x
    rw [pairShift, this]
    simp [pairShift]
  right_inv x := by
    have := pairShift_first g h c (-a) (-b) (by rw [neg_smul, neg_smul, ← neg_add, h0, neg_zero]) x
    rw [pairShift, this]
    simp [pairShift]

/-- **C71** (aries). Users make credential requests, one for each `i`, with nonces chosen by anyone. For any two ways
`sk₁`, `sk₂` to say which secret is behind which request there is a one-to-one correspondence of the random choices
(the blinding factor and the two of the proof) that leads to the same requests: the requests have the same
distribution whatever the secrets, and do not tell whether two of them come from one user. -/
theorem C71_aries_requests_hide_secrets {I : Type} (ipk : IPK S) (w : S.G2) (n k : Nat) (hkey : Spec.IsKey ipk w n)
    (hn : n < 0xFFFFFFFF) (hk : k ≤ n) (hne : ipk.pkg.h0 ≠ 0) (nonce : I → Bytes) (sk₁ sk₂ : I → S.F) :
    ∃ φ : (I → S.F × S.F × S.F) ≃ (I → S.F × S.F × S.F), ∀ ρ i, ∃ req,
      blind L (sk₁ i) (.val ipk) (nonce i) k (ρ i).1 (Spec.tape (ρ i).2.1 (ρ i).2.2) =
        .ok (req, S.zrBytes (ρ i).1) ∧
      blind L (sk₂ i) (.val ipk) (nonce i) k (φ ρ i).1 (Spec.tape (φ ρ i).2.1 (φ ρ i).2.2) =
        .ok (req, S.zrBytes (φ ρ i).1) := by
  rw [isKey_iff] at hkey
  subst hkey
  have hk' : k < (pkg w (n + 1)).h.length := by simp; omega
  set g := (pkg w (n + 1)).h0 with hg
  set H := (pkg w (n + 1)).h[k] with hH
  have hx : ∀ i, ∃ b : S.F, b • g + (sk₂ i - sk₁ i) • H = 0 := by
    intro i
    obtain ⟨b, hb⟩ := S.g1_span (P := g) hne ((sk₂ i - sk₁ i) • H)
    exact ⟨-b, by rw [hb, neg_smul, neg_add_cancel]⟩
  choose b hb using hx
  refine ⟨Equiv.piCongrRight fun i => Equiv.prodShear (Equiv.addRight (b i)) fun s =>
    pairTapes g H (fun t => blindChallenge L (s • g + sk₁ i • H) t (nonce i)) (b i) (sk₂ i - sk₁ i) (hb i), ?_⟩
  intro ρ i
  refine ⟨_, blind_eq L w n k hn hk _ _ _ _, ?_⟩
  rw [blind_eq L w n k hn hk]
  refine congrArg Res.ok (Prod.ext ?_ rfl)
  have e : ((ρ i).1 + b i) • g + sk₂ i • H = (ρ i).1 • g + sk₁ i • H := by
    have : ((ρ i).1 + b i) • g + sk₂ i • H = (ρ i).1 • g + sk₁ i • H + (b i • g + (sk₂ i - sk₁ i) • H) := by module
    rw [this, hb, add_zero]
  have f := pairShift_first g H (fun t => blindChallenge L ((ρ i).1 • g + sk₁ i • H) t (nonce i)) (b i)
    (sk₂ i - sk₁ i) (hb i) (ρ i).2
  simp only [honestBlind, Spec.tape, if_true, one_ne_zero, if_false, ← hg, ← hH, Equiv.piCongrRight_apply, Pi.map_apply,
    Equiv.prodShear_apply, Equiv.coe_addRight, pairTapes, Equiv.coe_fn_mk, e, f]
  congr 4
  · simp only [pairShift]; ring
  · congr 1
    simp only [pairShift]; ring

theorem nymSign_eq (w : S.G2) (n k : Nat) (hk : k < (pkg w (n + 1)).h.length) (sk r : S.F) (nym : S.G1) (digest : Bytes)
    (nonce : S.F) (ρ : Nat → S.F) (c : S.F)
    (hc : c = nymChallenge L nym (pkg w (n + 1)).h0 (pkg w (n + 1)).h[k]
      (ρ 0 • (pkg w (n + 1)).h0 + ρ 1 • (pkg w (n + 1)).h[k]) digest (S.zrBytes nonce)) :
    nymSign L sk nym r (.val (ipkFor w n)) digest k nonce ρ =
      .ok (Proto.encode (Wire.nymSig ⟨(⟨ρ 0 • (pkg w (n + 1)).h0 + ρ 1 • (pkg w (n + 1)).h[k],
        [ρ 0 - c * r, ρ 1 - c * sk]⟩ : ProofG1 S).enc, S.zrBytes nonce⟩)) := by
  have f := finish_eq [(pkg w (n + 1)).h0, (pkg w (n + 1)).h[k]] ρ (by simp)
  simp only [List.length_cons, List.length_nil, Nat.zero_add, Nat.reduceAdd] at f
  have hget : (ipkFor w n).pkg.h[k]? = some (pkg w (n + 1)).h[k] := List.getElem?_eq_getElem hk
  have hg' : (ipkFor w n).pkg.h0 = (pkg w (n + 1)).h0 := rfl
  set g := (pkg w (n + 1)).h0 with hg
  set H := (pkg w (n + 1)).h[k] with hH
  have ht : S.lin (blindings 2 ρ) [g, H] = ρ 0 • g + ρ 1 • H := by
    simp [blindings, List.range_succ, Suite.lin_cons]
  have hp : Committed.generateProof ⟨[g, H], blindings 2 ρ, ρ 0 • g + ρ 1 • H⟩ c [r, sk] =
      .ok ⟨ρ 0 • g + ρ 1 • H, [ρ 0 - c * r, ρ 1 - c * sk]⟩ := by
    simp [Committed.generateProof, blindings, List.range_succ]
  simp only [nymSign, Dyn.get_val, Res.ok_bind, Res.index_nat, hget, Res.deref_some, hg', f, ht, ← hc, hp,
    Wire.nymSigCodec_marshal]
  rw [ProofG1.toBytes_eq _ (by simp)]
  rfl

/-- **C72** (aries). As `Dlog.C72_pseudonyms_hide_users`: for any two ways to say which user's secret is behind which
pseudonym, the pseudonyms and any number of signatures with each have the same distribution. -/
theorem C72_aries_pseudonyms_hide_users {J I : Type} (ipk : IPK S) (w : S.G2) (n k : Nat) (hkey : Spec.IsKey ipk w n)
    (hk : k ≤ n) (hne : ipk.pkg.h0 ≠ 0) (digest : J → I → Bytes) (sk₁ sk₂ : J → S.F) :
    ∃ φ : (J → S.F × (I → S.F × S.F × S.F)) ≃ (J → S.F × (I → S.F × S.F × S.F)), ∀ ρ j, ∃ nym,
      makeNym (sk₁ j) (.val ipk) k (ρ j).1 = .ok (nym, (ρ j).1) ∧
      makeNym (sk₂ j) (.val ipk) k (φ ρ j).1 = .ok (nym, (φ ρ j).1) ∧
      ∀ i, ∃ sig,
        nymSign L (sk₁ j) nym (ρ j).1 (.val ipk) (digest j i) k ((ρ j).2 i).1
          (Spec.tape ((ρ j).2 i).2.1 ((ρ j).2 i).2.2) = .ok sig ∧
        nymSign L (sk₂ j) nym (φ ρ j).1 (.val ipk) (digest j i) k ((φ ρ j).2 i).1
          (Spec.tape ((φ ρ j).2 i).2.1 ((φ ρ j).2 i).2.2) = .ok sig := by
  rw [isKey_iff] at hkey
  subst hkey
  have hk' : k < (pkg w (n + 1)).h.length := by simp; omega
  have mk : ∀ sk r : S.F, makeNym sk (.val (ipkFor w n)) k r =
      .ok (r • (pkg w (n + 1)).h0 + sk • (pkg w (n + 1)).h[k], r) := by
    intro sk r
    simp only [makeNym, Dyn.get_val, Res.ok_bind, ipkFor, Res.index_nat, List.getElem?_eq_getElem hk', Res.deref_some]
    rw [build_eq (by simp) (by simp)]
    simp [Suite.lin_cons]
  set g := (pkg w (n + 1)).h0 with hg
  set H := (pkg w (n + 1)).h[k] with hH
  have hx : ∀ j, ∃ b : S.F, b • g + (sk₂ j - sk₁ j) • H = 0 := by
    intro j
    obtain ⟨b, hb⟩ := S.g1_span (P := g) hne ((sk₂ j - sk₁ j) • H)
    exact ⟨-b, by rw [hb, neg_smul, neg_add_cancel]⟩
  choose b hb using hx
  refine ⟨Equiv.piCongrRight fun j => Equiv.prodShear (Equiv.addRight (b j)) fun r => Equiv.piCongrRight fun i =>
    Equiv.prodShear (Equiv.refl S.F) fun nonce =>
    pairTapes g H (fun t => nymChallenge L (r • g + sk₁ j • H) g H t (digest j i) (S.zrBytes nonce)) (b j)
      (sk₂ j - sk₁ j) (hb j), ?_⟩
  intro ρ j
  have e : ((ρ j).1 + b j) • g + sk₂ j • H = (ρ j).1 • g + sk₁ j • H := by
    have : ((ρ j).1 + b j) • g + sk₂ j • H = (ρ j).1 • g + sk₁ j • H + (b j • g + (sk₂ j - sk₁ j) • H) := by module
    rw [this, hb, add_zero]
  refine ⟨(ρ j).1 • g + sk₁ j • H, mk _ _, ?_, ?_⟩
  · rw [mk]
    simp [Equiv.prodShear, e]
  · intro i
    have f := pairShift_first g H
      (fun t => nymChallenge L ((ρ j).1 • g + sk₁ j • H) g H t (digest j i) (S.zrBytes ((ρ j).2 i).1)) (b j)
      (sk₂ j - sk₁ j) (hb j) ((ρ j).2 i).2
    refine ⟨_, nymSign_eq L w n k hk' _ _ _ _ _ _ _ rfl, ?_⟩
    rw [nymSign_eq L w n k hk' _ _ _ _ _ _ _ rfl]
    simp only [Spec.tape, if_true, one_ne_zero, if_false, ← hg, ← hH, Equiv.piCongrRight_apply, Pi.map_apply,
      Equiv.prodShear_apply, Equiv.coe_addRight, Equiv.refl_apply, pairTapes, Equiv.coe_fn_mk, f]
    refine congrArg (fun l => Res.ok (Proto.encode (Wire.nymSig ⟨(⟨_, l⟩ : ProofG1 S).enc, _⟩))) ?_
    simp only [pairShift, List.cons.injEq, and_true]
    constructor <;> ring

set_option maxRecDepth 40000 in
/-- The users with secrets 4 and 1 make the same request, with choices that differ. -/
example : Ex.isk.pk.pkg.h0 ≠ (0 : Toy.K) ∧
    ∃ req, blind L32 (4 : Toy.K) (.val Ex.isk.pk) [5] 1 (2 : Toy.K) (Spec.tape (3 : Toy.K) (1 : Toy.K)) =
        .ok (req, S32.zrBytes (2 : Toy.K)) ∧
      ∃ s a b : Toy.K, blind L32 (1 : Toy.K) (.val Ex.isk.pk) [5] 1 s (Spec.tape a b) = .ok (req, S32.zrBytes s) ∧
        s ≠ 2 := by
  exact ⟨by decide, _, rfl, 3, 5, 2, rfl, by decide⟩

end Idemix.Aries
