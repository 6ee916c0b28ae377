import Verif.Fork.Game
import Verif.Dlog.PropsVerify
import Verif.Forge.Props

/-!
# C89: whoever makes signatures that are accepted has a credential

C10 computes a credential from two accepted signatures with the same first hash question and different answers. Here such signatures are
obtained from any forger in the random oracle model: the forger is played twice, as in the forking lemma, and the bound says how often that
works.
-/

namespace Idemix.Fork

open Idemix.Dlog
open Idemix (Suite Res Bytes)
open Spec

variable {S : Suite} (T : Translator S)

/-! ## Specification -/

/-- What a verifier asks for: a disclosure vector, the values of the attributes disclosed, the indices of the attributes behind the
commitments, the type of verification. -/
structure Spec.Policy (S : Suite) where
  D : Bytes
  values : List (Option S.F)
  rhIndex : Int
  eidIndex : Int
  vt : VerType

/-- The disclosed values. -/
def Spec.Policy.disclosed (p : Policy S) : List S.F := (dis p.D p.values).map (·.getD 0)

/-- The points of an issuer key. -/
def Spec.readKey (ipk : IssuerPublicKey) : Res (Dlog.Spec.Key S) := do
  let hSk ← T.g1FromProto ipk.hSk
  let hRand ← T.g1FromProto ipk.hRand
  let hAttrs ← parseAttrs T ipk.hAttrs
  let w ← T.g2FromProto ipk.w
  pure ⟨hSk, hRand, hAttrs, w⟩

/-- A commitment that takes part in the proof. -/
def Spec.readNym (b : Bool) (an : Option AttrNym) : Res (Option (S.G1 × S.F)) :=
  if b then do
    let a ← Res.ofOption "missing" an
    let n ← T.g1FromProto a.nym
    pure (some (n, S.zrOfBytes (a.proofS.getD [])))
  else pure none

/-- The points and scalars of a signature. -/
def Spec.readSig (sig : Signature) (vt : VerType) : Res (Dlog.Spec.Sig S) := do
  let aPrime ← T.g1FromProto sig.aPrime
  let aBar ← T.g1FromProto sig.aBar
  let bPrime ← T.g1FromProto sig.bPrime
  let nym ← T.g1FromProto sig.nym
  let eid ← readNym T (verifyEid sig vt) sig.eidNym
  let rh ← readNym T (verifyRh sig vt) sig.rhNym
  pure ⟨aPrime, aBar, bPrime, nym, S.zrOfBytes sig.proofC, S.zrOfBytes sig.proofSSk, S.zrOfBytes sig.proofSE,
    S.zrOfBytes sig.proofSR2, S.zrOfBytes sig.proofSR3, S.zrOfBytes sig.proofSSPrime, S.zrOfBytes sig.proofSRNym,
    sig.proofSAttrs.map S.zrOfBytes, S.zrOfBytes sig.nonce, eid, rh⟩

/-- The first hash question of a verifier of `sig` for `msg`. -/
def Spec.question (ipk : IssuerPublicKey) (p : Policy S) (sig : Signature) (msg : Bytes) : Bytes :=
  match readKey T ipk, readSig T sig p.vt with
  | .ok k, .ok v => v.transcript (sigLabelOf v) k ipk.hash p.D p.disclosed p.eidIndex.toNat p.rhIndex.toNat msg
  | _, _ => []

/-- A forger that may ask the hash function and comes up with a signature and a message, and a verifier. -/
def Spec.signatures (ipk : IssuerPublicKey) (p : Policy S) (forger : Strategy S.F (Signature × Bytes)) :
    Game S.F (Signature × Bytes) where
  forger := forger
  first a := question T ipk p a.1 a.2
  second a c := S.zrBytes c ++ S.zrBytes (S.zrOfBytes a.1.nonce)
  accepts h a := a.1.ver (T.withHash h) p.D (some ipk) a.2 p.values p.rhIndex p.eidIndex () 0 p.vt none = .ok ()

/-- What is computed from two plays: the credential of C10 and its attributes. -/
def Spec.credentialOf (p : Policy S) (sig₁ sig₂ : Signature) : Res (Dlog.Spec.Extracted S × List S.F) := do
  let v₁ ← readSig T sig₁ p.vt
  let v₂ ← readSig T sig₂ p.vt
  let x := v₁.extract v₂
  pure (x, merge p.D x.hidden p.disclosed)

/-- `x` and `attrs` are a credential of the issuer with the attributes that the verifier asked for, and an opening of the pseudonym of
`sig` to the user secret of the credential. -/
def Spec.Knows (ipk : IssuerPublicKey) (p : Policy S) (sig : Signature) (x : Dlog.Spec.Extracted S) (attrs : List S.F) : Prop :=
  ∃ k nym, Reads T ipk k ∧ T.g1FromProto sig.nym = .ok nym ∧ Dlog.Spec.Discloses p.D p.values attrs ∧
    Dlog.Spec.IsCredential k x.A x.e x.s x.sk attrs ∧ nym = Dlog.Spec.nym k x.sk x.rNym

/-! ## Proofs -/

variable {T}

theorem readKey_of {ipk : IssuerPublicKey} {k : Dlog.Spec.Key S} (h : Reads T ipk k) : readKey T ipk = .ok k := by
  simp [readKey, h.hSk, h.hRand, h.hAttrs, h.w]

theorem readNym_of {b : Bool} {an : Option AttrNym} {o : Option (S.G1 × S.F)} (h : DecodesNym T b an o) :
    readNym T b an = .ok o := by
  rcases h with ⟨rfl, rfl⟩ | ⟨rfl, a, n, rfl, h, rfl⟩
  · rfl
  · simp [readNym, h]

theorem readSig_of {sig : Signature} {vt : VerType} {v : Dlog.Spec.Sig S} (h : Views T sig vt v) : readSig T sig vt = .ok v := by
  obtain ⟨⟨f0, f00, f000, f0000, f1, f2, f3, f4, f5, f6, f7, f8, f9⟩, he, hr⟩ := h
  simp only [readSig, f0, f00, f000, f0000, readNym_of he, readNym_of hr, Res.ok_bind, Res.pure_def, Res.ok.injEq]
  cases v
  simp_all

theorem disclosed_of {p : Policy S} {vs : List S.F} (h : vs.map some = dis p.D p.values) : p.disclosed = vs := by
  rw [Policy.disclosed, ← h]
  simp

theorem merge_of {D : Bytes} {attrs : List S.F} (h : attrs.length = D.length) : merge D (hid D attrs) (dis D attrs) = attrs := by
  induction D generalizing attrs with
  | nil => cases attrs with
    | nil => rfl
    | cons a as => simp at h
  | cons d ds ih =>
    cases attrs with
    | nil => simp at h
    | cons a as =>
      have := ih (attrs := as) (by simpa using h)
      by_cases hd : d = 0
      · subst hd
        simp [merge, this]
      · simp [merge, hid_cons_ne hd, dis_cons_ne hd, hd, this]

theorem dis_of_discloses {D : Bytes} {values : List (Option S.F)} {attrs : List S.F} (h : Dlog.Spec.Discloses D values attrs) :
    (dis D attrs).map some = dis D values := by
  obtain ⟨hl, h⟩ := h
  induction D generalizing values attrs with
  | nil => simp
  | cons d ds ih =>
    cases attrs with
    | nil => simp at hl
    | cons a as =>
      cases values with
      | nil =>
        have := ih (values := []) (attrs := as) (by simpa using hl) fun i d' h1 h2 => by
          obtain ⟨b, -, hb⟩ := h (i + 1) d' (by simpa using h1) h2
          simp at hb
        by_cases hd : d = 0
        · subst hd
          simpa using this
        · obtain ⟨b, -, hb⟩ := h 0 d rfl hd
          simp at hb
      | cons v vs =>
        have := ih (values := vs) (attrs := as) (by simpa using hl) fun i d' h1 h2 => by
          simpa using h (i + 1) d' (by simpa using h1) h2
        by_cases hd : d = 0
        · subst hd
          simpa using this
        · obtain ⟨b, hb, hv⟩ := h 0 d rfl hd
          simp at hb hv
          simp [dis_cons_ne hd, this, hb, hv]

theorem question_of {ipk : IssuerPublicKey} {k : Dlog.Spec.Key S} {p : Policy S} {sig : Signature} {msg : Bytes} {v : Dlog.Spec.Sig S}
    {vs : List S.F} (hk : Reads T ipk k) (hv : Views T sig p.vt v) (hvs : vs.map some = dis p.D p.values) :
    question T ipk p sig msg =
      v.transcript (sigLabelOf v) k ipk.hash p.D vs p.eidIndex.toNat p.rhIndex.toNat msg := by
  rw [question, readKey_of hk, readSig_of hv, disclosed_of hvs]

/-- Two plays as in `Forked` give a credential. -/
theorem forked_knows {ipk : IssuerPublicKey} {p : Policy S} (hvt : p.vt ≠ .bestEffort)
    {forger : Strategy S.F (Signature × Bytes)} {r : ((Signature × Bytes) × Table S.F) × ((Signature × Bytes) × Table S.F)}
    (h : (signatures T ipk p forger).Forked r) :
    ∃ x attrs, credentialOf T p r.1.1.1 r.2.1.1 = .ok (x, attrs) ∧ Knows T ipk p r.1.1.1 x attrs ∧
      attrs.length = ipk.attributeNames.length := by
  obtain ⟨acc₁, acc₂, hfirst, hans⟩ := h
  obtain ⟨⟨⟨sig₁, msg₁⟩, tab₁⟩, ⟨⟨sig₂, msg₂⟩, tab₂⟩⟩ := r
  simp only [signatures, Game.answer] at acc₁ acc₂ hfirst hans
  obtain ⟨k, v₁, vs, a1, a2, -, -, a5, -⟩ := ver_withHash acc₁
  obtain ⟨k', v₂, vs', b1, b2, -, -, b5, -⟩ := ver_withHash acc₂
  obtain rfl := b1.unique a1
  obtain rfl : vs' = vs := List.map_injective_iff.mpr (Option.some_injective _) (b5.trans a5.symm)
  rw [question_of b1 a2 b5, question_of b1 b2 b5] at hfirst hans
  obtain ⟨attrs, r1, rh, r2, -, r4⟩ := C10_signature_extraction T (oracle tab₁) (oracle tab₂) ipk sig₁ sig₂ p.D msg₁ msg₂ p.values
    p.rhIndex p.eidIndex () () 0 0 p.vt none none acc₁ acc₂ k' b1 v₁ v₂ a2 b2 (.inl hvt) vs' b5 _ _ rfl rfl hfirst (by
      rw [Dlog.Spec.second, Dlog.Spec.second, a2.decodes.nonce, b2.decodes.nonce]
      exact hans)
  have hm : merge p.D (v₁.extract v₂).hidden p.disclosed = attrs := by
    rw [← rh, disclosed_of b5]
    have : vs' = dis p.D attrs :=
      List.map_injective_iff.mpr (Option.some_injective _) (b5.trans (dis_of_discloses r1).symm)
    rw [this, merge_of r1.1]
  have hD : p.D.length = ipk.attributeNames.length := by
    obtain ⟨ipk', _, _, _, e, sh, -⟩ := ver_ok_iff.mp acc₁
    cases e
    exact sh.D_len
  refine ⟨v₁.extract v₂, attrs, ?_, ⟨k', v₁.nym, b1, a2.decodes.nym, r1, r2, r4⟩, r1.1.trans hD⟩
  simp [credentialOf, readSig_of a2, readSig_of b2, hm]

open scoped Classical in
/-- C89. Take any forger of signatures for an issuer key and a policy that names the types of commitments, and any number `q` of hash
questions. If it succeeds for the fraction `ε` of all the answers that the hash function may give, then for at least the fraction
`ε² / q - 2 q ε / |F|` of all pairs of answers, a credential with the attributes that the verifier asked for is computed from a play and its fork, with an
opening of the pseudonym. -/
theorem C89_knowledge [Fintype S.F] (ipk : IssuerPublicKey) (p : Policy S) (hvt : p.vt ≠ .bestEffort)
    (forger : Strategy S.F (Signature × Bytes)) (q : Nat) :
    let g := signatures T ipk p forger
    let W := Finset.univ.filter fun ω : Fin q → S.F => ∃ a tab, g.Wins ω a tab
    Fintype.card S.F * W.card ^ 2 ≤
      q * Fintype.card S.F * (Finset.univ.filter fun ωs : (Fin q → S.F) × (Fin q → S.F) =>
        ∃ r x attrs, g.fork ωs.1 ωs.2 = some r ∧ credentialOf T p r.1.1.1 r.2.1.1 = .ok (x, attrs) ∧
          Knows T ipk p r.1.1.1 x attrs).card +
      2 * q ^ 2 * W.card * Fintype.card (Fin q → S.F) := by
  intro g W
  refine le_trans (forks g q (fun x => S.zrOfBytes (x.take S.scalarLen)) ?_)
    (Nat.add_le_add_right (Nat.mul_le_mul_left _ (Finset.card_le_card ?_)) _)
  · intro a c
    show S.zrOfBytes ((S.zrBytes c ++ _).take S.scalarLen) = c
    rw [List.take_append_of_le_length (by simp), List.take_of_length_le (by simp), S.zrOfBytes_zrBytes]
  · intro ωs h
    simp only [Finset.mem_filter, Finset.mem_univ, true_and] at h ⊢
    obtain ⟨r, h1, h2⟩ := h
    obtain ⟨x, attrs, h3, h4, -⟩ := forked_knows hvt h2
    exact ⟨r, x, attrs, h1, h3, h4⟩

/-! ## Impostors -/

/-- Somebody who asks an issuer for credentials and then tries to make signatures, with the help of the hash function. -/
structure Spec.Impostor (S : Suite) where
  ask : IssuerPublicKey → List Credential → Forge.Spec.Ask S
  attack : IssuerPublicKey → List Credential → Strategy S.F (Signature × Bytes)

variable (T) in
/-- The forger of credentials that plays the attack with the answers `ω`, and again with answers of `ω'` from the question on that
matters, and computes a credential from both. -/
def Spec.Impostor.forger (B : Impostor S) (p : Policy S) {q : Nat} (ω ω' : Fin q → S.F) : Forge.Spec.Forger S where
  ask := B.ask
  forge ipk creds :=
    match (signatures T ipk p (B.attack ipk creds)).fork ω ω' with
    | none => ⟨0, 0, 0, 0, []⟩
    | some r =>
      match credentialOf T p r.1.1.1 r.2.1.1 with
      | .ok (x, attrs) => ⟨x.A, x.e, x.s, x.sk, attrs⟩
      | _ => ⟨0, 0, 0, 0, []⟩

theorem play_ask {f f' : Forge.Spec.Forger S} (h : f.ask = f'.ask) (ipk : IssuerPublicKey)
    (issue : Nat → Forge.Spec.Ask S → Res Credential) (n : Nat) : f.play ipk issue n = f'.play ipk issue n := by
  induction n with
  | zero => rfl
  | succ n ih => rw [Forge.Spec.Forger.play, Forge.Spec.Forger.play, ih, h]

theorem issued_ask {m : IpkMarshal} {names : List Bytes} {f f' : Forge.Spec.Forger S} (h : f.ask = f'.ask) {ρ : IssuerRand S}
    {key : IssuerKey} {es ss : List S.F} {creds : List Credential} (I : Forge.Spec.Issued T m names f ρ key es ss creds) :
    Forge.Spec.Issued T m names f' ρ key es ss creds where
  made := I.made
  len := I.len
  played := by rw [← play_ask h]; exact I.played
  known := by rw [← h]; exact I.known
  regular := I.regular

open scoped Classical in
/-- C89. An impostor who asked for credentials, none of which has the attributes that a verifier asks for, and whose signatures the verifier
accepts for the fraction `ε` of all the answers of the hash function, gives for at least the fraction `ε² / q - 2 q ε / |F|` of all pairs
of answers a forger of credentials, from which the reduction of C87 solves the strong Diffie–Hellman problem for all but at most the
fraction `1 / |F|` of its choices. -/
theorem C89_impostors [Fintype S.F] {m : IpkMarshal} {names : List Bytes} (B : Impostor S) (p : Policy S) (hvt : p.vt ≠ .bestEffort)
    (q : Nat) {ρ : IssuerRand S} {key : IssuerKey} {es ss : List S.F} {creds : List Credential}
    (I : ∀ ω ω' : Fin q → S.F, Forge.Spec.Issued T m names (B.forger T p ω ω') ρ key es ss creds) (hes : es.Nodup) (hne : es ≠ [])
    (uncertified : ∀ i < es.length, ¬ Dlog.Spec.Discloses p.D p.values (B.ask key.ipk (creds.take i)).attrs)
    (θ u0 : S.F) (hθ : θ ≠ 0) (hu : u0 ≠ 0) :
    let W := Finset.univ.filter fun ω : Fin q → S.F =>
      ∃ a tab, (signatures T key.ipk p (B.attack key.ipk creds)).Wins ω a tab
    Fintype.card S.F * W.card ^ 2 ≤
      q * Fintype.card S.F * (Finset.univ.filter fun ωs : (Fin q → S.F) × (Fin q → S.F) => ∃ j < es.length,
        Fintype.card S.F * (Finset.univ.filter fun us : Fin (names.length + 1) → S.F =>
          ¬ Forge.Spec.Solved T m names (B.forger T p ωs.1 ωs.2) ρ key.ipk es ss creds j ⟨θ, u0, List.ofFn us⟩).card ≤
          Fintype.card (Fin (names.length + 1) → S.F)).card +
      2 * q ^ 2 * W.card * Fintype.card (Fin q → S.F) := by
  intro W
  refine le_trans (forks (signatures T key.ipk p (B.attack key.ipk creds)) q (fun x => S.zrOfBytes (x.take S.scalarLen)) ?_)
    (Nat.add_le_add_right (Nat.mul_le_mul_left _ (Finset.card_le_card ?_)) _)
  · intro a c
    show S.zrOfBytes ((S.zrBytes c ++ _).take S.scalarLen) = c
    rw [List.take_append_of_le_length (by simp), List.take_of_length_le (by simp), S.zrOfBytes_zrBytes]
  · rintro ⟨ω, ω'⟩ h
    simp only [Finset.mem_filter, Finset.mem_univ, true_and] at h ⊢
    obtain ⟨r, h1, h2⟩ := h
    obtain ⟨x, attrs, h3, ⟨k, -, hk, -, hd, hc, -⟩, hl⟩ := forked_knows hvt h2
    obtain ⟨_, _, -, -, -, hipk, -, hread⟩ := Forge.newIssuerKey_parts (I ω ω').made
    have hz : (B.forger T p ω ω').forge key.ipk creds = ⟨x.A, x.e, x.s, x.sk, attrs⟩ := by
      simp only [Impostor.forger, h1, h3]
    have hnames : key.ipk.attributeNames = names := by rw [hipk]; rfl
    rw [hnames] at hl
    obtain rfl := hk.unique hread
    obtain ⟨j, hj, hguess⟩ := Forge.C87_guess hes hne x.e
    refine ⟨j, hj, Forge.C87_solved (I ω ω') hj θ u0 hθ hu ?_ ?_ ?_ ?_⟩
    · rw [hz]; exact hc
    · rw [hz]; exact le_of_eq hl
    · rw [hz]
      intro hs
      refine uncertified j hj ?_
      obtain ⟨cred, hcred⟩ := Forge.play_answer (I ω ω').played hj
      obtain ⟨-, -, -, -, -, -, h1, -⟩ := Forge.newCredential_isk (isk := []) hcred
      have ha : (B.ask key.ipk (creds.take j)).attrs = attrs := by
        apply List.ext_getElem
        · rw [hl, ← hnames]; exact h1
        · intro i hi hi'
          have := hs (i + 1)
          simp only [Forge.Spec.Forgery.messages, Forge.Spec.asked, Forge.Spec.Ask.messages, List.getElem?_cons_succ] at this
          rw [List.getElem?_eq_getElem hi', show (B.forger T p ω ω').ask = B.ask from rfl, List.getElem?_eq_getElem hi] at this
          exact this.symm
      rw [ha]
      exact hd
    · rw [hz]; exact hguess

end Idemix.Fork
