import Verif.Fork.Single
import Verif.Forge.Bbs
import Verif.Bbs.PropsWeak

/-!
# C98: whoever makes BBS+ proofs that are accepted has a signature on the messages disclosed

C27 computes a signature from two proofs with the same first messages and different challenges. Here they are obtained from any program that
makes proofs with the help of the hash function, by running it twice, and C96 says what follows if nobody signed the disclosed messages.
-/

namespace Idemix.Fork

open Idemix (Suite Res Bytes)
open Idemix.Bbs
open Spec

variable {S : Suite}

/-! ## Specification -/

/-- The library with any hash function in the place of BLAKE2b and the reduction to scalars. -/
structure Spec.RandomOracle (S : Suite) where
  lib : (Bytes → S.F) → Lib S
  scalar : ∀ h x, frFromOKM (lib h) x = h x

/-- What a verifier asks for: proofs that disclose `messages`, at the positions `revealed` of `count` messages, and its nonce. -/
structure Spec.Demand where
  messages : List Bytes
  nonce : Bytes
  count : Nat
  revealed : List Nat

/-- The hash function with these answers to the questions that were asked before, as `h` for others. -/
def Spec.after {F : Type} (before : Table F) (h : Bytes → F) (x : Bytes) : F := (before.lookup x).getD (h x)

/-- What is hashed to obtain the challenge of a proof; `ν` is the scalar of the nonce. -/
def Spec.proofTranscript (w : S.G2) (n : Nat) (rs : List Nat) (ν : S.F) (p : SigProof S) : Bytes :=
  S.g1Bytes p.aBar ++ S.g1Bytes p.aPrime ++ S.g1Bytes (Bbs.Spec.generator w n 0) ++
    S.g1Bytes p.vc1.commitment ++ S.g1Bytes p.d ++ S.g1Bytes (Bbs.Spec.generator w n 0) ++
    ((Bbs.Spec.unshown rs (Bbs.Spec.generators w n)).map S.g1Bytes).flatten ++ S.g1Bytes p.vc2.commitment ++ S.zrBytes ν

/-- The part of a proof after the payload. -/
def Spec.Demand.parse (d : Demand) (S : Suite) (proof : Bytes) : Res (SigProof S) :=
  parseSignatureProof S (proof.drop (2 + d.count / 8 + 1))

/-- Somebody who makes proofs, and a verifier who has the public key `w`. All the messages and the nonce have been hashed before. The
verifier also checks what `VerifyProof` does not: the number of messages and the positions disclosed, and the number of responses. -/
def Spec.proofs (R : RandomOracle S) (before : Table S.F) (w : S.G2) (d : Demand) (prover : Strategy S.F Bytes) : Single S.F Bytes where
  forger := prover
  question proof :=
    match d.parse S proof with
    | .ok p => proofTranscript w d.count d.revealed (oracle before d.nonce) p
    | _ => []
  accepts h proof := parsePoKPayload proof = .ok (d.count, d.revealed) ∧
    (∃ p, d.parse S proof = .ok p ∧ Bbs.Spec.WellFormed p d.revealed d.count) ∧
    verifyProof (R.lib (after before h)) d.messages proof d.nonce (S.g2Comp w) = .ok ()

/-- The scalars `ms` have the demanded messages at the positions disclosed. -/
def Spec.Demand.Met (d : Demand) (before : Table S.F) (ms : List S.F) : Prop :=
  ms.length = d.count ∧ Bbs.Spec.shown d.revealed ms <+: d.messages.map (oracle before)

/-- The signature computed from two plays: that of C27. -/
def Spec.signatureOf (before : Table S.F) (w : S.G2) (d : Demand) (r : (Bytes × Table S.F) × (Bytes × Table S.F)) :
    Res (ForgeBbs.Spec.Forgery S) := do
  let p ← d.parse S r.1.1
  let q ← d.parse S r.2.1
  let ν := oracle before d.nonce
  let x := Bbs.Spec.extract p q (oracle r.1.2 (proofTranscript w d.count d.revealed ν p))
    (oracle r.2.2 (proofTranscript w d.count d.revealed ν q))
  pure ⟨⟨x.A, x.e, x.s⟩, merge d.revealed d.count 0 (d.messages.map (oracle before)) x.hidden⟩

/-- The hash questions `before` contain the messages and the nonce, and nothing that has the length of what is hashed for a challenge. -/
structure Spec.Demand.Prepared (d : Demand) (S : Suite) (before : Table S.F) : Prop where
  messages : ∀ m ∈ d.messages, ∃ c, before.lookup m = some c
  nonce : ∃ c, before.lookup d.nonce = some c
  other : ∀ e ∈ before, e.1.length ≠
    (7 + ((List.range d.count).filter fun i => !d.revealed.contains i).length) * S.g1Len + S.scalarLen

/-! ## Proofs -/

theorem after_some {F : Type} [Zero F] {before : Table F} {h : Bytes → F} {x : Bytes} {c : F} (hx : before.lookup x = some c) :
    after before h x = oracle before x := by simp [after, oracle, hx]

theorem mem_of_lookup {F : Type} {before : Table F} {x : Bytes} {c : F} (h : before.lookup x = some c) : (x, c) ∈ before := by
  induction before with
  | nil => simp at h
  | cons e es ih =>
    obtain ⟨y, a⟩ := e
    rw [List.lookup_cons] at h
    cases hxy : x == y with
    | true =>
      simp only [hxy, Option.some.injEq] at h
      simp [beq_iff_eq.mp hxy, h]
    | false =>
      simp only [hxy] at h
      exact List.mem_cons_of_mem _ (ih h)

theorem flatten_g1_length (Ps : List S.G1) : (Ps.map S.g1Bytes).flatten.length = Ps.length * S.g1Len := by
  induction Ps with
  | nil => simp
  | cons P Ps ih => simp [ih, S.g1Bytes_len]; ring

theorem proofTranscript_length (w : S.G2) (n : Nat) (rs : List Nat) (ν : S.F) (p : SigProof S) :
    (proofTranscript w n rs ν p).length =
      (7 + ((List.range n).filter fun i => !rs.contains i).length) * S.g1Len + S.scalarLen := by
  have h := hidden_count rs n (Bbs.Spec.generators w n) (by simp [Bbs.Spec.generators])
  rw [← unshown_eq] at h
  simp only [proofTranscript, List.length_append, S.g1Bytes_len, flatten_g1_length, h, S.zrBytes_len]
  ring

theorem proofTranscript_inj {w : S.G2} {n : Nat} {rs : List Nat} {ν : S.F} {p q : SigProof S}
    (h : proofTranscript w n rs ν p = proofTranscript w n rs ν q) : Bbs.Spec.SameFirst p q := by
  simp only [proofTranscript] at h
  obtain ⟨h, -⟩ := List.append_inj' h (by simp)
  obtain ⟨h, h2⟩ := List.append_inj' h (by simp [S.g1Bytes_len])
  obtain ⟨h, -⟩ := List.append_inj' h (by simp)
  obtain ⟨h, -⟩ := List.append_inj' h (by simp)
  obtain ⟨h, hd⟩ := List.append_inj' h (by simp [S.g1Bytes_len])
  obtain ⟨h, h1⟩ := List.append_inj' h (by simp [S.g1Bytes_len])
  obtain ⟨h, -⟩ := List.append_inj' h (by simp)
  obtain ⟨hb, ha⟩ := List.append_inj' h (by simp [S.g1Bytes_len])
  exact ⟨S.g1Bytes_inj ha, S.g1Bytes_inj hb, S.g1Bytes_inj hd, S.g1Bytes_inj h1, S.g1Bytes_inj h2⟩

theorem merge_keep {α : Type} (rs : List Nat) (ms : List α) (i : Nat) (sh hi : List α) (h1 : keepShown rs i ms <+: sh)
    (h2 : keepHidden rs i ms <+: hi) : merge rs ms.length i sh hi = ms := by
  induction ms generalizing i sh hi with
  | nil => rfl
  | cons m ms ih =>
    simp only [keepShown, keepHidden] at h1 h2
    simp only [List.length_cons, merge]
    cases hc : rs.contains i with
    | true =>
      simp only [hc, if_true] at h1 h2 ⊢
      cases sh with
      | nil => simp at h1
      | cons x xs =>
        rw [List.cons_prefix_cons] at h1
        simp only [h1.1, ih _ _ _ h1.2 (by simpa using h2)]
    | false =>
      simp only [hc] at h1 h2 ⊢
      cases hi with
      | nil => simp at h2
      | cons x xs =>
        simp only [Bool.false_eq_true, if_false] at h1 h2 ⊢
        rw [List.cons_prefix_cons] at h2
        simp only [h2.1, ih _ _ _ (by simpa using h1) h2.2]

/-- Two proofs as in `Forked` give a signature on the disclosed messages. -/
theorem forked_proof {R : RandomOracle S} {before : Table S.F} {w : S.G2} {d : Demand} (hd : d.Prepared S before)
    {prover : Strategy S.F Bytes} {r : (Bytes × Table S.F) × (Bytes × Table S.F)} (h : (proofs R before w d prover).Forked r) :
    ∃ z, signatureOf before w d r = .ok z ∧ z.Valid w ∧ d.Met before z.scalars := by
  obtain ⟨⟨hp, ⟨p, hp', wp⟩, acc₁⟩, ⟨hq, ⟨q, hq', wq⟩, acc₂⟩, hQ, hA⟩ := h
  obtain ⟨⟨proof₁, tab₁⟩, ⟨proof₂, tab₂⟩⟩ := r
  simp only [proofs] at hp hp' acc₁ hq hq' acc₂ hQ hA
  rw [hp', hq'] at hQ hA
  simp only at hQ hA
  obtain ⟨cn, hn⟩ := hd.nonce
  have hm : ∀ h : Bytes → S.F, messagesToFr (R.lib (after before h)) d.messages =
      d.messages.mapIdx fun i m => (⟨oracle before m, i⟩ : SigMsg S) := by
    intro h
    apply List.ext_getElem?
    intro i
    simp only [messagesToFr, List.getElem?_mapIdx]
    cases hi : d.messages[i]? with
    | none => rfl
    | some m =>
      obtain ⟨c, hc⟩ := hd.messages m (List.mem_of_getElem? hi)
      simp [R.scalar, after_some hc]
  have hch : ∀ (h : Bytes → S.F) (p : SigProof S), Bbs.Spec.challenge (R.lib (after before h)) p d.revealed w d.count d.nonce =
      h (proofTranscript w d.count d.revealed (oracle before d.nonce) p) := by
    intro h p
    rw [Bbs.Spec.challenge, R.scalar, R.scalar, after_some hn, ← unshown_eq]
    show after before h (proofTranscript w d.count d.revealed (oracle before d.nonce) p) = _
    rw [after]
    cases hl : before.lookup (proofTranscript w d.count d.revealed (oracle before d.nonce) p) with
    | none => rfl
    | some c => exact absurd (proofTranscript_length _ _ _ _ _) (hd.other _ (mem_of_lookup hl))
  rw [verifyProof, hm] at acc₁ acc₂
  obtain ⟨ms, h1, h2, h3, h4⟩ := ForgeBbs.C96_proofs _ _ _ proof₁ proof₂ d.nonce d.nonce d.count d.revealed p q w acc₁ acc₂ hp hq hp' hq'
    (proofTranscript_inj hQ) wp wq (by rw [hch, hch]; exact hA)
  rw [hch, hch] at h1 h4
  have hfr : (d.messages.mapIdx fun i m => (⟨oracle before m, i⟩ : SigMsg S)).map (·.fr) = d.messages.map (oracle before) := by
    apply List.ext_getElem?
    intro i
    simp
    cases d.messages[i]? <;> rfl
  rw [hfr] at h3
  have hpre : Bbs.Spec.shown d.revealed ms <+: d.messages.map (oracle before) := by
    rw [h3]; exact List.take_prefix _ _
  have hms : merge d.revealed d.count 0 (d.messages.map (oracle before)) (Bbs.Spec.extract p q
      (oracle tab₁ (proofTranscript w d.count d.revealed (oracle before d.nonce) p))
      (oracle tab₂ (proofTranscript w d.count d.revealed (oracle before d.nonce) q))).hidden = ms := by
    have h := merge_keep d.revealed ms 0 (d.messages.map (oracle before)) _ (by rw [← shown_eq]; exact hpre)
      (by rw [← unshown_eq, h4])
    rwa [h2] at h
  refine ⟨_, ?_, h1, h2, hpre⟩
  simp only [signatureOf, hp', hq', Res.ok_bind, Res.pure_def, hms]

open scoped Classical in
/-- **C98 (partial).** Take anybody who makes proofs, with at most `q` hash questions, counting that of the verifier. If the verifier accepts
for the fraction `ε` of all answers that the hash function may give, then for at least the fraction `ε² / q - 2 q ε / |F|` of all pairs of answers a
signature on a list with the disclosed messages is computed from two plays. What is missing: verifiers who let the prover choose the messages
are deceived (`C98_violated`), as are those who do not count the responses (`C27_violated`); `VerifyProof` leaves both to its caller. -/
theorem C98_knowledge_partial [Fintype S.F] (R : RandomOracle S) (before : Table S.F) (w : S.G2) (d : Demand) (hd : d.Prepared S before)
    (prover : Strategy S.F Bytes) (q : Nat) :
    let g := proofs R before w d prover
    let W := Finset.univ.filter fun ω : Fin q → S.F => ∃ proof tab, g.Wins ω proof tab
    Fintype.card S.F * W.card ^ 2 ≤
      q * Fintype.card S.F * (Finset.univ.filter fun ωs : (Fin q → S.F) × (Fin q → S.F) =>
        ∃ r z, g.fork ωs.1 ωs.2 = some r ∧ signatureOf before w d r = .ok z ∧ z.Valid w ∧ d.Met before z.scalars).card +
      2 * q ^ 2 * W.card * Fintype.card (Fin q → S.F) := by
  intro g W
  refine le_trans (Single.forks g q) (Nat.add_le_add_right (Nat.mul_le_mul_left _ (Finset.card_le_card ?_)) _)
  intro ωs h
  simp only [Finset.mem_filter, Finset.mem_univ, true_and] at h ⊢
  obtain ⟨r, h1, h2⟩ := h
  obtain ⟨z, h3⟩ := forked_proof hd h2
  exact ⟨r, z, h1, h3⟩

/-! ## Impostors -/

/-- Somebody who asks for signatures and then tries to make proofs, with the help of the hash function. -/
structure Spec.Presenter (S : Suite) where
  ask : S.G2 → (Nat → List S.G1) → List Bytes → List Bytes
  attack : S.G2 → (Nat → List S.G1) → List Bytes → Strategy S.F Bytes

/-- The forger of signatures that plays the attack twice. -/
def Spec.Presenter.forger (B : Presenter S) (R : RandomOracle S) (before : Table S.F) (d : Demand) {q : Nat} (ω ω' : Fin q → S.F) :
    ForgeBbs.Spec.Forger S where
  ask := B.ask
  forge w g sigs :=
    match (proofs R before w d (B.attack w g sigs)).fork ω ω' with
    | none => ⟨⟨0, 0, 0⟩, []⟩
    | some r =>
      match signatureOf before w d r with
      | .ok z => z
      | _ => ⟨⟨0, 0, 0⟩, []⟩

open ForgeBbs.Spec in
theorem signed_ask {L : Lib S} {f f' : Forger S} (h : f.ask = f'.ask) {x : S.F} {b : Nat → List S.F} {es ss : List S.F} {sigs : List Bytes}
    (I : Signed L f x b es ss sigs) : Signed L f' x b es ss sigs where
  len := I.len
  played := by
    have : ∀ n, f.play (x • S.genG2) (gens (x • S.genG2)) (signer L x es ss) n =
        f'.play (x • S.genG2) (gens (x • S.genG2)) (signer L x es ss) n := by
      intro n
      induction n with
      | zero => rfl
      | succ n ih => rw [Forger.play, Forger.play, ih, h]
    rw [← this]
    exact I.played
  logs := I.logs
  few := by
    have : asked f' x sigs = asked f x sigs := by funext i; rw [asked, asked, h]
    rw [this]
    exact I.few
  regular := I.regular

open ForgeBbs.Spec in
open scoped Classical in
/-- **C98 (partial).** An impostor who asked for signatures, none of them for a list with the messages that the verifier demands, and whose
proofs the verifier accepts for the fraction `ε` of all the answers of the hash function, gives for at least the fraction
`ε² / q - 2 q ε / |F|` of all pairs of answers a forger of signatures, with which the reduction of C96 solves the strong Diffie–Hellman problem
for all but at most one in `|F|` choices. `L` is the library of the signer, whose hash function gives the answers
`before` to the messages. See `C98_knowledge_partial` for what is missing. -/
theorem C98_impostors_partial [Fintype S.F] (h32 : S.scalarLen = 32) (R : RandomOracle S) (before : Table S.F) (L : Lib S) (d : Demand)
    (hd : d.Prepared S before) (B : Presenter S) (q : Nat) {x : S.F} {b : Nat → List S.F} {es ss : List S.F} {sigs : List Bytes}
    (I : ∀ ω ω' : Fin q → S.F, Signed L (B.forger R before d ω ω') x b es ss sigs) (hes : es.Nodup) (hne : es ≠ [])
    (unsigned : ∀ i < es.length, ¬ d.Met before (scalars L (B.ask (x • S.genG2) (gens (x • S.genG2)) (sigs.take i))))
    (regular : ∀ i < es.length, ∃ m ∈ B.ask (x • S.genG2) (gens (x • S.genG2)) (sigs.take i), frFromOKM L m ≠ 0)
    (θ : S.F) (hθ : θ ≠ 0) {N : Nat} (hN : d.count < N)
    (hNs : ∀ i < es.length, (B.ask (x • S.genG2) (gens (x • S.genG2)) (sigs.take i)).length < N) :
    let prover := B.attack (x • S.genG2) (gens (x • S.genG2)) sigs
    let W := Finset.univ.filter fun ω : Fin q → S.F => ∃ proof tab, (proofs R before (x • S.genG2) d prover).Wins ω proof tab
    Fintype.card S.F * W.card ^ 2 ≤
      q * Fintype.card S.F * (Finset.univ.filter fun ωs : (Fin q → S.F) × (Fin q → S.F) => ∃ j < es.length,
        Fintype.card S.F * (Finset.univ.filter fun h : Secrets S N =>
          (h.lists (B.ask (x • S.genG2) (gens (x • S.genG2)) (sigs.take j)).length).headD 0 ≠ 0 ∧
            ¬ Solved L (B.forger R before d ωs.1 ωs.2) x b es ss sigs j θ h.lists).card ≤ Fintype.card (Secrets S N)).card +
      2 * q ^ 2 * W.card * Fintype.card (Fin q → S.F) := by
  intro prover W
  refine le_trans (Single.forks (proofs R before (x • S.genG2) d prover) q)
    (Nat.add_le_add_right (Nat.mul_le_mul_left _ (Finset.card_le_card ?_)) _)
  rintro ⟨ω, ω'⟩ h
  simp only [Finset.mem_filter, Finset.mem_univ, true_and] at h ⊢
  obtain ⟨r, h1, h2⟩ := h
  obtain ⟨z, h3, h4, h5⟩ := forked_proof hd h2
  have hz : forged (B.forger R before d ω ω') x sigs = z := by
    simp only [forged, Presenter.forger, h3, show (proofs R before (x • S.genG2) d
      (B.attack (x • S.genG2) (gens (x • S.genG2)) sigs)).fork ω ω' = some r from h1]
  obtain ⟨j, hj, guess⟩ := ForgeBbs.C96_guess hes hne z.sig.e
  have hask : ∀ i, asked (B.forger R before d ω ω') x sigs i = B.ask (x • S.genG2) (gens (x • S.genG2)) (sigs.take i) := fun _ => rfl
  refine ⟨j, hj, ?_⟩
  rw [← hask j]
  refine ForgeBbs.C96_solved h32 (I ω ω') hj hθ hz h4 guess (by rw [h5.1]; exact hN) (by rw [hask]; exact hNs j hj) ?_
  split
  · intro heq
    rw [List.cons.injEq] at heq
    refine unsigned j hj ?_
    rw [← hask j, ← heq.2]
    exact h5
  · obtain ⟨m, hm, h0⟩ := regular j hj
    refine ⟨frFromOKM L m, ?_, h0⟩
    simp only [List.mem_cons, List.mem_append]
    refine .inr (.inr (.inr ?_))
    rw [hask]
    exact List.mem_map_of_mem hm

/-! ## Examples -/

namespace BbsEx

open Idemix.Bbs.Ex

/-- The digest that `FrFromOKM` turns into `c`. -/
def digest (c : Toy.K) : Bytes := List.replicate 47 0 ++ [UInt8.ofNat c.val]

theorem scalar_digest : ∀ c : Toy.K, S32.zrOfBytes (List.replicate 8 0 ++ (digest c).take 24) * S32.zrOfBytes f2192Bytes +
    S32.zrOfBytes (List.replicate 8 0 ++ (digest c).drop 24) = c := by decide +kernel

def random : RandomOracle S32 where
  lib h := { L32 with okm := fun x => digest (h x), okm_len := fun _ => rfl }
  scalar h x := scalar_digest (h x)

/-- The scalars of three messages, and of the nonce `[9]`. -/
def before : Table Toy.K := [([1], 1), ([2, 3], 5), ([4], 4), ([9], 6)]

/-- The verifier wants to see the first message and the last one. -/
def demand : Demand := ⟨[[1], [4]], [9], 3, [0, 2]⟩

set_option maxRecDepth 40000 in
example : demand.Prepared S32 before := ⟨by decide, ⟨6, rfl⟩, by decide⟩

/-- The signature with `e = 2`, `s = 5` and the secret key 3. -/
def sig : Sig S32 := match parseSignature S32 (match Bbs.sign (random.lib (oracle before)) [[1], [2, 3], [4]] (Toy.enc32 3) (2 : Toy.K) (5 : Toy.K) with
  | .ok x => x | _ => []) with
  | .ok σ => σ
  | _ => ⟨(0 : Toy.K), (0 : Toy.K), (0 : Toy.K)⟩

/-- The first messages of a proof. -/
def first : PoK S32 := honestPoK sig [(1 : Toy.K), (5 : Toy.K), (4 : Toy.K)] [0, 2] (pkg (3 : Toy.K) 3)
  ⟨(3 : Toy.K), (4 : Toy.K), fun i => (i : Nat), fun i => ((i + 2 : Nat) : Toy.K)⟩

/-- The proof for the challenge `c`. -/
def proof (c : Toy.K) : Bytes :=
  (match Payload.toBytes ⟨3, [0, 2]⟩ with | .ok x => x | _ => []) ++ (first.respond c).enc

/-- The holder of the signature, who asks for the challenge. -/
def holder : Strategy Toy.K Bytes :=
  .ask (proofTranscript (S := S32) (3 : Toy.K) 3 [0, 2] (6 : Toy.K) (first.respond (1 : Toy.K))) fun c => .done (proof c)

def game : Single Toy.K Bytes := proofs random before (3 : Toy.K) demand holder

set_option maxRecDepth 40000 in
/-- The proof is accepted for every answer. -/
example : ∀ c : Toy.K, game.Wins (q := 1) (fun _ => c) (proof c)
    [(proofTranscript (S := S32) (3 : Toy.K) 3 [0, 2] (6 : Toy.K) (first.respond (1 : Toy.K)), c)] := by
  intro c
  refine ⟨?_, ?_, ⟨first.respond c, ?_, ?_, ?_⟩, ?_⟩
  · revert c; decide +kernel
  · revert c; decide +kernel
  · have h := parseSignatureProof_enc (S := S32) rfl (first.respond c) [] (by revert c; decide +kernel) (by revert c; decide +kernel)
      (by revert c; decide +kernel)
    rw [List.append_nil] at h
    have hdrop : (proof c).drop (2 + 3 / 8 + 1) = (first.respond c).enc := by clear h; revert c; decide +kernel
    rw [← hdrop] at h
    exact h
  · revert c; decide +kernel
  · revert c; decide +kernel
  · revert c; decide +kernel

set_option maxRecDepth 40000 in
/-- Two plays give away the signature and the hidden message. -/
example : ((game.fork (q := 1) (fun _ => (3 : Toy.K)) (fun _ => (4 : Toy.K))).map fun r =>
    match signatureOf before (3 : Toy.K) demand r with
    | .ok z => decide (z.sig.a = sig.a ∧ z.sig.e = sig.e ∧ z.sig.s = sig.s ∧ z.scalars = [(1 : Toy.K), (5 : Toy.K), (4 : Toy.K)])
    | _ => false) = some true := by decide +kernel

/-- An impostor that asks for a signature on two messages and then plays the holder; the group of the example is the field. -/
def presenter : Presenter S32 := ⟨fun _ _ _ => [[1], [2, 3]], fun _ _ _ => holder⟩

/-- The signature that it gets. -/
def given : Bytes := match Bbs.sign (random.lib (oracle before)) [[1], [2, 3]] (Toy.enc32 3) (2 : Toy.K) (5 : Toy.K) with
  | .ok x => x
  | _ => []

open ForgeBbs.Spec in
set_option maxRecDepth 40000 in
/-- It meets the hypotheses of `C98_impostors_partial`. -/
example : (∀ ω ω' : Fin 1 → Toy.K, Signed (random.lib (oracle before)) (presenter.forger random before demand ω ω') (3 : Toy.K)
      (gens ((3 : Toy.K) • S32.genG2)) [(2 : Toy.K)] [(5 : Toy.K)] [given]) ∧
    (∀ i < 1, ¬ demand.Met before (scalars (random.lib (oracle before))
      (presenter.ask ((3 : Toy.K) • S32.genG2) (gens ((3 : Toy.K) • S32.genG2)) ([given].take i)))) ∧
    (∀ i < 1, ∃ m ∈ presenter.ask ((3 : Toy.K) • S32.genG2) (gens ((3 : Toy.K) • S32.genG2)) ([given].take i),
      frFromOKM (random.lib (oracle before)) m ≠ (0 : Toy.K)) := by
  have base : Signed (random.lib (oracle before)) ⟨presenter.ask, fun _ _ _ => ⟨⟨(0 : Toy.K), (0 : Toy.K), (0 : Toy.K)⟩, []⟩⟩ (3 : Toy.K)
      (gens ((3 : Toy.K) • S32.genG2)) [(2 : Toy.K)] [(5 : Toy.K)] [given] :=
    { len := rfl, played := by decide +kernel, logs := fun n => ForgeBbs.Ex.smul_gen _, few := by decide +kernel,
      regular := by decide +kernel }
  refine ⟨fun ω ω' => by refine signed_ask ?_ base; rfl, ?_, ?_⟩
  · rintro i - ⟨h, -⟩
    exact absurd h (show ¬ (2 = 3) by decide)
  · intro i _
    exact ⟨[1], by simp [presenter], by decide +kernel⟩

end BbsEx

end Idemix.Fork
