import Verif.Aries.PropsHide

/-!
# C82: blind signatures on messages of which any are hidden (`blind_sign.go`)

`BlindMessages`, `VerifyBlinding`, `BlindSign` and `UnblindSign` are exported; the library itself calls them with
one hidden message only, the user's secret key (C36, C37, C71).
-/

namespace Idemix.Aries

open Bbs Bbs.Ex

variable {S : Suite} (L : Lib S)

/-- The entries of a list that a bitmap marks. -/
def Spec.marked {α : Type} : List Bool → List α → List α
  | true :: bs, x :: xs => x :: Spec.marked bs xs
  | false :: bs, _ :: xs => Spec.marked bs xs
  | _, _ => []

/-- The entries of a list that a bitmap does not mark. -/
def Spec.unmarked {α : Type} (bs : List Bool) (xs : List α) : List α := Spec.marked (bs.map (!·)) xs

/-- The messages as the user passes them to `BlindMessages`: those that stay known to the signer are left empty. -/
def Spec.toBlind (hide : List Bool) (messages : List Bytes) : List Bytes :=
  List.zipWith (fun h m => if h then m else []) hide messages

/-- The scalars as the user passes them to `BlindMessagesZr`: those that stay known to the signer are nil. -/
def Spec.toBlindZr (hide : List Bool) (vs : List S.F) : List (Option S.F) :=
  List.zipWith (fun h v => if h then some v else none) hide vs

/-! ## Sums over marked entries -/

theorem marked_length {α β : Type} : ∀ (bs : List Bool) (xs : List α) (ys : List β), xs.length = ys.length →
    (Spec.marked bs xs).length = (Spec.marked bs ys).length
  | [], _, _, _ => by simp [Spec.marked]
  | _ :: _, [], [], _ => by simp [Spec.marked]
  | _ :: _, [], _ :: _, h => by simp at h
  | _ :: _, _ :: _, [], h => by simp at h
  | true :: bs, _ :: xs, _ :: ys, h => by
    simpa [Spec.marked] using marked_length bs xs ys (by simpa using h)
  | false :: bs, _ :: xs, _ :: ys, h => by
    simpa [Spec.marked] using marked_length bs xs ys (by simpa using h)

theorem marked_map {α β : Type} (f : α → β) : ∀ (bs : List Bool) (xs : List α),
    Spec.marked bs (xs.map f) = (Spec.marked bs xs).map f
  | [], _ => by simp [Spec.marked]
  | _ :: _, [] => by simp [Spec.marked]
  | true :: bs, _ :: xs => by simp [Spec.marked, marked_map f bs xs]
  | false :: bs, _ :: xs => by simp [Spec.marked, marked_map f bs xs]

theorem marked_zipWith {α β γ : Type} (f : α → β → γ) : ∀ (bs : List Bool) (xs : List α) (ys : List β),
    Spec.marked bs (List.zipWith f xs ys) = List.zipWith f (Spec.marked bs xs) (Spec.marked bs ys)
  | [], _, _ => by simp [Spec.marked]
  | _ :: _, [], _ => by simp [Spec.marked]
  | true :: _, _ :: _, [] => by simp [Spec.marked]
  | false :: bs, _ :: xs, [] => by
    simp [Spec.marked]
  | true :: bs, _ :: xs, _ :: ys => by simp [Spec.marked, marked_zipWith f bs xs ys]
  | false :: bs, _ :: xs, _ :: ys => by simp [Spec.marked, marked_zipWith f bs xs ys]

theorem lin_marked : ∀ (bs : List Bool) (vs : List S.F) (Ps : List S.G1), bs.length = vs.length →
    vs.length = Ps.length →
    S.lin (Spec.marked bs vs) (Spec.marked bs Ps) + S.lin (Spec.unmarked bs vs) (Spec.unmarked bs Ps) = S.lin vs Ps
  | [], [], [], _, _ => by simp [Spec.marked, Spec.unmarked]
  | [], _ :: _, _, h, _ => by simp at h
  | _ :: _, [], _, h, _ => by simp at h
  | _, [], _ :: _, _, h => by simp at h
  | _, _ :: _, [], _, h => by simp at h
  | b :: bs, v :: vs, P :: Ps, h, h' => by
    have ih := lin_marked bs vs Ps (by simpa using h) (by simpa using h')
    rw [Suite.lin_cons, ← ih]
    cases b <;> simp only [Spec.unmarked, Spec.marked, List.map_cons, Bool.not_true, Bool.not_false, Suite.lin_cons] <;>
      abel

theorem present_toBlindZr : ∀ (i : Nat) (hide : List Bool) (vs : List S.F), hide.length = vs.length →
    (present i (Spec.toBlindZr hide vs)).map (·.1) = trueAt i hide ∧
      (present i (Spec.toBlindZr hide vs)).map (·.2) = Spec.marked hide vs
  | _, [], [], _ => by simp [Spec.toBlindZr, present, trueAt, Spec.marked]
  | _, [], _ :: _, h => by simp at h
  | _, _ :: _, [], h => by simp at h
  | i, b :: hide, v :: vs, h => by
    have ih := present_toBlindZr (i + 1) hide vs (by simpa using h)
    simp only [Spec.toBlindZr] at ih ⊢
    cases b <;> simp [present, trueAt, Spec.marked, ih]

theorem selectGens_marked (pk : PKG S) : ∀ (i : Nat) (hide : List Bool), i + hide.length = pk.h.length →
    selectGens pk (trueAt i hide) = .ok (Spec.marked hide (pk.h.drop i))
  | i, [], _ => by simp [selectGens, trueAt, Spec.marked]
  | i, b :: hide, h => by
    simp only [List.length_cons] at h
    have hi : i < pk.h.length := by omega
    have ih := selectGens_marked pk (i + 1) hide (by omega)
    rw [List.drop_eq_getElem_cons hi]
    unfold selectGens at ih ⊢
    cases b
    · simpa [trueAt, Spec.marked] using ih
    · simp only [Res.index_nat] at ih
      simp only [trueAt, if_true, Spec.marked, Res.mapM'_cons, Res.index_nat, List.getElem?_eq_getElem hi,
        Res.deref_some, Res.ok_bind, ih, Res.pure_def]

/-! ## Requests -/

/-- The bases of a request: `h_0` and the generators of the hidden messages. -/
def Spec.blindBases (pk : PKG S) (hide : List Bool) : List S.G1 := pk.h0 :: Spec.marked hide pk.h

/-- The request of an honest user, in general. -/
def honestBlindings (pk : PKG S) (hide : List Bool) (vs : List S.F) (s : S.F) (ρ : Nat → S.F) (nonce : Bytes) :
    Blinded S :=
  let bases := Spec.blindBases pk hide
  let secrets := s :: Spec.marked hide vs
  let c := S.lin secrets bases
  let t := S.lin (blindings bases.length ρ) bases
  let ch := blindChallenge L c t nonce
  ⟨c, t, ⟨t, List.zipWith (fun b a => b - ch * a) (blindings bases.length ρ) secrets⟩⟩

theorem toBlindZr_length (hide : List Bool) (vs : List S.F) (h : hide.length = vs.length) :
    (Spec.toBlindZr hide vs).length = vs.length := by simp [Spec.toBlindZr, h]

theorem pkg_h_length (w : S.G2) (n : Nat) : (pkg w n).h.length = n := by simp [pkg]

theorem blindMessagesZr_eq (w : S.G2) (hide : List Bool) (vs : List S.F) (h : hide.length = vs.length)
    (hn : vs.length ≤ 0xFFFFFFFF) (s : S.F) (ρ : Nat → S.F) (nonce : Bytes) :
    blindMessagesZr L (Spec.toBlindZr hide vs) w nonce s ρ =
      .ok (honestBlindings L (pkg w vs.length) hide vs s ρ nonce) := by
  have hp := present_toBlindZr 0 hide vs h
  have hl : (pkg w vs.length).h.length = vs.length := pkg_h_length w _
  have hg := selectGens_marked (pkg w vs.length) 0 hide (by omega)
  have hml : (Spec.marked hide vs).length = (Spec.marked hide (pkg w vs.length).h).length :=
    marked_length hide _ _ hl.symm
  rw [List.drop_zero] at hg
  have hf := finish_eq (Spec.blindBases (pkg w vs.length) hide) ρ (by simp [Spec.blindBases])
  simp only [blindMessagesZr, toBlindZr_length hide vs h, toPKG_eq w _ hn, Res.ok_bind, hp.1, hp.2, hg]
  rw [build_eq (by simp [hml]) (by simp)]
  simp only [Spec.blindBases] at hf
  simp only [Res.ok_bind, hf, Committed.generateProof, honestBlindings, Spec.blindBases, Res.pure_def]
  rw [show (decide _ : Bool) = false from ?_]
  · rfl
  · simp [hml]

theorem blindings_marked (w : S.G2) (hide : List Bool) (vs : List S.F) :
    (Spec.marked hide vs).length = (Spec.marked hide (pkg w vs.length).h).length :=
  marked_length hide _ _ (pkg_h_length w _).symm

theorem honestBlindings_responses (w : S.G2) (hide : List Bool) (vs : List S.F) (s : S.F) (ρ : Nat → S.F)
    (nonce : Bytes) :
    (honestBlindings L (pkg w vs.length) hide vs s ρ nonce).proof.responses.length =
      (Spec.blindBases (pkg w vs.length) hide).length := by
  simp [honestBlindings, Spec.blindBases, blindings_marked w hide vs]

/-- Acceptance by `VerifyBlinding`, for any bitmap. -/
theorem verifyBlinding_eq (w : S.G2) (hide : List Bool) (hn : hide.length ≤ 0xFFFFFFFF) (b : Blinded S) (nonce : Bytes) :
    verifyBlinding L hide b w nonce =
      match b.proof.verify (Spec.blindBases (pkg w hide.length) hide) b.c (blindChallenge L b.c b.pokC nonce) with
      | .err _ => .err "invalid proof"
      | y => y := by
  have hg := selectGens_marked (pkg w hide.length) 0 hide (by simp)
  rw [List.drop_zero] at hg
  simp only [verifyBlinding, Blinded.verifyProof, toPKG_eq w _ hn, Res.ok_bind, hg, Spec.blindBases]
  cases b.proof.verify ((pkg w hide.length).h0 :: Spec.marked hide (pkg w hide.length).h) b.c
    (blindChallenge L b.c b.pokC nonce) <;> rfl

theorem verifyBlinding_ok_iff (w : S.G2) (hide : List Bool) (hn : hide.length ≤ 0xFFFFFFFF) (b : Blinded S)
    (nonce : Bytes) :
    verifyBlinding L hide b w nonce = .ok () ↔
      b.proof.verify (Spec.blindBases (pkg w hide.length) hide) b.c (blindChallenge L b.c b.pokC nonce) = .ok () := by
  rw [verifyBlinding_eq L w hide hn]
  cases b.proof.verify (Spec.blindBases (pkg w hide.length) hide) b.c (blindChallenge L b.c b.pokC nonce) <;> simp

theorem honestBlindings_verify (w : S.G2) (hide : List Bool) (vs : List S.F) (h : hide.length = vs.length)
    (hn : vs.length ≤ 0xFFFFFFFF) (s : S.F) (ρ : Nat → S.F) (nonce : Bytes) :
    verifyBlinding L hide (honestBlindings L (pkg w vs.length) hide vs s ρ nonce) w nonce = .ok () := by
  rw [verifyBlinding_ok_iff L w hide (by omega), ProofG1.verify_exact, h]
  · simp only [honestBlindings]
    rw [lin_response]
    · module
    · simp [Spec.blindBases, blindings_marked w hide vs]
  · rw [h]
    exact honestBlindings_responses L w hide vs s ρ nonce

/-! ## Signing what is known -/

/-- The generator of a message. -/
def genOf (pk : PKG S) (m : SigMsg S) : S.G1 := (pk.h[m.idx.toNat]?).getD 0

theorem msgBases_ok (pk : PKG S) (l : List (SigMsg S)) (h : ∀ m ∈ l, 0 ≤ m.idx ∧ m.idx.toNat < pk.h.length) :
    msgBases pk l = .ok (l.map (genOf pk)) := by
  rw [msgBases, Res.mapM'_eq_ok, List.forall₂_map_right_iff, List.forall₂_same]
  intro m hm
  rw [Res.index_eq_ok]
  refine ⟨(h m hm).1, ?_⟩
  rw [genOf, List.getElem?_eq_getElem (h m hm).2]
  rfl

theorem lin_genOf (pk : PKG S) (l : List (SigMsg S)) :
    S.lin (l.map (·.fr)) (l.map (genOf pk)) = (l.map fun m => m.fr • genOf pk m).sum := by
  induction l with
  | nil => rfl
  | cons m l ih => simp [ih]

theorem unmarked_tag (pk : PKG S) : ∀ (i : Nat) (hide : List Bool) (vs : List S.F), hide.length = vs.length →
    i + vs.length = pk.h.length →
    (∀ m ∈ Spec.unmarked hide (tag i vs), 0 ≤ m.idx ∧ m.idx.toNat < pk.h.length) ∧
      (Spec.unmarked hide (tag i vs)).map (·.fr) = Spec.unmarked hide vs ∧
      (Spec.unmarked hide (tag i vs)).map (genOf pk) = Spec.unmarked hide (pk.h.drop i)
  | _, [], [], _, _ => by simp [Spec.unmarked, Spec.marked]
  | _, [], _ :: _, h, _ => by simp at h
  | _, _ :: _, [], h, _ => by simp at h
  | i, b :: hide, v :: vs, h, hi => by
    simp only [List.length_cons] at h hi
    have hi' : i < pk.h.length := by omega
    have ih := unmarked_tag pk (i + 1) hide vs (by omega) (by omega)
    rw [List.drop_eq_getElem_cons hi']
    simp only [Spec.unmarked] at ih ⊢
    cases b
    · simp only [tag, List.map_cons, Bool.not_false, Spec.marked, ih.2.1, ih.2.2, List.forall_mem_cons]
      refine ⟨⟨⟨by simp, by simpa using hi'⟩, ih.1⟩, trivial, ?_⟩
      simp [genOf, List.getElem?_eq_getElem hi']
    · simp only [tag, List.map_cons, Bool.not_true, Spec.marked]
      exact ih

theorem unmarked_length_pos {α β : Type} (hide : List Bool) (xs : List α) (ys : List β) (h : xs.length = ys.length) :
    (Spec.unmarked hide xs).length = (Spec.unmarked hide ys).length := marked_length _ _ _ h

theorem mapIdx_tag (i : Nat) (vs : List S.F) :
    (vs.mapIdx fun j v => (⟨v, ((i + j : Nat) : Int)⟩ : SigMsg S)) = tag i vs := by
  induction vs generalizing i with
  | nil => rfl
  | cons v vs ih =>
    simp only [List.mapIdx_cons, tag, Nat.add_zero]
    rw [← ih (i + 1)]
    congr 1
    apply List.mapIdx_eq_mapIdx_iff.mpr
    intro j hj
    congr 2
    omega

theorem mapIdx_tag_zero (vs : List S.F) : (vs.mapIdx fun j v => (⟨v, (j : Int)⟩ : SigMsg S)) = tag 0 vs := by
  simpa using mapIdx_tag 0 vs

theorem messagesToFr_tag (messages : List Bytes) :
    messagesToFr L messages = tag 0 (messages.map (frFromOKM L)) := by
  rw [← mapIdx_tag_zero, messagesToFr]
  apply List.ext_getElem?
  intro i
  simp only [List.getElem?_mapIdx, List.getElem?_map, Option.map_map]
  rfl

theorem blindSign_marked (hone : S.zrOfInt 1 = 1) (h32 : S.scalarLen = frLen) (hide : List Bool) (vs : List S.F)
    (hl : hide.length = vs.length) (hn : vs.length ≤ 0xFFFFFFFF) (known : List (SigMsg S))
    (hp : known.Perm (Spec.unmarked hide (tag 0 vs))) (hne : known ≠ []) (x e s' s : S.F) :
    blindSign known vs.length (S.lin (s :: Spec.marked hide vs) (Spec.blindBases (pkg (publicKey x) vs.length) hide))
        (S.zrBytes x) e s' =
      .ok (S.g1Comp ((x + e)⁻¹ • bValue (pkg (publicKey x) vs.length) (s' + s) vs) ++ S.zrBytes e ++ S.zrBytes s') := by
  have hpl := pkg_h_length (publicKey x) vs.length
  have htp := toPKG_eq (publicKey x) vs.length hn
  generalize pkg (publicKey x) vs.length = pk at *
  obtain ⟨u1, u2, u3⟩ := unmarked_tag pk 0 hide vs hl (by omega)
  have hb := msgBases_ok pk known fun m hm => u1 m (hp.mem_iff.mp hm)
  have hsum : S.lin (known.map (·.fr)) (known.map (genOf pk)) =
      S.lin (Spec.unmarked hide vs) (Spec.unmarked hide pk.h) := by
    rw [lin_genOf, (hp.map _).sum_eq, ← lin_genOf, u2, u3, List.drop_zero]
  have hlm := lin_marked hide vs pk.h hl (by omega)
  have g : decide (known.length = 0) = false := by
    apply decide_eq_false
    intro h0
    exact hne (List.length_eq_zero_iff.mp h0)
  rw [blindSign, unmarshalPrivateKey_bytes h32, Res.ok_bind, htp, Res.ok_bind, g]
  simp only [Res.guardErr_false, Res.ok_bind, hb]
  rw [build_eq (by simp) (by simp)]
  simp only [Res.ok_bind, signWithKeyB, htp]
  rw [sig_toBytes h32]
  rw [S.lin_append (by simp), hsum, bValue, ← hlm]
  simp only [Spec.blindBases, Suite.lin_cons, Suite.lin_nil_left, hone]
  congr 5
  module

/-! ## The property -/

theorem unblindSign_eq (h32 : S.scalarLen = frLen) (a : S.G1) (e s' s : S.F) :
    unblindSign S (S.g1Comp a ++ S.zrBytes e ++ S.zrBytes s') s = .ok (S.g1Comp a ++ S.zrBytes e ++ S.zrBytes (s' + s)) := by
  rw [unblindSign, parseSignature_bytes h32, Res.ok_bind, sig_toBytes h32]

theorem unmarked_ne_nil {α : Type} : ∀ (hide : List Bool) (xs : List α), hide.length = xs.length → false ∈ hide →
    Spec.unmarked hide xs ≠ []
  | [], _, _, h => by simp at h
  | _ :: _, [], h, _ => by simp at h
  | false :: hide, x :: xs, _, _ => by simp [Spec.unmarked, Spec.marked]
  | true :: hide, x :: xs, hl, h => by
    have := unmarked_ne_nil hide xs (by simpa using hl) (by simpa using h)
    simpa [Spec.unmarked, Spec.marked] using this

theorem marked_le {α : Type} : ∀ (hide : List Bool) (xs : List α), (Spec.marked hide xs).length ≤ xs.length
  | [], _ => by simp [Spec.marked]
  | _ :: _, [] => by simp [Spec.marked]
  | true :: hide, x :: xs => by simpa [Spec.marked] using marked_le hide xs
  | false :: hide, x :: xs => by
    simp only [Spec.marked, List.length_cons]
    exact (marked_le hide xs).trans (by omega)

theorem marked_lt {α : Type} (hide : List Bool) (xs : List α) (hl : hide.length = xs.length) (h : false ∈ hide) :
    (Spec.marked hide xs).length < xs.length := by
  induction hide generalizing xs with
  | nil => simp at h
  | cons b hide ih =>
    cases xs with
    | nil => simp at hl
    | cons x xs =>
      cases b
      · simp only [Spec.marked, List.length_cons]
        exact Nat.lt_succ_of_le (marked_le hide xs)
      · simpa [Spec.marked] using ih xs (by simpa using hl) (by simpa using h)

theorem honest_roundTrip (h32 : S.scalarLen = frLen) (w : S.G2) (hide : List Bool) (vs : List S.F)
    (hl : hide.length = vs.length) (hne : false ∈ hide) (hn : vs.length < 2 ^ 32) (nonce : Bytes) (s : S.F) (ρ : Nat → S.F) :
    ∃ raw, (honestBlindings L (pkg w vs.length) hide vs s ρ nonce).bytes = .ok raw ∧
      parseBlindedMessages S raw = .ok (honestBlindings L (pkg w vs.length) hide vs s ρ nonce) := by
  have : (honestBlindings L (pkg w vs.length) hide vs s ρ nonce).proof.responses.length ≤ 0xFFFFFFFF := by
    rw [honestBlindings_responses]
    have := marked_lt hide vs hl hne
    rw [blindings_marked w hide vs] at this
    simp only [Spec.blindBases, List.length_cons]
    omega
  exact ⟨_, Blinded.bytes_eq _ this, parseBlinded_enc h32 _ this⟩

/-- **C82 (scalars).** For every key, every vector of scalars, every choice `hide` of which of them the signer must not
see, as long as at least one stays known, and all random choices with `x + e ≠ 0`: the request for the hidden scalars is
made, survives being encoded and decoded, is accepted by a signer that expects exactly these positions to be hidden, and
signing the known scalars (in any order) and the request and unblinding the result gives a signature on all the
scalars. -/
theorem C82_blind_scalars (h32 : S.scalarLen = 32) (x : S.F) (hide : List Bool) (vs : List S.F)
    (hl : hide.length = vs.length) (hn : vs.length < 2 ^ 32) (known : List (SigMsg S))
    (hknown : known.Perm (Spec.unmarked hide (vs.mapIdx fun i v => ⟨v, i⟩))) (hne : false ∈ hide)
    (nonce : Bytes) (s : S.F) (ρ : Nat → S.F) (e s' : S.F) (hx : x + e ≠ 0) :
    ∃ b raw signed sig σ pk,
      blindMessagesZr L (Spec.toBlindZr hide vs) (x • S.genG2) nonce s ρ = .ok b ∧
      b.bytes = .ok raw ∧ parseBlindedMessages S raw = .ok b ∧
      verifyBlinding L hide b (x • S.genG2) nonce = .ok () ∧
      blindSign known vs.length b.c (S.zrBytes x) e s' = .ok signed ∧
      unblindSign S signed s = .ok sig ∧
      parseSignature S sig = .ok σ ∧ toPKG (x • S.genG2) vs.length = .ok pk ∧
      σ.verify (vs.mapIdx fun i v => ⟨v, i⟩) pk = .ok () := by
  rw [mapIdx_tag_zero] at hknown ⊢
  have hk : known ≠ [] := by
    rintro rfl
    exact unmarked_ne_nil hide (tag 0 vs) (by simpa using hl) hne (List.nil_perm.mp hknown)
  obtain ⟨raw, r1, r2⟩ := honest_roundTrip L h32 (x • S.genG2) hide vs hl hne hn nonce s ρ
  refine ⟨_, raw, _, _, _, _, blindMessagesZr_eq L _ hide vs hl (by omega) s ρ nonce, r1, r2,
    honestBlindings_verify L _ hide vs hl (by omega) s ρ nonce,
    blindSign_marked L.zrOfInt_one h32 hide vs hl (by omega) known hknown hk x e s' s,
    unblindSign_eq h32 _ _ _ _, parseSignature_bytes h32 _ _ _, toPKG_eq _ _ (by omega), ?_⟩
  rw [sig_verify_ok_iff _ _ L.zrOfInt_one _ (tag_inOrder vs) (by simp), tag_fr]
  exact valid_of_sign rfl hx vs

theorem toBlind_zr (hide : List Bool) (messages : List Bytes) (hm : ∀ p ∈ List.zip hide messages, p.1 = true → p.2 ≠ []) :
    ((Spec.toBlind hide messages).map fun m => if m = [] then none else some (frFromOKM L m)) =
      Spec.toBlindZr hide (messages.map (frFromOKM L)) := by
  induction hide generalizing messages with
  | nil => rfl
  | cons h hide ih =>
    cases messages with
    | nil => rfl
    | cons m messages =>
      simp only [List.zip_cons_cons, List.forall_mem_cons] at hm
      have := ih messages hm.2
      simp only [Spec.toBlind, Spec.toBlindZr] at this ⊢
      simp only [List.zipWith_cons_cons, List.map_cons, this]
      cases h
      · simp
      · simp [hm.1 rfl]

/-- **C82.** The same for messages: for every key, every vector of messages, every choice of which of them to hide, none
of the hidden ones empty and at least one not hidden, `BlindMessages` makes a request that survives being encoded and is
accepted for exactly these positions, and the unblinded signature verifies, with `Verify` and the public key, for all the
messages. -/
theorem C82_blind_messages (h32 : S.scalarLen = 32) (x : S.F) (hide : List Bool) (messages : List Bytes)
    (hl : hide.length = messages.length) (hn : messages.length < 2 ^ 32)
    (hm : ∀ p ∈ List.zip hide messages, p.1 = true → p.2 ≠ []) (known : List (SigMsg S))
    (hknown : known.Perm (Spec.unmarked hide (messagesToFr L messages))) (hne : false ∈ hide)
    (nonce : Bytes) (s : S.F) (ρ : Nat → S.F) (e s' : S.F) (hx : x + e ≠ 0) :
    ∃ b raw signed sig,
      blindMessages L (Spec.toBlind hide messages) (x • S.genG2) nonce s ρ = .ok b ∧
      b.bytes = .ok raw ∧ parseBlindedMessages S raw = .ok b ∧
      verifyBlinding L hide b (x • S.genG2) nonce = .ok () ∧
      blindSign known messages.length b.c (S.zrBytes x) e s' = .ok signed ∧
      unblindSign S signed s = .ok sig ∧
      Bbs.verify L messages sig (S.g2Comp (x • S.genG2)) = .ok () := by
  have hl' : hide.length = (messages.map (frFromOKM L)).length := by simpa using hl
  rw [messagesToFr_tag] at hknown
  have hk : known ≠ [] := by
    rintro rfl
    exact unmarked_ne_nil hide (tag 0 (messages.map (frFromOKM L))) (by simpa using hl) hne (List.nil_perm.mp hknown)
  obtain ⟨raw, r1, r2⟩ := honest_roundTrip L h32 (x • S.genG2) hide (messages.map (frFromOKM L)) hl' hne (by simpa using hn)
    nonce s ρ
  have hs := blindSign_marked L.zrOfInt_one h32 hide (messages.map (frFromOKM L)) hl' (by simp; omega) known hknown hk x e s' s
  refine ⟨_, raw, _, _, ?_, r1, r2, honestBlindings_verify L _ hide _ hl' (by simp; omega) s ρ nonce,
    by simpa only [honestBlindings, publicKey, List.length_map] using hs, unblindSign_eq h32 _ _ _ _, ?_⟩
  · rw [blindMessages, toBlind_zr L hide messages hm]
    exact blindMessagesZr_eq L _ hide _ hl' (by simp; omega) s ρ nonce
  · refine (verify_ok_iff L _ _ _ hn).mpr ⟨_, _, parseSignature_bytes h32 _ _ _, unmarshalPublicKey_comp _, ?_⟩
    have := valid_of_sign (x := x) (e := e) (s := s' + s) (pk := pkg (x • S.genG2) messages.length) rfl hx
      (messages.map (frFromOKM L))
    simpa [publicKey] using this

/-! ## A case -/

/-- A run of the whole protocol: what the signer says about the request for two bitmaps and two nonces, and whether the
signature verifies for two vectors of messages. -/
def Ex.blindRun (messages other : List Bytes) (hide hide' : List Bool) (known : List (SigMsg S32)) :
    Res (List Bool × List Bool) := do
  let w : S32.G2 := (3 : Toy.K) • S32.genG2
  let b ← blindMessages L32 (Spec.toBlind hide messages) w [9] (4 : Toy.K) (fun i => ((i + 1 : Nat) : Toy.K))
  let signed ← blindSign (S := S32) known messages.length b.c (S32.zrBytes (3 : Toy.K)) (2 : Toy.K) (5 : Toy.K)
  let sig ← unblindSign S32 signed (4 : Toy.K)
  pure ([decide (verifyBlinding L32 hide b w [9] = .ok ()), decide (verifyBlinding L32 hide' b w [9] = .ok ()),
      decide (verifyBlinding L32 hide b w [8] = .ok ())],
    [decide (Bbs.verify L32 messages sig (S32.g2Comp w) = .ok ()), decide (Bbs.verify L32 other sig (S32.g2Comp w) = .ok ())])

set_option maxRecDepth 20000 in
/-- Four messages of which the first and the third are hidden; the known ones, one of them empty, are signed in the other
order. -/
example :
    (false ∈ [true, false, true, false]) ∧
    (∀ p ∈ List.zip [true, false, true, false] [[1], [], [5], [2, 3]], p.1 = true → p.2 ≠ ([] : Bytes)) ∧
    (messagesToFr L32 [[1], [], [5], [2, 3]]).map (fun m => (m.fr, m.idx)) = [(1, 0), (2, 1), (5, 2), (3, 3)] ∧
    Spec.toBlind [true, false, true, false] [[1], [], [5], [2, 3]] = [[1], [], [5], []] ∧
    (Spec.unmarked [true, false, true, false] [0, 1, 2, 3] = [1, 3]) ∧
    Ex.blindRun [[1], [], [5], [2, 3]] [[1], [], [4], [2, 3]] [true, false, true, false] [true, false, false, true]
      [⟨(3 : Toy.K), 3⟩, ⟨(2 : Toy.K), 1⟩] = .ok ([true, false, false], [true, false]) := by
  refine ⟨by decide, by decide, by decide, by decide, by decide, ?_⟩
  decide +kernel

/-! ## What goes wrong -/

/-- **C82 (nothing known).** If every message is hidden, the signer gets no signature from `BlindSign`, whatever the
request. -/
theorem C82_all_hidden (h32 : S.scalarLen = 32) (n : Nat) (hn : n < 2 ^ 32) (c : S.G1) (x e s' : S.F) :
    blindSign [] (n : Int) c (S.zrBytes x) e s' = .err "messages are not defined" := by
  rw [blindSign, unmarshalPrivateKey_bytes h32, Res.ok_bind, toPKG_eq _ _ (by omega)]
  rfl

/-- Positions at which a bitmap is set. -/
theorem marked_self_length : ∀ (hide : List Bool), (Spec.marked hide hide).length = hide.count true
  | [] => rfl
  | true :: hide => by simp [Spec.marked, marked_self_length hide]
  | false :: hide => by simp [Spec.marked, marked_self_length hide]

theorem marked_count {α : Type} (hide : List Bool) (xs : List α) (h : hide.length = xs.length) :
    (Spec.marked hide xs).length = hide.count true := by
  rw [← marked_self_length]
  exact marked_length hide xs hide h.symm

/-- A proof with fewer responses than bases makes the verifier read past the end of the responses. -/
theorem proof_verify_short (p : ProofG1 S) (bases : List S.G1) (st : S.G1) (c : S.F)
    (h : p.responses.length < bases.length) : p.verify bases st c = .panic := by
  have : build (bases ++ [st]) (p.responses ++ [c]) = .panic := by
    rw [build, sumOfG1Products, sumLoop_short]
    · rfl
    · simpa using h
  rw [ProofG1.verify, this]
  rfl

/-- **C82 (short requests, violated).** A request with fewer responses than the signer expects — one for fewer hidden
messages, say — is not refused but crashes the signer. -/
theorem C82_short_violated (w : S.G2) (hide : List Bool) (hn : hide.length < 2 ^ 32) (b : Blinded S)
    (hb : b.proof.responses.length < 1 + hide.count true) (nonce : Bytes) :
    verifyBlinding L hide b w nonce = .panic := by
  rw [verifyBlinding_eq L w hide (by omega), proof_verify_short]
  simp only [Spec.blindBases, List.length_cons, marked_count hide (pkg w hide.length).h (by simp)]
  omega

/-- **C82 (empty messages, violated).** An empty message cannot be hidden: for every vector of messages with an empty one
among those to be hidden, the request that `BlindMessages` makes crashes the signer that expects the hidden positions. -/
theorem C82_empty_violated (x : S.F) (hide : List Bool) (messages : List Bytes) (hl : hide.length = messages.length)
    (hn : messages.length < 2 ^ 32) (hm : (true, []) ∈ List.zip hide messages) (nonce : Bytes) (s : S.F) (ρ : Nat → S.F) :
    ∃ b, blindMessages L (Spec.toBlind hide messages) (x • S.genG2) nonce s ρ = .ok b ∧
      verifyBlinding L hide b (x • S.genG2) nonce = .panic := by
  let hide' := List.zipWith (fun h m => h && !decide (m = ([] : Bytes))) hide messages
  have hl' : hide'.length = messages.length := by simp [hide', hl]
  have e1 : Spec.toBlind hide messages = Spec.toBlind hide' messages := by
    simp only [Spec.toBlind, hide']
    clear hm hl' hide' hn
    induction hide generalizing messages with
    | nil => rfl
    | cons h hide ih =>
      cases messages with
      | nil => rfl
      | cons m messages =>
        simp only [List.zipWith_cons_cons, List.cons.injEq]
        refine ⟨?_, ih messages (by simpa using hl)⟩
        cases h <;> by_cases hm : m = [] <;> simp [hm]
  have e2 : ∀ p ∈ List.zip hide' messages, p.1 = true → p.2 ≠ [] := by
    simp only [hide']
    clear hm hl' hide' hn e1
    induction hide generalizing messages with
    | nil => simp
    | cons h hide ih =>
      cases messages with
      | nil => simp
      | cons m messages =>
        simp only [List.zipWith_cons_cons, List.zip_cons_cons, List.forall_mem_cons]
        refine ⟨by simp, ih messages (by simpa using hl)⟩
  have e3 : hide'.count true < hide.count true := by
    have le : ∀ (a : List Bool) (b : List Bytes),
        (List.zipWith (fun h m => h && !decide (m = ([] : Bytes))) a b).count true ≤ a.count true := by
      intro a
      induction a with
      | nil => simp
      | cons h a ih =>
        intro b
        cases b with
        | nil => simp
        | cons m b =>
          have := ih b
          simp only [List.zipWith_cons_cons, List.count_cons]
          cases h <;> by_cases hm : m = [] <;> simp [hm] <;> omega
    simp only [hide']
    clear hl' hide' hn e1 e2
    induction hide generalizing messages with
    | nil => simp at hm
    | cons h hide ih =>
      cases messages with
      | nil => simp at hm
      | cons m messages =>
        simp only [List.zip_cons_cons, List.mem_cons, Prod.mk.injEq] at hm
        have hle := le hide messages
        simp only [List.zipWith_cons_cons, List.count_cons]
        rcases hm with ⟨rfl, rfl⟩ | hm
        · simp; omega
        · have := ih messages (by simpa using hl) hm
          cases h <;> by_cases hm : m = [] <;> simp [hm] <;> omega
  refine ⟨honestBlindings L (pkg (x • S.genG2) (messages.map (frFromOKM L)).length) hide' (messages.map (frFromOKM L)) s ρ
    nonce, ?_, C82_short_violated L _ hide (by omega) _ ?_ nonce⟩
  · rw [e1, blindMessages, toBlind_zr L hide' messages e2]
    exact blindMessagesZr_eq L _ hide' _ (by simpa using hl') (by simp; omega) s ρ nonce
  · rw [honestBlindings_responses]
    simp only [Spec.blindBases, List.length_cons]
    rw [marked_count hide' _ (by simp [hl'])]
    omega

set_option maxRecDepth 20000 in
example : (true, ([] : Bytes)) ∈ List.zip [true, true, false] [[1], [], [2]] ∧
    ((blindMessages L32 [[1], [], []] ((3 : Toy.K) • S32.genG2) [9] (4 : Toy.K) fun i => (i : Toy.K)) >>= fun b =>
      verifyBlinding L32 [true, true, false] b ((3 : Toy.K) • S32.genG2) [9]) = .panic :=
  ⟨by decide, by decide +kernel⟩

/-- **C82 (forged requests, violated).** As `C37_violated`, for any set of hidden positions: for every group element `c`,
every nonce and every bitmap there is an accepted request for `c`, computed from public data. -/
theorem C82_forged_violated (w : S.G2) (hide : List Bool) (hn : hide.length < 2 ^ 32) (c : S.G1) (nonce : Bytes) :
    verifyBlinding L hide ⟨c, 0, ⟨blindChallenge L c 0 nonce • c, List.replicate (1 + hide.count true) 0⟩⟩ w nonce = .ok () := by
  rw [verifyBlinding_ok_iff L w hide (by omega), ProofG1.verify_exact]
  · have : S.lin (List.replicate (1 + hide.count true) (0 : S.F)) (Spec.blindBases (pkg w hide.length) hide) = 0 := by
      generalize Spec.blindBases (pkg w hide.length) hide = bs
      generalize 1 + hide.count true = k
      induction k generalizing bs with
      | zero => simp
      | succ k ih => cases bs <;> simp [List.replicate_succ, ih]
    simp [this]
  · simp [Spec.blindBases, marked_count hide (pkg w hide.length).h (by simp)]
    omega

/-! ## What a request shows -/

/-- **C82 (extraction, partial).** Two accepted requests for the same hidden positions and commitments, with as many
responses as there are bases and the commitments the challenges cover, but different challenges, give an opening of the
commitment in `h_0` and the generators of the hidden positions. What is missing is what the code does not check: that the
commitment of the proof is the one the challenge covers (`C82_forged_violated`) and the number of responses. -/
theorem C82_extraction_partial (L₁ L₂ : Lib S) (w : S.G2) (hide : List Bool) (hn : hide.length < 2 ^ 32) (b₁ b₂ : Blinded S)
    (nonce₁ nonce₂ : Bytes) (h₁ : verifyBlinding L₁ hide b₁ w nonce₁ = .ok ())
    (h₂ : verifyBlinding L₂ hide b₂ w nonce₂ = .ok ()) (hc : b₁.c = b₂.c) (ht : b₁.pokC = b₂.pokC)
    (u₁ : b₁.proof.commitment = b₁.pokC) (u₂ : b₂.proof.commitment = b₂.pokC)
    (l₁ : b₁.proof.responses.length = 1 + hide.count true) (l₂ : b₂.proof.responses.length = 1 + hide.count true)
    (hne : blindChallenge L₁ b₁.c b₁.pokC nonce₁ ≠ blindChallenge L₂ b₂.c b₂.pokC nonce₂) :
    S.lin (Bbs.Spec.witness (blindChallenge L₁ b₁.c b₁.pokC nonce₁) (blindChallenge L₂ b₂.c b₂.pokC nonce₂)
        b₁.proof.responses b₂.proof.responses)
      (Bbs.Spec.generator w hide.length 0 :: Spec.marked hide (Bbs.Spec.generators w hide.length)) = b₁.c := by
  have hb : (Spec.blindBases (pkg w hide.length) hide).length = 1 + hide.count true := by
    simp [Spec.blindBases, marked_count hide (pkg w hide.length).h (by simp)]
    omega
  rw [verifyBlinding_ok_iff _ w hide (by omega), ProofG1.verify_exact _ _ _ _ (by omega)] at h₁ h₂
  rw [u₁] at h₁
  rw [u₂, ← ht, ← hc] at h₂
  rw [← hc, ← ht] at hne ⊢
  exact schnorr_extract (bases := Spec.blindBases (pkg w hide.length) hide) h₁ h₂ (by omega) (by omega) hne

/-- The request of a user for three scalars of which two are hidden. -/
def Ex.blindReq (nonce : Bytes) : Blinded S32 :=
  honestBlindings L32 (pkg ((3 : Toy.K) • S32.genG2) 3) [true, false, true] [(2 : Toy.K), 3, 5] (4 : Toy.K)
    (fun i => ((i + 1 : Nat) : Toy.K)) nonce

set_option maxRecDepth 20000 in
/-- Two answers of one user to two nonces. -/
example : verifyBlinding L32 [true, false, true] (Ex.blindReq [1]) ((3 : Toy.K) • S32.genG2) [1] = .ok () ∧
    verifyBlinding L32 [true, false, true] (Ex.blindReq [2]) ((3 : Toy.K) • S32.genG2) [2] = .ok () ∧
    (Ex.blindReq [1]).c = (Ex.blindReq [2]).c ∧ (Ex.blindReq [1]).pokC = (Ex.blindReq [2]).pokC ∧
    (Ex.blindReq [1]).proof.commitment = (Ex.blindReq [1]).pokC ∧ (Ex.blindReq [1]).proof.responses.length = 3 ∧
    blindChallenge L32 (Ex.blindReq [1]).c (Ex.blindReq [1]).pokC [1] ≠
      blindChallenge L32 (Ex.blindReq [2]).c (Ex.blindReq [2]).pokC [2] := by
  refine ⟨by decide +kernel, by decide +kernel, rfl, rfl, rfl, by decide +kernel, by decide +kernel⟩

/-! ## Hiding -/

/-- Correct the random choices of a proof over `bases` by multiples `δ` of the challenge, itself a function of the
commitment. -/
def tapeShift (bases : List S.G1) (c : S.G1 → S.F) (δ ρ : Nat → S.F) : Nat → S.F :=
  fun i => ρ i + c (S.lin (blindings bases.length ρ) bases) * δ i

theorem lin_blindings_add (k : Nat) (bases : List S.G1) (a : S.F) (ρ δ : Nat → S.F) :
    S.lin (blindings k fun i => ρ i + a * δ i) bases = S.lin (blindings k ρ) bases + a • S.lin (blindings k δ) bases := by
  have : (blindings k fun i => ρ i + a * δ i) = List.zipWith (· + ·) (blindings k ρ) ((blindings k δ).map (a * ·)) := by
    simp [blindings, List.zipWith_map, List.zipWith_self]
  rw [this, S.lin_add (by simp), S.lin_smul]

theorem tapeShift_first (bases : List S.G1) (c : S.G1 → S.F) (δ : Nat → S.F)
    (h0 : S.lin (blindings bases.length δ) bases = 0) (ρ : Nat → S.F) :
    S.lin (blindings bases.length (tapeShift bases c δ ρ)) bases = S.lin (blindings bases.length ρ) bases := by
  unfold tapeShift
  rw [lin_blindings_add, h0, smul_zero, add_zero]

/-- It is one-to-one. -/
def tapeEquiv (bases : List S.G1) (c : S.G1 → S.F) (δ : Nat → S.F) (h0 : S.lin (blindings bases.length δ) bases = 0) :
    (Nat → S.F) ≃ (Nat → S.F) where
  toFun := tapeShift bases c δ
  invFun := tapeShift bases c fun i => -δ i
  left_inv ρ := by
    funext i
    have := tapeShift_first bases c δ h0 ρ
    rw [tapeShift, this]
    simp [tapeShift]
  right_inv ρ := by
    funext i
    have hneg : S.lin (blindings bases.length fun i => -δ i) bases = 0 := by
      have := lin_blindings_add bases.length bases (-1) (fun _ => 0) δ
      have z : S.lin (blindings bases.length fun _ => (0 : S.F)) bases = 0 := by
        have := lin_blindings_add bases.length bases (-1) δ δ
        simp only [neg_mul, one_mul, add_neg_cancel, h0, smul_zero, add_zero] at this
        exact this
      rw [z, h0] at this
      simpa using this
    have := tapeShift_first bases c (fun i => -δ i) hneg ρ
    rw [tapeShift, this]
    simp [tapeShift]

/-- **C82 (hiding).** Requests made with one key, one for each `i`, each hiding any positions, with nonces chosen by
anyone. For any two ways `v₁`, `v₂` to say what the hidden scalars are there is a one-to-one correspondence of the random
choices that leads to the same requests: the requests have the same distribution whatever is hidden in them. -/
theorem C82_requests_hide {I : Type} (w : S.G2) (n : Nat) (hn : n < 2 ^ 32) (hide : I → List Bool)
    (v₁ v₂ : I → List S.F) (hl : ∀ i, (hide i).length = n) (h₁ : ∀ i, (v₁ i).length = n) (h₂ : ∀ i, (v₂ i).length = n)
    (hne : Bbs.Spec.generator w n 0 ≠ 0) (nonce : I → Bytes) :
    ∃ φ : (I → S.F × (Nat → S.F)) ≃ (I → S.F × (Nat → S.F)), ∀ ρ i, ∃ b,
      blindMessagesZr L (Spec.toBlindZr (hide i) (v₁ i)) w (nonce i) (ρ i).1 (ρ i).2 = .ok b ∧
      blindMessagesZr L (Spec.toBlindZr (hide i) (v₂ i)) w (nonce i) (φ ρ i).1 (φ ρ i).2 = .ok b := by
  let B (i : I) := Spec.blindBases (pkg w n) (hide i)
  have hx : ∀ i, ∃ d : S.F, S.lin (d :: List.zipWith (· - ·) (Spec.marked (hide i) (v₂ i)) (Spec.marked (hide i) (v₁ i)))
      (B i) = 0 := by
    intro i
    obtain ⟨b, hb⟩ := S.g1_span (P := (pkg w n).h0) hne (S.lin (List.zipWith (· - ·) (Spec.marked (hide i) (v₂ i))
      (Spec.marked (hide i) (v₁ i))) (Spec.marked (hide i) (pkg w n).h))
    exact ⟨-b, by simp only [B, Spec.blindBases, Suite.lin_cons, hb, neg_smul, neg_add_cancel]⟩
  choose d hd using hx
  have lv : ∀ i (v : List S.F), v.length = n → (d i :: Spec.marked (hide i) v).length = (B i).length := by
    intro i v hv
    simp only [B, Spec.blindBases, List.length_cons, marked_count (hide i) v (by rw [hl, hv]),
      marked_count (hide i) (pkg w n).h (by rw [hl, pkg_h_length])]
  let D (i : I) : List S.F := d i :: List.zipWith (· - ·) (Spec.marked (hide i) (v₂ i)) (Spec.marked (hide i) (v₁ i))
  have lD : ∀ i, (D i).length = (B i).length := by
    intro i
    have a := lv i (v₁ i) (h₁ i)
    have b := lv i (v₂ i) (h₂ i)
    simp only [List.length_cons] at a b
    simp only [D, List.length_cons, List.length_zipWith]
    omega
  let δ (i : I) : Nat → S.F := fun j => (D i).getD j 0
  have hδ : ∀ i, blindings (B i).length (δ i) = D i := by
    intro i
    apply List.ext_getElem
    · simp [lD]
    · intro j h1 h2
      simp [blindings, δ, List.getD_eq_getElem?_getD, List.getElem?_eq_getElem h2]
  have h0 : ∀ i, S.lin (blindings (B i).length (δ i)) (B i) = 0 := fun i => by rw [hδ]; exact hd i
  refine ⟨Equiv.piCongrRight fun i => Equiv.prodShear (Equiv.addRight (d i)) fun s =>
    tapeEquiv (B i) (fun t => blindChallenge L (S.lin (s :: Spec.marked (hide i) (v₁ i)) (B i)) t (nonce i)) (δ i) (h0 i), ?_⟩
  intro ρ i
  have e₁ := blindMessagesZr_eq L w (hide i) (v₁ i) (by rw [hl, h₁]) (by rw [h₁]; omega) (ρ i).1 (ρ i).2 (nonce i)
  rw [h₁] at e₁
  refine ⟨_, e₁, ?_⟩
  rw [blindMessagesZr_eq L w (hide i) (v₂ i) (by rw [hl, h₂]) (by rw [h₂]; omega), h₂]
  refine congrArg Res.ok ?_
  have l₁ := lv i (v₁ i) (h₁ i)
  have l₂ := lv i (v₂ i) (h₂ i)
  simp only [List.length_cons] at l₁ l₂
  have es : ((ρ i).1 + d i) :: Spec.marked (hide i) (v₂ i) =
      List.zipWith (· + ·) ((ρ i).1 :: Spec.marked (hide i) (v₁ i)) (D i) := by
    apply List.ext_getElem
    · simp [lD]; omega
    · intro j h1 h2
      cases j with
      | zero => simp [D]
      | succ j => simp [D]
  have ec : S.lin (((ρ i).1 + d i) :: Spec.marked (hide i) (v₂ i)) (B i) =
      S.lin ((ρ i).1 :: Spec.marked (hide i) (v₁ i)) (B i) := by
    rw [es, S.lin_add (by rw [lD]; simpa using l₁), show S.lin (D i) (B i) = 0 from hd i, add_zero]
  have et := tapeShift_first (B i) (fun t => blindChallenge L (S.lin ((ρ i).1 :: Spec.marked (hide i) (v₁ i)) (B i)) t
    (nonce i)) (δ i) (h0 i) (ρ i).2
  simp only [honestBlindings, Equiv.piCongrRight_apply, Pi.map_apply, Equiv.prodShear_apply, Equiv.coe_addRight,
    tapeEquiv, Equiv.coe_fn_mk]
  change Blinded.mk _ _ (ProofG1.mk _ _) = Blinded.mk _ _ (ProofG1.mk _ _)
  simp only [show Spec.blindBases (pkg w n) (hide i) = B i from rfl, ec, et]
  congr 2
  set ch := blindChallenge L (S.lin ((ρ i).1 :: Spec.marked (hide i) (v₁ i)) (B i))
    (S.lin (blindings (B i).length (ρ i).2) (B i)) (nonce i) with hch
  apply List.ext_getElem
  · simp only [List.length_zipWith, blindings_length, List.length_cons]; omega
  · intro j a1 a2
    have hj : j < (D i).length := by
      simp only [List.length_zipWith, blindings_length, List.length_cons] at a2
      rw [lD]; omega
    have e : (((ρ i).1 + d i) :: Spec.marked (hide i) (v₂ i))[j]'(by
          simp only [List.length_zipWith, List.length_cons] at a2 ⊢; omega) =
        ((ρ i).1 :: Spec.marked (hide i) (v₁ i))[j]'(by
          simp only [List.length_zipWith, List.length_cons] at a1 ⊢; omega) + (D i)[j] := by
      simp only [es, List.getElem_zipWith]
    simp only [List.getElem_zipWith, e, blindings, List.getElem_map, List.getElem_range, tapeShift, δ,
      List.getD_eq_getElem?_getD, List.getElem?_eq_getElem hj, Option.getD_some]
    simp only [← hch, show (List.range (B i).length).map (ρ i).2 = blindings (B i).length (ρ i).2 from rfl]
    ring

set_option maxRecDepth 20000 in
example : Bbs.Spec.generator (S := S32) ((3 : Toy.K) • S32.genG2) 3 0 ≠ 0 := by decide +kernel

end Idemix.Aries
