import Verif.Aries.Spec
import Verif.Bbs.Proof
import Verif.Bbs.Codec

/-!
# Lemmas about the aries issuance model
-/

namespace Idemix.Aries

open Bbs

variable {S : Suite} (L : Lib S)

/-! ## Keys -/

/-- The issuer public key for `n` attributes. -/
def ipkFor (w : S.G2) (n : Nat) : IPK S := ⟨w, pkg w (n + 1), n⟩

theorem isKey_iff (ipk : IPK S) (w : S.G2) (n : Nat) : Spec.IsKey ipk w n ↔ ipk = ipkFor w n := by
  constructor
  · rintro ⟨h1, h2, h3, h4, h5, h6⟩
    obtain ⟨w', ⟨h0, h, w'', c⟩, n'⟩ := ipk
    simp only at h1 h2 h3 h4 h5 h6
    subst h1 h2 h3 h4 h6
    simp only [ipkFor, pkg, Nat.cast_add, Nat.cast_one, h5]
    rfl
  · rintro rfl
    exact ⟨rfl, rfl, rfl, rfl, rfl, by simp [ipkFor]⟩

theorem toPKG_names (w : S.G2) (n : Nat) (h : n < 0xFFFFFFFF) : toPKG w ((n : Int) + 1) = .ok (pkg w (n + 1)) := by
  have := toPKG_eq w (n + 1) (by omega)
  simpa using this

/-! ## Messages at consecutive positions -/

/-- Scalars at the positions from `i` on. -/
def tag (i : Nat) : List S.F → List (SigMsg S)
  | [] => []
  | v :: vs => ⟨v, i⟩ :: tag (i + 1) vs

@[simp] theorem tag_length (i : Nat) (vs : List S.F) : (tag i vs).length = vs.length := by
  induction vs generalizing i with
  | nil => rfl
  | cons v vs ih => simp [tag, ih]

@[simp] theorem tag_fr (i : Nat) (vs : List S.F) : (tag i vs).map (·.fr) = vs := by
  induction vs generalizing i with
  | nil => rfl
  | cons v vs ih => simp [tag, ih]

theorem tag_append (i : Nat) (us vs : List S.F) : tag i (us ++ vs) = tag i us ++ tag (i + us.length) vs := by
  induction us generalizing i with
  | nil => rfl
  | cons u us ih => simp [tag, ih, Nat.add_assoc, Nat.add_comm 1]

theorem tag_idx (i : Nat) (vs : List S.F) (j : Nat) (h : j < (tag i vs).length) :
    (tag i vs)[j].idx = ((i + j : Nat) : Int) := by
  induction vs generalizing i j with
  | nil => simp [tag] at h
  | cons v vs ih =>
    cases j with
    | zero => simp [tag]
    | succ j =>
      simp only [tag, List.getElem_cons_succ]
      rw [ih (i + 1) j (by simpa [tag] using h)]
      congr 1
      omega

theorem tag_inOrder (vs : List S.F) : InOrder (tag 0 vs) := by
  intro i h
  rw [tag_idx 0 vs i h]
  simp

theorem msgBases_append (pk : PKG S) (as bs : List (SigMsg S)) (xs ys : List S.G1)
    (ha : msgBases pk as = .ok xs) (hb : msgBases pk bs = .ok ys) : msgBases pk (as ++ bs) = .ok (xs ++ ys) := by
  unfold msgBases at *
  rw [Res.mapM'_eq_ok] at *
  exact List.rel_append ha hb

theorem msgBases_tag (pk : PKG S) (i : Nat) (vs : List S.F) (h : i + vs.length ≤ pk.h.length) :
    msgBases pk (tag i vs) = .ok ((pk.h.drop i).take vs.length) := by
  induction vs generalizing i with
  | nil => simp [tag, msgBases]
  | cons v vs ih =>
    simp only [List.length_cons] at h
    have hi : i < pk.h.length := by omega
    have e : pk.h.drop i = pk.h[i] :: pk.h.drop (i + 1) := List.drop_eq_getElem_cons hi
    have := ih (i + 1) (by omega)
    unfold msgBases at this ⊢
    simp only [tag, Res.mapM'_cons, Res.index_nat, List.getElem?_eq_getElem hi, Res.deref_some, Res.ok_bind, this,
      Res.pure_def, e, List.length_cons, List.take_succ_cons]

theorem withSecret_length {α : Type} (k : Nat) (x : α) (xs : List α) : (Spec.withSecret k x xs).length = xs.length + 1 := by
  simp [Spec.withSecret]; omega

/-- A linear combination, split at one position. -/
theorem lin_withSecret (k : Nat) (x : S.F) (xs : List S.F) (Ps : List S.G1) (h : k ≤ xs.length)
    (hl : Ps.length = xs.length + 1) :
    S.lin (Spec.withSecret k x xs) Ps =
      S.lin (xs.take k) (Ps.take k) + x • Ps[k]'(by omega) + S.lin (xs.drop k) (Ps.drop (k + 1)) := by
  have hk : k < Ps.length := by omega
  have e : Ps = Ps.take k ++ [Ps[k]] ++ Ps.drop (k + 1) := by
    rw [List.append_assoc, List.singleton_append, ← List.drop_eq_getElem_cons hk, List.take_append_drop]
  conv_lhs => rw [e]
  rw [Spec.withSecret, S.lin_append (by simp; omega), S.lin_append (by simp; omega)]
  simp

/-! ## Attributes -/

theorem attrFr_some_iff {a : IdemixAttribute} {v : S.F} : attrFr L a = .ok (some v) ↔ Spec.Encodes L a v := by
  unfold attrFr Spec.Encodes
  constructor
  · intro h
    split at h
    · rename_i h1
      split at h
      · rename_i b hb
        simp only [Res.ok.injEq, Option.some.injEq] at h
        exact .inl ⟨h1, b, hb, h.symm⟩
      · cases h
    · split at h
      · rename_i h2
        split at h
        · rename_i i hb
          simp only [Res.ok.injEq, Option.some.injEq] at h
          exact .inr ⟨h2, i, hb, h.symm⟩
        · cases h
      · cases h
  · rintro (⟨h1, b, hb, rfl⟩ | ⟨h2, i, hb, rfl⟩)
    · simp [h1, hb]
    · simp [h2, hb]

theorem attrFr_none_iff {a : IdemixAttribute} :
    attrFr L a = .ok none ↔ a.type ≠ 1 ∧ a.type ≠ 2 := by
  unfold attrFr
  constructor
  · intro h
    split at h
    · split at h <;> cases h
    · split at h
      · split at h <;> cases h
      · rename_i h1 h2; exact ⟨h1, h2⟩
  · rintro ⟨h1, h2⟩
    simp [h1, h2]

theorem checkAttr_ok_iff {a : IdemixAttribute} {v : S.F} {u : Unit} :
    checkAttr L a v = .ok u ↔ Spec.Agrees L a v := by
  unfold checkAttr Spec.Agrees
  rw [Res.bind_eq_ok]
  constructor
  · rintro ⟨o, ho, h⟩ ht
    cases o with
    | none => exact absurd ht (by have := (attrFr_none_iff L).mp ho; tauto)
    | some w =>
      simp only [Res.guardErr_eq_ok, decide_eq_false_iff_not, not_not] at h
      subst h
      exact (attrFr_some_iff L).mp ho
  · intro h
    by_cases ht : a.type = 1 ∨ a.type = 2
    · exact ⟨some v, (attrFr_some_iff L).mpr (h ht), by simp⟩
    · push Not at ht
      exact ⟨none, (attrFr_none_iff L).mpr ht, rfl⟩

theorem attrMsgs_append (i : Nat) (as bs : List IdemixAttribute) :
    attrMsgs L i (as ++ bs) = (do
      let x ← attrMsgs L i as
      let y ← attrMsgs L (i + as.length) bs
      pure (x ++ y)) := by
  induction as generalizing i with
  | nil => simp [attrMsgs]
  | cons a as ih =>
    simp only [List.cons_append, attrMsgs, ih, List.length_cons]
    cases attrFr L a with
    | ok v =>
      simp only [Res.ok_bind]
      have e : i + 1 + as.length = i + (as.length + 1) := by omega
      rw [e]
      cases attrMsgs L (i + 1) as with
      | ok x =>
        simp only [Res.ok_bind]
        cases attrMsgs L (i + (as.length + 1)) bs with
        | ok y => cases v <;> rfl
        | err m => cases v <;> rfl
        | panic => cases v <;> rfl
      | err m => rfl
      | panic => rfl
    | err m => rfl
    | panic => rfl

theorem attrMsgs_encodes (i : Nat) {as : List IdemixAttribute} {vs : List S.F}
    (h : List.Forall₂ (Spec.Encodes L) as vs) : attrMsgs L i as = .ok (tag i vs) := by
  induction h generalizing i with
  | nil => rfl
  | cons hd _ ih =>
    simp only [attrMsgs, (attrFr_some_iff L).mpr hd, Res.ok_bind, ih (i + 1), Res.pure_def, tag]

/-- The messages of fully disclosed attributes, with a gap at the position of the secret key. -/
theorem attributesToSignatureMessage_encodes {as : List IdemixAttribute} {vs : List S.F} (k : Nat)
    (h : List.Forall₂ (Spec.Encodes L) as vs) (hk : k ≤ as.length) :
    attributesToSignatureMessage L as k = .ok (tag 0 (vs.take k) ++ tag (k + 1) (vs.drop k)) := by
  have hl := h.length_eq
  have g : (decide ((k : Int) < 0) || decide ((as.length : Int) < (k : Int))) = false := by
    simp; omega
  have hh : attrMsgs L k [hiddenAttr] = .ok [] := by
    simp [attrMsgs, (attrFr_none_iff L (a := hiddenAttr)).mpr (by simp [hiddenAttr])]
  have ht : List.Forall₂ (Spec.Encodes L) (as.take k) (vs.take k) := List.forall₂_take k h
  have hd : List.Forall₂ (Spec.Encodes L) (as.drop k) (vs.drop k) := List.forall₂_drop k h
  rw [attributesToSignatureMessage, g]
  simp only [Res.guardPanic_false, Res.ok_bind, Int.toNat_natCast]
  rw [attrMsgs_append, attrMsgs_append, attrMsgs_encodes L 0 ht]
  have e : 0 + (as.take k).length = k := by simp; omega
  have e' : 0 + (as.take k ++ [hiddenAttr]).length = k + 1 := by simp; omega
  rw [e, e', hh, attrMsgs_encodes L (k + 1) hd]
  simp

/-! ## Blinding -/

theorem present_skip (i m : Nat) (zs : List (Option S.F)) :
    present i (List.replicate m none ++ zs) = present (i + m) zs := by
  induction m generalizing i with
  | zero => rfl
  | succ m ih => rw [List.replicate_succ, List.cons_append, present, ih (i + 1)]; congr 1; omega

theorem set_replicate {α : Type} (n k : Nat) (a b : α) (h : k < n) :
    (List.replicate n a).set k b = List.replicate k a ++ b :: List.replicate (n - k - 1) a := by
  rw [List.set_eq_take_append_cons_drop]
  simp [h, List.take_replicate, List.drop_replicate, Nat.min_eq_left (Nat.le_of_lt h), Nat.sub_sub]

theorem present_single (n k : Nat) (x : S.F) (h : k < n) :
    present 0 ((List.replicate n none).set k (some x)) = [(k, x)] := by
  rw [set_replicate n k none (some x) h, present_skip]
  simp only [present, Nat.zero_add]
  have := present_skip (k + 1) (n - k - 1) ([] : List (Option S.F))
  rw [List.append_nil] at this
  rw [this]
  rfl

theorem trueAt_skip (i m : Nat) (bs : List Bool) : trueAt i (List.replicate m false ++ bs) = trueAt (i + m) bs := by
  induction m generalizing i with
  | zero => rfl
  | succ m ih =>
    rw [List.replicate_succ, List.cons_append, trueAt, if_neg (by simp), ih (i + 1)]; congr 1; omega

theorem trueAt_single (n k : Nat) (h : k < n) : trueAt 0 ((List.replicate n false).set k true) = [k] := by
  rw [set_replicate n k false true h, trueAt_skip]
  simp only [trueAt, Nat.zero_add, if_true]
  have := trueAt_skip (k + 1) (n - k - 1) []
  rw [List.append_nil] at this
  rw [this]
  rfl

/-- Encoding of blinded messages. -/
def Blinded.enc (b : Blinded S) : Bytes := S.g1Comp b.c ++ S.g1Comp b.pokC ++ b.proof.enc

theorem Blinded.bytes_eq (b : Blinded S) (h : b.proof.responses.length ≤ 0xFFFFFFFF) : b.bytes = .ok b.enc := by
  simp only [Blinded.bytes, b.proof.toBytes_eq h, Res.ok_bind, Res.pure_def, Blinded.enc]

theorem parseBlinded_enc (h32 : S.scalarLen = frLen) (b : Blinded S) (h : b.proof.responses.length ≤ 0xFFFFFFFF) :
    parseBlindedMessages S b.enc = .ok b := by
  have g : decide (b.enc.length < 2 * S.g1CompLen) = false := by simp [Blinded.enc]; omega
  have s1 := goSlice_mid [] (S.g1Comp b.c) (S.g1Comp b.pokC ++ b.proof.enc)
  have s2 := goSlice_mid (S.g1Comp b.c) (S.g1Comp b.pokC) b.proof.enc
  have s3 := goSlice_mid (S.g1Comp b.c ++ S.g1Comp b.pokC) b.proof.enc []
  have p := parseProofG1_enc h32 b.proof [] h
  rw [List.append_nil] at p
  simp only [List.nil_append, List.append_nil, List.length_append, S.g1Comp_len, List.length_nil, Nat.zero_add,
    ← List.append_assoc] at s1 s2 s3
  have hl : b.enc.length = S.g1CompLen + S.g1CompLen + b.proof.enc.length := by simp [Blinded.enc]; omega
  rw [← hl] at s3
  rw [parseBlindedMessages, g]
  simp only [Res.guardErr_false, Res.ok_bind]
  unfold Blinded.enc at s3 ⊢
  rw [s1, s2, s3]
  simp only [Res.ok_bind, S.g1OfComp_g1Comp, Res.ofOption_some, p, Res.pure_def]

/-- The request of an honest user. -/
def honestBlind (pk : PKG S) (h : S.G1) (sk s : S.F) (ρ : Nat → S.F) (nonce : Bytes) : Blinded S :=
  let c := s • pk.h0 + sk • h
  let t := ρ 0 • pk.h0 + ρ 1 • h
  let ch := blindChallenge L c t nonce
  ⟨c, t, ⟨t, [ρ 0 - ch * s, ρ 1 - ch * sk]⟩⟩

theorem blindMessagesZr_single (w : S.G2) (n k : Nat) (hn : n ≤ 0xFFFFFFFF) (hk : k < n) (sk s : S.F) (ρ : Nat → S.F)
    (nonce : Bytes) :
    blindMessagesZr L ((List.replicate n none).set k (some sk)) w nonce s ρ =
      .ok (honestBlind L (pkg w n) ((pkg w n).h[k]'(by simpa using hk)) sk s ρ nonce) := by
  have hk' : k < (pkg w n).h.length := by simpa using hk
  rw [blindMessagesZr]
  simp only [List.length_set, List.length_replicate, toPKG_eq w n hn, Res.ok_bind, present_single n k sk hk,
    List.map_cons, List.map_nil, selectGens, Res.mapM'_cons, Res.mapM'_nil, Res.index_nat,
    List.getElem?_eq_getElem hk', Res.deref_some, Res.pure_def]
  rw [build_eq (by simp) (by simp)]
  have f : finish [(pkg w n).h0, (pkg w n).h[k]] (blindings 2 ρ) = _ :=
    finish_eq [(pkg w n).h0, (pkg w n).h[k]] ρ (by simp)
  simp only [List.length_cons, List.length_nil, Nat.zero_add, Nat.reduceAdd] at f ⊢
  rw [f]
  simp [Committed.generateProof, honestBlind, blindings, List.range_succ]

/-- Acceptance of a blinded request for the position `k`. -/
theorem blindVerify_ok_iff (w : S.G2) (n k : Nat) (hn : n < 0xFFFFFFFF) (hk : k ≤ n) (request nonce : Bytes) :
    blindVerify L request (.val (ipkFor w n)) nonce k = .ok () ↔
      ∃ b, parseBlindedMessages S request = .ok b ∧
        b.proof.verify [(pkg w (n + 1)).h0, (pkg w (n + 1)).h[k]'(by simp; omega)] b.c
          (blindChallenge L b.c b.pokC nonce) = .ok () := by
  have hk' : k < (pkg w (n + 1)).h.length := by simp; omega
  have g : (decide ((n : Int) + 1 < 0) || decide ((k : Int) < 0) || decide ((n : Int) + 1 ≤ (k : Int))) = false := by
    simp; omega
  have e : ((n : Int) + 1).toNat = n + 1 := by omega
  simp only [blindVerify, Dyn.get_val, Res.ok_bind, ipkFor, g, Res.guardPanic_false, e, Int.toNat_natCast,
    Res.bind_eq_ok]
  constructor
  · rintro ⟨b, hb, h⟩
    refine ⟨b, hb, ?_⟩
    simp only [verifyBlinding, Blinded.verifyProof, List.length_set, List.length_replicate,
      toPKG_eq w (n + 1) (by omega), Res.ok_bind, trueAt_single (n + 1) k (by omega), selectGens, Res.mapM'_cons,
      Res.mapM'_nil, Res.index_nat, List.getElem?_eq_getElem hk', Res.deref_some, Res.pure_def] at h
    split at h
    · cases h
    · exact h
  · rintro ⟨b, hb, h⟩
    refine ⟨b, hb, ?_⟩
    simp only [verifyBlinding, Blinded.verifyProof, List.length_set, List.length_replicate,
      toPKG_eq w (n + 1) (by omega), Res.ok_bind, trueAt_single (n + 1) k (by omega), selectGens, Res.mapM'_cons,
      Res.mapM'_nil, Res.index_nat, List.getElem?_eq_getElem hk', Res.deref_some, Res.pure_def, h]

theorem blind_eq (w : S.G2) (n k : Nat) (hn : n < 0xFFFFFFFF) (hk : k ≤ n) (sk s : S.F)
    (ρ : Nat → S.F) (nonce : Bytes) :
    blind L sk (.val (ipkFor w n)) nonce k s ρ =
      .ok ((honestBlind L (pkg w (n + 1)) ((pkg w (n + 1)).h[k]'(by simp; omega)) sk s ρ nonce).enc, S.zrBytes s) := by
  have g : (decide ((n : Int) + 1 < 0) || decide ((k : Int) < 0) || decide ((n : Int) + 1 ≤ (k : Int))) = false := by
    simp; omega
  have e : ((n : Int) + 1).toNat = n + 1 := by omega
  simp only [blind, Dyn.get_val, Res.ok_bind, ipkFor, g, Res.guardPanic_false, e, Int.toNat_natCast]
  rw [blindMessagesZr_single L w (n + 1) k (by omega) (by omega), Res.ok_bind,
    Blinded.bytes_eq _ (by simp [honestBlind])]
  rfl

theorem honestBlind_verifies (pk : PKG S) (h : S.G1) (sk s : S.F) (ρ : Nat → S.F) (nonce : Bytes) :
    (honestBlind L pk h sk s ρ nonce).proof.verify [pk.h0, h] (honestBlind L pk h sk s ρ nonce).c
      (blindChallenge L (honestBlind L pk h sk s ρ nonce).c (honestBlind L pk h sk s ρ nonce).pokC nonce) = .ok () := by
  rw [ProofG1.verify_exact _ _ _ _ (by simp [honestBlind])]
  simp only [honestBlind, Suite.lin_cons, Suite.lin_nil_left]
  module

/-! ## Blind signing -/

theorem blindSign_eq (hone : S.zrOfInt 1 = 1) (h32 : S.scalarLen = frLen) (n k : Nat) (hn : n < 0xFFFFFFFF) (hn0 : 0 < n) (hk : k ≤ n)
    (vs : List S.F) (hl : vs.length = n) (x e s' sk s : S.F) (H : S.G1)
    (hH : (pkg (publicKey x) (n + 1)).h[k]? = some H) :
    blindSign (tag 0 (vs.take k) ++ tag (k + 1) (vs.drop k)) ((n : Int) + 1)
      (s • (pkg (publicKey x) (n + 1)).h0 + sk • H) (S.zrBytes x) e s' =
    .ok (S.g1Comp ((x + e)⁻¹ • bValue (pkg (publicKey x) (n + 1)) (s' + s) (Spec.withSecret k sk vs)) ++
      S.zrBytes e ++ S.zrBytes s') := by
  have hpl : (pkg (publicKey x) (n + 1)).h.length = n + 1 := by simp
  have htp := toPKG_names (publicKey x) n hn
  generalize pkg (publicKey x) (n + 1) = pk at *
  have m1 := msgBases_tag pk 0 (vs.take k) (by simp; omega)
  have m2 := msgBases_tag pk (k + 1) (vs.drop k) (by simp; omega)
  have m := msgBases_append pk _ _ _ _ m1 m2
  have g : decide ((tag 0 (vs.take k) ++ tag (k + 1) (vs.drop k)).length = 0) = false := by
    apply decide_eq_false
    simp only [List.length_append, tag_length, List.length_take, List.length_drop]
    omega
  have e1 : (List.take k vs).length = k := by simp; omega
  have e2 : (pk.h.drop (k + 1)).length = (vs.drop k).length := by simp; omega
  have hk' : k < pk.h.length := by omega
  have hH' : pk.h[k] = H := by simpa [List.getElem?_eq_getElem hk'] using hH
  rw [blindSign, unmarshalPrivateKey_bytes h32, Res.ok_bind, htp, Res.ok_bind, g]
  simp only [Res.guardErr_false, Res.ok_bind, m]
  rw [build_eq (by simp; omega) (by simp)]
  simp only [Res.ok_bind, signWithKeyB, htp]
  rw [sig_toBytes h32]
  simp only [List.map_append, tag_fr, List.drop_zero, e1]
  rw [List.take_of_length_le (le_of_eq e2), S.lin_append (by simp; omega), S.lin_append (by simp; omega)]
  rw [bValue, lin_withSecret k sk vs pk.h (by omega) (by omega), hH']
  simp only [Suite.lin_cons, Suite.lin_nil_left, hone]
  congr 5
  module

/-! ## Verification of credentials -/

theorem verifyLoop_sk (sk : S.F) (todo j : Nat) (attrs : List Bytes) (as : List IdemixAttribute) :
    verifyLoop L sk (j : Int) (todo + 1) j attrs as = (do
      let rest ← verifyLoop L sk j todo (j + 1) attrs as
      pure (⟨sk, j⟩ :: rest)) := by
  cases attrs <;> cases as <;> simp [verifyLoop]

theorem verifyLoop_cons (sk : S.F) (skPos : Int) (todo j : Nat) (a : Bytes) (attrs : List Bytes)
    (b : IdemixAttribute) (as : List IdemixAttribute) (h : ¬ ((j : Int) = skPos)) :
    verifyLoop L sk skPos (todo + 1) j (a :: attrs) (b :: as) = (do
      checkAttr L b (S.zrOfBytes a)
      let rest ← verifyLoop L sk skPos todo (j + 1) attrs as
      pure (⟨S.zrOfBytes a, j⟩ :: rest)) := by
  rw [verifyLoop, if_neg h]

theorem verifyLoop_nil (sk : S.F) (skPos : Int) (todo j : Nat) (attrs : List Bytes)
    (as : List IdemixAttribute) (h : ¬ ((j : Int) = skPos)) (hn : attrs = [] ∨ as = []) :
    verifyLoop L sk skPos (todo + 1) j attrs as = .panic := by
  cases attrs <;> cases as <;> simp_all [verifyLoop]

theorem verifyLoop_out (sk : S.F) (skPos : Int) (todo j : Nat) (attrs : List Bytes) (as : List IdemixAttribute)
    (h : skPos < j ∨ (j : Int) + todo ≤ skPos) (sm : List (SigMsg S)) :
    verifyLoop L sk skPos todo j attrs as = .ok sm ↔
      todo ≤ attrs.length ∧ todo ≤ as.length ∧
      List.Forall₂ (Spec.Agrees L) (as.take todo) ((attrs.map S.zrOfBytes).take todo) ∧
      sm = tag j ((attrs.map S.zrOfBytes).take todo) := by
  induction todo generalizing j attrs as sm with
  | zero => simp [verifyLoop, tag, eq_comm]
  | succ todo ih =>
    have hne : ¬ ((j : Int) = skPos) := by push_cast at h; omega
    cases attrs with
    | nil => rw [verifyLoop_nil L _ _ _ _ _ _ hne (by simp)]; simp
    | cons a attrs =>
      cases as with
      | nil => rw [verifyLoop_nil L _ _ _ _ _ _ hne (by simp)]; simp
      | cons b as =>
        rw [verifyLoop_cons L _ _ _ _ _ _ _ _ hne]
        simp only [Res.bind_eq_ok, checkAttr_ok_iff, Res.pure_def, Res.ok.injEq,
          ih (j + 1) attrs as (by push_cast at h ⊢; omega), List.length_cons, List.map_cons, List.take_succ_cons,
          List.forall₂_cons, tag]
        constructor
        · rintro ⟨_, h1, rest, ⟨h2, h3, h4, rfl⟩, rfl⟩
          exact ⟨by omega, by omega, ⟨h1, h4⟩, rfl⟩
        · rintro ⟨h2, h3, ⟨h1, h4⟩, rfl⟩
          exact ⟨(), h1, _, ⟨by omega, by omega, h4, rfl⟩, rfl⟩

theorem verifyLoop_in (sk : S.F) (d rest j : Nat) (attrs : List Bytes) (as : List IdemixAttribute)
    (sm : List (SigMsg S)) :
    verifyLoop L sk ((j + d : Nat) : Int) (d + rest + 1) j attrs as = .ok sm ↔
      d + rest ≤ attrs.length ∧ d + rest ≤ as.length ∧
      List.Forall₂ (Spec.Agrees L) (as.take (d + rest)) ((attrs.map S.zrOfBytes).take (d + rest)) ∧
      sm = tag j (Spec.withSecret d sk ((attrs.map S.zrOfBytes).take (d + rest))) := by
  induction d generalizing j attrs as sm with
  | zero =>
    rw [Nat.add_zero, Nat.zero_add, verifyLoop_sk]
    simp only [Res.bind_eq_ok, Nat.add_zero, Res.pure_def, Res.ok.injEq,
      verifyLoop_out L sk (j : Int) rest (j + 1) attrs as (by push_cast; omega), Spec.withSecret, List.take_zero,
      List.nil_append, List.drop_zero, List.singleton_append, tag]
    constructor
    · rintro ⟨rest', ⟨h1, h2, h3, rfl⟩, rfl⟩; exact ⟨h1, h2, h3, rfl⟩
    · rintro ⟨h1, h2, h3, rfl⟩; exact ⟨_, ⟨h1, h2, h3, rfl⟩, rfl⟩
  | succ d ih =>
    have e : d + 1 + rest + 1 = (d + rest + 1) + 1 := by omega
    have e' : d + 1 + rest = d + rest + 1 := by omega
    have e'' : j + (d + 1) = (j + 1) + d := by omega
    have hne : ¬ ((j : Int) = (((j + 1) + d : Nat) : Int)) := by push_cast; omega
    rw [e, e', e'']
    cases attrs with
    | nil => rw [verifyLoop_nil L _ _ _ _ _ _ hne (by simp)]; simp
    | cons a attrs =>
      cases as with
      | nil => rw [verifyLoop_nil L _ _ _ _ _ _ hne (by simp)]; simp
      | cons b as =>
        rw [verifyLoop_cons L _ _ _ _ _ _ _ _ hne]
        simp only [Res.bind_eq_ok, checkAttr_ok_iff, Res.pure_def, Res.ok.injEq, ih (j + 1) attrs as,
          List.length_cons, List.map_cons, List.take_succ_cons, List.forall₂_cons, tag, Spec.withSecret,
          List.cons_append, List.drop_succ_cons]
        constructor
        · rintro ⟨_, h1, rest, ⟨h2, h3, h4, rfl⟩, rfl⟩
          exact ⟨by omega, by omega, ⟨h1, h4⟩, rfl⟩
        · rintro ⟨h2, h3, ⟨h1, h4⟩, rfl⟩
          exact ⟨(), h1, _, ⟨by omega, by omega, h4, rfl⟩, rfl⟩

/-- Acceptance of a credential, for a recorded position of the secret key within range. -/
theorem credVerify_ok_iff (sk : S.F) (w : S.G2) (n : Nat) (credBytes : Bytes) (as : List IdemixAttribute)
    (hl : as.length = n) :
    credVerify L sk (.val (ipkFor w n)) credBytes as = .ok () ↔
      ∃ c σ, ∃ k : Nat, Wire.credCodec.unmarshal credBytes = .ok c ∧ parseSignature S c.cred = .ok σ ∧
        c.skPos = k ∧ k ≤ n ∧ n ≤ c.attrs.length ∧
        List.Forall₂ (Spec.Agrees L) as ((c.attrs.map S.zrOfBytes).take n) ∧
        Valid (pkg w (n + 1)) σ (Spec.withSecret k sk ((c.attrs.map S.zrOfBytes).take n)) := by
  simp only [credVerify, Dyn.get_val, Res.ok_bind, Res.bind_eq_ok, ipkFor, pkg_h_length]
  constructor
  · rintro ⟨c, hc, σ, hσ, sm, hsm, hv⟩
    by_cases hr : c.skPos < 0 ∨ (n : Int) < c.skPos
    · rw [verifyLoop_out L sk c.skPos (n + 1) 0 _ _ (by push_cast; omega)] at hsm
      omega
    · obtain ⟨k, hk⟩ : ∃ k : Nat, c.skPos = k := ⟨c.skPos.toNat, by omega⟩
      have hkn : k ≤ n := by omega
      obtain ⟨r, rfl⟩ : ∃ r, n = k + r := ⟨n - k, by omega⟩
      have key := verifyLoop_in L sk k r 0 c.attrs as sm
      rw [Nat.zero_add, ← hk] at key
      obtain ⟨h1, h2, h3, rfl⟩ := key.mp hsm
      rw [List.take_of_length_le (by omega)] at h3
      rw [sig_verify_ok_iff σ _ L.zrOfInt_one _ (tag_inOrder _) (by
        simp [withSecret_length]; omega), tag_fr] at hv
      exact ⟨c, σ, k, hc, hσ, hk, by omega, h1, h3, hv⟩
  · rintro ⟨c, σ, k, hc, hσ, hk, hkn, h1, h3, hv⟩
    obtain ⟨r, rfl⟩ : ∃ r, n = k + r := ⟨n - k, by omega⟩
    have key := verifyLoop_in L sk k r 0 c.attrs as
    rw [Nat.zero_add, ← hk] at key
    refine ⟨c, hc, σ, hσ, _, (key _).mpr ⟨h1, by omega, ?_, rfl⟩, ?_⟩
    · rwa [List.take_of_length_le (by omega)]
    · rw [sig_verify_ok_iff σ _ L.zrOfInt_one _ (tag_inOrder _) (by simp [withSecret_length]; omega), tag_fr]
      exact hv

end Idemix.Aries
