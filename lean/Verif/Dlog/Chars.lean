import Verif.Dlog.Lemmas
import Verif.Dlog.Spec

/-!
# dlog scheme: characterisation of the issuance checks

Each check of the model is shown equivalent to the specification.
-/

namespace Idemix.Dlog

variable {S : Suite} (T : Translator S)

/-- The wire form of an issuer public key decodes to the points `k`. -/
structure Reads (ipk : IssuerPublicKey) (k : Spec.Key S) : Prop where
  hSk : T.g1FromProto ipk.hSk = .ok k.hSk
  hRand : T.g1FromProto ipk.hRand = .ok k.hRand
  hAttrs : parseAttrs T ipk.hAttrs = .ok k.hAttrs
  w : T.g2FromProto ipk.w = .ok k.w

variable {T}

theorem Reads.unique {ipk : IssuerPublicKey} {k k' : Spec.Key S} (h : Reads T ipk k)
    (h' : Reads T ipk k') : k = k' := by
  cases k; cases k'
  have h1 := h.hSk.symm.trans h'.hSk
  have h2 := h.hRand.symm.trans h'.hRand
  have h3 := h.hAttrs.symm.trans h'.hAttrs
  have h4 := h.w.symm.trans h'.w
  simp_all

theorem parseAttrs_length {l : List (Option ECP)} {ps : List S.G1} (h : parseAttrs T l = .ok ps) :
    ps.length = l.length := Res.mapM'_length h

theorem parseAttrs_some {l : List (Option ECP)} {ps : List S.G1} (h : parseAttrs T l = .ok ps) :
    ∀ x ∈ l, x.isSome := by
  intro x hx
  induction l generalizing ps with
  | nil => simp at hx
  | cons y ys ih =>
    simp only [parseAttrs, Res.mapM'_cons, Res.bind_eq_ok] at h
    obtain ⟨b, hb, bs, hbs, -⟩ := h
    rcases List.mem_cons.mp hx with rfl | hx
    · cases x with
      | none => exact absurd hb (T.g1_nil b)
      | some _ => rfl
    · exact ih hbs hx

theorem parseAttrs_getElem {l : List (Option ECP)} {ps : List S.G1} (h : parseAttrs T l = .ok ps)
    (i : Nat) : (∃ e P, l[i]? = some e ∧ ps[i]? = some P ∧ T.g1FromProto e = .ok P) ∨
      (l[i]? = none ∧ ps[i]? = none) := by
  induction l generalizing ps i with
  | nil => simp [parseAttrs] at h; subst h; simp
  | cons y ys ih =>
    simp only [parseAttrs, Res.mapM'_cons, Res.bind_eq_ok, Res.pure_def, Res.ok.injEq] at h
    obtain ⟨b, hb, bs, hbs, rfl⟩ := h
    cases i with
    | zero => left; exact ⟨y, b, by simp, by simp, hb⟩
    | succ i => simpa using ih hbs i

theorem parseAttrs_toProto (ps : List S.G1) :
    parseAttrs T (ps.map fun P => some (T.g1ToProto P)) = .ok ps := by
  induction ps with
  | nil => rfl
  | cons p ps ih => simp only [parseAttrs] at ih; simp [parseAttrs, ih]

theorem check_ok_iff {m : IpkMarshal} {ipk ipk' : IssuerPublicKey} :
    ipk.check T m = .ok ipk' ↔ ∃ (k : Spec.Key S) (b1 b2 : S.G1), Reads T ipk k ∧
      T.g1FromProto ipk.barG1 = .ok b1 ∧ T.g1FromProto ipk.barG2 = .ok b2 ∧ b1 ≠ 0 ∧
      ipk.attributeNames.length ≤ k.hAttrs.length ∧
      S.zrOfBytes ipk.proofC = S.hashToZr
        (Spec.ipkTranscript k.w b1 b2 (S.zrOfBytes ipk.proofC) (S.zrOfBytes ipk.proofS)) ∧
      setHash (S := S) m ipk = .ok ipk' := by
  have e1 : ∀ (c s : S.F) (w : S.G2), s • S.genG2 + (-c) • w = s • S.genG2 - c • w := by
    intros; module
  have e2 : ∀ (c s : S.F) (a b : S.G1), s • a + (-c) • b = s • a - c • b := by intros; module
  constructor
  · intro h
    simp only [IssuerPublicKey.check, ipkProofData_eq, Res.bind_eq_ok, Res.guardErr_eq_ok,
      Res.ok_bind, Bool.or_eq_false_iff, decide_eq_false_iff_not, e1, e2, Bool.not_eq_false',
      decide_eq_true_eq] at h
    obtain ⟨hSk, h1, hRand, h2, hA, h3, b1, h4, b2, h5, w, h6, -, ⟨h7, h8⟩, -, h9, -, h10, h11⟩ := h
    refine ⟨⟨hSk, hRand, hA, w⟩, b1, b2, ⟨h1, h2, h3, h6⟩, h4, h5, h7, ?_, h10, h11⟩
    rw [parseAttrs_length h3]; omega
  · rintro ⟨k, b1, b2, ⟨h1, h2, h3, h6⟩, h4, h5, h7, h8, h10, h11⟩
    rw [parseAttrs_length h3] at h8
    have h9 : (List.take ipk.attributeNames.length ipk.hAttrs).any Option.isNone = false := by
      rw [List.any_eq_false]
      intro x hx
      have := parseAttrs_some h3 x (List.mem_of_mem_take hx)
      cases x <;> simp_all
    have h8' : ¬ ipk.hAttrs.length < ipk.attributeNames.length := by omega
    simp only [Spec.ipkTranscript] at h10
    simp only [IssuerPublicKey.check, ipkProofData_eq, h1, h2, h3, h4, h5, h6, Res.ok_bind,
      Res.bind_eq_ok, Res.guardErr_eq_ok, Bool.or_eq_false_iff, decide_eq_false_iff_not, e1, e2,
      Bool.not_eq_false', decide_eq_true_eq]
    exact ⟨(), ⟨h7, h8'⟩, (), h9, (), h10, h11⟩

theorem credReqProofData_of_le (t hSk nym : S.G1) (nonce hash : Bytes)
    (hn : nonce.length ≤ 2 * S.scalarLen) :
    credReqProofData t hSk nym nonce hash = .ok (credRequestLabel ++ S.g1Bytes t ++ S.g1Bytes hSk ++
      S.g1Bytes nym ++ Buf.padTo (2 * S.scalarLen) (nonce ++ hash)) := by
  unfold credReqProofData
  simp only [Buf.make_eq]
  rw [Buf.appAll_at _ _ _ (by simp; omega)]
  simp only [Res.ok_bind, List.nil_append]
  generalize hpre : ([credRequestLabel, S.g1Bytes t, S.g1Bytes hSk, S.g1Bytes nym, nonce] :
    List Bytes).flatten = pre
  have hl : pre.length = credRequestLabel.length + 3 * S.g1Len + nonce.length := by
    rw [← hpre]; simp; ring
  rw [List.drop_replicate]
  have hk : credRequestLabel.length + 3 * S.g1Len + 2 * S.scalarLen - pre.length =
      2 * S.scalarLen - nonce.length := by omega
  rw [hk]
  simp only [Buf.app, Buf.at', copyAt]
  have : ¬ (pre ++ List.replicate (2 * S.scalarLen - nonce.length) (0 : UInt8)).length < pre.length := by
    simp
  simp only [this, if_false, Res.ok_bind, Res.pure_def, Res.ok.injEq]
  have e1 : (pre ++ List.replicate (2 * S.scalarLen - nonce.length) (0 : UInt8)).length - pre.length =
      2 * S.scalarLen - nonce.length := by simp
  have e2 : List.drop (pre.length + hash.length)
      (pre ++ List.replicate (2 * S.scalarLen - nonce.length) (0 : UInt8)) =
      List.replicate (2 * S.scalarLen - nonce.length - hash.length) 0 := by
    simp [List.drop_append]
  rw [e1, e2]
  simp only [List.take_left', Buf.padTo, List.take_append, List.length_append]
  rw [List.take_of_length_le hn, ← hpre]
  simp [Nat.sub_sub]

theorem credReqProofData_of_gt (t hSk nym : S.G1) (nonce hash : Bytes)
    (hn : 2 * S.scalarLen < nonce.length) : credReqProofData t hSk nym nonce hash = .panic := by
  unfold credReqProofData
  have key := Buf.appAll_at [credRequestLabel, S.g1Bytes t, S.g1Bytes hSk, S.g1Bytes nym] []
    (List.replicate (credRequestLabel.length + 3 * S.g1Len + 2 * S.scalarLen) 0) (by simp; omega)
  simp only [Buf.appAll, Res.bind_ok] at key
  simp only [Buf.make_eq, Buf.appAll, bind_assoc, Res.ok_bind, Res.pure_def]
  have hr : ∀ {α β γ δ ε : Type} (x : Res α) (f : α → Res β) (g : β → Res γ) (h : γ → Res δ)
      (k : δ → Res ε), (x >>= fun a => f a >>= fun b => g b >>= fun c => h c >>= k) =
      ((x >>= fun a => f a >>= fun b => g b >>= h) >>= k) := by
    intros; simp only [bind_assoc]
  rw [hr, key]
  simp only [Res.ok_bind, List.nil_append]
  generalize hpre : ([credRequestLabel, S.g1Bytes t, S.g1Bytes hSk, S.g1Bytes nym] :
    List Bytes).flatten = pre
  have hl : pre.length = credRequestLabel.length + 3 * S.g1Len := by
    rw [← hpre]; simp; ring
  rw [List.drop_replicate]
  have hk : credRequestLabel.length + 3 * S.g1Len + 2 * S.scalarLen - pre.length = 2 * S.scalarLen := by
    omega
  rw [hk]
  simp only [Buf.app, Buf.at', copyAt]
  have h1 : ¬ (pre ++ List.replicate (2 * S.scalarLen) (0 : UInt8)).length < pre.length := by simp
  simp only [h1, if_false, Res.ok_bind, Res.pure_def]
  rw [if_pos]
  · rfl
  · simp; omega

theorem reqCheck_ok_iff {req : CredRequest} {ipk : IssuerPublicKey} :
    req.check T ipk = .ok () ↔ ∃ (nym hSk : S.G1) (nonce : Bytes), T.g1FromProto req.nym = .ok nym ∧
      T.g1FromProto ipk.hSk = .ok hSk ∧ req.issuerNonce = some nonce ∧
      nonce.length ≤ 2 * S.scalarLen ∧
      S.zrOfBytes req.proofC = S.hashToZr (Spec.requestTranscript credRequestLabel hSk nym
        (S.zrOfBytes req.proofC) (S.zrOfBytes req.proofS) nonce ipk.hash) := by
  simp only [CredRequest.check, Res.bind_eq_ok, Res.ofOption_eq_ok, Res.guardErr_eq_ok,
    Bool.not_eq_false', decide_eq_true_eq]
  constructor
  · rintro ⟨nym, h1, hSk, h2, nonce, h3, d, h4, h5⟩
    by_cases hn : nonce.length ≤ 2 * S.scalarLen
    · rw [credReqProofData_of_le _ _ _ _ _ hn] at h4
      simp only [Res.ok.injEq] at h4
      subst h4
      exact ⟨nym, hSk, nonce, h1, h2, h3, hn, h5⟩
    · rw [credReqProofData_of_gt _ _ _ _ _ (by omega)] at h4
      cases h4
  · rintro ⟨nym, hSk, nonce, h1, h2, h3, hn, h5⟩
    exact ⟨nym, h1, hSk, h2, nonce, h3, _, credReqProofData_of_le _ _ _ _ _ hn, h5⟩

theorem credVer_ok_iff {cred : Credential} {sk : S.F} {ipk : IssuerPublicKey} :
    cred.ver T sk ipk = .ok () ↔ ∃ (k : Spec.Key S) (A B : S.G1), Reads T ipk k ∧
      T.g1FromProto cred.a = .ok A ∧ T.g1FromProto cred.b = .ok B ∧
      cred.attrs.length ≤ k.hAttrs.length ∧
      B = Spec.signed k sk (S.zrOfBytes cred.s) (cred.attrs.map S.zrOfBytes) ∧
      Spec.IsCredential k A (S.zrOfBytes cred.e) (S.zrOfBytes cred.s) sk
        (cred.attrs.map S.zrOfBytes) := by
  simp only [Credential.ver, Res.bind_eq_ok, Res.guardErr_eq_ok, Bool.not_eq_false',
    decide_eq_true_eq, addPairs_eq_ok, List.length_map, Spec.IsCredential, Spec.signed]
  have e : ∀ (k : Spec.Key S) (s : S.F), S.genG1 + (sk • k.hSk + s • k.hRand) =
      S.genG1 + sk • k.hSk + s • k.hRand := by intros; abel
  constructor
  · rintro ⟨A, h1, B, h2, hSk, h3, hRand, h4, hA, h5, bP, ⟨h6, h6'⟩, -, h7, w, h8, h9⟩
    refine ⟨⟨hSk, hRand, hA, w⟩, A, B, ⟨h3, h4, h5, h8⟩, h1, h2, h6, ?_, ?_⟩
    · rw [h7, h6', ← e ⟨hSk, hRand, hA, w⟩]
    · rw [add_comm w, h9, h7, h6', ← e ⟨hSk, hRand, hA, w⟩]
  · rintro ⟨k, A, B, ⟨h3, h4, h5, h8⟩, h1, h2, h6, h7, h9⟩
    refine ⟨A, h1, B, h2, k.hSk, h3, k.hRand, h4, k.hAttrs, h5, _, ⟨h6, rfl⟩, (), ?_, k.w, h8, ?_⟩
    · rw [h7, e]
    · rw [add_comm, h9, h7]

theorem nymVer_ok_iff {sig : NymSignature} {nym : S.G1} {ipk : IssuerPublicKey} {msg : Bytes} :
    sig.ver T nym ipk msg = .ok () ↔ ∃ hSk hRand : S.G1,
      T.g1FromProto ipk.hSk = .ok hSk ∧ T.g1FromProto ipk.hRand = .ok hRand ∧
      S.zrOfBytes sig.proofC = S.hashToZr (Spec.second S (Spec.nymTranscript signLabel
        ⟨hSk, hRand, [], 0⟩ nym (S.zrOfBytes sig.proofC) (S.zrOfBytes sig.proofSSk)
        (S.zrOfBytes sig.proofSRNym) ipk.hash msg) (S.zrOfBytes sig.nonce)) := by
  have hle : ∀ (t : S.G1), 2 * S.scalarLen ≤ (signLabel ++ S.g1Bytes t ++ S.g1Bytes nym ++
      Buf.padTo S.scalarLen ipk.hash ++ msg).length := by
    intro t
    have := S.scalarLen_le
    simp; omega
  simp only [NymSignature.ver, Res.bind_eq_ok, Res.guardErr_eq_ok, Bool.not_eq_false',
    decide_eq_true_eq, nymSigProofData_eq, Res.ok_bind, secondHash_eq _ _ _ (hle _)]
  constructor
  · rintro ⟨hR, h1, hS, h2, h3⟩
    exact ⟨hS, hR, h2, h1, h3⟩
  · rintro ⟨hS, hR, h2, h1, h3⟩
    exact ⟨hR, h1, hS, h2, h3⟩

end Idemix.Dlog
