import Verif.Bbs.PropsCodec
import Mathlib.Tactic.Abel

/-!
# C24, C25: BBS+ signatures
-/

namespace Idemix.Bbs

variable {S : Suite} (L : Lib S)

open Ex

theorem valid_iff_signature (w : S.G2) (n : Nat) (σ : Sig S) (ms : List S.F) (hl : ms.length = n) :
    Valid (pkg w n) σ ms ↔ Spec.Signature w (gen w n 0) ((List.range n).map fun i => gen w n (i + 1))
      σ.a σ.e σ.s ms := by
  unfold Valid Spec.Signature bValue
  rw [lin_sum]
  simp only [pkg, hl, List.length_map, List.length_range, true_and, add_comm (σ.e • S.genG2)]

theorem verify_ok_iff (messages : List Bytes) (rawSig rawPk : Bytes) (hn : messages.length < 2 ^ 32) {u : Unit} :
    verify L messages rawSig rawPk = .ok u ↔
      ∃ σ w, parseSignature S rawSig = .ok σ ∧ unmarshalPublicKey S rawPk = .ok w ∧
        Valid (pkg w messages.length) σ (messages.map (frFromOKM L)) := by
  simp only [verify, Res.bind_eq_ok]
  constructor
  · rintro ⟨σ, h1, w, h2, pk, h3, h4⟩
    rw [toPKG_eq w _ (by omega)] at h3
    cases h3
    rw [sig_verify_ok_iff σ _ L.zrOfInt_one _ (messagesToFr_inOrder L messages) (by simp),
      messagesToFr_fr] at h4
    exact ⟨σ, w, h1, h2, h4⟩
  · rintro ⟨σ, w, h1, h2, h3⟩
    refine ⟨σ, h1, w, h2, pkg w messages.length, toPKG_eq w _ (by omega), ?_⟩
    rw [sig_verify_ok_iff σ _ L.zrOfInt_one _ (messagesToFr_inOrder L messages) (by simp),
      messagesToFr_fr]
    exact h3

/-- The points of a public key for `n` messages, by the hash inputs of C31: `h0` and `h1 ... hn`. -/
def Spec.generator (w : S.G2) (n i : Nat) : S.G1 :=
  S.hashToG1 (S.g2Bytes w ++ [0] ++ beBytes 4 i ++ [0] ++ beBytes 4 n) dstG1

/-- `h1 ... hn`. -/
def Spec.generators (w : S.G2) (n : Nat) : List S.G1 := (List.range n).map fun i => Spec.generator w n (i + 1)

/-- **C24 (exact).** `Verify` accepts exactly the pairs of a parsable signature and a parsable public key for
which the BBS+ equation holds for the scalars of the messages and the generators of the key for that many
messages. -/
theorem C24_verify_exact (messages : List Bytes) (rawSig rawPk : Bytes) (hn : messages.length < 2 ^ 32) :
    verify L messages rawSig rawPk = .ok () ↔
      ∃ σ w, parseSignature S rawSig = .ok σ ∧ unmarshalPublicKey S rawPk = .ok w ∧
        Spec.Signature w (Spec.generator w messages.length 0) (Spec.generators w messages.length) σ.a σ.e σ.s
          (messages.map (frFromOKM L)) := by
  rw [verify_ok_iff L messages rawSig rawPk hn]
  constructor <;> rintro ⟨σ, w, h1, h2, h3⟩ <;> refine ⟨σ, w, h1, h2, ?_⟩
  · exact (valid_iff_signature w _ σ _ (by simp)).mp h3
  · exact (valid_iff_signature w _ σ _ (by simp)).mpr h3

theorem signWithKeyFr_eq (h32 : S.scalarLen = frLen) (hone : S.zrOfInt 1 = 1) (messages : List (SigMsg S))
    (h : InOrder messages) (hn : messages.length ≤ 0xFFFFFFFF) (sk e s : S.F) :
    signWithKeyFr messages messages.length sk e s =
      .ok (S.g1Comp ((sk + e)⁻¹ • bValue (pkg (publicKey sk) messages.length) s (messages.map (·.fr))) ++
        S.zrBytes e ++ S.zrBytes s) := by
  have hb : S.genG1 + S.lin (messages.map (·.fr)) (pkg (publicKey sk) messages.length).h +
      s • (pkg (publicKey sk) messages.length).h0 =
      bValue (pkg (publicKey sk) messages.length) s (messages.map (·.fr)) := by
    rw [bValue]; abel
  rw [signWithKeyFr, toPKG_eq _ _ hn, Res.ok_bind, msgBases_inOrder _ _ h (by simp), Res.ok_bind,
    build_eq (by simp) (by simp), Res.ok_bind, signWithKeyB, toPKG_eq _ _ hn]
  simp only [Res.ok_bind, Suite.lin_cons, hone, one_smul, hb]
  exact sig_toBytes h32 _

/-- **C24 (scalars).** A signature on scalars `m_0 ... m_{n-1}` verifies for them. -/
theorem C24_sign_scalars_verifies (hone : S.zrOfInt 1 = 1) (h32 : S.scalarLen = 32) (ms : List S.F) (hn : ms.length < 2 ^ 32) (sk e s : S.F)
    (hx : sk + e ≠ 0) :
    ∃ raw σ pk, signWithKeyFr (ms.mapIdx fun i m => ⟨m, i⟩) ms.length sk e s = .ok raw ∧
      parseSignature S raw = .ok σ ∧ toPKG (sk • S.genG2) ms.length = .ok pk ∧
      σ.verify (ms.mapIdx fun i m => ⟨m, i⟩) pk = .ok () := by
  have ho : InOrder (S := S) (ms.mapIdx fun i m => ⟨m, i⟩) := by intro i h; simp
  have hm : (ms.mapIdx fun i m => (⟨m, i⟩ : SigMsg S)).map (·.fr) = ms := by
    apply List.ext_getElem?; intro i; simp
    cases ms[i]? <;> rfl
  have hs := signWithKeyFr_eq h32 hone _ ho (by simp; omega) sk e s
  simp only [List.length_mapIdx, hm] at hs
  refine ⟨_, _, _, hs, parseSignature_bytes h32 _ _ _, toPKG_eq _ _ (by omega), ?_⟩
  rw [sig_verify_ok_iff _ _ hone _ ho (by simp), hm]
  exact valid_of_sign rfl hx ms

/-- **C24.** For every key, every non-empty vector of messages (of any length below `2^32`) and all random
choices with `sk + e ≠ 0`, `Sign` succeeds and the signature verifies under the public key. -/
theorem C24_sign_verifies (h32 : S.scalarLen = 32) (messages : List Bytes) (h0 : messages ≠ [])
    (hn : messages.length < 2 ^ 32) (sk e s : S.F) (hx : sk + e ≠ 0) :
    ∃ raw, sign L messages (S.zrBytes sk) e s = .ok raw ∧
      verify L messages raw (S.g2Comp (sk • S.genG2)) = .ok () := by
  have hl : messages.length ≠ 0 := fun h => h0 (List.length_eq_zero_iff.mp h)
  have hs := signWithKeyFr_eq h32 L.zrOfInt_one _ (messagesToFr_inOrder L messages) (by simp; omega) sk e s
  simp only [messagesToFr_length, messagesToFr_fr] at hs
  refine ⟨_, ?_, (verify_ok_iff L _ _ _ hn).mpr
    ⟨_, _, parseSignature_bytes h32 _ _ _, unmarshalPublicKey_comp _, valid_of_sign (s := s) rfl hx _⟩⟩
  rw [sign, unmarshalPrivateKey_bytes h32, Res.ok_bind]
  simp only [hl, decide_false, Res.guardErr_false, Res.ok_bind]
  exact hs

set_option maxRecDepth 20000 in
example : ∃ raw, sign L32 [[1], [2, 3], [4]] (Toy.enc32 3) 2 5 = .ok raw ∧
    verify L32 [[1], [2, 3], [4]] raw (Toy.enc 3) = .ok () ∧
    verify L32 [[1], [2, 3], [6]] raw (Toy.enc 3) ≠ .ok () :=
  ⟨[6] ++ Toy.enc32 2 ++ Toy.enc32 5, by decide, by decide, by decide⟩

set_option maxRecDepth 20000 in
/-- **C24 (other counts, violated).** `SignWithKeyFr` takes a message count besides the messages but uses the
blinding generator of the number of messages; with another count the signature need not verify. -/
theorem C24_count_violated : ∃ (messages : List (SigMsg S32)) (σ : Sig S32) (raw : Bytes) (pk : PKG S32),
    signWithKeyFr messages 2 (3 : Toy.K) 2 5 = .ok raw ∧ parseSignature S32 raw = .ok σ ∧
      toPKG (3 : Toy.K) 2 = .ok pk ∧ σ.verify messages pk ≠ .ok () :=
  ⟨[⟨4, 0⟩], _, _, _, rfl, rfl, rfl, by decide⟩

/-! ## C25 -/

/-- Scalars of two vectors agree, or one of the message pairs at equal positions is a collision. -/
theorem map_eq_or {α β : Type} (f : α → β) {xs ys : List α} (h : xs.map f = ys.map f) :
    xs = ys ∨ ∃ x ∈ xs, ∃ y ∈ ys, x ≠ y ∧ f x = f y := by
  induction xs generalizing ys with
  | nil => cases ys <;> simp_all
  | cons x xs ih =>
    cases ys with
    | nil => simp at h
    | cons y ys =>
      simp only [List.map_cons, List.cons.injEq] at h
      by_cases hxy : x = y
      · rcases ih h.2 with e | ⟨a, ha, b, hb, hab⟩
        · left; rw [hxy, e]
        · right; exact ⟨a, by simp [ha], b, by simp [hb], hab⟩
      · right; exact ⟨x, by simp, y, by simp, hxy, h.1⟩

theorem valid_b_unique {pk₁ pk₂ : PKG S} (hw : pk₁.w = pk₂.w) {σ : Sig S} {m₁ m₂ : List S.F}
    (h₁ : Valid pk₁ σ m₁) (h₂ : Valid pk₂ σ m₂) : bValue pk₁ σ.s m₁ = bValue pk₂ σ.s m₂ := by
  unfold Valid at h₁ h₂
  rw [hw, h₂] at h₁
  exact (S.pair_gen_inj h₁).symm

/-- **C25 (equal lengths).** If one signature verifies under one key for two message vectors of equal length,
then the vectors are equal, or two different messages have the same scalar (a collision of the message hash), or
the differences of the scalars are a non-trivial linear relation between the generators of the key. -/
theorem C25_binding (m₁ m₂ : List Bytes) (rawSig rawPk : Bytes) (hn : m₁.length < 2 ^ 32)
    (hl : m₁.length = m₂.length) (h₁ : verify L m₁ rawSig rawPk = .ok ()) (h₂ : verify L m₂ rawSig rawPk = .ok ()) :
    m₁ = m₂ ∨ (∃ x ∈ m₁, ∃ y ∈ m₂, x ≠ y ∧ frFromOKM L x = frFromOKM L y) ∨
      ∃ w, unmarshalPublicKey S rawPk = .ok w ∧ 
        Spec.Relation (List.zipWith (fun x y => frFromOKM L x - frFromOKM L y) m₁ m₂) (Spec.generators w m₁.length) := by
  obtain ⟨σ, w, hσ, hw, v₁⟩ := (verify_ok_iff L _ _ _ hn).mp h₁
  obtain ⟨σ', w', hσ', hw', v₂⟩ := (verify_ok_iff L _ _ _ (hl ▸ hn)).mp h₂
  rw [hσ] at hσ'; cases hσ'
  rw [hw] at hw'; cases hw'
  rw [← hl] at v₂
  have hb := valid_b_unique rfl v₁ v₂
  unfold bValue at hb
  have hlin := add_left_cancel hb
  by_cases he : m₁.map (frFromOKM L) = m₂.map (frFromOKM L)
  · rcases map_eq_or _ he with e | e
    · exact .inl e
    · exact .inr (.inl e)
  · right; right
    have hz : List.zipWith (fun x y => frFromOKM L x - frFromOKM L y) m₁ m₂ =
        List.zipWith (· - ·) (m₁.map (frFromOKM L)) (m₂.map (frFromOKM L)) := by
      rw [List.zipWith_map]
    rw [hz]
    refine ⟨w, hw, ?_, ?_, ?_⟩
    · simp [hl, Spec.generators]
    · by_contra hz
      push Not at hz
      apply he
      apply List.ext_getElem (by simp [hl])
      intro i hi hi'
      have := hz ((m₁.map (frFromOKM L))[i] - (m₂.map (frFromOKM L))[i]) (by
        rw [← List.getElem_zipWith (f := (· - ·)) (h := by simp at hi hi' ⊢; omega)]
        exact List.getElem_mem _)
      exact sub_eq_zero.mp this
    · rw [S.lin_sub (by simp [hl])]
      exact sub_eq_zero.mpr hlin

/-- **C25 (different lengths).** If one signature verifies under one key for message vectors of different
lengths, then the component `s`, the scalars and their negatives are a non-trivial linear relation between the
generators for the two lengths, unless they are all zero. -/
theorem C25_binding_length (m₁ m₂ : List Bytes) (rawSig rawPk : Bytes) (hn₁ : m₁.length < 2 ^ 32)
    (hn₂ : m₂.length < 2 ^ 32) (h₁ : verify L m₁ rawSig rawPk = .ok ()) (h₂ : verify L m₂ rawSig rawPk = .ok ()) :
    ∃ σ w, parseSignature S rawSig = .ok σ ∧ unmarshalPublicKey S rawPk = .ok w ∧
      ((σ.s = 0 ∧ ∀ m ∈ m₁ ++ m₂, frFromOKM L m = 0) ∨
        Spec.Relation
          ((σ.s :: m₁.map (frFromOKM L)) ++ (-σ.s :: m₂.map fun m => -frFromOKM L m))
          (Spec.generator w m₁.length 0 :: Spec.generators w m₁.length ++
            (Spec.generator w m₂.length 0 :: Spec.generators w m₂.length))) := by
  obtain ⟨σ, w, hσ, hw, v₁⟩ := (verify_ok_iff L _ _ _ hn₁).mp h₁
  obtain ⟨σ', w', hσ', hw', v₂⟩ := (verify_ok_iff L _ _ _ hn₂).mp h₂
  rw [hσ] at hσ'; cases hσ'
  rw [hw] at hw'; cases hw'
  refine ⟨σ, w, hσ, hw, ?_⟩
  by_cases hz : σ.s = 0 ∧ ∀ m ∈ m₁ ++ m₂, frFromOKM L m = 0
  · exact .inl hz
  · right
    have hb := valid_b_unique (pk₁ := pkg w m₁.length) (pk₂ := pkg w m₂.length) rfl v₁ v₂
    unfold bValue at hb
    rw [add_assoc, add_assoc] at hb
    have hlin := add_left_cancel hb
    have hneg : (-σ.s :: m₂.map fun m => -frFromOKM L m) = (σ.s :: m₂.map (frFromOKM L)).map ((-1) * ·) := by
      simp
    rw [hneg]
    refine ⟨?_, ?_, ?_⟩
    · simp [Spec.generators]
    · by_contra hn
      push Not at hn
      apply hz
      refine ⟨hn _ (by simp), ?_⟩
      intro m hm
      rcases List.mem_append.mp hm with h | h
      · exact hn _ (by simp only [List.mem_append, List.mem_cons, List.mem_map]; left; right; exact ⟨m, h, rfl⟩)
      · have := hn ((-1) * frFromOKM L m) (by
          apply List.mem_append_right
          exact List.mem_map.mpr ⟨_, by simp only [List.mem_cons, List.mem_map]; right; exact ⟨m, h, rfl⟩, rfl⟩)
        simpa using this
    · rw [S.lin_append (by simp [Spec.generators]), S.lin_smul, Suite.lin_cons, Suite.lin_cons]
      have e : ∀ n, Spec.generators w n = (pkg w n).h := fun _ => rfl
      have e0 : ∀ n, Spec.generator w n 0 = (pkg w n).h0 := fun _ => rfl
      rw [e, e, e0, e0, hlin]
      module

set_option maxRecDepth 20000 in
example : ∃ raw, verify L32 [[1], [2, 3]] raw (Toy.enc 3) = .ok () ∧
    verify L32 [[1], [2, 10]] raw (Toy.enc 3) = .ok () ∧ verify L32 [[1], [2, 3], [0]] raw (Toy.enc 3) = .ok () :=
  ⟨[2] ++ Toy.enc32 2 ++ Toy.enc32 5, by decide, by decide, by decide⟩

end Idemix.Bbs
