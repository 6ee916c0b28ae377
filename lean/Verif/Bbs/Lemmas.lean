import Verif.Bbs.Model

/-!
# BBS+: characterisation of the model functions
-/

namespace Idemix.Bbs

variable {S : Suite} (L : Lib S)

/-! ## Multi-exponentiation -/

theorem addTo_getD {G : Type} [AddCommGroup G] (r : Option G) (g : G) : addTo r g = r.getD 0 + g := by
  cases r <;> simp [addTo]

theorem sumLoop_eq : ∀ (res : Option S.G1) (bases : List S.G1) (scalars : List S.F),
    bases.length ≤ scalars.length → bases ≠ [] →
    sumLoop res bases scalars = .ok (some (res.getD 0 + S.lin scalars bases))
  | res, [b], s :: ss, _, _ => by
    simp [sumLoop, addTo_getD]
  | res, [b1, b2], s1 :: s2 :: ss, _, _ => by
    simp [sumLoop, addTo_getD]
  | res, b1 :: b2 :: b3 :: bs, s1 :: s2 :: ss, h, _ => by
    rw [sumLoop, sumLoop_eq _ (b3 :: bs) ss (by simpa using h) (by simp)]
    simp [addTo_getD, add_assoc]
  | _, [], _, _, h => absurd rfl h
  | _, [_], [], h, _ => by simp at h
  | _, _ :: _ :: _, [], h, _ => by simp at h
  | _, _ :: _ :: _, [_], h, _ => by simp at h

theorem sumLoop_short : ∀ (res : Option S.G1) (bases : List S.G1) (scalars : List S.F),
    scalars.length < bases.length → sumLoop res bases scalars = .panic
  | _, [], _, h => by simp at h
  | _, [_], [], _ => rfl
  | _, [_], _ :: _, h => by simp at h
  | _, _ :: _ :: _, [], _ => rfl
  | _, _ :: _ :: _, [_], _ => rfl
  | _, b1 :: b2 :: bs, s1 :: s2 :: ss, h => by
    rw [sumLoop, sumLoop_short _ bs ss (by simpa using h)]

theorem build_eq {bases : List S.G1} {scalars : List S.F} (h : bases.length ≤ scalars.length)
    (hb : bases ≠ []) : build bases scalars = .ok (S.lin scalars bases) := by
  rw [build, sumOfG1Products, sumLoop_eq _ _ _ h hb]
  simp

theorem build_ok_iff {bases : List S.G1} {scalars : List S.F} {c : S.G1} :
    build bases scalars = .ok c ↔
      bases ≠ [] ∧ bases.length ≤ scalars.length ∧ c = S.lin scalars bases := by
  constructor
  · intro h
    have hb : bases ≠ [] := by
      rintro rfl
      simp [build, sumOfG1Products, sumLoop] at h
    have hl : bases.length ≤ scalars.length := by
      by_contra hl
      rw [build, sumOfG1Products, sumLoop_short _ _ _ (by omega)] at h
      cases h
    rw [build_eq hl hb] at h
    cases h
    exact ⟨hb, hl, rfl⟩
  · rintro ⟨hb, hl, rfl⟩
    exact build_eq hl hb

theorem lin_take (as : List S.F) (Ps : List S.G1) : S.lin (as.take Ps.length) Ps = S.lin as Ps := by
  induction Ps generalizing as with
  | nil => simp
  | cons P Ps ih =>
    cases as with
    | nil => simp
    | cons a as => simp [ih]

theorem lin_sum (as : List S.F) (Ps : List S.G1) :
    S.lin as Ps = (List.zipWith (fun a P => a • P) as Ps).sum := rfl

/-! ## Generators -/

/-- The hash input of generator `i` (with `i = 0` for `h0`). -/
def genData (w : S.G2) (n i : Nat) : Bytes := S.g2Bytes w ++ [0] ++ beBytes 4 i ++ [0] ++ beBytes 4 n

theorem genData_zero (w : S.G2) (n : Nat) :
    S.g2Bytes w ++ [0, 0, 0, 0, 0, 0] ++ beBytes 4 n = genData w n 0 := by
  have : beBytes 4 0 = [0, 0, 0, 0] := by decide
  simp [genData, this]

theorem calcData_eq (w : S.G2) (n : Nat) (h : n ≤ 0xFFFFFFFF) : calcData w n = .ok (genData w n 0) := by
  have : ¬ ((n : Int) < 0 ∨ 0xFFFFFFFF < (n : Int)) := by omega
  rw [calcData, if_neg this, ← genData_zero]
  simp

theorem genInput_eq (w : S.G2) (n i : Nat) :
    genInput S (genData w n 0) i = .ok (genData w n i) := by
  have hl : ¬ (genData w n 0).length < S.g2Len + 1 + 4 := by
    simp [genData]
  have e : genData w n 0 = (S.g2Bytes w ++ [0]) ++ (beBytes 4 0 ++ ([0] ++ beBytes 4 n)) := by
    simp [genData]
  have l1 : (S.g2Bytes w ++ [0]).length = S.g2Len + 1 := by simp
  have l2 : (beBytes 4 0).length = 4 := by simp
  rw [genInput, if_neg hl]
  congr 1
  have t : (genData w n 0).take (S.g2Len + 1) = S.g2Bytes w ++ [0] := by
    rw [e, ← l1, List.take_left]
  have d : (genData w n 0).drop (S.g2Len + 1 + 4) = [0] ++ beBytes 4 n := by
    rw [e, ← l1, ← List.drop_drop, List.drop_left]
    exact List.drop_left' l2
  rw [t, d]
  simp [genData]

theorem genInputs_eq (w : S.G2) (n : Nat) (h : n ≤ 0xFFFFFFFF) :
    genInputs w n = .ok (genData w n 0, (List.range n).map fun i => genData w n (i + 1)) := by
  simp only [genInputs, calcData_eq w n h, Res.ok_bind, Int.toNat_natCast]
  rw [Res.mapM'_ok (h := fun i => genData w n (i + 1)) (fun i _ => genInput_eq w n (i + 1))]
  rfl

/-- The generators of a key: `h0`, and `h` of length `n`. -/
def gen (w : S.G2) (n i : Nat) : S.G1 := hashToG1 (genData w n i)

/-- The key with generators for `n` messages. -/
def pkg (w : S.G2) (n : Nat) : PKG S := ⟨gen w n 0, (List.range n).map fun i => gen w n (i + 1), w, n⟩

theorem toPKG_eq (w : S.G2) (n : Nat) (h : n ≤ 0xFFFFFFFF) : toPKG w n = .ok (pkg w n) := by
  simp only [toPKG, genInputs_eq w n h, Res.ok_bind, Res.pure_def, List.map_map, pkg]
  rfl

theorem toPKG_ok {w : S.G2} {n : Int} {pk : PKG S} (h : toPKG w n = .ok pk) :
    0 ≤ n ∧ n ≤ 0xFFFFFFFF ∧ pk = pkg w n.toNat := by
  by_cases hn : n < 0 ∨ 0xFFFFFFFF < n
  · simp [toPKG, genInputs, calcData, hn] at h
  · have h0 : 0 ≤ n := by omega
    have h1 : n ≤ 0xFFFFFFFF := by omega
    obtain ⟨m, rfl⟩ := Int.eq_ofNat_of_zero_le h0
    rw [toPKG_eq _ _ (by omega)] at h
    cases h
    exact ⟨h0, h1, by simp⟩

@[simp] theorem pkg_h_length (w : S.G2) (n : Nat) : (pkg w n).h.length = n := by simp [pkg]
@[simp] theorem pkg_w (w : S.G2) (n : Nat) : (pkg w n).w = w := rfl
@[simp] theorem pkg_count (w : S.G2) (n : Nat) : (pkg w n).count = n := rfl

/-! ## Keys -/

theorem unmarshalPublicKey_comp (w : S.G2) : unmarshalPublicKey S (S.g2Comp w) = .ok w := by
  simp [unmarshalPublicKey]

theorem unmarshalPrivateKey_bytes (h32 : S.scalarLen = frLen) (x : S.F) :
    unmarshalPrivateKey S (S.zrBytes x) = .ok x := by
  simp [unmarshalPrivateKey, h32]

/-! ## Messages at their own positions -/

/-- The messages carry their positions as indices, as `MessagesToFr` sets them. -/
def InOrder (messages : List (SigMsg S)) : Prop := ∀ i (h : i < messages.length), messages[i].idx = (i : Int)

theorem messagesToFr_inOrder (messages : List Bytes) : InOrder (messagesToFr L messages) := by
  intro i h
  simp [messagesToFr]

@[simp] theorem messagesToFr_length (messages : List Bytes) :
    (messagesToFr L messages).length = messages.length := by simp [messagesToFr]

theorem messagesToFr_fr (messages : List Bytes) :
    (messagesToFr L messages).map (·.fr) = messages.map (frFromOKM L) := by
  apply List.ext_getElem?
  intro i
  simp only [messagesToFr, List.getElem?_mapIdx, List.getElem?_map, Option.map_map]
  rfl

theorem msgBases_inOrder (pk : PKG S) (messages : List (SigMsg S)) (h : InOrder messages)
    (hl : messages.length = pk.h.length) : msgBases pk messages = .ok pk.h := by
  rw [msgBases, Res.mapM'_eq_ok, List.forall₂_iff_get]
  refine ⟨hl, ?_⟩
  intro i h1 h2
  have e : (messages.get ⟨i, h1⟩).idx = (i : Int) := h i h1
  rw [e, Res.index_nat]
  simp

/-- The value a BBS+ signature signs: `g1 · h0^s · Π h_i^{m_i}`. -/
def bValue (pk : PKG S) (s : S.F) (ms : List S.F) : S.G1 := S.genG1 + s • pk.h0 + S.lin ms pk.h

theorem computeB_inOrder (pk : PKG S) (hone : S.zrOfInt 1 = 1) (s : S.F) (messages : List (SigMsg S))
    (h : InOrder messages) (hl : messages.length = pk.h.length) :
    computeB s messages pk = .ok (bValue pk s (messages.map (·.fr))) := by
  rw [computeB, msgBases_inOrder pk messages h hl, Res.ok_bind, build_eq (by simp [hl]) (by simp)]
  simp [bValue, hone, add_assoc]

/-! ## Signatures -/

/-- A BBS+ signature is valid for a message vector: `e(A, w·g2^e) = e(B, g2)`. -/
def Valid (pk : PKG S) (σ : Sig S) (ms : List S.F) : Prop :=
  S.pair (σ.e • S.genG2 + pk.w) σ.a = S.pair S.genG2 (bValue pk σ.s ms)

theorem verifyWithB_ok_iff (σ : Sig S) (pk : PKG S) (b : S.G1) {u : Unit} :
    σ.verifyWithB pk b = .ok u ↔ S.pair (σ.e • S.genG2 + pk.w) σ.a = S.pair S.genG2 b := by
  simp only [Sig.verifyWithB, compareTwoPairings, map_neg, decide_eq_true_eq]
  rw [← sub_eq_add_neg]
  by_cases h : S.pair (σ.e • S.genG2 + pk.w) σ.a - S.pair S.genG2 b = 0
  · simp only [h, if_true, true_iff]; exact sub_eq_zero.mp h
  · simp only [h, if_false]
    constructor
    · intro h'; cases h'
    · intro h'; exact absurd (sub_eq_zero.mpr h') h

theorem sig_verify_ok_iff (σ : Sig S) (pk : PKG S) (hone : S.zrOfInt 1 = 1) (messages : List (SigMsg S))
    (h : InOrder messages) (hl : messages.length = pk.h.length) {u : Unit} :
    σ.verify messages pk = .ok u ↔ Valid pk σ (messages.map (·.fr)) := by
  rw [Sig.verify, computeB_inOrder pk hone _ messages h hl, Res.ok_bind, verifyWithB_ok_iff]
  rfl

/-- Signatures made with the key are valid. -/
theorem valid_of_sign {x e s : S.F} {pk : PKG S} (hw : pk.w = x • S.genG2) (hx : x + e ≠ 0) (ms : List S.F) :
    Valid pk ⟨(x + e)⁻¹ • bValue pk s ms, e, s⟩ ms := by
  unfold Valid
  rw [hw, ← add_smul, add_comm e x]
  simp only [map_smul, LinearMap.smul_apply, smul_smul]
  rw [inv_mul_cancel₀ hx, one_smul]

theorem sig_toBytes (h32 : S.scalarLen = frLen) (σ : Sig S) :
    σ.toBytes = .ok (S.g1Comp σ.a ++ S.zrBytes σ.e ++ S.zrBytes σ.s) := by
  have e1 : copyIn (List.replicate (S.g1CompLen + 2 * frLen) 0) 0 (S.g1CompLen + 2 * frLen) (S.g1Comp σ.a) =
      .ok (S.g1Comp σ.a ++ List.replicate (2 * frLen) 0) := by
    rw [copyIn, if_neg (by simp)]
    simp [List.take_of_length_le]
  have e2 := copyIn_exact (S.g1Comp σ.a) (S.zrBytes σ.e) (2 * frLen) (by simp [h32, frLen])
  have e3 := copyIn_exact (S.g1Comp σ.a ++ S.zrBytes σ.e) (S.zrBytes σ.s) (2 * frLen - frLen)
    (by simp [h32, frLen])
  simp only [S.g1Comp_len, S.zrBytes_len, h32, List.length_append] at e2 e3
  simp only [Sig.toBytes, e1, Res.ok_bind, e2]
  have : S.g1CompLen + 2 * frLen = S.g1CompLen + frLen + frLen := by simp [frLen]
  rw [this, e3]
  simp [frLen]

theorem parseSignature_bytes (h32 : S.scalarLen = frLen) (a : S.G1) (e s : S.F) :
    parseSignature S (S.g1Comp a ++ S.zrBytes e ++ S.zrBytes s) = .ok ⟨a, e, s⟩ := by
  have hl : (S.g1Comp a ++ S.zrBytes e ++ S.zrBytes s).length = S.g1CompLen + 2 * frLen := by
    simp [h32]; omega
  have s1 := goSlice_mid [] (S.g1Comp a) (S.zrBytes e ++ S.zrBytes s)
  have s2 := goSlice_mid (S.g1Comp a) (S.zrBytes e) (S.zrBytes s)
  have s3 := goSlice_mid (S.g1Comp a ++ S.zrBytes e) (S.zrBytes s) []
  simp only [List.nil_append, List.length_nil, Nat.zero_add, S.g1Comp_len, S.zrBytes_len, h32,
    List.length_append, List.append_nil, ← List.append_assoc] at s1 s2 s3
  simp only [parseSignature, hl, ne_eq, not_true_eq_false, decide_false, Res.guardErr_false, Res.ok_bind, s1,
    Suite.g1OfComp_g1Comp, Res.ofOption_some, s2, Res.pure_def]
  have : S.g1CompLen + 2 * frLen = S.g1CompLen + frLen + frLen := by simp [frLen]
  rw [this, s3]
  simp

end Idemix.Bbs
