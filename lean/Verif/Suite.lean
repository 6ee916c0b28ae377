import Verif.Base.Res
import Mathlib.Algebra.Module.LinearMap.Basic
import Mathlib.Algebra.Field.Basic
import Mathlib.Tactic.Module
import Mathlib.Tactic.LinearCombination

/-!
# The pairing suite (IBM/mathlib) as a parameter

`IBM/mathlib` is a dependency, not part of the repository.  The model is parameterised by everything the
code uses of it.  The fields ending in a law are hypotheses about that dependency; they hold for
prime-order pairing groups with canonical encodings.  Groups are written additively: `P.Mul(k)` is
`k • P`, `P.Add(Q)` is `P + Q`, `P.Mul2(e, Q, f)` is `e • P + f • Q`; in `GT`, `Mul` is `+`, `Inverse` is `-`,
`IsUnity` is `= 0`, and `FExp (Pairing a b)` is `pair a b`.
Go's in-place updates (`P.Add(Q)`, `P.Sub(Q)`) are modelled as rebinding the variable.
-/

namespace Idemix

/-- A pairing suite: scalar field, groups, pairing, encodings and hash functions (`math.Curve`). -/
structure Suite where
  /-- `Zr` modulo `GroupOrder`. -/
  F : Type
  G1 : Type
  G2 : Type
  GT : Type
  [fieldF : Field F]
  [decF : DecidableEq F]
  [grpG1 : AddCommGroup G1]
  [modG1 : Module F G1]
  [decG1 : DecidableEq G1]
  [grpG2 : AddCommGroup G2]
  [modG2 : Module F G2]
  [decG2 : DecidableEq G2]
  [grpGT : AddCommGroup GT]
  [modGT : Module F GT]
  [decGT : DecidableEq GT]
  /-- `curve.GenG1`. -/
  genG1 : G1
  /-- `curve.GenG2`. -/
  genG2 : G2
  /-- `curve.FExp(curve.Pairing(Q, P))`. -/
  pair : G2 →ₗ[F] G1 →ₗ[F] GT
  /-- `curve.ScalarByteSize`. -/
  scalarLen : ℕ
  /-- `curve.G1ByteSize`. -/
  g1Len : ℕ
  /-- `curve.G2ByteSize`. -/
  g2Len : ℕ
  /-- `curve.CompressedG1ByteSize`. -/
  g1CompLen : ℕ
  /-- `curve.CompressedG2ByteSize`. -/
  g2CompLen : ℕ
  /-- `Zr.Bytes`. -/
  zrBytes : F → Bytes
  /-- `curve.NewZrFromBytes` (the value modulo the group order). -/
  zrOfBytes : Bytes → F
  /-- `curve.NewZrFromInt`. -/
  zrOfInt : ℤ → F
  /-- `G1.Bytes`. -/
  g1Bytes : G1 → Bytes
  /-- `curve.NewG1FromBytes`. -/
  g1OfBytes : Bytes → Option G1
  /-- `G1.Compressed`. -/
  g1Comp : G1 → Bytes
  /-- `curve.NewG1FromCompressed`. -/
  g1OfComp : Bytes → Option G1
  /-- `G2.Bytes`. -/
  g2Bytes : G2 → Bytes
  /-- `curve.NewG2FromBytes`. -/
  g2OfBytes : Bytes → Option G2
  /-- `G2.Compressed`. -/
  g2Comp : G2 → Bytes
  /-- `curve.NewG2FromCompressed`. -/
  g2OfComp : Bytes → Option G2
  /-- `curve.HashToZr`. -/
  hashToZr : Bytes → F
  /-- `curve.HashToG1WithDomain` (message, domain). -/
  hashToG1 : Bytes → Bytes → G1
  /- laws -/
  pair_nondeg : ∀ P : G1, pair genG2 P = 0 → P = 0
  genG1_ne : genG1 ≠ 0
  g1_cyclic : ∀ P : G1, ∃ a : F, P = a • genG1
  genG2_ne : genG2 ≠ 0
  g2_cyclic : ∀ Q : G2, ∃ a : F, Q = a • genG2
  scalarLen_pos : 0 < scalarLen
  /-- true of every curve of mathlib; used only for the re-slicing `proofData[:2*ScalarByteSize]`. -/
  scalarLen_le : scalarLen ≤ g1Len
  zrBytes_len : ∀ x, (zrBytes x).length = scalarLen
  zrOfBytes_zrBytes : ∀ x, zrOfBytes (zrBytes x) = x
  g1Bytes_len : ∀ P, (g1Bytes P).length = g1Len
  g1OfBytes_g1Bytes : ∀ P, g1OfBytes (g1Bytes P) = some P
  g1Comp_len : ∀ P, (g1Comp P).length = g1CompLen
  g1OfComp_g1Comp : ∀ P, g1OfComp (g1Comp P) = some P
  g2Bytes_len : ∀ P, (g2Bytes P).length = g2Len
  g2OfBytes_g2Bytes : ∀ P, g2OfBytes (g2Bytes P) = some P
  g2Comp_len : ∀ P, (g2Comp P).length = g2CompLen
  g2OfComp_g2Comp : ∀ P, g2OfComp (g2Comp P) = some P

attribute [instance] Suite.fieldF Suite.decF Suite.grpG1 Suite.modG1 Suite.decG1 Suite.grpG2
  Suite.modG2 Suite.decG2 Suite.grpGT Suite.modGT Suite.decGT
attribute [simp] Suite.zrOfBytes_zrBytes Suite.g1OfBytes_g1Bytes Suite.g1OfComp_g1Comp
  Suite.g2OfBytes_g2Bytes Suite.g2OfComp_g2Comp Suite.zrBytes_len Suite.g1Bytes_len
  Suite.g1Comp_len Suite.g2Bytes_len Suite.g2Comp_len

namespace Suite

variable (S : Suite)

theorem zrBytes_inj {x y : S.F} (h : S.zrBytes x = S.zrBytes y) : x = y := by
  rw [← S.zrOfBytes_zrBytes x, h, S.zrOfBytes_zrBytes]

theorem g1Bytes_inj {P Q : S.G1} (h : S.g1Bytes P = S.g1Bytes Q) : P = Q := by
  have := S.g1OfBytes_g1Bytes P
  rw [h, S.g1OfBytes_g1Bytes] at this
  exact (Option.some.inj this).symm

theorem g1Comp_inj {P Q : S.G1} (h : S.g1Comp P = S.g1Comp Q) : P = Q := by
  have := S.g1OfComp_g1Comp P
  rw [h, S.g1OfComp_g1Comp] at this
  exact (Option.some.inj this).symm

theorem g2Bytes_inj {P Q : S.G2} (h : S.g2Bytes P = S.g2Bytes Q) : P = Q := by
  have := S.g2OfBytes_g2Bytes P
  rw [h, S.g2OfBytes_g2Bytes] at this
  exact (Option.some.inj this).symm

theorem g2Comp_inj {P Q : S.G2} (h : S.g2Comp P = S.g2Comp Q) : P = Q := by
  have := S.g2OfComp_g2Comp P
  rw [h, S.g2OfComp_g2Comp] at this
  exact (Option.some.inj this).symm

/-- `pair genG2` is injective. -/
theorem pair_gen_inj {P Q : S.G1} (h : S.pair S.genG2 P = S.pair S.genG2 Q) : P = Q := by
  have : S.pair S.genG2 (P - Q) = 0 := by rw [map_sub, h, sub_self]
  exact sub_eq_zero.mp (S.pair_nondeg _ this)

/-- The group `G1` is one-dimensional. -/
theorem g1_span {P : S.G1} (hP : P ≠ 0) (Q : S.G1) : ∃ a : S.F, Q = a • P := by
  obtain ⟨p, hp⟩ := S.g1_cyclic P
  obtain ⟨q, hq⟩ := S.g1_cyclic Q
  have hp0 : p ≠ 0 := by
    rintro rfl
    exact hP (by rw [hp, zero_smul])
  refine ⟨q * p⁻¹, ?_⟩
  rw [hp, hq, smul_smul, mul_assoc, inv_mul_cancel₀ hp0, mul_one]

/-- Scalar multiplication of a fixed non-zero point is injective. -/
theorem smul_left_inj {P : S.G1} (hP : P ≠ 0) {a b : S.F} (h : a • P = b • P) : a = b := by
  by_contra hne
  have h0 : (a - b) • P = 0 := by rw [sub_smul, h, sub_self]
  have hab : a - b ≠ 0 := sub_ne_zero.mpr hne
  apply hP
  calc P = ((a - b)⁻¹ * (a - b)) • P := by rw [inv_mul_cancel₀ hab, one_smul]
    _ = 0 := by rw [mul_smul, h0, smul_zero]

theorem smul_right_inj {a : S.F} (ha : a ≠ 0) {P Q : S.G1} (h : a • P = a • Q) : P = Q := by
  calc P = (a⁻¹ * a) • P := by rw [inv_mul_cancel₀ ha, one_smul]
    _ = (a⁻¹ * a) • Q := by rw [mul_smul, h, ← mul_smul]
    _ = Q := by rw [inv_mul_cancel₀ ha, one_smul]

theorem smul_right_inj2 {a : S.F} (ha : a ≠ 0) {P Q : S.G2} (h : a • P = a • Q) : P = Q := by
  calc P = (a⁻¹ * a) • P := by rw [inv_mul_cancel₀ ha, one_smul]
    _ = (a⁻¹ * a) • Q := by rw [mul_smul, h, ← mul_smul]
    _ = Q := by rw [inv_mul_cancel₀ ha, one_smul]

/-- Linear combination `Σ aᵢ • Pᵢ` over two lists (specification of every multi-exponentiation). -/
def lin (as : List S.F) (Ps : List S.G1) : S.G1 := (List.zipWith (fun a P => a • P) as Ps).sum

@[simp] theorem lin_nil_left (Ps : List S.G1) : S.lin [] Ps = 0 := rfl
@[simp] theorem lin_nil_right (as : List S.F) : S.lin as [] = 0 := by cases as <;> rfl
@[simp] theorem lin_cons (a : S.F) (as : List S.F) (P : S.G1) (Ps : List S.G1) :
    S.lin (a :: as) (P :: Ps) = a • P + S.lin as Ps := rfl

theorem lin_append {as bs : List S.F} {Ps Qs : List S.G1} (h : as.length = Ps.length) :
    S.lin (as ++ bs) (Ps ++ Qs) = S.lin as Ps + S.lin bs Qs := by
  simp [lin, List.zipWith_append h]

theorem lin_add {as bs : List S.F} (h : as.length = bs.length) (Ps : List S.G1) :
    S.lin (List.zipWith (· + ·) as bs) Ps = S.lin as Ps + S.lin bs Ps := by
  induction as generalizing bs Ps with
  | nil => cases bs <;> simp_all
  | cons a as ih =>
    cases bs with
    | nil => simp at h
    | cons b bs =>
      cases Ps with
      | nil => simp
      | cons P Ps =>
        simp only [List.zipWith_cons_cons, lin_cons]
        rw [ih (by simpa using h)]
        module

theorem lin_smul (c : S.F) (as : List S.F) (Ps : List S.G1) :
    S.lin (as.map (c * ·)) Ps = c • S.lin as Ps := by
  induction as generalizing Ps with
  | nil => simp
  | cons a as ih =>
    cases Ps with
    | nil => simp
    | cons P Ps =>
      simp only [List.map_cons, lin_cons, ih]
      module

theorem lin_sub {as bs : List S.F} (h : as.length = bs.length) (Ps : List S.G1) :
    S.lin (List.zipWith (· - ·) as bs) Ps = S.lin as Ps - S.lin bs Ps := by
  induction as generalizing bs Ps with
  | nil => cases bs <;> simp_all
  | cons a as ih =>
    cases bs with
    | nil => simp at h
    | cons b bs =>
      cases Ps with
      | nil => simp
      | cons P Ps =>
        simp only [List.zipWith_cons_cons, lin_cons]
        rw [ih (by simpa using h)]
        module

end Suite

/-- `amcl.ECP`: affine coordinates as bytes. -/
structure ECP where
  x : Bytes
  y : Bytes
  deriving DecidableEq, Repr

/-- `amcl.ECP2`. -/
structure ECP2 where
  xa : Bytes
  xb : Bytes
  ya : Bytes
  yb : Bytes
  deriving DecidableEq, Repr

/-- The `Translator` interface (`bccsp/schemes/dlog/crypto/credential.go:18-24`): wire form of points.
The round-trip laws are property C23, proved for the repository's translators in
`Verif/Dlog/Translator.lean`; nil is refused. A nil pointer is `none`. -/
structure Translator (S : Suite) where
  g1ToProto : S.G1 → ECP
  g1FromProto : Option ECP → Res S.G1
  g2ToProto : S.G2 → ECP2
  g2FromProto : Option ECP2 → Res S.G2
  g1_rt : ∀ P, g1FromProto (some (g1ToProto P)) = .ok P
  g2_rt : ∀ P, g2FromProto (some (g2ToProto P)) = .ok P
  g1_nil : ∀ P, g1FromProto none ≠ .ok P
  g2_nil : ∀ P, g2FromProto none ≠ .ok P

attribute [simp] Translator.g1_rt Translator.g2_rt

/-- The same suite with another hash-to-scalar oracle (for forking arguments). -/
@[reducible] def Suite.withHash (S : Suite) (h : Bytes → S.F) : Suite := { S with hashToZr := h }

/-- A translator does not depend on the oracle. -/
@[reducible] def Translator.withHash {S : Suite} (T : Translator S) (h : Bytes → S.F) :
    Translator (S.withHash h) :=
  ⟨T.g1ToProto, T.g1FromProto, T.g2ToProto, T.g2FromProto, T.g1_rt, T.g2_rt, T.g1_nil, T.g2_nil⟩

/-- Two different inputs with the same hash-to-scalar value. -/
def Suite.Collision (S : Suite) (x y : Bytes) : Prop := x ≠ y ∧ S.hashToZr x = S.hashToZr y

end Idemix
