import Verif.Suite
import Mathlib.Algebra.Field.ZMod
import Mathlib.LinearAlgebra.BilinearMap

/-!
# A concrete pairing suite

The integers modulo 7 with one-byte encodings: `G1 = G2 = GT = ZMod 7`, the pairing is multiplication.
It shows that the laws required by `Suite` and `Translator` are satisfiable, and it is used to run the
model in the non-vacuity examples.  Discrete logarithms are trivial in it; nothing else depends on it.
-/

namespace Idemix.Toy

/-- Scalars of the toy suite. -/
abbrev K := ZMod 7

/-- A field structure on `ZMod 7` whose inverse `x ↦ x^5` evaluates in the kernel. -/
instance fieldK : Field K where
  __ := (inferInstance : CommRing K)
  inv x := x * x * x * x * x
  exists_pair_ne := ⟨0, 1, by decide⟩
  mul_inv_cancel := by decide
  inv_zero := by decide
  nnqsmul := _
  nnqsmul_def := fun _ _ => rfl
  qsmul := _
  qsmul_def := fun _ _ => rfl

/-- One-byte encoding. -/
def enc (x : K) : Bytes := [UInt8.ofNat x.val]

/-- Big-endian value modulo 7. -/
def dec (b : Bytes) : K := ((b.foldl (fun acc x => 256 * acc + x.toNat) 0 : ℕ) : K)

/-- Decoding of a one-byte point; other lengths and values of 7 or more are rejected. -/
def decPt : Bytes → Option K
  | [b] => if b.toNat < 7 then some ((b.toNat : ℕ) : K) else none
  | _ => none

/-- A toy hash. -/
def hash (b : Bytes) : K := ((b.foldl (fun acc x => (3 * acc + x.toNat + 1) % 7) 2 : ℕ) : K)

theorem dec_enc : ∀ x : K, dec (enc x) = x := by decide
theorem decPt_enc : ∀ x : K, decPt (enc x) = some x := by decide

/-- The toy suite. -/
@[reducible] def suite : Suite where
  F := K
  G1 := K
  G2 := K
  GT := K
  genG1 := 1
  genG2 := 1
  pair := LinearMap.mk₂ K (fun a b => a * b) (fun _ _ _ => add_mul _ _ _) (fun _ _ _ => mul_assoc _ _ _)
    (fun _ _ _ => mul_add _ _ _) (fun _ _ _ => mul_left_comm _ _ _)
  scalarLen := 1
  g1Len := 1
  g2Len := 1
  g1CompLen := 1
  g2CompLen := 1
  zrBytes := enc
  zrOfBytes := dec
  zrOfInt := fun i => (i : K)
  g1Bytes := enc
  g1OfBytes := decPt
  g1Comp := enc
  g1OfComp := decPt
  g2Bytes := enc
  g2OfBytes := decPt
  g2Comp := enc
  g2OfComp := decPt
  hashToZr := hash
  hashToG1 := fun m d => hash (d ++ m) * hash (d ++ m) + 1
  pair_nondeg := fun P h => by
    have : (1 : K) * P = 0 := h
    rwa [one_mul] at this
  genG1_ne := by decide
  g1_cyclic := fun P => ⟨P, (mul_one P).symm⟩
  genG2_ne := by decide
  g2_cyclic := fun P => ⟨P, (mul_one P).symm⟩
  scalarLen_pos := Nat.one_pos
  scalarLen_le := le_rfl
  zrBytes_len := fun _ => rfl
  zrOfBytes_zrBytes := dec_enc
  g1Bytes_len := fun _ => rfl
  g1OfBytes_g1Bytes := decPt_enc
  g1Comp_len := fun _ => rfl
  g1OfComp_g1Comp := decPt_enc
  g2Bytes_len := fun _ => rfl
  g2OfBytes_g2Bytes := decPt_enc
  g2Comp_len := fun _ => rfl
  g2OfComp_g2Comp := decPt_enc

/-- The toy translator. -/
@[reducible] def tr : Translator suite where
  g1ToProto := fun P => ⟨enc P, []⟩
  g1FromProto := fun e => match e with
    | some ⟨x, []⟩ => Res.ofOption "bad point" (decPt x)
    | _ => .err "bad point"
  g2ToProto := fun P => ⟨enc P, [], [], []⟩
  g2FromProto := fun e => match e with
    | some ⟨x, [], [], []⟩ => Res.ofOption "bad point" (decPt x)
    | _ => .err "bad point"
  g1_rt := fun P => by simp [decPt_enc]
  g2_rt := fun P => by simp [decPt_enc]
  g1_nil := fun P h => by cases h
  g2_nil := fun P h => by cases h

end Idemix.Toy
