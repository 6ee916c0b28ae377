import Verif.Toy
import Verif.Bbs.Model

/-!
# The toy suite with 32-byte scalars

Package `bbs` fixes the size of scalars to 32 bytes, so its examples need a suite with `scalarLen = 32`.
Scalars and uncompressed points of `G1` are padded with 31 zeros; everything else is as in `Verif/Toy.lean`.
-/

namespace Idemix.Toy

/-- 32-byte encoding. -/
def enc32 (x : K) : Bytes := List.replicate 31 0 ++ enc x

/-- Decoding of 32-byte points. -/
def decPt32 (b : Bytes) : Option K :=
  if b.take 31 = List.replicate 31 0 then decPt (b.drop 31) else none

set_option maxRecDepth 8000 in
theorem dec_enc32 : ∀ x : K, dec (enc32 x) = x := by decide
set_option maxRecDepth 8000 in
theorem decPt32_enc32 : ∀ x : K, decPt32 (enc32 x) = some x := by decide

/-- The toy suite with 32-byte scalars. -/
@[reducible] def suite32 : Suite where
  F := K
  G1 := K
  G2 := K
  GT := K
  genG1 := 1
  genG2 := 1
  pair := suite.pair
  scalarLen := 32
  g1Len := 32
  g2Len := 1
  g1CompLen := 1
  g2CompLen := 1
  zrBytes := enc32
  zrOfBytes := dec
  zrOfInt := fun i => (i : K)
  g1Bytes := enc32
  g1OfBytes := decPt32
  g1Comp := enc
  g1OfComp := decPt
  g2Bytes := enc
  g2OfBytes := decPt
  g2Comp := enc
  g2OfComp := decPt
  hashToZr := hash
  hashToG1 := fun m d => hash (d ++ m) * hash (d ++ m) + 1
  pair_nondeg := suite.pair_nondeg
  genG1_ne := by decide
  g1_cyclic := suite.g1_cyclic
  genG2_ne := by decide
  g2_cyclic := suite.g2_cyclic
  scalarLen_pos := by decide
  scalarLen_le := le_rfl
  zrBytes_len := fun _ => rfl
  zrOfBytes_zrBytes := dec_enc32
  g1Bytes_len := fun _ => rfl
  g1OfBytes_g1Bytes := decPt32_enc32
  g1Comp_len := fun _ => rfl
  g1OfComp_g1Comp := decPt_enc
  g2Bytes_len := fun _ => rfl
  g2OfBytes_g2Bytes := decPt_enc
  g2Comp_len := fun _ => rfl
  g2OfComp_g2Comp := decPt_enc

/-- A toy library: the 48-byte digest is 47 zeros and the toy hash; HKDF pads its input to the length. -/
@[reducible] def lib32 : Bbs.Lib suite32 where
  okm := fun m => List.replicate 47 0 ++ enc (hash m)
  okm_len := fun m => by simp [enc]
  hkdf := fun ikm n => .ok ((ikm ++ List.replicate n 0).take n)
  zrOfInt_one := by decide

end Idemix.Toy
