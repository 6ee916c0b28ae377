import Verif.Suite
import Verif.Base.Buf

/-!
# dlog scheme: specification

What issuer keys, credentials and proofs mean, written without reference to the model of the code: points
and scalars, the BBS+ equation, and the transcripts as plain concatenations.
-/

namespace Idemix.Dlog.Spec

/-- The group elements of an issuer public key. -/
structure Key (S : Suite) where
  hSk : S.G1
  hRand : S.G1
  hAttrs : List S.G1
  w : S.G2

variable {S : Suite}

/-- The element `B = g1 · HSk^sk · HRand^s · ∏ HAttrs[i]^attrs[i]` signed by the issuer. -/
def signed (k : Key S) (sk s : S.F) (attrs : List S.F) : S.G1 :=
  S.genG1 + sk • k.hSk + s • k.hRand + S.lin attrs k.hAttrs

/-- `(A, e, s)` is a BBS+ signature of the issuer on the user secret `sk` and the attributes `attrs`. -/
def IsCredential (k : Key S) (A : S.G1) (e s sk : S.F) (attrs : List S.F) : Prop :=
  S.pair (k.w + e • S.genG2) A = S.pair S.genG2 (signed k sk s attrs)

/-- A pseudonym `HSk^sk · HRand^r`. -/
def nym (k : Key S) (sk r : S.F) : S.G1 := sk • k.hSk + r • k.hRand

/-- What is hashed to obtain the challenge of the issuer key proof, for challenge `c` and response `s`. -/
def ipkTranscript (w : S.G2) (barG1 barG2 : S.G1) (c s : S.F) : Bytes :=
  S.g2Bytes (s • S.genG2 - c • w) ++ S.g1Bytes (s • barG1 - c • barG2) ++ S.g2Bytes S.genG2 ++
    S.g1Bytes barG1 ++ S.g2Bytes w ++ S.g1Bytes barG2

/-- What is hashed to obtain the challenge of a credential request. -/
def requestTranscript (label : Bytes) (hSk nym : S.G1) (c s : S.F) (nonce keyHash : Bytes) : Bytes :=
  label ++ S.g1Bytes (s • hSk - c • nym) ++ S.g1Bytes hSk ++ S.g1Bytes nym ++
    Buf.padTo (2 * S.scalarLen) (nonce ++ keyHash)

/-- What is hashed first to obtain the challenge of a pseudonym signature. -/
def nymTranscript (label : Bytes) (k : Key S) (nym : S.G1) (c sSk sR : S.F) (keyHash msg : Bytes) :
    Bytes :=
  label ++ S.g1Bytes (sSk • k.hSk + sR • k.hRand - c • nym) ++ S.g1Bytes nym ++
    Buf.padTo S.scalarLen keyHash ++ msg

/-- The secret that the answers `z₁`, `z₂` to two different challenges `c₁`, `c₂` give away:
`(z₁ - z₂) / (c₁ - c₂)`. This is what an extractor computes. -/
def witness (c₁ c₂ z₁ z₂ : S.F) : S.F := (c₁ - c₂)⁻¹ * (z₁ - z₂)

/-- What is hashed second: the first hash and the nonce. -/
def second (S : Suite) (transcript : Bytes) (nonce : S.F) : Bytes :=
  S.zrBytes (S.hashToZr transcript) ++ S.zrBytes nonce

end Idemix.Dlog.Spec
