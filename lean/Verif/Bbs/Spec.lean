import Verif.Bbs.Model

/-!
# BBS+: specification

What the properties C24-C37 talk about, independently of the model's helpers.
-/

namespace Idemix.Bbs.Spec

variable {S : Suite}

/-- `c` are the coefficients of a non-trivial linear relation between group elements. -/
def Relation (c : List S.F) (points : List S.G1) : Prop :=
  c.length = points.length ∧ (∃ x ∈ c, x ≠ 0) ∧ S.lin c points = 0

/-- The secrets that the answers `z₁`, `z₂` to two different challenges `c₁`, `c₂` give away. -/
def witness (c₁ c₂ : S.F) (z₁ z₂ : List S.F) : List S.F :=
  (List.zipWith (· - ·) z₁ z₂).map ((c₂ - c₁)⁻¹ * ·)

/-- The elements at the positions in the set, in increasing order of position. -/
def shown {α : Type} (rs : List Nat) (xs : List α) : List α :=
  (xs.zipIdx.filter fun p => rs.contains p.2).map Prod.fst

/-- The elements at the other positions, in increasing order of position. -/
def unshown {α : Type} (rs : List Nat) (xs : List α) : List α :=
  (xs.zipIdx.filter fun p => !rs.contains p.2).map Prod.fst

/-- A BBS+ signature `(A, e, s)` on the scalars `ms` for the public key `w` and the generators `h0`, `h`:
`e(A, w · g2^e) = e(g1 · h0^s · Π h_i^{m_i}, g2)`. -/
def Signature (w : S.G2) (h0 : S.G1) (h : List S.G1) (A : S.G1) (e s : S.F) (ms : List S.F) : Prop :=
  ms.length = h.length ∧
    S.pair (w + e • S.genG2) A = S.pair S.genG2 (S.genG1 + s • h0 + (List.zipWith (· • ·) ms h).sum)

/-- What an extractor computes from two proofs: the signature `(A, e, s)` and the hidden messages in order. -/
structure Extracted (S : Suite) where
  A : S.G1
  e : S.F
  s : S.F
  hidden : List S.F

/-- The extractor, from the answers to the challenges `c₁` and `c₂`. -/
def extract (p q : SigProof S) (c₁ c₂ : S.F) : Extracted S :=
  let x := witness c₁ c₂ p.vc1.responses q.vc1.responses
  let y := witness c₁ c₂ p.vc2.responses q.vc2.responses
  ⟨-y.getD 0 0 • p.aPrime, -x.getD 0 0, y.getD 1 0 - y.getD 0 0 * x.getD 1 0, y.drop 2⟩

end Idemix.Bbs.Spec
