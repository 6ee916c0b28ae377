import Verif.Dlog.Spec
import Verif.Base.Disclose

/-!
# dlog scheme: specification of signatures of knowledge

A decoded signature, its four kinds of t-values, its transcript and the acceptance condition, written
with points and scalars and independently of the model of the code.
-/

namespace Idemix.Dlog.Spec

/-- The decoded content of a signature. `eid` and `rh` hold the commitment and the response of the
attribute pseudonyms that take part in the proof. -/
structure Sig (S : Suite) where
  aPrime : S.G1
  aBar : S.G1
  bPrime : S.G1
  nym : S.G1
  c : S.F
  sSk : S.F
  sE : S.F
  sR2 : S.F
  sR3 : S.F
  sSPrime : S.F
  sRNym : S.F
  sAttrs : List S.F
  nonce : S.F
  eid : Option (S.G1 × S.F)
  rh : Option (S.G1 × S.F)

variable {S : Suite}

/-- `t1 = A'^{sE} · HRand^{sR2} / (ABar/B')^c`. -/
def Sig.t1 (k : Key S) (v : Sig S) : S.G1 :=
  v.sE • v.aPrime + v.sR2 • k.hRand - v.c • (v.aBar - v.bPrime)

/-- `t2 = HRand^{sS'} · B'^{sR3} · HSk^{sSk} · ∏ hidden HAttrs^{sAttrs} · (g1 · ∏ disclosed HAttrs^{values})^c`. -/
def Sig.t2 (k : Key S) (D : Bytes) (values : List S.F) (v : Sig S) : S.G1 :=
  v.sSPrime • k.hRand + v.sR3 • v.bPrime + v.sSk • k.hSk + S.lin v.sAttrs (hid D k.hAttrs) +
    v.c • (S.genG1 + S.lin values (dis D k.hAttrs))

/-- `t3 = HSk^{sSk} · HRand^{sRNym} / Nym^c`. -/
def Sig.t3 (k : Key S) (v : Sig S) : S.G1 :=
  v.sSk • k.hSk + v.sRNym • k.hRand - v.c • v.nym

/-- Which response the scheme uses for attribute `i`: the number of hidden attributes before `i`. For a
hidden attribute this is its own response. -/
def respIdx (D : Bytes) (i : Nat) : Nat := (D.take i).count 0

/-- `t4 = HAttrs[i]^{s_i} · HRand^s / nym^c`. -/
def Sig.t4 (k : Key S) (D : Bytes) (v : Sig S) (i : Nat) (p : S.G1 × S.F) : S.G1 :=
  v.sAttrs.getD (respIdx D i) 0 • k.hAttrs.getD i 0 + p.2 • k.hRand - v.c • p.1

/-- Domain separation: `sign`, `signWithEidNym` or `signWithEidNymRhNym`. -/
def Sig.label (v : Sig S) (lStd lEid lRh : Bytes) : Bytes :=
  if v.rh.isSome then lRh else if v.eid.isSome then lEid else lStd

/-- Transcript part of an attribute pseudonym. -/
def Sig.nymPart (k : Key S) (D : Bytes) (v : Sig S) (i : Nat) : Option (S.G1 × S.F) → Bytes
  | none => []
  | some p => S.g1Bytes p.1 ++ S.g1Bytes (v.t4 k D i p)

/-- What is hashed first. `label` is the domain separation string, `hash` the issuer key hash. -/
def Sig.transcript (label : Bytes) (k : Key S) (hash D : Bytes) (values : List S.F) (eidPos rhPos : Nat)
    (msg : Bytes) (v : Sig S) : Bytes :=
  label ++ S.g1Bytes (v.t1 k) ++ S.g1Bytes (v.t2 k D values) ++ S.g1Bytes (v.t3 k) ++
    S.g1Bytes v.aPrime ++ S.g1Bytes v.aBar ++ S.g1Bytes v.bPrime ++ S.g1Bytes v.nym ++
    v.nymPart k D eidPos v.eid ++ v.nymPart k D rhPos v.rh ++
    Buf.padTo S.scalarLen hash ++ D ++ msg

/-- The acceptance condition of a signature of knowledge. -/
structure Sig.Accepted (label : Bytes) (k : Key S) (hash D : Bytes) (values : List S.F)
    (eidPos rhPos : Nat) (msg : Bytes) (v : Sig S) : Prop where
  aPrime_ne : v.aPrime ≠ 0
  pairing : S.pair k.w v.aPrime = S.pair S.genG2 v.aBar
  challenge : v.c = S.hashToZr
    (second S (v.transcript label k hash D values eidPos rhPos msg) v.nonce)

/-- What an extractor computes from two signatures: a credential `(A, e, s)`, the user secret, the randomness of
the pseudonym, and the hidden attributes in order. -/
structure Extracted (S : Suite) where
  A : S.G1
  e : S.F
  s : S.F
  sk : S.F
  rNym : S.F
  hidden : List S.F

/-- The extractor. -/
def Sig.extract (v₁ v₂ : Sig S) : Extracted S :=
  let x := witness v₁.c v₂.c
  let r3 := -x v₁.sR3 v₂.sR3
  ⟨r3 • v₁.aPrime, -x v₁.sE v₂.sE, x v₁.sSPrime v₂.sSPrime + x v₁.sR2 v₂.sR2 * r3, x v₁.sSk v₂.sSk,
    x v₁.sRNym v₂.sRNym, List.zipWith x v₁.sAttrs v₂.sAttrs⟩

end Idemix.Dlog.Spec
