import Verif.Aries.Model
import Verif.Bbs.PropsSig

/-!
# Specification vocabulary for the aries scheme
-/

namespace Idemix.Aries.Spec

open Bbs

variable {S : Suite} (L : Lib S)

/-- The value that a supplied attribute stands for: the hash of the bytes (type 1) or the integer (type 2). -/
def Encodes (a : IdemixAttribute) (v : S.F) : Prop :=
  (a.type = 1 ∧ ∃ b, a.value = .bytes b ∧ v = frFromOKM L b) ∨ (a.type = 2 ∧ ∃ i, a.value = .int i ∧ v = S.zrOfInt i)

/-- A supplied attribute that is disclosed agrees with a value; hidden ones agree with every value. -/
def Agrees (a : IdemixAttribute) (v : S.F) : Prop := (a.type = 1 ∨ a.type = 2) → Encodes L a v

/-- The signed vector: the attribute values with the secret key put at position `k`. -/
def withSecret {α : Type} (k : Nat) (x : α) (xs : List α) : List α := xs.take k ++ [x] ++ xs.drop k

/-- The issuer public key with public part `w` for `n` attributes: `n + 1` generators. -/
def IsKey (ipk : IPK S) (w : S.G2) (n : Nat) : Prop :=
  ipk.w = w ∧ ipk.n = n ∧ ipk.pkg.h0 = Bbs.Spec.generator w (n + 1) 0 ∧ ipk.pkg.h = Bbs.Spec.generators w (n + 1) ∧
    ipk.pkg.w = w ∧ ipk.pkg.count = n + 1

end Idemix.Aries.Spec
