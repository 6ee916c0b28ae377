import Verif.Suite
import Verif.Toy

/-!
# The `weak-bb` package and property C60

Weak Boneh-Boyen signatures (`bccsp/schemes/weak-bb/weak-bb.go`).
-/

namespace Idemix.WeakBB

variable {S : Suite}

/-- `WbbKeyGen` (`weak-bb.go:17-24`); the randomness is the sampled scalar. -/
def keyGen (sk : S.F) : S.F × S.G2 := (sk, sk • S.genG2)

/-- `WbbSign` (`weak-bb.go:27-34`); `InvModP` leaves 0 unchanged, as does the inverse of Lean's fields. -/
def sign (sk m : S.F) : S.G1 := (sk + m)⁻¹ • S.genG1

/-- `WbbVerify` (`weak-bb.go:37-52`); nil pointers are `none`, and `GenGt` is the pairing of the generators. -/
def verify (pk : Option S.G2) (sig : Option S.G1) (m : Option S.F) : Res Unit :=
  match pk, sig, m with
  | some pk, some sig, some m =>
    Res.guardErr (!decide (S.pair (pk + m • S.genG2) sig = S.pair S.genG2 S.genG1)) "weak-BB signature is invalid"
  | _, _, _ => .err "weak-BB signature invalid: received nil input"

theorem pair_gen_ne : S.pair S.genG2 S.genG1 ≠ 0 := fun h => S.genG1_ne (S.pair_nondeg _ h)

/-- The pairing equation, solved: the only signature of `m` is the point that `sk + m` takes to the generator. -/
theorem verify_iff (sk m : S.F) (P : S.G1) :
    verify (some (keyGen (S := S) sk).2) (some P) (some m) = .ok () ↔ (sk + m) • P = S.genG1 := by
  have e : S.pair ((keyGen (S := S) sk).2 + m • S.genG2) P = S.pair S.genG2 ((sk + m) • P) := by
    rw [keyGen, ← add_smul, map_smul, LinearMap.smul_apply, map_smul]
  simp only [verify, Res.guardErr_eq_ok, Bool.not_eq_false', decide_eq_true_eq, e]
  exact ⟨S.pair_gen_inj, fun h => by rw [h]⟩

/-- C60. Signatures verify for the message signed, provided the secret key is not its negative. -/
theorem C60_signature_verifies (sk m : S.F) (h : sk + m ≠ 0) :
    verify (some (keyGen (S := S) sk).2) (some (sign sk m)) (some m) = .ok () := by
  rw [verify_iff, sign, smul_smul, mul_inv_cancel₀ h, one_smul]

/-- C60. A signature verifies for no message but the one it was made for; if the secret key is the negative of the
message it verifies for none at all. -/
theorem C60_only_signed_message (sk m m' : S.F) :
    verify (some (keyGen (S := S) sk).2) (some (sign sk m)) (some m') = .ok () ↔ m' = m ∧ sk + m ≠ 0 := by
  constructor
  · intro h
    rw [verify_iff, sign, smul_smul] at h
    have h1 : (sk + m') * (sk + m)⁻¹ = 1 :=
      S.smul_left_inj S.genG1_ne (by rw [h, one_smul])
    have h0 : sk + m ≠ 0 := by
      intro h0
      rw [h0, inv_zero, mul_zero] at h1
      exact zero_ne_one h1
    rw [← div_eq_mul_inv, div_eq_one_iff_eq h0] at h1
    exact ⟨add_left_cancel h1, h0⟩
  · rintro ⟨rfl, h⟩
    exact C60_signature_verifies sk m' h

/-- C60. The signature of a message is unique, and a point is a valid signature of at most one message. -/
theorem C60_unique (sk m m' : S.F) (P Q : S.G1)
    (h : verify (some (keyGen (S := S) sk).2) (some P) (some m) = .ok ()) :
    P = sign sk m ∧
    (verify (some (keyGen (S := S) sk).2) (some Q) (some m) = .ok () → Q = P) ∧
    (verify (some (keyGen (S := S) sk).2) (some P) (some m') = .ok () → m' = m) := by
  have key : ∀ (R : S.G1) (n : S.F), verify (some (keyGen (S := S) sk).2) (some R) (some n) = .ok () →
      R = sign sk n := by
    intro R n hR
    rw [verify_iff] at hR
    have h0 : sk + n ≠ 0 := by
      intro h0
      rw [h0, zero_smul] at hR
      exact S.genG1_ne hR.symm
    rw [sign, ← hR, smul_smul, inv_mul_cancel₀ h0, one_smul]
  refine ⟨key P m h, fun hQ => (key Q m hQ).trans (key P m h).symm, fun hP => ?_⟩
  rw [key P m h] at hP
  exact ((C60_only_signed_message sk m m').mp hP).1

/-- C60. Missing inputs are refused, whatever the others are. -/
theorem C60_nil_refused (pk : Option S.G2) (sig : Option S.G1) (m : Option S.F)
    (h : pk = none ∨ sig = none ∨ m = none) :
    verify pk sig m = .err "weak-BB signature invalid: received nil input" := by
  rcases h with rfl | rfl | rfl
  · rfl
  · cases pk <;> rfl
  · cases pk <;> cases sig <;> rfl

example : (3 : Toy.K) + 2 ≠ 0 ∧
    verify (S := Toy.suite) (some (3 : Toy.K)) (some (sign (S := Toy.suite) (3 : Toy.K) (2 : Toy.K))) (some (2 : Toy.K)) = .ok () ∧
    verify (S := Toy.suite) (some (3 : Toy.K)) (some (sign (S := Toy.suite) (3 : Toy.K) (2 : Toy.K))) (some (1 : Toy.K)) ≠ .ok () ∧
    verify (S := Toy.suite) (some (3 : Toy.K)) (some (sign (S := Toy.suite) (3 : Toy.K) (4 : Toy.K))) (some (4 : Toy.K)) ≠ .ok () := by
  decide

end Idemix.WeakBB
