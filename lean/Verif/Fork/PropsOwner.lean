import Verif.Fork.Owner

/-!
# Examples for C91
-/

namespace Idemix.Fork.Ex

open Idemix.Dlog Idemix.Dlog.Ex
open Idemix (Suite Res Bytes)
open Spec

/-- `HSk` and `HRand` of the key of C01. -/
def hSk : Toy.K := match Toy.tr.g1FromProto key.ipk.hSk with
  | .ok p => p
  | _ => (0 : Toy.K)

/-- See `hSk`. -/
def hRand : Toy.K := match Toy.tr.g1FromProto key.ipk.hRand with
  | .ok p => p
  | _ => (0 : Toy.K)

/-- The owner of the pseudonym of C17, with the user secret 4. -/
def owner : Owner Toy.suite 3 := ⟨(4 : Toy.K), (2 : Toy.K), fun H => ⟨(1 : Toy.K), (3 : Toy.K), (H 0).getD (5 : Toy.K)⟩⟩

/-- The hypotheses of C91 about the key. -/
example : Toy.tr.g1FromProto key.ipk.hSk = .ok hSk ∧ Toy.tr.g1FromProto key.ipk.hRand = .ok hRand ∧ hRand ≠ (0 : Toy.K) ∧
    Owner.nym (S := Toy.suite) hSk hRand owner = Dlog.Ex.nym := by
  refine ⟨rfl, rfl, ?_, ?_⟩ <;> decide

/-- The signature on the message 8 of somebody who found the opening `(1, 0)` of the pseudonym, with the challenge `c`. -/
def forged (c : Toy.K) : NymSignature :=
  match newNymSignature (Toy.tr.withHash fun _ => c) (1 : Toy.K) nym (0 : Toy.K) key.ipk [8] ⟨(2 : Toy.K), (6 : Toy.K), (1 : Toy.K)⟩ with
  | .ok sig => sig
  | _ => ⟨[], [], [], []⟩

/-- An attacker who has the owner sign the message 9, and then signs the message 8. -/
def attacker : Attack Toy.K :=
  .sign [9] fun _ => .ask (nymQuestion Toy.tr key.ipk nym (forged 1) [8]) fun c =>
    .ask (Toy.suite.zrBytes c ++ Toy.suite.zrBytes (2 : Toy.K)) fun c => .done (forged c) [8]

example : attacker.Within 3 := by intro _ _ _; trivial

/-- Four answers. -/
def answers (a b c d : Toy.K) : Fin 4 → Toy.K := ![a, b, c, d]

/-- The play of the attacker. -/
def played (attack : Attack Toy.K) : Option (Outcome Toy.K × Table Toy.K) :=
  (forgeries Toy.tr key.ipk hSk hRand (fun _ => attack) owner).play (answers 1 2 3 4)

theorem of_played {attack : Attack Toy.K} {P : Outcome Toy.K → Table Toy.K → Prop} [∀ a tab, Decidable (P a tab)]
    (h : (match played attack with
      | some r => decide (P r.1 r.2)
      | none => false) = true) : ∃ a tab, played attack = some (a, tab) ∧ P a tab := by
  cases e : played attack with
  | none => rw [e] at h; cases h
  | some r => rw [e] at h; exact ⟨r.1, r.2, rfl, of_decide_eq_true h⟩

/-- The attack succeeds, after the owner has signed one message. -/
example : ∃ a tab, (forgeries Toy.tr key.ipk hSk hRand (fun _ => attacker) owner).Wins (answers 1 2 3 4) a tab ∧ a.log.length = 1 := by
  obtain ⟨a, tab, h, h1, h2, h3⟩ := of_played (attack := attacker)
    (P := fun a tab => a.sig.ver (Toy.tr.withHash (oracle tab)) (Owner.nym (S := Toy.suite) hSk hRand owner) key.ipk a.msg = .ok () ∧
      (∀ s ∈ a.log, s.msg ≠ a.msg) ∧ a.log.length = 1) (by decide +kernel)
  exact ⟨a, tab, ⟨h, h1, h2⟩, h3⟩

/-- To replay the signature of the owner is no success: it is accepted, but the owner has signed the message. -/
example : ∃ a tab, played (.sign [9] fun sig => .done sig [9]) = some (a, tab) ∧
    (a.sig.ver (Toy.tr.withHash (oracle tab)) (Owner.nym (S := Toy.suite) hSk hRand owner) key.ipk a.msg = .ok () ∧
      ∃ s ∈ a.log, s.msg = a.msg) :=
  of_played (by decide +kernel)

/-- The reduction computes the logarithm from a play and its fork. -/
example : hSk = (solve Toy.tr key.ipk hSk hRand (fun _ => attacker) owner (answers 1 2 3 4) (answers 0 0 2 5) : Toy.K) * hRand := by
  decide +kernel

/-- The owner signs as the code does. -/
example : newNymSignature (Toy.tr.withHash fun x => if x.length = 2 then (5 : Toy.K) else (3 : Toy.K)) (4 : Toy.K) nym (2 : Toy.K) key.ipk [9]
    ⟨(1 : Toy.K), (3 : Toy.K), (5 : Toy.K)⟩ = .ok (owner.signature Toy.tr key.ipk hSk hRand [9] ⟨(1 : Toy.K), (3 : Toy.K), (5 : Toy.K)⟩
      (3 : Toy.K) (5 : Toy.K)) := by decide +kernel

end Idemix.Fork.Ex
