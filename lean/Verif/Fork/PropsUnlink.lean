import Verif.Fork.Unlink
import Verif.Fork.PropsMember

/-!
# Examples for C94
-/

namespace Idemix.Fork.Ex

open Idemix.Dlog Idemix.Dlog.Ex
open Idemix (Suite Res Bytes)
open Spec

/-- The issuer of C01 with the two members of C12. -/
def group : Group Toy.suite 2 where
  T := Toy.tr
  ipk := key.ipk
  k := Ex.key'
  isk := (3 : Toy.K)
  reads := Ex.reads
  issuer := by decide
  bases := by decide
  person := ![⟨(4 : Toy.K), (2 : Toy.K), (2 : Toy.K), [(1 : Toy.K), (0 : Toy.K), (6 : Toy.K)], rfl⟩,
    ⟨(1 : Toy.K), (1 : Toy.K), (4 : Toy.K), [(1 : Toy.K), (3 : Toy.K), (5 : Toy.K)], rfl⟩]

/-- The members have the credentials of C12. -/
example : (group.secrets (m := 0) 0 Fin.elim0).credential (group.setting 0) = Dlog.Ex.cred ∧
    (group.secrets (m := 0) 1 Fin.elim0).credential (group.setting 1) = Dlog.Ex.cred₂ := by decide

/-- The hypotheses of C94 about the members and the key. -/
theorem group_real : group.Real := by
  intro i
  revert i
  decide

example : group.k.hRand ≠ (0 : Toy.K) := by decide

/-- The pseudonym of C12 may belong to the first or the second member: these are their openings. -/
example : group.nyms ![0] ![(2 : Toy.K)] 0 = Dlog.Ex.nym ∧ group.nyms ![1] ![(0 : Toy.K)] 0 = Dlog.Ex.nym := by decide

/-- A case of `C94_pseudonyms` and `C94_members_answer`: the pseudonym of the second member as the code computes it, and a hash function that
gives the two answers 1 and 2 when the first member signs. -/
example : makeNym Toy.tr (1 : Toy.K) key.ipk (0 : Toy.K) = .ok (Dlog.Ex.nym, (0 : Toy.K)) ∧
    (fun x => if x.length = 2 then (2 : Toy.K) else (1 : Toy.K))
      ((group.service ![0] ![(2 : Toy.K)] fun _ => True).first ⟨.sign 0 [9], trivial⟩ (⟨(1 : Toy.K), (2 : Toy.K), (3 : Toy.K)⟩, showRand)) = (1 : Toy.K) ∧
    (fun x => if x.length = 2 then (2 : Toy.K) else (1 : Toy.K))
      ((group.service ![0] ![(2 : Toy.K)] fun _ => True).second ⟨.sign 0 [9], trivial⟩ (⟨(1 : Toy.K), (2 : Toy.K), (3 : Toy.K)⟩, showRand) (1 : Toy.K)) =
        (2 : Toy.K) := by decide +kernel

/-- The members agree on the first attribute, and do not agree on the second. -/
theorem agrees : group.Agree ![0] ![1] (.present 0 presentation presentation_possible) := by
  intro i d h hd
  match i with
  | 0 => rfl
  | 1 => simp [presentation, discl] at h; exact absurd h.symm hd
  | 2 => simp [presentation, discl] at h; exact absurd h.symm hd
  | n + 3 => simp [presentation, discl] at h

example (hp : Show.Possible ⟨[1, 1, 0], [7], 2, 1, cri, .standard⟩ group.N) :
    ¬ group.Agree ![0] ![1] (.present 0 ⟨[1, 1, 0], [7], 2, 1, cri, .standard⟩ hp) := by
  intro h
  have := h 1 1 rfl (by decide)
  revert this
  decide

/-- Somebody who has the owner of the pseudonym show the credential, sign the message 9, and then looks at the response for the user
secret in the signature. -/
def looks : Watcher group (group.Agree ![0] ![1]) Bytes := fun _ =>
  .call ⟨.present 0 presentation presentation_possible, agrees⟩ fun _ => .call ⟨.sign 0 [9], trivial⟩ fun
    | .signed sig => .done sig.proofSSk
    | .shown _ => .done []

example (nyms : Fin 1 → Toy.K) : (looks nyms).Within 2 := by
  rintro _ (_ | _) <;> trivial

/-- What is seen, with some choices: a signature of the first member. -/
def tape₂ : Tape Toy.suite group.N 2 := fun H => (⟨(1 : Toy.K), (3 : Toy.K), (H 0).getD (5 : Toy.K)⟩, showRand)

example : group.watched (q := 4) ![0] looks ![(2 : Toy.K)] tape₂ ![(1 : Toy.K), (2 : Toy.K), (3 : Toy.K), (4 : Toy.K)] = some [5] := by
  decide +kernel

/-- The presentation is one of the code, not the default. -/
example : ((group.secrets 0 ![(2 : Toy.K)]).signature (group.setting 0) 0 presentation showRand (1 : Toy.K) (2 : Toy.K)).isSome = true := by
  decide +kernel

/-- Why there is an exception: if the blinding `r1` of a presentation is zero, then the second commitment together with the responses gives
the element `B` of the credential, and with it the member. The two members have different ones. -/
example : (group.secrets (m := 0) 0 Fin.elim0).B (group.setting 0) ≠ (group.secrets (m := 0) 1 Fin.elim0).B (group.setting 1) := by decide

end Idemix.Fork.Ex
