import Verif.Fork.Member
import Verif.Fork.PropsOwner
import Verif.Dlog.PropsVerify

/-!
# Examples for C93
-/

namespace Idemix.Fork.Ex

open Idemix.Dlog Idemix.Dlog.Ex
open Idemix (Suite Res Bytes)
open Spec

/-- The issuer of C01 and the attributes of the credential of C06. -/
def setting : Setting Toy.suite where
  T := Toy.tr
  ipk := key.ipk
  k := Ex.key'
  isk := (3 : Toy.K)
  attrs := [(1 : Toy.K), (0 : Toy.K), (6 : Toy.K)]
  reads := Ex.reads
  one_attr_per_name := rfl
  bases := by decide

/-- The owner of the credential of C06, with the pseudonym of C17 and another one. -/
def member : Secrets Toy.suite 2 := ⟨(4 : Toy.K), ![(2 : Toy.K), (5 : Toy.K)], (2 : Toy.K), (2 : Toy.K)⟩

/-- The hypotheses of C93 about the key; the credential of the user is the one of C06, the first pseudonym that of C17. -/
example : setting.k.hRand ≠ (0 : Toy.K) ∧ Dlog.Spec.Apart Toy.suite ∧ member.credential setting = Dlog.Ex.cred ∧
    Secrets.nym (S := Toy.suite) setting member 0 = Dlog.Ex.nym ∧
    Secrets.nym (S := Toy.suite) setting member 1 ≠ Secrets.nym (S := Toy.suite) setting member 0 := by
  refine ⟨by decide, toy_apart, by decide, by decide, by decide⟩

/-- The credential is issued on a request of the user: the hypotheses of `C93_credential`. -/
example : ∃ req, newCredRequest Toy.tr (4 : Toy.K) (some [5]) key.ipk (3 : Toy.K) = .ok req ∧
    newCredential Toy.tr ⟨[3], key.ipk⟩ req setting.attrs (2 : Toy.K) (2 : Toy.K) = .ok (member.credential setting) ∧
    Toy.suite.zrOfBytes [3] = setting.isk := ⟨_, rfl, rfl, rfl⟩

/-- A presentation with an enrollment id pseudonym that discloses the first attribute. -/
def presentation : Show := ⟨discl, [7], 2, 1, cri, .eidNym⟩

theorem presentation_possible : presentation.Possible setting.N :=
  ⟨rfl, by decide, by decide, by decide, rfl⟩

/-- The choices for presentations. -/
def showRand : ShowRand Toy.suite setting.N :=
  ⟨(1 : Toy.K), (2 : Toy.K), (3 : Toy.K), (4 : Toy.K), (5 : Toy.K), (6 : Toy.K), (1 : Toy.K), (2 : Toy.K), (3 : Toy.K),
    ![(4 : Toy.K), (5 : Toy.K), (6 : Toy.K)], (1 : Toy.K), (2 : Toy.K), (3 : Toy.K), (4 : Toy.K)⟩

/-- The choices of the user. -/
def tape : Tape Toy.suite setting.N 4 := fun H => (⟨(1 : Toy.K), (3 : Toy.K), (H 0).getD (5 : Toy.K)⟩, showRand)

/-- An attacker who has the user sign the message 9 with the first pseudonym and show the credential with the second one, and then signs the
message 8 with the first pseudonym. -/
def meets : Visitor Toy.K (Wish 2 setting.N) (Answer Toy.K) (Claim 2) :=
  .call (.sign 0 [9]) fun _ => .call (.present 1 presentation presentation_possible) fun _ =>
    .ask (nymQuestion Toy.tr key.ipk nym (forged 1) [8]) fun c =>
      .ask (Toy.suite.zrBytes c ++ Toy.suite.zrBytes (2 : Toy.K)) fun c => .done ⟨0, forged c, [8]⟩

example : meets.Within 4 := by intro _ _ _ _; trivial

/-- Six answers. -/
def sixAnswers (a b c d e f : Toy.K) : Fin 6 → Toy.K := ![a, b, c, d, e, f]

/-- The play of an attacker. -/
def met (attack : Visitor Toy.K (Wish 2 setting.N) (Answer Toy.K) (Claim 2)) : Option (Visit Toy.K (Wish 2 setting.N) (Claim 2) × Table Toy.K) :=
  (claims setting (fun _ => attack) member tape).play (sixAnswers 1 2 3 4 5 6)

theorem of_met {attack : Visitor Toy.K (Wish 2 setting.N) (Answer Toy.K) (Claim 2)}
    {P : Visit Toy.K (Wish 2 setting.N) (Claim 2) → Table Toy.K → Prop} [∀ a tab, Decidable (P a tab)]
    (h : (match met attack with
      | some r => decide (P r.1 r.2)
      | none => false) = true) : ∃ a tab, met attack = some (a, tab) ∧ P a tab := by
  cases e : met attack with
  | none => rw [e] at h; cases h
  | some r => rw [e] at h; exact ⟨r.1, r.2, rfl, of_decide_eq_true h⟩

/-- Whether a request is one for a signature of this message with this pseudonym. -/
def isSign (j : Fin 2) (msg : Bytes) : Wish 2 setting.N → Bool
  | .sign j' msg' => j == j' && msg == msg'
  | .present _ _ _ => false

/-- The attack succeeds, after the user has signed one message and shown the credential. -/
example : ∃ a tab, (claims setting (fun _ => meets) member tape).Wins (sixAnswers 1 2 3 4 5 6) a tab ∧ a.log.length = 2 := by
  obtain ⟨a, tab, h, h1, h2, h3, h4⟩ := of_met (attack := meets)
    (P := fun a tab => a.result.sig.ver (Toy.tr.withHash (oracle tab)) (Secrets.nym (S := Toy.suite) setting member a.result.j) key.ipk
        a.result.msg = .ok () ∧ a.result.j = 0 ∧ (∀ s ∈ a.log, isSign 0 a.result.msg s.req = false) ∧ a.log.length = 2) (by decide +kernel)
  refine ⟨a, tab, ⟨h, h1, ?_⟩, h4⟩
  rintro s hs j msg e en rfl
  have := h3 s hs
  rw [h2] at en
  rw [e] at this
  have apart : ∀ j, Secrets.nym (S := Toy.suite) setting member j = Secrets.nym (S := Toy.suite) setting member 0 → j = 0 := by decide
  obtain rfl := apart j en
  simp [isSign] at this

/-- The user shows the credential, in the play: an answer of the code, not the default. -/
example : (member.signature setting 1 presentation showRand (3 : Toy.K) (4 : Toy.K)).isSome = true := by decide +kernel

/-- The reduction computes the logarithm from a play and its fork. -/
example : setting.k.hSk =
    (solveMember setting (fun _ => meets) member tape (sixAnswers 1 2 3 4 5 6) (sixAnswers 0 0 0 0 2 5) : Toy.K) * setting.k.hRand := by
  decide +kernel

end Idemix.Fork.Ex
