import Verif.Provider.PropsLife
import Verif.Tools.Examples

/-!
# Concrete life cycles

Two complete runs over the toy field, one for each credential system, to which the theorems of
`Verif/Provider/PropsLife.lean` apply.
-/

namespace Idemix.Provider

open Spec

/-! ## Concrete cases -/

namespace Ex

open Gen.Ex (S L E keygenRnd utf8)

/-- Four attributes, of which the first is shown; both commitments. -/
def plan : Plan where
  names := [ascii "ou", ascii "role", ascii "eid", ascii "rh"]
  nonce := List.replicate 32 7
  attributes := [⟨1, .bytes (ascii "sales")⟩, ⟨2, .int 2⟩, ⟨1, .bytes (ascii "alice")⟩, ⟨1, .bytes (ascii "1")⟩]
  compared := [⟨1, .bytes (ascii "sales")⟩, ⟨0, .other⟩, ⟨1, .bytes (ascii "alice")⟩, ⟨0, .other⟩]
  shown := [⟨1, .bytes (ascii "sales")⟩, ⟨0, .other⟩, ⟨0, .other⟩, ⟨0, .other⟩]
  rh := 3
  eid := 2
  rhValue := ascii "1"
  eidValue := ascii "alice"
  epoch := 5
  sigType := .eidNymRhNym
  verType := .expectEidNymRhNym

/-- What is drawn. -/
def drnd : DlogRnd S Ecdsa.toy := ⟨keygenRnd.issuer, (4 : Toy.K), (3 : Toy.K), (2 : Toy.K), (1 : Toy.K), (),
  ⟨(2 : Toy.K), (3 : Toy.K), 1, 4, 5, 6, 1, 2, 3, [4, 5, 6], 2, 3, 4, 5⟩, ⟨(2 : Toy.K), (3 : Toy.K), (4 : Toy.K)⟩⟩

theorem at4 {l : List IdemixAttribute} {P : Nat → IdemixAttribute → Prop} (h : l.length = 4)
    (h' : ∀ i, (hi : i < 4) → P i (l[i]'(by omega))) : ∀ (i : Nat) (a : IdemixAttribute), l[i]? = some a → P i a := by
  intro i a ha
  obtain ⟨hi, rfl⟩ := List.getElem?_eq_some_iff.mp ha
  exact h' i (by omega)

theorem dlogPlan : DlogPlan S plan (Gen.Spec.values S 2 (ascii "sales") (ascii "alice") (ascii "1")) where
  nodup := by decide
  utf8 n hn := Gen.utf8Valid_ascii n ((by decide : ∀ n ∈ plan.names, ∀ c ∈ n, c.toNat < 128) n hn)
  nonce := rfl
  denotes := .cons (.bytes _) (.cons (.int _) (.cons (.bytes _) (.cons (.bytes _) .nil)))
  complete := rfl
  compared := at4 rfl (by decide)
  shown := at4 rfl (by decide)
  all := rfl
  rh := ⟨_, rfl, rfl⟩
  eid _ := ⟨_, rfl, rfl⟩
  eidValue _ := rfl
  rhValue _ := rfl
  type := .eidNymRhNym
  epoch := ⟨by decide, by decide⟩

/-- C68_dlog_life_cycle applies. -/
example (issuer user authority verifier : Party (dlogBackend E ec)) (msg msg' : Bytes) :
    lifeCycle (dlogBackend E ec) (issueDlog issuer user plan ⟨drnd, drnd, drnd, drnd, drnd, drnd, drnd, drnd, drnd⟩) issuer user
      authority verifier plan ⟨drnd, drnd, drnd, drnd, drnd, drnd, drnd, drnd, drnd⟩ msg msg' = .ok () :=
  C68_dlog_life_cycle E ec issuer user authority verifier plan _ dlogPlan _
    ⟨rfl, by decide, by decide, by decide, rfl, by decide⟩ msg msg' (9 : UInt8) rfl [48, 9] rfl (fun _ => ⟨_, rfl⟩)
    (C52_dlog_nym E ec 16 (by decide) (.inr (.inr ⟨Gen.Ex.layout, rfl, rfl⟩)))

/-- Two attributes, hidden; both commitments. -/
def plan2 : Plan where
  names := [ascii "eid", ascii "rh"]
  nonce := [7]
  attributes := [⟨1, .bytes (ascii "alice")⟩, ⟨1, .bytes (ascii "1")⟩]
  compared := [⟨1, .bytes (ascii "alice")⟩, ⟨0, .other⟩]
  shown := [⟨0, .other⟩, ⟨0, .other⟩]
  rh := 1
  eid := 0
  rhValue := ascii "1"
  eidValue := ascii "alice"
  epoch := 5
  sigType := .eidNymRhNym
  verType := .bestEffort

/-- What is drawn. -/
def arnd2 : AriesRnd S Ecdsa.toy := ⟨List.replicate 32 1, (3 : Toy.K), fun _ => (2 : Toy.K), (4 : Toy.K), (1 : Toy.K),
  (1 : Toy.K), (1 : Toy.K), (), ⟨⟨(3 : Toy.K), (1 : Toy.K), fun i => ((2 * i + 1 : Nat) : Toy.K), fun i => ((3 * i + 2 : Nat) : Toy.K)⟩,
    (1 : Toy.K), (2 : Toy.K), (3 : Toy.K), (4 : Toy.K), (5 : Toy.K), (6 : Toy.K)⟩, [], (1 : Toy.K), (1 : Toy.K)⟩

theorem ariesPlan : AriesPlan L plan2 [Bbs.frFromOKM L (ascii "alice"), Bbs.frFromOKM L (ascii "1")] where
  some_name := by decide
  names := by decide
  encodes := .cons (.inl ⟨rfl, _, rfl, rfl⟩) (.cons (.inl ⟨rfl, _, rfl, rfl⟩) .nil)
  complete := rfl
  compared i a h := by
    match i with
    | 0 => cases h; exact .inr rfl
    | 1 => cases h; exact .inl rfl
    | i + 2 => simp [plan2] at h
  allCompared := rfl
  shown i a h := by
    match i with
    | 0 => cases h; exact .inl rfl
    | 1 => cases h; exact .inl rfl
    | i + 2 => simp [plan2] at h
  all := rfl
  rhIndex := by decide
  eidIndex := by decide
  rh _ := ⟨_, rfl, rfl⟩
  eid _ := ⟨_, rfl, rfl⟩
  eidValue _ := rfl
  rhValue _ := rfl
  type := .bestEffortRh
  epoch := ⟨by decide, by decide⟩

set_option maxRecDepth 40000 in
/-- C68_aries_life_cycle applies. -/
example (issuer user authority verifier : Party (ariesBackend L E.T Ecdsa.toy ec)) (msg msg' : Bytes) :
    lifeCycle (ariesBackend L E.T Ecdsa.toy ec)
      (issueAries issuer user plan2 ⟨arnd2, arnd2, arnd2, arnd2, arnd2, arnd2, arnd2, arnd2, arnd2⟩) issuer user
      authority verifier plan2 ⟨arnd2, arnd2, arnd2, arnd2, arnd2, arnd2, arnd2, arnd2, arnd2⟩ msg msg' = .ok () :=
  C68_aries_life_cycle rfl (by decide) (by decide) L E.T Ecdsa.toy ec issuer user authority verifier plan2 _ ariesPlan _ _
    ⟨rfl, rfl, by decide, by decide, fun _ w h0 h hw e1 e2 => by subst hw e1 e2; decide⟩ msg msg' (9 : UInt8) rfl [48, 9] rfl (fun _ => ⟨_, rfl⟩)
    (C52_aries_nym L E.T Ecdsa.toy ec 16 (by decide) (.inr (.inr ⟨Gen.Ex.layout, rfl⟩)))

end Ex

end Idemix.Provider
