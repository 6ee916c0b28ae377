import Verif.Msp.PropsPrincipal

/-!
# C53: policies written as principals

Principals are messages inside messages. Here they are written from a small language of policies; what an MSP says about
the message is what the policy means.
-/

namespace Idemix.Msp

variable {W : World}

namespace Spec

/-- Policies: a role in an MSP, a unit of an MSP, one serialized identity, anonymity (1) or not (0), all of a list. -/
inductive Policy where
  | role (msp : Bytes) (role : Int)
  | unit (msp ou certifiers : Bytes)
  | identity (serialized : Bytes)
  | anonymity (type : Int)
  | all (l : List Policy)

mutual
/-- The policy as a principal: every part is marshalled as the message of its class. -/
def Policy.write : Policy → Res Principal
  | .role msp r => do
    let b ← Wire.roleCodec.marshal ⟨msp, r⟩
    pure ⟨0, b⟩
  | .unit msp ou cert => do
    let b ← Wire.unitCodec.marshal ⟨msp, ou, cert⟩
    pure ⟨1, b⟩
  | .identity b => .ok ⟨2, b⟩
  | .anonymity t => do
    let b ← Wire.anonCodec.marshal t
    pure ⟨3, b⟩
  | .all l => do
    let qs ← Policy.writeAll l
    let b ← Wire.combinedCodec.marshal qs
    pure ⟨4, b⟩
/-- The policies of a list. -/
def Policy.writeAll : List Policy → Res (List Principal)
  | [] => .ok []
  | p :: l => do
    let q ← p.write
    let qs ← Policy.writeAll l
    pure (q :: qs)
end

mutual
/-- Names are valid text, numbers fit in their fields. -/
def Policy.Writable : Policy → Prop
  | .role msp r => Proto.utf8Valid msp = true ∧ Proto.Int32 r
  | .unit msp ou _ => Proto.utf8Valid msp = true ∧ Proto.utf8Valid ou = true
  | .identity _ => True
  | .anonymity t => Proto.Int32 t
  | .all l => Policy.WritableAll l
/-- All of a list. -/
def Policy.WritableAll : List Policy → Prop
  | [] => True
  | p :: l => p.Writable ∧ Policy.WritableAll l
end

mutual
/-- What a policy means for an identity with `role` and `ou`, in an MSP `name` of version `version`. -/
def Policy.Holds (name : Bytes) (version : Int) (serialized : Bytes → Prop) (role : Int) (ou : Bytes) : Policy → Prop
  | .role msp r => msp = name ∧ (r = 0 ∨ (r = 1 ∧ role = 1) ∨ (r = 2 ∧ 2 ≤ version))
  | .unit msp u _ => msp = name ∧ u = ou
  | .identity b => serialized b
  | .anonymity t => t = 1 ∧ 2 ≤ version
  | .all l => l ≠ [] ∧ 2 ≤ version ∧ Policy.HoldAll name version serialized role ou l
/-- All of a list. -/
def Policy.HoldAll (name : Bytes) (version : Int) (serialized : Bytes → Prop) (role : Int) (ou : Bytes) :
    List Policy → Prop
  | [] => True
  | p :: l => p.Holds name version serialized role ou ∧ Policy.HoldAll name version serialized role ou l
end

end Spec

open Spec

theorem role_marshals (msp : Bytes) (r : Int) (h : Proto.utf8Valid msp = true) :
    ∃ b, Wire.roleCodec.marshal ⟨msp, r⟩ = .ok b := ⟨_, if_pos h⟩
theorem unit_marshals (msp ou cert : Bytes) (h : Proto.utf8Valid msp = true) (h' : Proto.utf8Valid ou = true) :
    ∃ b, Wire.unitCodec.marshal ⟨msp, ou, cert⟩ = .ok b := ⟨_, if_pos (by simp [h, h'])⟩
theorem anon_marshals (t : Int) : ∃ b, Wire.anonCodec.marshal t = .ok b := ⟨_, rfl⟩
theorem combined_marshals (l : List Principal) : ∃ b, Wire.combinedCodec.marshal l = .ok b := ⟨_, rfl⟩

mutual
theorem write_ok : ∀ (p : Policy), p.Writable → ∃ q, p.write = .ok q ∧ q.Wire
  | .role msp r, h => by
    obtain ⟨b, hb⟩ := role_marshals msp r h.1
    exact ⟨⟨0, b⟩, by simp only [Policy.write, hb, Res.ok_bind, Res.pure_def], by simp [Principal.Wire, Proto.Int32]⟩
  | .unit msp ou cert, h => by
    obtain ⟨b, hb⟩ := unit_marshals msp ou cert h.1 h.2
    exact ⟨⟨1, b⟩, by simp only [Policy.write, hb, Res.ok_bind, Res.pure_def], by simp [Principal.Wire, Proto.Int32]⟩
  | .identity b, _ => ⟨_, rfl, by simp [Principal.Wire, Proto.Int32]⟩
  | .anonymity t, _ => by
    obtain ⟨b, hb⟩ := anon_marshals t
    exact ⟨⟨3, b⟩, by simp only [Policy.write, hb, Res.ok_bind, Res.pure_def], by simp [Principal.Wire, Proto.Int32]⟩
  | .all l, h => by
    obtain ⟨qs, h1, -⟩ := writeAll_ok l h
    obtain ⟨b, hb⟩ := combined_marshals qs
    exact ⟨⟨4, b⟩, by simp only [Policy.write, h1, hb, Res.ok_bind, Res.pure_def], by simp [Principal.Wire, Proto.Int32]⟩
theorem writeAll_ok : ∀ (l : List Policy), Policy.WritableAll l → ∃ qs, Policy.writeAll l = .ok qs ∧ ∀ q ∈ qs, q.Wire
  | [], _ => ⟨[], rfl, by simp⟩
  | p :: l, h => by
    obtain ⟨q, h1, h2⟩ := write_ok p h.1
    obtain ⟨qs, h3, h4⟩ := writeAll_ok l h.2
    exact ⟨q :: qs, by simp only [Policy.writeAll, h1, h3, Res.ok_bind, Res.pure_def], by simp [h2]; exact h4⟩
end

variable {name : Bytes} {version : Int} {serialized : Bytes → Prop} {role : Int} {ou : Bytes}

mutual
theorem write_meets : ∀ (p : Policy) (q : Principal), p.Writable → p.write = .ok q →
    (Meets name version serialized role ou q ↔ p.Holds name version serialized role ou)
  | .role msp r, q, hw, h => by
    simp only [Policy.write, Res.bind_eq_ok, Res.pure_def, Res.ok.injEq] at h
    obtain ⟨b, hb, rfl⟩ := h
    have hu := Wire.roleCodec.rt ⟨msp, r⟩ b hw.2 hb
    simp only [Policy.Holds]
    constructor
    · intro hm
      cases hm with
      | member _ h => rw [hu] at h; cases h; exact ⟨rfl, .inl rfl⟩
      | admin _ h hr => rw [hu] at h; cases h; exact ⟨rfl, .inr (.inl ⟨rfl, hr⟩)⟩
      | client _ h hv => rw [hu] at h; cases h; exact ⟨rfl, .inr (.inr ⟨rfl, hv⟩)⟩
    · rintro ⟨rfl, rfl | ⟨rfl, hr⟩ | ⟨rfl, hv⟩⟩
      · exact .member b hu
      · exact .admin b hu hr
      · exact .client b hu hv
  | .unit msp u cert, q, hw, h => by
    simp only [Policy.write, Res.bind_eq_ok, Res.pure_def, Res.ok.injEq] at h
    obtain ⟨b, hb, rfl⟩ := h
    have hu := Wire.unitCodec.rt _ b trivial hb
    simp only [Policy.Holds]
    constructor
    · intro hm
      cases hm with
      | unit _ c h => rw [hu] at h; cases h; exact ⟨rfl, rfl⟩
    · rintro ⟨rfl, rfl⟩
      exact .unit b cert hu
  | .identity b, q, _, h => by
    cases h
    simp only [Policy.Holds]
    exact ⟨fun hm => by cases hm with | identity _ h => exact h, fun h => .identity b h⟩
  | .anonymity t, q, hw, h => by
    simp only [Policy.write, Res.bind_eq_ok, Res.pure_def, Res.ok.injEq] at h
    obtain ⟨b, hb, rfl⟩ := h
    have hu := Wire.anonCodec.rt _ b hw hb
    simp only [Policy.Holds]
    constructor
    · intro hm
      cases hm with
      | anonymous _ h hv => rw [hu] at h; cases h; exact ⟨rfl, hv⟩
    · rintro ⟨rfl, hv⟩
      exact .anonymous b hu hv
  | .all l, q, hw, h => by
    simp only [Policy.write, Res.bind_eq_ok, Res.pure_def, Res.ok.injEq] at h
    obtain ⟨qs, hq, b, hb, rfl⟩ := h
    obtain ⟨qs', h1, h2⟩ := writeAll_ok l hw
    rw [hq] at h1
    cases h1
    have hu := Wire.combinedCodec.rt _ b h2 hb
    have ih := writeAll_meets l qs hw hq
    simp only [Policy.Holds]
    constructor
    · intro hm
      cases hm with
      | combined _ l' h hl hv all =>
        rw [hu] at h; cases h
        refine ⟨fun hn => hl (ih.1.mpr hn), hv, ih.2.mp all⟩
    · rintro ⟨hn, hv, ha⟩
      exact .combined b qs hu (fun hq => hn (ih.1.mp hq)) hv (ih.2.mpr ha)
theorem writeAll_meets : ∀ (l : List Policy) (qs : List Principal), Policy.WritableAll l → Policy.writeAll l = .ok qs →
    (qs = [] ↔ l = []) ∧
    ((∀ q ∈ qs, Meets name version serialized role ou q) ↔ Policy.HoldAll name version serialized role ou l)
  | [], qs, _, h => by cases h; simp [Policy.HoldAll]
  | p :: l, qs, hw, h => by
    simp only [Policy.writeAll, Res.bind_eq_ok, Res.pure_def, Res.ok.injEq] at h
    obtain ⟨q, h1, qs', h2, rfl⟩ := h
    have a := write_meets p q hw.1 h1
    have b := writeAll_meets l qs' hw.2 h2
    simp only [List.forall_mem_cons, a, b.2, Policy.HoldAll, reduceCtorEq, true_and]
end

/-- C53. Every policy whose names are text and whose numbers fit in their fields can be written as a principal, and an
identity satisfies the principal exactly if it is valid and the policy holds of it: members and clients are all valid
identities, administrators and the members of a unit are those whose role and unit say so, and nested policies are
conjunctions, to any depth. -/
theorem C53_policies (p : Policy) (hp : p.Writable) :
    ∃ q, p.write = .ok q ∧ ∀ (W : World) (h : Heap W) (me : Ref) (i : Identity W),
      satisfiesPrincipal h me (.identity i) (some q) = .ok () ↔
        validate h me (.identity i) = .ok () ∧
        p.Holds (h me).name (h me).version (fun b => i.serialize h = .ok b) i.role.role i.ou.ou := by
  obtain ⟨q, h1, -⟩ := write_ok p hp
  refine ⟨q, h1, fun W h me i => ?_⟩
  rw [C53_principal_exact, write_meets p q hp h1]

/-- A nested policy: administrators of the MSP `A` that belong to its unit `u` and are anonymous. -/
def exPolicy : Policy := .all [.role [65] 1, .all [.unit [65] [117] [], .anonymity 1]]

example : exPolicy.Writable ∧
    exPolicy.Holds [65] 2 (fun _ => False) 1 [117] ∧ ¬ exPolicy.Holds [65] 1 (fun _ => False) 1 [117] ∧
    ¬ exPolicy.Holds [65] 2 (fun _ => False) 0 [117] ∧ ¬ exPolicy.Holds [65] 2 (fun _ => False) 1 [118] := by
  have h : Proto.Int32 1 := by simp [Proto.Int32]
  refine ⟨⟨⟨by decide, h⟩, ⟨⟨by decide, by decide⟩, h, trivial⟩, trivial⟩, ?_⟩
  simp [exPolicy, Policy.Holds, Policy.HoldAll]

end Idemix.Msp
