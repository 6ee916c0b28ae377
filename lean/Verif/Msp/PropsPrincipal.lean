import Verif.Msp.PropsNym

/-!
# Principals: C53

Concrete cases that meet the hypotheses of the theorems are in `Verif/Tools/Examples.lean`.
-/

namespace Idemix.Msp

variable {W : World}

namespace Spec

/-- The meaning of a principal (classification 0 role, 1 unit, 2 identity, 3 anonymity, 4 combined) for an identity,
in an MSP `name` of version `version`. `serialized` is the serialized identity. -/
inductive Meets (name : Bytes) (version : Int) (serialized : Bytes → Prop) (role : Int) (ou : Bytes) :
    Principal → Prop where
  /-- Every valid identity is a member of its MSP. -/
  | member (b : Bytes) (h : Wire.roleCodec.unmarshal b = .ok ⟨name, 0⟩) : Meets name version serialized role ou ⟨0, b⟩
  /-- Administrators of the MSP. -/
  | admin (b : Bytes) (h : Wire.roleCodec.unmarshal b = .ok ⟨name, 1⟩) (hr : role = 1) :
    Meets name version serialized role ou ⟨0, b⟩
  /-- Every valid identity is a client, from version 1.3 on. -/
  | client (b : Bytes) (h : Wire.roleCodec.unmarshal b = .ok ⟨name, 2⟩) (hv : 2 ≤ version) :
    Meets name version serialized role ou ⟨0, b⟩
  /-- Identities of a unit of the MSP; the certifiers play no part. -/
  | unit (b cert : Bytes) (h : Wire.unitCodec.unmarshal b = .ok ⟨name, ou, cert⟩) :
    Meets name version serialized role ou ⟨1, b⟩
  /-- One serialized identity. -/
  | identity (b : Bytes) (h : serialized b) : Meets name version serialized role ou ⟨2, b⟩
  /-- Anonymous identities, from version 1.3 on. -/
  | anonymous (b : Bytes) (h : Wire.anonCodec.unmarshal b = .ok 1) (hv : 2 ≤ version) :
    Meets name version serialized role ou ⟨3, b⟩
  /-- All of a non-empty list of principals, from version 1.3 on. -/
  | combined (b : Bytes) (l : List Principal) (h : Wire.combinedCodec.unmarshal b = .ok l) (hl : l ≠ [])
    (hv : 2 ≤ version) (all : ∀ c ∈ l, Meets name version serialized role ou c) :
    Meets name version serialized role ou ⟨4, b⟩

end Spec

open Spec

theorem allOf_ok {α : Type} {f : α → Res Unit} {l : List α} : allOf f l = .ok () ↔ ∀ a ∈ l, f a = .ok () := by
  induction l with
  | nil => simp [allOf]
  | cons a l ih =>
    simp only [allOf, Res.bind_eq_ok, ih, List.mem_cons, forall_eq_or_imp]
    exact ⟨fun ⟨_, h1, h2⟩ => ⟨h1, h2⟩, fun ⟨h1, h2⟩ => ⟨(), h1, h2⟩⟩

theorem allOf_ne_panic {α : Type} {f : α → Res Unit} {l : List α} (h : ∀ a ∈ l, f a ≠ .panic) : allOf f l ≠ .panic := by
  induction l with
  | nil => simp [allOf]
  | cons a l ih =>
    have ha := h a (by simp)
    have hl := ih fun b hb => h b (by simp [hb])
    simp only [allOf]
    cases hf : f a with
    | ok u => simpa using hl
    | err m => simp
    | panic => exact absurd hf ha

theorem allOf_congr_or {α : Type} {f g : α → Res Unit} {l : List α} (h : ∀ a ∈ l, f a = .panic ∨ f a = g a) :
    allOf f l = .panic ∨ allOf f l = allOf g l := by
  induction l with
  | nil => exact .inr rfl
  | cons a l ih =>
    simp only [allOf]
    rcases h a (by simp) with h1 | h1
    · rw [h1]; exact .inl rfl
    · rw [h1]
      cases g a with
      | ok u => exact ih fun b hb => h b (by simp [hb])
      | err m => exact .inr rfl
      | panic => exact .inl rfl

/-- One step of the evaluation of a principal. -/
theorem satisfiesValidated_combined (h : Heap W) (me : Ref) (id : AnyIdentity W) (b : Bytes) :
    satisfiesValidated h me id ⟨4, b⟩ =
      if (h me).version ≤ 1 then .err "combined MSP Principals are unsupported in MSPv1_1"
      else match Wire.combinedCodec.unmarshal b with
        | .ok l => if l = [] then .err "no principals in CombinedPrincipal" else allOf (satisfiesValidated h me id) l
        | .err _ => .err "could not unmarshal CombinedPrincipal from principal"
        | .panic => .panic := by
  rw [satisfiesValidated]
  have e : ∀ l : List Principal, allOf (fun c : { c // c ∈ l } => satisfiesValidated h me id c.1) l.attach =
      allOf (satisfiesValidated h me id) l := by
    have g : ∀ (l : List Principal) (f : Principal → Res Unit) (k : List { c // c ∈ l }),
        allOf (fun c : { c // c ∈ l } => f c.1) k = allOf f (k.map Subtype.val) := by
      intro l f k
      induction k with
      | nil => rfl
      | cons a k ih => simp only [allOf, List.map_cons, ih]
    intro l
    rw [g, List.attach_map_subtype_val]
  simp only [show ((4 : Int) = 0) = False from by decide, show ((4 : Int) = 2) = False from by decide,
    show ((4 : Int) = 1) = False from by decide, if_false, if_true]
  split
  · rfl
  · split <;> rename_i hc <;> simp only [hc, e]

theorem satisfiesRole_ok (m : IMsp W) (i : Identity W) (b : Bytes) :
    satisfiesRole m (.identity i) b = .ok () ↔
      Wire.roleCodec.unmarshal b = .ok ⟨m.name, 0⟩ ∨ (Wire.roleCodec.unmarshal b = .ok ⟨m.name, 1⟩ ∧ i.role.role = 1) ∨
      (Wire.roleCodec.unmarshal b = .ok ⟨m.name, 2⟩ ∧ 2 ≤ m.version) := by
  unfold satisfiesRole
  cases hu : Wire.roleCodec.unmarshal b with
  | err e => simp
  | panic => simp
  | ok r =>
    obtain ⟨n, r⟩ := r
    simp only [Res.ok_bind, Res.bind_eq_ok, Res.guardErr_eq_ok, dec_ne, Res.ok.injEq, MSPRole.mk.injEq,
      AnyIdentity.asIdentity]
    by_cases h0 : r = 0
    · subst h0; simp
    · by_cases h1 : r = 1
      · subst h1; simp
      · by_cases h3 : r = 3
        · subst h3
          by_cases hv : m.version ≥ 2 <;> simp [hv]
        · by_cases h2 : r = 2
          · subst h2
            by_cases hv : m.version ≥ 2 <;> simp [hv]
          · simp [h0, h1, h2, h3]

/-- C53. Evaluation of a principal is its meaning: an identity satisfies a principal exactly if it is valid and meets
the principal, nested to any depth. -/
theorem C53_principal_exact (h : Heap W) (me : Ref) (i : Identity W) (q : Principal) :
    satisfiesPrincipal h me (.identity i) (some q) = .ok () ↔
      validate h me (.identity i) = .ok () ∧
      Meets (h me).name (h me).version (fun b => i.serialize h = .ok b) i.role.role i.ou.ou q := by
  have main : ∀ (n : Nat) (q : Principal), q.principal.length < n →
      (satisfiesValidated h me (.identity i) q = .ok () ↔
        Meets (h me).name (h me).version (fun b => i.serialize h = .ok b) i.role.role i.ou.ou q) := by
    intro n
    induction n with
    | zero => intro q hq; omega
    | succ n ih =>
      rintro ⟨cl, b⟩ hq
      by_cases h0 : cl = 0
      · subst h0
        rw [satisfiesValidated, if_pos rfl, satisfiesRole_ok]
        constructor
        · rintro (h1 | ⟨h1, h2⟩ | ⟨h1, h2⟩)
          · exact .member b h1
          · exact .admin b h1 h2
          · exact .client b h1 h2
        · intro hm
          cases hm with
          | member _ h1 => exact .inl h1
          | admin _ h1 h2 => exact .inr (.inl ⟨h1, h2⟩)
          | client _ h1 h2 => exact .inr (.inr ⟨h1, h2⟩)
      by_cases h2 : cl = 2
      · subst h2
        rw [satisfiesValidated, if_neg (by simp), if_pos rfl]
        simp only [satisfiesIdentity, AnyIdentity.serialize, Res.bind_eq_ok]
        constructor
        · rintro ⟨raw, h1, h2⟩
          split at h2
          · next e => subst e; exact .identity _ h1
          · cases h2
        · intro hm
          cases hm with
          | identity _ h1 => exact ⟨b, h1, if_pos rfl⟩
      by_cases h1 : cl = 1
      · subst h1
        rw [satisfiesValidated, if_neg (by simp), if_neg (by simp), if_pos rfl]
        simp only [satisfiesUnit, AnyIdentity.asIdentity, Res.bind_eq_ok, Res.ok_bind, Res.guardErr_eq_ok, dec_ne]
        constructor
        · rintro ⟨o, h1, -, h2, h3⟩
          obtain ⟨n', ou, cert⟩ := o
          dsimp only at h2 h3
          subst h2
          by_cases hou : ou = i.ou.ou
          · subst hou; exact .unit b cert h1
          · rw [if_pos hou] at h3; cases h3
        · intro hm
          cases hm with
          | unit _ cert h1 => exact ⟨_, h1, (), rfl, by simp⟩
      by_cases h4 : cl = 4
      · subst h4
        rw [satisfiesValidated_combined]
        cases hu : Wire.combinedCodec.unmarshal b with
        | err e =>
          constructor
          · intro hs; dsimp only at hs; split at hs <;> cases hs
          · intro hm; cases hm with
            | combined _ l h1 => rw [hu] at h1; cases h1
        | panic =>
          constructor
          · intro hs; dsimp only at hs; split at hs <;> cases hs
          · intro hm; cases hm with
            | combined _ l h1 => rw [hu] at h1; cases h1
        | ok l =>
          have hlen : ∀ c ∈ l, c.principal.length < n := by
            intro c hc
            have := Wire.combined_length hu c hc
            dsimp only at hq
            omega
          constructor
          · intro hs
            dsimp only at hs
            split at hs
            · cases hs
            · next hv =>
              split at hs
              · cases hs
              · next hl =>
                rw [allOf_ok] at hs
                exact .combined b l hu hl (by omega) fun c hc => (ih c (hlen c hc)).mp (hs c hc)
          · intro hm
            cases hm with
            | combined _ l' h1 hl hv all =>
              rw [hu] at h1; cases h1
              rw [if_neg (by omega)]
              dsimp only
              rw [if_neg hl, allOf_ok]
              exact fun c hc => (ih c (hlen c hc)).mpr (all c hc)
      by_cases h3 : cl = 3
      · subst h3
        rw [satisfiesValidated, if_neg (by simp), if_neg (by simp), if_neg (by simp), if_neg (by simp), if_pos rfl]
        simp only [satisfiesAnonymity, Res.bind_eq_ok, Res.guardErr_eq_ok, decide_eq_false_iff_not]
        constructor
        · rintro ⟨-, hv, t, h1, h2⟩
          by_cases ht : t = 1
          · subst ht; exact .anonymous b h1 (by omega)
          · rw [if_neg ht] at h2; split at h2 <;> cases h2
        · intro hm
          cases hm with
          | anonymous _ h1 hv => exact ⟨(), by omega, 1, h1, if_pos rfl⟩
      · rw [satisfiesValidated, if_neg h0, if_neg h2, if_neg h1, if_neg h4, if_neg h3]
        constructor
        · intro hs; cases hs
        · intro hm; cases hm <;> contradiction
  simp only [satisfiesPrincipal, Res.deref_some, Res.ok_bind]
  rw [← main _ q (Nat.lt_succ_self _)]
  cases validate h me (.identity i) <;> simp

/-- C53. For identities of type `Idemixidentity`, evaluation does not panic unless validation does, or the encoding of
the pseudonym. -/
theorem C53_no_panic_partial (h : Heap W) (me : Ref) (i : Identity W) (q : Principal)
    (hv : validate h me (.identity i) ≠ .panic) (hn : i.nym.key.bytes ≠ .panic) :
    satisfiesPrincipal h me (.identity i) (some q) ≠ .panic := by
  have hser : i.serialize h ≠ .panic := by
    unfold Identity.serialize
    cases h1 : i.nym.key.bytes with
    | panic => exact absurd h1 hn
    | err e => simp
    | ok raw =>
      simp only [Res.ok_bind]
      cases h2 : Wire.unitCodec.marshal i.ou with
      | panic => exact absurd h2 (Wire.unitCodec.marshal_np _)
      | err e => simp
      | ok ou =>
        simp only [Res.ok_bind]
        cases h3 : Wire.roleCodec.marshal i.role with
        | panic => exact absurd h3 (Wire.roleCodec.marshal_np _)
        | err e => simp
        | ok role =>
          simp only [Res.ok_bind]
          cases h4 : Wire.identCodec.marshal ⟨some (raw.take (raw.length / 2)), some (raw.drop (raw.length / 2)), ou,
              role, i.proof, []⟩ with
          | panic => exact absurd h4 (Wire.identCodec.marshal_np _)
          | err e => simp
          | ok inner => simpa using Wire.serialCodec.marshal_np _
  have main : ∀ (n : Nat) (q : Principal), q.principal.length < n →
      satisfiesValidated h me (.identity i) q ≠ .panic := by
    intro n
    induction n with
    | zero => intro q hq; omega
    | succ n ih =>
      rintro ⟨cl, b⟩ hq
      by_cases h4 : cl = 4
      · subst h4
        rw [satisfiesValidated_combined]
        split
        · simp
        · cases hu : Wire.combinedCodec.unmarshal b with
          | err e => simp
          | panic => exact absurd hu (Wire.combinedCodec.unmarshal_np _)
          | ok l =>
            dsimp only
            split
            · simp
            · refine allOf_ne_panic fun c hc => ih c ?_
              have := Wire.combined_length hu c hc
              dsimp only at hq
              omega
      · rw [satisfiesValidated]
        dsimp only
        split
        · unfold satisfiesRole
          cases hu : Wire.roleCodec.unmarshal b with
          | err e => simp
          | panic => exact absurd hu (Wire.roleCodec.unmarshal_np _)
          | ok r =>
            simp only [Res.ok_bind, AnyIdentity.asIdentity, Res.guardErr]
            split
            · simp
            · simp only [Res.ok_bind]
              repeat' split
              all_goals simp
        · split
          · unfold satisfiesIdentity AnyIdentity.serialize
            dsimp only
            cases hs : i.serialize h with
            | err e => simp
            | panic => exact absurd hs hser
            | ok raw => simp only [Res.ok_bind]; split <;> simp
          · split
            · unfold satisfiesUnit
              cases hu : Wire.unitCodec.unmarshal b with
              | err e => simp
              | panic => exact absurd hu (Wire.unitCodec.unmarshal_np _)
              | ok r =>
                simp only [Res.ok_bind, AnyIdentity.asIdentity, Res.guardErr]
                split
                · simp
                · simp only [Res.ok_bind]
                  split <;> simp
            · split
              · unfold satisfiesAnonymity Res.guardErr
                split
                · simp
                · simp only [Res.ok_bind]
                  cases hu : Wire.anonCodec.unmarshal b with
                  | err e => simp
                  | panic => exact absurd hu (Wire.anonCodec.unmarshal_np _)
                  | ok t =>
                    simp only [Res.ok_bind]
                    repeat' split
                    all_goals simp
              · simp
  simp only [satisfiesPrincipal, Res.deref_some, Res.ok_bind]
  cases hr : validate h me (.identity i) with
  | panic => exact absurd hr hv
  | err e => simp
  | ok u => simpa using main _ q (Nat.lt_succ_self _)

/-- C53 is violated for signing identities: a principal that asks for the role of administrator, or for a unit, makes
the evaluation panic for every valid signing identity, also for the MSP's own default signer. -/
theorem C53_signing_violated (h : Heap W) (me : Ref) (s : SigningIdentity W)
    (hv : validate h me (.signing s) = .ok ()) (b cert ou : Bytes) :
    (Wire.roleCodec.unmarshal b = .ok ⟨(h me).name, 1⟩ →
      satisfiesPrincipal h me (.signing s) (some ⟨0, b⟩) = .panic) ∧
    (Wire.unitCodec.unmarshal b = .ok ⟨(h me).name, ou, cert⟩ →
      satisfiesPrincipal h me (.signing s) (some ⟨1, b⟩) = .panic) := by
  constructor
  · intro hu
    simp only [satisfiesPrincipal, hv, Res.ok_bind, Res.deref_some]
    rw [satisfiesValidated, if_pos rfl]
    simp [satisfiesRole, hu, AnyIdentity.asIdentity, Res.guardErr]
  · intro hu
    simp only [satisfiesPrincipal, hv, Res.ok_bind, Res.deref_some]
    rw [satisfiesValidated, if_neg (by simp), if_neg (by simp), if_pos rfl]
    simp [satisfiesUnit, hu, AnyIdentity.asIdentity, Res.guardErr]

/-- C53 is violated for a nil principal: evaluation panics for every valid identity. -/
theorem C53_nil_violated (h : Heap W) (me : Ref) (id : AnyIdentity W) (hv : validate h me id = .ok ()) :
    satisfiesPrincipal h me id none = .panic := by
  simp [satisfiesPrincipal, hv, Res.deref]

/-- C53 for signing identities: apart from the panics, evaluation is that of the identity inside. -/
theorem C53_signing_partial (h : Heap W) (me : Ref) (s : SigningIdentity W) (q : Option Principal) :
    satisfiesPrincipal h me (.signing s) q = .panic ∨
      satisfiesPrincipal h me (.signing s) q = satisfiesPrincipal h me (.identity s.identity) q := by
  have main : ∀ (n : Nat) (q : Principal), q.principal.length < n →
      satisfiesValidated h me (.signing s) q = .panic ∨
        satisfiesValidated h me (.signing s) q = satisfiesValidated h me (.identity s.identity) q := by
    intro n
    induction n with
    | zero => intro q hq; omega
    | succ n ih =>
      rintro ⟨cl, b⟩ hq
      by_cases h4 : cl = 4
      · subst h4
        rw [satisfiesValidated_combined, satisfiesValidated_combined]
        split
        · exact .inr rfl
        · cases hu : Wire.combinedCodec.unmarshal b with
          | err e => exact .inr rfl
          | panic => exact .inl rfl
          | ok l =>
            dsimp only
            split
            · exact .inr rfl
            · refine allOf_congr_or fun c hc => ih c ?_
              have := Wire.combined_length hu c hc
              dsimp only at hq
              omega
      · rw [satisfiesValidated, satisfiesValidated]
        dsimp only
        rw [if_neg h4, if_neg h4]
        split
        · unfold satisfiesRole
          cases Wire.roleCodec.unmarshal b with
          | err e => exact .inr rfl
          | panic => exact .inr rfl
          | ok r =>
            simp only [Res.ok_bind, AnyIdentity.asIdentity, Res.guardErr]
            split
            · exact .inr rfl
            · simp only [Res.ok_bind]
              by_cases h0 : r.role = 0
              · simp [h0]
              · by_cases h1 : r.role = 1
                · simp [h1]
                · simp [h0, h1]
        · split
          · exact .inr rfl
          · split
            · unfold satisfiesUnit
              cases Wire.unitCodec.unmarshal b with
              | err e => exact .inr rfl
              | panic => exact .inr rfl
              | ok r =>
                simp only [Res.ok_bind, AnyIdentity.asIdentity, Res.guardErr]
                split
                · exact .inr rfl
                · exact .inl rfl
            · exact .inr rfl
  simp only [satisfiesPrincipal]
  have hv : validate h me (.signing s) = validate h me (.identity s.identity) := rfl
  rw [hv]
  cases validate h me (.identity s.identity) with
  | err e => exact .inr rfl
  | panic => exact .inr rfl
  | ok u =>
    cases q with
    | none => exact .inl rfl
    | some q => exact main _ q (Nat.lt_succ_self _)

end Idemix.Msp
