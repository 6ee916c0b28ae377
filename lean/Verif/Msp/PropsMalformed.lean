import Verif.Base.ProtoExact
import Verif.Msp.PropsExtra

/-!
# Malformed messages for MSPs

See `Verif/Dlog/PropsMalformed.lean`.
-/

namespace Idemix.Msp

open Proto Proto.Spec

namespace Spec

/-- The bytes are a message of this kind, with well formed strings and messages in it. -/
abbrev Valid := Proto.Spec.Valid schema

end Spec

theorem schema_unique : ∀ k n f f', (n, f) ∈ Spec.schema k → (n, f') ∈ Spec.schema k → f' = f := by
  intro k n f f' h h'
  have : ((Spec.schema k).map Prod.fst).Nodup := by cases k <;> decide
  have := List.inj_on_of_nodup_map this h h' rfl
  simp only [Prod.mk.injEq, true_and] at this
  exact this.symm

/-- The strings and messages in a message. -/
local macro "deep_schema" : tactic => `(tactic| simp only [deep_iff, Spec.schema, List.mem_cons, Prod.mk.injEq,
  FieldType.msg.injEq, List.not_mem_nil, or_false, reduceCtorEq, and_false, false_or, and_true, or_self,
  IsEmpty.forall_iff, implies_true, true_and])

theorem str_strOk (n : Nat) (m : Msg) : Str n m ↔ Wire.strOk n m = true := str_iff

theorem deep_signer (m : Msg) : (Wire.signerOf m).isSome ↔ Deep Spec.schema .signerConfig m := by
  have : (Wire.signerOf m).isSome ↔ Str 3 m ∧ Str 5 m ∧ Str 7 m ∧ Str 8 m ∧ Str 9 m := by
    simp only [str_strOk, Wire.signerOf]
    split <;> simp_all
  rw [this]
  deep_schema
  constructor
  · rintro ⟨h1, h2, h3, h4, h5⟩ n (rfl | rfl | rfl | rfl | rfl) <;> assumption
  · intro h
    refine ⟨h 3 ?_, h 5 ?_, h 7 ?_, h 8 ?_, h 9 ?_⟩ <;> simp

theorem deep_config (m : Msg) : (Wire.configOf m).isSome ↔ Deep Spec.schema .config m := by
  have hs : Sub Spec.schema 3 .signerConfig m ↔ ∃ o, getMsg 3 m = some o ∧ ∀ f, o = some f → (Wire.signerOf f).isSome := by
    rw [sub_iff]
    simp only [deep_signer]
  have : (Wire.configOf m).isSome ↔ Str 1 m ∧ Str 6 m ∧ Str 7 m ∧ Sub Spec.schema 3 .signerConfig m := by
    rw [hs]
    simp only [str_strOk, Wire.configOf]
    split
    · next h =>
      simp only [Bool.and_eq_true] at h
      cases getMsg 3 m with
      | none => simp
      | some o => cases o with
        | none => simp [h]
        | some f => cases hf : Wire.signerOf f <;> simp [h, hf]
    · simp_all
  rw [this]
  deep_schema
  constructor
  · rintro ⟨h1, h2, h3, h4⟩
    exact ⟨by rintro n (rfl | rfl | rfl) <;> assumption, by rintro n c ⟨rfl, rfl⟩; exact h4⟩
  · rintro ⟨h, h'⟩
    refine ⟨h 1 ?_, h 6 ?_, h 7 ?_, h' 3 _ ⟨rfl, rfl⟩⟩ <;> simp

theorem deep_ident (m : Msg) : (Wire.identOf m).isSome ↔ Deep Spec.schema .serializedIdemixIdentity m := by
  have : (Wire.identOf m).isSome ↔ Str 6 m := by
    simp only [str_strOk, Wire.identOf]
    split <;> simp_all
  rw [this]
  deep_schema
  exact ⟨by rintro h n rfl; exact h, fun h => h 6 rfl⟩

theorem deep_serial (m : Msg) : (Wire.serialOf m).isSome ↔ Deep Spec.schema .serializedIdentity m := by
  have : (Wire.serialOf m).isSome ↔ Str 1 m := by
    simp only [str_strOk, Wire.serialOf]
    split <;> simp_all
  rw [this]
  deep_schema
  exact ⟨by rintro h n rfl; exact h, fun h => h 1 rfl⟩

theorem deep_role (m : Msg) : (Wire.roleOf m).isSome ↔ Deep Spec.schema .role m := by
  have : (Wire.roleOf m).isSome ↔ Str 1 m := by
    simp only [str_strOk, Wire.roleOf]
    split <;> simp_all
  rw [this]
  deep_schema
  exact ⟨by rintro h n rfl; exact h, fun h => h 1 rfl⟩

theorem deep_unit (m : Msg) : (Wire.unitOf m).isSome ↔ Deep Spec.schema .organizationUnit m := by
  have : (Wire.unitOf m).isSome ↔ Str 1 m ∧ Str 2 m := by
    simp only [str_strOk, Wire.unitOf]
    split <;> simp_all
  rw [this]
  deep_schema
  constructor
  · rintro ⟨h1, h2⟩ n (rfl | rfl) <;> assumption
  · exact fun h => ⟨h 1 (.inl rfl), h 2 (.inr rfl)⟩

theorem deep_anon (m : Msg) : (Wire.anonOf m).isSome ↔ Deep Spec.schema .anonymity m :=
  ⟨fun _ => deep_leaf (by simp [Spec.schema]) m, fun _ => rfl⟩

theorem deep_combined (m : Msg) : (Wire.combinedOf m).isSome ↔ Deep Spec.schema .combinedPrincipal m := by
  unfold Wire.combinedOf
  rw [Option.isSome_map, ← sub_leaves (σ := Spec.schema) (c := .principal) (by simp [Spec.schema])]
  deep_schema
  exact ⟨by rintro h n c ⟨rfl, rfl⟩; exact h, fun h => h 1 _ ⟨rfl, rfl⟩⟩

theorem isSome_ok {α : Type} {e : String} {o : Option α} (h : o.isSome) : ∃ a, Res.ofOption e o = .ok a := by
  cases o with
  | none => cases h
  | some a => exact ⟨a, rfl⟩

theorem ofOption_ok {α : Type} {e : String} {o : Option α} {a : α} (h : Res.ofOption e o = .ok a) : o.isSome := by
  cases o with
  | none => cases h
  | some _ => rfl

section
variable {b : Bytes} (hb : b.length < 18446744073709551616)
include hb

theorem valid_config {r : IdemixConfig} (h : Wire.configCodec.unmarshal b = .ok r) : Spec.Valid .config b :=
  parse_valid (fun m => (deep_config m).mp) hb (ofOption_ok h)
theorem valid_ident {r : SerializedIdemix} (h : Wire.identCodec.unmarshal b = .ok r) :
    Spec.Valid .serializedIdemixIdentity b :=
  parse_valid (fun m => (deep_ident m).mp) hb (ofOption_ok h)
theorem valid_serial {r : SerializedIdentity} (h : Wire.serialCodec.unmarshal b = .ok r) :
    Spec.Valid .serializedIdentity b :=
  parse_valid (fun m => (deep_serial m).mp) hb (ofOption_ok h)
theorem valid_role {r : MSPRole} (h : Wire.roleCodec.unmarshal b = .ok r) : Spec.Valid .role b :=
  parse_valid (fun m => (deep_role m).mp) hb (ofOption_ok h)
theorem valid_unit {r : OrganizationUnit} (h : Wire.unitCodec.unmarshal b = .ok r) : Spec.Valid .organizationUnit b :=
  parse_valid (fun m => (deep_unit m).mp) hb (ofOption_ok h)
theorem valid_anon {r : Int} (h : Wire.anonCodec.unmarshal b = .ok r) : Spec.Valid .anonymity b :=
  parse_valid (fun m => (deep_anon m).mp) hb (ofOption_ok h)
theorem valid_combined {r : List Principal} (h : Wire.combinedCodec.unmarshal b = .ok r) :
    Spec.Valid .combinedPrincipal b :=
  parse_valid (fun m => (deep_combined m).mp) hb (ofOption_ok h)

end

theorem ident_parts {b : Bytes} {s : SerializedIdemix} (h : Wire.identCodec.unmarshal b = .ok s) :
    s.ou.length ≤ b.length ∧ s.role.length ≤ b.length := by
  simp only [Wire.identCodec, codec] at h
  cases hd : decode b with
  | none => rw [hd] at h; cases h
  | some m =>
    rw [hd, Option.bind_some, Wire.identOf] at h
    split at h
    · cases h; exact ⟨Wire.getBytes_length hd, Wire.getBytes_length hd⟩
    · cases h

theorem serial_parts {b : Bytes} {s : SerializedIdentity} (h : Wire.serialCodec.unmarshal b = .ok s) :
    s.idBytes.length ≤ b.length := by
  simp only [Wire.serialCodec, codec] at h
  cases hd : decode b with
  | none => rw [hd] at h; cases h
  | some m =>
    rw [hd, Option.bind_some, Wire.serialOf] at h
    split at h
    · cases h; exact Wire.getBytes_length hd
    · cases h

variable {W : World}

/-- **C101 (MSPs).** An MSP is set up only with a configuration that is a message of this kind, with a well formed
signer configuration if any; it reads an identity only if it is a message, with an idemix identity, a unit and a role
that are; and only well formed principals other than identities are satisfied. Byte strings of 2^64 bytes or more,
which no program meets, are left out. -/
theorem C101_msp (h : Heap W) (me : Ref) (b : Bytes) (hb : b.length < 2 ^ 64) :
    (∀ (m : IMsp W) (type : Int) (ρ : SetupRnd W), (m.setup me (some ⟨type, b⟩) ρ).2 = .ok () → Spec.Valid .config b) ∧
    (∀ i, deserializeIdentity h me b = .ok i → Spec.Valid .serializedIdentity b ∧
      ∃ s, Wire.serialCodec.unmarshal b = .ok s ∧ Spec.Valid .serializedIdemixIdentity s.idBytes) ∧
    (∀ i, deserializeInternal h me b = .ok i → Spec.Valid .serializedIdemixIdentity b ∧
      ∃ s, Wire.identCodec.unmarshal b = .ok s ∧ Spec.Valid .organizationUnit s.ou ∧ Spec.Valid .role s.role) ∧
    (∀ (m : IMsp W) (mspid : Bytes), m.isWellFormed (some ⟨mspid, b⟩) = .ok () → Spec.Valid .serializedIdemixIdentity b) ∧
    (∀ (id : AnyIdentity W) (c : Int) (k : Spec.Name), Spec.content c = some k →
      satisfiesPrincipal h me id (some ⟨c, b⟩) = .ok () → Spec.Valid k b) := by
  have hb : b.length < 18446744073709551616 := hb
  refine ⟨fun m type ρ hs => ?_, fun i hi => ?_, fun i hi => ?_, fun m mspid hw => ?_, fun id c k hk hs => ?_⟩
  · cases hc : Wire.configCodec.unmarshal b with
    | ok c => exact valid_config hb hc
    | err e => simp [IMsp.setup, andThen, hc] at hs
    | panic => simp [IMsp.setup, andThen, hc] at hs
  · simp only [deserializeIdentity, Res.bind_eq_ok] at hi
    obtain ⟨s, h1, -, -, h2⟩ := hi
    refine ⟨valid_serial hb h1, s, h1, ?_⟩
    simp only [deserializeInternal, Res.bind_eq_ok] at h2
    obtain ⟨t, h3, -⟩ := h2
    have := serial_parts h1
    exact valid_ident (by omega) h3
  · simp only [deserializeInternal, Res.bind_eq_ok] at hi
    obtain ⟨s, h1, h2⟩ := hi
    refine ⟨valid_ident hb h1, s, h1, ?_⟩
    obtain ⟨p1, p2⟩ := ident_parts h1
    split at h2
    · simp only [Res.bind_eq_ok] at h2
      obtain ⟨_, -, _, -, u, hu, r, hr, -⟩ := h2
      exact ⟨valid_unit (by omega) hu, valid_role (by omega) hr⟩
    · cases h2
  · simp only [IMsp.isWellFormed, Res.bind_eq_ok] at hw
    obtain ⟨s, h1, -⟩ := hw
    exact valid_ident hb h1
  · simp only [satisfiesPrincipal, Res.bind_eq_ok, Res.deref_some, Res.ok.injEq, exists_eq_left'] at hs
    obtain ⟨-, -, hs⟩ := hs
    unfold Spec.content at hk
    by_cases h0 : c = 0
    · subst h0
      cases hk
      rw [satisfiesValidated, if_pos rfl, satisfiesRole, Res.bind_eq_ok] at hs
      obtain ⟨r, hr, -⟩ := hs
      exact valid_role hb hr
    rw [if_neg h0] at hk
    by_cases h1 : c = 1
    · subst h1
      cases hk
      rw [satisfiesValidated, if_neg (by simp), if_neg (by simp), if_pos rfl, satisfiesUnit, Res.bind_eq_ok] at hs
      obtain ⟨r, hr, -⟩ := hs
      exact valid_unit hb hr
    rw [if_neg h1] at hk
    by_cases h3 : c = 3
    · subst h3
      cases hk
      rw [satisfiesValidated] at hs
      simp only [satisfiesAnonymity, show ((3 : Int) = 0) = False from by decide,
        show ((3 : Int) = 2) = False from by decide, show ((3 : Int) = 1) = False from by decide,
        show ((3 : Int) = 4) = False from by decide, if_false, if_true, Res.bind_eq_ok] at hs
      obtain ⟨_, -, r, hr, -⟩ := hs
      exact valid_anon hb hr
    rw [if_neg h3] at hk
    by_cases h4 : c = 4
    · subst h4
      cases hk
      rw [satisfiesValidated_combined] at hs
      split at hs
      · cases hs
      · split at hs
        · next hl => exact valid_combined hb hl
        · cases hs
        · cases hs
    · simp [h4] at hk

/-- **C101 (MSPs, exactness).** Each of these messages is understood exactly if it is well formed. -/
theorem C101_msp_exact (b : Bytes) (hb : b.length < 2 ^ 64) :
    ((∃ r, Wire.configCodec.unmarshal b = .ok r) ↔ Spec.Valid .config b) ∧
    ((∃ r, Wire.serialCodec.unmarshal b = .ok r) ↔ Spec.Valid .serializedIdentity b) ∧
    ((∃ r, Wire.identCodec.unmarshal b = .ok r) ↔ Spec.Valid .serializedIdemixIdentity b) ∧
    ((∃ r, Wire.roleCodec.unmarshal b = .ok r) ↔ Spec.Valid .role b) ∧
    ((∃ r, Wire.unitCodec.unmarshal b = .ok r) ↔ Spec.Valid .organizationUnit b) ∧
    ((∃ r, Wire.anonCodec.unmarshal b = .ok r) ↔ Spec.Valid .anonymity b) ∧
    ((∃ r, Wire.combinedCodec.unmarshal b = .ok r) ↔ Spec.Valid .combinedPrincipal b) := by
  have hb : b.length < 18446744073709551616 := hb
  exact ⟨⟨fun ⟨_, h⟩ => valid_config hb h, fun h => isSome_ok (valid_parse schema_unique (fun m => (deep_config m).mpr) h)⟩,
    ⟨fun ⟨_, h⟩ => valid_serial hb h, fun h => isSome_ok (valid_parse schema_unique (fun m => (deep_serial m).mpr) h)⟩,
    ⟨fun ⟨_, h⟩ => valid_ident hb h, fun h => isSome_ok (valid_parse schema_unique (fun m => (deep_ident m).mpr) h)⟩,
    ⟨fun ⟨_, h⟩ => valid_role hb h, fun h => isSome_ok (valid_parse schema_unique (fun m => (deep_role m).mpr) h)⟩,
    ⟨fun ⟨_, h⟩ => valid_unit hb h, fun h => isSome_ok (valid_parse schema_unique (fun m => (deep_unit m).mpr) h)⟩,
    ⟨fun ⟨_, h⟩ => valid_anon hb h, fun h => isSome_ok (valid_parse schema_unique (fun m => (deep_anon m).mpr) h)⟩,
    ⟨fun ⟨_, h⟩ => valid_combined hb h, fun h => isSome_ok (valid_parse schema_unique (fun m => (deep_combined m).mpr) h)⟩⟩

/-! Configurations, identities and principals that are accepted are in `Verif/Tools/Examples.lean` (`dlog_run`,
`round_trip` and the examples for C53_principal_exact). -/

/-- These bytes are understood as a role; a field with a length but no contents is no role. -/
example : (∃ r, Wire.roleCodec.unmarshal [10, 1, 97] = .ok r) ∧ ¬ Spec.Valid .role [10, 1] := by
  refine ⟨⟨_, rfl⟩, fun h => ?_⟩
  obtain ⟨m, hm, -⟩ := deep_of_valid schema_unique h
  revert hm
  simp [show decode [10, 1] = none from by decide]

end Idemix.Msp
