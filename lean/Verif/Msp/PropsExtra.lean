import Verif.Base.ProtoSchema
import Verif.Msp.PropsPrincipal

/-!
# Undeclared fields in the messages of the MSP

See `Verif/Dlog/PropsExtra.lean`.
-/

namespace Idemix.Msp

open Proto Proto.Spec

namespace Spec

/-- The messages that MSPs read. -/
inductive Name
  | config | signerConfig | serializedIdemixIdentity | serializedIdentity | role | organizationUnit | anonymity
  | principal | combinedPrincipal

/-- `msp_config.proto`, `identities.proto`, and those of fabric. -/
def schema : Schema Name
  | .config => [(1, .text), (2, .bytes), (3, .msg .signerConfig), (4, .bytes), (5, .int), (6, .text), (7, .text)]
  | .signerConfig => [(1, .bytes), (2, .bytes), (3, .text), (4, .int), (5, .text), (6, .bytes), (7, .text), (8, .text),
      (9, .text)]
  | .serializedIdemixIdentity => [(1, .bytes), (2, .bytes), (3, .bytes), (4, .bytes), (5, .bytes), (6, .text)]
  | .serializedIdentity => [(1, .text), (2, .bytes)]
  | .role => [(1, .text), (2, .int)]
  | .organizationUnit => [(1, .text), (2, .text), (3, .bytes)]
  | .anonymity => [(1, .int)]
  | .principal => [(1, .int), (2, .bytes)]
  | .combinedPrincipal => [(1, .msg .principal)]

/-- One encoding of a message with undeclared fields added. -/
abbrev Widened := Proto.Spec.Widened schema

/-- The message in a principal of a given class; identities are compared as bytes. -/
def content (classification : Int) : Option Name :=
  if classification = 0 then some .role else if classification = 1 then some .organizationUnit
  else if classification = 3 then some .anonymity else if classification = 4 then some .combinedPrincipal else none

end Spec

/-- Number `j` is declared with the given wire type. -/
local macro "decl" : tactic => `(tactic| simp [Schema.declared, Spec.schema, FieldType.wire])
/-- Side conditions on the schema. -/
local macro "schm" : tactic => `(tactic| simp [Spec.schema])

theorem sim_strOk {k : Spec.Name} {m m' : Msg} (h : Sim Spec.schema k m m') {j : Nat}
    (hj : (j, 2) ∈ Schema.declared Spec.schema k) (hn : ∀ c, (j, .msg c) ∉ Spec.schema k) :
    Wire.strOk j m' = Wire.strOk j m := by
  simp only [Wire.strOk, h.lens hj hn]

theorem sim_signer {m m' : Msg} (h : Sim Spec.schema .signerConfig m m') : Wire.signerOf m' = Wire.signerOf m := by
  simp only [Wire.signerOf, sim_strOk h (j := 3) (by decl) (by schm), sim_strOk h (j := 5) (by decl) (by schm),
    sim_strOk h (j := 7) (by decl) (by schm), sim_strOk h (j := 8) (by decl) (by schm),
    sim_strOk h (j := 9) (by decl) (by schm), h.bytes (j := 1) (by decl) (by schm), h.bytes (j := 2) (by decl) (by schm),
    h.bytes (j := 3) (by decl) (by schm), h.int32 (j := 4) (by decl), h.bytes (j := 5) (by decl) (by schm),
    h.bytes (j := 6) (by decl) (by schm), h.bytes (j := 7) (by decl) (by schm), h.bytes (j := 8) (by decl) (by schm),
    h.bytes (j := 9) (by decl) (by schm)]

theorem sim_config {m m' : Msg} (h : Sim Spec.schema .config m m') : Wire.configOf m' = Wire.configOf m := by
  have e3 : ((getMsg 3 m').map fun o => o.map Wire.signerOf) = (getMsg 3 m).map fun o => o.map Wire.signerOf :=
    h.sub (c := .signerConfig) (by schm) (by schm) fun _ _ => sim_signer
  have key : ∀ n : Msg, Wire.configOf n =
      if Wire.strOk 1 n && Wire.strOk 6 n && Wire.strOk 7 n then
        ((getMsg 3 n).map fun o => o.map Wire.signerOf).bind fun s => match s with
          | none => some ⟨getBytes 1 n, getBytes 2 n, none, getBytes 4 n, getInt64 5 n, getBytes 6 n, getBytes 7 n⟩
          | some s => s.bind fun s =>
            some ⟨getBytes 1 n, getBytes 2 n, some s, getBytes 4 n, getInt64 5 n, getBytes 6 n, getBytes 7 n⟩
      else none := by
    intro n
    unfold Wire.configOf
    split
    · cases getMsg 3 n with
      | none => rfl
      | some o => cases o <;> rfl
    · rfl
  rw [key, key, e3]
  simp only [sim_strOk h (j := 1) (by decl) (by schm), sim_strOk h (j := 6) (by decl) (by schm),
    sim_strOk h (j := 7) (by decl) (by schm), h.bytes (j := 1) (by decl) (by schm), h.bytes (j := 2) (by decl) (by schm),
    h.bytes (j := 4) (by decl) (by schm), h.int64 (j := 5) (by decl), h.bytes (j := 6) (by decl) (by schm),
    h.bytes (j := 7) (by decl) (by schm)]

theorem sim_ident {m m' : Msg} (h : Sim Spec.schema .serializedIdemixIdentity m m') : Wire.identOf m' = Wire.identOf m := by
  simp only [Wire.identOf, sim_strOk h (j := 6) (by decl) (by schm), h.bytes? (j := 1) (by decl) (by schm),
    h.bytes? (j := 2) (by decl) (by schm), h.bytes (j := 3) (by decl) (by schm), h.bytes (j := 4) (by decl) (by schm),
    h.bytes (j := 5) (by decl) (by schm), h.bytes (j := 6) (by decl) (by schm)]

theorem sim_serial {m m' : Msg} (h : Sim Spec.schema .serializedIdentity m m') : Wire.serialOf m' = Wire.serialOf m := by
  simp only [Wire.serialOf, sim_strOk h (j := 1) (by decl) (by schm), h.bytes (j := 1) (by decl) (by schm),
    h.bytes (j := 2) (by decl) (by schm)]

theorem sim_role {m m' : Msg} (h : Sim Spec.schema .role m m') : Wire.roleOf m' = Wire.roleOf m := by
  simp only [Wire.roleOf, sim_strOk h (j := 1) (by decl) (by schm), h.bytes (j := 1) (by decl) (by schm),
    h.int32 (j := 2) (by decl)]

theorem sim_unit {m m' : Msg} (h : Sim Spec.schema .organizationUnit m m') : Wire.unitOf m' = Wire.unitOf m := by
  simp only [Wire.unitOf, sim_strOk h (j := 1) (by decl) (by schm), sim_strOk h (j := 2) (by decl) (by schm),
    h.bytes (j := 1) (by decl) (by schm), h.bytes (j := 2) (by decl) (by schm), h.bytes (j := 3) (by decl) (by schm)]

theorem sim_anon {m m' : Msg} (h : Sim Spec.schema .anonymity m m') : Wire.anonOf m' = Wire.anonOf m := by
  simp only [Wire.anonOf, h.int32 (j := 1) (by decl)]

theorem sim_principal {m m' : Msg} (h : Sim Spec.schema .principal m m') : Wire.principalOf m' = Wire.principalOf m := by
  simp only [Wire.principalOf, h.int32 (j := 1) (by decl), h.bytes (j := 2) (by decl) (by schm)]

theorem sim_combined {m m' : Msg} (h : Sim Spec.schema .combinedPrincipal m m') :
    Wire.combinedOf m' = Wire.combinedOf m := by
  have h2 := (h.msgs (j := 1) (c := .principal) (by schm) (by schm)).2
  unfold Wire.combinedOf
  generalize (lens 1 m).mapM decode = o, (lens 1 m').mapM decode = o' at h2
  cases h2 with
  | none => rfl
  | some hl =>
    simp only [Option.map_some, Option.some.injEq]
    induction hl with
    | nil => rfl
    | cons hd _ ih => simp only [List.map_cons, sim_principal hd, ih]

theorem widened_signer {b b' : Bytes} (h : Spec.Widened .signerConfig b b') :
    Wire.signerCodec.unmarshal b' = Wire.signerCodec.unmarshal b := by
  simp only [Wire.signerCodec, codec, parse_widened (fun _ _ => sim_signer) h]

theorem widened_config {b b' : Bytes} (h : Spec.Widened .config b b') :
    Wire.configCodec.unmarshal b' = Wire.configCodec.unmarshal b := by
  simp only [Wire.configCodec, codec, parse_widened (fun _ _ => sim_config) h]

theorem widened_ident {b b' : Bytes} (h : Spec.Widened .serializedIdemixIdentity b b') :
    Wire.identCodec.unmarshal b' = Wire.identCodec.unmarshal b := by
  simp only [Wire.identCodec, codec, parse_widened (fun _ _ => sim_ident) h]

theorem widened_serial {b b' : Bytes} (h : Spec.Widened .serializedIdentity b b') :
    Wire.serialCodec.unmarshal b' = Wire.serialCodec.unmarshal b := by
  simp only [Wire.serialCodec, codec, parse_widened (fun _ _ => sim_serial) h]

theorem widened_role {b b' : Bytes} (h : Spec.Widened .role b b') :
    Wire.roleCodec.unmarshal b' = Wire.roleCodec.unmarshal b := by
  simp only [Wire.roleCodec, codec, parse_widened (fun _ _ => sim_role) h]

theorem widened_unit {b b' : Bytes} (h : Spec.Widened .organizationUnit b b') :
    Wire.unitCodec.unmarshal b' = Wire.unitCodec.unmarshal b := by
  simp only [Wire.unitCodec, codec, parse_widened (fun _ _ => sim_unit) h]

theorem widened_anon {b b' : Bytes} (h : Spec.Widened .anonymity b b') :
    Wire.anonCodec.unmarshal b' = Wire.anonCodec.unmarshal b := by
  simp only [Wire.anonCodec, codec, parse_widened (fun _ _ => sim_anon) h]

theorem widened_combined {b b' : Bytes} (h : Spec.Widened .combinedPrincipal b b') :
    Wire.combinedCodec.unmarshal b' = Wire.combinedCodec.unmarshal b := by
  simp only [Wire.combinedCodec, codec, parse_widened (fun _ _ => sim_combined) h]

variable {W : World}

/-- C95 for MSPs: undeclared fields in the configuration or in the signer configuration within it, in a serialized
identity or in the idemix identity within it, and in principals other than identities, or in the principals of a
combined one, change no outcome. -/
theorem C95_msp (h : Heap W) (me : Ref) :
    (∀ (m : IMsp W) (type : Int) (b b' : Bytes) (ρ : SetupRnd W), Spec.Widened .config b b' →
      m.setup me (some ⟨type, b'⟩) ρ = m.setup me (some ⟨type, b⟩) ρ) ∧
    (∀ b b', Spec.Widened .serializedIdentity b b' → deserializeIdentity h me b' = deserializeIdentity h me b) ∧
    (∀ b b', Spec.Widened .serializedIdemixIdentity b b' → deserializeInternal h me b' = deserializeInternal h me b) ∧
    (∀ (m : IMsp W) (mspid b b' : Bytes), Spec.Widened .serializedIdemixIdentity b b' →
      m.isWellFormed (some ⟨mspid, b'⟩) = m.isWellFormed (some ⟨mspid, b⟩)) ∧
    (∀ (id : AnyIdentity W) (c : Int) (k : Spec.Name) (b b' : Bytes), Spec.content c = some k → Spec.Widened k b b' →
      satisfiesPrincipal h me id (some ⟨c, b'⟩) = satisfiesPrincipal h me id (some ⟨c, b⟩)) := by
  refine ⟨fun m type b b' ρ hw => ?_, fun b b' hw => ?_, fun b b' hw => ?_, fun m mspid b b' hw => ?_,
    fun id c k b b' hk hw => ?_⟩
  · simp only [IMsp.setup, widened_config hw]
  · simp only [deserializeIdentity, widened_serial hw]
  · simp only [deserializeInternal, widened_ident hw]
  · simp only [IMsp.isWellFormed, widened_ident hw]
  · have : satisfiesValidated h me id ⟨c, b'⟩ = satisfiesValidated h me id ⟨c, b⟩ := by
      unfold Spec.content at hk
      by_cases h0 : c = 0
      · subst h0
        cases hk
        rw [satisfiesValidated, satisfiesValidated, if_pos rfl, if_pos rfl]
        simp only [satisfiesRole, widened_role hw]
      · rw [if_neg h0] at hk
        by_cases h1 : c = 1
        · subst h1
          cases hk
          rw [satisfiesValidated, satisfiesValidated, if_neg (by simp), if_neg (by simp), if_pos rfl, if_neg (by simp),
            if_neg (by simp), if_pos rfl]
          simp only [satisfiesUnit, widened_unit hw]
        · rw [if_neg h1] at hk
          by_cases h3 : c = 3
          · subst h3
            cases hk
            rw [satisfiesValidated, satisfiesValidated]
            simp only [satisfiesAnonymity, widened_anon hw, show ((3 : Int) = 0) = False from by decide,
              show ((3 : Int) = 2) = False from by decide, show ((3 : Int) = 1) = False from by decide,
              show ((3 : Int) = 4) = False from by decide, if_false]
          · rw [if_neg h3] at hk
            by_cases h4 : c = 4
            · subst h4
              cases hk
              rw [satisfiesValidated_combined, satisfiesValidated_combined, widened_combined hw]
            · simp [h4] at hk
    simp only [satisfiesPrincipal, Res.deref_some, Res.ok_bind, this]

/-- C95 for configurations in directories: undeclared fields in the signer's file do not change what comes of setting up
an MSP with the configuration. -/
theorem C95_msp_directory (read read' : List Bytes → Res Bytes) (id : Bytes) (type : Int)
    (hr : ∀ p, p ≠ [ascii "user", ascii "SignerConfig"] → read' p = read p) (b b' : Bytes)
    (hb : read [ascii "user", ascii "SignerConfig"] = .ok b) (hb' : read' [ascii "user", ascii "SignerConfig"] = .ok b')
    (hw : Spec.Widened .signerConfig b b') (m : IMsp W) (me : Ref) (ρ : SetupRnd W) :
    (do let c ← getConfig read' id type
        pure (m.setup me (some c) ρ)) =
      (do let c ← getConfig read id type
          pure (m.setup me (some c) ρ)) := by
  have h1 := hr [ascii "msp", ascii "IssuerPublicKey"] (by decide)
  have h2 := hr [ascii "msp", ascii "RevocationPublicKey"] (by decide)
  simp only [getConfig, h1, h2, hb, hb', widened_signer hw]

example : ∃ read read' : List Bytes → Res Bytes,
    (∀ p, p ≠ [ascii "user", ascii "SignerConfig"] → read' p = read p) ∧
    read [ascii "user", ascii "SignerConfig"] = .ok [10, 1, 5] ∧
    read' [ascii "user", ascii "SignerConfig"] = .ok [88, 7, 10, 1, 5] ∧
    (∃ c, getConfig read (ascii "a") 1 = .ok c) ∧ ∃ c, getConfig read' (ascii "a") 1 = .ok c :=
  ⟨fun p => if p = [ascii "user", ascii "SignerConfig"] then .ok [10, 1, 5] else .ok [1],
    fun p => if p = [ascii "user", ascii "SignerConfig"] then .ok [88, 7, 10, 1, 5] else .ok [1],
    fun p hp => by simp [hp], by decide, by decide, ⟨_, rfl⟩, ⟨_, rfl⟩⟩

/-! ## Examples -/

namespace Ex

/-- Field 11, the integer 7. -/
theorem extra {declared : List (Nat × Nat)} (h : (11, 0) ∉ declared) : Undeclared declared [88, 7] :=
  .varint (t := [88]) (v := [7]) (r := []) (k := 11) ⟨by decide, by decide, .last 88 (by decide), by decide, by decide⟩ h
    ⟨.last 7 (by decide), by decide, by decide⟩ .nil

end Ex

example (b : Bytes) : Spec.Widened .serializedIdentity b ([88, 7] ++ b) := .insert (b₁ := []) b .nil (Ex.extra (by decl))
example (b : Bytes) : Spec.content 0 = some .role ∧ Spec.Widened .role b ([88, 7] ++ b) :=
  ⟨rfl, .insert (b₁ := []) b .nil (Ex.extra (by decl))⟩
example : Wire.roleCodec.unmarshal ([88, 7] ++ [10, 1, 97, 16, 1]) = .ok ⟨[97], 1⟩ := by decide +kernel

end Idemix.Msp
