import Verif.Dlog.Wire

/-!
# Messages of the MSP

The messages of `msp/config/msp_config.proto` and `msp/config/identities.proto`, and those of
`github.com/hyperledger/fabric-protos-go-apiv2/msp` (`identities.proto`, `msp_config.proto`, `msp_principal.proto`)
that the MSP uses, as protobuf field lists with their codecs. Strings are byte strings; they must be valid UTF-8 in
both directions.
-/

namespace Idemix.Msp

open Proto

/-- `IdemixMSPSignerConfig` (`msp/config/msp_config.proto`). -/
structure SignerConfig where
  cred : Bytes
  sk : Bytes
  ou : Bytes
  role : Int
  enrollmentId : Bytes
  cri : Bytes
  revocationHandle : Bytes
  curveId : Bytes
  schema : Bytes
  deriving DecidableEq, Repr

/-- `IdemixMSPConfig` (`msp/config/msp_config.proto`). -/
structure IdemixConfig where
  name : Bytes
  ipk : Bytes
  signer : Option SignerConfig
  revocationPk : Bytes
  epoch : Int
  curveId : Bytes
  schema : Bytes
  deriving DecidableEq, Repr

/-- `SerializedIdemixIdentity` (`msp/config/identities.proto`); `none` is nil. -/
structure SerializedIdemix where
  nymX : Option Bytes
  nymY : Option Bytes
  ou : Bytes
  role : Bytes
  proof : Bytes
  schema : Bytes
  deriving DecidableEq, Repr

/-- `MSPConfig` of fabric (as a value: the MSP gets a pointer). -/
structure MSPConfig where
  type : Int
  config : Bytes
  deriving DecidableEq, Repr

/-- `SerializedIdentity` of fabric. -/
structure SerializedIdentity where
  mspid : Bytes
  idBytes : Bytes
  deriving DecidableEq, Repr

/-- `MSPRole` of fabric. Roles: MEMBER 0, ADMIN 1, CLIENT 2, PEER 3, ORDERER 4. -/
structure MSPRole where
  mspIdentifier : Bytes
  role : Int
  deriving DecidableEq, Repr

/-- `OrganizationUnit` of fabric. -/
structure OrganizationUnit where
  mspIdentifier : Bytes
  ou : Bytes
  certifiers : Bytes
  deriving DecidableEq, Repr

/-- `MSPPrincipal` of fabric. Classifications: ROLE 0, ORGANIZATION_UNIT 1, IDENTITY 2, ANONYMITY 3, COMBINED 4. -/
structure Principal where
  classification : Int
  principal : Bytes
  deriving DecidableEq, Repr

/-- Numbers in the range of their Go types. -/
def SignerConfig.Wire (s : SignerConfig) : Prop := Int32 s.role
/-- See `SignerConfig.Wire`. -/
def IdemixConfig.Wire (c : IdemixConfig) : Prop := Int64 c.epoch ∧ ∀ s, c.signer = some s → s.Wire
/-- An empty coordinate is not sent, and read as nil. -/
def SerializedIdemix.Wire (s : SerializedIdemix) : Prop := s.nymX ≠ some [] ∧ s.nymY ≠ some []
/-- See `SignerConfig.Wire`. -/
def MSPRole.Wire (r : MSPRole) : Prop := Int32 r.role
/-- See `SignerConfig.Wire`. -/
def Principal.Wire (p : Principal) : Prop := Int32 p.classification

namespace Wire

open Dlog.Wire

/-- The string fields with number `k` are valid. -/
def strOk (k : Nat) (m : Msg) : Bool := (lens k m).all utf8Valid

/-- `IdemixMSPSignerConfig`. -/
def signer (s : SignerConfig) : Msg :=
  bytesF 1 s.cred ++ (bytesF 2 s.sk ++ (bytesF 3 s.ou ++ (intF 4 s.role ++ (bytesF 5 s.enrollmentId ++
    (bytesF 6 s.cri ++ (bytesF 7 s.revocationHandle ++ (bytesF 8 s.curveId ++ bytesF 9 s.schema)))))))
/-- The strings of a signer configuration are valid. -/
def signerOk (s : SignerConfig) : Bool :=
  utf8Valid s.ou && utf8Valid s.enrollmentId && utf8Valid s.revocationHandle && utf8Valid s.curveId &&
    utf8Valid s.schema
/-- See `signer`. -/
def signerOf (m : Msg) : Option SignerConfig :=
  if strOk 3 m && strOk 5 m && strOk 7 m && strOk 8 m && strOk 9 m then
    some ⟨getBytes 1 m, getBytes 2 m, getBytes 3 m, getInt32 4 m, getBytes 5 m, getBytes 6 m, getBytes 7 m,
      getBytes 8 m, getBytes 9 m⟩
  else none

/-- `IdemixMSPConfig`. -/
def config (c : IdemixConfig) : Msg :=
  bytesF 1 c.name ++ (bytesF 2 c.ipk ++ (msgF 3 (c.signer.map signer) ++ (bytesF 4 c.revocationPk ++
    (intF 5 c.epoch ++ (bytesF 6 c.curveId ++ bytesF 7 c.schema)))))
/-- The strings of a configuration are valid. -/
def configOk (c : IdemixConfig) : Bool :=
  utf8Valid c.name && utf8Valid c.curveId && utf8Valid c.schema && c.signer.all signerOk
/-- See `config`. -/
def configOf (m : Msg) : Option IdemixConfig :=
  if strOk 1 m && strOk 6 m && strOk 7 m then do
    let s ← getMsg 3 m
    match s with
    | none => some ⟨getBytes 1 m, getBytes 2 m, none, getBytes 4 m, getInt64 5 m, getBytes 6 m, getBytes 7 m⟩
    | some f => do
      let s ← signerOf f
      some ⟨getBytes 1 m, getBytes 2 m, some s, getBytes 4 m, getInt64 5 m, getBytes 6 m, getBytes 7 m⟩
  else none

/-- `SerializedIdemixIdentity`. -/
def ident (s : SerializedIdemix) : Msg :=
  bytesF 1 (s.nymX.getD []) ++ (bytesF 2 (s.nymY.getD []) ++ (bytesF 3 s.ou ++ (bytesF 4 s.role ++
    (bytesF 5 s.proof ++ bytesF 6 s.schema))))
/-- See `ident`. -/
def identOf (m : Msg) : Option SerializedIdemix :=
  if strOk 6 m then
    some ⟨getBytes? 1 m, getBytes? 2 m, getBytes 3 m, getBytes 4 m, getBytes 5 m, getBytes 6 m⟩
  else none

/-- `SerializedIdentity`. -/
def serial (s : SerializedIdentity) : Msg := bytesF 1 s.mspid ++ bytesF 2 s.idBytes
/-- See `serial`. -/
def serialOf (m : Msg) : Option SerializedIdentity :=
  if strOk 1 m then some ⟨getBytes 1 m, getBytes 2 m⟩ else none

/-- `MSPRole`. -/
def role (r : MSPRole) : Msg := bytesF 1 r.mspIdentifier ++ intF 2 r.role
/-- See `role`. -/
def roleOf (m : Msg) : Option MSPRole :=
  if strOk 1 m then some ⟨getBytes 1 m, getInt32 2 m⟩ else none

/-- `OrganizationUnit`. -/
def unit (o : OrganizationUnit) : Msg := bytesF 1 o.mspIdentifier ++ (bytesF 2 o.ou ++ bytesF 3 o.certifiers)
/-- See `unit`. -/
def unitOf (m : Msg) : Option OrganizationUnit :=
  if strOk 1 m && strOk 2 m then some ⟨getBytes 1 m, getBytes 2 m, getBytes 3 m⟩ else none

/-- `MSPIdentityAnonymity`: the type, NOMINAL 0 or ANONYMOUS 1. -/
def anon (t : Int) : Msg := intF 1 t
/-- See `anon`. -/
def anonOf (m : Msg) : Option Int := some (getInt32 1 m)

/-- `MSPPrincipal`. -/
def principal (p : Principal) : Msg := intF 1 p.classification ++ bytesF 2 p.principal
/-- See `principal`. -/
def principalOf (m : Msg) : Principal := ⟨getInt32 1 m, getBytes 2 m⟩

/-- `CombinedPrincipal`: its principals. -/
def combined (l : List Principal) : Msg := repF 1 (l.map fun p => encode (principal p))
/-- See `combined`. -/
def combinedOf (m : Msg) : Option (List Principal) := ((lens 1 m).mapM decode).map fun l => l.map principalOf

/-! ## Round trips -/

theorem signer_plain (s : SignerConfig) : Msg.Plain (signer s) := by unfold signer; plain_wire

theorem strOk_of {k : Nat} {m : Msg} {b : Bytes} (h : lens k m = if b = [] then [] else [b])
    (hb : utf8Valid b = true) : strOk k m = true := by
  unfold strOk; rw [h]; split <;> simp [hb]

theorem getInt32_of {k : Nat} {m : Msg} {i : Int} (h : Int32 i)
    (hv : varints k m = if i = 0 then [] else [(i % 18446744073709551616).toNat]) : getInt32 k m = i := by
  rw [getInt32, hv, getLast_int, signed32_of _ h]

theorem getInt64_of {k : Nat} {m : Msg} {i : Int} (h : Int64 i)
    (hv : varints k m = if i = 0 then [] else [(i % 18446744073709551616).toNat]) : getInt64 k m = i := by
  rw [getInt64, hv, getLast_int, signed64_of _ h]

theorem getBytes?_of {k : Nat} {m : Msg} {o : Option Bytes} (h : o ≠ some [])
    (hl : lens k m = if o.getD [] = [] then [] else [o.getD []]) : getBytes? k m = o := by
  unfold getBytes?; rw [hl]
  cases o with
  | none => rfl
  | some b =>
    have : b ≠ [] := fun e => h (by rw [e])
    simp [this]

theorem signerOf_signer (s : SignerConfig) (h : s.Wire) (hc : signerOk s = true) : signerOf (signer s) = some s := by
  simp only [signerOk, Bool.and_eq_true] at hc
  obtain ⟨⟨⟨⟨c3, c5⟩, c7⟩, c8⟩, c9⟩ := hc
  have s3 : strOk 3 (signer s) = true := strOk_of (by unfold signer; field_simp_wire) c3
  have s5 : strOk 5 (signer s) = true := strOk_of (by unfold signer; field_simp_wire) c5
  have s7 : strOk 7 (signer s) = true := strOk_of (by unfold signer; field_simp_wire) c7
  have s8 : strOk 8 (signer s) = true := strOk_of (by unfold signer; field_simp_wire) c8
  have s9 : strOk 9 (signer s) = true := strOk_of (by unfold signer; field_simp_wire) c9
  have g1 : getBytes 1 (signer s) = s.cred := by unfold signer; field_simp_wire
  have g2 : getBytes 2 (signer s) = s.sk := by unfold signer; field_simp_wire
  have g3 : getBytes 3 (signer s) = s.ou := by unfold signer; field_simp_wire
  have g4 : getInt32 4 (signer s) = s.role := getInt32_of h (by unfold signer; field_simp_wire)
  have g5 : getBytes 5 (signer s) = s.enrollmentId := by unfold signer; field_simp_wire
  have g6 : getBytes 6 (signer s) = s.cri := by unfold signer; field_simp_wire
  have g7 : getBytes 7 (signer s) = s.revocationHandle := by unfold signer; field_simp_wire
  have g8 : getBytes 8 (signer s) = s.curveId := by unfold signer; field_simp_wire
  have g9 : getBytes 9 (signer s) = s.schema := by unfold signer; field_simp_wire
  simp [signerOf, s3, s5, s7, s8, s9, g1, g2, g3, g4, g5, g6, g7, g8, g9]

theorem config_plain (c : IdemixConfig) : Msg.Plain (config c) := by unfold config; plain_wire

theorem configOf_config (c : IdemixConfig) (h : c.Wire) (hc : configOk c = true) : configOf (config c) = some c := by
  simp only [configOk, Bool.and_eq_true] at hc
  obtain ⟨⟨⟨c1, c6⟩, c7⟩, c3⟩ := hc
  have s1 : strOk 1 (config c) = true := strOk_of (by unfold config; field_simp_wire) c1
  have s6 : strOk 6 (config c) = true := strOk_of (by unfold config; field_simp_wire) c6
  have s7 : strOk 7 (config c) = true := strOk_of (by unfold config; field_simp_wire) c7
  have g1 : getBytes 1 (config c) = c.name := by unfold config; field_simp_wire
  have g2 : getBytes 2 (config c) = c.ipk := by unfold config; field_simp_wire
  have g3 : getMsg 3 (config c) = some (c.signer.map signer) :=
    getMsg_one (by unfold config; field_simp_wire) (by
      rintro f hf
      rw [Option.map_eq_some_iff] at hf
      obtain ⟨s, -, rfl⟩ := hf
      exact signer_plain s)
  have g4 : getBytes 4 (config c) = c.revocationPk := by unfold config; field_simp_wire
  have g5 : getInt64 5 (config c) = c.epoch := getInt64_of h.1 (by unfold config; field_simp_wire)
  have g6 : getBytes 6 (config c) = c.curveId := by unfold config; field_simp_wire
  have g7 : getBytes 7 (config c) = c.schema := by unfold config; field_simp_wire
  cases hs : c.signer with
  | none =>
    rw [hs] at g3
    simp only [configOf, s1, s6, s7, g1, g2, g3, g4, g5, g6, g7, Bool.and_self, if_true, Option.map_none,
      Option.bind_eq_bind, Option.bind_some]
    rw [← hs]
  | some s =>
    rw [hs] at g3 c3
    have hg := signerOf_signer s (h.2 s hs) c3
    simp only [configOf, s1, s6, s7, g1, g2, g3, g4, g5, g6, g7, Bool.and_self, if_true, Option.map_some,
      Option.bind_eq_bind, Option.bind_some, hg]
    rw [← hs]

theorem ident_plain (s : SerializedIdemix) : Msg.Plain (ident s) := by unfold ident; plain_wire

theorem identOf_ident (s : SerializedIdemix) (h : s.Wire) (hc : utf8Valid s.schema = true) :
    identOf (ident s) = some s := by
  have s6 : strOk 6 (ident s) = true := strOk_of (by unfold ident; field_simp_wire) hc
  have g1 : getBytes? 1 (ident s) = s.nymX :=
    getBytes?_of h.1 (by unfold ident; simp [lens_append, lens_bytesF])
  have g2 : getBytes? 2 (ident s) = s.nymY :=
    getBytes?_of h.2 (by unfold ident; simp [lens_append, lens_bytesF])
  have g3 : getBytes 3 (ident s) = s.ou := by unfold ident; field_simp_wire
  have g4 : getBytes 4 (ident s) = s.role := by unfold ident; field_simp_wire
  have g5 : getBytes 5 (ident s) = s.proof := by unfold ident; field_simp_wire
  have g6 : getBytes 6 (ident s) = s.schema := by unfold ident; field_simp_wire
  simp [identOf, s6, g1, g2, g3, g4, g5, g6]

theorem serial_plain (s : SerializedIdentity) : Msg.Plain (serial s) := by unfold serial; plain_wire

theorem serialOf_serial (s : SerializedIdentity) (hc : utf8Valid s.mspid = true) : serialOf (serial s) = some s := by
  have s1 : strOk 1 (serial s) = true := strOk_of (by unfold serial; field_simp_wire) hc
  have g1 : getBytes 1 (serial s) = s.mspid := by unfold serial; field_simp_wire
  have g2 : getBytes 2 (serial s) = s.idBytes := by unfold serial; field_simp_wire
  simp [serialOf, s1, g1, g2]

theorem role_plain (r : MSPRole) : Msg.Plain (role r) := by unfold role; plain_wire

theorem roleOf_role (r : MSPRole) (h : r.Wire) (hc : utf8Valid r.mspIdentifier = true) :
    roleOf (role r) = some r := by
  have s1 : strOk 1 (role r) = true := strOk_of (by unfold role; field_simp_wire) hc
  have g1 : getBytes 1 (role r) = r.mspIdentifier := by unfold role; field_simp_wire
  have g2 : getInt32 2 (role r) = r.role := getInt32_of h (by unfold role; field_simp_wire)
  simp [roleOf, s1, g1, g2]

theorem unit_plain (o : OrganizationUnit) : Msg.Plain (unit o) := by unfold unit; plain_wire

theorem unitOf_unit (o : OrganizationUnit) (hc : (utf8Valid o.mspIdentifier && utf8Valid o.ou) = true) :
    unitOf (unit o) = some o := by
  simp only [Bool.and_eq_true] at hc
  have s1 : strOk 1 (unit o) = true := strOk_of (by unfold unit; field_simp_wire) hc.1
  have s2 : strOk 2 (unit o) = true := strOk_of (by unfold unit; field_simp_wire) hc.2
  have g1 : getBytes 1 (unit o) = o.mspIdentifier := by unfold unit; field_simp_wire
  have g2 : getBytes 2 (unit o) = o.ou := by unfold unit; field_simp_wire
  have g3 : getBytes 3 (unit o) = o.certifiers := by unfold unit; field_simp_wire
  simp [unitOf, s1, s2, g1, g2, g3]

theorem anon_plain (t : Int) : Msg.Plain (anon t) := by unfold anon; plain_wire

theorem anonOf_anon (t : Int) (h : Int32 t) : anonOf (anon t) = some t := by
  have g1 : getInt32 1 (anon t) = t := getInt32_of h (by unfold anon; field_simp_wire)
  simp [anonOf, g1]

theorem principal_plain (p : Principal) : Msg.Plain (principal p) := by unfold principal; plain_wire

theorem principalOf_principal (p : Principal) (h : p.Wire) : principalOf (principal p) = p := by
  have g1 : getInt32 1 (principal p) = p.classification := getInt32_of h (by unfold principal; field_simp_wire)
  have g2 : getBytes 2 (principal p) = p.principal := by unfold principal; field_simp_wire
  simp [principalOf, g1, g2]

theorem combined_plain (l : List Principal) : Msg.Plain (combined l) := by unfold combined; plain_wire

theorem combinedOf_combined (l : List Principal) (h : ∀ p ∈ l, p.Wire) : combinedOf (combined l) = some l := by
  have g1 : lens 1 (combined l) = l.map fun p => encode (principal p) := by unfold combined; field_simp_wire
  unfold combinedOf
  rw [g1]
  clear g1
  induction l with
  | nil => rfl
  | cons p l ih =>
    have ih := ih fun q hq => h q (by simp [hq])
    rw [Option.map_eq_some_iff] at ih
    obtain ⟨a, ha, hb⟩ := ih
    have e : ((p :: l).map fun p => encode (principal p)).mapM decode = some (principal p :: a) := by
      simp only [List.map_cons, List.mapM_cons, decode_encode _ (principal_plain p), ha, Option.bind_eq_bind,
        Option.bind_some, Option.pure_def]
    rw [e, Option.map_some, List.map_cons, hb, principalOf_principal p (h p (by simp))]

/-! ## Codecs -/

/-- Codec of signer configurations. -/
def signerCodec : Codec SignerConfig SignerConfig.Wire :=
  codec _ signerOk signer signerOf signer_plain signerOf_signer
/-- Codec of configurations. -/
def configCodec : Codec IdemixConfig IdemixConfig.Wire :=
  codec _ configOk config configOf config_plain configOf_config
/-- Codec of serialized idemix identities. -/
def identCodec : Codec SerializedIdemix SerializedIdemix.Wire :=
  codec _ (fun s => utf8Valid s.schema) ident identOf ident_plain identOf_ident
/-- Codec of serialized identities. -/
def serialCodec : Codec SerializedIdentity (fun _ => True) :=
  codec _ (fun s => utf8Valid s.mspid) serial serialOf serial_plain fun s _ hc => serialOf_serial s hc
/-- Codec of roles. -/
def roleCodec : Codec MSPRole MSPRole.Wire :=
  codec _ (fun r => utf8Valid r.mspIdentifier) role roleOf role_plain roleOf_role
/-- Codec of organizational units. -/
def unitCodec : Codec OrganizationUnit (fun _ => True) :=
  codec _ (fun o => utf8Valid o.mspIdentifier && utf8Valid o.ou) unit unitOf unit_plain fun o _ hc => unitOf_unit o hc
/-- Codec of anonymity types. -/
def anonCodec : Codec Int Int32 := codec _ (fun _ => true) anon anonOf anon_plain fun t h _ => anonOf_anon t h
/-- Codec of combined principals. -/
def combinedCodec : Codec (List Principal) (fun l => ∀ p ∈ l, p.Wire) :=
  codec _ (fun _ => true) combined combinedOf combined_plain fun l h _ => combinedOf_combined l h

/-! ## Sizes: a field is shorter than the message -/

theorem takeExact_length {n : Nat} {b x r : Bytes} (h : takeExact n b = some (x, r)) :
    x.length + r.length = b.length := by
  unfold takeExact at h
  split at h
  · cases h
  · cases h; simp; omega

theorem getTok_length {b r : Bytes} {t : Tok} (h : getTok b = some (t, r)) :
    r.length < b.length ∧ ∀ x, t.2 = .len x → x.length + r.length < b.length := by
  unfold getTok at h
  rw [Option.bind_eq_some_iff] at h
  obtain ⟨⟨n, b1⟩, h1, h⟩ := h
  have l1 := checked_length h1
  simp only at h
  split at h
  · cases h
  · rw [Option.map_eq_some_iff] at h
    obtain ⟨⟨v, b2⟩, h2, he⟩ := h
    cases he
    simp only
    unfold getVal at h2
    split at h2
    · rw [Option.map_eq_some_iff] at h2
      obtain ⟨⟨k, b3⟩, h3, he⟩ := h2
      cases he
      dsimp only at *
      have := checked_length h3
      exact ⟨by omega, fun x hx => by cases hx⟩
    · split at h2
      · rw [Option.map_eq_some_iff] at h2
        obtain ⟨⟨k, b3⟩, h3, he⟩ := h2
        cases he
        dsimp only at *
        have := takeExact_length h3
        exact ⟨by omega, fun x hx => by cases hx⟩
      · split at h2
        · rw [Option.bind_eq_some_iff] at h2
          obtain ⟨⟨k, b3⟩, h3, h2⟩ := h2
          rw [Option.map_eq_some_iff] at h2
          obtain ⟨⟨y, b4⟩, h4, he⟩ := h2
          cases he
          dsimp only at *
          have := checked_length h3
          have := takeExact_length h4
          refine ⟨by omega, fun x hx => ?_⟩
          cases hx
          omega
        · split at h2
          · cases h2; exact ⟨l1, fun x hx => by cases hx⟩
          · split at h2
            · cases h2; exact ⟨l1, fun x hx => by cases hx⟩
            · split at h2
              · rw [Option.map_eq_some_iff] at h2
                obtain ⟨⟨k, b3⟩, h3, he⟩ := h2
                cases he
                dsimp only at *
                have := takeExact_length h3
                exact ⟨by omega, fun x hx => by cases hx⟩
              · cases h2

theorem getToksN_length (f : Nat) (b : Bytes) (l : List Tok) (h : getToksN f b = some l) (k : Nat) (x : Bytes)
    (hx : (k, WVal.len x) ∈ l) : x.length < b.length := by
  induction f generalizing b l with
  | zero =>
    cases b with
    | nil => simp only [getToksN, Option.some.injEq] at h; subst h; cases hx
    | cons c b => simp [getToksN] at h
  | succ f ih =>
    cases b with
    | nil => simp only [getToksN, Option.some.injEq] at h; subst h; cases hx
    | cons c b =>
      simp only [getToksN, Option.bind_eq_some_iff, Option.map_eq_some_iff] at h
      obtain ⟨⟨t, r⟩, h1, l', h2, rfl⟩ := h
      obtain ⟨a, b'⟩ := getTok_length h1
      rcases List.mem_cons.mp hx with h | h
      · have := b' x (by rw [show t = (k, WVal.len x) from h.symm])
        omega
      · have := ih r l' h2 h
        omega

theorem stripGroups_sub (o : List Nat) (l m : List Tok) (h : stripGroups o l = some m) : ∀ t ∈ m, t ∈ l := by
  induction l generalizing o m with
  | nil =>
    cases o with
    | nil => simp only [stripGroups, Option.some.injEq] at h; subst h; simp
    | cons k o => simp [stripGroups] at h
  | cons t l ih =>
    obtain ⟨k, v⟩ := t
    cases v with
    | startGroup => exact fun t ht => List.mem_cons_of_mem _ (ih (k :: o) m (stripGroups_start.mp h).2 t ht)
    | endGroup =>
      cases o with
      | nil => simp [stripGroups] at h
      | cons k' o =>
        simp only [stripGroups] at h
        split at h
        · exact fun t ht => List.mem_cons_of_mem _ (ih o m h t ht)
        · cases h
    | varint n =>
      cases o with
      | nil =>
        simp only [stripGroups, Option.map_eq_some_iff] at h
        obtain ⟨m', h, rfl⟩ := h
        intro t ht
        rcases List.mem_cons.mp ht with rfl | ht
        · simp
        · exact List.mem_cons_of_mem _ (ih [] m' h t ht)
      | cons k' o => exact fun t ht => List.mem_cons_of_mem _ (ih _ m (by simpa [stripGroups] using h) t ht)
    | fixed64 n =>
      cases o with
      | nil =>
        simp only [stripGroups, Option.map_eq_some_iff] at h
        obtain ⟨m', h, rfl⟩ := h
        intro t ht
        rcases List.mem_cons.mp ht with rfl | ht
        · simp
        · exact List.mem_cons_of_mem _ (ih [] m' h t ht)
      | cons k' o => exact fun t ht => List.mem_cons_of_mem _ (ih _ m (by simpa [stripGroups] using h) t ht)
    | fixed32 n =>
      cases o with
      | nil =>
        simp only [stripGroups, Option.map_eq_some_iff] at h
        obtain ⟨m', h, rfl⟩ := h
        intro t ht
        rcases List.mem_cons.mp ht with rfl | ht
        · simp
        · exact List.mem_cons_of_mem _ (ih [] m' h t ht)
      | cons k' o => exact fun t ht => List.mem_cons_of_mem _ (ih _ m (by simpa [stripGroups] using h) t ht)
    | len n =>
      cases o with
      | nil =>
        simp only [stripGroups, Option.map_eq_some_iff] at h
        obtain ⟨m', h, rfl⟩ := h
        intro t ht
        rcases List.mem_cons.mp ht with rfl | ht
        · simp
        · exact List.mem_cons_of_mem _ (ih [] m' h t ht)
      | cons k' o => exact fun t ht => List.mem_cons_of_mem _ (ih _ m (by simpa [stripGroups] using h) t ht)

theorem mem_lens {k : Nat} {m : Msg} {x : Bytes} (h : x ∈ lens k m) : (k, WVal.len x) ∈ m := by
  simp only [lens, List.mem_filterMap] at h
  obtain ⟨⟨j, v⟩, ht, h⟩ := h
  cases v with
  | len b =>
    simp only at h
    split at h
    · next hj => cases h; rw [← hj]; exact ht
    · cases h
  | _ => cases h

theorem lens_length {k : Nat} {b x : Bytes} {m : Msg} (h : decode b = some m) (hx : x ∈ lens k m) :
    x.length < b.length := by
  unfold decode at h
  rw [Option.bind_eq_some_iff] at h
  obtain ⟨l, hl, h⟩ := h
  exact getToksN_length _ b l hl k x (stripGroups_sub [] l m h _ (mem_lens hx))

theorem getBytes_length {k : Nat} {b : Bytes} {m : Msg} (h : decode b = some m) : (getBytes k m).length ≤ b.length := by
  unfold getBytes
  cases hl : (lens k m).getLast? with
  | none => simp
  | some x =>
    have : x ∈ lens k m := List.mem_of_getLast? hl
    exact Nat.le_of_lt (lens_length h this)

theorem mem_mapM_decode {l : List Bytes} {ms : List Msg} (h : l.mapM decode = some ms) :
    ∀ m ∈ ms, ∃ b ∈ l, decode b = some m := by
  induction l generalizing ms with
  | nil => cases h; simp
  | cons b l ih =>
    simp only [List.mapM_cons, Option.bind_eq_bind, Option.bind_eq_some_iff, Option.pure_def, Option.some.injEq] at h
    obtain ⟨m0, h0, ms', h1, rfl⟩ := h
    intro m hm
    rcases List.mem_cons.mp hm with rfl | hm
    · exact ⟨b, by simp, h0⟩
    · obtain ⟨b', hb', hd⟩ := ih h1 m hm
      exact ⟨b', by simp [hb'], hd⟩

/-- The members of a combined principal are shorter than it. -/
theorem combined_length {b : Bytes} {l : List Principal} (h : combinedCodec.unmarshal b = .ok l) :
    ∀ p ∈ l, p.principal.length < b.length := by
  simp only [combinedCodec, codec, Res.ofOption_eq_ok, Option.bind_eq_some_iff, combinedOf, Option.map_eq_some_iff] at h
  obtain ⟨m, hm, ms, hms, rfl⟩ := h
  intro p hp
  obtain ⟨f, hf, rfl⟩ := List.mem_map.mp hp
  obtain ⟨x, hx, hd⟩ := mem_mapM_decode hms f hf
  have h1 := lens_length hm hx
  have h2 : (principalOf f).principal.length ≤ x.length := getBytes_length hd
  omega

end Wire
end Idemix.Msp
