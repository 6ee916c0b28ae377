import Verif.Tools.PropsTorn

/-!
# C102: the configuration of a directory says what is in the directory

`GetIdemixMspConfigWithType` reads up to three files and makes a configuration of them. It succeeds exactly if the two public keys can be read,
the file of the signer, if it can be read, is well-formed, and the arguments are acceptable; the configuration then says what the files say,
and an MSP set up from it has these keys and that signer. The type of the configuration is the requested one only for types below `2³¹`.
-/

namespace Idemix.Gen

open Idemix.Msp (IMsp World SetupRnd Ref SignerConfig CspId)
open Idemix.Proto (utf8Valid)
open Idemix (Res Bytes)

/-! ## Specification -/

/-- The directory, of which `read` reads files, holds the issuer public key `ipk` and the revocation public key `rpk`, and the signer `signer`,
which is absent if its file cannot be read. -/
structure Spec.Contains (read : List Bytes → Res Bytes) (ipk rpk : Bytes) (signer : Option SignerConfig) : Prop where
  issuer : read [ascii "msp", ascii "IssuerPublicKey"] = .ok ipk
  revocation : read [ascii "msp", ascii "RevocationPublicKey"] = .ok rpk
  present : ∀ b, read [ascii "user", ascii "SignerConfig"] = .ok b → ∃ s, Msp.Wire.signerCodec.unmarshal b = .ok s ∧ signer = some s
  absent : (∀ b, read [ascii "user", ascii "SignerConfig"] ≠ .ok b) → signer = none

open Spec

/-! ## Theorems -/

theorem marshal_config {id ipk rpk : Bytes} {o : Option SignerConfig} (hid : utf8Valid id = true)
    (ho : ∀ s, o = some s → Msp.Wire.signerOk s = true) :
    ∃ raw, Msp.Wire.configCodec.marshal ⟨id, ipk, o, rpk, 0, [], []⟩ = .ok raw := by
  cases o with
  | none => simp [Msp.Wire.configCodec, Proto.codec, Msp.Wire.configOk, hid, show utf8Valid [] = true from rfl]
  | some s => simp [Msp.Wire.configCodec, Proto.codec, Msp.Wire.configOk, hid, ho s rfl, show utf8Valid [] = true from rfl]

theorem marshal_utf8 {id ipk rpk raw : Bytes} {o : Option SignerConfig}
    (h : Msp.Wire.configCodec.marshal ⟨id, ipk, o, rpk, 0, [], []⟩ = .ok raw) : utf8Valid id = true := by
  by_contra hid
  have : utf8Valid id = false := by simpa using hid
  simp [Msp.Wire.configCodec, Proto.codec, Msp.Wire.configOk, this] at h

/-- The configuration that is made of a directory. -/
theorem getConfig_eq {read : List Bytes → Res Bytes} {ipk rpk : Bytes} {o : Option SignerConfig} (h : Contains read ipk rpk o) (id : Bytes)
    (t : Int) (ht : 0 ≤ t) : Msp.getConfig read id t =
      (Msp.Wire.configCodec.marshal ⟨id, ipk, o, rpk, 0, [], []⟩).bind fun b => .ok ⟨Msp.toInt32 t, b⟩ := by
  have hn : (decide (t < 0)) = false := by simpa using ht
  cases hs : read [ascii "user", ascii "SignerConfig"] with
  | ok b =>
    obtain ⟨s, hb, rfl⟩ := h.present b hs
    simp [Msp.getConfig, hn, h.issuer, h.revocation, hs, hb]
    rfl
  | err e =>
    obtain rfl := h.absent (by simp [hs])
    simp [Msp.getConfig, hn, h.issuer, h.revocation, hs]
    rfl
  | panic =>
    obtain rfl := h.absent (by simp [hs])
    simp [Msp.getConfig, hn, h.issuer, h.revocation, hs]
    rfl

theorem Spec.Contains.signer_ok {read : List Bytes → Res Bytes} {ipk rpk : Bytes} {o : Option SignerConfig} (h : Contains read ipk rpk o)
    (s : SignerConfig) (hs : o = some s) : s.Wire ∧ Msp.Wire.signerOk s = true := by
  by_cases hb : ∃ b, read [ascii "user", ascii "SignerConfig"] = .ok b
  · obtain ⟨b, hb⟩ := hb
    obtain ⟨s', h1, h2⟩ := h.present b hb
    rw [hs] at h2
    cases h2
    exact signer_wire h1
  · have := h.absent fun b hb' => hb ⟨b, hb'⟩
    rw [hs] at this
    cases this

theorem holds_of_ok {read : List Bytes → Res Bytes} {id : Bytes} {t : Int} {conf : Msp.MSPConfig} (h : Msp.getConfig read id t = .ok conf) :
    0 ≤ t ∧ ∃ ipk rpk o, Contains read ipk rpk o := by
  simp only [Msp.getConfig, Res.bind_eq_ok, Res.guardErr_eq_ok] at h
  obtain ⟨_, ht, ipk, h1, rpk, h2, h⟩ := h
  refine ⟨by simpa using ht, ipk, rpk, ?_⟩
  cases hs : read [ascii "user", ascii "SignerConfig"] with
  | ok b =>
    simp only [hs, Res.bind_eq_ok] at h
    obtain ⟨s, h3, -⟩ := h
    exact ⟨some s, h1, h2, fun b' hb => by cases hb.symm.trans hs; exact ⟨s, h3, rfl⟩, fun hb => absurd hs (hb b)⟩
  | err e => exact ⟨none, h1, h2, (fun b hb => by cases hb.symm.trans hs), fun _ => rfl⟩
  | panic => exact ⟨none, h1, h2, (fun b hb => by cases hb.symm.trans hs), fun _ => rfl⟩

/-- C102. A configuration is made exactly if the type is not negative, the name is a valid string, and the directory holds both public keys
and either no file of a signer that can be read, or a well-formed one. -/
theorem C102_succeeds (read : List Bytes → Res Bytes) (id : Bytes) (t : Int) :
    (∃ conf, Msp.getConfig read id t = .ok conf) ↔ 0 ≤ t ∧ utf8Valid id = true ∧ ∃ ipk rpk signer, Contains read ipk rpk signer := by
  constructor
  · rintro ⟨conf, h⟩
    obtain ⟨ht, ipk, rpk, o, hh⟩ := holds_of_ok h
    rw [getConfig_eq hh id t ht] at h
    change (do let b ← Msp.Wire.configCodec.marshal ⟨id, ipk, o, rpk, 0, [], []⟩; Res.ok (⟨Msp.toInt32 t, b⟩ : Msp.MSPConfig)) = _ at h
    simp only [Res.bind_eq_ok] at h
    obtain ⟨raw, hm, -⟩ := h
    exact ⟨ht, marshal_utf8 hm, ipk, rpk, o, hh⟩
  · rintro ⟨ht, hid, ipk, rpk, o, hh⟩
    obtain ⟨raw, hm⟩ := marshal_config (ipk := ipk) (rpk := rpk) hid fun s hs => (hh.signer_ok s hs).2
    exact ⟨⟨Msp.toInt32 t, raw⟩, by rw [getConfig_eq hh id t ht, hm]; rfl⟩

/-- C102. The configuration says what the directory holds: set-up reads in it the given name, the two keys and the signer, and nothing else. -/
theorem C102_contents (read : List Bytes → Res Bytes) (id : Bytes) (t : Int) (conf : Msp.MSPConfig)
    (h : Msp.getConfig read id t = .ok conf) (ipk rpk : Bytes) (signer : Option SignerConfig) (hh : Contains read ipk rpk signer) :
    Msp.Wire.configCodec.unmarshal conf.config = .ok ⟨id, ipk, signer, rpk, 0, [], []⟩ := by
  rw [getConfig_eq hh id t (holds_of_ok h).1] at h
  change (do let b ← Msp.Wire.configCodec.marshal ⟨id, ipk, signer, rpk, 0, [], []⟩; Res.ok (⟨Msp.toInt32 t, b⟩ : Msp.MSPConfig)) = _ at h
  simp only [Res.bind_eq_ok] at h
  obtain ⟨raw, hm, h⟩ := h
  cases h
  exact Msp.Wire.configCodec.rt _ _ ⟨by simp [Proto.Int64], fun s hs => (hh.signer_ok s hs).1⟩ hm

/-- C102. The configuration has the requested type, if that is below `2³¹`. -/
theorem C102_type_partial (read : List Bytes → Res Bytes) (id : Bytes) (t : Int) (conf : Msp.MSPConfig)
    (h : Msp.getConfig read id t = .ok conf) (ht : t < 2147483648) : conf.type = t := by
  obtain ⟨h0, ipk, rpk, o, hh⟩ := holds_of_ok h
  rw [getConfig_eq hh id t h0] at h
  change (do let b ← Msp.Wire.configCodec.marshal ⟨id, ipk, o, rpk, 0, [], []⟩; Res.ok (⟨Msp.toInt32 t, b⟩ : Msp.MSPConfig)) = _ at h
  simp only [Res.bind_eq_ok] at h
  obtain ⟨raw, -, h⟩ := h
  cases h
  exact toInt32_of h0 ht

/-- C102 is violated for other types: adding `2³²` to the type makes no difference, so that there are unknown types with which a
configuration of an idemix MSP is made; and for some types the configuration has a negative type, although negative types are refused. -/
theorem C102_type_violated (read : List Bytes → Res Bytes) (id : Bytes) :
    (∀ t, 0 ≤ t → Msp.getConfig read id (t + 4294967296) = Msp.getConfig read id t) ∧
    ∀ conf, Msp.getConfig read id 2147483648 = .ok conf → conf.type < 0 := by
  constructor
  · intro t ht
    have h1 : Msp.toInt32 (t + 4294967296) = Msp.toInt32 t := by simp only [Msp.toInt32]; omega
    have h2 : (decide (t + 4294967296 < 0)) = decide (t < 0) := by
      rw [decide_eq_decide]; omega
    simp only [Msp.getConfig, h1, h2]
  · intro conf h
    obtain ⟨h0, ipk, rpk, o, hh⟩ := holds_of_ok h
    rw [getConfig_eq hh id _ h0] at h
    change (do let b ← Msp.Wire.configCodec.marshal ⟨id, ipk, o, rpk, 0, [], []⟩; Res.ok (⟨Msp.toInt32 _, b⟩ : Msp.MSPConfig)) = _ at h
    simp only [Res.bind_eq_ok] at h
    obtain ⟨raw, -, h⟩ := h
    cases h
    show Msp.toInt32 2147483648 < 0
    decide

/-- C102, from the directory to the MSP: set-up from the configuration succeeds exactly if it was made for the scheme of the MSP, the scheme
accepts the two keys on its default curve, and the signer, if there is one, has a valid credential for its unit, role and enrolment id. Then the
MSP has the given name, these keys and this signer. -/
theorem C102_setup {W : World} (read : List Bytes → Res Bytes) (id : Bytes) (t : Int) (ht : t < 2147483648) (conf : Msp.MSPConfig)
    (h : Msp.getConfig read id t = .ok conf) (ipk rpk : Bytes) (signer : Option SignerConfig) (hh : Contains read ipk rpk signer)
    (m m' : IMsp W) (me : Ref) (σ : SetupRnd W) :
    let p : CspId := ⟨m.aries, directoryCurve m.aries⟩
    m.setup me (some conf) σ = (m', .ok ()) ↔ t = Msp.Spec.configType m.aries ∧
      ∃ k r, ipk ≠ [] ∧ (W.B p).issuerPkFromBytes ipk Msp.Spec.names = .ok k ∧ Msp.Spec.RevocationKey (W.B p) rpk r ∧
        ((signer = none ∧ m' = Msp.Spec.withKeys m id p k r) ∨
          ∃ s sk nym rnd proof ski, signer = some s ∧ Msp.Spec.Signer (W.B p) k s (σ p) sk nym rnd proof ski ∧
            m' = { Msp.Spec.withKeys m id p k r with signer := some (Msp.Spec.signer me id p m.exportable s sk nym rnd proof ski) }) := by
  intro p
  have hu := C102_contents read id t conf h ipk rpk signer hh
  have hty := C102_type_partial read id t conf h ht
  obtain ⟨ty, raw⟩ := conf
  simp only at hu hty
  subst hty
  rw [Msp.C58_setup_exact]
  constructor
  · rintro ⟨conf, c, k, r, e1, e2, e3, e4, e5, e6, e7⟩
    rw [hu] at e1
    cases e1
    obtain rfl := (selects_nil _ _).mp e3
    exact ⟨e2, k, r, e4, e5, e6, e7⟩
  · rintro ⟨e2, k, r, e4, e5, e6, e7⟩
    exact ⟨_, _, k, r, hu, e2, (selects_nil _ _).mpr rfl, e4, e5, e6, e7⟩

/-! ## Examples -/

namespace Ex

/-- A directory with two files. -/
def twoFiles : List Bytes → Res Bytes := fun p =>
  if p = [ascii "msp", ascii "IssuerPublicKey"] then .ok [7] else if p = [ascii "msp", ascii "RevocationPublicKey"] then .ok [8]
  else .err "could not read file"

/-- A directory with three files. -/
def threeFiles : List Bytes → Res Bytes := fun p =>
  if p = [ascii "user", ascii "SignerConfig"] then .ok [10, 1, 5] else twoFiles p

/-- The hypotheses of the theorems hold in a directory without signer, and in one with a signer. -/
example : Contains twoFiles [7] [8] none ∧ Contains threeFiles [7] [8] (some ⟨[5], [], [], 0, [], [], [], [], []⟩) := by
  refine ⟨⟨by decide, by decide, fun b h => ?_, fun _ => rfl⟩, ⟨by decide, by decide, fun b h => ?_, fun h => ?_⟩⟩
  · exact absurd h (by rw [show twoFiles [ascii "user", ascii "SignerConfig"] = .err "could not read file" from by decide]; simp)
  · rw [show threeFiles [ascii "user", ascii "SignerConfig"] = .ok [10, 1, 5] from by decide] at h
    cases h
    exact ⟨_, by decide +kernel, rfl⟩
  · exact absurd (by decide) (h [10, 1, 5])

example : ∃ conf, Msp.getConfig threeFiles (ascii "Org1") 1 = .ok conf ∧ conf.type = 1 ∧
    Msp.getConfig threeFiles (ascii "Org1") 4294967297 = .ok conf := by
  refine ⟨_, rfl, by decide +kernel, by decide +kernel⟩

/-- Whether something was made. -/
def made : Res Msp.MSPConfig → Bool
  | .ok _ => true
  | _ => false

/-- Without a key, with a malformed signer, or with a name that is not a string, no configuration is made. -/
example : made (Msp.getConfig (fun _ => .err "could not read file") (ascii "Org1") 1) = false ∧
    made (Msp.getConfig (fun p => if p = [ascii "user", ascii "SignerConfig"] then .ok [10, 2, 5] else twoFiles p) (ascii "Org1") 1) = false ∧
    made (Msp.getConfig twoFiles [255] 1) = false ∧ made (Msp.getConfig twoFiles (ascii "Org1") 1) = true := by decide +kernel

end Ex

end Idemix.Gen
