import Verif.Tools.PropsCli
import Verif.Tools.PropsPeers
import Verif.Tools.PropsEscalate
import Verif.Provider.PropsKeys
import Verif.Msp.PropsPanic
import Verif.Msp.PropsPrincipal

/-!
# A complete run on a toy platform

Concrete cases for the theorems on the tool and on MSPs: `ca-keygen` and `signerconfig` in an empty directory, and an MSP of
each scheme set up from the files.
-/

namespace Idemix.Gen.Ex

open Msp (CurveId Platform IMsp Ref Heap Identity SigningIdentity SetupRnd CspId)

/-- The toy suite with 32-byte scalars and the layout of gnark curves. -/
@[reducible] def S : Suite :=
  { Toy.suite32 with
    g2Len := 64, g2Bytes := fun x => [] ++ Toy.enc x ++ List.replicate 63 0,
    g2OfBytes := Dlog.Ex.framed [] (List.replicate 63 0),
    g2Bytes_len := fun _ => rfl,
    g2OfBytes_g2Bytes := by decide }

/-- Its library. -/
@[reducible] def L : Bbs.Lib S := ⟨Toy.lib32.okm, Toy.lib32.okm_len, Toy.lib32.hkdf, by decide⟩

theorem layout : Dlog.GurvyLayout S 16 := ⟨rfl, rfl⟩

/-- The environment of the dlog scheme. -/
@[reducible] def E : Dlog.Env S := ⟨Dlog.gurvy 16 layout, Dlog.Gurvy.g1FromRawBytes S, 16, Ecdsa.toy⟩

/-- All curves are that one. -/
@[reducible] def P : Platform := ⟨fun _ => S, fun _ => E, fun _ => L, fun _ => Provider.Ex.ec⟩

/-- Secret ECDSA keys are one byte; a path is its only component. -/
@[reducible] def T : Tool where
  P := P
  secrets _ := ⟨fun k => .ok [k], fun b => match b with | [k] => .ok k | _ => .err "asn1", fun k b h => by cases h; rfl⟩
  clean b := [b]

/-- The command line. -/
def flags (aries : Bool) : Flags :=
  ⟨ascii "idemix-config", if aries then .bls12_381Bbs else .fp256bnAmcl, aries, [], ascii "sales", true, ascii "alice",
    ascii "1"⟩

/-- Only the root directory is there. -/
def fs : FS := ⟨fun p => decide (p = []), fun _ => none⟩

theorem fs_wf : Spec.WellFormed fs := by
  constructor <;> simp [fs]

theorem fs_free (p : Path) : Spec.Free fs p := fun _ _ => rfl

theorem fs_absent (a b : Bytes) : fs.stat ([a] ++ [b]) = false := by simp [FS.stat, fs]

/-- Randomness of key generation. -/
def keygenRnd : KeygenRnd S Ecdsa.toy := ⟨⟨(3 : Toy.K), [2, 4, 5, 1], 3, 6, 2, 5⟩, List.replicate 32 5, ()⟩

/-- Randomness of the signer. -/
def userRnd : UserRnd S Ecdsa.toy :=
  ⟨⟨(4 : Toy.K), (2 : Toy.K), (3 : Toy.K), (1 : Toy.K), (2 : Toy.K), (1 : Toy.K), ()⟩,
    ⟨(4 : Toy.K), (2 : Toy.K), (3 : Toy.K), fun _ => (1 : Toy.K), (1 : Toy.K), (1 : Toy.K), (1 : Toy.K), ()⟩⟩

theorem utf8 (s : String) (h : ∀ c ∈ ascii s, c.toNat < 128) : Proto.utf8Valid (ascii s) = true := utf8Valid_ascii _ h

set_option maxRecDepth 20000 in
theorem samples : Spec.Samples keygenRnd.issuer userRnd.dlog.sk userRnd.dlog.e userRnd.dlog.s
    (Spec.values S (roleMask true) (ascii "sales") (ascii "alice") (ascii "1")) :=
  ⟨rfl, by decide, by decide, by decide⟩

/-- The randomness of set-up. -/
def setupRnd : SetupRnd P.world := fun p => match p with
  | ⟨true, _⟩ =>
    let ρ : Provider.AriesRnd S Ecdsa.toy := ⟨List.replicate 32 5, (3 : Toy.K), fun _ => (2 : Toy.K), (4 : Toy.K), (1 : Toy.K), (1 : Toy.K),
      (1 : Toy.K), (), ⟨⟨(3 : Toy.K), (1 : Toy.K), fun i => ((2 * i + 1 : Nat) : Toy.K), fun i => ((3 * i + 2 : Nat) : Toy.K)⟩,
        (1 : Toy.K), (2 : Toy.K), (3 : Toy.K), (4 : Toy.K), (5 : Toy.K), (6 : Toy.K)⟩, [], (1 : Toy.K), (1 : Toy.K)⟩
    (ρ, ρ)
  | ⟨false, _⟩ =>
    let ρ : Provider.DlogRnd S Ecdsa.toy := ⟨keygenRnd.issuer, (3 : Toy.K), (1 : Toy.K), (1 : Toy.K), (1 : Toy.K), (),
      ⟨(2 : Toy.K), (3 : Toy.K), 1, 4, 5, 6, 1, 2, 3, [4, 5], 2, 3, 4, 5⟩, ⟨(2 : Toy.K), (3 : Toy.K), (4 : Toy.K)⟩⟩
    (ρ, ρ)

/-- What the examples rest on: the two commands run, and from their files an MSP is set up. -/
structure Run (aries : Bool) (conf : Msp.MSPConfig) (m : IMsp P.world) (x : SigningIdentity P.world) : Prop where
  files : ∃ l₁ fs₁ l₂ fs₂, T.keygen (flags aries) fs keygenRnd = .ok l₁ ∧ run l₁ fs = (fs₁, true) ∧
    T.signer (flags aries) fs₁ userRnd = .ok l₂ ∧ run l₂ fs₁ = (fs₂, true) ∧
    Msp.getConfig (fun p => fs₂.read ([ascii "idemix-config"] ++ p)) (ascii "Org1") (Msp.Spec.configType aries) = .ok conf
  setup : (Msp.newMsp P.world aries 1).setup 0 (some conf) setupRnd = (m, .ok ())
  signer : m.signer = some x
  name : m.name = ascii "Org1"
  eid : x.enrollmentId = ascii "alice"
  ou : x.identity.ou.ou = ascii "sales"
  role : x.identity.role.role = 1
  valid : Msp.validate (fun _ => m) 0 (.signing x) = .ok ()
  signs : ∀ (msg : Bytes) (τ : (p : CspId) → (P.world.B p).Rnd), ∃ sig, x.sign (fun _ => m) msg τ = .ok sig ∧
    x.identity.verify (fun _ => m) msg sig = .ok ()

set_option maxRecDepth 20000 in
/-- C59_dlog_end_to_end applies. -/
theorem dlog_run : ∃ conf m x, Run false conf m x := by
  obtain ⟨l₁, fs₁, l₂, fs₂, e1, e2, e3, e4, e5⟩ := C59_dlog_end_to_end T (flags false) rfl rfl rfl (by decide) (by decide)
    (utf8 _ (by decide)) (utf8 _ (by decide)) (utf8 _ (by decide)) fs fs_wf (fs_free _) (fs_absent _ _) (fs_absent _ _)
    (fs_absent _ _) keygenRnd userRnd samples (9 : UInt8) [9] [48, 9] rfl rfl rfl (fun _ => ⟨_, rfl⟩)
  obtain ⟨conf, c1, c2⟩ := e5 (ascii "Org1") (utf8 _ (by decide))
  obtain ⟨m, x, h1, h2, h3, h4, h5, h6, h7⟩ := c2 (Msp.newMsp P.world false 1) 0 setupRnd rfl rfl (by decide)
  obtain ⟨h8, h9⟩ := h7 (fun _ => m) rfl
  exact ⟨conf, m, x, ⟨l₁, fs₁, l₂, fs₂, e1, e2, e3, e4, c1⟩, h1, h2, h3, h4, h5, h6, h8, h9⟩

set_option maxRecDepth 20000 in
/-- C59_aries_end_to_end applies. -/
theorem aries_run : ∃ conf m x, Run true conf m x := by
  obtain ⟨l₁, fs₁, l₂, fs₂, e1, e2, e3, e4, e5⟩ := C59_aries_end_to_end T (flags true) rfl rfl rfl (by decide) (by decide) rfl
    (by decide) (by decide) (utf8 _ (by decide)) (utf8 _ (by decide)) (utf8 _ (by decide)) fs fs_wf (fs_free _)
    (fs_absent _ _) (fs_absent _ _) (fs_absent _ _) keygenRnd userRnd (List.replicate 32 5) rfl rfl (by decide) (9 : UInt8)
    [9] [48, 9] rfl rfl rfl (fun _ => ⟨_, rfl⟩)
  obtain ⟨conf, c1, c2⟩ := e5 (ascii "Org1") (utf8 _ (by decide))
  obtain ⟨m, x, h1, h2, h3, h4, h5, h6, h7⟩ := c2 (Msp.newMsp P.world true 1) 0 setupRnd rfl (by decide)
  obtain ⟨h8, h9⟩ := h7 (fun _ => m) rfl
  exact ⟨conf, m, x, ⟨l₁, fs₁, l₂, fs₂, e1, e2, e3, e4, c1⟩, h1, h2, h3, h4, h5, h6, h8, h9⟩

set_option maxRecDepth 20000 in
/-- C88_admin_violated applies: a member of "sales" becomes an administrator of "board". -/
example : ∃ iskRaw ipkRaw config, generateIssuerKeyAries L (List.replicate 32 5) = .ok (iskRaw, ipkRaw) ∧
    Spec.Accepts (Msp.newMsp P.world true 1) 0 setupRnd ipkRaw (Provider.Ex.ec.pemEncode [48, 9]) config [] (ascii "board")
      (ascii "bob") true := by
  obtain ⟨iskRaw, ipkRaw, -, h1, -, -, -, -, -, -, config, -, -, -, -, -, h⟩ := C88_admin_violated P .bls12_381Bbs (.inl rfl) rfl
    (by decide) (by decide) (List.replicate 32 5) (List.replicate 32 5) rfl rfl (ascii "sales") (ascii "alice") (ascii "1")
    (ascii "board") (ascii "bob") (ascii "2") (utf8 _ (by decide)) (utf8 _ (by decide)) (utf8 _ (by decide)) (4 : Toy.K)
    (3 : Toy.K) [1] (1 : Toy.K) (1 : Toy.K) (by decide) _ ⟨0, S.g2Bytes S.genG2, [], 0, []⟩
    (Aries.Wire.criCodec_rt _ ⟨by simp [Proto.Int64], by simp [Proto.Int32]⟩) rfl (9 : UInt8) [48, 9] rfl
  exact ⟨iskRaw, ipkRaw, config, h1, h _ 0 setupRnd rfl (by decide) [] (.inr ⟨rfl, rfl⟩)⟩

/-! ## The MSP theorems on these MSPs -/

/-- What set-up has made of the MSP, by C58_setup_exact. -/
structure Facts (aries : Bool) (m : IMsp P.world) (x : SigningIdentity P.world) (p : CspId) (k : (P.world.B p).IPK)
    (rpk : (P.world.B p).dsa.Pk) (N : S.G1) : Prop where
  scheme : p.aries = aries
  csp : m.csp = some p
  ipk : m.ipk = some ⟨p, .issuerPk k⟩
  revocationPK : m.revocationPK = some ⟨p, .revPk rpk⟩
  made : ∃ (sk : S.F) (ρ : (P.world.B p).Rnd) (r : S.F), (P.world.B p).makeNym sk k ρ = .ok (N, r)
  value : ∃ raw, raw ≠ [] ∧ (P.world.B p).issuerPkFromBytes raw Msp.Spec.names = .ok k
  nym : x.identity.nym = ⟨p, .nymPk N⟩
  msp : x.identity.msp = 0
  exportable : m.exportable = true
  role : x.identity.role = ⟨ascii "Org1", 1⟩
  ou : ∃ ski, x.identity.ou = ⟨ascii "Org1", ascii "sales", ski⟩
  version : m.version = 1
  epoch : m.epoch = 0
  curve : aries = true → p.curve = .bls12_381Bbs ∨ p.curve = .bls12_381BbsGurvy

theorem facts {aries : Bool} {conf : Msp.MSPConfig} {m : IMsp P.world} {x : SigningIdentity P.world} (h : Run aries conf m x) :
    ∃ p ipk rpk nym, Facts aries m x p ipk rpk nym := by
  obtain ⟨t, raw⟩ := conf
  obtain ⟨conf, c, ipk, rpk, -, -, hc, h0, h1, -, h2 | ⟨s, sk, nym, r, proof, ski, -, h3, h4⟩⟩ := (Msp.C58_setup_exact _ _ _ _ _ _).mp h.setup
  · have := h.signer
    rw [h2.2] at this
    cases this
  · have hx := h.signer
    have hn := h.name
    have ho := h.ou
    have hr := h.role
    rw [h4] at hx hn
    simp only [Option.some.injEq] at hx
    have hn' : conf.name = ascii "Org1" := hn
    subst hx
    refine ⟨⟨aries, c⟩, ipk, rpk, nym, rfl, by rw [h4]; rfl, by rw [h4]; rfl, by rw [h4]; rfl, ⟨sk, _, r, h3.2.2.1⟩, ⟨_, h0, h1⟩, rfl, rfl, by rw [h4]; rfl,
      ?_, ?_, by rw [h4]; rfl, by rw [h4]; rfl, hc.2⟩
    · have hr' : Msp.Spec.mspRole s.role = 1 := hr
      simp [Msp.Spec.signer, hn', hr']
    · have ho' : s.ou = ascii "sales" := ho
      exact ⟨ski, by simp [Msp.Spec.signer, hn', ho']⟩

/-- C57_validate_exact, C57_own_identities_partial: the signers of both schemes prove their unit and role. -/
theorem proves {aries : Bool} {conf : Msp.MSPConfig} {m : IMsp P.world} {x : SigningIdentity P.world} (h : Run aries conf m x) :
    Msp.Spec.Proves m (ascii "sales") 1 x.identity.proof ∧ Msp.validate (fun _ => m) 0 (.identity x.identity) = .ok () := by
  obtain ⟨i, hi, -, hp⟩ := (Msp.C57_validate_exact _ _ _).mp h.valid
  have : i = x.identity := by
    rcases hi with hi | ⟨s, hs, rfl⟩
    · cases hi
    · cases hs; rfl
  subst this
  rw [h.ou, h.role] at hp
  obtain ⟨p, ipk, rpk, nym, f⟩ := facts h
  refine ⟨hp, (Msp.C57_own_identities_partial _ 0 _ f.msp).mpr ?_⟩
  rw [h.ou, h.role]
  exact hp

/-- C57_violated: a second MSP of the same name, without any issuer key, accepts the identity. -/
example : ∃ (h : Heap P.world) (i : Identity P.world), (h 1).ipk = none ∧ (h 1).name = ascii "Org1" ∧
    Msp.validate h 1 (.identity i) = .ok () := by
  obtain ⟨conf, m, x, h⟩ := dlog_run
  obtain ⟨p, ipk, rpk, nym, f⟩ := facts h
  have := Msp.C57_violated (fun _ => m) 1 0 x.identity f.msp rfl (proves h).2 none (by decide)
  exact ⟨_, x.identity, rfl, h.name, this⟩

/-- C55: the identities of both schemes serialize and come back. -/
theorem round_trip {aries : Bool} {conf : Msp.MSPConfig} {m : IMsp P.world} {x : SigningIdentity P.world}
    (h : Run aries conf m x) : ∃ b raw, x.identity.serialize (fun _ => m) = .ok b ∧ x.identity.nym.key.bytes = .ok raw ∧
      2 ≤ raw.length ∧ Provider.Spec.RoundTrips (P.world.B x.identity.nym.csp) x.identity.nym.key (.nymPk true) ∧
      x.identity.role.Wire ∧
      Msp.deserializeIdentity (fun _ => m) 0 b = .ok { x.identity with msp := 0, idMsp := ascii "Org1", idBytes := raw } := by
  obtain ⟨⟨ar, c⟩, ipk, rpk, nym, f⟩ := facts h
  obtain ⟨ski, hou⟩ := f.ou
  have u1 := utf8 "Org1" (by decide)
  have u2 := utf8 "sales" (by decide)
  have hw : x.identity.role.Wire := by rw [f.role]; exact ⟨by decide, by decide⟩
  have hraw : x.identity.nym.key.bytes = .ok (S.g1Bytes nym) := by
    rw [f.nym]
    cases ar <;> simp [Provider.Key.bytes, Msp.Platform.world, Provider.dlogBackend, Provider.ariesBackend, Dlog.gurvy,
      Dlog.Gurvy.g1ToProto, Dlog.halves_join]
  have hrt : Provider.Spec.RoundTrips (P.world.B x.identity.nym.csp) x.identity.nym.key (.nymPk true) := by
    rw [f.nym]
    cases ar
    · exact Provider.C52_dlog_nym E Provider.Ex.ec 16 (by decide) (.inr (.inr ⟨layout, rfl, rfl⟩)) nym
    · exact Provider.C52_aries_nym L _ Ecdsa.toy Provider.Ex.ec 16 (by decide) (.inr (.inr ⟨layout, rfl⟩)) nym
  have h2 : 2 ≤ (S.g1Bytes nym).length := by rw [S.g1Bytes_len]; decide
  obtain ⟨b, hb⟩ : ∃ b, x.identity.serialize (fun _ => m) = .ok b := by
    have m1 : ∃ b, Msp.Wire.unitCodec.marshal x.identity.ou = .ok b := by
      simp [hou, Msp.Wire.unitCodec, Proto.codec, u1, u2]
    have m2 : ∃ b, Msp.Wire.roleCodec.marshal x.identity.role = .ok b := by
      simp [f.role, Msp.Wire.roleCodec, Proto.codec, u1]
    obtain ⟨ou, m1⟩ := m1
    obtain ⟨role, m2⟩ := m2
    simp [Identity.serialize, hraw, m1, m2, Msp.Wire.identCodec, Msp.Wire.serialCodec, Proto.codec, u1,
      Msp.Identity.mspIdentifier, Msp.IMsp.getIdentifier, h.name, show Proto.utf8Valid [] = true from rfl]
  refine ⟨b, _, hb, hraw, h2, hrt, hw, ?_⟩
  rw [Msp.C55_round_trip (fun _ => m) 0 x.identity b _ hb rfl (by rw [f.csp, f.nym]) f.exportable hraw h2 hrt hw, h.name]

/-- C57_deserialized: what comes back validates. -/
example : ∃ (h : Heap P.world) (b : Bytes) (i : Identity P.world), Msp.deserializeIdentity h 0 b = .ok i ∧
    Msp.validate h 0 (.identity i) = .ok () := by
  obtain ⟨conf, m, x, h⟩ := dlog_run
  obtain ⟨b, raw, -, -, -, -, -, hd⟩ := round_trip h
  refine ⟨fun _ => m, b, _, hd, (Msp.C57_deserialized _ _ _ _ hd).mpr ?_⟩
  have := (proves h).1
  rw [← h.ou, ← h.role] at this
  exact this

/-- C55_other_msp_refused: another MSP's identity. -/
example : (∃ b, Msp.Wire.serialCodec.marshal ⟨ascii "Org2", []⟩ = .ok b) ∧ ascii "Org2" ≠ ascii "Org1" :=
  ⟨by simp [Msp.Wire.serialCodec, Proto.codec, utf8 "Org2" (by decide)], by decide⟩

theorem dlog_value {c : CurveId} {k : (P.world.B ⟨false, c⟩).IPK} {raw : Bytes}
    (h : (P.world.B ⟨false, c⟩).issuerPkFromBytes raw Msp.Spec.names = .ok k) : ∃ ipk, k = .val ipk := by
  change (E.newPublicKeyFromBytes raw Msp.Spec.names >>= fun k => pure (Dyn.val k)) = .ok k at h
  generalize E.newPublicKeyFromBytes raw Msp.Spec.names = r at h
  cases r <;> cases h
  exact ⟨_, rfl⟩

theorem aries_value {c : CurveId} {k : (P.world.B ⟨true, c⟩).IPK} {raw : Bytes}
    (h : (P.world.B ⟨true, c⟩).issuerPkFromBytes raw Msp.Spec.names = .ok k) : ∃ ipk, k = .val ipk := by
  change (Aries.newPublicKeyFromBytes S raw Msp.Spec.names >>= fun k => pure (Dyn.val k)) = .ok k at h
  generalize Aries.newPublicKeyFromBytes S raw Msp.Spec.names = r at h
  cases r <;> cases h
  exact ⟨_, rfl⟩

/-- C56_impersonation_violated, C56_partial: someone with the secret 5 signs as the administrator of the unit. -/
example : ∃ (h : Heap P.world) (i : Identity P.world) (ipk : Dlog.IssuerPublicKey) (nym : S.G1) (r : S.F) (sig : Bytes),
    i.ou.ou = ascii "sales" ∧ i.role.role = 1 ∧ E.makeNym (some (5 : Toy.K)) (.val ipk) (2 : Toy.K) = .ok (nym, r) ∧
    E.nymSign (some (5 : Toy.K)) (some nym) (some r) (.val ipk) [1, 2, 3] ⟨(1 : Toy.K), (2 : Toy.K), (3 : Toy.K)⟩ = .ok sig ∧
    Msp.validate h 0 (.identity i) = .ok () ∧ i.verify h [1, 2, 3] sig = .ok () := by
  obtain ⟨conf, m, x, h⟩ := dlog_run
  obtain ⟨⟨ar, c⟩, k, rpk, N, f⟩ := facts h
  cases (show ar = false from f.scheme)
  obtain ⟨raw, -, hv⟩ := f.value
  obtain ⟨ipk, rfl⟩ := dlog_value hv
  obtain ⟨sk, ρ, r, hm⟩ := f.made
  obtain ⟨nym, rn, hn⟩ : ∃ nym rn, E.makeNym (some (5 : Toy.K)) (.val ipk) (2 : Toy.K) = .ok (nym, rn) := by
    change E.makeNym (some sk) (.val ipk) ρ.scalar = .ok (N, r) at hm
    simp only [Dlog.Env.makeNym, Res.recovered_eq_ok, Res.bind_eq_ok] at hm ⊢
    revert hm
    simp [Dlog.makeNym]
    grind
  obtain ⟨sig, s1, s2, s3⟩ := Msp.C56_impersonation_violated P c (fun _ => m) 0 x.identity f.msp (proves h).2 ipk f.csp f.ipk
    (5 : Toy.K) (2 : Toy.K) rn nym hn [1, 2, 3] ⟨(1 : Toy.K), (2 : Toy.K), (3 : Toy.K)⟩
  exact ⟨fun _ => m, { x.identity with nym := ⟨⟨false, c⟩, .nymPk nym⟩ }, ipk, nym, rn, sig, h.ou, h.role, hn, s1, s2, s3⟩

/-- C53_aries_violated, C61_remote_violated: bytes that bring the MSP down. -/
example : ∃ (h : Heap P.world) (b : Bytes) (i : Identity P.world), Msp.deserializeIdentity h 0 b = .ok i ∧
    Msp.validate h 0 (.identity i) = .panic := by
  obtain ⟨conf, m, x, h⟩ := aries_run
  obtain ⟨b, raw, hb, hraw, h2, hrt, hw, -⟩ := round_trip h
  obtain ⟨⟨ar, c⟩, k, rpk, N, f⟩ := facts h
  cases (show ar = true from f.scheme)
  obtain ⟨rawk, -, hv⟩ := f.value
  obtain ⟨ipk, rfl⟩ := aries_value hv
  obtain ⟨raw', ou, role, inner, e1, e2, e3, e4, e5⟩ := Msp.serialize_ok hb
  obtain ⟨b', hb'⟩ : ∃ b', Identity.serialize (fun _ => m)
      { x.identity with proof := Aries.Spec.crashBytes (S := S) (1 : Toy.K) (2 : Toy.K) (3 : Toy.K) } = .ok b' := by
    simp [Identity.serialize, hraw, e2, e3, Msp.Wire.identCodec, Msp.Wire.serialCodec, Proto.codec,
      Msp.Identity.mspIdentifier, Msp.IMsp.getIdentifier, h.name, show Proto.utf8Valid [] = true from rfl, utf8 "Org1" (by decide)]
  obtain ⟨j, j1, j2⟩ := Msp.C61_remote_violated P c (fun _ => m) 0 x.identity f.msp f.csp f.exportable ipk f.ipk (some rpk)
    f.revocationPK (1 : Toy.K) (2 : Toy.K) (3 : Toy.K) (by rw [f.nym]) hrt hw raw b' hraw h2 hb'
  exact ⟨_, b', j, j1, j2⟩

/-- C53_principal_exact, C53_signing_violated, C53_nil_violated: the administrator satisfies the principal of
administrators; the same identity with its secrets brings the evaluation down. -/
example : ∃ (h : Heap P.world) (x : SigningIdentity P.world) (q : Msp.Principal), q.classification = 0 ∧
    Msp.satisfiesPrincipal h 0 (.identity x.identity) (some q) = .ok () ∧
    Msp.satisfiesPrincipal h 0 (.signing x) (some q) = .panic ∧ Msp.satisfiesPrincipal h 0 (.signing x) none = .panic := by
  obtain ⟨conf, m, x, h⟩ := dlog_run
  obtain ⟨b, hb⟩ : ∃ b, Msp.Wire.roleCodec.marshal ⟨ascii "Org1", 1⟩ = .ok b := by
    simp [Msp.Wire.roleCodec, Proto.codec, utf8 "Org1" (by decide)]
  have hu := Msp.Wire.roleCodec.rt _ _ (show Msp.MSPRole.Wire ⟨ascii "Org1", 1⟩ from ⟨by decide, by decide⟩) hb
  rw [← h.name] at hu
  exact ⟨fun _ => m, x, ⟨0, b⟩, rfl, (Msp.C53_principal_exact _ 0 _ _).mpr ⟨(proves h).2, .admin b hu h.role⟩,
    (Msp.C53_signing_violated _ 0 x h.valid b [] []).1 hu, Msp.C53_nil_violated _ 0 _ h.valid⟩

/-! Set-up -/

theorem selects (aries : Bool) (c : CurveId) (hc : aries = true → c = .bls12_381Bbs ∨ c = .bls12_381BbsGurvy) (ipk : Bytes) :
    ∃ raw, Msp.Spec.Selects (Msp.newMsp P.world aries 1) (Msp.Spec.configType aries) raw
      ⟨ascii "Org1", ipk, none, [], 0, ascii (Msp.Spec.curveName c), []⟩ c := by
  have hu : Proto.utf8Valid (ascii (Msp.Spec.curveName c)) = true := by cases c <;> exact utf8 _ (by decide)
  obtain ⟨raw, hm⟩ : ∃ raw, Msp.Wire.configCodec.marshal ⟨ascii "Org1", ipk, none, [], 0, ascii (Msp.Spec.curveName c), []⟩ =
      .ok raw := by
    simp [Msp.Wire.configCodec, Proto.codec, Msp.Wire.configOk, utf8 "Org1" (by decide), hu, show Proto.utf8Valid [] = true from rfl]
  exact ⟨raw, Msp.Wire.configCodec.rt _ _ ⟨by simp [Proto.Int64], by simp⟩ hm, rfl, .inl rfl, hc⟩

/-- C58_empty_key_violated. -/
example (aries : Bool) : ∃ raw, ((Msp.newMsp P.world aries 1).setup 0 (some ⟨Msp.Spec.configType aries, raw⟩) setupRnd).2 = .panic :=
  (selects aries .bls12_381Bbs (fun _ => .inl rfl) []).imp fun raw h => Msp.C58_empty_key_violated P _ 0 _ raw _ _ h rfl setupRnd

/-- C58_aries_key_violated: two bytes as issuer key. -/
example : ∃ raw, ((Msp.newMsp P.world true 1).setup 0 (some ⟨2, raw⟩) setupRnd).2 = .panic :=
  (selects true .bls12_381Bbs (fun _ => .inl rfl) [1, 2]).imp fun raw h => by
    obtain ⟨e, he⟩ : ∃ e, Aries.newPublicKeyFromBytes S [1, 2] Msp.Spec.names = .err e := ⟨_, rfl⟩
    exact Msp.C58_aries_key_violated P _ rfl 0 _ raw _ _ h e he setupRnd

/-- C58_gurvy_key_violated: an issuer key without `HSk`. -/
example : ∃ raw, ((Msp.newMsp P.world false 1).setup 0 (some ⟨1, raw⟩) setupRnd).2 = .panic := by
  let k : Dlog.IssuerPublicKey := ⟨[], none, none, [], none, none, none, [], [], [1], {}⟩
  obtain ⟨b, hb⟩ : ∃ b, Dlog.Wire.ipkCodec.marshal k = .ok b := ⟨_, rfl⟩
  obtain ⟨raw, h⟩ := selects false .fp256bnAmcl (by simp) b
  refine ⟨raw, Msp.C58_gurvy_key_violated P _ rfl 0 _ raw _ _ h 16 layout rfl ?_ k _ ?_ rfl rfl setupRnd⟩
  · rintro rfl
    cases hb
  · exact Dlog.Wire.ipkCodec.rt _ _ (by simp [Dlog.IssuerPublicKey.Wire, k]) hb

/-- C58_half_configured_violated: set-up without a revocation key fails, and the MSP validates identities afterwards. -/
example : ∃ (h : Heap P.world) (i : Identity P.world) (raw : Bytes) (e : String),
    (Msp.newMsp P.world false 1).setup 0 (some ⟨1, raw⟩) setupRnd = (h 0, .err e) ∧ Msp.validate h 0 (.identity i) = .ok () := by
  obtain ⟨conf, m, x, h⟩ := dlog_run
  obtain ⟨⟨ar, c⟩, k, rpk, N, f⟩ := facts h
  cases (show ar = false from f.scheme)
  obtain ⟨rawk, h0, hv⟩ := f.value
  obtain ⟨raw, hs⟩ := selects false c f.curve rawk
  obtain ⟨⟨e, he⟩, hall⟩ := Msp.C58_half_configured_violated false 1 0 _ raw _ _ hs k h0 hv rfl setupRnd
  refine ⟨fun _ => ((Msp.newMsp P.world false 1).setup 0 (some ⟨1, raw⟩) setupRnd).1, x.identity, raw, e, ?_, ?_⟩
  · exact Prod.ext rfl he
  · obtain ⟨p, ipk, rpk', p1, p2, -, p3, p4⟩ := (proves h).1
    rw [f.csp] at p1
    cases p1
    rw [f.ipk] at p2
    cases p2
    refine hall _ x.identity rfl f.msp p3 ?_
    rw [h.ou, h.role]
    rw [f.epoch] at p4
    exact p4

/-- A platform whose translators report missing points as errors. -/
def P' : Platform := ⟨fun _ => Toy.suite32, fun _ => ⟨Provider.Ex.tr32, fun _ => .err "", 16, Ecdsa.toy⟩, fun _ => Toy.lib32,
  fun _ => Provider.Ex.ec⟩

/-- C58_dlog_no_panic_partial applies to every configuration with an issuer key. -/
example (m : IMsp P'.world) (ha : m.aries = false) (raw : Bytes)
    (hne : ∀ conf, Msp.Wire.configCodec.unmarshal raw = .ok conf → conf.ipk ≠ []) (ρ : SetupRnd P'.world) :
    (m.setup 0 (some ⟨1, raw⟩) ρ).2 ≠ .panic := by
  refine Msp.C58_dlog_no_panic_partial P' m ha 0 1 raw hne (fun conf c _ _ => ⟨fun e => ?_, fun e => ?_⟩) ρ
  · change Provider.Ex.tr32.g1FromProto e ≠ .panic
    simp only [Provider.Ex.tr32]
    split
    · exact Res.ofOption_ne_panic _ _
    · simp
  · change Provider.Ex.tr32.g2FromProto e ≠ .panic
    simp only [Provider.Ex.tr32]
    split
    · exact Res.ofOption_ne_panic _ _
    · simp

/-! ## Files -/

/-- The keys of the run. -/
theorem keys (aries : Bool) : ∃ k, T.newKeys (flags aries) keygenRnd = .ok k := by
  cases aries
  · obtain ⟨_, _, _, h⟩ := dlog_run
    obtain ⟨l, _, _, _, h, -⟩ := h.files
    obtain ⟨k, hk, -⟩ := keygen_ok T h
    exact ⟨k, hk⟩
  · obtain ⟨_, _, _, h⟩ := aries_run
    obtain ⟨l, _, _, _, h, -⟩ := h.files
    obtain ⟨k, hk, -⟩ := keygen_ok T h
    exact ⟨k, hk⟩

/-- C59_keygen_writes, C59_keygen_refuses: a first run works, a second one changes nothing. -/
example (aries : Bool) : ∃ l fs', T.keygen (flags aries) fs keygenRnd = .ok l ∧ run l fs = (fs', true) ∧
    ∀ fs'', Spec.Leaves (T.keygen (flags aries) fs' keygenRnd) fs' fs'' → fs'' = fs' := by
  obtain ⟨k, hk⟩ := keys aries
  obtain ⟨l, fs', h1, h2, h3⟩ := C59_keygen_writes T (flags aries) fs fs_wf (fs_free _) keygenRnd k hk (fs_absent _ _) (fs_absent _ _)
  refine ⟨l, fs', h1, h2, fun fs'' h => (C59_keygen_refuses T _ _ _ _ (.inl ?_) h).2⟩
  obtain ⟨k', -, -, -, rfl⟩ := keygen_ok T h1
  have := (run_keygen (out := T.clean (flags aries).output) k' (fs_free _) (fs_free _) (absent_dir fs_wf (fs_absent _ _))
    (absent_dir fs_wf (fs_absent _ _))).2 (T.clean (flags aries).output ++ [dirCa])
  rw [h2] at this
  simp only [FS.stat, Bool.or_eq_true]
  exact .inl (this.trans (by simp))

set_option maxRecDepth 40000 in
/-- C59_race_violated: two aries authorities, with different keys. -/
example : ∃ k₁ k₂, T.newKeys (flags true) keygenRnd = .ok k₁ ∧
    T.newKeys (flags true) { keygenRnd with seed := List.replicate 32 4 } = .ok k₂ ∧ k₁.isk ≠ k₂.isk := ⟨_, _, rfl, rfl, by decide⟩

/-- C62_unnoticed_violated: the signer that is made is the one of the complete authority. -/
example (aries : Bool) : ∃ fs₂ l, Spec.Leaves (T.keygen (flags aries) fs keygenRnd) fs fs₂ ∧
    fs₂.file [ascii "idemix-config", ascii "msp", ascii "IssuerPublicKey"] = none ∧
    T.signer (flags aries) fs₂ userRnd = .ok l := by
  obtain ⟨k, hk⟩ := keys aries
  obtain ⟨l, fs₁, fs₂, h1, h2, h3, -, h4, h5⟩ := C62_unnoticed_violated T (flags aries) fs fs_wf (fs_free _) keygenRnd k hk
    (fs_absent _ _) (fs_absent _ _)
  have hs : ∃ l₂, T.signer (flags aries) fs₁ userRnd = .ok l₂ := by
    have : ∃ conf m x, Run aries conf m x := by cases aries; exacts [dlog_run, aries_run]
    obtain ⟨_, _, _, h⟩ := this
    obtain ⟨l', fs', l₂, _, e1, e2, e3, -⟩ := h.files
    rw [h1] at e1
    cases e1
    rw [h2] at e2
    cases e2
    exact ⟨l₂, e3⟩
  obtain ⟨l₂, hs⟩ := hs
  refine ⟨fs₂, l₂, ?_, h4, ?_⟩
  · rw [h1]; exact .stopped _ _ _ h3
  · rw [h5 (flags aries) userRnd rfl rfl]; exact hs

/-! ## Peers -/

/-- From C67 to a peer without a signer that recognises the administrator; C66_agreement applies to the two MSPs. -/
theorem peer {aries : Bool} {ipk rpk : Bytes} {s : Msp.SignerConfig} (hs : s.Wire ∧ Msp.Wire.signerOk s = true)
    (h : ∀ raw conf, Msp.Wire.configCodec.unmarshal raw = .ok conf → conf.ipk = ipk → conf.revocationPk = rpk →
      conf.signer = some s → conf.curveId = [] →
      Spec.KnownToPeers aries 1 raw conf 0 setupRnd (ascii "sales") (ascii "alice") true) :
    ∃ (h₁ h₂ : Heap P.world) (x : SigningIdentity P.world) (conf : Msp.IdemixConfig),
      Msp.Spec.SetUpFrom aries 1 conf 0 (h₁ 0) ∧ Msp.Spec.SetUpFrom aries 1 conf 7 (h₂ 7) ∧ (h₂ 7).signer = none ∧
      Spec.Recognises h₁ x h₂ 7 (ascii "sales") true := by
  have u := utf8 "Org1" (by decide)
  obtain ⟨raw, hm⟩ : ∃ raw, Msp.Wire.configCodec.marshal ⟨ascii "Org1", ipk, some s, rpk, 0, [], []⟩ = .ok raw := by
    simp [Msp.Wire.configCodec, Proto.codec, Msp.Wire.configOk, u, hs.2, show Proto.utf8Valid [] = true from rfl]
  obtain ⟨raw₂, hm₂⟩ : ∃ raw, Msp.Wire.configCodec.marshal ⟨ascii "Org1", ipk, none, rpk, 0, [], []⟩ = .ok raw := by
    simp [Msp.Wire.configCodec, Proto.codec, Msp.Wire.configOk, u, show Proto.utf8Valid [] = true from rfl]
  have hu := Msp.Wire.configCodec.rt _ _ ⟨by simp [Proto.Int64], by simpa using hs.1⟩ hm
  have hu₂ := Msp.Wire.configCodec.rt _ _ ⟨by simp [Proto.Int64], by simp⟩ hm₂
  obtain ⟨⟨m, x, h1, h2, -, h3⟩, h4⟩ := h raw _ hu rfl rfl rfl rfl
  obtain ⟨m₂, h5, h6⟩ := h4 raw₂ _ hu₂ ⟨rfl, rfl, rfl, rfl⟩ rfl 7 setupRnd
  refine ⟨fun _ => m, fun _ => m₂, x, _, ⟨raw, _, setupRnd, hu, ⟨rfl, rfl, rfl, rfl⟩, h1⟩, h6, ?_,
    h3 (fun _ => m) (fun _ => m₂) 7 rfl h6⟩
  obtain ⟨c', _, _, _, e1, -, -, -, -, -, e | ⟨_, _, _, _, _, _, e, -⟩⟩ := (Msp.C58_setup_exact _ _ _ _ _ _).mp h5
  · rw [e.2]; rfl
  · rw [hu₂] at e1
    cases e1
    cases e

set_option maxRecDepth 20000 in
/-- C67_dlog_recognised applies. -/
example : ∃ (h₁ h₂ : Heap P.world) (x : SigningIdentity P.world) (conf : Msp.IdemixConfig),
      Msp.Spec.SetUpFrom false 1 conf 0 (h₁ 0) ∧ Msp.Spec.SetUpFrom false 1 conf 7 (h₂ 7) ∧ (h₂ 7).signer = none ∧
      Spec.Recognises h₁ x h₂ 7 (ascii "sales") true := by
  obtain ⟨isk, ipk, config, s, -, -, h3, h4⟩ := C67_dlog_recognised P .fp256bnAmcl 16 (by decide) (.inr (.inr ⟨layout, rfl, rfl⟩))
    keygenRnd.issuer userRnd.dlog true (ascii "sales") (ascii "alice") (ascii "1") (by decide) (by decide) (utf8 _ (by decide))
    (utf8 _ (by decide)) (utf8 _ (by decide)) samples (9 : UInt8) (fun _ => ⟨_, rfl⟩) [48, 9] rfl
  exact peer (signer_wire h3) fun raw conf e1 e2 e3 e4 e5 => h4 1 raw conf 0 setupRnd e1 e2 e3 e4 (.inr ⟨e5, rfl⟩) rfl (by decide)

set_option maxRecDepth 20000 in
/-- C67_aries_recognised applies. -/
example : ∃ (h₁ h₂ : Heap P.world) (x : SigningIdentity P.world) (conf : Msp.IdemixConfig),
      Msp.Spec.SetUpFrom true 1 conf 0 (h₁ 0) ∧ Msp.Spec.SetUpFrom true 1 conf 7 (h₂ 7) ∧ (h₂ 7).signer = none ∧
      Spec.Recognises h₁ x h₂ 7 (ascii "sales") true := by
  obtain ⟨isk, ipk, config, s, -, -, h3, h4⟩ := C67_aries_recognised P .bls12_381Bbs (.inl rfl) rfl (by decide) 16 (by decide)
    (.inr (.inr ⟨layout, rfl, rfl⟩)) keygenRnd.seed (List.replicate 32 5) rfl rfl userRnd.aries true (ascii "sales")
    (ascii "alice") (ascii "1") (by decide) (by decide) (utf8 _ (by decide)) (utf8 _ (by decide)) (utf8 _ (by decide))
    (by decide) (9 : UInt8) (fun _ => ⟨_, rfl⟩) [48, 9] rfl
  exact peer (signer_wire h3) fun raw conf e1 e2 e3 e4 e5 => h4 1 raw conf 0 setupRnd e1 e2 e3 e4 (.inr ⟨e5, rfl⟩) (by decide)

end Idemix.Gen.Ex
