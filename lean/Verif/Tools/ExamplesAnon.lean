import Verif.Tools.PropsAnon
import Verif.Tools.Examples

/-!
# Two members on a toy platform: examples for C76

The platform of `Verif/Tools/Examples.lean` with signatures of the authority that depend on the randomness of the signer.
-/

namespace Idemix.Gen.ExAnon

open Msp (CurveId Platform SetupRnd CspId IdemixConfig SignerConfig)
open Ex (S L layout keygenRnd userRnd utf8)

/-- The first byte of a signature is random. -/
@[reducible] def dsa : Ecdsa where
  Sk := UInt8
  Pk := UInt8
  Rnd := UInt8
  pub := id
  sha256 := id
  sign sk r d := .ok (r :: sk :: d)
  verify pk d sig := decide (sig.tail = pk :: d)
  complete sk _ d sig h := by cases h; simp
  sign_np _ _ _ h := by cases h

/-- The encodings of keys are those of `Provider.Ex.ec`. -/
@[reducible] def ec : Provider.EcKeys dsa :=
  ⟨fun _ => .ok 9, Provider.Ex.ec.dBytes, Provider.Ex.ec.ofD, Provider.Ex.ec.ofD_dBytes, Provider.Ex.ec.point,
    Provider.Ex.ec.pkix, Provider.Ex.ec.parsePkix, Provider.Ex.ec.parse_pkix, Provider.Ex.ec.pkix_np,
    Provider.Ex.ec.parsePkix_np, Provider.Ex.ec.pemDecode, Provider.Ex.ec.pemEncode, Provider.Ex.ec.decode_encode,
    Provider.Ex.ec.encode_ne, Provider.Ex.ec.decode_none⟩

/-- The environment of the dlog scheme. -/
@[reducible] def E : Dlog.Env S := ⟨Dlog.gurvy 16 layout, Dlog.Gurvy.g1FromRawBytes S, 16, dsa⟩

/-- All curves are that one. -/
@[reducible] def P : Platform := ⟨fun _ => S, fun _ => E, fun _ => L, fun _ => ec⟩

/-- The members: Alice and Bob. -/
def eid (u : Bool) : Bytes := if u then ascii "alice" else ascii "bob"

/-- Their randomness; `r` is the one of the authority's signature. -/
def dlogRnd (r : UInt8) (u : Bool) : SignerRnd S dsa :=
  ⟨if u then (4 : Toy.K) else (5 : Toy.K), (2 : Toy.K), (3 : Toy.K), (1 : Toy.K), (2 : Toy.K), (1 : Toy.K), r⟩

/-- See `dlogRnd`. -/
def ariesRnd (r : UInt8) (u : Bool) : AriesSignerRnd S dsa :=
  ⟨if u then (4 : Toy.K) else (5 : Toy.K), (2 : Toy.K), (3 : Toy.K), fun _ => (1 : Toy.K), (1 : Toy.K), (1 : Toy.K),
    (1 : Toy.K), r⟩

set_option maxRecDepth 20000 in
theorem samples (r : UInt8) (u : Bool) : Spec.Samples keygenRnd.issuer (dlogRnd r u).sk (dlogRnd r u).e (dlogRnd r u).s
    (Spec.values S (roleMask true) (ascii "sales") (eid u) (ascii "1")) := by
  have h : ∀ u, Spec.Samples keygenRnd.issuer (dlogRnd 0 u).sk (dlogRnd 0 u).e (dlogRnd 0 u).s
      (Spec.values S (roleMask true) (ascii "sales") (eid u) (ascii "1")) := fun u => ⟨rfl, by decide, by decide +revert, by decide +revert⟩
  exact h u

theorem eid_ne (u : Bool) : eid u ≠ [] := by cases u <;> decide

theorem eid_utf8 (u : Bool) : Proto.utf8Valid (eid u) = true := by
  cases u
  · exact utf8 "bob" (by decide)
  · exact utf8 "alice" (by decide)

/-- The configuration of the MSP, with a signer. -/
theorem conf_raw {ipk : Bytes} {s : SignerConfig} (hs : s.Wire ∧ Msp.Wire.signerOk s = true) :
    ∃ raw, Msp.Wire.configCodec.unmarshal raw = .ok ⟨ascii "Org1", ipk, some s, ec.pemEncode [48, 9], 0, [], []⟩ := by
  have u := utf8 "Org1" (by decide)
  obtain ⟨raw, hm⟩ : ∃ raw, Msp.Wire.configCodec.marshal ⟨ascii "Org1", ipk, some s, ec.pemEncode [48, 9], 0, [], []⟩ =
      .ok raw := by
    simp [Msp.Wire.configCodec, Proto.codec, Msp.Wire.configOk, u, hs.2, show Proto.utf8Valid [] = true from rfl]
  exact ⟨raw, Msp.Wire.configCodec.rt _ _ ⟨by simp [Proto.Int64], by simpa using hs.1⟩ hm⟩

/-- The randomness of set-up. -/
def setupRnd : SetupRnd P.world := fun p => match p with
  | ⟨true, _⟩ =>
    let ρ : Provider.AriesRnd S dsa := ⟨List.replicate 32 5, (3 : Toy.K), fun _ => (2 : Toy.K), (4 : Toy.K), (1 : Toy.K),
      (1 : Toy.K), (1 : Toy.K), 0, ⟨⟨(3 : Toy.K), (1 : Toy.K), fun i => ((2 * i + 1 : Nat) : Toy.K),
        fun i => ((3 * i + 2 : Nat) : Toy.K)⟩, (1 : Toy.K), (2 : Toy.K), (3 : Toy.K), (4 : Toy.K), (5 : Toy.K), (6 : Toy.K)⟩,
      [], (1 : Toy.K), (1 : Toy.K)⟩
    (ρ, ρ)
  | ⟨false, _⟩ =>
    let ρ : Provider.DlogRnd S dsa := ⟨keygenRnd.issuer, (3 : Toy.K), (1 : Toy.K), (1 : Toy.K), (1 : Toy.K), 0,
      ⟨(2 : Toy.K), (3 : Toy.K), 1, 4, 5, 6, 1, 2, 3, [4, 5], 2, 3, 4, 5⟩, ⟨(2 : Toy.K), (3 : Toy.K), (4 : Toy.K)⟩⟩
    (ρ, ρ)

/-- The tape of a session. -/
def dlogTape : Spec.DlogTape S Bool :=
  ((3 : Toy.K), ⟨⟨(2 : Toy.K), (3 : Toy.K), (1 : Toy.K), (4 : Toy.K), (5 : Toy.K), (6 : Toy.K), (1 : Toy.K), (2 : Toy.K),
    (3 : Toy.K), [(4 : Toy.K), (5 : Toy.K)], (0 : Toy.K), (0 : Toy.K), (0 : Toy.K), (0 : Toy.K)⟩,
    by constructor <;> decide⟩, fun _ => ⟨(2 : Toy.K), (3 : Toy.K), (4 : Toy.K)⟩)

/-- See `dlogTape`. -/
def ariesTape : Spec.AriesTape S Bool :=
  ((3 : Toy.K), ⟨⟨⟨(3 : Toy.K), (1 : Toy.K), fun i => if i < 2 then (2 : Toy.K) else (0 : Toy.K),
    fun i => if i < 5 then (5 : Toy.K) else (0 : Toy.K)⟩, (1 : Toy.K), (0 : Toy.K), (0 : Toy.K), (0 : Toy.K), (0 : Toy.K),
    (6 : Toy.K)⟩, ⟨by decide, fun i hi => if_neg (by omega), fun i hi => if_neg (by omega), rfl, rfl, rfl, rfl⟩⟩,
    fun _ => ((2 : Toy.K), (3 : Toy.K), (4 : Toy.K)))

/-- The configuration of a member, and the MSP's. -/
theorem dlog_conf : ∃ isk ipk, generateIssuerKey E keygenRnd.issuer = .ok (isk, ipk) ∧ ∀ r u, ∃ config s raw,
    generateSignerConfig E (roleMask true) (ascii "sales") (eid u) (ascii "1") isk ipk (9 : UInt8) (dlogRnd r u) = .ok config ∧
    Msp.Wire.signerCodec.unmarshal config = .ok s ∧ s.enrollmentId = eid u ∧
    Msp.Wire.configCodec.unmarshal raw = .ok ⟨ascii "Org1", ipk, some s, ec.pemEncode [48, 9], 0, [], []⟩ := by
  have gen := fun r u => dlog_generated E keygenRnd.issuer (dlogRnd r u) true (ascii "sales") (eid u) (ascii "1") (by decide)
    (eid_ne u) (utf8 _ (by decide)) (eid_utf8 u) (utf8 _ (by decide)) (samples r u) (9 : UInt8) (fun _ => ⟨_, rfl⟩)
  obtain ⟨isk, ipk, -, -, -, -, -, g, -⟩ := gen 0 true
  refine ⟨isk, ipk, g, fun r u => ?_⟩
  obtain ⟨_, _, config, k, cred, cri, s, g1, g2, -, -, -, g6, -, -, g9, -⟩ := gen r u
  rw [g] at g1
  cases g1
  obtain ⟨raw, h⟩ := conf_raw (ipk := ipk) (signer_wire g6)
  exact ⟨config, s, raw, g2, g6, g9, h⟩

/-- C76_dlog_members_hidden_partial: Alice and Bob, with the same revocation information, can send the same identity and
sign in the same way. -/
example : ∃ (raw : Bool → Bytes) (t t' : Spec.DlogTape S Bool) (b : Bytes) (sig : Bool → Bytes), raw true ≠ raw false ∧
    Spec.Publishes (W := P.world) false 1 (raw true) 0 (Spec.dlogSetup (P := P) .fp256bnAmcl setupRnd t) (fun i => [if i then 1 else 0])
      (Spec.dlogSign (P := P) .fp256bnAmcl (fun _ p => (setupRnd p).1) t) b sig ∧
    Spec.Publishes (W := P.world) false 1 (raw false) 0 (Spec.dlogSetup (P := P) .fp256bnAmcl setupRnd t') (fun i => [if i then 1 else 0])
      (Spec.dlogSign (P := P) .fp256bnAmcl (fun _ p => (setupRnd p).1) t') b sig := by
  obtain ⟨isk, ipk, hkey, gen⟩ := dlog_conf
  have gen := gen 3
  choose config s raw g1 g2 g3 g4 using gen
  obtain ⟨φ, hφ⟩ := C76_dlog_members_hidden_partial P .fp256bnAmcl keygenRnd.issuer (by decide) true (ascii "sales") (by decide)
    (utf8 _ (by decide)) (9 : UInt8) [48, 9] rfl isk ipk hkey eid (fun _ => ascii "1") (dlogRnd 3) eid_ne eid_utf8
    (fun _ => utf8 _ (by decide)) (samples 3) (fun _ _ => ⟨_, rfl⟩) config g1 s g2
    (fun u v => (dlog_config_cri (g1 u) (g2 u) rfl).trans (dlog_config_cri (g1 v) (g2 v) rfl).symm) 1 0
    ⟨ascii "Org1", ipk, none, ec.pemEncode [48, 9], 0, [], []⟩ rfl rfl (.inr ⟨rfl, rfl⟩) raw g4
    (J := Unit) (I := Bool) (fun _ i => [if i then 1 else 0]) (fun _ => true) (fun _ => false) (fun _ => setupRnd)
    (fun _ _ p => (setupRnd p).1)
  obtain ⟨b, sig, h1, h2⟩ := hφ (fun _ => dlogTape) ()
  refine ⟨raw, _, _, b, sig, fun h => ?_, h1, h2⟩
  have e1 := g4 true
  rw [h, g4 false] at e1
  have := congrArg (fun c => c.signer.map (·.enrollmentId)) (Res.ok.inj e1)
  simp only [Option.map_some, g3, Option.some.injEq] at this
  exact absurd this (by decide)

/-- C76_dlog_marked_violated: the authority's signatures for Alice and Bob begin with 3 and 4, and so the identities that
Alice and Bob publish are never the same. -/
example : ∃ raw : Bool → Bytes,
    (∀ u, ∃ (b : Bytes) (σ : SetupRnd P.world) (τ : Bool → (p : CspId) → (P.world.B p).Rnd) (sig : Bool → Bytes),
      Spec.Publishes (W := P.world) false 1 (raw u) 0 σ (fun i => [if i then 1 else 0]) τ b sig) ∧
    ∀ (b b' : Bytes) (σ σ' : SetupRnd P.world) (τ τ' : Bool → (p : CspId) → (P.world.B p).Rnd) (sig sig' msg : Bool → Bytes),
      Spec.Publishes (W := P.world) false 1 (raw true) 0 σ msg τ b sig →
      Spec.Publishes (W := P.world) false 1 (raw false) 0 σ' msg τ' b' sig' → Spec.dlogMark b ≠ Spec.dlogMark b' := by
  obtain ⟨isk, ipk, hkey, gen⟩ := dlog_conf
  let r : Bool → UInt8 := fun u => if u then 3 else 4
  have gen := fun u => gen (r u) u
  choose config s raw g1 g2 g3 g4 using gen
  refine ⟨raw, fun u => ?_, fun b b' σ σ' τ τ' sig sig' msg h h' he => ?_⟩
  · obtain ⟨φ, hφ⟩ := C76_dlog_members_hidden_partial P .fp256bnAmcl keygenRnd.issuer (by decide) true (ascii "sales") (by decide)
      (utf8 _ (by decide)) (9 : UInt8) [48, 9] rfl isk ipk hkey (U := Unit) (fun _ => eid u) (fun _ => ascii "1")
      (fun _ => dlogRnd (r u) u) (fun _ => eid_ne u) (fun _ => eid_utf8 u)
      (fun _ => utf8 _ (by decide)) (fun _ => samples _ u) (fun _ _ => ⟨_, rfl⟩) (fun _ => config u) (fun _ => g1 u)
      (fun _ => s u) (fun _ => g2 u) (fun _ _ => rfl) 1 0
      ⟨ascii "Org1", ipk, none, ec.pemEncode [48, 9], 0, [], []⟩ rfl rfl (.inr ⟨rfl, rfl⟩) (fun _ => raw u) (fun _ => g4 u)
      (J := Unit) (I := Bool) (fun _ i => [if i then 1 else 0]) (fun _ => ()) (fun _ => ()) (fun _ => setupRnd)
      (fun _ _ p => (setupRnd p).1)
    obtain ⟨b, sig, h1, -⟩ := hφ (fun _ => dlogTape) ()
    exact ⟨b, _, _, sig, h1⟩
  · have m := fun (u : Bool) => C76_dlog_marked_violated P .fp256bnAmcl 16 (by decide) (.inr (.inr ⟨layout, rfl, rfl⟩)) (roleMask true)
      (ascii "sales") isk ipk (9 : UInt8) eid (fun _ => ascii "1") (fun u => dlogRnd (r u) u) config g1 s g2
      (fun u => r u :: 9 :: Dlog.Spec.criDigest E (E.T.g2ToProto S.genG2) 0 0) (fun _ => rfl) u (raw u) _ (g4 u) rfl
      (.inr ⟨rfl, rfl⟩) (I := Bool) 1 0
    rw [m true _ _ _ _ _ h, m false _ _ _ _ _ h', Res.ok.injEq, List.cons.injEq] at he
    exact absurd he.1 (by decide)

set_option maxRecDepth 20000 in
theorem issuer_ne : Bbs.frFromOKM L (List.replicate 32 5) + (1 : Toy.K) ≠ 0 := by decide

set_option maxRecDepth 20000 in
theorem cred_ne (u : Bool) : Bbs.bValue (Bbs.pkg (Bbs.publicKey (Bbs.frFromOKM L (List.replicate 32 5))) (4 + 1)) ((1 : Toy.K) + (3 : Toy.K))
      (Aries.Spec.withSecret 0 (if u then (4 : Toy.K) else (5 : Toy.K))
        (Spec.valuesAries L (roleMask true) (ascii "sales") (eid u) (ascii "1"))) ≠ 0 := by
  revert u; decide

theorem nontrivial {S : Suite} (h32 : S.scalarLen = 32) (s : SignerConfig) (x : S.F) (n k : Nat) (vs : List S.F)
    (sk e s' : S.F) (hs : s.cred = Proto.encode (Aries.Wire.cred (Aries.issued x n k vs sk e s' 0)))
    (hx : x + e ≠ 0) (hne : Bbs.bValue (Bbs.pkg (Bbs.publicKey x) (n + 1)) s' (Aries.Spec.withSecret k sk vs) ≠ 0) :
    ∃ c' σ, Aries.Wire.credCodec.unmarshal s.cred = .ok c' ∧ Bbs.parseSignature S c'.cred = .ok σ ∧ σ.a ≠ 0 := by
  refine ⟨Aries.issued x n k vs sk e s' 0, ⟨_, _, _⟩, ?_, Bbs.parseSignature_bytes h32 _ _ _,
    smul_ne_zero (inv_ne_zero hx) hne⟩
  rw [hs]
  exact Aries.Wire.credCodec_rt _ (by simp [Aries.Credential.Wire, Aries.issued, Proto.Int32])

set_option maxRecDepth 40000 in
/-- See `dlog_conf`. -/
theorem aries_conf : ∃ isk ipk, generateIssuerKeyAries L keygenRnd.seed = .ok (isk, ipk) ∧
    (∀ k, Aries.newPublicKeyFromBytes S ipk Msp.Spec.names = .ok k → k.pkg.h0 ≠ 0) ∧ ∀ r u, ∃ config s raw,
    generateSignerConfigAries L dsa (roleMask true) (ascii "sales") (eid u) (ascii "1") isk ipk (9 : UInt8) (ariesRnd r u) =
      .ok config ∧
    Msp.Wire.signerCodec.unmarshal config = .ok s ∧ s.enrollmentId = eid u ∧
    (∃ c' σ, Aries.Wire.credCodec.unmarshal s.cred = .ok c' ∧ Bbs.parseSignature S c'.cred = .ok σ ∧ σ.a ≠ 0) ∧
    Msp.Wire.configCodec.unmarshal raw = .ok ⟨ascii "Org1", ipk, some s, ec.pemEncode [48, 9], 0, [], []⟩ := by
  have gen := fun r u => aries_generated L rfl dsa keygenRnd.seed (List.replicate 32 5) rfl rfl (ariesRnd r u) true
    (ascii "sales") (eid u) (ascii "1") (by decide) (eid_ne u) (utf8 _ (by decide)) (eid_utf8 u) (utf8 _ (by decide))
    issuer_ne (9 : UInt8) (fun _ => ⟨_, rfl⟩)
  obtain ⟨isk, ipk, -, -, -, g, -, -, gk, -⟩ := gen 0 true
  refine ⟨isk, ipk, g, fun k hk => ?_, fun r u => ?_⟩
  · rw [gk] at hk
    cases hk
    decide
  obtain ⟨_, _, config, cri, s, g1, g2, -, -, g6, -, -, g9, -, -, g10, -⟩ := gen r u
  rw [g] at g1
  cases g1
  obtain ⟨raw, h⟩ := conf_raw (ipk := ipk) (signer_wire g6)
  exact ⟨config, s, raw, g2, g6, g9, nontrivial rfl _ _ _ _ _ _ _ _ g10 issuer_ne (cred_ne u), h⟩

/-- C76_aries_members_hidden_partial: see the example for the dlog scheme. -/
example : ∃ (raw : Bool → Bytes) (t t' : Spec.AriesTape S Bool) (b : Bytes) (sig : Bool → Bytes), raw true ≠ raw false ∧
    Spec.Publishes (W := P.world) true 1 (raw true) 0 (Spec.ariesSetup (P := P) .bls12_381Bbs setupRnd t) (fun i => [if i then 1 else 0])
      (Spec.ariesSign (P := P) .bls12_381Bbs (fun _ p => (setupRnd p).1) t) b sig ∧
    Spec.Publishes (W := P.world) true 1 (raw false) 0 (Spec.ariesSetup (P := P) .bls12_381Bbs setupRnd t') (fun i => [if i then 1 else 0])
      (Spec.ariesSign (P := P) .bls12_381Bbs (fun _ p => (setupRnd p).1) t') b sig := by
  obtain ⟨isk, ipk, hkey, hgen, gen⟩ := aries_conf
  have gen := gen 3
  choose config s raw g1 g2 g3 g5 g4 using gen
  obtain ⟨φ, hφ⟩ := C76_aries_members_hidden_partial P .bls12_381Bbs (.inl rfl) rfl (by decide) (by decide) keygenRnd.seed
    (List.replicate 32 5) rfl rfl true (ascii "sales") (by decide)
    (utf8 _ (by decide)) (9 : UInt8) [48, 9] rfl isk ipk hkey hgen eid (fun _ => ascii "1") (ariesRnd 3) eid_ne eid_utf8
    (fun _ => utf8 _ (by decide)) (fun _ => issuer_ne)
    (fun _ _ => ⟨_, rfl⟩) config g1 s g2 g5
    (fun u v => (aries_config_cri (g1 u) (g2 u) rfl).trans (aries_config_cri (g1 v) (g2 v) rfl).symm) 1 0
    ⟨ascii "Org1", ipk, none, ec.pemEncode [48, 9], 0, [], []⟩ rfl rfl (.inr ⟨rfl, rfl⟩) raw g4
    (J := Unit) (I := Bool) (fun _ i => [if i then 1 else 0]) (fun _ => true) (fun _ => false) (fun _ => setupRnd)
    (fun _ _ p => (setupRnd p).1)
  obtain ⟨b, sig, h1, h2⟩ := hφ (fun _ => ariesTape) ()
  refine ⟨raw, _, _, b, sig, fun h => ?_, h1, h2⟩
  have e1 := g4 true
  rw [h, g4 false] at e1
  have := congrArg (fun c => c.signer.map (·.enrollmentId)) (Res.ok.inj e1)
  simp only [Option.map_some, g3, Option.some.injEq] at this
  exact absurd this (by decide)

/-- C76_aries_marked_violated: see the example for the dlog scheme. -/
example : ∃ raw : Bool → Bytes,
    (∀ u, ∃ (b : Bytes) (σ : SetupRnd P.world) (τ : Bool → (p : CspId) → (P.world.B p).Rnd) (sig : Bool → Bytes),
      Spec.Publishes (W := P.world) true 1 (raw u) 0 σ (fun i => [if i then 1 else 0]) τ b sig) ∧
    ∀ (b b' : Bytes) (σ σ' : SetupRnd P.world) (τ τ' : Bool → (p : CspId) → (P.world.B p).Rnd) (sig sig' msg : Bool → Bytes),
      Spec.Publishes (W := P.world) true 1 (raw true) 0 σ msg τ b sig →
      Spec.Publishes (W := P.world) true 1 (raw false) 0 σ' msg τ' b' sig' → Spec.ariesMark b ≠ Spec.ariesMark b' := by
  obtain ⟨isk, ipk, hkey, hgen, gen⟩ := aries_conf
  let r : Bool → UInt8 := fun u => if u then 3 else 4
  have gen := fun u => gen (r u) u
  choose config s raw g1 g2 g3 g5 g4 using gen
  refine ⟨raw, fun u => ?_, fun b b' σ σ' τ τ' sig sig' msg h h' he => ?_⟩
  · obtain ⟨φ, hφ⟩ := C76_aries_members_hidden_partial P .bls12_381Bbs (.inl rfl) rfl (by decide) (by decide) keygenRnd.seed
      (List.replicate 32 5) rfl rfl true (ascii "sales") (by decide)
      (utf8 _ (by decide)) (9 : UInt8) [48, 9] rfl isk ipk hkey hgen (U := Unit) (fun _ => eid u) (fun _ => ascii "1")
      (fun _ => ariesRnd (r u) u) (fun _ => eid_ne u) (fun _ => eid_utf8 u) (fun _ => utf8 _ (by decide))
      (fun _ => issuer_ne) (fun _ _ => ⟨_, rfl⟩)
      (fun _ => config u) (fun _ => g1 u) (fun _ => s u) (fun _ => g2 u) (fun _ => g5 u) (fun _ _ => rfl) 1 0
      ⟨ascii "Org1", ipk, none, ec.pemEncode [48, 9], 0, [], []⟩ rfl rfl (.inr ⟨rfl, rfl⟩) (fun _ => raw u) (fun _ => g4 u)
      (J := Unit) (I := Bool) (fun _ i => [if i then 1 else 0]) (fun _ => ()) (fun _ => ()) (fun _ => setupRnd)
      (fun _ _ p => (setupRnd p).1)
    obtain ⟨b, sig, h1, -⟩ := hφ (fun _ => ariesTape) ()
    exact ⟨b, _, _, sig, h1⟩
  · have m := fun (u : Bool) => C76_aries_marked_violated P .bls12_381Bbs (.inl rfl) 16 (by decide)
      (.inr (.inr ⟨layout, rfl, rfl⟩)) (roleMask true)
      (ascii "sales") isk ipk (9 : UInt8) eid (fun _ => ascii "1") (fun u => ariesRnd (r u) u) config g1 s g2
      (fun u => r u :: 9 :: dsa.sha256 (Proto.encode (Aries.Wire.cri ⟨0, S.g2Bytes S.genG2, [], 0, []⟩))) (fun _ => rfl) u
      (raw u) _ (g4 u) rfl (.inr ⟨rfl, rfl⟩) (I := Bool) 1 0
    rw [m true _ _ _ _ _ h, m false _ _ _ _ _ h', Res.ok.injEq, List.cons.injEq] at he
    exact absurd he.1 (by decide)

end Idemix.Gen.ExAnon
