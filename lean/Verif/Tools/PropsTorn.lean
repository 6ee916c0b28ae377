import Verif.Tools.PropsPeers
import Verif.Base.ProtoTorn

/-!
# What MSPs make of the files that an interrupted `signerconfig` leaves: C81

Concrete cases that meet the hypotheses of the theorems are in `Verif/Tools/Examples.lean`.
-/

namespace Idemix.Gen

open Msp (CurveId CspId World IMsp Ref Heap SetupRnd Platform SigningIdentity SignerConfig)
open Proto (utf8Valid)

namespace Spec

/-- The configurations that a file cut off between two fields stands for: a number of first fields as they are, the others
empty. -/
def firstFields (s : SignerConfig) : List SignerConfig :=
  [⟨[], [], [], 0, [], [], [], [], []⟩,
   ⟨s.cred, [], [], 0, [], [], [], [], []⟩,
   ⟨s.cred, s.sk, [], 0, [], [], [], [], []⟩,
   ⟨s.cred, s.sk, s.ou, 0, [], [], [], [], []⟩,
   ⟨s.cred, s.sk, s.ou, s.role, [], [], [], [], []⟩,
   ⟨s.cred, s.sk, s.ou, s.role, s.enrollmentId, [], [], [], []⟩,
   ⟨s.cred, s.sk, s.ou, s.role, s.enrollmentId, s.cri, [], [], []⟩,
   ⟨s.cred, s.sk, s.ou, s.role, s.enrollmentId, s.cri, s.revocationHandle, [], []⟩,
   ⟨s.cred, s.sk, s.ou, s.role, s.enrollmentId, s.cri, s.revocationHandle, s.curveId, []⟩,
   s]

end Spec

open Spec

/-! ## Files that are cut off -/

theorem take_field {a b : Proto.Msg} (ha : a.length ≤ 1) (j : Nat) :
    (a ++ b).take j = [] ∨ ∃ i, (a ++ b).take j = a ++ b.take i := by
  cases j with
  | zero => exact .inl rfl
  | succ j => exact .inr ⟨j + 1 - a.length, by rw [List.take_append, List.take_of_length_le (by omega)]⟩

theorem bytesF_length (k : Nat) (b : Bytes) : (Proto.bytesF k b).length ≤ 1 := by unfold Proto.bytesF; split <;> simp

theorem intF_length (k : Nat) (i : Int) : (Proto.intF k i).length ≤ 1 := by unfold Proto.intF; split <;> simp

theorem bytesF_nil (k : Nat) : Proto.bytesF k [] = [] := rfl

theorem intF_zero (k : Nat) : Proto.intF k 0 = [] := rfl

theorem take_signer (s : SignerConfig) (j : Nat) :
    ∃ p ∈ firstFields s, (Msp.Wire.signer s).take j = Msp.Wire.signer p := by
  unfold Msp.Wire.signer
  rcases take_field (bytesF_length 1 s.cred) j with h | ⟨j, h⟩
  · exact ⟨_, .head _, h⟩
  rw [h]
  rcases take_field (bytesF_length 2 s.sk) j with h | ⟨j, h⟩
  · exact ⟨_, .tail _ (.head _), by rw [h]; rfl⟩
  rw [h]
  rcases take_field (bytesF_length 3 s.ou) j with h | ⟨j, h⟩
  · exact ⟨_, .tail _ (.tail _ (.head _)), by rw [h]; rfl⟩
  rw [h]
  rcases take_field (intF_length 4 s.role) j with h | ⟨j, h⟩
  · exact ⟨_, .tail _ (.tail _ (.tail _ (.head _))), by rw [h]; rfl⟩
  rw [h]
  rcases take_field (bytesF_length 5 s.enrollmentId) j with h | ⟨j, h⟩
  · exact ⟨_, .tail _ (.tail _ (.tail _ (.tail _ (.head _)))), by rw [h]; rfl⟩
  rw [h]
  rcases take_field (bytesF_length 6 s.cri) j with h | ⟨j, h⟩
  · exact ⟨_, .tail _ (.tail _ (.tail _ (.tail _ (.tail _ (.head _))))), by rw [h]; rfl⟩
  rw [h]
  rcases take_field (bytesF_length 7 s.revocationHandle) j with h | ⟨j, h⟩
  · exact ⟨_, .tail _ (.tail _ (.tail _ (.tail _ (.tail _ (.tail _ (.head _)))))), by rw [h]; rfl⟩
  rw [h]
  rcases take_field (bytesF_length 8 s.curveId) j with h | ⟨j, h⟩
  · exact ⟨_, .tail _ (.tail _ (.tail _ (.tail _ (.tail _ (.tail _ (.tail _ (.head _))))))), by rw [h]; rfl⟩
  rw [h]
  have : (Proto.bytesF 9 s.schema).take j = [] ∨ (Proto.bytesF 9 s.schema).take j = Proto.bytesF 9 s.schema := by
    cases j with
    | zero => exact .inl rfl
    | succ j => exact .inr (List.take_of_length_le (by have := bytesF_length 9 s.schema; omega))
  rcases this with h | h
  · exact ⟨_, .tail _ (.tail _ (.tail _ (.tail _ (.tail _ (.tail _ (.tail _ (.tail _ (.head _)))))))), by rw [h]; rfl⟩
  · exact ⟨s, by simp [firstFields], by rw [h]⟩

theorem signer_take (s p : SignerConfig) (hp : p ∈ firstFields s) :
    ∃ j, Msp.Wire.signer p = (Msp.Wire.signer s).take j := by
  have : Msp.Wire.signer p <+: Msp.Wire.signer s := by
    simp only [firstFields, List.mem_cons, List.not_mem_nil, or_false] at hp
    rcases hp with rfl | rfl | rfl | rfl | rfl | rfl | rfl | rfl | rfl | rfl <;>
    simp only [Msp.Wire.signer, bytesF_nil, intF_zero, List.append_nil, List.prefix_append_right_inj,
      List.nil_prefix, List.prefix_append, List.prefix_refl]
  exact ⟨_, List.prefix_iff_eq_take.mp this⟩

theorem firstFields_ok {s p : SignerConfig} (hw : s.Wire) (hs : Msp.Wire.signerOk s = true) (hp : p ∈ firstFields s) :
    p.Wire ∧ Msp.Wire.signerOk p = true := by
  have h0 : Proto.Int32 0 := by simp [Proto.Int32]
  have u0 : utf8Valid [] = true := rfl
  simp only [Msp.Wire.signerOk, Bool.and_eq_true] at hs
  obtain ⟨⟨⟨⟨c3, c5⟩, c7⟩, c8⟩, c9⟩ := hs
  simp only [firstFields, List.mem_cons, List.not_mem_nil, or_false] at hp
  rcases hp with rfl | rfl | rfl | rfl | rfl | rfl | rfl | rfl | rfl | rfl <;>
  exact ⟨by first | exact h0 | exact hw, by simp [Msp.Wire.signerOk, c3, c5, c7, c8, c9, u0]⟩

/-- C81. A first part of the file of a signer is refused, or it is read as a number of first fields of the signer, the
others empty; and each of these can be read. -/
theorem C81_torn_file (s p : SignerConfig) (hw : s.Wire) (config : Bytes)
    (hs : Msp.Wire.signerCodec.marshal s = .ok config) :
    (∃ k, Msp.Wire.signerCodec.unmarshal (config.take k) = .ok p) ↔ p ∈ firstFields s := by
  simp only [Msp.Wire.signerCodec, Proto.codec] at hs ⊢
  split at hs
  · next hok =>
    cases hs
    constructor
    · rintro ⟨k, h⟩
      simp only [Res.ofOption_eq_ok, Option.bind_eq_some_iff] at h
      obtain ⟨m, h1, h2⟩ := h
      obtain ⟨j, rfl, -⟩ := Proto.decode_take _ (Msp.Wire.signer_plain s) k m h1
      obtain ⟨q, hq, he⟩ := take_signer s j
      obtain ⟨w, o⟩ := firstFields_ok hw hok hq
      rw [he, Msp.Wire.signerOf_signer q w o] at h2
      cases h2
      exact hq
    · intro hp
      obtain ⟨j, hj⟩ := signer_take s p hp
      obtain ⟨k, -, hk⟩ := Proto.take_decode _ (Msp.Wire.signer_plain s) j
      obtain ⟨w, o⟩ := firstFields_ok hw hok hp
      refine ⟨k, ?_⟩
      rw [hk, Option.bind_some, ← hj, Msp.Wire.signerOf_signer p w o]
      rfl
  · cases hs

/-- The same for a file that was made by the codec and read back. -/
theorem torn_parts {s p : SignerConfig} {config : Bytes} {k : Nat} (hm : Msp.Wire.signerCodec.marshal s = .ok config)
    (hw : s.Wire) (hp : Msp.Wire.signerCodec.unmarshal (config.take k) = .ok p) : p ∈ firstFields s :=
  (C81_torn_file s p hw config hm).mp ⟨k, hp⟩

variable (T : Tool)

/-! ## Files stay well formed -/

theorem apply_wellFormed {fs fs' : FS} (o : Op) (hw : WellFormed fs)
    (h : o.apply fs = some fs') : WellFormed fs' := by
  cases o with
  | mkdirAll p =>
    simp only [Op.apply] at h
    split at h
    · cases h
    next hn =>
    have hn : ∀ q, q <+: p → fs.file q = none := by
      intro q hq
      by_contra hc
      apply hn
      rw [List.any_eq_true]
      exact ⟨q, (List.mem_inits _ _).mpr hq, by rw [Option.isSome_iff_ne_none]; exact hc⟩
    cases h
    refine ⟨fun q b hq => ?_, fun q hq => ?_, fun q hq => ?_⟩
    · have := hw.files q b hq
      simp [this]
    · simp only [Bool.or_eq_true, decide_eq_true_eq] at hq ⊢
      rcases hq with hq | hq
      · exact .inl (hw.dirs q hq)
      · exact .inr ((List.dropLast_prefix q).trans hq)
    · simp only [Bool.or_eq_true, decide_eq_true_eq] at hq
      rcases hq with hq | hq
      · exact hw.apart q hq
      · exact hn q hq
  | write p b =>
    have h' := h
    simp only [Op.apply] at h'
    split at h'
    · cases h'
    next hn =>
    cases h'
    simp only [Bool.or_eq_true, Bool.not_eq_true', not_or, Bool.not_eq_false, Bool.not_eq_true] at hn
    refine ⟨fun q c hq => ?_, fun q hq => hw.dirs q hq, fun q hq => ?_⟩
    · by_cases e : q = p
      · subst e; exact hn.1
      · rw [set_file_ne e] at hq
        exact hw.files q c hq
    · have hq : fs.dir q = true := hq
      have e : q ≠ p := by rintro rfl; exact absurd (hq.symm.trans hn.2) (by simp)
      rw [set_file_ne e]
      exact hw.apart q hq

/-- C81. Whatever a command leaves behind, files and directories lie in directories and no path is both. -/
theorem C81_wellFormed (r : Res (List Op)) (fs fs' : FS) (hw : WellFormed fs) (hl : Leaves r fs fs') : WellFormed fs' := by
  cases hl with
  | refused => exact hw
  | stopped l _ _ hs =>
    induction hs with
    | here => exact hw
    | torn p b l fs fs' k h => exact apply_wellFormed _ hw h
    | next o l fs fs₁ fs' h hs ih => exact ih (apply_wellFormed _ hw h)

/-! ## Interrupted runs of `signerconfig` -/

/-- C81. Wherever `signerconfig` stops, the file of the signer is missing or has a first part of the contents; and unless it
has not begun, it cannot be repeated: it refuses. -/
theorem C81_interrupted_signer (f : Flags) (fs fs' : FS) (hw : WellFormed fs)
    (τ : UserRnd (T.P.S f.curve) (T.P.env f.curve).dsa) (l : List Op) (hl : T.signer f fs τ = .ok l)
    (hs : Stopped l fs fs') :
    (∃ isk ipk rawRev rev config, fs.file (T.clean (caDir f) ++ [ascii "ca", ascii "IssuerSecretKey"]) = some isk ∧
      fs.file (T.clean (caDir f) ++ [ascii "ca", ascii "IssuerPublicKey"]) = some ipk ∧
      fs.file (T.clean (caDir f) ++ [ascii "ca", ascii "RevocationKey"]) = some rawRev ∧
      T.readRevocationKey f.curve rawRev = .ok rev ∧ T.signerConfig f isk ipk rev τ = .ok config ∧
      PartOf fs' (T.clean f.output ++ [ascii "user", ascii "SignerConfig"]) config) ∧
    (fs' = fs ∨ ∀ τ' l', T.signer f fs' τ' ≠ .ok l') := by
  obtain ⟨isk, ipk, raw, rev, rpk, config, h1, h2, h3, h4, -, h6, h7, rfl⟩ := signer_ok T hl
  have n1 : dirUser ≠ dirMsp := by decide
  refine ⟨⟨isk, ipk, raw, rev, config, h1, h2, h3, h4, h6,
    stopped_part hs (T.clean f.output ++ [dirUser, fileSigner]) config ?_ (.inl (by rw [path2, absent hw h7]))⟩, ?_⟩
  · intro b hb
    simp only [signerOps, List.mem_append, List.mem_cons, List.not_mem_nil, or_false, reduceCtorEq, false_or,
      Op.write.injEq, true_and] at hb
    rcases hb with rfl | hb
    · rfl
    · split at hb <;> simp [n1] at hb
  · cases hs with
    | here => exact .inl rfl
    | next _ _ _ fs₁ _ h hs =>
      right
      intro τ' l' hk
      obtain ⟨_, _, _, _, _, _, -, -, -, -, -, -, h7', -⟩ := signer_ok T hk
      have : fs₁.dir (T.clean f.output ++ [dirUser]) = true := by
        simp only [Op.apply] at h
        split at h
        · cases h
        · cases h; simp
      simp [FS.stat, stopped_dir hs _ this] at h7'

/-! ## Directories without a signer -/

/-- The curve of MSPs whose configuration comes from a directory. -/
def Spec.directoryCurve (aries : Bool) : CurveId := if aries then .bls12_381Bbs else .fp256bnAmcl

theorem selects_nil (aries : Bool) (c : CurveId) : Msp.Spec.SelectsCurve aries [] c ↔ c = directoryCurve aries := by
  have ne : ∀ a : CurveId, [] ≠ ascii (Msp.Spec.curveName a) := by intro a; cases a <;> decide
  unfold Msp.Spec.SelectsCurve directoryCurve
  cases aries
  · simp [ne]
  · simp only [ne, true_and, false_or, if_true, forall_const]
    exact ⟨fun h => h.1, fun h => ⟨h, .inl h⟩⟩

/-- C81. A directory with the two public keys of an authority and without the file of a signer makes MSPs that can verify:
the configuration is made; and set-up from it succeeds exactly if the scheme accepts the two keys. Then the MSP has the name,
the keys, and the signer that it had before. -/
theorem C81_verifier (fs : FS) (dir : Path) (id ipk rpk : Bytes) (aries : Bool) (hid : utf8Valid id = true)
    (h1 : fs.file (dir ++ [ascii "msp", ascii "IssuerPublicKey"]) = some ipk)
    (h2 : fs.file (dir ++ [ascii "msp", ascii "RevocationPublicKey"]) = some rpk)
    (h3 : fs.file (dir ++ [ascii "user", ascii "SignerConfig"]) = none) :
    ∃ conf, Msp.getConfig (fun p => fs.read (dir ++ p)) id (Msp.Spec.configType aries) = .ok conf ∧
      ∀ {W : World} (m m' : IMsp W) (me : Ref) (σ : SetupRnd W), m.aries = aries →
        (m.setup me (some conf) σ = (m', .ok ()) ↔
          ∃ k r, ipk ≠ [] ∧ (W.B ⟨m.aries, directoryCurve m.aries⟩).issuerPkFromBytes ipk Msp.Spec.names = .ok k ∧
            Msp.Spec.RevocationKey (W.B ⟨m.aries, directoryCurve m.aries⟩) rpk r ∧
            m' = { m with name := id, csp := some ⟨m.aries, directoryCurve m.aries⟩,
                          ipk := some ⟨_, .issuerPk k⟩, revocationPK := some ⟨_, .revPk r⟩ }) := by
  obtain ⟨raw, hm⟩ : ∃ raw, Msp.Wire.configCodec.marshal ⟨id, ipk, none, rpk, 0, [], []⟩ = .ok raw := by
    simp [Msp.Wire.configCodec, Proto.codec, Msp.Wire.configOk, hid, show utf8Valid [] = true from rfl]
  have hu := Msp.Wire.configCodec.rt _ _ ⟨by simp [Proto.Int64], by simp⟩ hm
  refine ⟨⟨Msp.Spec.configType aries, raw⟩, ?_, ?_⟩
  · have : (decide (Msp.Spec.configType aries < 0)) = false := by cases aries <;> rfl
    have ht : Msp.toInt32 (Msp.Spec.configType aries) = Msp.Spec.configType aries := by cases aries <;> rfl
    simp [Msp.getConfig, this, FS.read, h1, h2, h3, hm, ht]
  · intro W m m' me σ ha
    subst ha
    rw [Msp.C58_setup_exact]
    constructor
    · rintro ⟨conf, c, k, r, e1, -, e3, e4, e5, e6, e7⟩
      rw [hu] at e1
      cases e1
      obtain rfl := (selects_nil _ _).mp e3
      rcases e7 with ⟨-, rfl⟩ | ⟨_, _, _, _, _, _, e, -⟩
      · exact ⟨k, r, e4, e5, e6, rfl⟩
      · cases e
    · rintro ⟨k, r, e4, e5, e6, rfl⟩
      exact ⟨_, _, k, r, hu, rfl, (selects_nil _ _).mpr rfl, e4, e5, e6, .inl ⟨rfl, rfl⟩⟩

/-! ## Reading a directory after an interruption -/

theorem packed {role : Int} {ou eid rh sk cred cri config : Bytes} (h : packSigner role ou eid rh sk cred cri = .ok config) :
    ∃ s : SignerConfig, s.Wire ∧ Msp.Wire.signerCodec.marshal s = .ok config := by
  simp only [packSigner, Res.bind_eq_ok, Res.guardErr_eq_ok] at h
  obtain ⟨_, hr, h⟩ := h
  simp only [Bool.or_eq_false_iff, decide_eq_false_iff_not] at hr
  have h1 : -2147483648 ≤ role := by omega
  have h2 : role < 2147483648 := by omega
  exact ⟨_, ⟨h1, h2⟩, h⟩

theorem marshalled {f : Flags} {isk ipk config : Bytes} {rev : (T.P.env f.curve).dsa.Sk}
    {τ : UserRnd (T.P.S f.curve) (T.P.env f.curve).dsa} (h : T.signerConfig f isk ipk rev τ = .ok config) :
    ∃ s : SignerConfig, s.Wire ∧ Msp.Wire.signerCodec.marshal s = .ok config := by
  unfold Tool.signerConfig at h
  split at h
  · simp only [generateSignerConfigAries, Res.bind_eq_ok] at h
    obtain ⟨_, -, _, -, _, -, _, -, _, -, _, -, _, -, _, -, _, -, hp⟩ := h
    exact packed hp
  · simp only [generateSignerConfig, Res.bind_eq_ok] at h
    obtain ⟨_, -, _, -, _, -, _, -, _, -, _, -, _, -, _, -, hp⟩ := h
    exact packed hp

/-- From the tool, interrupted while it writes the signer, to the configuration that is made from the directory. -/
theorem torn_end_to_end (f : Flags) (hin : f.caInput = []) (fs fs₁ fs' : FS) (hw : WellFormed fs)
    (ρ : KeygenRnd (T.P.S f.curve) (T.P.env f.curve).dsa) (τ : UserRnd (T.P.S f.curve) (T.P.env f.curve).dsa)
    (isk ipk config sk pkix : Bytes) (rev : (T.P.env f.curve).dsa.Sk) (hkey : T.issuerKey f ρ = .ok (isk, ipk))
    (hrev : (T.P.ec f.curve).gen ρ.dsa = .ok rev) (hsk : (T.secrets f.curve).marshal rev = .ok sk)
    (hpkix : (T.P.ec f.curve).pkix ((T.P.env f.curve).dsa.pub rev) = .ok pkix)
    (hconfig : T.signerConfig f isk ipk rev τ = .ok config) (l₁ l₂ : List Op) (e1 : T.keygen f fs ρ = .ok l₁)
    (e2 : run l₁ fs = (fs₁, true)) (e3 : T.signer f fs₁ τ = .ok l₂) (hs : Stopped l₂ fs₁ fs') :
    fs'.file (T.clean f.output ++ [ascii "msp", ascii "IssuerPublicKey"]) = some ipk ∧
    fs'.file (T.clean f.output ++ [ascii "msp", ascii "RevocationPublicKey"]) = some ((T.P.ec f.curve).pemEncode pkix) ∧
    PartOf fs' (T.clean f.output ++ [ascii "user", ascii "SignerConfig"]) config ∧
    l₂ = signerOps (T.clean f.output) false config ((T.P.ec f.curve).pemEncode pkix) ipk ∧
    ∀ id t conf, Msp.getConfig (fun p => fs'.read (T.clean f.output ++ p)) id t = .ok conf →
      ∃ raw o, conf = ⟨Msp.toInt32 t, raw⟩ ∧
        Msp.Wire.configCodec.unmarshal raw = .ok ⟨id, ipk, o, (T.P.ec f.curve).pemEncode pkix, 0, [], []⟩ ∧
        ∀ p, o = some p → ∃ k,
          fs'.file (T.clean f.output ++ [ascii "user", ascii "SignerConfig"]) = some (config.take k) ∧
          Msp.Wire.signerCodec.unmarshal (config.take k) = .ok p := by
  have hk : T.newKeys f ρ = .ok ⟨isk, ipk, (T.P.ec f.curve).pemEncode sk, (T.P.ec f.curve).pemEncode pkix⟩ := by
    simp [Tool.newKeys, hkey, hrev, hsk, hpkix]
  obtain ⟨k, hk', -, -, rfl⟩ := keygen_ok T e1
  rw [hk] at hk'
  cases hk'
  have hold := holds_of_run e2
  have hw₁ := C81_wellFormed _ _ _ hw (.stopped _ _ _ (stopped_of_run e2))
  obtain ⟨⟨isk', ipk', raw', rev', config', q1, q2, q3, q4, q5, q6⟩, -⟩ := C81_interrupted_signer T f fs₁ fs' hw₁ τ l₂ e3 hs
  have hca : caDir f = f.output := by simp [caDir, hin]
  rw [hca] at q1 q2 q3
  cases q1.symm.trans hold.isk
  cases q2.symm.trans hold.ipk
  cases q3.symm.trans hold.rev
  have p5 : T.readRevocationKey f.curve ((T.P.ec f.curve).pemEncode sk) = .ok rev := by
    simp [Tool.readRevocationKey, (T.P.ec f.curve).decode_encode, (T.secrets f.curve).rt _ _ hsk]
  rw [p5] at q4
  cases q4
  rw [hconfig] at q5
  cases q5
  obtain ⟨isk₂, ipk₂, rev₂, _, rpk₂, config₂, w1, w2, w3, w4, w5, w6, -, rfl⟩ := signer_ok T e3
  rw [hca] at w1 w2 w3 w5
  cases w1.symm.trans hold.isk
  cases w2.symm.trans hold.ipk
  cases w3.symm.trans hold.rev
  cases w5.symm.trans hold.revPk
  rw [p5] at w4
  cases w4
  rw [hconfig] at w6
  cases w6
  have n1 : dirMsp ≠ dirUser := by decide
  have g1 : fs'.file (T.clean f.output ++ [dirMsp, fileIpk]) = some ipk :=
    (stopped_frame hs _ (by simp [signerOps, written, hca, n1])).trans hold.mspIpk
  have g2 : fs'.file (T.clean f.output ++ [dirMsp, fileRevPk]) = some ((T.P.ec f.curve).pemEncode pkix) :=
    (stopped_frame hs _ (by simp [signerOps, written, hca, n1])).trans hold.revPk
  refine ⟨g1, g2, q6, by simp [hca], fun id t conf hc => ?_⟩
  have r1 : fs'.read (T.clean f.output ++ [ascii "msp", ascii "IssuerPublicKey"]) = .ok ipk := by
    change Res.ofOption _ (fs'.file (T.clean f.output ++ [dirMsp, fileIpk])) = _
    rw [g1]; rfl
  have r2 : fs'.read (T.clean f.output ++ [ascii "msp", ascii "RevocationPublicKey"]) =
      .ok ((T.P.ec f.curve).pemEncode pkix) := by
    change Res.ofOption _ (fs'.file (T.clean f.output ++ [dirMsp, fileRevPk])) = _
    rw [g2]; rfl
  rcases q6 with q6 | ⟨k, q6⟩
  · have r3 : fs'.read (T.clean f.output ++ [ascii "user", ascii "SignerConfig"]) = .err "failed to open file" := by
      simp [FS.read, q6]
    simp only [Msp.getConfig, r1, r2, r3, Res.bind_eq_ok, Res.ok_bind, Res.pure_def, Res.ok.injEq] at hc
    obtain ⟨_, -, raw, hm, rfl⟩ := hc
    exact ⟨raw, none, rfl, Msp.Wire.configCodec.rt _ _ ⟨by simp [Proto.Int64], by simp⟩ hm, by simp⟩
  · have r3 : fs'.read (T.clean f.output ++ [ascii "user", ascii "SignerConfig"]) = .ok (config.take k) := by
      simp [FS.read, q6]
    simp only [Msp.getConfig, r1, r2, r3, Res.bind_eq_ok, Res.ok_bind, Res.pure_def, Res.ok.injEq] at hc
    obtain ⟨_, -, p, hp, raw, hm, rfl⟩ := hc
    refine ⟨raw, some p, rfl, Msp.Wire.configCodec.rt _ _ ⟨by simp [Proto.Int64], ?_⟩ hm, ?_⟩
    · rintro s hs
      cases hs
      exact (signer_wire hp).1
    · rintro _ h
      cases h
      exact ⟨k, q6, hp⟩

/-! ## The dlog scheme -/

section

variable {S : Suite}

/-- A signature depends on the revocation information, apart from the algorithm, only by carrying it. -/
theorem newSignature_cri (T : Translator S) (cred : Dlog.Credential) (sk : S.F) (nym : S.G1) (r : S.F)
    (ipk : Dlog.IssuerPublicKey) (D msg : Bytes) (rh eid : Int) (cri cri' : Dlog.CRI) (ρ : Dlog.SigRand S)
    (h : cri'.revocationAlg = cri.revocationAlg) (sig : Dlog.Signature) (m : Option (Dlog.SignerMetadata S))
    (hs : Dlog.newSignature T cred sk nym r ipk D msg rh eid cri ρ .standard none = .ok (sig, m)) :
    ∃ sig', Dlog.newSignature T cred sk nym r ipk D msg rh eid cri' ρ .standard none = .ok (sig', m) ∧
      sig'.revocationEpochPk = cri'.epochPk := by
  simp only [Dlog.newSignature, Res.bind_eq_ok] at hs
  obtain ⟨p, hp, hs⟩ := hs
  have hp' : Dlog.prepare T cred ipk D rh cri' ρ = .ok p := by
    unfold Dlog.prepare at hp ⊢
    rw [h]
    exact hp
  simp only [Dlog.finalise, Res.bind_eq_ok, Res.pure_def, Res.ok.injEq, Prod.mk.injEq] at hs
  obtain ⟨e, he, x, hx, label, hl, n, hn, pd, hpd, pd2, hpd2, sa, hsa, -, hm⟩ := hs
  rw [← h] at hpd
  simp only [Dlog.newSignature, hp', Res.ok_bind, Dlog.finalise, he, hx, hl, hn, hpd, hpd2, hsa, Res.pure_def]
  exact ⟨_, by rw [hm], rfl⟩

theorem signer_denotes {E : Dlog.Env S} {ec : Provider.EcKeys E.dsa} {ipk : Dlog.IssuerPublicKey} {p : SignerConfig}
    {σ : Provider.DlogRnd S E.dsa × Provider.DlogRnd S E.dsa} {sk r : S.F} {nym : S.G1} {proof ski : Bytes}
    (h : Msp.Spec.Signer (Provider.dlogBackend E ec) (.val ipk) p σ sk nym r proof ski) :
    p.sk ≠ [] ∧ p.cred ≠ [] ∧ ∃ cred, Dlog.Wire.credCodec.unmarshal p.cred = .ok cred ∧
      cred.attrs[2]? = some (S.zrBytes (S.hashToZr p.enrollmentId)) := by
  obtain ⟨h1, -, -, -, h5, h6, -⟩ := h
  have h6 : E.credVerify (some sk) (.val ipk) p.cred _ = .ok () := h6
  rw [Dlog.C08_bridge_attributes] at h6
  obtain ⟨cred, hc, -, ha⟩ := h6
  refine ⟨h1, h5, cred, hc, ?_⟩
  rcases ha 2 _ rfl with h | ⟨x, hx, h⟩
  · exact absurd h (by simp [Dlog.Spec.Hidden])
  · cases hx
    exact h

/-- A torn signer that a dlog MSP accepts has everything up to the enrolment id. -/
theorem dlog_torn_fields {E : Dlog.Env S} {ec : Provider.EcKeys E.dsa} {ipk : Dlog.IssuerPublicKey} {s p : SignerConfig}
    {admin : Bool} {ou rh : Bytes} {cred : Dlog.Credential} (hcred : Dlog.Wire.credCodec.unmarshal s.cred = .ok cred)
    (hattrs : cred.attrs = (Spec.values S (roleMask admin) ou s.enrollmentId rh).map S.zrBytes)
    (hne : S.hashToZr s.enrollmentId ≠ S.hashToZr []) (hp : p ∈ firstFields s)
    {σ : Provider.DlogRnd S E.dsa × Provider.DlogRnd S E.dsa} {sk r : S.F} {nym : S.G1} {proof ski : Bytes}
    (h : Msp.Spec.Signer (Provider.dlogBackend E ec) (.val ipk) p σ sk nym r proof ski) :
    p.cred = s.cred ∧ p.sk = s.sk ∧ p.ou = s.ou ∧ p.role = s.role ∧ p.enrollmentId = s.enrollmentId ∧
      (p.cri = [] ∨ p.cri = s.cri) := by
  obtain ⟨h1, h2, cred', hc, ha⟩ := signer_denotes h
  have key : p.cred = s.cred → p.enrollmentId ≠ [] := by
    intro e h0
    rw [e, hcred] at hc
    cases hc
    rw [hattrs, h0] at ha
    simp only [Spec.values, List.map_cons, List.map_nil, List.getElem?_cons_succ, List.getElem?_cons_zero,
      Option.some.injEq] at ha
    exact hne (S.zrBytes_inj ha)
  simp only [firstFields, List.mem_cons, List.not_mem_nil, or_false] at hp
  rcases hp with rfl | rfl | rfl | rfl | rfl | rfl | rfl | rfl | rfl | rfl
  · exact absurd rfl h1
  · exact absurd rfl h1
  · exact absurd rfl (key rfl)
  · exact absurd rfl (key rfl)
  · exact absurd rfl (key rfl)
  · exact ⟨rfl, rfl, rfl, rfl, rfl, .inl rfl⟩
  · exact ⟨rfl, rfl, rfl, rfl, rfl, .inr rfl⟩
  · exact ⟨rfl, rfl, rfl, rfl, rfl, .inr rfl⟩
  · exact ⟨rfl, rfl, rfl, rfl, rfl, .inr rfl⟩
  · exact ⟨rfl, rfl, rfl, rfl, rfl, .inr rfl⟩

theorem real_nil {E : Dlog.Env S} {k : Nat} (h : Spec.RealTranslator E k) (P : S.G2) : E.T.g2FromProto none ≠ .ok P := by
  rcases h with ⟨l, h, -⟩ | ⟨l, h, -⟩ | ⟨l, h, -⟩ <;> rw [h] <;> intro h' <;> cases h'

/-- Signatures can be made without revocation information, but no verifier accepts them. -/
theorem sign_without_cri {E : Dlog.Env S} {k : Nat} (hT : Spec.RealTranslator E k) {cred : Bytes} {sk : S.F} {nym : S.G1}
    {r : S.F} {ipk : Dlog.IssuerPublicKey} {attributes : List IdemixAttribute} {msg criRaw : Bytes} {rh eid : Int}
    {cri : Dlog.CRI} {ρ : Dlog.SigRand S} {proof : Bytes} {md : Option (Dlog.SignerMetadata S)}
    (hcri : Dlog.Wire.criCodec.unmarshal criRaw = .ok cri) (halg : cri.revocationAlg = 0)
    (h : E.sign cred (some sk) (some nym) (some r) (.val ipk) attributes msg rh eid criRaw ρ .standard none =
      .ok (proof, md)) :
    ∃ proof', E.sign cred (some sk) (some nym) (some r) (.val ipk) attributes msg rh eid [] ρ .standard none =
        .ok (proof', md) ∧
      ∀ ipk' digest attributes' rh' eid' rpk epoch vt md', E.verify ipk' proof' digest attributes' rh' eid' rpk epoch vt md' ≠
        .ok () := by
  have e0 : Dlog.Wire.criCodec.unmarshal [] = .ok ⟨0, none, [], 0, []⟩ := rfl
  simp only [Dlog.Env.sign, Res.recovered_eq_ok, Dyn.get_val, Res.ok_bind, hcri, e0, Res.deref_some, Res.bind_eq_ok,
    Res.pure_def, Res.ok.injEq, Prod.mk.injEq, Dlog.sig_marshal] at h ⊢
  obtain ⟨c, hc, ⟨sig, m⟩, hs, -, rfl⟩ := h
  obtain ⟨sig', hs', hpk⟩ := newSignature_cri E.T c sk nym r ipk _ msg rh eid cri ⟨0, none, [], 0, []⟩ ρ halg.symm sig m hs
  refine ⟨_, ⟨c, hc, (sig', m), hs', rfl, rfl⟩, ?_⟩
  intro ipk' digest attributes' rh' eid' rpk epoch vt md' hv
  have hw : sig'.Wire := Dlog.newSignature_wire (by simp [Proto.Int64]) hs'
  simp only [Dlog.Env.verify, Res.recovered_eq_ok, Res.bind_eq_ok,
    Dlog.Wire.sigCodec.rt _ _ hw (Dlog.sig_marshal sig'), Res.ok.injEq] at hv
  obtain ⟨ik, -, _, rfl, values, -, hv⟩ := hv
  obtain ⟨-, P, hP⟩ := Dlog.C19_revocation_data_partial _ _ _ _ _ _ _ _ _ _ _ _ hv
  rw [hpk] at hP
  exact real_nil hT P hP

end

/-! ## Set-up from a directory -/

/-- What set-up from the files of a directory has checked. -/
theorem setup_directory {W : World} (m m' : IMsp W) (me : Ref) (σ : SetupRnd W) (c : CurveId)
    (hc : c = directoryCurve m.aries) (raw id ipkRaw rpkRaw : Bytes)
    (o : Option SignerConfig) (hconf : Msp.Wire.configCodec.unmarshal raw = .ok ⟨id, ipkRaw, o, rpkRaw, 0, [], []⟩)
    (hnone : m.signer = none) (h : m.setup me (some ⟨Msp.Spec.configType m.aries, raw⟩) σ = (m', .ok ())) :
    m'.signer = none ∨ ∃ p ipk sk nym r proof ski, o = some p ∧
      (W.B ⟨m.aries, c⟩).issuerPkFromBytes ipkRaw Msp.Spec.names = .ok ipk ∧
      Msp.Spec.Signer (W.B ⟨m.aries, c⟩) ipk p (σ ⟨m.aries, c⟩) sk nym r proof ski := by
  obtain ⟨conf, c', ipk, rpk, h1, -, h3, -, h5, -, h7⟩ := (Msp.C58_setup_exact m m' me _ raw σ).mp h
  rw [hconf, Res.ok.injEq] at h1
  subst h1
  rw [selects_nil] at h3
  obtain rfl := hc.trans h3.symm
  rcases h7 with ⟨-, rfl⟩ | ⟨p, sk, nym, r, proof, ski, e, hs, rfl⟩
  · exact .inl hnone
  · exact .inr ⟨p, ipk, sk, nym, r, proof, ski, e, h5, hs⟩

theorem validate_signing {W : World} {h : Heap W} {me : Ref} {x : SigningIdentity W}
    (hv : Msp.validate h me (.signing x) = .ok ()) :
    Msp.Spec.Proves (h x.identity.msp) x.identity.ou.ou x.identity.role.role x.identity.proof := by
  rw [Msp.C57_validate_exact] at hv
  obtain ⟨i, hi, -, hv⟩ := hv
  rcases hi with hi | ⟨x, hx, hi⟩
  · cases hi
  · cases hx
    cases hi
    exact hv

/-- A write can be interrupted after any number of bytes. -/
theorem torn_at {pre post : List Op} {p : Path} {b : Bytes} {fs fs₂ : FS}
    (h : run (pre ++ .write p b :: post) fs = (fs₂, true)) (j : Nat) :
    ∃ fs', Stopped (pre ++ .write p b :: post) fs fs' ∧ fs'.file p = some (b.take j) := by
  induction pre generalizing fs with
  | nil =>
    have hw : Op.apply fs (.write p (b.take j)) = some (fs.set p (b.take j)) := by
      simp only [List.nil_append, run] at h
      simp only [Op.apply] at h ⊢
      by_cases hd : (!fs.dir p.dropLast || fs.dir p) = true
      · simp [hd] at h
      · simp [hd]
    exact ⟨_, .torn p b post fs _ j hw, by simp [FS.set]⟩
  | cons o pre ih =>
    simp only [List.cons_append, run] at h
    split at h
    · simp at h
    · next fs₁ ho =>
      obtain ⟨fs', h1, h2⟩ := ih h
      exact ⟨fs', .next o _ fs fs₁ fs' ho h1, h2⟩

/-- C81, dlog scheme. The tool is stopped at any point while it makes the signer of a directory. If an MSP that had no
signer is set up from the directory then, it has no signer, or the signer that was asked for and that the MSP itself
accepts; or the revocation information is missing from the file. That case remains: see `C81_dlog_violated`. -/
theorem C81_dlog_partial (f : Flags) (hf : f.aries = false) (hcurve : f.curve = .fp256bnAmcl) (hin : f.caInput = [])
    (hou : f.ou ≠ []) (heid : f.eid ≠ []) (u1 : utf8Valid f.ou = true) (u2 : utf8Valid f.eid = true)
    (u3 : utf8Valid f.rh = true) (hne : (T.P.S f.curve).hashToZr f.eid ≠ (T.P.S f.curve).hashToZr [])
    (fs : FS) (hw : WellFormed fs) (hfree : Spec.Free fs (T.clean f.output))
    (hca : fs.stat (T.clean f.output ++ [ascii "ca"]) = false) (hmsp : fs.stat (T.clean f.output ++ [ascii "msp"]) = false)
    (huser : fs.stat (T.clean f.output ++ [ascii "user"]) = false)
    (ρ : KeygenRnd (T.P.S f.curve) (T.P.env f.curve).dsa) (τ : UserRnd (T.P.S f.curve) (T.P.env f.curve).dsa)
    (hρ : Spec.Samples ρ.issuer τ.dlog.sk τ.dlog.e τ.dlog.s (Spec.values (T.P.S f.curve) (roleMask f.admin) f.ou f.eid f.rh))
    (rev : (T.P.env f.curve).dsa.Sk) (sk pkix : Bytes) (hrev : (T.P.ec f.curve).gen ρ.dsa = .ok rev)
    (hsk : (T.secrets f.curve).marshal rev = .ok sk)
    (hpkix : (T.P.ec f.curve).pkix ((T.P.env f.curve).dsa.pub rev) = .ok pkix)
    (hsign : ∀ d, ∃ sig, (T.P.env f.curve).dsa.sign rev τ.dlog.dsa d = .ok sig) :
    ∃ l₁ fs₁ l₂, T.keygen f fs ρ = .ok l₁ ∧ run l₁ fs = (fs₁, true) ∧ T.signer f fs₁ τ = .ok l₂ ∧
      ∀ fs' id conf, Stopped l₂ fs₁ fs' →
        Msp.getConfig (fun p => fs'.read (T.clean f.output ++ p)) id 1 = .ok conf →
        ∀ (m m' : IMsp T.P.world) (me : Ref) (σ : SetupRnd T.P.world), m.aries = false → m.signer = none →
          ((σ ⟨false, f.curve⟩).2 : Provider.DlogRnd (T.P.S f.curve) (T.P.env f.curve).dsa).sig.rAttrs.length = 2 →
          ((σ ⟨false, f.curve⟩).2 : Provider.DlogRnd (T.P.S f.curve) (T.P.env f.curve).dsa).sig.r1 ≠ 0 →
          m.setup me (some conf) σ = (m', .ok ()) →
          m'.signer = none ∨ Spec.SetsUp m me σ conf id f.ou f.eid f.admin ∨
          ∃ b p, fs'.file (T.clean f.output ++ [ascii "user", ascii "SignerConfig"]) = some b ∧
            Msp.Wire.signerCodec.unmarshal b = .ok p ∧ p.cri = [] := by
  obtain ⟨isk, rawIpk, config, ipk, cred, cri, s, g1, g2, g3, g4, g5, g6, g7, g8, g9, -, g11, g12, g13, g14, g15, g16, g17,
    g18⟩ := dlog_generated (T.P.env f.curve) ρ.issuer τ.dlog f.admin f.ou f.eid f.rh hou heid u1 u2 u3 hρ rev hsign
  have hkey : T.issuerKey f ρ = .ok (isk, rawIpk) := by simp [Tool.issuerKey, hf, g1]
  have hconfig : T.signerConfig f isk rawIpk rev τ = .ok config := by simp [Tool.signerConfig, hf, g2]
  obtain ⟨l₁, fs₁, l₂, fs₂, e1, e2, e3, e4, e5⟩ := end_to_end T f fs hw hfree hca hmsp huser hin ρ τ isk rawIpk config sk pkix
    rev hkey hrev hsk hpkix hconfig s g6
  obtain ⟨s', hwire, hmar⟩ := marshalled T hconfig
  have : s' = s := by
    have := Msp.Wire.signerCodec.rt _ _ hwire hmar
    rw [g6] at this
    exact (Res.ok.inj this).symm
  subst this
  refine ⟨l₁, fs₁, l₂, e1, e2, e3, fun fs' id conf hstop hget m m' me σ hm hnone h1 h2 hset => ?_⟩
  obtain ⟨-, -, -, -, ht⟩ := torn_end_to_end T f hin fs fs₁ fs' hw ρ τ isk rawIpk config sk pkix rev hkey hrev hsk hpkix hconfig
    l₁ l₂ e1 e2 e3 hstop
  obtain ⟨raw, o, rfl, hraw, hp⟩ := ht id 1 conf hget
  obtain ⟨csp, version, mipk, signer, name, mrpk, epoch, aries, exportable⟩ := m
  cases (show aries = false from hm)
  rcases setup_directory _ m' me σ f.curve (show f.curve = directoryCurve false from hcurve) raw id rawIpk _ o hraw hnone hset with
    h | ⟨p, ipk', sk', nym', r', proof', ski', rfl, hi, hs⟩
  · exact .inl h
  obtain ⟨k, hfile, hpart⟩ := hp p rfl
  have hi' : ipk' = .val ipk := by
    change (_ >>= _) = _ at hi
    rw [g4] at hi
    exact (Res.ok.inj hi).symm
  subst hi'
  rw [← g9] at g14 hne ⊢
  obtain ⟨p1, p2, p3, p4, p5, p6⟩ := dlog_torn_fields g12 g14 hne (torn_parts hmar hwire hpart) hs
  rcases p6 with p6 | p6
  · exact .inr (.inr ⟨_, p, hfile, hpart, p6⟩)
  · refine .inr (.inl ?_)
    obtain ⟨nym, r, proof, ski, e1, e2, e3, e4⟩ := dlog_signer (T.P.env f.curve) (T.P.ec f.curve) f.admin f.ou s'.enrollmentId
      f.rh ipk p cred cri τ.dlog.sk g5 (p3.trans g7) (p4.trans g8) p5 (p2.trans g11) (p1 ▸ g12) (p6 ▸ g13) g14 g15 g16 g17
      g18 (σ ⟨false, f.curve⟩) h1 h2
    obtain ⟨p', hp', ha⟩ := accepts_of ⟨csp, version, mipk, signer, name, mrpk, epoch, false, exportable⟩ me σ f.curve (by simp)
      [] (.inr ⟨rfl, hcurve⟩) rawIpk _ (config.take k) f.ou s'.enrollmentId f.admin (.val ipk) g3 hi
      ((T.P.env f.curve).dsa.pub rev)
      ⟨(T.P.ec f.curve).encode_ne _, pkix, (T.P.ec f.curve).decode_encode _, (T.P.ec f.curve).parse_pkix _ _ hpkix⟩ p hpart
      (p3.trans g7) p5 (p4.trans g8) τ.dlog.sk r nym proof ski e1 e2 e3 e4
    rw [hpart, Res.ok.injEq] at hp'
    subst hp'
    exact ha raw _ hraw rfl rfl rfl rfl

/-- C81 is false for the dlog scheme. If the tool is stopped after it has written the enrolment id and before the revocation
information, the directory gives a configuration, and every MSP of the scheme is set up from it; it has a signer, with the
right enrolment id, unit and role; and the MSP that has made this signer does not accept it. -/
theorem C81_dlog_violated (f : Flags) (hf : f.aries = false) (hcurve : f.curve = .fp256bnAmcl) (k : Nat)
    (hT : Spec.RealTranslator (T.P.env f.curve) k) (hin : f.caInput = [])
    (hou : f.ou ≠ []) (heid : f.eid ≠ []) (u1 : utf8Valid f.ou = true) (u2 : utf8Valid f.eid = true)
    (u3 : utf8Valid f.rh = true) (fs : FS) (hw : WellFormed fs) (hfree : Spec.Free fs (T.clean f.output))
    (hca : fs.stat (T.clean f.output ++ [ascii "ca"]) = false) (hmsp : fs.stat (T.clean f.output ++ [ascii "msp"]) = false)
    (huser : fs.stat (T.clean f.output ++ [ascii "user"]) = false)
    (ρ : KeygenRnd (T.P.S f.curve) (T.P.env f.curve).dsa) (τ : UserRnd (T.P.S f.curve) (T.P.env f.curve).dsa)
    (hρ : Spec.Samples ρ.issuer τ.dlog.sk τ.dlog.e τ.dlog.s (Spec.values (T.P.S f.curve) (roleMask f.admin) f.ou f.eid f.rh))
    (rev : (T.P.env f.curve).dsa.Sk) (sk pkix : Bytes) (hrev : (T.P.ec f.curve).gen ρ.dsa = .ok rev)
    (hsk : (T.secrets f.curve).marshal rev = .ok sk)
    (hpkix : (T.P.ec f.curve).pkix ((T.P.env f.curve).dsa.pub rev) = .ok pkix)
    (hsign : ∀ d, ∃ sig, (T.P.env f.curve).dsa.sign rev τ.dlog.dsa d = .ok sig) :
    ∃ l₁ fs₁ l₂ fs', T.keygen f fs ρ = .ok l₁ ∧ run l₁ fs = (fs₁, true) ∧ T.signer f fs₁ τ = .ok l₂ ∧ Stopped l₂ fs₁ fs' ∧
      ∀ id, utf8Valid id = true → ∃ conf, Msp.getConfig (fun p => fs'.read (T.clean f.output ++ p)) id 1 = .ok conf ∧
        ∀ (m : IMsp T.P.world) (me : Ref) (σ : SetupRnd T.P.world), m.aries = false →
          ((σ ⟨false, f.curve⟩).2 : Provider.DlogRnd (T.P.S f.curve) (T.P.env f.curve).dsa).sig.rAttrs.length = 2 →
          ((σ ⟨false, f.curve⟩).2 : Provider.DlogRnd (T.P.S f.curve) (T.P.env f.curve).dsa).sig.r1 ≠ 0 →
          ∃ m' x, m.setup me (some conf) σ = (m', .ok ()) ∧ m'.signer = some x ∧ x.enrollmentId = f.eid ∧
            x.identity.ou.ou = f.ou ∧ x.identity.role.role = (if f.admin then 1 else 0) ∧
            ∀ h : Heap T.P.world, h me = m' → Msp.validate h me (.signing x) ≠ .ok () := by
  obtain ⟨isk, rawIpk, config, ipk, cred, cri, s, g1, g2, g3, g4, g5, g6, g7, g8, g9, -, g11, g12, g13, g14, g15, g16, g17,
    g18⟩ := dlog_generated (T.P.env f.curve) ρ.issuer τ.dlog f.admin f.ou f.eid f.rh hou heid u1 u2 u3 hρ rev hsign
  have hkey : T.issuerKey f ρ = .ok (isk, rawIpk) := by simp [Tool.issuerKey, hf, g1]
  have hconfig : T.signerConfig f isk rawIpk rev τ = .ok config := by simp [Tool.signerConfig, hf, g2]
  obtain ⟨l₁, fs₁, l₂, fs₂, e1, e2, e3, e4, e5⟩ := end_to_end T f fs hw hfree hca hmsp huser hin ρ τ isk rawIpk config sk pkix
    rev hkey hrev hsk hpkix hconfig s g6
  obtain ⟨s', hwire, hmar⟩ := marshalled T hconfig
  have : s' = s := by
    have := Msp.Wire.signerCodec.rt _ _ hwire hmar
    rw [g6] at this
    exact (Res.ok.inj this).symm
  subst this
  obtain ⟨j, hpart⟩ := (C81_torn_file s' ⟨s'.cred, s'.sk, s'.ou, s'.role, s'.enrollmentId, [], [], [], []⟩ hwire config
    hmar).mpr (by simp [firstFields])
  obtain ⟨-, -, -, rfl, -⟩ := torn_end_to_end T f hin fs fs₁ fs₁ hw ρ τ isk rawIpk config sk pkix rev hkey hrev hsk hpkix hconfig
    l₁ l₂ e1 e2 e3 (.here _ _)
  obtain ⟨fs', hstop, hfile⟩ := torn_at (pre := [.mkdirAll (T.clean f.output ++ [dirUser])]) e4 j
  obtain ⟨q1, q2, -, -, -⟩ := torn_end_to_end T f hin fs fs₁ fs' hw ρ τ isk rawIpk config sk pkix rev hkey hrev hsk hpkix hconfig
    l₁ _ e1 e2 e3 hstop
  refine ⟨l₁, fs₁, _, fs', e1, e2, e3, hstop, fun id hid => ?_⟩
  obtain ⟨raw, r1, r2⟩ := getConfig_files fs' (T.clean f.output) id rawIpk _ _ _ 1 (by decide) (by decide) hid q1 q2 hfile hpart
  refine ⟨_, r1, fun m me σ hm h1 h2 => ?_⟩
  obtain ⟨csp, version, mipk, signer, name, mrpk, epoch, aries, exportable⟩ := m
  cases (show aries = false from hm)
  obtain ⟨nym, r, proof, ski, ⟨d1, d2, d3, d4, d5, d6, md, d7⟩, -⟩ := dlog_signer (T.P.env f.curve) (T.P.ec f.curve) f.admin f.ou
    f.eid f.rh ipk s' cred cri τ.dlog.sk g5 g7 g8 g9 g11 g12 g13 g14 g15 g16 g17 g18 (σ ⟨false, f.curve⟩) h1 h2
  obtain ⟨proof', d7', hno⟩ := sign_without_cri hT g13 g17 d7
  refine ⟨_, _, (Msp.C58_setup_exact _ _ me _ raw σ).mpr ⟨_, f.curve, .val ipk, (T.P.env f.curve).dsa.pub rev, r2, rfl,
    (selects_nil _ _).mpr hcurve, g3, by change (_ >>= _) = _; rw [g4]; rfl,
    ⟨(T.P.ec f.curve).encode_ne _, pkix, (T.P.ec f.curve).decode_encode _, (T.P.ec f.curve).parse_pkix _ _ hpkix⟩,
    .inr ⟨_, τ.dlog.sk, nym, r, proof', ski, rfl, ⟨d1, d2, d3, d4, d5, d6, md, d7'⟩, rfl⟩⟩, rfl, g9, g7, ?_, ?_⟩
  · change Msp.Spec.mspRole s'.role = _
    rw [g8, role_of]
  · intro h hh hv
    replace hv := validate_signing hv
    obtain ⟨p, ipk', rpk', v1, v2, v3, v4, v5⟩ := hv
    have v1' : (h me).csp = some p := v1
    rw [hh] at v1'
    cases v1'
    exact hno _ _ _ _ _ _ _ _ _ v5

/-! ## The aries scheme -/

/-- A torn signer that an aries MSP accepts has everything up to the enrolment id. -/
theorem aries_torn_fields {S : Suite} {L : Bbs.Lib S} {Tr : Translator S} {dsa : Ecdsa} {ec : Provider.EcKeys dsa}
    {s p : SignerConfig} {role : Int} {ou rh : Bytes} {x e s' sk₀ : S.F}
    (hcred : s.cred = Proto.encode (Aries.Wire.cred (Aries.issued x 4 0 (Spec.valuesAries L role ou s.enrollmentId rh) sk₀ e
      s' 0)))
    (hne : Bbs.frFromOKM L s.enrollmentId ≠ Bbs.frFromOKM L []) (hp : p ∈ firstFields s)
    {σ : Provider.AriesRnd S dsa × Provider.AriesRnd S dsa} {sk r : S.F} {nym : S.G1} {proof ski : Bytes}
    (h : Msp.Spec.Signer (Provider.ariesBackend L Tr dsa ec) (.val (Aries.ipkFor (Bbs.publicKey x) 4)) p σ sk nym r proof
      ski) :
    p.cred = s.cred ∧ p.sk = s.sk ∧ p.ou = s.ou ∧ p.role = s.role ∧ p.enrollmentId = s.enrollmentId ∧
      (p.cri = [] ∨ p.cri = s.cri) := by
  obtain ⟨h1, -, -, -, h5, h6, -⟩ := h
  have key : p.cred = s.cred → p.enrollmentId ≠ [] := by
    intro e1 h0
    have h6 : Aries.credVerify L sk (.val (Aries.ipkFor (Bbs.publicKey x) 4)) p.cred _ = .ok () := h6
    rw [Aries.credVerify_ok_iff L _ _ 4 _ _ rfl, e1, hcred, h0] at h6
    obtain ⟨c, _, _, hc, -, -, -, -, ha, -⟩ := h6
    rw [Aries.Wire.credCodec_rt _ (by simp [Aries.Credential.Wire, Aries.issued, Proto.Int32]), Res.ok.injEq] at hc
    subst hc
    simp only [Aries.issued, Spec.valuesAries, List.map_cons, List.map_nil, List.take_succ_cons, List.take_zero,
      List.forall₂_cons] at ha
    obtain ⟨-, -, ha, -⟩ := ha
    rcases ha (.inl rfl) with ⟨-, b, hb, hv⟩ | ⟨h, -⟩
    · cases hb
      exact hne (by simpa using hv)
    · cases h
  simp only [firstFields, List.mem_cons, List.not_mem_nil, or_false] at hp
  rcases hp with rfl | rfl | rfl | rfl | rfl | rfl | rfl | rfl | rfl | rfl
  · exact absurd rfl h1
  · exact absurd rfl h1
  · exact absurd rfl (key rfl)
  · exact absurd rfl (key rfl)
  · exact absurd rfl (key rfl)
  · exact ⟨rfl, rfl, rfl, rfl, rfl, .inl rfl⟩
  · exact ⟨rfl, rfl, rfl, rfl, rfl, .inr rfl⟩
  · exact ⟨rfl, rfl, rfl, rfl, rfl, .inr rfl⟩
  · exact ⟨rfl, rfl, rfl, rfl, rfl, .inr rfl⟩
  · exact ⟨rfl, rfl, rfl, rfl, rfl, .inr rfl⟩

/-- C81, aries scheme. The tool is stopped at any point while it makes the signer of a directory. If an MSP that had no
signer is set up from the directory then, it has no signer, or the signer that was asked for and that the MSP itself
accepts. -/
theorem C81_aries (f : Flags) (hf : f.aries = true) (hcurve : f.curve = .bls12_381Bbs)
    (h32 : (T.P.S f.curve).scalarLen = 32) (hg : (T.P.S f.curve).g1CompLen < 2 ^ 31) (hg1 : 0 < (T.P.S f.curve).g1Len)
    (hin : f.caInput = []) (hou : f.ou ≠ []) (heid : f.eid ≠ []) (u1 : utf8Valid f.ou = true) (u2 : utf8Valid f.eid = true)
    (u3 : utf8Valid f.rh = true) (hne : Bbs.frFromOKM (T.P.lib f.curve) f.eid ≠ Bbs.frFromOKM (T.P.lib f.curve) [])
    (fs : FS) (hw : WellFormed fs) (hfree : Spec.Free fs (T.clean f.output))
    (hca : fs.stat (T.clean f.output ++ [ascii "ca"]) = false) (hmsp : fs.stat (T.clean f.output ++ [ascii "msp"]) = false)
    (huser : fs.stat (T.clean f.output ++ [ascii "user"]) = false)
    (ρ : KeygenRnd (T.P.S f.curve) (T.P.env f.curve).dsa) (τ : UserRnd (T.P.S f.curve) (T.P.env f.curve).dsa) (okm : Bytes)
    (hseed : ρ.seed.length = 32) (hokm : (T.P.lib f.curve).hkdf (ρ.seed ++ [0]) (T.P.S f.curve).scalarLen = .ok okm)
    (hx : Bbs.frFromOKM (T.P.lib f.curve) okm + τ.aries.e ≠ 0)
    (rev : (T.P.env f.curve).dsa.Sk) (sk pkix : Bytes) (hrev : (T.P.ec f.curve).gen ρ.dsa = .ok rev)
    (hsk : (T.secrets f.curve).marshal rev = .ok sk)
    (hpkix : (T.P.ec f.curve).pkix ((T.P.env f.curve).dsa.pub rev) = .ok pkix)
    (hsign : ∀ d, ∃ sig, (T.P.env f.curve).dsa.sign rev τ.aries.dsa d = .ok sig) :
    ∃ l₁ fs₁ l₂, T.keygen f fs ρ = .ok l₁ ∧ run l₁ fs = (fs₁, true) ∧ T.signer f fs₁ τ = .ok l₂ ∧
      ∀ fs' id conf, Stopped l₂ fs₁ fs' →
        Msp.getConfig (fun p => fs'.read (T.clean f.output ++ p)) id 2 = .ok conf →
        ∀ (m m' : IMsp T.P.world) (me : Ref) (σ : SetupRnd T.P.world), m.aries = true → m.signer = none →
          ((σ ⟨true, f.curve⟩).2 : Provider.AriesRnd (T.P.S f.curve) (T.P.env f.curve).dsa).sig.pok.r1 ≠ 0 →
          m.setup me (some conf) σ = (m', .ok ()) →
          m'.signer = none ∨ Spec.SetsUp m me σ conf id f.ou f.eid f.admin := by
  obtain ⟨isk, rawIpk, config, cri, s, g1, g2, g3, g4, g5, g6, g7, g8, -, g10, g11, g12, g13⟩ :=
    aries_generated (T.P.lib f.curve) h32 (T.P.env f.curve).dsa ρ.seed okm hseed hokm τ.aries f.admin f.ou f.eid f.rh hou heid
      u1 u2 u3 hx rev hsign
  have hkey : T.issuerKey f ρ = .ok (isk, rawIpk) := by simp [Tool.issuerKey, hf, g1]
  have hconfig : T.signerConfig f isk rawIpk rev τ = .ok config := by simp [Tool.signerConfig, hf, g2]
  obtain ⟨l₁, fs₁, l₂, fs₂, e1, e2, e3, e4, e5⟩ := end_to_end T f fs hw hfree hca hmsp huser hin ρ τ isk rawIpk config sk pkix
    rev hkey hrev hsk hpkix hconfig s g5
  obtain ⟨s', hwire, hmar⟩ := marshalled T hconfig
  have : s' = s := by
    have := Msp.Wire.signerCodec.rt _ _ hwire hmar
    rw [g5] at this
    exact (Res.ok.inj this).symm
  subst this
  refine ⟨l₁, fs₁, l₂, e1, e2, e3, fun fs' id conf hstop hget m m' me σ hm hnone h1 hset => ?_⟩
  obtain ⟨-, -, -, -, ht⟩ := torn_end_to_end T f hin fs fs₁ fs' hw ρ τ isk rawIpk config sk pkix rev hkey hrev hsk hpkix hconfig
    l₁ l₂ e1 e2 e3 hstop
  obtain ⟨raw, o, rfl, hraw, hp⟩ := ht id 2 conf hget
  obtain ⟨csp, version, mipk, signer, name, mrpk, epoch, aries, exportable⟩ := m
  cases (show aries = true from hm)
  rcases setup_directory _ m' me σ f.curve (show f.curve = directoryCurve true from hcurve) raw id rawIpk _ o hraw hnone hset with
    h | ⟨p, ipk', sk', nym', r', proof', ski', rfl, hi, hs⟩
  · exact .inl h
  obtain ⟨k, hfile, hpart⟩ := hp p rfl
  have hi' : ipk' = .val (Aries.ipkFor (Bbs.publicKey (Bbs.frFromOKM (T.P.lib f.curve) okm)) 4) := by
    change (_ >>= _) = _ at hi
    rw [g4] at hi
    exact (Res.ok.inj hi).symm
  subst hi'
  rw [← g8] at g11 hne ⊢
  obtain ⟨p1, p2, p3, p4, p5, p6⟩ := aries_torn_fields g11 hne (torn_parts hmar hwire hpart) hs
  refine .inr ?_
  obtain ⟨cri', hcri', halg'⟩ : ∃ cri', Aries.Wire.criCodec.unmarshal p.cri = .ok cri' ∧ cri'.alg = 0 := by
    rcases p6 with p6 | p6
    · rw [p6]; exact ⟨⟨0, [], [], 0, []⟩, rfl, rfl⟩
    · rw [p6]; exact ⟨cri, g12, g13⟩
  obtain ⟨nym, r, proof, ski, e1, e2, e3, e4⟩ := aries_signer (T.P.lib f.curve) h32 hg hg1 (T.P.env f.curve).T
    (T.P.env f.curve).dsa (T.P.ec f.curve) f.admin f.ou s'.enrollmentId f.rh _ τ.aries.e (τ.aries.s + τ.aries.blinding) hx p cri'
    τ.aries.sk (p3.trans g6) (p4.trans g7) p5 (p2.trans g10) (p1.trans g11) hcri' halg' (σ ⟨true, f.curve⟩) h1
  obtain ⟨p', hp', ha⟩ := accepts_of ⟨csp, version, mipk, signer, name, mrpk, epoch, true, exportable⟩ me σ f.curve
    (fun _ => .inl hcurve) [] (.inr ⟨rfl, hcurve⟩) rawIpk _ (config.take k) f.ou s'.enrollmentId f.admin
    (.val (Aries.ipkFor (Bbs.publicKey (Bbs.frFromOKM (T.P.lib f.curve) okm)) 4)) g3 hi ((T.P.env f.curve).dsa.pub rev)
    ⟨(T.P.ec f.curve).encode_ne _, pkix, (T.P.ec f.curve).decode_encode _, (T.P.ec f.curve).parse_pkix _ _ hpkix⟩ p hpart
    (p3.trans g6) p5 (p4.trans g7) τ.aries.sk r nym proof ski e1 e2 e3 e4
  rw [hpart, Res.ok.injEq] at hp'
  subst hp'
  exact ha raw _ hraw rfl rfl rfl rfl

end Idemix.Gen
