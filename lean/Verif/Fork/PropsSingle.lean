import Verif.Fork.Single
import Verif.Dlog.PropsIssue
import Verif.Dlog.PropsCred

/-!
# C97: whoever makes issuer keys knows the secret key, and whoever asks for credentials knows a user secret

C03 and C05 compute these secrets from two proofs with the same hash question and different answers. Here the proofs are obtained from any
program that makes keys or requests with the help of the hash function, by running it twice.
-/

namespace Idemix.Fork

open Idemix.Dlog
open Idemix (Suite Res Bytes)
open Spec

variable {S : Suite} (T : Translator S)

/-! ## Specification -/

/-- The hash question of whoever checks an issuer key. -/
def Spec.keyQuestion (ipk : IssuerPublicKey) : Bytes :=
  match T.g2FromProto ipk.w, T.g1FromProto ipk.barG1, T.g1FromProto ipk.barG2 with
  | .ok w, .ok b1, .ok b2 => Dlog.Spec.ipkTranscript w b1 b2 (S.zrOfBytes ipk.proofC) (S.zrOfBytes ipk.proofS)
  | _, _, _ => []

/-- Somebody who makes an issuer key, and somebody who checks it. -/
def Spec.issuerKeys (m : IpkMarshal) (maker : Strategy S.F IssuerPublicKey) : Single S.F IssuerPublicKey where
  forger := maker
  question := keyQuestion T
  accepts h ipk := ∃ out, ipk.check (T.withHash h) m = .ok out

/-- The secret key that two proofs give away. -/
def Spec.issuerSecret (S : Suite) (ipk₁ ipk₂ : IssuerPublicKey) : S.F :=
  Dlog.Spec.witness (S.zrOfBytes ipk₁.proofC) (S.zrOfBytes ipk₂.proofC) (S.zrOfBytes ipk₁.proofS) (S.zrOfBytes ipk₂.proofS)

/-- `x` is the secret key of `ipk`: with this key one makes credentials under it. -/
def Spec.IsSecretOf (ipk : IssuerPublicKey) (x : S.F) : Prop :=
  T.g2FromProto ipk.w = .ok (x • S.genG2) ∧
    ∃ b1, b1 ≠ 0 ∧ T.g1FromProto ipk.barG1 = .ok b1 ∧ T.g1FromProto ipk.barG2 = .ok (x • b1)

/-- The hash question of an issuer that checks a request. -/
def Spec.requestQuestion (ipk : IssuerPublicKey) (req : CredRequest) : Bytes :=
  match T.g1FromProto ipk.hSk, T.g1FromProto req.nym with
  | .ok hSk, .ok nym => Dlog.Spec.requestTranscript credRequestLabel hSk nym (S.zrOfBytes req.proofC)
      (S.zrOfBytes req.proofS) (req.issuerNonce.getD []) ipk.hash
  | _, _ => []

/-- Somebody who asks the issuer with the key `ipk` for a credential. -/
def Spec.requests (ipk : IssuerPublicKey) (user : Strategy S.F CredRequest) : Single S.F CredRequest where
  forger := user
  question := requestQuestion T ipk
  accepts h req := req.check (T.withHash h) ipk = .ok ()

/-- The user secret that two requests give away. -/
def Spec.userSecret (S : Suite) (req₁ req₂ : CredRequest) : S.F :=
  Dlog.Spec.witness (S.zrOfBytes req₁.proofC) (S.zrOfBytes req₂.proofC) (S.zrOfBytes req₁.proofS) (S.zrOfBytes req₂.proofS)

/-- `sk` is the secret that the request commits to: the credential that the issuer makes for it is one for `sk`. -/
def Spec.IsSecretIn (ipk : IssuerPublicKey) (req : CredRequest) (sk : S.F) : Prop :=
  ∃ hSk, T.g1FromProto ipk.hSk = .ok hSk ∧ T.g1FromProto req.nym = .ok (sk • hSk)

/-! ## Proofs -/

variable {T}

theorem ipkTranscript_inj {w w' : S.G2} {b1 b1' b2 b2' : S.G1} {c s c' s' : S.F}
    (h : Dlog.Spec.ipkTranscript w b1 b2 c s = Dlog.Spec.ipkTranscript w' b1' b2' c' s') : w = w' ∧ b1 = b1' ∧ b2 = b2' := by
  simp only [Dlog.Spec.ipkTranscript] at h
  obtain ⟨h, h2⟩ := List.append_inj' h (by simp [S.g1Bytes_len])
  obtain ⟨h, hw⟩ := List.append_inj' h (by simp [S.g2Bytes_len])
  obtain ⟨-, h1⟩ := List.append_inj' h (by simp [S.g1Bytes_len])
  exact ⟨S.g2Bytes_inj hw, S.g1Bytes_inj h1, S.g1Bytes_inj h2⟩

theorem requestTranscript_inj {label nonce nonce' hash hash' : Bytes} {hSk nym nym' : S.G1} {c s c' s' : S.F}
    (h : Dlog.Spec.requestTranscript label hSk nym c s nonce hash =
      Dlog.Spec.requestTranscript label hSk nym' c' s' nonce' hash') : nym = nym' := by
  simp only [Dlog.Spec.requestTranscript, List.append_assoc] at h
  have h := List.append_cancel_left h
  obtain ⟨-, h⟩ := List.append_inj h (by simp [S.g1Bytes_len])
  obtain ⟨h, -⟩ := List.append_inj (List.append_cancel_left h) (by simp [S.g1Bytes_len])
  exact S.g1Bytes_inj h

theorem checked_key {m : IpkMarshal} {h : Bytes → S.F} {ipk out : IssuerPublicKey} (acc : ipk.check (T.withHash h) m = .ok out) :
    ∃ (w : S.G2) (b1 b2 : S.G1), T.g2FromProto ipk.w = .ok w ∧ T.g1FromProto ipk.barG1 = .ok b1 ∧ T.g1FromProto ipk.barG2 = .ok b2 ∧
      b1 ≠ 0 ∧ keyQuestion T ipk = Dlog.Spec.ipkTranscript w b1 b2 (S.zrOfBytes ipk.proofC) (S.zrOfBytes ipk.proofS) := by
  obtain ⟨k, b1, b2, hk, x1, x2, x3, -⟩ := check_ok_iff.mp acc
  have hw : T.g2FromProto ipk.w = .ok k.w := hk.w
  have x1 : T.g1FromProto ipk.barG1 = .ok b1 := x1
  have x2 : T.g1FromProto ipk.barG2 = .ok b2 := x2
  refine ⟨k.w, b1, b2, hw, x1, x2, x3, ?_⟩
  rw [keyQuestion, hw, x1, x2]

/-- Two keys as in `Forked` give away the secret key. -/
theorem forked_key {m : IpkMarshal} {maker : Strategy S.F IssuerPublicKey}
    {r : (IssuerPublicKey × Table S.F) × (IssuerPublicKey × Table S.F)} (h : (issuerKeys T m maker).Forked r) :
    IsSecretOf T r.1.1 (issuerSecret S r.1.1 r.2.1) := by
  obtain ⟨⟨out₁, acc₁⟩, ⟨out₂, acc₂⟩, hq, ha⟩ := h
  obtain ⟨⟨ipk₁, tab₁⟩, ⟨ipk₂, tab₂⟩⟩ := r
  simp only [issuerKeys] at acc₁ acc₂ hq ha
  obtain ⟨w, b1, b2, x0, x1, x2, x3, e₁⟩ := checked_key acc₁
  obtain ⟨w', d1, d2, y0, y1, y2, -, e₂⟩ := checked_key acc₂
  rw [e₁, e₂] at hq ha
  obtain ⟨rfl, rfl, rfl⟩ := ipkTranscript_inj hq
  obtain ⟨z1, z2⟩ := C03_issuer_key_extraction T m (oracle tab₁) (oracle tab₂) ipk₁ ipk₂ out₁ out₂ acc₁ acc₂ w b1 b2 x0 y0 x1 y1 x2 y2 hq ha
  exact ⟨x0.trans (congrArg Res.ok z1), b1, x3, x1, x2.trans (congrArg Res.ok z2)⟩

theorem checked_request {h : Bytes → S.F} {ipk : IssuerPublicKey} {req : CredRequest} (acc : req.check (T.withHash h) ipk = .ok ()) :
    ∃ (hSk nym : S.G1) (n : Bytes), T.g1FromProto ipk.hSk = .ok hSk ∧ T.g1FromProto req.nym = .ok nym ∧ req.issuerNonce = some n ∧
      requestQuestion T ipk req = Dlog.Spec.requestTranscript credRequestLabel hSk nym (S.zrOfBytes req.proofC)
        (S.zrOfBytes req.proofS) n ipk.hash := by
  obtain ⟨nym, hSk, n, x1, x2, x3, -⟩ := reqCheck_ok_iff.mp acc
  have x1 : T.g1FromProto req.nym = .ok nym := x1
  have x2 : T.g1FromProto ipk.hSk = .ok hSk := x2
  refine ⟨hSk, nym, n, x2, x1, x3, ?_⟩
  rw [requestQuestion, x2, x1, x3]
  rfl

/-- Two requests as in `Forked` give away the user secret. -/
theorem forked_request {ipk : IssuerPublicKey} {user : Strategy S.F CredRequest}
    {r : (CredRequest × Table S.F) × (CredRequest × Table S.F)} (h : (requests T ipk user).Forked r) :
    IsSecretIn T ipk r.1.1 (userSecret S r.1.1 r.2.1) := by
  obtain ⟨acc₁, acc₂, hq, ha⟩ := h
  obtain ⟨⟨req₁, tab₁⟩, ⟨req₂, tab₂⟩⟩ := r
  simp only [requests] at acc₁ acc₂ hq ha
  obtain ⟨hSk, nym, n₁, x1, x2, x3, e₁⟩ := checked_request acc₁
  obtain ⟨hSk', nym', n₂, y1, y2, y3, e₂⟩ := checked_request acc₂
  obtain rfl : hSk' = hSk := Res.ok.inj (y1.symm.trans x1)
  rw [e₁, e₂] at hq ha
  obtain rfl := requestTranscript_inj hq
  have z := C05_request_extraction T (oracle tab₁) (oracle tab₂) ipk req₁ req₂ acc₁ acc₂ nym hSk' n₁ n₂ x2 y2 x1 x3 y3 hq ha
  exact ⟨hSk', x1, x2.trans (congrArg Res.ok z)⟩

open scoped Classical in
/-- C97. Take anybody who makes issuer keys with at most `q` hash questions, counting that of the check. If the check accepts for the fraction
`ε` of all answers that the hash function may give, then for at least the fraction `ε² / q - 2 q ε / |F|` of all pairs of answers the secret key is computed from
two plays. -/
theorem C97_issuer_keys [Fintype S.F] (m : IpkMarshal) (maker : Strategy S.F IssuerPublicKey) (q : Nat) :
    let g := issuerKeys T m maker
    let W := Finset.univ.filter fun ω : Fin q → S.F => ∃ ipk tab, g.Wins ω ipk tab
    Fintype.card S.F * W.card ^ 2 ≤
      q * Fintype.card S.F * (Finset.univ.filter fun ωs : (Fin q → S.F) × (Fin q → S.F) =>
        ∃ r, g.fork ωs.1 ωs.2 = some r ∧ IsSecretOf T r.1.1 (issuerSecret S r.1.1 r.2.1)).card +
      2 * q ^ 2 * W.card * Fintype.card (Fin q → S.F) := by
  intro g W
  refine le_trans (Single.forks g q) (Nat.add_le_add_right (Nat.mul_le_mul_left _ (Finset.card_le_card ?_)) _)
  intro ωs h
  simp only [Finset.mem_filter, Finset.mem_univ, true_and] at h ⊢
  obtain ⟨r, h1, h2⟩ := h
  exact ⟨r, h1, forked_key h2⟩

open scoped Classical in
/-- C97. Take anybody who asks an issuer for credentials, with at most `q` hash questions, counting that of the issuer. If the request is accepted
for the fraction `ε` of all answers that the hash function may give, then for at least the fraction `ε² / q - 2 q ε / |F|` of all pairs of answers the
user secret in the request is computed from two plays. -/
theorem C97_requests [Fintype S.F] (ipk : IssuerPublicKey) (user : Strategy S.F CredRequest) (q : Nat) :
    let g := requests T ipk user
    let W := Finset.univ.filter fun ω : Fin q → S.F => ∃ req tab, g.Wins ω req tab
    Fintype.card S.F * W.card ^ 2 ≤
      q * Fintype.card S.F * (Finset.univ.filter fun ωs : (Fin q → S.F) × (Fin q → S.F) =>
        ∃ r, g.fork ωs.1 ωs.2 = some r ∧ IsSecretIn T ipk r.1.1 (userSecret S r.1.1 r.2.1)).card +
      2 * q ^ 2 * W.card * Fintype.card (Fin q → S.F) := by
  intro g W
  refine le_trans (Single.forks g q) (Nat.add_le_add_right (Nat.mul_le_mul_left _ (Finset.card_le_card ?_)) _)
  intro ωs h
  simp only [Finset.mem_filter, Finset.mem_univ, true_and] at h ⊢
  obtain ⟨r, h1, h2⟩ := h
  exact ⟨r, h1, forked_request h2⟩

/-! ## Examples -/

namespace Ex

open Idemix.Dlog.Ex

/-- The issuer of C01 with the challenge `c`. -/
def keyMade (c : Toy.K) : IssuerPublicKey :=
  match newIssuerKey (Toy.tr.withHash fun _ => c) mar names ⟨(3 : Toy.K), [2, 4, 5], 3, 6, 2, 5⟩ with
  | .ok k => k.ipk
  | _ => { key.ipk with w := none }

/-- It asks for its challenge. -/
def keyMaker : Strategy Toy.K IssuerPublicKey := .ask (keyQuestion Toy.tr (keyMade 1)) fun c => .done (keyMade c)

/-- Its key is accepted for every answer. -/
example : ∀ c : Toy.K, (issuerKeys Toy.tr mar keyMaker).Wins (q := 1) (fun _ => c) (keyMade c) [(keyQuestion Toy.tr (keyMade 1), c)] := by
  intro c
  refine ⟨?_, ?_⟩
  · revert c; decide +kernel
  · obtain ⟨out, h⟩ : ∃ out, (keyMade c).check (Toy.tr.withHash (oracle [(keyQuestion Toy.tr (keyMade 1), c)])) mar = .ok out := by
      have : ∀ c : Toy.K, (match (keyMade c).check (Toy.tr.withHash (oracle [(keyQuestion Toy.tr (keyMade 1), c)])) mar with
        | .ok _ => true | _ => false) = true := by decide +kernel
      specialize this c
      split at this
      · next out h => exact ⟨out, h⟩
      · cases this
    exact ⟨out, h⟩

/-- Two plays give away its secret key, which is 3. -/
example : ((issuerKeys Toy.tr mar keyMaker).fork (q := 1) (fun _ => (3 : Toy.K)) (fun _ => (4 : Toy.K))).map
    (fun r => issuerSecret Toy.suite r.1.1 r.2.1) = some (3 : Toy.K) := by decide +kernel

/-- The user of C04 with the challenge `c`. -/
def requested (c : Toy.K) : CredRequest :=
  match newCredRequest (Toy.tr.withHash fun _ => c) (4 : Toy.K) (some [6]) key.ipk (5 : Toy.K) with
  | .ok req => req
  | _ => ⟨none, none, [], []⟩

/-- It asks for its challenge. -/
def requester : Strategy Toy.K CredRequest := .ask (requestQuestion Toy.tr key.ipk (requested 1)) fun c => .done (requested c)

/-- Its request is accepted for every answer. -/
example : ∀ c : Toy.K, (requests Toy.tr key.ipk requester).Wins (q := 1) (fun _ => c) (requested c)
    [(requestQuestion Toy.tr key.ipk (requested 1), c)] := by
  intro c
  refine ⟨?_, ?_⟩
  · revert c; decide +kernel
  · show _ = _
    revert c; decide +kernel

/-- Two plays give away its secret, which is 4. -/
example : ((requests Toy.tr key.ipk requester).fork (q := 1) (fun _ => (3 : Toy.K)) (fun _ => (4 : Toy.K))).map
    (fun r => userSecret Toy.suite r.1.1 r.2.1) = some (4 : Toy.K) := by decide +kernel

end Ex

end Idemix.Fork
