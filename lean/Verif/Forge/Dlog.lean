import Verif.Forge.Core
import Verif.Dlog.PropsVerify

/-!
# The reduction for the dlog scheme

`Spec.Forger` is any strategy to get credentials from an issuer and come up with one more. `Spec.reduction` plays the issuer
without its secret key.
-/

namespace Idemix.Forge

open Idemix.Dlog
open Idemix (Suite Res Bytes)

variable {S : Suite} (T : Translator S)

namespace Spec

/-- What a user asks the issuer for: a request, the secret key it is made with, and attributes. -/
structure Ask (S : Suite) where
  req : CredRequest
  sk : S.F
  attrs : List S.F

/-- A credential with the secret key and the attributes it is for. -/
structure Forgery (S : Suite) where
  A : S.G1
  e : S.F
  s : S.F
  sk : S.F
  attrs : List S.F

/-- What to ask for next, and what to come up with in the end, both from the public key and the credentials so far. -/
structure Forger (S : Suite) where
  ask : IssuerPublicKey → List Credential → Ask S
  forge : IssuerPublicKey → List Credential → Forgery S

/-- The credentials of an issuer for whom `issue i` is the answer to the question number `i`. -/
def Forger.play (f : Forger S) (ipk : IssuerPublicKey) (issue : Nat → Ask S → Res Credential) : Nat → Res (List Credential)
  | 0 => .ok []
  | n + 1 => do
    let creds ← f.play ipk issue n
    let cred ← issue n (f.ask ipk creds)
    pure (creds ++ [cred])

/-- The issuer: `newCredential` with the random choices `es`, `ss`. -/
def issuer (key : IssuerKey) (es ss : List S.F) (i : Nat) (a : Ask S) : Res Credential :=
  newCredential T key a.req a.attrs (es[i]?.getD 0) (ss[i]?.getD 0)

/-- What is signed. -/
def Ask.messages (a : Ask S) : List S.F := a.sk :: a.attrs
def Forgery.messages (a : Forgery S) : List S.F := a.sk :: a.attrs

/-- The coins of the reduction: those of `Coins`, an exponent for `BarG1`, and the proof in the public key. The hash function is
programmed to have `proofC` as its value for the proof, as usual for proofs in the random oracle model. -/
structure KeyCoins (S : Suite) where
  sig : Coins S.F
  bar : S.F
  proofC : S.F
  proofS : S.F

/-- The public key of the reduction, from the points `P = [y, x • y, …]` and `W = x • g₂`. -/
def simulatedKey (m : IpkMarshal) (names : List Bytes) (W : S.G2) (P : List S.G1) (c : KeyCoins S) : Res IssuerPublicKey := do
  let ipk : IssuerPublicKey :=
    { attributeNames := names
      hSk := some (T.g1ToProto (c.sig.point P (c.sig.us.headD 0) (c.sig.vs.headD 0)))
      hRand := some (T.g1ToProto (c.sig.point P c.sig.u0 c.sig.v0))
      hAttrs := List.zipWith (fun u v => some (T.g1ToProto (c.sig.point P u v))) c.sig.us.tail c.sig.vs.tail
      w := some (T.g2ToProto W)
      barG1 := some (T.g1ToProto (c.bar • c.sig.point P c.sig.u c.sig.v))
      barG2 := some (T.g1ToProto (c.bar • c.sig.point P.tail c.sig.u c.sig.v))
      proofC := S.zrBytes c.proofC
      proofS := S.zrBytes c.proofS
      hash := [] }
  let ser ← m ipk
  pure { ipk with hash := S.zrBytes (S.hashToZr ser) }

/-- A credential of the reduction: what the issuer checks, and a credential with the `A` of `Coins.sign`. -/
def simulatedIssuer (ipk : IssuerPublicKey) (P : List S.G1) (c : KeyCoins S) (i : Nat) (a : Ask S) : Res Credential := do
  let cred ← newCredential T ⟨[], ipk⟩ a.req a.attrs (c.sig.es[i]?.getD 0) (c.sig.s i a.messages)
  pure { cred with a := some (T.g1ToProto (c.sig.sign P i a.messages)) }

/-- The reduction. If it meets an `e` with `x + e = 0` it knows `x`. -/
def reduction (m : IpkMarshal) (names : List Bytes) (f : Forger S) (W : S.G2) (P : List S.G1) (c : KeyCoins S) :
    Res (Option (S.F × S.G1)) := do
  let ipk ← simulatedKey T m names W P c
  let creds ← f.play ipk (simulatedIssuer T ipk P c) c.sig.es.length
  let z := f.forge ipk creds
  pure (if z.e • S.genG2 + W = 0 then some (1 + z.e, P.headD 0) else c.sig.solve P z.A z.e z.s z.messages)

/-- A solution of the strong Diffie–Hellman problem for the points `y, x • y, x² • y, …` and `x • g₂`: some `c` and
`(x + c)⁻¹ • y`. -/
def Solves (x : S.F) (y : S.G1) (z : S.F × S.G1) : Prop := (x + z.1) • z.2 = y

/-- The coins that correspond to the coins of an issuer with the secret key `ρ.isk`. -/
def keyCoins (ρ : IssuerRand S) (key : IssuerPublicKey) (j : Nat) (es ss : List S.F) (h : Hidden S.F) (mj : List S.F) :
    KeyCoins S :=
  { sig := coinsFor ρ.isk j es ss ρ.hRand (ρ.hSk :: ρ.attrs) h mj
    bar := ρ.barG1
    proofC := S.zrOfBytes key.proofC
    proofS := S.zrOfBytes key.proofC * ρ.isk + ρ.r }

end Spec

open Spec

variable {T}

/-! ## Plays -/

theorem play_length {f : Forger S} {ipk : IssuerPublicKey} {issue : Nat → Ask S → Res Credential} {n : Nat}
    {creds : List Credential} (h : f.play ipk issue n = .ok creds) : creds.length = n := by
  induction n generalizing creds with
  | zero => cases h; rfl
  | succ n ih =>
    simp only [Forger.play, Res.bind_eq_ok, Res.pure_def, Res.ok.injEq] at h
    obtain ⟨cs, hc, cred, -, rfl⟩ := h
    simp [ih hc]

theorem play_take {f : Forger S} {ipk : IssuerPublicKey} {issue : Nat → Ask S → Res Credential} {n : Nat}
    {creds : List Credential} (h : f.play ipk issue n = .ok creds) {k : Nat} (hk : k ≤ n) :
    f.play ipk issue k = .ok (creds.take k) := by
  induction n generalizing creds with
  | zero => obtain rfl : k = 0 := by omega
            cases h; rfl
  | succ n ih =>
    by_cases hkn : k = n + 1
    · subst hkn
      rw [List.take_of_length_le (by rw [play_length h]), h]
    · simp only [Forger.play, Res.bind_eq_ok, Res.pure_def, Res.ok.injEq] at h
      obtain ⟨cs, hc, cred, -, rfl⟩ := h
      rw [ih hc (by omega), List.take_append_of_le_length (by rw [play_length hc]; omega)]

theorem play_answer {f : Forger S} {ipk : IssuerPublicKey} {issue : Nat → Ask S → Res Credential} {n : Nat}
    {creds : List Credential} (h : f.play ipk issue n = .ok creds) {k : Nat} (hk : k < n) :
    ∃ cred, issue k (f.ask ipk (creds.take k)) = .ok cred := by
  have h1 := play_take h (show k + 1 ≤ n by omega)
  simp only [Forger.play, Res.bind_eq_ok, Res.pure_def, Res.ok.injEq] at h1
  obtain ⟨cs, hc, cred, hcr, -⟩ := h1
  rw [play_take h (by omega)] at hc
  cases hc
  exact ⟨cred, hcr⟩

theorem play_congr {f : Forger S} {ipk : IssuerPublicKey} {issue issue' : Nat → Ask S → Res Credential} {n : Nat}
    {creds : List Credential} (h : f.play ipk issue n = .ok creds)
    (hi : ∀ k < n, issue' k (f.ask ipk (creds.take k)) = issue k (f.ask ipk (creds.take k))) :
    f.play ipk issue' n = .ok creds := by
  suffices H : ∀ k ≤ n, f.play ipk issue' k = .ok (creds.take k) by
    rw [H n le_rfl, List.take_of_length_le (by rw [play_length h])]
  intro k hk
  induction k with
  | zero => rfl
  | succ k ih =>
    have h1 := play_take h hk
    simp only [Forger.play, play_take h (show k ≤ n by omega), Res.ok_bind] at h1
    simp only [Forger.play, ih (by omega), Res.ok_bind, hi k (by omega)]
    exact h1

/-! ## The view of the forger -/

theorem newCredential_isk {key : IssuerKey} {isk : Bytes} {req : CredRequest} {attrs : List S.F} {e s : S.F} {cred : Credential}
    (h : newCredential T key req attrs e s = .ok cred) :
    ∃ nym hRand hAttrs, T.g1FromProto req.nym = .ok nym ∧ T.g1FromProto key.ipk.hRand = .ok hRand ∧
      parseAttrs T key.ipk.hAttrs = .ok hAttrs ∧ attrs.length = key.ipk.attributeNames.length ∧
      cred.a = some (T.g1ToProto ((S.zrOfBytes key.isk + e)⁻¹ • (S.genG1 + nym + s • hRand + S.lin attrs hAttrs))) ∧
      ∃ a, newCredential T ⟨isk, key.ipk⟩ req attrs e s = .ok { cred with a := a } := by
  simp only [newCredential, Res.bind_eq_ok, Res.guardErr_eq_ok, decide_eq_false_iff_not, ne_eq,
    Decidable.not_not, Res.pure_def, Res.ok.injEq] at h
  obtain ⟨_, h1, _, h2, nym, h3, hRand, h4, hAttrs, h5, b, h6, rfl⟩ := h
  have hle : attrs.length ≤ hAttrs.length := by
    by_contra hlt
    rw [addPairs_panic _ _ _ (by omega)] at h6
    cases h6
  have hb := h6
  rw [addPairs_ok _ _ _ hle] at hb
  cases hb
  refine ⟨nym, hRand, hAttrs, h3, h4, h5, h2, rfl,
    some (T.g1ToProto ((S.zrOfBytes isk + e)⁻¹ • (S.genG1 + nym + s • hRand + S.lin attrs hAttrs))), ?_⟩
  simp only [newCredential, h1, Res.ok_bind, h2, ne_eq, not_true_eq_false, decide_false, Res.guardErr_false, h3, h4, h5, h6,
    Res.pure_def]

theorem lin_multiples (ms bs : List S.F) (g : S.G1) : S.lin ms (bs.map (· • g)) = dot ms bs • g := by
  induction ms generalizing bs with
  | nil => simp [dot]
  | cons m ms ih =>
    cases bs with
    | nil => simp [dot]
    | cons b bs => simp only [List.map_cons, Suite.lin_cons, ih, dot]; module

/-- What a key pair from `newIssuerKey` consists of. -/
theorem newIssuerKey_parts {m : IpkMarshal} {names : List Bytes} {ρ : IssuerRand S} {key : IssuerKey}
    (h : newIssuerKey T m names ρ = .ok key) :
    ∃ c ser, m (unhashedIpk T names ρ c) = .ok ser ∧ ρ.attrs.length = names.length ∧ S.zrOfBytes key.isk = ρ.isk ∧
      key.ipk = { unhashedIpk T names ρ c with hash := S.zrBytes (S.hashToZr ser) } ∧ S.zrOfBytes key.ipk.proofC = c ∧
      Reads T key.ipk ⟨ρ.hSk • S.genG1, ρ.hRand • S.genG1, ρ.attrs.map (· • S.genG1), ρ.isk • S.genG2⟩ := by
  simp only [newIssuerKey, ipkProofData_eq, Res.ok_bind, Res.bind_eq_ok, Res.guardErr_eq_ok, Res.guardPanic_eq_ok, Res.pure_def,
    Res.ok.injEq, bne_eq_false_iff_eq] at h
  obtain ⟨_, -, _, hl, ser, hs, rfl⟩ := h
  refine ⟨_, ser, hs, hl, by simp, rfl, by simp [unhashedIpk], ⟨by simp [unhashedIpk], by simp [unhashedIpk], ?_,
    by simp [unhashedIpk]⟩⟩
  have := parseAttrs_toProto (T := T) (ρ.attrs.map (· • S.genG1))
  simpa [unhashedIpk, Function.comp_def] using this

end Idemix.Forge
