import Verif.Msp.PropsPrincipal
import Verif.Aries.PropsPanic

/-!
# Panics of an MSP: C53, C61

An MSP of the dlog scheme does not panic on identities that it has deserialized. An MSP of the aries scheme does.

Concrete cases that meet the hypotheses of the theorems are in `Verif/Tools/Examples.lean`.
-/

namespace Idemix.Msp

open Provider (Backend Key SigOpts NymSigOpts SignerOpts ImportOpts DerivOpts Raw)

variable {W : World}

open Provider Provider.Spec in
theorem verify_panic {p : CspId} {e : Bool} {k : Option (Key (W.B p))} {sig : Bytes} {o : SigOpts (W.B p)} :
    Provider.verify (Provider.provider (W.B p) e) k sig [] (some (.sig o)) = .panic ↔
      sig ≠ [] ∧ ∃ ipk rpk, k = some (.issuerPk ipk) ∧ (o.revocationPK = rpk.map fun r => .revPk r) ∧
        (W.B p).verify ipk sig [] o.attributes o.rhIndex o.eidIndex o.skIndex rpk o.epoch o.verType o.metadata =
          .panic := by
  obtain ⟨h1, h2⟩ := C46_verify_dispatch_partial (B := W.B p) e k sig [] (some (.sig o)) (by simp [NoHandler])
  have key : ∀ {x : Res Bool} {y : Res Unit}, Agree x (y >>= fun _ => .ok true) → (x = .panic ↔ y = .panic) := by
    intro x y h
    cases x <;> cases y <;> simp [Agree] at h ⊢
  by_cases hs : sig = []
  · obtain ⟨m, hm⟩ := h1 hs
    rw [hm]; simp [hs]
  · have h2 := h2 hs
    constructor
    · intro h
      cases k with
      | none => rw [h] at h2; simp [verifyCall, Obeys] at h2
      | some k =>
        cases k with
        | issuerPk ipk =>
          cases hr : o.revocationPK with
          | none =>
            simp only [verifyCall, hr, Option.map_some, Obeys] at h2
            exact ⟨hs, ipk, none, rfl, rfl, (key h2).mp h⟩
          | some r =>
            cases r with
            | revPk rpk =>
              simp only [verifyCall, hr, Option.map_some, Obeys] at h2
              exact ⟨hs, ipk, some rpk, rfl, rfl, (key h2).mp h⟩
            | _ =>
              rw [h] at h2
              simp only [verifyCall, hr, Option.map_none, Obeys] at h2; obtain ⟨m, hm⟩ := h2; cases hm
        | _ => rw [h] at h2; simp only [verifyCall, Option.map_none, Obeys] at h2; obtain ⟨m, hm⟩ := h2; cases hm
    · rintro ⟨-, ipk, rpk, rfl, hr, hv⟩
      have hc : verifyCall (W.B p) sig [] (some (.issuerPk ipk)) (some (.sig o)) = some .panic := by
        cases rpk with
        | none => simp only [Option.map_none] at hr; simp only [verifyCall, hr, hv]
        | some r => simp only [Option.map_some] at hr; simp only [verifyCall, hr, hv]
      rw [hc] at h2
      simp only [Option.map_some, Obeys] at h2
      exact (key h2).mpr rfl

/-- C53, C61, violated: an MSP of the aries scheme panics when it validates an identity whose proof is three points
long, whatever its pseudonym, unit and role. -/
theorem C53_aries_violated (P : Platform) (c : CurveId) (h : Heap P.world) (me : Ref) (i : Identity P.world)
    (hi : i.msp = me) (hc : (h me).csp = some ⟨true, c⟩) (ipk : Aries.IPK (P.S c))
    (hk : (h me).ipk = some ⟨⟨true, c⟩, .issuerPk (.val ipk)⟩) (rpk : Option (P.env c).dsa.Pk)
    (hr : (h me).revocationPK = rpk.map fun k => ⟨⟨true, c⟩, .revPk k⟩) (x y z : (P.S c).G1)
    (hp : i.proof = Aries.Spec.crashBytes x y z) : validate h me (.identity i) = .panic := by
  have hne : i.proof ≠ [] := by
    rw [hp]
    intro e
    have := Aries.Wire.sigCodec_rt (Aries.Spec.crash x y z) (by simp [Aries.Spec.crash, Aries.Signature.Wire, Proto.Int32, Proto.Int64])
    rw [show Proto.encode (Aries.Wire.sig (Aries.Spec.crash x y z)) = [] from e] at this
    cases this
  have hv : (P.world.B ⟨true, c⟩).verify (.val ipk) i.proof []
      [bytesAttr i.ou.ou, roleAttr i.role, hiddenAttr, hiddenAttr] 3 2 0 rpk (h me).epoch .basic none = .panic := by
    rw [hp]
    refine Aries.C61_verify_violated (P.lib c) x y z ipk [] _ ?_ 3 2 0 (by simp) (by simp) none .basic (.inl rfl)
    intro a ha
    simp only [List.mem_cons, List.not_mem_nil, or_false] at ha
    rcases ha with rfl | rfl | rfl | rfl <;> simp [bytesAttr, roleAttr, intAttr, hiddenAttr, Aries.Spec.WellTyped]
  have hver := (verify_panic (W := P.world) (p := ⟨true, c⟩) (e := (h me).exportable)
    (k := some (.issuerPk (.val ipk))) (sig := i.proof)
    (o := { nym := none, issuerPK := none, credential := [],
            attributes := [bytesAttr i.ou.ou, roleAttr i.role, hiddenAttr, hiddenAttr], rhIndex := 3,
            eidIndex := 2, skIndex := 0, cri := [], epoch := (h me).epoch,
            revocationPK := (h me).revocationPK.map fun k => k.under ⟨true, c⟩, sigType := .standard,
            metadata := none, verType := .basic })).mpr
    ⟨hne, .val ipk, rpk, rfl, by rw [hr]; cases rpk <;> simp [AnyKey.under_self] <;> rfl, hv⟩
  simp only [validate, AnyIdentity.get?, Res.ofOption_some, Res.ok_bind, Identity.mspIdentifier, hi, IMsp.getIdentifier,
    ne_eq, not_true_eq_false, decide_false, Res.guardErr_false, Identity.verifyProof, IMsp.provider, hc, Res.deref_some,
    hk, Option.map_some, AnyKey.under_self, IMsp.registry]
  rw [hver]
  rfl

/-- C61, violated: there is a message that any peer can send that crashes an MSP of the aries scheme. Take any
identity of the MSP, replace the proof and serialize it: the MSP deserializes it and panics when it validates it. The
hypothesis on the pseudonym is C52 (`C52_aries_nym`). -/
theorem C61_remote_violated (P : Platform) (c : CurveId) (h : Heap P.world) (me : Ref) (i : Identity P.world)
    (hi : i.msp = me) (hc : (h me).csp = some ⟨true, c⟩) (he : (h me).exportable = true) (ipk : Aries.IPK (P.S c))
    (hk : (h me).ipk = some ⟨⟨true, c⟩, .issuerPk (.val ipk)⟩) (rpk : Option (P.env c).dsa.Pk)
    (hr : (h me).revocationPK = rpk.map fun k => ⟨⟨true, c⟩, .revPk k⟩) (x y z : (P.S c).G1)
    (hn : i.nym.csp = ⟨true, c⟩) (hrt : Provider.Spec.RoundTrips (P.world.B i.nym.csp) i.nym.key (.nymPk true)) (hw : i.role.Wire) (raw b : Bytes) (hraw : i.nym.key.bytes = .ok raw)
    (h2 : 2 ≤ raw.length)
    (hb : Identity.serialize h { i with proof := Aries.Spec.crashBytes x y z } = .ok b) :
    ∃ j, deserializeIdentity h me b = .ok j ∧ validate h me (.identity j) = .panic := by
  refine ⟨_, C55_round_trip h me { i with proof := Aries.Spec.crashBytes x y z } b raw hb (by rw [← hi])
    (by rw [hc, hn]) he hraw h2 hrt hw, C53_aries_violated P c h me _ rfl hc ipk hk rpk hr x y z rfl⟩

/-- C53. An MSP of the dlog scheme does not panic on an identity that it has deserialized, whatever the bytes were:
neither when it validates the identity, nor when it evaluates a principal for it. -/
theorem C53_dlog_no_panic (P : Platform) (c : CurveId) (h : Heap P.world) (me : Ref) (b : Bytes) (i : Identity P.world)
    (hc : (h me).csp = some ⟨false, c⟩) (hd : deserializeIdentity h me b = .ok i) (q : Principal) :
    validate h me (.identity i) ≠ .panic ∧ satisfiesPrincipal h me (.identity i) (some q) ≠ .panic := by
  obtain ⟨hi, -, -, hraw, -⟩ := C55_deserialized h me b i hd
  have hv : validate h me (.identity i) ≠ .panic := by
    intro hv
    simp only [validate, AnyIdentity.get?, Res.ofOption_some, Res.ok_bind, Identity.mspIdentifier, hi,
      IMsp.getIdentifier, ne_eq, not_true_eq_false, decide_false, Res.guardErr_false, Identity.verifyProof,
      IMsp.provider, hc, Res.deref_some] at hv
    revert hv
    generalize hx : Provider.verify _ _ _ _ _ = x
    cases x with
    | panic =>
      obtain ⟨-, ipk, rpk, -, -, hv⟩ := verify_panic.mp hx
      intro
      exact (Dlog.C22_bridge_never_panics (P.env c)).2.2.2.2.2.2.2.2.1 _ _ _ _ _ _ _ _ _ _ hv
    | err m => intro hv; cases hv
    | ok v =>
      obtain ⟨rfl, -⟩ := verify_sig_ok.mp hx
      intro hv; cases hv
  exact ⟨hv, C53_no_panic_partial h me i q hv (by rw [hraw]; simp)⟩

end Idemix.Msp
