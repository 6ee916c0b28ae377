import Verif.Provider.PropsStore
import Verif.Provider.Instances
import Verif.Dlog.PropsBridge2
import Verif.Aries.PropsSign

/-!
# C51 Export of secret keys, C52 round trips through export and import

Concrete cases meeting the hypotheses of the theorems are in `Verif/Provider/Examples.lean`.
-/

namespace Idemix.Provider

variable {S : Suite} {B : Backend S} {σ : Type}

open Spec

/-! ## C51 -/

namespace Spec

/-- The keys that hold a secret: user, pseudonym, issuer and revocation secret keys. -/
def Secret (k : Key B) : Prop :=
  (∃ sk e, k = .userSk sk e) ∨ (∃ ski sk pk e, k = .nymSk ski sk pk e) ∨ (∃ sk e, k = .issuerSk sk e) ∨
    (∃ sk e, k = .revSk sk e)

/-- A key whose secret does not leave it: it holds none, or exporting it is an error. -/
def Sealed (k : Key B) : Prop := Secret k → ∃ m, k.bytes = .err m

/-- All keys a store can return are sealed. -/
def SealedStore (ks : KeyStore B σ) (s : σ) : Prop := ∀ ski k, ks.get s ski = .ok k → Sealed k

/-- Everything but a look-up. -/
def Makes : Op B → Prop
  | .get _ => False
  | _ => True

end Spec

/-- C51. `Private` tells the keys that hold a secret from those that do not. -/
theorem C51_private (k : Key B) : k.private = true ↔ Secret k := by
  cases k <;> simp [Key.private, Secret]

theorem sealed_of_flag {k : Key B} (h : ∃ x : Key B, k = x ∧ ((∃ a, x = .userSk a false) ∨ (∃ a b c, x = .nymSk a b c false) ∨
    (∃ a, x = .issuerSk a false) ∨ (∃ a, x = .revSk a false) ∨ x.private = false)) : Sealed k := by
  obtain ⟨x, rfl, ⟨a, rfl⟩ | ⟨a, b, c, rfl⟩ | ⟨a, rfl⟩ | ⟨a, rfl⟩ | h⟩ := h
  · exact fun _ => ⟨_, rfl⟩
  · exact fun _ => ⟨_, rfl⟩
  · exact fun _ => ⟨_, rfl⟩
  · exact fun _ => ⟨_, rfl⟩
  · intro hp; rw [(C51_private _).mpr hp] at h; cases h

theorem gen_sealed (o : Option GenOpts) (ρ : B.Rnd) (k : Key B) (h : keyGenCall B false ρ o = some (.ok k)) :
    Sealed k := by
  apply sealed_of_flag
  refine ⟨k, rfl, ?_⟩
  rcases o with _ | o
  · cases h
  · cases o <;> simp only [keyGenCall, Option.some.injEq, Res.bind_eq_ok, Res.ok.injEq, reduceCtorEq] at h
    · obtain ⟨a, -, rfl⟩ := h; exact .inr (.inr (.inl ⟨a, rfl⟩))
    · obtain ⟨a, -, rfl⟩ := h; exact .inl ⟨a, rfl⟩
    · obtain ⟨a, -, rfl⟩ := h; exact .inr (.inr (.inr (.inl ⟨a, rfl⟩)))

theorem deriv_sealed (k0 : Option (Key B)) (o : Option (DerivOpts B)) (ρ : B.Rnd) (k : Key B)
    (h : keyDerivCall B false ρ k0 o = some (.ok k)) : Sealed k := by
  apply sealed_of_flag
  refine ⟨k, rfl, ?_⟩
  unfold keyDerivCall at h
  split at h
  · simp only [Option.some.injEq, Res.bind_eq_ok, Res.ok.injEq] at h
    obtain ⟨a, -, rfl⟩ := h
    exact .inr (.inl ⟨_, _, _, rfl⟩)
  · cases h

theorem imp_sealed (raw : Option Raw) (o : Option ImportOpts) (k : Key B)
    (h : importCall B false raw o = some (.ok k)) : Sealed k := by
  apply sealed_of_flag
  refine ⟨k, rfl, ?_⟩
  unfold importCall at h
  split at h
  · next b bs =>
    generalize b :: bs = l at h
    unfold keyImportCall at h
    split at h
    · simp only [Option.some.injEq, Res.bind_eq_ok] at h
      obtain ⟨pk, -, h⟩ := h
      split at h
      · cases h; exact .inr (.inr (.inr (.inr rfl)))
      · simp only [Res.bind_eq_ok, Res.ok.injEq] at h
        obtain ⟨_, -, rfl⟩ := h; exact .inr (.inr (.inr (.inr rfl)))
    · simp only [Option.some.injEq, Res.bind_eq_ok, Res.ok.injEq] at h
      obtain ⟨a, -, rfl⟩ := h; exact .inr (.inr (.inl ⟨a, rfl⟩))
    · simp only [Option.some.injEq, Res.bind_eq_ok, Res.ok.injEq] at h
      obtain ⟨a, -, rfl⟩ := h; exact .inl ⟨a, rfl⟩
    · simp only [Option.some.injEq, Res.bind_eq_ok, Res.ok.injEq] at h
      obtain ⟨a, -, rfl⟩ := h; exact .inr (.inr (.inr (.inr rfl)))
    · simp only [Option.some.injEq, Res.bind_eq_ok, Res.ok.injEq] at h
      obtain ⟨a, -, rfl⟩ := h; exact .inr (.inl ⟨_, _, _, rfl⟩)
    · split at h
      · cases h
      · simp only [Option.some.injEq, Res.bind_eq_ok] at h
        obtain ⟨pk, -, h⟩ := h
        split at h
        · cases h
        · cases h; exact .inr (.inr (.inr (.inr rfl)))
    · simp only [Option.some.injEq, Res.bind_eq_ok, Res.ok.injEq] at h
      obtain ⟨a, -, rfl⟩ := h; exact .inr (.inr (.inr (.inl ⟨a, rfl⟩)))
    · cases h
  · cases h

theorem kept_ok (ks : KeyStore B σ) {s : σ} {eph : Bool} {out : σ × Res (Key B)} {c : Call (Key B)} {k : Key B}
    (h : Kept ks s eph out c) (hk : out.2 = .ok k) : c = some (.ok k) := by
  rcases c with _ | k' | m | _
  · obtain ⟨-, m, h⟩ := h; rw [h] at hk; cases hk
  · cases eph
    · simp only [Kept, Bool.false_eq_true, if_false] at h
      obtain ⟨-, h⟩ := h
      split at h
      · rw [h] at hk; cases hk; rfl
      · obtain ⟨m, h⟩ := h; rw [h] at hk; cases hk
      · rw [h] at hk; cases hk
    · simp only [Kept, if_true] at h
      rw [h] at hk; cases hk; rfl
  · obtain ⟨-, m, h⟩ := h; rw [h] at hk; cases hk
  · simp only [Kept] at h; rw [h] at hk; cases hk

theorem step_made_sealed (ks : KeyStore B σ) (s : σ) (op : Op B) (hop : Makes op) (k : Key B)
    (h : (step ks (provider B false) s op).2 = .ok k) : Sealed k := by
  cases op with
  | gen o ρ => exact gen_sealed o ρ k (kept_ok ks (C46_C47_keyGen ks false s o ρ) h)
  | deriv k0 o ρ => exact deriv_sealed k0 o ρ k (kept_ok ks (C46_C47_keyDeriv ks false s k0 o ρ) h)
  | imp raw o => exact imp_sealed raw o k (kept_ok ks (C46_C47_keyImport ks false s raw o) h)
  | get ski => exact hop.elim

theorem leaves_sealed (op : Op B) (k : Key B) (h : leaves B false op = some k) : Sealed k := by
  have last : ∀ c : Call (Key B), lasting c = some k → c = some (.ok k) := by
    intro c hc
    rcases c with _ | k' | m | _ <;> simp_all [lasting]
  cases op with
  | gen o ρ =>
    simp only [leaves] at h
    split at h
    · cases h
    · exact gen_sealed o ρ k (last _ h)
  | deriv k0 o ρ =>
    simp only [leaves] at h
    split at h
    · cases h
    · exact deriv_sealed k0 o ρ k (last _ h)
  | imp raw o =>
    simp only [leaves] at h
    split at h
    · cases h
    · exact imp_sealed raw o k (last _ h)
  | get ski => cases h

/-- C51. In a provider configured as non-exportable, whatever the key store does and whatever happened before, no
secret key returned by generation, derivation or import yields its bytes. -/
theorem C51_made_keys_sealed (ks : KeyStore B σ) (s : σ) (ops : List (Op B)) (i : Nat) (op : Op B) (k : Key B)
    (hop : ops[i]? = some op) (hm : Makes op) (hk : (run ks (provider B false) s ops).2[i]? = some (.ok k)) :
    Sealed k := by
  induction ops generalizing s i with
  | nil => simp at hop
  | cons op0 ops ih =>
    have e : (run ks (provider B false) s (op0 :: ops)).2 = (step ks (provider B false) s op0).2 ::
        (run ks (provider B false) (step ks (provider B false) s op0).1 ops).2 := rfl
    rw [e] at hk
    cases i with
    | zero =>
      simp only [List.getElem?_cons_zero, Option.some.injEq] at hop hk
      subst hop
      exact step_made_sealed ks s op0 hm k hk
    | succ i =>
      simp only [List.getElem?_cons_succ] at hop hk
      exact ih _ _ hop hk

/-- C51. The same for look-ups, over a file-based store whose directory held no exportable secret at the start: after
any history no secret key returned by any operation yields its bytes. -/
theorem C51_history_sealed (dir : Bytes) (d : Disk)
    (hd : SealedStore (kvsStore B (fileKvs dir)) d)
    (hfree : ∀ ski, d.isDir (joinPath dir (hexOf ski)) = false)
    (ops : List (Op B)) (k : Key B)
    (hk : .ok k ∈ (run (kvsStore B (fileKvs dir)) (provider B false) d ops).2) : Sealed k := by
  obtain ⟨i, hi⟩ := List.getElem?_of_mem hk
  have hlen : ∀ (s : Disk) (ops : List (Op B)),
      (run (kvsStore B (fileKvs dir)) (provider B false) s ops).2.length = ops.length := by
    intro s ops
    induction ops generalizing s with
    | nil => rfl
    | cons op ops ih => exact congrArg (· + 1) (ih _)
  have hlt : i < ops.length := by
    rw [← hlen d ops]
    exact (List.getElem?_eq_some_iff.mp hi).1
  by_cases hm : Makes ops[i]
  · exact C51_made_keys_sealed _ d ops i _ k (List.getElem?_eq_getElem hlt) hm hi
  · obtain ⟨ski, hski⟩ : ∃ ski, ops[i] = .get ski := by
      generalize ops[i] = op at hm
      cases op with
      | get ski => exact ⟨ski, rfl⟩
      | _ => exact absurd trivial hm
    have prefix_ : ∀ (s : Disk) (ops : List (Op B)) (i : Nat), ops[i]? = some (.get ski) →
        (run (kvsStore B (fileKvs dir)) (provider B false) s ops).2[i]? =
          some (getKey (kvsStore B (fileKvs dir))
            (run (kvsStore B (fileKvs dir)) (provider B false) s (ops.take i)).1 ski) := by
      intro s ops
      induction ops generalizing s with
      | nil => intro i h; simp at h
      | cons op ops ih =>
        intro i h
        cases i with
        | zero =>
          simp only [List.getElem?_cons_zero, Option.some.injEq] at h
          subst h
          rfl
        | succ i =>
          simp only [List.getElem?_cons_succ] at h
          exact ih (step (kvsStore B (fileKvs dir)) (provider B false) s op).1 i h
    rw [prefix_ d ops i (by rw [List.getElem?_eq_getElem hlt, hski])] at hi
    rw [C48_provider_history_partial (fileKvs dir) _ _ (C48_files_keep dir d.isDir) d rfl false (ops.take i)
      (fun _ _ _ _ id _ => hfree id) ski] at hi
    split at hi
    · next k' hl =>
      simp only [Option.some.injEq, Res.ok.injEq] at hi
      subst hi
      have hmem := List.mem_of_getLast? hl
      obtain ⟨op, -, hop⟩ := List.mem_filterMap.mp (List.mem_filter.mp hmem).1
      exact leaves_sealed op k' hop
    · have : (kvsStore B (fileKvs dir)).get d ski = .ok k := by
        simp only [Option.some.injEq, getKey] at hi
        generalize (kvsStore B (fileKvs dir)).get d ski = x at hi
        cases x <;> simp_all [wrapErr]
      exact hd ski k this

/-- C51. Exporting a public key does not depend on the configuration: pseudonyms always export, issuer and
revocation keys do when their encoding succeeds. -/
theorem C51_public_keys (k pk : Key B) (h : k.publicKey = .ok pk) :
    pk.private = false ∧
    ((∃ n, pk = .nymPk n ∧ pk.bytes = .ok ((B.T.g1ToProto n).x ++ (B.T.g1ToProto n).y)) ∨
      (∃ i, pk = .issuerPk i ∧ pk.bytes = B.ipkBytes i) ∨ (∃ r, pk = .revPk r ∧ pk.bytes = B.ec.pkix r)) := by
  cases k with
  | issuerSk sk e =>
    simp only [Key.publicKey, Res.bind_eq_ok, Res.pure_def, Res.ok.injEq] at h
    obtain ⟨p, -, rfl⟩ := h
    exact ⟨rfl, .inr (.inl ⟨_, rfl, rfl⟩)⟩
  | nymSk | nymPk => cases h; exact ⟨rfl, .inl ⟨_, rfl, rfl⟩⟩
  | issuerPk => cases h; exact ⟨rfl, .inr (.inl ⟨_, rfl, rfl⟩)⟩
  | revSk | revPk => cases h; exact ⟨rfl, .inr (.inr ⟨_, rfl, rfl⟩)⟩
  | _ => cases h

/-- C51. Issuer public keys that the library generates or imports export: dlog. -/
theorem C51_dlog_issuer_exports (E : Dlog.Env S) (ec : EcKeys E.dsa) (raw : Bytes) (names : List Bytes)
    (pk : (dlogBackend E ec).IPK) (h : (dlogBackend E ec).issuerPkFromBytes raw names = .ok pk) :
    ∃ b, (Key.issuerPk (B := dlogBackend E ec) pk).bytes = .ok b := by
  obtain ⟨k, hk, h1⟩ := (Res.bind_eq_ok (x := E.newPublicKeyFromBytes raw names)
    (f := fun k => .ok (Dyn.val k))).mp h
  cases h1
  simp only [Dlog.Env.newPublicKeyFromBytes, Res.recovered_eq_ok, Res.bind_eq_ok, Res.pure_def, Res.ok.injEq] at hk
  obtain ⟨i0, -, i1, -, i2, h2, -, -, rfl⟩ := hk
  have h3 := Dlog.wrapErr_eq_ok.mp h2
  have h4 := Dlog.check_setHash h3
  have h5 := Dlog.setHash_names h4
  simp only [Dlog.setHash, Res.bind_eq_ok] at h4
  obtain ⟨ser, h6, -⟩ := h4
  have h7 := Dlog.ipk_marshal_ok h6
  exact ⟨_, Dlog.ipk_marshal (i := i2) (by rw [h5]; exact h7)⟩

/-- C51. Issuer public keys of the aries scheme export. -/
theorem C51_aries_issuer_exports (L : Bbs.Lib S) (T : Translator S) (dsa : Ecdsa) (ec : EcKeys dsa)
    (pk : Aries.IPK S) :
    (Key.issuerPk (B := ariesBackend L T dsa ec) (.val pk)).bytes = .ok pk.bytes := rfl

/-! ## C52 -/

namespace Spec

/-- The bytes exported from a key import to the same key in an exportable provider, whatever is in the key store. -/
def RoundTrips (B : Backend S) (k : Key B) (o : ImportOpts) : Prop :=
  ∃ b, k.bytes = .ok b ∧ ∀ (σ : Type) (ks : KeyStore B σ) (s : σ),
    keyImport ks (provider B true) s (some (.bytes b)) (some o) = (s, .ok k)

/-- The exported bytes are refused. -/
def Refused (B : Backend S) (k : Key B) (o : ImportOpts) : Prop :=
  ∃ b, k.bytes = .ok b ∧ ∀ (σ : Type) (ks : KeyStore B σ) (s : σ),
    (keyImport ks (provider B true) s (some (.bytes b)) (some o)).1 = s ∧
      ∃ m, (keyImport ks (provider B true) s (some (.bytes b)) (some o)).2 = .err m

end Spec

theorem import_of_call {b : Bytes} {o : ImportOpts} {k : Key B} (he : importEphemeral (some o) = true)
    (hb : b ≠ []) (hc : keyImportCall B true b (some o) = some (.ok k)) (ks : KeyStore B σ) (s : σ) :
    keyImport ks (provider B true) s (some (.bytes b)) (some o) = (s, .ok k) := by
  have := C46_C47_keyImport ks true s (some (.bytes b)) (some o)
  cases b with
  | nil => exact absurd rfl hb
  | cons x xs =>
    simp only [importCall, hc, he, Kept, if_true] at this
    exact this

theorem roundTrips_of {k : Key B} {o : ImportOpts} {b : Bytes} (he : importEphemeral (some o) = true)
    (hk : k.bytes = .ok b) (hb : b ≠ []) (hc : keyImportCall B true b (some o) = some (.ok k)) :
    RoundTrips B k o := ⟨b, hk, fun _ ks s => import_of_call he hb hc ks s⟩

theorem refused_of {k : Key B} {o : ImportOpts} {b : Bytes} (hk : k.bytes = .ok b)
    (hc : b ≠ [] → keyImportCall B true b (some o) = none ∨ ∃ m, keyImportCall B true b (some o) = some (.err m)) :
    Refused B k o := by
  refine ⟨b, hk, fun σ ks s => ?_⟩
  have := C46_C47_keyImport ks true s (some (.bytes b)) (some o)
  cases b with
  | nil => exact this
  | cons x xs =>
    simp only [importCall] at this
    rcases hc (by simp) with h | ⟨m, h⟩ <;> rw [h] at this <;> exact this

theorem zr_ne (x : S.F) : S.zrBytes x ≠ [] := Dlog.zrBytes_ne_nil x

/-- C52. User secret keys, both schemes. -/
theorem C52_user_key (sk : S.F) :
    (∀ (E : Dlog.Env S) ec, RoundTrips (dlogBackend E ec) (.userSk sk true) (.userSk true)) ∧
    (∀ (L : Bbs.Lib S) T dsa ec, RoundTrips (ariesBackend L T dsa ec) (.userSk sk true) (.userSk true)) := by
  constructor
  · intro E ec
    refine roundTrips_of rfl rfl (zr_ne sk) ?_
    have := (Dlog.C45_dlog_user_key E (S.zrBytes sk) sk).2
    simp [keyImportCall, dlogBackend, this]
  · intro L T dsa ec
    refine roundTrips_of rfl rfl (zr_ne sk) ?_
    have := (Aries.C45_aries_user_key (S.zrBytes sk) sk).2
    simp [keyImportCall, ariesBackend, this]

/-- C52. Revocation secret keys, both schemes. A key with secret 0 has an empty encoding; no generated key has it. -/
theorem C52_revocation_key :
    (∀ (E : Dlog.Env S) (ec : EcKeys E.dsa) sk, ec.dBytes sk ≠ [] →
      RoundTrips (dlogBackend E ec) (.revSk sk true) (.revSk true)) ∧
    (∀ (L : Bbs.Lib S) T dsa (ec : EcKeys dsa) sk, ec.dBytes sk ≠ [] →
      RoundTrips (ariesBackend L T dsa ec) (.revSk sk true) (.revSk true)) := by
  constructor
  · intro E ec sk h
    refine roundTrips_of rfl rfl h ?_
    simp [keyImportCall, dlogBackend, ec.ofD_dBytes]
  · intro L T dsa ec sk h
    refine roundTrips_of rfl rfl h ?_
    simp [keyImportCall, ariesBackend, ec.ofD_dBytes]

/-- C52. Public pseudonyms, dlog scheme: all three translators. -/
theorem C52_dlog_nym (E : Dlog.Env S) (ec : EcKeys E.dsa) (c : Nat) (hc : 0 < c)
    (h : (∃ l, E.T = Dlog.fp256bn c l ∧ E.rawG1 = Dlog.Fp256bn.g1FromRawBytes S c) ∨
      (∃ l, E.T = Dlog.fp256bnMiracl c l ∧ E.rawG1 = Dlog.Fp256bn.g1FromRawBytes S c) ∨
      (∃ l, E.T = Dlog.gurvy c l ∧ E.rawG1 = Dlog.Gurvy.g1FromRawBytes S)) (nym : S.G1) :
    RoundTrips (dlogBackend E ec) (.nymPk nym) (.nymPk true) := by
  have main : (E.T.g1ToProto nym).x ++ (E.T.g1ToProto nym).y ≠ [] ∧
      E.publicNymFromBytes ((E.T.g1ToProto nym).x ++ (E.T.g1ToProto nym).y) = .ok nym := by
    rcases h with ⟨l, hT, hr⟩ | ⟨l, hT, hr⟩ | ⟨l, hT, hr⟩
    all_goals
      simp only [Dlog.Env.publicNymFromBytes, hT, hr, Res.recovered_eq_ok]
    · simp only [Dlog.fp256bn, Dlog.Fp256bn.g1ToProto, Dlog.halves_join]
      refine ⟨?_, (Dlog.fp256bn c l).g1_rt nym⟩
      intro h0
      have := congrArg List.length h0
      simp [l.g1Len] at this
      omega
    · simp only [Dlog.fp256bnMiracl, Dlog.Fp256bn.g1ToProto, Dlog.halves_join]
      refine ⟨?_, (Dlog.fp256bnMiracl c l).g1_rt nym⟩
      intro h0
      have := congrArg List.length h0
      simp [l.g1Len] at this
      omega
    · simp only [Dlog.gurvy, Dlog.Gurvy.g1ToProto, Dlog.halves_join]
      refine ⟨?_, (Dlog.gurvy c l).g1_rt nym⟩
      intro h0
      have := congrArg List.length h0
      simp [l.g1Len] at this
      omega
  refine roundTrips_of rfl rfl main.1 ?_
  have h2 : (dlogBackend E ec).publicNymFromBytes ((E.T.g1ToProto nym).x ++ (E.T.g1ToProto nym).y) = .ok nym :=
    main.2
  simp only [keyImportCall]
  rw [show (dlogBackend E ec).T = E.T from rfl, h2]
  rfl

/-- C52. Public pseudonyms, aries scheme. With the AMCL translators the exported coordinates lack the tag byte and
the import succeeds in its second attempt. -/
theorem C52_aries_nym (L : Bbs.Lib S) (T : Translator S) (dsa : Ecdsa) (ec : EcKeys dsa) (c : Nat) (hc : 0 < c)
    (h : (∃ l, T = Dlog.fp256bn c l) ∨ (∃ l, T = Dlog.fp256bnMiracl c l) ∨ (∃ l, T = Dlog.gurvy c l)) (nym : S.G1) :
    RoundTrips (ariesBackend L T dsa ec) (.nymPk nym) (.nymPk true) := by
  have ne : ∀ b : Bytes, 0 < b.length → b ≠ [] := by rintro b h rfl; simp at h
  have tagged : S.g1Len = 2 * c + 1 → (S.g1Bytes nym).head? = some 4 →
      keyImportCall (ariesBackend L T dsa ec) true ((S.g1Bytes nym).drop 1) (some (.nymPk true)) =
        some (.ok (.nymPk nym)) := by
    intro hl ht
    have e1 : Aries.publicNymFromBytes S ((S.g1Bytes nym).drop 1) = .err "invalid length" := by
      have : ¬ ((S.g1Bytes nym).drop 1).length = S.g1Len := by simp [hl]
      simp only [Aries.publicNymFromBytes, ne_eq, this, not_false_eq_true, decide_true]
      rfl
    have e2 : Aries.publicNymFromBytes S (4 :: (S.g1Bytes nym).drop 1) = .ok nym := by
      rw [Dlog.tag_join ht]; exact (Aries.C45_aries_public_nym (S.g1Bytes nym) nym).2
    simp only [keyImportCall, ariesBackend, e1, e2, Res.ok_bind]
  rcases h with ⟨l, rfl⟩ | ⟨l, rfl⟩ | ⟨l, rfl⟩
  · refine roundTrips_of (b := (S.g1Bytes nym).drop 1) rfl ?_ (ne _ (by simp [l.g1Len]; omega))
      (tagged l.g1Len (l.g1Tag nym))
    simp [Key.bytes, ariesBackend, Dlog.fp256bn, Dlog.Fp256bn.g1ToProto, Dlog.halves_join]
  · refine roundTrips_of (b := (S.g1Bytes nym).drop 1) rfl ?_ (ne _ (by simp [l.g1Len]; omega))
      (tagged l.g1Len (l.g1Tag nym))
    simp [Key.bytes, ariesBackend, Dlog.fp256bnMiracl, Dlog.Fp256bn.g1ToProto, Dlog.halves_join]
  · refine roundTrips_of (b := S.g1Bytes nym) rfl ?_ (ne _ (by simp [l.g1Len]; omega)) ?_
    · simp [Key.bytes, ariesBackend, Dlog.gurvy, Dlog.Gurvy.g1ToProto, Dlog.halves_join]
    · have e2 := (Aries.C45_aries_public_nym (S.g1Bytes nym) nym).2
      simp only [keyImportCall, ariesBackend, e2, Res.ok_bind]

/-- C52. Issuer keys of the dlog scheme: a generated secret key and its public key round trip, the latter with or
without naming the attributes. -/
theorem C52_dlog_issuer (E : Dlog.Env S) (ec : EcKeys E.dsa) (names : List Bytes) (ρ : (dlogBackend E ec).Rnd)
    (hnodup : names.Nodup) (hutf : ∀ n ∈ names, Proto.utf8Valid n = true)
    (hlen : ρ.issuer.attrs.length = names.length) (hbar : ρ.issuer.barG1 ≠ 0) :
    ∃ sk pk, (dlogBackend E ec).newIssuerKey names ρ = .ok sk ∧ (dlogBackend E ec).iskPublic sk = .ok pk ∧
      (∀ n, RoundTrips (dlogBackend E ec) (.issuerSk sk true) (.issuerSk true n)) ∧
      RoundTrips (dlogBackend E ec) (.issuerPk pk) (.issuerPk true [] 0 0 0 0) ∧
      RoundTrips (dlogBackend E ec) (.issuerPk pk) (.issuerPk true names 0 0 0 0) := by
  obtain ⟨key, rawIpk, rawKey, h1, h2, h3, h4, h5, h6⟩ :=
    Dlog.C01_generated_issuer_key_imports E names ρ.issuer hnodup hutf hlen hbar
  have n1 : rawIpk ≠ [] := by
    rintro rfl
    have e : Dlog.Wire.ipkCodec.unmarshal [] = .ok ⟨[], none, none, [], none, none, none, [], [], [], {}⟩ := rfl
    simp only [Dlog.Env.newPublicKeyFromBytes, e, Res.recovered_eq_ok, Res.bind_eq_ok, Dlog.wrapErr_eq_ok,
      Res.ok.injEq, Dlog.setHash, Res.pure_def] at h4
    obtain ⟨i0, rfl, i1, ⟨ser, -, rfl⟩, i2, hc, -⟩ := h4
    obtain ⟨k, b1, b2, hr, -⟩ := Dlog.check_ok_iff.mp hc
    exact E.T.g1_nil _ hr.hSk
  have n2 : rawKey ≠ [] := by
    rintro rfl
    cases h6
  refine ⟨.val key, .val key.ipk, ?_, rfl, fun n => ?_, ?_, ?_⟩
  · simp [dlogBackend, h1]
  · exact roundTrips_of rfl h3 n2 (by simp [keyImportCall, dlogBackend, h6])
  · exact roundTrips_of rfl h2 n1 (by simp [keyImportCall, dlogBackend, h4])
  · exact roundTrips_of rfl h2 n1 (by simp [keyImportCall, dlogBackend, h5])

/-- C52. Issuer keys of the aries scheme: a generated secret key and its public key round trip, given as many
attribute names as at generation. -/
theorem C52_aries_issuer (L : Bbs.Lib S) (T : Translator S) (dsa : Ecdsa) (ec : EcKeys dsa) (h32 : S.scalarLen = 32)
    (names : List Bytes) (hn : names.length < 2 ^ 32 - 1) (ρ : (ariesBackend L T dsa ec).Rnd)
    (sk : (ariesBackend L T dsa ec).ISK) (h : (ariesBackend L T dsa ec).newIssuerKey names ρ = .ok sk) :
    ∃ pk, (ariesBackend L T dsa ec).iskPublic sk = .ok pk ∧
      RoundTrips (ariesBackend L T dsa ec) (.issuerSk sk true) (.issuerSk true names) ∧
      RoundTrips (ariesBackend L T dsa ec) (.issuerPk pk) (.issuerPk true names 0 0 0 0) := by
  obtain ⟨k, hk, h1⟩ := (Res.bind_eq_ok (x := Aries.newKey L names ρ.seed) (f := fun k => .ok (Dyn.val k))).mp h
  cases h1
  obtain ⟨-, h2, h3⟩ := Aries.C36_keys L h32 names hn ρ.seed k hk
  have n1 : k.pk.bytes ≠ [] := by
    intro h0
    have hl : S.g2CompLen = 0 := by simpa [Aries.IPK.bytes] using congrArg List.length h0
    have e : ∀ P, S.g2Comp P = [] := fun P => List.length_eq_zero_iff.mp ((S.g2Comp_len P).trans hl)
    exact S.genG2_ne (S.g2Comp_inj ((e _).trans (e 0).symm))
  refine ⟨.val k.pk, rfl, ?_, ?_⟩
  · exact roundTrips_of rfl rfl (zr_ne k.sk) (by simp [keyImportCall, ariesBackend, Aries.ISK.bytes] at h2 ⊢; simp [h2])
  · exact roundTrips_of rfl rfl n1 (by simp [keyImportCall, ariesBackend, h3])

/-- C52, violated. The exported bytes of a pseudonym secret are its scalar alone; both schemes refuse them. -/
theorem C52_nym_key_violated (ski : Bytes) (r : S.F) (nym : S.G1) :
    (∀ (E : Dlog.Env S) ec, 0 < E.coordLen → Refused (dlogBackend E ec) (.nymSk ski r nym true) (.nymSk true)) ∧
    (∀ (L : Bbs.Lib S) T dsa ec, Refused (ariesBackend L T dsa ec) (.nymSk ski r nym true) (.nymSk true)) := by
  constructor
  · intro E ec hc
    refine refused_of (b := S.zrBytes r) rfl fun _ => .inr ?_
    have h1 : ∀ x, E.nymFromBytes (S.zrBytes r) ≠ .ok x :=
      Dlog.C45_dlog_nym_too_short E (S.zrBytes r) (by simpa using hc)
    have h2 : E.nymFromBytes (S.zrBytes r) ≠ .panic := Res.recovered_ne_panic _ _
    have : ∃ m, E.nymFromBytes (S.zrBytes r) = .err m := by
      cases hx : E.nymFromBytes (S.zrBytes r) with
      | ok x => exact absurd hx (h1 x)
      | err m => exact ⟨m, rfl⟩
      | panic => exact absurd hx h2
    obtain ⟨m, hm⟩ := this
    exact ⟨m, by simp [keyImportCall, dlogBackend, hm]⟩
  · intro L T dsa ec
    refine refused_of (b := S.zrBytes r) rfl fun _ => .inr ?_
    have hl : ¬ (S.zrBytes r).length = S.scalarLen + S.g1Len := by
      have := S.scalarLen_pos
      have := S.scalarLen_le
      simp; omega
    refine ⟨"invalid length", ?_⟩
    simp only [keyImportCall, ariesBackend, Aries.nymFromBytes, ne_eq, hl, not_false_eq_true, decide_true]
    rfl

/-- C52. Pseudonym secrets import from the documented formats: scalar and coordinates for dlog, scalar and point for
aries. -/
theorem C52_nym_key_partial (r : S.F) (nym : S.G1) (ks : ∀ B : Backend S, KeyStore B σ) (s : σ) :
    (∀ (E : Dlog.Env S) ec, (E.T.g1ToProto nym).x.length = E.coordLen →
      keyImport (ks _) (provider (dlogBackend E ec) true) s
        (some (.bytes (S.zrBytes r ++ (E.T.g1ToProto nym).x ++ (E.T.g1ToProto nym).y))) (some (.nymSk true)) =
          (s, .ok (newNymSecretKey (dlogBackend E ec) r nym true))) ∧
    (∀ (L : Bbs.Lib S) T dsa ec,
      keyImport (ks _) (provider (ariesBackend L T dsa ec) true) s
        (some (.bytes (S.zrBytes r ++ S.g1Bytes nym))) (some (.nymSk true)) =
          (s, .ok (newNymSecretKey (ariesBackend L T dsa ec) r nym true))) := by
  constructor
  · intro E ec hx
    refine import_of_call rfl (by simp [zr_ne]) ?_ _ _
    have := Dlog.C45_dlog_nym_roundtrip E nym r hx
    simp only [Dlog.Spec.nymKeyBytes] at this
    simp only [keyImportCall, dlogBackend, this, Res.ok_bind]
  · intro L T dsa ec
    refine import_of_call rfl (by simp [zr_ne]) ?_ _ _
    have := (Aries.C45_aries_nym (S.zrBytes r ++ S.g1Bytes nym) nym r).2
    simp only [keyImportCall, ariesBackend, this, Res.ok_bind]

/-- C52, violated. A revocation public key is exported as DER, but the import wants PEM: the exported bytes are
refused, unless the text `-----BEGIN` happens to occur in them. -/
theorem C52_revocation_public_violated (pk : B.dsa.Pk) (der : Bytes) (h : B.ec.pkix pk = .ok der)
    (hd : ¬ ([45, 45, 45, 45, 45, 66, 69, 71, 73, 78] : Bytes) <:+: der) :
    Refused B (.revPk pk) (.revPk true) :=
  refused_of h fun _ => .inl (by simp [keyImportCall, B.ec.decode_none der hd])

/-- C52. Wrapped as PEM the exported revocation public key imports to itself. -/
theorem C52_revocation_public_partial (pk : B.dsa.Pk) (der : Bytes) (h : (Key.revPk (B := B) pk).bytes = .ok der)
    (ks : KeyStore B σ) (s : σ) :
    keyImport ks (provider B true) s (some (.bytes (B.ec.pemEncode der))) (some (.revPk true)) =
      (s, .ok (.revPk pk)) := by
  refine import_of_call rfl (B.ec.encode_ne der) ?_ _ _
  simp [keyImportCall, B.ec.decode_encode, B.ec.parse_pkix pk der h]

/-! ## Instances -/

namespace Ex

/-- A stand-in for ECDSA keys: PEM is the text `-----BEGIN` in front of the bytes. -/
def ec : EcKeys Ecdsa.toy where
  gen _ := .ok 9
  dBytes k := [k]
  ofD b := b.headD 0
  ofD_dBytes _ := rfl
  point k := [4, k]
  pkix k := .ok [48, k]
  parsePkix b := match b with
    | [48, k] => .ok (some k)
    | _ => .err "asn1"
  parse_pkix k b h := by cases h; rfl
  pkix_np k h := by cases h
  parsePkix_np b h := by split at h <;> cases h
  pemDecode b :=
    if ([45, 45, 45, 45, 45, 66, 69, 71, 73, 78] : Bytes).isPrefixOf b then some (b.drop 10) else none
  pemEncode b := [45, 45, 45, 45, 45, 66, 69, 71, 73, 78] ++ b
  decode_encode b := by simp
  encode_ne b := by simp
  decode_none b h := if_neg fun hp => h (List.isPrefixOf_iff_prefix.mp hp).isInfix

/-- The toy suite with 32-byte scalars has a translator too. -/
def tr32 : Translator Toy.suite32 where
  g1ToProto := fun P => ⟨Toy.enc32 P, []⟩
  g1FromProto := fun e => match e with
    | some ⟨x, []⟩ => Res.ofOption "bad point" (Toy.decPt32 x)
    | _ => .err "bad point"
  g2ToProto := fun P => ⟨Toy.enc P, [], [], []⟩
  g2FromProto := fun e => match e with
    | some ⟨x, [], [], []⟩ => Res.ofOption "bad point" (Toy.decPt x)
    | _ => .err "bad point"
  g1_rt := fun P => by simp [Toy.decPt32_enc32]
  g2_rt := fun P => by simp [Toy.decPt_enc]
  g1_nil := fun P h => by cases h
  g2_nil := fun P h => by cases h

/-- An aries provider. -/
abbrev AB := ariesBackend Toy.lib32 tr32 Ecdsa.toy ec

/-- A dlog provider. -/
abbrev DB := dlogBackend Dlog.Ex.env ec

/-- Randomness for the aries provider. -/
def arnd : AB.Rnd where
  seed := List.replicate 32 5
  scalar := (3 : Toy.K)
  blindings _ := (2 : Toy.K)
  nonce := (4 : Toy.K)
  credE := (1 : Toy.K)
  credS := (1 : Toy.K)
  wbb := (1 : Toy.K)
  dsa := ()
  sig := Aries.Ex.rand2
  cardSeed := []
  cardXt := (1 : Toy.K)
  cardRt := (1 : Toy.K)

/-- A disk without files. -/
def noFiles : Disk := ⟨fun _ => none, fun _ => false⟩

/-- C51_history_sealed on an empty disk: a lasting user key is made, found again, and not exported. -/
example : ∃ k : Key AB, SealedStore (kvsStore AB (fileKvs (ascii "ks"))) noFiles ∧
    (∀ ski, noFiles.isDir (joinPath (ascii "ks") (hexOf ski)) = false) ∧
    (run (kvsStore AB (fileKvs (ascii "ks"))) (provider AB false) noFiles
      [.gen (some (.user false)) arnd]).2 = [.ok k] ∧ k.private = true ∧ k.bytes = .err "not exportable" := by
  refine ⟨.userSk (3 : Toy.K) false, ?_, fun _ => rfl, rfl, rfl, rfl⟩
  intro ski k h
  have : (kvsStore AB (fileKvs (ascii "ks"))).get noFiles ski ≠ .ok k := by
    simp [kvsStore, fileKvs, fileGet, Disk.readFile, noFiles, Res.ofOption, wrapErr]
  exact absurd h this

/-- In an exportable provider the same key exports and imports. -/
example : RoundTrips AB (.userSk (3 : Toy.K) true) (.userSk true) := (C52_user_key (S := Toy.suite32) (3 : Toy.K)).2 _ _ _ _

/-- The hypotheses of C52_dlog_nym and C52_aries_nym hold for the toy curves. -/
example : ∃ (E : Dlog.Env Dlog.Ex.amclSuite) (l : _), E.T = Dlog.fp256bn 1 l ∧
    E.rawG1 = Dlog.Fp256bn.g1FromRawBytes Dlog.Ex.amclSuite 1 ∧ 0 < E.coordLen :=
  ⟨⟨Dlog.fp256bn 1 Dlog.Ex.amclLayout, Dlog.Fp256bn.g1FromRawBytes Dlog.Ex.amclSuite 1, 1, Ecdsa.toy⟩,
    Dlog.Ex.amclLayout, rfl, rfl, by decide⟩

/-- A generated aries key: C52_aries_issuer applies. -/
example : ∃ sk, AB.newIssuerKey [[97], [98]] arnd = .ok sk := ⟨_, rfl⟩

/-- The exported revocation key of the example is refused, and accepted as PEM. -/
example : Refused AB (.revPk (9 : UInt8)) (.revPk true) :=
  C52_revocation_public_violated (B := AB) (9 : UInt8) [48, 9] rfl (by decide)

/-- C46_violated for both providers: `New` has no blinded requests, `NewAries` only those. -/
example : DB.blind = none ∧ AB.request = none ∧ DB.request ≠ none ∧ AB.blind ≠ none := by
  refine ⟨rfl, rfl, ?_, ?_⟩ <;> intro h <;> cases h

end Ex

end Idemix.Provider
