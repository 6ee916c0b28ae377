import Verif.Provider.PropsKeys
import Verif.Provider.PropsConcurrent
import Verif.Provider.PropsFiles

/-!
# Concrete cases for C46–C52, C70 and C77

Cases that meet the hypotheses of the theorems of `PropsDispatch`, `PropsStore`, `PropsKeys`,
`PropsConcurrent` and `PropsFiles`, over the toy field.
-/

namespace Idemix.Provider.Ex

open Spec

/-- The store in the directory `ks`. -/
abbrev store := kvsStore AB (fileKvs (ascii "ks"))

/-- A user key and a pseudonym key. -/
abbrev userKey : Key AB := .userSk (3 : Toy.K) true
abbrev nymKey : Key AB := newNymSecretKey AB (2 : Toy.K) (5 : Toy.K) true

theorem ids : storageId userKey = some (Ecdsa.toy.sha256 (Toy.enc32 (3 : Toy.K))) ∧
    storageId nymKey = some (Ecdsa.toy.sha256 (Toy.enc32 (5 : Toy.K))) ∧
    storageId (Key.revPk (B := AB) (9 : UInt8)) = none := ⟨rfl, rfl, rfl⟩

/-- C50_inside_directory. -/
example : joinPath (ascii "ks") (hexOf [0x2f, 0x2e]) = ascii "ks/2f2e" ∧ joinPath (ascii "ks") (hexOf []) = ascii "ks" := by
  decide

/-- C48_lookup_partial: two keys are stored, one of them twice with different flags; the last one counts. -/
example : store.get ([.userSk (3 : Toy.K) false, nymKey, userKey, .revPk (9 : UInt8)].foldl (fun s k => (store.store s k).1) noFiles)
      (Ecdsa.toy.sha256 (Toy.enc32 (3 : Toy.K))) = .ok userKey ∧
    store.get ([.userSk (3 : Toy.K) false, nymKey, userKey, .revPk (9 : UInt8)].foldl (fun s k => (store.store s k).1) noFiles)
      (Ecdsa.toy.sha256 (Toy.enc32 (5 : Toy.K))) = .ok nymKey := by
  have h := C48_lookup_partial (B := AB) _ _ _ (C48_files_keep (ascii "ks") (fun _ => false)) noFiles rfl
    [.userSk (3 : Toy.K) false, nymKey, userKey, .revPk (9 : UInt8)] (fun _ _ _ _ => rfl)
  exact ⟨h _, h _⟩

/-- C48_store_result: the user key is stored, the public revocation key is refused. -/
example : (store.store noFiles userKey).2 = .ok () ∧ (store.store noFiles (.revPk (9 : UInt8))).1 = noFiles :=
  ⟨(C48_store_result (B := AB) _ _ _ (C48_files_keep (ascii "ks") (fun _ => false)) noFiles rfl userKey
      (fun _ _ => rfl)).1 rfl,
    ((C48_store_result (B := AB) _ _ _ (C48_files_keep (ascii "ks") (fun _ => false)) noFiles rfl
      (.revPk (9 : UInt8)) (fun _ _ => rfl)).2 rfl).1⟩

/-- C48_violated: the pseudonym secret is stored, and not found under its identifier. -/
example : ∃ ski m, nymKey.ski = .ok ski ∧ (store.store noFiles nymKey).2 = .ok () ∧
    store.get (store.store noFiles nymKey).1 ski = .err m := by
  refine ⟨_, "could not get key from kvs", rfl, rfl, ?_⟩
  rw [C48_violated (B := AB) _ _ _ (C48_files_keep (ascii "ks") (fun _ => false)) noFiles rfl (2 : Toy.K)
    (5 : Toy.K) true (by decide) rfl _ rfl]
  rfl

/-- C48_provider_history_partial: a temporary and a lasting user key are made; only the second is found. -/
example : getKey store (run store (provider AB true) noFiles
      [.gen (some (.user true)) { arnd with scalar := (2 : Toy.K) }, .gen (some (.user false)) arnd]).1
      (Ecdsa.toy.sha256 (Toy.enc32 (3 : Toy.K))) = .ok userKey ∧
    ∃ m, getKey store (run store (provider AB true) noFiles
      [.gen (some (.user true)) { arnd with scalar := (2 : Toy.K) }, .gen (some (.user false)) arnd]).1
      (Ecdsa.toy.sha256 (Toy.enc32 (2 : Toy.K))) = .err m := by
  have h := C48_provider_history_partial (B := AB) _ _ _ (C48_files_keep (ascii "ks") (fun _ => false)) noFiles rfl
    true [.gen (some (.user true)) { arnd with scalar := (2 : Toy.K) }, .gen (some (.user false)) arnd] (fun _ _ _ _ _ _ => rfl)
  exact ⟨h _, _, h _⟩

/-- C49_stored_key_partial, C49_others_partial: the store of the user key completes; before it, a store of the same key
crashed after three bytes, after it, one of the pseudonym fails after none. -/
example : store.get ([.crash userKey ⟨true, 3⟩, .complete userKey, .fault nymKey ⟨true, 0⟩].foldl
      (storeEvent AB (ascii "ks")) noFiles) (Ecdsa.toy.sha256 (Toy.enc32 (3 : Toy.K))) = .ok userKey :=
  C49_stored_key_partial (ascii "ks") noFiles [.crash userKey ⟨true, 3⟩] [.fault nymKey ⟨true, 0⟩] userKey _ rfl
    rfl (by decide)

/-- C49_never_wrong, C49_history_never_wrong: after a crash the old key (with another flag) is gone. -/
example : (∃ m, store.get (storeEvent AB (ascii "ks")
      (storeEvent AB (ascii "ks") noFiles (.complete userKey)) (.crash userKey ⟨true, 0⟩))
        (Ecdsa.toy.sha256 (Toy.enc32 (3 : Toy.K))) = .err m) ∧
    store.get (storeEvent AB (ascii "ks")
      (storeEvent AB (ascii "ks") noFiles (.complete userKey)) (.crash (.userSk (3 : Toy.K) false) ⟨true, 1000⟩))
        (Ecdsa.toy.sha256 (Toy.enc32 (3 : Toy.K))) = .ok (.userSk (3 : Toy.K) false) := by
  refine ⟨(C49_violated (ascii "ks") noFiles userKey _ rfl rfl).2, ?_⟩
  have : storeEvent AB (ascii "ks") (storeEvent AB (ascii "ks") noFiles (.complete userKey))
      (.crash (.userSk (3 : Toy.K) false) ⟨true, 1000⟩) =
    storeEvent AB (ascii "ks") (storeEvent AB (ascii "ks") noFiles (.complete userKey))
      (.complete (.userSk (3 : Toy.K) false)) := rfl
  rw [this]
  exact C49_stored_key_partial (ascii "ks") noFiles [.complete userKey] [] (.userSk (3 : Toy.K) false) _ rfl rfl
    (by decide)

/-- C49_reported: on an empty disk the user key is stored; where there is a directory in its place, this is reported. -/
example : (∃ d', storeKeyFaulty AB (ascii "ks") noFiles userKey none = (d', .ok ())) ∧
    (∃ m, (storeKeyFaulty AB (ascii "ks") ⟨fun _ => none, fun _ => true⟩ userKey none).2 = .err m) ∧
    ∃ m, (storeKeyFaulty AB (ascii "ks") noFiles userKey (some ⟨true, 4⟩)).2 = .err m := ⟨⟨_, rfl⟩, ⟨_, rfl⟩, _, rfl⟩

/-- C49_open. -/
example : newFileBased .failed (.ok ()) = .panic ∧ newFileBased .notExist (.ok ()) = .ok () := ⟨rfl, rfl⟩

/-- C51_made_keys_sealed: an import whose key the (dummy) store then refuses. C51_public_keys. -/
example : (run (dummyStore AB) (provider AB false) ()
      [.gen (some (.user false)) arnd, .imp (some (.bytes (Toy.enc32 (3 : Toy.K)))) (some (.userSk true))]).2[1]? =
        some (.ok (.userSk (3 : Toy.K) false)) ∧
    (Key.nymPk (B := AB) (5 : Toy.K)).bytes = .ok (Toy.enc32 (5 : Toy.K)) ∧
    (Key.userSk (B := AB) (3 : Toy.K) false).bytes = .err "not exportable" := ⟨rfl, rfl, rfl⟩

/-- C52_revocation_key, C52_nym_key_violated, C52_nym_key_partial. -/
example : RoundTrips DB (.revSk (9 : UInt8) true) (.revSk true) ∧ RoundTrips AB (.revSk (9 : UInt8) true) (.revSk true) ∧
    Refused AB nymKey (.nymSk true) ∧ Refused DB (.nymSk [1] (2 : Toy.K) (5 : Toy.K) true) (.nymSk true) ∧
    keyImport (dummyStore AB) (provider AB true) () (some (.bytes (Toy.enc32 (2 : Toy.K) ++ Toy.enc32 (5 : Toy.K))))
      (some (.nymSk true)) = ((), .ok nymKey) :=
  ⟨C52_revocation_key.1 _ _ _ (by decide), C52_revocation_key.2 _ _ _ _ _ (by decide),
    (C52_nym_key_violated (S := Toy.suite32) _ (2 : Toy.K) (5 : Toy.K)).2 _ _ _ _,
    (C52_nym_key_violated (S := Toy.suite) _ (2 : Toy.K) (5 : Toy.K)).1 _ _ (by decide),
    (C52_nym_key_partial (S := Toy.suite32) (2 : Toy.K) (5 : Toy.K) (fun B => dummyStore B) ()).2 _ _ _ _⟩

/-- C46: a user key signs nothing with the options of an issuer, a revocation key verifies no signature, and a blind request
at a provider without it panics. -/
example : ¬ NoHandler AB (some (.cred [] none)) ∧ signCall AB [] arnd (some userKey) (some (.cred [] none)) = none ∧
    (∃ m, sign (provider AB true) (some userKey) [] (some (.cred [] none)) arnd = .err m) ∧
    sign (provider AB true) (some userKey) [] (some (.credReq (some (.issuerPk .nilPtr)) [])) arnd = .panic ∧
    (∃ m, verify (provider AB true) (some (.revPk (9 : UInt8))) [1] [] (some (.nymSig ⟨none, none, false, none, none, none, none, 0⟩)) =
      .err m) :=
  ⟨by simp [NoHandler], rfl, ⟨_, rfl⟩, rfl, ⟨_, rfl⟩⟩

/-- C46_base: a provider assembled by hand signs revocation information for a digest that has nothing to do with it, and
refuses to do so without digest, as the providers of both schemes are asked to. -/
example : (∃ x, baseSign (provider AB true) (some (.revSk (9 : UInt8) true)) [1] (some (.cri 3 0 [])) arnd = .ok x ∧
      sign (provider AB true) (some (.revSk (9 : UInt8) true)) [] (some (.cri 3 0 [])) arnd = .ok x ∧
      baseVerify (provider AB true) (some (.revPk (9 : UInt8))) x.1 [1] (some (.cri 3 0 [])) = .ok true ∧
      verify (provider AB true) (some (.revPk (9 : UInt8))) x.1 [] (some (.cri 3 0 [])) = .ok true ∧
      ∃ m, baseVerify (provider AB true) (some (.revPk (9 : UInt8))) x.1 [] (some (.cri 3 0 [])) = .err m) ∧
    (∃ m, baseSign (provider AB true) (some (.revSk (9 : UInt8) true)) [] (some (.cri 3 0 [])) arnd = .err m) :=
  ⟨⟨_, rfl, rfl, rfl, rfl, _, rfl⟩, _, rfl⟩

/-- C46_C47: a lasting pseudonym is derived and stored, a temporary one is not. -/
example : ∃ ipk : AB.IPK, AB.newIssuerKey [[97]] arnd >>= AB.iskPublic = .ok ipk ∧
    let ks : KeyStore AB (List (Key AB)) := { get := fun _ _ => .err "none", store := fun s k => (s ++ [k], .ok ()) }
    ∃ k, keyDeriv ks (provider AB true) [] (some userKey) (some (.nym false (some (.issuerPk ipk)))) arnd = ([k], .ok k) ∧
      keyDeriv ks (provider AB true) [] (some userKey) (some (.nym true (some (.issuerPk ipk)))) arnd = ([], .ok k) :=
  ⟨_, rfl, _, rfl, rfl⟩

/-- The identifier of the user key. -/
abbrev userId : Bytes := Ecdsa.toy.sha256 (Toy.enc32 (3 : Toy.K))

/-- A schedule of two stores of the user key and one of the pseudonym. -/
abbrev sched3 : List (Nat × KAct) :=
  [(0, .go 0), (0, .go 3), (1, .go 0), (2, .go 0), (0, .go 4), (2, .go 7), (1, .go 1000), (1, .go 0), (0, .go 1000),
    (0, .go 0)]

/-- The system after it. -/
abbrev sys3 : KSys AB :=
  runCalls (ascii "ks") noFiles [.store userKey, .store userKey, .store nymKey] sched3

set_option maxRecDepth 40000 in
/-- C70_settled_partial: two calls store the user key at the same time. The second opens the file when the first has
written three bytes, and the first goes on behind a gap; a third call stores the pseudonym and stops in between. -/
example : sys3.calls = [⟨.store userKey, .stored (.ok ())⟩, ⟨.store userKey, .stored (.ok ())⟩,
      ⟨.store nymKey, .writing 7⟩] ∧ store.get sys3.disk userId = .ok userKey := by
  have h : sys3.calls = [⟨.store userKey, .stored (.ok ())⟩, ⟨.store userKey, .stored (.ok ())⟩,
      ⟨.store nymKey, .writing 7⟩] := rfl
  refine ⟨h, (C70_settled_partial (ascii "ks") noFiles [.store userKey, .store userKey, .store nymKey] _
    userKey userId rfl rfl ?_ (by simp) ?_).2⟩
  · intro k' hk' hid
    simp only [List.mem_cons, KOp.store.injEq, List.not_mem_nil, or_false] at hk'
    rcases hk' with rfl | rfl | rfl
    · rfl
    · rfl
    · exact absurd hid (by decide)
  · rw [h]
    intro c hc hop
    simp only [List.mem_cons, List.not_mem_nil, or_false] at hc
    rcases hc with rfl | rfl | rfl
    · exact ⟨_, rfl⟩
    · exact ⟨_, rfl⟩
    · cases hop

set_option maxRecDepth 40000 in
/-- C70_others_partial: the pseudonym is looked up, in two pieces, while the user key is stored. -/
example : ∃ r, (runCalls (ascii "ks") (store.store noFiles nymKey).1
      [.store userKey, .look (Ecdsa.toy.sha256 (Toy.enc32 (5 : Toy.K)))]
      [(0, .go 0), (1, .go 0), (0, .go 3), (1, .go 20), (0, .fail), (1, .go 1000), (1, .go 0)]).calls[1]? =
        some ⟨.look (Ecdsa.toy.sha256 (Toy.enc32 (5 : Toy.K))), .looked r⟩ ∧ r = .ok nymKey := by
  refine ⟨_, rfl, ?_⟩
  rw [C70_others_partial (ascii "ks") (store.store noFiles nymKey).1
      [.store userKey, .look (Ecdsa.toy.sha256 (Toy.enc32 (5 : Toy.K)))]
      [(0, .go 0), (1, .go 0), (0, .go 3), (1, .go 20), (0, .fail), (1, .go 1000), (1, .go 0)]
      (Ecdsa.toy.sha256 (Toy.enc32 (5 : Toy.K))) (by
        intro k hk hid
        simp only [List.mem_cons, KOp.store.injEq, List.not_mem_nil, or_false, reduceCtorEq] at hk
        subst hk
        exact absurd hid (by decide)) 1 _ rfl]
  exact (C48_lookup_partial (B := AB) _ _ _ (C48_files_keep (ascii "ks") (fun _ => false)) noFiles rfl
    [nymKey] (fun _ _ _ _ => rfl) _)

/-- C70_lookup_violated, and with it the hypotheses of C70_never_wrong_partial: the user key is in the store, is stored
again, and a look-up in between fails. -/
example : ∃ sched r, (runCalls (ascii "ks") (store.store noFiles userKey).1 [.store userKey, .look userId]
      sched).calls[1]? = some ⟨.look userId, .looked r⟩ ∧ (∃ m, r = .err m) ∧ (r = .ok userKey ∨ ∃ m, r = .err m) := by
  obtain ⟨sched, m, -, h, -⟩ := C70_lookup_violated (ascii "ks") noFiles userKey userId rfl rfl
  have h1 : (runCalls (ascii "ks") (store.store noFiles userKey).1 [.store userKey, .look userId]
      sched).calls[1]? = some ⟨.look userId, .looked (.err m)⟩ := by
    rw [h]
    rfl
  refine ⟨sched, _, h1, ⟨m, rfl⟩, ?_⟩
  refine C70_never_wrong_partial (ascii "ks") _ _ sched userKey userId rfl ?_ ?_ 1 _ h1
  · intro id e he
    right
    cases he
    rfl
  · intro k' hk' _
    simp only [List.mem_cons, KOp.store.injEq, List.not_mem_nil, or_false, reduceCtorEq] at hk'
    exact hk'

/-- C70_settled_violated. -/
example : ∃ sched m,
    let s := runCalls (ascii "ks") noFiles
      [KOp.store (.userSk (3 : Toy.K) true : Key AB), KOp.store (.userSk (3 : Toy.K) false)] sched
    s.calls = [⟨.store (.userSk (3 : Toy.K) true), .stored (.ok ())⟩,
      ⟨.store (.userSk (3 : Toy.K) false), .stored (.ok ())⟩] ∧ store.get s.disk userId = .err m := by
  exact C70_settled_violated (B := AB) (ascii "ks") noFiles (3 : Toy.K) userId rfl rfl

set_option maxRecDepth 40000 in
/-- C70_alone: a store in pieces of three and 1000 bytes. -/
example : ((runCalls (ascii "ks") noFiles [.store userKey]
      [(0, .go 0), (0, .go 3), (0, .go 1000), (0, .go 0)]).disk, (.ok () : Res Unit)) = store.store noFiles userKey :=
  C70_alone (ascii "ks") noFiles userKey _ _ rfl

/-- C77_names_partial: after stores of two keys, one of which crashed, the user key is under its own name. -/
example : OwnNames (ascii "ks") AB ([.complete userKey, .crash nymKey ⟨true, 5⟩].foldl (storeEvent AB (ascii "ks")) noFiles) ∧
    store.get ([.complete userKey, .crash nymKey ⟨true, 5⟩].foldl (storeEvent AB (ascii "ks")) noFiles) userId =
      .ok userKey :=
  ⟨C77_names_partial (ascii "ks") noFiles _ (by intro ski k h; cases h) fun _ => rfl,
    C49_stored_key_partial (ascii "ks") noFiles [] [.crash nymKey ⟨true, 5⟩] userKey _ rfl rfl (by decide)⟩

/-- C77_violated: the file of the user key is copied to the name of the pseudonym, which then gives the user key. -/
example : store.get (copied (ascii "ks") (storeEvent AB (ascii "ks") noFiles (.complete userKey)) userId
      (Ecdsa.toy.sha256 (Toy.enc32 (5 : Toy.K)))) (Ecdsa.toy.sha256 (Toy.enc32 (5 : Toy.K))) = .ok userKey :=
  (C77_violated (B := AB) (ascii "ks") noFiles userKey userId _ rfl (by decide) rfl rfl).1

/-- Backends with the translators of the repository. -/
abbrev amclB := dlogBackend (S := Dlog.Ex.amclSuite) ⟨Dlog.fp256bn 1 Dlog.Ex.amclLayout, fun _ => .err "", 1, Ecdsa.toy⟩ ec
abbrev gurvyB := dlogBackend (S := Dlog.Ex.gurvySuite) ⟨Dlog.gurvy 1 Dlog.Ex.gurvyLayout, fun _ => .err "", 1, Ecdsa.toy⟩ ec

/-- C77_no_panic_partial, C77_panic_violated, C77_panic_exact: the same file. -/
example : let d := holding (ascii "ks") noFiles userId (ascii "{\"NymSecretKey\":{}}")
    (kvsStore amclB (fileKvs (ascii "ks"))).get d userId ≠ .panic ∧
    (kvsStore gurvyB (fileKvs (ascii "ks"))).get d userId = .panic :=
  ⟨C77_no_panic_partial (B := amclB) (ascii "ks") 1 (.inl ⟨Dlog.Ex.amclLayout, rfl⟩) _ _,
    C77_panic_violated (B := gurvyB) (ascii "ks") 1 Dlog.Ex.gurvyLayout rfl noFiles _ rfl⟩

end Idemix.Provider.Ex
