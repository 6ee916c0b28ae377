import Verif.Mem.DlogCalls
import Verif.Mem.Props
import Verif.Dlog.PropsSign

/-!
# C78, C79: sharing of objects between calls of the dlog scheme, and such calls at the same time
-/

namespace Idemix.Mem

open Idemix.Dlog (IssuerPublicKey CredRequest IpkMarshal)

variable {S : Suite}

namespace Dlog.Spec

/-- A memory in which the API can be used: the generators of the curve are where the pointers say and shared by all
goroutines. (The caches of generators belong to the other scheme; what they point to is right.) -/
structure Ready (h : Heap S) (c : Consts) : Prop where
  genG1 : h.get c.genG1 = some S.genG1
  genG2 : h.get c.genG2 = some S.genG2
  shared : c.genG1.region = 0 ∧ c.genG2.region = 0
  cache : ∀ lib key p, h.cache lib key = some p → p.region = 0 ∧ h.get p = some (Idemix.Bbs.hashToG1 key)

/-- Calls one after the other: the outcomes and the memory afterwards. -/
def inTurn (T : Translator S) (c : Consts) (r : Nat) : List (Call S) → Heap S → List (Res (Out S)) × Heap S
  | [], h => ([], h)
  | call :: calls, h =>
    (((call.prog T c).run r h).1 :: (inTurn T c r calls ((call.prog T c).run r h).2).1,
      (inTurn T c r calls ((call.prog T c).run r h).2).2)

end Dlog.Spec

open Spec (Unchanged changes uses)
open _root_.Idemix.Mem.Dlog.Spec
open _root_.Idemix.Mem.Dlog (Call Out Consts Ipk)

/-! ## From the logic to these -/

variable {r : Nat} {h h' h₀ : Heap S} {T : Translator S} {c : Consts}

namespace Dlog

theorem Spec.Ready.consts (a : Ready h c) (r : Nat) : ConstsAt r h c := ⟨⟨.inr a.shared.1, a.genG1⟩, ⟨.inr a.shared.2, a.genG2⟩⟩

theorem Spec.Ready.from (a : Ready h c) (hr : r ≠ 0) : From r h h := ⟨hr, .refl _ _, a.cache⟩

theorem Spec.Ready.next (a : Ready h c) (u : Unchanged h h') (ok : CacheOk h') : Ready h' c :=
  ⟨u _ _ _ a.genG1, u _ _ _ a.genG2, a.shared, ok⟩

namespace Call

theorem see_mono {k : Kind} (u : Unchanged h h') {p : Ptr k} {v : Val S k} (e : see r h p = some v) : see r h' p = some v :=
  at_see ⟨(see_at e).visible, u _ _ _ (see_at e).get⟩

theorem seeOpt_mono {k : Kind} (u : Unchanged h h') {p : Option (Ptr k)} {v : Option (Val S k)} (e : seeOpt r h p = some v) :
    seeOpt r h' p = some v := by
  cases p with
  | none => exact e
  | some p =>
    simp only [seeOpt, Option.map_eq_some_iff] at e ⊢
    obtain ⟨v, e, rfl⟩ := e
    exact ⟨v, see_mono u e, rfl⟩

theorem seeIpk_mono (u : Unchanged h h') {p : Ipk} {v : IssuerPublicKey} (e : seeIpk r h p = some v) :
    seeIpk r h' p = some v := by
  simp only [seeIpk, Option.map_eq_some_iff] at e ⊢
  obtain ⟨v, e, rfl⟩ := e
  exact ⟨v, see_mono u e, rfl⟩

theorem seeOptIpk_mono (u : Unchanged h h') {p : Option Ipk} {v : Option IssuerPublicKey} (e : seeOptIpk r h p = some v) :
    seeOptIpk r h' p = some v := by
  cases p with
  | none => exact e
  | some p =>
    simp only [seeOptIpk, Option.map_eq_some_iff] at e ⊢
    obtain ⟨v, e, rfl⟩ := e
    exact ⟨v, seeIpk_mono u e, rfl⟩

theorem seeAudit_mono (u : Unchanged h h') {p : Option AuditPtr} {v : Option (Idemix.Dlog.AuditData S)}
    (e : seeAudit r h p = some v) : seeAudit r h' p = some v := by
  cases p with
  | none => exact e
  | some p =>
    simp only [seeAudit, Option.bind_eq_bind, Option.bind_eq_some_iff, Option.pure_def, Option.some.injEq] at e ⊢
    obtain ⟨n, hn, ρ, hρ, a, ha, rfl⟩ := e
    exact ⟨n, seeOpt_mono u hn, ρ, see_mono u hρ, a, see_mono u ha, rfl⟩

theorem seeMeta_mono (u : Unchanged h h') {p : Option MetaPtr} {v : Option (Idemix.Dlog.SignerMetadata S)}
    (e : seeMeta r h p = some v) : seeMeta r h' p = some v := by
  cases p with
  | none => exact e
  | some p =>
    simp only [seeMeta, Option.bind_eq_bind, Option.bind_eq_some_iff, Option.pure_def, Option.some.injEq] at e ⊢
    obtain ⟨n, hn, ρ, hρ, rfl⟩ := e
    exact ⟨n, seeAudit_mono u hn, ρ, seeAudit_mono u hρ, rfl⟩

theorem mapM_mono {α β : Type} {f g : α → Option β} (hf : ∀ a b, f a = some b → g a = some b) {as : List α}
    {bs : List β} (e : as.mapM f = some bs) : as.mapM g = some bs := by
  induction as generalizing bs with
  | nil => exact e
  | cons a as ih =>
    simp only [List.mapM_cons, Option.bind_eq_bind, Option.bind_eq_some_iff, Option.pure_def, Option.some.injEq] at e ⊢
    obtain ⟨b, hb, bs, hbs, rfl⟩ := e
    exact ⟨b, hf _ _ hb, bs, ih hbs, rfl⟩

theorem expected_mono (u : Unchanged h h') {call : Call S} {x : Res (Out S)}
    (e : call.expected T r h = some x) : call.expected T r h' = some x := by
  cases call <;> simp only [expected, Option.bind_eq_bind, Option.bind_eq_some_iff, Option.pure_def,
    Option.some.injEq] at e ⊢
  case importKey => exact e
  case newCredential =>
    obtain ⟨i, hi, as', ha, rfl⟩ := e
    exact ⟨i, seeIpk_mono u hi, as', mapM_mono (fun _ _ => see_mono u) ha, rfl⟩
  case verSignature =>
    obtain ⟨i, hi, vs, hv, m, hm, rfl⟩ := e
    exact ⟨i, seeOptIpk_mono u hi, vs, mapM_mono (fun _ _ => seeOpt_mono u) hv, m, seeMeta_mono u hm, rfl⟩
  case newSignature =>
    obtain ⟨k, hk, n, hn, rn, hr, i, hi, m, hm, rfl⟩ := e
    exact ⟨k, see_mono u hk, n, see_mono u hn, rn, see_mono u hr, i, seeIpk_mono u hi, m, seeMeta_mono u hm, rfl⟩
  case newNymSignature =>
    obtain ⟨k, hk, n, hn, rn, hr, i, hi, rfl⟩ := e
    exact ⟨k, see_mono u hk, n, see_mono u hn, rn, see_mono u hr, i, seeIpk_mono u hi, rfl⟩
  case checkRequest =>
    obtain ⟨i, hi, rfl⟩ := e
    exact ⟨i, seeIpk_mono u hi, rfl⟩
  case makeNym =>
    obtain ⟨k, hk, i, hi, rfl⟩ := e
    exact ⟨k, see_mono u hk, i, seeIpk_mono u hi, rfl⟩
  case newCredRequest =>
    obtain ⟨k, hk, i, hi, rfl⟩ := e
    exact ⟨k, see_mono u hk, i, seeIpk_mono u hi, rfl⟩
  case verCredential =>
    obtain ⟨k, hk, i, hi, rfl⟩ := e
    exact ⟨k, see_mono u hk, i, seeIpk_mono u hi, rfl⟩
  case verNymSignature =>
    obtain ⟨k, hk, i, hi, rfl⟩ := e
    exact ⟨k, see_mono u hk, i, seeIpk_mono u hi, rfl⟩
  case auditSigNym =>
    obtain ⟨i, hi, a, ha, ρ, hρ, rfl⟩ := e
    exact ⟨i, seeIpk_mono u hi, a, see_mono u ha, ρ, see_mono u hρ, rfl⟩
  case auditRawNym =>
    obtain ⟨i, hi, a, ha, ρ, hρ, rfl⟩ := e
    exact ⟨i, seeIpk_mono u hi, a, see_mono u ha, ρ, see_mono u hρ, rfl⟩
  case wbbSign =>
    obtain ⟨k, hk, m, hm, rfl⟩ := e
    exact ⟨k, see_mono u hk, m, see_mono u hm, rfl⟩
  case wbbVerify =>
    obtain ⟨k, hk, s, hs, m, hm, rfl⟩ := e
    exact ⟨k, seeOpt_mono u hk, s, seeOpt_mono u hs, m, seeOpt_mono u hm, rfl⟩

end Call

theorem get_set_kind {k k' : Kind} {p : Ptr k} {q : Ptr k'} {w : Val S k} (hk : k' ≠ k) : (h.set p w).get q = h.get q := by
  unfold Heap.get Heap.set
  by_cases hr : q.region = p.region
  · simp [hr, hk]
  · simp [hr]

theorem get_set_ne {k k' : Kind} {p : Ptr k} {q : Ptr k'} {w : Val S k} (hne : (⟨k', q⟩ : Σ k, Ptr k) ≠ ⟨k, p⟩) :
    (h.set p w).get q = h.get q := by
  by_cases hk : k' = k
  · subst hk
    exact get_set_other fun e => hne (by rw [e])
  · exact get_set_kind hk

/-- What `SetHash` does. -/
theorem run_setHash (m : IpkMarshal) (ipk : Ipk) {b : Bytes} (hb : h.get (k := .bytes) ipk.hash = some b) :
    (setHash (S := S) m ipk).run r h = match m { ipk.fields with hash := [] } with
      | .ok ser => (.ok (), (h.set (k := .bytes) ipk.hash ([] : Bytes)).set (k := .bytes) ipk.hash
          (S.zrBytes (S.hashToZr ser)))
      | .err e => (.err e, h.set (k := .bytes) ipk.hash ([] : Bytes))
      | .panic => (.panic, h.set (k := .bytes) ipk.hash ([] : Bytes)) := by
  have e : (h.set (k := .bytes) ipk.hash ([] : Bytes)).get (k := .bytes) ipk.hash = some ([] : Bytes) := get_set_self hb
  unfold setHash
  simp only [Prog.run, hb, e, Prog.bind_def, run_bind]
  cases m { ipk.fields with hash := [] } with
  | ok ser => simp only [Prog.lift, Prog.run, e]
  | err _ => rfl
  | panic => rfl

end Dlog

/-! ## An example -/

namespace Dlog.Ex

open Idemix.Toy

/-- The generators of the toy suite. -/
def consts : Consts := ⟨⟨0, 0⟩, ⟨0, 0⟩⟩

/-- A memory with them, a user's secret key 4, a pseudonym of it with its randomness 2, attributes, and the hash of the
issuer's public key. -/
def mem : Heap suite :=
  ⟨fun r k => match r, k with
    | 0, .g1 => [(1 : K), Idemix.Dlog.Ex.nym]
    | 0, .g2 => [(1 : K), 3]
    | 0, .zr => [(4 : K), 2, 1, 0, 6]
    | 0, .bytes => [Idemix.Dlog.Ex.key.ipk.hash]
    | _, _ => [], fun _ _ => none⟩

/-- The issuer's public key. -/
def ipk : Ipk := ⟨Idemix.Dlog.Ex.key.ipk, ⟨0, 0⟩⟩

theorem ready : Ready mem consts := ⟨rfl, rfl, ⟨rfl, rfl⟩, fun _ _ _ e => by cases e⟩

/-- Calls that share the key, the secret, the pseudonym, attributes and the generators. -/
def calls (i : Nat) : Call suite :=
  match i % 8 with
  | 0 => .newCredRequest ⟨0, 0⟩ (some [6]) ipk (5 : K)
  | 1 => .newCredential [3] ipk Idemix.Dlog.Ex.req [⟨0, 2⟩, ⟨0, 3⟩, ⟨0, 4⟩] (2 : K) (2 : K)
  | 2 => .makeNym ⟨0, 0⟩ ipk (2 : K)
  | 3 => .newNymSignature ⟨0, 0⟩ ⟨0, 1⟩ ⟨0, 1⟩ ipk [9, 9] Idemix.Dlog.Ex.nymRnd
  | 4 => .newSignature Idemix.Dlog.Ex.cred ⟨0, 0⟩ ⟨0, 1⟩ ⟨0, 1⟩ ipk Idemix.Dlog.Ex.discl [8] 2 1 Idemix.Dlog.Ex.cri
      Idemix.Dlog.Ex.sigRnd .eidNymRhNym none
  | 5 => .newSignature Idemix.Dlog.Ex.cred ⟨0, 0⟩ ⟨0, 0⟩ ⟨0, 0⟩ ipk Idemix.Dlog.Ex.discl [8] 2 1 Idemix.Dlog.Ex.cri
      Idemix.Dlog.Ex.sigRnd .eidNym (some ⟨some ⟨some ⟨0, 1⟩, ⟨0, 0⟩, ⟨0, 3⟩⟩, none, [], []⟩)
  | 6 => .importKey Idemix.Dlog.Ex.mar { Idemix.Dlog.Ex.key.ipk with hash := [] }
  | _ => .wbbVerify (some ⟨0, 1⟩) (some ⟨0, 0⟩) (some ⟨0, 2⟩)

theorem calls_ok (i r : Nat) : ((calls i).expected tr r mem).isSome := by
  unfold calls
  split <;> rfl

/-- The outcome is a result. -/
def succeeded : Option (Res (Out suite)) → Bool
  | some (.ok _) => true
  | _ => false

end Dlog.Ex

/-! ## C78 -/

/-- **C78.** Whatever the arguments of a call share with each other or with the generators: the outcome is that of the model
without memory on the values of the arguments, no object that was there before is changed, and the memory is ready for the
next call. Partial: `IssuerPublicKey.Check` is not among these calls, see `C78_violated`; what it does is said by
`C78_check_sets_hash`. -/
theorem C78_arguments_unchanged_partial (hR : Ready h c) (hr : r ≠ 0) (call : Call S) {x : Res (Out S)}
    (hx : call.expected T r h = some x) :
    ((call.prog T c).run r h).1 = x ∧ Unchanged h ((call.prog T c).run r h).2 ∧ Ready ((call.prog T c).run r h).2 c := by
  have f := hR.from hr
  have g := Call.gives f (hR.consts r) call hx
  obtain ⟨m, f'⟩ := g.run f
  exact ⟨m.eq, unchanged_run g f, hR.next (unchanged_run g f) f'.ok⟩

/-- In the second call the secret key is also the randomness of the pseudonym and of the enrollment id, and the pseudonym is the
generator. -/
example : (((Dlog.Ex.calls 4).prog Toy.tr Dlog.Ex.consts).run 1 Dlog.Ex.mem).1 =
      (Idemix.Dlog.newSignature Toy.tr Idemix.Dlog.Ex.cred (4 : Toy.K) Idemix.Dlog.Ex.nym (2 : Toy.K) Idemix.Dlog.Ex.key.ipk
        Idemix.Dlog.Ex.discl [8] 2 1 Idemix.Dlog.Ex.cri Idemix.Dlog.Ex.sigRnd .eidNymRhNym none).bind
        (fun x => .ok (.signature x.1 x.2)) ∧
    Unchanged Dlog.Ex.mem (((Dlog.Ex.calls 5).prog Toy.tr Dlog.Ex.consts).run 1 Dlog.Ex.mem).2 :=
  ⟨(C78_arguments_unchanged_partial Dlog.Ex.ready (by decide) _ rfl).1,
    (C78_arguments_unchanged_partial Dlog.Ex.ready (by decide) (Dlog.Ex.calls 5) rfl).2.1⟩

example : (List.range 7).all fun i =>
    Dlog.Ex.succeeded (some (((Dlog.Ex.calls i).prog Toy.tr Dlog.Ex.consts).run 1 Dlog.Ex.mem).1) := by decide +kernel

/-- **C78 (`IssuerPublicKey.Check`).** The outcome of the check is that of the model without memory. If the key is accepted, its
hash is afterwards what it should be. Nothing but the hash of the key is changed. -/
theorem C78_check_sets_hash (hR : Ready h c) (hr : r ≠ 0) (m : IpkMarshal) (ipk : Ipk) {v : IssuerPublicKey}
    (hv : Call.seeIpk r h ipk = some v) :
    ((Dlog.check T c m ipk).run r h).1 = (v.check T m).bind (fun _ => .ok ()) ∧
      (∀ k, v.check T m = .ok k → Call.seeIpk r ((Dlog.check T c m ipk).run r h).2 ipk = some k) ∧
      (∀ k (p : Ptr k) w, h.get p = some w → (⟨k, p⟩ : Σ k, Ptr k) ≠ ⟨.bytes, ipk.hash⟩ →
        ((Dlog.check T c m ipk).run r h).2.get p = some w) ∧
      Ready ((Dlog.check T c m ipk).run r h).2 c := by
  obtain ⟨b, rfl, hb⟩ := Call.seeIpk_at hv
  have f := hR.from hr
  have g := Dlog.gives_checkKey (T := T) f (hR.consts r) ipk
  obtain ⟨o, f'⟩ := g.run f
  have u := unchanged_run g f
  replace o := o.eq
  rw [Dlog.check_eq, show Dlog.keyOk T { ipk.fields with hash := b } = Dlog.keyOk T ipk.fields from rfl]
  simp only [Dlog.check, Prog.bind_def, run_bind]
  rw [o]
  cases hk : Dlog.keyOk T ipk.fields with
  | err e => exact ⟨rfl, fun _ h => (by cases h), fun _ _ _ h _ => u _ _ _ h, hR.next u f'.ok⟩
  | panic => exact ⟨rfl, fun _ h => (by cases h), fun _ _ _ h _ => u _ _ _ h, hR.next u f'.ok⟩
  | ok _ =>
    simp only [Res.ok_bind]
    generalize ((Dlog.checkKey T c ipk).run r h).2 = h₁ at u f'
    have hb₁ := u _ _ _ hb.get
    have ready : ∀ {h₂ : Heap S}, (∀ k (p : Ptr k), (⟨k, p⟩ : Σ k, Ptr k) ≠ ⟨.bytes, ipk.hash⟩ → h₂.get p = h₁.get p) →
        h₂.cache = h₁.cache →
        (∀ k (p : Ptr k) w, h.get p = some w → (⟨k, p⟩ : Σ k, Ptr k) ≠ ⟨.bytes, ipk.hash⟩ → h₂.get p = some w) ∧
          Ready h₂ c := fun {h₂} e ec =>
      have e' : ∀ {k : Kind} {p : Ptr k} {v : Val S k}, k ≠ .bytes → h₁.get p = some v → h₂.get p = some v :=
        fun hk hp => (e _ _ fun e => hk (congrArg Sigma.fst e)).trans hp
      ⟨fun k p w hp hne => (e k p hne).trans (u _ _ _ hp), e' (by decide) (u _ _ _ hR.genG1),
        e' (by decide) (u _ _ _ hR.genG2), hR.shared, fun lib key p hp => by
          rw [ec] at hp
          exact ⟨(f'.ok lib key p hp).1, e' (by decide) (f'.ok lib key p hp).2⟩⟩
    rw [Dlog.run_setHash m ipk hb₁]
    have eh : Idemix.Dlog.setHash (S := S) m { ipk.fields with hash := b } = (m { ipk.fields with hash := [] }).bind fun ser =>
      .ok { ipk.fields with hash := S.zrBytes (S.hashToZr ser) } := rfl
    rw [eh]
    cases m { ipk.fields with hash := [] } with
    | ok ser =>
      refine ⟨rfl, fun k hk => ?_, ready (fun k p hne => ?_) rfl⟩
      · cases hk
        simp only [Call.seeIpk, Option.map_eq_some_iff]
        exact ⟨_, Call.at_see ⟨hb.visible, get_set_self (get_set_self hb₁)⟩, rfl⟩
      · rw [Dlog.get_set_ne hne, Dlog.get_set_ne hne]
    | err e => exact ⟨rfl, fun _ h => (by cases h), ready (fun k p hne => Dlog.get_set_ne hne) rfl⟩
    | panic => exact ⟨rfl, fun _ h => (by cases h), ready (fun k p hne => Dlog.get_set_ne hne) rfl⟩

/-- **C78 (checked again).** A check of a key that has passed the check before, in any memory, changes nothing. -/
theorem C78_check_again (hR : Ready h c) (hr : r ≠ 0) (m : IpkMarshal) (ipk : Ipk) {v v₀ : IssuerPublicKey}
    (hv : Call.seeIpk r h ipk = some v) (hc : v₀.check T m = .ok v) :
    ((Dlog.check T c m ipk).run r h).1 = .ok () ∧ Unchanged h ((Dlog.check T c m ipk).run r h).2 := by
  have hc' : v.check T m = .ok v := by
    rw [Dlog.check_eq] at hc ⊢
    cases hk : Dlog.keyOk T v₀ with
    | err e => rw [hk] at hc; cases hc
    | panic => rw [hk] at hc; cases hc
    | ok _ =>
      rw [hk, Res.ok_bind] at hc
      have eh : Idemix.Dlog.setHash (S := S) m v₀ = (m { v₀ with hash := [] }).bind fun ser =>
        .ok { v₀ with hash := S.zrBytes (S.hashToZr ser) } := rfl
      rw [eh] at hc
      cases hm : m { v₀ with hash := [] } with
      | err e => rw [hm] at hc; cases hc
      | panic => rw [hm] at hc; cases hc
      | ok ser =>
        rw [hm] at hc
        cases hc
        rw [show Dlog.keyOk T { v₀ with hash := S.zrBytes (S.hashToZr ser) } = Dlog.keyOk T v₀ from rfl, hk, Res.ok_bind]
        simp only [Idemix.Dlog.setHash, hm, Res.ok_bind, Res.pure_def]
  obtain ⟨a, b, d, _⟩ := C78_check_sets_hash (T := T) hR hr m ipk hv
  refine ⟨by rw [a, hc']; rfl, fun k p w hp => ?_⟩
  by_cases hne : (⟨k, p⟩ : Σ k, Ptr k) = ⟨.bytes, ipk.hash⟩
  · cases hne
    obtain ⟨x, ex, hx⟩ := Call.seeIpk_at (b _ hc')
    obtain ⟨y, ey, hy⟩ := Call.seeIpk_at hv
    have e1 : x = y := by simpa using congrArg IssuerPublicKey.hash (ex.symm.trans ey)
    have e2 : y = w := Option.some.inj (hy.get.symm.trans hp)
    rw [← e2, ← e1]
    exact hx.get
  · exact d k p w hp hne

/-- The key of the example is accepted and stays as it is. -/
example : ((Dlog.check Toy.tr Dlog.Ex.consts Idemix.Dlog.Ex.mar Dlog.Ex.ipk).run 1 Dlog.Ex.mem).1 = .ok () ∧
    Unchanged Dlog.Ex.mem ((Dlog.check Toy.tr Dlog.Ex.consts Idemix.Dlog.Ex.mar Dlog.Ex.ipk).run 1 Dlog.Ex.mem).2 :=
  C78_check_again Dlog.Ex.ready (by decide) _ _ (v := Idemix.Dlog.Ex.key.ipk) (v₀ := Idemix.Dlog.Ex.key.ipk) rfl (by decide)

/-- **C78 (violated).** A check that accepts a key changes the key that it is given: with a hash that is not the right one the
key is accepted, and has another hash afterwards. -/
theorem C78_violated : ∃ (m : IpkMarshal) (h : Heap Toy.suite) (c : Consts) (ipk : Ipk) (before after : IssuerPublicKey),
    Ready h c ∧ Call.seeIpk 1 h ipk = some before ∧ ((Dlog.check Toy.tr c m ipk).run 1 h).1 = .ok () ∧
      Call.seeIpk 1 ((Dlog.check Toy.tr c m ipk).run 1 h).2 ipk = some after ∧ before ≠ after := by
  have hv : Call.seeIpk 1 (Dlog.Ex.mem.set (k := .bytes) ⟨0, 0⟩ ([9] : Bytes)) Dlog.Ex.ipk =
    some { Idemix.Dlog.Ex.key.ipk with hash := [9] } := rfl
  have hR : Ready (Dlog.Ex.mem.set (k := .bytes) ⟨0, 0⟩ ([9] : Bytes)) Dlog.Ex.consts :=
    ⟨rfl, rfl, ⟨rfl, rfl⟩, fun _ _ _ e => by cases e⟩
  have hc : IssuerPublicKey.check Toy.tr Idemix.Dlog.Ex.mar { Idemix.Dlog.Ex.key.ipk with hash := [9] } =
    .ok Idemix.Dlog.Ex.key.ipk := by decide
  obtain ⟨a, b, _⟩ := C78_check_sets_hash (T := Toy.tr) hR (r := 1) (by decide) Idemix.Dlog.Ex.mar Dlog.Ex.ipk hv
  exact ⟨_, _, _, _, _, _, hR, hv, by rw [a, hc]; rfl, b _ hc, by decide⟩

/-- **C78 (many calls).** However many calls are made one after the other on the same objects, each has the outcome that it
would have had on the objects as they were at the start. -/
theorem C78_in_turn_partial (hR : Ready h c) (hr : r ≠ 0) (calls : List (Call S))
    (hx : ∀ call ∈ calls, (call.expected T r h).isSome) :
    (inTurn T c r calls h).1.map some = calls.map (·.expected T r h) ∧ Unchanged h (inTurn T c r calls h).2 := by
  suffices H : ∀ h', Ready h' c → Unchanged h h' →
      (inTurn T c r calls h').1.map some = calls.map (·.expected T r h) ∧ Unchanged h (inTurn T c r calls h').2 from
    H h hR fun _ _ _ e => e
  induction calls with
  | nil => exact fun h' _ u => ⟨rfl, u⟩
  | cons call calls ih =>
    intro h' R u
    obtain ⟨x, e⟩ := Option.isSome_iff_exists.mp (hx call List.mem_cons_self)
    obtain ⟨a, b, d⟩ := C78_arguments_unchanged_partial (T := T) R hr call (Call.expected_mono u e)
    obtain ⟨i, j⟩ := ih (fun k hk => hx k (List.mem_cons_of_mem _ hk)) _ d fun k p v hp => b k p v (u k p v hp)
    simp only [inTurn, List.map_cons]
    exact ⟨by rw [i, a, e], j⟩

example : (inTurn Toy.tr Dlog.Ex.consts 1 ((List.range 100).map Dlog.Ex.calls) Dlog.Ex.mem).1.map some =
    ((List.range 100).map Dlog.Ex.calls).map (·.expected Toy.tr 1 Dlog.Ex.mem) :=
  (C78_in_turn_partial Dlog.Ex.ready (by decide) _ (by
    intro call hc
    obtain ⟨i, _, rfl⟩ := List.mem_map.mp hc
    exact Dlog.Ex.calls_ok i 1)).1

/-! ## C79 -/

/-- **C79.** Any number of goroutines make calls on shared objects, their steps in any order: each call that has returned has the
outcome that the model without memory gives for the values of its arguments at the start, and no object that was there at
the start is changed. Partial: no goroutine checks a key that is shared, see `C79_violated`. -/
theorem C79_concurrent_calls_partial (hR : Ready h c) (calls : Nat → Call S)
    (hx : ∀ i, ((calls i).expected T (i + 1) h).isSome) (σ : List Nat) :
    Unchanged h (exec σ (fun i => (calls i).prog T c) h).2 ∧
      ∀ i o, ((exec σ (fun i => (calls i).prog T c) h).1 i).outcome = some o → (calls i).expected T (i + 1) h = some o := by
  have hx' := fun i => Option.isSome_iff_exists.mp (hx i)
  choose x e using hx'
  obtain ⟨a, b⟩ := interleave (fun i => (calls i).prog T c) hR.cache x (fun _ _ a b => a = b)
    (fun i => Call.gives (hR.from (by omega)) (hR.consts _) (calls i) (e i)) σ
  exact ⟨a, fun i o ho => by rw [e i, (b i o ho).eq]⟩

/-- The hypotheses are met, and calls do return. -/
example : Unchanged Dlog.Ex.mem
      (exec ((List.range 200).map (· % 2)) (fun i => (Dlog.Ex.calls i).prog Toy.tr Dlog.Ex.consts) Dlog.Ex.mem).2 ∧
    Dlog.Ex.succeeded ((exec ((List.range 200).map (· % 2)) (fun i => (Dlog.Ex.calls i).prog Toy.tr Dlog.Ex.consts)
      Dlog.Ex.mem).1 1).outcome :=
  ⟨(C79_concurrent_calls_partial Dlog.Ex.ready Dlog.Ex.calls (fun i => Dlog.Ex.calls_ok i (i + 1)) _).1, by decide +kernel⟩

/-- The outcome is this request. -/
def Dlog.Ex.isRequest (req : CredRequest) : Option (Res (Out Toy.suite)) → Bool
  | some (.ok (.request q)) => decide (q = req)
  | _ => false

theorem Dlog.Ex.eq_of_isRequest {req : CredRequest} {o : Option (Res (Out Toy.suite))} (e : isRequest req o = true) :
    o = some (.ok (.request req)) := by
  unfold isRequest at e
  split at e
  · rw [of_decide_eq_true e]
  · cases e

/-- **C79 (violated).** A goroutine checks a valid key, with the right hash, when another makes a credential request for it. The
check clears the hash before it sets it. If the other reads it in between, its request is one that the issuer rejects, where
the one it would have made alone is accepted. -/
theorem C79_violated : ∃ (m : IpkMarshal) (h : Heap Toy.suite) (c : Consts) (ipk : Ipk) (v : IssuerPublicKey)
    (call : Call Toy.suite) (σ : List Nat) (made expected : CredRequest),
    Ready h c ∧ Call.seeIpk 2 h ipk = some v ∧ v.check Toy.tr m = .ok v ∧
      call.expected Toy.tr 2 h = some (.ok (.request expected)) ∧ expected.check Toy.tr v = .ok () ∧
      ((exec σ (fun i => if i = 0 then (Dlog.check Toy.tr c m ipk).bind fun _ => pure .nothing else call.prog Toy.tr c) h).1
        1).outcome = some (.ok (.request made)) ∧ made.check Toy.tr v ≠ .ok () :=
  ⟨Idemix.Dlog.Ex.mar, Dlog.Ex.mem, Dlog.Ex.consts, Dlog.Ex.ipk, Idemix.Dlog.Ex.key.ipk, Dlog.Ex.calls 0,
    List.replicate 45 0 ++ List.replicate 100 1, ⟨some ⟨[5], []⟩, some [6], [1], [2]⟩, Idemix.Dlog.Ex.req, Dlog.Ex.ready, rfl,
    by decide, rfl, by decide, Dlog.Ex.eq_of_isRequest (by decide +kernel), by decide⟩

/-- **C79 (races, violated).** The one is about to change the hash that the other is about to read. -/
theorem C79_races_violated : ∃ (m : IpkMarshal) (h : Heap Toy.suite) (c : Consts) (ipk : Ipk) (v : IssuerPublicKey)
    (call : Call Toy.suite) (σ : List Nat) (a : Σ k, Ptr k),
    Ready h c ∧ Call.seeIpk 2 h ipk = some v ∧ v.check Toy.tr m = .ok v ∧ (call.expected Toy.tr 2 h).isSome ∧
      changes ((exec σ (fun i => if i = 0 then (Dlog.check Toy.tr c m ipk).bind fun _ => pure .nothing
        else call.prog Toy.tr c) h).1 0) = some a ∧
      uses ((exec σ (fun i => if i = 0 then (Dlog.check Toy.tr c m ipk).bind fun _ => pure .nothing
        else call.prog Toy.tr c) h).1 1) = some a :=
  ⟨Idemix.Dlog.Ex.mar, Dlog.Ex.mem, Dlog.Ex.consts, Dlog.Ex.ipk, Idemix.Dlog.Ex.key.ipk, Dlog.Ex.calls 0,
    List.replicate 44 0 ++ List.replicate 11 1, ⟨.bytes, ⟨0, 0⟩⟩, Dlog.Ex.ready, rfl, by decide, rfl,
    by decide +kernel, by decide +kernel⟩

/-- **C79 (no races).** At no moment is one goroutine about to change an object that another is about to read or change. So the
memory model of Go makes the interleavings above all there is. Partial in the same way. -/
theorem C79_no_races_partial (hR : Ready h c) (calls : Nat → Call S)
    (hx : ∀ i, ((calls i).expected T (i + 1) h).isSome) (σ : List Nat) {i j : Nat}
    (hij : i ≠ j) {a b : Σ k, Ptr k} (ha : changes ((exec σ (fun i => (calls i).prog T c) h).1 i) = some a)
    (hb : uses ((exec σ (fun i => (calls i).prog T c) h).1 j) = some b) : a ≠ b := by
  have hx' := fun i => Option.isSome_iff_exists.mp (hx i)
  choose x e using hx'
  exact no_races (fun i => (calls i).prog T c) hR.cache x (fun _ a b => a = b)
    (fun i => Call.gives (hR.from (by omega)) (hR.consts _) (calls i) (e i)) σ hij ha hb

/-- **C79 (progress).** No call waits for another: a goroutine that gets to run again and again returns. -/
theorem C79_calls_return (calls : Nat → Call S) (h : Heap S) (σ : Nat → Nat) (i : Nat)
    (hσ : ∀ n, ∃ m, n ≤ m ∧ σ m = i) :
    ∃ n, ((exec ((List.range n).map σ) (fun i => (calls i).prog T c) h).1 i).outcome.isSome :=
  finishes _ h σ i hσ

end Idemix.Mem
