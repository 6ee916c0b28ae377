import Verif.Mem.AriesCalls
import Verif.Mem.DlogProps
import Verif.Aries.PropsCard

/-!
# C85, C86: sharing of objects between calls of the aries scheme, and such calls at the same time
-/

namespace Idemix.Mem

open Idemix.Aries (Card IPK ISK)
open Idemix.Bbs (Lib)

variable {S : Suite}

namespace Aries.Spec

/-- Calls one after the other: the outcomes and the memory afterwards. -/
def inTurn (L : Lib S) (c : Bbs.Consts) (r : Nat) : List (Aries.Call S) → Heap S → List (Res (Aries.Out S)) × Heap S
  | [], h => ([], h)
  | call :: calls, h =>
    (((call.prog L c).run r h).1 :: (inTurn L c r calls ((call.prog L c).run r h).2).1,
      (inTurn L c r calls ((call.prog L c).run r h).2).2)

/-- `Smartcard.NymEid` (`smartcard.go:64-69`), the results read. -/
def nymEid (card : Aries.CardPtr) : Prog S (S.F × S.G1) := do
  let p ← Aries.nymEid card
  let s ← load p.1
  let t ← load p.2
  pure (s, t)

/-- `NymEid` again and again, on the same card. -/
def commits (card : Aries.CardPtr) : Nat → Prog S (List (S.F × S.G1))
  | 0 => pure []
  | n + 1 => do
    let x ← nymEid card
    let xs ← commits card n
    pure (x :: xs)

/-- The same without memory. -/
def cardCommits (card : Card S) : Nat → List (S.F × S.G1)
  | 0 => []
  | n + 1 => card.nymEid.2 :: cardCommits card.nymEid.1 n

/-- What a goroutine does: a call; or `NymEid` on a card, this many times. -/
inductive Job (S : Suite) where
  | one (call : Aries.Call S)
  | commits (card : Aries.CardPtr) (n : Nat)

def Job.prog (L : Lib S) (c : Bbs.Consts) : Job S → Prog S (Aries.Out S ⊕ List (S.F × S.G1))
  | .one call => do
    let x ← call.prog L c
    pure (.inl x)
  | .commits card n => do
    let xs ← Spec.commits card n
    pure (.inr xs)

/-- What it would get alone, in the memory `h`; the card must be one that only it has. -/
def Job.expected (L : Lib S) (r : Nat) (h : Heap S) : Job S → Option (Res (Aries.Out S ⊕ List (S.F × S.G1)))
  | .one call => (call.expected L r h).map fun x => x >>= fun o => .ok (.inl o)
  | .commits card n =>
    if card.ctr.region = r then
      match Aries.Call.seeCard r h (.val card) with
      | some (.val v) => some (.ok (.inr (cardCommits v n)))
      | _ => none
    else none

end Aries.Spec

open Spec (Unchanged changes uses Ready)
open _root_.Idemix.Mem.Aries.Spec
open _root_.Idemix.Mem.Aries (Call Out IpkPtr IskPtr CardPtr)
open _root_.Idemix.Mem.Bbs (Consts)

/-! ## From the logic to these -/

variable {r : Nat} {h h' h₀ : Heap S} {L : Lib S} {c : Consts}

namespace Aries.Call

open _root_.Idemix.Mem.Dlog.Call (see_mono seeMeta_mono mapM_mono see_at at_see)

theorem seeIpk_mono (u : Unchanged h h') {p : IpkPtr} {v : IPK S} (e : seeIpk r h p = some v) : seeIpk r h' p = some v := by
  simp only [seeIpk, Option.bind_eq_bind, Option.bind_eq_some_iff, Option.pure_def, Option.some.injEq] at e ⊢
  obtain ⟨w, hw, h0, hh0, hs, hhs, pw, hpw, rfl⟩ := e
  exact ⟨w, see_mono u hw, h0, see_mono u hh0, hs, mapM_mono (fun _ _ => see_mono u) hhs, pw, see_mono u hpw, rfl⟩

theorem seeKey_mono (u : Unchanged h h') {p : Dyn IpkPtr} {v : Dyn (IPK S)} (e : seeKey r h p = some v) :
    seeKey r h' p = some v := by
  cases p with
  | val p =>
    simp only [seeKey, Option.map_eq_some_iff] at e ⊢
    obtain ⟨v, e, rfl⟩ := e
    exact ⟨v, seeIpk_mono u e, rfl⟩
  | nilPtr => exact e
  | other => exact e

theorem seeIsk_mono (u : Unchanged h h') {p : Dyn IskPtr} {v : Dyn (ISK S)} (e : seeIsk r h p = some v) :
    seeIsk r h' p = some v := by
  cases p with
  | val p =>
    simp only [seeIsk, Option.bind_eq_bind, Option.bind_eq_some_iff, Option.pure_def, Option.some.injEq] at e ⊢
    obtain ⟨k, hk, x, hx, rfl⟩ := e
    exact ⟨k, seeIpk_mono u hk, x, see_mono u hx, rfl⟩
  | nilPtr => exact e
  | other => exact e

theorem seeCard_mono (u : Unchanged h h') {p : Dyn CardPtr} {v : Dyn (Card S)} (e : seeCard r h p = some v) :
    seeCard r h' p = some v := by
  cases p with
  | val p =>
    simp only [seeCard, Option.bind_eq_bind, Option.bind_eq_some_iff, Option.pure_def] at e ⊢
    obtain ⟨a0, h0, a1, h1, a2, h2, w, hw, i, hi, k, hk, e⟩ := e
    exact ⟨a0, see_mono u h0, a1, see_mono u h1, a2, see_mono u h2, w, see_mono u hw, i, see_mono u hi, k, see_mono u hk, e⟩
  | nilPtr => exact e
  | other => exact e

theorem seeZr_mono (u : Unchanged h h') {p : Option (Ptr .zr)} {v : Option S.F} (e : seeZr r h p = some v) :
    seeZr r h' p = some v := by
  cases p with
  | none => exact e
  | some p =>
    simp only [seeZr, Option.map_eq_some_iff] at e ⊢
    obtain ⟨v, e, rfl⟩ := e
    exact ⟨v, see_mono u e, rfl⟩

theorem seeMsg_mono (u : Unchanged h h') {p : Bbs.MsgPtr} {v : Idemix.Bbs.SigMsg S} (e : seeMsg r h p = some v) :
    seeMsg r h' p = some v := by
  simp only [seeMsg, Option.map_eq_some_iff] at e ⊢
  obtain ⟨v, e, rfl⟩ := e
  exact ⟨v, see_mono u e, rfl⟩

theorem expected_mono (u : Unchanged h h') {call : Call S} {x : Res (Out S)}
    (e : call.expected L r h = some x) : call.expected L r h' = some x := by
  cases call <;> simp only [expected, Option.bind_eq_bind, Option.bind_eq_some_iff, Option.pure_def,
    Option.some.injEq] at e ⊢
  case newKey => exact e
  case newKeyFromBytes => exact e
  case newPublicKeyFromBytes => exact e
  case unblind => exact e
  case bases =>
    obtain ⟨k, hk, rfl⟩ := e
    exact ⟨k, seeKey_mono u hk, rfl⟩
  case makeNym =>
    obtain ⟨s, hs, k, hk, rfl⟩ := e
    exact ⟨s, see_mono u hs, k, seeKey_mono u hk, rfl⟩
  case blindMessages =>
    obtain ⟨z, hz, w, hw, rfl⟩ := e
    exact ⟨z, mapM_mono (fun _ _ => seeZr_mono u) hz, w, see_mono u hw, rfl⟩
  case blindSign =>
    obtain ⟨m, hm, k, hk, rfl⟩ := e
    exact ⟨m, mapM_mono (fun _ _ => seeMsg_mono u) hm, k, see_mono u hk, rfl⟩
  case unblindSign =>
    obtain ⟨s, hs, rfl⟩ := e
    exact ⟨s, see_mono u hs, rfl⟩
  case blind =>
    obtain ⟨s, hs, k, hk, rfl⟩ := e
    exact ⟨s, see_mono u hs, k, seeKey_mono u hk, rfl⟩
  case blindVerify =>
    obtain ⟨k, hk, rfl⟩ := e
    exact ⟨k, seeKey_mono u hk, rfl⟩
  case credSign =>
    obtain ⟨k, hk, rfl⟩ := e
    exact ⟨k, seeIsk_mono u hk, rfl⟩
  case credVerify =>
    obtain ⟨s, hs, k, hk, rfl⟩ := e
    exact ⟨s, see_mono u hs, k, seeKey_mono u hk, rfl⟩
  case nymSign =>
    obtain ⟨s, hs, n, hn, rn, hr, k, hk, rfl⟩ := e
    exact ⟨s, see_mono u hs, n, see_mono u hn, rn, see_mono u hr, k, seeKey_mono u hk, rfl⟩
  case nymVerify =>
    obtain ⟨k, hk, n, hn, rfl⟩ := e
    exact ⟨k, seeKey_mono u hk, n, see_mono u hn, rfl⟩
  case sign =>
    obtain ⟨s, hs, n, hn, rn, hr, k, hk, m, hm, rfl⟩ := e
    exact ⟨s, see_mono u hs, n, see_mono u hn, rn, see_mono u hr, k, seeKey_mono u hk, m, seeMeta_mono u hm, rfl⟩
  case verify =>
    obtain ⟨k, hk, m, hm, rfl⟩ := e
    exact ⟨k, seeKey_mono u hk, m, seeMeta_mono u hm, rfl⟩
  case auditNymEid =>
    obtain ⟨k, hk, m, hm, rfl⟩ := e
    exact ⟨k, seeKey_mono u hk, m, see_mono u hm, rfl⟩
  case auditNymRh =>
    obtain ⟨k, hk, m, hm, rfl⟩ := e
    exact ⟨k, seeKey_mono u hk, m, see_mono u hm, rfl⟩
  case cardSign =>
    obtain ⟨k, hk, rfl⟩ := e
    exact ⟨k, seeCard_mono u hk, rfl⟩
  case cardVerify =>
    obtain ⟨k, hk, n, hn, rfl⟩ := e
    exact ⟨k, seeKey_mono u hk, n, see_mono u hn, rfl⟩

end Aries.Call

/-! ## An example -/

namespace Aries.Ex

open Idemix.Aries.Ex (S7 L7 ipk4 cred4 card4 hidden4 sha4 seed4 cri2)

/-- The constants of the curve. -/
def consts : Consts := ⟨⟨0, 0⟩, ⟨0, 0⟩, ⟨0, 0⟩⟩

/-- A memory with them; the generators of an issuer's public key; a pseudonym; its randomness, which is the constant 1; a
user's secret key; an enrollment id; and the counter of a card. -/
def mem : Heap S7 :=
  ⟨fun r k => match r, k with
    | 0, .g1 => [(1 : Toy.K), 2, 0, 5, 3, 1, 6]
    | 0, .g2 => [(1 : Toy.K), 2]
    | 0, .zr => [(1 : Toy.K), 4, 5]
    | 0, .int => [(0 : Int)]
    | _, _ => [], fun _ _ => none⟩

/-- The issuer's public key. -/
def ipk : IpkPtr := ⟨⟨0, 1⟩, none, ⟨⟨0, 1⟩, [⟨0, 2⟩, ⟨0, 3⟩, ⟨0, 4⟩, ⟨0, 5⟩, ⟨0, 6⟩], ⟨0, 1⟩, 5⟩, 4⟩

/-- A card that shares the generators of the key. -/
def card : CardPtr := ⟨⟨0, 1⟩, ⟨0, 2⟩, ⟨0, 5⟩, ⟨0, 1⟩, ⟨0, 2⟩, card4.k0, card4.k1, ⟨0, 0⟩⟩

theorem ready : Ready mem consts := ⟨rfl, rfl, by decide, ⟨rfl, rfl, rfl⟩, fun _ _ _ e => by cases e⟩

/-- Random choices. -/
def rand : Idemix.Aries.SignRand S7 :=
  ⟨⟨(3 : Toy.K), (1 : Toy.K), fun i => ((2 * i + 1 : Nat) : Toy.K), fun i => ((3 * i + 2 : Nat) : Toy.K)⟩, (1 : Toy.K),
    (2 : Toy.K), (3 : Toy.K), (4 : Toy.K), (5 : Toy.K), (6 : Toy.K)⟩

/-- Calls that share the key, the secret, the pseudonym, the randomness and the constants. -/
def calls (i : Nat) : Call S7 :=
  match i % 8 with
  | 0 => .makeNym ⟨0, 1⟩ (.val ipk) 0 (1 : Toy.K)
  | 1 => .blind ⟨0, 1⟩ (.val ipk) [6] 0 (5 : Toy.K) fun i => (i : Toy.K)
  | 2 => .credVerify ⟨0, 1⟩ (.val ipk) cred4 hidden4
  | 3 => .sign cred4 ⟨0, 1⟩ ⟨0, 1⟩ ⟨0, 0⟩ (.val ipk) hidden4 [9] 3 2 cri2 .eidNymRhNym none rand
  | 4 => .sign cred4 ⟨0, 1⟩ ⟨0, 1⟩ ⟨0, 0⟩ (.val ipk) hidden4 [9] 3 2 cri2 .smartcard none rand
  | 5 => .nymSign ⟨0, 1⟩ ⟨0, 1⟩ ⟨0, 0⟩ (.val ipk) [8] 0 (3 : Toy.K) fun i => (i + 1 : Nat)
  | 6 => .cardSign sha4 (.val card) [9] seed4 (3 : Toy.K) (2 : Toy.K)
  | _ => .newPublicKeyFromBytes (some 0) ipk4.bytes [[1], [2]]

theorem calls_ok (i r : Nat) : ((calls i).expected L7 r mem).isSome := by
  unfold calls
  split <;> rfl

/-- The outcome is a result. -/
def succeeded : Option (Res (Out S7)) → Bool
  | some (.ok _) => true
  | _ => false

end Aries.Ex

/-! ## C85 -/

/-- **C85.** Whatever the arguments of a call share with each other, with the constants of the curve and with the caches of
generators: the outcome is that of the model without memory on the values of the arguments, no object that was there before
is changed, and the memory is ready for the next call. `Smartcard.NymEid` is not among these calls: see `C85_card_counter`. -/
theorem C85_arguments_unchanged (hR : Ready h c) (hr : r ≠ 0) (call : Call S) {x : Res (Out S)}
    (hx : call.expected L r h = some x) :
    ((call.prog L c).run r h).1 = x ∧ Unchanged h ((call.prog L c).run r h).2 ∧ Ready ((call.prog L c).run r h).2 c := by
  have f := hR.from hr
  have g := Aries.Call.gives f (hR.consts r) call hx
  obtain ⟨m, f'⟩ := g.run f
  exact ⟨m.eq, unchanged_run g f, hR.next (unchanged_run g f) f'.ok⟩

set_option maxRecDepth 40000 in
/-- The randomness of the pseudonym is a constant of the library, the pseudonym is a generator of the key. -/
example : (((Aries.Ex.calls 3).prog Idemix.Aries.Ex.L7 Aries.Ex.consts).run 1 Aries.Ex.mem).1 =
      (Idemix.Aries.sign Idemix.Aries.Ex.L7 Idemix.Aries.Ex.cred4 (4 : Toy.K) (2 : Toy.K) (1 : Toy.K)
        (.val Idemix.Aries.Ex.ipk4) Idemix.Aries.Ex.hidden4 [9] 3 2 Idemix.Aries.Ex.cri2 .eidNymRhNym none Aries.Ex.rand).bind
        (fun x => .ok (.signature x.1 x.2)) ∧
    Unchanged Aries.Ex.mem (((Aries.Ex.calls 4).prog Idemix.Aries.Ex.L7 Aries.Ex.consts).run 1 Aries.Ex.mem).2 :=
  ⟨(C85_arguments_unchanged Aries.Ex.ready (by decide) _ rfl).1,
    (C85_arguments_unchanged Aries.Ex.ready (by decide) (Aries.Ex.calls 4) rfl).2.1⟩

example : (List.range 8).all fun i => Aries.Ex.succeeded
    (some (((Aries.Ex.calls i).prog Idemix.Aries.Ex.L7 Aries.Ex.consts).run 1 Aries.Ex.mem).1) := by decide +kernel

/-- **C85 (many calls).** However many calls are made one after the other on the same objects, each has the outcome that it
would have had on the objects as they were at the start. -/
theorem C85_in_turn (hR : Ready h c) (hr : r ≠ 0) (calls : List (Call S))
    (hx : ∀ call ∈ calls, (call.expected L r h).isSome) :
    (inTurn L c r calls h).1.map some = calls.map (·.expected L r h) ∧ Unchanged h (inTurn L c r calls h).2 := by
  suffices H : ∀ h', Ready h' c → Unchanged h h' →
      (inTurn L c r calls h').1.map some = calls.map (·.expected L r h) ∧ Unchanged h (inTurn L c r calls h').2 from
    H h hR fun _ _ _ e => e
  induction calls with
  | nil => exact fun h' _ u => ⟨rfl, u⟩
  | cons call calls ih =>
    intro h' R u
    obtain ⟨x, e⟩ := Option.isSome_iff_exists.mp (hx call List.mem_cons_self)
    obtain ⟨a, b, d⟩ := C85_arguments_unchanged (L := L) R hr call (Aries.Call.expected_mono u e)
    obtain ⟨i, j⟩ := ih (fun k hk => hx k (List.mem_cons_of_mem _ hk)) _ d fun k p v hp => b k p v (u k p v hp)
    simp only [inTurn, List.map_cons]
    exact ⟨by rw [i, a, e], j⟩

example : (inTurn Idemix.Aries.Ex.L7 Aries.Ex.consts 1 ((List.range 100).map Aries.Ex.calls) Aries.Ex.mem).1.map some =
    ((List.range 100).map Aries.Ex.calls).map (·.expected Idemix.Aries.Ex.L7 1 Aries.Ex.mem) :=
  (C85_in_turn Aries.Ex.ready (by decide) _ (by
    intro call hc
    obtain ⟨i, _, rfl⟩ := List.mem_map.mp hc
    exact Aries.Ex.calls_ok i 1)).1

namespace Aries

theorem gives_readNymEid {p : CardPtr} {v : Card S} (f : From r h h) (hp : CardAt r h p v) :
    Gives r h h (do
      let q ← getNymEid p
      let s ← load q.1
      let t ← load q.2
      pure ((s, t) : S.F × S.G1)) (.ok v.getNymEid) fun h' a b => a = b ∧ CardAt r h' p v := by
  refine Gives.seq f (gives_getNymEid f hp) fun q h₁ f₁ a => ?_
  obtain ⟨a1, a2⟩ := a
  refine Gives.seq f₁.self (gives_load a1) fun _ h₂ f₂ e => ?_
  cases e
  refine Gives.seq f₂.self (gives_load (a2.mono f₂.ext)) fun _ h₃ f₃ e => ?_
  cases e
  exact Gives.done fun _ e => ⟨rfl, (((hp.mono f₁.ext).mono f₂.ext).mono f₃.ext).mono e⟩

end Aries

/-- **C85 (`Smartcard.NymEid`).** The call returns what the model of the card without memory says. Afterwards the counter of the
card is one more, and nothing else is changed. -/
theorem C85_card_counter (hR : Ready h c) (hr : r ≠ 0) (card : CardPtr) {v : Card S}
    (hv : Aries.Call.seeCard r h (.val card) = some (.val v)) :
    ((nymEid card).run r h).1 = .ok v.nymEid.2 ∧
      Aries.Call.seeCard r ((nymEid card).run r h).2 (.val card) = some (.val v.nymEid.1) ∧
      v.nymEid.1 = { v with ctr := v.ctr + 1 } ∧
      (∀ k (p : Ptr k) w, h.get p = some w → (⟨k, p⟩ : Σ k, Ptr k) ≠ ⟨.int, card.ctr⟩ →
        ((nymEid card).run r h).2.get p = some w) ∧
      Ready ((nymEid card).run r h).2 c := by
  have a : Aries.CardAt r h card v := Aries.Call.seeCard_at hv
  have hget : h.get (k := .int) card.ctr = some v.ctr.toInt := a.ctr.get
  have hrun : (nymEid card).run r h = Prog.run r (do
      let q ← Aries.getNymEid card
      let s ← load q.1
      let t ← load q.2
      pure ((s, t) : S.F × S.G1)) (h.set (k := .int) card.ctr (v.ctr + 1).toInt) := by
    show Prog.run r (Prog.bind (Aries.nymEid card) _) h = _
    simp only [Aries.nymEid, load, Prog.bind_def, Prog.bind, Prog.run, hget, Int16.ofInt_toInt]
  have other : ∀ {k : Kind} {p : Ptr k} {w : Val S k}, (⟨k, p⟩ : Σ k, Ptr k) ≠ ⟨.int, card.ctr⟩ → h.get p = some w →
      (h.set (k := .int) card.ctr (v.ctr + 1).toInt).get p = some w := fun hne hp => (Dlog.get_set_ne hne).trans hp
  have kind : ∀ {k : Kind} {p : Ptr k} {w : Val S k}, k ≠ .int → h.get p = some w →
      (h.set (k := .int) card.ctr (v.ctr + 1).toInt).get p = some w :=
    fun hk => other fun e => hk (congrArg Sigma.fst e)
  have R' : Ready (h.set (k := .int) card.ctr (v.ctr + 1).toInt) c :=
    ⟨kind (by decide) hR.genG1, kind (by decide) hR.genG2, kind (by decide) hR.f2192, hR.shared, fun lib key p hp =>
      ⟨(hR.cache lib key p hp).1, kind (by decide) (hR.cache lib key p hp).2⟩⟩
  have a' : Aries.CardAt r (h.set (k := .int) card.ctr (v.ctr + 1).toInt) card { v with ctr := v.ctr + 1 } :=
    ⟨⟨a.h0.visible, kind (by decide) a.h0.get⟩, ⟨a.h1.visible, kind (by decide) a.h1.get⟩,
      ⟨a.h2.visible, kind (by decide) a.h2.get⟩, ⟨a.uid.visible, kind (by decide) a.uid.get⟩,
      ⟨a.eid.visible, kind (by decide) a.eid.get⟩, a.k0, a.k1, ⟨a.ctr.visible, get_set_self hget⟩⟩
  have f := R'.from hr
  have g := (Aries.gives_readNymEid f a').imp (Q := fun _ a b => a = b) fun _ _ _ e => e.1
  obtain ⟨m, f'⟩ := g.run f
  have u := unchanged_run g f
  rw [hrun]
  refine ⟨m.eq, ?_, rfl, fun k p w hp hne => u _ _ _ (other hne hp), R'.next u f'.ok⟩
  refine Aries.Call.seeCard_mono u ?_
  simp only [Aries.Call.seeCard, Dlog.Call.at_see a'.h0, Dlog.Call.at_see a'.h1, Dlog.Call.at_see a'.h2,
    Dlog.Call.at_see a'.uid, Dlog.Call.at_see a'.eid, Dlog.Call.at_see a'.ctr, Option.bind_eq_bind, Option.bind_some,
    Int16.ofInt_toInt, if_true, Option.pure_def, a'.k0, a'.k1]
  rfl

set_option maxRecDepth 40000 in
/-- The first commitment of the card of the example. -/
example : ((nymEid Aries.Ex.card).run 1 Aries.Ex.mem).1 = .ok Idemix.Aries.Ex.card4.nymEid.2 ∧
    Aries.Call.seeCard 1 ((nymEid Aries.Ex.card).run 1 Aries.Ex.mem).2 (.val Aries.Ex.card) =
      some (.val { Idemix.Aries.Ex.card4 with ctr := 1 }) :=
  have hv : Aries.Call.seeCard 1 Aries.Ex.mem (.val Aries.Ex.card) = some (.val Idemix.Aries.Ex.card4) := by
    rfl
  ⟨(C85_card_counter Aries.Ex.ready (by decide) _ hv).1, (C85_card_counter Aries.Ex.ready (by decide) _ hv).2.1⟩

/-! ## C86 -/

/-- **C86.** Any number of goroutines make calls on shared objects, their steps in any order: each call that has returned has the
outcome that the model without memory gives for the values of its arguments at the start, and no object that was there at
the start is changed. Partial: `Smartcard.NymEid` is not among the calls, see `C86_own_cards` and `C86_card_violated`. -/
theorem C86_concurrent_calls_partial (hR : Ready h c) (calls : Nat → Call S)
    (hx : ∀ i, ((calls i).expected L (i + 1) h).isSome) (σ : List Nat) :
    Unchanged h (exec σ (fun i => (calls i).prog L c) h).2 ∧
      ∀ i o, ((exec σ (fun i => (calls i).prog L c) h).1 i).outcome = some o → (calls i).expected L (i + 1) h = some o := by
  have hx' := fun i => Option.isSome_iff_exists.mp (hx i)
  choose x e using hx'
  obtain ⟨a, b⟩ := interleave (fun i => (calls i).prog L c) hR.cache x (fun _ _ a b => a = b)
    (fun i => Aries.Call.gives (hR.from (by omega)) (hR.consts _) (calls i) (e i)) σ
  exact ⟨a, fun i o ho => by rw [e i, (b i o ho).eq]⟩

/-- The hypotheses are met, and calls do return. -/
example : Unchanged Aries.Ex.mem (exec ((List.range 800).map (· % 2 + 3))
      (fun i => (Aries.Ex.calls i).prog Idemix.Aries.Ex.L7 Aries.Ex.consts) Aries.Ex.mem).2 ∧
    Aries.Ex.succeeded ((exec ((List.range 800).map (· % 2 + 3))
      (fun i => (Aries.Ex.calls i).prog Idemix.Aries.Ex.L7 Aries.Ex.consts) Aries.Ex.mem).1 4).outcome :=
  ⟨(C86_concurrent_calls_partial Aries.Ex.ready Aries.Ex.calls (fun i => Aries.Ex.calls_ok i (i + 1)) _).1,
    by decide +kernel⟩

/-- **C86 (no races).** At no moment is one goroutine about to change an object that another is about to read or change. So the
memory model of Go makes the interleavings above all there is. Partial in the same way. -/
theorem C86_no_races_partial (hR : Ready h c) (calls : Nat → Call S)
    (hx : ∀ i, ((calls i).expected L (i + 1) h).isSome) (σ : List Nat) {i j : Nat}
    (hij : i ≠ j) {a b : Σ k, Ptr k} (ha : changes ((exec σ (fun i => (calls i).prog L c) h).1 i) = some a)
    (hb : uses ((exec σ (fun i => (calls i).prog L c) h).1 j) = some b) : a ≠ b := by
  have hx' := fun i => Option.isSome_iff_exists.mp (hx i)
  choose x e using hx'
  exact no_races (fun i => (calls i).prog L c) hR.cache x (fun _ a b => a = b)
    (fun i => Aries.Call.gives (hR.from (by omega)) (hR.consts _) (calls i) (e i)) σ hij ha hb

/-! ### Cards that are not shared -/

namespace Aries

/-- The memory without the integers of the goroutine `r` from number `n` on. -/
def below (r n : Nat) (h : Heap S) : Heap S :=
  ⟨Function.update h.cells r (Function.update (h.cells r) .int ((h.cells r .int).take n)), h.cache⟩

theorem below_ext (hr : r ≠ 0) (n : Nat) (h : Heap S) : Ext r (below r n h) h := by
  refine ⟨fun k => ?_, fun k => ?_, fun _ _ _ e => e⟩
  · by_cases hk : k = .int
    · subst hk; simpa [below] using List.take_prefix _ _
    · simp [below, hk]
  · simp [below, Ne.symm hr]

theorem below_from (hr : r ≠ 0) (n : Nat) (ok : CacheOk h) : From r (below r n h) h := ⟨hr, below_ext hr n h, ok⟩

theorem below_fresh {p : Ptr .int} (hp : p.region = r) : Fresh r (below r p.idx h) p :=
  ⟨hp, by simp [below, List.length_take]⟩

theorem gives_nymEid (f : From r h₀ h) {p : CardPtr} {v : Card S} (a : CardAt r h p v) (fr : Fresh r h₀ p.ctr) :
    Gives r h₀ h (Spec.nymEid p) (.ok v.nymEid.2) fun h' x y => x = y ∧ CardAt r h' p v.nymEid.1 := by
  show Gives r h₀ h (.read (k := .int) p.ctr fun ctr => .write (k := .int) p.ctr (Int16.ofInt ctr + 1).toInt (do
      let q ← getNymEid p
      let s ← load q.1
      let t ← load q.2
      pure ((s, t) : S.F × S.G1))) _ _
  refine Gives.read a.ctr fun h₁ e₁ => Gives.write (a.ctr.mono e₁.ext) fr fun h₂ e₂ => ?_
  have f₂ : From r h₀ (h₂.set (k := .int) p.ctr (Int16.ofInt v.ctr.toInt + 1).toInt) := ((f.env e₁).env e₂).set fr _
  replace a := (a.mono e₁.ext).mono e₂.ext
  have kind : ∀ {k : Kind} {q : Ptr k} {w : Val S k}, k ≠ .int → At r h₂ q w →
      At r (h₂.set (k := .int) p.ctr (Int16.ofInt v.ctr.toInt + 1).toInt) q w :=
    fun hk b => ⟨b.visible, (Dlog.get_set_ne fun e => hk (congrArg Sigma.fst e)).trans b.get⟩
  have a' : CardAt r (h₂.set (k := .int) p.ctr (Int16.ofInt v.ctr.toInt + 1).toInt) p v.nymEid.1 :=
    ⟨kind (by decide) a.h0, kind (by decide) a.h1, kind (by decide) a.h2, kind (by decide) a.uid, kind (by decide) a.eid,
      a.k0, a.k1, ⟨a.ctr.visible, by
        rw [get_set_self a.ctr.get]; simp only [Int16.ofInt_toInt]; rfl⟩⟩
  exact Gives.base f₂ (gives_readNymEid f₂.self a')

theorem gives_commits (n : Nat) (f : From r h₀ h) {p : CardPtr} {v : Card S} (a : CardAt r h p v) (fr : Fresh r h₀ p.ctr) :
    Gives r h₀ h (Spec.commits p n) (.ok (cardCommits v n)) fun _ x y => x = y := by
  induction n generalizing h v with
  | zero => exact Gives.done fun _ _ => rfl
  | succ n ih =>
    refine Gives.seq₀ f (gives_nymEid f a fr) fun x h₁ f₁ e => ?_
    obtain ⟨rfl, a₁⟩ := e
    refine Gives.seq₀ f₁ (ih f₁ a₁) fun xs h₂ f₂ e => ?_
    cases e
    exact Gives.done fun _ _ => rfl

/-- What a goroutine does not change. -/
def Spec.Job.start (r : Nat) (h : Heap S) : Job S → Heap S
  | .one _ => h
  | .commits card _ => below r card.ctr.idx h

theorem job_from (hr : r ≠ 0) (ok : CacheOk h) (job : Job S) : From r (job.start r h) h := by
  cases job with
  | one => exact ⟨hr, .refl _ _, ok⟩
  | commits => exact below_from hr _ ok

theorem gives_job (hR : Ready h c) (hr : r ≠ 0) (job : Job S) {x : Res (Out S ⊕ List (S.F × S.G1))}
    (hx : job.expected L r h = some x) : Gives r (job.start r h) h (job.prog L c) x fun _ a b => a = b := by
  cases job with
  | one call =>
    simp only [Job.expected, Option.map_eq_some_iff] at hx
    obtain ⟨y, hy, rfl⟩ := hx
    refine Gives.bind (hR.from hr) (Aries.Call.gives (hR.from hr) (hR.consts r) call hy) fun o o' h₁ _ _ e => ?_
    cases e
    exact Gives.done fun _ _ => rfl
  | commits card n =>
    simp only [Job.expected] at hx
    split at hx
    · rename_i hc
      split at hx
      · rename_i v hv
        cases hx
        refine Gives.seq₀ (below_from hr _ hR.cache) (gives_commits n (below_from hr _ hR.cache)
          (Aries.Call.seeCard_at hv : CardAt r h card v) (below_fresh hc)) fun o h₁ _ e => ?_
        cases e
        exact Gives.done fun _ _ => rfl
      · cases hx
    · cases hx

theorem get_below {k : Kind} {p : Ptr k} {w : Val S k} {n : Nat} (hp : p.region = r → k ≠ .int) (e : h.get p = some w) :
    (below r n h).get p = some w := by
  rw [← e]
  unfold Heap.get below
  by_cases h' : p.region = r
  · simp [h', hp h']
  · simp [h']

end Aries

/-- **C86 (cards that are not shared).** Any number of goroutines, their steps in any order. Each makes a call on shared objects,
or asks a card that no other goroutine has for commitments, again and again. Each gets what it would get alone, and no
object is changed except integers that belong to a goroutine with a card. -/
theorem C86_own_cards (hR : Ready h c) (jobs : Nat → Job S) (hx : ∀ i, ((jobs i).expected L (i + 1) h).isSome)
    (σ : List Nat) :
    (∀ i o, ((exec σ (fun i => (jobs i).prog L c) h).1 i).outcome = some o → (jobs i).expected L (i + 1) h = some o) ∧
      ∀ k (p : Ptr k) w, h.get p = some w → (∀ i card n, jobs i = .commits card n → p.region = i + 1 → k ≠ .int) →
        (exec σ (fun i => (jobs i).prog L c) h).2.get p = some w := by
  have hx' := fun i => Option.isSome_iff_exists.mp (hx i)
  choose x e using hx'
  obtain ⟨f, s⟩ := exec_safe (h₀ := fun i => (jobs i).start (i + 1) h) σ (fun i => (jobs i).prog L c) h
    (fun i => Meets (x i) fun _ a b => a = b) (fun i => Aries.job_from (by omega) hR.cache _)
    fun i => Aries.gives_job hR (by omega) (jobs i) (e i)
  refine ⟨fun i o ho => by rw [e i, (outcome_safe (s i) (f i).ok ho).eq], fun k p w hp ho => ?_⟩
  have key : ∀ i, (p.region = i + 1 ∨ p.region = 0) → ((jobs i).start (i + 1) h).get p = some w := by
    intro i hi
    cases hj : jobs i with
    | one => exact hp
    | commits card n => exact Aries.get_below (fun hr => ho i card n hj hr) hp
  cases hr : p.region with
  | zero => exact get_prefix (by rw [hr]; exact (f 0).ext.shared k) (key 0 (.inr hr))
  | succ j => exact get_prefix (by rw [hr]; exact (f j).ext.own k) (key j (.inl hr))

/-- **C86 (cards that are not shared, no races).** Nor do such goroutines race. -/
theorem C86_own_cards_no_races (hR : Ready h c) (jobs : Nat → Job S) (hx : ∀ i, ((jobs i).expected L (i + 1) h).isSome)
    (σ : List Nat) {i j : Nat} (hij : i ≠ j) {a b : Σ k, Ptr k}
    (ha : changes ((exec σ (fun i => (jobs i).prog L c) h).1 i) = some a)
    (hb : uses ((exec σ (fun i => (jobs i).prog L c) h).1 j) = some b) : a ≠ b := by
  have hx' := fun i => Option.isSome_iff_exists.mp (hx i)
  choose x e using hx'
  exact no_races_from (fun i => (jobs i).prog L c) x (fun _ a b => a = b)
    (fun i => Aries.job_from (by omega) hR.cache _) (fun i => Aries.gives_job hR (by omega) (jobs i) (e i)) σ hij ha hb

namespace Aries.Ex

open Idemix.Aries.Ex (S7 L7 card4)

/-- The memory of the example, and each goroutine has the counter of a card. -/
def mem2 : Heap S7 := ⟨fun r k => if r = 0 then mem.cells 0 k else match k with
  | .int => [(0 : Int)]
  | _ => [], fun _ _ => none⟩

/-- The cards have the generators and the values in common. -/
def cards (i : Nat) : CardPtr := { card with ctr := ⟨i + 1, 0⟩ }

theorem ready2 : Ready mem2 consts := ⟨rfl, rfl, by decide, ⟨rfl, rfl, rfl⟩, fun _ _ _ e => by cases e⟩

/-- Some ask their card for three commitments, some make calls. -/
def jobs (i : Nat) : Job S7 := if i % 2 = 0 then .commits (cards i) 3 else .one (calls (i / 2))

set_option maxRecDepth 40000 in
theorem jobs_ok (i : Nat) : ((jobs i).expected L7 (i + 1) mem2).isSome := by
  unfold jobs
  split
  · have : Aries.Call.seeCard (i + 1) mem2 (.val (cards i)) = some (.val card4) := by
      simp [Aries.Call.seeCard, Dlog.Call.see, cards, card, mem2, Heap.get, mem]
      rfl
    simp only [Job.expected, this]
    rw [if_pos (show (cards i).ctr.region = i + 1 from rfl)]
    rfl
  · unfold calls
    split <;> rfl

/-- The outcome is these commitments. -/
def isCommits (xs : List (Toy.K × Toy.K)) : Option (Res (Out S7 ⊕ List (S7.F × S7.G1))) → Bool
  | some (.ok (.inr ys)) => decide (ys = xs)
  | _ => false

/-- The outcome is this commitment. -/
def isCommit (x : Toy.K × Toy.K) : Option (Res (S7.F × S7.G1)) → Bool
  | some (.ok y) => decide (y = x)
  | _ => false

theorem eq_of_isCommit {x : Toy.K × Toy.K} {o : Option (Res (S7.F × S7.G1))} (e : isCommit x o = true) :
    o = some (.ok x) := by
  unfold isCommit at e
  split at e
  · rw [of_decide_eq_true e]
  · cases e

end Aries.Ex

/-- The hypotheses are met; a card gives three commitments while another goroutine signs. -/
example : (exec ((List.range 800).map fun n => if n % 2 = 0 then 0 else 7)
      (fun i => (Aries.Ex.jobs i).prog Idemix.Aries.Ex.L7 Aries.Ex.consts) Aries.Ex.mem2).2.get (k := .g1) ⟨0, 1⟩ =
        some (2 : Toy.K) ∧
    Aries.Ex.isCommits (cardCommits Idemix.Aries.Ex.card4 3)
      ((exec ((List.range 800).map fun n => if n % 2 = 0 then 0 else 7)
        (fun i => (Aries.Ex.jobs i).prog Idemix.Aries.Ex.L7 Aries.Ex.consts) Aries.Ex.mem2).1 0).outcome :=
  ⟨(C86_own_cards Aries.Ex.ready2 Aries.Ex.jobs Aries.Ex.jobs_ok _).2 .g1 ⟨0, 1⟩ (2 : Toy.K) rfl
    (fun _ _ _ _ h => by cases h), by decide +kernel⟩

set_option maxRecDepth 40000 in
/-- **C86 (violated).** Two goroutines ask the same card for a commitment to its enrollment id. Each is to get one with its own
randomness, as they do one after the other. If both read the counter before one writes it, they get the same commitment with
the same randomness, and the counter of the card is one more instead of two. -/
theorem C86_card_violated : ∃ (h : Heap Idemix.Aries.Ex.S7) (c : Consts) (card : CardPtr) (v : Card Idemix.Aries.Ex.S7)
    (σ : List Nat) (x : Toy.K × Toy.K),
    Ready h c ∧ (∀ r, Aries.Call.seeCard r h (.val card) = some (.val v)) ∧
      v.nymEid.2 ≠ v.nymEid.1.nymEid.2 ∧
      ((exec σ (fun _ => nymEid card) h).1 0).outcome = some (.ok x) ∧
      ((exec σ (fun _ => nymEid card) h).1 1).outcome = some (.ok x) ∧
      (exec σ (fun _ => nymEid card) h).2.get (k := .int) card.ctr = some (v.ctr + 1).toInt :=
  ⟨Aries.Ex.mem, Aries.Ex.consts, Aries.Ex.card, Idemix.Aries.Ex.card4,
    [0, 1, 0, 1] ++ List.replicate 40 0 ++ List.replicate 40 1, Idemix.Aries.Ex.card4.nymEid.2, Aries.Ex.ready,
    fun _ => rfl, by decide +kernel, Aries.Ex.eq_of_isCommit (by decide +kernel), Aries.Ex.eq_of_isCommit (by decide +kernel),
    by decide +kernel⟩

set_option maxRecDepth 40000 in
/-- **C86 (races, violated).** The one is about to change the counter that the other is about to read. -/
theorem C86_card_races_violated : ∃ (h : Heap Idemix.Aries.Ex.S7) (c : Consts) (card : CardPtr)
    (v : Card Idemix.Aries.Ex.S7) (σ : List Nat) (a : Σ k, Ptr k),
    Ready h c ∧ (∀ r, Aries.Call.seeCard r h (.val card) = some (.val v)) ∧
      changes ((exec σ (fun _ => nymEid card) h).1 0) = some a ∧ uses ((exec σ (fun _ => nymEid card) h).1 1) = some a :=
  ⟨Aries.Ex.mem, Aries.Ex.consts, Aries.Ex.card, Idemix.Aries.Ex.card4, [0], ⟨.int, ⟨0, 0⟩⟩, Aries.Ex.ready, fun _ => rfl,
    by decide +kernel, by decide +kernel⟩

/-- **C86 (progress).** No goroutine waits for another: one that gets to run again and again returns. -/
theorem C86_calls_return (jobs : Nat → Job S) (h : Heap S) (σ : Nat → Nat) (i : Nat) (hσ : ∀ n, ∃ m, n ≤ m ∧ σ m = i) :
    ∃ n, ((exec ((List.range n).map σ) (fun i => (jobs i).prog L c) h).1 i).outcome.isSome :=
  finishes _ h σ i hσ

end Idemix.Mem
