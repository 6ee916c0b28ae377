import Verif.Bbs.Lemmas
import Verif.Toy32

/-!
# C32: the generator cache

`publicKeyGeneratorCache` (`keys.go:29-51`) is a `sync.Map` shared by all users of one library value. The model
is a transition system: any number of threads run `toPublicKeyWithGenerators` (`keys.go:87-116`), and each
atomic step is one operation on the map. `sync.Map.Load` and `LoadOrStore` are atomic (trusted: Go's `sync`).
The points in the cache are shared pointers; that no operation of the library mutates them is proved over the model with
memory (`Verif/Mem`, C74 and C75).
-/

namespace Idemix.Bbs.Cache

variable {S : Suite}

/-- A call of `toPublicKeyWithGenerators` in progress (`keys.go:87-116`): the inputs still to be hashed, the points
obtained so far, and, inside `get` (`keys.go:37-51`) after a miss, the point just computed. -/
structure Call (S : Suite) where
  /-- the public key -/
  w : S.G2
  /-- the number of messages -/
  count : Int
  /-- the inputs for which `get` has not returned yet -/
  todo : List Bytes
  /-- the results of `get`, in order -/
  got : List S.G1
  /-- the local variable `generator` of `get`, once it is set -/
  pending : Option S.G1

/-- The shared map, the calls in progress by thread, and the finished calls with their results. -/
structure State (S : Suite) where
  /-- `generators` (`keys.go:30`) -/
  cache : Bytes → Option S.G1
  /-- the call that each thread is executing -/
  calls : Nat → Option (Call S)
  /-- the calls that have returned: key, count and result -/
  done : List (S.G2 × Int × PKG S)

/-- A new library value: the map is empty, nothing runs (`keys.go:33-35`). -/
def State.init : State S := ⟨fun _ => none, fun _ => none, []⟩

/-- `string(data)` (`keys.go:42`). -/
def cacheKey (data : Bytes) : Bytes := data

/-- Writing one entry of a function. -/
def put {α β : Type} [DecidableEq α] (f : α → β) (a : α) (b : β) : α → β := fun x => if x = a then b else f x

/-- The atomic steps (`keys.go:37-51`, `keys.go:87-116`). -/
inductive Step : State S → State S → Prop
  /-- a thread calls `toPublicKeyWithGenerators` and prepares the inputs -/
  | start (st : State S) (t : Nat) (w : S.G2) (count : Int) (d0 : Bytes) (ins : List Bytes)
      (idle : st.calls t = none) (hi : genInputs w count = .ok (d0, ins)) :
      Step st { st with calls := put st.calls t (some ⟨w, count, d0 :: ins, [], none⟩) }
  /-- `Load` finds the key: `get` returns the cached point (`keys.go:43-45`) -/
  | hit (st : State S) (t : Nat) (c : Call S) (data : Bytes) (rest : List Bytes) (g : S.G1)
      (hc : st.calls t = some c) (ht : c.todo = data :: rest) (hp : c.pending = none)
      (hl : st.cache (cacheKey data) = some g) :
      Step st { st with calls := put st.calls t (some { c with todo := rest, got := c.got ++ [g] }) }
  /-- `Load` misses: the point is computed (`keys.go:47`) -/
  | miss (st : State S) (t : Nat) (c : Call S) (data : Bytes) (rest : List Bytes)
      (hc : st.calls t = some c) (ht : c.todo = data :: rest) (hp : c.pending = none)
      (hl : st.cache (cacheKey data) = none) :
      Step st { st with calls := put st.calls t (some { c with pending := some (hashToG1 data) }) }
  /-- `LoadOrStore` finds the key by now: the stored point is returned (`keys.go:48-50`) -/
  | loaded (st : State S) (t : Nat) (c : Call S) (data : Bytes) (rest : List Bytes) (p g : S.G1)
      (hc : st.calls t = some c) (ht : c.todo = data :: rest) (hp : c.pending = some p)
      (hl : st.cache (cacheKey data) = some g) :
      Step st { st with
        calls := put st.calls t (some { c with todo := rest, got := c.got ++ [g], pending := none }) }
  /-- `LoadOrStore` stores the computed point and returns it (`keys.go:48-50`) -/
  | stored (st : State S) (t : Nat) (c : Call S) (data : Bytes) (rest : List Bytes) (p : S.G1)
      (hc : st.calls t = some c) (ht : c.todo = data :: rest) (hp : c.pending = some p)
      (hl : st.cache (cacheKey data) = none) :
      Step st { st with
        cache := put st.cache (cacheKey data) (some p)
        calls := put st.calls t (some { c with todo := rest, got := c.got ++ [p], pending := none }) }
  /-- all points are there: the call returns (`keys.go:110-115`) -/
  | finish (st : State S) (t : Nat) (c : Call S) (h0 : S.G1) (h : List S.G1)
      (hc : st.calls t = some c) (ht : c.todo = []) (hg : c.got = h0 :: h) :
      Step st { st with
        calls := put st.calls t none
        done := (c.w, c.count, ⟨h0, h, c.w, c.count⟩) :: st.done }

/-- Every interleaving from a new library value. -/
inductive Reachable : State S → Prop
  | init : Reachable .init
  | step (st st' : State S) : Reachable st → Step st st' → Reachable st'

/-- A call in progress is consistent: what it has and what it still has to do make up its inputs. -/
def Call.Good (c : Call S) : Prop :=
  ∃ d0 ins pre, genInputs c.w c.count = .ok (d0, ins) ∧ d0 :: ins = pre ++ c.todo ∧ c.got = pre.map hashToG1 ∧
    ∀ p, c.pending = some p → ∃ data rest, c.todo = data :: rest ∧ p = hashToG1 data

/-- The invariant. -/
structure Inv (st : State S) : Prop where
  cache : ∀ k g, st.cache k = some g → g = hashToG1 k
  calls : ∀ t c, st.calls t = some c → c.Good
  done : ∀ w count pk, (w, count, pk) ∈ st.done → toPKG w count = .ok pk

theorem put_calls {f : Nat → Option (Call S)} {t : Nat} {c : Call S} (h : ∀ t c, f t = some c → c.Good)
    (hc : c.Good) : ∀ t' c', put f t (some c) t' = some c' → c'.Good := by
  intro t' c' e
  unfold put at e
  split at e
  · cases e; exact hc
  · exact h _ _ e

theorem Inv.step {st st' : State S} (h : Inv st) (hs : Step st st') : Inv st' := by
  obtain ⟨h1, h2, h3⟩ := h
  cases hs with
  | start t w count d0 ins idle hi =>
    exact ⟨h1, put_calls h2 ⟨d0, ins, [], hi, rfl, rfl, by simp⟩, h3⟩
  | hit t c data rest g hc ht hp hl =>
    obtain ⟨d0, ins, pre, a, b, e, _⟩ := h2 t c hc
    refine ⟨h1, put_calls h2 ⟨d0, ins, pre ++ [data], a, by simp [b, ht], ?_, by simp [hp]⟩, h3⟩
    simp [e, h1 _ _ hl, cacheKey]
  | miss t c data rest hc ht hp hl =>
    obtain ⟨d0, ins, pre, a, b, e, _⟩ := h2 t c hc
    refine ⟨h1, put_calls h2 ⟨d0, ins, pre, a, b, e, ?_⟩, h3⟩
    rintro p ⟨⟩
    exact ⟨data, rest, ht, rfl⟩
  | loaded t c data rest p g hc ht hp hl =>
    obtain ⟨d0, ins, pre, a, b, e, _⟩ := h2 t c hc
    refine ⟨h1, put_calls h2 ⟨d0, ins, pre ++ [data], a, by simp [b, ht], ?_, by simp⟩, h3⟩
    simp [e, h1 _ _ hl, cacheKey]
  | stored t c data rest p hc ht hp hl =>
    obtain ⟨d0, ins, pre, a, b, e, f⟩ := h2 t c hc
    obtain ⟨data', rest', q1, q2⟩ := f p hp
    rw [ht] at q1
    cases q1
    refine ⟨?_, put_calls h2 ⟨d0, ins, pre ++ [data], a, by simp [b, ht], by simp [e, q2], by simp⟩, h3⟩
    intro k g hk
    simp only [put] at hk
    split at hk
    · cases hk; rw [q2]; simp_all [cacheKey]
    · exact h1 _ _ hk
  | finish t c h0 h hc ht hg =>
    refine ⟨h1, ?_, ?_⟩
    · intro t' c' e
      simp only [put] at e
      split at e
      · cases e
      · exact h2 _ _ e
    · intro w count pk hm
      rcases List.mem_cons.mp hm with e | e
      · cases e
        obtain ⟨d0, ins, pre, a, b, e, _⟩ := h2 t c hc
        rw [ht, List.append_nil] at b
        rw [hg, ← b, List.map_cons] at e
        simp only [List.cons.injEq] at e
        simp [toPKG, a, e.1, e.2]
      · exact h3 _ _ _ e

theorem Reachable.inv {st : State S} (h : Reachable st) : Inv st := by
  induction h with
  | init => exact ⟨by simp [State.init], by simp [State.init], by simp [State.init]⟩
  | step st st' _ hs ih => exact ih.step hs

/-- **C32.** Whatever the calls of any number of threads on one library value and however their steps interleave,
every call that has returned has returned exactly what it returns without a cache (`toPKG`). -/
theorem C32_cache_transparent (st : State S) (h : Reachable st) (w : S.G2) (count : Int) (pk : PKG S)
    (hd : (w, count, pk) ∈ st.done) : toPKG w count = .ok pk :=
  h.inv.done w count pk hd

/-- **C32 (same results).** Two calls for the same key and count return the same generators. -/
theorem C32_calls_agree (st : State S) (h : Reachable st) (w : S.G2) (count : Int) (pk₁ pk₂ : PKG S)
    (h₁ : (w, count, pk₁) ∈ st.done) (h₂ : (w, count, pk₂) ∈ st.done) : pk₁ = pk₂ := by
  have := (h.inv.done _ _ _ h₁).symm.trans (h.inv.done _ _ _ h₂)
  cases this
  rfl

/-- How many steps a call has to make before it returns. -/
def Call.cost (c : Call S) : Nat := 2 * c.todo.length + (if c.pending.isSome then 0 else 1)

/-- **C32 (no blocking).** A call in progress can always make a step of its own, whatever the other threads do: it
returns, or it comes closer to returning. -/
theorem C32_no_blocking (st : State S) (h : Reachable st) (t : Nat) (c : Call S) (hc : st.calls t = some c) :
    ∃ st', Step st st' ∧ (∀ t', t' ≠ t → st'.calls t' = st.calls t') ∧
      ((st'.calls t = none ∧ ∃ pk, st'.done = (c.w, c.count, pk) :: st.done) ∨
        ∃ c', st'.calls t = some c' ∧ c'.w = c.w ∧ c'.count = c.count ∧ c'.cost < c.cost) := by
  obtain ⟨d0, ins, pre, a, b, e, f⟩ := h.inv.calls t c hc
  have hput : ∀ (x : Option (Call S)) t', t' ≠ t → put st.calls t x t' = st.calls t' := by
    intro x t' ht; simp [put, ht]
  have hself : ∀ x : Option (Call S), put st.calls t x t = x := by intro x; simp [put]
  cases ht : c.todo with
  | nil =>
    rw [ht, List.append_nil] at b
    rw [← b, List.map_cons] at e
    exact ⟨_, .finish st t c _ _ hc ht e, hput _, .inl ⟨hself _, _, rfl⟩⟩
  | cons data rest =>
    cases hp : c.pending with
    | none =>
      cases hl : st.cache (cacheKey data) with
      | none =>
        refine ⟨_, .miss st t c data rest hc ht hp hl, hput _, .inr ⟨_, hself _, rfl, rfl, ?_⟩⟩
        simp [Call.cost, hp]
      | some g =>
        refine ⟨_, .hit st t c data rest g hc ht hp hl, hput _, .inr ⟨_, hself _, rfl, rfl, ?_⟩⟩
        simp [Call.cost, hp, ht]
    | some p =>
      cases hl : st.cache (cacheKey data) with
      | none =>
        refine ⟨_, .stored st t c data rest p hc ht hp hl, hput _, .inr ⟨_, hself _, rfl, rfl, ?_⟩⟩
        simp [Call.cost, hp, ht]; omega
      | some g =>
        refine ⟨_, .loaded st t c data rest p g hc ht hp hl, hput _, .inr ⟨_, hself _, rfl, rfl, ?_⟩⟩
        simp [Call.cost, hp, ht]; omega

/-- A reachable state in which a call that took its points from the cache has returned. -/
example : ∃ st : State Toy.suite32, Reachable st ∧ ∃ pk : PKG Toy.suite32, ((0 : Toy.K), (0 : Int), pk) ∈ st.done ∧ st.done.length = 2 := by
  have hi : genInputs (S := Toy.suite32) (0 : Toy.K) 0 = .ok (genData (S := Toy.suite32) (0 : Toy.K) 0 0, []) := rfl
  have r0 : Reachable (S := Toy.suite32) State.init := .init
  have r1 := Reachable.step _ _ r0 (.start _ 0 _ _ _ _ rfl hi)
  have r2 := Reachable.step _ _ r1 (.start _ 1 _ _ _ _ rfl hi)
  have r3 := Reachable.step _ _ r2 (.miss _ 0 _ _ _ rfl rfl rfl rfl)
  have r4 := Reachable.step _ _ r3 (.miss _ 1 _ _ _ rfl rfl rfl rfl)
  have r5 := Reachable.step _ _ r4 (.stored _ 1 _ _ _ _ rfl rfl rfl rfl)
  have r6 := Reachable.step _ _ r5 (.loaded _ 0 _ _ _ _ _ rfl rfl rfl rfl)
  have r7 := Reachable.step _ _ r6 (.finish _ 0 _ _ _ rfl rfl rfl)
  have r8 := Reachable.step _ _ r7 (.finish _ 1 _ _ _ rfl rfl rfl)
  exact ⟨_, r8, _, List.mem_cons_self, rfl⟩

end Idemix.Bbs.Cache
