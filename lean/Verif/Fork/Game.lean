import Verif.Fork.Count
import Verif.Suite

/-!
# Forgers in the random oracle model

A forger that may ask a hash function any questions, one after another. A game gives it the answers of a list, one for each new question,
and then checks what it came up with. Two games with lists that agree up to the answer to some question ask the same questions up to there.
-/

namespace Idemix.Fork

open Idemix (Bytes)

namespace Spec

variable {F α : Type}

/-- A forger: it comes up with `a`, or asks the hash function a question and goes on depending on the answer. -/
inductive Strategy (F α : Type) where
  | done (a : α)
  | ask (x : Bytes) (next : F → Strategy F α)

/-- The questions asked so far with their answers, oldest first. -/
abbrev Table (F : Type) := List (Bytes × F)

/-- Play with the answers `ω`: a question that was asked before gets its old answer, another one the next answer of `ω`. The play fails
if there are not enough. -/
def Strategy.run : Strategy F α → Table F → List F → Option (α × Table F)
  | .done a => fun tab _ => some (a, tab)
  | .ask x next => fun tab ω =>
    match tab.lookup x with
    | some c => (next c).run tab ω
    | none =>
      match ω with
      | [] => none
      | c :: ω => (next c).run (tab ++ [(x, c)]) ω

/-- The hash function with these answers. -/
def oracle [Zero F] (tab : Table F) (x : Bytes) : F := (tab.lookup x).getD 0

/-- The forger, and then the two questions of a verifier: `first a`, and `second a c` for the answer `c` to the first. -/
def Strategy.checked (first : α → Bytes) (second : α → F → Bytes) : Strategy F α → Strategy F α
  | .done a => .ask (first a) fun c => .ask (second a c) fun _ => .done a
  | .ask x next => .ask x fun c => (next c).checked first second

/-- What a verifier and a forger do. -/
structure Game (F α : Type) where
  forger : Strategy F α
  first : α → Bytes
  second : α → F → Bytes
  accepts : (Bytes → F) → α → Prop

/-- A play with the answers `ω`. -/
def Game.play (g : Game F α) {q : Nat} (ω : Fin q → F) : Option (α × Table F) :=
  (g.forger.checked g.first g.second).run [] (List.ofFn ω)

/-- The verifier accepts. -/
def Game.Wins [Zero F] (g : Game F α) {q : Nat} (ω : Fin q → F) (a : α) (tab : Table F) : Prop :=
  g.play ω = some (a, tab) ∧ g.accepts (oracle tab) a

/-- The final answer. -/
def Game.answer [Zero F] (g : Game F α) (a : α) (tab : Table F) : F := oracle tab (g.second a (oracle tab (g.first a)))

/-- Play, and play again with new answers from the first question of the verifier on. -/
def Game.fork (g : Game F α) {q : Nat} (ω ω' : Fin q → F) : Option ((α × Table F) × (α × Table F)) :=
  match g.play ω with
  | none => none
  | some (a, tab) =>
    let I := (tab.map Prod.fst).idxOf (g.first a)
    if h : I < q then (g.play (mix ⟨I, h⟩ ω ω')).map fun r => ((a, tab), r) else none

/-- The second run of a fork asks the same first question, gets a different final answer, and both are accepted. -/
def Game.Forked [Zero F] (g : Game F α) (r : (α × Table F) × (α × Table F)) : Prop :=
  g.accepts (oracle r.1.2) r.1.1 ∧ g.accepts (oracle r.2.2) r.2.1 ∧ g.first r.1.1 = g.first r.2.1 ∧
    g.answer r.1.1 r.1.2 ≠ g.answer r.2.1 r.2.2

end Spec

open Spec

variable {F α : Type}

/-! ## Questions -/

/-- The new questions of a play, in order, including the one for which there is no answer any more. -/
def trace : Strategy F α → Table F → List F → List Bytes
  | .done _ => fun _ _ => []
  | .ask x next => fun tab ω =>
    match tab.lookup x with
    | some c => trace (next c) tab ω
    | none =>
      x :: match ω with
        | [] => []
        | c :: ω => trace (next c) (tab ++ [(x, c)]) ω

theorem run_ask (x : Bytes) (next : F → Strategy F α) (tab : Table F) (ω : List F) : (Strategy.ask x next).run tab ω =
    match tab.lookup x with
    | some c => (next c).run tab ω
    | none =>
      match ω with
      | [] => none
      | c :: ω => (next c).run (tab ++ [(x, c)]) ω := by rw [Strategy.run]

theorem trace_ask (x : Bytes) (next : F → Strategy F α) (tab : Table F) (ω : List F) : trace (Strategy.ask x next) tab ω =
    match tab.lookup x with
    | some c => trace (next c) tab ω
    | none =>
      x :: match ω with
        | [] => []
        | c :: ω => trace (next c) (tab ++ [(x, c)]) ω := by rw [trace]

theorem trace_take (s : Strategy F α) (tab : Table F) (ω : List F) (n : Nat) :
    (trace s tab ω).take (n + 1) = (trace s tab (ω.take n)).take (n + 1) := by
  induction s generalizing tab ω n with
  | done a => rfl
  | ask x next ih =>
    rw [trace_ask, trace_ask]
    cases h : tab.lookup x with
    | some c => exact ih c tab ω n
    | none =>
      cases ω with
      | nil => simp
      | cons c ω =>
        cases n with
        | zero => simp
        | succ n => simpa using ih c _ ω n

theorem run_trace {s : Strategy F α} {tab tab' : Table F} {ω : List F} {a : α} (h : s.run tab ω = some (a, tab')) :
    tab'.map Prod.fst = tab.map Prod.fst ++ trace s tab ω := by
  induction s generalizing tab ω with
  | done b =>
    simp only [Strategy.run, Option.some.injEq, Prod.mk.injEq] at h
    simp [trace, h.2]
  | ask x next ih =>
    rw [run_ask] at h
    rw [trace_ask]
    cases hl : tab.lookup x with
    | some c => rw [hl] at h; exact ih c h
    | none =>
      rw [hl] at h
      cases ω with
      | nil => cases h
      | cons c ω => simpa using ih c h

theorem run_answers {s : Strategy F α} {tab tab' : Table F} {ω : List F} {a : α} (h : s.run tab ω = some (a, tab')) :
    ∃ n ≤ ω.length, tab'.map Prod.snd = tab.map Prod.snd ++ ω.take n := by
  induction s generalizing tab ω with
  | done b =>
    simp only [Strategy.run, Option.some.injEq, Prod.mk.injEq] at h
    exact ⟨0, Nat.zero_le _, by simp [h.2]⟩
  | ask x next ih =>
    rw [run_ask] at h
    cases hl : tab.lookup x with
    | some c => rw [hl] at h; exact ih c h
    | none =>
      rw [hl] at h
      cases ω with
      | nil => cases h
      | cons c ω =>
        obtain ⟨n, hn, e⟩ := ih c h
        exact ⟨n + 1, by simpa using hn, by simpa using e⟩

/-! ## Tables -/

theorem lookup_append_none {tab : Table F} {x : Bytes} (h : tab.lookup x = none) (ext : Table F) :
    (tab ++ ext).lookup x = ext.lookup x := by
  induction tab with
  | nil => rfl
  | cons p tab ih =>
    rw [List.cons_append, List.lookup_cons] at *
    cases hb : x == p.1 with
    | true => rw [hb] at h; cases h
    | false => rw [hb] at h; exact ih h

theorem lookup_append_some {tab : Table F} {x : Bytes} {c : F} (h : tab.lookup x = some c) (ext : Table F) :
    (tab ++ ext).lookup x = some c := by
  induction tab with
  | nil => cases h
  | cons p tab ih =>
    rw [List.cons_append, List.lookup_cons] at *
    cases hb : x == p.1 with
    | true => rw [hb] at h; exact h
    | false => rw [hb] at h; exact ih h

theorem run_keeps {s : Strategy F α} {tab tab' : Table F} {ω : List F} {a : α} (h : s.run tab ω = some (a, tab'))
    {x : Bytes} {c : F} (hx : tab.lookup x = some c) : tab'.lookup x = some c := by
  induction s generalizing tab ω with
  | done b =>
    simp only [Strategy.run, Option.some.injEq, Prod.mk.injEq] at h
    rw [← h.2, hx]
  | ask y next ih =>
    rw [run_ask] at h
    cases hl : tab.lookup y with
    | some c => rw [hl] at h; exact ih c h hx
    | none =>
      rw [hl] at h
      cases ω with
      | nil => cases h
      | cons c ω => exact ih c h (lookup_append_some hx _)

/-- A forger that asks a question knows the answer afterwards. -/
theorem run_asks {x : Bytes} {next : F → Strategy F α} {tab tab' : Table F} {ω : List F} {a : α}
    (h : (Strategy.ask x next).run tab ω = some (a, tab')) :
    ∃ c tab₁ ω₁, tab'.lookup x = some c ∧ (next c).run tab₁ ω₁ = some (a, tab') := by
  rw [run_ask] at h
  cases hl : tab.lookup x with
  | some c => rw [hl] at h; exact ⟨c, _, _, run_keeps h hl, h⟩
  | none =>
    rw [hl] at h
    cases ω with
    | nil => cases h
    | cons c ω =>
      refine ⟨c, _, _, run_keeps h ?_, h⟩
      rw [lookup_append_none hl]
      simp [List.lookup]

/-- The questions of the verifier have been asked. -/
theorem run_checked {s : Strategy F α} {first : α → Bytes} {second : α → F → Bytes} {tab tab' : Table F} {ω : List F} {a : α}
    (h : (s.checked first second).run tab ω = some (a, tab')) :
    ∃ c c', tab'.lookup (first a) = some c ∧ tab'.lookup (second a c) = some c' := by
  induction s generalizing tab ω with
  | done b =>
    obtain ⟨c, tab₁, ω₁, h1, h2⟩ := run_asks h
    obtain ⟨c', tab₂, ω₂, h3, h4⟩ := run_asks h2
    simp only [Strategy.run, Option.some.injEq, Prod.mk.injEq] at h4
    obtain ⟨rfl, -⟩ := h4
    exact ⟨c, c', h1, h3⟩
  | ask x next ih =>
    obtain ⟨c, tab₁, ω₁, -, h2⟩ := run_asks h
    exact ih c h2

theorem lookup_idx {tab : Table F} {x : Bytes} {c : F} (h : tab.lookup x = some c) :
    (tab.map Prod.fst)[(tab.map Prod.fst).idxOf x]? = some x ∧ (tab.map Prod.snd)[(tab.map Prod.fst).idxOf x]? = some c := by
  induction tab with
  | nil => cases h
  | cons p tab ih =>
    rw [List.lookup_cons] at h
    by_cases hb : x = p.1
    · subst hb
      simp only [BEq.rfl, Option.some.injEq] at h
      simp [h]
    · rw [beq_false_of_ne hb] at h
      obtain ⟨h1, h2⟩ := ih h
      simp only [List.map_cons, List.idxOf_cons_ne _ (Ne.symm hb), List.getElem?_cons_succ]
      exact ⟨h1, h2⟩

/-! ## Plays -/

section

variable {g : Game F α} {q : Nat}

theorem play_answer {ω : Fin q → F} {a : α} {tab : Table F} (h : g.play ω = some (a, tab)) {i : Nat} {c : F}
    (hi : (tab.map Prod.snd)[i]? = some c) : ∃ h : i < q, ω ⟨i, h⟩ = c := by
  obtain ⟨n, hn, e⟩ := run_answers h
  rw [e, List.map_nil, List.nil_append, List.getElem?_take] at hi
  split at hi
  · next hlt =>
    rw [List.getElem?_ofFn] at hi
    split at hi
    · next hq => exact ⟨hq, Option.some.inj hi⟩
    · cases hi
  · cases hi

/-- The number of the first question of the verifier. -/
theorem play_first [Zero F] {ω : Fin q → F} {a : α} {tab : Table F} (h : g.play ω = some (a, tab)) :
    ∃ hI : (tab.map Prod.fst).idxOf (g.first a) < q,
      ω ⟨_, hI⟩ = oracle tab (g.first a) := by
  obtain ⟨c, c', h1, -⟩ := run_checked h
  obtain ⟨hI, e⟩ := play_answer h (lookup_idx h1).2
  exact ⟨hI, by rw [e, oracle, h1]; rfl⟩

theorem take_ofFn {ω ω' : Fin q → F} {I : Nat} (h : ∀ i : Fin q, i.1 < I → ω i = ω' i) :
    (List.ofFn ω).take I = (List.ofFn ω').take I := by
  apply List.ext_getElem?
  intro i
  rw [List.getElem?_take, List.getElem?_take]
  split
  · next hi =>
    rw [List.getElem?_ofFn, List.getElem?_ofFn]
    split
    · next hq => rw [h ⟨i, hq⟩ hi]
    · rfl
  · rfl

/-- Plays that depend on the question number `I` and share the answers before it ask the same first question. -/
theorem same_first {ω ω' : Fin q → F} {a a' : α} {tab tab' : Table F} (h : g.play ω = some (a, tab))
    (h' : g.play ω' = some (a', tab')) {I : Nat} (hI : (tab.map Prod.fst).idxOf (g.first a) = I)
    (hI' : (tab'.map Prod.fst).idxOf (g.first a') = I) (hω : ∀ i : Fin q, i.1 < I → ω i = ω' i) : g.first a = g.first a' := by
  have key : ∀ {ω : Fin q → F} {a : α} {tab : Table F}, g.play ω = some (a, tab) →
      (tab.map Prod.fst).idxOf (g.first a) = I →
      ((trace (g.forger.checked g.first g.second) [] ((List.ofFn ω).take I)).take (I + 1))[I]? = some (g.first a) := by
    intro ω a tab h hI
    obtain ⟨c, -, h1, -⟩ := run_checked h
    have e := (lookup_idx h1).1
    have e' : tab.map Prod.fst = trace (g.forger.checked g.first g.second) [] (List.ofFn ω) := by simpa using run_trace h
    rw [hI, e'] at e
    rw [← trace_take, List.getElem?_take, if_pos (Nat.lt_succ_self I), e]
  have k1 := key h hI
  have k2 := key h' hI'
  rw [take_ofFn hω] at k1
  exact Option.some.inj (k1.symm.trans k2)

/-- The forking lemma for such games: the answers for which the forger succeeds, and the pairs from which two accepted outcomes as in
`Forked` are computed. -/
theorem forks [Zero F] [Fintype F] [DecidableEq F] (g : Game F α) (q : Nat) (decode : Bytes → F)
    (decode_second : ∀ a c, decode (g.second a c) = c) [DecidablePred fun ω : Fin q → F => ∃ a tab, g.Wins ω a tab]
    [DecidablePred fun p : (Fin q → F) × (Fin q → F) => ∃ r, g.fork p.1 p.2 = some r ∧ g.Forked r] :
    Fintype.card F * (Finset.univ.filter fun ω : Fin q → F => ∃ a tab, g.Wins ω a tab).card ^ 2 ≤
      q * Fintype.card F * (Finset.univ.filter fun p : (Fin q → F) × (Fin q → F) =>
        ∃ r, g.fork p.1 p.2 = some r ∧ g.Forked r).card +
      2 * q ^ 2 * (Finset.univ.filter fun ω : Fin q → F => ∃ a tab, g.Wins ω a tab).card * Fintype.card (Fin q → F) := by
  classical
  let win (ω : Fin q → F) : Option (Fin q) :=
    match g.play ω with
    | none => none
    | some (a, tab) =>
      if h : (tab.map Prod.fst).idxOf (g.first a) < q then
        if g.accepts (oracle tab) a then some ⟨_, h⟩ else none
      else none
  let chal (ω : Fin q → F) : F := match g.play ω with
    | none => 0
    | some (a, tab) => g.answer a tab
  let early (I : Fin q) (ω : Fin q → F) : Finset F :=
    (((trace (g.forger.checked g.first g.second) [] ((List.ofFn ω).take I)).take I).map decode).toFinset
  have win_some : ∀ {ω I}, win ω = some I → ∃ a tab, g.play ω = some (a, tab) ∧
      (tab.map Prod.fst).idxOf (g.first a) = I.1 ∧ g.accepts (oracle tab) a ∧ chal ω = g.answer a tab := by
    intro ω I h
    simp only [win, chal] at h ⊢
    cases hp : g.play ω with
    | none => rw [hp] at h; cases h
    | some r =>
      obtain ⟨a, tab⟩ := r
      rw [hp] at h
      simp only at h
      split at h
      · split at h
        · next h1 h2 =>
          cases h
          exact ⟨a, tab, rfl, rfl, h2, rfl⟩
        · cases h
      · cases h
  have some_win : ∀ {ω a tab}, g.Wins ω a tab → (win ω).isSome := by
    intro ω a tab h
    obtain ⟨hI, -⟩ := play_first h.1
    simp only [win, h.1, dif_pos hI, if_pos h.2]
    rfl
  have hW : (Finset.univ.filter fun ω : Fin q → F => ∃ a tab, g.Wins ω a tab) = Finset.univ.filter fun ω => (win ω).isSome := by
    ext ω
    simp only [Finset.mem_filter, Finset.mem_univ, true_and]
    constructor
    · rintro ⟨a, tab, h⟩
      exact some_win h
    · intro h
      obtain ⟨I, hI⟩ := Option.isSome_iff_exists.mp h
      obtain ⟨a, tab, h1, -, h2, -⟩ := win_some hI
      exact ⟨a, tab, h1, h2⟩
  rw [hW]
  refine le_trans (forks_le win chal early ?_ ?_ ?_) (Nat.add_le_add_right (Nat.mul_le_mul_left _ (Finset.card_le_card ?_)) _)
  · intro I ω
    refine le_trans (List.toFinset_card_le _) ?_
    rw [List.length_map, List.length_take]
    exact le_trans (Nat.min_le_left _ _) (Nat.le_of_lt I.2)
  · intro I ω ω' h
    simp only [early]
    rw [take_ofFn fun i hi => h i hi]
  · intro ω I h
    obtain ⟨a, tab, h1, h2, -, h4⟩ := win_some h
    obtain ⟨c, c', l1, l2⟩ := run_checked h1
    obtain ⟨hI, e1⟩ := play_answer h1 (lookup_idx l1).2
    obtain ⟨hK, e2⟩ := play_answer h1 (lookup_idx l2).2
    have hc : ω I = c := by
      rw [← e1]; congr 1; exact Fin.ext h2.symm
    have hans : chal ω = c' := by
      rw [h4, Game.answer, oracle, oracle, l1, Option.getD_some, l2, Option.getD_some]
    by_cases hlt : (tab.map Prod.fst).idxOf (g.second a c) < I.1
    · left
      simp only [early, List.mem_toFinset, List.mem_map]
      refine ⟨g.second a c, ?_, by rw [decode_second, hc]⟩
      have e' : tab.map Prod.fst = trace (g.forger.checked g.first g.second) [] (List.ofFn ω) := by simpa using run_trace h1
      have e := (lookup_idx l2).1
      have ht : (trace (g.forger.checked g.first g.second) [] (List.ofFn ω)).take I.1 =
          (trace (g.forger.checked g.first g.second) [] ((List.ofFn ω).take I.1)).take I.1 := by
        have := congrArg (List.take I.1) (trace_take (g.forger.checked g.first g.second) [] (List.ofFn ω) I.1)
        simpa [List.take_take] using this
      rw [← ht]
      refine List.mem_iff_getElem?.mpr ⟨(tab.map Prod.fst).idxOf (g.second a c), ?_⟩
      rw [List.getElem?_take, if_pos hlt, ← e']
      exact e
    · right
      exact ⟨⟨_, hK⟩, not_lt.mp hlt, by rw [hans, e2]⟩
  · intro p hp
    simp only [Finset.mem_filter, Finset.mem_univ, true_and] at hp ⊢
    obtain ⟨I, h1, h2, h3⟩ := hp
    obtain ⟨a, tab, p1, i1, a1, c1⟩ := win_some h1
    obtain ⟨a', tab', p2, i2, a2, c2⟩ := win_some h2
    refine ⟨((a, tab), (a', tab')), ?_, a1, a2, ?_, ?_⟩
    · have hI : (tab.map Prod.fst).idxOf (g.first a) < q := by rw [i1]; exact I.2
      simp only [Game.fork, p1, dif_pos hI]
      have : (⟨_, hI⟩ : Fin q) = I := Fin.ext i1
      rw [this, p2]
      rfl
    · exact same_first p1 p2 i1 i2 fun i hi => (mix_before _ _ hi).symm
    · rw [c1, c2] at h3
      exact h3

end

end Idemix.Fork
