import Verif.Fork.Game

/-!
# Verifiers that ask one question

The forking lemma for verifiers whose decision depends on the answer to a single question. The forger asks whatever it likes.
-/

namespace Idemix.Fork

open Idemix (Bytes)

namespace Spec

variable {F α : Type}

/-- The forger, and then the question of a verifier. -/
def Strategy.checkedOnce (question : α → Bytes) : Strategy F α → Strategy F α
  | .done a => .ask (question a) fun _ => .done a
  | .ask x next => .ask x fun c => (next c).checkedOnce question

/-- What a forger does, and a verifier that asks one question. -/
structure Single (F α : Type) where
  forger : Strategy F α
  question : α → Bytes
  accepts : (Bytes → F) → α → Prop

/-- A play with the answers `ω`. -/
def Single.play (g : Single F α) {q : Nat} (ω : Fin q → F) : Option (α × Table F) :=
  (g.forger.checkedOnce g.question).run [] (List.ofFn ω)

/-- The verifier accepts. -/
def Single.Wins [Zero F] (g : Single F α) {q : Nat} (ω : Fin q → F) (a : α) (tab : Table F) : Prop :=
  g.play ω = some (a, tab) ∧ g.accepts (oracle tab) a

/-- Play, and play again with new answers from the question of the verifier on. -/
def Single.fork (g : Single F α) {q : Nat} (ω ω' : Fin q → F) : Option ((α × Table F) × (α × Table F)) :=
  match g.play ω with
  | none => none
  | some (a, tab) =>
    let I := (tab.map Prod.fst).idxOf (g.question a)
    if h : I < q then (g.play (mix ⟨I, h⟩ ω ω')).map fun r => ((a, tab), r) else none

/-- The second run of a fork asks the same question, gets a different answer, and both are accepted. -/
def Single.Forked [Zero F] (g : Single F α) (r : (α × Table F) × (α × Table F)) : Prop :=
  g.accepts (oracle r.1.2) r.1.1 ∧ g.accepts (oracle r.2.2) r.2.1 ∧ g.question r.1.1 = g.question r.2.1 ∧
    oracle r.1.2 (g.question r.1.1) ≠ oracle r.2.2 (g.question r.2.1)

end Spec

open Spec

variable {F α : Type}

/-- The question of the verifier has been asked. -/
theorem run_checkedOnce {s : Strategy F α} {question : α → Bytes} {tab tab' : Table F} {ω : List F} {a : α}
    (h : (s.checkedOnce question).run tab ω = some (a, tab')) : ∃ c, tab'.lookup (question a) = some c := by
  induction s generalizing tab ω with
  | done b =>
    obtain ⟨c, tab₁, ω₁, h1, h2⟩ := run_asks h
    simp only [Strategy.run, Option.some.injEq, Prod.mk.injEq] at h2
    obtain ⟨rfl, -⟩ := h2
    exact ⟨c, h1⟩
  | ask x next ih =>
    obtain ⟨c, tab₁, ω₁, -, h2⟩ := run_asks h
    exact ih c h2

section

variable {g : Single F α} {q : Nat}

theorem Single.play_answer {ω : Fin q → F} {a : α} {tab : Table F} (h : g.play ω = some (a, tab)) {i : Nat} {c : F}
    (hi : (tab.map Prod.snd)[i]? = some c) : ∃ h : i < q, ω ⟨i, h⟩ = c := by
  obtain ⟨n, hn, e⟩ := run_answers h
  rw [e, List.map_nil, List.nil_append, List.getElem?_take] at hi
  split at hi
  · next hlt =>
    rw [List.getElem?_ofFn] at hi
    split at hi
    · next hq => exact ⟨hq, Option.some.inj hi⟩
    · cases hi
  · cases hi

/-- The number of the question of the verifier. -/
theorem Single.play_question [Zero F] {ω : Fin q → F} {a : α} {tab : Table F} (h : g.play ω = some (a, tab)) :
    ∃ hI : (tab.map Prod.fst).idxOf (g.question a) < q, ω ⟨_, hI⟩ = oracle tab (g.question a) := by
  obtain ⟨c, h1⟩ := run_checkedOnce h
  obtain ⟨hI, e⟩ := Single.play_answer h (lookup_idx h1).2
  exact ⟨hI, by rw [e, oracle, h1]; rfl⟩

/-- Plays that depend on the question number `I` and share the answers before it ask the same question. -/
theorem Single.same_question {ω ω' : Fin q → F} {a a' : α} {tab tab' : Table F} (h : g.play ω = some (a, tab))
    (h' : g.play ω' = some (a', tab')) {I : Nat} (hI : (tab.map Prod.fst).idxOf (g.question a) = I)
    (hI' : (tab'.map Prod.fst).idxOf (g.question a') = I) (hω : ∀ i : Fin q, i.1 < I → ω i = ω' i) :
    g.question a = g.question a' := by
  have key : ∀ {ω : Fin q → F} {a : α} {tab : Table F}, g.play ω = some (a, tab) →
      (tab.map Prod.fst).idxOf (g.question a) = I →
      ((trace (g.forger.checkedOnce g.question) [] ((List.ofFn ω).take I)).take (I + 1))[I]? = some (g.question a) := by
    intro ω a tab h hI
    obtain ⟨c, h1⟩ := run_checkedOnce h
    have e := (lookup_idx h1).1
    have e' : tab.map Prod.fst = trace (g.forger.checkedOnce g.question) [] (List.ofFn ω) := by simpa using run_trace h
    rw [hI, e'] at e
    rw [← trace_take, List.getElem?_take, if_pos (Nat.lt_succ_self I), e]
  have k1 := key h hI
  have k2 := key h' hI'
  rw [take_ofFn hω] at k1
  exact Option.some.inj (k1.symm.trans k2)

/-- The forking lemma for such games. -/
theorem Single.forks [Zero F] [Fintype F] [DecidableEq F] (g : Single F α) (q : Nat)
    [DecidablePred fun ω : Fin q → F => ∃ a tab, g.Wins ω a tab]
    [DecidablePred fun p : (Fin q → F) × (Fin q → F) => ∃ r, g.fork p.1 p.2 = some r ∧ g.Forked r] :
    Fintype.card F * (Finset.univ.filter fun ω : Fin q → F => ∃ a tab, g.Wins ω a tab).card ^ 2 ≤
      q * Fintype.card F * (Finset.univ.filter fun p : (Fin q → F) × (Fin q → F) =>
        ∃ r, g.fork p.1 p.2 = some r ∧ g.Forked r).card +
      2 * q ^ 2 * (Finset.univ.filter fun ω : Fin q → F => ∃ a tab, g.Wins ω a tab).card * Fintype.card (Fin q → F) := by
  classical
  let win (ω : Fin q → F) : Option (Fin q) :=
    match g.play ω with
    | none => none
    | some (a, tab) =>
      if h : (tab.map Prod.fst).idxOf (g.question a) < q then
        if g.accepts (oracle tab) a then some ⟨_, h⟩ else none
      else none
  let chal (ω : Fin q → F) : F := match g.play ω with
    | none => 0
    | some (a, tab) => oracle tab (g.question a)
  have win_some : ∀ {ω I}, win ω = some I → ∃ a tab, g.play ω = some (a, tab) ∧
      (tab.map Prod.fst).idxOf (g.question a) = I.1 ∧ g.accepts (oracle tab) a ∧ chal ω = oracle tab (g.question a) := by
    intro ω I h
    simp only [win, chal] at h ⊢
    cases hp : g.play ω with
    | none => rw [hp] at h; cases h
    | some r =>
      obtain ⟨a, tab⟩ := r
      rw [hp] at h
      simp only at h
      split at h
      · split at h
        · next h1 h2 =>
          cases h
          exact ⟨a, tab, rfl, rfl, h2, rfl⟩
        · cases h
      · cases h
  have hW : (Finset.univ.filter fun ω : Fin q → F => ∃ a tab, g.Wins ω a tab) = Finset.univ.filter fun ω => (win ω).isSome := by
    ext ω
    simp only [Finset.mem_filter, Finset.mem_univ, true_and]
    constructor
    · rintro ⟨a, tab, h⟩
      obtain ⟨hI, -⟩ := Single.play_question h.1
      simp only [win, h.1, dif_pos hI, if_pos h.2]
      rfl
    · intro h
      obtain ⟨I, hI⟩ := Option.isSome_iff_exists.mp h
      obtain ⟨a, tab, h1, -, h2, -⟩ := win_some hI
      exact ⟨a, tab, h1, h2⟩
  rw [hW]
  refine le_trans (forks_le win chal (fun _ _ => ∅) (fun _ _ => Nat.zero_le _) (fun _ _ _ _ => rfl) ?_)
    (Nat.add_le_add_right (Nat.mul_le_mul_left _ (Finset.card_le_card ?_)) _)
  · intro ω I h
    obtain ⟨a, tab, h1, h2, -, h4⟩ := win_some h
    obtain ⟨hI, e⟩ := Single.play_question h1
    refine .inr ⟨I, le_rfl, ?_⟩
    rw [h4, ← e]
    congr 1
    exact Fin.ext h2
  · intro p hp
    simp only [Finset.mem_filter, Finset.mem_univ, true_and] at hp ⊢
    obtain ⟨I, h1, h2, h3⟩ := hp
    obtain ⟨a, tab, p1, i1, a1, c1⟩ := win_some h1
    obtain ⟨a', tab', p2, i2, a2, c2⟩ := win_some h2
    refine ⟨((a, tab), (a', tab')), ?_, a1, a2, ?_, ?_⟩
    · have hI : (tab.map Prod.fst).idxOf (g.question a) < q := by rw [i1]; exact I.2
      simp only [Single.fork, p1, dif_pos hI]
      have : (⟨_, hI⟩ : Fin q) = I := Fin.ext i1
      rw [this, p2]
      rfl
    · exact Single.same_question p1 p2 i1 i2 fun i hi => (mix_before _ _ hi).symm
    · rw [c1, c2] at h3
      exact h3

end

end Idemix.Fork
