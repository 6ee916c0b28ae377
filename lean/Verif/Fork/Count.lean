import Mathlib.Algebra.Order.Chebyshev
import Mathlib.Data.Fintype.BigOperators
import Mathlib.Logic.Equiv.Prod
import Mathlib.Tactic.Ring
import Mathlib.Tactic.Linarith

/-!
# Counting forks

The counting argument behind the forking lemma, for games whose randomness is a list of `q` answers from a finite type. It knows nothing
about the code.
-/

namespace Idemix.Fork

open Finset

variable {F : Type} [Fintype F] [DecidableEq F] {q : Nat}

/-- The answers of a second run, forked at `I`: the old answers before `I`, new answers from `I` on. -/
def mix (I : Fin q) (ω ω' : Fin q → F) : Fin q → F := fun i => if i < I then ω i else ω' i

omit [Fintype F] [DecidableEq F] in
theorem mix_before {I i : Fin q} (ω ω' : Fin q → F) (h : i < I) : mix I ω ω' i = ω i := if_pos h

omit [Fintype F] [DecidableEq F] in
theorem mix_after {I i : Fin q} (ω ω' : Fin q → F) (h : I ≤ i) : mix I ω ω' i = ω' i := if_neg (not_lt.mpr h)

/-- Two runs that share their answers before `I` are both in `A` at least as often as two independent runs. -/
theorem sq_card_le (I : Fin q) (A : Finset (Fin q → F)) :
    A.card ^ 2 ≤ (univ.filter fun p : (Fin q → F) × (Fin q → F) => p.1 ∈ A ∧ mix I p.1 p.2 ∈ A).card := by
  classical
  let e := Equiv.piEquivPiSubtypeProd (fun i : Fin q => i < I) (fun _ => F)
  let f : (Fin q → F) → ℕ := fun ω => if ω ∈ A then 1 else 0
  have hA : A.card = ∑ a, ∑ b, f (e.symm (a, b)) := by
    rw [← Fintype.sum_prod_type' (f := fun a b => f (e.symm (a, b)))]
    rw [Fintype.sum_equiv e.symm (fun x => f (e.symm (x.1, x.2))) f (fun x => rfl)]
    simp [f]
  have hmix : ∀ a b a' b', mix I (e.symm (a, b)) (e.symm (a', b')) = e.symm (a, b') := by
    intro a b a' b'
    funext i
    by_cases h : i < I
    · rw [mix_before _ _ h]
      simp [e, Equiv.piEquivPiSubtypeProd, h]
    · rw [mix_after _ _ (not_lt.mp h)]
      simp [e, Equiv.piEquivPiSubtypeProd, h]
  have hP : (univ.filter fun p : (Fin q → F) × (Fin q → F) => p.1 ∈ A ∧ mix I p.1 p.2 ∈ A).card =
      ∑ a, ∑ b, ∑ _a' : {i : Fin q // i < I} → F, ∑ b', f (e.symm (a, b)) * f (e.symm (a, b')) := by
    rw [Finset.card_filter, Fintype.sum_prod_type]
    rw [← Fintype.sum_prod_type' (f := fun a b => ∑ _a' : {i : Fin q // i < I} → F, ∑ b', f (e.symm (a, b)) * f (e.symm (a, b')))]
    refine Fintype.sum_equiv e _ _ fun ω => ?_
    rw [← Fintype.sum_prod_type' (f := fun _a' b' => f (e.symm ((e ω).1, (e ω).2)) * f (e.symm ((e ω).1, b')))]
    refine Fintype.sum_equiv e _ _ fun ω' => ?_
    have := hmix (e ω).1 (e ω).2 (e ω').1 (e ω').2
    simp only [Prod.mk.eta, Equiv.symm_apply_apply] at this ⊢
    rw [this]
    simp only [f]
    by_cases h1 : ω ∈ A <;> by_cases h2 : e.symm ((e ω).1, (e ω').2) ∈ A <;> simp [h1, h2]
  rw [hA, hP]
  refine le_trans (sq_sum_le_card_mul_sum_sq (s := univ) (f := fun a => ∑ b, f (e.symm (a, b)))) ?_
  rw [Finset.mul_sum]
  refine Finset.sum_le_sum fun a _ => le_of_eq ?_
  simp only [Finset.sum_const, ← Finset.mul_sum, smul_eq_mul]
  rw [← Finset.sum_mul, sq, Finset.card_univ]
  rw [Nat.cast_id]

/-- How often one of the answers falls in a set. -/
theorem card_answer (K : Fin q) (C : Finset F) :
    (univ.filter fun ω : Fin q → F => ω K ∈ C).card * Fintype.card F = C.card * Fintype.card (Fin q → F) := by
  classical
  have e : (univ.filter fun ω : Fin q → F => ω K ∈ C) = Fintype.piFinset (fun i => if i = K then C else univ) := by
    ext ω
    simp only [mem_filter, mem_univ, true_and, Fintype.mem_piFinset]
    constructor
    · intro h i
      split
      · next h' => rw [h']; exact h
      · exact mem_univ _
    · intro h
      have := h K
      simpa using this
  rw [e, Fintype.card_piFinset, Fintype.card_pi]
  rw [← Finset.mul_prod_erase univ _ (mem_univ K), ← Finset.mul_prod_erase univ (fun _ => Fintype.card F) (mem_univ K)]
  rw [if_pos rfl]
  have : ∏ x ∈ univ.erase K, (if x = K then C else univ).card = ∏ x ∈ univ.erase K, Fintype.card F := by
    refine Finset.prod_congr rfl fun x hx => ?_
    rw [if_neg (Finset.ne_of_mem_erase hx)]
    rfl
  rw [this]
  ring

/-- The forking lemma, counted. `win ω` is the number of the question on which a run with the answers `ω` depends, if the run
succeeds, and `chal ω` is the value that two runs must differ in. That value is one of the answers from this question on, unless the
answer to this question is one of a few that the earlier ones single out. Then the pairs `(ω, ω')` such that the run with `ω` and the run
forked from it succeed, depend on the same question, and differ in that value, number at least
`|W|² / q - 2 q |W| |F| ^ q / |F|`. -/
theorem forks_le (win : (Fin q → F) → Option (Fin q)) (chal : (Fin q → F) → F) (early : Fin q → (Fin q → F) → Finset F)
    (few : ∀ I ω, (early I ω).card ≤ q)
    (local_ : ∀ I ω ω', (∀ i < I, ω i = ω' i) → early I ω = early I ω')
    (fresh : ∀ ω I, win ω = some I → ω I ∈ early I ω ∨ ∃ K, I ≤ K ∧ chal ω = ω K) :
    Fintype.card F * (univ.filter fun ω => (win ω).isSome).card ^ 2 ≤
      q * Fintype.card F * (univ.filter fun p : (Fin q → F) × (Fin q → F) => ∃ I, win p.1 = some I ∧
        win (mix I p.1 p.2) = some I ∧ chal p.1 ≠ chal (mix I p.1 p.2)).card +
      2 * q ^ 2 * (univ.filter fun ω => (win ω).isSome).card * Fintype.card (Fin q → F) := by
  classical
  let W (I : Fin q) : Finset (Fin q → F) := univ.filter fun ω => win ω = some I
  let P (I : Fin q) : Finset ((Fin q → F) × (Fin q → F)) :=
    univ.filter fun p => win p.1 = some I ∧ win (mix I p.1 p.2) = some I
  let forks : Finset ((Fin q → F) × (Fin q → F)) := univ.filter fun p => ∃ I, win p.1 = some I ∧
        win (mix I p.1 p.2) = some I ∧ chal p.1 ≠ chal (mix I p.1 p.2)
  let bad : Finset ((Fin q → F) × (Fin q → F)) := univ.filter fun p => ∃ I, win p.1 = some I ∧
        win (mix I p.1 p.2) = some I ∧ chal p.1 = chal (mix I p.1 p.2)
  let all : Finset (Fin q → F) := univ.filter fun ω => (win ω).isSome
  show Fintype.card F * all.card ^ 2 ≤ q * Fintype.card F * forks.card + 2 * q ^ 2 * all.card * _
  have hW : all.card = ∑ I, (W I).card := by
    have : all = univ.biUnion W := by
      ext ω
      simp only [all, W, Option.isSome_iff_exists, mem_filter, mem_univ, true_and, mem_biUnion]
    rw [this, Finset.card_biUnion]
    intro I _ J _ hIJ
    rw [Function.onFun, Finset.disjoint_left]
    intro ω h1 h2
    simp only [W, mem_filter, mem_univ, true_and] at h1 h2
    exact hIJ (Option.some.inj (h1.symm.trans h2))
  have hP : ∑ I, (P I).card = (univ.biUnion P).card := by
    rw [Finset.card_biUnion]
    intro I _ J _ hIJ
    rw [Function.onFun, Finset.disjoint_left]
    intro ω h1 h2
    simp only [P, mem_filter, mem_univ, true_and] at h1 h2
    exact hIJ (Option.some.inj (h1.1.symm.trans h2.1))
  have hsplit : (univ.biUnion P).card ≤ forks.card + bad.card := by
    refine le_trans (Finset.card_le_card ?_) (Finset.card_union_le _ _)
    intro p hp
    simp only [P, mem_biUnion, mem_filter, mem_univ, true_and] at hp
    obtain ⟨I, h1, h2⟩ := hp
    simp only [forks, bad, mem_union, mem_filter, mem_univ, true_and]
    by_cases h : chal p.1 = chal (mix I p.1 p.2)
    · exact Or.inr ⟨I, h1, h2, h⟩
    · exact Or.inl ⟨I, h1, h2, h⟩
  have hsq : all.card ^ 2 ≤ q * (univ.biUnion P).card := by
    rw [hW, ← hP]
    refine le_trans (sq_sum_le_card_mul_sum_sq (s := univ) (f := fun I => (W I).card)) ?_
    rw [Finset.card_univ, Fintype.card_fin]
    refine Nat.mul_le_mul_left _ (Finset.sum_le_sum fun I _ => ?_)
    refine le_trans (sq_card_le I (W I)) (le_of_eq ?_)
    simp [W, P]
  have hbad : Fintype.card F * bad.card ≤ 2 * q * all.card * Fintype.card (Fin q → F) := by
    have h1 : bad.card = ∑ ω ∈ all, (bad.filter fun p => p.1 = ω).card := by
      refine Finset.card_eq_sum_card_fiberwise fun p hp => ?_
      simp only [bad, all, coe_filter, mem_univ, true_and, Set.mem_ofPred_eq] at hp ⊢
      obtain ⟨I, h1, -⟩ := hp
      rw [h1]
      rfl
    have h2 : ∀ ω ∈ all, Fintype.card F * (bad.filter fun p => p.1 = ω).card ≤ 2 * q * Fintype.card (Fin q → F) := by
      intro ω hω
      simp only [all, mem_filter, mem_univ, true_and, Option.isSome_iff_exists] at hω
      obtain ⟨I, hI⟩ := hω
      let near : Finset (Fin q → F) := univ.filter fun ω' => ω' I ∈ early I ω
      let hit (K : Fin q) : Finset (Fin q → F) := univ.filter fun ω' => ω' K ∈ ({chal ω} : Finset F)
      have hle : (bad.filter fun p => p.1 = ω).card ≤ near.card + ∑ K, (hit K).card := by
        refine le_trans ?_ (Nat.add_le_add_left (Finset.card_biUnion_le (s := univ) (t := hit)) near.card)
        refine le_trans ?_ (Finset.card_union_le _ _)
        refine Finset.card_le_card_of_injOn Prod.snd ?_ ?_
        · intro p hp
          simp only [bad, coe_filter, mem_filter, mem_univ, true_and, Set.mem_ofPred_eq] at hp
          obtain ⟨⟨J, h1, h2, h3⟩, h4⟩ := hp
          rw [h4] at h1 h2 h3
          cases Option.some.inj (hI.symm.trans h1)
          simp only [coe_union, Set.mem_union, mem_coe, mem_filter, mem_univ, true_and, mem_biUnion, near, hit, mem_singleton]
          rcases fresh _ _ h2 with h | ⟨K, hK, h⟩
          · left
            rw [mix_after _ _ le_rfl] at h
            rwa [local_ I ω (mix I ω p.2) fun i hi => (mix_before _ _ hi).symm]
          · right
            refine ⟨K, ?_⟩
            rw [mix_after _ _ hK] at h
            rw [← h, h3]
        · intro p hp p' hp' h
          simp only [coe_filter, Set.mem_ofPred_eq] at hp hp'
          exact Prod.ext (hp.2.trans hp'.2.symm) h
      have hn : near.card * Fintype.card F ≤ q * Fintype.card (Fin q → F) := by
        rw [card_answer I (early I ω)]
        exact Nat.mul_le_mul_right _ (few I ω)
      have hh : ∀ K, (hit K).card * Fintype.card F = Fintype.card (Fin q → F) := by
        intro K
        rw [card_answer K {chal ω}, card_singleton, one_mul]
      calc Fintype.card F * (bad.filter fun p => p.1 = ω).card
          ≤ Fintype.card F * (near.card + ∑ K, (hit K).card) := Nat.mul_le_mul_left _ hle
        _ = near.card * Fintype.card F + ∑ K, (hit K).card * Fintype.card F := by rw [← Finset.sum_mul]; ring
        _ = near.card * Fintype.card F + q * Fintype.card (Fin q → F) := by simp [hh]
        _ ≤ q * Fintype.card (Fin q → F) + q * Fintype.card (Fin q → F) := Nat.add_le_add_right hn _
        _ = 2 * q * Fintype.card (Fin q → F) := by ring
    rw [h1, Finset.mul_sum]
    refine le_trans (Finset.sum_le_sum h2) (le_of_eq ?_)
    rw [Finset.sum_const, smul_eq_mul]
    ring
  calc Fintype.card F * all.card ^ 2 ≤ Fintype.card F * (q * (univ.biUnion P).card) := Nat.mul_le_mul_left _ hsq
    _ ≤ Fintype.card F * (q * (forks.card + bad.card)) := Nat.mul_le_mul_left _ (Nat.mul_le_mul_left _ hsplit)
    _ = q * Fintype.card F * forks.card + q * (Fintype.card F * bad.card) := by ring
    _ ≤ q * Fintype.card F * forks.card + q * (2 * q * all.card * Fintype.card (Fin q → F)) :=
        Nat.add_le_add_left (Nat.mul_le_mul_left _ hbad) _
    _ = _ := by ring

end Idemix.Fork
