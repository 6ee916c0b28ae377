import Verif.Mem.Logic

/-!
# Goroutines on one heap

What `Gives` says of a program holds of the program alone, and of any number of programs that take steps in any order.
-/

namespace Idemix.Mem

variable {S : Suite} {α β : Type} {A B : Nat → Type} {k : Kind} {r : Nat} {h₀ h : Heap S}

/-- A program that is left alone. -/
theorem Safe.run {p : Prog S α} {Q : Heap S → Res α → Prop} (s : Safe r h₀ p h Q) (f : From r h₀ h) :
    Q (p.run r h).2 (p.run r h).1 ∧ From r h₀ (p.run r h).2 := by
  induction p generalizing h with
  | done a => exact ⟨s h (.refl f.ok), f⟩
  | fail m => exact ⟨s h (.refl f.ok), f⟩
  | panic => exact ⟨s h (.refl f.ok), f⟩
  | read p next ih =>
    obtain ⟨v, a, s⟩ := s h (.refl f.ok)
    simp only [Prog.run, a.get]
    exact ih v s f
  | alloc v next ih => exact ih _ (s h (.refl f.ok)) (f.push r v)
  | write p v next ih =>
    obtain ⟨a, ⟨w, b⟩, s⟩ := s h (.refl f.ok)
    simp only [Prog.run, b.get]
    exact ih s (f.set a v)
  | load lib key next ih => exact ih _ (s h (.refl f.ok)) f
  | loadOrStore lib key v next ih =>
    obtain ⟨rfl, s⟩ := s
    obtain ⟨s1, s2⟩ := s h (.refl f.ok)
    simp only [Prog.run]
    cases e : h.cache lib key with
    | some p => exact ih _ (s1 p e) f
    | none => exact ih _ (s2 e) (f.store e)

/-- What a program does when it is left alone. -/
theorem Gives.run {p : Prog S α} {x : Res β} {R : Heap S → α → β → Prop} (s : Gives r h₀ h p x R) (f : From r h₀ h) :
    Meets x R (p.run r h).2 (p.run r h).1 ∧ From r h₀ (p.run r h).2 := Safe.run s f

theorem env_push {j : Nat} (ok : CacheOk h) (hj : j ≠ r) (v : Val S k) : Env j h (h.push r v) := by
  refine ⟨?_, (ext_push h r v (r := r)).shared, (ext_push h r v (r := r)).cache, ok_push ok r v⟩
  simp [Heap.push, hj]

theorem env_set {j : Nat} {p : Ptr k} (f : From r h₀ h) (fr : Fresh r h₀ p) (hj : j ≠ r) (v : Val S k) :
    Env j h (h.set p v) := by
  refine ⟨cells_set_other (by rw [fr.region]; exact hj), fun k' => ?_, fun _ _ _ e => e, (f.set fr v).ok⟩
  rw [cells_set_other (by rw [fr.region]; exact f.pos.symm)]

theorem env_store {j : Nat} {lib : Nat} {key : Bytes} (f : From r h₀ h) (hj : j ≠ 0) (e : h.cache lib key = none) :
    Env j h ((h.push 0 (k := .g1) (Bbs.hashToG1 key)).store lib key (h.next 0 .g1)) := by
  have g := (f.self).store e
  refine ⟨?_, g.ext.shared, g.ext.cache, g.ok⟩
  simp [Heap.push, Heap.store, hj]

/-- One step of one goroutine: it stays within the rules, and so the others are not concerned. -/
theorem Safe.step {p : Prog S α} {Q : Heap S → Res α → Prop} (s : Safe r h₀ p h Q) (f : From r h₀ h) :
    Safe r h₀ (p.step r h).1 (p.step r h).2 Q ∧ From r h₀ (p.step r h).2 ∧
      ∀ j, j ≠ r → j ≠ 0 → Env j h (p.step r h).2 := by
  cases p with
  | done a => exact ⟨s, f, fun _ _ _ => .refl f.ok⟩
  | fail m => exact ⟨s, f, fun _ _ _ => .refl f.ok⟩
  | panic => exact ⟨s, f, fun _ _ _ => .refl f.ok⟩
  | read p next =>
    obtain ⟨v, a, s⟩ := s h (.refl f.ok)
    simp only [Prog.step, a.get]
    exact ⟨s, f, fun _ _ _ => .refl f.ok⟩
  | alloc v next => exact ⟨s h (.refl f.ok), f.push r v, fun j hj _ => env_push f.ok hj v⟩
  | write p v next =>
    obtain ⟨a, ⟨w, b⟩, s⟩ := s h (.refl f.ok)
    simp only [Prog.step, b.get]
    exact ⟨s, f.set a v, fun j hj _ => env_set f a hj v⟩
  | load lib key next => exact ⟨s h (.refl f.ok), f, fun _ _ _ => .refl f.ok⟩
  | loadOrStore lib key v next =>
    obtain ⟨rfl, s⟩ := s
    obtain ⟨s1, s2⟩ := s h (.refl f.ok)
    simp only [Prog.step]
    cases e : h.cache lib key with
    | some p => exact ⟨s1 p e, f, fun _ _ _ => .refl f.ok⟩
    | none => exact ⟨s2 e, f.store e, fun j _ hj => env_store f hj e⟩

theorem exec_safe {h₀ : Nat → Heap S} (σ : List Nat) (ps : (i : Nat) → Prog S (A i)) (h : Heap S)
    (Q : (i : Nat) → Heap S → Res (A i) → Prop) (f : ∀ i, From (i + 1) (h₀ i) h)
    (s : ∀ i, Safe (i + 1) (h₀ i) (ps i) h (Q i)) :
    (∀ i, From (i + 1) (h₀ i) (exec σ ps h).2) ∧
      ∀ i, Safe (i + 1) (h₀ i) ((exec σ ps h).1 i) (exec σ ps h).2 (Q i) := by
  induction σ generalizing ps h with
  | nil => exact ⟨f, s⟩
  | cons j σ ih =>
    obtain ⟨s1, s2, s3⟩ := (s j).step (f j)
    refine ih _ _ (fun i => ?_) fun i => ?_
    · by_cases hi : i = j
      · subst hi; exact s2
      · exact (f i).env (s3 (i + 1) (by omega) (by omega))
    · by_cases hi : i = j
      · subst hi; rw [Function.update_self]; exact s1
      · rw [Function.update_of_ne hi]; exact (s i).env (s3 (i + 1) (by omega) (by omega))

theorem outcome_safe {p : Prog S α} {Q : Heap S → Res α → Prop} {o : Res α} (s : Safe r h₀ p h Q) (ok : CacheOk h)
    (ho : p.outcome = some o) : Q h o := by
  cases p with
  | done a => cases ho; exact s h (.refl ok)
  | fail m => cases ho; exact s h (.refl ok)
  | panic => cases ho; exact s h (.refl ok)
  | _ => cases ho

/-- Any number of goroutines, any order of their steps: each one that has finished has the outcome that `Gives` says, and
nothing that was in the heap at the start has been changed. -/
theorem interleave (ps : (i : Nat) → Prog S (A i)) (ok : CacheOk h₀) (x : (i : Nat) → Res (B i))
    (R : (i : Nat) → Heap S → A i → B i → Prop) (g : ∀ i, Gives (i + 1) h₀ h₀ (ps i) (x i) (R i)) (σ : List Nat) :
    (∀ k (p : Ptr k) v, h₀.get p = some v → (exec σ ps h₀).2.get p = some v) ∧
      ∀ i o, ((exec σ ps h₀).1 i).outcome = some o → Meets (x i) (R i) (exec σ ps h₀).2 o := by
  obtain ⟨f, s⟩ := exec_safe (h₀ := fun _ => h₀) σ ps h₀ (fun i => Meets (x i) (R i)) (fun i => ⟨by omega, .refl _ _, ok⟩) g
  refine ⟨fun k p v hp => ?_, fun i o ho => outcome_safe (s i) (f i).ok ho⟩
  cases hr : p.region with
  | zero => exact get_prefix (by rw [hr]; exact (f 0).ext.shared k) hp
  | succ j => exact get_prefix (by rw [hr]; exact (f j).ext.own k) hp

/-! ## Every goroutine that is scheduled finishes -/

theorem exec_append (σ τ : List Nat) (ps : (i : Nat) → Prog S (A i)) (h : Heap S) :
    exec (σ ++ τ) ps h = exec τ (exec σ ps h).1 (exec σ ps h).2 := by
  induction σ generalizing ps h with
  | nil => rfl
  | cons i σ ih => simp only [List.cons_append, exec, ih]

theorem exec_other (σ : List Nat) (ps : (i : Nat) → Prog S (A i)) (h : Heap S) (i : Nat) (hi : i ∉ σ) :
    (exec σ ps h).1 i = ps i := by
  induction σ generalizing ps h with
  | nil => rfl
  | cons j σ ih =>
    simp only [List.mem_cons, not_or] at hi
    simp only [exec]
    rw [ih _ _ hi.2, Function.update_of_ne hi.1]

/-- No goroutine waits for another: one that gets to take steps again and again finishes, whatever the others do. -/
theorem finishes (ps : (i : Nat) → Prog S (A i)) (h : Heap S) (σ : Nat → Nat) (i : Nat) (hσ : ∀ n, ∃ m, n ≤ m ∧ σ m = i) :
    ∃ n, ((exec ((List.range n).map σ) ps h).1 i).outcome.isSome = true := by
  suffices H : ∀ q : Prog S (A i), ∀ n, (exec ((List.range n).map σ) ps h).1 i = q →
      ∃ n, ((exec ((List.range n).map σ) ps h).1 i).outcome.isSome = true from H _ 0 rfl
  have next : ∀ (q : Prog S (A i)) n, (exec ((List.range n).map σ) ps h).1 i = q →
      ∃ m h', (exec ((List.range m).map σ) ps h).1 i = (q.step (i + 1) h').1 := by
    intro q n hq
    have hex : ∃ d, σ (n + d) = i := by
      obtain ⟨m, hm, e⟩ := hσ n
      exact ⟨m - n, by rw [Nat.add_sub_cancel' hm]; exact e⟩
    refine ⟨n + Nat.find hex + 1, (exec ((List.range (n + Nat.find hex)).map σ) ps h).2, ?_⟩
    have hstay : (exec ((List.range (n + Nat.find hex)).map σ) ps h).1 i = q := by
      rw [List.range_add, List.map_append, exec_append, exec_other _ _ _ _ ?_, hq]
      simp only [List.map_map, List.mem_map, List.mem_range, Function.comp_apply, not_exists, not_and]
      exact fun d hd => Nat.find_min hex hd
    rw [List.range_succ, List.map_append, exec_append]
    simp only [List.map_cons, List.map_nil, exec, Nat.find_spec hex, Function.update_self, hstay]
  intro q
  induction q with
  | done a => exact fun n e => ⟨n, by rw [e]; rfl⟩
  | fail m => exact fun n e => ⟨n, by rw [e]; rfl⟩
  | panic => exact fun n e => ⟨n, by rw [e]; rfl⟩
  | read p nx ih =>
    intro n e
    obtain ⟨m, h', e'⟩ := next _ n e
    simp only [Prog.step] at e'
    cases hp : h'.get p with
    | some v => rw [hp] at e'; exact ih v m e'
    | none => rw [hp] at e'; exact ⟨m, by rw [e']; rfl⟩
  | alloc v nx ih =>
    intro n e
    obtain ⟨m, h', e'⟩ := next _ n e
    exact ih _ m e'
  | write p v nx ih =>
    intro n e
    obtain ⟨m, h', e'⟩ := next _ n e
    simp only [Prog.step] at e'
    cases hp : h'.get p with
    | some v => rw [hp] at e'; exact ih m e'
    | none => rw [hp] at e'; exact ⟨m, by rw [e']; rfl⟩
  | load lib key nx ih =>
    intro n e
    obtain ⟨m, h', e'⟩ := next _ n e
    exact ih _ m e'
  | loadOrStore lib key v nx ih =>
    intro n e
    obtain ⟨m, h', e'⟩ := next _ n e
    simp only [Prog.step] at e'
    cases hp : h'.cache lib key with
    | some v => rw [hp] at e'; exact ih _ m e'
    | none => rw [hp] at e'; exact ih _ m e'

end Idemix.Mem
