import Verif.Mem.Prog

/-!
# Reasoning about programs on the heap

`Gives` relates a program on the heap to an outcome computed without heap: whatever other goroutines do in between, the
program has that outcome, it only changes what it has allocated itself, and its result denotes the value computed.
-/

namespace Idemix.Mem

variable {S : Suite} {α β γ δ : Type} {k k' : Kind} {r : Nat}

/-! ## The rules that all goroutines keep -/

/-- The points in the caches are shared and are the right ones. -/
def CacheOk (h : Heap S) : Prop :=
  ∀ lib key p, h.cache lib key = some p → p.region = 0 ∧ h.get p = some (Bbs.hashToG1 key)

/-- What the goroutine `r` relies on: nothing that it can see is changed, cells may be added. -/
structure Ext (r : Nat) (h h' : Heap S) : Prop where
  own : ∀ k, h.cells r k <+: h'.cells r k
  shared : ∀ k, h.cells 0 k <+: h'.cells 0 k
  cache : ∀ lib key p, h.cache lib key = some p → h'.cache lib key = some p

/-- What other goroutines may do while `r` is not running. -/
structure Env (r : Nat) (h h' : Heap S) : Prop where
  own : h'.cells r = h.cells r
  shared : ∀ k, h.cells 0 k <+: h'.cells 0 k
  cache : ∀ lib key p, h.cache lib key = some p → h'.cache lib key = some p
  ok : CacheOk h'

/-- The goroutine `r` can see the cell `p`, and it contains `v`. -/
structure At (r : Nat) (h : Heap S) (p : Ptr k) (v : Val S k) : Prop where
  visible : p.region = r ∨ p.region = 0
  get : h.get p = some v

/-- The cells `ps` contain `vs`, in this order. -/
def AtAll (r : Nat) (h : Heap S) (ps : List (Ptr k)) (vs : List (Val S k)) : Prop := List.Forall₂ (At r h) ps vs

/-- The goroutine `r` has allocated the cell `p` after `h`. -/
structure Fresh (r : Nat) (h : Heap S) (p : Ptr k) : Prop where
  region : p.region = r
  idx : (h.cells r k).length ≤ p.idx

theorem Ext.refl (r : Nat) (h : Heap S) : Ext r h h :=
  ⟨fun _ => List.prefix_rfl, fun _ => List.prefix_rfl, fun _ _ _ e => e⟩

theorem Ext.trans {h₁ h₂ h₃ : Heap S} (a : Ext r h₁ h₂) (b : Ext r h₂ h₃) : Ext r h₁ h₃ :=
  ⟨fun k => (a.own k).trans (b.own k), fun k => (a.shared k).trans (b.shared k),
    fun lib key p e => b.cache lib key p (a.cache lib key p e)⟩

theorem Env.refl {h : Heap S} (ok : CacheOk h) : Env r h h := ⟨rfl, fun _ => List.prefix_rfl, fun _ _ _ e => e, ok⟩

theorem Env.trans {h₁ h₂ h₃ : Heap S} (a : Env r h₁ h₂) (b : Env r h₂ h₃) : Env r h₁ h₃ :=
  ⟨b.own.trans a.own, fun k => (a.shared k).trans (b.shared k),
    fun lib key p e => b.cache lib key p (a.cache lib key p e), b.ok⟩

theorem Env.ext {h h' : Heap S} (a : Env r h h') : Ext r h h' :=
  ⟨fun k => by rw [a.own], a.shared, a.cache⟩

theorem get_prefix {h h' : Heap S} {p : Ptr k} {v : Val S k} (hp : h.cells p.region k <+: h'.cells p.region k)
    (e : h.get p = some v) : h'.get p = some v := by
  unfold Heap.get at *
  obtain ⟨t, ht⟩ := hp
  rw [← ht, List.getElem?_append_left]
  · exact e
  · exact (List.getElem?_eq_some_iff.mp e).1

theorem At.mono {h h' : Heap S} {p : Ptr k} {v : Val S k} (a : At r h p v) (g : Ext r h h') : At r h' p v := by
  refine ⟨a.visible, get_prefix ?_ a.get⟩
  rcases a.visible with e | e <;> rw [e]
  · exact g.own k
  · exact g.shared k

theorem AtAll.mono {h h' : Heap S} {ps : List (Ptr k)} {vs : List (Val S k)} (a : AtAll r h ps vs)
    (g : Ext r h h') : AtAll r h' ps vs := List.Forall₂.imp (fun _ _ x => x.mono g) a

theorem Fresh.mono {h h' : Heap S} {p : Ptr k} (f : Fresh r h' p) (g : Ext r h h') : Fresh r h p :=
  ⟨f.region, le_trans (g.own k).length_le f.idx⟩

theorem At.ne {h : Heap S} {p q : Ptr k} {v : Val S k} (a : At r h p v) (f : Fresh r h q) : p ≠ q := by
  rintro rfl
  have a := a.get
  unfold Heap.get at a
  have := (List.getElem?_eq_some_iff.mp a).1
  rw [f.region] at this
  have := f.idx
  omega

theorem At.unique {h : Heap S} {p : Ptr k} {v w : Val S k} (a : At r h p v) (b : At r h p w) : v = w := by
  have := a.get
  rw [b.get] at this
  exact (Option.some.inj this).symm

/-! ## Allocation and change -/

theorem prefix_push (h : Heap S) (r i : Nat) (v : Val S k) (k' : Kind) :
    h.cells i k' <+: (h.push r v).cells i k' := by
  by_cases hi : i = r
  · subst hi
    by_cases hk : k' = k
    · subst hk; simp [Heap.push]
    · simp [Heap.push, hk]
  · simp [Heap.push, hi]

theorem ext_push (h : Heap S) (i : Nat) (v : Val S k) : Ext r h (h.push i v) :=
  ⟨fun k' => prefix_push h i r v k', fun k' => prefix_push h i 0 v k', fun _ _ _ e => e⟩

theorem ok_push {h : Heap S} (ok : CacheOk h) (i : Nat) (v : Val S k) : CacheOk (h.push i v) := by
  intro lib key p e
  obtain ⟨a, b⟩ := ok lib key p e
  exact ⟨a, get_prefix (prefix_push h i _ v _) b⟩

theorem at_push (r : Nat) (h : Heap S) (v : Val S k) : At r (h.push r v) (h.next r k) v :=
  ⟨.inl rfl, by simp [Heap.get, Heap.push, Heap.next]⟩

theorem fresh_next (r : Nat) (h : Heap S) : Fresh r h (h.next r k) := ⟨rfl, le_rfl⟩

theorem get_set_self {h : Heap S} {p : Ptr k} {v w : Val S k} (a : h.get p = some v) : (h.set p w).get p = some w := by
  unfold Heap.get at a
  have := (List.getElem?_eq_some_iff.mp a).1
  simp [Heap.get, Heap.set, this]

theorem get_set_other {h : Heap S} {p : Ptr k} {q : Ptr k} {w : Val S k} (hne : q ≠ p) : (h.set p w).get q = h.get q := by
  unfold Heap.get Heap.set
  by_cases hr : q.region = p.region
  · have hi : p.idx ≠ q.idx := by
      intro hi; apply hne; cases p; cases q; simp_all
    simp [hr, List.getElem?_set_ne hi]
  · simp [hr]

theorem cells_set_other {h : Heap S} {p : Ptr k} {w : Val S k} {i : Nat} (hi : i ≠ p.region) :
    (h.set p w).cells i = h.cells i := by
  simp [Heap.set, hi]

theorem ext_set {h₀ h : Heap S} {p : Ptr k} {w : Val S k} (g : Ext r h₀ h) (f : Fresh r h₀ p) (hr : r ≠ 0) :
    Ext r h₀ (h.set p w) := by
  refine ⟨fun k' => ?_, fun k' => ?_, g.cache⟩
  · by_cases hk : k' = k
    · subst hk
      obtain ⟨t, ht⟩ := g.own k'
      simp only [Heap.set, f.region, Function.update_self]
      rw [← ht, List.set_append_right _ _ f.idx]
      exact List.prefix_append _ _
    · simp only [Heap.set, f.region, Function.update_self, Function.update_of_ne hk]
      exact g.own k'
  · rw [cells_set_other (by rw [f.region]; exact hr.symm)]
    exact g.shared k'

theorem ok_set {h : Heap S} (ok : CacheOk h) {p : Ptr k} {w : Val S k} (hp : p.region ≠ 0) : CacheOk (h.set p w) := by
  intro lib key q e
  obtain ⟨a, b⟩ := ok lib key q e
  refine ⟨a, ?_⟩
  unfold Heap.get at *
  rw [cells_set_other (by rw [a]; exact hp.symm)]
  exact b

theorem ext_store {h : Heap S} {lib : Nat} {key : Bytes} {p : Ptr .g1} (e : h.cache lib key = none) :
    Ext r h (h.store lib key p) := by
  refine ⟨fun _ => List.prefix_rfl, fun _ => List.prefix_rfl, fun lib' key' q hq => ?_⟩
  simp only [Heap.store]
  by_cases hl : lib' = lib
  · subst hl
    by_cases hk : key' = key
    · subst hk; rw [e] at hq; cases hq
    · simpa [hk] using hq
  · simpa [hl] using hq

theorem ok_store {h : Heap S} (ok : CacheOk h) {lib : Nat} {key : Bytes} {p : Ptr .g1} (hr : p.region = 0)
    (hp : h.get p = some (Bbs.hashToG1 key)) : CacheOk (h.store lib key p) := by
  intro lib' key' q hq
  simp only [Heap.store] at hq
  by_cases hl : lib' = lib
  · subst hl
    by_cases hk : key' = key
    · subst hk
      simp only [Function.update_self, Option.some.injEq] at hq
      subst hq
      exact ⟨hr, hp⟩
    · exact ok lib' key' q (by simpa [hk] using hq)
  · exact ok lib' key' q (by simpa [hl] using hq)

/-! ## Programs that keep the rules -/

/-- Started by the goroutine `r` in `h`, whatever the others do between its steps within the rules: the program keeps the
rules itself, it only changes cells that it has allocated after `h₀`, every address that it uses is one of an existing cell
that it can see, and when it has finished its outcome and the heap satisfy `Q`. -/
def Safe (r : Nat) (h₀ : Heap S) : Prog S α → Heap S → (Heap S → Res α → Prop) → Prop
  | .done a, h, Q => ∀ h', Env r h h' → Q h' (.ok a)
  | .fail m, h, Q => ∀ h', Env r h h' → Q h' (.err m)
  | .panic, h, Q => ∀ h', Env r h h' → Q h' .panic
  | .read p next, h, Q => ∀ h', Env r h h' → ∃ v, At r h' p v ∧ Safe r h₀ (next v) h' Q
  | @Prog.alloc _ _ k v next, h, Q => ∀ h', Env r h h' → Safe r h₀ (next (h'.next r k)) (h'.push r v) Q
  | .write p v next, h, Q => ∀ h', Env r h h' → Fresh r h₀ p ∧ (∃ w, At r h' p w) ∧ Safe r h₀ next (h'.set p v) Q
  | .load lib key next, h, Q => ∀ h', Env r h h' → Safe r h₀ (next (h'.cache lib key)) h' Q
  | .loadOrStore lib key v next, h, Q => v = Bbs.hashToG1 key ∧ ∀ h', Env r h h' →
      (∀ p, h'.cache lib key = some p → Safe r h₀ (next p) h' Q) ∧
      (h'.cache lib key = none →
        Safe r h₀ (next (h'.next 0 .g1)) ((h'.push 0 (k := .g1) v).store lib key (h'.next 0 .g1)) Q)

theorem Safe.env {h₀ h h' : Heap S} {p : Prog S α} {Q : Heap S → Res α → Prop} (s : Safe r h₀ p h Q) (e : Env r h h') :
    Safe r h₀ p h' Q := by
  cases p with
  | loadOrStore lib key v next => exact ⟨s.1, fun h'' e' => s.2 h'' (e.trans e')⟩
  | _ => exact fun h'' e' => s h'' (e.trans e')

theorem Safe.imp {h₀ h : Heap S} {p : Prog S α} {Q Q' : Heap S → Res α → Prop} (s : Safe r h₀ p h Q)
    (hi : ∀ h' o, Q h' o → Q' h' o) : Safe r h₀ p h Q' := by
  induction p generalizing h with
  | done a => exact fun h' e => hi _ _ (s h' e)
  | fail m => exact fun h' e => hi _ _ (s h' e)
  | panic => exact fun h' e => hi _ _ (s h' e)
  | read p next ih => exact fun h' e => let ⟨v, a, s⟩ := s h' e; ⟨v, a, ih v s⟩
  | alloc v next ih => exact fun h' e => ih _ (s h' e)
  | write p v next ih => exact fun h' e => let ⟨a, b, s⟩ := s h' e; ⟨a, b, ih s⟩
  | load lib key next ih => exact fun h' e => ih _ (s h' e)
  | loadOrStore lib key v next ih =>
    exact ⟨s.1, fun h' e => ⟨fun p hp => ih _ ((s.2 h' e).1 p hp), fun hn => ih _ ((s.2 h' e).2 hn)⟩⟩

theorem Safe.base {h₀ h₁ h : Heap S} {p : Prog S α} {Q : Heap S → Res α → Prop} (s : Safe r h₁ p h Q)
    (g : Ext r h₀ h₁) : Safe r h₀ p h Q := by
  induction p generalizing h with
  | done a => exact s
  | fail m => exact s
  | panic => exact s
  | read p next ih => exact fun h' e => let ⟨v, a, s⟩ := s h' e; ⟨v, a, ih v s⟩
  | alloc v next ih => exact fun h' e => ih _ (s h' e)
  | write p v next ih => exact fun h' e => let ⟨a, b, s⟩ := s h' e; ⟨a.mono g, b, ih s⟩
  | load lib key next ih => exact fun h' e => ih _ (s h' e)
  | loadOrStore lib key v next ih =>
    exact ⟨s.1, fun h' e => ⟨fun p hp => ih _ ((s.2 h' e).1 p hp), fun hn => ih _ ((s.2 h' e).2 hn)⟩⟩

/-- The heap is one that the goroutine `r` can have come to from `h₀`. -/
structure From (r : Nat) (h₀ h : Heap S) : Prop where
  pos : r ≠ 0
  ext : Ext r h₀ h
  ok : CacheOk h

theorem From.env {h₀ h h' : Heap S} (f : From r h₀ h) (e : Env r h h') : From r h₀ h' :=
  ⟨f.pos, f.ext.trans e.ext, e.ok⟩

theorem From.push {h₀ h : Heap S} (f : From r h₀ h) (i : Nat) (v : Val S k) : From r h₀ (h.push i v) :=
  ⟨f.pos, f.ext.trans (ext_push h i v), ok_push f.ok i v⟩

theorem From.set {h₀ h : Heap S} (f : From r h₀ h) {p : Ptr k} (fr : Fresh r h₀ p) (v : Val S k) :
    From r h₀ (h.set p v) :=
  ⟨f.pos, ext_set f.ext fr f.pos, ok_set f.ok (by rw [fr.region]; exact f.pos)⟩

theorem From.store {h₀ h : Heap S} (f : From r h₀ h) {lib : Nat} {key : Bytes} (e : h.cache lib key = none) :
    From r h₀ ((h.push 0 (k := .g1) (Bbs.hashToG1 key)).store lib key (h.next 0 .g1)) := by
  refine ⟨f.pos, (f.ext.trans (ext_push h 0 _)).trans (ext_store e), ok_store (ok_push f.ok 0 _) rfl ?_⟩
  exact (at_push 0 h (k := .g1) (Bbs.hashToG1 key)).get

theorem From.self {h₀ h : Heap S} (f : From r h₀ h) : From r h h := ⟨f.pos, .refl r h, f.ok⟩

theorem From.trans {h₀ h₁ h : Heap S} (f : From r h₀ h₁) (g : From r h₁ h) : From r h₀ h :=
  ⟨f.pos, f.ext.trans g.ext, g.ok⟩

/-- Programs that keep the rules leave what was there before as it is. -/
theorem Safe.from {h₀ h : Heap S} {p : Prog S α} {Q : Heap S → Res α → Prop} (s : Safe r h₀ p h Q) (f : From r h₀ h) :
    Safe r h₀ p h fun h' o => From r h₀ h' ∧ Q h' o := by
  induction p generalizing h with
  | done a => exact fun h' e => ⟨f.env e, s h' e⟩
  | fail m => exact fun h' e => ⟨f.env e, s h' e⟩
  | panic => exact fun h' e => ⟨f.env e, s h' e⟩
  | read p next ih => exact fun h' e => let ⟨v, a, s⟩ := s h' e; ⟨v, a, ih v s (f.env e)⟩
  | alloc v next ih => exact fun h' e => ih _ (s h' e) ((f.env e).push r v)
  | write p v next ih => exact fun h' e => let ⟨a, b, s⟩ := s h' e; ⟨a, b, ih s ((f.env e).set a v)⟩
  | load lib key next ih => exact fun h' e => ih _ (s h' e) (f.env e)
  | loadOrStore lib key v next ih =>
    refine ⟨s.1, fun h' e => ⟨fun p hp => ih _ ((s.2 h' e).1 p hp) (f.env e), fun hn => ih _ ((s.2 h' e).2 hn) ?_⟩⟩
    rw [s.1]
    exact (f.env e).store hn

theorem Safe.bind {h₀ h : Heap S} {p : Prog S α} {f : α → Prog S β} {Q : Heap S → Res β → Prop} (fr : From r h₀ h)
    (s : Safe r h₀ p h fun h' o => match o with
      | .ok a => Safe r h₀ (f a) h' Q
      | .err m => Q h' (.err m)
      | .panic => Q h' .panic) : Safe r h₀ (p.bind f) h Q := by
  induction p generalizing h with
  | done a => exact s h (.refl fr.ok)
  | fail m => exact s
  | panic => exact s
  | read p next ih => exact fun h' e => let ⟨v, a, s⟩ := s h' e; ⟨v, a, ih v (fr.env e) s⟩
  | alloc v next ih => exact fun h' e => ih _ ((fr.env e).push r v) (s h' e)
  | write p v next ih => exact fun h' e => let ⟨a, b, s⟩ := s h' e; ⟨a, b, ih ((fr.env e).set a v) s⟩
  | load lib key next ih => exact fun h' e => ih _ (fr.env e) (s h' e)
  | loadOrStore lib key v next ih =>
    refine ⟨s.1, fun h' e => ⟨fun p hp => ih _ (fr.env e) ((s.2 h' e).1 p hp), fun hn => ih _ ?_ ((s.2 h' e).2 hn)⟩⟩
    rw [s.1]
    exact (fr.env e).store hn

theorem Safe.mapErr {h₀ h : Heap S} {p : Prog S α} {f : String → String} {Q : Heap S → Res α → Prop}
    (s : Safe r h₀ p h fun h' o => match o with
      | .err m => Q h' (.err (f m))
      | o => Q h' o) : Safe r h₀ (p.mapErr f) h Q := by
  induction p generalizing h with
  | done a => exact s
  | fail m => exact s
  | panic => exact s
  | read p next ih => exact fun h' e => let ⟨v, a, s⟩ := s h' e; ⟨v, a, ih v s⟩
  | alloc v next ih => exact fun h' e => ih _ (s h' e)
  | write p v next ih => exact fun h' e => let ⟨a, b, s⟩ := s h' e; ⟨a, b, ih s⟩
  | load lib key next ih => exact fun h' e => ih _ (s h' e)
  | loadOrStore lib key v next ih =>
    exact ⟨s.1, fun h' e => ⟨fun p hp => ih _ ((s.2 h' e).1 p hp), fun hn => ih _ ((s.2 h' e).2 hn)⟩⟩

/-! ## Programs and outcomes -/

/-- The outcome `o` is `x`, and its result denotes that of `x`. -/
def Meets (x : Res β) (R : Heap S → α → β → Prop) (h : Heap S) : Res α → Prop
  | .ok a => ∃ b, x = .ok b ∧ R h a b
  | .err m => x = .err m
  | .panic => x = .panic

/-- What the program of the goroutine `r` does when it is started in `h`, whatever the other goroutines do: its outcome is
`x`, its result denotes that of `x` in the heap afterwards, and it only changes what it has allocated since `h₀`. -/
def Gives (r : Nat) (h₀ h : Heap S) (p : Prog S α) (x : Res β) (R : Heap S → α → β → Prop) : Prop :=
  Safe r h₀ p h (Meets x R)

variable {h₀ h : Heap S}

theorem Gives.done {a : α} {b : β} {R : Heap S → α → β → Prop} (hR : ∀ h', Ext r h h' → R h' a b) :
    Gives r h₀ h (.done a) (.ok b) R := fun h' e => ⟨b, rfl, hR h' e.ext⟩

theorem Gives.fail {m : String} {R : Heap S → α → β → Prop} : Gives r h₀ h (.fail m) (.err m) R := fun _ _ => rfl

theorem Gives.panic {R : Heap S → α → β → Prop} : Gives r h₀ h .panic .panic R := fun _ _ => rfl

/-- Sequencing within a block. -/
theorem Gives.bind₀ {p : Prog S α} {x : Res β} {R : Heap S → α → β → Prop} {f : α → Prog S γ} {y : β → Res δ}
    {Q : Heap S → γ → δ → Prop} (fr : From r h₀ h) (a : Gives r h₀ h p x R)
    (b : ∀ c d h', x = .ok d → From r h₀ h' → R h' c d → Gives r h₀ h' (f c) (y d) Q) :
    Gives r h₀ h (p.bind f) (x >>= y) Q := by
  refine Safe.bind fr ((a.from fr).imp fun h' o => ?_)
  rintro ⟨fr', ho⟩
  cases o with
  | ok c =>
    obtain ⟨d, rfl, hR⟩ := ho
    exact b c d h' rfl fr' hR
  | err m =>
    have : x = .err m := ho
    subst this; rfl
  | panic =>
    have : x = .panic := ho
    subst this; rfl

/-- Sequencing within a block after a program that succeeds. -/
theorem Gives.seq₀ {p : Prog S α} {d : β} {R : Heap S → α → β → Prop} {f : α → Prog S γ} {y : Res δ}
    {Q : Heap S → γ → δ → Prop} (fr : From r h₀ h) (a : Gives r h₀ h p (.ok d) R)
    (b : ∀ c h', From r h₀ h' → R h' c d → Gives r h₀ h' (f c) y Q) : Gives r h₀ h (p.bind f) y Q :=
  Gives.bind₀ (y := fun _ => y) fr a fun c d' h' e fr' hR => by cases e; exact b c h' fr' hR

/-- A block used in a larger one. -/
theorem Gives.base {p : Prog S α} {x : Res β} {R : Heap S → α → β → Prop} (fr : From r h₀ h) (a : Gives r h h p x R) :
    Gives r h₀ h p x R := Safe.base a fr.ext

/-- A block in a larger one, and what follows it there. -/
theorem Gives.call {p : Prog S α} {d : β} {R : Heap S → α → β → Prop} {f : α → Prog S γ} {y : Res δ}
    {Q : Heap S → γ → δ → Prop} (fr : From r h₀ h) (a : Gives r h h p (.ok d) R)
    (b : ∀ c h', From r h h' → R h' c d → Gives r h₀ h' (f c) y Q) : Gives r h₀ h (p.bind f) y Q := by
  refine Safe.bind fr (((a.from fr.self).base fr.ext).imp fun h' o => ?_)
  rintro ⟨fr', ho⟩
  cases o with
  | ok c => obtain ⟨d', e, hR⟩ := ho; cases e; exact b c h' fr' hR
  | err m => cases ho
  | panic => cases ho

/-- A block in a larger one that may fail, and what follows it there. -/
theorem Gives.callBind {p : Prog S α} {x : Res β} {R : Heap S → α → β → Prop} {f : α → Prog S γ} {y : β → Res δ}
    {Q : Heap S → γ → δ → Prop} (fr : From r h₀ h) (a : Gives r h h p x R)
    (b : ∀ c d h', x = .ok d → From r h h' → R h' c d → Gives r h₀ h' (f c) (y d) Q) :
    Gives r h₀ h (p.bind f) (x >>= y) Q := by
  refine Safe.bind fr (((a.from fr.self).base fr.ext).imp fun h' o => ?_)
  rintro ⟨fr', ho⟩
  cases o with
  | ok c => obtain ⟨d, rfl, hR⟩ := ho; exact b c d h' rfl fr' hR
  | err m => have : x = .err m := ho; subst this; rfl
  | panic => have : x = .panic := ho; subst this; rfl

theorem Gives.imp {p : Prog S α} {x : Res β} {R Q : Heap S → α → β → Prop} (a : Gives r h₀ h p x R)
    (b : ∀ h' c d, R h' c d → Q h' c d) : Gives r h₀ h p x Q := by
  refine Safe.imp a fun h' o ho => ?_
  cases o with
  | ok c => obtain ⟨d, e, hR⟩ := ho; exact ⟨d, e, b _ _ _ hR⟩
  | err m => exact ho
  | panic => exact ho

/-- Another value for the result of a program that succeeds. -/
theorem Gives.to {p : Prog S α} {b : β} {d : δ} {R : Heap S → α → β → Prop} {Q : Heap S → α → δ → Prop}
    (a : Gives r h₀ h p (.ok b) R) (i : ∀ h' c, R h' c b → Q h' c d) : Gives r h₀ h p (.ok d) Q := by
  refine Safe.imp a fun h' o ho => ?_
  cases o with
  | ok c => obtain ⟨b', e, hR⟩ := ho; cases e; exact ⟨d, rfl, i _ _ hR⟩
  | err m => cases ho
  | panic => cases ho

/-- Sequencing of blocks. -/
theorem Gives.bind {p : Prog S α} {x : Res β} {R : Heap S → α → β → Prop} {f : α → Prog S γ} {y : β → Res δ}
    {Q : Heap S → γ → δ → Prop} (fr : From r h h) (a : Gives r h h p x R)
    (b : ∀ c d h', x = .ok d → From r h h' → R h' c d → Gives r h' h' (f c) (y d) Q) :
    Gives r h h (p.bind f) (x >>= y) Q :=
  Gives.bind₀ fr a fun c d h' e fr' hR => (b c d h' e fr' hR).base fr'

/-- Sequencing of blocks after one that does two things. -/
theorem Gives.bind2 {ε : Type} {p : Prog S α} {x : Res β} {x' : Res ε} {R : Heap S → α → β × ε → Prop} {f : α → Prog S γ}
    {y : β → ε → Res δ} {Q : Heap S → γ → δ → Prop} (fr : From r h h)
    (a : Gives r h h p (x >>= fun d => x' >>= fun d' => .ok (d, d')) R)
    (b : ∀ c d d' h', From r h h' → R h' c (d, d') → Gives r h' h' (f c) (y d d') Q) :
    Gives r h h (p.bind f) (x >>= fun d => x' >>= fun d' => y d d') Q := by
  have e : (x >>= fun d => x' >>= fun d' => y d d') = (x >>= fun d => x' >>= fun d' => .ok (d, d')) >>= fun z => y z.1 z.2 := by
    cases x <;> cases x' <;> rfl
  rw [e]
  exact Gives.bind fr a fun c z h' _ fr' hR => b c z.1 z.2 h' fr' hR

/-- Sequencing of blocks after a program that succeeds. -/
theorem Gives.seq {p : Prog S α} {d : β} {R : Heap S → α → β → Prop} {f : α → Prog S γ} {y : Res δ}
    {Q : Heap S → γ → δ → Prop} (fr : From r h h) (a : Gives r h h p (.ok d) R)
    (b : ∀ c h', From r h h' → R h' c d → Gives r h' h' (f c) y Q) : Gives r h h (p.bind f) y Q :=
  Gives.seq₀ fr a fun c h' fr' hR => (b c h' fr' hR).base fr'

theorem Gives.read {p : Ptr k} {v : Val S k} {f : Val S k → Prog S α} {x : Res β} {R : Heap S → α → β → Prop}
    (hv : At r h p v) (a : ∀ h', Env r h h' → Gives r h₀ h' (f v) x R) : Gives r h₀ h (.read p f) x R :=
  fun h' e => ⟨v, hv.mono e.ext, a h' e⟩

theorem Gives.alloc {v : Val S k} {f : Ptr k → Prog S α} {x : Res β} {R : Heap S → α → β → Prop}
    (a : ∀ h', Env r h h' → Gives r h₀ (h'.push r v) (f (h'.next r k)) x R) : Gives r h₀ h (.alloc v f) x R :=
  fun h' e => a h' e

theorem Gives.write {p : Ptr k} {v w : Val S k} {f : Prog S α} {x : Res β} {R : Heap S → α → β → Prop}
    (hw : At r h p w) (fr : Fresh r h₀ p) (a : ∀ h', Env r h h' → Gives r h₀ (h'.set p v) f x R) :
    Gives r h₀ h (.write p v f) x R := fun h' e => ⟨fr, ⟨w, hw.mono e.ext⟩, a h' e⟩

theorem Gives.mapErr {p : Prog S α} {x : Res β} {f : String → String} {R : Heap S → α → β → Prop}
    (a : Gives r h₀ h p x R) :
    Gives r h₀ h (p.mapErr f) (match x with | .err m => .err (f m) | y => y) R := by
  refine Safe.mapErr (Safe.imp a fun h' o ho => ?_)
  cases o with
  | ok c => obtain ⟨d, rfl, hR⟩ := ho; exact ⟨d, rfl, hR⟩
  | err m => have : x = .err m := ho; subst this; rfl
  | panic => have : x = .panic := ho; subst this; rfl

/-- An outcome that does not use the heap. -/
theorem Gives.lift {x : Res α} : Gives r h₀ h (.lift x) x fun _ a b => a = b := by
  cases x with
  | ok a => exact .done fun _ _ => rfl
  | err m => exact .fail
  | panic => exact .panic

end Idemix.Mem
