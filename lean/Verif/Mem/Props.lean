import Verif.Mem.Calls
import Verif.Toy32

/-!
# C74, C75: sharing of objects, and calls at the same time
-/

namespace Idemix.Mem

variable {S : Suite} {α : Type}

namespace Spec

/-- A memory in which the API can be used: the constants of the curve are where the pointers say, they are shared by all
goroutines, and so are the generators in the caches, which are the right ones. A new library value has an empty cache. -/
structure Ready (h : Heap S) (c : Bbs.Consts) : Prop where
  genG1 : h.get c.genG1 = some S.genG1
  genG2 : h.get c.genG2 = some S.genG2
  f2192 : h.get c.f2192 = some (S.zrOfBytes Idemix.Bbs.f2192Bytes)
  shared : c.genG1.region = 0 ∧ c.genG2.region = 0 ∧ c.f2192.region = 0
  cache : ∀ lib key p, h.cache lib key = some p → p.region = 0 ∧ h.get p = some (Idemix.Bbs.hashToG1 key)

/-- Everything that was in the memory is still there, unchanged. -/
def Unchanged (h h' : Heap S) : Prop := ∀ k (p : Ptr k) v, h.get p = some v → h'.get p = some v

/-- The cell that a goroutine changes in its next step. -/
def changes : Prog S α → Option (Σ k, Ptr k)
  | .write p _ _ => some ⟨_, p⟩
  | _ => none

/-- The cell that a goroutine reads or changes in its next step. -/
def uses : Prog S α → Option (Σ k, Ptr k)
  | .read p _ => some ⟨_, p⟩
  | .write p _ _ => some ⟨_, p⟩
  | _ => none

/-- Calls one after the other: the outcomes and the memory afterwards. -/
def inTurn (L : Idemix.Bbs.Lib S) (c : Bbs.Consts) (r : Nat) : List (Bbs.Call S) → Heap S → List (Res Bytes) × Heap S
  | [], h => ([], h)
  | call :: calls, h =>
    (((call.prog L c).run r h).1 :: (inTurn L c r calls ((call.prog L c).run r h).2).1,
      (inTurn L c r calls ((call.prog L c).run r h).2).2)

end Spec

open Spec

/-! ## From the logic to these -/

variable {r : Nat} {h h₀ : Heap S} {L : Idemix.Bbs.Lib S} {c : Bbs.Consts}

theorem Spec.Ready.consts (a : Ready h c) (r : Nat) : Bbs.ConstsAt r h c :=
  ⟨⟨.inr a.shared.1, a.genG1⟩, ⟨.inr a.shared.2.1, a.genG2⟩, ⟨.inr a.shared.2.2, a.f2192⟩⟩

theorem Spec.Ready.from (a : Ready h c) (hr : r ≠ 0) : From r h h := ⟨hr, .refl _ _, a.cache⟩

theorem Spec.Ready.next (a : Ready h c) {h' : Heap S} (u : Unchanged h h') (ok : CacheOk h') : Ready h' c :=
  ⟨u _ _ _ a.genG1, u _ _ _ a.genG2, u _ _ _ a.f2192, a.shared, ok⟩

theorem Safe.run_other {p : Prog S α} {Q : Heap S → Res α → Prop} (s : Safe r h₀ p h Q) (f : From r h₀ h) {j : Nat}
    (hj : j ≠ r) (h0 : j ≠ 0) : (p.run r h).2.cells j = h.cells j := by
  induction p generalizing h with
  | done a => rfl
  | fail m => rfl
  | panic => rfl
  | read p next ih =>
    obtain ⟨v, a, s⟩ := s h (.refl f.ok)
    simp only [Prog.run, a.get]
    exact ih v s f
  | alloc v next ih =>
    simp only [Prog.run]
    rw [ih _ (s h (.refl f.ok)) (f.push r v)]
    simp [Heap.push, hj]
  | write p v next ih =>
    obtain ⟨fr, ⟨w, a⟩, s⟩ := s h (.refl f.ok)
    simp only [Prog.run, a.get]
    rw [ih s (f.set fr v), cells_set_other (by rw [fr.region]; exact hj)]
  | load lib key next ih => exact ih _ (s h (.refl f.ok)) f
  | loadOrStore lib key v next ih =>
    obtain ⟨rfl, s⟩ := s
    obtain ⟨s1, s2⟩ := s h (.refl f.ok)
    simp only [Prog.run]
    cases e : h.cache lib key with
    | some p => exact ih p (s1 p e) f
    | none =>
      simp only
      rw [ih _ (s2 e) (f.store e)]
      simp [Heap.push, Heap.store, h0]

theorem unchanged_run {p : Prog S α} {Q : Heap S → Res α → Prop} (s : Safe r h p h Q) (f : From r h h) :
    Unchanged h (p.run r h).2 := by
  intro k p v hp
  obtain ⟨_, g⟩ := s.run f
  by_cases hr : p.region = r
  · exact get_prefix (by rw [hr]; exact g.ext.own k) hp
  · by_cases h0 : p.region = 0
    · exact get_prefix (by rw [h0]; exact g.ext.shared k) hp
    · unfold Heap.get at hp ⊢
      rw [s.run_other f hr h0]; exact hp

theorem Meets.eq {x o : Res α} {h : Heap S} (m : Meets x (fun _ a b => a = b) h o) : o = x := by
  cases o with
  | ok a => obtain ⟨b, rfl, rfl⟩ := m; rfl
  | err m' => exact m.symm
  | panic => exact m.symm

theorem run_bind {β : Type} (p : Prog S α) (g : α → Prog S β) (r : Nat) (h : Heap S) :
    (p.bind g).run r h = match (p.run r h).1 with
      | .ok a => (g a).run r (p.run r h).2
      | .err m => (.err m, (p.run r h).2)
      | .panic => (.panic, (p.run r h).2) := by
  induction p generalizing h with
  | done a => rfl
  | fail m => rfl
  | panic => rfl
  | read p next ih =>
    simp only [Prog.bind, Prog.run]
    cases h.get p with
    | some v => exact ih v h
    | none => rfl
  | alloc v next ih => exact ih _ _
  | write p v next ih =>
    simp only [Prog.bind, Prog.run]
    cases h.get p with
    | some v => exact ih _
    | none => rfl
  | load lib key next ih => exact ih _ _
  | loadOrStore lib key v next ih =>
    simp only [Prog.bind, Prog.run]
    cases h.cache lib key with
    | some v => exact ih _ _
    | none => exact ih _ _

/-- What `sort.Ints` does to a slice of the goroutine's own: it sorts it, and changes nothing else. -/
theorem run_sortInts (hR : Ready h c) (hr : r ≠ 0) {ps : List (Ptr .int)} {is : List Int}
    (hp : AtAll (k := .int) r h ps is) (ho : ∀ p ∈ ps, p.region = r) (hd : ps.Nodup) :
    ((Bbs.sortInts ps).run r h).1 = .ok () ∧
      AtAll (k := .int) r ((Bbs.sortInts ps).run r h).2 ps (is.insertionSort (· ≤ ·)) ∧
      (∀ k (p : Ptr k) v, h.get p = some v → (∀ q ∈ ps, (⟨k, p⟩ : Σ k, Ptr k) ≠ ⟨.int, q⟩) →
        ((Bbs.sortInts ps).run r h).2.get p = some v) ∧
      CacheOk ((Bbs.sortInts ps).run r h).2 := by
  have g0 : Ext r (⟨fun _ _ => [], h.cache⟩ : Heap S) h :=
    ⟨fun _ => List.nil_prefix, fun _ => List.nil_prefix, fun _ _ _ e => e⟩
  have f : From r (Bbs.cutInts r ⟨fun _ _ => [], h.cache⟩ h) h := ⟨hr, Bbs.cut_ext hr g0, hR.cache⟩
  have fresh : ∀ q : Ptr .int, q.region = r → Fresh r (Bbs.cutInts r (⟨fun _ _ => [], h.cache⟩ : Heap S) h) q :=
    fun q hq => ⟨hq, by simp [Bbs.cutInts]⟩
  have hn : NewAll (k := .int) r (Bbs.cutInts r ⟨fun _ _ => [], h.cache⟩ h) h ps is := by
    clear hd
    induction hp with
    | nil => exact .nil
    | cons x _ ih =>
      exact .cons ⟨x, fresh _ (ho _ List.mem_cons_self)⟩ (ih fun p hp => ho p (List.mem_cons_of_mem _ hp))
  have g := Bbs.gives_sortInts (os := []) (ws := []) f hn .nil (by simpa using hd)
  obtain ⟨m, f'⟩ := g.run f
  have e1 : ((Bbs.sortInts ps).run r h).1 = .ok () := by
    revert m
    cases ((Bbs.sortInts ps).run r h).1 with
    | ok a => exact fun _ => rfl
    | err m' => exact fun m => by cases m
    | panic => exact fun m => by cases m
  refine ⟨e1, ?_, ?_, f'.ok⟩
  · rw [e1] at m
    obtain ⟨_, _, m, _⟩ := m
    exact List.Forall₂.imp (fun _ _ x => x.1) m
  · intro k p v hpv hne
    by_cases hpr : p.region = r
    · by_cases hk : k = .int
      · subst hk
        have hnp : p ∉ ps := fun hm => hne p hm rfl
        have g := Bbs.gives_sortInts (os := [p]) (ws := [v]) f hn (.cons ⟨⟨.inl hpr, hpv⟩, fresh p hpr⟩ .nil)
          (List.nodup_append.mpr ⟨hd, by simp, by simpa using fun a ha (e : a = p) => hnp (e ▸ ha)⟩)
        obtain ⟨m, _⟩ := g.run f
        rw [e1] at m
        obtain ⟨_, _, _, m⟩ := m
        cases m with
        | cons x _ => exact x.1.get
      · exact ((Bbs.at_cut hk ⟨.inl hpr, hpv⟩ : At r _ p v).mono f'.ext).get
    · by_cases h0 : p.region = 0
      · refine get_prefix ?_ hpv
        have := f'.ext.shared k
        rw [h0]
        simpa [Bbs.cutInts, Ne.symm hr] using this
      · unfold Heap.get at hpv ⊢
        rw [Safe.run_other g f hpr h0]; exact hpv

theorem slice_vals {h : Heap S} {ps : List (Ptr .int)} {vs : List Int} (a : AtAll (k := .int) r h ps vs) :
    Bbs.Call.sliceVals h ps = some vs := by
  unfold Bbs.Call.sliceVals
  induction a with
  | nil => rfl
  | cons x _ ih => simp only [List.mapM_cons, x.get, ih, Option.bind_eq_bind, Option.bind_some, Option.pure_def]

theorem run_deriveProofZr (hR : Ready h c) (hr : r ≠ 0) (lib : Option Nat) {ms : List Bbs.MsgPtr}
    {msv : List (Idemix.Bbs.SigMsg S)} (hm : Bbs.MsgsAt r h ms msv) (rawSig nonce rawPk : Bytes) {ps : List (Ptr .int)}
    {is : List Int} (hp : AtAll (k := .int) r h ps is) (ho : ∀ p ∈ ps, p.region = r) (hd : ps.Nodup)
    (ρ : Idemix.Bbs.PoKRand S) :
    ((Bbs.deriveProofZr L c lib ms rawSig nonce rawPk ps ρ).run r h).1 =
        Idemix.Bbs.deriveProofZr L msv rawSig nonce rawPk is ρ ∧
      AtAll (k := .int) r ((Bbs.deriveProofZr L c lib ms rawSig nonce rawPk ps ρ).run r h).2 ps
        (is.insertionSort (· ≤ ·)) ∧
      (∀ k (p : Ptr k) v, h.get p = some v → (∀ q ∈ ps, (⟨k, p⟩ : Σ k, Ptr k) ≠ ⟨.int, q⟩) →
        ((Bbs.deriveProofZr L c lib ms rawSig nonce rawPk ps ρ).run r h).2.get p = some v) ∧
      CacheOk ((Bbs.deriveProofZr L c lib ms rawSig nonce rawPk ps ρ).run r h).2 := by
  rw [Bbs.deriveProofZr_eq, ← List.Forall₂.length_eq hp]
  unfold Bbs.deriveProofZr
  by_cases hl : ps.length = 0
  · have : ps = [] := List.length_eq_zero_iff.mp hl
    subst this
    cases hp
    exact ⟨rfl, .nil, fun _ _ _ e _ => e, hR.cache⟩
  · simp only [hl, decide_false, Res.guardErr_false, Prog.lift, Prog.bind_def, Prog.done_bind, Res.ok_bind]
    obtain ⟨s1, s2, s3, s4⟩ := run_sortInts hR hr hp ho hd
    rw [run_bind, s1]
    simp only
    generalize ((Bbs.sortInts ps).run r h).2 = h₁ at s2 s3 s4 ⊢
    have keep : ∀ {k : Kind} {p : Ptr k} {v : Val S k}, k ≠ .int → h.get p = some v → h₁.get p = some v :=
      fun hk hv => s3 _ _ _ hv fun q _ e => hk (congrArg Sigma.fst e)
    have hc₁ : Bbs.ConstsAt r h₁ c := ⟨⟨.inr hR.shared.1, keep (by decide) hR.genG1⟩,
      ⟨.inr hR.shared.2.1, keep (by decide) hR.genG2⟩, ⟨.inr hR.shared.2.2, keep (by decide) hR.f2192⟩⟩
    have hm₁ : Bbs.MsgsAt r h₁ ms msv :=
      List.Forall₂.imp (fun _ _ x => ⟨⟨x.fr.visible, keep (by decide) x.fr.get⟩, x.idx⟩) hm
    have f : From r h₁ h₁ := ⟨hr, .refl _ _, s4⟩
    have g := Bbs.gives_deriveSorted (L := L) f hc₁ lib hm₁ rawSig nonce rawPk s2 ρ
    obtain ⟨m, f'⟩ := g.run f
    have u := unchanged_run g f
    exact ⟨m.eq, List.Forall₂.imp (fun _ _ x => ⟨x.visible, u _ _ _ x.get⟩) s2,
      fun k p v hv hne => u _ _ _ (s3 k p v hv hne), f'.ok⟩

theorem no_races_from {h₀ : Nat → Heap S} (ps : Nat → Prog S α) {β : Type} (x : Nat → Res β) (R : Heap S → α → β → Prop)
    (f : ∀ i, From (i + 1) (h₀ i) h) (g : ∀ i, Gives (i + 1) (h₀ i) h (ps i) (x i) R) (σ : List Nat) {i j : Nat} (hij : i ≠ j)
    {a b : Σ k, Ptr k} (ha : changes ((exec σ ps h).1 i) = some a) (hb : uses ((exec σ ps h).1 j) = some b) : a ≠ b := by
  obtain ⟨f, s⟩ := exec_safe σ ps h (fun i => Meets (x i) R) f g
  have si := s i
  have sj := s j
  have ok := (f i).ok
  revert si sj ha hb
  generalize (exec σ ps h).1 i = p
  generalize (exec σ ps h).1 j = q
  generalize (exec σ ps h).2 = h' at ok
  intro ha hb si sj
  cases p <;> simp only [changes, Option.some.injEq, reduceCtorEq] at ha
  subst ha
  have ri := (si h' (.refl ok)).1.region
  have rj : b.2.region = j + 1 ∨ b.2.region = 0 := by
    cases q <;> simp only [uses, Option.some.injEq, reduceCtorEq] at hb
    · subst hb
      obtain ⟨_, x, _⟩ := sj h' (.refl ok)
      exact x.visible
    · subst hb
      exact .inl (sj h' (.refl ok)).1.region
  rintro rfl
  simp only at rj
  omega

theorem no_races (ps : Nat → Prog S α) {β : Type} (ok : CacheOk h) (x : Nat → Res β) (R : Heap S → α → β → Prop)
    (g : ∀ i, Gives (i + 1) h h (ps i) (x i) R) (σ : List Nat) {i j : Nat} (hij : i ≠ j) {a b : Σ k, Ptr k}
    (ha : changes ((exec σ ps h).1 i) = some a) (hb : uses ((exec σ ps h).1 j) = some b) : a ≠ b :=
  no_races_from (h₀ := fun _ => h) ps x R (fun i => ⟨by omega, .refl _ _, ok⟩) g σ hij ha hb

/-! ## An example -/

namespace Ex

open Idemix.Toy

/-- The constants of the toy suite. -/
def consts : Bbs.Consts := ⟨⟨0, 0⟩, ⟨0, 0⟩, ⟨0, 0⟩⟩

/-- A memory with them, with another point, a key and two messages, and with slices `[2, 0]` and `[0, 2]`. -/
def mem : Heap suite32 :=
  ⟨fun r k => match r, k with
    | 0, .g1 => [(1 : K), 4]
    | 0, .g2 => [(1 : K)]
    | 0, .zr => [suite32.zrOfBytes Idemix.Bbs.f2192Bytes, (3 : K), 1, 4]
    | 0, .int => [(2 : Int), 0, 0, 2]
    | 1, .int => [(7 : Int), 2, 0]
    | _, _ => [], fun _ _ => none⟩

/-- The derivation of a proof for the first and the last of three messages. -/
def derive (revealed : List (Ptr .int)) : Bbs.Call suite32 :=
  .derive (some 0) [[1], [2, 3], [4]] ([6] ++ enc32 2 ++ enc32 5) [9] (enc 3) revealed ⟨3, 4, fun i => i, fun i => i + 2⟩

/-- The two shared slices, and one of the goroutine 1. -/
def unsorted : List (Ptr .int) := [⟨0, 0⟩, ⟨0, 1⟩]
def sorted : List (Ptr .int) := [⟨0, 2⟩, ⟨0, 3⟩]
def own : List (Ptr .int) := [⟨1, 1⟩, ⟨1, 2⟩]

/-- The bytes in an outcome. -/
def bytesOf : Option (Res Bytes) → Bytes
  | some (.ok b) => b
  | _ => []

theorem ready : Ready mem consts :=
  ⟨rfl, rfl, rfl, ⟨rfl, rfl, rfl⟩, fun _ _ _ e => by cases e⟩

end Ex

/-! ## C74 -/

/-- **C74.** Whatever the arguments of a call share with each other, with the constants of the curve or with the generators in
the cache: the outcome is that of the model without memory on the values of the arguments, no object that was there before
is changed, and the memory is ready for the next call. Partial: slices of indices that are passed to the derivation of
proofs must be sorted already, see `C74_violated`; what is done to others is said by
`C74_only_slice_sorted_partial`. -/
theorem C74_arguments_unchanged_partial (hR : Ready h c) (hr : r ≠ 0) (call : Bbs.Call S) {x : Res Bytes}
    (hx : call.expected L h = some x) (hv : ∀ i ∈ call.regions, i = r ∨ i = 0)
    (hs : ∀ is, Bbs.Call.sliceVals h call.slice = some is → is.Pairwise (· ≤ ·)) :
    ((call.prog L c).run r h).1 = x ∧ Unchanged h ((call.prog L c).run r h).2 ∧ Ready ((call.prog L c).run r h).2 c := by
  have f := hR.from hr
  have g := Bbs.Call.gives f (hR.consts r) call hx hv hs
  obtain ⟨m, f'⟩ := g.run f
  exact ⟨m.eq, unchanged_run g f, hR.next (unchanged_run g f) f'.ok⟩

/-- The scalar that is signed is the key itself, and the point a constant of the curve; the slice is sorted. -/
example :
    (((Bbs.Call.signFr (some 0) [⟨⟨0, 1⟩, 0⟩, ⟨⟨0, 1⟩, 1⟩] 2 ⟨0, 1⟩ (2 : Toy.K) (5 : Toy.K)).prog Toy.lib32 Ex.consts).run 1
        Ex.mem).1 = Idemix.Bbs.signWithKeyFr (S := Toy.suite32) [⟨3, 0⟩, ⟨3, 1⟩] 2 3 2 5 ∧
      Unchanged Ex.mem (((Bbs.Call.signB (some 0) ⟨0, 0⟩ 2 ⟨0, 1⟩ (2 : Toy.K) (5 : Toy.K)).prog Toy.lib32 Ex.consts).run 1
        Ex.mem).2 ∧
      (((Ex.derive Ex.sorted).prog Toy.lib32 Ex.consts).run 1 Ex.mem).1 =
        Idemix.Bbs.deriveProof Toy.lib32 [[1], [2, 3], [4]] ([6] ++ Toy.enc32 2 ++ Toy.enc32 5) [9] (Toy.enc 3) [0, 2]
          ⟨3, 4, fun i => i, fun i => i + 2⟩ :=
  ⟨(C74_arguments_unchanged_partial Ex.ready (by decide) _ rfl (by decide) (by rintro _ ⟨⟩; exact .nil)).1,
    (C74_arguments_unchanged_partial Ex.ready (by decide) _ rfl (by decide) (by rintro _ ⟨⟩; exact .nil)).2.1,
    (C74_arguments_unchanged_partial Ex.ready (by decide) _ rfl (by decide) (by rintro _ ⟨⟩; decide)).1⟩

/-- **C74 (violated).** The derivation of a proof sorts the slice of the caller: after the call the first element is another.
The call itself succeeds. -/
theorem C74_violated : ∃ (h : Heap Toy.suite32) (c : Bbs.Consts) (call : Bbs.Call Toy.suite32) (p : Ptr .int) (proof : Bytes),
    Ready h c ∧ p ∈ call.slice ∧ ((call.prog Toy.lib32 c).run 1 h).1 = .ok proof ∧ h.get p = some (2 : Int) ∧
      ((call.prog Toy.lib32 c).run 1 h).2.get p = some (0 : Int) :=
  ⟨Ex.mem, Ex.consts, Ex.derive Ex.own, ⟨1, 1⟩,
    Ex.bytesOf (((Ex.derive Ex.own).prog Toy.lib32 Ex.consts).run 1 Ex.mem).1, Ex.ready, by decide, by decide +kernel,
    by decide +kernel, by decide +kernel⟩

/-- **C74 (derivation of proofs).** With any slice of indices of its own the caller gets the outcome of the model without
memory. The call sorts the slice and changes nothing else. -/
theorem C74_only_slice_sorted_partial (hR : Ready h c) (hr : r ≠ 0) (call : Bbs.Call S) {x : Res Bytes}
    (hx : call.expected L h = some x) (hv : ∀ i ∈ call.regions, i = r ∨ i = 0)
    (ho : ∀ p ∈ call.slice, p.region = r) (hd : call.slice.Nodup) {is : List Int}
    (hi : Bbs.Call.sliceVals h call.slice = some is) :
    ((call.prog L c).run r h).1 = x ∧
      Bbs.Call.sliceVals ((call.prog L c).run r h).2 call.slice = some (is.insertionSort (· ≤ ·)) ∧
      (∀ k (p : Ptr k) v, h.get p = some v → (∀ q ∈ call.slice, (⟨k, p⟩ : Σ k, Ptr k) ≠ ⟨.int, q⟩) →
        ((call.prog L c).run r h).2.get p = some v) ∧
      Ready ((call.prog L c).run r h).2 c := by
  have ready : ∀ h' : Heap S, (∀ k (p : Ptr k) v, h.get p = some v →
      (∀ q ∈ call.slice, (⟨k, p⟩ : Σ k, Ptr k) ≠ ⟨.int, q⟩) → h'.get p = some v) → CacheOk h' → Ready h' c := by
    intro h' u ok
    have keep : ∀ {k : Kind} {p : Ptr k} {v : Val S k}, k ≠ .int → h.get p = some v → h'.get p = some v :=
      fun hk hv => u _ _ _ hv fun q _ e => hk (congrArg Sigma.fst e)
    exact ⟨keep (by decide) hR.genG1, keep (by decide) hR.genG2, keep (by decide) hR.f2192, hR.shared, ok⟩
  by_cases hn : call.slice = []
  · have hs : ∀ is', Bbs.Call.sliceVals h call.slice = some is' → is'.Pairwise (· ≤ ·) := by
      rw [hn]; intro is' e; cases e; exact .nil
    obtain ⟨a, b, d⟩ := C74_arguments_unchanged_partial (L := L) hR hr call hx hv hs
    rw [hn] at hi ⊢
    cases hi
    exact ⟨a, rfl, fun k p v e _ => b k p v e, d⟩
  cases call with
  | derive lib messages rawSig nonce rawPk revealed ρ =>
    simp only [Bbs.Call.expected, Option.bind_eq_bind, Option.bind_eq_some_iff, Option.pure_def, Option.some.injEq] at hx
    obtain ⟨is', hi', rfl⟩ := hx
    have : is' = is := Option.some.inj (hi'.symm.trans hi)
    subst this
    have f := hR.from hr
    have g := Bbs.gives_messages (L := L) f (hR.consts r) messages
    obtain ⟨m, f'⟩ := g.run f
    have u := unchanged_run g f
    simp only [Bbs.Call.prog, Bbs.deriveProof, Prog.bind_def, run_bind]
    revert m f' u
    generalize (Bbs.messagesToFr L c 0 messages).run r h = out
    obtain ⟨o, h₁⟩ := out
    intro m f' u
    cases o with
    | err _ => cases m
    | panic => cases m
    | ok ms =>
      obtain ⟨_, e, hm⟩ := m
      cases e
      have R₁ := hR.next u f'.ok
      have hp : AtAll (k := .int) r h revealed is' := Bbs.Call.slice_at hi hv
      obtain ⟨a, b, d, e⟩ := run_deriveProofZr (L := L) R₁ hr lib hm rawSig nonce rawPk (AtAll.mono hp f'.ext) ho hd ρ
      exact ⟨a, slice_vals b, fun k p v hv hne => d k p v (u _ _ _ hv) hne,
        ready _ (fun k p v hv hne => d k p v (u _ _ _ hv) hne) e⟩
  | deriveZr lib messages rawSig nonce rawPk revealed ρ =>
    simp only [Bbs.Call.expected, Option.bind_eq_bind, Option.bind_eq_some_iff, Option.pure_def, Option.some.injEq] at hx
    obtain ⟨ms, hm, is', hi', rfl⟩ := hx
    have : is' = is := Option.some.inj (hi'.symm.trans hi)
    subst this
    obtain ⟨a, b, d, e⟩ := run_deriveProofZr (L := L) hR hr lib
      (Bbs.Call.msgs_at hm fun i a => hv i (List.mem_append_left _ a)) rawSig nonce rawPk
      (Bbs.Call.slice_at hi fun i a => hv i (List.mem_append_right _ a)) ho hd ρ
    exact ⟨a, slice_vals b, d, ready _ d e⟩
  | _ => exact absurd rfl hn

theorem slice_mono {h h' : Heap S} (u : Unchanged h h') {ps : List (Ptr .int)} {vs : List Int}
    (e : Bbs.Call.sliceVals h ps = some vs) : Bbs.Call.sliceVals h' ps = some vs := by
  induction ps generalizing vs with
  | nil => exact e
  | cons p ps ih =>
    simp only [Bbs.Call.sliceVals, List.mapM_cons, Option.bind_eq_bind, Option.bind_eq_some_iff,
      Option.pure_def, Option.some.injEq] at e ⊢
    obtain ⟨v, hx, vs', hvs, rfl⟩ := e
    exact ⟨v, u _ _ _ hx, vs', ih hvs, rfl⟩

theorem messages_mono {h h' : Heap S} (u : Unchanged h h') {ms : List Bbs.MsgPtr} {vs : List (Idemix.Bbs.SigMsg S)}
    (e : Bbs.Call.messageVals h ms = some vs) : Bbs.Call.messageVals h' ms = some vs := by
  induction ms generalizing vs with
  | nil => exact e
  | cons m ms ih =>
    simp only [Bbs.Call.messageVals, List.mapM_cons, Option.bind_eq_bind, Option.bind_eq_some_iff, Option.map_eq_some_iff,
      Option.pure_def, Option.some.injEq] at e ⊢
    obtain ⟨v, ⟨x, hx, rfl⟩, vs', hvs, rfl⟩ := e
    exact ⟨_, ⟨x, u _ _ _ hx, rfl⟩, vs', ih hvs, rfl⟩

theorem expected_mono {h h' : Heap S} (u : Unchanged h h') {call : Bbs.Call S} {x : Res Bytes}
    (e : call.expected L h = some x) : call.expected L h' = some x := by
  cases call <;> simp only [Bbs.Call.expected, Option.bind_eq_bind, Option.bind_eq_some_iff, Option.pure_def,
    Option.some.injEq] at e ⊢
  case signFr =>
    obtain ⟨ms, hm, k, hk, rfl⟩ := e
    exact ⟨ms, messages_mono u hm, k, u _ _ _ hk, rfl⟩
  case signB =>
    obtain ⟨v, hv, k, hk, rfl⟩ := e
    exact ⟨v, u _ _ _ hv, k, u _ _ _ hk, rfl⟩
  case derive =>
    obtain ⟨is, hi, rfl⟩ := e
    exact ⟨is, slice_mono u hi, rfl⟩
  case deriveZr =>
    obtain ⟨ms, hm, is, hi, rfl⟩ := e
    exact ⟨ms, messages_mono u hm, is, slice_mono u hi, rfl⟩
  case deriveNew =>
    obtain ⟨ms, hm, rfl⟩ := e
    exact ⟨ms, messages_mono u hm, rfl⟩
  case verifyProofFr =>
    obtain ⟨ms, hm, rfl⟩ := e
    exact ⟨ms, messages_mono u hm, rfl⟩
  all_goals exact e

theorem slice_of_expected {call : Bbs.Call S} {x : Res Bytes} (e : call.expected L h = some x) :
    ∃ is, Bbs.Call.sliceVals h call.slice = some is := by
  cases call <;> simp only [Bbs.Call.expected, Option.bind_eq_bind, Option.bind_eq_some_iff, Option.pure_def,
    Option.some.injEq] at e
  case derive =>
    obtain ⟨is, hi, rfl⟩ := e
    exact ⟨is, hi⟩
  case deriveZr =>
    obtain ⟨ms, hm, is, hi, rfl⟩ := e
    exact ⟨is, hi⟩
  all_goals exact ⟨[], rfl⟩

/-- **C74 (many calls).** However many calls are made one after the other on the same objects, each has the outcome that it
would have had on the objects as they were at the start. -/
theorem C74_in_turn_partial (hR : Ready h c) (hr : r ≠ 0) (calls : List (Bbs.Call S))
    (hx : ∀ call ∈ calls, (call.expected L h).isSome) (hv : ∀ call ∈ calls, ∀ i ∈ call.regions, i = r ∨ i = 0)
    (hs : ∀ call ∈ calls, ∀ is, Bbs.Call.sliceVals h call.slice = some is → is.Pairwise (· ≤ ·)) :
    (inTurn L c r calls h).1.map some = calls.map (·.expected L h) ∧ Unchanged h (inTurn L c r calls h).2 := by
  suffices H : ∀ h', Ready h' c → Unchanged h h' →
      (inTurn L c r calls h').1.map some = calls.map (·.expected L h) ∧ Unchanged h (inTurn L c r calls h').2 from
    H h hR fun _ _ _ e => e
  induction calls with
  | nil => exact fun h' _ u => ⟨rfl, u⟩
  | cons call calls ih =>
    intro h' R u
    obtain ⟨x, e⟩ := Option.isSome_iff_exists.mp (hx call List.mem_cons_self)
    obtain ⟨a, b, d⟩ := C74_arguments_unchanged_partial (L := L) R hr call (expected_mono u e)
      (hv call List.mem_cons_self) (fun is hi => by
        obtain ⟨is', e'⟩ := slice_of_expected e
        cases (slice_mono u e').symm.trans hi
        exact hs call List.mem_cons_self _ e')
    obtain ⟨i, j⟩ := ih (fun k hk => hx k (List.mem_cons_of_mem _ hk)) (fun k hk => hv k (List.mem_cons_of_mem _ hk))
      (fun k hk => hs k (List.mem_cons_of_mem _ hk)) _ d fun k p v hp => b k p v (u k p v hp)
    simp only [inTurn, List.map_cons]
    exact ⟨by rw [i, a, e], j⟩

example : (((Ex.derive Ex.own).prog Toy.lib32 Ex.consts).run 1 Ex.mem).1 =
      Idemix.Bbs.deriveProof Toy.lib32 [[1], [2, 3], [4]] ([6] ++ Toy.enc32 2 ++ Toy.enc32 5) [9] (Toy.enc 3) [2, 0]
        ⟨3, 4, fun i => i, fun i => i + 2⟩ ∧
    Bbs.Call.sliceVals (((Ex.derive Ex.own).prog Toy.lib32 Ex.consts).run 1 Ex.mem).2 Ex.own = some [0, 2] ∧
    (((Ex.derive Ex.own).prog Toy.lib32 Ex.consts).run 1 Ex.mem).2.get (k := .int) ⟨1, 0⟩ = some (7 : Int) := by
  obtain ⟨a, b, d, _⟩ := C74_only_slice_sorted_partial (L := Toy.lib32) (r := 1) Ex.ready (by decide) (Ex.derive Ex.own) rfl
    (by decide) (by decide) (by decide) (is := [2, 0]) rfl
  exact ⟨a, b, d .int ⟨1, 0⟩ (7 : Int) rfl (by decide)⟩

example : (inTurn Toy.lib32 Ex.consts 1 [Ex.derive Ex.sorted, .signB (some 0) ⟨0, 0⟩ 2 ⟨0, 1⟩ (2 : Toy.K) (5 : Toy.K),
      Ex.derive Ex.sorted] Ex.mem).1.map some =
    [Ex.derive Ex.sorted, .signB (some 0) ⟨0, 0⟩ 2 ⟨0, 1⟩ (2 : Toy.K) (5 : Toy.K), Ex.derive Ex.sorted].map
      (·.expected Toy.lib32 Ex.mem) := by
  refine (C74_in_turn_partial (L := Toy.lib32) (r := 1) Ex.ready (by decide) _ ?_ ?_ ?_).1
  · simp only [List.forall_mem_cons]
    exact ⟨rfl, rfl, rfl, by simp⟩
  · simp only [List.forall_mem_cons]
    exact ⟨by decide, by decide, by decide, by simp⟩
  · simp only [List.forall_mem_cons]
    exact ⟨by rintro _ ⟨⟩; decide, by rintro _ ⟨⟩; exact .nil, by rintro _ ⟨⟩; decide, by simp⟩

/-! ## C75 -/

namespace Ex

/-- Goroutines that share keys, points, messages, a slice and a cache. -/
def calls (i : Nat) : Bbs.Call Toy.suite32 :=
  match i % 4 with
  | 0 => .signB (some 0) ⟨0, 0⟩ 2 ⟨0, 1⟩ (2 : Toy.K) (5 : Toy.K)
  | 1 => .signFr (some 0) [⟨⟨0, 1⟩, 0⟩, ⟨⟨0, 2⟩, 1⟩] 2 ⟨0, 1⟩ (2 : Toy.K) (5 : Toy.K)
  | 2 => derive sorted
  | _ => .deriveNew (some 0) [⟨⟨0, 1⟩, 0⟩, ⟨⟨0, 2⟩, 1⟩] ([6] ++ Toy.enc32 2 ++ Toy.enc32 5) [9] (Toy.enc 3) [1, 0]
    ⟨3, 4, fun i => i, fun i => i + 2⟩

theorem calls_ok (i : Nat) : ((calls i).expected Toy.lib32 mem).isSome ∧ (∀ j ∈ (calls i).regions, j = i + 1 ∨ j = 0) ∧
    ∀ is, Bbs.Call.sliceVals mem (calls i).slice = some is → is.Pairwise (· ≤ ·) := by
  unfold calls
  split
  · exact ⟨rfl, by simp [Bbs.Call.regions], by rintro _ ⟨⟩; exact .nil⟩
  · exact ⟨rfl, by simp [Bbs.Call.regions], by rintro _ ⟨⟩; exact .nil⟩
  · exact ⟨rfl, by simp [Bbs.Call.regions, derive, sorted], by rintro _ ⟨⟩; decide⟩
  · exact ⟨rfl, by simp [Bbs.Call.regions], by rintro _ ⟨⟩; exact .nil⟩

end Ex

/-- **C75.** Any number of goroutines make calls on shared objects, keys, constants and caches of generators, their steps in
any order: each call that has returned has the outcome that the model without memory gives for the values of its
arguments at the start, and no object that was there at the start is changed. Partial: slices of indices that are passed
to the derivation of proofs must be sorted already or be made for the call, see `C75_violated`. -/
theorem C75_concurrent_calls_partial (hR : Ready h c) (calls : Nat → Bbs.Call S)
    (hx : ∀ i, ((calls i).expected L h).isSome) (hv : ∀ i, ∀ j ∈ (calls i).regions, j = i + 1 ∨ j = 0)
    (hs : ∀ i is, Bbs.Call.sliceVals h (calls i).slice = some is → is.Pairwise (· ≤ ·)) (σ : List Nat) :
    Unchanged h (exec σ (fun i => (calls i).prog L c) h).2 ∧
      ∀ i o, ((exec σ (fun i => (calls i).prog L c) h).1 i).outcome = some o → (calls i).expected L h = some o := by
  have hx' := fun i => Option.isSome_iff_exists.mp (hx i)
  choose x e using hx'
  obtain ⟨a, b⟩ := interleave (fun i => (calls i).prog L c) hR.cache x (fun _ _ a b => a = b)
    (fun i => Bbs.Call.gives (hR.from (by omega)) (hR.consts _) (calls i) (e i) (hv i) (hs i)) σ
  exact ⟨a, fun i o ho => by rw [e i, (b i o ho).eq]⟩

/-- The hypotheses are met, and calls do return: the goroutine 0 after 100 steps of its own between those of another. -/
example : Unchanged Ex.mem (exec ((List.range 200).map (· % 2)) (fun i => (Ex.calls i).prog Toy.lib32 Ex.consts) Ex.mem).2 ∧
    ∃ o, ((exec ((List.range 200).map (· % 2)) (fun i => (Ex.calls i).prog Toy.lib32 Ex.consts) Ex.mem).1 0).outcome =
      some (.ok o) :=
  ⟨(C75_concurrent_calls_partial Ex.ready Ex.calls (fun i => (Ex.calls_ok i).1) (fun i => (Ex.calls_ok i).2.1)
    (fun i => (Ex.calls_ok i).2.2) _).1,
    Ex.bytesOf ((exec ((List.range 200).map (· % 2)) (fun i => (Ex.calls i).prog Toy.lib32 Ex.consts) Ex.mem).1 0).outcome,
    by decide +kernel⟩

/-- **C75 (violated).** Two goroutines derive proofs from the same signature with one slice of indices, `[2, 0]`, in which the
first is about to exchange the elements when the second sorts it: the second returns a proof that is not the one asked for
and that does not verify, where the one asked for does. -/
theorem C75_violated : ∃ (h : Heap Toy.suite32) (c : Bbs.Consts) (call : Bbs.Call Toy.suite32) (σ : List Nat)
    (proof expected : Bytes), Ready h c ∧ call.expected Toy.lib32 h = some (.ok expected) ∧
      ((exec σ (fun _ => call.prog Toy.lib32 c) h).1 1).outcome = some (.ok proof) ∧
      Idemix.Bbs.verifyProof Toy.lib32 [[1], [4]] expected [9] (Toy.enc 3) = .ok () ∧
      Idemix.Bbs.verifyProof Toy.lib32 [[1], [4]] proof [9] (Toy.enc 3) ≠ .ok () :=
  ⟨Ex.mem, Ex.consts, Ex.derive Ex.unsorted, List.replicate 29 0 ++ List.replicate 300 1,
    Ex.bytesOf ((exec (List.replicate 29 0 ++ List.replicate 300 1)
      (fun _ => (Ex.derive Ex.unsorted).prog Toy.lib32 Ex.consts) Ex.mem).1 1).outcome,
    Ex.bytesOf ((Ex.derive Ex.unsorted).expected Toy.lib32 Ex.mem), Ex.ready, by decide +kernel, by decide +kernel,
    by decide +kernel, by decide +kernel⟩

/-- **C75 (races, violated).** Two goroutines that sort the same slice are about to change the same element of it. -/
theorem C75_races_violated : ∃ (h : Heap Toy.suite32) (c : Bbs.Consts) (call : Bbs.Call Toy.suite32) (σ : List Nat)
    (a : Σ k, Ptr k), Ready h c ∧ changes ((exec σ (fun _ => call.prog Toy.lib32 c) h).1 0) = some a ∧
      changes ((exec σ (fun _ => call.prog Toy.lib32 c) h).1 1) = some a :=
  ⟨Ex.mem, Ex.consts, Ex.derive Ex.unsorted, List.replicate 28 0 ++ List.replicate 28 1, ⟨.int, ⟨0, 1⟩⟩, Ex.ready,
    by decide +kernel, by decide +kernel⟩

/-- **C75 (no races).** At no moment is one goroutine about to change an object that another is about to read or change. So the
memory model of Go makes the interleavings above all there is. -/
theorem C75_no_races_partial (hR : Ready h c) (calls : Nat → Bbs.Call S)
    (hx : ∀ i, ((calls i).expected L h).isSome) (hv : ∀ i, ∀ j ∈ (calls i).regions, j = i + 1 ∨ j = 0)
    (hs : ∀ i is, Bbs.Call.sliceVals h (calls i).slice = some is → is.Pairwise (· ≤ ·)) (σ : List Nat) {i j : Nat}
    (hij : i ≠ j) {a b : Σ k, Ptr k} (ha : changes ((exec σ (fun i => (calls i).prog L c) h).1 i) = some a)
    (hb : uses ((exec σ (fun i => (calls i).prog L c) h).1 j) = some b) : a ≠ b := by
  have hx' := fun i => Option.isSome_iff_exists.mp (hx i)
  choose x e using hx'
  exact no_races (fun i => (calls i).prog L c) hR.cache x (fun _ a b => a = b)
    (fun i => Bbs.Call.gives (hR.from (by omega)) (hR.consts _) (calls i) (e i) (hv i) (hs i)) σ hij ha hb

/-- **C75 (progress).** No call waits for another: a goroutine that gets to run again and again returns. -/
theorem C75_calls_return (calls : Nat → Bbs.Call S) (h : Heap S) (σ : Nat → Nat) (i : Nat)
    (hσ : ∀ n, ∃ m, n ≤ m ∧ σ m = i) :
    ∃ n, ((exec ((List.range n).map σ) (fun i => (calls i).prog L c) h).1 i).outcome.isSome :=
  finishes _ h σ i hσ

end Idemix.Mem
