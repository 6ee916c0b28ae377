import Verif.Provider.Concurrent
import Verif.Provider.PropsStore

/-!
# C70 Calls of the key store that run at the same time
-/

namespace Idemix.Provider

variable {S : Suite} {B : Backend S} (dir : Bytes)

open Spec

/-! ## Lemmas -/

theorem callStep_op (d : Disk) (c : KCall B) (a : KAct) : (callStep dir d c a).2.op = c.op := by
  obtain ⟨op, st⟩ := c
  cases st <;> cases a <;> cases op <;> rfl

theorem storeStep_isDir (d : Disk) (k : Key B) (st : KSt B) (n : Nat) : (storeStep dir d k st n).1.isDir = d.isDir := by
  unfold storeStep
  cases entryOf B k with
  | ok x => cases st <;> simp only <;> split <;> rfl
  | err m => rfl
  | panic => rfl

theorem callStep_isDir (d : Disk) (c : KCall B) (a : KAct) : (callStep dir d c a).1.isDir = d.isDir := by
  obtain ⟨op, st⟩ := c
  cases st <;> cases a <;> cases op <;> first | rfl | exact storeStep_isDir dir d _ _ _

/-- A property of the system that the first state has and every step keeps holds at the end. -/
theorem run_induction (ops : List (KOp B)) (I : KSys B → Prop) (d : Disk)
    (h0 : I ⟨d, ops.map fun o => ⟨o, .start⟩⟩)
    (hstep : ∀ s i c a, I s → s.calls.map KCall.op = ops → s.disk.isDir = d.isDir → s.calls[i]? = some c → c.op ∈ ops →
      I ⟨(callStep dir s.disk c a).1, s.calls.set i (callStep dir s.disk c a).2⟩)
    (sched : List (Nat × KAct)) :
    I (runCalls dir d ops sched) ∧ (runCalls dir d ops sched).calls.map KCall.op = ops ∧
      (runCalls dir d ops sched).disk.isDir = d.isDir := by
  induction sched using List.reverseRecOn with
  | nil => exact ⟨h0, by simp [runCalls, Function.comp_def], rfl⟩
  | append_singleton l x ih =>
    simp only [runCalls, List.foldl_append, List.foldl_cons, List.foldl_nil] at ih ⊢
    generalize l.foldl (sysStep dir) ⟨d, ops.map fun o => ⟨o, .start⟩⟩ = s at ih
    obtain ⟨h1, h2, h3⟩ := ih
    unfold sysStep
    cases hc : s.calls[x.1]? with
    | none => exact ⟨h1, h2, h3⟩
    | some c =>
      have hmem : c.op ∈ ops := by
        rw [← h2]
        exact List.mem_map_of_mem (List.mem_of_getElem? hc)
      refine ⟨hstep s x.1 c x.2 h1 h2 h3 hc hmem, ?_, ?_⟩
      · simp only
        rw [List.map_set, callStep_op, h2]
        apply List.ext_getElem?
        intro j
        rw [List.getElem?_set]
        split
        · next h =>
          subst h
          rw [← h2, List.getElem?_map, hc]
          split
          · rfl
          · next hlt =>
            exfalso; apply hlt
            rw [List.length_map]
            exact (List.getElem?_eq_some_iff.mp hc).1
        · rfl
      · exact (callStep_isDir dir s.disk c x.2).trans h3

/-- What a step of a store does to other files. -/
theorem callStep_other (d : Disk) (c : KCall B) (a : KAct) (ski : Bytes)
    (h : ∀ k, c.op = .store k → storageId k ≠ some ski) :
    (callStep dir d c a).1.file (joinPath dir (hexOf ski)) = d.file (joinPath dir (hexOf ski)) := by
  obtain ⟨op, st⟩ := c
  have key : ∀ k n, op = .store k → (storeStep dir d k st n).1.file (joinPath dir (hexOf ski)) =
      d.file (joinPath dir (hexOf ski)) := by
    intro k n hk
    unfold storeStep
    rcases entryOf_eq k with ⟨id, e, h1, h2, -⟩ | ⟨-, m, h2⟩
    · have hne : joinPath dir (hexOf ski) ≠ joinPath dir (hexOf id) := by
        intro hc
        exact h k hk (by rw [h1, C50_injective dir _ _ hc])
      rw [h2]
      cases st with
      | start =>
        simp only
        split
        · rfl
        · simp [Disk.set, hne]
      | writing off =>
        simp only
        split
        · simp [Disk.set, hne]
        · rfl
      | _ => rfl
    · rw [h2]
  cases st <;> cases a <;> cases op <;> first | rfl | exact key _ _ rfl

theorem set_calls {s : KSys B} {i j : Nat} {c' x : KCall B}
    (h : (s.calls.set i c')[j]? = some x) : (j = i ∧ x = c') ∨ (j ≠ i ∧ s.calls[j]? = some x) := by
  rw [List.getElem?_set] at h
  split at h
  · next e =>
    subst e
    split at h
    · cases h; exact .inl ⟨rfl, rfl⟩
    · cases h
  · next e => exact .inr ⟨Ne.symm e, h⟩

/-! ## Calls on different identifiers -/

/-- C70. While no call stores a key with the identifier, a look-up returns exactly what it would have returned alone
at the beginning, whatever other keys are stored at the same time, in whatever interleaving, and wherever those stores
fail or crash. -/
theorem C70_others_partial (d : Disk) (ops : List (KOp B)) (sched : List (Nat × KAct)) (ski : Bytes)
    (hops : ∀ k, KOp.store k ∈ ops → storageId k ≠ some ski) (i : Nat) (r : Res (Key B))
    (hr : (runCalls dir d ops sched).calls[i]? = some ⟨.look ski, .looked r⟩) :
    r = (kvsStore B (fileKvs dir)).get d ski := by
  have := (run_induction dir ops (fun s =>
    s.disk.file (joinPath dir (hexOf ski)) = d.file (joinPath dir (hexOf ski)) ∧
    ∀ i st, s.calls[i]? = some ⟨.look ski, st⟩ →
      match st with
      | .reading acc => d.isDir (joinPath dir (hexOf ski)) = false ∧
          ∃ b, d.file (joinPath dir (hexOf ski)) = some b ∧ acc <+: b
      | .looked r => r = (kvsStore B (fileKvs dir)).get d ski
      | _ => True) d ?_ ?_ sched).1.2 i _ hr
  · exact this
  · refine ⟨rfl, ?_⟩
    intro i st h
    simp only [List.getElem?_map, Option.map_eq_some_iff] at h
    obtain ⟨o, -, h⟩ := h
    cases h
    trivial
  · rintro s i c a ⟨h1, h2⟩ - h3 hc hmem
    refine ⟨?_, ?_⟩
    · simp only
      rw [callStep_other dir s.disk c a ski (fun k hk => hops k (hk ▸ hmem)), h1]
    · intro j st hj
      rcases set_calls hj with ⟨rfl, hx⟩ | ⟨-, hx⟩
      · have hop : c.op = .look ski := by
          rw [← callStep_op dir s.disk c a, ← hx]
        obtain ⟨op, st0⟩ := c
        simp only at hop
        subst hop
        have hold := h2 j st0 hc
        have hst : st = (callStep dir s.disk ⟨.look ski, st0⟩ a).2.st := by rw [← hx]
        cases st0 with
        | stored r => subst hst; trivial
        | looked r => subst hst; exact hold
        | failed => subst hst; trivial
        | writing off => cases a <;> (subst hst; trivial)
        | start =>
          cases a with
          | fail => subst hst; trivial
          | go n =>
            simp only [callStep, lookStep, h3, h1] at hst
            by_cases hd : d.isDir (joinPath dir (hexOf ski))
            · simp only [hd, if_true] at hst
              subst hst
              simp [kvsStore, fileKvs, fileGet, Disk.readFile, hd, wrapErr]
            · simp only [hd, if_false, Bool.false_eq_true] at hst
              cases hf : d.file (joinPath dir (hexOf ski)) with
              | none =>
                rw [hf] at hst
                subst hst
                simp [kvsStore, fileKvs, fileGet, Disk.readFile, hd, hf, Res.ofOption, wrapErr]
              | some b =>
                rw [hf] at hst
                subst hst
                exact ⟨by simpa using hd, b, rfl, List.nil_prefix⟩
        | reading acc =>
          cases a with
          | fail => subst hst; trivial
          | go n =>
            obtain ⟨hd, b, hb, hp⟩ := hold
            simp only [callStep, lookStep, h1, hb, Option.getD_some] at hst
            by_cases hlt : acc.length < b.length
            · rw [if_pos hlt] at hst
              subst hst
              refine ⟨hd, b, hb, ?_⟩
              obtain ⟨t, rfl⟩ := hp
              rw [List.drop_left]
              exact (List.prefix_append_right_inj acc).mpr (List.take_prefix n t)
            · rw [if_neg hlt] at hst
              subst hst
              have : acc = b := hp.eq_of_length_le (by omega)
              subst this
              simp only [lookResult, kvsStore, fileKvs, fileGet, Disk.readFile, hd, hb, Bool.false_eq_true, if_false,
                Res.ofOption_some, wrapErr, Res.ok_bind]
      · exact h2 j st hx

theorem overlay_self (t : Bytes) (off n : Nat) (h : off ≤ t.length) :
    overlay (t.take off) off ((t.drop off).take n) = t.take (off + ((t.drop off).take n).length) := by
  have hl : (t.take off).length = off := by simp; omega
  unfold overlay
  split
  · next hw => rw [hw]; simp
  · have hw : (t.drop off).take ((t.drop off).take n).length = (t.drop off).take n := by simp
    rw [List.take_add, hw]
    generalize (t.drop off).take n = w
    have hd : (t.take off).drop (off + w.length) = [] := List.drop_of_length_le (by omega)
    rw [hl, Nat.sub_self, hd, List.take_take]
    simp

/-- C70. A call of `StoreKey` that runs alone, in steps of any size, does what the call in one piece does: the model of
interleaved calls agrees with the model of C48. -/
theorem C70_alone (d : Disk) (k : Key B) (sched : List (Nat × KAct)) (r : Res Unit)
    (hr : (runCalls dir d [.store k] sched).calls = [⟨.store k, .stored r⟩]) :
    ((runCalls dir d [.store k] sched).disk, r) = (kvsStore B (fileKvs dir)).store d k := by
  rcases entryOf_eq k with ⟨id, e, -, he, -⟩ | ⟨-, m, he⟩
  · have hrun := (run_induction dir [.store k] (fun s : KSys B => ∃ st, s.calls = [⟨.store k, st⟩] ∧
      match st with
      | .start => s.disk = d
      | .writing off => d.isDir (joinPath dir (hexOf id)) = false ∧ off ≤ (entryText e).length ∧
          s.disk = d.set (joinPath dir (hexOf id)) ((entryText e).take off)
      | .stored r => (s.disk, r) = (kvsStore B (fileKvs dir)).store d k
      | _ => True) d ⟨.start, rfl, rfl⟩ ?_ sched).1
    · obtain ⟨st, h1, h2⟩ := hrun
      rw [hr] at h1
      cases h1
      exact h2
    · rintro s i c a ⟨st, h1, h2⟩ - hdir hc -
      have hi : i = 0 ∧ c = ⟨.store k, st⟩ := by
        rw [h1] at hc
        cases i with
        | zero => cases hc; exact ⟨rfl, rfl⟩
        | succ i => cases hc
      obtain ⟨rfl, rfl⟩ := hi
      rw [h1]
      cases st with
      | stored r => exact ⟨_, rfl, h2⟩
      | looked r => exact ⟨_, rfl, trivial⟩
      | failed => exact ⟨_, rfl, trivial⟩
      | reading acc =>
        cases a with
        | fail => exact ⟨_, rfl, trivial⟩
        | go n => exact ⟨.reading acc, by simp only [callStep, storeStep, he]; rfl, trivial⟩
      | start =>
        cases a with
        | fail => exact ⟨_, rfl, trivial⟩
        | go n =>
          simp only at h2
          refine ⟨_, rfl, ?_⟩
          simp only [callStep, storeStep, he, h2]
          by_cases hd : d.isDir (joinPath dir (hexOf id))
          · simp [hd, kvsStore, he, fileKvs, filePut, Disk.writeFile, wrapErr]
          · simp only [hd, Bool.false_eq_true, if_false]
            exact ⟨trivial, by omega, by simp⟩
      | writing off =>
        cases a with
        | fail => exact ⟨_, rfl, trivial⟩
        | go n =>
          obtain ⟨hd, hle, hs⟩ := h2
          refine ⟨_, rfl, ?_⟩
          simp only [callStep, storeStep, he]
          by_cases ho : off < (entryText e).length
          · simp only [if_pos ho]
            have hwl : (((entryText e).drop off).take n).length ≤ (entryText e).length - off := by simp
            refine ⟨hd, by omega, ?_⟩
            rw [hs]
            simp only [Disk.set, if_true, Option.getD_some, Disk.mk.injEq, and_true]
            funext q
            by_cases hq : q = joinPath dir (hexOf id)
            · simp only [hq, if_true, Option.some.injEq]
              exact overlay_self _ off n hle
            · simp only [hq, if_false]
          · simp only [if_neg ho]
            rw [List.take_of_length_le (by omega)] at hs
            simp [kvsStore, he, fileKvs, filePut, Disk.writeFile, hd, wrapErr, hs]
  · have hrun := (run_induction dir [.store k] (fun s : KSys B => ∃ st, s.calls = [⟨.store k, st⟩] ∧ s.disk = d ∧
      match st with
      | .stored r => r = .err m
      | _ => True) d ⟨.start, rfl, rfl, trivial⟩ ?_ sched).1
    · obtain ⟨st, h1, h2, h3⟩ := hrun
      rw [hr] at h1
      cases h1
      simp only at h3
      rw [h2, h3]
      simp [kvsStore, he]
    · rintro s i c a ⟨st, h1, h2, h3⟩ - hdir hc -
      have hi : i = 0 ∧ c = ⟨.store k, st⟩ := by
        rw [h1] at hc
        cases i with
        | zero => cases hc; exact ⟨rfl, rfl⟩
        | succ i => cases hc
      obtain ⟨rfl, rfl⟩ := hi
      rw [h1]
      cases st <;> cases a <;> simp only [callStep, storeStep, he] <;> first
        | exact ⟨_, rfl, h2, trivial⟩
        | exact ⟨_, rfl, h2, rfl⟩
        | exact ⟨_, rfl, h2, h3⟩

/-! ## Calls on one identifier -/

theorem overlay_length (c : Bytes) (off : Nat) (w : Bytes) (hw : w ≠ []) :
    (overlay c off w).length = max c.length (off + w.length) := by
  unfold overlay
  rw [if_neg hw]
  simp only [List.length_append, List.length_take, List.length_replicate, List.length_drop]
  omega

theorem overlay_get (c : Bytes) (off : Nat) (w : Bytes) (hw : w ≠ []) (i : Nat) :
    (overlay c off w)[i]? =
      if i < off then (if i < c.length then c[i]? else some 0)
      else if i < off + w.length then w[i - off]? else c[i]? := by
  unfold overlay
  rw [if_neg hw]
  by_cases h1 : i < off
  · rw [if_pos h1]
    by_cases h2 : i < c.length
    · rw [if_pos h2, List.getElem?_append_left (by simp; omega), List.getElem?_take_of_lt h1]
    · rw [if_neg h2, List.getElem?_append_right (by simp; omega), List.getElem?_append_left (by simp; omega),
        List.getElem?_replicate, if_pos (by simp; omega)]
  · rw [if_neg h1]
    by_cases h2 : i < off + w.length
    · rw [if_pos h2, List.getElem?_append_right (by simp; omega), List.getElem?_append_right (by simp; omega),
        List.getElem?_append_left (by simp; omega)]
      congr 1
      simp only [List.length_take, List.length_replicate]
      omega
    · rw [if_neg h2, List.getElem?_append_right (by simp; omega), List.getElem?_append_right (by simp; omega),
        List.getElem?_append_right (by simp; omega), List.getElem?_drop]
      congr 1
      simp only [List.length_take, List.length_replicate]
      omega

/-- At most the bytes of `t`, each either right or zero. -/
def Weak (t c : Bytes) : Prop := c.length ≤ t.length ∧ ∀ i, i < c.length → c[i]? = t[i]? ∨ c[i]? = some 0

theorem weak_prefix {t c : Bytes} (h : c <+: t) : Weak t c := by
  obtain ⟨x, rfl⟩ := h
  exact ⟨by simp, fun i hi => .inl (by rw [List.getElem?_append_left hi])⟩

theorem weak_cases {t c : Bytes} (h : Weak t c) : c <+: t ∨ (0 : UInt8) ∈ c := by
  by_cases h0 : (0 : UInt8) ∈ c
  · exact .inr h0
  · left
    rw [List.prefix_iff_eq_take]
    apply List.ext_getElem?
    intro i
    by_cases hi : i < c.length
    · rw [List.getElem?_take_of_lt hi]
      rcases h.2 i hi with h' | h'
      · exact h'
      · exact absurd (List.mem_of_getElem? h') h0
    · rw [List.getElem?_eq_none (by omega), List.getElem?_eq_none (by simp; omega)]

theorem chunk_get (t : Bytes) (off n i : Nat) (h1 : off ≤ i) (h2 : i < off + ((t.drop off).take n).length) :
    ((t.drop off).take n)[i - off]? = t[i]? := by
  rw [List.length_take, List.length_drop] at h2
  rw [List.getElem?_take_of_lt (by omega), List.getElem?_drop]
  congr 1
  omega

theorem weak_overlay {t c : Bytes} (off n : Nat) (h : Weak t c) : Weak t (overlay c off ((t.drop off).take n)) := by
  by_cases hw : (t.drop off).take n = []
  · rw [overlay, if_pos hw]; exact h
  · have hl : ((t.drop off).take n).length ≠ 0 := fun h0 => hw (List.eq_nil_of_length_eq_zero h0)
    have hl2 : ((t.drop off).take n).length ≤ t.length - off := by simp
    refine ⟨?_, ?_⟩
    · rw [overlay_length _ _ _ hw]
      have := h.1
      omega
    · intro i hi
      rw [overlay_get _ _ _ hw]
      by_cases h1 : i < off
      · rw [if_pos h1]
        by_cases h2 : i < c.length
        · rw [if_pos h2]; exact h.2 i h2
        · rw [if_neg h2]; exact .inr rfl
      · rw [if_neg h1]
        by_cases h2 : i < off + ((t.drop off).take n).length
        · rw [if_pos h2]
          exact .inl (chunk_get t off n i (by omega) h2)
        · rw [if_neg h2]
          rw [overlay_length _ _ _ hw] at hi
          exact h.2 i (by omega)

/-- Overlaying a piece of `t` in its place keeps what is right already. -/
theorem overlay_take {t c : Bytes} (off n m : Nat) (h : t.take m <+: c) :
    t.take m <+: overlay c off ((t.drop off).take n) := by
  by_cases hw : (t.drop off).take n = []
  · rw [overlay, if_pos hw]; exact h
  · have hml := h.length_le
    rw [List.prefix_iff_getElem?] at h ⊢
    intro i hi
    have h' := h i hi
    have hic : i < c.length := by omega
    rw [overlay_get _ _ _ hw]
    by_cases h1 : i < off
    · rw [if_pos h1, if_pos hic]; exact h'
    · rw [if_neg h1]
      by_cases h2 : i < off + ((t.drop off).take n).length
      · rw [if_pos h2, chunk_get t off n i (by omega) h2]
        rw [List.length_take] at hi
        rw [← List.getElem?_eq_getElem, List.getElem?_take_of_lt (by omega)]
      · rw [if_neg h2]; exact h'

/-- The writer that has written the first `off` bytes and writes on. -/
theorem overlay_extend {t c : Bytes} (off n : Nat) (h : t.take off <+: c) (ho : off ≤ t.length) :
    t.take (off + ((t.drop off).take n).length) <+: overlay c off ((t.drop off).take n) := by
  by_cases hw : (t.drop off).take n = []
  · rw [overlay, if_pos hw, hw]; exact h
  · have hml := h.length_le
    rw [List.length_take] at hml
    rw [List.prefix_iff_getElem?] at h ⊢
    intro i hi
    have hr : some (t.take (off + ((t.drop off).take n).length))[i] = t[i]? := by
      rw [← List.getElem?_eq_getElem, List.getElem?_take_of_lt]
      rw [List.length_take] at hi
      omega
    rw [List.length_take] at hi
    rw [hr, overlay_get _ _ _ hw]
    by_cases h1 : i < off
    · rw [if_pos h1, if_pos (by omega), h i (by rw [List.length_take]; omega), ← List.getElem?_eq_getElem,
        List.getElem?_take_of_lt h1]
    · rw [if_neg h1, if_pos (by omega)]
      exact chunk_get t off n i (by omega) (by omega)

namespace Spec

/-- The file of a key is absent, or holds the complete text of the key. -/
def AbsentOrWhole (dir : Bytes) (d : Disk) (k : Key B) : Prop :=
  ∀ id e, entryOf B k = .ok (id, e) →
    d.file (joinPath dir id) = none ∨ d.file (joinPath dir id) = some (entryText e)

end Spec

theorem lookResult_weak {k : Key B} {e : Entry} (hk : keyOfEntry B e = .ok k) {c : Bytes}
    (h : Weak (entryText e) c) : lookResult (B := B) c = .ok k ∨ ∃ m, lookResult (B := B) c = .err m := by
  rcases weak_cases h with hp | h0
  · by_cases he : c = entryText e
    · left
      simp [lookResult, he, jsonEntry_text, wrapErr, hk]
    · right
      obtain ⟨m, hm⟩ := jsonEntry_prefix e c hp he
      exact ⟨_, by simp [lookResult, hm, wrapErr]; rfl⟩
  · right
    obtain ⟨m, hm⟩ := jsonEntry_nul c h0
    exact ⟨_, by simp [lookResult, hm, wrapErr]; rfl⟩

/-- C70. While all keys that are stored under an identifier are the same key, by any number of calls at the same time,
in any interleaving and with any failures and crashes, a look-up returns that key or an error: never another key. -/
theorem C70_never_wrong_partial (d : Disk) (ops : List (KOp B)) (sched : List (Nat × KAct))
    (k : Key B) (ski : Bytes) (hid : storageId k = some ski) (hd : AbsentOrWhole dir d k)
    (hops : ∀ k', KOp.store k' ∈ ops → storageId k' = some ski → k' = k) (i : Nat) (r : Res (Key B))
    (hr : (runCalls dir d ops sched).calls[i]? = some ⟨.look ski, .looked r⟩) :
    r = .ok k ∨ ∃ m, r = .err m := by
  obtain ⟨e, he, hke⟩ : ∃ e, entryOf B k = .ok (hexOf ski, e) ∧ keyOfEntry B e = .ok k := by
    rcases entryOf_eq k with ⟨id, e, h1, h2, h3⟩ | ⟨h1, -⟩
    · rw [hid] at h1; cases h1; exact ⟨e, h2, h3⟩
    · rw [hid] at h1; cases h1
  have := (run_induction dir ops (fun s =>
    (∀ c, s.disk.file (joinPath dir (hexOf ski)) = some c → Weak (entryText e) c) ∧
    ∀ i st, s.calls[i]? = some ⟨.look ski, st⟩ →
      match st with
      | .reading acc => Weak (entryText e) acc
      | .looked r => r = .ok k ∨ ∃ m, r = .err m
      | _ => True) d ?_ ?_ sched).1.2 i _ hr
  · exact this
  · refine ⟨?_, ?_⟩
    · intro c hc
      rcases hd _ _ he with h | h
      · rw [h] at hc; cases hc
      · rw [h] at hc; cases hc; exact weak_prefix (List.prefix_refl _)
    · intro i st h
      simp only [List.getElem?_map, Option.map_eq_some_iff] at h
      obtain ⟨o, -, h⟩ := h
      cases h
      trivial
  · rintro s i c a ⟨h1, h2⟩ - h3 hc hmem
    refine ⟨?_, ?_⟩
    · by_cases hcon : ∃ k', c.op = .store k' ∧ storageId k' = some ski
      · obtain ⟨k', hk', hs'⟩ := hcon
        have : k' = k := hops k' (hk' ▸ hmem) hs'
        subst this
        obtain ⟨op, st0⟩ := c
        simp only at hk'
        subst hk'
        intro x hx
        cases st0 with
        | stored r => exact h1 x hx
        | looked r => exact h1 x hx
        | failed => exact h1 x hx
        | reading acc =>
          cases a with
          | fail => exact h1 x hx
          | go n => simp only [callStep, storeStep, he] at hx; exact h1 x hx
        | start =>
          cases a with
          | fail => exact h1 x hx
          | go n =>
            simp only [callStep, storeStep, he] at hx
            split at hx
            · exact h1 x hx
            · simp only [Disk.set, if_true, Option.some.injEq] at hx
              subst hx
              exact weak_prefix List.nil_prefix
        | writing off =>
          cases a with
          | fail => exact h1 x hx
          | go n =>
            simp only [callStep, storeStep, he] at hx
            split at hx
            · simp only [Disk.set, if_true, Option.some.injEq] at hx
              subst hx
              apply weak_overlay
              cases hf : s.disk.file (joinPath dir (hexOf ski)) with
              | none => exact weak_prefix List.nil_prefix
              | some y => exact h1 y hf
            · exact h1 x hx
      · simp only
        rw [callStep_other dir s.disk c a ski (fun k' hk' hs' => hcon ⟨k', hk', hs'⟩)]
        exact h1
    · intro j st hj
      rcases set_calls hj with ⟨rfl, hx⟩ | ⟨-, hx⟩
      · have hop : c.op = .look ski := by
          rw [← callStep_op dir s.disk c a, ← hx]
        obtain ⟨op, st0⟩ := c
        simp only at hop
        subst hop
        have hold := h2 j st0 hc
        have hst : st = (callStep dir s.disk ⟨.look ski, st0⟩ a).2.st := by rw [← hx]
        cases st0 with
        | stored r => subst hst; trivial
        | looked r => subst hst; exact hold
        | failed => subst hst; trivial
        | writing off => cases a <;> (subst hst; trivial)
        | start =>
          cases a with
          | fail => subst hst; trivial
          | go n =>
            simp only [callStep, lookStep] at hst
            split at hst
            · subst hst; exact .inr ⟨_, rfl⟩
            · split at hst
              · subst hst; exact .inr ⟨_, rfl⟩
              · subst hst; exact weak_prefix List.nil_prefix
        | reading acc =>
          cases a with
          | fail => subst hst; trivial
          | go n =>
            simp only [callStep, lookStep] at hst
            have hw : Weak (entryText e) ((s.disk.file (joinPath dir (hexOf ski))).getD []) := by
              cases hf : s.disk.file (joinPath dir (hexOf ski)) with
              | none => exact weak_prefix List.nil_prefix
              | some y => exact h1 y hf
            generalize (s.disk.file (joinPath dir (hexOf ski))).getD [] = b at hst hw
            split at hst
            · next hlt =>
              subst hst
              refine ⟨?_, ?_⟩
              · simp only [List.length_append, List.length_take, List.length_drop]
                have := hw.1
                omega
              · intro i hi
                simp only [List.length_append, List.length_take, List.length_drop] at hi
                by_cases hia : i < acc.length
                · rw [List.getElem?_append_left hia]
                  exact hold.2 i hia
                · rw [List.getElem?_append_right (by omega), List.getElem?_take_of_lt (by omega), List.getElem?_drop]
                  have : acc.length + (i - acc.length) = i := by omega
                  rw [this]
                  exact hw.2 i (by omega)
            · subst hst
              exact lookResult_weak hke hold
      · exact h2 j st hx

/-- The state of the calls that store the key `k` with the entry `e`: none has opened the file, or one of them owns a
correct beginning of the file, or the file is complete, or one of them has failed. -/
def Settling (dir : Bytes) (k : Key B) (e : Entry) (ski : Bytes) (s : KSys B) : Prop :=
  (∀ (i : Nat) (st : KSt B), s.calls[i]? = some ⟨.store k, st⟩ →
    match st with
    | .writing off => off ≤ (entryText e).length
    | .stored r => r = .ok ()
    | _ => True) ∧
  ((∀ (i : Nat) (st : KSt B), s.calls[i]? = some ⟨.store k, st⟩ → st = .start ∨ st = .failed) ∨
    ∃ c, s.disk.file (joinPath dir (hexOf ski)) = some c ∧ c.length ≤ (entryText e).length ∧
      (c = entryText e ∨
        (∃ j off : Nat, s.calls[j]? = some ⟨.store k, .writing off⟩ ∧ (entryText e).take off <+: c) ∨
        ∃ j : Nat, s.calls[j]? = some ⟨.store k, .failed⟩))

/-- C70. When several calls store the same key at the same time, in any interleaving, then once all of them have
returned, each of them without a failing system call, each has reported success and the key is read back; whatever
the file held before. -/
theorem C70_settled_partial (d : Disk) (ops : List (KOp B)) (sched : List (Nat × KAct)) (k : Key B) (ski : Bytes)
    (hid : storageId k = some ski) (hfree : Free dir d ski)
    (hops : ∀ k', KOp.store k' ∈ ops → storageId k' = some ski → k' = k) (hk : KOp.store k ∈ ops)
    (hdone : ∀ c ∈ (runCalls dir d ops sched).calls, c.op = .store k → ∃ r, c.st = .stored r) :
    (∀ c ∈ (runCalls dir d ops sched).calls, c.op = .store k → c.st = .stored (.ok ())) ∧
    (kvsStore B (fileKvs dir)).get (runCalls dir d ops sched).disk ski = .ok k := by
  obtain ⟨e, he, hke⟩ : ∃ e, entryOf B k = .ok (hexOf ski, e) ∧ keyOfEntry B e = .ok k := by
    rcases entryOf_eq k with ⟨id, e, h1, h2, h3⟩ | ⟨h1, -⟩
    · rw [hid] at h1; cases h1; exact ⟨e, h2, h3⟩
    · rw [hid] at h1; cases h1
  have hrun := run_induction dir ops (Settling dir k e ski) d ?_ ?_ sched
  · obtain ⟨⟨hres, hinv⟩, hmap, hdir⟩ := hrun
    generalize runCalls dir d ops sched = s at *
    have h1 : ∀ c ∈ s.calls, c.op = .store k → c.st = .stored (.ok ()) := by
      rintro ⟨op, st⟩ hc hop
      obtain ⟨i, hi⟩ := List.getElem?_of_mem hc
      obtain ⟨r, hr⟩ := hdone _ hc hop
      simp only at hop hr
      subst hop
      subst hr
      have := hres i _ hi
      simp only at this
      rw [this]
    refine ⟨h1, ?_⟩
    obtain ⟨c, hc, hop⟩ : ∃ c ∈ s.calls, c.op = .store k := by
      rw [← hmap] at hk
      exact List.mem_map.mp hk
    have hfin : ∀ (j : Nat) (st : KSt B), s.calls[j]? = some ⟨.store k, st⟩ → st = .stored (.ok ()) :=
      fun j st hj => h1 _ (List.mem_of_getElem? hj) rfl
    rcases hinv with hall | ⟨x, hx, hlen, h | ⟨j, off, hj, -⟩ | ⟨j, hj⟩⟩
    · obtain ⟨op, st⟩ := c
      simp only at hop
      subst hop
      obtain ⟨i, hi⟩ := List.getElem?_of_mem hc
      have e1 := hfin i st hi
      rcases hall i st hi with h | h <;> rw [h] at e1 <;> cases e1
    · subst h
      have hf : s.disk.isDir (joinPath dir (hexOf ski)) = false := by rw [hdir]; exact hfree
      simp only [kvsStore, fileKvs, fileGet, Disk.readFile, hf, hx, Bool.false_eq_true, if_false, Res.ofOption_some, wrapErr, Res.ok_bind,
        jsonEntry_text, hke]
    · cases hfin j _ hj
    · cases hfin j _ hj
  · refine ⟨?_, .inl ?_⟩
    · intro i st h
      simp only [List.getElem?_map, Option.map_eq_some_iff] at h
      obtain ⟨o, -, h⟩ := h
      cases h
      trivial
    · intro i st h
      simp only [List.getElem?_map, Option.map_eq_some_iff] at h
      obtain ⟨o, -, h⟩ := h
      cases h
      exact .inl rfl
  · rintro s i c a ⟨h1, h2⟩ - h3 hc hmem
    have hlt : i < s.calls.length := (List.getElem?_eq_some_iff.mp hc).1
    have hfree' : s.disk.isDir (joinPath dir (hexOf ski)) = false := by rw [h3]; exact hfree
    by_cases hck : c.op = .store k
    swap
    · -- another call: the file and the calls that store `k` stay as they are
      have hfile : (callStep dir s.disk c a).1.file (joinPath dir (hexOf ski)) = s.disk.file (joinPath dir (hexOf ski)) :=
        callStep_other dir s.disk c a ski
          (fun k' hk' hs' => hck (by rw [hk', hops k' (hk' ▸ hmem) hs']))
      have hsame : ∀ (j : Nat) (st : KSt B), (s.calls.set i (callStep dir s.disk c a).2)[j]? = some ⟨.store k, st⟩ ↔
          s.calls[j]? = some ⟨.store k, st⟩ := by
        intro j st
        rw [List.getElem?_set]
        split
        · next hij =>
          subst hij
          rw [hc]
          constructor
          · intro h
            refine absurd ?_ hck
            rw [← callStep_op dir s.disk c a, Option.some.inj h]
          · intro h
            refine absurd ?_ hck
            rw [Option.some.inj h]
        · rfl
      refine ⟨fun j st hj => h1 j st ((hsame j st).mp hj), ?_⟩
      rcases h2 with h2 | ⟨x, hx, hl, h⟩
      · exact .inl fun j st hj => h2 j st ((hsame j st).mp hj)
      · refine .inr ⟨x, hfile.trans hx, hl, ?_⟩
        rcases h with h | ⟨j, off, hj, hp⟩ | ⟨j, hj⟩
        · exact .inl h
        · exact .inr (.inl ⟨j, off, (hsame _ _).mpr hj, hp⟩)
        · exact .inr (.inr ⟨j, (hsame _ _).mpr hj⟩)
    · obtain ⟨op, st0⟩ := c
      simp only at hck
      subst hck
      -- a step that changes nothing
      have nothing : ∀ (x : Disk × KCall B), x = (s.disk, ⟨.store k, st0⟩) →
          Settling dir k e ski ⟨x.1, s.calls.set i x.2⟩ := by
        rintro x rfl
        have hset : s.calls.set i ⟨.store k, st0⟩ = s.calls := by
          apply List.ext_getElem?
          intro j
          rw [List.getElem?_set]
          split
          · next hij => subst hij; exact hc.symm
          · rfl
        simp only [hset]
        exact ⟨h1, h2⟩
      -- the states after a step
      have upd : ∀ (st' : KSt B) (P : KSt B → Prop), P st' → (∀ (j : Nat) (st : KSt B), s.calls[j]? = some ⟨.store k, st⟩ → P st) →
          ∀ (j : Nat) (st : KSt B), (s.calls.set i ⟨.store k, st'⟩)[j]? = some ⟨.store k, st⟩ → P st := by
        intro st' P hP hall j st hj
        rcases set_calls hj with ⟨-, hx⟩ | ⟨-, hx⟩
        · cases hx; exact hP
        · exact hall j st hx
      have self : ∀ c' : KCall B, (s.calls.set i c')[i]? = some c' := by
        intro c'
        rw [List.getElem?_set, if_pos rfl, if_pos hlt]
      have keep : ∀ (c' : KCall B) (j : Nat) (st : KSt B), j ≠ i → s.calls[j]? = some ⟨.store k, st⟩ →
          (s.calls.set i c')[j]? = some ⟨.store k, st⟩ := by
        intro c' j st hji hj
        rw [List.getElem?_set, if_neg (Ne.symm hji)]
        exact hj
      have hgood := h1 i st0 hc
      cases st0 with
      | stored r => exact nothing _ rfl
      | looked r => exact nothing _ rfl
      | failed => exact nothing _ rfl
      | reading acc =>
        cases a with
        | fail =>
          simp only [callStep]
          refine ⟨upd _ _ trivial h1, ?_⟩
          rcases h2 with h2 | ⟨x, hx, hl, h⟩
          · exact .inl (upd _ (fun st => st = .start ∨ st = .failed) (.inr rfl) h2)
          · exact .inr ⟨x, hx, hl, .inr (.inr ⟨i, self _⟩)⟩
        | go n =>
          exact nothing _ (by simp only [callStep, storeStep, he])
      | start =>
        cases a with
        | fail =>
          simp only [callStep]
          refine ⟨upd _ _ trivial h1, ?_⟩
          rcases h2 with h2 | ⟨x, hx, hl, h⟩
          · exact .inl (upd _ (fun st => st = .start ∨ st = .failed) (.inr rfl) h2)
          · exact .inr ⟨x, hx, hl, .inr (.inr ⟨i, self _⟩)⟩
        | go n =>
          simp only [callStep, storeStep, he, hfree', Bool.false_eq_true, if_false]
          refine ⟨upd _ _ (Nat.zero_le _) h1, .inr ⟨[], by simp [Disk.set], by simp, .inr (.inl ⟨i, 0, self _, by simp⟩)⟩⟩
      | writing off =>
        -- the file has been opened
        have hopen : ∃ x, s.disk.file (joinPath dir (hexOf ski)) = some x ∧ x.length ≤ (entryText e).length ∧
            (x = entryText e ∨ (∃ j off : Nat, s.calls[j]? = some ⟨.store k, .writing off⟩ ∧
              (entryText e).take off <+: x) ∨ ∃ j : Nat, s.calls[j]? = some ⟨.store k, .failed⟩) := by
          rcases h2 with h2 | h2
          · rcases h2 i _ hc with h | h <;> cases h
          · exact h2
        obtain ⟨x, hx, hl, h⟩ := hopen
        cases a with
        | fail =>
          simp only [callStep]
          exact ⟨upd _ _ trivial h1, .inr ⟨x, hx, hl, .inr (.inr ⟨i, self _⟩)⟩⟩
        | go n =>
          simp only at hgood
          by_cases ho : off < (entryText e).length
          · simp only [callStep, storeStep, he, if_pos ho, hx, Option.getD_some]
            have hwl : (((entryText e).drop off).take n).length ≤ (entryText e).length - off := by simp
            refine ⟨upd _ _ ?_ h1, .inr ⟨overlay x off (((entryText e).drop off).take n), by simp only [Disk.set, if_true], ?_, ?_⟩⟩
            · simp only
              omega
            · by_cases hw : ((entryText e).drop off).take n = []
              · rw [overlay, if_pos hw]; exact hl
              · rw [overlay_length _ _ _ hw]; omega
            · rcases h with h | ⟨j, off', hj, hp⟩ | ⟨j, hj⟩
              · left
                have hpre : (entryText e).take (entryText e).length <+:
                    overlay x off (((entryText e).drop off).take n) := overlay_take off n _ (by rw [h, List.take_length])
                rw [List.take_length] at hpre
                refine (hpre.eq_of_length_le ?_).symm
                by_cases hw : ((entryText e).drop off).take n = []
                · rw [overlay, if_pos hw]; exact hl
                · rw [overlay_length _ _ _ hw]; omega
              · by_cases hji : j = i
                · subst hji
                  rw [hc] at hj
                  cases hj
                  exact .inr (.inl ⟨j, _, self _, overlay_extend off n hp hgood⟩)
                · exact .inr (.inl ⟨j, off', keep _ j _ hji hj, overlay_take off n off' hp⟩)
              · have hji : j ≠ i := by
                  rintro rfl
                  rw [hc] at hj
                  cases hj
                exact .inr (.inr ⟨j, keep _ j _ hji hj⟩)
          · simp only [callStep, storeStep, he, if_neg ho]
            refine ⟨upd _ _ rfl h1, .inr ⟨x, hx, hl, ?_⟩⟩
            rcases h with h | ⟨j, off', hj, hp⟩ | ⟨j, hj⟩
            · exact .inl h
            · by_cases hji : j = i
              · subst hji
                rw [hc] at hj
                cases hj
                left
                rw [List.take_of_length_le (by omega)] at hp
                exact (hp.eq_of_length_le hl).symm
              · exact .inr (.inl ⟨j, off', keep _ j _ hji hj, hp⟩)
            · have hji : j ≠ i := by
                rintro rfl
                rw [hc] at hj
                cases hj
              exact .inr (.inr ⟨j, keep _ j _ hji hj⟩)

/-! ## Violations -/

/-- C70, violated. While a key that is in the store is stored once more (a second import of the same key, say), a
look-up at the same time can fail, although the key is found before and after: the new store empties the file first.
This holds for every key and every disk. -/
theorem C70_lookup_violated (d : Disk) (k : Key B) (ski : Bytes) (hid : storageId k = some ski)
    (hfree : Free dir d ski) :
    ∃ sched, ∃ m,
      let d1 := ((kvsStore B (fileKvs dir)).store d k).1
      let s := runCalls dir d1 [KOp.store k, KOp.look ski] sched
      (kvsStore B (fileKvs dir)).get d1 ski = .ok k ∧
      s.calls = [⟨.store k, .stored (.ok ())⟩, ⟨.look ski, .looked (.err m)⟩] ∧
      (kvsStore B (fileKvs dir)).get s.disk ski = .ok k := by
  obtain ⟨e, he, hke⟩ : ∃ e, entryOf B k = .ok (hexOf ski, e) ∧ keyOfEntry B e = .ok k := by
    rcases entryOf_eq k with ⟨id, e, h1, h2, h3⟩ | ⟨h1, -⟩
    · rw [hid] at h1; cases h1; exact ⟨e, h2, h3⟩
    · rw [hid] at h1; cases h1
  obtain ⟨m, hm⟩ := jsonEntry_prefix e [] List.nil_prefix (Ne.symm (entryText_ne e))
  have hpos : 0 < (entryText e).length := by
    have := entryText_ne e
    cases h : entryText e with
    | nil => exact absurd h this
    | cons a l => simp
  have hd1 : ((kvsStore B (fileKvs dir)).store d k).1 = d.set (joinPath dir (hexOf ski)) (entryText e) := by
    have : d.isDir (joinPath dir (hexOf ski)) = false := hfree
    simp [kvsStore, he, fileKvs, filePut, Disk.writeFile, this]
  refine ⟨[(0, .go 0), (1, .go 0), (1, .go 0), (0, .go (entryText e).length), (0, .go 0)], "could not get key from kvs", ?_⟩
  have hf : d.isDir (joinPath dir (hexOf ski)) = false := hfree
  have hov : overlay [] 0 (entryText e) = entryText e := by
    simp [overlay, entryText_ne e]
  have hrun : runCalls dir (d.set (joinPath dir (hexOf ski)) (entryText e)) [KOp.store k, KOp.look ski]
      [(0, .go 0), (1, .go 0), (1, .go 0), (0, .go (entryText e).length), (0, .go 0)] =
      ⟨((d.set (joinPath dir (hexOf ski)) (entryText e)).set (joinPath dir (hexOf ski)) []).set
        (joinPath dir (hexOf ski)) (entryText e), [⟨.store k, .stored (.ok ())⟩,
        ⟨.look ski, .looked (.err "could not get key from kvs")⟩]⟩ := by
    simp [runCalls, sysStep, callStep, storeStep, lookStep, he, Disk.set, hf, hpos, lookResult, hm, wrapErr, hov]
  simp only [hd1, hrun]
  refine ⟨?_, trivial, ?_⟩
  · simp only [kvsStore, fileKvs, fileGet_set dir d (hexOf ski) e hf]
    exact hke
  · simp only [kvsStore, fileKvs]
    rw [fileGet_set dir ((d.set _ (entryText e)).set _ []) (hexOf ski) e hf]
    exact hke

/-- C70, violated. Two providers with the same directory, one of which makes exportable keys, store the same user
secret at the same time. Both report success, and the file is left with one byte too many: it holds the text of the
exportable key followed by a brace, which is not JSON, and the secret cannot be read any more. -/
theorem C70_settled_violated (d : Disk) (sk : S.F) (ski : Bytes)
    (hid : storageId (Key.userSk sk true : Key B) = some ski) (hfree : Free dir d ski) :
    ∃ sched, ∃ m,
      let s := runCalls dir d [KOp.store (.userSk sk true : Key B), KOp.store (.userSk sk false)] sched
      s.calls = [⟨.store (.userSk sk true), .stored (.ok ())⟩, ⟨.store (.userSk sk false), .stored (.ok ())⟩] ∧
      (kvsStore B (fileKvs dir)).get s.disk ski = .err m := by
  have hid' : B.dsa.sha256 (S.zrBytes sk) = ski := by simpa [storageId] using hid
  have he : ∀ x, entryOf B (Key.userSk sk x : Key B) = .ok (hexOf ski, { user := some ⟨S.zrBytes sk, x⟩ }) := by
    intro x
    rw [← hid']
    rfl
  have hf : d.isDir (joinPath dir (hexOf ski)) = false := hfree
  generalize ht1 : entryText { user := some ⟨S.zrBytes sk, true⟩ } = t1
  generalize ht2 : entryText { user := some ⟨S.zrBytes sk, false⟩ } = t2
  obtain ⟨m, hm⟩ := jsonEntry_more { user := some ⟨S.zrBytes sk, true⟩ } (ascii "}") (by decide)
  rw [ht1] at hm
  have hlen : t2.length = t1.length + 1 := by
    rw [← ht1, ← ht2]
    simp [entryText, userText, jsonBool, ascii]
  have hn1 : t1 ≠ [] := by rw [← ht1]; exact entryText_ne _
  have hn2 : t2 ≠ [] := by rw [← ht2]; exact entryText_ne _
  have hp1 : 0 < t1.length := List.length_pos_of_ne_nil hn1
  have hov2 : overlay [] 0 t2 = t2 := by simp [overlay, hn2]
  have hlast : t2.drop t1.length = ascii "}" := by
    obtain ⟨l, hl⟩ : ∃ l, t2 = l ++ ascii "}" := by
      refine ⟨ascii "{\"UserSecretKey\":" ++ (ascii "{\"Sk\":" ++ (jsonBytes (S.zrBytes sk) ++
        (ascii ",\"Exportable\":" ++ (jsonBool false ++ ascii "}")))), ?_⟩
      rw [← ht2]
      simp [entryText, userText]
    have : l.length = t1.length := by
      rw [hl] at hlen
      simpa [ascii] using hlen
    rw [hl, ← this, List.drop_left]
  have hov1 : overlay t2 0 t1 = t1 ++ ascii "}" := by
    simp [overlay, hn1, hlast]
  refine ⟨[(0, .go 0), (1, .go 0), (1, .go t2.length), (1, .go 0), (0, .go t1.length), (0, .go 0)],
    "could not get key from kvs", ?_⟩
  have hrun : runCalls dir d [KOp.store (.userSk sk true : Key B), KOp.store (.userSk sk false)]
      [(0, .go 0), (1, .go 0), (1, .go t2.length), (1, .go 0), (0, .go t1.length), (0, .go 0)] =
      ⟨(((d.set (joinPath dir (hexOf ski)) []).set (joinPath dir (hexOf ski)) []).set (joinPath dir (hexOf ski)) t2).set
        (joinPath dir (hexOf ski)) (t1 ++ ascii "}"),
        [⟨.store (.userSk sk true), .stored (.ok ())⟩, ⟨.store (.userSk sk false), .stored (.ok ())⟩]⟩ := by
    have hp2 : 0 < t2.length := by omega
    simp [runCalls, sysStep, callStep, storeStep, he, Disk.set, hf, ht1, ht2, hp1, hp2, hov1, hov2]
  simp only [hrun]
  refine ⟨trivial, ?_⟩
  simp [kvsStore, fileKvs, fileGet, Disk.readFile, Disk.set, hf, hm, wrapErr]

end Idemix.Provider
