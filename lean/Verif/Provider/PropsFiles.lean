import Verif.Dlog.Translator
import Verif.Provider.PropsStore

/-!
# C77 Key files that the store did not write

`GetKey` is documented to return "a key object whose SKI is the one passed" (`kvsbased.go:60`). Here the contents of the
store directory are arbitrary: files can have been copied, renamed, edited or damaged.
-/

namespace Idemix.Provider

open Spec

variable {S : Suite} {B : Backend S} (dir : Bytes)

namespace Spec

/-- Every key that can be read from the directory is under its own identifier. -/
def OwnNames (dir : Bytes) (B : Backend S) (d : Disk) : Prop :=
  ∀ ski k, (kvsStore B (fileKvs dir)).get d ski = .ok k → storageId k = some ski

/-- The file of one identifier copied to that of another. -/
def copied (dir : Bytes) (d : Disk) (src dst : Bytes) : Disk :=
  { d with file := fun q => if q = joinPath dir (hexOf dst) then d.file (joinPath dir (hexOf src)) else d.file q }

/-- A file with the given contents. -/
def holding (dir : Bytes) (d : Disk) (ski contents : Bytes) : Disk := d.set (joinPath dir (hexOf ski)) contents

end Spec

/-- C77. Whatever the files contain, a look-up returns a key or an error, except when the file describes a pseudonym
on whose point decoding panics. -/
theorem C77_panic_exact (d : Disk) (ski : Bytes) :
    (kvsStore B (fileKvs dir)).get d ski = .panic ↔
      ∃ b e n, d.readFile (joinPath dir (hexOf ski)) = .ok b ∧ jsonEntry b = .ok e ∧ e.nym = some n ∧
        B.T.g1FromProto n.pk = .panic := by
  have hw : ∀ {α : Type} (m : String) (x : Res α), wrapErr m x = .panic ↔ x = .panic := by
    intro α m x
    cases x <;> simp [wrapErr]
  have hr : d.readFile (joinPath dir (hexOf ski)) ≠ .panic := by
    unfold Disk.readFile
    split
    · simp
    · cases d.file (joinPath dir (hexOf ski)) <;> simp [Res.ofOption]
  simp only [kvsStore, fileKvs, fileGet]
  cases hf : d.readFile (joinPath dir (hexOf ski)) with
  | panic => exact absurd hf hr
  | err m => simp [wrapErr]
  | ok b =>
    simp only [wrapErr, Res.ok_bind]
    cases hj : jsonEntry b with
    | panic => exact absurd hj (jsonEntry_ne_panic b)
    | err m => simp [hj]
    | ok e =>
      simp only [Res.ok_bind, Res.ok.injEq, exists_and_left, exists_eq_left', hj]
      rcases e with ⟨_ | n, _ | u⟩
      · simp [keyOfEntry]
      · simp [keyOfEntry]
      all_goals
        simp only [keyOfEntry, Option.some.injEq, exists_eq_left']
        cases B.T.g1FromProto n.pk <;> simp

/-- C77. With the translators for FP256BN no file makes a look-up panic. -/
theorem C77_no_panic_partial (c : Nat)
    (hT : (∃ L, B.T = Dlog.fp256bn c L) ∨ ∃ L, B.T = Dlog.fp256bnMiracl c L) (d : Disk) (ski : Bytes) :
    (kvsStore B (fileKvs dir)).get d ski ≠ .panic := by
  intro h
  obtain ⟨b, e, n, -, -, -, hp⟩ := (C77_panic_exact dir d ski).mp h
  have key : ∀ pk, Dlog.Fp256bn.g1FromProto S c pk ≠ .panic := by
    rintro (_ | p)
    · simp [Dlog.Fp256bn.g1FromProto]
    · simp only [Dlog.Fp256bn.g1FromProto]
      split
      · simp
      · cases S.g1OfBytes (4 :: (p.x ++ p.y)) <;> simp [Res.ofOption]
  rcases hT with ⟨L, hT⟩ | ⟨L, hT⟩
  · rw [hT] at hp
    exact key _ hp
  · rw [hT] at hp
    exact key _ hp

open Json in
/-- C77, violated. With the translator for the other curves a look-up panics on a file that describes a pseudonym
without its point: the translator dereferences the missing point. -/
theorem C77_panic_violated (c : Nat) (L : Dlog.GurvyLayout S c) (hT : B.T = Dlog.gurvy c L) (d : Disk) (ski : Bytes)
    (hfree : Free dir d ski) :
    (kvsStore B (fileKvs dir)).get (holding dir d ski (ascii "{\"NymSecretKey\":{}}")) ski = .panic := by
  rw [C77_panic_exact]
  refine ⟨ascii "{\"NymSecretKey\":{}}", { nym := some ⟨[], [], none, false⟩ }, _, ?_, ?_, rfl, ?_⟩
  · simp only [holding, Disk.readFile, Disk.set, show d.isDir (joinPath dir (hexOf ski)) = false from hfree, if_true]
    rfl
  · have h := is_obj (isMembers_last (d := 9999) (k := ascii "NymSecretKey") (by decide) (is_empty (d := 9998)))
      [] (2 * (ascii "{\"NymSecretKey\":{}}").length + 1) (by decide)
    have h2 : parse (ascii "{\"NymSecretKey\":{}}") = some (.obj [(ascii "NymSecretKey", .obj [])]) := by
      unfold parse
      have e : ascii "{\"NymSecretKey\":{}}" =
          (123 :: 34 :: (ascii "NymSecretKey" ++ 34 :: 58 :: (ascii "{}" ++ [125]))) ++ [] := by decide
      rw [← e] at h
      rw [h]
      simp [skipWs]
    unfold jsonEntry
    rw [h2]
    simp [entryMember, forField, jsonStruct, foldName, ascii, Res.ofOption]
  · rw [hT]
    rfl

/-- C77. Stores, complete, failing or crashing at any point, leave every key under its own identifier. -/
theorem C77_names_partial (d : Disk) (evs : List (StoreEvent B)) (hd : OwnNames dir B d)
    (hfree : ∀ ski, Free dir d ski) : OwnNames dir B (evs.foldl (storeEvent B dir) d) := by
  intro ski k h
  rcases C49_history_never_wrong dir d evs ski (hfree ski) with h1 | ⟨ev, -, hc, h1⟩ | ⟨m, h1⟩
  · exact hd ski k (h1 ▸ h)
  · rw [h1] at h
    cases h
    exact of_decide_eq_true hc
  · rw [h1] at h
    cases h

/-- C77, violated. A key that is in the store is returned, without error, for every identifier to whose file its own
was copied: nothing compares the key that was read with the identifier asked for. -/
theorem C77_violated (d : Disk) (k : Key B) (ski other : Bytes) (hid : storageId k = some ski) (hne : other ≠ ski)
    (hfree : Free dir d ski) (hfree' : Free dir d other) :
    (kvsStore B (fileKvs dir)).get (copied dir (storeEvent B dir d (.complete k)) ski other) other = .ok k ∧
      storageId k ≠ some other ∧
      ¬ OwnNames dir B (copied dir (storeEvent B dir d (.complete k)) ski other) := by
  have h0 := C49_stored_key_partial dir d [] [] k ski hid hfree (by simp)
  simp only [List.nil_append, List.foldl_cons, List.foldl_nil] at h0
  have hd : (storeEvent B dir d (.complete k)).isDir = d.isDir := storeEvent_isDir dir d _
  have hs : storageId k ≠ some other := by
    rw [hid]
    simpa using hne.symm
  suffices hg : (kvsStore B (fileKvs dir)).get (copied dir (storeEvent B dir d (.complete k)) ski other) other = .ok k from
    ⟨hg, hs, fun h => hs (h _ _ hg)⟩
  rw [← h0]
  simp only [kvsStore, fileKvs, fileGet, Disk.readFile, copied, if_true, hd,
    show d.isDir (joinPath dir (hexOf ski)) = false from hfree, show d.isDir (joinPath dir (hexOf other)) = false from hfree']

end Idemix.Provider
