import Verif.Provider.KeyStore
import Verif.Provider.PropsDispatch

/-!
# C48 Key store histories, C49 crashes, C50 file names

Concrete cases meeting the hypotheses of the theorems are in `Verif/Provider/Examples.lean`.
-/

namespace Idemix.Provider

variable {S : Suite} {B : Backend S}

/-! ## Texts of entries -/

theorem ecpText_split {p q : Option ECP} {x y : Bytes} (h : ecpText p ++ x = ecpText q ++ y) : p = q ∧ x = y := by
  rcases p with _ | ⟨px, py⟩ <;> rcases q with _ | ⟨qx, qy⟩
  · exact ⟨rfl, List.append_cancel_left h⟩
  · simp [ecpText, ascii] at h
  · simp [ecpText, ascii] at h
  · rcases px with _ | ⟨p0, ps⟩ <;> rcases py with _ | ⟨r0, rs⟩ <;> rcases qx with _ | ⟨q0, qs⟩ <;>
      rcases qy with _ | ⟨s0, ss⟩ <;> simp [ecpText, ecpMembers, ascii] at h ⊢
    · exact h
    · obtain ⟨h1, h2⟩ := jsonBytes_split h
      simp_all
    · obtain ⟨h1, h2⟩ := jsonBytes_split h
      simp_all
    · obtain ⟨h1, h2⟩ := jsonBytes_split h
      simp_all
    · obtain ⟨h1, h2⟩ := jsonBytes_split h
      simp_all
    · obtain ⟨h1, h2⟩ := jsonBytes_split h
      simp only [List.cons.injEq, true_and] at h2
      obtain ⟨h3, h4⟩ := jsonBytes_split h2
      simp_all

theorem nymText_split {p q : NymEntry} {x y : Bytes} (h : nymText p ++ x = nymText q ++ y) : p = q ∧ x = y := by
  obtain ⟨p1, p2, p3, p4⟩ := p
  obtain ⟨q1, q2, q3, q4⟩ := q
  simp only [nymText, List.append_assoc] at h
  obtain ⟨e1, h1⟩ := jsonBytes_split (List.append_cancel_left h)
  obtain ⟨e2, h2⟩ := jsonBytes_split (List.append_cancel_left h1)
  obtain ⟨e3, h3⟩ := ecpText_split (List.append_cancel_left h2)
  obtain ⟨e4, h4⟩ := jsonBool_split (List.append_cancel_left h3)
  exact ⟨by rw [e1, e2, e3, e4], List.append_cancel_left h4⟩

theorem userText_split {p q : UserEntry} {x y : Bytes} (h : userText p ++ x = userText q ++ y) : p = q ∧ x = y := by
  obtain ⟨p1, p2⟩ := p
  obtain ⟨q1, q2⟩ := q
  simp only [userText, List.append_assoc] at h
  obtain ⟨e1, h1⟩ := jsonBytes_split (List.append_cancel_left h)
  obtain ⟨e2, h2⟩ := jsonBool_split (List.append_cancel_left h1)
  exact ⟨by rw [e1, e2], List.append_cancel_left h2⟩

/-- The text of an entry determines it, and is not the beginning of the text of another. -/
theorem entryText_split {p q : Entry} {x y : Bytes} (h : entryText p ++ x = entryText q ++ y) : p = q ∧ x = y := by
  obtain ⟨pn, pu⟩ := p
  obtain ⟨qn, qu⟩ := q
  have comma : ∀ (a b : Bytes), ascii "}" ++ a ≠ ascii ",\"UserSecretKey\":" ++ b := by
    intro a b; simp [ascii]
  rcases pn with _ | pn <;> rcases pu with _ | pu <;> rcases qn with _ | qn <;> rcases qu with _ | qu <;>
    simp only [entryText, List.append_assoc] at h
  case none.none.none.none => exact ⟨rfl, List.append_cancel_left h⟩
  case none.some.none.some =>
    obtain ⟨e1, h1⟩ := userText_split (List.append_cancel_left h)
    exact ⟨by rw [e1], List.append_cancel_left h1⟩
  case some.none.some.none =>
    obtain ⟨e1, h1⟩ := nymText_split (List.append_cancel_left h)
    exact ⟨by rw [e1], List.append_cancel_left h1⟩
  case some.none.some.some =>
    obtain ⟨e1, h1⟩ := nymText_split (List.append_cancel_left h)
    exact absurd h1 (comma _ _)
  case some.some.some.none =>
    obtain ⟨e1, h1⟩ := nymText_split (List.append_cancel_left h)
    exact absurd h1.symm (comma _ _)
  case some.some.some.some =>
    obtain ⟨e1, h1⟩ := nymText_split (List.append_cancel_left h)
    obtain ⟨e2, h2⟩ := userText_split (List.append_cancel_left h1)
    exact ⟨by rw [e1, e2], List.append_cancel_left h2⟩
  all_goals simp [ascii] at h

/-! ## C50 -/

theorem hex_plain {ski : Bytes} (h : ski ≠ []) : PlainName (hexOf ski) := by
  have hd : ∀ c : UInt8, c ∈ hexOf ski → c ≠ 47 ∧ c ≠ 46 := by
    intro c hc
    have := hexOf_digits ski hc
    constructor <;> rintro rfl <;> revert this <;> decide
  refine ⟨fun hc => (hd _ hc).1 rfl, ?_, ?_, ?_⟩
  · intro h0
    have := hexOf_length ski
    rw [h0] at this
    cases ski with
    | nil => exact h rfl
    | cons x xs => simp only [List.length_nil, List.length_cons] at this; omega
  · intro h0
    exact (hd 46 (by simp [h0])).2 rfl
  · intro h0
    exact (hd 46 (by simp [h0])).2 rfl

/-- C50. The file of a non-empty identifier is the entry with its hexadecimal name directly inside the store
directory: `dirPrefix dir` is the cleaned directory followed by a slash. -/
theorem C50_inside_directory (dir ski : Bytes) (h : ski ≠ []) :
    joinPath dir (hexOf ski) = dirPrefix dir ++ hexOf ski ∧ (47 : UInt8) ∉ hexOf ski ∧
      hexOf ski ≠ [] ∧ hexOf ski ≠ [46] ∧ hexOf ski ≠ [46, 46] :=
  ⟨joinPath_plain dir _ (hex_plain h), hex_plain h⟩

/-- C50. The empty identifier names the store directory itself, not a file in it. -/
theorem C50_empty_identifier (dir : Bytes) : joinPath dir (hexOf []) = if dir = [] then [] else cleanPath dir := by
  by_cases h : dir = [] <;> simp [joinPath, hexOf, h]

/-- C50. Different identifiers have different files. -/
theorem C50_injective (dir ski ski' : Bytes) (h : joinPath dir (hexOf ski) = joinPath dir (hexOf ski')) :
    ski = ski' := by
  have mixed : ∀ s : Bytes, s ≠ [] → joinPath dir (hexOf s) ≠ joinPath dir (hexOf []) := by
    intro s hs he
    have hp := hex_plain hs
    rw [(C50_inside_directory dir s hs).1, C50_empty_identifier] at he
    unfold dirPrefix at he
    by_cases hd : dir = []
    · simp only [hd, true_or, if_true, List.nil_append] at he
      exact hp.2.1 he
    · simp only [hd, false_or, if_false] at he
      by_cases h1 : cleanPath dir = [46]
      · simp only [h1, if_true, List.nil_append] at he
        exact hp.2.2.1 he
      · simp only [h1, if_false] at he
        by_cases h2 : cleanPath dir = [47]
        · simp only [h2, if_true] at he
          exact hp.2.1 (by simpa using he)
        · simp only [h2, if_false] at he
          have := congrArg List.length he
          simp at this
  by_cases h1 : ski = [] <;> by_cases h2 : ski' = []
  · rw [h1, h2]
  · subst h1; exact absurd h.symm (mixed _ h2)
  · subst h2; exact absurd h (mixed _ h1)
  · rw [(C50_inside_directory dir ski h1).1, (C50_inside_directory dir ski' h2).1] at h
    exact hexOf_inj (List.append_cancel_left h)

example : joinPath (ascii "/var/keys/../store") (hexOf [0x0a, 0xff]) = ascii "/var/store/0aff" := by decide

namespace Spec

/-- Where a step leads from a directory; directories are the names on the way to them, innermost first. -/
def follow (pos : List Bytes) (c : Bytes) : List Bytes :=
  if c = [] ∨ c = ascii "." then pos else if c = ascii ".." then pos.tail else c :: pos

/-- Where a path leads from the working directory, without symbolic links. -/
def place (cwd : List Bytes) (path : Bytes) : List Bytes :=
  (path.splitOn 47).foldl follow (if path.head? = some 47 then [] else cwd)

end Spec

theorem components_eq (s : Bytes) : components s = s.splitOn 47 := by
  induction s with
  | nil => rfl
  | cons c s ih =>
    rw [components, ih, List.splitOn, List.splitOn, List.splitOnP_cons_eq_if_modifyHead]
    by_cases hc : c = 47
    · simp [hc]
    · simp only [hc, if_false, beq_iff_eq]
      cases h : List.splitOnP (fun x => x == 47) s with
      | nil => exact absurd h (List.splitOnP_ne_nil _ _)
      | cons w ws => rfl

theorem follow_clean (r : Bool) (pos : List Bytes) (hr : r = true → pos = []) (st : List Bytes) (c : Bytes)
    (hst : ∀ d ∈ st, d ≠ [] ∧ d ≠ [46]) :
    (cleanStep r st c).reverse.foldl Spec.follow pos = Spec.follow (st.reverse.foldl Spec.follow pos) c := by
  have e1 : ascii "." = [46] := by decide
  have e2 : ascii ".." = [46, 46] := by decide
  unfold cleanStep
  by_cases h1 : c = [] ∨ c = [46]
  · rw [if_pos h1, Spec.follow, e1, if_pos h1]
  · rw [if_neg h1]
    by_cases h2 : c = [46, 46]
    · rw [if_pos h2]
      cases st with
      | nil =>
        cases r with
        | true => simp [hr rfl, Spec.follow, h2, e1, e2]
        | false => simp [h2]
      | cons top rest =>
        by_cases h3 : top = [46, 46]
        · simp [h3, h2]
        · have := hst top (by simp)
          simp only [h3, if_false, List.reverse_cons, List.foldl_append, List.foldl_cons, List.foldl_nil]
          simp [Spec.follow, e1, e2, h2, h3, this.1, this.2]
    · simp [h2]

theorem place_fold (r : Bool) (pos : List Bytes) (hr : r = true → pos = []) (cs st : List Bytes) (hst : ∀ d ∈ st, d ≠ [] ∧ d ≠ [46]) :
    (cs.foldl (cleanStep r) st).reverse.foldl Spec.follow pos = cs.foldl Spec.follow (st.reverse.foldl Spec.follow pos) := by
  induction cs generalizing st with
  | nil => rfl
  | cons c cs ih =>
    rw [List.foldl_cons, ih, follow_clean r pos hr st c hst, List.foldl_cons]
    intro d hd
    unfold cleanStep at hd
    split at hd
    · exact hst d hd
    · rename_i h1
      simp only [not_or] at h1
      split at hd
      · split at hd
        · split at hd
          · simp at hd
          · simp only [List.mem_singleton] at hd; subst hd; decide
        · split at hd
          · simp only [List.mem_cons] at hd
            rcases hd with rfl | rfl | hd
            · decide
            · exact hst _ (by simp)
            · exact hst d (by simp [hd])
          · exact hst d (by simp [hd])
      · simp only [List.mem_cons] at hd
        rcases hd with rfl | hd
        · exact h1
        · exact hst d hd

theorem components_slashed (cs : List Bytes) (h : cs ≠ []) (hc : ∀ c ∈ cs, (47 : UInt8) ∉ c) : components (slashed cs) = cs := by
  induction cs with
  | nil => exact absurd rfl h
  | cons c cs ih =>
    cases cs with
    | nil => exact components_plain (hc c (by simp))
    | cons d cs =>
      rw [slashed, components_append, components_plain (hc c (by simp)), ih (by simp) fun e he => hc e (List.mem_cons_of_mem _ he)]
      · rfl
      · simp

/-- C50. Cleaning a path does not change where it leads, from any working directory. -/
theorem C50_same_place (cwd : List Bytes) (path : Bytes) : Spec.place cwd (cleanPath path) = Spec.place cwd path := by
  have e1 : ascii "." = [46] := by decide
  have hmem : ∀ c ∈ cleanComponents path, (47 : UInt8) ∉ c := fun c hc => (cleanComponents_mem path hc).2.2
  simp only [Spec.place, ← components_eq]
  by_cases hr : path.head? = some 47
  · have hf := place_fold true [] (fun _ => rfl) (components path) [] (by simp)
    simp only [cleanPath, hr, if_true, List.head?_cons]
    rw [show components (47 :: slashed (cleanComponents path)) = [] :: components (slashed (cleanComponents path)) by simp [components],
      List.foldl_cons, show Spec.follow [] [] = [] from rfl]
    simp only [List.reverse_nil, List.foldl_nil] at hf
    rw [← hf]
    by_cases hn : cleanComponents path = []
    · have hn' := hn
      simp only [cleanComponents, hr, decide_true] at hn'
      rw [hn, hn']
      rfl
    · rw [components_slashed _ hn hmem]
      simp only [cleanComponents, hr, decide_true]
  · have hf := place_fold false cwd (by simp) (components path) [] (by simp)
    simp only [List.reverse_nil, List.foldl_nil] at hf
    simp only [hr, if_false]
    by_cases hn : cleanComponents path = []
    · have hn' := hn
      simp only [cleanComponents, hr, decide_false] at hn'
      rw [← hf, hn']
      simp [cleanPath, hr, hn, components, Spec.follow, e1]
    · have hc : cleanPath path = slashed (cleanComponents path) := by simp [cleanPath, hr, hn]
      have hh : (slashed (cleanComponents path)).head? ≠ some 47 := by
        cases hcs : cleanComponents path with
        | nil => exact absurd hcs hn
        | cons w ws =>
          obtain ⟨g1, -, g3⟩ := cleanComponents_mem path (c := w) (by simp [hcs])
          cases w with
          | nil => exact absurd rfl g1
          | cons a w =>
            have ha : a ≠ 47 := fun h => g3 (by simp [h])
            cases ws <;> simp [slashed, ha]
      rw [hc, if_neg hh, components_slashed _ hn hmem, ← hf]
      simp only [cleanComponents, hr, decide_false]

/-- C50. The file of a non-empty identifier is the entry with its hexadecimal name in the directory that the configured path leads to. -/
theorem C50_place (cwd : List Bytes) (dir ski : Bytes) (h : ski ≠ []) :
    Spec.place cwd (joinPath dir (hexOf ski)) = hexOf ski :: Spec.place cwd dir := by
  have hp := hex_plain h
  have e1 : ascii "." = [46] := by decide
  have e2 : ascii ".." = [46, 46] := by decide
  have hf : ∀ pos, Spec.follow pos (hexOf ski) = hexOf ski :: pos := by
    intro pos
    simp [Spec.follow, e1, e2, hp.2.1, hp.2.2.1, hp.2.2.2]
  by_cases hd : dir = []
  · have hh : (hexOf ski).head? ≠ some 47 := by
      intro h0
      exact hp.1 (List.mem_of_head? h0)
    simp only [joinPath, hd, hp.2.1, and_false, if_false, if_true, C50_same_place]
    simp only [Spec.place, ← components_eq, components_plain hp.1, hh, if_false, List.foldl_cons, List.foldl_nil, hf]
    simp [components, Spec.follow]
  · have hhead : (dir ++ 47 :: hexOf ski).head? = dir.head? := by
      cases dir with
      | nil => exact absurd rfl hd
      | cons c cs => rfl
    simp only [joinPath, hd, hp.2.1, and_self, if_false, C50_same_place]
    simp only [Spec.place, ← components_eq, components_append, components_plain hp.1, hhead, List.foldl_append, List.foldl_cons,
      List.foldl_nil, hf]

example : cleanPath (ascii "../../a/./..//b") = ascii "../../b" ∧
    Spec.place [ascii "x", ascii "y", ascii "z"] (ascii "../../a/./..//b") = [ascii "b", ascii "z"] := by decide

/-! ## C48 -/

namespace Spec

/-- The identifier under which a key is stored: for a user secret its own, for a pseudonym secret that of the
pseudonym. No other key can be stored. -/
def storageId : Key B → Option Bytes
  | .userSk sk _ => some (B.dsa.sha256 (S.zrBytes sk))
  | .nymSk _ _ pk _ => some (B.dsa.sha256 (S.g1Bytes pk))
  | _ => none

/-- The most recent of the keys stored under an identifier. -/
def latest (h : List (Key B)) (ski : Bytes) : Option (Key B) := (h.filter fun k => storageId k = some ski).getLast?

/-- A KVS that, in the states `inv`, keeps what was put under the identifiers `good`. -/
structure Keeps {σ : Type} (K : Kvs σ) (inv : σ → Prop) (good : Bytes → Prop) : Prop where
  put_inv : ∀ s id e, inv s → inv (K.put s (hexOf id) e).1
  put_ok : ∀ s id e, inv s → good id → (K.put s (hexOf id) e).2 = .ok ()
  get_put : ∀ s id e, inv s → good id → K.get (K.put s (hexOf id) e).1 (hexOf id) = .ok e
  get_other : ∀ s id id' e, inv s → id' ≠ id → K.get (K.put s (hexOf id) e).1 (hexOf id') = K.get s (hexOf id')

end Spec

open Spec

theorem entryOf_eq (k : Key B) :
    (∃ id e, storageId k = some id ∧ entryOf B k = .ok (hexOf id, e) ∧ keyOfEntry B e = .ok k) ∨
      (storageId k = none ∧ ∃ m, entryOf B k = .err m) := by
  cases k with
  | userSk sk e =>
    exact .inl ⟨_, _, rfl, rfl, by simp [keyOfEntry]⟩
  | nymSk ski sk pk e =>
    exact .inl ⟨_, _, rfl, rfl, by simp [keyOfEntry]⟩
  | _ => exact .inr ⟨rfl, _, rfl⟩

theorem latest_append (h : List (Key B)) (k : Key B) (ski : Bytes) :
    latest (h ++ [k]) ski = if storageId k = some ski then some k else latest h ski := by
  unfold latest
  rw [List.filter_append]
  by_cases hk : storageId k = some ski
  · simp [hk]
  · simp [hk]

/-- C48. Over any KVS that keeps its entries, and after any history of stores, a look-up returns the most recently
stored key with the identifier, exactly as it was stored; if there is none, what it returned before. -/
theorem C48_lookup_partial {σ : Type} (K : Kvs σ) (inv : σ → Prop) (good : Bytes → Prop) (hK : Keeps K inv good)
    (s : σ) (hinv : inv s) (h : List (Key B)) (hh : ∀ k ∈ h, ∀ id, storageId k = some id → good id) (ski : Bytes) :
    (kvsStore B K).get (h.foldl (fun s k => ((kvsStore B K).store s k).1) s) ski =
      match latest h ski with
      | some k => .ok k
      | none => (kvsStore B K).get s ski := by
  suffices hs : inv (h.foldl (fun s k => ((kvsStore B K).store s k).1) s) ∧
      (kvsStore B K).get (h.foldl (fun s k => ((kvsStore B K).store s k).1) s) ski =
      match latest h ski with
      | some k => .ok k
      | none => (kvsStore B K).get s ski from hs.2
  induction h using List.reverseRecOn with
  | nil => exact ⟨hinv, rfl⟩
  | append_singleton h k ih =>
    obtain ⟨hi, ih⟩ := ih (fun k' hk' => hh k' (by simp [hk']))
    rw [List.foldl_append, latest_append]
    simp only [List.foldl_cons, List.foldl_nil]
    generalize h.foldl (fun s k => ((kvsStore B K).store s k).1) s = s1 at ih hi
    rcases entryOf_eq k with ⟨id, e, h1, h2, h3⟩ | ⟨h1, m, h2⟩
    · have hg : good id := hh k (by simp) id h1
      have e1 : ((kvsStore B K).store s1 k).1 = (K.put s1 (hexOf id) e).1 := by simp [kvsStore, h2]
      rw [e1, h1]
      refine ⟨hK.put_inv _ _ _ hi, ?_⟩
      by_cases hid : id = ski
      · subst hid
        simp only [if_true]
        simp only [kvsStore]
        rw [hK.get_put _ _ _ hi hg]
        exact h3
      · have : ¬ some id = some ski := by simpa using hid
        rw [if_neg this, ← ih]
        simp only [kvsStore]
        rw [hK.get_other _ _ _ _ hi (Ne.symm hid)]
    · have e1 : ((kvsStore B K).store s1 k).1 = s1 := by simp [kvsStore, h2]
      rw [e1, h1]
      exact ⟨hi, by simpa using ih⟩

/-- C48. A store reports success for the keys it supports, and leaves the KVS alone otherwise. -/
theorem C48_store_result {σ : Type} (K : Kvs σ) (inv : σ → Prop) (good : Bytes → Prop) (hK : Keeps K inv good)
    (s : σ) (hinv : inv s) (k : Key B) (hh : ∀ id, storageId k = some id → good id) :
    ((storageId k).isSome → ((kvsStore B K).store s k).2 = .ok ()) ∧
    (storageId k = none → ((kvsStore B K).store s k).1 = s ∧ ∃ m, ((kvsStore B K).store s k).2 = .err m) := by
  rcases entryOf_eq k with ⟨id, e, h1, h2, h3⟩ | ⟨h1, m, h2⟩
  · refine ⟨fun _ => ?_, fun h => by simp [h1] at h⟩
    simp only [kvsStore, h2]
    exact hK.put_ok _ _ _ hinv (hh id h1)
  · refine ⟨fun h => by simp [h1] at h, fun _ => ?_⟩
    simp [kvsStore, h2]

/-- C48, violated. A pseudonym secret is not found under its own identifier: storing it does not change what a
look-up of that identifier returns. -/
theorem C48_violated {σ : Type} (K : Kvs σ) (inv : σ → Prop) (good : Bytes → Prop) (hK : Keeps K inv good) (s : σ)
    (hinv : inv s) (r : S.F) (nym : S.G1) (exportable : Bool)
    (hne : B.dsa.sha256 (S.zrBytes r) ≠ B.dsa.sha256 (S.g1Bytes nym)) (hg : good (B.dsa.sha256 (S.g1Bytes nym)))
    (ski : Bytes) (hski : (newNymSecretKey B r nym exportable).ski = .ok ski) :
    (kvsStore B K).get ((kvsStore B K).store s (newNymSecretKey B r nym exportable)).1 ski =
      (kvsStore B K).get s ski := by
  have hski' : ski = B.dsa.sha256 (S.zrBytes r) := by
    simp only [newNymSecretKey, Key.ski, Res.ok.injEq] at hski
    exact hski.symm
  have := C48_lookup_partial (B := B) K inv good hK s hinv [newNymSecretKey B r nym exportable]
    (by
      intro k hk id hid
      simp only [List.mem_singleton] at hk
      subst hk
      simp only [newNymSecretKey, storageId, Option.some.injEq] at hid
      rw [← hid]
      exact hg)
    ski
  have hl : latest [newNymSecretKey B r nym exportable] ski = none := by
    have : ¬ B.dsa.sha256 (S.g1Bytes nym) = ski := by rw [hski']; exact Ne.symm hne
    simp [latest, newNymSecretKey, storageId, this]
  rw [hl] at this
  exact this

/-- C47, C48. After any history of operations of a provider, `GetKey` returns the most recent lasting key with the
identifier. -/
theorem C48_provider_history_partial {σ : Type} (K : Kvs σ) (inv : σ → Prop) (good : Bytes → Prop)
    (hK : Keeps K inv good) (s : σ) (hinv : inv s) (exportable : Bool) (ops : List (Op B))
    (hh : ∀ op ∈ ops, ∀ k, leaves B exportable op = some k → ∀ id, storageId k = some id → good id) (ski : Bytes) :
    getKey (kvsStore B K) (run (kvsStore B K) (provider B exportable) s ops).1 ski =
      match latest (ops.filterMap (leaves B exportable)) ski with
      | some k => .ok k
      | none => getKey (kvsStore B K) s ski := by
  unfold getKey
  rw [C47_history, C48_lookup_partial K inv good hK s hinv]
  · cases latest (ops.filterMap (leaves B exportable)) ski <;> rfl
  · intro k hk id hid
    obtain ⟨op, hop, hl⟩ := List.mem_filterMap.mp hk
    exact hh op hop k hl id hid

/-! ### The file-based KVS -/

variable (dir : Bytes)

/-- No directory stands where the file of an identifier should be. -/
def Spec.Free (dir : Bytes) (d : Disk) (ski : Bytes) : Prop := d.isDir (joinPath dir (hexOf ski)) = false

theorem writeCut_isDir (d : Disk) (p b : Bytes) (c : Cut) : (d.writeCut p b c).isDir = d.isDir := by
  unfold Disk.writeCut; split
  · rfl
  · split <;> rfl

theorem filePut_isDir (d : Disk) (id : Bytes) (e : Entry) (f : Option Cut) :
    (filePut dir d id e f).1.isDir = d.isDir := by
  cases f with
  | none => simp only [filePut, Disk.writeFile]; split <;> rfl
  | some c => exact writeCut_isDir _ _ _ _

theorem fileGet_set (d : Disk) (id : Bytes) (e : Entry) (h : d.isDir (joinPath dir id) = false) :
    fileGet dir (d.set (joinPath dir id) (entryText e)) id = .ok e := by
  simp only [fileGet, Disk.readFile, Disk.set, h, if_true, Bool.false_eq_true, if_false, Res.ofOption_some, wrapErr,
      Res.ok_bind, jsonEntry_text]

theorem fileGet_set_other (d : Disk) (id : Bytes) (p b : Bytes) (h : joinPath dir id ≠ p) :
    fileGet dir (d.set p b) id = fileGet dir d id := by
  simp only [fileGet, Disk.readFile, Disk.set, h, if_false]

/-- C48. The file-based KVS keeps its entries, so C48_lookup_partial applies to it: on a disk with any contents, for
the identifiers in whose place there is no directory. -/
theorem C48_files_keep (isDir : Bytes → Bool) :
    Keeps (fileKvs dir) (fun d => d.isDir = isDir) (fun ski => isDir (joinPath dir (hexOf ski)) = false) := by
  refine ⟨?_, ?_, ?_, ?_⟩
  · intro d id e h
    rw [← h]
    exact filePut_isDir dir d (hexOf id) e none
  · intro d id e h hid
    simp [fileKvs, filePut, Disk.writeFile, h, hid, wrapErr]
  · intro d id e h hid
    have e1 : ((fileKvs dir).put d (hexOf id) e).1 = d.set (joinPath dir (hexOf id)) (entryText e) := by
      simp [fileKvs, filePut, Disk.writeFile, h, hid]
    rw [e1]
    exact fileGet_set dir d (hexOf id) e (by rw [h]; exact hid)
  · intro d id id' e h hne
    have hp : joinPath dir (hexOf id') ≠ joinPath dir (hexOf id) := fun hc => hne (C50_injective dir _ _ hc)
    simp only [fileKvs, filePut, Disk.writeFile]
    split
    · rfl
    · exact fileGet_set_other dir d (hexOf id') _ _ hp

/-- C48. The dummy store refuses everything. -/
theorem C48_dummy (ski : Bytes) (k : Key B) :
    (∃ m, (dummyStore B).get () ski = .err m) ∧ ∃ m, ((dummyStore B).store () k).2 = .err m := ⟨⟨_, rfl⟩, _, rfl⟩

/-! ## C49 -/

namespace Spec

/-- The key of an event. -/
def StoreEvent.key : StoreEvent B → Key B
  | .complete k | .fault k _ | .crash k _ => k

/-- The events that concern an identifier. -/
def concerns (ski : Bytes) (ev : StoreEvent B) : Bool := storageId (StoreEvent.key ev) = some ski

end Spec

theorem storeEvent_isDir (d : Disk) (ev : StoreEvent B) : (storeEvent B dir d ev).isDir = d.isDir := by
  cases ev with
  | complete k =>
    simp only [storeEvent, kvsStore]
    split
    · exact filePut_isDir dir _ _ _ none
    · rfl
    · rfl
  | fault k c =>
    simp only [storeEvent]
    split
    · exact filePut_isDir dir _ _ _ _
    · rfl
  | crash k c =>
    simp only [storeEvent]
    split
    · exact writeCut_isDir _ _ _ _
    · rfl

/-- One event does not change what is read under other identifiers. -/
theorem storeEvent_other (d : Disk) (ev : StoreEvent B) (ski : Bytes) (h : concerns ski ev = false) :
    fileGet dir (storeEvent B dir d ev) (hexOf ski) = fileGet dir d (hexOf ski) := by
  have key : ∀ k, storageId k ≠ some ski → ∀ id e, entryOf B k = .ok (id, e) → joinPath dir (hexOf ski) ≠ joinPath dir id := by
    intro k hk id e he
    rcases entryOf_eq k with ⟨id', e', h1, h2, -⟩ | ⟨-, m, h2⟩
    · rw [h2] at he
      cases he
      intro hc
      exact hk (by rw [h1, C50_injective dir _ _ hc])
    · rw [h2] at he; cases he
  have cut : ∀ id e c, joinPath dir (hexOf ski) ≠ joinPath dir id →
      fileGet dir (d.writeCut (joinPath dir id) (entryText e) c) (hexOf ski) = fileGet dir d (hexOf ski) := by
    intro id e c hp
    unfold Disk.writeCut
    split
    · rfl
    · split
      · exact fileGet_set_other dir d _ _ _ hp
      · rfl
  cases ev with
  | complete k =>
    have hk : storageId k ≠ some ski := of_decide_eq_false h
    cases he : entryOf B k with
    | ok x =>
      obtain ⟨id, e⟩ := x
      simp only [storeEvent, kvsStore, he, fileKvs, filePut, Disk.writeFile]
      split
      · rfl
      · exact fileGet_set_other dir d _ _ _ (key k hk id e he)
    | err m => simp only [storeEvent, kvsStore, he]
    | panic => simp only [storeEvent, kvsStore, he]
  | fault k c =>
    have hk : storageId k ≠ some ski := of_decide_eq_false h
    cases he : entryOf B k with
    | ok x =>
      obtain ⟨id, e⟩ := x
      simp only [storeEvent, he, filePut, Disk.writeFile]
      exact cut id e c (key k hk id e he)
    | err m => simp only [storeEvent, he]
    | panic => simp only [storeEvent, he]
  | crash k c =>
    have hk : storageId k ≠ some ski := of_decide_eq_false h
    cases he : entryOf B k with
    | ok x =>
      obtain ⟨id, e⟩ := x
      simp only [storeEvent, he, filePutCut]
      exact cut id e c (key k hk id e he)
    | err m => simp only [storeEvent, he]
    | panic => simp only [storeEvent, he]

/-- C49. Whatever happens afterwards to the stores of other keys, crashes and failures at any point included, a key
remains readable. -/
theorem C49_others_partial (d : Disk) (evs : List (StoreEvent B)) (ski : Bytes)
    (h : ∀ ev ∈ evs, concerns ski ev = false) :
    (kvsStore B (fileKvs dir)).get (evs.foldl (storeEvent B dir) d) ski = (kvsStore B (fileKvs dir)).get d ski := by
  have : fileGet dir (evs.foldl (storeEvent B dir) d) (hexOf ski) = fileGet dir d (hexOf ski) := by
    induction evs generalizing d with
    | nil => rfl
    | cons ev evs ih =>
      rw [List.foldl_cons, ih _ (fun ev' h' => h ev' (List.mem_cons_of_mem _ h')),
        storeEvent_other dir d ev ski (h ev (by simp))]
  simp only [kvsStore, fileKvs, this]

/-- C49. After a complete store of a key, and any crashes and failures of stores of other keys, before and after,
the key is read back. -/
theorem C49_stored_key_partial (d : Disk) (before after : List (StoreEvent B)) (k : Key B) (ski : Bytes)
    (hid : storageId k = some ski) (hfree : Free dir d ski) (h : ∀ ev ∈ after, concerns ski ev = false) :
    (kvsStore B (fileKvs dir)).get ((before ++ .complete k :: after).foldl (storeEvent B dir) d) ski = .ok k := by
  rw [List.foldl_append, List.foldl_cons, C49_others_partial dir _ after ski h]
  generalize hd : before.foldl (storeEvent B dir) d = d1
  have hdir : d1.isDir = d.isDir := by
    rw [← hd]
    clear hd
    induction before generalizing d with
    | nil => rfl
    | cons ev evs ih =>
      rw [List.foldl_cons, ih _ (by rw [Free, storeEvent_isDir]; exact hfree), storeEvent_isDir]
  have := C48_lookup_partial (B := B) (fileKvs dir) _ _ (C48_files_keep dir d.isDir) d1 hdir [k]
    (by
      intro k' hk' id hid'
      simp only [List.mem_singleton] at hk'
      subst hk'
      rw [hid] at hid'
      cases hid'
      exact hfree)
    ski
  simp only [latest, hid, List.filter_cons, decide_true, if_true, List.filter_nil, List.getLast?_singleton] at this
  exact this

/-- C49. A store that fails or crashes at any point leaves under its identifier the old key, the new key, or an
unreadable file: never a wrong key. -/
theorem C49_never_wrong (d : Disk) (k : Key B) (c : Cut) (ev : StoreEvent B) (hev : ev = .fault k c ∨ ev = .crash k c)
    (ski : Bytes) (hid : storageId k = some ski) :
    (kvsStore B (fileKvs dir)).get (storeEvent B dir d ev) ski = (kvsStore B (fileKvs dir)).get d ski ∨
    (kvsStore B (fileKvs dir)).get (storeEvent B dir d ev) ski = .ok k ∨
    ∃ m, (kvsStore B (fileKvs dir)).get (storeEvent B dir d ev) ski = .err m := by
  rcases entryOf_eq k with ⟨id, e, h1, h2, h3⟩ | ⟨h1, m, h2⟩
  swap
  · rw [hid] at h1; cases h1
  rw [hid] at h1
  cases h1
  have e1 : storeEvent B dir d ev = d.writeCut (joinPath dir (hexOf ski)) (entryText e) c := by
    rcases hev with rfl | rfl <;> simp [storeEvent, h2, filePut, filePutCut, Disk.writeFile]
  rw [e1]
  unfold Disk.writeCut
  by_cases hdir : d.isDir (joinPath dir (hexOf ski))
  · left; simp [hdir]
  · simp only [hdir, Bool.false_eq_true, if_false]
    by_cases ho : c.opened
    · simp only [ho, if_true]
      have hdir' : d.isDir (joinPath dir (hexOf ski)) = false := by simpa using hdir
      by_cases hw : (entryText e).take c.written = entryText e
      · right; left
        rw [hw]
        simp only [kvsStore, fileKvs, fileGet_set dir d (hexOf ski) e hdir']
        exact h3
      · right; right
        obtain ⟨m, hm⟩ := jsonEntry_prefix e _ (List.take_prefix _ _) hw
        refine ⟨"could not get key from kvs", ?_⟩
        simp only [kvsStore, fileKvs, fileGet, Disk.readFile, Disk.set, hdir', if_true, Bool.false_eq_true, if_false,
          Res.ofOption_some, wrapErr, Res.ok_bind, hm, Res.err_bind]
    · left; simp [ho]

/-- C49. After any history of stores, each complete, failed or crashed at any point, reading an identifier gives what
it gave at first, or a key that was stored under it, or an error. -/
theorem C49_history_never_wrong (d : Disk) (evs : List (StoreEvent B)) (ski : Bytes) (hfree : Free dir d ski) :
    (kvsStore B (fileKvs dir)).get (evs.foldl (storeEvent B dir) d) ski = (kvsStore B (fileKvs dir)).get d ski ∨
    (∃ ev ∈ evs, concerns ski ev = true ∧
      (kvsStore B (fileKvs dir)).get (evs.foldl (storeEvent B dir) d) ski = .ok (StoreEvent.key ev)) ∨
    ∃ m, (kvsStore B (fileKvs dir)).get (evs.foldl (storeEvent B dir) d) ski = .err m := by
  induction evs using List.reverseRecOn with
  | nil => exact .inl rfl
  | append_singleton evs ev ih =>
    have hdir : (evs.foldl (storeEvent B dir) d).isDir = d.isDir := by
      clear ih
      induction evs using List.reverseRecOn with
      | nil => rfl
      | append_singleton evs ev ih => rw [List.foldl_append, List.foldl_cons, List.foldl_nil, storeEvent_isDir, ih]
    have weaken : ∀ x : Res (Key B), (x = (kvsStore B (fileKvs dir)).get d ski ∨
        (∃ ev ∈ evs, concerns ski ev = true ∧ x = .ok (StoreEvent.key ev)) ∨ ∃ m, x = .err m) →
        (x = (kvsStore B (fileKvs dir)).get d ski ∨
        (∃ ev' ∈ evs ++ [ev], concerns ski ev' = true ∧ x = .ok (StoreEvent.key ev')) ∨ ∃ m, x = .err m) := by
      rintro x (h | ⟨ev', h1, h2⟩ | h)
      · exact .inl h
      · exact .inr (.inl ⟨ev', by simp [h1], h2⟩)
      · exact .inr (.inr h)
    rw [List.foldl_append, List.foldl_cons, List.foldl_nil]
    generalize evs.foldl (storeEvent B dir) d = d1 at ih hdir
    cases hc : concerns ski ev with
    | false =>
      have := C49_others_partial dir d1 [ev] ski (by simp [hc])
      simp only [List.foldl_cons, List.foldl_nil] at this
      rw [this]
      exact weaken _ ih
    | true =>
      have hid : storageId (StoreEvent.key ev) = some ski := of_decide_eq_true hc
      cases ev with
      | complete k =>
        refine .inr (.inl ⟨_, by simp, hc, ?_⟩)
        exact C49_stored_key_partial dir d1 [] [] k ski hid (by rw [Free, hdir]; exact hfree) (by simp)
      | fault k c =>
        rcases C49_never_wrong dir d1 k c (.fault k c) (.inl rfl) ski hid with h | h | h
        · rw [h]; exact weaken _ ih
        · exact .inr (.inl ⟨_, by simp, hc, h⟩)
        · exact .inr (.inr h)
      | crash k c =>
        rcases C49_never_wrong dir d1 k c (.crash k c) (.inr rfl) ski hid with h | h | h
        · rw [h]; exact weaken _ ih
        · exact .inr (.inl ⟨_, by simp, hc, h⟩)
        · exact .inr (.inr h)

theorem entryText_ne (e : Entry) : entryText e ≠ [] := by
  rcases e with ⟨_ | n, _ | u⟩ <;> simp [entryText, ascii]

/-- C49. A store that reports success has stored the key, whether or not a system call failed, whatever is on the
disk: the key is read back under its name. -/
theorem C49_reported (d d' : Disk) (k : Key B) (fault : Option Cut) (h : storeKeyFaulty B dir d k fault = (d', .ok ())) :
    ∃ ski, storageId k = some ski ∧ (kvsStore B (fileKvs dir)).get d' ski = .ok k := by
  rcases entryOf_eq k with ⟨id, e, h1, h2, h3⟩ | ⟨h1, m, h2⟩
  swap
  · simp [storeKeyFaulty, kvsStore, h2] at h
  refine ⟨id, h1, ?_⟩
  simp only [storeKeyFaulty, kvsStore, h2, filePut, Prod.mk.injEq] at h
  cases fault with
  | some c => simp [Disk.writeFile, wrapErr] at h
  | none =>
    by_cases hd : d.isDir (joinPath dir (hexOf id))
    · simp [Disk.writeFile, hd, wrapErr] at h
    · have hd' : d.isDir (joinPath dir (hexOf id)) = false := by simpa using hd
      have e1 : d' = d.set (joinPath dir (hexOf id)) (entryText e) := by
        rw [← h.1]; simp [Disk.writeFile, hd']
      simp only [kvsStore, fileKvs, e1, fileGet_set dir d (hexOf id) e hd', wrapErr, Res.ok_bind, h3]

/-- C49, violated. Storing a key again (a second import of the same key, say) and crashing in between destroys it:
between the opening and the last byte the file is unreadable, for every key and every state of the disk in which
the key is readable. -/
theorem C49_violated (d : Disk) (k : Key B) (ski : Bytes) (hid : storageId k = some ski) (hfree : Free dir d ski) :
    (kvsStore B (fileKvs dir)).get (storeEvent B dir d (.complete k)) ski = .ok k ∧
    ∃ m, (kvsStore B (fileKvs dir)).get
      (storeEvent B dir (storeEvent B dir d (.complete k)) (.crash k ⟨true, 0⟩)) ski = .err m := by
  constructor
  · exact C49_stored_key_partial dir d [] [] k ski hid hfree (by simp)
  · rcases entryOf_eq k with ⟨id, e, h1, h2, h3⟩ | ⟨h1, m, h2⟩
    swap
    · rw [hid] at h1; cases h1
    rw [hid] at h1
    cases h1
    have hf : (storeEvent B dir d (.complete k)).isDir (joinPath dir (hexOf ski)) = false := by
      rw [storeEvent_isDir]; exact hfree
    generalize storeEvent B dir d (.complete k) = d1 at hf
    obtain ⟨m, hm⟩ := jsonEntry_prefix e [] (List.nil_prefix) (Ne.symm (entryText_ne e))
    refine ⟨"could not get key from kvs", ?_⟩
    simp only [storeEvent, h2, filePutCut, Disk.writeCut, hf, Bool.false_eq_true, if_false, if_true, List.take_zero,
      kvsStore, fileKvs, fileGet, Disk.readFile, Disk.set, Res.ofOption_some, wrapErr, Res.ok_bind, hm, Res.err_bind]

/-- Opening a store panics when the file information cannot be read for a reason other than absence; otherwise it
fails or succeeds. -/
theorem C49_open (st : Stat) (mk : Res Unit) (hmk : mk ≠ .panic) :
    newFileBased st mk = .panic ↔ st = .failed := by
  cases st <;> cases mk <;> simp_all [newFileBased, wrapErr]

end Idemix.Provider
