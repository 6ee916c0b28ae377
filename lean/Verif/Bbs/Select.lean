import Verif.Bbs.Codec
import Verif.Bbs.Spec

/-!
# Selecting revealed and hidden positions
-/

namespace Idemix.Bbs

variable {S : Suite} (L : Lib S)

/-- Elements at revealed positions, counting from `i`. -/
def keepShown {α : Type} (rs : List Nat) : Nat → List α → List α
  | _, [] => []
  | i, x :: xs => if rs.contains i then x :: keepShown rs (i + 1) xs else keepShown rs (i + 1) xs

/-- Elements at hidden positions, counting from `i`. -/
def keepHidden {α : Type} (rs : List Nat) : Nat → List α → List α
  | _, [] => []
  | i, x :: xs => if rs.contains i then keepHidden rs (i + 1) xs else x :: keepHidden rs (i + 1) xs

variable {α β : Type}

theorem unshown_eq (rs : List Nat) (xs : List α) : Spec.unshown rs xs = keepHidden rs 0 xs := by
  have key : ∀ i, ((xs.zipIdx i).filter fun p => !rs.contains p.2).map Prod.fst = keepHidden rs i xs := by
    induction xs with
    | nil => intro i; rfl
    | cons x xs ih =>
      intro i
      simp only [List.zipIdx_cons, List.filter_cons, keepHidden]
      cases rs.contains i <;> simp only [Bool.not_true, Bool.not_false, Bool.false_eq_true, if_true, if_false,
        List.map_cons, ih]
  exact key 0

theorem shown_eq (rs : List Nat) (xs : List α) : Spec.shown rs xs = keepShown rs 0 xs := by
  have key : ∀ i, ((xs.zipIdx i).filter fun p => rs.contains p.2).map Prod.fst = keepShown rs i xs := by
    induction xs with
    | nil => intro i; rfl
    | cons x xs ih =>
      intro i
      rw [List.zipIdx_cons, keepShown, ← ih (i + 1), List.filter_cons]
      by_cases h : rs.contains i = true
      · rw [if_pos h, if_pos h, List.map_cons]
      · rw [if_neg h, if_neg h]
  exact key 0

theorem hiddenGens_eq (rs : List Nat) (i : Nat) (hs : List S.G1) : hiddenGens rs i hs = keepHidden rs i hs := by
  induction hs generalizing i with
  | nil => rfl
  | cons h hs ih => simp only [hiddenGens, keepHidden, ih]

theorem keepHidden_congr {rs rs' : List Nat} (h : ∀ i, i ∈ rs ↔ i ∈ rs') (i : Nat) (xs : List α) :
    keepHidden rs i xs = keepHidden rs' i xs := by
  induction xs generalizing i with
  | nil => rfl
  | cons x xs ih => simp only [keepHidden, ih, List.contains_iff_mem, h]

theorem keepShown_congr {rs rs' : List Nat} (h : ∀ i, i ∈ rs ↔ i ∈ rs') (i : Nat) (xs : List α) :
    keepShown rs i xs = keepShown rs' i xs := by
  induction xs generalizing i with
  | nil => rfl
  | cons x xs ih => simp only [keepShown, ih, List.contains_iff_mem, h]

theorem keepShown_map (f : α → β) (rs : List Nat) (i : Nat) (xs : List α) :
    keepShown rs i (xs.map f) = (keepShown rs i xs).map f := by
  induction xs generalizing i with
  | nil => rfl
  | cons x xs ih =>
    simp only [List.map_cons, keepShown, ih]
    split <;> simp

theorem keepHidden_map (f : α → β) (rs : List Nat) (i : Nat) (xs : List α) :
    keepHidden rs i (xs.map f) = (keepHidden rs i xs).map f := by
  induction xs generalizing i with
  | nil => rfl
  | cons x xs ih =>
    simp only [List.map_cons, keepHidden, ih]
    split <;> simp

theorem keepShown_length (rs : List Nat) (i : Nat) (xs : List α) :
    (keepShown rs i xs).length = ((List.range' i xs.length).filter (rs.contains ·)).length := by
  induction xs generalizing i with
  | nil => rfl
  | cons x xs ih =>
    simp only [keepShown, List.length_cons, List.range'_succ, List.filter_cons]
    split <;> simp [ih]

theorem keep_length (rs : List Nat) (i : Nat) (xs : List α) :
    (keepShown rs i xs).length + (keepHidden rs i xs).length = xs.length := by
  induction xs generalizing i with
  | nil => rfl
  | cons x xs ih =>
    have := ih (i + 1)
    simp only [keepShown, keepHidden]
    split <;> simp <;> omega

theorem keepHidden_length_eq {ys : List β} {xs : List α} (rs : List Nat) (i : Nat) (h : xs.length = ys.length) :
    (keepHidden rs i xs).length = (keepHidden rs i ys).length := by
  induction xs generalizing i ys with
  | nil => cases ys <;> simp_all [keepHidden]
  | cons x xs ih =>
    cases ys with
    | nil => simp at h
    | cons y ys =>
      simp only [keepHidden]
      split <;> simp [ih (i + 1) (by simpa using h)]

theorem keepShown_length_eq {ys : List β} {xs : List α} (rs : List Nat) (i : Nat) (h : xs.length = ys.length) :
    (keepShown rs i xs).length = (keepShown rs i ys).length := by
  have h1 := keep_length rs i xs
  have h2 := keep_length rs i ys
  have h3 := keepHidden_length_eq rs i h
  omega

theorem lin_keep (rs : List Nat) (i : Nat) (as : List S.F) (Ps : List S.G1) (h : as.length = Ps.length) :
    S.lin as Ps = S.lin (keepShown rs i as) (keepShown rs i Ps) + S.lin (keepHidden rs i as) (keepHidden rs i Ps) := by
  induction as generalizing i Ps with
  | nil => cases Ps <;> simp_all [keepShown, keepHidden]
  | cons a as ih =>
    cases Ps with
    | nil => simp at h
    | cons P Ps =>
      rw [Suite.lin_cons, ih (i + 1) Ps (by simpa using h)]
      simp only [keepShown, keepHidden]
      split
      · simp only [Suite.lin_cons, add_assoc]
      · simp only [Suite.lin_cons, add_left_comm]

/-- The two parts put together again. -/
def merge {α : Type} (rs : List Nat) : Nat → Nat → List α → List α → List α
  | 0, _, _, _ => []
  | n + 1, i, shown, hidden =>
    if rs.contains i then
      match shown with
      | x :: xs => x :: merge rs n (i + 1) xs hidden
      | [] => []
    else
      match hidden with
      | x :: xs => x :: merge rs n (i + 1) shown xs
      | [] => []

theorem merge_spec {α β : Type} (rs : List Nat) (ys : List β) (i : Nat) (sh hi : List α)
    (h1 : sh.length = (keepShown rs i ys).length) (h2 : hi.length = (keepHidden rs i ys).length) :
    (merge rs ys.length i sh hi).length = ys.length ∧ keepShown rs i (merge rs ys.length i sh hi) = sh ∧
      keepHidden rs i (merge rs ys.length i sh hi) = hi := by
  induction ys generalizing i sh hi with
  | nil =>
    simp only [keepShown, keepHidden, List.length_nil, List.length_eq_zero_iff] at h1 h2
    subst h1 h2
    simp [merge, keepShown, keepHidden]
  | cons y ys ih =>
    by_cases hc : rs.contains i = true
    · simp only [keepShown, keepHidden, if_pos hc, List.length_cons] at h1 h2
      cases sh with
      | nil => simp at h1
      | cons x sh =>
        obtain ⟨a, b, c⟩ := ih (i + 1) sh hi (by simpa using h1) h2
        simp only [List.length_cons, merge, if_pos hc, keepShown, keepHidden]
        exact ⟨by rw [a], by rw [b], c⟩
    · simp only [keepShown, keepHidden, if_neg hc, List.length_cons] at h1 h2
      cases hi with
      | nil => simp at h2
      | cons x hi =>
        obtain ⟨a, b, c⟩ := ih (i + 1) sh hi h1 (by simpa using h2)
        simp only [List.length_cons, merge, if_neg hc, keepShown, keepHidden]
        exact ⟨by rw [a], b, by rw [c]⟩

theorem splitGens_eq (rs : List Nat) (i : Nat) (hs : List S.G1) (ms : List (SigMsg S))
    (h : (keepShown rs i hs).length ≤ ms.length) :
    splitGens rs i hs ms = .ok ((keepShown rs i hs).zip (ms.map (·.fr)), keepHidden rs i hs) := by
  induction hs generalizing i ms with
  | nil => rfl
  | cons g hs ih =>
    by_cases hc : rs.contains i = true
    · simp only [keepShown, keepHidden, if_pos hc, List.length_cons, splitGens] at h ⊢
      cases ms with
      | nil => simp at h
      | cons m ms => simp only [ih (i + 1) ms (by simpa using h), Res.ok_bind, Res.pure_def, List.map_cons,
          List.zip_cons_cons]
    · simp only [keepShown, keepHidden, if_neg hc, splitGens] at h ⊢
      simp only [ih (i + 1) ms h, Res.ok_bind, Res.pure_def]

theorem splitGens_short (rs : List Nat) (i : Nat) (hs : List S.G1) (ms : List (SigMsg S))
    (h : ms.length < (keepShown rs i hs).length) : splitGens rs i hs ms = .panic := by
  induction hs generalizing i ms with
  | nil => simp [keepShown] at h
  | cons g hs ih =>
    by_cases hc : rs.contains i = true
    · simp only [keepShown, if_pos hc, List.length_cons, splitGens] at h ⊢
      cases ms with
      | nil => rfl
      | cons m ms => simp only [ih (i + 1) ms (by simpa using h), Res.panic_bind]
    · simp only [keepShown, if_neg hc, splitGens] at h ⊢
      simp only [ih (i + 1) ms h, Res.panic_bind]

theorem zip_sum (hs : List S.G1) (as : List S.F) :
    ((hs.zip as).map fun p => p.2 • p.1).sum = S.lin as hs := by
  induction hs generalizing as with
  | nil => simp
  | cons h hs ih => cases as <;> simp [ih]

theorem revealed_length {rs : List Nat} {n : Nat} (hs : rs.Pairwise (· < ·)) (hr : ∀ r ∈ rs, r < n) (xs : List α)
    (hx : xs.length = n) : (keepShown rs 0 xs).length = rs.length := by
  rw [keepShown_length, hx]
  apply List.Perm.length_eq
  rw [List.perm_ext_iff_of_nodup ((List.nodup_range' (step := 1)).filter _) (hs.imp (fun h => by omega))]
  intro a
  rw [List.mem_filter, List.contains_iff_mem, List.mem_range'_1]
  constructor
  · exact fun h => h.2
  · intro h; have := hr a h; exact ⟨by omega, h⟩

theorem keepShown_length_le (rs : List Nat) (i : Nat) (xs : List α) :
    (keepShown rs i xs).length ≤ rs.length := by
  rw [keepShown_length]
  refine (List.Nodup.subperm ((List.nodup_range' (step := 1)).filter _) ?_).length_le
  intro a ha
  rw [List.mem_filter, List.contains_iff_mem] at ha
  exact ha.2

/-! ## Hidden messages of the prover -/

theorem hiddenMsgs_fr (messages : List (SigMsg S)) (rs : List Nat) (i : Nat)
    (h : ∀ j (hj : j < messages.length), messages[j].idx = ((i + j : Nat) : Int)) :
    hiddenMsgs messages (rs.map fun r : Nat => (r : Int)) = keepHidden rs i messages := by
  induction messages generalizing i with
  | nil => rfl
  | cons m ms ih =>
    have h0 : m.idx = ((i : Nat) : Int) := h 0 (by simp)
    have hc : (rs.map fun r : Nat => (r : Int)).contains m.idx = rs.contains i := by
      rw [h0, Bool.eq_iff_iff, List.contains_iff_mem, List.contains_iff_mem, List.mem_map]
      constructor
      · rintro ⟨a, ha, e⟩
        have : a = i := by exact_mod_cast e
        exact this ▸ ha
      · exact fun ha => ⟨i, ha, rfl⟩
    have ih' := ih (i + 1) (fun j hj => by
      have := h (j + 1) (by simpa using hj)
      simp only [List.getElem_cons_succ] at this
      rw [this]; push_cast; ring)
    rw [hiddenMsgs] at ih' ⊢
    rw [List.filter_cons, keepHidden, hc, ih']
    cases rs.contains i <;> simp

theorem msgBases_keepHidden (pk : PKG S) (rs : List Nat) (messages : List (SigMsg S)) (hs : List S.G1) (i : Nat)
    (h : ∀ j (hj : j < messages.length), messages[j].idx = ((i + j : Nat) : Int)) (hl : messages.length = hs.length)
    (hp : ∀ j (hj : j < hs.length), pk.h[i + j]? = some hs[j]) :
    msgBases pk (keepHidden rs i messages) = .ok (keepHidden rs i hs) := by
  induction messages generalizing i hs with
  | nil =>
    cases hs with
    | nil => rfl
    | cons _ _ => simp at hl
  | cons m ms ih =>
    cases hs with
    | nil => simp at hl
    | cons g hs =>
      have h0 : m.idx = ((i : Nat) : Int) := h 0 (by simp)
      have hg : pk.h[i]? = some g := hp 0 (by simp)
      have ih' := ih hs (i + 1) (fun j hj => by
          have := h (j + 1) (by simpa using hj)
          simp only [List.getElem_cons_succ] at this
          rw [this]; push_cast; ring) (by simpa using hl) (fun j hj => by
          have := hp (j + 1) (by simpa using hj)
          simp only [List.getElem_cons_succ] at this
          rw [← this]; congr 1; omega)
      simp only [keepHidden]
      split
      · exact ih'
      · rw [msgBases, Res.mapM'_cons, h0, Res.index_nat, hg, ← msgBases, ih']
        rfl

end Idemix.Bbs
