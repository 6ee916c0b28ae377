import Verif.Base.Buf

/-!
# Disclosure vectors

A disclosure vector has one byte per attribute; zero means hidden.
-/

namespace Idemix

/-- Entries of `l` at the positions where the disclosure vector is zero (hidden). -/
def hid {α : Type} : Bytes → List α → List α
  | d :: ds, x :: xs => if d = 0 then x :: hid ds xs else hid ds xs
  | _, _ => []

/-- Entries of `l` at the positions where the disclosure vector is non-zero (disclosed). -/
def dis {α : Type} : Bytes → List α → List α
  | d :: ds, x :: xs => if d = 0 then dis ds xs else x :: dis ds xs
  | _, _ => []

/-- The vector whose hidden entries are taken from `hs` and whose disclosed entries from `vs`. -/
def merge {α : Type} : Bytes → List α → List α → List α
  | [], _, _ => []
  | d :: ds, hs, vs =>
    if d = 0 then
      match hs with
      | h :: hs => h :: merge ds hs vs
      | [] => []
    else
      match vs with
      | v :: vs => v :: merge ds hs vs
      | [] => []

@[simp] theorem hid_nil {α : Type} (l : List α) : hid [] l = [] := by cases l <;> rfl
@[simp] theorem dis_nil {α : Type} (l : List α) : dis [] l = [] := by cases l <;> rfl
@[simp] theorem hid_nil' {α : Type} (D : Bytes) : hid D ([] : List α) = [] := by cases D <;> rfl
@[simp] theorem dis_nil' {α : Type} (D : Bytes) : dis D ([] : List α) = [] := by cases D <;> rfl
@[simp] theorem hid_cons_zero {α : Type} (ds : Bytes) (x : α) (xs : List α) :
    hid (0 :: ds) (x :: xs) = x :: hid ds xs := by simp [hid]
@[simp] theorem dis_cons_zero {α : Type} (ds : Bytes) (x : α) (xs : List α) :
    dis (0 :: ds) (x :: xs) = dis ds xs := by simp [dis]
theorem hid_cons_ne {α : Type} {d : UInt8} (h : d ≠ 0) (ds : Bytes) (x : α) (xs : List α) :
    hid (d :: ds) (x :: xs) = hid ds xs := by simp [hid, h]
theorem dis_cons_ne {α : Type} {d : UInt8} (h : d ≠ 0) (ds : Bytes) (x : α) (xs : List α) :
    dis (d :: ds) (x :: xs) = x :: dis ds xs := by simp [dis, h]

/-- Number of hidden positions. -/
def nHid (D : Bytes) : Nat := D.count 0
/-- Number of disclosed positions. -/
def nDis (D : Bytes) : Nat := D.length - D.count 0

theorem hid_length {α : Type} (D : Bytes) (l : List α) (h : D.length ≤ l.length) :
    (hid D l).length = nHid D := by
  induction D generalizing l with
  | nil => simp [nHid]
  | cons d ds ih =>
    cases l with
    | nil => simp at h
    | cons x xs =>
      have := ih xs (by simpa using h)
      by_cases hd : d = 0
      · subst hd; simp [nHid] at *; exact this
      · simp [hid_cons_ne hd, nHid, hd] at *; exact this

theorem dis_length {α : Type} (D : Bytes) (l : List α) (h : D.length ≤ l.length) :
    (dis D l).length = nDis D := by
  induction D generalizing l with
  | nil => simp [nDis]
  | cons d ds ih =>
    cases l with
    | nil => simp at h
    | cons x xs =>
      have := ih xs (by simpa using h)
      have hc : List.count 0 ds ≤ ds.length := List.count_le_length
      by_cases hd : d = 0
      · subst hd; simp [nDis] at *; omega
      · simp [dis_cons_ne hd, nDis, hd] at *; omega

theorem map_hid {α β : Type} (f : α → β) (D : Bytes) (l : List α) :
    (hid D l).map f = hid D (l.map f) := by
  induction D generalizing l with
  | nil => simp
  | cons d ds ih =>
    cases l with
    | nil => simp
    | cons x xs =>
      by_cases hd : d = 0
      · subst hd; simp [ih]
      · simp [hid_cons_ne hd, ih]

theorem map_dis {α β : Type} (f : α → β) (D : Bytes) (l : List α) :
    (dis D l).map f = dis D (l.map f) := by
  induction D generalizing l with
  | nil => simp
  | cons d ds ih =>
    cases l with
    | nil => simp
    | cons x xs =>
      by_cases hd : d = 0
      · subst hd; simp [ih]
      · simp [dis_cons_ne hd, ih]

theorem merge_spec {α : Type} (D : Bytes) (hs vs : List α) (h1 : hs.length = nHid D)
    (h2 : vs.length = nDis D) :
    (merge D hs vs).length = D.length ∧ hid D (merge D hs vs) = hs ∧ dis D (merge D hs vs) = vs := by
  induction D generalizing hs vs with
  | nil =>
    simp [nHid, nDis] at h1 h2
    subst h1 h2
    simp [merge]
  | cons d ds ih =>
    have hc : List.count 0 ds ≤ ds.length := List.count_le_length
    by_cases hd : d = 0
    · subst hd
      cases hs with
      | nil => simp [nHid] at h1
      | cons h hs =>
        have := ih hs vs (by simpa [nHid] using h1) (by simp [nDis] at h2 ⊢; omega)
        simp [merge, this]
    · cases vs with
      | nil => simp [nDis, hd] at h2; omega
      | cons v vs =>
        have := ih hs vs (by simpa [nHid, hd] using h1) (by simp [nDis, hd] at h2 ⊢; omega)
        simp [merge, hd, hid_cons_ne hd, dis_cons_ne hd, this]

theorem merge_hid_dis {α : Type} (D : Bytes) (l : List α) (h : D.length = l.length) :
    merge D (hid D l) (dis D l) = l := by
  induction D generalizing l with
  | nil => cases l <;> simp_all [merge]
  | cons d ds ih =>
    cases l with
    | nil => simp at h
    | cons x xs =>
      have := ih xs (by simpa using h)
      by_cases hd : d = 0
      · subst hd; simp [merge, this]
      · simp [merge, hd, hid_cons_ne hd, dis_cons_ne hd, this]

/-- Vectors with the same disclosed entries agree at every disclosed position. -/
theorem dis_eq_pos {α : Type} (D : Bytes) (l l' : List α) (hl : D.length ≤ l.length)
    (h : dis D l = dis D l') (i : Nat) (d : UInt8) (hd : D[i]? = some d) (hne : d ≠ 0) :
    l[i]? = l'[i]? := by
  induction D generalizing l l' i with
  | nil => simp at hd
  | cons c cs ih =>
    cases l with
    | nil => simp at hl
    | cons x xs =>
      have hl' : cs.length ≤ xs.length := by simpa using hl
      by_cases hc : c = 0
      · subst hc
        cases i with
        | zero => simp at hd; exact absurd hd.symm hne
        | succ i =>
          cases l' with
          | nil =>
            have := ih xs [] hl' (by simpa using h) i (by simpa using hd)
            simpa using this
          | cons y ys =>
            have := ih xs ys hl' (by simpa using h) i (by simpa using hd)
            simpa using this
      · cases l' with
        | nil => rw [dis_cons_ne hc] at h; simp at h
        | cons y ys =>
          rw [dis_cons_ne hc, dis_cons_ne hc] at h
          simp only [List.cons.injEq] at h
          cases i with
          | zero => simp [h.1]
          | succ i =>
            have := ih xs ys hl' h.2 i (by simpa using hd)
            simpa using this

theorem hid_append_count {α : Type} (D : Bytes) (l : List α) (h : D.length ≤ l.length) :
    (hid D l).length + (dis D l).length = D.length := by
  rw [hid_length D l h, dis_length D l h, nHid, nDis]
  have : D.count 0 ≤ D.length := List.count_le_length
  omega

/-- The converse of `dis_eq_pos`. -/
theorem dis_eq_of_pos {α : Type} (D : Bytes) (l l' : List α) (hl : D.length ≤ l.length)
    (hl' : D.length ≤ l'.length)
    (h : ∀ (i : Nat) (d : UInt8), D[i]? = some d → d ≠ 0 → l[i]? = l'[i]?) : dis D l = dis D l' := by
  induction D generalizing l l' with
  | nil => simp
  | cons c cs ih =>
    cases l with
    | nil => simp at hl
    | cons x xs =>
      cases l' with
      | nil => simp at hl'
      | cons y ys =>
        have := ih xs ys (by simpa using hl) (by simpa using hl') fun i d hd hne => by
          simpa using h (i + 1) d (by simpa using hd) hne
        by_cases hc : c = 0
        · subst hc; simpa using this
        · have h0 := h 0 c rfl hc
          simp only [List.getElem?_cons_zero, Option.some.injEq] at h0
          rw [dis_cons_ne hc, dis_cons_ne hc, this, h0]

theorem count_take_lt {D : Bytes} {i : Nat} (h : D[i]? = some 0) : (D.take i).count 0 < nHid D := by
  obtain ⟨hi, he⟩ := List.getElem?_eq_some_iff.mp h
  have : D = D.take i ++ 0 :: D.drop (i + 1) := by
    conv_lhs => rw [← List.take_append_drop i D, List.drop_eq_getElem_cons hi, he]
  rw [nHid]
  conv_rhs => rw [this]
  simp [List.count_append]

end Idemix
