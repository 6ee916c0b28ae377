import Verif.Dlog.Sign
import Verif.Base.Disclose
import Mathlib.Tactic.Abel

/-!
# dlog scheme: lemmas about loops, buffers and index lists
-/

namespace Idemix

theorem Suite.lin_split (S : Suite) (D : Bytes) (as : List S.F) (Ps : List S.G1)
    (h1 : as.length = D.length) :
    S.lin as Ps = S.lin (hid D as) (hid D Ps) + S.lin (dis D as) (dis D Ps) := by
  induction D generalizing as Ps with
  | nil => cases as <;> simp_all
  | cons d ds ih =>
    cases as with
    | nil => simp at h1
    | cons a as =>
      cases Ps with
      | nil => simp
      | cons P Ps =>
        have := ih as Ps (by simpa using h1)
        by_cases hd : d = 0
        · subst hd; simp only [hid_cons_zero, dis_cons_zero, Suite.lin_cons, this]; abel
        · simp only [hid_cons_ne hd, dis_cons_ne hd, Suite.lin_cons, this]; abel

namespace Dlog
variable {S : Suite}

theorem addPairs_ok (acc : S.G1) (as : List S.F) (Ps : List S.G1) (h : as.length ≤ Ps.length) :
    addPairs acc as Ps = .ok (acc + S.lin as Ps) := by
  induction acc, as, Ps using addPairs.induct with
  | case1 acc Ps => simp [addPairs]
  | case2 acc a P Ps => simp [addPairs]
  | case3 acc a b as P Q Ps ih =>
    simp only [addPairs, Suite.lin_cons]
    rw [ih (by simpa using h)]
    congr 1; abel
  | case4 as acc Ps h1 h2 h3 =>
    exfalso
    rcases as with _ | ⟨a, _ | ⟨b, as⟩⟩
    · exact h1 rfl
    · rcases Ps with _ | ⟨P, Ps⟩
      · simp at h
      · exact h2 _ _ _ rfl rfl
    · rcases Ps with _ | ⟨P, _ | ⟨Q, Ps⟩⟩
      · simp at h
      · simp at h
      · exact h3 _ _ _ _ _ _ rfl rfl

theorem addPairs_panic (acc : S.G1) (as : List S.F) (Ps : List S.G1) (h : Ps.length < as.length) :
    addPairs acc as Ps = .panic := by
  induction acc, as, Ps using addPairs.induct with
  | case1 acc Ps => simp at h
  | case2 acc a P Ps => simp at h
  | case3 acc a b as P Q Ps ih =>
    simp only [addPairs]
    exact ih (by simpa using h)
  | case4 as acc Ps h1 h2 h3 => rw [addPairs]; all_goals assumption

theorem addPairs_eq_ok {acc : S.G1} {as : List S.F} {Ps : List S.G1} {r : S.G1} :
    addPairs acc as Ps = .ok r ↔ as.length ≤ Ps.length ∧ r = acc + S.lin as Ps := by
  by_cases h : as.length ≤ Ps.length
  · rw [addPairs_ok _ _ _ h]; simp [h, eq_comm]
  · rw [addPairs_panic _ _ _ (by omega)]; simp [h]

theorem hiddenFrom_length (i : Nat) (D : Bytes) : (hiddenFrom i D).length = nHid D := by
  induction D generalizing i with
  | nil => rfl
  | cons d ds ih =>
    have := ih (i + 1)
    by_cases hd : d = 0
    · subst hd; simp [hiddenFrom, nHid] at *; exact this
    · simp [hiddenFrom, nHid, hd] at *; exact this

@[simp] theorem hiddenIndices_length (D : Bytes) : (hiddenIndices D).length = nHid D :=
  hiddenFrom_length 0 D

theorem mapM_hidden {α : Type} (D : Bytes) (i : Nat) (l : List α) (h : i + D.length ≤ l.length) :
    Res.mapM' (Res.nth l) (hiddenFrom i D) = .ok (hid D (l.drop i)) := by
  induction D generalizing i with
  | nil => simp [hiddenFrom]
  | cons d ds ih =>
    simp only [List.length_cons] at h
    have hi : i < l.length := by omega
    have hdrop : l.drop i = l[i] :: l.drop (i + 1) := List.drop_eq_getElem_cons hi
    have ih' := ih (i + 1) (by omega)
    by_cases hd : d = 0
    · subst hd
      simp [hiddenFrom, Res.nth, hi, ih']
      rw [hdrop, hid_cons_zero]
    · simp [hiddenFrom, hd, ih']
      rw [hdrop, hid_cons_ne hd]

theorem mapM_hidden0 {α : Type} (D : Bytes) (l : List α) (h : D.length ≤ l.length) :
    Res.mapM' (Res.nth l) (hiddenIndices D) = .ok (hid D l) := by
  simpa [hiddenIndices] using mapM_hidden D 0 l (by omega)

/-- If the loop over hidden indices and the loop over disclosed indices both stay in range, there are
at least as many entries as positions. -/
theorem addDisclosed_eq_ok {hAttrs : List S.G1} {values : List (Option S.F)} {acc r : S.G1} {i : Nat}
    {D : Bytes} (h : i + D.length ≤ hAttrs.length) :
    addDisclosed hAttrs values acc i D = .ok r ↔
      ∃ vs, vs.map some = dis D (values.drop i) ∧ vs.length = nDis D ∧
        r = acc + S.lin vs (dis D (hAttrs.drop i)) := by
  induction D generalizing acc i with
  | nil =>
    simp only [addDisclosed, Res.ok.injEq, dis_nil, List.map_eq_nil_iff]
    constructor
    · rintro rfl; exact ⟨[], rfl, rfl, by simp⟩
    · rintro ⟨vs, rfl, -, h⟩; simpa using h.symm
  | cons d ds ih =>
    simp only [List.length_cons] at h
    have hi : i < hAttrs.length := by omega
    have hdrop : hAttrs.drop i = hAttrs[i] :: hAttrs.drop (i + 1) := List.drop_eq_getElem_cons hi
    have ih' := fun acc => ih (acc := acc) (i := i + 1) (by omega)
    have hc : List.count 0 ds ≤ ds.length := List.count_le_length
    by_cases hd : d = 0
    · subst hd
      have hn : nDis (0 :: ds) = nDis ds := by simp [nDis]
      rw [hn]
      rw [hdrop]
      simp only [addDisclosed, if_true, ih', dis_cons_zero]
      constructor
      · rintro ⟨vs, h1, h2, h3⟩
        refine ⟨vs, ?_, h2, h3⟩
        rw [h1]
        rcases hv : values.drop i with _ | ⟨v, vs'⟩
        · have : values.drop (i + 1) = [] := by
            rw [List.drop_eq_nil_iff] at hv ⊢; omega
          simp [this]
        · have : values.drop (i + 1) = vs' := by
            rw [← List.drop_drop, hv]; rfl
          simp [this]
      · rintro ⟨vs, h1, h2, h3⟩
        refine ⟨vs, ?_, h2, h3⟩
        rw [h1]
        rcases hv : values.drop i with _ | ⟨v, vs'⟩
        · have : values.drop (i + 1) = [] := by
            rw [List.drop_eq_nil_iff] at hv ⊢; omega
          simp [this]
        · have : values.drop (i + 1) = vs' := by
            rw [← List.drop_drop, hv]; rfl
          simp [this]
    · have hn : nDis (d :: ds) = nDis ds + 1 := by simp [nDis, hd]; omega
      rw [hn]
      rw [hdrop]
      simp only [addDisclosed, hd, if_false, Res.nth, hi, List.getElem?_eq_getElem, Res.deref_some,
        Res.ok_bind, dis_cons_ne hd, Res.bind_eq_ok, Res.deref_eq_ok, ih']
      constructor
      · rintro ⟨ov, hv1, v, hv2, vs, h1, h2, h3⟩
        obtain ⟨hv, he⟩ := List.getElem?_eq_some_iff.mp hv1
        have hvd : values.drop i = some v :: values.drop (i + 1) := by
          rw [List.drop_eq_getElem_cons hv, he, hv2]
        refine ⟨v :: vs, ?_, by simp [h2], ?_⟩
        · rw [hvd, dis_cons_ne hd, List.map_cons, h1]
        · rw [h3, Suite.lin_cons]; abel
      · rintro ⟨vs, h1, h2, h3⟩
        rcases hv : values.drop i with _ | ⟨v, vs'⟩
        · rw [hv] at h1
          simp at h1; subst h1; simp at h2
        · have hd1 : values.drop (i + 1) = vs' := by rw [← List.drop_drop, hv]; rfl
          have hi' : i < values.length := by
            by_contra hcon
            rw [List.drop_eq_nil_of_le (by omega)] at hv; cases hv
          have hv' := List.drop_eq_getElem_cons hi'
          rw [hv] at hv'
          rw [hv, dis_cons_ne hd] at h1
          rcases vs with _ | ⟨w, vs⟩
          · simp at h1
          · simp only [List.map_cons, List.cons.injEq] at h1
            refine ⟨v, ?_, w, h1.1.symm, vs, ?_, by simpa using h2, ?_⟩
            · rw [List.getElem?_eq_getElem hi']
              exact congrArg some (List.cons.inj hv').1.symm
            · rw [hd1]; exact h1.2
            · rw [h3, Suite.lin_cons]; abel

/-- If both loops succeed every position has a base. -/
theorem bases_length {hAttrs hHid : List S.G1} {values : List (Option S.F)} {acc r : S.G1} {i : Nat}
    {D : Bytes} (h1 : Res.mapM' (Res.nth hAttrs) (hiddenFrom i D) = .ok hHid)
    (h2 : addDisclosed hAttrs values acc i D = .ok r) : D = [] ∨ i + D.length ≤ hAttrs.length := by
  induction D generalizing i acc hHid with
  | nil => simp
  | cons d ds ih =>
    right
    have hi : i < hAttrs.length ∧ (ds = [] ∨ i + 1 + ds.length ≤ hAttrs.length) := by
      by_cases hd : d = 0
      · subst hd
        simp only [hiddenFrom, if_true, Res.mapM'_cons, Res.bind_eq_ok, Res.nth_eq_ok,
          addDisclosed] at h1 h2
        obtain ⟨b, hb, bs, hbs, -⟩ := h1
        exact ⟨(List.getElem?_eq_some_iff.mp hb).1, ih hbs h2⟩
      · simp only [hiddenFrom, hd, if_false, addDisclosed, Res.bind_eq_ok, Res.nth_eq_ok] at h1 h2
        obtain ⟨b, hb, v, hv, v', hv', h2⟩ := h2
        exact ⟨(List.getElem?_eq_some_iff.mp hb).1, ih h1 h2⟩
    rcases hi with ⟨hi, rfl | h⟩ <;> simp <;> omega

theorem searchFrom (D : Bytes) (i : Nat) (x : Int) :
    (hiddenFrom i D).findIdx (fun n : Nat => decide (x ≤ (n : Int))) =
      (D.take (x - i).toNat).count 0 := by
  induction D generalizing i with
  | nil => simp [hiddenFrom]
  | cons d ds ih =>
    have ih' := ih (i + 1)
    by_cases hx : x ≤ (i : Int)
    · have e : (x - i).toNat = 0 := by omega
      have e' : (x - ((i + 1 : Nat) : Int)).toNat = 0 := by omega
      rw [e] ; rw [e'] at ih'
      simp only [List.take_zero, List.count_nil] at ih' ⊢
      by_cases hd : d = 0
      · subst hd
        simp [hiddenFrom, List.findIdx_cons, hx]
      · simpa [hiddenFrom, hd] using ih'
    · have e : (x - i).toNat = (x - ((i + 1 : Nat) : Int)).toNat + 1 := by omega
      rw [e, List.take_succ_cons]
      by_cases hd : d = 0
      · subst hd
        simp only [hiddenFrom, if_true, List.findIdx_cons, hx, decide_false, cond_false, ih',
          List.count_cons_self]
      · simp [hiddenFrom, hd, ih']

/-- `SearchInts(hiddenIndices(D), x)` is the number of hidden positions below `x`. -/
theorem searchInts_eq (D : Bytes) (x : Int) :
    searchInts (hiddenIndices D) x = (D.take x.toNat).count 0 := by
  simpa [searchInts, hiddenIndices] using searchFrom D 0 x

/-- At a hidden position, `SearchInts` finds the response belonging to that position. -/
theorem hid_getElem {α : Type} (D : Bytes) (l : List α) (n : Nat) (h : D[n]? = some 0)
    (hl : D.length ≤ l.length) : (hid D l)[(D.take n).count 0]? = l[n]? := by
  induction D generalizing l n with
  | nil => simp at h
  | cons d ds ih =>
    cases l with
    | nil => simp at hl
    | cons x xs =>
      cases n with
      | zero =>
        simp at h; subst h; simp
      | succ n =>
        have := ih xs n (by simpa using h) (by simpa using hl)
        by_cases hd : d = 0
        · subst hd; simpa using this
        · simp [hid_cons_ne hd, hd]; simpa using this

/-! ### transcripts are concatenations -/

theorem ipkProofData_eq (t1 : S.G2) (t2 b1 : S.G1) (w : S.G2) (b2 : S.G1) :
    ipkProofData t1 t2 b1 w b2 = .ok (S.g2Bytes t1 ++ S.g1Bytes t2 ++ S.g2Bytes S.genG2 ++
      S.g1Bytes b1 ++ S.g2Bytes w ++ S.g1Bytes b2) := by
  unfold ipkProofData
  rw [Buf.layout0]
  · simp
  · simp; ring

theorem credReqProofData_eq (t hSk nym : S.G1) (nonce hash : Bytes)
    (hn : nonce.length + hash.length = 2 * S.scalarLen) :
    credReqProofData t hSk nym nonce hash = .ok (credRequestLabel ++ S.g1Bytes t ++ S.g1Bytes hSk ++
      S.g1Bytes nym ++ nonce ++ hash) := by
  have key := Buf.layout0 (credRequestLabel.length + 3 * S.g1Len + 2 * S.scalarLen)
    [credRequestLabel, S.g1Bytes t, S.g1Bytes hSk, S.g1Bytes nym, nonce, hash]
    (by simp; omega)
  simp only [Buf.appAll, bind_assoc, Res.bind_ok, Res.pure_def] at key
  simp only [credReqProofData, Buf.appAll, bind_assoc, Res.ok_bind, Res.pure_def, key]
  simp

theorem nymSigProofData_eq (t nym : S.G1) (hash msg : Bytes) :
    nymSigProofData t nym hash msg = .ok (signLabel ++ S.g1Bytes t ++ S.g1Bytes nym ++
      Buf.padTo S.scalarLen hash ++ msg) := by
  unfold nymSigProofData
  rw [Buf.layout]
  · simp
  · simp; ring

theorem secondHash_eq (d : Bytes) (c nonce : S.F) (h : 2 * S.scalarLen ≤ d.length) :
    secondHash d c nonce = .ok (S.zrBytes c ++ S.zrBytes nonce) := by
  unfold secondHash
  rw [Buf.reuse _ _ _ _ h]
  · simp
  · simp; ring

/-- The bytes of an optional pseudonym in the transcript. -/
def nymBytes (S : Suite) : Option (S.G1 × S.G1) → Bytes
  | none => []
  | some (nym, t4) => S.g1Bytes nym ++ S.g1Bytes t4

theorem nymPieces_flatten (o : Option (S.G1 × S.G1)) : (nymPieces S o).flatten = nymBytes S o := by
  rcases o with _ | ⟨a, b⟩ <;> simp [nymPieces, nymBytes]

theorem nymBytes_length (o : Option (S.G1 × S.G1)) :
    (nymBytes S o).length = (if o.isSome then 2 else 0) * S.g1Len := by
  rcases o with _ | ⟨a, b⟩ <;> simp [nymBytes]; ring

theorem sigProofData_eq (label : Bytes) (nPts : Nat) (alg : Int) (t1 t2 t3 aP aB bP nym : S.G1)
    (eid rh : Option (S.G1 × S.G1)) (hash D msg : Bytes)
    (hp : nPts = 7 + (if eid.isSome then 2 else 0) + (if rh.isSome then 2 else 0)) :
    sigProofData label nPts alg t1 t2 t3 aP aB bP nym eid rh [] hash D msg =
      .ok (label ++ S.g1Bytes t1 ++ S.g1Bytes t2 ++ S.g1Bytes t3 ++ S.g1Bytes aP ++ S.g1Bytes aB ++
        S.g1Bytes bP ++ S.g1Bytes nym ++ nymBytes S eid ++ nymBytes S rh ++
        Buf.padTo S.scalarLen hash ++ D ++ msg) := by
  unfold sigProofData
  rw [Buf.layout]
  · simp [nymPieces_flatten]
  · simp only [List.flatten_append, nymPieces_flatten, List.length_append, nymBytes_length]
    simp only [List.flatten_cons, List.flatten_nil, List.length_append, Suite.g1Bytes_len,
      List.length_nil, proofBytes, hp]
    ring

end Dlog
end Idemix
