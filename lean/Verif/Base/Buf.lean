import Verif.Base.Res
import Mathlib.Tactic.Ring

/-!
# Pre-sized byte buffers written through an index

The code computes every Fiat–Shamir input by allocating a buffer of a computed length, and writing
pieces at a running index with `copy(data[index:], bytes)`.  `copy` truncates silently when the buffer
is too short and leaves zeros when it is too long, and `data[index:]` panics when `index` exceeds the
length.  The model keeps these semantics; the lemmas below say when the result is exactly the
concatenation of the pieces.
-/

namespace Idemix

/-- `copy(data[i:], b)`: panics if `i > len(data)`, otherwise overwrites at most `len(data)-i` bytes. -/
def copyAt (data : Bytes) (i : Nat) (b : Bytes) : Res Bytes :=
  if data.length < i then .panic
  else .ok (data.take i ++ b.take (data.length - i) ++ data.drop (i + b.length))

/-- A buffer together with the running write index. -/
structure Buf where
  data : Bytes
  index : Nat
  deriving DecidableEq, Repr

namespace Buf

/-- `make([]byte, n)` with `index := 0`. -/
def make (n : Nat) : Buf := ⟨List.replicate n 0, 0⟩

/-- `index = appendBytes(data, index, b)` and its variants `appendBytesG1/G2/Big/String`
(`bccsp/schemes/dlog/crypto/util.go:16-36`). -/
def app (w : Buf) (b : Bytes) : Res Buf := do
  let d ← copyAt w.data w.index b
  pure ⟨d, w.index + b.length⟩

/-- `copy(data[index:], b); index = index + n` (used for the issuer key hash). -/
def slot (w : Buf) (n : Nat) (b : Bytes) : Res Buf := do
  let d ← copyAt w.data w.index b
  pure ⟨d, w.index + n⟩

/-- A sequence of `appendBytes` calls. -/
def appAll (w : Buf) : List Bytes → Res Buf
  | [] => .ok w
  | b :: bs => do
    let w' ← w.app b
    w'.appAll bs

/-- `data = data[:n]; index = 0` (re-slicing downwards; `cap = len` here, so growing panics). -/
def reslice (w : Buf) (n : Nat) : Res Buf :=
  if w.data.length < n then .panic else .ok ⟨w.data.take n, 0⟩

/-- A buffer whose first bytes `pre` are final and whose remaining bytes are `rest`. -/
def at' (pre rest : Bytes) : Buf := ⟨pre ++ rest, pre.length⟩

theorem make_eq (n : Nat) : make n = at' [] (List.replicate n 0) := rfl

theorem app_at (pre rest b : Bytes) (h : b.length ≤ rest.length) :
    (at' pre rest).app b = .ok (at' (pre ++ b) (rest.drop b.length)) := by
  have h1 : ¬ (pre ++ rest).length < pre.length := by simp
  have h2 : List.take ((pre ++ rest).length - pre.length) b = b := by
    apply List.take_of_length_le; simp; omega
  simp only [app, at', copyAt, h1, if_false, Res.ok_bind, Res.pure_def, h2]
  simp

theorem appAll_at (bs : List Bytes) (pre rest : Bytes) (h : bs.flatten.length ≤ rest.length) :
    (at' pre rest).appAll bs =
      .ok (at' (pre ++ bs.flatten) (rest.drop bs.flatten.length)) := by
  induction bs generalizing pre rest with
  | nil => simp [appAll]
  | cons b bs ih =>
    simp only [List.flatten_cons, List.length_append] at h
    simp only [appAll, app_at pre rest b (by omega), Res.ok_bind]
    rw [ih _ _ (by rw [List.length_drop]; omega)]
    simp [List.drop_drop]

/-- The bytes a slot of width `n` contributes, when the buffer is still zero there. -/
def padTo (n : Nat) (h : Bytes) : Bytes := h.take n ++ List.replicate (n - h.length) 0

@[simp] theorem padTo_length (n : Nat) (h : Bytes) : (padTo n h).length = n := by
  simp [padTo]; omega

theorem padTo_of_length {n : Nat} {h : Bytes} (hl : h.length = n) : padTo n h = h := by
  subst hl; simp [padTo]

/-- Writing a slot: the content is the truncated or zero-padded value; what follows is unspecified. -/
theorem slot_at (pre : Bytes) (m n : Nat) (b : Bytes) (h : n ≤ m) :
    ∃ rest, rest.length = m - n ∧
      (at' pre (List.replicate m 0)).slot n b = .ok (at' (pre ++ padTo n b) rest) := by
  have h1 : ¬ (pre ++ List.replicate m (0 : UInt8)).length < pre.length := by simp
  refine ⟨(b.take m ++ List.replicate (m - b.length) 0).drop n, by simp; omega, ?_⟩
  simp only [slot, at', copyAt, h1, if_false, Res.ok_bind, Res.pure_def]
  congr 2
  · have e1 : (pre ++ List.replicate m (0 : UInt8)).length - pre.length = m := by simp
    have e2 : List.take pre.length (pre ++ List.replicate m (0 : UInt8)) = pre := by simp
    have e3 : List.drop (pre.length + b.length) (pre ++ List.replicate m (0 : UInt8)) =
        List.replicate (m - b.length) 0 := by simp [List.drop_append]
    rw [e1, e2, e3, List.append_assoc, List.append_assoc]
    congr 1
    conv_lhs => rw [← List.take_append_drop n (b.take m ++ List.replicate (m - b.length) 0)]
    congr 1
    rw [List.take_append]
    simp only [padTo, List.take_take, Nat.min_eq_left h, List.length_take, List.take_replicate]
    congr 2
    omega
  · simp

/-- A buffer without remaining bytes holds exactly the concatenation. -/
theorem at_nil (pre : Bytes) : at' pre [] = ⟨pre, pre.length⟩ := by simp [at']

/-- Layout `pieces ‖ slot ‖ pieces`, exactly filling the allocation. -/
theorem layout (n k : Nat) (ps : List Bytes) (h : Bytes) (qs : List Bytes)
    (hn : n = ps.flatten.length + k + qs.flatten.length) :
    (do let w ← (make n).appAll ps
        let w ← w.slot k h
        let w ← w.appAll qs
        pure w.data) = .ok (ps.flatten ++ padTo k h ++ qs.flatten) := by
  rw [make_eq, appAll_at _ _ _ (by rw [List.length_replicate]; omega)]
  simp only [Res.ok_bind, List.nil_append, List.drop_replicate]
  obtain ⟨rest, hr, he⟩ := slot_at ps.flatten (n - ps.flatten.length) k h (by omega)
  rw [he]
  simp only [Res.ok_bind]
  rw [appAll_at _ _ _ (by omega)]
  simp only [Res.ok_bind, Res.pure_def, at']
  rw [List.drop_eq_nil_of_le (by omega)]
  simp

/-- Layout without slot. -/
theorem layout0 (n : Nat) (ps : List Bytes) (hn : n = ps.flatten.length) :
    (do let w ← (make n).appAll ps
        pure w.data) = .ok ps.flatten := by
  rw [make_eq, appAll_at _ _ _ (by rw [List.length_replicate]; omega)]
  simp only [Res.ok_bind, Res.pure_def, at']
  rw [List.drop_eq_nil_of_le (by rw [List.length_replicate]; omega)]
  simp

/-- Re-using the front of a buffer for the second hash. -/
theorem reuse (d : Bytes) (i n : Nat) (ps : List Bytes) (hd : n ≤ d.length)
    (hn : n = ps.flatten.length) :
    (do let w ← (Buf.mk d i).reslice n
        let w ← w.appAll ps
        pure w.data) = .ok ps.flatten := by
  have : ¬ d.length < n := by omega
  simp only [reslice, this, if_false, Res.ok_bind]
  have e : (⟨d.take n, 0⟩ : Buf) = at' [] (d.take n) := rfl
  rw [e, appAll_at _ _ _ (by rw [List.length_take]; omega)]
  simp only [Res.ok_bind, Res.pure_def, at']
  rw [List.drop_eq_nil_of_le (by rw [List.length_take]; omega)]
  simp

end Buf
end Idemix
