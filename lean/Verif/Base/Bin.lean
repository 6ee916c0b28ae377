import Verif.Base.Buf

/-!
# Big-endian integers, byte slices and bit vectors
-/

namespace Idemix

/-- Big-endian value of a byte string. -/
def beNat (b : Bytes) : Nat := b.foldl (fun acc x => 256 * acc + x.toNat) 0

/-- `k` bytes, big-endian (`binary.BigEndian.PutUint16/32` for `k = 2, 4`); larger values wrap. -/
def beBytes : Nat → Nat → Bytes
  | 0, _ => []
  | k + 1, n => beBytes k (n / 256) ++ [UInt8.ofNat (n % 256)]

@[simp] theorem beBytes_length (k n : Nat) : (beBytes k n).length = k := by
  induction k generalizing n with
  | zero => rfl
  | succ k ih => simp [beBytes, ih]

theorem beNat_append (a b : Bytes) : beNat (a ++ b) = beNat a * 256 ^ b.length + beNat b := by
  have key : ∀ (l : Bytes) (acc : Nat),
      l.foldl (fun acc x => 256 * acc + x.toNat) acc =
        acc * 256 ^ l.length + l.foldl (fun acc x => 256 * acc + x.toNat) 0 := by
    intro l
    induction l with
    | nil => simp
    | cons x xs ih =>
      intro acc
      simp only [List.foldl_cons, List.length_cons]
      rw [ih (256 * acc + x.toNat), ih (256 * 0 + x.toNat)]
      ring
  unfold beNat
  rw [List.foldl_append, key b]

theorem beNat_beBytes (k n : Nat) (h : n < 256 ^ k) : beNat (beBytes k n) = n := by
  induction k generalizing n with
  | zero => simp at h; subst h; rfl
  | succ k ih =>
    rw [beBytes, beNat_append, ih (n / 256) (by
      rw [Nat.pow_succ] at h; exact Nat.div_lt_of_lt_mul (by omega))]
    have : beNat [UInt8.ofNat (n % 256)] = n % 256 := by
      simp [beNat]
    rw [this]
    simp
    omega

theorem beNat_zeros (k : Nat) (b : Bytes) : beNat (List.replicate k 0 ++ b) = beNat b := by
  rw [beNat_append]
  have : beNat (List.replicate k 0) = 0 := by
    induction k with
    | zero => rfl
    | succ k ih => simpa [List.replicate_succ, beNat] using ih
  simp [this]

theorem beBytes_inj {k n m : Nat} (hn : n < 256 ^ k) (hm : m < 256 ^ k) (h : beBytes k n = beBytes k m) :
    n = m := by
  rw [← beNat_beBytes k n hn, h, beNat_beBytes k m hm]

/-- `raw[lo:hi]`: panics when out of range (for a slice without spare capacity). -/
def goSlice (raw : Bytes) (lo hi : Nat) : Res Bytes :=
  if hi < lo ∨ raw.length < hi then .panic else .ok ((raw.take hi).drop lo)

theorem goSlice_mid (a b c : Bytes) : goSlice (a ++ b ++ c) a.length (a.length + b.length) = .ok b := by
  have : ¬ (a.length + b.length < a.length ∨ (a ++ b ++ c).length < a.length + b.length) := by
    simp
  rw [goSlice, if_neg this]
  congr 1
  rw [List.take_append_of_le_length (by simp), List.take_of_length_le (by simp)]
  simp

theorem goSlice_ok_of {raw : Bytes} {lo hi : Nat} (h1 : lo ≤ hi) (h2 : hi ≤ raw.length) :
    goSlice raw lo hi = .ok ((raw.take hi).drop lo) := by
  rw [goSlice, if_neg (by omega)]

/-- `copy(data[lo:hi], b)`. -/
def copyIn (data : Bytes) (lo hi : Nat) (b : Bytes) : Res Bytes :=
  if hi < lo ∨ data.length < hi then .panic
  else .ok (data.take lo ++ b.take (hi - lo) ++ data.drop (lo + (b.take (hi - lo)).length))

theorem copyIn_exact (pre b : Bytes) (m : Nat) (h : b.length ≤ m) :
    copyIn (pre ++ List.replicate m 0) pre.length (pre.length + b.length) b =
      .ok (pre ++ b ++ List.replicate (m - b.length) 0) := by
  have h1 : ¬ (pre.length + b.length < pre.length ∨
      (pre ++ List.replicate m (0 : UInt8)).length < pre.length + b.length) := by simp; omega
  rw [copyIn, if_neg h1]
  simp [List.take_of_length_le, List.drop_append]

/-! ## Bits of a byte -/

/-- Is bit `k` of the byte set? -/
def bit (v : UInt8) (k : Nat) : Bool := v.toNat.testBit k

/-- Inner loop of `bitvectorToIndexes` (`bbs/utils.go:39-47`): indices of the set bits, counting from `s`;
`fuel` is the number of remaining bits, 8 at the start, after which the byte is zero. -/
def byteIndexes : Nat → UInt8 → Nat → List Nat
  | 0, _, _ => []
  | f + 1, v, s =>
    if v > 0 then
      if v &&& 1 = 1 then s :: byteIndexes f (v >>> 1) (s + 1) else byteIndexes f (v >>> 1) (s + 1)
    else []

theorem byteIndexes_eq (f : Nat) (v : UInt8) (s : Nat) (h : v.toNat < 2 ^ f) :
    byteIndexes f v s = (List.range' s f).filter (fun i => bit v (i - s)) := by
  induction f generalizing v s with
  | zero => rfl
  | succ f ih =>
    unfold byteIndexes
    by_cases hv : v > 0
    · have hs : (v >>> 1).toNat = v.toNat / 2 := by
        rw [UInt8.toNat_shiftRight]; simp [Nat.shiftRight_eq_div_pow]
      have hb : ∀ k, bit (v >>> 1) k = bit v (k + 1) := by
        intro k; rw [bit, bit, hs, Nat.testBit_succ]
      have ih' := ih (v >>> 1) (s + 1) (by rw [hs]; rw [Nat.pow_succ] at h; omega)
      have h0 : (v &&& 1 = 1) ↔ bit v 0 = true := by
        rw [bit, Nat.testBit_zero, decide_eq_true_eq, ← UInt8.toNat_inj, UInt8.toNat_and]
        simp
      rw [if_pos hv, List.range'_succ, List.filter_cons, Nat.sub_self, ih']
      have e : (List.range' (s + 1) f).filter (fun i => bit (v >>> 1) (i - (s + 1))) =
          (List.range' (s + 1) f).filter (fun i => bit v (i - s)) := by
        apply List.filter_congr
        intro i hi
        rw [List.mem_range'_1] at hi
        rw [hb]; congr 1; omega
      rw [e]
      by_cases hc : bit v 0 = true
      · rw [if_pos (h0.mpr hc), if_pos hc]
      · rw [if_neg (fun x => hc (h0.mp x)), if_neg hc]
    · have : v.toNat = 0 := by
        by_contra hne
        apply hv
        rw [gt_iff_lt, UInt8.lt_iff_toNat_lt]; simp; omega
      rw [if_neg hv]
      symm
      rw [List.filter_eq_nil_iff]
      intro i _
      simp [bit, this]

theorem bit_lt (v : UInt8) : v.toNat < 2 ^ 8 := UInt8.toNat_lt v

theorem bit_setBit (v : UInt8) (b k : Nat) (hb : b < 8) :
    bit (v ||| (1 <<< (UInt8.ofNat b))) k = (bit v k || decide (b = k)) := by
  have : (v ||| (1 <<< (UInt8.ofNat b))).toNat = v.toNat ||| 2 ^ b := by
    rw [UInt8.toNat_or, UInt8.toNat_shiftLeft]
    have : (UInt8.ofNat b).toNat = b := by
      rw [UInt8.toNat_ofNat']; exact Nat.mod_eq_of_lt (by omega)
    rw [this]
    congr 1
    have h2 : b % 8 = b := Nat.mod_eq_of_lt hb
    have h3 : 2 ^ b < 256 := by
      calc 2 ^ b ≤ 2 ^ 7 := Nat.pow_le_pow_right (by omega) (by omega)
        _ < 256 := by decide
    rw [h2]
    simp [Nat.shiftLeft_eq, Nat.mod_eq_of_lt h3]
  rw [bit, this, Nat.testBit_or, Nat.testBit_two_pow]
  rfl

end Idemix
