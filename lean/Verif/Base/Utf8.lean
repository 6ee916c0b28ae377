import Verif.Base.Proto

/-!
# UTF-8

The bytes of a character are those of `String.utf8EncodeChar` of the Lean library. The reader and the check of the
model are compared with it.
-/

namespace Idemix

/-- The bytes that are the encoding of a character outside ASCII. -/
def Multi (t : List UInt8) : Prop :=
  match t with
  | [a, x] => 194 ≤ a.toNat ∧ a.toNat ≤ 223 ∧ 128 ≤ x.toNat ∧ x.toNat ≤ 191
  | [a, x, y] => 224 ≤ a.toNat ∧ a.toNat ≤ 239 ∧ (if a.toNat = 224 then 160 else 128) ≤ x.toNat ∧
      x.toNat ≤ (if a.toNat = 237 then 159 else 191) ∧ 128 ≤ y.toNat ∧ y.toNat ≤ 191
  | [a, x, y, z] => 240 ≤ a.toNat ∧ a.toNat ≤ 244 ∧ (if a.toNat = 240 then 144 else 128) ≤ x.toNat ∧
      x.toNat ≤ (if a.toNat = 244 then 143 else 191) ∧ 128 ≤ y.toNat ∧ y.toNat ≤ 191 ∧ 128 ≤ z.toNat ∧ z.toNat ≤ 191
  | _ => False

theorem char_range (c : Char) : c.toNat < 55296 ∨ 57343 < c.toNat ∧ c.toNat < 1114112 := by
  have := c.valid
  simpa [UInt32.isValidChar, Nat.isValidChar] using this

theorem char_of {n : Nat} (h : n < 55296 ∨ 57343 < n ∧ n < 1114112) : ∃ c : Char, c.toNat = n := by
  refine ⟨Char.ofNat n, ?_⟩
  have hv : n.isValidChar := by simpa [Nat.isValidChar] using h
  rw [Char.ofNat, dif_pos hv]
  rfl

theorem byte_eq {a : UInt8} {n : Nat} (h : a.toNat = n) : UInt8.ofNat n = a := by
  subst h
  simp

theorem utf8_low {c : Char} (h : c.toNat < 128) : String.utf8EncodeChar c = [UInt8.ofNat c.toNat] := by
  have h' : c.val.toNat ≤ 127 := by have : c.val.toNat = c.toNat := rfl; omega
  simp only [String.utf8EncodeChar, h', if_true]
  rfl

theorem utf8_multi {c : Char} (h : 128 ≤ c.toNat) : Multi (String.utf8EncodeChar c) := by
  have hr := char_range c
  have e : c.val.toNat = c.toNat := rfl
  simp only [String.utf8EncodeChar, e]
  generalize c.toNat = n at *
  rw [if_neg (by omega)]
  split
  · simp only [Multi, UInt8.toNat_ofNat']
    omega
  split
  · simp only [Multi, UInt8.toNat_ofNat']
    refine ⟨by omega, by omega, ?_, ?_, by omega, by omega⟩ <;> split <;> omega
  · simp only [Multi, UInt8.toNat_ofNat']
    refine ⟨by omega, by omega, ?_, ?_, by omega, by omega, by omega, by omega⟩ <;> split <;> omega

theorem multi_utf8 {t : List UInt8} (h : Multi t) : ∃ c : Char, 128 ≤ c.toNat ∧ String.utf8EncodeChar c = t := by
  have e : ∀ c : Char, c.val.toNat = c.toNat := fun _ => rfl
  match t, h with
  | [a, x], h =>
    simp only [Multi] at h
    obtain ⟨c, hc⟩ := char_of (n := (a.toNat - 192) * 64 + (x.toNat - 128)) (by omega)
    refine ⟨c, by omega, ?_⟩
    simp only [String.utf8EncodeChar, e]
    rw [if_neg (by omega), if_pos (by omega), byte_eq (a := a) (by omega), byte_eq (a := x) (by omega)]
  | [a, x, y], h =>
    simp only [Multi] at h
    obtain ⟨h1, h2, h3, h4, h5, h6⟩ := h
    have h3' : 128 ≤ x.toNat ∧ (a.toNat = 224 → 160 ≤ x.toNat) := by split at h3 <;> omega
    have h4' : x.toNat ≤ 191 ∧ (a.toNat = 237 → x.toNat ≤ 159) := by split at h4 <;> omega
    obtain ⟨c, hc⟩ := char_of (n := (a.toNat - 224) * 4096 + (x.toNat - 128) * 64 + (y.toNat - 128)) (by omega)
    refine ⟨c, by omega, ?_⟩
    simp only [String.utf8EncodeChar, e]
    rw [if_neg (by omega), if_neg (by omega), if_pos (by omega), byte_eq (a := a) (by omega),
      byte_eq (a := x) (by omega), byte_eq (a := y) (by omega)]
  | [a, x, y, z], h =>
    simp only [Multi] at h
    obtain ⟨h1, h2, h3, h4, h5, h6, h7, h8⟩ := h
    have h3' : 128 ≤ x.toNat ∧ (a.toNat = 240 → 144 ≤ x.toNat) := by split at h3 <;> omega
    have h4' : x.toNat ≤ 191 ∧ (a.toNat = 244 → x.toNat ≤ 143) := by split at h4 <;> omega
    obtain ⟨c, hc⟩ := char_of (n := (a.toNat - 240) * 262144 + (x.toNat - 128) * 4096 + (y.toNat - 128) * 64 +
      (z.toNat - 128)) (by omega)
    refine ⟨c, by omega, ?_⟩
    simp only [String.utf8EncodeChar, e]
    rw [if_neg (by omega), if_neg (by omega), if_neg (by omega), byte_eq (a := a) (by omega),
      byte_eq (a := x) (by omega), byte_eq (a := y) (by omega), byte_eq (a := z) (by omega)]

/-- Encodings are not beginnings of each other. -/
theorem utf8_prefix {c d : Char} {r s : List UInt8} (h : String.utf8EncodeChar c ++ r = String.utf8EncodeChar d ++ s) :
    c = d ∧ r = s := by
  have h1 := ByteArray.utf8DecodeChar?_utf8EncodeChar_append (b := r.toByteArray) (c := c)
  have h2 := ByteArray.utf8DecodeChar?_utf8EncodeChar_append (b := s.toByteArray) (c := d)
  rw [← List.toByteArray_append, h, List.toByteArray_append, h2] at h1
  obtain rfl := Option.some.inj h1
  exact ⟨rfl, List.append_cancel_left h⟩

namespace Proto

/-- The check of string fields accepts exactly the encodings of sequences of characters. -/
theorem utf8Valid_iff (b : Bytes) : utf8Valid b = true ↔ ∃ cs : List Char, b = cs.flatMap String.utf8EncodeChar := by
  constructor
  · intro h
    induction hn : b.length using Nat.strongRecOn generalizing b with
    | ind n ih =>
      match b, h with
      | [], _ => exact ⟨[], rfl⟩
      | b0 :: r, h =>
        have fin : ∀ (t s : Bytes), Multi t → b0 :: r = t ++ s → utf8Valid s = true →
            ∃ cs : List Char, b0 :: r = cs.flatMap String.utf8EncodeChar := by
          intro t s ht e hs
          obtain ⟨c, h1, rfl⟩ := multi_utf8 ht
          have : 0 < (String.utf8EncodeChar c).length := by
            rw [String.length_utf8EncodeChar]
            exact c.utf8Size_pos
          have hl := congrArg List.length e
          rw [List.length_append, hn] at hl
          obtain ⟨cs, rfl⟩ := ih s.length (by omega) s hs rfl
          exact ⟨c :: cs, e⟩
        rw [utf8Valid.eq_def] at h
        simp only at h
        split at h
        · next h0 =>
          obtain ⟨cs, rfl⟩ := ih r.length (by simp at hn; omega) r h rfl
          obtain ⟨c, hc⟩ := char_of (n := b0.toNat) (by omega)
          refine ⟨c :: cs, ?_⟩
          rw [List.flatMap_cons, utf8_low (by omega), hc, byte_eq rfl]
          rfl
        split at h
        · split at h
          · next b1 s =>
            simp only [contIn, Bool.and_eq_true, decide_eq_true_eq] at h
            exact fin [b0, b1] s ⟨by omega, by omega, h.1.1, h.1.2⟩ rfl h.2
          · cases h
        split at h
        · split at h
          · next b1 b2 s =>
            simp only [contIn, Bool.and_eq_true, decide_eq_true_eq] at h
            exact fin [b0, b1, b2] s ⟨by omega, by omega, h.1.1.1, h.1.1.2, h.1.2.1, h.1.2.2⟩ rfl h.2
          · cases h
        split at h
        · split at h
          · next b1 b2 b3 s =>
            simp only [contIn, Bool.and_eq_true, decide_eq_true_eq] at h
            exact fin [b0, b1, b2, b3] s ⟨by omega, by omega, h.1.1.1.1, h.1.1.1.2, h.1.1.2.1, h.1.1.2.2, h.1.2.1, h.1.2.2⟩
              rfl h.2
          · cases h
        · cases h
  · rintro ⟨cs, rfl⟩
    induction cs with
    | nil => rfl
    | cons c cs ih =>
      rw [List.flatMap_cons]
      by_cases hc : c.toNat < 128
      · rw [utf8_low hc, List.cons_append, utf8Valid.eq_def]
        simp only [UInt8.toNat_ofNat']
        rw [if_pos (by omega)]
        exact ih
      · have hm := utf8_multi (c := c) (by omega)
        match String.utf8EncodeChar c, hm with
        | [a, x], hm =>
          simp only [Multi] at hm
          rw [List.cons_append, utf8Valid.eq_def]
          simp only [List.cons_append, List.nil_append, ih, contIn]
          rw [if_neg (by omega), if_pos (by omega)]
          simp [hm]
        | [a, x, y], hm =>
          simp only [Multi] at hm
          rw [List.cons_append, utf8Valid.eq_def]
          simp only [List.cons_append, List.nil_append, ih, contIn]
          rw [if_neg (by omega), if_neg (by omega), if_pos (by omega)]
          simp [hm]
        | [a, x, y, z], hm =>
          simp only [Multi] at hm
          rw [List.cons_append, utf8Valid.eq_def]
          simp only [List.cons_append, List.nil_append, ih, contIn]
          rw [if_neg (by omega), if_neg (by omega), if_neg (by omega), if_pos (by omega)]
          simp [hm]

end Proto

end Idemix
