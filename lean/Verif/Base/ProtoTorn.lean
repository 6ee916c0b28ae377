import Verif.Base.Proto

/-!
# First parts of encoded messages

A first part of the encoding of a message is malformed, or it ends between two fields and is the encoding of the
fields before that point.
-/

namespace Idemix.Proto

theorem getDigits_take (f n : Nat) (h : n ≤ f) (k : Nat) (hk : k < (putVarintN f n).length) :
    getDigits ((putVarintN f n).take k) = none := by
  induction f generalizing n k with
  | zero =>
    simp only [putVarintN, List.length_singleton] at hk
    obtain rfl : k = 0 := by omega
    rfl
  | succ f ih =>
    unfold putVarintN at hk ⊢
    split at hk
    · next hn =>
      simp only [List.length_singleton] at hk
      obtain rfl : k = 0 := by omega
      rfl
    · next hn =>
      rw [if_neg hn]
      cases k with
      | zero => rfl
      | succ k =>
        have h1 : (UInt8.ofNat (n % 128 + 128)).toNat = n % 128 + 128 := by
          rw [UInt8.toNat_ofNat']; exact Nat.mod_eq_of_lt (by omega)
        have h2 : ¬ (n % 128 + 128 < 128) := by omega
        simp only [List.length_cons, Nat.add_lt_add_iff_right] at hk
        simp only [List.take_succ_cons, getDigits, h1, h2, if_false, ih (n / 128) (by omega) k hk, Option.map_none]

theorem checked_take {ok : Nat → Nat → Bool} (n k : Nat) (hk : k < (putVarint n).length) :
    checked ok ((putVarint n).take k) = none := checked_none (getDigits_take n n (Nat.le_refl n) k hk)

theorem take_append_lt {a b : Bytes} {k : Nat} (h : k < a.length) : (a ++ b).take k = a.take k := by
  rw [List.take_append_of_le_length (Nat.le_of_lt h)]

theorem take_append_ge {a b : Bytes} {k : Nat} (h : a.length ≤ k) : (a ++ b).take k = a ++ b.take (k - a.length) := by
  rw [List.take_append, List.take_of_length_le h]

theorem getTok_take (t : Tok) (h : Tok.Plain t) (k : Nat) (hk : k < (putTok t).length) :
    getTok ((putTok t).take k) = none := by
  obtain ⟨j, v⟩ := t
  obtain ⟨hj, h⟩ := h
  simp only at hj h
  have h3 : ¬ (j = 0 ∨ 536870911 < j) := by omega
  rcases h with ⟨n, hn, rfl⟩ | ⟨b, rfl⟩
  · simp only [putTok, WVal.wireType, List.length_append] at hk ⊢
    by_cases hc : k < (putVarint (8 * j + 0)).length
    · rw [take_append_lt hc]
      rw [getTok, getVarint, checked_take _ k hc, Option.bind_none]
    · rw [take_append_ge (by omega)]
      have h1 : (8 * j + 0) / 8 = j := by omega
      have h2 : (8 * j + 0) % 8 = 0 := by omega
      have : getVarint ((putVarint n).take (k - (putVarint (8 * j + 0)).length)) = none := checked_take n _ (by omega)
      simp only [getTok, getVarint_putVarint (show 8 * j + 0 < 18446744073709551616 by omega), Option.bind_some, h1, h2, h3, if_false, getVal, if_true]
      rw [this]
      rfl
  · simp only [putTok, WVal.wireType, List.length_append] at hk ⊢
    by_cases hc : k < (putVarint (8 * j + 2)).length
    · rw [take_append_lt hc]
      rw [getTok, getVarint, checked_take _ k hc, Option.bind_none]
    · rw [take_append_ge (by omega)]
      have h1 : (8 * j + 2) / 8 = j := by omega
      have h2 : (8 * j + 2) % 8 = 2 := by omega
      simp only [getTok, getVarint_putVarint (show 8 * j + 2 < 18446744073709551616 by omega), Option.bind_some, h1, h2, h3,
        if_false, getVal]
      simp only [if_neg (show ¬ (2 = 0) by decide), if_neg (show ¬ (2 = 1) by decide), if_true]
      by_cases hd : k - (putVarint (8 * j + 2)).length < (putVarint b.length).length
      · rw [take_append_lt hd]
        rw [getLen, checked_take _ _ hd]
        rfl
      · rw [take_append_ge (by omega), getLen_putVarint]
        have : ((b.take (k - (putVarint (8 * j + 2)).length - (putVarint b.length).length)).length < b.length) := by
          rw [List.length_take]; omega
        simp only [Option.bind_some, takeExact, this, if_true, Option.map_none]

theorem getToksN_take (l : List Tok) (h : ∀ t ∈ l, Tok.Plain t) (f k : Nat) (l' : List Tok)
    (hg : getToksN f ((putToks l).take k) = some l') :
    ∃ j, l' = l.take j ∧ (putToks l).take k = putToks (l.take j) := by
  induction l generalizing f k l' with
  | nil =>
    have : (putToks ([] : List Tok)).take k = [] := by simp [putToks]
    rw [this] at hg ⊢
    cases f <;> (simp only [getToksN, Option.some.injEq] at hg; exact ⟨0, by simp [← hg], rfl⟩)
  | cons t l ih =>
    have e : putToks (t :: l) = putTok t ++ putToks l := rfl
    rw [e] at hg ⊢
    by_cases hk : k < (putTok t).length
    · rw [take_append_lt hk] at hg ⊢
      have hn := getTok_take t (h t (by simp)) k hk
      cases hc : (putTok t).take k with
      | nil =>
        rw [hc] at hg
        cases f <;> (simp only [getToksN, Option.some.injEq] at hg; exact ⟨0, by simp [← hg], rfl⟩)
      | cons b bs =>
        rw [hc] at hg hn
        cases f with
        | zero => simp [getToksN] at hg
        | succ f => simp [getToksN, hn] at hg
    · rw [take_append_ge (by omega)] at hg ⊢
      have hne : putTok t ++ (putToks l).take (k - (putTok t).length) ≠ [] := by simp [putTok_ne_nil]
      obtain ⟨b, bs, hb⟩ := List.exists_cons_of_ne_nil hne
      have ht := getTok_putTok t (h t (by simp)) ((putToks l).take (k - (putTok t).length))
      rw [hb] at ht hg
      cases f with
      | zero => simp [getToksN] at hg
      | succ f =>
        simp only [getToksN, ht, Option.bind_some, Option.map_eq_some_iff] at hg
        obtain ⟨l₂, hl₂, rfl⟩ := hg
        obtain ⟨j, rfl, hj⟩ := ih (fun t ht => h t (by simp [ht])) f _ l₂ hl₂
        exact ⟨j + 1, rfl, by rw [hj]; rfl⟩

/-- A first part of an encoded message that parses has the first fields of the message. -/
theorem decode_take (m : Msg) (h : Msg.Plain m) (k : Nat) (m' : Msg) (hd : decode ((encode m).take k) = some m') :
    ∃ j, m' = m.take j ∧ (encode m).take k = encode (m.take j) := by
  simp only [decode, Option.bind_eq_some_iff] at hd
  obtain ⟨l, hl, hs⟩ := hd
  obtain ⟨j, rfl, hj⟩ := getToksN_take m h _ k l hl
  rw [stripGroups_plain _ (fun t ht => h t (List.mem_of_mem_take ht)), Option.some.injEq] at hs
  exact ⟨j, hs.symm, hj⟩

/-- Every number of first fields is the contents of a first part of the encoding. -/
theorem take_decode (m : Msg) (h : Msg.Plain m) (j : Nat) :
    ∃ k, (encode m).take k = encode (m.take j) ∧ decode ((encode m).take k) = some (m.take j) := by
  have e : encode m = encode (m.take j) ++ encode (m.drop j) := by
    conv_lhs => rw [← List.take_append_drop j m]
    rw [encode, putToks, List.flatMap_append]
    rfl
  refine ⟨(encode (m.take j)).length, ?_⟩
  have : (encode m).take (encode (m.take j)).length = encode (m.take j) := by rw [e]; simp
  rw [this]
  exact ⟨rfl, decode_encode _ fun t ht => h t (List.mem_of_mem_take ht)⟩

end Idemix.Proto
