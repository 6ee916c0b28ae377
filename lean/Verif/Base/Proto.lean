import Verif.Base.Codec
import Mathlib.Data.List.Basic

/-!
# The protobuf wire format

A model of the part of `google.golang.org/protobuf` (v1.36.11, `go.mod:14`) that the repository uses:
proto3 messages with scalar, bytes, string, message and repeated fields. Unknown fields, fields with an
unexpected wire type and groups are skipped; a scalar that occurs several times takes its last value;
repeated occurrences of a message field are merged. Groups
are nested at most as deep as the library allows; the messages of the repository are nested less than ten deep, so that the limit
for these (10000) plays no part.
-/

namespace Idemix.Proto

/-- Payload of a wire token: varint, 8 bytes, length-delimited, 4 bytes, group delimiters. -/
inductive WVal where
  | varint (n : Nat)
  | fixed64 (b : Bytes)
  | len (b : Bytes)
  | startGroup
  | endGroup
  | fixed32 (b : Bytes)
  deriving DecidableEq, Repr

/-- A token: field number and payload. -/
abbrev Tok := Nat × WVal

/-- Base-128 little-endian digits. -/
def putVarintN : Nat → Nat → Bytes
  | 0, n => [UInt8.ofNat n]
  | f + 1, n => if n < 128 then [UInt8.ofNat n] else UInt8.ofNat (n % 128 + 128) :: putVarintN f (n / 128)

/-- `protowire.AppendVarint`. -/
def putVarint (n : Nat) : Bytes := putVarintN n n

/-- A number in base 128, the bytes before the last having their top bit set. -/
def getDigits : Bytes → Option (Nat × Bytes)
  | [] => none
  | b :: bs =>
    if b.toNat < 128 then some (b.toNat, bs)
    else (getDigits bs).map fun p => (b.toNat - 128 + 128 * p.1, p.2)

theorem getDigits_putVarintN (f n : Nat) (h : n ≤ f) (r : Bytes) :
    getDigits (putVarintN f n ++ r) = some (n, r) := by
  induction f generalizing n with
  | zero =>
    obtain rfl : n = 0 := by omega
    rfl
  | succ f ih =>
    unfold putVarintN
    split
    · next hn =>
      have : (UInt8.ofNat n).toNat = n := by
        rw [UInt8.toNat_ofNat']; exact Nat.mod_eq_of_lt (by omega)
      simp [getDigits, this, hn]
    · next hn =>
      have h1 : (UInt8.ofNat (n % 128 + 128)).toNat = n % 128 + 128 := by
        rw [UInt8.toNat_ofNat']; exact Nat.mod_eq_of_lt (by omega)
      have h2 : ¬ (n % 128 + 128 < 128) := by omega
      simp only [List.cons_append, getDigits, h1, h2, if_false, ih (n / 128) (by omega),
        Option.map_some, Option.some.injEq, Prod.mk.injEq, and_true]
      omega

@[simp] theorem getDigits_putVarint (n : Nat) (r : Bytes) :
    getDigits (putVarint n ++ r) = some (n, r) := getDigits_putVarintN n n (Nat.le_refl n) r

theorem putVarint_ne_nil (n : Nat) : putVarint n ≠ [] := by
  unfold putVarint; cases n <;> simp only [putVarintN, ne_eq, reduceCtorEq, not_false_eq_true]
  split <;> simp

/-- A number in base 128 of which the count of bytes and the value satisfy `ok`. -/
def checked (ok : Nat → Nat → Bool) (b : Bytes) : Option (Nat × Bytes) :=
  (getDigits b).bind fun p => if ok (b.length - p.2.length) p.1 then some p else none

/-- `protowire.ConsumeVarint`: at most ten bytes, and a number of 64 bits. -/
def getVarint : Bytes → Option (Nat × Bytes) := checked fun k n => decide (k ≤ 10) && decide (n < 18446744073709551616)

/-- The length of a field (`protowire.ConsumeVarint` in `protowire.ConsumeBytes`). The model has inputs of any length, of
which those of 2^64 bytes or more contain lengths above 64 bits; no program meets one, and for all others this and
`getVarint` make the same fields acceptable (`getLen_eq`). -/
def getLen : Bytes → Option (Nat × Bytes) := checked fun k n => decide (k ≤ 10) || decide (18446744073709551616 ≤ n)

theorem getDigits_length {b : Bytes} {n : Nat} {r : Bytes} (h : getDigits b = some (n, r)) : r.length < b.length := by
  induction b generalizing n r with
  | nil => cases h
  | cons b bs ih =>
    simp only [getDigits] at h
    split at h
    · cases h; simp
    · rw [Option.map_eq_some_iff] at h
      obtain ⟨⟨n', r'⟩, h1, h2⟩ := h
      cases h2
      exact Nat.lt_succ_of_lt (ih h1)

theorem checked_some {ok : Nat → Nat → Bool} {b : Bytes} {n : Nat} {r : Bytes} :
    checked ok b = some (n, r) ↔ getDigits b = some (n, r) ∧ ok (b.length - r.length) n = true := by
  unfold checked
  rw [Option.bind_eq_some_iff]
  constructor
  · rintro ⟨⟨n', r'⟩, h1, h2⟩
    split at h2
    · next h => cases h2; exact ⟨h1, h⟩
    · cases h2
  · rintro ⟨h1, h2⟩
    exact ⟨_, h1, if_pos h2⟩

theorem checked_none {ok : Nat → Nat → Bool} {b : Bytes} (h : getDigits b = none) : checked ok b = none := by
  simp [checked, h]

theorem checked_length {ok : Nat → Nat → Bool} {b : Bytes} {n : Nat} {r : Bytes} (h : checked ok b = some (n, r)) :
    r.length < b.length := getDigits_length (checked_some.mp h).1

theorem putVarintN_length (f n k : Nat) (h : n ≤ f) (hk : n < 128 ^ (k + 1)) : (putVarintN f n).length ≤ k + 1 := by
  induction f generalizing n k with
  | zero => simp [putVarintN]
  | succ f ih =>
    unfold putVarintN
    split
    · simp
    · next hn =>
      cases k with
      | zero => omega
      | succ k =>
        rw [List.length_cons]
        have : n / 128 < 128 ^ (k + 1) := by
          rw [Nat.div_lt_iff_lt_mul (by decide)]
          rwa [Nat.pow_succ] at hk
        have := ih (n / 128) k (by omega) this
        omega

theorem putVarint_length {n : Nat} (h : n < 18446744073709551616) : (putVarint n).length ≤ 10 :=
  putVarintN_length n n 9 (Nat.le_refl n) (Nat.lt_trans h (by decide))

theorem getVarint_putVarint {n : Nat} (h : n < 18446744073709551616) (r : Bytes) :
    getVarint (putVarint n ++ r) = some (n, r) := by
  have := putVarint_length h
  refine checked_some.mpr ⟨getDigits_putVarint n r, ?_⟩
  simp [h, this]

theorem getLen_putVarint (n : Nat) (r : Bytes) : getLen (putVarint n ++ r) = some (n, r) := by
  refine checked_some.mpr ⟨getDigits_putVarint n r, ?_⟩
  by_cases h : n < 18446744073709551616
  · simp [putVarint_length h]
  · simp; right; omega

/-- Take exactly `n` bytes. -/
def takeExact (n : Nat) (b : Bytes) : Option (Bytes × Bytes) :=
  if b.length < n then none else some (b.take n, b.drop n)

theorem takeExact_append (b r : Bytes) : takeExact b.length (b ++ r) = some (b, r) := by
  simp [takeExact]

/-- Wire type of a payload. -/
def WVal.wireType : WVal → Nat
  | .varint _ => 0 | .fixed64 _ => 1 | .len _ => 2 | .startGroup => 3 | .endGroup => 4 | .fixed32 _ => 5

/-- One token (`protowire.AppendTag` and the value). -/
def putTok (t : Tok) : Bytes :=
  putVarint (8 * t.1 + t.2.wireType) ++ match t.2 with
    | .varint n => putVarint n
    | .fixed64 b => b
    | .len b => putVarint b.length ++ b
    | .startGroup => []
    | .endGroup => []
    | .fixed32 b => b

/-- The value of a token of wire type `w`. -/
def getVal (w : Nat) (b : Bytes) : Option (WVal × Bytes) :=
  if w = 0 then (getVarint b).map fun p => (.varint p.1, p.2)
  else if w = 1 then (takeExact 8 b).map fun p => (.fixed64 p.1, p.2)
  else if w = 2 then (getLen b).bind fun p => (takeExact p.1 p.2).map fun q => (.len q.1, q.2)
  else if w = 3 then some (.startGroup, b)
  else if w = 4 then some (.endGroup, b)
  else if w = 5 then (takeExact 4 b).map fun p => (.fixed32 p.1, p.2)
  else none

/-- `protowire.ConsumeTag` and the value; field numbers are between 1 and 2^29-1. -/
def getTok (b : Bytes) : Option (Tok × Bytes) :=
  (getVarint b).bind fun p =>
    if p.1 / 8 = 0 ∨ 536870911 < p.1 / 8 then none
    else (getVal (p.1 % 8) p.2).map fun q => ((p.1 / 8, q.1), q.2)

/-- For inputs shorter than 2^64 bytes the two ways to read a length accept the same fields. -/
theorem getLen_eq (b : Bytes) (h : b.length < 18446744073709551616) :
    ((getLen b).bind fun p => takeExact p.1 p.2) = (getVarint b).bind fun p => takeExact p.1 p.2 := by
  cases hd : getDigits b with
  | none => rw [getLen, getVarint, checked_none hd, checked_none hd]
  | some p =>
    obtain ⟨n, r⟩ := p
    have hr := getDigits_length hd
    simp only [getLen, getVarint, checked, hd, Option.bind_some]
    by_cases hn : n < 18446744073709551616
    · have : ¬ 18446744073709551616 ≤ n := by omega
      simp [hn, this]
    · have h1 : r.length < n := by omega
      have h2 : 18446744073709551616 ≤ n := by omega
      simp [hn, h2, takeExact, h1]

/-- Tokens as they appear in encodings of messages. -/
def Tok.Plain (t : Tok) : Prop :=
  (1 ≤ t.1 ∧ t.1 ≤ 536870911) ∧ ((∃ n, n < 18446744073709551616 ∧ t.2 = .varint n) ∨ ∃ b, t.2 = .len b)

theorem getTok_putTok (t : Tok) (h : Tok.Plain t) (r : Bytes) : getTok (putTok t ++ r) = some (t, r) := by
  obtain ⟨k, v⟩ := t
  obtain ⟨hk, h⟩ := h
  simp only at hk h
  rcases h with ⟨n, hn, rfl⟩ | ⟨b, rfl⟩
  · have h1 : (8 * k + 0) / 8 = k := by omega
    have h2 : (8 * k + 0) % 8 = 0 := by omega
    have h3 : ¬ (k = 0 ∨ 536870911 < k) := by omega
    simp only [putTok, getTok, WVal.wireType, List.append_assoc, getVarint_putVarint hn,
      getVarint_putVarint (show 8 * k + 0 < 18446744073709551616 by omega), Option.bind_some, h1,
      h2, h3, if_false, getVal, if_true, Option.map_some]
  · have h1 : (8 * k + 2) / 8 = k := by omega
    have h2 : (8 * k + 2) % 8 = 2 := by omega
    have h3 : ¬ (k = 0 ∨ 536870911 < k) := by omega
    simp only [putTok, getTok, WVal.wireType, List.append_assoc, getLen_putVarint,
      getVarint_putVarint (show 8 * k + 2 < 18446744073709551616 by omega), Option.bind_some, h1,
      h2, h3, if_false, getVal, takeExact_append, Option.map_some]
    simp

theorem putTok_ne_nil (t : Tok) : putTok t ≠ [] := by
  simp [putTok, putVarint_ne_nil]

/-- Concatenation of the tokens. -/
def putToks (l : List Tok) : Bytes := l.flatMap putTok

/-- Tokens of an input, with a bound on their number. -/
def getToksN : Nat → Bytes → Option (List Tok)
  | _, [] => some []
  | 0, _ :: _ => none
  | f + 1, b :: bs => (getTok (b :: bs)).bind fun p => (getToksN f p.2).map fun l => p.1 :: l

/-- Tokens of an input. -/
def getToks (b : Bytes) : Option (List Tok) := getToksN b.length b

theorem getToksN_putToks (f : Nat) (l : List Tok) (h : ∀ t ∈ l, Tok.Plain t) (hf : l.length ≤ f) :
    getToksN f (putToks l) = some l := by
  induction l generalizing f with
  | nil => cases f <;> rfl
  | cons t l ih =>
    cases f with
    | zero => simp at hf
    | succ f =>
      have e : putToks (t :: l) = putTok t ++ putToks l := rfl
      have hne : putTok t ++ putToks l ≠ [] := by simp [putTok_ne_nil]
      rw [e]
      obtain ⟨b, bs, hb⟩ := List.exists_cons_of_ne_nil hne
      have hg := getTok_putTok t (h t (by simp)) (putToks l)
      rw [hb] at hg ⊢
      simp only [getToksN, hg, Option.bind_some, ih f (fun t ht => h t (by simp [ht])) (by simpa using hf),
        Option.map_some]

theorem length_le_putToks (l : List Tok) : l.length ≤ (putToks l).length := by
  induction l with
  | nil => simp
  | cons t l ih =>
    have e : putToks (t :: l) = putTok t ++ putToks l := rfl
    have := List.length_pos_iff.mpr (putTok_ne_nil t)
    rw [e, List.length_append, List.length_cons]; omega

theorem getToks_putToks (l : List Tok) (h : ∀ t ∈ l, Tok.Plain t) : getToks (putToks l) = some l :=
  getToksN_putToks _ l h (length_le_putToks l)

/-- Removal of groups (`protowire.ConsumeFieldValue`): the list has the field numbers of the groups around the current
position. A group may be inside 10000 others (`protowire.DefaultRecursionLimit`) but not inside more. -/
def stripGroups : List Nat → List Tok → Option (List Tok)
  | [], [] => some []
  | _ :: _, [] => none
  | o, (k, .startGroup) :: l => if o.length ≤ 10000 then stripGroups (k :: o) l else none
  | [], (_, .endGroup) :: _ => none
  | k' :: o, (k, .endGroup) :: l => if k = k' then stripGroups o l else none
  | [], t :: l => (stripGroups [] l).map fun l => t :: l
  | k :: o, _ :: l => stripGroups (k :: o) l

theorem stripGroups_start {o : List Nat} {k : Nat} {l m : List Tok} :
    stripGroups o ((k, .startGroup) :: l) = some m ↔ o.length ≤ 10000 ∧ stripGroups (k :: o) l = some m := by
  cases o <;> simp only [stripGroups] <;> split <;> simp_all <;> omega

theorem stripGroups_plain (l : List Tok) (h : ∀ t ∈ l, Tok.Plain t) : stripGroups [] l = some l := by
  induction l with
  | nil => rfl
  | cons t l ih =>
    obtain ⟨k, v⟩ := t
    have ih := ih (fun t ht => h t (by simp [ht]))
    have := (h (k, v) (by simp)).2
    rcases this with ⟨n, -, hn⟩ | ⟨b, hb⟩
    · simp only at hn; subst hn; simp [stripGroups, ih]
    · simp only at hb; subst hb; simp [stripGroups, ih]

/-- A message: its known and unknown fields, in order. -/
abbrev Msg := List Tok

/-- The encoding of a message with these fields. -/
def encode (m : Msg) : Bytes := putToks m

/-- The fields of an encoded message; `none` when malformed. -/
def decode (b : Bytes) : Option Msg := (getToks b).bind (stripGroups [])

/-- Fields of a message made of varints and byte strings. -/
def Msg.Plain (m : Msg) : Prop := ∀ t ∈ m, Tok.Plain t

@[simp] theorem decode_encode (m : Msg) (h : Msg.Plain m) : decode (encode m) = some m := by
  simp only [decode, encode, getToks_putToks m h, Option.bind_some, stripGroups_plain m h]

/-! ## Fields -/

/-- A non-empty bytes or string field. -/
def bytesF (k : Nat) (b : Bytes) : Msg := if b = [] then [] else [(k, .len b)]

/-- An int32 or int64 field: two's complement in 64 bits. -/
def intF (k : Nat) (i : Int) : Msg := if i = 0 then [] else [(k, .varint (i % 18446744073709551616).toNat)]

/-- A message field; nil is absent. -/
def msgF (k : Nat) : Option Msg → Msg
  | none => []
  | some m => [(k, .len (encode m))]

/-- A repeated bytes, string or message field, given by the encodings. -/
def repF (k : Nat) (l : List Bytes) : Msg := l.map fun b => (k, .len b)

/-- Contents of the length-delimited fields with number `k`. -/
def lens (k : Nat) (m : Msg) : List Bytes :=
  m.filterMap fun t => match t with
    | (j, .len b) => if j = k then some b else none
    | _ => none

/-- Contents of the varint fields with number `k`. -/
def varints (k : Nat) (m : Msg) : List Nat :=
  m.filterMap fun t => match t with
    | (j, .varint n) => if j = k then some n else none
    | _ => none

/-- A bytes field. -/
def getBytes (k : Nat) (m : Msg) : Bytes := ((lens k m).getLast?).getD []

/-- A bytes field of which the code distinguishes nil from other values: absent and empty fields are nil
(fields without presence are decoded by appending to nil). -/
def getBytes? (k : Nat) (m : Msg) : Option Bytes := (lens k m).getLast?.filter fun b => b ≠ []

/-- Signed value of a number modulo 2^64. -/
def signed64 (n : Nat) : Int :=
  let r := n % 18446744073709551616
  if r < 9223372036854775808 then r else (r : Int) - 18446744073709551616

/-- Signed value of a number modulo 2^32. -/
def signed32 (n : Nat) : Int :=
  let r := n % 4294967296
  if r < 2147483648 then r else (r : Int) - 4294967296

/-- An int64 field. -/
def getInt64 (k : Nat) (m : Msg) : Int := signed64 (((varints k m).getLast?).getD 0)

/-- An int32 field. -/
def getInt32 (k : Nat) (m : Msg) : Int := signed32 (((varints k m).getLast?).getD 0)

/-- A message field: nil if absent, otherwise the merged fields of its occurrences (merging two encoded
messages is parsing one after the other into the same message). -/
def getMsg (k : Nat) (m : Msg) : Option (Option Msg) :=
  match lens k m with
  | [] => some none
  | l => ((l.mapM decode).map List.flatten).map some

/-- Value ranges of int64 and int32 fields. -/
def Int64 (i : Int) : Prop := -9223372036854775808 ≤ i ∧ i < 9223372036854775808
/-- See `Int64`. -/
def Int32 (i : Int) : Prop := -2147483648 ≤ i ∧ i < 2147483648

theorem signed64_of (i : Int) (h : Int64 i) : signed64 (i % 18446744073709551616).toNat = i := by
  unfold signed64 Int64 at *
  simp only
  omega

theorem signed32_of (i : Int) (h : Int32 i) : signed32 (i % 18446744073709551616).toNat = i := by
  unfold signed32 Int32 at *
  simp only
  omega

theorem plain_append {a b : Msg} (ha : Msg.Plain a) (hb : Msg.Plain b) : Msg.Plain (a ++ b) := by
  intro t ht
  rcases List.mem_append.mp ht with h | h
  · exact ha t h
  · exact hb t h

theorem plain_nil : Msg.Plain [] := fun _ h => by cases h

theorem plain_bytesF {k : Nat} (hk : 1 ≤ k ∧ k ≤ 536870911) (b : Bytes) : Msg.Plain (bytesF k b) := by
  intro t ht; unfold bytesF at ht; split at ht
  · cases ht
  · simp only [List.mem_singleton] at ht; subst ht; exact ⟨hk, .inr ⟨_, rfl⟩⟩

theorem plain_intF {k : Nat} (hk : 1 ≤ k ∧ k ≤ 536870911) (i : Int) : Msg.Plain (intF k i) := by
  intro t ht; unfold intF at ht; split at ht
  · cases ht
  · simp only [List.mem_singleton] at ht; subst ht; exact ⟨hk, .inl ⟨_, by omega, rfl⟩⟩

theorem plain_msgF {k : Nat} (hk : 1 ≤ k ∧ k ≤ 536870911) (o : Option Msg) : Msg.Plain (msgF k o) := by
  intro t ht
  cases o with
  | none => cases ht
  | some m => simp only [msgF, List.mem_singleton] at ht; subst ht; exact ⟨hk, .inr ⟨_, rfl⟩⟩

theorem plain_repF {k : Nat} (hk : 1 ≤ k ∧ k ≤ 536870911) (l : List Bytes) : Msg.Plain (repF k l) := by
  intro t ht
  simp only [repF, List.mem_map] at ht
  obtain ⟨b, -, rfl⟩ := ht
  exact ⟨hk, .inr ⟨_, rfl⟩⟩

theorem lens_append (k : Nat) (a b : Msg) : lens k (a ++ b) = lens k a ++ lens k b := by
  simp [lens, List.filterMap_append]

theorem varints_append (k : Nat) (a b : Msg) : varints k (a ++ b) = varints k a ++ varints k b := by
  simp [varints, List.filterMap_append]

theorem lens_nil (k : Nat) : lens k [] = [] := rfl
theorem varints_nil (k : Nat) : varints k [] = [] := rfl

theorem lens_bytesF (k j : Nat) (b : Bytes) :
    lens k (bytesF j b) = if j = k then (if b = [] then [] else [b]) else [] := by
  unfold bytesF
  by_cases hb : b = [] <;> by_cases hk : j = k <;> simp [hb, hk, lens]

theorem lens_intF (k j : Nat) (i : Int) : lens k (intF j i) = [] := by
  unfold intF; split <;> simp [lens]

theorem lens_msgF (k j : Nat) (o : Option Msg) :
    lens k (msgF j o) = if j = k then (o.map encode).toList else [] := by
  cases o <;> by_cases hk : j = k <;> simp [msgF, hk, lens]

theorem lens_repF (k j : Nat) (l : List Bytes) : lens k (repF j l) = if j = k then l else [] := by
  by_cases hk : j = k
  · induction l with
    | nil => simp [hk, repF, lens]
    | cons b l ih =>
      simp only [repF, lens, hk, if_true] at ih ⊢
      simp [ih]
  · induction l with
    | nil => simp [hk, repF, lens]
    | cons b l ih =>
      simp only [repF, lens, hk, if_false] at ih ⊢
      simp [hk]

theorem varints_bytesF (k j : Nat) (b : Bytes) : varints k (bytesF j b) = [] := by
  unfold bytesF; split <;> simp [varints]

theorem varints_intF (k j : Nat) (i : Int) :
    varints k (intF j i) = if j = k then (if i = 0 then [] else [(i % 18446744073709551616).toNat]) else [] := by
  unfold intF
  by_cases hi : i = 0 <;> by_cases hk : j = k <;> simp [hi, hk, varints]

theorem varints_msgF (k j : Nat) (o : Option Msg) : varints k (msgF j o) = [] := by
  cases o <;> simp [msgF, varints]

theorem varints_repF (k j : Nat) (l : List Bytes) : varints k (repF j l) = [] := by
  simp [repF, varints]

theorem getLast_bytes (b : Bytes) : ((if b = [] then [] else [b] : List Bytes).getLast?).getD [] = b := by
  by_cases h : b = [] <;> simp [h]

theorem getLast_bytes? (b : Bytes) (h : b ≠ []) : (if b = [] then [] else [b] : List Bytes).getLast? = some b := by
  simp [h]

theorem getLast_int (i : Int) :
    ((if i = 0 then [] else [(i % 18446744073709551616).toNat] : List Nat).getLast?).getD 0 =
      (i % 18446744073709551616).toNat := by
  by_cases h : i = 0 <;> simp [h]

/-! ## UTF-8 -/

/-- A continuation byte between `lo` and `hi`. -/
def contIn (lo hi : Nat) (b : UInt8) : Bool := decide (lo ≤ b.toNat) && decide (b.toNat ≤ hi)

/-- `utf8.Valid`: string fields must be valid UTF-8, both when marshalling and when unmarshalling. -/
def utf8Valid : Bytes → Bool
  | [] => true
  | b0 :: r =>
    let c := b0.toNat
    if c < 128 then utf8Valid r
    else if 194 ≤ c ∧ c ≤ 223 then
      match r with
      | b1 :: r => contIn 128 191 b1 && utf8Valid r
      | [] => false
    else if 224 ≤ c ∧ c ≤ 239 then
      match r with
      | b1 :: b2 :: r =>
        contIn (if c = 224 then 160 else 128) (if c = 237 then 159 else 191) b1 && contIn 128 191 b2 &&
          utf8Valid r
      | _ => false
    else if 240 ≤ c ∧ c ≤ 244 then
      match r with
      | b1 :: b2 :: b3 :: r =>
        contIn (if c = 240 then 144 else 128) (if c = 244 then 143 else 191) b1 && contIn 128 191 b2 &&
          contIn 128 191 b3 && utf8Valid r
      | _ => false
    else false

/-! ## Codecs from field lists -/

/-- A message type given by its fields. `check` is the validity of the string fields when marshalling. -/
def codec {α : Type} (wf : α → Prop) (check : α → Bool) (fields : α → Msg) (parse : Msg → Option α)
    (plain : ∀ a, Msg.Plain (fields a)) (law : ∀ a, wf a → check a = true → parse (fields a) = some a) :
    Codec α wf where
  marshal a := if check a then .ok (encode (fields a)) else .err "string field contains invalid UTF-8"
  unmarshal b := Res.ofOption "cannot parse invalid wire-format data" ((decode b).bind parse)
  rt a b hw h := by
    split at h
    · next hc => cases h; simp [decode_encode _ (plain a), law a hw hc]
    · cases h
  marshal_np a h := by split at h <;> cases h
  unmarshal_np b h := by
    cases hh : (decode b).bind parse <;> rw [hh] at h <;> cases h

end Idemix.Proto
