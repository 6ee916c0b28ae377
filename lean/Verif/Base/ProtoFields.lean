import Verif.Base.ProtoRaw

/-!
# Specification: byte strings made of protobuf fields

What the protobuf encoding guide says about the bytes of a message: a sequence of fields, each a tag (a varint with the
number and the wire type) and a payload. Nothing here refers to the parser of the model.
-/

namespace Idemix.Proto

namespace Spec

/-- `Digits n b`: the bytes `b` are `n` in base 128, least significant digit first, the top bit of all bytes but the last
being set. -/
inductive Digits : Nat → Bytes → Prop
  | last (b : UInt8) : b.toNat < 128 → Digits b.toNat [b]
  | more (b : UInt8) {n : Nat} {r : Bytes} : 128 ≤ b.toNat → Digits n r → Digits (b.toNat - 128 + 128 * n) (b :: r)

/-- A varint: at most ten digits for a number of 64 bits. -/
def Varint (n : Nat) (b : Bytes) : Prop := Digits n b ∧ b.length ≤ 10 ∧ n < 18446744073709551616

/-- The tag of a field with number `k` and wire type `w`. -/
def Tag (k w : Nat) (b : Bytes) : Prop := 1 ≤ k ∧ k ≤ 536870911 ∧ Varint (8 * k + w) b

/-- `FieldsIn d ok b`: `b` is a sequence of fields of which numbers and wire types satisfy `ok`. Groups contain arbitrary
fields and are nested at most `d` deep. -/
inductive FieldsIn : Nat → (Nat → Nat → Prop) → Bytes → Prop
  | nil {d ok} : FieldsIn d ok []
  | varint {d ok k t n v r} : Tag k 0 t → ok k 0 → Varint n v → FieldsIn d ok r → FieldsIn d ok (t ++ (v ++ r))
  | fixed64 {d ok k t} {b r : Bytes} : Tag k 1 t → ok k 1 → b.length = 8 → FieldsIn d ok r → FieldsIn d ok (t ++ (b ++ r))
  | len {d ok k t v} {b r : Bytes} : Tag k 2 t → ok k 2 → Varint b.length v → FieldsIn d ok r →
      FieldsIn d ok (t ++ (v ++ (b ++ r)))
  | group {d ok k t g t' r} : Tag k 3 t → ok k 3 → FieldsIn d (fun _ _ => True) g → Tag k 4 t' → FieldsIn (d + 1) ok r →
      FieldsIn (d + 1) ok (t ++ (g ++ (t' ++ r)))
  | fixed32 {d ok k t} {b r : Bytes} : Tag k 5 t → ok k 5 → b.length = 4 → FieldsIn d ok r → FieldsIn d ok (t ++ (b ++ r))

/-- A sequence of fields with groups inside at most 10000 others, the limit of the library. -/
abbrev Fields : (Nat → Nat → Prop) → Bytes → Prop := FieldsIn 10001

/-- A sequence of fields. -/
def Message (b : Bytes) : Prop := Fields (fun _ _ => True) b

/-- A sequence of fields none of which is declared; the list has the declared numbers with their wire types. -/
def Undeclared (declared : List (Nat × Nat)) (b : Bytes) : Prop := Fields (fun k w => (k, w) ∉ declared) b

end Spec

open Spec

theorem getDigits_digits {n : Nat} {b : Bytes} (h : Digits n b) (r : Bytes) : getDigits (b ++ r) = some (n, r) := by
  induction h with
  | last b hb => simp [getDigits, hb]
  | more b hb _ ih =>
    have : ¬ b.toNat < 128 := by omega
    simp [getDigits, this, ih]

theorem getVarint_varint {n : Nat} {b : Bytes} (h : Varint n b) (r : Bytes) : getVarint (b ++ r) = some (n, r) := by
  refine checked_some.mpr ⟨getDigits_digits h.1 r, ?_⟩
  simp [h.2.1, h.2.2]

theorem getLen_varint {n : Nat} {b : Bytes} (h : Varint n b) (r : Bytes) : getLen (b ++ r) = some (n, r) := by
  refine checked_some.mpr ⟨getDigits_digits h.1 r, ?_⟩
  simp [h.2.1]

theorem getTok_field {k w : Nat} {t b r : Bytes} {v : WVal} (ht : Tag k w t) (hw : w < 8)
    (hv : getVal w b = some (v, r)) : getTok (t ++ b) = some ((k, v), r) := by
  obtain ⟨h1, h2, h3⟩ := ht
  have e1 : (8 * k + w) / 8 = k := by omega
  have e2 : (8 * k + w) % 8 = w := by omega
  have e3 : ¬ (k = 0 ∨ 536870911 < k) := by omega
  simp only [getTok, getVarint_varint h3, Option.bind_some, e1, e2, e3, if_false, hv, Option.map_some]

/-- How the parser of the model reads a sequence of fields. -/
structure Reads (d : Nat) (ok : Nat → Nat → Prop) (b : Bytes) (l : List (Tok × Bytes)) (m : Msg) : Prop where
  raw : getRaw b = some l
  inner : ∀ k o l', o.length + 1 + d ≤ 10001 → stripGroups (k :: o) (l.map Prod.fst ++ l') = stripGroups (k :: o) l'
  outer : d ≤ 10001 → ∀ l', stripGroups [] (l.map Prod.fst ++ l') = (stripGroups [] l').map fun m' => m ++ m'
  all : ∀ t ∈ m, ok t.1 t.2.wireType
  keptIn : ∀ known d l', unknownIn known (d + 1) (l ++ l') = b ++ unknownIn known (d + 1) l'
  kept : ∀ known : Nat → Nat → Bool, (∀ k w, ok k w → known k w = false) →
    ∀ l', unknownIn known 0 (l ++ l') = b ++ unknownIn known 0 l'

theorem getRaw_field {k w : Nat} {t v r : Bytes} {val : WVal} (ht : Tag k w t) (hw : w < 8)
    (hv : ∀ s, getVal w (v ++ s) = some (val, s)) {l : List (Tok × Bytes)} (hr : getRaw r = some l) :
    getRaw (t ++ (v ++ r)) = some (((k, val), t ++ v) :: l) := by
  rw [getRaw_cons (getTok_field ht hw (hv r)), hr, Option.map_some]
  simp only [List.length_append]
  rw [show t.length + (v.length + r.length) - r.length = (t ++ v).length from by rw [List.length_append]; omega,
    ← List.append_assoc, List.take_left]

theorem Reads.simple {d : Nat} {ok : Nat → Nat → Prop} {k w : Nat} {t v r : Bytes} {val : WVal} (ht : Tag k w t) (hw : w < 8)
    (hv : ∀ s, getVal w (v ++ s) = some (val, s)) (hk : ok k w) (hval : val.wireType = w)
    (h0 : val ≠ .startGroup) (h1 : val ≠ .endGroup) {l : List (Tok × Bytes)} {m : Msg} (hr : Reads d ok r l m) :
    Reads d ok (t ++ (v ++ r)) (((k, val), t ++ v) :: l) ((k, val) :: m) where
  raw := getRaw_field ht hw hv hr.raw
  inner k' o l' hd := by
    have := hr.inner k' o l' hd
    cases val <;> simp_all [stripGroups, hr.inner]
  outer hd l' := by
    have := hr.outer hd l'
    cases val <;> simp_all [stripGroups, Option.map_map, Function.comp_def]
  all := by
    intro t' ht'
    rcases List.mem_cons.mp ht' with rfl | ht'
    · rw [hval]; exact hk
    · exact hr.all t' ht'
  keptIn known d l' := by
    have := hr.keptIn known d l'
    cases val <;> simp_all [unknownIn]
  kept known hkn l' := by
    have h2 := hr.kept known hkn l'
    have h3 : known k val.wireType = false := by rw [hval]; exact hkn k w hk
    cases val <;> simp_all [unknownIn]

theorem Spec.FieldsIn.reads {d : Nat} {ok : Nat → Nat → Prop} {b : Bytes} (h : FieldsIn d ok b) :
    ∃ l m, Reads d ok b l m := by
  induction h with
  | nil =>
    exact ⟨[], [], rfl, fun _ _ _ _ => rfl, (fun _ l' => by cases h : stripGroups [] l' <;> simp [h]),
      fun _ h => absurd h List.not_mem_nil,
      fun _ _ _ => rfl, fun _ _ _ => rfl⟩
  | @varint d ok k t n v r ht hk hv _ ih =>
    obtain ⟨l, m, ih⟩ := ih
    exact ⟨_, _, Reads.simple (val := .varint n) ht (by decide) (fun s => by simp [getVal, getVarint_varint hv]) hk rfl
      (by simp) (by simp) ih⟩
  | @fixed64 d ok k t b r ht hk hb _ ih =>
    obtain ⟨l, m, ih⟩ := ih
    exact ⟨_, _, Reads.simple (val := .fixed64 b) ht (by decide)
      (fun s => by rw [getVal, if_neg (by decide), if_pos rfl, ← hb, takeExact_append]; rfl) hk rfl (by simp) (by simp) ih⟩
  | @len d ok k t v b r ht hk hv _ ih =>
    obtain ⟨l, m, ih⟩ := ih
    have := Reads.simple (v := v ++ b) (val := .len b) ht (by decide)
      (fun s => by simp [getVal, List.append_assoc, getLen_varint hv, takeExact_append]) hk rfl (by simp) (by simp) ih
    rw [List.append_assoc] at this
    exact ⟨_, _, this⟩
  | @group d ok k t g t' r ht hk _ ht' _ ihg ih =>
    obtain ⟨lg, mg, ihg⟩ := ihg
    obtain ⟨l, m, ih⟩ := ih
    have e1 : getRaw (t' ++ r) = some (((k, .endGroup), t') :: l) := by
      have := getRaw_field (v := []) (val := .endGroup) ht' (by decide) (fun s => by simp [getVal]) ih.raw
      simpa using this
    have e2 : getRaw (g ++ (t' ++ r)) = some (lg ++ ((k, .endGroup), t') :: l) := by
      rw [getRaw_append ihg.raw, e1]; rfl
    refine ⟨((k, .startGroup), t) :: (lg ++ ((k, .endGroup), t') :: l), m, ?_, ?_, ?_, ih.all, ?_, ?_⟩
    · have := getRaw_field (v := []) (val := .startGroup) ht (by decide) (fun s => by simp [getVal]) e2
      simpa using this
    · intro k' o l' hd
      have h1 : (k' :: o).length ≤ 10000 := by rw [List.length_cons]; omega
      have h2 : (k' :: o).length + 1 + d ≤ 10001 := by rw [List.length_cons]; omega
      simp only [List.map_cons, List.map_append, List.cons_append, List.append_assoc, stripGroups, h1,
        ihg.inner k (k' :: o) _ h2, if_true, ih.inner k' o l' hd]
    · intro hd l'
      have h2 : ([] : List Nat).length + 1 + d ≤ 10001 := by rw [List.length_nil]; omega
      simp only [List.map_cons, List.map_append, List.cons_append, List.append_assoc, stripGroups,
        show ([] : List Nat).length ≤ 10000 from Nat.zero_le _, ihg.inner k [] _ h2, if_true, ih.outer hd]
    · intro known d' l'
      simp only [List.cons_append, List.append_assoc, unknownIn, ihg.keptIn, ih.keptIn]
    · intro known hkn l'
      simp only [List.cons_append, List.append_assoc, unknownIn, ihg.keptIn, ih.kept known hkn]
  | @fixed32 d ok k t b r ht hk hb _ ih =>
    obtain ⟨l, m, ih⟩ := ih
    exact ⟨_, _, Reads.simple (val := .fixed32 b) ht (by decide)
      (fun s => by
        rw [getVal, if_neg (by decide), if_neg (by decide), if_neg (by decide), if_neg (by decide), if_neg (by decide),
          if_pos rfl, ← hb, takeExact_append]
        rfl) hk rfl (by simp) (by simp) ih⟩

theorem Spec.FieldsIn.decodes {ok : Nat → Nat → Prop} {b : Bytes} (h : Fields ok b) :
    ∃ m, decode b = some m ∧ ∀ t ∈ m, ok t.1 t.2.wireType := by
  obtain ⟨l, m, hr⟩ := h.reads
  refine ⟨m, ?_, hr.all⟩
  have := hr.outer (Nat.le_refl _) []
  simp only [List.append_nil, stripGroups, Option.map_some] at this
  rw [decode_eq, hr.raw, Option.bind_some, this]

theorem Spec.FieldsIn.unknown_all {ok : Nat → Nat → Prop} {b : Bytes} (h : Fields ok b) (known : Nat → Nat → Bool)
    (hk : ∀ k w, ok k w → known k w = false) : unknown known b = b := by
  obtain ⟨l, m, hr⟩ := h.reads
  have := hr.kept known hk []
  simp only [List.append_nil, unknownIn] at this
  rw [unknown, hr.raw, Option.map_some, Option.getD_some, this]

/-- Undeclared fields anywhere in a message are passed over by a parser that looks at the declared ones only. -/
theorem parse_insert {α : Type} {declared : List (Nat × Nat)} {parse : Msg → Option α}
    (hp : ∀ m₁ u m₂ : Msg, (∀ t ∈ u, (t.1, t.2.wireType) ∉ declared) → parse (m₁ ++ (u ++ m₂)) = parse (m₁ ++ m₂))
    {b₁ e : Bytes} (h₁ : Message b₁) (he : Undeclared declared e) (b₂ : Bytes) :
    (decode (b₁ ++ (e ++ b₂))).bind parse = (decode (b₁ ++ b₂)).bind parse := by
  obtain ⟨m₁, d₁, -⟩ := FieldsIn.decodes h₁
  obtain ⟨u, du, hu⟩ := FieldsIn.decodes he
  rw [decode_append d₁, decode_append du, decode_append d₁]
  cases decode b₂ with
  | none => rfl
  | some m₂ => exact hp m₁ u m₂ hu

theorem lens_undeclared {declared : List (Nat × Nat)} {u : Msg} (hu : ∀ t ∈ u, (t.1, t.2.wireType) ∉ declared) {k : Nat}
    (hk : (k, 2) ∈ declared) : lens k u = [] := by
  unfold lens
  rw [List.filterMap_eq_nil_iff]
  rintro ⟨j, v⟩ ht
  cases v <;> simp only [ite_eq_right_iff, reduceCtorEq, imp_false]
  rintro rfl
  exact hu _ ht hk

theorem varints_undeclared {declared : List (Nat × Nat)} {u : Msg} (hu : ∀ t ∈ u, (t.1, t.2.wireType) ∉ declared) {k : Nat}
    (hk : (k, 0) ∈ declared) : varints k u = [] := by
  unfold varints
  rw [List.filterMap_eq_nil_iff]
  rintro ⟨j, v⟩ ht
  cases v <;> simp only [ite_eq_right_iff, reduceCtorEq, imp_false]
  rintro rfl
  exact hu _ ht hk

theorem lens_insert {declared : List (Nat × Nat)} {u : Msg} (hu : ∀ t ∈ u, (t.1, t.2.wireType) ∉ declared) (m₁ m₂ : Msg)
    {k : Nat} (hk : (k, 2) ∈ declared) : lens k (m₁ ++ (u ++ m₂)) = lens k (m₁ ++ m₂) := by
  rw [lens_append, lens_append, lens_append, lens_undeclared hu hk, List.nil_append]

theorem varints_insert {declared : List (Nat × Nat)} {u : Msg} (hu : ∀ t ∈ u, (t.1, t.2.wireType) ∉ declared)
    (m₁ m₂ : Msg) {k : Nat} (hk : (k, 0) ∈ declared) : varints k (m₁ ++ (u ++ m₂)) = varints k (m₁ ++ m₂) := by
  rw [varints_append, varints_append, varints_append, varints_undeclared hu hk, List.nil_append]

end Idemix.Proto
