import Verif.Base.ProtoSchema
import Verif.Base.Utf8

/-!
# The byte strings that are messages

`Spec.Valid`: what the protobuf encoding guide and the `.proto` files say a byte string must look like to be a message of
a certain kind, at all depths. The rest of the file shows that the parser of the model accepts these byte strings and no
others.
-/

namespace Idemix.Proto

namespace Spec

/-- The encoding of a sequence of characters. -/
def Utf8 (b : Bytes) : Prop := ∃ cs : List Char, b = cs.flatMap String.utf8EncodeChar

/-- `Valid σ k b`: `b` is a sequence of fields of which those that `σ` declares to be messages contain messages of the
declared kind, and those that it declares to be strings contain characters. -/
inductive Valid {K : Type} (σ : Schema K) : K → Bytes → Prop
  | nil {k} : Valid σ k []
  | other {k} {f b : Bytes} : Fields (fun n w => w = 2 → (n, .text) ∉ σ k ∧ ∀ c, (n, .msg c) ∉ σ k) f → Valid σ k b →
      Valid σ k (f ++ b)
  | text {k n} {t v x b : Bytes} : (n, .text) ∈ σ k → Tag n 2 t → Varint x.length v → Utf8 x → Valid σ k b →
      Valid σ k (t ++ (v ++ (x ++ b)))
  | inner {k c n} {t v x b : Bytes} : (n, .msg c) ∈ σ k → Tag n 2 t → Varint x.length v → Valid σ c x → Valid σ k b →
      Valid σ k (t ++ (v ++ (x ++ b)))

end Spec

open Spec

variable {K : Type} {σ : Schema K}

/-- The strings and messages in a parsed message are well formed. -/
inductive Deep (σ : Schema K) : K → Msg → Prop
  | mk {k m} : (∀ n x, (n, .text) ∈ σ k → (n, .len x) ∈ m → Utf8 x) →
      (∀ n c x, (n, .msg c) ∈ σ k → (n, .len x) ∈ m → decode x ≠ none) →
      (∀ n c x f, (n, .msg c) ∈ σ k → (n, .len x) ∈ m → decode x = some f → Deep σ c f) → Deep σ k m

theorem digits_of {b : Bytes} {n : Nat} {r : Bytes} (h : getDigits b = some (n, r)) : ∃ p, b = p ++ r ∧ Digits n p := by
  induction b generalizing n r with
  | nil => cases h
  | cons b bs ih =>
    simp only [getDigits] at h
    split at h
    · next hb => cases h; exact ⟨[b], rfl, .last b hb⟩
    · next hb =>
      rw [Option.map_eq_some_iff] at h
      obtain ⟨⟨n', r'⟩, h1, h2⟩ := h
      cases h2
      obtain ⟨p, rfl, hp⟩ := ih h1
      exact ⟨b :: p, rfl, .more b (by omega) hp⟩

theorem varint_of {b : Bytes} {n : Nat} {r : Bytes} (h : getVarint b = some (n, r)) : ∃ p, b = p ++ r ∧ Varint n p := by
  obtain ⟨h1, h2⟩ := checked_some.mp h
  obtain ⟨p, rfl, hp⟩ := digits_of h1
  simp only [List.length_append, Nat.add_sub_cancel, Bool.and_eq_true, decide_eq_true_eq] at h2
  exact ⟨p, rfl, hp, h2.1, h2.2⟩

theorem len_of {b : Bytes} {n : Nat} {r : Bytes} (h : getLen b = some (n, r)) (hn : n < 18446744073709551616) :
    ∃ p, b = p ++ r ∧ Varint n p := by
  obtain ⟨h1, h2⟩ := checked_some.mp h
  obtain ⟨p, rfl, hp⟩ := digits_of h1
  simp only [List.length_append, Nat.add_sub_cancel, Bool.or_eq_true, decide_eq_true_eq] at h2
  exact ⟨p, rfl, hp, by omega, hn⟩

/-- What the bytes of a token look like. -/
def Shape (k : Nat) : WVal → Bytes → Prop
  | .varint n, p => ∃ t v, p = t ++ v ∧ Tag k 0 t ∧ Varint n v
  | .fixed64 b, p => ∃ t, p = t ++ b ∧ Tag k 1 t ∧ b.length = 8
  | .len b, p => ∃ t v, p = t ++ (v ++ b) ∧ Tag k 2 t ∧ Varint b.length v
  | .startGroup, p => Tag k 3 p
  | .endGroup, p => Tag k 4 p
  | .fixed32 b, p => ∃ t, p = t ++ b ∧ Tag k 5 t ∧ b.length = 4

theorem takeExact_of {n : Nat} {b x r : Bytes} (h : takeExact n b = some (x, r)) : b = x ++ r ∧ x.length = n := by
  simp only [takeExact] at h
  split at h
  · cases h
  · next hn => cases h; exact ⟨(List.take_append_drop n b).symm, by rw [List.length_take]; omega⟩

theorem getTok_shape {b r : Bytes} {k : Nat} {v : WVal} (h : getTok b = some ((k, v), r))
    (hb : b.length < 18446744073709551616) : ∃ p, b = p ++ r ∧ Shape k v p ∧ p ≠ [] := by
  have hlen := getTok_length h
  suffices ∃ p, b = p ++ r ∧ Shape k v p by
    obtain ⟨p, hp, hs⟩ := this
    refine ⟨p, hp, hs, ?_⟩
    rintro rfl
    rw [hp] at hlen
    simp at hlen
  unfold getTok at h
  rw [Option.bind_eq_some_iff] at h
  obtain ⟨⟨n, r'⟩, h1, h2⟩ := h
  obtain ⟨t, rfl, ht⟩ := varint_of h1
  simp only at h2
  split at h2
  · cases h2
  · next hn =>
    rw [Option.map_eq_some_iff] at h2
    obtain ⟨⟨v', r''⟩, h3, h4⟩ := h2
    cases h4
    have tag : ∀ w, n % 8 = w → Tag (n / 8) w t := fun w hw => by
      refine ⟨by omega, by omega, ?_⟩
      rwa [show 8 * (n / 8) + w = n from by omega]
    unfold getVal at h3
    split at h3
    · next hw =>
      rw [Option.map_eq_some_iff] at h3
      obtain ⟨⟨m, s⟩, h5, h6⟩ := h3
      cases h6
      obtain ⟨p, rfl, hp⟩ := varint_of h5
      exact ⟨t ++ p, by simp only [List.append_assoc], t, p, rfl, tag 0 hw, hp⟩
    split at h3
    · next hw =>
      rw [Option.map_eq_some_iff] at h3
      obtain ⟨⟨m, s⟩, h5, h6⟩ := h3
      cases h6
      obtain ⟨rfl, hp⟩ := takeExact_of h5
      exact ⟨t ++ m, by simp only [List.append_assoc], t, rfl, tag 1 hw, hp⟩
    split at h3
    · next hw =>
      rw [Option.bind_eq_some_iff] at h3
      obtain ⟨⟨m, s⟩, h5, h6⟩ := h3
      rw [Option.map_eq_some_iff] at h6
      obtain ⟨⟨x, s'⟩, h7, h8⟩ := h6
      cases h8
      simp only at h7
      obtain ⟨rfl, hx⟩ := takeExact_of h7
      have hl := checked_length h5
      simp only [List.length_append] at hb hl
      obtain ⟨p, rfl, hp⟩ := len_of h5 (by omega)
      exact ⟨t ++ (p ++ x), by simp only [List.append_assoc], t, p, rfl, tag 2 hw, hx ▸ hp⟩
    split at h3
    · next hw => cases h3; exact ⟨t, rfl, tag 3 hw⟩
    split at h3
    · next hw => cases h3; exact ⟨t, rfl, tag 4 hw⟩
    split at h3
    · next hw =>
      rw [Option.map_eq_some_iff] at h3
      obtain ⟨⟨m, s⟩, h5, h6⟩ := h3
      cases h6
      obtain ⟨rfl, hp⟩ := takeExact_of h5
      exact ⟨t ++ m, by simp only [List.append_assoc], t, rfl, tag 5 hw, hp⟩
    · cases h3

theorem getRaw_first {b : Bytes} {l : List (Tok × Bytes)} (h : getRaw b = some l) (hb : b ≠ []) :
    ∃ t r raw l', getTok b = some (t, r) ∧ getRaw r = some l' ∧ l = (t, raw) :: l' := by
  cases b with
  | nil => exact absurd rfl hb
  | cons x xs =>
    cases ht : getTok (x :: xs) with
    | none => rw [getRaw_none ht] at h; cases h
    | some p =>
      obtain ⟨t, r⟩ := p
      rw [getRaw_cons ht, Option.map_eq_some_iff] at h
      obtain ⟨l', h1, h2⟩ := h
      exact ⟨t, r, _, l', rfl, h1, h2.symm⟩

theorem FieldsIn.one {d : Nat} {ok : Nat → Nat → Prop} {k : Nat} {v : WVal} {p r : Bytes} (h : Shape k v p) (h0 : v ≠ .startGroup)
    (h1 : v ≠ .endGroup) (hk : ok k v.wireType) (hr : FieldsIn d ok r) : FieldsIn d ok (p ++ r) := by
  cases v with
  | varint n => obtain ⟨t, u, rfl, ht, hu⟩ := h; rw [List.append_assoc]; exact .varint ht hk hu hr
  | fixed64 b => obtain ⟨t, rfl, ht, hu⟩ := h; rw [List.append_assoc]; exact .fixed64 ht hk hu hr
  | len b => obtain ⟨t, u, rfl, ht, hu⟩ := h; rw [List.append_assoc, List.append_assoc]; exact .len ht hk hu hr
  | startGroup => exact absurd rfl h0
  | endGroup => exact absurd rfl h1
  | fixed32 b => obtain ⟨t, rfl, ht, hu⟩ := h; rw [List.append_assoc]; exact .fixed32 ht hk hu hr

/-- The contents of a group. -/
theorem group_of : ∀ (n : Nat) (b : Bytes) (l : List (Tok × Bytes)) (m : Msg) (k : Nat) (o : List Nat),
    b.length ≤ n → b.length < 18446744073709551616 → o.length ≤ 10000 → getRaw b = some l →
    stripGroups (k :: o) (l.map Prod.fst) = some m →
    ∃ g t r l', b = g ++ (t ++ r) ∧ FieldsIn (10000 - o.length) (fun _ _ => True) g ∧ Tag k 4 t ∧ getRaw r = some l' ∧ stripGroups o (l'.map Prod.fst) = some m ∧
      r.length < b.length := by
  intro n
  induction n with
  | zero =>
    intro b l m k o hn hb ho h hs
    obtain rfl := List.eq_nil_of_length_eq_zero (Nat.le_zero.mp hn)
    cases h
    simp [stripGroups] at hs
  | succ n ih =>
    intro b l m k o hn hb ho h hs
    by_cases hne : b = []
    · subst hne; cases h; simp [stripGroups] at hs
    obtain ⟨⟨k', v⟩, r, raw, l', ht, hr, rfl⟩ := getRaw_first h hne
    obtain ⟨p, rfl, hp, hp0⟩ := getTok_shape ht hb
    have hl := List.length_pos_iff.mpr hp0
    rw [List.length_append] at hn hb
    by_cases h0 : v = .startGroup
    · subst h0
      simp only [List.map_cons, stripGroups] at hs
      split at hs
      case isFalse => cases hs
      case isTrue ho' =>
      obtain ⟨g, t, r', l'', rfl, hg, htag, hr', hs', hlt⟩ := ih r l' m k' (k :: o) (by omega) (by omega) ho' hr hs
      obtain ⟨g2, t2, r2, l2, rfl, hg2, htag2, hr2, hs2, hlt2⟩ := ih r' l'' m k o (by omega) (by omega) ho hr' hs'
      rw [List.length_cons] at ho' hg
      rw [show 10000 - o.length = (10000 - (o.length + 1)) + 1 from by omega] at hg2 ⊢
      refine ⟨p ++ (g ++ (t ++ g2)), t2, r2, l2, by simp only [List.append_assoc], ?_, htag2, hr2, hs2, ?_⟩
      · exact .group hp trivial hg htag hg2
      · simp only [List.length_append] at *; omega
    by_cases h1 : v = .endGroup
    · subst h1
      simp only [List.map_cons, stripGroups] at hs
      split at hs
      · next hk =>
        subst hk
        exact ⟨[], p, r, l', rfl, .nil, hp, hr, hs, by rw [List.length_append]; omega⟩
      · cases hs
    · have hs : stripGroups (k :: o) (l'.map Prod.fst) = some m := by
        rw [← hs]; cases v <;> first | rfl | exact absurd rfl h0 | exact absurd rfl h1
      obtain ⟨g, t, r', l'', rfl, hg, htag, hr', hs', hlt⟩ := ih r l' m k o (by omega) (by omega) ho hr hs
      refine ⟨p ++ g, t, r', l'', by simp only [List.append_assoc], ?_, htag, hr', hs', ?_⟩
      · exact FieldsIn.one hp h0 h1 trivial hg
      · simp only [List.length_append] at *; omega

/-- Messages that parse. -/
theorem valid_of {k : K} {b : Bytes} {m : Msg} (hb : b.length < 18446744073709551616) (h : decode b = some m)
    (hu : ∀ n x, (n, .text) ∈ σ k → (n, .len x) ∈ m → Utf8 x)
    (hm : ∀ n c x, (n, .msg c) ∈ σ k → (n, .len x) ∈ m → x.length < 18446744073709551616 → Valid σ c x) : Valid σ k b := by
  suffices ∀ (n : Nat) (b : Bytes) (l : List (Tok × Bytes)) (m : Msg), b.length ≤ n → b.length < 18446744073709551616 →
      getRaw b = some l → stripGroups [] (l.map Prod.fst) = some m →
      (∀ n x, (n, .text) ∈ σ k → (n, .len x) ∈ m → Utf8 x) →
      (∀ n c x, (n, .msg c) ∈ σ k → (n, .len x) ∈ m → x.length < 18446744073709551616 → Valid σ c x) → Valid σ k b by
    rw [decode_eq, Option.bind_eq_some_iff] at h
    obtain ⟨l, h1, h2⟩ := h
    exact this _ b l m (Nat.le_refl _) hb h1 h2 hu hm
  intro n
  induction n with
  | zero =>
    intro b l m hn _ _ _ _ _
    obtain rfl := List.eq_nil_of_length_eq_zero (Nat.le_zero.mp hn)
    exact .nil
  | succ n ih =>
    intro b l m hn hb h hs hu hm
    by_cases hne : b = []
    · subst hne; exact .nil
    obtain ⟨⟨k', v⟩, r, raw, l', ht, hr, rfl⟩ := getRaw_first h hne
    obtain ⟨p, rfl, hp, hp0⟩ := getTok_shape ht hb
    have hl := List.length_pos_iff.mpr hp0
    rw [List.length_append] at hn hb
    by_cases h0 : v = .startGroup
    · subst h0
      simp only [List.map_cons, stripGroups, show ([] : List Nat).length ≤ 10000 from Nat.zero_le _, if_true] at hs
      obtain ⟨g, t, r', l'', rfl, hg, htag, hr', hs', hlt⟩ :=
        group_of n r l' m k' [] (by omega) (by omega) (Nat.zero_le _) hr hs
      have : Valid σ k r' := ih r' l'' m (by omega) (by omega) hr' hs' hu hm
      have := Valid.other (σ := σ) (k := k) (f := p ++ (g ++ (t ++ []))) (.group hp (fun h => by cases h) hg htag .nil) this
      simpa only [List.append_assoc, List.append_nil, List.nil_append] using this
    by_cases h1 : v = .endGroup
    · subst h1; simp [stripGroups] at hs
    have hs' : ∃ m', stripGroups [] (l'.map Prod.fst) = some m' ∧ m = (k', v) :: m' := by
      simp only [List.map_cons] at hs
      cases v <;> first
        | exact absurd rfl h0
        | exact absurd rfl h1
        | (simp only [stripGroups, Option.map_eq_some_iff] at hs
           obtain ⟨m', h1, h2⟩ := hs
           exact ⟨m', h1, h2.symm⟩)
    obtain ⟨m', hs', rfl⟩ := hs'
    have hrest : Valid σ k r := ih r l' m' (by omega) (by omega) hr hs'
      (fun n x h h' => hu n x h (List.mem_cons_of_mem _ h')) fun n c x h h' => hm n c x h (List.mem_cons_of_mem _ h')
    by_cases hmsg : v.wireType = 2 ∧ ∃ c, (k', .msg c) ∈ σ k
    · obtain ⟨hw, c, hc⟩ := hmsg
      cases v with
      | len x =>
        obtain ⟨t, u, rfl, htag, hv⟩ := hp
        have hx : Valid σ c x := hm k' c x hc List.mem_cons_self hv.2.2
        have := Valid.inner hc htag hv hx hrest
        simpa only [List.append_assoc] using this
      | _ => cases hw
    by_cases htext : v.wireType = 2 ∧ (k', .text) ∈ σ k
    · obtain ⟨hw, hc⟩ := htext
      cases v with
      | len x =>
        obtain ⟨t, u, rfl, htag, hv⟩ := hp
        have := Valid.text hc htag hv (hu k' x hc List.mem_cons_self) hrest
        simpa only [List.append_assoc] using this
      | _ => cases hw
    · refine .other ?_ hrest
      have := FieldsIn.one (d := 10001) (ok := fun n w => w = 2 → (n, .text) ∉ σ k ∧ ∀ c, (n, .msg c) ∉ σ k) hp h0 h1
        (fun hw => ⟨fun h => htext ⟨hw, h⟩, fun c hc => hmsg ⟨hw, c, hc⟩⟩) .nil
      rwa [List.append_nil] at this

theorem valid_of_deep {k : K} {m : Msg} (h : Deep σ k m) : ∀ b, b.length < 18446744073709551616 → decode b = some m →
    Valid σ k b := by
  induction h with
  | mk h0 h1 _ ih =>
    intro b hb hd
    refine valid_of hb hd h0 fun n c x hc hx hl => ?_
    cases hf : decode x with
    | none => exact absurd hf (h1 n c x hc hx)
    | some f => exact ih n c x f hc hx hf x hl hf

theorem Deep.append {k : K} {m m' : Msg} (h : Deep σ k m) (h' : Deep σ k m') : Deep σ k (m ++ m') := by
  obtain ⟨a0, a1, a2⟩ := h
  obtain ⟨b0, b1, b2⟩ := h'
  refine ⟨fun n x hc hx => ?_, fun n c x hc hx => ?_, fun n c x f hc hx => ?_⟩ <;> rcases List.mem_append.mp hx with hx | hx
  · exact a0 n x hc hx
  · exact b0 n x hc hx
  · exact a1 n c x hc hx
  · exact b1 n c x hc hx
  · exact a2 n c x f hc hx
  · exact b2 n c x f hc hx

theorem Deep.sub {k : K} {m m' : Msg} (h : Deep σ k m) (hs : ∀ t ∈ m', t ∈ m) : Deep σ k m' := by
  obtain ⟨a0, a1, a2⟩ := h
  exact ⟨fun n x hc hx => a0 n x hc (hs _ hx), fun n c x hc hx => a1 n c x hc (hs _ hx), fun n c x f hc hx => a2 n c x f hc (hs _ hx)⟩

/-- Messages of which every part is well formed parse, and so do the messages in them. -/
theorem deep_of_valid (hσ : ∀ k n f f', (n, f) ∈ σ k → (n, f') ∈ σ k → f' = f) {k : K} {b : Bytes}
    (h : Valid σ k b) : ∃ m, decode b = some m ∧ Deep σ k m := by
  induction h with
  | nil => exact ⟨[], rfl, fun _ _ _ h => absurd h List.not_mem_nil, fun _ _ _ _ h => absurd h List.not_mem_nil,
      fun _ _ _ _ _ h => absurd h List.not_mem_nil⟩
  | @other k f b hf _ ih =>
    obtain ⟨m, hm, hd⟩ := ih
    obtain ⟨u, hu, hn⟩ := FieldsIn.decodes hf
    refine ⟨u ++ m, by rw [decode_append hu, hm]; rfl, Deep.append ⟨?_, ?_, ?_⟩ hd⟩
    · exact fun n x hc hx => absurd hc (hn _ hx rfl).1
    · exact fun n c x hc hx => absurd hc ((hn _ hx rfl).2 c)
    · exact fun n c x f hc hx => absurd hc ((hn _ hx rfl).2 c)
  | @text k n t v x b hc ht hv hu _ ih =>
    obtain ⟨m, hm, hd⟩ := ih
    refine ⟨[(n, .len x)] ++ m, ?_, Deep.append ⟨?_, ?_, ?_⟩ hd⟩
    · rw [show t ++ (v ++ (x ++ b)) = (t ++ (v ++ x)) ++ b from by simp only [List.append_assoc],
        decode_append (decode_len ht hv), hm]; rfl
    · intro n' x' hc' hx'
      simp only [List.mem_singleton, Prod.mk.injEq, WVal.len.injEq] at hx'
      rw [hx'.2]; exact hu
    · intro n' c' x' hc' hx'
      simp only [List.mem_singleton, Prod.mk.injEq, WVal.len.injEq] at hx'
      rw [hx'.1] at hc'
      cases hσ k n _ _ hc hc'
    · intro n' c' x' f' hc' hx' hf'
      simp only [List.mem_singleton, Prod.mk.injEq, WVal.len.injEq] at hx'
      rw [hx'.1] at hc'
      cases hσ k n _ _ hc hc'
  | @inner k c n t v x b hc ht hv _ _ ihx ih =>
    obtain ⟨m, hm, hd⟩ := ih
    obtain ⟨f, hf, hdf⟩ := ihx
    refine ⟨[(n, .len x)] ++ m, ?_, Deep.append ⟨?_, ?_, ?_⟩ hd⟩
    · rw [show t ++ (v ++ (x ++ b)) = (t ++ (v ++ x)) ++ b from by simp only [List.append_assoc],
        decode_append (decode_len ht hv), hm]; rfl
    · intro n' x' hc' hx'
      simp only [List.mem_singleton, Prod.mk.injEq, WVal.len.injEq] at hx'
      rw [hx'.1] at hc'
      cases hσ k n _ _ hc hc'
    · intro n' c' x' hc' hx'
      simp only [List.mem_singleton, Prod.mk.injEq, WVal.len.injEq] at hx'
      rw [hx'.2, hf]
      exact fun h => by cases h
    · intro n' c' x' f' hc' hx' hf'
      simp only [List.mem_singleton, Prod.mk.injEq, WVal.len.injEq] at hx'
      obtain ⟨rfl, rfl⟩ := hx'
      rw [hf, Option.some.injEq] at hf'
      cases hσ k n' _ _ hc hc'
      rw [← hf']
      exact hdf

theorem valid_iff (hσ : ∀ k n f f', (n, f) ∈ σ k → (n, f') ∈ σ k → f' = f) (k : K) (b : Bytes)
    (hb : b.length < 18446744073709551616) : Valid σ k b ↔ ∃ m, decode b = some m ∧ Deep σ k m :=
  ⟨deep_of_valid hσ, fun ⟨_, h1, h2⟩ => valid_of_deep h2 b hb h1⟩

/-! ## Getters -/

/-- The messages in field `n` are well formed. -/
def Sub (σ : Schema K) (n : Nat) (c : K) (m : Msg) : Prop := ∀ x, (n, .len x) ∈ m → ∃ f, decode x = some f ∧ Deep σ c f

/-- The strings in field `n` are well formed. -/
def Str (n : Nat) (m : Msg) : Prop := ∀ x, (n, .len x) ∈ m → Utf8 x

theorem deep_iff (k : K) (m : Msg) : Deep σ k m ↔
    (∀ n, (n, .text) ∈ σ k → Str n m) ∧ ∀ n c, (n, .msg c) ∈ σ k → Sub σ n c m := by
  constructor
  · rintro ⟨h0, h1, h2⟩
    refine ⟨fun n hn x hx => h0 n x hn hx, fun n c hc x hx => ?_⟩
    cases hf : decode x with
    | none => exact absurd hf (h1 n c x hc hx)
    | some f => exact ⟨f, rfl, h2 n c x f hc hx hf⟩
  · rintro ⟨h0, h⟩
    refine ⟨fun n x hn hx => h0 n hn x hx, fun n c x hc hx hd => ?_, fun n c x f hc hx hd => ?_⟩
    · obtain ⟨f, hf, -⟩ := h n c hc x hx
      rw [hd] at hf; cases hf
    · obtain ⟨f', hf, hdeep⟩ := h n c hc x hx
      rw [hd] at hf; cases hf; exact hdeep

theorem mem_lens_iff {k : Nat} {m : Msg} {x : Bytes} : x ∈ lens k m ↔ (k, .len x) ∈ m := by
  simp only [lens, List.mem_filterMap]
  constructor
  · rintro ⟨⟨j, v⟩, ht, h⟩
    cases v with
    | len b =>
      simp only at h
      split at h
      · next hj => cases h; subst hj; exact ht
      · cases h
    | _ => cases h
  · intro h
    exact ⟨_, h, by simp⟩

theorem str_iff {n : Nat} {m : Msg} : Str n m ↔ (lens n m).all utf8Valid = true := by
  simp only [Str, List.all_eq_true, mem_lens_iff, utf8Valid_iff]
  rfl

theorem mapM_decode_some {l : List Bytes} {fs : List Msg} (h : l.mapM decode = some fs) :
    (∀ x ∈ l, ∃ f ∈ fs, decode x = some f) ∧ ∀ f ∈ fs, ∃ x ∈ l, decode x = some f := by
  induction l generalizing fs with
  | nil => cases h; exact ⟨fun _ h => absurd h List.not_mem_nil, fun _ h => absurd h List.not_mem_nil⟩
  | cons a l ih =>
    rw [mapM_decode_cons, Option.bind_eq_some_iff] at h
    obtain ⟨f, hf, h⟩ := h
    rw [Option.map_eq_some_iff] at h
    obtain ⟨fs', h1, rfl⟩ := h
    obtain ⟨i1, i2⟩ := ih h1
    constructor
    · intro x hx
      rcases List.mem_cons.mp hx with rfl | hx
      · exact ⟨f, List.mem_cons_self, hf⟩
      · obtain ⟨g, hg, e⟩ := i1 x hx
        exact ⟨g, List.mem_cons_of_mem _ hg, e⟩
    · intro g hg
      rcases List.mem_cons.mp hg with rfl | hg
      · exact ⟨a, List.mem_cons_self, hf⟩
      · obtain ⟨x, hx, e⟩ := i2 g hg
        exact ⟨x, List.mem_cons_of_mem _ hx, e⟩

theorem mapM_decode_isSome {l : List Bytes} (h : ∀ x ∈ l, ∃ f, decode x = some f) : ∃ fs, l.mapM decode = some fs := by
  induction l with
  | nil => exact ⟨[], rfl⟩
  | cons a l ih =>
    obtain ⟨f, hf⟩ := h a List.mem_cons_self
    obtain ⟨fs, hfs⟩ := ih fun x hx => h x (List.mem_cons_of_mem _ hx)
    exact ⟨f :: fs, by rw [mapM_decode_cons, hf, hfs]; rfl⟩

theorem deep_flatten {c : K} {fs : List Msg} : Deep σ c fs.flatten ↔ ∀ f ∈ fs, Deep σ c f := by
  constructor
  · exact fun h f hf => h.sub fun t ht => List.mem_flatten.mpr ⟨f, hf, ht⟩
  · intro h
    induction fs with
    | nil => exact ⟨fun _ _ _ h => absurd h List.not_mem_nil, fun _ _ _ _ h => absurd h List.not_mem_nil,
        fun _ _ _ _ _ h => absurd h List.not_mem_nil⟩
    | cons f fs ih =>
      rw [List.flatten_cons]
      exact (h f List.mem_cons_self).append (ih fun g hg => h g (List.mem_cons_of_mem _ hg))

theorem sub_list {c : K} {n : Nat} {m : Msg} :
    Sub σ n c m ↔ ∃ fs, (lens n m).mapM decode = some fs ∧ ∀ f ∈ fs, Deep σ c f := by
  constructor
  · intro h
    obtain ⟨fs, hfs⟩ := mapM_decode_isSome (l := lens n m) fun x hx => by
      obtain ⟨f, hf, -⟩ := h x (mem_lens_iff.mp hx)
      exact ⟨f, hf⟩
    refine ⟨fs, hfs, fun f hf => ?_⟩
    obtain ⟨x, hx, e⟩ := (mapM_decode_some hfs).2 f hf
    obtain ⟨f', hf', hd⟩ := h x (mem_lens_iff.mp hx)
    rw [e] at hf'; cases hf'; exact hd
  · rintro ⟨fs, hfs, hd⟩ x hx
    obtain ⟨f, hf, e⟩ := (mapM_decode_some hfs).1 x (mem_lens_iff.mpr hx)
    exact ⟨f, e, hd f hf⟩

theorem sub_iff {c : K} {n : Nat} {m : Msg} : Sub σ n c m ↔ ∃ o, getMsg n m = some o ∧ ∀ f, o = some f → Deep σ c f := by
  rw [sub_list]
  cases hl : lens n m with
  | nil =>
    simp only [getMsg, hl]
    exact ⟨fun _ => ⟨none, rfl, fun _ h => by cases h⟩, fun _ => ⟨[], rfl, fun _ h => absurd h List.not_mem_nil⟩⟩
  | cons a l =>
    simp only [getMsg, hl]
    constructor
    · rintro ⟨fs, hfs, hd⟩
      exact ⟨some fs.flatten, by rw [hfs]; rfl, fun f hf => by cases hf; exact deep_flatten.mpr hd⟩
    · rintro ⟨o, ho, hd⟩
      rw [Option.map_eq_some_iff] at ho
      obtain ⟨f, hf, rfl⟩ := ho
      rw [Option.map_eq_some_iff] at hf
      obtain ⟨fs, hfs, rfl⟩ := hf
      exact ⟨fs, hfs, deep_flatten.mp (hd _ rfl)⟩

theorem deep_leaf {k : K} (h : ∀ n, (n, .text) ∉ σ k ∧ ∀ c, (n, .msg c) ∉ σ k) (m : Msg) : Deep σ k m :=
  (deep_iff k m).mpr ⟨fun n hc => absurd hc (h n).1, fun n c hc => absurd hc ((h n).2 c)⟩

theorem sub_leaf {c : K} (h : ∀ n, (n, .text) ∉ σ c ∧ ∀ c', (n, .msg c') ∉ σ c) (n : Nat) (m : Msg) : Sub σ n c m ↔ (getMsg n m).isSome := by
  rw [sub_iff, Option.isSome_iff_exists]
  exact ⟨fun ⟨o, ho, _⟩ => ⟨o, ho⟩, fun ⟨o, ho⟩ => ⟨o, ho, fun f _ => deep_leaf h f⟩⟩

theorem sub_leaves {c : K} (h : ∀ n, (n, .text) ∉ σ c ∧ ∀ c', (n, .msg c') ∉ σ c) (n : Nat) (m : Msg) :
    Sub σ n c m ↔ ((lens n m).mapM decode).isSome := by
  rw [sub_list, Option.isSome_iff_exists]
  exact ⟨fun ⟨o, ho, _⟩ => ⟨o, ho⟩, fun ⟨o, ho⟩ => ⟨o, ho, fun f _ => deep_leaf h f⟩⟩

/-- Parsers that fail for messages with malformed messages in them. -/
theorem parse_valid {α : Type} {parse : Msg → Option α} {k : K} (hp : ∀ m, (parse m).isSome → Deep σ k m) {b : Bytes}
    (hb : b.length < 18446744073709551616) (h : ((decode b).bind parse).isSome) : Valid σ k b := by
  cases hd : decode b with
  | none => rw [hd] at h; cases h
  | some m =>
    rw [hd, Option.bind_some] at h
    exact valid_of_deep (hp m h) b hb hd

/-- Parsers that fail for no other messages. -/
theorem valid_parse (hσ : ∀ k n f f', (n, f) ∈ σ k → (n, f') ∈ σ k → f' = f) {α : Type}
    {parse : Msg → Option α} {k : K} (hp : ∀ m, Deep σ k m → (parse m).isSome) {b : Bytes} (h : Valid σ k b) :
    ((decode b).bind parse).isSome := by
  obtain ⟨m, hm, hd⟩ := deep_of_valid hσ h
  rw [hm, Option.bind_some]
  exact hp m hd

end Idemix.Proto
