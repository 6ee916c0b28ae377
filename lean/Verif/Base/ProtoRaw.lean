import Verif.Base.Proto

/-!
# Fields that a message type does not know

`proto.Unmarshal` keeps the bytes of the fields that the type of the message does not declare, in the order in
which they occur, and `proto.Marshal` writes them after the declared fields (`unknownFields` in the generated
structures). A field with a declared number and another wire type, and every group, is kept in this way.
-/

namespace Idemix.Proto

/-- Tokens of an input with their bytes, with a bound on their number. -/
def getRawN : Nat → Bytes → Option (List (Tok × Bytes))
  | _, [] => some []
  | 0, _ :: _ => none
  | f + 1, b :: bs => (getTok (b :: bs)).bind fun p =>
      (getRawN f p.2).map fun l => (p.1, (b :: bs).take ((b :: bs).length - p.2.length)) :: l

/-- Tokens of an input with their bytes. -/
def getRaw (b : Bytes) : Option (List (Tok × Bytes)) := getRawN b.length b

/-- Bytes of the undeclared fields; the number is the nesting depth of groups. `known k w`: number `k` is declared
with wire type `w`. -/
def unknownIn (known : Nat → Nat → Bool) : Nat → List (Tok × Bytes) → Bytes
  | _, [] => []
  | 0, ((_, .startGroup), raw) :: l => raw ++ unknownIn known 1 l
  | 0, ((k, v), raw) :: l => (if known k v.wireType then [] else raw) ++ unknownIn known 0 l
  | d + 1, ((_, .startGroup), raw) :: l => raw ++ unknownIn known (d + 2) l
  | d + 1, ((_, .endGroup), raw) :: l => raw ++ unknownIn known d l
  | d + 1, (_, raw) :: l => raw ++ unknownIn known (d + 1) l

/-- Bytes of the undeclared fields of an encoded message. -/
def unknown (known : Nat → Nat → Bool) (b : Bytes) : Bytes := ((getRaw b).map (unknownIn known 0)).getD []

theorem getRawN_fst (f : Nat) (b : Bytes) : (getRawN f b).map (List.map Prod.fst) = getToksN f b := by
  induction f generalizing b with
  | zero => cases b <;> rfl
  | succ f ih =>
    cases b with
    | nil => rfl
    | cons b bs =>
      simp only [getRawN, getToksN]
      cases getTok (b :: bs) with
      | none => rfl
      | some p =>
        simp only [Option.bind_some, ← ih p.2, Option.map_map]
        rfl

theorem getRaw_fst (b : Bytes) : (getRaw b).map (List.map Prod.fst) = getToks b := getRawN_fst _ b

/-! ## Concatenation -/

theorem getDigits_append {b : Bytes} {n : Nat} {r : Bytes} (h : getDigits b = some (n, r)) (s : Bytes) :
    getDigits (b ++ s) = some (n, r ++ s) := by
  induction b generalizing n r with
  | nil => cases h
  | cons b bs ih =>
    simp only [getDigits, List.cons_append] at h ⊢
    split at h
    · next hb => cases h; simp [hb]
    · next hb =>
      rw [Option.map_eq_some_iff] at h
      obtain ⟨⟨n', r'⟩, h1, h2⟩ := h
      cases h2
      simp [hb, ih h1]

theorem checked_append {ok : Nat → Nat → Bool} {b : Bytes} {n : Nat} {r : Bytes} (h : checked ok b = some (n, r)) (s : Bytes) :
    checked ok (b ++ s) = some (n, r ++ s) := by
  obtain ⟨h1, h2⟩ := checked_some.mp h
  refine checked_some.mpr ⟨getDigits_append h1 s, ?_⟩
  rwa [List.length_append, List.length_append, Nat.add_sub_add_right]

theorem getVarint_append {b : Bytes} {n : Nat} {r : Bytes} (h : getVarint b = some (n, r)) (s : Bytes) :
    getVarint (b ++ s) = some (n, r ++ s) := checked_append h s

theorem getLen_append {b : Bytes} {n : Nat} {r : Bytes} (h : getLen b = some (n, r)) (s : Bytes) :
    getLen (b ++ s) = some (n, r ++ s) := checked_append h s

theorem takeExact_append' {n : Nat} {b x r : Bytes} (h : takeExact n b = some (x, r)) (s : Bytes) :
    takeExact n (b ++ s) = some (x, r ++ s) := by
  simp only [takeExact] at h ⊢
  split at h
  · cases h
  · next hn =>
    cases h
    have h1 : ¬ (b ++ s).length < n := by rw [List.length_append]; omega
    rw [if_neg h1, List.take_append_of_le_length (by omega), List.drop_append_of_le_length (by omega)]

theorem getVal_append {w : Nat} {b : Bytes} {v : WVal} {r : Bytes} (h : getVal w b = some (v, r)) (s : Bytes) :
    getVal w (b ++ s) = some (v, r ++ s) := by
  unfold getVal at h ⊢
  split at h
  · rw [Option.map_eq_some_iff] at h
    obtain ⟨⟨n, r'⟩, h1, h2⟩ := h
    cases h2
    simp [*, getVarint_append h1]
  split at h
  · rw [Option.map_eq_some_iff] at h
    obtain ⟨⟨n, r'⟩, h1, h2⟩ := h
    cases h2
    simp [*, takeExact_append' h1]
  split at h
  · rw [Option.bind_eq_some_iff] at h
    obtain ⟨⟨n, r'⟩, h1, h2⟩ := h
    rw [Option.map_eq_some_iff] at h2
    obtain ⟨⟨x, r''⟩, h3, h4⟩ := h2
    cases h4
    simp [*, getLen_append h1, takeExact_append' h3]
  split at h
  · cases h; simp [*]
  split at h
  · cases h; simp [*]
  split at h
  · rw [Option.map_eq_some_iff] at h
    obtain ⟨⟨n, r'⟩, h1, h2⟩ := h
    cases h2
    simp [*, takeExact_append' h1]
  · cases h

theorem getTok_append {b : Bytes} {t : Tok} {r : Bytes} (h : getTok b = some (t, r)) (s : Bytes) :
    getTok (b ++ s) = some (t, r ++ s) := by
  unfold getTok at h ⊢
  rw [Option.bind_eq_some_iff] at h
  obtain ⟨⟨n, r'⟩, h1, h2⟩ := h
  rw [getVarint_append h1, Option.bind_some]
  split at h2
  · cases h2
  · next hn =>
    rw [if_neg hn]
    rw [Option.map_eq_some_iff] at h2 ⊢
    obtain ⟨⟨v, r''⟩, h3, h4⟩ := h2
    cases h4
    exact ⟨(v, r'' ++ s), getVal_append h3 s, rfl⟩

theorem takeExact_length {n : Nat} {b x r : Bytes} (h : takeExact n b = some (x, r)) : r.length ≤ b.length := by
  simp only [takeExact] at h
  split at h
  · cases h
  · cases h; simp

theorem getVal_length {w : Nat} {b : Bytes} {v : WVal} {r : Bytes} (h : getVal w b = some (v, r)) :
    r.length ≤ b.length := by
  unfold getVal at h
  split at h
  · rw [Option.map_eq_some_iff] at h
    obtain ⟨⟨n, r'⟩, h1, h2⟩ := h
    cases h2
    exact Nat.le_of_lt (checked_length h1)
  split at h
  · rw [Option.map_eq_some_iff] at h
    obtain ⟨⟨n, r'⟩, h1, h2⟩ := h
    cases h2
    exact takeExact_length h1
  split at h
  · rw [Option.bind_eq_some_iff] at h
    obtain ⟨⟨n, r'⟩, h1, h2⟩ := h
    rw [Option.map_eq_some_iff] at h2
    obtain ⟨⟨x, r''⟩, h3, h4⟩ := h2
    cases h4
    exact Nat.le_trans (takeExact_length h3) (Nat.le_of_lt (checked_length h1))
  split at h
  · cases h; exact Nat.le_refl _
  split at h
  · cases h; exact Nat.le_refl _
  split at h
  · rw [Option.map_eq_some_iff] at h
    obtain ⟨⟨n, r'⟩, h1, h2⟩ := h
    cases h2
    exact takeExact_length h1
  · cases h

theorem getTok_length {b : Bytes} {t : Tok} {r : Bytes} (h : getTok b = some (t, r)) : r.length < b.length := by
  unfold getTok at h
  rw [Option.bind_eq_some_iff] at h
  obtain ⟨⟨n, r'⟩, h1, h2⟩ := h
  split at h2
  · cases h2
  · rw [Option.map_eq_some_iff] at h2
    obtain ⟨⟨v, r''⟩, h3, h4⟩ := h2
    cases h4
    exact Nat.lt_of_le_of_lt (getVal_length h3) (checked_length h1)

/-- The bound is not reached. -/
theorem getRawN_bound (f : Nat) (b : Bytes) (h : b.length ≤ f) : getRawN f b = getRaw b := by
  suffices ∀ (n : Nat) (b : Bytes) (f g : Nat), b.length ≤ n → b.length ≤ f → b.length ≤ g → getRawN f b = getRawN g b from
    this _ b f _ (Nat.le_refl _) h (Nat.le_refl _)
  intro n
  induction n with
  | zero =>
    intro b f g h0 _ _
    have : b = [] := List.eq_nil_of_length_eq_zero (Nat.le_zero.mp h0)
    subst this
    cases f <;> cases g <;> rfl
  | succ n ih =>
    intro b f g h0 hf hg
    cases b with
    | nil => cases f <;> cases g <;> rfl
    | cons b bs =>
      cases f with
      | zero => simp at hf
      | succ f =>
        cases g with
        | zero => simp at hg
        | succ g =>
          simp only [getRawN]
          cases ht : getTok (b :: bs) with
          | none => rfl
          | some p =>
            obtain ⟨t, r⟩ := p
            have hr := getTok_length ht
            simp only [List.length_cons] at h0 hf hg hr
            simp only [Option.bind_some]
            rw [ih r f g (by omega) (by omega) (by omega)]

theorem getRaw_cons {b : Bytes} {t : Tok} {r : Bytes} (h : getTok b = some (t, r)) :
    getRaw b = (getRaw r).map fun l => (t, b.take (b.length - r.length)) :: l := by
  cases b with
  | nil => cases h
  | cons x xs =>
    have hr := getTok_length h
    simp only [List.length_cons] at hr
    have e : getRaw (x :: xs) = getRawN (xs.length + 1) (x :: xs) := rfl
    rw [e]
    simp only [getRawN, h, Option.bind_some]
    rw [getRawN_bound _ _ (by omega)]

theorem getRaw_none {x : UInt8} {xs : Bytes} (h : getTok (x :: xs) = none) : getRaw (x :: xs) = none := by
  have e : getRaw (x :: xs) = getRawN (xs.length + 1) (x :: xs) := rfl
  rw [e]
  simp only [getRawN, h, Option.bind_none]

theorem getRaw_append {b : Bytes} {l : List (Tok × Bytes)} (h : getRaw b = some l) (s : Bytes) :
    getRaw (b ++ s) = (getRaw s).map fun l' => l ++ l' := by
  suffices ∀ (n : Nat) (b : Bytes) (l : List (Tok × Bytes)), b.length ≤ n → getRaw b = some l →
      getRaw (b ++ s) = (getRaw s).map fun l' => l ++ l' from this _ b l (Nat.le_refl _) h
  intro n
  induction n with
  | zero =>
    intro b l h0 h
    have : b = [] := List.eq_nil_of_length_eq_zero (Nat.le_zero.mp h0)
    subst this
    cases h
    cases hs : getRaw s <;> simp [hs]
  | succ n ih =>
    intro b l h0 h
    cases b with
    | nil =>
      cases h
      cases hs : getRaw s <;> simp [hs]
    | cons x xs =>
      cases ht : getTok (x :: xs) with
      | none => rw [getRaw_none ht] at h; cases h
      | some p =>
        obtain ⟨t, r⟩ := p
        have hr := getTok_length ht
        simp only [List.length_cons] at h0 hr
        rw [getRaw_cons ht, Option.map_eq_some_iff] at h
        obtain ⟨l', h1, rfl⟩ := h
        rw [getRaw_cons (getTok_append ht s), ih r l' (by omega) h1, Option.map_map]
        congr 1
        funext l''
        simp only [Function.comp_apply, List.cons_append, List.cons.injEq, Prod.mk.injEq, true_and, and_true]
        rw [← List.cons_append, List.length_append, List.length_append, Nat.add_sub_add_right,
          List.take_append_of_le_length (Nat.sub_le _ _)]

theorem stripGroups_append (l l' : List Tok) : ∀ {o : List Nat} {m : List Tok}, stripGroups o l = some m →
    stripGroups o (l ++ l') = (stripGroups [] l').map fun m' => m ++ m' := by
  induction l with
  | nil =>
    intro o m h
    cases o with
    | nil => cases h; cases hs : stripGroups [] l' <;> simp [hs]
    | cons k o => cases h
  | cons t l ih =>
    intro o m h
    obtain ⟨k, v⟩ := t
    rw [List.cons_append]
    cases v with
    | startGroup =>
      obtain ⟨h1, h2⟩ := stripGroups_start.mp h
      rw [stripGroups, if_pos h1]
      exact ih h2
    | endGroup =>
      cases o with
      | nil => simp [stripGroups] at h
      | cons k' o =>
        simp only [stripGroups] at h ⊢
        split at h
        · next hk => rw [if_pos hk]; exact ih h
        · cases h
    | varint n =>
      cases o with
      | nil =>
        simp only [stripGroups] at h ⊢
        rw [Option.map_eq_some_iff] at h
        obtain ⟨m', h1, rfl⟩ := h
        rw [ih h1, Option.map_map]; rfl
      | cons k' o => simp only [stripGroups] at h ⊢; exact ih h
    | fixed64 n =>
      cases o with
      | nil =>
        simp only [stripGroups] at h ⊢
        rw [Option.map_eq_some_iff] at h
        obtain ⟨m', h1, rfl⟩ := h
        rw [ih h1, Option.map_map]; rfl
      | cons k' o => simp only [stripGroups] at h ⊢; exact ih h
    | len n =>
      cases o with
      | nil =>
        simp only [stripGroups] at h ⊢
        rw [Option.map_eq_some_iff] at h
        obtain ⟨m', h1, rfl⟩ := h
        rw [ih h1, Option.map_map]; rfl
      | cons k' o => simp only [stripGroups] at h ⊢; exact ih h
    | fixed32 n =>
      cases o with
      | nil =>
        simp only [stripGroups] at h ⊢
        rw [Option.map_eq_some_iff] at h
        obtain ⟨m', h1, rfl⟩ := h
        rw [ih h1, Option.map_map]; rfl
      | cons k' o => simp only [stripGroups] at h ⊢; exact ih h

theorem decode_eq (b : Bytes) : decode b = (getRaw b).bind fun l => stripGroups [] (l.map Prod.fst) := by
  rw [decode, ← getRaw_fst]
  cases getRaw b <;> rfl

/-- Decoding a message after another one into the same structure. -/
theorem decode_append {b : Bytes} {m : Msg} (h : decode b = some m) (s : Bytes) :
    decode (b ++ s) = (decode s).map fun m' => m ++ m' := by
  rw [decode_eq, Option.bind_eq_some_iff] at h
  obtain ⟨l, h1, h2⟩ := h
  rw [decode_eq, getRaw_append h1, decode_eq]
  cases getRaw s with
  | none => rfl
  | some l' =>
    simp only [Option.map_some, Option.bind_some, List.map_append]
    exact stripGroups_append _ _ h2

theorem unknownIn_append (known : Nat → Nat → Bool) (l l' : List (Tok × Bytes)) : ∀ {o : List Nat} {m : List Tok},
    stripGroups o (l.map Prod.fst) = some m →
    unknownIn known o.length (l ++ l') = unknownIn known o.length l ++ unknownIn known 0 l' := by
  induction l with
  | nil =>
    intro o m h
    cases o with
    | nil => rfl
    | cons k o => cases h
  | cons t l ih =>
    intro o m h
    obtain ⟨⟨k, v⟩, raw⟩ := t
    rw [List.cons_append]
    rw [List.map_cons] at h
    cases o with
    | nil =>
      cases v with
      | startGroup =>
        simp only [unknownIn, List.length_nil, List.append_assoc]
        have := ih (stripGroups_start.mp h).2
        simp only [List.length_cons, List.length_nil] at this
        rw [this]
      | endGroup => simp [stripGroups] at h
      | varint n =>
        simp only [stripGroups, Option.map_eq_some_iff] at h
        obtain ⟨m', h1, -⟩ := h
        simp only [List.length_nil, unknownIn, List.append_assoc]
        rw [show unknownIn known 0 (l ++ l') = unknownIn known 0 l ++ unknownIn known 0 l' from ih h1]
      | fixed64 n =>
        simp only [stripGroups, Option.map_eq_some_iff] at h
        obtain ⟨m', h1, -⟩ := h
        simp only [List.length_nil, unknownIn, List.append_assoc]
        rw [show unknownIn known 0 (l ++ l') = unknownIn known 0 l ++ unknownIn known 0 l' from ih h1]
      | len n =>
        simp only [stripGroups, Option.map_eq_some_iff] at h
        obtain ⟨m', h1, -⟩ := h
        simp only [List.length_nil, unknownIn, List.append_assoc]
        rw [show unknownIn known 0 (l ++ l') = unknownIn known 0 l ++ unknownIn known 0 l' from ih h1]
      | fixed32 n =>
        simp only [stripGroups, Option.map_eq_some_iff] at h
        obtain ⟨m', h1, -⟩ := h
        simp only [List.length_nil, unknownIn, List.append_assoc]
        rw [show unknownIn known 0 (l ++ l') = unknownIn known 0 l ++ unknownIn known 0 l' from ih h1]
    | cons k' o =>
      cases v with
      | startGroup =>
        simp only [unknownIn, List.length_cons, List.append_assoc]
        have := ih (stripGroups_start.mp h).2
        simp only [List.length_cons] at this
        rw [this]
      | endGroup =>
        simp only [stripGroups, unknownIn, List.length_cons, List.append_assoc] at h ⊢
        split at h
        · rw [ih h]
        · cases h
      | varint n =>
        simp only [stripGroups, unknownIn, List.length_cons, List.append_assoc] at h ⊢
        rw [show unknownIn known (o.length + 1) (l ++ l') = _ from ih h]; rfl
      | fixed64 n =>
        simp only [stripGroups, unknownIn, List.length_cons, List.append_assoc] at h ⊢
        rw [show unknownIn known (o.length + 1) (l ++ l') = _ from ih h]; rfl
      | len n =>
        simp only [stripGroups, unknownIn, List.length_cons, List.append_assoc] at h ⊢
        rw [show unknownIn known (o.length + 1) (l ++ l') = _ from ih h]; rfl
      | fixed32 n =>
        simp only [stripGroups, unknownIn, List.length_cons, List.append_assoc] at h ⊢
        rw [show unknownIn known (o.length + 1) (l ++ l') = _ from ih h]; rfl

theorem unknown_append (known : Nat → Nat → Bool) {b s : Bytes} {m m' : Msg} (h : decode b = some m)
    (hs : decode s = some m') : unknown known (b ++ s) = unknown known b ++ unknown known s := by
  rw [decode_eq, Option.bind_eq_some_iff] at h hs
  obtain ⟨l, h1, h2⟩ := h
  obtain ⟨l', h3, -⟩ := hs
  simp only [unknown, getRaw_append h1, h1, h3, Option.map_some, Option.getD_some]
  exact unknownIn_append known l l' h2

/-! ## What is kept is a sequence of undeclared fields -/

theorem getDigits_consumes {b : Bytes} {n : Nat} {r : Bytes} (h : getDigits b = some (n, r)) :
    ∃ p, b = p ++ r ∧ ∀ s, getDigits (p ++ s) = some (n, s) := by
  induction b generalizing n r with
  | nil => cases h
  | cons b bs ih =>
    simp only [getDigits] at h
    split at h
    · next hb => cases h; exact ⟨[b], rfl, fun s => by simp [getDigits, hb]⟩
    · next hb =>
      rw [Option.map_eq_some_iff] at h
      obtain ⟨⟨n', r'⟩, h1, h2⟩ := h
      cases h2
      obtain ⟨p, hp, hs⟩ := ih h1
      exact ⟨b :: p, by rw [hp]; rfl, fun s => by simp [getDigits, hb, hs]⟩

theorem checked_consumes {ok : Nat → Nat → Bool} {b : Bytes} {n : Nat} {r : Bytes} (h : checked ok b = some (n, r)) :
    ∃ p, b = p ++ r ∧ ∀ s, checked ok (p ++ s) = some (n, s) := by
  obtain ⟨h1, h2⟩ := checked_some.mp h
  obtain ⟨p, hp, hs⟩ := getDigits_consumes h1
  refine ⟨p, hp, fun s => checked_some.mpr ⟨hs s, ?_⟩⟩
  rw [hp, List.length_append, Nat.add_sub_cancel] at h2
  rwa [List.length_append, Nat.add_sub_cancel]

theorem getVarint_consumes {b : Bytes} {n : Nat} {r : Bytes} (h : getVarint b = some (n, r)) :
    ∃ p, b = p ++ r ∧ ∀ s, getVarint (p ++ s) = some (n, s) := checked_consumes h

theorem getLen_consumes {b : Bytes} {n : Nat} {r : Bytes} (h : getLen b = some (n, r)) :
    ∃ p, b = p ++ r ∧ ∀ s, getLen (p ++ s) = some (n, s) := checked_consumes h

theorem takeExact_consumes {n : Nat} {b x r : Bytes} (h : takeExact n b = some (x, r)) :
    b = x ++ r ∧ ∀ s, takeExact n (x ++ s) = some (x, s) := by
  simp only [takeExact] at h
  split at h
  · cases h
  · next hn =>
    cases h
    have hl : (b.take n).length = n := by rw [List.length_take]; omega
    refine ⟨(List.take_append_drop n b).symm, fun s => ?_⟩
    have := takeExact_append (b.take n) s
    rwa [hl] at this

theorem getVal_consumes {w : Nat} {b : Bytes} {v : WVal} {r : Bytes} (h : getVal w b = some (v, r)) :
    ∃ p, b = p ++ r ∧ ∀ s, getVal w (p ++ s) = some (v, s) := by
  unfold getVal at h
  split at h
  · rw [Option.map_eq_some_iff] at h
    obtain ⟨⟨n, r'⟩, h1, h2⟩ := h
    cases h2
    obtain ⟨p, hp, hs⟩ := getVarint_consumes h1
    exact ⟨p, hp, fun s => by simp [getVal, *]⟩
  split at h
  · rw [Option.map_eq_some_iff] at h
    obtain ⟨⟨n, r'⟩, h1, h2⟩ := h
    cases h2
    obtain ⟨hp, hs⟩ := takeExact_consumes h1
    exact ⟨_, hp, fun s => by simp [getVal, *]⟩
  split at h
  · rw [Option.bind_eq_some_iff] at h
    obtain ⟨⟨n, r'⟩, h1, h2⟩ := h
    rw [Option.map_eq_some_iff] at h2
    obtain ⟨⟨x, r''⟩, h3, h4⟩ := h2
    cases h4
    obtain ⟨p, hp, hs⟩ := getLen_consumes h1
    obtain ⟨hp', hs'⟩ := takeExact_consumes h3
    refine ⟨p ++ x, ?_, fun s => ?_⟩
    · simp only at hp'; rw [hp, hp', List.append_assoc]
    · simp only at hs'
      rw [List.append_assoc]
      simp [getVal, *]
  split at h
  · cases h; exact ⟨[], rfl, fun s => by simp [getVal, *]⟩
  split at h
  · cases h; exact ⟨[], rfl, fun s => by simp [getVal, *]⟩
  split at h
  · rw [Option.map_eq_some_iff] at h
    obtain ⟨⟨n, r'⟩, h1, h2⟩ := h
    cases h2
    obtain ⟨hp, hs⟩ := takeExact_consumes h1
    exact ⟨_, hp, fun s => by simp [getVal, *]⟩
  · cases h

theorem getTok_consumes {b : Bytes} {t : Tok} {r : Bytes} (h : getTok b = some (t, r)) :
    ∃ p, b = p ++ r ∧ ∀ s, getTok (p ++ s) = some (t, s) := by
  unfold getTok at h
  rw [Option.bind_eq_some_iff] at h
  obtain ⟨⟨n, r'⟩, h1, h2⟩ := h
  split at h2
  · cases h2
  · next hn =>
    rw [Option.map_eq_some_iff] at h2
    obtain ⟨⟨v, r''⟩, h3, h4⟩ := h2
    cases h4
    obtain ⟨p, hp, hs⟩ := getVarint_consumes h1
    obtain ⟨p', hp', hs'⟩ := getVal_consumes h3
    simp only at hp' hs'
    refine ⟨p ++ p', by rw [hp, hp', List.append_assoc], fun s => ?_⟩
    rw [List.append_assoc, getTok, hs, Option.bind_some, if_neg hn]
    simp only
    rw [hs', Option.map_some]

/-- The bytes of a token are read as this token, whatever follows. -/
def Solid (x : Tok × Bytes) : Prop := ∀ s, getTok (x.2 ++ s) = some (x.1, s)

theorem getRawN_solid (f : Nat) : ∀ {b : Bytes} {l : List (Tok × Bytes)}, getRawN f b = some l → ∀ x ∈ l, Solid x := by
  induction f with
  | zero =>
    intro b l h
    cases b with
    | nil => cases h; exact fun _ h => by cases h
    | cons b bs => cases h
  | succ f ih =>
    intro b l h
    cases b with
    | nil => cases h; exact fun _ h => by cases h
    | cons b bs =>
      simp only [getRawN] at h
      rw [Option.bind_eq_some_iff] at h
      obtain ⟨⟨t, r⟩, h1, h2⟩ := h
      rw [Option.map_eq_some_iff] at h2
      obtain ⟨l', h3, rfl⟩ := h2
      obtain ⟨p, hp, hs⟩ := getTok_consumes h1
      intro x hx
      rcases List.mem_cons.mp hx with rfl | hx
      · have e : (b :: bs).take ((b :: bs).length - r.length) = p := by
          rw [hp, List.length_append, Nat.add_sub_cancel, List.take_left]
        intro s
        simp only
        rw [e]
        exact hs s
      · exact ih h3 x hx

theorem getRaw_solid {l : List (Tok × Bytes)} (h : ∀ x ∈ l, Solid x) : getRaw (l.flatMap Prod.snd) = some l := by
  induction l with
  | nil => rfl
  | cons x l ih =>
    obtain ⟨t, raw⟩ := x
    have h1 := h (t, raw) (by simp) (l.flatMap Prod.snd)
    simp only at h1
    rw [List.flatMap_cons, getRaw_cons h1, ih fun x hx => h x (by simp [hx]), Option.map_some]
    simp only [List.length_append, Nat.add_sub_cancel]
    rw [List.take_left]

/-- The tokens that `unknownIn` keeps. -/
def keptIn (known : Nat → Nat → Bool) : Nat → List (Tok × Bytes) → List (Tok × Bytes)
  | _, [] => []
  | 0, ((k, .startGroup), raw) :: l => ((k, .startGroup), raw) :: keptIn known 1 l
  | 0, ((k, v), raw) :: l => (if known k v.wireType then [] else [((k, v), raw)]) ++ keptIn known 0 l
  | d + 1, ((k, .startGroup), raw) :: l => ((k, .startGroup), raw) :: keptIn known (d + 2) l
  | d + 1, ((k, .endGroup), raw) :: l => ((k, .endGroup), raw) :: keptIn known d l
  | d + 1, x :: l => x :: keptIn known (d + 1) l

theorem keptIn_bytes (known : Nat → Nat → Bool) (l : List (Tok × Bytes)) :
    ∀ d, (keptIn known d l).flatMap Prod.snd = unknownIn known d l := by
  induction l with
  | nil => intro d; cases d <;> rfl
  | cons x l ih =>
    intro d
    obtain ⟨⟨k, v⟩, raw⟩ := x
    cases d with
    | zero => cases v <;> simp only [keptIn, unknownIn] <;> first | (split <;> simp [ih]) | simp [ih]
    | succ d => cases v <;> simp [keptIn, unknownIn, ih]

theorem keptIn_sub (known : Nat → Nat → Bool) (l : List (Tok × Bytes)) : ∀ d, ∀ x ∈ keptIn known d l, x ∈ l := by
  induction l with
  | nil => intro d x hx; cases d <;> simp [keptIn] at hx
  | cons y l ih =>
    intro d x hx
    obtain ⟨⟨k, v⟩, raw⟩ := y
    cases d with
    | zero =>
      cases v <;> simp only [keptIn] at hx <;>
        first
        | (rcases List.mem_cons.mp hx with rfl | hx
           · exact List.mem_cons_self
           · exact List.mem_cons_of_mem _ (ih _ x hx))
        | (rcases List.mem_append.mp hx with hx | hx
           · split at hx
             · cases hx
             · rw [List.mem_singleton.mp hx]; exact List.mem_cons_self
           · exact List.mem_cons_of_mem _ (ih _ x hx))
    | succ d =>
      cases v <;> simp only [keptIn] at hx <;>
        (rcases List.mem_cons.mp hx with rfl | hx
         · exact List.mem_cons_self
         · exact List.mem_cons_of_mem _ (ih _ x hx))

theorem keptIn_strip (known : Nat → Nat → Bool) (l : List (Tok × Bytes)) : ∀ {o : List Nat} {m : Msg},
    stripGroups o (l.map Prod.fst) = some m →
    stripGroups o ((keptIn known o.length l).map Prod.fst) = some (m.filter fun t => !known t.1 t.2.wireType) := by
  induction l with
  | nil =>
    intro o m h
    cases o with
    | nil => cases h; rfl
    | cons k o => cases h
  | cons x l ih =>
    intro o m h
    obtain ⟨⟨k, v⟩, raw⟩ := x
    rw [List.map_cons] at h
    cases o with
    | nil =>
      cases v with
      | startGroup =>
        simp only [keptIn, List.length_nil, List.map_cons]
        exact stripGroups_start.mpr ⟨Nat.zero_le _, ih (stripGroups_start.mp h).2⟩
      | endGroup => simp [stripGroups] at h
      | varint n =>
        simp only [stripGroups, Option.map_eq_some_iff] at h
        obtain ⟨m', h1, rfl⟩ := h
        have := ih h1
        simp only [List.length_nil] at this
        cases hk : known k (WVal.varint n).wireType <;> simp [keptIn, hk, stripGroups, this]
      | fixed64 n =>
        simp only [stripGroups, Option.map_eq_some_iff] at h
        obtain ⟨m', h1, rfl⟩ := h
        have := ih h1
        simp only [List.length_nil] at this
        cases hk : known k (WVal.fixed64 n).wireType <;> simp [keptIn, hk, stripGroups, this]
      | len n =>
        simp only [stripGroups, Option.map_eq_some_iff] at h
        obtain ⟨m', h1, rfl⟩ := h
        have := ih h1
        simp only [List.length_nil] at this
        cases hk : known k (WVal.len n).wireType <;> simp [keptIn, hk, stripGroups, this]
      | fixed32 n =>
        simp only [stripGroups, Option.map_eq_some_iff] at h
        obtain ⟨m', h1, rfl⟩ := h
        have := ih h1
        simp only [List.length_nil] at this
        cases hk : known k (WVal.fixed32 n).wireType <;> simp [keptIn, hk, stripGroups, this]
    | cons k' o =>
      cases v with
      | startGroup =>
        simp only [keptIn, List.length_cons, List.map_cons]
        exact stripGroups_start.mpr ⟨(stripGroups_start.mp h).1, ih (stripGroups_start.mp h).2⟩
      | endGroup =>
        simp only [stripGroups, keptIn, List.length_cons, List.map_cons] at h ⊢
        split at h
        · next hk => rw [if_pos hk]; exact ih h
        · cases h
      | varint n => simp only [stripGroups, keptIn, List.length_cons, List.map_cons] at h ⊢; exact ih h
      | fixed64 n => simp only [stripGroups, keptIn, List.length_cons, List.map_cons] at h ⊢; exact ih h
      | len n => simp only [stripGroups, keptIn, List.length_cons, List.map_cons] at h ⊢; exact ih h
      | fixed32 n => simp only [stripGroups, keptIn, List.length_cons, List.map_cons] at h ⊢; exact ih h

theorem unknown_decodes (known : Nat → Nat → Bool) {b : Bytes} {m : Msg} (h : decode b = some m) :
    decode (unknown known b) = some (m.filter fun t => !known t.1 t.2.wireType) := by
  rw [decode_eq, Option.bind_eq_some_iff] at h
  obtain ⟨l, h1, h2⟩ := h
  have hs : ∀ x ∈ keptIn known 0 l, Solid x := fun x hx => getRawN_solid _ h1 x (keptIn_sub known l 0 x hx)
  rw [unknown, h1, Option.map_some, Option.getD_some, ← keptIn_bytes, decode_eq, getRaw_solid hs, Option.bind_some]
  exact keptIn_strip known l h2

/-- A message of declared fields keeps nothing. -/
theorem unknown_encode (known : Nat → Nat → Bool) (m : Msg) (h : Msg.Plain m) (hk : ∀ t ∈ m, known t.1 t.2.wireType) :
    unknown known (encode m) = [] := by
  have h1 : (getRaw (encode m)).map (List.map Prod.fst) = some m := by rw [getRaw_fst]; exact getToks_putToks m h
  rw [Option.map_eq_some_iff] at h1
  obtain ⟨l, h1, rfl⟩ := h1
  simp only [unknown, h1, Option.map_some, Option.getD_some]
  clear h1
  induction l with
  | nil => rfl
  | cons t l ih =>
    obtain ⟨⟨k, v⟩, raw⟩ := t
    have h2 := (h (k, v) (by simp)).2
    have h3 := hk (k, v) (by simp)
    have ih := ih (fun t ht => h t (by simp [ht])) (fun t ht => hk t (by simp [ht]))
    rcases h2 with ⟨n, -, hn⟩ | ⟨b, hb⟩
    · simp only at hn; subst hn
      simp only at h3
      simp [unknownIn, h3, ih]
    · simp only at hb; subst hb
      simp only at h3
      simp [unknownIn, h3, ih]

end Idemix.Proto
