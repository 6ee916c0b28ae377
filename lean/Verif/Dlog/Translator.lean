import Verif.Dlog.Types
import Verif.Toy

/-!
# Translators: the wire form of group elements

Model of `bccsp/schemes/dlog/crypto/translator/amcl/fp256bn.go` and `gurvy.go`.  `c` is
`curve.CoordByteSize`.  A nil group element given to `G*ToProto` (an explicit panic) is not modelled:
group elements of the model are never nil.
-/

namespace Idemix.Dlog

variable (S : Suite)

/-- Splitting `raw[:len/2]`, `raw[len/2:]` (`fp256bn.go:23-30`, `33-40`; `gurvy.go:19-27`, `29-36`). -/
def halves (b : Bytes) : ECP := ⟨b.take (b.length / 2), b.drop (b.length / 2)⟩

/-- Splitting in four parts (`fp256bn.go:62-72`, `134-144`; `gurvy.go:48-58`). -/
def quarters (b : Bytes) : ECP2 :=
  let l := b.length / 4
  ⟨b.take l, (b.take (2 * l)).drop l, (b.take (3 * l)).drop (2 * l), b.drop (3 * l)⟩

/-- `copy(bytes[lo:hi], src)` into a fresh buffer: what ends up in a slot of width `n`. -/
def slotOf (n : Nat) (src : Bytes) : Bytes := src.take n ++ List.replicate (n - src.length) 0

namespace Fp256bn

/-- `Fp256bn.G1ToProto`, `Fp256bnMiracl.G1ToProto` (`fp256bn.go:19-31`, `91-103`): the leading tag byte
is dropped. -/
def g1ToProto (P : S.G1) : ECP := halves ((S.g1Bytes P).drop 1)

/-- `G1FromProto` of both AMCL translators (`fp256bn.go:42-58`, `114-130`). -/
def g1FromProto (c : Nat) : Option ECP → Res S.G1
  | none => .err "nil argument"
  | some e =>
    if e.x.length ≠ c ∨ e.y.length ≠ c then .err "invalid marshalled length"
    else Res.ofOption "bad point" (S.g1OfBytes (4 :: (e.x ++ e.y)))

/-- `G1FromRawBytes` (`fp256bn.go:33-40`, `105-112`). -/
def g1FromRawBytes (c : Nat) (raw : Bytes) : Res S.G1 := g1FromProto S c (some (halves raw))

/-- `Fp256bn.G2ToProto` (`fp256bn.go:60-73`). -/
def g2ToProto (Q : S.G2) : ECP2 := quarters (S.g2Bytes Q)

/-- `Fp256bn.G2FromProto` (`fp256bn.go:75-92`). -/
def g2FromProto (c : Nat) : Option ECP2 → Res S.G2
  | none => .err "nil argument"
  | some e =>
    if e.xa.length ≠ c ∨ e.xb.length ≠ c ∨ e.ya.length ≠ c ∨ e.yb.length ≠ c then
      .err "invalid marshalled length"
    else Res.ofOption "bad point" (S.g2OfBytes (e.xa ++ e.xb ++ e.ya ++ e.yb))

/-- `Fp256bnMiracl.G2ToProto` (`fp256bn.go:132-145`): G2 has a tag byte as well. -/
def g2ToProtoMiracl (Q : S.G2) : ECP2 := quarters ((S.g2Bytes Q).drop 1)

/-- `Fp256bnMiracl.G2FromProto` (`fp256bn.go:147-165`). -/
def g2FromProtoMiracl (c : Nat) : Option ECP2 → Res S.G2
  | none => .err "nil argument"
  | some e =>
    if e.xa.length ≠ c ∨ e.xb.length ≠ c ∨ e.ya.length ≠ c ∨ e.yb.length ≠ c then
      .err "invalid marshalled length"
    else Res.ofOption "bad point" (S.g2OfBytes (4 :: (e.xa ++ e.xb ++ e.ya ++ e.yb)))

end Fp256bn

namespace Gurvy

/-- `Gurvy.G1ToProto` (`gurvy.go:18-27`). -/
def g1ToProto (P : S.G1) : ECP := halves (S.g1Bytes P)

/-- `Gurvy.G1FromProto` (`gurvy.go:38-45`): the buffer has twice the length of `X`, so `Y` is cut off or
padded with zeros; nil is dereferenced. -/
def g1FromProto : Option ECP → Res S.G1
  | none => .panic
  | some e => Res.ofOption "bad point" (S.g1OfBytes (e.x ++ slotOf e.x.length e.y))

/-- `Gurvy.G1FromRawBytes` (`gurvy.go:29-36`). -/
def g1FromRawBytes (raw : Bytes) : Res S.G1 := g1FromProto S (some (halves raw))

/-- `Gurvy.G2ToProto` (`gurvy.go:47-58`). -/
def g2ToProto (Q : S.G2) : ECP2 := quarters (S.g2Bytes Q)

/-- `Gurvy.G2FromProto` (`gurvy.go:60-69`): every part is cut or padded to the length of `Xa`. -/
def g2FromProto : Option ECP2 → Res S.G2
  | none => .panic
  | some e =>
    let l := e.xa.length
    Res.ofOption "bad point" (S.g2OfBytes (e.xa ++ slotOf l e.xb ++ slotOf l e.ya ++ slotOf l e.yb))

end Gurvy

/-! ## Layout of the encodings of the curves -/

/-- AMCL `FP256BN`: G1 is `04 ‖ x ‖ y`, G2 is four coordinates. -/
structure AmclLayout (c : Nat) : Prop where
  g1Len : S.g1Len = 2 * c + 1
  g1Tag : ∀ P, (S.g1Bytes P).head? = some 4
  g2Len : S.g2Len = 4 * c

/-- The Miracl build of `FP256BN`: G2 has a tag as well. -/
structure MiraclLayout (c : Nat) : Prop where
  g1Len : S.g1Len = 2 * c + 1
  g1Tag : ∀ P, (S.g1Bytes P).head? = some 4
  g2Len : S.g2Len = 4 * c + 1
  g2Tag : ∀ P, (S.g2Bytes P).head? = some 4

/-- gnark curves: no tags. -/
structure GurvyLayout (c : Nat) : Prop where
  g1Len : S.g1Len = 2 * c
  g2Len : S.g2Len = 4 * c

/-- The decoders of the curve accept only the encoding they produce. -/
structure CanonicalDecoders : Prop where
  g1 : ∀ b P, S.g1OfBytes b = some P → b = S.g1Bytes P
  g2 : ∀ b P, S.g2OfBytes b = some P → b = S.g2Bytes P

variable {S}

theorem halves_join (b : Bytes) : (halves b).x ++ (halves b).y = b := by simp [halves]

theorem halves_len {b : Bytes} {c : Nat} (h : b.length = 2 * c) :
    (halves b).x.length = c ∧ (halves b).y.length = c := by
  have h2 : b.length / 2 = c := by omega
  simp only [halves, List.length_take, List.length_drop, h]
  constructor <;> omega

theorem halves_append {x y : Bytes} (h : x.length = y.length) : halves (x ++ y) = ⟨x, y⟩ := by
  have : (x ++ y).length / 2 = x.length := by rw [List.length_append, ← h]; omega
  rw [halves, this]; simp

theorem quarters_len {b : Bytes} {c : Nat} (h : b.length = 4 * c) :
    (quarters b).xa.length = c ∧ (quarters b).xb.length = c ∧ (quarters b).ya.length = c ∧
      (quarters b).yb.length = c := by
  have h2 : b.length / 4 = c := by omega
  simp only [quarters, List.length_take, List.length_drop, h]
  refine ⟨?_, ?_, ?_, ?_⟩ <;> omega

theorem quarters_join (b : Bytes) :
    (quarters b).xa ++ (quarters b).xb ++ (quarters b).ya ++ (quarters b).yb = b := by
  have e : ∀ (i j : Nat), i ≤ j → b.take i ++ (b.take j).drop i = b.take j := by
    intro i j h
    conv_rhs => rw [← List.take_append_drop i (b.take j)]
    rw [List.take_take, Nat.min_eq_left h]
  simp only [quarters]
  rw [e _ _ (by omega), e _ _ (by omega), List.take_append_drop]

theorem quarters_append {xa xb ya yb : Bytes} {c : Nat} (h1 : xa.length = c) (h2 : xb.length = c)
    (h3 : ya.length = c) (h4 : yb.length = c) : quarters (xa ++ xb ++ ya ++ yb) = ⟨xa, xb, ya, yb⟩ := by
  have : (xa ++ xb ++ ya ++ yb).length / 4 = c := by simp; omega
  rw [quarters, this]
  simp only [List.append_assoc, ECP2.mk.injEq]
  subst h1
  refine ⟨by simp, ?_, ?_, ?_⟩
  · rw [show 2 * xa.length = xa.length + xa.length by omega, List.take_length_add_append]
    simp [← h2]
  · rw [show 3 * xa.length = xa.length + (xb.length + ya.length) by omega,
      show 2 * xa.length = xa.length + xb.length by omega, List.take_length_add_append,
      List.take_length_add_append]
    simp
  · rw [show 3 * xa.length = xa.length + (xb.length + ya.length) by omega]
    simp [← List.drop_drop]

theorem slotOf_exact {n : Nat} {b : Bytes} (h : b.length = n) : slotOf n b = b := by
  subst h; simp [slotOf]

theorem tag_join {b : Bytes} (h : b.head? = some 4) : (4 : UInt8) :: b.drop 1 = b := by
  cases b with
  | nil => cases h
  | cons a l => cases h; rfl

/-- The translator of the AMCL curve. -/
def fp256bn (c : Nat) (L : AmclLayout S c) : Translator S where
  g1ToProto := Fp256bn.g1ToProto S
  g1FromProto := Fp256bn.g1FromProto S c
  g2ToProto := Fp256bn.g2ToProto S
  g2FromProto := Fp256bn.g2FromProto S c
  g1_rt P := by
    obtain ⟨h1, h2⟩ := halves_len (b := (S.g1Bytes P).drop 1) (c := c)
      (by rw [List.length_drop, S.g1Bytes_len, L.g1Len]; omega)
    simp only [Fp256bn.g1FromProto, Fp256bn.g1ToProto, h1, h2, halves_join, tag_join (L.g1Tag P)]
    simp
  g2_rt Q := by
    obtain ⟨h1, h2, h3, h4⟩ := quarters_len (b := S.g2Bytes Q) (c := c) (by rw [S.g2Bytes_len, L.g2Len])
    simp only [Fp256bn.g2FromProto, Fp256bn.g2ToProto, h1, h2, h3, h4, quarters_join]
    simp
  g1_nil P h := by cases h
  g2_nil P h := by cases h

/-- The translator of the Miracl build. -/
def fp256bnMiracl (c : Nat) (L : MiraclLayout S c) : Translator S where
  g1ToProto := Fp256bn.g1ToProto S
  g1FromProto := Fp256bn.g1FromProto S c
  g2ToProto := Fp256bn.g2ToProtoMiracl S
  g2FromProto := Fp256bn.g2FromProtoMiracl S c
  g1_rt P := by
    obtain ⟨h1, h2⟩ := halves_len (b := (S.g1Bytes P).drop 1) (c := c)
      (by rw [List.length_drop, S.g1Bytes_len, L.g1Len]; omega)
    simp only [Fp256bn.g1FromProto, Fp256bn.g1ToProto, h1, h2, halves_join, tag_join (L.g1Tag P)]
    simp
  g2_rt Q := by
    obtain ⟨h1, h2, h3, h4⟩ := quarters_len (b := (S.g2Bytes Q).drop 1) (c := c)
      (by rw [List.length_drop, S.g2Bytes_len, L.g2Len]; omega)
    simp only [Fp256bn.g2FromProtoMiracl, Fp256bn.g2ToProtoMiracl, h1, h2, h3, h4, quarters_join,
      tag_join (L.g2Tag Q)]
    simp
  g1_nil P h := by cases h
  g2_nil P h := by cases h

/-- The translator of the gnark curves. -/
def gurvy (c : Nat) (L : GurvyLayout S c) : Translator S where
  g1ToProto := Gurvy.g1ToProto S
  g1FromProto := Gurvy.g1FromProto S
  g2ToProto := Gurvy.g2ToProto S
  g2FromProto := Gurvy.g2FromProto S
  g1_rt P := by
    obtain ⟨h1, h2⟩ := halves_len (b := S.g1Bytes P) (c := c) (by rw [S.g1Bytes_len, L.g1Len])
    simp only [Gurvy.g1FromProto, Gurvy.g1ToProto, h1, slotOf_exact h2, halves_join]
    simp
  g2_rt Q := by
    obtain ⟨h1, h2, h3, h4⟩ := quarters_len (b := S.g2Bytes Q) (c := c) (by rw [S.g2Bytes_len, L.g2Len])
    simp only [Gurvy.g2FromProto, Gurvy.g2ToProto, h1, slotOf_exact h2, slotOf_exact h3, slotOf_exact h4,
      quarters_join]
    simp
  g1_nil P h := by cases h
  g2_nil P h := by cases h

/-! ## C23 -/

/-- C23 (AMCL). Decoding the encoding returns the element, also from raw bytes; nil, wrong lengths are
errors, and the accepted wire form of an element is unique. -/
theorem C23_fp256bn (c : Nat) (L : AmclLayout S c) :
    (∀ P, Fp256bn.g1FromProto S c (some (Fp256bn.g1ToProto S P)) = .ok P) ∧
    (∀ P, Fp256bn.g1FromRawBytes S c ((S.g1Bytes P).drop 1) = .ok P) ∧
    (∀ Q, Fp256bn.g2FromProto S c (some (Fp256bn.g2ToProto S Q)) = .ok Q) ∧
    (CanonicalDecoders S →
      (∀ e P, Fp256bn.g1FromProto S c (some e) = .ok P → e = Fp256bn.g1ToProto S P) ∧
      (∀ e Q, Fp256bn.g2FromProto S c (some e) = .ok Q → e = Fp256bn.g2ToProto S Q)) ∧
    (∀ e, Fp256bn.g1FromProto S c e ≠ .panic) ∧ (∀ e, Fp256bn.g2FromProto S c e ≠ .panic) := by
  refine ⟨(fp256bn c L).g1_rt, (fp256bn c L).g1_rt, (fp256bn c L).g2_rt, fun can => ⟨?_, ?_⟩, ?_, ?_⟩
  · intro e P h
    simp only [Fp256bn.g1FromProto] at h
    split at h
    · cases h
    · next hl =>
      push Not at hl
      have := can.g1 _ _ (Res.ofOption_eq_ok.mp h)
      rw [Fp256bn.g1ToProto, ← this, List.drop_succ_cons, List.drop_zero,
        halves_append (hl.1.trans hl.2.symm)]
  · intro e Q h
    simp only [Fp256bn.g2FromProto] at h
    split at h
    · cases h
    · next hl =>
      push Not at hl
      have := can.g2 _ _ (Res.ofOption_eq_ok.mp h)
      rw [Fp256bn.g2ToProto, ← this, quarters_append hl.1 hl.2.1 hl.2.2.1 hl.2.2.2]
  · rintro (_ | e) h
    · cases h
    · simp only [Fp256bn.g1FromProto] at h
      split at h
      · cases h
      · cases hh : S.g1OfBytes (4 :: (e.x ++ e.y)) <;> rw [hh] at h <;> cases h
  · rintro (_ | e) h
    · cases h
    · simp only [Fp256bn.g2FromProto] at h
      split at h
      · cases h
      · cases hh : S.g2OfBytes (e.xa ++ e.xb ++ e.ya ++ e.yb) <;> rw [hh] at h <;> cases h

/-- C23 (Miracl build). -/
theorem C23_fp256bn_miracl (c : Nat) (L : MiraclLayout S c) :
    (∀ P, Fp256bn.g1FromProto S c (some (Fp256bn.g1ToProto S P)) = .ok P) ∧
    (∀ P, Fp256bn.g1FromRawBytes S c ((S.g1Bytes P).drop 1) = .ok P) ∧
    (∀ Q, Fp256bn.g2FromProtoMiracl S c (some (Fp256bn.g2ToProtoMiracl S Q)) = .ok Q) ∧
    (CanonicalDecoders S →
      (∀ e P, Fp256bn.g1FromProto S c (some e) = .ok P → e = Fp256bn.g1ToProto S P) ∧
      (∀ e Q, Fp256bn.g2FromProtoMiracl S c (some e) = .ok Q → e = Fp256bn.g2ToProtoMiracl S Q)) := by
  refine ⟨(fp256bnMiracl c L).g1_rt, (fp256bnMiracl c L).g1_rt, (fp256bnMiracl c L).g2_rt, fun can => ⟨?_, ?_⟩⟩
  · intro e P h
    simp only [Fp256bn.g1FromProto] at h
    split at h
    · cases h
    · next hl =>
      push Not at hl
      have := can.g1 _ _ (Res.ofOption_eq_ok.mp h)
      rw [Fp256bn.g1ToProto, ← this, List.drop_succ_cons, List.drop_zero,
        halves_append (hl.1.trans hl.2.symm)]
  · intro e Q h
    simp only [Fp256bn.g2FromProtoMiracl] at h
    split at h
    · cases h
    · next hl =>
      push Not at hl
      have := can.g2 _ _ (Res.ofOption_eq_ok.mp h)
      rw [Fp256bn.g2ToProtoMiracl, ← this, List.drop_succ_cons, List.drop_zero,
        quarters_append hl.1 hl.2.1 hl.2.2.1 hl.2.2.2]

/-- C23 (gnark curves), the part that holds: round trip, and uniqueness among wire forms whose parts have
equal lengths. -/
theorem C23_gurvy_partial (c : Nat) (L : GurvyLayout S c) :
    (∀ P, Gurvy.g1FromProto S (some (Gurvy.g1ToProto S P)) = .ok P) ∧
    (∀ P, Gurvy.g1FromRawBytes S (S.g1Bytes P) = .ok P) ∧
    (∀ Q, Gurvy.g2FromProto S (some (Gurvy.g2ToProto S Q)) = .ok Q) ∧
    (CanonicalDecoders S →
      (∀ e P, e.x.length = e.y.length → Gurvy.g1FromProto S (some e) = .ok P → e = Gurvy.g1ToProto S P) ∧
      (∀ e Q, e.xb.length = e.xa.length → e.ya.length = e.xa.length → e.yb.length = e.xa.length →
        Gurvy.g2FromProto S (some e) = .ok Q → e = Gurvy.g2ToProto S Q)) := by
  refine ⟨(gurvy c L).g1_rt, (gurvy c L).g1_rt, (gurvy c L).g2_rt, fun can => ⟨?_, ?_⟩⟩
  · intro e P hl h
    simp only [Gurvy.g1FromProto, slotOf_exact hl.symm] at h
    have := can.g1 _ _ (Res.ofOption_eq_ok.mp h)
    rw [Gurvy.g1ToProto, ← this, halves_append hl]
  · intro e Q h1 h2 h3 h
    simp only [Gurvy.g2FromProto, slotOf_exact h1, slotOf_exact h2, slotOf_exact h3] at h
    have := can.g2 _ _ (Res.ofOption_eq_ok.mp h)
    rw [Gurvy.g2ToProto, ← this, quarters_append rfl h1 h2 h3]

/-- C23 is violated for the gnark curves: every element has, besides its canonical wire form, wire forms
with anything appended to `Y` (or to the last three parts in G2) that decode to the same element, whatever
the curve's own decoder does. A nil wire form makes the decoder panic. -/
theorem C23_gurvy_violated (c : Nat) (L : GurvyLayout S c) (P : S.G1) (Q : S.G2) (junk : Bytes)
    (hj : junk ≠ []) :
    (∃ e, e ≠ Gurvy.g1ToProto S P ∧ Gurvy.g1FromProto S (some e) = .ok P) ∧
    (∃ e, e ≠ Gurvy.g2ToProto S Q ∧ Gurvy.g2FromProto S (some e) = .ok Q) ∧
    Gurvy.g1FromProto S none = .panic ∧ Gurvy.g2FromProto S none = .panic := by
  have hs : ∀ (b : Bytes), slotOf b.length (b ++ junk) = b := by
    intro b
    have : b.length - (b ++ junk).length = 0 := by simp
    rw [slotOf, this]; simp
  obtain ⟨h1, h2⟩ := halves_len (b := S.g1Bytes P) (c := c) (by rw [S.g1Bytes_len, L.g1Len])
  obtain ⟨k1, k2, k3, k4⟩ := quarters_len (b := S.g2Bytes Q) (c := c) (by rw [S.g2Bytes_len, L.g2Len])
  refine ⟨⟨⟨(Gurvy.g1ToProto S P).x, (Gurvy.g1ToProto S P).y ++ junk⟩, ?_, ?_⟩,
    ⟨⟨(Gurvy.g2ToProto S Q).xa, (Gurvy.g2ToProto S Q).xb, (Gurvy.g2ToProto S Q).ya,
      (Gurvy.g2ToProto S Q).yb ++ junk⟩, ?_, ?_⟩, rfl, rfl⟩
  · intro h
    exact hj (by simpa using congrArg ECP.y h)
  · have := (gurvy c L).g1_rt P
    simp only [gurvy, Gurvy.g1FromProto] at this ⊢
    rw [← this]
    simp only [Gurvy.g1ToProto, h1]
    rw [slotOf_exact h2, ← h2, hs]
  · intro h
    exact hj (by simpa using congrArg ECP2.yb h)
  · have := (gurvy c L).g2_rt Q
    simp only [gurvy, Gurvy.g2FromProto] at this ⊢
    rw [← this]
    simp only [Gurvy.g2ToProto, k1]
    rw [slotOf_exact k4, ← k4, hs]

/-! Suites with these layouts exist. -/

namespace Ex

/-- A decoder for the given prefix and suffix around one byte. -/
def framed (pre post : Bytes) (b : Bytes) : Option Toy.K :=
  match b.drop pre.length with
  | x :: _ => if b = pre ++ [x] ++ post ∧ x.toNat < 7 then some ((x.toNat : ℕ) : Toy.K) else none
  | [] => none

/-- The toy suite with AMCL-like encodings. -/
@[reducible] def amclSuite : Suite :=
  { Toy.suite with
    g1Len := 3, g1Bytes := fun x => [4] ++ Toy.enc x ++ [0], g1OfBytes := framed [4] [0],
    g1Bytes_len := fun _ => rfl, g1OfBytes_g1Bytes := by decide,
    g2Len := 4, g2Bytes := fun x => [] ++ Toy.enc x ++ [0, 0, 0], g2OfBytes := framed [] [0, 0, 0],
    g2Bytes_len := fun _ => rfl, g2OfBytes_g2Bytes := by decide, scalarLen_le := by decide }

/-- The toy suite with Miracl-like encodings. -/
@[reducible] def miraclSuite : Suite :=
  { amclSuite with
    g2Len := 5, g2Bytes := fun x => [4] ++ Toy.enc x ++ [0, 0, 0], g2OfBytes := framed [4] [0, 0, 0],
    g2Bytes_len := fun _ => rfl, g2OfBytes_g2Bytes := by decide }

/-- The toy suite with gnark-like encodings. -/
@[reducible] def gurvySuite : Suite :=
  { amclSuite with
    g1Len := 2, g1Bytes := fun x => [] ++ Toy.enc x ++ [0], g1OfBytes := framed [] [0],
    g1Bytes_len := fun _ => rfl, g1OfBytes_g1Bytes := by decide, scalarLen_le := by decide }

theorem enc_of_lt : ∀ x : UInt8, x.toNat < 7 → Toy.enc ((x.toNat : ℕ) : Toy.K) = [x] := by
  intro x h
  have h7 : ((x.toNat : ℕ) : Toy.K).val = x.toNat := ZMod.val_natCast_of_lt h
  simp [Toy.enc, h7]

theorem framed_canonical (pre post b : Bytes) (P : Toy.K) (h : framed pre post b = some P) :
    b = pre ++ Toy.enc P ++ post := by
  unfold framed at h
  split at h
  · split at h
    · next h1 =>
      cases h
      rw [enc_of_lt _ h1.2]; exact h1.1
    · cases h
  · cases h

theorem amclLayout : AmclLayout amclSuite 1 := ⟨rfl, fun _ => rfl, rfl⟩
theorem miraclLayout : MiraclLayout miraclSuite 1 := ⟨rfl, fun _ => rfl, rfl, fun _ => rfl⟩
theorem gurvyLayout : GurvyLayout gurvySuite 1 := ⟨rfl, rfl⟩

example : AmclLayout amclSuite 1 ∧ CanonicalDecoders amclSuite :=
  ⟨amclLayout, ⟨framed_canonical [4] [0], framed_canonical [] [0, 0, 0]⟩⟩
example : MiraclLayout miraclSuite 1 ∧ CanonicalDecoders miraclSuite :=
  ⟨miraclLayout, ⟨framed_canonical [4] [0], framed_canonical [4] [0, 0, 0]⟩⟩
example : GurvyLayout gurvySuite 1 ∧ CanonicalDecoders gurvySuite :=
  ⟨gurvyLayout, ⟨framed_canonical [] [0], framed_canonical [] [0, 0, 0]⟩⟩
/-- The wrong wire form, concretely: the same element with two bytes of junk. -/
example : Gurvy.g1FromProto gurvySuite (some ⟨[3], [0, 9, 9]⟩) = .ok (3 : Toy.K) ∧
    Fp256bn.g1FromProto amclSuite 1 (some ⟨[3], [0, 9, 9]⟩) = .err "invalid marshalled length" :=
  ⟨rfl, rfl⟩
end Ex

end Idemix.Dlog
