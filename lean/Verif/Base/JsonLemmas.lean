import Verif.Base.Json

/-!
# What the JSON reader does with longer texts, with NUL bytes and with more fuel
-/

namespace Idemix.Json

/-! ## Longer texts -/

theorem skipWs_append {b s : Bytes} (h : skipWs b ≠ []) : skipWs (b ++ s) = skipWs b ++ s := by
  induction b with
  | nil => exact absurd rfl h
  | cons c r ih =>
    simp only [skipWs, List.cons_append] at h ⊢
    split
    · next hc => rw [if_pos hc] at h; exact ih h
    · rfl

theorem scanString_append {b s r : Bytes} {ps : List Piece} (h : scanString b = some (ps, r)) :
    scanString (b ++ s) = some (ps, r ++ s) := by
  fun_induction scanString b generalizing ps r with
  | case1 => simp at h
  | case2 a b c d r0 ih =>
    simp only [bind, Option.bind_eq_some_iff, pure, Option.some.injEq, Prod.exists, Prod.mk.injEq] at h
    obtain ⟨n, hn, ps', r', h1, rfl, rfl⟩ := h
    simp [scanString, hn, ih h1]
  | case3 c r0 hne ih =>
    simp only [bind, Option.bind_eq_some_iff, pure, Option.some.injEq, Prod.exists, Prod.mk.injEq] at h
    obtain ⟨n, hn, ps', r', h1, rfl, rfl⟩ := h
    have hc : c ≠ 117 := by rintro rfl; simp [escaped] at hn
    rw [List.cons_append, List.cons_append, scanString.eq_3 _ _ (by intro a b c d r h; exact absurd h hc)]
    simp [hn, ih h1]
  | case4 r0 h1 h2 =>
    obtain ⟨rfl, rfl⟩ := Prod.mk.inj (Option.some.inj h)
    rw [List.cons_append, scanString.eq_4 _ _ (by simp) (by simp)]
    simp
  | case5 => simp at h
  | case6 c r0 h1 h2 h3 h4 ih =>
    simp only [bind, Option.bind_eq_some_iff, pure, Option.some.injEq, Prod.exists, Prod.mk.injEq] at h
    obtain ⟨ps', r', hr, rfl, rfl⟩ := h
    have hc : c ≠ 92 := fun hc => h4 (.inr hc)
    rw [List.cons_append, scanString.eq_4 _ _ (by intro _ _ _ _ _ hh; exact absurd hh hc) (by intro _ _ hh; exact absurd hh hc)]
    simp [h3, h4, ih hr]

theorem string_append {b s r k : Bytes} (h : string b = some (k, r)) : string (b ++ s) = some (k, r ++ s) := by
  simp only [string, Option.map_eq_some_iff, Prod.exists, Prod.mk.injEq] at h ⊢
  obtain ⟨ps, r', h1, rfl, rfl⟩ := h
  exact ⟨ps, r' ++ s, scanString_append h1, rfl, rfl⟩

theorem digits_append {b s : Bytes} (h : (digits b).2 ≠ []) :
    digits (b ++ s) = ((digits b).1, (digits b).2 ++ s) := by
  induction b with
  | nil => exact absurd rfl h
  | cons c r ih =>
    simp only [digits, List.cons_append] at h ⊢
    split
    · next hc => rw [if_pos hc] at h; rw [ih h]
    · rfl

theorem digits1_append {b s l r : Bytes} (h : digits1 b = some (l, r)) (hr : r ≠ []) :
    digits1 (b ++ s) = some (l, r ++ s) := by
  have h2 : digits b = (l, r) ∧ l ≠ [] := by
    unfold digits1 at h
    split at h
    · exact absurd h (by simp)
    · next ds r' hne he =>
      obtain ⟨rfl, rfl⟩ := Prod.mk.inj (Option.some.inj h)
      exact ⟨he, fun h0 => hne h0⟩
  have h3 := digits_append (b := b) (s := s) (by rw [h2.1]; exact hr)
  unfold digits1
  rw [h3, h2.1]
  cases l with
  | nil => exact absurd rfl h2.2
  | cons => rfl

theorem integer_append {b s l r : Bytes} (h : integer b = some (l, r)) (hr : r ≠ []) :
    integer (b ++ s) = some (l, r ++ s) := by
  cases b with
  | nil => simp [integer] at h
  | cons c t =>
    simp only [integer, List.cons_append] at h ⊢
    split
    · next hc =>
      rw [if_pos hc] at h
      obtain ⟨rfl, rfl⟩ := Prod.mk.inj (Option.some.inj h)
      rfl
    · next hc =>
      rw [if_neg hc] at h
      exact digits1_append h hr

theorem fraction_append {b s l r : Bytes} (h : fraction b = some (l, r)) (hr : r ≠ []) :
    fraction (b ++ s) = some (l, r ++ s) := by
  cases b with
  | nil =>
    obtain ⟨rfl, rfl⟩ := Prod.mk.inj (Option.some.inj h)
    exact absurd rfl hr
  | cons c t =>
    simp only [fraction, List.cons_append] at h ⊢
    split
    · next hc =>
      rw [if_pos hc] at h
      simp only [Option.map_eq_some_iff, Prod.exists, Prod.mk.injEq] at h ⊢
      obtain ⟨ds, r', h1, rfl, rfl⟩ := h
      exact ⟨ds, r' ++ s, digits1_append h1 hr, rfl, rfl⟩
    · next hc =>
      rw [if_neg hc] at h
      obtain ⟨rfl, rfl⟩ := Prod.mk.inj (Option.some.inj h)
      rfl

theorem exponent_append {b s l r : Bytes} (h : exponent b = some (l, r)) (hr : r ≠ []) :
    exponent (b ++ s) = some (l, r ++ s) := by
  cases b with
  | nil =>
    obtain ⟨rfl, rfl⟩ := Prod.mk.inj (Option.some.inj h)
    exact absurd rfl hr
  | cons c t =>
    simp only [exponent, List.cons_append] at h ⊢
    split
    · next hc =>
      rw [if_pos hc] at h
      cases t with
      | nil => simp at h
      | cons x t =>
        simp only [List.cons_append] at h ⊢
        split at h
        · next hx =>
          rw [if_pos hx]
          simp only [Option.map_eq_some_iff, Prod.exists, Prod.mk.injEq] at h ⊢
          obtain ⟨ds, r', h1, rfl, rfl⟩ := h
          exact ⟨ds, r' ++ s, digits1_append h1 hr, rfl, rfl⟩
        · next hx =>
          rw [if_neg hx]
          simp only [Option.map_eq_some_iff, Prod.exists, Prod.mk.injEq] at h ⊢
          obtain ⟨ds, r', h1, rfl, rfl⟩ := h
          exact ⟨ds, r' ++ s, digits1_append h1 hr, rfl, rfl⟩
    · next hc =>
      rw [if_neg hc] at h
      obtain ⟨rfl, rfl⟩ := Prod.mk.inj (Option.some.inj h)
      rfl

/-- What is read, and the text in front of what is left. -/
def Consumes (f : Bytes → Option (α × Bytes)) (P : UInt8 → Prop) : Prop :=
  ∀ b x r, f b = some (x, r) → ∃ used, b = used ++ r ∧ ∀ c ∈ used, P c

/-- Characters that occur in JSON texts: no control characters other than white space. -/
def Allowed (c : UInt8) : Prop := 32 ≤ c.toNat ∨ isSpace c = true

theorem isSpace_iff (c : UInt8) : isSpace c = true ↔ c = 32 ∨ c = 9 ∨ c = 10 ∨ c = 13 := by
  simp [isSpace, or_assoc]

theorem allowed_digit {c : UInt8} (h : isDigit c = true) : Allowed c := by
  left
  simp [isDigit] at h
  omega

theorem digits_split (b : Bytes) : b = (digits b).1 ++ (digits b).2 ∧ ∀ c ∈ (digits b).1, Allowed c := by
  induction b with
  | nil => simp [digits]
  | cons c r ih =>
    simp only [digits]
    split
    · next hc =>
      refine ⟨by rw [List.cons_append, ← ih.1], ?_⟩
      intro x hx
      rcases List.mem_cons.mp hx with rfl | hx
      · exact allowed_digit hc
      · exact ih.2 x hx
    · simp

theorem digits1_consumes : Consumes digits1 Allowed := by
  intro b l r h
  have h2 : digits b = (l, r) := by
    unfold digits1 at h
    split at h
    · exact absurd h (by simp)
    · next he =>
      rw [he]
      exact Option.some.inj h
  have := digits_split b
  rw [h2] at this
  exact ⟨l, this⟩

theorem integer_consumes : Consumes integer Allowed := by
  intro b l r h
  cases b with
  | nil => simp [integer] at h
  | cons c t =>
    simp only [integer] at h
    split at h
    · next hc =>
      obtain ⟨rfl, rfl⟩ := Prod.mk.inj (Option.some.inj h)
      exact ⟨[48], by simp [hc], by simp [Allowed]⟩
    · exact digits1_consumes _ _ _ h

theorem fraction_consumes : Consumes fraction Allowed := by
  intro b l r h
  cases b with
  | nil =>
    obtain ⟨rfl, rfl⟩ := Prod.mk.inj (Option.some.inj h)
    exact ⟨[], rfl, by simp⟩
  | cons c t =>
    simp only [fraction] at h
    split at h
    · next hc =>
      simp only [Option.map_eq_some_iff, Prod.exists, Prod.mk.injEq] at h
      obtain ⟨ds, r', h1, rfl, rfl⟩ := h
      obtain ⟨u, rfl, hu⟩ := digits1_consumes _ _ _ h1
      exact ⟨c :: u, rfl, by simpa [hc, Allowed] using hu⟩
    · obtain ⟨rfl, rfl⟩ := Prod.mk.inj (Option.some.inj h)
      exact ⟨[], rfl, by simp⟩

theorem exponent_consumes : Consumes exponent Allowed := by
  intro b l r h
  cases b with
  | nil =>
    obtain ⟨rfl, rfl⟩ := Prod.mk.inj (Option.some.inj h)
    exact ⟨[], rfl, by simp⟩
  | cons c t =>
    simp only [exponent] at h
    split at h
    · next hc =>
      have ha : Allowed c := by rcases hc with rfl | rfl <;> left <;> decide
      cases t with
      | nil => simp at h
      | cons x t =>
        simp only at h
        split at h
        · next hx =>
          have hb : Allowed x := by rcases hx with rfl | rfl <;> left <;> decide
          simp only [Option.map_eq_some_iff, Prod.exists, Prod.mk.injEq] at h
          obtain ⟨ds, r', h1, rfl, rfl⟩ := h
          obtain ⟨u, rfl, hu⟩ := digits1_consumes _ _ _ h1
          exact ⟨c :: x :: u, rfl, by simp only [List.mem_cons, forall_eq_or_imp]; exact ⟨ha, hb, hu⟩⟩
        · simp only [Option.map_eq_some_iff, Prod.exists, Prod.mk.injEq] at h
          obtain ⟨ds, r', h1, rfl, rfl⟩ := h
          obtain ⟨u, e, hu⟩ := digits1_consumes _ _ _ h1
          exact ⟨c :: u, by rw [e]; rfl, by simp only [List.mem_cons, forall_eq_or_imp]; exact ⟨ha, hu⟩⟩
    · obtain ⟨rfl, rfl⟩ := Prod.mk.inj (Option.some.inj h)
      exact ⟨[], rfl, by simp⟩

theorem unsigned_consumes : Consumes unsigned Allowed := by
  intro b l r h
  simp only [unsigned, bind, Option.bind_eq_some_iff, pure, Option.some.injEq, Prod.exists, Prod.mk.injEq] at h
  obtain ⟨i, r1, h1, f, r2, h2, e, r3, h3, rfl, rfl⟩ := h
  obtain ⟨u1, rfl, hu1⟩ := integer_consumes _ _ _ h1
  obtain ⟨u2, rfl, hu2⟩ := fraction_consumes _ _ _ h2
  obtain ⟨u3, rfl, hu3⟩ := exponent_consumes _ _ _ h3
  refine ⟨u1 ++ (u2 ++ u3), by simp, ?_⟩
  intro c hc
  simp only [List.mem_append] at hc
  rcases hc with hc | hc | hc
  · exact hu1 c hc
  · exact hu2 c hc
  · exact hu3 c hc

theorem number_consumes : Consumes number Allowed := by
  intro b l r h
  cases b with
  | nil => simp [number] at h
  | cons c t =>
    simp only [number] at h
    split at h
    · next hc =>
      simp only [Option.map_eq_some_iff, Prod.exists, Prod.mk.injEq] at h
      obtain ⟨l', r', h1, rfl, rfl⟩ := h
      obtain ⟨u, rfl, hu⟩ := unsigned_consumes _ _ _ h1
      exact ⟨c :: u, rfl, by simpa [hc, Allowed] using hu⟩
    · exact unsigned_consumes _ _ _ h

theorem unsigned_append {b s l r : Bytes} (h : unsigned b = some (l, r)) (hr : r ≠ []) :
    unsigned (b ++ s) = some (l, r ++ s) := by
  simp only [unsigned, bind, Option.bind_eq_some_iff, pure, Option.some.injEq, Prod.exists, Prod.mk.injEq] at h ⊢
  obtain ⟨i, r1, h1, f, r2, h2, e, r3, h3, rfl, rfl⟩ := h
  obtain ⟨u3, e3, -⟩ := exponent_consumes _ _ _ h3
  have hr2 : r2 ≠ [] := by rw [e3]; simp [hr]
  obtain ⟨u2, e2, -⟩ := fraction_consumes _ _ _ h2
  have hr1 : r1 ≠ [] := by rw [e2]; simp [hr2]
  exact ⟨i, _, integer_append h1 hr1, f, _, fraction_append h2 hr2, e, _, exponent_append h3 hr, rfl, rfl⟩

theorem number_append {b s l r : Bytes} (h : number b = some (l, r)) (hr : r ≠ []) :
    number (b ++ s) = some (l, r ++ s) := by
  cases b with
  | nil => simp [number] at h
  | cons c t =>
    simp only [number, List.cons_append] at h ⊢
    split
    · next hc =>
      rw [if_pos hc] at h
      simp only [Option.map_eq_some_iff, Prod.exists, Prod.mk.injEq] at h ⊢
      obtain ⟨ds, r', h1, rfl, rfl⟩ := h
      exact ⟨ds, r' ++ s, unsigned_append h1 hr, rfl, rfl⟩
    · next hc =>
      rw [if_neg hc] at h
      exact unsigned_append h hr

theorem keyword_append {w b s r : Bytes} (h : keyword w b = some r) : keyword w (b ++ s) = some (r ++ s) := by
  fun_induction keyword w b with
  | case1 => obtain rfl := Option.some.inj h; simp [keyword]
  | case2 => simp at h
  | case3 k ks t ih => simpa [keyword] using ih h
  | case4 => simp at h

theorem keyword_consumes {w b r : Bytes} (h : keyword w b = some r) : b = w ++ r := by
  fun_induction keyword w b with
  | case1 => obtain rfl := Option.some.inj h; rfl
  | case2 => simp at h
  | case3 k ks t ih => rw [List.cons_append, ← ih h]
  | case4 => simp at h

theorem skipWs_split (b : Bytes) : ∃ used, b = used ++ skipWs b ∧ ∀ c ∈ used, Allowed c := by
  induction b with
  | nil => exact ⟨[], rfl, by simp⟩
  | cons c r ih =>
    simp only [skipWs]
    split
    · next hc =>
      obtain ⟨u, e, hu⟩ := ih
      exact ⟨c :: u, by rw [List.cons_append, ← e], by simpa [Allowed, hc] using hu⟩
    · exact ⟨[], rfl, by simp⟩

theorem scanString_consumes : Consumes scanString Allowed := by
  intro b ps r h
  have hexA : ∀ {c : UInt8} {n}, hexDigitVal c = some n → Allowed c := by
    intro c n hc
    left
    unfold hexDigitVal at hc
    split at hc
    · omega
    · split at hc
      · omega
      · split at hc
        · omega
        · simp at hc
  fun_induction scanString b generalizing ps r with
  | case1 => simp at h
  | case2 a b c d r0 ih =>
    simp only [bind, Option.bind_eq_some_iff, pure, Option.some.injEq, Prod.exists, Prod.mk.injEq] at h
    obtain ⟨n, hn, ps', r', h1, rfl, rfl⟩ := h
    obtain ⟨u, rfl, hu⟩ := ih _ _ h1
    simp only [hex4, bind, Option.bind_eq_some_iff] at hn
    obtain ⟨w, hw, x, hx, y, hy, z, hz, -⟩ := hn
    refine ⟨92 :: 117 :: a :: b :: c :: d :: u, rfl, ?_⟩
    simp only [List.mem_cons, forall_eq_or_imp]
    exact ⟨.inl (by decide), .inl (by decide), hexA hw, hexA hx, hexA hy, hexA hz, hu⟩
  | case3 c r0 hne ih =>
    simp only [bind, Option.bind_eq_some_iff, pure, Option.some.injEq, Prod.exists, Prod.mk.injEq] at h
    obtain ⟨n, hn, ps', r', h1, rfl, rfl⟩ := h
    obtain ⟨u, rfl, hu⟩ := ih _ _ h1
    refine ⟨92 :: c :: u, rfl, ?_⟩
    simp only [List.mem_cons, forall_eq_or_imp]
    refine ⟨.inl (by decide), .inl ?_, hu⟩
    unfold escaped at hn
    by_contra hlt
    have : ∀ k : UInt8, c = k → 32 ≤ k.toNat → False := by
      rintro k rfl hk
      exact hlt hk
    split at hn
    · next hc => rcases hc with hc | hc | hc <;> exact this _ hc (by decide)
    repeat' split at hn
    all_goals first | exact this _ (by assumption) (by decide) | simp at hn
  | case4 r0 h1 h2 =>
    obtain ⟨rfl, rfl⟩ := Prod.mk.inj (Option.some.inj h)
    exact ⟨[34], rfl, by simp [Allowed]⟩
  | case5 => simp at h
  | case6 c r0 h1 h2 h3 h4 ih =>
    simp only [bind, Option.bind_eq_some_iff, pure, Option.some.injEq, Prod.exists, Prod.mk.injEq] at h
    obtain ⟨ps', r', hr, rfl, rfl⟩ := h
    obtain ⟨u, rfl, hu⟩ := ih _ _ hr
    refine ⟨c :: u, rfl, ?_⟩
    simp only [List.mem_cons, forall_eq_or_imp]
    exact ⟨.inl (by by_contra hlt; exact h4 (.inl (by omega))), hu⟩

theorem string_consumes : Consumes string Allowed := by
  intro b k r h
  simp only [string, Option.map_eq_some_iff, Prod.exists, Prod.mk.injEq] at h
  obtain ⟨ps, r', h1, rfl, rfl⟩ := h
  exact scanString_consumes _ _ _ h1

/-! ## Values -/

theorem skipWs_append' {b s t : Bytes} {c : UInt8} (h : skipWs b = c :: t) : skipWs (b ++ s) = c :: (t ++ s) := by
  rw [skipWs_append (by rw [h]; simp), h]; rfl

/-- A value is read the same with more text after it, unless it is a number at the end of the text. -/
theorem value_append (fuel : Nat) :
    (∀ depth b v r s, value fuel depth b = some (v, r) → (r ≠ [] ∨ ∀ l, v ≠ .num l) →
      value fuel depth (b ++ s) = some (v, r ++ s)) ∧
    (∀ depth b v r s, members fuel depth b = some (v, r) → members fuel depth (b ++ s) = some (v, r ++ s)) ∧
    (∀ depth b v r s, elements fuel depth b = some (v, r) → elements fuel depth (b ++ s) = some (v, r ++ s)) := by
  induction fuel with
  | zero => simp [value, members, elements]
  | succ fuel ih =>
    obtain ⟨ihv, ihm, ihe⟩ := ih
    refine ⟨?_, ?_, ?_⟩
    · intro depth b v r s h hne
      rw [value] at h ⊢
      cases hb : skipWs b with
      | nil => simp [hb] at h
      | cons c t =>
        rw [skipWs_append' hb]
        simp only [hb] at h ⊢
        split at h
        · next hc =>
          rw [if_pos hc]
          simp only [Option.map_eq_some_iff, Prod.exists, Prod.mk.injEq] at h ⊢
          obtain ⟨k, r', h1, rfl, rfl⟩ := h
          exact ⟨k, _, string_append h1, rfl, rfl⟩
        next hc =>
        rw [if_neg hc]
        split at h
        · next hc =>
          rw [if_pos hc]
          simp only [Option.map_eq_some_iff, Prod.mk.injEq] at h ⊢
          obtain ⟨r', h1, rfl, rfl⟩ := h
          exact ⟨_, keyword_append h1, rfl, rfl⟩
        next hc =>
        rw [if_neg hc]
        split at h
        · next hc =>
          rw [if_pos hc]
          simp only [Option.map_eq_some_iff, Prod.mk.injEq] at h ⊢
          obtain ⟨r', h1, rfl, rfl⟩ := h
          exact ⟨_, keyword_append h1, rfl, rfl⟩
        next hc =>
        rw [if_neg hc]
        split at h
        · next hc =>
          rw [if_pos hc]
          simp only [Option.map_eq_some_iff, Prod.mk.injEq] at h ⊢
          obtain ⟨r', h1, rfl, rfl⟩ := h
          exact ⟨_, keyword_append h1, rfl, rfl⟩
        next hc =>
        rw [if_neg hc]
        split at h
        · next hc =>
          rw [if_pos hc]
          cases depth with
          | zero => simp at h
          | succ depth =>
            simp only at h ⊢
            cases ht : skipWs t with
            | nil => simp [ht] at h
            | cons c' t' =>
              rw [skipWs_append' ht]
              simp only [ht] at h ⊢
              split at h
              · next hc' =>
                rw [if_pos hc']
                obtain ⟨rfl, rfl⟩ := Prod.mk.inj (Option.some.inj h)
                rfl
              next hc' =>
              rw [if_neg hc']
              simp only [Option.map_eq_some_iff, Prod.exists, Prod.mk.injEq] at h ⊢
              obtain ⟨ms, r', h1, rfl, rfl⟩ := h
              exact ⟨ms, _, ihm _ _ _ _ s h1, rfl, rfl⟩
        next hc =>
        rw [if_neg hc]
        split at h
        · next hc =>
          rw [if_pos hc]
          cases depth with
          | zero => simp at h
          | succ depth =>
            simp only at h ⊢
            cases ht : skipWs t with
            | nil => simp [ht] at h
            | cons c' t' =>
              rw [skipWs_append' ht]
              simp only [ht] at h ⊢
              split at h
              · next hc' =>
                rw [if_pos hc']
                obtain ⟨rfl, rfl⟩ := Prod.mk.inj (Option.some.inj h)
                rfl
              next hc' =>
              rw [if_neg hc']
              simp only [Option.map_eq_some_iff, Prod.exists, Prod.mk.injEq] at h ⊢
              obtain ⟨ms, r', h1, rfl, rfl⟩ := h
              exact ⟨ms, _, ihe _ _ _ _ s h1, rfl, rfl⟩
        next hc =>
        rw [if_neg hc]
        simp only [Option.map_eq_some_iff, Prod.exists, Prod.mk.injEq] at h ⊢
        obtain ⟨l, r', h1, rfl, rfl⟩ := h
        exact ⟨l, _, number_append h1 (hne.resolve_right fun h => h l rfl), rfl, rfl⟩
    · intro depth b v r s h
      rw [members] at h ⊢
      cases hb : skipWs b with
      | nil => simp [hb] at h
      | cons c t =>
        rw [skipWs_append' hb]
        simp only [hb] at h ⊢
        split at h
        · next hc =>
          rw [if_pos hc]
          simp only [bind, Option.bind_eq_some_iff, Prod.exists] at h ⊢
          obtain ⟨k, r1, h1, h⟩ := h
          refine ⟨k, _, string_append h1, ?_⟩
          cases hr1 : skipWs r1 with
          | nil => simp [hr1] at h
          | cons c t =>
            rw [skipWs_append' hr1]
            simp only [hr1] at h ⊢
            split at h
            · next hc =>
              rw [if_pos hc]
              simp only [Option.bind_eq_some_iff, Prod.exists] at h ⊢
              obtain ⟨v1, r2, h2, h⟩ := h
              cases hr2 : skipWs r2 with
              | nil => simp [hr2] at h
              | cons c t =>
                refine ⟨v1, _, ihv _ _ _ _ s h2 (.inl (by rintro rfl; simp [skipWs] at hr2)), ?_⟩
                rw [skipWs_append' hr2]
                simp only [hr2] at h ⊢
                split at h
                · next hc =>
                  rw [if_pos hc]
                  simp only [Option.bind_eq_some_iff, Prod.exists, pure, Option.some.injEq, Prod.mk.injEq] at h ⊢
                  obtain ⟨ms, r3, h3, rfl, rfl⟩ := h
                  exact ⟨ms, _, ihm _ _ _ _ s h3, rfl, rfl⟩
                next hc =>
                rw [if_neg hc]
                split at h
                · next hc =>
                  rw [if_pos hc]
                  obtain ⟨rfl, rfl⟩ := Prod.mk.inj (Option.some.inj h)
                  rfl
                · simp at h
            · simp at h
        · simp at h
    · intro depth b v r s h
      rw [elements] at h ⊢
      simp only [bind, Option.bind_eq_some_iff, Prod.exists] at h ⊢
      obtain ⟨v1, r2, h2, h⟩ := h
      cases hr2 : skipWs r2 with
      | nil => simp [hr2] at h
      | cons c t =>
        refine ⟨v1, _, ihv _ _ _ _ s h2 (.inl (by rintro rfl; simp [skipWs] at hr2)), ?_⟩
        rw [skipWs_append' hr2]
        simp only [hr2] at h ⊢
        split at h
        · next hc =>
          rw [if_pos hc]
          simp only [Option.bind_eq_some_iff, Prod.exists, pure, Option.some.injEq, Prod.mk.injEq] at h ⊢
          obtain ⟨ms, r3, h3, rfl, rfl⟩ := h
          exact ⟨ms, _, ihe _ _ _ _ s h3, rfl, rfl⟩
        next hc =>
        rw [if_neg hc]
        split at h
        · next hc =>
          rw [if_pos hc]
          obtain ⟨rfl, rfl⟩ := Prod.mk.inj (Option.some.inj h)
          rfl
        · simp at h

/-- Members and elements are not empty. -/
theorem ascii_allowed {w : Bytes} (h : ∀ c ∈ w, 32 ≤ c.toNat) : ∀ c ∈ w, Allowed c := fun c hc => .inl (h c hc)

theorem skipWs_uses {b t : Bytes} {c : UInt8} (h : skipWs b = c :: t) :
    ∃ used, b = used ++ c :: t ∧ ∀ c ∈ used, Allowed c := by
  have := skipWs_split b
  rwa [h] at this

/-- What is read begins with something, and is made of allowed characters. -/
def Reads (f : Bytes → Option (α × Bytes)) : Prop :=
  ∀ b x r, f b = some (x, r) → ∃ used, b = used ++ r ∧ used ≠ [] ∧ ∀ c ∈ used, Allowed c

theorem number_reads : Reads number := by
  have h1 : ∀ b l r, digits1 b = some (l, r) → b ≠ r := by
    intro b l r h
    cases b with
    | nil => simp [digits1, digits] at h
    | cons c t =>
      unfold digits1 at h
      split at h
      · simp at h
      · next hne he =>
        obtain ⟨rfl, rfl⟩ := Prod.mk.inj (Option.some.inj h)
        intro e
        have := (digits_split (c :: t)).1
        rw [he] at this
        rw [← e] at this
        have := congrArg List.length this
        simp only [List.length_append] at this
        exact hne (List.length_eq_zero_iff.mp (by omega))
  have h2 : ∀ b l r, integer b = some (l, r) → r.length < b.length := by
    intro b l r h
    obtain ⟨u, rfl, -⟩ := integer_consumes _ _ _ h
    cases u with
    | nil =>
      exfalso
      cases r with
      | nil => simp [integer] at h
      | cons c t =>
        simp only [List.nil_append, integer] at h
        split at h
        · have := congrArg (fun x => (x.map fun p => p.2.length)) h
          simp at this
        · exact h1 _ _ _ h rfl
    | cons => simp only [List.length_append, List.length_cons]; omega
  have h3 : ∀ b l r, unsigned b = some (l, r) → r.length < b.length := by
    intro b l r h
    simp only [unsigned, bind, Option.bind_eq_some_iff, pure, Option.some.injEq, Prod.exists, Prod.mk.injEq] at h
    obtain ⟨i, r1, h1, f, r2, h2', e, r3, h3, rfl, rfl⟩ := h
    have := h2 _ _ _ h1
    obtain ⟨u2, rfl, hu2⟩ := fraction_consumes _ _ _ h2'
    obtain ⟨u3, rfl, hu3⟩ := exponent_consumes _ _ _ h3
    simp only [List.length_append] at this
    omega
  intro b l r h
  obtain ⟨u, e, hu⟩ := number_consumes _ _ _ h
  refine ⟨u, e, ?_, hu⟩
  rintro rfl
  rw [List.nil_append] at e
  subst e
  cases b with
  | nil => simp [number] at h
  | cons c t =>
    simp only [number] at h
    split at h
    · simp only [Option.map_eq_some_iff, Prod.exists, Prod.mk.injEq] at h
      obtain ⟨l', r', h1, -, rfl⟩ := h
      have := h3 _ _ _ h1
      simp only [List.length_cons] at this
      omega
    · exact absurd (h3 _ _ _ h) (by simp)

theorem value_reads (fuel : Nat) :
    (∀ depth, Reads (value fuel depth)) ∧ (∀ depth, Reads (members fuel depth)) ∧
      (∀ depth, Reads (elements fuel depth)) := by
  have glue : ∀ {u x b : Bytes}, (∀ c ∈ u, Allowed c) → (∀ c ∈ x, Allowed c) → ∀ c ∈ u ++ x, Allowed c := by
    intro u x b hu hx c hc
    rcases List.mem_append.mp hc with h | h
    · exact hu c h
    · exact hx c h
  have one : ∀ {c : UInt8} {k : UInt8}, c = k → 32 ≤ k.toNat → ∀ {u : Bytes}, (∀ c ∈ u, Allowed c) →
      ∀ d ∈ c :: u, Allowed d := by
    rintro c _ rfl hk u hu d hd
    rcases List.mem_cons.mp hd with rfl | hd
    · exact .inl hk
    · exact hu d hd
  induction fuel with
  | zero => simp [Reads, value, members, elements]
  | succ fuel ih =>
    obtain ⟨ihv, ihm, ihe⟩ := ih
    refine ⟨?_, ?_, ?_⟩
    · intro depth b v r h
      rw [value] at h
      cases hb : skipWs b with
      | nil => simp [hb] at h
      | cons c t =>
        obtain ⟨u, rfl, hu⟩ := skipWs_uses hb
        simp only [hb] at h
        suffices hs : ∃ used, c :: t = used ++ r ∧ used ≠ [] ∧ ∀ c ∈ used, Allowed c by
          obtain ⟨x, hx, hne, hax⟩ := hs
          exact ⟨u ++ x, by rw [hx, List.append_assoc], by simp [hne], glue (b := []) hu hax⟩
        split at h
        · next hc =>
          simp only [Option.map_eq_some_iff, Prod.exists, Prod.mk.injEq] at h
          obtain ⟨k, r', h1, rfl, rfl⟩ := h
          obtain ⟨x, rfl, hx⟩ := string_consumes _ _ _ h1
          exact ⟨c :: x, rfl, by simp, one hc (by decide) hx⟩
        split at h
        · next hc =>
          simp only [Option.map_eq_some_iff, Prod.mk.injEq] at h
          obtain ⟨r', h1, rfl, rfl⟩ := h
          obtain rfl := keyword_consumes h1
          exact ⟨c :: ascii "ull", rfl, by simp, one hc (by decide) (ascii_allowed (by decide))⟩
        split at h
        · next hc =>
          simp only [Option.map_eq_some_iff, Prod.mk.injEq] at h
          obtain ⟨r', h1, rfl, rfl⟩ := h
          obtain rfl := keyword_consumes h1
          exact ⟨c :: ascii "rue", rfl, by simp, one hc (by decide) (ascii_allowed (by decide))⟩
        split at h
        · next hc =>
          simp only [Option.map_eq_some_iff, Prod.mk.injEq] at h
          obtain ⟨r', h1, rfl, rfl⟩ := h
          obtain rfl := keyword_consumes h1
          exact ⟨c :: ascii "alse", rfl, by simp, one hc (by decide) (ascii_allowed (by decide))⟩
        split at h
        · next hc =>
          cases depth with
          | zero => simp at h
          | succ depth =>
            simp only at h
            cases ht : skipWs t with
            | nil => simp [ht] at h
            | cons c' t' =>
              obtain ⟨u', rfl, hu'⟩ := skipWs_uses ht
              simp only [ht] at h
              split at h
              · next hc' =>
                obtain ⟨rfl, rfl⟩ := Prod.mk.inj (Option.some.inj h)
                exact ⟨c :: (u' ++ [c']), by simp, by simp,
                  one hc (by decide) (glue (b := []) hu' (one hc' (by decide) (by simp)))⟩
              simp only [Option.map_eq_some_iff, Prod.exists, Prod.mk.injEq] at h
              obtain ⟨ms, r', h1, rfl, rfl⟩ := h
              obtain ⟨x, e, hne, hx⟩ := ihm _ _ _ _ h1
              exact ⟨c :: (u' ++ x), by simp [e], by simp, one hc (by decide) (glue (b := []) hu' hx)⟩
        split at h
        · next hc =>
          cases depth with
          | zero => simp at h
          | succ depth =>
            simp only at h
            cases ht : skipWs t with
            | nil => simp [ht] at h
            | cons c' t' =>
              obtain ⟨u', rfl, hu'⟩ := skipWs_uses ht
              simp only [ht] at h
              split at h
              · next hc' =>
                obtain ⟨rfl, rfl⟩ := Prod.mk.inj (Option.some.inj h)
                exact ⟨c :: (u' ++ [c']), by simp, by simp,
                  one hc (by decide) (glue (b := []) hu' (one hc' (by decide) (by simp)))⟩
              simp only [Option.map_eq_some_iff, Prod.exists, Prod.mk.injEq] at h
              obtain ⟨ms, r', h1, rfl, rfl⟩ := h
              obtain ⟨x, e, hne, hx⟩ := ihe _ _ _ _ h1
              exact ⟨c :: (u' ++ x), by simp [e], by simp, one hc (by decide) (glue (b := []) hu' hx)⟩
        simp only [Option.map_eq_some_iff, Prod.exists, Prod.mk.injEq] at h
        obtain ⟨l, r', h1, rfl, rfl⟩ := h
        exact number_reads _ _ _ h1
    · intro depth b v r h
      rw [members] at h
      cases hb : skipWs b with
      | nil => simp [hb] at h
      | cons c t =>
        obtain ⟨u, rfl, hu⟩ := skipWs_uses hb
        simp only [hb] at h
        split at h
        · next hc =>
          simp only [bind, Option.bind_eq_some_iff, Prod.exists] at h
          obtain ⟨k, r1, h1, h⟩ := h
          obtain ⟨x1, rfl, hx1⟩ := string_consumes _ _ _ h1
          cases hr1 : skipWs r1 with
          | nil => simp [hr1] at h
          | cons c1 t1 =>
            obtain ⟨u1, rfl, hu1⟩ := skipWs_uses hr1
            simp only [hr1] at h
            split at h
            · next hc1 =>
              simp only [Option.bind_eq_some_iff, Prod.exists] at h
              obtain ⟨v1, r2, h2, h⟩ := h
              obtain ⟨x2, rfl, -, hx2⟩ := ihv _ _ _ _ h2
              cases hr2 : skipWs r2 with
              | nil => simp [hr2] at h
              | cons c2 t2 =>
                obtain ⟨u2, rfl, hu2⟩ := skipWs_uses hr2
                simp only [hr2] at h
                split at h
                · next hc2 =>
                  simp only [Option.bind_eq_some_iff, Prod.exists, pure, Option.some.injEq, Prod.mk.injEq] at h
                  obtain ⟨ms, r3, h3, rfl, rfl⟩ := h
                  obtain ⟨x3, rfl, -, hx3⟩ := ihm _ _ _ _ h3
                  refine ⟨u ++ (c :: (x1 ++ (u1 ++ (c1 :: (x2 ++ (u2 ++ (c2 :: x3))))))), by simp, by simp, ?_⟩
                  exact glue (b := []) hu (one hc (by decide) (glue (b := []) hx1 (glue (b := []) hu1 (one hc1 (by decide)
                    (glue (b := []) hx2 (glue (b := []) hu2 (one hc2 (by decide) hx3)))))))
                split at h
                · next hc2 =>
                  obtain ⟨rfl, rfl⟩ := Prod.mk.inj (Option.some.inj h)
                  refine ⟨u ++ (c :: (x1 ++ (u1 ++ (c1 :: (x2 ++ (u2 ++ [c2])))))), by simp, by simp, ?_⟩
                  exact glue (b := []) hu (one hc (by decide) (glue (b := []) hx1 (glue (b := []) hu1 (one hc1 (by decide)
                    (glue (b := []) hx2 (glue (b := []) hu2 (one hc2 (by decide) (by simp))))))))
                · simp at h
            · simp at h
        · simp at h
    · intro depth b v r h
      rw [elements] at h
      simp only [bind, Option.bind_eq_some_iff, Prod.exists] at h
      obtain ⟨v1, r2, h2, h⟩ := h
      obtain ⟨x2, rfl, -, hx2⟩ := ihv _ _ _ _ h2
      cases hr2 : skipWs r2 with
      | nil => simp [hr2] at h
      | cons c2 t2 =>
        obtain ⟨u2, rfl, hu2⟩ := skipWs_uses hr2
        simp only [hr2] at h
        split at h
        · next hc2 =>
          simp only [Option.bind_eq_some_iff, Prod.exists, pure, Option.some.injEq, Prod.mk.injEq] at h
          obtain ⟨ms, r3, h3, rfl, rfl⟩ := h
          obtain ⟨x3, rfl, -, hx3⟩ := ihe _ _ _ _ h3
          exact ⟨x2 ++ (u2 ++ (c2 :: x3)), by simp, by simp,
            glue (b := []) hx2 (glue (b := []) hu2 (one hc2 (by decide) hx3))⟩
        split at h
        · next hc2 =>
          obtain ⟨rfl, rfl⟩ := Prod.mk.inj (Option.some.inj h)
          exact ⟨x2 ++ (u2 ++ [c2]), by simp, by simp,
            glue (b := []) hx2 (glue (b := []) hu2 (one hc2 (by decide) (by simp)))⟩
        · simp at h

/-- Fuel beyond twice the length of the text makes no difference. -/
theorem value_fuel (f : Nat) :
    (∀ f' depth b, 2 * b.length < f → 2 * b.length < f' → value f depth b = value f' depth b) ∧
    (∀ f' depth b, 2 * b.length < f → 2 * b.length < f' → members f depth b = members f' depth b) ∧
    (∀ f' depth b, 2 * b.length + 1 < f → 2 * b.length + 1 < f' → elements f depth b = elements f' depth b) := by
  have ws : ∀ {b t : Bytes} {c : UInt8}, skipWs b = c :: t → t.length < b.length := by
    intro b t c h
    obtain ⟨u, rfl, -⟩ := skipWs_uses h
    simp only [List.length_append, List.length_cons]
    omega
  induction f with
  | zero => simp
  | succ f ih =>
    obtain ⟨ihv, ihm, ihe⟩ := ih
    refine ⟨?_, ?_, ?_⟩
    · intro f' depth b h h'
      cases f' with
      | zero => omega
      | succ f' =>
        rw [value, value]
        cases hb : skipWs b with
        | nil => rfl
        | cons c t =>
          have h1 := ws hb
          simp only
          cases depth with
          | zero => rfl
          | succ depth =>
            simp only
            cases ht : skipWs t with
            | nil => rfl
            | cons c' t' =>
              have h2 := ws ht
              simp only
              rw [ihm f' depth (c' :: t') (by simp only [List.length_cons]; omega) (by simp only [List.length_cons]; omega),
                ihe f' depth (c' :: t') (by simp only [List.length_cons]; omega) (by simp only [List.length_cons]; omega)]
    · intro f' depth b h h'
      cases f' with
      | zero => omega
      | succ f' =>
        rw [members, members]
        cases hb : skipWs b with
        | nil => rfl
        | cons c t =>
          have h1 := ws hb
          simp only
          split
          · cases hs : string t with
            | none => rfl
            | some p =>
              obtain ⟨k, r⟩ := p
              obtain ⟨x, rfl, -⟩ := string_consumes _ _ _ hs
              simp only [List.length_append, Option.bind_eq_bind, Option.bind_some] at h1 ⊢
              cases hr : skipWs r with
              | nil => rfl
              | cons c1 t1 =>
                have h2 := ws hr
                simp only
                rw [ihv f' depth t1 (by omega) (by omega)]
                split
                · cases hv : value f' depth t1 with
                  | none => rfl
                  | some p =>
                    obtain ⟨v, r2⟩ := p
                    obtain ⟨x2, rfl, -⟩ := (value_reads f').1 _ _ _ _ hv
                    simp only [List.length_append, Option.bind_some] at h2 ⊢
                    cases hr2 : skipWs r2 with
                    | nil => rfl
                    | cons c2 t2 =>
                      have h3 := ws hr2
                      simp only
                      rw [ihm f' depth t2 (by omega) (by omega)]
                · rfl
          · rfl
    · intro f' depth b h h'
      cases f' with
      | zero => omega
      | succ f' =>
        rw [elements, elements, ihv f' depth b (by omega) (by omega)]
        cases hv : value f' depth b with
        | none => rfl
        | some p =>
          obtain ⟨v, r2⟩ := p
          obtain ⟨x2, rfl, hne, -⟩ := (value_reads f').1 _ _ _ _ hv
          simp only [List.length_append, Option.bind_eq_bind, Option.bind_some] at h h' ⊢
          cases hr2 : skipWs r2 with
          | nil => rfl
          | cons c2 t2 =>
            have h3 := ws hr2
            simp only
            rw [ihe f' depth t2 (by omega) (by omega)]

/-! ## Texts -/

/-- A control character other than white space makes a text invalid. -/
theorem parse_allowed {b : Bytes} {v : Value} (h : parse b = some v) : ∀ c ∈ b, Allowed c := by
  unfold parse at h
  split at h
  · next v' r hv =>
    split at h
    · next hr =>
      obtain ⟨u, rfl, -, hu⟩ := (value_reads _).1 _ _ _ _ hv
      obtain ⟨w, e, hw⟩ := skipWs_split r
      rw [hr, List.append_nil] at e
      subst e
      intro c hc
      rcases List.mem_append.mp hc with hc | hc
      · exact hu c hc
      · exact hw c hc
    · simp at h
  · simp at h

theorem value_brace {f d : Nat} {b r : Bytes} {v : Value} (h : value f d (123 :: b) = some (v, r)) (l : Bytes) :
    v ≠ .num l := by
  rintro rfl
  cases f with
  | zero => simp [value] at h
  | succ f =>
    cases d with
    | zero => simp [value, skipWs, isSpace] at h
    | succ d =>
      rw [value] at h
      simp only [show skipWs (123 :: b) = 123 :: b by simp [skipWs, isSpace], if_neg (show (123 : UInt8) ≠ 34 by decide),
        if_neg (show (123 : UInt8) ≠ 110 by decide), if_neg (show (123 : UInt8) ≠ 116 by decide),
        if_neg (show (123 : UInt8) ≠ 102 by decide), if_true] at h
      split at h
      · simp at h
      · split at h
        · simp at h
        · simp at h

/-- A text that begins with a brace and is a complete value does not become another text by adding something that is
not white space, and none of its proper beginnings is a text. -/
theorem parse_whole {b s : Bytes} {v : Value} {d : Nat} (hd : d = 10000)
    (h : value (2 * (123 :: b).length + 1) d (123 :: b) = some (v, [])) :
    (skipWs s ≠ [] → parse (123 :: b ++ s) = none) ∧
      (∀ t, t <+: 123 :: b → t ≠ 123 :: b → parse t = none) := by
  subst hd
  constructor
  · intro hs
    have h1 := (value_append _).1 _ _ _ _ s h (.inr (value_brace h))
    have h2 := (value_fuel (2 * (123 :: b ++ s).length + 1)).1 (2 * (123 :: b).length + 1 + 2 * s.length) 10000
      (123 :: b ++ s) (by omega) (by simp only [List.length_append]; omega)
    have h3 : value (2 * (123 :: b).length + 1 + 2 * s.length) 10000 (123 :: b) = some (v, []) := by
      rw [(value_fuel _).1 (2 * (123 :: b).length + 1) _ _ (by omega) (by omega), h]
    have h4 := (value_append _).1 _ _ _ _ s h3 (.inr (value_brace h))
    unfold parse
    rw [h2, h4]
    simp [hs]
  · intro t ht hne
    obtain ⟨s, hs⟩ := ht
    have hsne : s ≠ [] := by
      rintro rfl
      exact hne (by rw [← hs, List.append_nil])
    unfold parse
    split
    · next v' r hv =>
      exfalso
      cases t with
      | nil => simp [value, skipWs] at hv
      | cons c t =>
        obtain ⟨rfl, rfl⟩ := List.cons.inj hs
        have h3 : value (2 * (123 :: (t.append s)).length + 1) 10000 (123 :: t) = some (v', r) := by
          rw [← hv]
          exact (value_fuel _).1 _ _ _ (by simp [List.length_append]; omega) (by omega)
        have h4 := (value_append _).1 _ _ _ _ s h3 (.inr (value_brace h3))
        have h5 : some (v, []) = some (v', r ++ s) := by
          rw [← h, ← h4]
          rfl
        have h6 := (Prod.mk.inj (Option.some.inj h5)).2
        simp [hsne] at h6
    · rfl

/-! ## Texts that `json.Marshal` makes -/

/-- The text `t` is the value `v`, whatever follows. -/
def Is (d : Nat) (t : Bytes) (v : Value) : Prop :=
  ∀ r f, 2 * (t ++ r).length < f → value f d (t ++ r) = some (v, r)

/-- The text `t`, which includes the closing brace, is the members `ms`, whatever follows. -/
def IsMembers (d : Nat) (t : Bytes) (ms : List (Bytes × Value)) : Prop :=
  (∃ x, t = 34 :: x) ∧ ∀ r f, 2 * (t ++ r).length < f → members f d (t ++ r) = some (ms, r)

/-- ASCII without control characters, quotes and backslashes. -/
def Plain (k : Bytes) : Prop := ∀ c ∈ k, 32 ≤ c.toNat ∧ c.toNat < 128 ∧ c ≠ 34 ∧ c ≠ 92

instance (k : Bytes) : Decidable (Plain k) :=
  inferInstanceAs (Decidable (∀ c ∈ k, 32 ≤ c.toNat ∧ c.toNat < 128 ∧ c ≠ 34 ∧ c ≠ 92))

theorem string_plain {k : Bytes} (hk : Plain k) (r : Bytes) : string (k ++ 34 :: r) = some (k, r) := by
  have h1 : scanString (k ++ 34 :: r) = some (k.map .raw, r) := by
    induction k with
    | nil => rw [List.nil_append, scanString.eq_4 _ _ (by simp) (by simp)]; simp
    | cons c k ih =>
      have hc := hk c (by simp)
      rw [List.cons_append, scanString.eq_4 _ _ (by intro _ _ _ _ _ hh; exact absurd hh hc.2.2.2)
        (by intro _ _ hh; exact absurd hh hc.2.2.2), if_neg hc.2.2.1,
        if_neg (by rintro (h | h); exacts [by omega, hc.2.2.2 h]), ih fun c hc => hk c (by simp [hc])]
      rfl
  have h2 : unquote (k.map .raw) = k := by
    clear h1
    induction k with
    | nil => simp [unquote]
    | cons c k ih =>
      have hc := hk c (by simp)
      rw [List.map_cons, unquote.eq_def]
      simp only [if_pos hc.2.1]
      rw [ih fun c hc => hk c (by simp [hc])]
  simp [string, h1, h2]

theorem is_string {d : Nat} {k : Bytes} (hk : Plain k) : Is d (34 :: (k ++ [34])) (.str k) := by
  intro r f hf
  cases f with
  | zero => omega
  | succ f =>
    have := string_plain hk r
    simp [value, skipWs, isSpace, this]

theorem is_null {d : Nat} : Is d (ascii "null") .null := by
  intro r f hf
  cases f with
  | zero => omega
  | succ f => simp [value, skipWs, isSpace, ascii, keyword]

theorem is_bool {d : Nat} (b : Bool) : Is d (jsonBool b) (.bool b) := by
  intro r f hf
  cases f with
  | zero => omega
  | succ f => cases b <;> simp [value, skipWs, isSpace, ascii, keyword, jsonBool]

theorem is_empty {d : Nat} : Is (d + 1) (ascii "{}") (.obj []) := by
  intro r f hf
  cases f with
  | zero => omega
  | succ f => simp [value, skipWs, isSpace, ascii]

theorem is_obj {d : Nat} {t : Bytes} {ms : List (Bytes × Value)} (h : IsMembers d t ms) :
    Is (d + 1) (123 :: t) (.obj ms) := by
  intro r f hf
  cases f with
  | zero => omega
  | succ f =>
    obtain ⟨⟨x, rfl⟩, h⟩ := h
    have := h r f (by simp only [List.cons_append, List.length_cons] at hf ⊢; omega)
    simp only [List.cons_append] at this
    simp [value, skipWs, isSpace, this]

theorem isMembers_last {d : Nat} {k t : Bytes} {v : Value} (hk : Plain k) (h : Is d t v) :
    IsMembers d (34 :: (k ++ 34 :: 58 :: (t ++ [125]))) [(k, v)] := by
  refine ⟨⟨_, rfl⟩, ?_⟩
  intro r f hf
  cases f with
  | zero => omega
  | succ f =>
    have h1 := string_plain hk (58 :: (t ++ (125 :: r)))
    have h2 := h (125 :: r) f (by simp [List.length_append] at hf ⊢; omega)
    simp [members, skipWs, isSpace, h1, h2]

theorem isMembers_cons {d : Nat} {k t ts : Bytes} {v : Value} {ms : List (Bytes × Value)} (hk : Plain k) (h : Is d t v)
    (hs : IsMembers d ts ms) : IsMembers d (34 :: (k ++ 34 :: 58 :: (t ++ 44 :: ts))) ((k, v) :: ms) := by
  refine ⟨⟨_, rfl⟩, ?_⟩
  intro r f hf
  cases f with
  | zero => omega
  | succ f =>
    have h1 := string_plain hk (58 :: (t ++ (44 :: (ts ++ r))))
    have h2 := h (44 :: (ts ++ r)) f (by simp [List.length_append] at hf ⊢; omega)
    have h3 := hs.2 r f (by simp [List.length_append] at hf ⊢; omega)
    simp [members, skipWs, isSpace, h1, h2, h3]

/-! ## Base64 -/

theorem b64Digit_b64Char {n : Nat} (h : n < 64) : b64Digit (b64Char n) = some n := by
  simp [b64Digit, b64Val_b64Char h, h]

theorem unbase64'_base64 (b : Bytes) : unbase64' (base64 b) = some b := by
  fun_induction base64 b with
  | case1 => rfl
  | case2 a =>
    have ha := UInt8.toNat_lt a
    simp only [unbase64', b64Digit_b64Char (n := a.toNat / 4) (by omega),
      b64Digit_b64Char (n := a.toNat % 4 * 16) (by omega), Option.bind_eq_bind, Option.bind_some, if_true, and_self]
    rw [ofNat_eq_of (a := a) (by omega)]
    rfl
  | case3 a b =>
    have ha := UInt8.toNat_lt a
    have hb := UInt8.toNat_lt b
    simp only [unbase64', b64Digit_b64Char (n := a.toNat / 4) (by omega),
      b64Digit_b64Char (n := a.toNat % 4 * 16 + b.toNat / 16) (by omega),
      b64Digit_b64Char (n := b.toNat % 16 * 4) (by omega), Option.bind_eq_bind, Option.bind_some, if_true]
    rw [if_neg (b64Char_ne_pad (by omega)), ofNat_eq_of (a := a) (by omega), ofNat_eq_of (a := b) (by omega)]
    rfl
  | case4 a b c rest ih =>
    have ha := UInt8.toNat_lt a
    have hb := UInt8.toNat_lt b
    have hc := UInt8.toNat_lt c
    simp only [unbase64', b64Digit_b64Char (n := a.toNat / 4) (by omega),
      b64Digit_b64Char (n := a.toNat % 4 * 16 + b.toNat / 16) (by omega),
      b64Digit_b64Char (n := b.toNat % 16 * 4 + c.toNat / 64) (by omega),
      b64Digit_b64Char (n := c.toNat % 64) (by omega), Option.bind_eq_bind, Option.bind_some, ih]
    rw [if_neg (b64Char_ne_pad (by omega)), if_neg (b64Char_ne_pad (by omega)), ofNat_eq_of (a := a) (by omega),
      ofNat_eq_of (a := b) (by omega), ofNat_eq_of (a := c) (by omega)]
    rfl

theorem base64_plain (b : Bytes) : Plain (base64 b) := by
  have hc : ∀ n : Nat, n < 64 → 32 ≤ (b64Char n).toNat ∧ (b64Char n).toNat < 128 ∧ b64Char n ≠ 34 ∧ b64Char n ≠ 92 := by
    intro n hn
    have : ∀ n : Fin 64, 32 ≤ (b64Char n).toNat ∧ (b64Char n).toNat < 128 ∧ b64Char n ≠ 34 ∧ b64Char n ≠ 92 := by decide
    exact this ⟨n, hn⟩
  have hp : 32 ≤ (61 : UInt8).toNat ∧ (61 : UInt8).toNat < 128 ∧ (61 : UInt8) ≠ 34 ∧ (61 : UInt8) ≠ 92 := by decide
  intro x hx
  fun_induction base64 b with
  | case1 => simp at hx
  | case2 a =>
    have ha := UInt8.toNat_lt a
    simp only [List.mem_cons, List.not_mem_nil, or_false] at hx
    rcases hx with rfl | rfl | rfl | rfl
    exacts [hc _ (by omega), hc _ (by omega), hp, hp]
  | case3 a b =>
    have ha := UInt8.toNat_lt a
    have hb := UInt8.toNat_lt b
    simp only [List.mem_cons, List.not_mem_nil, or_false] at hx
    rcases hx with rfl | rfl | rfl | rfl
    exacts [hc _ (by omega), hc _ (by omega), hc _ (by omega), hp]
  | case4 a b c rest ih =>
    have ha := UInt8.toNat_lt a
    have hb := UInt8.toNat_lt b
    have hcc := UInt8.toNat_lt c
    simp only [List.mem_cons] at hx
    rcases hx with rfl | rfl | rfl | rfl | hx
    exacts [hc _ (by omega), hc _ (by omega), hc _ (by omega), hc _ (by omega), ih hx]

theorem decode64_base64 (b : Bytes) : decode64 (base64 b) = some b := by
  have : (base64 b).filter (fun c => c != 10 && c != 13) = base64 b := by
    rw [List.filter_eq_self]
    intro c hc
    have := (base64_plain b c hc).1
    have h1 : c ≠ 10 := by rintro rfl; revert this; decide
    have h2 : c ≠ 13 := by rintro rfl; revert this; decide
    simp [h1, h2]
  rw [decode64, this, unbase64'_base64]

theorem is_bytes {d : Nat} (b : Bytes) : Is d (jsonBytes b) (.str (base64 b)) := is_string (base64_plain b)

end Idemix.Json
