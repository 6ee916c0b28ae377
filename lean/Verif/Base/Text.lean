import Verif.Base.Res

/-!
# Hexadecimal, base64, JSON texts and paths

The parts of `encoding/hex`, `encoding/base64`, `encoding/json` and `path` that the key store uses.
-/

namespace Idemix

/-- Characters of a literal as bytes (ASCII only). -/
def ascii (s : String) : List UInt8 := s.toList.map fun c => UInt8.ofNat c.toNat

/-! ## Splitting at a delimiter -/

/-- Text up to a delimiter that does not occur in it is determined. -/
theorem split_at_delim {q : UInt8} {a b x y : List UInt8} (ha : q ∉ a) (hb : q ∉ b)
    (h : a ++ q :: x = b ++ q :: y) : a = b ∧ x = y := by
  induction a generalizing b with
  | nil =>
    cases b with
    | nil => simpa using h
    | cons c b =>
      simp only [List.nil_append, List.cons_append, List.cons.injEq] at h
      exact absurd (by simp [h.1]) hb
  | cons c a ih =>
    cases b with
    | nil =>
      simp only [List.nil_append, List.cons_append, List.cons.injEq] at h
      exact absurd (by simp [h.1]) ha
    | cons d b =>
      simp only [List.cons_append, List.cons.injEq] at h
      obtain ⟨rfl, h⟩ := h
      obtain ⟨rfl, h'⟩ := ih (fun hh => ha (List.mem_cons_of_mem _ hh)) (fun hh => hb (List.mem_cons_of_mem _ hh)) h
      exact ⟨rfl, h'⟩

/-! ## Hexadecimal -/

/-- The lower-case digit of a number below 16. -/
def hexDigit (n : Nat) : UInt8 := UInt8.ofNat (if n < 10 then 48 + n else 87 + n)

/-- `hex.EncodeToString`. -/
def hexOf (b : List UInt8) : List UInt8 := b.flatMap fun x => [hexDigit (x.toNat / 16), hexDigit (x.toNat % 16)]

/-- The value of a digit produced by `hexDigit`. -/
def hexVal (c : UInt8) : Nat := if c.toNat < 58 then c.toNat - 48 else c.toNat - 87

theorem hexVal_hexDigit {n : Nat} (h : n < 16) : hexVal (hexDigit n) = n := by
  unfold hexVal hexDigit
  split
  · rw [UInt8.toNat_ofNat', Nat.mod_eq_of_lt (by omega)]; split <;> omega
  · rw [UInt8.toNat_ofNat', Nat.mod_eq_of_lt (by omega)]; split <;> omega

theorem hexDigit_inj {m n : Nat} (hm : m < 16) (hn : n < 16) (h : hexDigit m = hexDigit n) : m = n := by
  rw [← hexVal_hexDigit hm, h, hexVal_hexDigit hn]

theorem hexOf_cons (x : UInt8) (b : List UInt8) :
    hexOf (x :: b) = hexDigit (x.toNat / 16) :: hexDigit (x.toNat % 16) :: hexOf b := rfl

/-- Different identifiers have different names. -/
theorem hexOf_inj {a b : List UInt8} (h : hexOf a = hexOf b) : a = b := by
  induction a generalizing b with
  | nil => cases b with
    | nil => rfl
    | cons y b => simp [hexOf] at h
  | cons x a ih =>
    cases b with
    | nil => simp [hexOf] at h
    | cons y b =>
      rw [hexOf_cons, hexOf_cons] at h
      simp only [List.cons.injEq] at h
      obtain ⟨h1, h2, h3⟩ := h
      have hx := UInt8.toNat_lt x
      have hy := UInt8.toNat_lt y
      have e1 := hexDigit_inj (by omega) (by omega) h1
      have e2 := hexDigit_inj (by omega) (by omega) h2
      rw [ih h3]
      congr 1
      apply UInt8.toNat_inj.mp
      omega

theorem hexOf_length (b : List UInt8) : (hexOf b).length = 2 * b.length := by
  induction b with
  | nil => rfl
  | cons x b ih => rw [hexOf_cons]; simp only [List.length_cons, ih]; omega

/-- Names are made of the digits `0-9a-f`. -/
theorem hexOf_digits (b : List UInt8) {c : UInt8} (h : c ∈ hexOf b) :
    (48 ≤ c.toNat ∧ c.toNat ≤ 57) ∨ (97 ≤ c.toNat ∧ c.toNat ≤ 102) := by
  have key : ∀ n, n < 16 → (48 ≤ (hexDigit n).toNat ∧ (hexDigit n).toNat ≤ 57) ∨
      (97 ≤ (hexDigit n).toNat ∧ (hexDigit n).toNat ≤ 102) := by
    intro n hn
    unfold hexDigit
    split <;> rw [UInt8.toNat_ofNat', Nat.mod_eq_of_lt (by omega)] <;> omega
  induction b with
  | nil => simp [hexOf] at h
  | cons x b ih =>
    rw [hexOf_cons] at h
    have hx := UInt8.toNat_lt x
    simp only [List.mem_cons] at h
    rcases h with rfl | rfl | h
    · exact key _ (by omega)
    · exact key _ (by omega)
    · exact ih h

/-! ## Base64 -/

/-- The standard alphabet. -/
def b64Char (n : Nat) : UInt8 :=
  UInt8.ofNat (if n < 26 then 65 + n else if n < 52 then 71 + n else if n < 62 then n - 4 else if n = 62 then 43 else 47)

/-- The value of a character produced by `b64Char`. -/
def b64Val (c : UInt8) : Nat :=
  if c.toNat = 43 then 62 else if c.toNat = 47 then 63 else if c.toNat < 58 then c.toNat + 4
  else if c.toNat < 91 then c.toNat - 65 else c.toNat - 71

theorem b64Val_b64Char {n : Nat} (h : n < 64) : b64Val (b64Char n) = n := by
  have : ∀ n : Fin 64, b64Val (b64Char n) = n := by decide
  exact this ⟨n, h⟩

theorem b64Char_inj {m n : Nat} (hm : m < 64) (hn : n < 64) (h : b64Char m = b64Char n) : m = n := by
  rw [← b64Val_b64Char hm, h, b64Val_b64Char hn]

theorem b64Char_ne_pad {n : Nat} (h : n < 64) : b64Char n ≠ 61 := by
  have : ∀ n : Fin 64, b64Char n ≠ 61 := by decide
  exact this ⟨n, h⟩

theorem b64Char_ne_quote {n : Nat} (h : n < 64) : b64Char n ≠ 34 := by
  have : ∀ n : Fin 64, b64Char n ≠ 34 := by decide
  exact this ⟨n, h⟩

/-- `base64.StdEncoding.EncodeToString`, which `encoding/json` uses for byte slices. -/
def base64 : List UInt8 → List UInt8
  | [] => []
  | [a] => [b64Char (a.toNat / 4), b64Char (a.toNat % 4 * 16), 61, 61]
  | [a, b] => [b64Char (a.toNat / 4), b64Char (a.toNat % 4 * 16 + b.toNat / 16), b64Char (b.toNat % 16 * 4), 61]
  | a :: b :: c :: rest =>
    b64Char (a.toNat / 4) :: b64Char (a.toNat % 4 * 16 + b.toNat / 16) ::
      b64Char (b.toNat % 16 * 4 + c.toNat / 64) :: b64Char (c.toNat % 64) :: base64 rest

theorem base64_no_quote (b : List UInt8) : (34 : UInt8) ∉ base64 b := by
  fun_induction base64 b with
  | case1 => simp
  | case2 a =>
    have := UInt8.toNat_lt a
    simp [(b64Char_ne_quote (n := a.toNat / 4) (by omega)).symm,
      (b64Char_ne_quote (n := a.toNat % 4 * 16) (by omega)).symm]
  | case3 a b =>
    have := UInt8.toNat_lt a
    have := UInt8.toNat_lt b
    simp [(b64Char_ne_quote (n := a.toNat / 4) (by omega)).symm,
      (b64Char_ne_quote (n := a.toNat % 4 * 16 + b.toNat / 16) (by omega)).symm,
      (b64Char_ne_quote (n := b.toNat % 16 * 4) (by omega)).symm]
  | case4 a b c rest ih =>
    have := UInt8.toNat_lt a
    have := UInt8.toNat_lt b
    have := UInt8.toNat_lt c
    simp [(b64Char_ne_quote (n := a.toNat / 4) (by omega)).symm,
      (b64Char_ne_quote (n := a.toNat % 4 * 16 + b.toNat / 16) (by omega)).symm,
      (b64Char_ne_quote (n := b.toNat % 16 * 4 + c.toNat / 64) (by omega)).symm,
      (b64Char_ne_quote (n := c.toNat % 64) (by omega)).symm, ih]

/-- The bytes of a complete base64 text (a decoder for texts that `base64` produces). -/
def unbase64 : List UInt8 → List UInt8
  | p :: q :: r :: s :: rest =>
    if r = 61 then [UInt8.ofNat (b64Val p * 4 + b64Val q / 16)]
    else if s = 61 then [UInt8.ofNat (b64Val p * 4 + b64Val q / 16), UInt8.ofNat (b64Val q % 16 * 16 + b64Val r / 4)]
    else UInt8.ofNat (b64Val p * 4 + b64Val q / 16) :: UInt8.ofNat (b64Val q % 16 * 16 + b64Val r / 4) ::
      UInt8.ofNat (b64Val r % 4 * 64 + b64Val s) :: unbase64 rest
  | _ => []

theorem ofNat_eq_of {n : Nat} {a : UInt8} (h : n = a.toNat) : UInt8.ofNat n = a := by
  subst h; simp

theorem unbase64_base64 (b : List UInt8) : unbase64 (base64 b) = b := by
  fun_induction base64 b with
  | case1 => rfl
  | case2 a =>
    have ha := UInt8.toNat_lt a
    simp only [unbase64, if_true]
    rw [b64Val_b64Char (by omega), b64Val_b64Char (by omega), ofNat_eq_of (a := a) (by omega)]
  | case3 a b =>
    have ha := UInt8.toNat_lt a
    have hb := UInt8.toNat_lt b
    simp only [unbase64, if_true]
    rw [if_neg (b64Char_ne_pad (by omega)), b64Val_b64Char (by omega), b64Val_b64Char (by omega),
      b64Val_b64Char (by omega), ofNat_eq_of (a := a) (by omega), ofNat_eq_of (a := b) (by omega)]
  | case4 a b c rest ih =>
    have ha := UInt8.toNat_lt a
    have hb := UInt8.toNat_lt b
    have hc := UInt8.toNat_lt c
    simp only [unbase64]
    rw [if_neg (b64Char_ne_pad (by omega)), if_neg (b64Char_ne_pad (by omega)), b64Val_b64Char (by omega),
      b64Val_b64Char (by omega), b64Val_b64Char (by omega), b64Val_b64Char (by omega), ih,
      ofNat_eq_of (a := a) (by omega), ofNat_eq_of (a := b) (by omega), ofNat_eq_of (a := c) (by omega)]

theorem base64_inj {a b : List UInt8} (h : base64 a = base64 b) : a = b := by
  rw [← unbase64_base64 a, h, unbase64_base64]

/-- `json.Marshal` of a non-nil byte slice. -/
def jsonBytes (b : List UInt8) : List UInt8 := 34 :: (base64 b ++ [34])

theorem jsonBytes_split {a b x y : List UInt8} (h : jsonBytes a ++ x = jsonBytes b ++ y) : a = b ∧ x = y := by
  simp only [jsonBytes, List.cons_append, List.append_assoc, List.cons.injEq, true_and, List.nil_append] at h
  obtain ⟨h1, h2⟩ := split_at_delim (base64_no_quote a) (base64_no_quote b) h
  exact ⟨base64_inj h1, h2⟩

/-- `json.Marshal` of a boolean. -/
def jsonBool (b : Bool) : List UInt8 := if b then ascii "true" else ascii "false"

theorem jsonBool_split {a b : Bool} {x y : List UInt8} (h : jsonBool a ++ x = jsonBool b ++ y) : a = b ∧ x = y := by
  cases a <;> cases b
  · exact ⟨rfl, List.append_cancel_left h⟩
  · simp [jsonBool, ascii] at h
  · simp [jsonBool, ascii] at h
  · exact ⟨rfl, List.append_cancel_left h⟩

/-! ## Paths -/

/-- The components of a path: the text between slashes. -/
def components : List UInt8 → List (List UInt8)
  | [] => [[]]
  | c :: cs =>
    if c = 47 then [] :: components cs
    else
      match components cs with
      | [] => [[c]]
      | w :: ws => (c :: w) :: ws

/-- One component in `path.Clean`; the stack is reversed. -/
def cleanStep (rooted : Bool) (stack : List (List UInt8)) (c : List UInt8) : List (List UInt8) :=
  if c = [] ∨ c = [46] then stack
  else if c = [46, 46] then
    match stack with
    | [] => if rooted then [] else [[46, 46]]
    | top :: rest => if top = [46, 46] then [46, 46] :: top :: rest else rest
  else c :: stack

/-- The components that `path.Clean` keeps, outermost first. -/
def cleanComponents (s : List UInt8) : List (List UInt8) :=
  ((components s).foldl (cleanStep (s.head? = some 47)) []).reverse

/-- Components joined by slashes. -/
def slashed : List (List UInt8) → List UInt8
  | [] => []
  | [w] => w
  | w :: ws => w ++ 47 :: slashed ws

/-- `path.Clean`. -/
def cleanPath (s : List UInt8) : List UInt8 :=
  if s.head? = some 47 then 47 :: slashed (cleanComponents s)
  else if cleanComponents s = [] then [46]
  else slashed (cleanComponents s)

/-- `path.Join` of two elements. -/
def joinPath (dir name : List UInt8) : List UInt8 :=
  if dir = [] ∧ name = [] then []
  else if dir = [] then cleanPath name
  else if name = [] then cleanPath dir
  else cleanPath (dir ++ 47 :: name)

theorem components_ne (s : List UInt8) : components s ≠ [] := by
  cases s with
  | nil => simp [components]
  | cons c cs =>
    simp only [components]
    split
    · simp
    · split <;> simp

theorem components_append (a b : List UInt8) :
    components (a ++ 47 :: b) = components a ++ components b := by
  induction a with
  | nil => simp [components]
  | cons c a ih =>
    simp only [List.cons_append, components, ih]
    split
    · simp
    · cases h : components a with
      | nil => exact absurd h (components_ne a)
      | cons w ws => simp

theorem components_plain {b : List UInt8} (h : (47 : UInt8) ∉ b) : components b = [b] := by
  induction b with
  | nil => rfl
  | cons c b ih =>
    simp only [List.mem_cons, not_or] at h
    simp [components, ih h.2, Ne.symm h.1]

/-- A name that is an ordinary directory entry. -/
def PlainName (n : List UInt8) : Prop := (47 : UInt8) ∉ n ∧ n ≠ [] ∧ n ≠ [46] ∧ n ≠ [46, 46]

theorem slashed_append_one (ws : List (List UInt8)) (w : List UInt8) (h : ws ≠ []) :
    slashed (ws ++ [w]) = slashed ws ++ 47 :: w := by
  induction ws with
  | nil => exact absurd rfl h
  | cons v vs ih =>
    cases vs with
    | nil => rfl
    | cons u us =>
      have := ih (by simp)
      simp only [List.cons_append] at this
      simp only [List.cons_append, slashed, this, List.append_assoc]

/-- What stands before a plain name joined to `dir`: the cleaned directory and a slash, nothing for the current
directory. -/
def dirPrefix (dir : List UInt8) : List UInt8 :=
  if dir = [] ∨ cleanPath dir = [46] then [] else if cleanPath dir = [47] then [47] else cleanPath dir ++ [47]

/-- Components kept by `path.Clean` are not empty and not a single dot. -/
theorem cleanComponents_mem (s : List UInt8) {c : List UInt8} (h : c ∈ cleanComponents s) :
    c ≠ [] ∧ c ≠ [46] ∧ (47 : UInt8) ∉ c := by
  have hs : ∀ c ∈ components s, (47 : UInt8) ∉ c := by
    clear h
    induction s with
    | nil => simp [components]
    | cons d s ih =>
      simp only [components]
      split
      · intro c hc
        simp only [List.mem_cons] at hc
        rcases hc with rfl | hc
        · simp
        · exact ih c hc
      · next hd =>
        cases hcs : components s with
        | nil => exact absurd hcs (components_ne s)
        | cons w ws =>
          intro c hc
          simp only [List.mem_cons] at hc
          rcases hc with rfl | hc
          · simp only [List.mem_cons, not_or]
            exact ⟨Ne.symm hd, ih w (by simp [hcs])⟩
          · exact ih c (by simp [hcs, hc])
  have gen : ∀ (cs : List (List UInt8)) (r : Bool) (st : List (List UInt8)), (∀ c ∈ cs, (47 : UInt8) ∉ c) →
      (∀ c ∈ st, c ≠ [] ∧ c ≠ [46] ∧ (47 : UInt8) ∉ c) →
      ∀ c ∈ cs.foldl (cleanStep r) st, c ≠ [] ∧ c ≠ [46] ∧ (47 : UInt8) ∉ c := by
    intro cs r
    induction cs with
    | nil => intro st _ h; exact h
    | cons d cs ih =>
      intro st hcs hst
      refine ih _ (fun c hc => hcs c (List.mem_cons_of_mem _ hc)) ?_
      intro c hc
      unfold cleanStep at hc
      split at hc
      · exact hst c hc
      · next h1 =>
        split at hc
        · next h2 =>
          split at hc
          · split at hc
            · simp at hc
            · simp only [List.mem_singleton] at hc; subst hc; simp
          · next top rest =>
            split at hc
            · simp only [List.mem_cons] at hc
              rcases hc with rfl | rfl | hc
              · simp
              · exact hst _ (by simp)
              · exact hst c (by simp [hc])
            · exact hst c (by simp [hc])
        · simp only [List.mem_cons] at hc
          rcases hc with rfl | hc
          · simp only [not_or] at h1
            exact ⟨h1.1, h1.2, hcs _ (by simp)⟩
          · exact hst c hc
  exact gen _ _ [] hs (by simp) c (by simpa [cleanComponents] using h)

/-- Joining a plain name to a directory gives the entry of that name in that directory. -/
theorem joinPath_plain (dir name : List UInt8) (h : PlainName name) : joinPath dir name = dirPrefix dir ++ name := by
  obtain ⟨h1, h2, h3, h4⟩ := h
  have hstep : ∀ r st, cleanStep r st name = name :: st := by
    intro r st
    simp [cleanStep, h2, h3, h4]
  by_cases hd : dir = []
  · subst hd
    have hh : ¬ name.head? = some 47 := by
      cases name with
      | nil => simp
      | cons c cs => simp only [List.mem_cons, not_or] at h1; simpa using Ne.symm h1.1
    have hc : cleanComponents name = [name] := by
      simp [cleanComponents, components_plain h1, hstep]
    simp [joinPath, h2, dirPrefix, cleanPath, hh, hc, slashed]
  · have hhead : (dir ++ 47 :: name).head? = dir.head? := by
      cases dir with
      | nil => exact absurd rfl hd
      | cons c cs => rfl
    have hc : cleanComponents (dir ++ 47 :: name) = cleanComponents dir ++ [name] := by
      simp only [cleanComponents, hhead, components_append, components_plain h1, List.foldl_append, List.foldl_cons,
        List.foldl_nil, hstep, List.reverse_cons]
    simp only [joinPath, hd, h2, and_self, if_false, dirPrefix, false_or]
    unfold cleanPath
    rw [hhead, hc]
    by_cases hr : dir.head? = some 47
    · simp only [hr, if_true]
      by_cases he : cleanComponents dir = []
      · simp [he, slashed]
      · rw [slashed_append_one _ _ he]
        have hne : slashed (cleanComponents dir) ≠ [] := by
          cases hcd : cleanComponents dir with
          | nil => exact absurd hcd he
          | cons w ws =>
            have := (cleanComponents_mem dir (c := w) (by simp [hcd])).1
            cases ws <;> simp [slashed, this]
        rw [if_neg (by simp), if_neg (by simpa using hne)]
        simp
    · simp only [hr, if_false]
      by_cases he : cleanComponents dir = []
      · simp [he, slashed]
      · simp only [he, if_false, List.append_eq_nil_iff, List.cons_ne_nil, and_false]
        rw [slashed_append_one _ _ he]
        have hw : ∃ w ws, cleanComponents dir = w :: ws := by
          cases hcd : cleanComponents dir with
          | nil => exact absurd hcd he
          | cons w ws => exact ⟨w, ws, rfl⟩
        obtain ⟨w, ws, hcd⟩ := hw
        obtain ⟨g1, g2, g3⟩ := cleanComponents_mem dir (c := w) (by simp [hcd])
        have hn1 : slashed (cleanComponents dir) ≠ [46] := by
          rw [hcd]
          cases ws with
          | nil => exact g2
          | cons v vs =>
            intro h
            simp only [slashed] at h
            cases w with
            | nil => exact g1 rfl
            | cons c cs => simp at h
        have hn2 : slashed (cleanComponents dir) ≠ [47] := by
          rw [hcd]
          cases ws with
          | nil => intro h; rw [slashed] at h; rw [h] at g3; simp at g3
          | cons v vs =>
            intro h
            simp only [slashed] at h
            cases w with
            | nil => exact g1 rfl
            | cons c cs => simp at h
        rw [if_neg hn1, if_neg hn2]
        simp

example : joinPath (ascii "/a/./b/../c/") (ascii "0f") = ascii "/a/c/0f" := by decide
example : joinPath (ascii "../x//y/../..") (ascii "0f") = ascii "../0f" := by decide
example : joinPath (ascii "x/..") (ascii "0f") = ascii "0f" := by decide
example : joinPath (ascii "/..") (ascii "..") = ascii "/" := by decide

end Idemix
