import Verif.Base.JsonLemmas
import Verif.Base.Utf8

/-!
# The grammar of JSON

RFC 8259 as an inductive relation between texts and values, and the proof that the reader of the model accepts exactly
its texts, with their values.
-/

namespace Idemix.Json

namespace Spec

/-- White space. -/
def Spaces (s : Bytes) : Prop := ∀ c ∈ s, c ∈ ascii " \t\n\r"

/-- A hexadecimal digit and its value. -/
def Hex (c : UInt8) (n : Nat) : Prop :=
  (ascii "0123456789abcdef")[n]? = some c ∨ (ascii "0123456789ABCDEF")[n]? = some c

/-- Four hexadecimal digits and the number they stand for. -/
inductive Hex4 : Bytes → Nat → Prop
  | mk {a b c d : UInt8} {w x y z : Nat} (ha : Hex a w) (hb : Hex b x) (hc : Hex c y) (hd : Hex d z) :
    Hex4 [a, b, c, d] (w * 4096 + x * 256 + y * 16 + z)

/-- The escapes of one letter: the letter and the character. -/
def shorts : List (Char × Char) :=
  [('"', '"'), ('\\', '\\'), ('/', '/'), ('b', '\x08'), ('f', '\x0c'), ('n', '\n'), ('r', '\r'), ('t', '\t')]

/-- How a character is written inside a string. -/
inductive Chr : Bytes → Char → Prop
  | plain {c : Char} (h : 32 ≤ c.toNat) (hq : c ≠ '"') (hb : c ≠ '\\') : Chr (String.utf8EncodeChar c) c
  | short {e c : Char} (h : (e, c) ∈ shorts) : Chr (92 :: String.utf8EncodeChar e) c
  | unicode {t : Bytes} {c : Char} (h : Hex4 t c.toNat) : Chr (92 :: 117 :: t) c
  | pair {t u : Bytes} {hi lo : Nat} {c : Char} (ht : Hex4 t hi) (hu : Hex4 u lo) (h1 : 0xd800 ≤ hi ∧ hi < 0xdc00)
    (h2 : 0xdc00 ≤ lo ∧ lo < 0xe000) (h : c.toNat = 0x10000 + (hi - 0xd800) * 0x400 + (lo - 0xdc00)) :
    Chr (92 :: 117 :: t ++ 92 :: 117 :: u) c

/-- Something inside a string that is not the beginning of a character: a byte outside ASCII, or the escape of a
surrogate. -/
inductive Stray : Bytes → Prop
  | byte {x : UInt8} (h : 128 ≤ x.toNat) : Stray [x]
  | surrogate {t : Bytes} {n : Nat} (ht : Hex4 t n) (h : 0xd800 ≤ n ∧ n < 0xe000) : Stray (92 :: 117 :: t)

/-- What is between the quotes of a string, and the characters it stands for. What cannot be read as a character
stands for the replacement character. -/
inductive Contents : Bytes → List Char → Prop
  | nil : Contents [] []
  | chr {t r : Bytes} {c : Char} {cs : List Char} (h : Chr t c) (hr : Contents r cs) : Contents (t ++ r) (c :: cs)
  | stray {t r : Bytes} {cs : List Char} (h : Stray t) (no : ∀ t' c r', Chr t' c → t ++ r ≠ t' ++ r')
    (hr : Contents r cs) : Contents (t ++ r) ('\ufffd' :: cs)

/-- The bytes of a sequence of characters. -/
def bytes (cs : List Char) : Bytes := cs.flatMap String.utf8EncodeChar

/-- One digit or more. -/
def Digits (l : Bytes) : Prop := l ≠ [] ∧ ∀ c ∈ l, c ∈ ascii "0123456789"

/-- The literal of a number: sign, integer part, fraction and exponent. -/
inductive Number : Bytes → Prop
  | mk {sign int frac exp : Bytes} (hs : sign = [] ∨ sign = ascii "-")
    (hi : int = ascii "0" ∨ Digits int ∧ int.head? ≠ (ascii "0").head?)
    (hf : frac = [] ∨ ∃ ds, Digits ds ∧ frac = ascii "." ++ ds)
    (he : exp = [] ∨ ∃ e s ds, e ∈ [ascii "e", ascii "E"] ∧ s ∈ [[], ascii "+", ascii "-"] ∧ Digits ds ∧ exp = e ++ s ++ ds) :
    Number (sign ++ int ++ frac ++ exp)

/-- A member of an object: the white space around its name, the name and the text of its value. -/
structure Field where
  before : Bytes
  name : Bytes
  after : Bytes
  text : Bytes

/-- Its text. -/
def Field.all (f : Field) : Bytes := f.before ++ 34 :: f.name ++ 34 :: f.after ++ 58 :: f.text

/-- `Text d t v`: the text `t` is the value `v`, with white space around it, and with at most `d` arrays and objects
inside each other. -/
inductive Text : Nat → Bytes → Value → Prop
  | before {d : Nat} {s t : Bytes} {v : Value} (hs : Spaces s) (h : Text d t v) : Text d (s ++ t) v
  | after {d : Nat} {s t : Bytes} {v : Value} (hs : Spaces s) (h : Text d t v) : Text d (t ++ s) v
  | null {d : Nat} : Text d (ascii "null") .null
  | yes {d : Nat} : Text d (ascii "true") (.bool true)
  | no {d : Nat} : Text d (ascii "false") (.bool false)
  | num {d : Nat} {l : Bytes} (h : Number l) : Text d l (.num l)
  | str {d : Nat} {t : Bytes} {cs : List Char} (h : Contents t cs) : Text d (34 :: t ++ [34]) (.str (bytes cs))
  | empty {d : Nat} {s : Bytes} (hs : Spaces s) : Text (d + 1) (91 :: s ++ [93]) (.arr [])
  | arr {d : Nat} {es : List (Bytes × Value)} (hne : es ≠ []) (h : ∀ e ∈ es, Text d e.1 e.2) :
    Text (d + 1) (91 :: List.intercalate [44] (es.map (·.1)) ++ [93]) (.arr (es.map (·.2)))
  | none {d : Nat} {s : Bytes} (hs : Spaces s) : Text (d + 1) (123 :: s ++ [125]) (.obj [])
  | obj {d : Nat} {fs : List (Field × List Char × Value)} (hne : fs ≠ [])
    (hs : ∀ f ∈ fs, Spaces f.1.before ∧ Contents f.1.name f.2.1 ∧ Spaces f.1.after)
    (h : ∀ f ∈ fs, Text d f.1.text f.2.2) :
    Text (d + 1) (123 :: List.intercalate [44] (fs.map (·.1.all)) ++ [125])
      (.obj (fs.map fun f => (bytes f.2.1, f.2.2)))

end Spec

open Spec

/-! ## Strings -/

/-- The text of pieces. -/
inductive Pieces : Bytes → List Piece → Prop
  | nil : Pieces [] []
  | raw {c : UInt8} {t : Bytes} {ps : List Piece} (h : 32 ≤ c.toNat) (hq : c ≠ 34) (hb : c ≠ 92) (ht : Pieces t ps) :
    Pieces (c :: t) (.raw c :: ps)
  | esc {e x : UInt8} {t : Bytes} {ps : List Piece} (h : escaped e = some x) (ht : Pieces t ps) :
    Pieces (92 :: e :: t) (.raw x :: ps)
  | unit {a b c d : UInt8} {n : Nat} {t : Bytes} {ps : List Piece} (h : hex4 a b c d = some n) (ht : Pieces t ps) :
    Pieces (92 :: 117 :: a :: b :: c :: d :: t) (.unit n :: ps)

theorem scan_sound {b r : Bytes} {ps : List Piece} (h : scanString b = some (ps, r)) :
    ∃ t, b = t ++ 34 :: r ∧ Pieces t ps := by
  induction b using scanString.induct generalizing ps with
  | case1 => simp [scanString] at h
  | case2 a b c d rest ih =>
    rw [scanString] at h
    simp only [Option.bind_eq_bind, Option.bind_eq_some_iff, Option.pure_def, Option.some.injEq, Prod.mk.injEq, Prod.exists] at h
    obtain ⟨n, hn, ps', r', h1, rfl, rfl⟩ := h
    obtain ⟨t, rfl, ht⟩ := ih h1
    exact ⟨_, rfl, .unit hn ht⟩
  | case3 c rest hx ih =>
    rw [scanString.eq_3 _ _ hx] at h
    simp only [Option.bind_eq_bind, Option.bind_eq_some_iff, Option.pure_def, Option.some.injEq, Prod.mk.injEq, Prod.exists] at h
    obtain ⟨n, hn, ps', r', h1, rfl, rfl⟩ := h
    obtain ⟨t, rfl, ht⟩ := ih h1
    exact ⟨_, rfl, .esc hn ht⟩
  | case4 rest hx hy =>
    rw [scanString.eq_4 _ _ hx hy, if_pos rfl] at h
    simp only [Option.some.injEq, Prod.mk.injEq] at h
    obtain ⟨rfl, rfl⟩ := h
    exact ⟨[], rfl, .nil⟩
  | case5 c rest hx hy h34 hc =>
    rw [scanString.eq_4 _ _ hx hy, if_neg h34, if_pos hc] at h
    cases h
  | case6 c rest hx hy h34 hc ih =>
    rw [scanString.eq_4 _ _ hx hy, if_neg h34, if_neg hc] at h
    simp only [Option.bind_eq_bind, Option.bind_eq_some_iff, Option.pure_def, Option.some.injEq, Prod.mk.injEq, Prod.exists] at h
    obtain ⟨ps', r', h1, rfl, rfl⟩ := h
    obtain ⟨t, rfl, ht⟩ := ih h1
    simp only [not_or] at hc
    exact ⟨_, rfl, .raw (by omega) h34 hc.2 ht⟩

theorem escaped_ne {e x : UInt8} (h : escaped e = some x) : e ≠ 117 := by
  rintro rfl
  cases h

theorem scan_complete {t : Bytes} {ps : List Piece} (h : Pieces t ps) (r : Bytes) :
    scanString (t ++ 34 :: r) = some (ps, r) := by
  induction h with
  | nil => rw [List.nil_append, scanString.eq_4 _ _ (by simp) (by simp)]; simp
  | raw h hq hb _ ih =>
    rw [List.cons_append, scanString.eq_4 _ _ (by intro _ _ _ _ _ hh; exact absurd hh hb)
      (by intro _ _ hh; exact absurd hh hb), if_neg hq, if_neg (by rintro (h | h); exacts [by omega, hb h]), ih]
    rfl
  | esc h _ ih =>
    rw [List.cons_append, List.cons_append, scanString.eq_3 _ _ (by intro _ _ _ _ _ hh; exact absurd hh (escaped_ne h)), h, ih]
    rfl
  | unit h _ ih =>
    simp only [List.cons_append]
    rw [scanString, h, ih]
    rfl

theorem hex_iff (c : UInt8) (n : Nat) : hexDigitVal c = some n ↔ Hex c n := by
  have key : ∀ k < 256, ∀ n < 17, (hexDigitVal (UInt8.ofNat k) = some n ↔
      (ascii "0123456789abcdef")[n]? = some (UInt8.ofNat k) ∨ (ascii "0123456789ABCDEF")[n]? = some (UInt8.ofNat k)) := by
    decide +kernel
  by_cases hn : n < 17
  · have := key c.toNat c.toNat_lt n hn
    rwa [byte_eq rfl] at this
  · constructor
    · intro h
      exfalso
      simp only [hexDigitVal] at h
      split at h
      · simp at h; omega
      split at h
      · simp at h; omega
      split at h
      · simp at h; omega
      · cases h
    · rintro (h | h) <;>
      · have := (List.getElem?_eq_some_iff.mp h).1
        change n < 16 at this
        omega

theorem hex4_iff (t : Bytes) (n : Nat) : Hex4 t n ↔ ∃ a b c d, t = [a, b, c, d] ∧ hex4 a b c d = some n := by
  constructor
  · rintro ⟨ha, hb, hc, hd⟩
    refine ⟨_, _, _, _, rfl, ?_⟩
    rw [← hex_iff] at ha hb hc hd
    simp only [hex4, ha, hb, hc, hd, Option.bind_eq_bind, Option.bind_some, Option.pure_def, Option.some.injEq]
    omega
  · rintro ⟨a, b, c, d, rfl, h⟩
    simp only [hex4, Option.bind_eq_bind, Option.bind_eq_some_iff, Option.pure_def, Option.some.injEq] at h
    obtain ⟨w, hw, x, hx, y, hy, z, hz, rfl⟩ := h
    rw [show ((w * 16 + x) * 16 + y) * 16 + z = w * 4096 + x * 256 + y * 16 + z by omega]
    exact ⟨(hex_iff _ _).mp hw, (hex_iff _ _).mp hx, (hex_iff _ _).mp hy, (hex_iff _ _).mp hz⟩

theorem hex4_lt {t : Bytes} {n : Nat} (h : Hex4 t n) : n < 65536 := by
  obtain ⟨ha, hb, hc, hd⟩ := h
  have lt : ∀ {c m}, Hex c m → m < 16 := by
    rintro c m (h | h) <;> exact (List.getElem?_eq_some_iff.mp h).1
  have := lt ha
  have := lt hb
  have := lt hc
  have := lt hd
  omega

theorem hex4_unique {t u r s : Bytes} {m n : Nat} (h : Hex4 t m) (h' : Hex4 u n) (e : t ++ r = u ++ s) :
    t = u ∧ m = n ∧ r = s := by
  obtain ⟨a, b, c, d, rfl, g⟩ := (hex4_iff _ _).mp h
  obtain ⟨a', b', c', d', rfl, g'⟩ := (hex4_iff _ _).mp h'
  simp only [List.cons_append, List.nil_append, List.cons.injEq] at e
  obtain ⟨rfl, rfl, rfl, rfl, rfl⟩ := e
  rw [g] at g'
  exact ⟨rfl, Option.some.inj g', rfl⟩

theorem escaped_iff (e x : UInt8) : escaped e = some x ↔
    ∃ c c' : Char, (c, c') ∈ shorts ∧ String.utf8EncodeChar c = [e] ∧ String.utf8EncodeChar c' = [x] := by
  have key : ∀ e x : UInt8, escaped e = some x ↔
      (e, x) ∈ [((34 : UInt8), (34 : UInt8)), (92, 92), (47, 47), (98, 8), (102, 12), (110, 10), (114, 13), (116, 9)] := by
    intro e x
    simp only [escaped, List.mem_cons, Prod.mk.injEq, List.not_mem_nil, or_false]
    constructor
    · intro h
      split at h
      · next h1 => cases h; rcases h1 with rfl | rfl | rfl <;> simp
      split at h
      · next h1 => cases h; simp [h1]
      split at h
      · next h1 => cases h; simp [h1]
      split at h
      · next h1 => cases h; simp [h1]
      split at h
      · next h1 => cases h; simp [h1]
      split at h
      · next h1 => cases h; simp [h1]
      · cases h
    · rintro (⟨rfl, rfl⟩ | ⟨rfl, rfl⟩ | ⟨rfl, rfl⟩ | ⟨rfl, rfl⟩ | ⟨rfl, rfl⟩ | ⟨rfl, rfl⟩ | ⟨rfl, rfl⟩ | ⟨rfl, rfl⟩) <;> rfl
  rw [key]
  simp only [shorts, List.mem_cons, Prod.mk.injEq, List.not_mem_nil, or_false]
  constructor
  · rintro (⟨rfl, rfl⟩ | ⟨rfl, rfl⟩ | ⟨rfl, rfl⟩ | ⟨rfl, rfl⟩ | ⟨rfl, rfl⟩ | ⟨rfl, rfl⟩ | ⟨rfl, rfl⟩ | ⟨rfl, rfl⟩)
    · exact ⟨'"', '"', by simp, rfl, rfl⟩
    · exact ⟨'\\', '\\', by simp, rfl, rfl⟩
    · exact ⟨'/', '/', by simp, rfl, rfl⟩
    · exact ⟨'b', '\x08', by simp, rfl, rfl⟩
    · exact ⟨'f', '\x0c', by simp, rfl, rfl⟩
    · exact ⟨'n', '\n', by simp, rfl, rfl⟩
    · exact ⟨'r', '\r', by simp, rfl, rfl⟩
    · exact ⟨'t', '\t', by simp, rfl, rfl⟩
  · rintro ⟨c, c', h, h1, h2⟩
    rcases h with ⟨rfl, rfl⟩ | ⟨rfl, rfl⟩ | ⟨rfl, rfl⟩ | ⟨rfl, rfl⟩ | ⟨rfl, rfl⟩ | ⟨rfl, rfl⟩ | ⟨rfl, rfl⟩ | ⟨rfl, rfl⟩ <;>
      (cases h1; cases h2; simp)

theorem short_shape {e c : Char} (h : (e, c) ∈ shorts) :
    ∃ a x, escaped a = some x ∧ String.utf8EncodeChar e = [a] ∧ String.utf8EncodeChar c = [x] := by
  simp only [shorts, List.mem_cons, Prod.mk.injEq, List.not_mem_nil, or_false] at h
  rcases h with ⟨rfl, rfl⟩ | ⟨rfl, rfl⟩ | ⟨rfl, rfl⟩ | ⟨rfl, rfl⟩ | ⟨rfl, rfl⟩ | ⟨rfl, rfl⟩ | ⟨rfl, rfl⟩ | ⟨rfl, rfl⟩ <;>
    exact ⟨_, _, rfl, rfl, rfl⟩

theorem char_low {x : UInt8} (h : x.toNat < 128) : ∃ c : Char, c.toNat = x.toNat ∧ String.utf8EncodeChar c = [x] := by
  obtain ⟨c, hc⟩ := char_of (n := x.toNat) (by omega)
  exact ⟨c, hc, by rw [utf8_low (by omega), hc, byte_eq rfl]⟩

/-- The first byte of a character that is written as it is. -/
theorem plain_shape {c : Char} (h : 32 ≤ c.toNat) (hq : c ≠ '"') (hb : c ≠ '\\') :
    (∃ x : UInt8, String.utf8EncodeChar c = [x] ∧ x.toNat = c.toNat ∧ x.toNat < 128 ∧ 32 ≤ x.toNat ∧ x ≠ 34 ∧ x ≠ 92) ∨
      Multi (String.utf8EncodeChar c) := by
  by_cases hc : c.toNat < 128
  · refine .inl ⟨UInt8.ofNat c.toNat, utf8_low hc, ?_, ?_, ?_, ?_, ?_⟩
    · simp only [UInt8.toNat_ofNat']; omega
    · simp only [UInt8.toNat_ofNat']; omega
    · simp only [UInt8.toNat_ofNat']; omega
    · intro e
      have := congrArg UInt8.toNat e
      simp only [UInt8.toNat_ofNat'] at this
      apply hq
      apply Char.toNat_inj.mp
      change c.toNat = 34
      change c.toNat % 256 = 34 at this
      omega
    · intro e
      have := congrArg UInt8.toNat e
      simp only [UInt8.toNat_ofNat'] at this
      apply hb
      apply Char.toNat_inj.mp
      change c.toNat = 92
      change c.toNat % 256 = 92 at this
      omega
  · exact .inr (utf8_multi (by omega))

theorem multi_head {t : Bytes} (h : Multi t) : ∃ a t', t = a :: t' ∧ 194 ≤ a.toNat := by
  match t, h with
  | [a, x], h => exact ⟨a, _, rfl, by simp only [Multi] at h; omega⟩
  | [a, x, y], h => exact ⟨a, _, rfl, by simp only [Multi] at h; omega⟩
  | [a, x, y, z], h => exact ⟨a, _, rfl, by simp only [Multi] at h; omega⟩

theorem plain_head {c : Char} (h : 32 ≤ c.toNat) (hq : c ≠ '"') (hb : c ≠ '\\') :
    ∃ a t', String.utf8EncodeChar c = a :: t' ∧ a ≠ 92 ∧ a ≠ 34 := by
  rcases plain_shape h hq hb with ⟨x, e, _, _, _, h34, h92⟩ | h
  · exact ⟨x, [], e, h92, h34⟩
  · obtain ⟨a, t', e, h⟩ := multi_head h
    refine ⟨a, t', e, ?_, ?_⟩ <;>
    · rintro rfl
      revert h
      decide

/-- Two characters that begin the same text are the same. -/
theorem chr_unique {t t' r r' : Bytes} {c c' : Char} (h : Chr t c) (h' : Chr t' c') (e : t ++ r = t' ++ r') :
    c = c' ∧ r = r' := by
  have surr : ∀ {t : Bytes} {n : Nat} {c : Char}, Hex4 t n → 0xd800 ≤ n ∧ n < 0xdc00 → c.toNat = n → False := by
    intro t n c _ hn hc
    have := char_range c
    omega
  cases h with
  | plain h hq hb =>
    cases h' with
    | plain h' hq' hb' => exact utf8_prefix e
    | short h' =>
      obtain ⟨a, t', e', ha, -⟩ := plain_head h hq hb
      rw [e'] at e
      exact absurd (List.cons.inj e).1 ha
    | unicode h' =>
      obtain ⟨a, t', e', ha, -⟩ := plain_head h hq hb
      rw [e'] at e
      exact absurd (List.cons.inj e).1 ha
    | pair h1 =>
      obtain ⟨a, t', e', ha, -⟩ := plain_head h hq hb
      rw [e'] at e
      exact absurd (List.cons.inj e).1 ha
  | short h =>
    obtain ⟨a, x, hx, e1, e2⟩ := short_shape h
    cases h' with
    | plain h' hq' hb' =>
      obtain ⟨a, t', e', ha, -⟩ := plain_head h' hq' hb'
      rw [e'] at e
      exact absurd (List.cons.inj e).1.symm ha
    | short h' =>
      obtain ⟨a', x', hx', e1', e2'⟩ := short_shape h'
      rw [e1, e1'] at e
      simp only [List.cons_append, List.nil_append, List.cons.injEq, true_and] at e
      obtain ⟨rfl, rfl⟩ := e
      rw [hx] at hx'
      obtain rfl := Option.some.inj hx'
      have : String.utf8EncodeChar c ++ r = String.utf8EncodeChar c' ++ r := by rw [e2, e2']
      exact utf8_prefix this
    | unicode h' =>
      rw [e1] at e
      simp only [List.cons_append, List.nil_append, List.cons.injEq, true_and] at e
      exact absurd e.1 (escaped_ne hx)
    | pair h1 =>
      rw [e1] at e
      simp only [List.cons_append, List.nil_append, List.cons.injEq, true_and] at e
      exact absurd e.1 (escaped_ne hx)
  | unicode h =>
    cases h' with
    | plain h' hq' hb' =>
      obtain ⟨a, t', e', ha, -⟩ := plain_head h' hq' hb'
      rw [e'] at e
      exact absurd (List.cons.inj e).1.symm ha
    | short h' =>
      obtain ⟨a, x, hx, e1, e2⟩ := short_shape h'
      rw [e1] at e
      simp only [List.cons_append, List.nil_append, List.cons.injEq, true_and] at e
      exact absurd e.1.symm (escaped_ne hx)
    | unicode h' =>
      simp only [List.cons_append, List.cons.injEq, true_and] at e
      obtain ⟨rfl, e2, rfl⟩ := hex4_unique h h' e
      exact ⟨Char.toNat_inj.mp e2, rfl⟩
    | pair h1 h2 h3 h4 h5 =>
      simp only [List.cons_append, List.append_assoc, List.cons.injEq, true_and] at e
      obtain ⟨rfl, e2, e3⟩ := hex4_unique h h1 e
      exact (surr h1 h3 e2).elim
  | pair h1 h2 h3 h4 h5 =>
    cases h' with
    | plain h' hq' hb' =>
      obtain ⟨a, t', e', ha, -⟩ := plain_head h' hq' hb'
      rw [e'] at e
      exact absurd (List.cons.inj e).1.symm ha
    | short h' =>
      obtain ⟨a, x, hx, e1, e2⟩ := short_shape h'
      rw [e1] at e
      simp only [List.cons_append, List.nil_append, List.cons.injEq, true_and] at e
      exact absurd e.1.symm (escaped_ne hx)
    | unicode h' =>
      simp only [List.cons_append, List.append_assoc, List.cons.injEq, true_and] at e
      obtain ⟨rfl, e2, e3⟩ := hex4_unique h1 h' e
      exact (surr h1 h3 e2.symm).elim
    | pair h1' h2' h3' h4' h5' =>
      simp only [List.cons_append, List.append_assoc, List.cons.injEq, true_and] at e
      obtain ⟨rfl, rfl, e3⟩ := hex4_unique h1 h1' e
      simp only [List.cons.injEq, true_and] at e3
      obtain ⟨rfl, rfl, rfl⟩ := hex4_unique h2 h2' e3
      exact ⟨Char.toNat_inj.mp (h5.trans h5'.symm), rfl⟩

theorem chr_ne_nil {t : Bytes} {c : Char} (h : Chr t c) : t ≠ [] := by
  cases h with
  | plain h hq hb =>
    obtain ⟨a, t', e', ha, -⟩ := plain_head h hq hb
    rw [e']
    simp
  | _ => simp

theorem stray_unique {t t' r r' : Bytes} (h : Stray t) (h' : Stray t') (e : t ++ r = t' ++ r') : r = r' := by
  cases h with
  | byte h =>
    cases h' with
    | byte h' => exact (List.cons.inj e).2
    | surrogate h' =>
      rw [(List.cons.inj e).1] at h
      exact absurd h (by decide)
  | surrogate h =>
    cases h' with
    | byte h' =>
      rw [← (List.cons.inj e).1] at h'
      exact absurd h' (by decide)
    | surrogate h' =>
      simp only [List.cons_append, List.cons.injEq, true_and] at e
      exact (hex4_unique h h' e).2.2

theorem contents_unique {t : Bytes} {cs cs' : List Char} (h : Contents t cs) (h' : Contents t cs') : cs = cs' := by
  induction h generalizing cs' with
  | nil =>
    generalize ht : ([] : Bytes) = t at h'
    cases h' with
    | nil => rfl
    | chr hc => exact absurd (List.append_eq_nil_iff.mp ht.symm).1 (chr_ne_nil hc)
    | stray hc => cases hc <;> simp at ht
  | @chr t r c cs hc hr ih =>
    generalize ht : t ++ r = u at h'
    cases h' with
    | nil => exact absurd (List.append_eq_nil_iff.mp ht).1 (chr_ne_nil hc)
    | chr hc' hr' =>
      obtain ⟨rfl, rfl⟩ := chr_unique hc hc' ht
      rw [ih hr']
    | stray hc' no => exact absurd ht.symm (no _ _ _ hc)
  | @stray t r cs hc no hr ih =>
    generalize ht : t ++ r = u at h'
    cases h' with
    | nil => cases hc <;> simp at ht
    | chr hc' hr' => exact absurd ht (no _ _ _ hc')
    | stray hc' no' hr' =>
      obtain rfl := stray_unique hc hc' ht
      rw [ih hr']

/-! ### From pieces to characters -/

theorem pieces_byte {x : UInt8} {t : Bytes} {ps : List Piece} (h : Pieces (x :: t) ps) (hx : 128 ≤ x.toNat) :
    ∃ ps', ps = .raw x :: ps' ∧ Pieces t ps' := by
  cases h with
  | raw _ _ _ ht => exact ⟨_, rfl, ht⟩
  | esc => exact absurd hx (by decide)
  | unit => exact absurd hx (by decide)

theorem escaped_lt {e x : UInt8} (h : escaped e = some x) : x.toNat < 128 := by
  obtain ⟨c, c', h1, -, h3⟩ := (escaped_iff e x).mp h
  simp only [shorts, List.mem_cons, Prod.mk.injEq, List.not_mem_nil, or_false] at h1
  rcases h1 with ⟨rfl, rfl⟩ | ⟨rfl, rfl⟩ | ⟨rfl, rfl⟩ | ⟨rfl, rfl⟩ | ⟨rfl, rfl⟩ | ⟨rfl, rfl⟩ | ⟨rfl, rfl⟩ | ⟨rfl, rfl⟩ <;>
    (cases h3; decide)

theorem pieces_cont {t : Bytes} {p : Piece} {ps : List Piece} {lo hi : Nat} {x : UInt8} (h : Pieces t (p :: ps))
    (hlo : 128 ≤ lo) (hc : cont lo hi p = some x) : ∃ t', t = x :: t' ∧ p = .raw x ∧ lo ≤ x.toNat ∧ x.toNat ≤ hi ∧ Pieces t' ps := by
  cases p with
  | unit n => cases hc
  | raw c =>
    simp only [cont, Option.ite_none_right_eq_some, Option.some.injEq] at hc
    obtain ⟨h1, rfl⟩ := hc
    cases h with
    | raw _ _ _ ht => exact ⟨_, rfl, rfl, h1.1, h1.2, ht⟩
    | esc he => have := escaped_lt he; omega

theorem cont_raw {x : UInt8} {lo hi : Nat} (h1 : lo ≤ x.toNat) (h2 : x.toNat ≤ hi) : cont lo hi (.raw x) = some x := by
  simp [cont, h1, h2]

/-- A byte outside ASCII at the beginning of pieces: either a character begins there, or it stands alone. -/
theorem unquote_high {c : UInt8} {t : Bytes} {ps : List Piece} (hc : 128 ≤ c.toNat) (h : Pieces t ps) :
    (∃ u t' ps', Multi (c :: u) ∧ t = u ++ t' ∧ Pieces t' ps' ∧ unquote (.raw c :: ps) = c :: u ++ unquote ps' ∧
      ps'.length ≤ ps.length) ∨
    ((∀ u t', Multi (c :: u) → t ≠ u ++ t') ∧ unquote (.raw c :: ps) = replacement ++ unquote ps) := by
  by_cases hm : ∃ u t', Multi (c :: u) ∧ t = u ++ t'
  · left
    obtain ⟨u, t', hm, rfl⟩ := hm
    match u, hm with
    | [x], hm =>
      simp only [Multi] at hm
      obtain ⟨ps', rfl, h'⟩ := pieces_byte h (by omega)
      refine ⟨[x], t', ps', by simpa [Multi] using hm, rfl, h', ?_, by simp⟩
      rw [unquote.eq_def]
      simp only
      rw [if_neg (by omega), if_pos (by omega), cont_raw (by omega) (by omega)]
      rfl
    | [x, y], hm =>
      simp only [Multi] at hm
      have hx : 128 ≤ x.toNat := by have := hm.2.2.1; split at this <;> omega
      obtain ⟨ps', rfl, h'⟩ := pieces_byte h hx
      obtain ⟨ps'', rfl, h''⟩ := pieces_byte h' (by omega)
      refine ⟨[x, y], t', ps'', by simpa [Multi] using hm, rfl, h'', ?_, by simp only [List.length_cons]; omega⟩
      rw [unquote.eq_def]
      simp only
      rw [if_neg (by omega), if_neg (by omega), if_pos (by omega), cont_raw hm.2.2.1 hm.2.2.2.1, cont_raw (by omega) (by omega)]
      rfl
    | [x, y, z], hm =>
      simp only [Multi] at hm
      have hx : 128 ≤ x.toNat := by have := hm.2.2.1; split at this <;> omega
      obtain ⟨ps', rfl, h'⟩ := pieces_byte h hx
      obtain ⟨ps'', rfl, h''⟩ := pieces_byte h' (by omega)
      obtain ⟨ps₃, rfl, h₃⟩ := pieces_byte h'' (by omega)
      refine ⟨[x, y, z], t', ps₃, by simpa [Multi] using hm, rfl, h₃, ?_, by simp only [List.length_cons]; omega⟩
      rw [unquote.eq_def]
      simp only
      rw [if_neg (by omega), if_neg (by omega), if_neg (by omega), if_pos (by omega), cont_raw hm.2.2.1 hm.2.2.2.1,
        cont_raw (by omega) (by omega), cont_raw (by omega) (by omega)]
      rfl
  · right
    have hno : ∀ u t', Multi (c :: u) → t ≠ u ++ t' := fun u t' h1 h2 => hm ⟨u, t', h1, h2⟩
    refine ⟨hno, ?_⟩
    rw [unquote.eq_def]
    simp only
    rw [if_neg (by omega)]
    split
    · split
      · next p qs =>
        split
        · next x hx =>
          obtain ⟨t1, rfl, rfl, h1, h2, h3⟩ := pieces_cont h (Nat.le_refl _) hx
          exact absurd rfl (hno [x] t1 ⟨by omega, by omega, h1, h2⟩)
        · rfl
      · simp [unquote]
    split
    · split
      · next p q qs =>
        split
        · next x y hx hy =>
          obtain ⟨t1, rfl, rfl, h1, h2, h3⟩ := pieces_cont h (by split <;> omega) hx
          obtain ⟨t2, rfl, rfl, h4, h5, h6⟩ := pieces_cont h3 (Nat.le_refl _) hy
          exact absurd rfl (hno [x, y] t2 ⟨by omega, by omega, h1, h2, h4, h5⟩)
        · rfl
      · rfl
    split
    · split
      · next p q o qs =>
        split
        · next x y z hx hy hz =>
          obtain ⟨t1, rfl, rfl, h1, h2, h3⟩ := pieces_cont h (by split <;> omega) hx
          obtain ⟨t2, rfl, rfl, h4, h5, h6⟩ := pieces_cont h3 (Nat.le_refl _) hy
          obtain ⟨t3, rfl, rfl, h7, h8, h9⟩ := pieces_cont h6 (Nat.le_refl _) hz
          exact absurd rfl (hno [x, y, z] t3 ⟨by omega, by omega, h1, h2, h4, h5, h7, h8⟩)
        · rfl
      · rfl
    · rfl

theorem utf8Encode_char (c : Char) : utf8Encode c.toNat = String.utf8EncodeChar c := by
  have hr := char_range c
  have e : c.val.toNat = c.toNat := rfl
  simp only [String.utf8EncodeChar, e, utf8Encode]
  generalize c.toNat = n at *
  by_cases h1 : n < 128
  · rw [if_pos h1, if_pos (show n ≤ 127 by omega)]
  by_cases h2 : n < 2048
  · rw [if_neg h1, if_pos h2, if_neg (show ¬ n ≤ 127 by omega), if_pos (show n ≤ 2047 by omega)]
    rw [show 192 + n / 64 = n / 64 % 32 + 192 by omega, show 128 + n % 64 = n % 64 + 128 by omega]
  by_cases h3 : n < 65536
  · rw [if_neg h1, if_neg h2, if_pos h3, if_neg (show ¬ n ≤ 127 by omega), if_neg (show ¬ n ≤ 2047 by omega),
      if_pos (show n ≤ 65535 by omega)]
    rw [show 224 + n / 4096 = n / 4096 % 16 + 224 by omega, show 128 + n / 64 % 64 = n / 64 % 64 + 128 by omega,
      show 128 + n % 64 = n % 64 + 128 by omega]
  · rw [if_neg h1, if_neg h2, if_neg h3, if_neg (show ¬ n ≤ 127 by omega), if_neg (show ¬ n ≤ 2047 by omega),
      if_neg (show ¬ n ≤ 65535 by omega)]
    rw [show 240 + n / 262144 = n / 262144 % 8 + 240 by omega, show 128 + n / 4096 % 64 = n / 4096 % 64 + 128 by omega,
      show 128 + n / 64 % 64 = n / 64 % 64 + 128 by omega, show 128 + n % 64 = n % 64 + 128 by omega]

theorem replacement_char : replacement = String.utf8EncodeChar '\ufffd' := rfl

/-- What does not begin with a surrogate or a byte outside ASCII, in pieces. -/
theorem pieces_contents {t : Bytes} {ps : List Piece} (h : Pieces t ps) :
    ∃ cs, Contents t cs ∧ unquote ps = bytes cs := by
  induction hn : ps.length using Nat.strongRecOn generalizing t ps with
  | ind n ih =>
    cases h with
    | nil => exact ⟨[], .nil, by simp [unquote, bytes]⟩
    | @raw c t ps hc hq hb ht =>
      simp only [List.length_cons] at hn
      by_cases hlow : c.toNat < 128
      · obtain ⟨cs, h1, h2⟩ := ih ps.length (by omega) ht rfl
        obtain ⟨x, hx, ex⟩ := char_low hlow
        refine ⟨x :: cs, ?_, ?_⟩
        · have : Chr [c] x := by
            rw [← ex]
            refine .plain (by omega) ?_ ?_
            · rintro rfl
              cases ex
              exact hq rfl
            · rintro rfl
              cases ex
              exact hb rfl
          exact .chr this h1
        · rw [unquote.eq_def]
          simp only
          rw [if_pos hlow, h2, bytes, bytes, List.flatMap_cons, ex]
          rfl
      · rcases unquote_high (c := c) (by omega) ht with ⟨u, t', ps', hm, rfl, hp, hu, hl⟩ | ⟨hno, hu⟩
        · obtain ⟨cs, h1, h2⟩ := ih ps'.length (by omega) hp rfl
          obtain ⟨x, hx, ex⟩ := multi_utf8 hm
          refine ⟨x :: cs, ?_, ?_⟩
          · have : Chr (c :: u) x := by
              rw [← ex]
              refine .plain (by omega) ?_ ?_ <;>
              · rintro rfl
                exact absurd hx (by decide)
            exact .chr this h1
          · rw [hu, h2, bytes, bytes, List.flatMap_cons, ex]
        · obtain ⟨cs, h1, h2⟩ := ih ps.length (by omega) ht rfl
          refine ⟨'\ufffd' :: cs, .stray (t := [c]) (.byte (by omega)) ?_ h1, ?_⟩
          · intro t' x r' hx e
            have no92 : ∀ {u : Bytes}, c :: t ≠ 92 :: u := by
              intro u e
              exact hb (List.cons.inj e).1
            cases hx with
            | plain h' hq' hb' =>
              rcases plain_shape h' hq' hb' with ⟨y, ey, -, hy, -⟩ | hm
              · rw [ey] at e
                rw [(List.cons.inj e).1] at hlow
                omega
              · obtain ⟨a, u, eu, -⟩ := multi_head hm
                rw [eu] at e hm
                obtain ⟨rfl, e'⟩ := List.cons.inj e
                exact hno u r' hm e'
            | short => exact no92 e
            | unicode => exact no92 e
            | pair => exact no92 e
          · rw [hu, h2, bytes, bytes, List.flatMap_cons, replacement_char]
    | @esc e x t ps he ht =>
      simp only [List.length_cons] at hn
      obtain ⟨cs, h1, h2⟩ := ih ps.length (by omega) ht rfl
      obtain ⟨l, y, hl, e1, e2⟩ := (escaped_iff e x).mp he
      refine ⟨y :: cs, ?_, ?_⟩
      · have := Contents.chr (Chr.short hl) h1
        rw [e1] at this
        exact this
      · rw [unquote.eq_def]
        simp only
        rw [if_pos (escaped_lt he), h2, bytes, bytes, List.flatMap_cons, e2]
        rfl
    | @unit a b c d n t ps hx ht =>
      simp only [List.length_cons] at hn
      have h4 : Hex4 [a, b, c, d] n := (hex4_iff _ _).mpr ⟨a, b, c, d, rfl, hx⟩
      have hlt := hex4_lt h4
      by_cases hs : 55296 ≤ n ∧ n ≤ 57343
      · by_cases hp : ∃ m qs, ps = .unit m :: qs ∧ n ≤ 56319 ∧ 56320 ≤ m ∧ m ≤ 57343
        · obtain ⟨m, qs, rfl, h5, h6, h7⟩ := hp
          cases ht with
          | @unit a' b' c' d' m t ps hx' ht =>
          have h4' : Hex4 [a', b', c', d'] m := (hex4_iff _ _).mpr ⟨a', b', c', d', rfl, hx'⟩
          obtain ⟨cs, h1, h2⟩ := ih qs.length (by simp only [List.length_cons] at hn; omega) ht rfl
          obtain ⟨x, hx⟩ := char_of (n := 0x10000 + (n - 0xd800) * 0x400 + (m - 0xdc00)) (by omega)
          refine ⟨x :: cs, ?_, ?_⟩
          · exact Contents.chr (Chr.pair h4 h4' (by omega) (by omega) hx) h1
          · rw [unquote.eq_def]
            simp only
            rw [if_pos hs, if_pos ⟨h5, h6, h7⟩, h2, bytes, bytes, List.flatMap_cons, ← utf8Encode_char, hx,
              show (n - 55296) * 1024 + (m - 56320) + 65536 = 0x10000 + (n - 0xd800) * 0x400 + (m - 0xdc00) by omega]
        · obtain ⟨cs, h1, h2⟩ := ih ps.length (by omega) ht rfl
          refine ⟨'\ufffd' :: cs, .stray (t := 92 :: 117 :: [a, b, c, d]) (.surrogate h4 (by omega)) ?_ h1, ?_⟩
          · intro t' x r' hx e
            cases hx with
            | plain h' hq' hb' =>
              obtain ⟨a, u, eu, ha, -⟩ := plain_head h' hq' hb'
              rw [eu] at e
              exact ha (List.cons.inj e).1.symm
            | short h' =>
              obtain ⟨a', x', hx', e1, e2⟩ := short_shape h'
              rw [e1] at e
              simp only [List.cons_append, List.nil_append, List.cons.injEq, true_and] at e
              exact escaped_ne hx' e.1.symm
            | unicode h' =>
              simp only [List.cons_append, List.cons.injEq, true_and] at e
              obtain ⟨-, e2, -⟩ := hex4_unique h4 h' e
              have := char_range x
              omega
            | @pair u1 u2 hi lo _ g1 g2 g3 g4 g5 =>
              simp only [List.cons_append, List.append_assoc, List.cons.injEq, true_and] at e
              obtain ⟨-, rfl, e3⟩ := hex4_unique h4 g1 e
              obtain ⟨a', b', c', d', rfl, g⟩ := (hex4_iff _ _).mp g2
              simp only [List.cons_append, List.nil_append] at e3
              subst e3
              cases ht with
              | raw _ _ h92 => exact h92 rfl
              | esc he => exact escaped_ne he rfl
              | unit hx' ht =>
                rw [g] at hx'
                obtain rfl := Option.some.inj hx'
                exact hp ⟨_, _, rfl, by omega, by omega, by omega⟩
          · rw [unquote.eq_def]
            simp only
            rw [if_pos hs, bytes, List.flatMap_cons, ← replacement_char]
            split
            · next m qs =>
              rw [if_neg (fun h => hp ⟨m, qs, rfl, h⟩), h2]
              rfl
            · rw [h2]
              rfl
      · obtain ⟨cs, h1, h2⟩ := ih ps.length (by omega) ht rfl
        obtain ⟨x, hx⟩ := char_of (n := n) (by omega)
        refine ⟨x :: cs, ?_, ?_⟩
        · exact Contents.chr (Chr.unicode (t := [a, b, c, d]) (hx ▸ h4)) h1
        · rw [unquote.eq_def]
          simp only
          rw [if_neg hs, h2, bytes, bytes, List.flatMap_cons, ← utf8Encode_char, hx]

theorem pieces_append {t u : Bytes} {ps qs : List Piece} (h : Pieces t ps) (h' : Pieces u qs) : Pieces (t ++ u) (ps ++ qs) := by
  induction h with
  | nil => exact h'
  | raw h1 h2 h3 _ ih => exact .raw h1 h2 h3 ih
  | esc h1 _ ih => exact .esc h1 ih
  | unit h1 _ ih => exact .unit h1 ih

theorem pieces_unit {t : Bytes} {n : Nat} (h : Hex4 t n) : Pieces (92 :: 117 :: t) [.unit n] := by
  obtain ⟨a, b, c, d, rfl, g⟩ := (hex4_iff _ _).mp h
  exact .unit g .nil

theorem pieces_bytes {t : Bytes} (h : ∀ x ∈ t, 128 ≤ x.toNat) : Pieces t (t.map .raw) := by
  induction t with
  | nil => exact .nil
  | cons x t ih =>
    have hx := h x (by simp)
    refine .raw (by omega) ?_ ?_ (ih fun y hy => h y (by simp [hy])) <;>
    · rintro rfl
      exact absurd hx (by decide)

theorem multi_high {t : Bytes} (h : Multi t) : ∀ x ∈ t, 128 ≤ x.toNat := by
  match t, h with
  | [a, x], h =>
    simp only [Multi] at h
    simp only [List.mem_cons, List.not_mem_nil, or_false]
    rintro _ (rfl | rfl) <;> omega
  | [a, x, y], h =>
    simp only [Multi] at h
    have hx : 128 ≤ x.toNat := by have := h.2.2.1; split at this <;> omega
    simp only [List.mem_cons, List.not_mem_nil, or_false]
    rintro _ (rfl | rfl | rfl) <;> omega
  | [a, x, y, z], h =>
    simp only [Multi] at h
    have hx : 128 ≤ x.toNat := by have := h.2.2.1; split at this <;> omega
    simp only [List.mem_cons, List.not_mem_nil, or_false]
    rintro _ (rfl | rfl | rfl | rfl) <;> omega

theorem contents_pieces {t : Bytes} {cs : List Char} (h : Contents t cs) : ∃ ps, Pieces t ps := by
  induction h with
  | nil => exact ⟨_, .nil⟩
  | chr hc _ ih =>
    obtain ⟨qs, hq⟩ := ih
    cases hc with
    | plain h1 h2 h3 =>
      rcases plain_shape h1 h2 h3 with ⟨x, ex, -, -, h32, h34, h92⟩ | hm
      · rw [ex]
        exact ⟨_, .raw h32 h34 h92 hq⟩
      · exact ⟨_, pieces_append (pieces_bytes (multi_high hm)) hq⟩
    | short h =>
      obtain ⟨a, x, hx, e1, -⟩ := short_shape h
      rw [e1]
      exact ⟨_, .esc hx hq⟩
    | unicode h => exact ⟨_, pieces_append (pieces_unit h) hq⟩
    | pair h1 h2 => exact ⟨_, pieces_append (pieces_append (pieces_unit h1) (pieces_unit h2)) hq⟩
  | stray hs _ _ ih =>
    obtain ⟨qs, hq⟩ := ih
    cases hs with
    | byte h => exact ⟨_, pieces_append (pieces_bytes (t := [_]) (by simpa using h)) hq⟩
    | surrogate h => exact ⟨_, pieces_append (pieces_unit h) hq⟩

theorem string_sound {b s r : Bytes} (h : string b = some (s, r)) :
    ∃ t cs, b = t ++ 34 :: r ∧ Contents t cs ∧ s = bytes cs := by
  simp only [string, Option.map_eq_some_iff, Prod.mk.injEq, Prod.exists] at h
  obtain ⟨ps, r', h1, rfl, rfl⟩ := h
  obtain ⟨t, rfl, ht⟩ := scan_sound h1
  obtain ⟨cs, h2, h3⟩ := pieces_contents ht
  exact ⟨t, cs, rfl, h2, h3⟩

theorem string_complete {t : Bytes} {cs : List Char} (h : Contents t cs) (r : Bytes) :
    string (t ++ 34 :: r) = some (bytes cs, r) := by
  obtain ⟨ps, hp⟩ := contents_pieces h
  obtain ⟨cs', h2, h3⟩ := pieces_contents hp
  rw [string, scan_complete hp, contents_unique h h2, ← h3]
  rfl

/-! ## Numbers -/

theorem isDigit_iff (c : UInt8) : isDigit c = true ↔ c ∈ ascii "0123456789" := by
  have key : ∀ k < 256, (isDigit (UInt8.ofNat k) = true ↔ UInt8.ofNat k ∈ ascii "0123456789") := by decide +kernel
  have := key c.toNat c.toNat_lt
  rwa [byte_eq rfl] at this

/-- What may follow a number: nothing that belongs to one. -/
def Stops (r : Bytes) : Prop := ∀ c, r.head? = some c → isDigit c = false ∧ c ≠ 46 ∧ c ≠ 101 ∧ c ≠ 69

theorem digits_eq {ds r : Bytes} (h : ∀ c ∈ ds, isDigit c = true) (hr : ∀ c, r.head? = some c → isDigit c = false) :
    digits (ds ++ r) = (ds, r) := by
  induction ds with
  | nil =>
    cases r with
    | nil => rfl
    | cons c r => simp [digits, hr c rfl]
  | cons c ds ih => simp [digits, h c (by simp), ih fun x hx => h x (by simp [hx])]

theorem digits1_complete {ds r : Bytes} (h : Digits ds) (hr : ∀ c, r.head? = some c → isDigit c = false) :
    digits1 (ds ++ r) = some (ds, r) := by
  rw [digits1, digits_eq (fun c hc => (isDigit_iff c).mpr (h.2 c hc)) hr]
  obtain ⟨hne, -⟩ := h
  cases ds with
  | nil => exact absurd rfl hne
  | cons c ds => rfl

theorem digits_sound (b : Bytes) : b = (digits b).1 ++ (digits b).2 ∧ ∀ c ∈ (digits b).1, isDigit c = true := by
  induction b with
  | nil => simp [digits]
  | cons c b ih =>
    rw [digits]
    split
    · next h =>
      refine ⟨by rw [List.cons_append, ← ih.1], ?_⟩
      simp only [List.mem_cons]
      rintro x (rfl | hx)
      · exact h
      · exact ih.2 x hx
    · simp

theorem digits1_sound {b ds r : Bytes} (h : digits1 b = some (ds, r)) : b = ds ++ r ∧ Digits ds := by
  unfold digits1 at h
  have := digits_sound b
  split at h
  · cases h
  · next ds' r' hne e =>
    simp only [Option.some.injEq, Prod.mk.injEq] at h
    obtain ⟨rfl, rfl⟩ := h
    rw [e] at this
    refine ⟨this.1, ?_, fun c hc => (isDigit_iff c).mp (this.2 c hc)⟩
    intro h0
    exact hne h0

theorem integer_sound {b l r : Bytes} (h : integer b = some (l, r)) :
    b = l ++ r ∧ (l = ascii "0" ∨ Digits l ∧ l.head? ≠ (ascii "0").head?) := by
  cases b with
  | nil => cases h
  | cons c b =>
    rw [integer] at h
    split at h
    · next hc =>
      simp only [Option.some.injEq, Prod.mk.injEq] at h
      obtain ⟨rfl, rfl⟩ := h
      exact ⟨by rw [hc]; rfl, .inl rfl⟩
    · next hc =>
      obtain ⟨e, hd⟩ := digits1_sound h
      refine ⟨e, .inr ⟨hd, ?_⟩⟩
      cases l with
      | nil => exact absurd rfl hd.1
      | cons a l =>
        rw [← (List.cons.inj e).1]
        intro h0
        exact hc (Option.some.inj h0)

theorem integer_complete {l r : Bytes} (h : l = ascii "0" ∨ Digits l ∧ l.head? ≠ (ascii "0").head?)
    (hr : ∀ c, r.head? = some c → isDigit c = false) : integer (l ++ r) = some (l, r) := by
  rcases h with rfl | ⟨hd, h0⟩
  · rfl
  · cases l with
    | nil => exact absurd rfl hd.1
    | cons c l =>
      rw [List.cons_append, integer, if_neg (fun hc => h0 (by rw [hc]; rfl)), ← List.cons_append, digits1_complete hd hr]

theorem fraction_sound {b l r : Bytes} (h : fraction b = some (l, r)) :
    b = l ++ r ∧ (l = [] ∨ ∃ ds, Digits ds ∧ l = ascii "." ++ ds) := by
  cases b with
  | nil =>
    simp only [fraction, Option.some.injEq, Prod.mk.injEq] at h
    obtain ⟨rfl, rfl⟩ := h
    exact ⟨rfl, .inl rfl⟩
  | cons c b =>
    rw [fraction] at h
    split at h
    · next hc =>
      simp only [Option.map_eq_some_iff, Prod.mk.injEq, Prod.exists] at h
      obtain ⟨ds, r', h1, rfl, rfl⟩ := h
      obtain ⟨rfl, hd⟩ := digits1_sound h1
      exact ⟨by rw [hc]; rfl, .inr ⟨ds, hd, rfl⟩⟩
    · simp only [Option.some.injEq, Prod.mk.injEq] at h
      obtain ⟨rfl, rfl⟩ := h
      exact ⟨rfl, .inl rfl⟩

theorem fraction_complete {l r : Bytes} (h : l = [] ∨ ∃ ds, Digits ds ∧ l = ascii "." ++ ds)
    (hr : ∀ c, r.head? = some c → isDigit c = false ∧ c ≠ 46) : fraction (l ++ r) = some (l, r) := by
  rcases h with rfl | ⟨ds, hd, rfl⟩
  · cases r with
    | nil => rfl
    | cons c r => simp [fraction, (hr c rfl).2]
  · change fraction (46 :: (ds ++ r)) = _
    rw [fraction, if_pos rfl, digits1_complete hd fun c hc => (hr c hc).1]
    rfl

theorem exponent_sound {b l r : Bytes} (h : exponent b = some (l, r)) :
    b = l ++ r ∧ (l = [] ∨ ∃ e s ds, e ∈ [ascii "e", ascii "E"] ∧ s ∈ [[], ascii "+", ascii "-"] ∧ Digits ds ∧ l = e ++ s ++ ds) := by
  cases b with
  | nil =>
    simp only [exponent, Option.some.injEq, Prod.mk.injEq] at h
    obtain ⟨rfl, rfl⟩ := h
    exact ⟨rfl, .inl rfl⟩
  | cons c b =>
    rw [exponent.eq_def] at h
    simp only at h
    split at h
    · next hc =>
      have hmem : [c] ∈ [ascii "e", ascii "E"] := by rcases hc with rfl | rfl <;> decide
      cases b with
      | nil => cases h
      | cons s b =>
        simp only at h
        split at h
        · next hs =>
          simp only [Option.map_eq_some_iff, Prod.mk.injEq, Prod.exists] at h
          obtain ⟨ds, r', h1, rfl, rfl⟩ := h
          obtain ⟨rfl, hd⟩ := digits1_sound h1
          exact ⟨rfl, .inr ⟨[c], [s], ds, hmem, by rcases hs with rfl | rfl <;> decide, hd, rfl⟩⟩
        · simp only [Option.map_eq_some_iff, Prod.mk.injEq, Prod.exists] at h
          obtain ⟨ds, r', h1, rfl, rfl⟩ := h
          obtain ⟨e, hd⟩ := digits1_sound h1
          exact ⟨by rw [e]; rfl, .inr ⟨[c], [], ds, hmem, by decide, hd, rfl⟩⟩
    · simp only [Option.some.injEq, Prod.mk.injEq] at h
      obtain ⟨rfl, rfl⟩ := h
      exact ⟨rfl, .inl rfl⟩

theorem exponent_complete {l r : Bytes}
    (h : l = [] ∨ ∃ e s ds, e ∈ [ascii "e", ascii "E"] ∧ s ∈ [[], ascii "+", ascii "-"] ∧ Digits ds ∧ l = e ++ s ++ ds)
    (hr : Stops r) : exponent (l ++ r) = some (l, r) := by
  rcases h with rfl | ⟨e, s, ds, he, hs, hd, rfl⟩
  · cases r with
    | nil => rfl
    | cons c r => simp [exponent, (hr c rfl).2.2]
  · obtain ⟨c, hc, rfl⟩ : ∃ c, (c = 101 ∨ c = 69) ∧ e = [c] := by
      simp only [List.mem_cons, List.not_mem_nil, or_false] at he
      rcases he with rfl | rfl
      · exact ⟨101, .inl rfl, rfl⟩
      · exact ⟨69, .inr rfl, rfl⟩
    have h1 := digits1_complete hd fun c hc => (hr c hc).1
    have hs' : s = [] ∨ ∃ x, (x = 43 ∨ x = 45) ∧ s = [x] := by
      simp only [List.mem_cons, List.not_mem_nil, or_false] at hs
      rcases hs with rfl | rfl | rfl
      · exact .inl rfl
      · exact .inr ⟨43, .inl rfl, rfl⟩
      · exact .inr ⟨45, .inr rfl, rfl⟩
    rcases hs' with rfl | ⟨x, hx, rfl⟩
    · cases ds with
      | nil => exact absurd rfl hd.1
      | cons d ds =>
        have hdig : isDigit d = true := (isDigit_iff d).mpr (hd.2 d (by simp))
        have hne : ¬ (d = 43 ∨ d = 45) := by
          rintro (rfl | rfl) <;> exact absurd hdig (by decide)
        simp only [List.cons_append, List.nil_append] at h1 ⊢
        simp [exponent, hc, hne, h1]
    · simp only [List.cons_append, List.nil_append]
      simp [exponent, hc, hx, h1]

theorem unsigned_sound {b l r : Bytes} (h : unsigned b = some (l, r)) :
    b = l ++ r ∧ ∃ i f e, l = i ++ f ++ e ∧ (i = ascii "0" ∨ Digits i ∧ i.head? ≠ (ascii "0").head?) ∧
      (f = [] ∨ ∃ ds, Digits ds ∧ f = ascii "." ++ ds) ∧
      (e = [] ∨ ∃ x s ds, x ∈ [ascii "e", ascii "E"] ∧ s ∈ [[], ascii "+", ascii "-"] ∧ Digits ds ∧ e = x ++ s ++ ds) := by
  simp only [unsigned, Option.bind_eq_bind, Option.bind_eq_some_iff, Option.pure_def, Option.some.injEq, Prod.mk.injEq,
    Prod.exists] at h
  obtain ⟨i, r1, h1, f, r2, h2, e, r3, h3, rfl, rfl⟩ := h
  obtain ⟨rfl, hi⟩ := integer_sound h1
  obtain ⟨rfl, hf⟩ := fraction_sound h2
  obtain ⟨rfl, he⟩ := exponent_sound h3
  exact ⟨by simp, i, f, e, rfl, hi, hf, he⟩

theorem unsigned_complete {i f e r : Bytes} (hi : i = ascii "0" ∨ Digits i ∧ i.head? ≠ (ascii "0").head?)
    (hf : f = [] ∨ ∃ ds, Digits ds ∧ f = ascii "." ++ ds)
    (he : e = [] ∨ ∃ x s ds, x ∈ [ascii "e", ascii "E"] ∧ s ∈ [[], ascii "+", ascii "-"] ∧ Digits ds ∧ e = x ++ s ++ ds)
    (hr : Stops r) : unsigned (i ++ f ++ e ++ r) = some (i ++ f ++ e, r) := by
  have stop2 : ∀ c, (e ++ r).head? = some c → isDigit c = false ∧ c ≠ 46 := by
    intro c hc
    rcases he with rfl | ⟨x, s, ds, hx, -, -, rfl⟩
    · exact ⟨(hr c hc).1, (hr c hc).2.1⟩
    · simp only [List.mem_cons, List.not_mem_nil, or_false] at hx
      rcases hx with rfl | rfl
      · obtain rfl : 101 = c := Option.some.inj hc
        decide
      · obtain rfl : 69 = c := Option.some.inj hc
        decide
  have stop1 : ∀ c, (f ++ (e ++ r)).head? = some c → isDigit c = false := by
    intro c hc
    rcases hf with rfl | ⟨ds, -, rfl⟩
    · exact (stop2 c hc).1
    · obtain rfl : 46 = c := Option.some.inj hc
      decide
  rw [List.append_assoc, List.append_assoc, unsigned, integer_complete hi stop1]
  simp only [Option.bind_eq_bind, Option.bind_some]
  rw [fraction_complete hf stop2]
  simp only [Option.bind_some]
  rw [exponent_complete he hr]
  simp

theorem number_sound {b l r : Bytes} (h : number b = some (l, r)) : b = l ++ r ∧ Number l := by
  cases b with
  | nil => cases h
  | cons c b =>
    rw [number] at h
    split at h
    · next hc =>
      simp only [Option.map_eq_some_iff, Prod.mk.injEq, Prod.exists] at h
      obtain ⟨l', r', h1, rfl, rfl⟩ := h
      obtain ⟨rfl, i, f, e, rfl, hi, hf, he⟩ := unsigned_sound h1
      exact ⟨by rw [hc]; rfl, Number.mk (sign := ascii "-") (.inr rfl) hi hf he⟩
    · obtain ⟨e', i, f, e, rfl, hi, hf, he⟩ := unsigned_sound h
      exact ⟨e', Number.mk (sign := []) (.inl rfl) hi hf he⟩

/-- A number begins with a digit or a minus. -/
theorem number_head {l : Bytes} (h : Number l) : ∃ c l', l = c :: l' ∧ (isDigit c = true ∨ c = 45) := by
  obtain ⟨hs, hi, hf, he⟩ := h
  rcases hs with rfl | rfl
  · rcases hi with rfl | ⟨hd, -⟩
    · exact ⟨48, _, rfl, .inl (by decide)⟩
    · rename_i int frac exp
      cases int with
      | nil => exact absurd rfl hd.1
      | cons c int => exact ⟨c, _, rfl, .inl ((isDigit_iff c).mpr (hd.2 c (by simp)))⟩
  · exact ⟨45, _, rfl, .inr rfl⟩

theorem number_complete {l r : Bytes} (h : Number l) (hr : Stops r) : number (l ++ r) = some (l, r) := by
  obtain ⟨hs, hi, hf, he⟩ := h
  rename_i sign int frac exp
  have h1 := unsigned_complete hi hf he hr
  rcases hs with rfl | rfl
  · cases int with
    | nil =>
      rcases hi with hi | hi
      · cases hi
      · exact absurd rfl hi.1.1
    | cons c int =>
      have hc : c ≠ 45 := by
        rintro rfl
        rcases hi with hi | hi
        · cases hi
        · exact absurd ((isDigit_iff 45).mpr (hi.1.2 45 (by simp))) (by decide)
      simp only [List.nil_append, List.cons_append] at h1 ⊢
      rw [number, if_neg hc, h1]
  · change number (45 :: (int ++ frac ++ exp ++ r)) = _
    rw [number, if_pos rfl, h1]
    rfl

/-! ## Values -/

theorem isSpace_mem (c : UInt8) : isSpace c = true ↔ c ∈ ascii " \t\n\r" := by
  rw [isSpace_iff]
  simp [ascii]

theorem skipWs_sound (b : Bytes) : ∃ s, Spaces s ∧ b = s ++ skipWs b := by
  induction b with
  | nil => exact ⟨[], by simp [Spaces], rfl⟩
  | cons c b ih =>
    rw [skipWs]
    split
    · next hc =>
      obtain ⟨s, hs, e⟩ := ih
      refine ⟨c :: s, ?_, by rw [List.cons_append, ← e]⟩
      intro x hx
      rcases List.mem_cons.mp hx with rfl | hx
      · exact (isSpace_mem _).mp hc
      · exact hs x hx
    · exact ⟨[], by simp [Spaces], rfl⟩

theorem skipWs_spaces {s : Bytes} (h : Spaces s) (r : Bytes) : skipWs (s ++ r) = skipWs r := by
  induction s with
  | nil => rfl
  | cons c s ih =>
    rw [List.cons_append, skipWs, if_pos ((isSpace_mem c).mpr (h c (by simp))), ih fun x hx => h x (by simp [hx])]

theorem spaces_append {s t : Bytes} (hs : Spaces s) (ht : Spaces t) : Spaces (s ++ t) := by
  intro c hc
  rcases List.mem_append.mp hc with h | h
  · exact hs c h
  · exact ht c h

theorem skipWs_eq {b t : Bytes} {c : UInt8} (h : skipWs b = c :: t) : ∃ s, Spaces s ∧ b = s ++ c :: t := by
  have := skipWs_sound b
  rwa [h] at this

/-- What the three functions of the reader accept is in the grammar. -/
theorem value_sound (fuel : Nat) :
    (∀ d b v r, value fuel d b = some (v, r) → ∃ t, b = t ++ r ∧ Text d t v) ∧
    (∀ d b ms r, members fuel d b = some (ms, r) → ∃ fs : List (Field × List Char × Value), fs ≠ [] ∧
      b = List.intercalate [44] (fs.map (·.1.all)) ++ 125 :: r ∧
      (∀ f ∈ fs, Spaces f.1.before ∧ Contents f.1.name f.2.1 ∧ Spaces f.1.after) ∧
      (∀ f ∈ fs, Text d f.1.text f.2.2) ∧ ms = fs.map fun f => (Spec.bytes f.2.1, f.2.2)) ∧
    (∀ d b vs r, elements fuel d b = some (vs, r) → ∃ es : List (Bytes × Value), es ≠ [] ∧
      b = List.intercalate [44] (es.map (·.1)) ++ 93 :: r ∧ (∀ e ∈ es, Text d e.1 e.2) ∧ vs = es.map (·.2)) := by
  induction fuel with
  | zero => simp [value, members, elements]
  | succ fuel ih =>
    obtain ⟨ihv, ihm, ihe⟩ := ih
    refine ⟨?_, ?_, ?_⟩
    · intro d b v r h
      rw [value] at h
      cases hb : skipWs b with
      | nil => simp [hb] at h
      | cons c b' =>
        obtain ⟨s, hs, rfl⟩ := skipWs_eq hb
        have fin : ∀ {t v r}, c :: b' = t ++ r → Text d t v → ∃ t', s ++ c :: b' = t' ++ r ∧ Text d t' v :=
          fun e ht => ⟨s ++ _, by rw [e, List.append_assoc], .before hs ht⟩
        simp only [hb] at h
        split at h
        · next hc =>
          simp only [Option.map_eq_some_iff, Prod.mk.injEq, Prod.exists] at h
          obtain ⟨x, r', h1, rfl, rfl⟩ := h
          obtain ⟨t, cs, rfl, h2, rfl⟩ := string_sound h1
          subst hc
          exact fin (by simp) (.str h2)
        split at h
        · next hc =>
          simp only [Option.map_eq_some_iff, Prod.mk.injEq] at h
          obtain ⟨r', h1, rfl, rfl⟩ := h
          have := keyword_consumes h1
          subst hc this
          exact fin rfl .null
        split at h
        · next hc =>
          simp only [Option.map_eq_some_iff, Prod.mk.injEq] at h
          obtain ⟨r', h1, rfl, rfl⟩ := h
          have := keyword_consumes h1
          subst hc this
          exact fin rfl .yes
        split at h
        · next hc =>
          simp only [Option.map_eq_some_iff, Prod.mk.injEq] at h
          obtain ⟨r', h1, rfl, rfl⟩ := h
          have := keyword_consumes h1
          subst hc this
          exact fin rfl .no
        split at h
        · next hc =>
          subst hc
          cases d with
          | zero => cases h
          | succ d =>
            simp only at h
            cases hb' : skipWs b' with
            | nil => simp [hb'] at h
            | cons c' b'' =>
              obtain ⟨s', hs', rfl⟩ := skipWs_eq hb'
              simp only [hb'] at h
              split at h
              · next hc' =>
                simp only [Option.some.injEq, Prod.mk.injEq] at h
                obtain ⟨rfl, rfl⟩ := h
                subst hc'
                exact fin (by simp) (.none hs')
              · simp only [Option.map_eq_some_iff, Prod.mk.injEq, Prod.exists] at h
                obtain ⟨ms, r', h1, rfl, rfl⟩ := h
                obtain ⟨fs, hne, e, h3, h4, rfl⟩ := ihm _ _ _ _ h1
                cases fs with
                | nil => exact absurd rfl hne
                | cons f fs =>
                  let g : Field × List Char × Value := (⟨s' ++ f.1.before, f.1.name, f.1.after, f.1.text⟩, f.2)
                  have hg : g.1.all = s' ++ f.1.all := by simp [g, Field.all]
                  have key : s' ++ c' :: b'' = List.intercalate [44] ((g :: fs).map (·.1.all)) ++ 125 :: r' := by
                    rw [e, List.map_cons, List.map_cons, hg]
                    cases fs <;> simp [List.intercalate]
                  have hobj : Text (d + 1) (123 :: List.intercalate [44] ((g :: fs).map (·.1.all)) ++ [125])
                      (.obj ((g :: fs).map fun f => (Spec.bytes f.2.1, f.2.2))) := by
                    refine .obj (by simp) ?_ ?_
                    · intro x hx
                      rcases List.mem_cons.mp hx with rfl | hx
                      · have := h3 f (by simp)
                        exact ⟨spaces_append hs' this.1, this.2⟩
                      · exact h3 x (by simp [hx])
                    · intro x hx
                      rcases List.mem_cons.mp hx with rfl | hx
                      · exact h4 f (by simp)
                      · exact h4 x (by simp [hx])
                  exact fin (by rw [key]; simp) hobj
        split at h
        · next hc =>
          subst hc
          cases d with
          | zero => cases h
          | succ d =>
            simp only at h
            cases hb' : skipWs b' with
            | nil => simp [hb'] at h
            | cons c' b'' =>
              obtain ⟨s', hs', rfl⟩ := skipWs_eq hb'
              simp only [hb'] at h
              split at h
              · next hc' =>
                simp only [Option.some.injEq, Prod.mk.injEq] at h
                obtain ⟨rfl, rfl⟩ := h
                subst hc'
                exact fin (by simp) (.empty hs')
              · simp only [Option.map_eq_some_iff, Prod.mk.injEq, Prod.exists] at h
                obtain ⟨vs, r', h1, rfl, rfl⟩ := h
                obtain ⟨es, hne, e, h3, rfl⟩ := ihe _ _ _ _ h1
                cases es with
                | nil => exact absurd rfl hne
                | cons x es =>
                  have key : s' ++ c' :: b'' = List.intercalate [44] (((s' ++ x.1, x.2) :: es).map (·.1)) ++ 93 :: r' := by
                    rw [e, List.map_cons, List.map_cons]
                    cases es <;> simp [List.intercalate]
                  have harr : Text (d + 1) (91 :: List.intercalate [44] (((s' ++ x.1, x.2) :: es).map (·.1)) ++ [93])
                      (.arr (((s' ++ x.1, x.2) :: es).map (·.2))) := by
                    refine .arr (by simp) ?_
                    intro y hy
                    rcases List.mem_cons.mp hy with rfl | hy
                    · exact .before hs' (h3 x (by simp))
                    · exact h3 y (by simp [hy])
                  exact fin (by rw [key]; simp) harr
        · simp only [Option.map_eq_some_iff, Prod.mk.injEq, Prod.exists] at h
          obtain ⟨l, r', h1, rfl, rfl⟩ := h
          obtain ⟨e, hn⟩ := number_sound h1
          exact fin e (.num hn)
    · intro d b ms r h
      rw [members] at h
      cases hb : skipWs b with
      | nil => simp [hb] at h
      | cons c b' =>
        obtain ⟨s, hs, rfl⟩ := skipWs_eq hb
        simp only [hb] at h
        split at h
        · next hc =>
          subst hc
          simp only [Option.bind_eq_bind, Option.bind_eq_some_iff, Prod.exists] at h
          obtain ⟨k, r1, h1, h⟩ := h
          obtain ⟨t, cs, rfl, hk, rfl⟩ := string_sound h1
          cases hr1 : skipWs r1 with
          | nil => simp [hr1] at h
          | cons c1 r1' =>
            obtain ⟨s1, hs1, rfl⟩ := skipWs_eq hr1
            simp only [hr1] at h
            split at h
            · next hc1 =>
              subst hc1
              simp only [Option.bind_eq_some_iff, Prod.exists] at h
              obtain ⟨v, r2, h2, h⟩ := h
              obtain ⟨tv, rfl, hv⟩ := ihv _ _ _ _ h2
              cases hr2 : skipWs r2 with
              | nil => simp [hr2] at h
              | cons c2 r2' =>
                obtain ⟨s2, hs2, rfl⟩ := skipWs_eq hr2
                simp only [hr2] at h
                let g : Field × List Char × Value := (⟨s, t, s1, tv ++ s2⟩, cs, v)
                split at h
                · next hc2 =>
                  subst hc2
                  simp only [Option.bind_eq_some_iff, Option.pure_def, Option.some.injEq, Prod.mk.injEq, Prod.exists] at h
                  obtain ⟨ms', r3, h3, rfl, rfl⟩ := h
                  obtain ⟨fs, hne, rfl, h4, h5, rfl⟩ := ihm _ _ _ _ h3
                  refine ⟨g :: fs, by simp, ?_, ?_, ?_, rfl⟩
                  · cases fs with
                    | nil => exact absurd rfl hne
                    | cons f fs => simp [List.intercalate, Field.all, g]
                  · intro x hx
                    rcases List.mem_cons.mp hx with rfl | hx
                    · exact ⟨hs, hk, hs1⟩
                    · exact h4 x hx
                  · intro x hx
                    rcases List.mem_cons.mp hx with rfl | hx
                    · exact .after hs2 hv
                    · exact h5 x hx
                split at h
                · next hc2 =>
                  subst hc2
                  simp only [Option.pure_def, Option.some.injEq, Prod.mk.injEq] at h
                  obtain ⟨rfl, rfl⟩ := h
                  refine ⟨[g], by simp, by simp [List.intercalate, Field.all, g], ?_, ?_, rfl⟩
                  · intro x hx
                    obtain rfl := List.mem_singleton.mp hx
                    exact ⟨hs, hk, hs1⟩
                  · intro x hx
                    obtain rfl := List.mem_singleton.mp hx
                    exact .after hs2 hv
                · cases h
            · cases h
        · cases h
    · intro d b vs r h
      rw [elements] at h
      simp only [Option.bind_eq_bind, Option.bind_eq_some_iff, Prod.exists] at h
      obtain ⟨v, r2, h2, h⟩ := h
      obtain ⟨tv, rfl, hv⟩ := ihv _ _ _ _ h2
      cases hr2 : skipWs r2 with
      | nil => simp [hr2] at h
      | cons c2 r2' =>
        obtain ⟨s2, hs2, rfl⟩ := skipWs_eq hr2
        simp only [hr2] at h
        split at h
        · next hc2 =>
          subst hc2
          simp only [Option.bind_eq_some_iff, Option.pure_def, Option.some.injEq, Prod.mk.injEq, Prod.exists] at h
          obtain ⟨vs', r3, h3, rfl, rfl⟩ := h
          obtain ⟨es, hne, rfl, h4, rfl⟩ := ihe _ _ _ _ h3
          refine ⟨(tv ++ s2, v) :: es, by simp, ?_, ?_, rfl⟩
          · cases es with
            | nil => exact absurd rfl hne
            | cons f fs => simp [List.intercalate]
          · intro x hx
            rcases List.mem_cons.mp hx with rfl | hx
            · exact .after hs2 hv
            · exact h4 x hx
        split at h
        · next hc2 =>
          subst hc2
          simp only [Option.pure_def, Option.some.injEq, Prod.mk.injEq] at h
          obtain ⟨rfl, rfl⟩ := h
          refine ⟨[(tv ++ s2, v)], by simp, by simp [List.intercalate], ?_, rfl⟩
          intro x hx
          obtain rfl := List.mem_singleton.mp hx
          exact .after hs2 hv
        · cases h

theorem skipWs_skipWs (b : Bytes) : skipWs (skipWs b) = skipWs b := by
  obtain ⟨s, hs, e⟩ := skipWs_sound b
  conv => rhs; rw [e, skipWs_spaces hs]

theorem value_skip (fuel d : Nat) (b : Bytes) : value fuel d (skipWs b) = value fuel d b := by
  cases fuel with
  | zero => simp [value]
  | succ fuel => rw [value, value, skipWs_skipWs]

theorem elements_skip (fuel d : Nat) (b : Bytes) : elements fuel d (skipWs b) = elements fuel d b := by
  cases fuel with
  | zero => simp [elements]
  | succ fuel => rw [elements, elements, value_skip]

theorem members_skip (fuel d : Nat) (b : Bytes) : members fuel d (skipWs b) = members fuel d b := by
  cases fuel with
  | zero => simp [members]
  | succ fuel => rw [members, members, skipWs_skipWs]

theorem value_bracket (fuel d : Nat) (b r : Bytes) (h : skipWs b = 93 :: r) : value fuel d b = none := by
  cases fuel with
  | zero => simp [value]
  | succ fuel =>
    rw [value, h]
    simp [number, unsigned, integer, digits1, digits, isDigit]

theorem stops_spaces {s r : Bytes} (hs : Spaces s) (hr : Stops r) : Stops (s ++ r) := by
  cases s with
  | nil => exact hr
  | cons c s =>
    intro x hx
    obtain rfl : c = x := Option.some.inj hx
    have key : ∀ k < 256, (UInt8.ofNat k ∈ ascii " \t\n\r" → isDigit (UInt8.ofNat k) = false ∧ UInt8.ofNat k ≠ 46 ∧
      UInt8.ofNat k ≠ 101 ∧ UInt8.ofNat k ≠ 69) := by decide +kernel
    have := key c.toNat c.toNat_lt
    rw [byte_eq rfl] at this
    exact this (hs c (by simp))

theorem stops_cons {c : UInt8} {r : Bytes} (h : isDigit c = false ∧ c ≠ 46 ∧ c ≠ 101 ∧ c ≠ 69) : Stops (c :: r) := by
  intro x hx
  obtain rfl : c = x := Option.some.inj hx
  exact h

/-- The reader accepts a text of the grammar, with enough fuel, and leaves white space at most. -/
def Reads' (d : Nat) (t : Bytes) (v : Value) : Prop :=
  ∀ r, Stops r → ∃ s F, Spaces s ∧ ∀ fuel, F ≤ fuel → value fuel d (t ++ r) = some (v, s ++ r)

theorem elements_complete {d : Nat} {es : List (Bytes × Value)} (hne : es ≠ []) (h : ∀ e ∈ es, Reads' d e.1 e.2) (r : Bytes) :
    ∃ F, ∀ fuel, F ≤ fuel → elements fuel d (List.intercalate [44] (es.map (·.1)) ++ 93 :: r) = some (es.map (·.2), r) := by
  induction es with
  | nil => exact absurd rfl hne
  | cons e es ih =>
    cases es with
    | nil =>
      obtain ⟨s, F, hs, h1⟩ := h e (by simp) (93 :: r) (stops_cons (by decide))
      refine ⟨F + 1, fun fuel hf => ?_⟩
      cases fuel with
      | zero => omega
      | succ fuel =>
        have h2 := h1 fuel (by omega)
        have h3 : skipWs (s ++ 93 :: r) = 93 :: r := by rw [skipWs_spaces hs]; simp [skipWs, isSpace]
        simp [elements, List.intercalate, h2, h3]
    | cons e' es =>
      obtain ⟨F', h1'⟩ := ih (by simp) fun x hx => h x (by simp [hx])
      obtain ⟨s, F, hs, h1⟩ := h e (by simp) (44 :: (List.intercalate [44] ((e' :: es).map (·.1)) ++ 93 :: r)) (stops_cons (by decide))
      refine ⟨F + F' + 1, fun fuel hf => ?_⟩
      cases fuel with
      | zero => omega
      | succ fuel =>
        have h2 := h1 fuel (by omega)
        have h3 := h1' fuel (by omega)
        have h4 : ∀ x : Bytes, skipWs (s ++ 44 :: x) = 44 :: x := by intro x; rw [skipWs_spaces hs]; simp [skipWs, isSpace]
        have e1 : List.intercalate [44] ((e :: e' :: es).map (·.1)) ++ 93 :: r =
            e.1 ++ 44 :: (List.intercalate [44] ((e' :: es).map (·.1)) ++ 93 :: r) := by
          simp [List.intercalate]
        rw [e1, elements, h2]
        simp only [Option.bind_eq_bind, Option.bind_some, h4, if_true, h3]
        rfl

theorem members_complete {d : Nat} {fs : List (Field × List Char × Value)} (hne : fs ≠ [])
    (hs : ∀ f ∈ fs, Spaces f.1.before ∧ Contents f.1.name f.2.1 ∧ Spaces f.1.after)
    (h : ∀ f ∈ fs, Reads' d f.1.text f.2.2) (r : Bytes) :
    ∃ F, ∀ fuel, F ≤ fuel → members fuel d (List.intercalate [44] (fs.map (·.1.all)) ++ 125 :: r) =
      some (fs.map fun f => (Spec.bytes f.2.1, f.2.2), r) := by
  have one : ∀ (f : Field × List Char × Value) (x : Bytes) (fuel : Nat) (s : Bytes) (y : Bytes),
      Spaces f.1.before → Contents f.1.name f.2.1 → Spaces f.1.after →
      value fuel d (f.1.text ++ x) = some (f.2.2, s ++ y) → Spaces s →
      members (fuel + 1) d (f.1.all ++ x) = match skipWs y with
        | [] => none
        | c :: r =>
          if c = 44 then do
            let (ms, r) ← members fuel d r
            pure ((Spec.bytes f.2.1, f.2.2) :: ms, r)
          else if c = 125 then pure ([(Spec.bytes f.2.1, f.2.2)], r)
          else none := by
    intro f x fuel s y h1 h2 h3 h4 h5
    have e : f.1.all ++ x = f.1.before ++ 34 :: (f.1.name ++ 34 :: (f.1.after ++ 58 :: (f.1.text ++ x))) := by
      simp [Field.all]
    have e1 : skipWs (f.1.before ++ 34 :: (f.1.name ++ 34 :: (f.1.after ++ 58 :: (f.1.text ++ x)))) =
        34 :: (f.1.name ++ 34 :: (f.1.after ++ 58 :: (f.1.text ++ x))) := by
      rw [skipWs_spaces h1]; simp [skipWs, isSpace]
    have e2 : skipWs (f.1.after ++ 58 :: (f.1.text ++ x)) = 58 :: (f.1.text ++ x) := by
      rw [skipWs_spaces h3]; simp [skipWs, isSpace]
    rw [e, members, e1]
    simp only [if_true, string_complete h2, Option.bind_eq_bind, Option.bind_some, e2, h4, skipWs_spaces h5]
    cases skipWs y <;> rfl
  induction fs with
  | nil => exact absurd rfl hne
  | cons f fs ih =>
    obtain ⟨g1, g2, g3⟩ := hs f (by simp)
    cases fs with
    | nil =>
      obtain ⟨s, F, hs, h1⟩ := h f (by simp) (125 :: r) (stops_cons (by decide))
      refine ⟨F + 1, fun fuel hf => ?_⟩
      cases fuel with
      | zero => omega
      | succ fuel =>
        have := one f (125 :: r) fuel s (125 :: r) g1 g2 g3 (h1 fuel (by omega)) hs
        simpa [List.intercalate, skipWs, isSpace] using this
    | cons f' fs =>
      obtain ⟨F', h1'⟩ := ih (by simp) (fun x hx => hs x (by simp [hx])) fun x hx => h x (by simp [hx])
      obtain ⟨s, F, hs, h1⟩ := h f (by simp) (44 :: (List.intercalate [44] ((f' :: fs).map (·.1.all)) ++ 125 :: r))
        (stops_cons (by decide))
      refine ⟨F + F' + 1, fun fuel hf => ?_⟩
      cases fuel with
      | zero => omega
      | succ fuel =>
        have h3 := h1' fuel (by omega)
        have e1 : List.intercalate [44] ((f :: f' :: fs).map (·.1.all)) ++ 125 :: r =
            f.1.all ++ 44 :: (List.intercalate [44] ((f' :: fs).map (·.1.all)) ++ 125 :: r) := by
          simp [List.intercalate]
        rw [e1, one f _ fuel s _ g1 g2 g3 (h1 fuel (by omega)) hs]
        rw [show ∀ x : Bytes, skipWs (44 :: x) = 44 :: x from fun x => by simp [skipWs, isSpace]]
        simp only [if_true, h3]
        rfl

theorem value_complete {d : Nat} {t : Bytes} {v : Value} (h : Text d t v) : Reads' d t v := by
  induction h with
  | before hs _ ih =>
    intro r hr
    obtain ⟨s, F, h1, h2⟩ := ih r hr
    refine ⟨s, F, h1, fun fuel hf => ?_⟩
    rw [← h2 fuel hf, List.append_assoc, ← value_skip, skipWs_spaces hs, value_skip]
  | after hs _ ih =>
    intro r hr
    obtain ⟨s, F, h1, h2⟩ := ih _ (stops_spaces hs hr)
    refine ⟨s ++ _, F, spaces_append h1 hs, fun fuel hf => ?_⟩
    rw [List.append_assoc, h2 fuel hf, List.append_assoc]
  | null =>
    intro r _
    refine ⟨[], 1, by simp [Spaces], fun fuel hf => ?_⟩
    cases fuel with
    | zero => omega
    | succ fuel => simp [value, skipWs, isSpace, ascii, keyword]
  | yes =>
    intro r _
    refine ⟨[], 1, by simp [Spaces], fun fuel hf => ?_⟩
    cases fuel with
    | zero => omega
    | succ fuel => simp [value, skipWs, isSpace, ascii, keyword]
  | no =>
    intro r _
    refine ⟨[], 1, by simp [Spaces], fun fuel hf => ?_⟩
    cases fuel with
    | zero => omega
    | succ fuel => simp [value, skipWs, isSpace, ascii, keyword]
  | @num d l h =>
    intro r hr
    refine ⟨[], 1, by simp [Spaces], fun fuel hf => ?_⟩
    cases fuel with
    | zero => omega
    | succ fuel =>
      have h1 := number_complete h hr
      obtain ⟨c, l', rfl, hc⟩ := number_head h
      have key : ∀ k < 256, (isDigit (UInt8.ofNat k) = true ∨ UInt8.ofNat k = 45 → isSpace (UInt8.ofNat k) = false ∧
          UInt8.ofNat k ≠ 34 ∧ UInt8.ofNat k ≠ 110 ∧ UInt8.ofNat k ≠ 116 ∧ UInt8.ofNat k ≠ 102 ∧ UInt8.ofNat k ≠ 123 ∧
          UInt8.ofNat k ≠ 91) := by decide +kernel
      have := key c.toNat c.toNat_lt
      rw [byte_eq rfl] at this
      obtain ⟨k1, k2, k3, k4, k5, k6, k7⟩ := this hc
      have e : skipWs (c :: l' ++ r) = c :: l' ++ r := by simp [skipWs, k1]
      rw [value, e]
      simp only [List.cons_append] at h1 ⊢
      rw [if_neg k2, if_neg k3, if_neg k4, if_neg k5, if_neg k6, if_neg k7, h1]
      rfl
  | @str d t cs h =>
    intro r _
    refine ⟨[], 1, by simp [Spaces], fun fuel hf => ?_⟩
    cases fuel with
    | zero => omega
    | succ fuel =>
      have h1 := string_complete h r
      simp [value, skipWs, isSpace, h1]
  | @empty d s hs =>
    intro r _
    refine ⟨[], 1, by simp [Spaces], fun fuel hf => ?_⟩
    cases fuel with
    | zero => omega
    | succ fuel =>
      have h1 : skipWs (s ++ 93 :: r) = 93 :: r := by rw [skipWs_spaces hs]; simp [skipWs, isSpace]
      simp [value, show ∀ x : Bytes, skipWs (91 :: x) = 91 :: x from fun x => by simp [skipWs, isSpace], h1]
  | @arr d es hne _ ih =>
    intro r _
    obtain ⟨F, h1⟩ := elements_complete hne ih r
    refine ⟨[], F + 1, by simp [Spaces], fun fuel hf => ?_⟩
    cases fuel with
    | zero => omega
    | succ fuel =>
      have h2 := h1 fuel (by omega)
      have e1 : 91 :: List.intercalate [44] (es.map (·.1)) ++ [93] ++ r =
          91 :: (List.intercalate [44] (es.map (·.1)) ++ 93 :: r) := by simp
      rw [e1, value, show ∀ x : Bytes, skipWs (91 :: x) = 91 :: x from fun x => by simp [skipWs, isSpace]]
      generalize List.intercalate [44] (es.map (·.1)) ++ 93 :: r = x at h2
      have hne' : ∀ y, skipWs x ≠ 93 :: y := by
        intro y hy
        cases fuel with
        | zero => simp [elements] at h2
        | succ fuel => rw [elements, value_bracket _ _ _ _ hy] at h2; cases h2
      have hnil : skipWs x ≠ [] := by
        intro hy
        rw [← elements_skip, hy] at h2
        cases fuel with
        | zero => simp [elements] at h2
        | succ fuel =>
          rw [elements] at h2
          cases fuel with
          | zero => simp [value] at h2
          | succ fuel => simp [value, skipWs] at h2
      rw [← elements_skip] at h2
      cases hx : skipWs x with
      | nil => exact absurd hx hnil
      | cons c y =>
        rw [hx] at h2
        have hc : c ≠ 93 := by
          rintro rfl
          exact hne' y hx
        simp [hx, hc, h2]
  | @none d s hs =>
    intro r _
    refine ⟨[], 1, by simp [Spaces], fun fuel hf => ?_⟩
    cases fuel with
    | zero => omega
    | succ fuel =>
      have h1 : skipWs (s ++ 125 :: r) = 125 :: r := by rw [skipWs_spaces hs]; simp [skipWs, isSpace]
      simp [value, show ∀ x : Bytes, skipWs (123 :: x) = 123 :: x from fun x => by simp [skipWs, isSpace], h1]
  | @obj d fs hne hs _ ih =>
    intro r _
    obtain ⟨F, h1⟩ := members_complete hne hs ih r
    refine ⟨[], F + 1, by simp [Spaces], fun fuel hf => ?_⟩
    cases fuel with
    | zero => omega
    | succ fuel =>
      have h2 := h1 fuel (by omega)
      have e1 : 123 :: List.intercalate [44] (fs.map (·.1.all)) ++ [125] ++ r =
          123 :: (List.intercalate [44] (fs.map (·.1.all)) ++ 125 :: r) := by simp
      rw [e1, value, show ∀ x : Bytes, skipWs (123 :: x) = 123 :: x from fun x => by simp [skipWs, isSpace]]
      generalize List.intercalate [44] (fs.map (·.1.all)) ++ 125 :: r = x at h2
      have hx : ∃ y, skipWs x = 34 :: y := by
        cases fuel with
        | zero => simp [members] at h2
        | succ fuel =>
          rw [members] at h2
          split at h2
          · cases h2
          · next c y e =>
            split at h2
            · next hc => exact ⟨y, by rw [e, hc]⟩
            · cases h2
      obtain ⟨y, hx⟩ := hx
      rw [← members_skip, hx] at h2
      simp [hx, h2]

/-- The reader accepts exactly the texts of the grammar, and gives their values. -/
theorem parse_iff (b : Bytes) (v : Value) : parse b = some v ↔ Text 10000 b v := by
  constructor
  · intro h
    unfold parse at h
    split at h
    · next v' r hv =>
      split at h
      · next hr =>
        obtain rfl := Option.some.inj h
        obtain ⟨t, rfl, ht⟩ := (value_sound _).1 _ _ _ _ hv
        obtain ⟨s, hs, e⟩ := skipWs_sound r
        rw [hr, List.append_nil] at e
        subst e
        exact .after hs ht
      · cases h
    · cases h
  · intro h
    obtain ⟨s, F, hs, h1⟩ := value_complete h [] (by intro c hc; cases hc)
    simp only [List.append_nil] at h1
    have h2 : value (2 * b.length + 1) 10000 b = some (v, s) := by
      rw [← h1 (max F (2 * b.length + 1)) (by omega)]
      exact (value_fuel _).1 _ _ _ (by omega) (by omega)
    have h3 : skipWs s = [] := by
      have := skipWs_spaces hs []
      simpa [skipWs] using this
    simp [parse, h2, h3]

end Idemix.Json
