import Verif.Base.Text

/-!
# Reading JSON

The part of `encoding/json` that `json.Unmarshal` needs: the grammar of JSON texts, the contents of strings, base64
and the folding of member names. Strings and member names are unquoted, numbers keep their literal.
-/

namespace Idemix.Json

abbrev Bytes := List UInt8

/-- A JSON value. Members of objects are kept in the order of the text, repeated ones included. -/
inductive Value where
  | null
  | bool (b : Bool)
  | num (literal : Bytes)
  | str (s : Bytes)
  | arr (elements : List Value)
  | obj (members : List (Bytes × Value))

/-! ## Strings -/

/-- Space, tab, line feed and carriage return (`isSpace` of `encoding/json`). -/
def isSpace (c : UInt8) : Bool := c == 32 || c == 9 || c == 10 || c == 13

/-- Text without the white space in front of it. -/
def skipWs : Bytes → Bytes
  | [] => []
  | c :: r => if isSpace c then skipWs r else c :: r

/-- The value of a hexadecimal digit. -/
def hexDigitVal (c : UInt8) : Option Nat :=
  if 48 ≤ c.toNat ∧ c.toNat ≤ 57 then some (c.toNat - 48)
  else if 97 ≤ c.toNat ∧ c.toNat ≤ 102 then some (c.toNat - 87)
  else if 65 ≤ c.toNat ∧ c.toNat ≤ 70 then some (c.toNat - 55)
  else none

/-- The number written in four hexadecimal digits. -/
def hex4 (a b c d : UInt8) : Option Nat := do
  let w ← hexDigitVal a
  let x ← hexDigitVal b
  let y ← hexDigitVal c
  let z ← hexDigitVal d
  pure (((w * 16 + x) * 16 + y) * 16 + z)

/-- What a backslash followed by a character other than `u` stands for. -/
def escaped (c : UInt8) : Option UInt8 :=
  if c = 34 ∨ c = 92 ∨ c = 47 then some c
  else if c = 98 then some 8
  else if c = 102 then some 12
  else if c = 110 then some 10
  else if c = 114 then some 13
  else if c = 116 then some 9
  else none

/-- The pieces of the contents of a string. -/
inductive Piece where
  | raw (c : UInt8)
  | unit (n : Nat)

/-- The contents of a string after its opening quote, up to the closing quote: the pieces and the text that follows.
Control characters and other escapes are refused. -/
def scanString : Bytes → Option (List Piece × Bytes)
  | [] => none
  | 92 :: 117 :: a :: b :: c :: d :: r => do
    let n ← hex4 a b c d
    let (ps, r') ← scanString r
    pure (.unit n :: ps, r')
  | 92 :: c :: r => do
    let x ← escaped c
    let (ps, r') ← scanString r
    pure (.raw x :: ps, r')
  | c :: r =>
    if c = 34 then some ([], r)
    else if c.toNat < 32 ∨ c = 92 then none
    else do
      let (ps, r') ← scanString r
      pure (.raw c :: ps, r')

/-- The UTF-8 encoding of a code point (`utf8.AppendRune`). -/
def utf8Encode (n : Nat) : Bytes :=
  if n < 128 then [UInt8.ofNat n]
  else if n < 2048 then [UInt8.ofNat (192 + n / 64), UInt8.ofNat (128 + n % 64)]
  else if n < 65536 then [UInt8.ofNat (224 + n / 4096), UInt8.ofNat (128 + n / 64 % 64), UInt8.ofNat (128 + n % 64)]
  else [UInt8.ofNat (240 + n / 262144), UInt8.ofNat (128 + n / 4096 % 64), UInt8.ofNat (128 + n / 64 % 64),
    UInt8.ofNat (128 + n % 64)]

/-- The replacement character U+FFFD. -/
def replacement : Bytes := [239, 191, 189]

/-- A continuation byte between `lo` and `hi`. -/
def cont (lo hi : Nat) : Piece → Option UInt8
  | .raw c => if lo ≤ c.toNat ∧ c.toNat ≤ hi then some c else none
  | .unit _ => none

/-- The contents of a string as bytes (`unquoteBytes` of `encoding/json`): surrogate pairs are combined, and lone
surrogates and bytes that are not UTF-8 become the replacement character. -/
def unquote : List Piece → Bytes
  | [] => []
  | .unit n :: ps =>
    if 55296 ≤ n ∧ n ≤ 57343 then
      match ps with
      | .unit m :: qs =>
        if n ≤ 56319 ∧ 56320 ≤ m ∧ m ≤ 57343 then
          utf8Encode ((n - 55296) * 1024 + (m - 56320) + 65536) ++ unquote qs
        else replacement ++ unquote (.unit m :: qs)
      | qs => replacement ++ unquote qs
    else utf8Encode n ++ unquote ps
  | .raw c :: ps =>
    let n := c.toNat
    if n < 128 then c :: unquote ps
    else if 194 ≤ n ∧ n ≤ 223 then
      match ps with
      | p :: qs =>
        match cont 128 191 p with
        | some x => c :: x :: unquote qs
        | none => replacement ++ unquote (p :: qs)
      | [] => replacement
    else if 224 ≤ n ∧ n ≤ 239 then
      match ps with
      | p :: q :: qs =>
        match cont (if n = 224 then 160 else 128) (if n = 237 then 159 else 191) p, cont 128 191 q with
        | some x, some y => c :: x :: y :: unquote qs
        | _, _ => replacement ++ unquote (p :: q :: qs)
      | qs => replacement ++ unquote qs
    else if 240 ≤ n ∧ n ≤ 244 then
      match ps with
      | p :: q :: o :: qs =>
        match cont (if n = 240 then 144 else 128) (if n = 244 then 143 else 191) p, cont 128 191 q, cont 128 191 o with
        | some x, some y, some z => c :: x :: y :: z :: unquote qs
        | _, _, _ => replacement ++ unquote (p :: q :: o :: qs)
      | qs => replacement ++ unquote qs
    else replacement ++ unquote ps
  termination_by ps => ps.length

/-- A string, after its opening quote. -/
def string (b : Bytes) : Option (Bytes × Bytes) := (scanString b).map fun (ps, r) => (unquote ps, r)

/-! ## Numbers -/

/-- A decimal digit. -/
def isDigit (c : UInt8) : Bool := decide (48 ≤ c.toNat ∧ c.toNat ≤ 57)

/-- The digits in front of a text, and the text after them. -/
def digits : Bytes → Bytes × Bytes
  | [] => ([], [])
  | c :: r => if isDigit c then (c :: (digits r).1, (digits r).2) else ([], c :: r)

/-- One digit or more. -/
def digits1 (b : Bytes) : Option (Bytes × Bytes) :=
  match digits b with
  | ([], _) => none
  | (ds, r) => some (ds, r)

/-- The integer part: `0`, or digits that do not begin with `0`. -/
def integer : Bytes → Option (Bytes × Bytes)
  | [] => none
  | c :: r => if c = 48 then some ([48], r) else digits1 (c :: r)

/-- The fraction, if there is one. -/
def fraction : Bytes → Option (Bytes × Bytes)
  | [] => some ([], [])
  | c :: r => if c = 46 then (digits1 r).map fun (ds, r') => (46 :: ds, r') else some ([], c :: r)

/-- The exponent, if there is one. -/
def exponent : Bytes → Option (Bytes × Bytes)
  | [] => some ([], [])
  | c :: r =>
    if c = 101 ∨ c = 69 then
      match r with
      | [] => none
      | s :: r' =>
        if s = 43 ∨ s = 45 then (digits1 r').map fun (ds, r'') => (c :: s :: ds, r'')
        else (digits1 (s :: r')).map fun (ds, r'') => (c :: ds, r'')
    else some ([], c :: r)

/-- An unsigned number. -/
def unsigned (b : Bytes) : Option (Bytes × Bytes) := do
  let (i, r) ← integer b
  let (f, r) ← fraction r
  let (e, r) ← exponent r
  pure (i ++ f ++ e, r)

/-- A number: an optional minus, the integer part, and optional fraction and exponent. -/
def number : Bytes → Option (Bytes × Bytes)
  | [] => none
  | c :: r => if c = 45 then (unsigned r).map fun (l, r') => (45 :: l, r') else unsigned (c :: r)

/-! ## Values -/

/-- The rest of a keyword. -/
def keyword : Bytes → Bytes → Option Bytes
  | [], r => some r
  | _ :: _, [] => none
  | k :: ks, c :: r => if c = k then keyword ks r else none

mutual

/-- A value, and the text after it. `fuel` bounds the number of recursive calls (one more than twice the length of the
text is always enough, `value_fuel`), `depth` the number of objects and arrays around each other that are still allowed
(`maxNestingDepth` of `encoding/json`). -/
def value (fuel depth : Nat) (b : Bytes) : Option (Value × Bytes) :=
  match fuel with
  | 0 => none
  | fuel + 1 =>
    match skipWs b with
    | [] => none
    | c :: r =>
      if c = 34 then (string r).map fun (s, r') => (.str s, r')
      else if c = 110 then (keyword (ascii "ull") r).map fun r' => (.null, r')
      else if c = 116 then (keyword (ascii "rue") r).map fun r' => (.bool true, r')
      else if c = 102 then (keyword (ascii "alse") r).map fun r' => (.bool false, r')
      else if c = 123 then
        match depth with
        | 0 => none
        | depth + 1 =>
          match skipWs r with
          | [] => none
          | c' :: r' => if c' = 125 then some (.obj [], r') else
              (members fuel depth (c' :: r')).map fun (ms, r'') => (.obj ms, r'')
      else if c = 91 then
        match depth with
        | 0 => none
        | depth + 1 =>
          match skipWs r with
          | [] => none
          | c' :: r' => if c' = 93 then some (.arr [], r') else
              (elements fuel depth (c' :: r')).map fun (vs, r'') => (.arr vs, r'')
      else (number (c :: r)).map fun (l, r') => (.num l, r')

/-- One member or more, up to the closing brace. -/
def members (fuel depth : Nat) (b : Bytes) : Option (List (Bytes × Value) × Bytes) :=
  match fuel with
  | 0 => none
  | fuel + 1 =>
    match skipWs b with
    | [] => none
    | c :: r =>
      if c = 34 then do
        let (k, r) ← string r
        match skipWs r with
        | [] => none
        | c :: r =>
          if c = 58 then do
            let (v, r) ← value fuel depth r
            match skipWs r with
            | [] => none
            | c :: r =>
              if c = 44 then do
                let (ms, r) ← members fuel depth r
                pure ((k, v) :: ms, r)
              else if c = 125 then pure ([(k, v)], r)
              else none
          else none
      else none

/-- One element or more, up to the closing bracket. -/
def elements (fuel depth : Nat) (b : Bytes) : Option (List Value × Bytes) :=
  match fuel with
  | 0 => none
  | fuel + 1 => do
    let (v, r) ← value fuel depth b
    match skipWs r with
    | [] => none
    | c :: r =>
      if c = 44 then do
        let (vs, r) ← elements fuel depth r
        pure (v :: vs, r)
      else if c = 93 then pure ([v], r)
      else none

end

/-- A JSON text: one value, with nothing but white space after it (`checkValid` of `encoding/json`). -/
def parse (b : Bytes) : Option Value :=
  match value (2 * b.length + 1) 10000 b with
  | some (v, r) => if skipWs r = [] then some v else none
  | none => none

/-! ## Base64 and member names -/

/-- The value of a base64 character. -/
def b64Digit (c : UInt8) : Option Nat := if b64Val c < 64 ∧ b64Char (b64Val c) = c then some (b64Val c) else none

/-- `base64.StdEncoding` on a text without line breaks: groups of four, padding only at the end; unused bits are not
checked. -/
def unbase64' : Bytes → Option Bytes
  | [] => some []
  | p :: q :: r :: s :: rest => do
    let vp ← b64Digit p
    let vq ← b64Digit q
    if r = 61 then
      if s = 61 ∧ rest = [] then pure [UInt8.ofNat (vp * 4 + vq / 16)] else none
    else do
      let vr ← b64Digit r
      if s = 61 then
        if rest = [] then pure [UInt8.ofNat (vp * 4 + vq / 16), UInt8.ofNat (vq % 16 * 16 + vr / 4)] else none
      else do
        let vs ← b64Digit s
        let more ← unbase64' rest
        pure (UInt8.ofNat (vp * 4 + vq / 16) :: UInt8.ofNat (vq % 16 * 16 + vr / 4) ::
          UInt8.ofNat (vr % 4 * 64 + vs) :: more)
  | _ => none

/-- `base64.StdEncoding.DecodeString`, which ignores line feeds and carriage returns. -/
def decode64 (s : Bytes) : Option Bytes := unbase64' (s.filter fun c => c != 10 && c != 13)

/-- `foldName` of `encoding/json`, as far as names that fold to ASCII go: letters are compared without regard to
case, and the long s (U+017F) and the Kelvin sign (U+212A) are variants of `s` and `k`. -/
def foldName : Bytes → Bytes
  | [] => []
  | 197 :: 191 :: r => 83 :: foldName r
  | 226 :: 132 :: 170 :: r => 75 :: foldName r
  | c :: r => (if 97 ≤ c.toNat ∧ c.toNat ≤ 122 then c - 32 else c) :: foldName r

end Idemix.Json
