import Verif.Base.JsonLemmas
import Verif.Provider.Entry

/-!
# `json.Unmarshal` into an entry of the key store

`FileBasedKVS.Get` (`bccsp/keystore/kvs/filebased.go:61`) reads whatever is in a file with `json.Unmarshal`. This is
the reader of `encoding/json` for the types of `kvsbased.go:25-40` and `amcl.pb.go:32-38`: members in any order and
with names in any case, repeated members, unknown members, `null`, byte slices written as base64 or as arrays of
numbers. The reader goes on after a value of the wrong type and reports the error in the end; as `Get` then returns
the error, the model stops there.

Simplification: a `null` among the numbers of an array counts as zero.
-/

namespace Idemix.Provider

open Json

/-- A number for an element of a byte slice: digits only, at most 255. -/
def jsonUint8 : Value → Option UInt8
  | .null => some 0
  | .num l =>
    if l.all isDigit then
      let n := l.foldl (fun n c => n * 10 + (c.toNat - 48)) 0
      if n < 256 then some (UInt8.ofNat n) else none
    else none
  | _ => none

/-- A byte slice. -/
def jsonSlice : Value → Option Bytes
  | .null => some []
  | .str s => decode64 s
  | .arr vs => vs.mapM jsonUint8
  | _ => none

/-- A boolean; `null` leaves it as it is. -/
def jsonFlag (old : Bool) : Value → Option Bool
  | .null => some old
  | .bool b => some b
  | _ => none

/-- A pointer to a structure: `null` clears it, and an object is read into the structure it points to, or into a new
one. -/
def jsonStruct {α : Type} (member : α → Bytes × Value → Option α) (zero : α) (old : Option α) : Value → Option (Option α)
  | .null => some none
  | .obj ms => (ms.foldlM member (old.getD zero)).map some
  | _ => none

/-- Whether a member is meant for a field. -/
def forField (name : String) (m : Bytes × Value) : Bool := foldName m.1 == foldName (ascii name)

/-- A member of an `amcl.ECP` (`amcl.pb.go:32-38`). -/
def ecpMember (p : ECP) (m : Bytes × Value) : Option ECP :=
  if forField "x" m then (jsonSlice m.2).map fun x => { p with x := x }
  else if forField "y" m then (jsonSlice m.2).map fun y => { p with y := y }
  else some p

/-- A member of a `NymSecretKey` (`kvsbased.go:25-30`). -/
def nymMember (n : NymEntry) (m : Bytes × Value) : Option NymEntry :=
  if forField "Ski" m then (jsonSlice m.2).map fun x => { n with ski := x }
  else if forField "Sk" m then (jsonSlice m.2).map fun x => { n with sk := x }
  else if forField "Pk" m then (jsonStruct ecpMember ⟨[], []⟩ n.pk m.2).map fun x => { n with pk := x }
  else if forField "Exportable" m then (jsonFlag n.exportable m.2).map fun x => { n with exportable := x }
  else some n

/-- A member of a `UserSecretKey` (`kvsbased.go:32-35`). -/
def userMember (u : UserEntry) (m : Bytes × Value) : Option UserEntry :=
  if forField "Sk" m then (jsonSlice m.2).map fun x => { u with sk := x }
  else if forField "Exportable" m then (jsonFlag u.exportable m.2).map fun x => { u with exportable := x }
  else some u

/-- A member of an `entry` (`kvsbased.go:37-40`). -/
def entryMember (e : Entry) (m : Bytes × Value) : Option Entry :=
  if forField "NymSecretKey" m then
    (jsonStruct nymMember ⟨[], [], none, false⟩ e.nym m.2).map fun x => { e with nym := x }
  else if forField "UserSecretKey" m then
    (jsonStruct userMember ⟨[], false⟩ e.user m.2).map fun x => { e with user := x }
  else some e

/-- `json.Unmarshal` into an empty entry (`filebased.go:61`). -/
def jsonEntry (b : Bytes) : Res Entry :=
  match parse b with
  | some .null => .ok {}
  | some (.obj ms) => Res.ofOption "cannot unmarshal" (ms.foldlM entryMember {})
  | some _ => .err "cannot unmarshal"
  | none => .err "syntax error"

/-! ## The texts of entries -/

theorem slice_base64 (b : Bytes) : jsonSlice (.str (base64 b)) = some b := decode64_base64 b

/-- The value that is the text of a point. -/
def ecpValue : Option ECP → Value
  | none => .null
  | some p => .obj ((if p.x = [] then [] else [(ascii "x", .str (base64 p.x))]) ++
      (if p.y = [] then [] else [(ascii "y", .str (base64 p.y))]))

/-- The value that is the text of a pseudonym entry. -/
def nymValue (n : NymEntry) : Value :=
  .obj [(ascii "Ski", .str (base64 n.ski)), (ascii "Sk", .str (base64 n.sk)), (ascii "Pk", ecpValue n.pk),
    (ascii "Exportable", .bool n.exportable)]

/-- The value that is the text of a user entry. -/
def userValue (u : UserEntry) : Value :=
  .obj [(ascii "Sk", .str (base64 u.sk)), (ascii "Exportable", .bool u.exportable)]

/-- The value that is the text of an entry. -/
def entryValue (e : Entry) : Value :=
  .obj ((match e.nym with | none => [] | some n => [(ascii "NymSecretKey", nymValue n)]) ++
    (match e.user with | none => [] | some u => [(ascii "UserSecretKey", userValue u)]))

theorem is_ecp {d : Nat} (p : Option ECP) : Is (d + 1) (ecpText p) (ecpValue p) := by
  rcases p with _ | ⟨_ | ⟨a, x⟩, _ | ⟨b, y⟩⟩
  · exact is_null
  · exact is_empty
  · have := is_obj (isMembers_last (d := d) (k := ascii "y") (by decide) (is_bytes (b :: y)))
    simpa [ecpText, ecpMembers, ecpValue, ascii] using this
  · have := is_obj (isMembers_last (d := d) (k := ascii "x") (by decide) (is_bytes (a :: x)))
    simpa [ecpText, ecpMembers, ecpValue, ascii] using this
  · have := is_obj (isMembers_cons (d := d) (k := ascii "x") (by decide) (is_bytes (a :: x))
      (isMembers_last (k := ascii "y") (by decide) (is_bytes (b :: y))))
    simpa [ecpText, ecpMembers, ecpValue, ascii] using this

theorem is_nym {d : Nat} (n : NymEntry) : Is (d + 2) (nymText n) (nymValue n) := by
  have := is_obj (isMembers_cons (d := d + 1) (k := ascii "Ski") (by decide) (is_bytes n.ski)
    (isMembers_cons (k := ascii "Sk") (by decide) (is_bytes n.sk)
    (isMembers_cons (k := ascii "Pk") (by decide) (is_ecp n.pk)
    (isMembers_last (k := ascii "Exportable") (by decide) (is_bool n.exportable)))))
  simpa [nymText, nymValue, ascii] using this

theorem is_user {d : Nat} (u : UserEntry) : Is (d + 1) (userText u) (userValue u) := by
  have := is_obj (isMembers_cons (d := d) (k := ascii "Sk") (by decide) (is_bytes u.sk)
    (isMembers_last (k := ascii "Exportable") (by decide) (is_bool u.exportable)))
  simpa [userText, userValue, ascii] using this

theorem is_entry {d : Nat} (e : Entry) : Is (d + 3) (entryText e) (entryValue e) := by
  rcases e with ⟨_ | n, _ | u⟩
  · exact is_empty
  · have := is_obj (isMembers_last (d := d + 2) (k := ascii "UserSecretKey") (by decide) (is_user u))
    simpa [entryText, entryValue, ascii] using this
  · have := is_obj (isMembers_last (d := d + 2) (k := ascii "NymSecretKey") (by decide) (is_nym n))
    simpa [entryText, entryValue, ascii] using this
  · have := is_obj (isMembers_cons (d := d + 2) (k := ascii "NymSecretKey") (by decide) (is_nym n)
      (isMembers_last (k := ascii "UserSecretKey") (by decide) (is_user u)))
    simpa [entryText, entryValue, ascii] using this

theorem entry_value (e : Entry) :
    value (2 * (entryText e).length + 1) 10000 (entryText e) = some (entryValue e, []) := by
  have := is_entry (d := 9997) e [] (2 * (entryText e).length + 1) (by simp)
  simpa using this

theorem entryText_brace (e : Entry) : ∃ t, entryText e = 123 :: t := by
  rcases e with ⟨_ | n, _ | u⟩ <;> exact ⟨_, rfl⟩

theorem read_ecp (old p : Option ECP) (h : old = none) : jsonStruct ecpMember ⟨[], []⟩ old (ecpValue p) = some p := by
  subst h
  rcases p with _ | ⟨_ | ⟨a, x⟩, _ | ⟨b, y⟩⟩
  · rfl
  · rfl
  · simp [jsonStruct, ecpValue, ecpMember, forField, foldName, ascii, slice_base64]
  · simp [jsonStruct, ecpValue, ecpMember, forField, foldName, ascii, slice_base64]
  · simp [jsonStruct, ecpValue, ecpMember, forField, foldName, ascii, slice_base64]

theorem read_nymEntry (n : NymEntry) : jsonStruct nymMember ⟨[], [], none, false⟩ none (nymValue n) = some (some n) := by
  have h := read_ecp none n.pk rfl
  show Option.map some (List.foldlM nymMember ⟨[], [], none, false⟩ [(ascii "Ski", .str (base64 n.ski)),
    (ascii "Sk", .str (base64 n.sk)), (ascii "Pk", ecpValue n.pk), (ascii "Exportable", .bool n.exportable)]) = _
  simp [nymMember, forField, foldName, ascii, slice_base64, h, jsonFlag]

theorem read_userEntry (u : UserEntry) : jsonStruct userMember ⟨[], false⟩ none (userValue u) = some (some u) := by
  simp [jsonStruct, userValue, userMember, forField, foldName, ascii, slice_base64, jsonFlag]

/-- `json.Unmarshal` gives back what `json.Marshal` was given. -/
theorem jsonEntry_text (e : Entry) : jsonEntry (entryText e) = .ok e := by
  have h : parse (entryText e) = some (entryValue e) := by
    simp [parse, entry_value, skipWs]
  unfold jsonEntry
  rw [h]
  rcases e with ⟨_ | n, _ | u⟩ <;>
    simp [entryValue, entryMember, forField, foldName, ascii, read_nymEntry, read_userEntry, Res.ofOption]

/-- A proper beginning of the text of an entry is not JSON. -/
theorem jsonEntry_prefix (e : Entry) (b : Bytes) (hb : b <+: entryText e) (hne : b ≠ entryText e) :
    ∃ m, jsonEntry b = .err m := by
  obtain ⟨t, ht⟩ := entryText_brace e
  have h := entry_value e
  rw [ht] at h hb hne
  have := (parse_whole (s := []) rfl h).2 b hb hne
  exact ⟨"syntax error", by simp [jsonEntry, this]⟩

/-- A text with a NUL byte is not JSON. -/
theorem jsonEntry_nul (b : Bytes) (h : (0 : UInt8) ∈ b) : ∃ m, jsonEntry b = .err m := by
  refine ⟨"syntax error", ?_⟩
  have : parse b = none := by
    cases hp : parse b with
    | none => rfl
    | some v =>
      have := parse_allowed hp 0 h
      simp [Allowed, isSpace] at this
  simp [jsonEntry, this]

/-- The text of an entry followed by anything but white space is not JSON. -/
theorem jsonEntry_more (e : Entry) (s : Bytes) (h : skipWs s ≠ []) : ∃ m, jsonEntry (entryText e ++ s) = .err m := by
  refine ⟨"syntax error", ?_⟩
  obtain ⟨t, ht⟩ := entryText_brace e
  have h1 := entry_value e
  rw [ht] at h1
  have := (parse_whole (s := s) rfl h1).1 h
  rw [← ht] at this
  simp [jsonEntry, this]

/-- Reading a text does not panic. -/
theorem jsonEntry_ne_panic (b : Bytes) : jsonEntry b ≠ .panic := by
  unfold jsonEntry
  split
  · simp
  · rename_i ms _
    cases ms.foldlM entryMember {} <;> simp [Res.ofOption]
  · simp
  · simp

end Idemix.Provider
