import Verif.Base.Text
import Verif.Provider.Csp

/-!
# Entries of the key store and their texts

Model of the types of `bccsp/keystore/kvsbased.go` and of what `json.Marshal` makes of them.
-/

namespace Idemix.Provider

/-! ## Entries -/

/-- `NymSecretKey` (`kvsbased.go:25-30`). -/
structure NymEntry where
  ski : Bytes
  sk : Bytes
  pk : Option ECP
  exportable : Bool
  deriving DecidableEq

/-- `UserSecretKey` (`kvsbased.go:32-35`). -/
structure UserEntry where
  sk : Bytes
  exportable : Bool
  deriving DecidableEq

/-- `entry` (`kvsbased.go:37-40`). -/
structure Entry where
  nym : Option NymEntry := none
  user : Option UserEntry := none
  deriving DecidableEq

/-- The `x` and `y` members of a point, each left out if empty (`amcl.pb.go:34-35`). -/
def ecpMembers (p : ECP) : Bytes :=
  match p.x, p.y with
  | [], [] => []
  | x :: xs, [] => ascii "\"x\":" ++ jsonBytes (x :: xs)
  | [], y :: ys => ascii "\"y\":" ++ jsonBytes (y :: ys)
  | x :: xs, y :: ys => ascii "\"x\":" ++ (jsonBytes (x :: xs) ++ (ascii ",\"y\":" ++ jsonBytes (y :: ys)))

/-- `json.Marshal` of a point. -/
def ecpText : Option ECP → Bytes
  | none => ascii "null"
  | some p => ascii "{" ++ (ecpMembers p ++ ascii "}")

/-- `json.Marshal` of a pseudonym entry. -/
def nymText (n : NymEntry) : Bytes :=
  ascii "{\"Ski\":" ++ (jsonBytes n.ski ++ (ascii ",\"Sk\":" ++ (jsonBytes n.sk ++ (ascii ",\"Pk\":" ++ (ecpText n.pk ++
    (ascii ",\"Exportable\":" ++ (jsonBool n.exportable ++ ascii "}")))))))

/-- `json.Marshal` of a user entry. -/
def userText (u : UserEntry) : Bytes :=
  ascii "{\"Sk\":" ++ (jsonBytes u.sk ++ (ascii ",\"Exportable\":" ++ (jsonBool u.exportable ++ ascii "}")))

/-- `json.Marshal` of an entry, which cannot fail. Nil byte slices, which marshal to `null`, are not distinguished
from empty ones. -/
def entryText (e : Entry) : Bytes :=
  match e.nym, e.user with
  | none, none => ascii "{}"
  | some n, none => ascii "{\"NymSecretKey\":" ++ (nymText n ++ ascii "}")
  | none, some u => ascii "{\"UserSecretKey\":" ++ (userText u ++ ascii "}")
  | some n, some u =>
    ascii "{\"NymSecretKey\":" ++ (nymText n ++ (ascii ",\"UserSecretKey\":" ++ (userText u ++ ascii "}")))

end Idemix.Provider
