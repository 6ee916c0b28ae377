import Verif.Base.Res

/-!
# Message codecs, ECDSA and attribute values

Protobuf, ASN.1/ECDSA and SHA-256 are dependencies of the repository; the model uses them through the
interfaces below.
-/

namespace Idemix

/-- `proto.Marshal` / `proto.Unmarshal` of one message type. `wf` are the messages that survive the
round trip exactly: protobuf does not distinguish empty from absent byte fields, nor nil from empty
entries of a repeated message field. Marshalling fails only for strings that are not UTF-8. -/
structure Codec (α : Type) (wf : α → Prop) where
  marshal : α → Res Bytes
  unmarshal : Bytes → Res α
  rt : ∀ a b, wf a → marshal a = .ok b → unmarshal b = .ok a
  marshal_np : ∀ a, marshal a ≠ .panic
  unmarshal_np : ∀ b, unmarshal b ≠ .panic

/-- A codec for a finite table of messages (used by the examples). -/
def Codec.ofList {α : Type} [DecidableEq α] (l : List α) (wf : α → Prop) : Codec α wf where
  marshal a := if a ∈ l ∧ l.idxOf a < 256 then .ok [UInt8.ofNat (l.idxOf a)] else .err "marshal"
  unmarshal b := match b with
    | [i] => Res.ofOption "unmarshal" l[i.toNat]?
    | _ => .err "unmarshal"
  rt a b _ h := by
    split at h
    · next hm =>
      cases h
      have h1 : (UInt8.ofNat (l.idxOf a)).toNat = l.idxOf a := by
        rw [UInt8.toNat_ofNat']; exact Nat.mod_eq_of_lt hm.2
      have h2 : l[l.idxOf a]? = some a := by
        rw [List.getElem?_eq_getElem (List.idxOf_lt_length_iff.mpr hm.1), List.getElem_idxOf]
      simp only [h1, h2, Res.ofOption_some]
    · cases h
  marshal_np a h := by split at h <;> cases h
  unmarshal_np b h := by
    split at h
    · next i => cases hh : l[i.toNat]? <;> rw [hh] at h <;> cases h
    · cases h

/-- ECDSA with ASN.1 signatures, and SHA-256 (`crypto/ecdsa`, `crypto/sha256`). `sign` takes the
randomness of the signer. -/
structure Ecdsa where
  Sk : Type
  Pk : Type
  Rnd : Type
  pub : Sk → Pk
  sha256 : Bytes → Bytes
  sign : Sk → Rnd → Bytes → Res Bytes
  verify : Pk → Bytes → Bytes → Bool
  complete : ∀ sk ρ d sig, sign sk ρ d = .ok sig → verify (pub sk) d sig = true
  sign_np : ∀ sk ρ d, sign sk ρ d ≠ .panic

/-- A stand-in for the examples: the signature is the tagged digest. -/
@[reducible] def Ecdsa.toy : Ecdsa where
  Sk := UInt8
  Pk := UInt8
  Rnd := Unit
  pub := id
  sha256 := id
  sign sk _ d := .ok (sk :: d)
  verify pk d sig := decide (sig = pk :: d)
  complete sk _ d sig h := by cases h; simp
  sign_np _ _ _ h := by cases h

/-- The dynamic value of `types.IdemixAttribute.Value` (an `any`). -/
inductive AttrValue where
  | bytes (b : Bytes)
  | int (i : Int)
  | int64 (i : Int)
  | other
  deriving DecidableEq, Repr

/-- `types.IdemixAttribute` (`bccsp/types/idemixopts.go:205-224`). The type is the raw number: 0 hidden,
1 bytes, 2 int. -/
structure IdemixAttribute where
  type : Int
  value : AttrValue
  deriving DecidableEq, Repr

/-- An interface value expected to hold a pointer of one particular type: the expected one, a nil
pointer of that type, or something else (including a nil interface). -/
inductive Dyn (α : Type) where
  | val (a : α)
  | nilPtr
  | other
  deriving DecidableEq, Repr

/-- `x, ok := v.(*T)`, `!ok` being an error, followed by a dereference. -/
def Dyn.get {α : Type} (d : Dyn α) (msg : String) : Res α :=
  match d with
  | .val a => .ok a
  | .nilPtr => .panic
  | .other => .err msg

@[simp] theorem Dyn.get_val {α : Type} (a : α) (m : String) : (Dyn.val a).get m = .ok a := rfl
@[simp] theorem Dyn.get_eq_ok {α : Type} {d : Dyn α} {m : String} {a : α} :
    d.get m = .ok a ↔ d = .val a := by cases d <;> simp [Dyn.get]

end Idemix
