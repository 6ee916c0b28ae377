import Verif.Provider.Examples
import Verif.Provider.PropsRewrite

/-!
# Concrete cases for C80

A key file rewritten by hand, over the toy field.
-/

namespace Idemix.Json

mutual
/-- Whether two values are equal. -/
def same : Value → Value → Bool
  | .null, .null => true
  | .bool a, .bool b => a == b
  | .num a, .num b => a == b
  | .str a, .str b => a == b
  | .arr a, .arr b => sameList a b
  | .obj a, .obj b => sameMembers a b
  | _, _ => false

def sameList : List Value → List Value → Bool
  | [], [] => true
  | a :: l, b :: k => same a b && sameList l k
  | _, _ => false

def sameMember : Bytes × Value → Bytes × Value → Bool
  | (n, a), (m, b) => n == m && same a b

def sameMembers : List (Bytes × Value) → List (Bytes × Value) → Bool
  | [], [] => true
  | a :: l, b :: k => sameMember a b && sameMembers l k
  | _, _ => false
end

mutual
theorem same_eq : ∀ {a b : Value}, same a b = true → a = b
  | .null, b, h => by cases b <;> simp_all [same]
  | .bool a, b, h => by cases b <;> simp_all [same]
  | .num a, b, h => by cases b <;> simp_all [same]
  | .str a, b, h => by cases b <;> simp_all [same]
  | .arr a, b, h => by
    cases b <;> simp only [same, Bool.false_eq_true] at h
    rw [sameList_eq h]
  | .obj a, b, h => by
    cases b <;> simp only [same, Bool.false_eq_true] at h
    rw [sameMembers_eq h]

theorem sameList_eq : ∀ {a b : List Value}, sameList a b = true → a = b
  | [], b, h => by cases b <;> simp_all [sameList]
  | x :: a, b, h => by
    cases b with
    | nil => simp [sameList] at h
    | cons y b =>
      simp only [sameList, Bool.and_eq_true] at h
      rw [same_eq h.1, sameList_eq h.2]

theorem sameMember_eq : ∀ {a b : Bytes × Value}, sameMember a b = true → a = b
  | (n, a), (m, b), h => by
    simp only [sameMember, Bool.and_eq_true, beq_iff_eq] at h
    rw [h.1, same_eq h.2]

theorem sameMembers_eq : ∀ {a b : List (Bytes × Value)}, sameMembers a b = true → a = b
  | [], b, h => by cases b <;> simp_all [sameMembers]
  | x :: a, b, h => by
    cases b with
    | nil => simp [sameMembers] at h
    | cons y b =>
      simp only [sameMembers, Bool.and_eq_true] at h
      rw [sameMember_eq h.1, sameMembers_eq h.2]
end

theorem text_of {t : Bytes} {v : Value} (h : (parse t).any (same · v) = true) : Spec.Text 10000 t v := by
  obtain ⟨w, hw, e⟩ := Option.any_eq_true _ _ |>.mp h
  exact same_eq e ▸ (parse_iff t w).mp hw

end Idemix.Json
namespace Idemix.Provider.Ex

open Spec Json Json.Spec

/-- A file for the user key: another member, an escape and other cases in the names, an array for the bytes. -/
abbrev rewritten : Bytes :=
  ascii ("{ \"note\": [-1.5e3, null],\n\t\"\\u0055serSecretKey\" :{\"SK\":[0,0,0,0, 0,0,0,0, 0,0,0,0, 0,0,0,0," ++
    " 0,0,0,0, 0,0,0,0, 0,0,0,0, 0,0,0,3],\"exportable\":true} }\n")

/-- The same value, written compactly. -/
abbrev compact : Bytes :=
  ascii ("{\"note\":[-1.5e3,null],\"UserSecretKey\":{\"SK\":[0,0,0,0,0,0,0,0,0,0,0,0,0,0,0,0," ++
    "0,0,0,0,0,0,0,0,0,0,0,0,0,0,0,3],\"exportable\":true}}")

abbrev userPart : List (Bytes × Value) :=
  [(ascii "SK", .arr ((Toy.enc32 (3 : Toy.K)).map fun x => .num (ascii (toString x.toNat)))),
    (ascii "exportable", .bool true)]

abbrev rewrittenPart : List (Bytes × Value) :=
  [(ascii "note", .arr [.num (ascii "-1.5e3"), .null]), (ascii "UserSecretKey", .obj userPart)]

theorem rewritten_text : Text 10000 rewritten (.obj rewrittenPart) := text_of (by decide +kernel)

theorem rewritten_describes : Describes (.obj rewrittenPart) userKey := by
  have c1 : Clean rewrittenPart := by
    refine clean_ascii fun m hm => ?_
    simp only [List.mem_cons, List.not_mem_nil, or_false] at hm
    rcases hm with rfl | rfl
    · exact ⟨"note", by decide, rfl⟩
    · exact ⟨"UserSecretKey", by decide, rfl⟩
  have c2 : Clean userPart := by
    refine clean_ascii fun m hm => ?_
    simp only [List.mem_cons, List.not_mem_nil, or_false] at hm
    rcases hm with rfl | rfl
    · exact ⟨"SK", by decide, rfl⟩
    · exact ⟨"exportable", by decide, rfl⟩
  have hb : IsBytes (Toy.enc32 (3 : Toy.K)) (.arr ((Toy.enc32 (3 : Toy.K)).map fun x => .num (ascii (toString x.toNat)))) :=
    .array (List.forall₂_map_right_iff.mpr (List.forall₂_same.mpr fun _ _ => .number))
  refine ⟨_, rfl, without_of letters_nym c1 ?_, field_of letters_user c1 ?_ (.inr ⟨_, by simp; exact .inr rfl, ?_⟩)⟩
  · simp [forField, foldName, ascii]
  · intro m hm hf
    simp only [List.mem_cons, List.not_mem_nil, or_false] at hm
    rcases hm with rfl | rfl
    · simp [forField, foldName, ascii] at hf
    · refine ⟨_, rfl, field_of (by decide) c2 ?_ (.inr ?_), field_of (by decide) c2 ?_ (.inr ?_)⟩
      · intro m hm hf
        simp only [List.mem_cons, List.not_mem_nil, or_false] at hm
        rcases hm with rfl | rfl
        · exact hb
        · simp [forField, foldName, ascii] at hf
      · simp [forField, foldName, ascii]
      · intro m hm hf
        simp only [List.mem_cons, List.not_mem_nil, or_false] at hm
        rcases hm with rfl | rfl
        · simp [forField, foldName, ascii] at hf
        · rfl
      · simp [forField, foldName, ascii]
  · simp [forField, foldName, ascii]

/-- C80_rewritten, C80_same_value: the file gives the user key, and so does the compact one. -/
example : store.get (holding (ascii "ks") noFiles userId rewritten) userId = .ok userKey ∧
    store.get (holding (ascii "ks") noFiles userId compact) userId = .ok userKey :=
  ⟨C80_rewritten (ascii "ks") noFiles userKey userId _ _ rewritten_text rewritten_describes rfl,
    (C80_same_value (B := AB) (ascii "ks") noFiles userId compact rewritten _ (text_of (by decide +kernel))
      rewritten_text).trans
      (C80_rewritten (ascii "ks") noFiles userKey userId _ _ rewritten_text rewritten_describes rfl)⟩

/-- C80_source: the secret of this key is in the file. -/
example : ∃ t v, (holding (ascii "ks") noFiles userId rewritten).file (joinPath (ascii "ks") (hexOf userId)) = some t ∧
    Text 10000 t v ∧ MadeOf v userKey :=
  C80_source (ascii "ks") _ userKey userId
    (C80_rewritten (ascii "ks") noFiles userKey userId _ _ rewritten_text rewritten_describes rfl)

/-- C80_refused: a comma after the last member. -/
example : ∃ m, store.get (holding (ascii "ks") noFiles userId (ascii "{\"UserSecretKey\":{\"Sk\":\"Aw==\"},}")) userId = .err m := by
  refine C80_refused (ascii "ks") noFiles userId _ ?_ rfl
  rintro ⟨v, h⟩
  have h1 := (parse_iff _ v).mpr h
  have h2 : (parse (ascii "{\"UserSecretKey\":{\"Sk\":\"Aw==\"},}")).isNone = true := by decide +kernel
  rw [h1] at h2
  cases h2

/-- C80_written: the files of the user key and of the pseudonym. -/
example : (∃ t v, (storeEvent AB (ascii "ks") noFiles (.complete userKey)).file (joinPath (ascii "ks") (hexOf userId)) = some t ∧
      Text 10000 t v ∧ Describes v userKey) ∧
    ∃ t v, (storeEvent AB (ascii "ks") noFiles (.complete nymKey)).file
      (joinPath (ascii "ks") (hexOf (Ecdsa.toy.sha256 (Toy.enc32 (5 : Toy.K))))) = some t ∧
      Text 10000 t v ∧ Describes v nymKey :=
  ⟨C80_written (ascii "ks") noFiles userKey userId rfl rfl, C80_written (ascii "ks") noFiles nymKey _ rfl rfl⟩

end Idemix.Provider.Ex
