import Mathlib.Data.List.Basic
import Mathlib.Tactic.Tauto

/-!
# `msp/roles.go` and property C54
-/

namespace Idemix.Msp

/-- Go's 64-bit `int`. -/
abbrev GoInt := BitVec 64

/-- `Role` (`roles.go:13`), an `int32`. -/
abbrev Role := BitVec 32

/-- The constants (`roles.go:17-20`). -/
def MEMBER : Role := 1
/-- See `MEMBER`. -/
def ADMIN : Role := 2
/-- See `MEMBER`. -/
def CLIENT : Role := 4
/-- See `MEMBER`. -/
def PEER : Role := 8

/-- `Role.getValue` (`roles.go:24-26`). -/
def Role.getValue (r : Role) : GoInt := r.signExtend 64

/-- `checkRole` (`roles.go:29-31`). -/
def checkRole (bitmask : GoInt) (role : Role) : Bool := (bitmask &&& Role.getValue role) == Role.getValue role

/-- `getRoleMaskFromIdemixRoles` (`roles.go:34-41`). -/
def getRoleMaskFromIdemixRoles (roles : List Role) : GoInt :=
  roles.foldl (fun mask role => mask ||| Role.getValue role) 0

/-- `GetRoleMaskFromIdemixRole` (`roles.go:44-46`). -/
def getRoleMaskFromIdemixRole (role : Role) : GoInt := getRoleMaskFromIdemixRoles [role]

/-- `getIdemixRoleFromMSPRoleValue` (`roles.go:59-72`), with the values of fabric's enumeration
`MSPRole_MSPRoleType`: MEMBER 0, ADMIN 1, CLIENT 2, PEER 3, ORDERER 4. `getIdemixRoleFromMSPRole` and
`getIdemixRoleFromMSPRoleType` (`roles.go:49-56`) convert to it. -/
def getIdemixRoleFromMSPRoleValue (role : Int) : GoInt :=
  if role = 1 then Role.getValue ADMIN
  else if role = 2 then Role.getValue CLIENT
  else if role = 0 then Role.getValue MEMBER
  else if role = 3 then Role.getValue PEER
  else Role.getValue MEMBER

/-! ## Specification -/

/-- The roles the package defines. -/
def Spec.roles : List Role := [1, 2, 4, 8]

/-- Bit `i` of a role is set (roles are sign-extended: bits above 31 are the sign). -/
def Spec.bit (r : Role) (i : Nat) : Prop := r.getLsbD (min i 31) = true

/-! ## Proofs -/

theorem getValue_bit (r : Role) (i : Nat) (h : i < 64) : (Role.getValue r).getLsbD i = r.getLsbD (min i 31) := by
  rw [Role.getValue, BitVec.getLsbD_signExtend]
  by_cases h' : i < 32
  · have : min i 31 = i := by omega
    simp [h, h', this]
  · have : min i 31 = 31 := by omega
    simp [h, h', this, BitVec.msb_eq_getLsbD_last]

theorem foldl_bit (roles : List Role) (m : GoInt) (i : Nat) (h : i < 64) :
    (roles.foldl (fun mask role => mask ||| Role.getValue role) m).getLsbD i = true ↔
      m.getLsbD i = true ∨ ∃ r ∈ roles, Spec.bit r i := by
  induction roles generalizing m with
  | nil => simp
  | cons r rs ih =>
    rw [List.foldl_cons, ih, BitVec.getLsbD_or, getValue_bit r i h, Bool.or_eq_true]
    simp only [List.mem_cons, exists_eq_or_imp, Spec.bit]
    tauto

theorem checkRole_iff (m : GoInt) (r : Role) :
    checkRole m r = true ↔ ∀ i < 64, Spec.bit r i → m.getLsbD i = true := by
  rw [checkRole, beq_iff_eq]
  constructor
  · intro h i hi hb
    have := congrArg (fun x => x.getLsbD i) h
    simp only [BitVec.getLsbD_and, getValue_bit r i hi] at this
    rw [Spec.bit] at hb
    rw [hb] at this
    simpa using this
  · intro h
    apply BitVec.eq_of_getLsbD_eq
    intro i hi
    rw [BitVec.getLsbD_and, getValue_bit r i hi]
    cases hb : r.getLsbD (min i 31)
    · simp
    · rw [h i hi hb]; rfl

/-- C54, for all integers: a role is contained in the mask of a list of roles iff each of its bits is a bit of some
role of the list. -/
theorem C54_mask_bits (roles : List Role) (r : Role) :
    checkRole (getRoleMaskFromIdemixRoles roles) r = true ↔
      ∀ i < 64, Spec.bit r i → ∃ r' ∈ roles, Spec.bit r' i := by
  rw [checkRole_iff]
  refine forall₂_congr fun i hi => imp_congr_right fun _ => ?_
  rw [getRoleMaskFromIdemixRoles, foldl_bit roles 0 i hi]
  simp

/-- C54. A defined role is contained in the mask of a list of defined roles iff it is one of the list. -/
theorem C54_contains_iff_mem (roles : List Role) (h : ∀ r ∈ roles, r ∈ Spec.roles) (r : Role) (hr : r ∈ Spec.roles) :
    checkRole (getRoleMaskFromIdemixRoles roles) r = true ↔ r ∈ roles := by
  rw [C54_mask_bits]
  constructor
  · intro hb
    have key : ∀ i, i < 64 → Spec.bit r i → (∀ r' ∈ Spec.roles, Spec.bit r' i → r' = r) → r ∈ roles := by
      intro i hi hri hu
      obtain ⟨r', hm, hb'⟩ := hb i hi hri
      rw [← hu r' (h r' hm) hb']; exact hm
    simp only [Spec.roles, List.mem_cons, List.not_mem_nil, or_false] at hr
    rcases hr with rfl | rfl | rfl | rfl
    · exact key 0 (by decide) rfl (by simp [Spec.roles, Spec.bit])
    · exact key 1 (by decide) rfl (by simp [Spec.roles, Spec.bit])
    · exact key 2 (by decide) rfl (by simp [Spec.roles, Spec.bit])
    · exact key 3 (by decide) rfl (by simp [Spec.roles, Spec.bit])
  · intro hm i _ hb
    exact ⟨r, hm, hb⟩

/-- C54. The mask of one role contains exactly that role of the defined ones. -/
theorem C54_single_role (r r' : Role) (hr : r ∈ Spec.roles) (hr' : r' ∈ Spec.roles) :
    checkRole (getRoleMaskFromIdemixRole r) r' = true ↔ r' = r := by
  rw [getRoleMaskFromIdemixRole, C54_contains_iff_mem [r] (by simpa using hr) r' hr']
  simp

/-- C54. Masks of defined roles depend on the set of roles only, and determine it. -/
theorem C54_masks_determine_sets (rs rs' : List Role) (h : ∀ r ∈ rs, r ∈ Spec.roles) (h' : ∀ r ∈ rs', r ∈ Spec.roles) :
    getRoleMaskFromIdemixRoles rs = getRoleMaskFromIdemixRoles rs' ↔ ∀ r, r ∈ rs ↔ r ∈ rs' := by
  constructor
  · intro e r
    constructor
    · intro hr
      rw [← C54_contains_iff_mem rs' h' r (h r hr), ← e]
      exact (C54_contains_iff_mem rs h r (h r hr)).mpr hr
    · intro hr
      rw [← C54_contains_iff_mem rs h r (h' r hr), e]
      exact (C54_contains_iff_mem rs' h' r (h' r hr)).mpr hr
  · intro e
    apply BitVec.eq_of_getLsbD_eq
    intro i hi
    rw [Bool.eq_iff_iff, getRoleMaskFromIdemixRoles, getRoleMaskFromIdemixRoles, foldl_bit _ _ _ hi, foldl_bit _ _ _ hi]
    simp only [e]

/-- C54. The mapping from fabric's roles to credential roles is injective on member, admin, client and peer (0 to 3),
its values there are the single-role masks of the defined roles, and every other value, negative ones and the
orderer's included, is mapped to the member role: it contains no role but membership. -/
theorem C54_msp_roles :
    (∀ a b : Int, 0 ≤ a → a ≤ 3 → 0 ≤ b → b ≤ 3 →
      getIdemixRoleFromMSPRoleValue a = getIdemixRoleFromMSPRoleValue b → a = b) ∧
    [0, 1, 2, 3].map getIdemixRoleFromMSPRoleValue = [MEMBER, ADMIN, CLIENT, PEER].map getRoleMaskFromIdemixRole ∧
    (∀ a : Int, a < 0 ∨ 3 < a → ∀ r ∈ Spec.roles,
      checkRole (getIdemixRoleFromMSPRoleValue a) r = true ↔ r = MEMBER) := by
  refine ⟨?_, by decide, ?_⟩
  · intro a b ha ha' hb hb' h
    have : ∀ a b : Fin 4, getIdemixRoleFromMSPRoleValue (a.val : Int) = getIdemixRoleFromMSPRoleValue (b.val : Int) →
        a = b := by decide
    have := this ⟨a.toNat, by omega⟩ ⟨b.toNat, by omega⟩ (by
      simpa [Int.toNat_of_nonneg ha, Int.toNat_of_nonneg hb] using h)
    have := congrArg Fin.val this
    simp only at this
    omega
  · intro a ha r hr
    have : getIdemixRoleFromMSPRoleValue a = Role.getValue MEMBER := by
      simp only [getIdemixRoleFromMSPRoleValue]
      rw [if_neg (by omega), if_neg (by omega), if_neg (by omega), if_neg (by omega)]
    rw [this]
    simp only [Spec.roles, List.mem_cons, List.not_mem_nil, or_false] at hr
    rcases hr with rfl | rfl | rfl | rfl <;> decide

example : (∀ r ∈ [CLIENT, ADMIN, CLIENT], r ∈ Spec.roles) ∧
    checkRole (getRoleMaskFromIdemixRoles [CLIENT, ADMIN, CLIENT]) ADMIN = true ∧
    checkRole (getRoleMaskFromIdemixRoles [CLIENT, ADMIN, CLIENT]) MEMBER = false ∧
    getRoleMaskFromIdemixRoles [CLIENT, ADMIN, CLIENT] = 6 := ⟨by simp [Spec.roles, CLIENT, ADMIN], rfl, rfl, rfl⟩

end Idemix.Msp
