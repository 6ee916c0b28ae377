import Mathlib.Data.List.Forall2

/-!
# Outcomes of Go functions

A Go function returning `(T, error)` either returns a value, returns an error, or panics.  The three
cases are kept apart in the model: `panic` stands for every run-time panic (nil dereference, index out
of range, failed type assertion, explicit `panic`).
-/

namespace Idemix

/-- Outcome of a Go call: a value, an error (with an abbreviated message) or a run-time panic. -/
inductive Res (α : Type) where
  | ok (a : α)
  | err (msg : String)
  | panic
  deriving DecidableEq, Repr

namespace Res

variable {α β γ : Type}

/-- Sequencing: the `if err != nil { return err }` idiom; panics propagate. -/
def bind (x : Res α) (f : α → Res β) : Res β :=
  match x with
  | ok a => f a
  | err m => err m
  | panic => panic

instance : Monad Res where
  pure := ok
  bind := bind

@[simp] theorem pure_def (a : α) : (pure a : Res α) = ok a := rfl
@[simp] theorem ok_bind (a : α) (f : α → Res β) : (ok a >>= f) = f a := rfl
@[simp] theorem err_bind (m : String) (f : α → Res β) : ((err m : Res α) >>= f) = err m := rfl
@[simp] theorem panic_bind (f : α → Res β) : ((panic : Res α) >>= f) = panic := rfl
@[simp] theorem bind_ok (x : Res α) : (x >>= ok) = x := by cases x <;> rfl
@[simp] theorem map_ok (f : α → β) (a : α) : f <$> (ok a) = ok (f a) := rfl
@[simp] theorem map_err (f : α → β) (m : String) : f <$> (err m : Res α) = err m := rfl
@[simp] theorem map_panic (f : α → β) : f <$> (panic : Res α) = panic := rfl

instance : LawfulMonad Res := LawfulMonad.mk'
  (id_map := by intro α x; cases x <;> rfl)
  (pure_bind := by intros; rfl)
  (bind_assoc := by intro α β γ x f g; cases x <;> rfl)

@[simp] theorem bind_eq_ok {x : Res α} {f : α → Res β} {b : β} :
    (x >>= f) = ok b ↔ ∃ a, x = ok a ∧ f a = ok b := by
  cases x <;> simp

@[simp] theorem map_eq_ok {x : Res α} {f : α → β} {b : β} :
    (f <$> x) = ok b ↔ ∃ a, x = ok a ∧ f a = b := by
  cases x <;> simp

/-- `if cond { return errors.New(msg) }`. -/
def guardErr (cond : Bool) (msg : String) : Res Unit := if cond then err msg else ok ()

@[simp] theorem guardErr_eq_ok {c : Bool} {m : String} {u : Unit} :
    guardErr c m = ok u ↔ c = false := by
  cases c <;> simp [guardErr]

@[simp] theorem guardErr_false (m : String) : guardErr false m = ok () := rfl
@[simp] theorem guardErr_true (m : String) : guardErr true m = err m := rfl

/-- A condition whose violation is a run-time panic. -/
def guardPanic (cond : Bool) : Res Unit := if cond then panic else ok ()

@[simp] theorem guardPanic_eq_ok {c : Bool} {u : Unit} :
    guardPanic c = ok u ↔ c = false := by
  cases c <;> simp [guardPanic]

@[simp] theorem guardPanic_false : guardPanic false = ok () := rfl
@[simp] theorem guardPanic_true : guardPanic true = panic := rfl

/-- `defer func() { if r := recover(); r != nil { err = ... } }()`: a panic becomes an error. -/
def recovered (x : Res α) (msg : String := "failure") : Res α :=
  match x with
  | panic => err msg
  | y => y

@[simp] theorem recovered_eq_ok {x : Res α} {m : String} {a : α} :
    recovered x m = ok a ↔ x = ok a := by
  cases x <;> simp [recovered]

@[simp] theorem recovered_ok (a : α) (m : String) : recovered (ok a) m = ok a := rfl
@[simp] theorem recovered_err (e m : String) : recovered (err e : Res α) m = err e := rfl
@[simp] theorem recovered_panic (m : String) : recovered (panic : Res α) m = err m := rfl

theorem recovered_ne_panic (x : Res α) (m : String) : recovered x m ≠ panic := by
  cases x <;> simp [recovered]

/-- Dereferencing a pointer: nil is a panic. -/
def deref : Option α → Res α
  | some a => ok a
  | none => panic

@[simp] theorem deref_some (a : α) : deref (some a) = ok a := rfl
@[simp] theorem deref_none : deref (none : Option α) = panic := rfl
@[simp] theorem deref_eq_ok {x : Option α} {a : α} : deref x = ok a ↔ x = some a := by
  cases x <;> simp [deref]

/-- A failing look-up that is reported as an error. -/
def ofOption (msg : String) : Option α → Res α
  | some a => ok a
  | none => err msg

@[simp] theorem ofOption_some (m : String) (a : α) : ofOption m (some a) = ok a := rfl
@[simp] theorem ofOption_none (m : String) : ofOption m (none : Option α) = err m := rfl
@[simp] theorem ofOption_eq_ok {m : String} {x : Option α} {a : α} :
    ofOption m x = ok a ↔ x = some a := by
  cases x <;> simp [ofOption]

/-- Slice indexing `l[i]` with a Go `int`: out of range is a panic. -/
def index (l : List α) (i : Int) : Res α :=
  if i < 0 then panic else deref l[i.toNat]?

theorem index_eq_ok {l : List α} {i : Int} {a : α} :
    index l i = ok a ↔ 0 ≤ i ∧ l[i.toNat]? = some a := by
  unfold index
  by_cases h : i < 0
  · simp only [h, if_true]
    constructor
    · intro h'; cases h'
    · rintro ⟨h', -⟩; omega
  · simp [h, Int.not_lt.mp h]

@[simp] theorem index_nat (l : List α) (n : Nat) : index l (n : Int) = deref l[n]? := by
  have : ¬ ((n : Int) < 0) := by omega
  simp [index, this]

/-- Slice indexing with a natural number. -/
def nth (l : List α) (i : Nat) : Res α := deref l[i]?

@[simp] theorem nth_eq_ok {l : List α} {i : Nat} {a : α} : nth l i = ok a ↔ l[i]? = some a := by
  simp [nth]

/-- Run a fallible function over a slice, left to right, stopping at the first failure. -/
def mapM' (f : α → Res β) : List α → Res (List β)
  | [] => ok []
  | a :: as => do
    let b ← f a
    let bs ← mapM' f as
    pure (b :: bs)

@[simp] theorem mapM'_nil (f : α → Res β) : mapM' f [] = ok [] := rfl
@[simp] theorem mapM'_cons (f : α → Res β) (a : α) (as : List α) :
    mapM' f (a :: as) = (do let b ← f a; let bs ← mapM' f as; pure (b :: bs)) := rfl

theorem mapM'_eq_ok {f : α → Res β} {l : List α} {bs : List β} :
    mapM' f l = ok bs ↔ List.Forall₂ (fun a b => f a = ok b) l bs := by
  induction l generalizing bs with
  | nil => cases bs <;> simp
  | cons a as ih =>
    cases bs with
    | nil => simp
    | cons b bs => simp [ih]

theorem mapM'_length {f : α → Res β} {l : List α} {bs : List β} (h : mapM' f l = ok bs) :
    bs.length = l.length := by
  rw [mapM'_eq_ok] at h
  induction h with
  | nil => rfl
  | cons _ _ ih => simp [ih]

theorem mapM'_map_ok {f : β → Res γ} {g : α → β} {h : α → γ} {l : List α}
    (H : ∀ a ∈ l, f (g a) = ok (h a)) : mapM' f (l.map g) = ok (l.map h) := by
  induction l with
  | nil => rfl
  | cons a as ih =>
    simp only [List.map_cons, mapM'_cons]
    rw [H a (by simp), ih (fun x hx => H x (by simp [hx]))]
    rfl

theorem mapM'_ok {f : α → Res β} {h : α → β} {l : List α}
    (H : ∀ a ∈ l, f a = ok (h a)) : mapM' f l = ok (l.map h) := by
  have := mapM'_map_ok (f := f) (g := id) (h := h) (l := l) (by simpa using H)
  simpa using this

end Res

/-- Byte strings. -/
abbrev Bytes := List UInt8

end Idemix
