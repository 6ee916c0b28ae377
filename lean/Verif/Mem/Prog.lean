import Verif.Bbs.Model

/-!
# Programs on a heap of points and scalars

`IBM/mathlib` hands out pointers to points and scalars, and some of its methods change their receiver in place. The other
files model that as rebinding of a variable. Here the same code is modelled with pointers: a program reads, allocates and
writes cells of a heap and uses the cache of generators, one access at a time, so that sharing, in-place updates and
interleaving with other goroutines are visible.
-/

namespace Idemix.Mem

/-- What a cell contains: an element of `G1`, `G2` or `GT`, a scalar, one element of a slice of `int`, or a field with a slice
of bytes. -/
inductive Kind where
  | g1
  | g2
  | gt
  | zr
  | int
  | bytes
  deriving DecidableEq

/-- The contents of a cell. -/
@[reducible] def Val (S : Suite) : Kind → Type
  | .g1 => S.G1
  | .g2 => S.G2
  | .gt => S.GT
  | .zr => S.F
  | .int => Int
  | .bytes => Bytes

/-- The address of a cell: the part of the heap and the number of the cell in it. -/
structure Ptr (k : Kind) where
  region : Nat
  idx : Nat
  deriving DecidableEq

/-- The memory. Part 0 of the heap is shared: what is there from the start, and the generators in the cache. The goroutine
`r` allocates in the part `r`. The addresses say nothing about the addresses of Go; all that is used of Go's allocator is
that new cells are new. `cache` is the `sync.Map` of each library value (`bbs/keys.go:29-31`). -/
structure Heap (S : Suite) where
  cells : Nat → (k : Kind) → List (Val S k)
  cache : Nat → Bytes → Option (Ptr .g1)

/-- A program: what it does next. -/
inductive Prog (S : Suite) (α : Type) : Type where
  | done (a : α)
  | fail (msg : String)
  | panic
  | read {k : Kind} (p : Ptr k) (next : Val S k → Prog S α)
  | alloc {k : Kind} (v : Val S k) (next : Ptr k → Prog S α)
  | write {k : Kind} (p : Ptr k) (v : Val S k) (next : Prog S α)
  /-- `sync.Map.Load` (`bbs/keys.go:43`) -/
  | load (lib : Nat) (key : Bytes) (next : Option (Ptr .g1) → Prog S α)
  /-- `sync.Map.LoadOrStore` with a new point (`bbs/keys.go:48`) -/
  | loadOrStore (lib : Nat) (key : Bytes) (v : S.G1) (next : Ptr .g1 → Prog S α)

variable {S : Suite} {α β γ : Type}

namespace Heap

/-- The contents of a cell. -/
def get {k : Kind} (h : Heap S) (p : Ptr k) : Option (Val S k) := (h.cells p.region k)[p.idx]?

/-- Where the next cell of the part `r` is allocated. -/
def next (h : Heap S) (r : Nat) (k : Kind) : Ptr k := ⟨r, (h.cells r k).length⟩

/-- The heap after a cell has been allocated in the part `r`. -/
def push (h : Heap S) (r : Nat) {k : Kind} (v : Val S k) : Heap S :=
  { h with cells := Function.update h.cells r (Function.update (h.cells r) k (h.cells r k ++ [v])) }

/-- The heap after a cell has been changed. -/
def set {k : Kind} (h : Heap S) (p : Ptr k) (v : Val S k) : Heap S :=
  ⟨Function.update h.cells p.region (Function.update (h.cells p.region) k ((h.cells p.region k).set p.idx v)), h.cache⟩

/-- The heap after a pointer has been stored in a cache. -/
def store (h : Heap S) (lib : Nat) (key : Bytes) (p : Ptr .g1) : Heap S :=
  { h with cache := Function.update h.cache lib (Function.update (h.cache lib) key (some p)) }

end Heap

namespace Prog

/-- Sequencing. -/
def bind : Prog S α → (α → Prog S β) → Prog S β
  | done a, f => f a
  | fail m, _ => fail m
  | panic, _ => panic
  | read p next, f => read p fun v => (next v).bind f
  | alloc v next, f => alloc v fun p => (next p).bind f
  | write p v next, f => write p v (next.bind f)
  | load lib key next, f => load lib key fun p => (next p).bind f
  | loadOrStore lib key v next, f => loadOrStore lib key v fun p => (next p).bind f

instance : Monad (Prog S) where
  pure := done
  bind := bind

@[simp] theorem pure_def (a : α) : (pure a : Prog S α) = done a := rfl
@[simp] theorem bind_def (p : Prog S α) (f : α → Prog S β) : (p >>= f) = p.bind f := rfl
@[simp] theorem done_bind (a : α) (f : α → Prog S β) : (done a : Prog S α).bind f = f a := rfl

/-- One step of the goroutine `r`; finished programs stay as they are. Using an address where nothing is panics. -/
def step (r : Nat) : Prog S α → Heap S → Prog S α × Heap S
  | read p next, h =>
    match h.get p with
    | some v => (next v, h)
    | none => (panic, h)
  | @alloc _ _ k v next, h => (next (h.next r k), h.push r v)
  | write p v next, h =>
    match h.get p with
    | some _ => (next, h.set p v)
    | none => (panic, h)
  | load lib key next, h => (next (h.cache lib key), h)
  | loadOrStore lib key v next, h =>
    match h.cache lib key with
    | some p => (next p, h)
    | none => (next (h.next 0 .g1), (h.push 0 (k := .g1) v).store lib key (h.next 0 .g1))
  | p, h => (p, h)

/-- The outcome of a finished program. -/
def outcome : Prog S α → Option (Res α)
  | done a => some (.ok a)
  | fail m => some (.err m)
  | panic => some .panic
  | _ => none

/-- What the goroutine `r` does if it is left alone: the outcome and the heap afterwards. -/
def run (r : Nat) : Prog S α → Heap S → Res α × Heap S
  | done a, h => (.ok a, h)
  | fail m, h => (.err m, h)
  | panic, h => (.panic, h)
  | read p next, h =>
    match h.get p with
    | some v => (next v).run r h
    | none => (.panic, h)
  | @alloc _ _ k v next, h => (next (h.next r k)).run r (h.push r v)
  | write p v next, h =>
    match h.get p with
    | some _ => next.run r (h.set p v)
    | none => (.panic, h)
  | load lib key next, h => (next (h.cache lib key)).run r h
  | loadOrStore lib key v next, h =>
    match h.cache lib key with
    | some p => (next p).run r h
    | none => (next (h.next 0 .g1)).run r ((h.push 0 (k := .g1) v).store lib key (h.next 0 .g1))

/-- An outcome without use of the heap. -/
def lift : Res α → Prog S α
  | .ok a => done a
  | .err m => fail m
  | .panic => panic

/-- An error is reported as another. -/
def mapErr (f : String → String) : Prog S α → Prog S α
  | done a => done a
  | fail m => fail (f m)
  | panic => panic
  | read p next => read p fun v => (next v).mapErr f
  | alloc v next => alloc v fun p => (next p).mapErr f
  | write p v next => write p v (next.mapErr f)
  | load lib key next => load lib key fun p => (next p).mapErr f
  | loadOrStore lib key v next => loadOrStore lib key v fun p => (next p).mapErr f

end Prog

/-- Goroutines on one heap: their programs and the heap, after they have taken steps in the order `σ`. The goroutine `i` has
the part `i + 1` of the heap. -/
def exec {A : Nat → Type} : List Nat → ((i : Nat) → Prog S (A i)) → Heap S → ((i : Nat) → Prog S (A i)) × Heap S
  | [], ps, h => (ps, h)
  | i :: σ, ps, h => exec σ (Function.update ps i ((ps i).step (i + 1) h).1) ((ps i).step (i + 1) h).2

end Idemix.Mem
