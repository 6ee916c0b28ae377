import Verif.Mem.Interleave

/-!
# The operations of `IBM/mathlib` on the heap

`G1.Mul`, `G1.Mul2`, `G1.Copy`, `G2.Mul`, `Zr.Mul`, `Zr.Plus`, `Zr.Minus` and `Zr.Copy` return a new object; `G1.Add`,
`G1.Sub`, `G1.Neg`, `G2.Add`, `Gt.Mul`, `Gt.Inverse`, `Zr.Neg` and `Zr.InvModP` change their receiver. Methods that return bytes or a truth value
read.
-/

namespace Idemix.Mem

variable {S : Suite} {α β : Type} {k : Kind}

/-- `G1.Copy`, `Zr.Copy`. -/
def copy (p : Ptr k) : Prog S (Ptr k) := .read p fun v => .alloc v .done

/-- The value of an object, for `Bytes`, `Compressed`, `IsInfinity`, `Pairing`, ... -/
def load (p : Ptr k) : Prog S (Val S k) := .read p .done

/-- The values of several objects. -/
def loadAll : List (Ptr k) → Prog S (List (Val S k))
  | [] => .done []
  | p :: ps => (load p).bind fun v => (loadAll ps).bind fun vs => .done (v :: vs)

/-- A new object: `NewZrFromInt`, `NewZrFromBytes`, `NewRandomZr`, `NewG1FromBytes`, `HashToG1WithDomain`, ... -/
def new (k : Kind) (v : Val S k) : Prog S (Ptr k) := .alloc v .done

/-- `G1.Mul`. -/
def g1Mul (p : Ptr .g1) (s : Ptr .zr) : Prog S (Ptr .g1) :=
  .read p fun v => .read s fun x => .alloc (k := .g1) ((x : S.F) • (v : S.G1)) .done

/-- `G1.Mul2`. -/
def g1Mul2 (p : Ptr .g1) (s : Ptr .zr) (q : Ptr .g1) (t : Ptr .zr) : Prog S (Ptr .g1) :=
  .read p fun v => .read s fun x => .read q fun w => .read t fun y =>
    .alloc (k := .g1) ((x : S.F) • (v : S.G1) + (y : S.F) • (w : S.G1)) .done

/-- `G1.Add`. -/
def g1Add (p q : Ptr .g1) : Prog S Unit :=
  .read p fun v => .read q fun w => .write (k := .g1) p ((v : S.G1) + (w : S.G1)) (.done ())

/-- `G1.Sub`. -/
def g1Sub (p q : Ptr .g1) : Prog S Unit :=
  .read p fun v => .read q fun w => .write (k := .g1) p ((v : S.G1) - (w : S.G1)) (.done ())

/-- `G1.Neg`. -/
def g1Neg (p : Ptr .g1) : Prog S Unit := .read p fun v => .write (k := .g1) p (-(v : S.G1)) (.done ())

/-- `G2.Mul`. -/
def g2Mul (p : Ptr .g2) (s : Ptr .zr) : Prog S (Ptr .g2) :=
  .read p fun v => .read s fun x => .alloc (k := .g2) ((x : S.F) • (v : S.G2)) .done

/-- `G2.Add`. -/
def g2Add (p q : Ptr .g2) : Prog S Unit :=
  .read p fun v => .read q fun w => .write (k := .g2) p ((v : S.G2) + (w : S.G2)) (.done ())

/-- `Zr.Mul`. -/
def zrMul (p q : Ptr .zr) : Prog S (Ptr .zr) :=
  .read p fun v => .read q fun w => .alloc (k := .zr) ((v : S.F) * (w : S.F)) .done

/-- `Zr.Plus`. -/
def zrPlus (p q : Ptr .zr) : Prog S (Ptr .zr) :=
  .read p fun v => .read q fun w => .alloc (k := .zr) ((v : S.F) + (w : S.F)) .done

/-- `Zr.Minus`. -/
def zrMinus (p q : Ptr .zr) : Prog S (Ptr .zr) :=
  .read p fun v => .read q fun w => .alloc (k := .zr) ((v : S.F) - (w : S.F)) .done

/-- `Zr.Neg`. -/
def zrNeg (p : Ptr .zr) : Prog S Unit := .read p fun v => .write (k := .zr) p (-(v : S.F)) (.done ())

/-- `Zr.InvModP`. -/
def zrInv (p : Ptr .zr) : Prog S Unit := .read p fun v => .write (k := .zr) p ((v : S.F)⁻¹) (.done ())

/-- `Gt.Inverse`; the group is written additively. -/
def gtInv (p : Ptr .gt) : Prog S Unit := .read p fun v => .write (k := .gt) p (-(v : S.GT)) (.done ())

/-- `Gt.Mul`. -/
def gtMul (p q : Ptr .gt) : Prog S Unit :=
  .read p fun v => .read q fun w => .write (k := .gt) p ((v : S.GT) + (w : S.GT)) (.done ())

/-- Methods that change the representation of their receiver and not its value: `G2.Affine`, `Zr.Mod`. They write. -/
def renew (p : Ptr k) : Prog S Unit := .read p fun v => .write p v (.done ())

/-! ## What they do -/

variable {r : Nat} {h₀ h : Heap S}

/-- The result is a new object with the value. -/
def New (r : Nat) (h₀ h : Heap S) (p : Ptr k) (v : Val S k) : Prop := At r h p v ∧ Fresh r h₀ p

theorem New.mono {h' : Heap S} {p : Ptr k} {v : Val S k} (n : New r h₀ h p v) (g : Ext r h h') : New r h₀ h' p v :=
  ⟨n.1.mono g, n.2⟩

theorem New.base {h₁ : Heap S} {p : Ptr k} {v : Val S k} (n : New r h₁ h p v) (g : Ext r h₀ h₁) : New r h₀ h p v :=
  ⟨n.1, n.2.mono g⟩

theorem gives_new (f : From r h₀ h) (v : Val S k) : Gives r h₀ h (new k v) (.ok v) (New r h₀) := by
  refine Gives.alloc fun h' e => Gives.done fun h'' e' => ?_
  exact ⟨(at_push r h' v).mono e', (fresh_next r h').mono (f.env e).ext⟩

theorem gives_copy (f : From r h₀ h) {p : Ptr k} {v : Val S k} (hp : At r h p v) :
    Gives r h₀ h (copy p) (.ok v) (New r h₀) :=
  Gives.read hp fun _ e => gives_new (f.env e) v

theorem gives_load {p : Ptr k} {v : Val S k} (hp : At r h p v) :
    Gives r h₀ h (load p) (.ok v) (fun _ a b => a = b) :=
  Gives.read hp fun _ _ => Gives.done fun _ _ => rfl

theorem gives_g1Mul (f : From r h₀ h) {p : Ptr .g1} {s : Ptr .zr} {v : S.G1} {x : S.F} (hp : At r h p v) (hs : At r h s x) :
    Gives r h₀ h (g1Mul p s) (.ok (x • v)) (New (k := .g1) r h₀) :=
  Gives.read hp fun _ e => Gives.read (hs.mono e.ext) fun _ e' => gives_new ((f.env e).env e') _

theorem gives_g1Mul2 (f : From r h₀ h) {p q : Ptr .g1} {s t : Ptr .zr} {v w : S.G1} {x y : S.F} (hp : At r h p v)
    (hs : At r h s x) (hq : At r h q w) (ht : At r h t y) :
    Gives r h₀ h (g1Mul2 p s q t) (.ok (x • v + y • w)) (New (k := .g1) r h₀) :=
  Gives.read hp fun _ e => Gives.read (hs.mono e.ext) fun _ e' =>
    Gives.read (hq.mono (e.trans e').ext) fun _ e'' => Gives.read (ht.mono ((e.trans e').trans e'').ext) fun _ e₃ =>
      gives_new (f.env (((e.trans e').trans e'').trans e₃)) _

theorem gives_set {p : Ptr k} {v w : Val S k} (hp : At r h p w) (fr : Fresh r h₀ p) :
    Gives r h₀ h (.write p v (.done ())) (.ok ()) fun h' _ _ => New r h₀ h' p v := by
  refine Gives.write hp fr fun h' e => Gives.done fun h'' e' => ⟨?_, fr⟩
  exact At.mono ⟨hp.visible, get_set_self (hp.mono e.ext).get⟩ e'

theorem gives_g1Add {p q : Ptr .g1} {v w : S.G1} (hp : New r h₀ h p v) (hq : At r h q w) :
    Gives r h₀ h (g1Add p q) (.ok ()) fun h' _ _ => New (k := .g1) r h₀ h' p (v + w) :=
  Gives.read hp.1 fun _ e => Gives.read (hq.mono e.ext) fun _ e' =>
    gives_set (k := .g1) (hp.1.mono (e.trans e').ext) hp.2

theorem gives_g1Sub {p q : Ptr .g1} {v w : S.G1} (hp : New r h₀ h p v) (hq : At r h q w) :
    Gives r h₀ h (g1Sub p q) (.ok ()) fun h' _ _ => New (k := .g1) r h₀ h' p (v - w) :=
  Gives.read hp.1 fun _ e => Gives.read (hq.mono e.ext) fun _ e' =>
    gives_set (k := .g1) (hp.1.mono (e.trans e').ext) hp.2

theorem gives_g1Neg {p : Ptr .g1} {v : S.G1} (hp : New r h₀ h p v) :
    Gives r h₀ h (g1Neg p) (.ok ()) fun h' _ _ => New (k := .g1) r h₀ h' p (-v) :=
  Gives.read hp.1 fun _ e => gives_set (k := .g1) (hp.1.mono e.ext) hp.2

theorem gives_g2Mul (f : From r h₀ h) {p : Ptr .g2} {s : Ptr .zr} {v : S.G2} {x : S.F} (hp : At r h p v) (hs : At r h s x) :
    Gives r h₀ h (g2Mul p s) (.ok (x • v)) (New (k := .g2) r h₀) :=
  Gives.read hp fun _ e => Gives.read (hs.mono e.ext) fun _ e' => gives_new ((f.env e).env e') _

theorem gives_g2Add {p q : Ptr .g2} {v w : S.G2} (hp : New r h₀ h p v) (hq : At r h q w) :
    Gives r h₀ h (g2Add p q) (.ok ()) fun h' _ _ => New (k := .g2) r h₀ h' p (v + w) :=
  Gives.read hp.1 fun _ e => Gives.read (hq.mono e.ext) fun _ e' =>
    gives_set (k := .g2) (hp.1.mono (e.trans e').ext) hp.2

theorem gives_zrMul (f : From r h₀ h) {p q : Ptr .zr} {v w : S.F} (hp : At r h p v) (hq : At r h q w) :
    Gives r h₀ h (zrMul p q) (.ok (v * w)) (New (k := .zr) r h₀) :=
  Gives.read hp fun _ e => Gives.read (hq.mono e.ext) fun _ e' => gives_new ((f.env e).env e') _

theorem gives_zrPlus (f : From r h₀ h) {p q : Ptr .zr} {v w : S.F} (hp : At r h p v) (hq : At r h q w) :
    Gives r h₀ h (zrPlus p q) (.ok (v + w)) (New (k := .zr) r h₀) :=
  Gives.read hp fun _ e => Gives.read (hq.mono e.ext) fun _ e' => gives_new ((f.env e).env e') _

theorem gives_zrMinus (f : From r h₀ h) {p q : Ptr .zr} {v w : S.F} (hp : At r h p v) (hq : At r h q w) :
    Gives r h₀ h (zrMinus p q) (.ok (v - w)) (New (k := .zr) r h₀) :=
  Gives.read hp fun _ e => Gives.read (hq.mono e.ext) fun _ e' => gives_new ((f.env e).env e') _

theorem gives_zrNeg {p : Ptr .zr} {v : S.F} (hp : New r h₀ h p v) :
    Gives r h₀ h (zrNeg p) (.ok ()) fun h' _ _ => New (k := .zr) r h₀ h' p (-v) :=
  Gives.read hp.1 fun _ e => gives_set (k := .zr) (hp.1.mono e.ext) hp.2

theorem gives_zrInv {p : Ptr .zr} {v : S.F} (hp : New r h₀ h p v) :
    Gives r h₀ h (zrInv p) (.ok ()) fun h' _ _ => New (k := .zr) r h₀ h' p v⁻¹ :=
  Gives.read hp.1 fun _ e => gives_set (k := .zr) (hp.1.mono e.ext) hp.2

theorem gives_gtInv {p : Ptr .gt} {v : S.GT} (hp : New r h₀ h p v) :
    Gives r h₀ h (gtInv p) (.ok ()) fun h' _ _ => New (k := .gt) r h₀ h' p (-v) :=
  Gives.read hp.1 fun _ e => gives_set (k := .gt) (hp.1.mono e.ext) hp.2

theorem gives_gtMul {p q : Ptr .gt} {v w : S.GT} (hp : New r h₀ h p v) (hq : At r h q w) :
    Gives r h₀ h (gtMul p q) (.ok ()) fun h' _ _ => New (k := .gt) r h₀ h' p (v + w) :=
  Gives.read hp.1 fun _ e => Gives.read (hq.mono e.ext) fun _ e' =>
    gives_set (k := .gt) (hp.1.mono (e.trans e').ext) hp.2

theorem gives_renew {p : Ptr k} {v : Val S k} (hp : New r h₀ h p v) :
    Gives r h₀ h (renew p) (.ok ()) fun h' _ _ => New r h₀ h' p v :=
  Gives.read hp.1 fun _ e => gives_set (hp.1.mono e.ext) hp.2

theorem gives_loadAll (f : From r h h) {ps : List (Ptr k)} {vs : List (Val S k)} (hp : AtAll r h ps vs) :
    Gives r h h (loadAll ps) (.ok vs) (fun _ a b => a = b) := by
  induction ps generalizing h vs with
  | nil => cases hp; exact Gives.done fun _ _ => rfl
  | cons p ps ih =>
    cases hp with
    | cons a b =>
      refine Gives.seq f (gives_load a) fun c h' f' e => ?_
      subst e
      refine Gives.seq f'.self (ih f'.self (AtAll.mono b f'.ext)) fun c' h'' f'' e => ?_
      subst e
      exact Gives.done fun _ _ => rfl

/-- New cells with the values, in this order. -/
def NewAll (r : Nat) (h₀ h : Heap S) (ps : List (Ptr k)) (vs : List (Val S k)) : Prop :=
  List.Forall₂ (New r h₀ h) ps vs

theorem NewAll.mono {ps : List (Ptr k)} {vs : List (Val S k)} {h' : Heap S} (a : NewAll r h₀ h ps vs) (g : Ext r h h') :
    NewAll r h₀ h' ps vs := List.Forall₂.imp (fun _ _ x => x.mono g) a

theorem New.set_self {p : Ptr k} {v w : Val S k} (a : New r h₀ h p v) : New r h₀ (h.set p w) p w :=
  ⟨⟨a.1.visible, get_set_self a.1.get⟩, a.2⟩

theorem New.set_other {p q : Ptr k} {v w : Val S k} (a : New r h₀ h p v) (hne : p ≠ q) :
    New r h₀ (h.set q w) p v := ⟨⟨a.1.visible, by rw [get_set_other hne]; exact a.1.get⟩, a.2⟩

theorem NewAll.set_other {ps : List (Ptr k)} {q : Ptr k} {vs : List (Val S k)} {w : Val S k}
    (a : NewAll r h₀ h ps vs) (hne : q ∉ ps) : NewAll r h₀ (h.set q w) ps vs := by
  induction a with
  | nil => exact .nil
  | cons x _ ih =>
    simp only [List.mem_cons, not_or] at hne
    exact .cons (x.set_other (Ne.symm hne.1)) (ih hne.2)

end Idemix.Mem
