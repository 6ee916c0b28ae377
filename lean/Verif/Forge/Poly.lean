import Mathlib.Algebra.Module.Basic
import Mathlib.Tactic.Ring
import Mathlib.Tactic.Module
import Mathlib.Tactic.LinearCombination

/-!
# Polynomials in an unknown scalar

Polynomials as lists of coefficients, lowest first. Whoever has the points `y, x • y, x² • y, …`, but not `x`, can evaluate them
"in the exponent" with `combine`.
-/

namespace Idemix.Forge

variable {F G : Type} [Field F] [AddCommGroup G] [Module F G]

/-- The value of a polynomial. -/
def value (x : F) : List F → F
  | [] => 0
  | a :: p => a + x * value x p

/-- The points `y, x • y, …, x^(n-1) • y`. -/
def powers (x : F) (y : G) : Nat → List G
  | 0 => []
  | n + 1 => y :: powers x (x • y) n

/-- The linear combination of points with these coefficients. -/
def combine : List G → List F → G
  | P :: Ps, a :: p => a • P + combine Ps p
  | _, _ => 0

/-- The sum of two polynomials. -/
def add : List F → List F → List F
  | [], q => q
  | p, [] => p
  | a :: p, b :: q => (a + b) :: add p q

/-- A polynomial times a scalar. -/
def scale (c : F) (p : List F) : List F := p.map (c * ·)

/-- A polynomial times `X + e`. -/
def times (e : F) (p : List F) : List F := add (scale e p) (0 :: p)

/-- The quotient and the remainder of the division of a polynomial by `X + e`. -/
def divide (e : F) : List F → List F × F
  | [] => ([], 0)
  | a :: p => ((divide e p).2 :: (divide e p).1, a - e * (divide e p).2)

/-- The product of the `X + e`. -/
def product (es : List F) : List F := es.foldr times [1]

/-! ## What they compute -/

theorem value_add (x : F) (p q : List F) : value x (add p q) = value x p + value x q := by
  induction p generalizing q with
  | nil => simp [add, value]
  | cons a p ih =>
    cases q with
    | nil => simp [add, value]
    | cons b q => simp only [add, value, ih]; ring

theorem value_scale (x c : F) (p : List F) : value x (scale c p) = c * value x p := by
  induction p with
  | nil => simp [scale, value]
  | cons a p ih =>
    have : scale c (a :: p) = c * a :: scale c p := rfl
    rw [this]; simp only [value, ih]; ring

theorem value_times (x e : F) (p : List F) : value x (times e p) = (x + e) * value x p := by
  simp only [times, value_add, value_scale, value]; ring

theorem value_product (x : F) (es : List F) : value x (product es) = (es.map (x + ·)).prod := by
  induction es with
  | nil => simp [product, value]
  | cons e es ih =>
    have : product (e :: es) = times e (product es) := rfl
    rw [this, value_times, ih, List.map_cons, List.prod_cons]

theorem value_divide (x e : F) (p : List F) :
    value x p = (x + e) * value x (divide e p).1 + (divide e p).2 := by
  induction p with
  | nil => simp [divide, value]
  | cons a p ih => simp only [divide, value]; rw [ih]; ring

theorem remainder (e : F) (p : List F) : (divide e p).2 = value (-e) p := by
  rw [value_divide (-e) e p]; ring

theorem length_add (p q : List F) : (add p q).length = max p.length q.length := by
  induction p generalizing q with
  | nil => simp [add]
  | cons a p ih =>
    cases q with
    | nil => simp [add]
    | cons b q => simp [add, ih]

theorem length_scale (c : F) (p : List F) : (scale c p).length = p.length := by simp [scale]

theorem length_times (e : F) (p : List F) : (times e p).length = p.length + 1 := by
  simp [times, length_add, length_scale]

theorem length_product (es : List F) : (product es).length = es.length + 1 := by
  induction es with
  | nil => rfl
  | cons e es ih =>
    have : product (e :: es) = times e (product es) := rfl
    rw [this, length_times, ih, List.length_cons]

theorem length_divide (e : F) (p : List F) : (divide e p).1.length = p.length := by
  induction p with
  | nil => rfl
  | cons a p ih => simp [divide, ih]

theorem length_powers (x : F) (y : G) (n : Nat) : (powers x y n).length = n := by
  induction n generalizing y with
  | zero => rfl
  | succ n ih => simp [powers, ih]

/-- Evaluation in the exponent. -/
theorem combine_powers (x : F) (y : G) {n : Nat} {p : List F} (h : p.length ≤ n) :
    combine (powers x y n) p = value x p • y := by
  induction n generalizing y p with
  | zero => simp at h; subst h; simp [powers, combine, value]
  | succ n ih =>
    cases p with
    | nil => simp [powers, combine, value]
    | cons a p =>
      simp only [powers, combine, value]
      rw [ih _ (by simpa using h)]
      module

end Idemix.Forge
