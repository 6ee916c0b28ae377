import Verif.Forge.Poly
import Mathlib.Data.Fintype.Pi
import Mathlib.Data.Fintype.BigOperators
import Mathlib.Algebra.BigOperators.Fin
import Mathlib.Tactic.FieldSimp

/-!
# From forged BBS+ signatures to the strong Diffie–Hellman problem

A signer with the secret key `x` and the generators `g, h₀, h₁, …` signs `m₁, m₂, …` with `(A, e, s)` such that
`(x + e) • A = g + s • h₀ + m₁ • h₁ + …`. The reduction has the points `y, x • y, x² • y, …` but not `x`. It makes up generators
for which it can sign too, and makes a solution of its problem, `(x + c)⁻¹ • y` for some `c`, of a signature that is not its own.
-/

namespace Idemix.Forge

variable {F G : Type} [Field F] [AddCommGroup G] [Module F G]

/-- `m₁ u₁ + m₂ u₂ + …`. -/
def dot : List F → List F → F
  | m :: ms, u :: us => m * u + dot ms us
  | _, _ => 0

/-- What the reduction chooses: the number `j` of one signature, the `e` of all of them, the `s` of the others, and for each
generator two scalars. -/
structure Coins (F : Type) where
  j : Nat
  es : List F
  ss : List F
  u : F
  v : F
  u0 : F
  v0 : F
  us : List F
  vs : List F

namespace Coins

variable (c : Coins F)

/-- The `e` of the signature number `j`. -/
def ej : F := c.es[c.j]?.getD 0

/-- The product of the `X + e` of the other signatures. -/
def common : List F := product (c.es.eraseIdx c.j)

/-- `(a + b (X + e)) * common`, with the `e` of the signature number `j`. -/
def poly (a b : F) : List F := add (scale a c.common) (scale b (times c.ej c.common))

/-- The generator that belongs to the scalars `a` and `b`. -/
def point (P : List G) (a b : F) : G := combine P (c.poly a b)

/-- The `s` of the signature number `i`. -/
def s (i : Nat) (ms : List F) : F :=
  if i = c.j then -(c.u + dot ms c.us) / c.u0 else ((c.ss.insertIdx c.j 0)[i]?).getD 0

/-- The two scalars of the point that is signed. -/
def fst (s : F) (ms : List F) : F := c.u + s * c.u0 + dot ms c.us
def snd (s : F) (ms : List F) : F := c.v + s * c.v0 + dot ms c.vs

/-- The signature number `i`. -/
def sign (P : List G) (i : Nat) (ms : List F) : G :=
  combine P (divide (c.es[i]?.getD 0) (c.poly (c.fst (c.s i ms) ms) (c.snd (c.s i ms) ms))).1

/-- What the reduction makes of a signature. -/
def solve [DecidableEq F] (P : List G) (A : G) (e s : F) (ms : List F) : Option (F × G) :=
  let qr := divide e (c.poly (c.fst s ms) (c.snd s ms))
  if qr.2 = 0 then none else some (e, qr.2⁻¹ • (A - combine P qr.1))

/-! ## Signatures and solutions -/

variable {c} {x : F} {y : G} {n : Nat}

theorem value_poly (x a b : F) : value x (c.poly a b) = (a + b * (x + c.ej)) * value x c.common := by
  simp only [poly, value_add, value_scale, value_times]; ring

theorem length_poly (hj : c.j < c.es.length) (a b : F) : (c.poly a b).length = c.es.length + 1 := by
  simp only [poly, length_add, length_scale, length_times, common, length_product, List.length_eraseIdx, hj, if_true]
  omega

theorem point_eq (hj : c.j < c.es.length) (hn : c.es.length + 1 ≤ n) (a b : F) :
    c.point (powers x y n) a b = ((a + b * (x + c.ej)) * value x c.common) • y := by
  rw [point, combine_powers x y (by rw [length_poly hj]; exact hn), value_poly]

theorem common_root {i : Nat} {e : F} (hi : c.es[i]? = some e) (hne : i ≠ c.j) : value (-e) c.common = 0 := by
  rw [common, value_product]
  refine List.prod_eq_zero ?_
  have : e ∈ c.es.eraseIdx c.j := by
    rw [List.mem_eraseIdx_iff_getElem?]
    exact ⟨i, hne, hi⟩
  exact List.mem_map.mpr ⟨e, this, by simp⟩

theorem common_ne {e : F} (h : e ∉ c.es.eraseIdx c.j) : value (-e) c.common ≠ 0 := by
  rw [common, value_product]
  refine List.prod_ne_zero ?_
  intro h0
  obtain ⟨e', he', h0⟩ := List.mem_map.mp h0
  exact h (by rw [show e = e' by linear_combination (-1 : F) * h0]; exact he')

/-- The signatures are right. -/
theorem sign_eq (hj : c.j < c.es.length) (hn : c.es.length + 1 ≤ n) {i : Nat} (hu : i = c.j → c.u0 ≠ 0) {e : F}
    (hi : c.es[i]? = some e) (ms : List F) :
    (x + e) • c.sign (powers x y n) i ms =
      c.point (powers x y n) (c.fst (c.s i ms) ms) (c.snd (c.s i ms) ms) := by
  have hr : (divide e (c.poly (c.fst (c.s i ms) ms) (c.snd (c.s i ms) ms))).2 = 0 := by
    rw [remainder, value_poly]
    by_cases hij : i = c.j
    · subst hij
      have hu := hu rfl
      have h1 : c.fst (c.s c.j ms) ms = 0 := by
        simp only [fst, s, if_true]
        field_simp
        ring
      have h2 : c.ej = e := by simp [ej, hi]
      rw [h1, h2]; ring
    · rw [common_root hi hij, mul_zero]
  have hv := value_divide x e (c.poly (c.fst (c.s i ms) ms) (c.snd (c.s i ms) ms))
  rw [hr, add_zero] at hv
  simp only [sign, hi, Option.getD_some]
  rw [combine_powers x y (by rw [length_divide, length_poly hj]; exact hn), smul_smul, ← hv, point,
    combine_powers x y (by rw [length_poly hj]; exact hn)]

/-- The solutions are right. -/
theorem solve_sound [DecidableEq F] (hj : c.j < c.es.length) (hn : c.es.length + 1 ≤ n) {A : G} {e s : F} {ms : List F}
    (hA : (x + e) • A = c.point (powers x y n) (c.fst s ms) (c.snd s ms)) {z : F × G}
    (hz : c.solve (powers x y n) A e s ms = some z) : (x + z.1) • z.2 = y := by
  simp only [solve] at hz
  split at hz
  · cases hz
  · rename_i hr
    cases hz
    have hv := value_divide x e (c.poly (c.fst s ms) (c.snd s ms))
    simp only
    rw [smul_comm, smul_sub, hA, point, combine_powers x y (by rw [length_poly hj]; exact hn),
      combine_powers x y (by rw [length_divide, length_poly hj]; exact hn), smul_smul, ← sub_smul, hv, add_sub_cancel_left,
      smul_smul, inv_mul_cancel₀ hr, one_smul]

end Coins

/-! ## The same generators and signatures, with the secret key -/

/-- What the generators and signatures do not show of the coins. -/
structure Hidden (F : Type) where
  θ : F
  u0 : F
  us : List F

/-- The coins for which the reduction has the generators `h₀ = b₀ • g`, `hᵢ = bᵢ • g`, and uses `e` and `s` from these lists; `ms`
are the messages of the signature number `j`. -/
def coinsFor (x : F) (j : Nat) (es ss : List F) (b0 : F) (bs : List F) (h : Hidden F) (ms : List F) : Coins F :=
  let z := x + es[j]?.getD 0
  let u := -(ss[j]?.getD 0 * h.u0 + dot ms h.us)
  { j := j, es := es, ss := ss.eraseIdx j, u := u, v := (h.θ - u) / z, u0 := h.u0, v0 := (h.θ * b0 - h.u0) / z, us := h.us,
    vs := List.zipWith (fun b u => (h.θ * b - u) / z) bs h.us }

/-- The point `y` for which it has the generator `g`. -/
def startFor (x : F) (j : Nat) (es : List F) (h : Hidden F) (g : G) : G := (h.θ * value x (product (es.eraseIdx j)))⁻¹ • g

variable {x : F} {j : Nat} {es ss : List F} {b0 : F} {bs : List F} {h : Hidden F} {mj : List F} {n : Nat}

theorem dot_zipWith (t z : F) (hz : z ≠ 0) (ms bs us : List F) (hl : us.length = bs.length) :
    dot ms (List.zipWith (fun b u => (t * b - u) / z) bs us) * z = t * dot ms bs - dot ms us := by
  induction ms generalizing bs us with
  | nil => simp [dot]
  | cons m ms ih =>
    cases bs with
    | nil => cases us with
      | nil => simp [dot]
      | cons _ _ => simp at hl
    | cons b bs => cases us with
      | nil => simp at hl
      | cons u us =>
        simp only [List.zipWith_cons_cons, dot, add_mul, ih bs us (by simpa using hl)]
        field_simp
        ring

section

variable (hz : x + es[j]?.getD 0 ≠ 0) (hl : h.us.length = bs.length)
include hz hl

/-- The point that is signed is what it is with the secret key. -/
theorem coins_sum (s : F) (ms : List F) :
    (coinsFor x j es ss b0 bs h mj).fst s ms +
      (coinsFor x j es ss b0 bs h mj).snd s ms * (x + (coinsFor x j es ss b0 bs h mj).ej) =
      h.θ * (1 + s * b0 + dot ms bs) := by
  have hd := dot_zipWith h.θ _ hz ms bs h.us hl
  have h1 : (coinsFor x j es ss b0 bs h mj).ej = es[j]?.getD 0 := rfl
  simp only [Coins.fst, Coins.snd, h1]
  simp only [coinsFor] at hd ⊢
  rw [add_mul, add_mul, hd]
  field_simp
  ring

variable (he : ∀ e ∈ es, x + e ≠ 0) (hθ : h.θ ≠ 0) (hj : j < es.length) (hn : es.length + 1 ≤ n)
include he hθ hj hn

theorem coins_point (g : G) (s : F) (ms : List F) :
    (coinsFor x j es ss b0 bs h mj).point (powers x (startFor x j es h g) n) ((coinsFor x j es ss b0 bs h mj).fst s ms)
      ((coinsFor x j es ss b0 bs h mj).snd s ms) = (1 + s * b0 + dot ms bs) • g := by
  have hc : value x (product (es.eraseIdx j)) ≠ 0 := by
    rw [value_product]
    refine List.prod_ne_zero fun h0 => ?_
    obtain ⟨e, h1, h2⟩ := List.mem_map.mp h0
    exact he e (List.mem_of_mem_eraseIdx h1) h2
  rw [Coins.point_eq hj hn, coins_sum hz hl, startFor, smul_smul]
  have h2 : (coinsFor x j es ss b0 bs h mj).common = product (es.eraseIdx j) := rfl
  rw [h2]
  congr 1
  field_simp

end

section

variable (hz : x + es[j]?.getD 0 ≠ 0) (he : ∀ e ∈ es, x + e ≠ 0) (hθ : h.θ ≠ 0) (hj : j < es.length) (hn : es.length + 1 ≤ n)
include hz he hθ hj hn

theorem coins_base (g : G) (b u : F) :
    (coinsFor x j es ss b0 bs h mj).point (powers x (startFor x j es h g) n) u ((h.θ * b - u) / (x + es[j]?.getD 0)) =
      b • g := by
  have hc : value x (product (es.eraseIdx j)) ≠ 0 := by
    rw [value_product]
    refine List.prod_ne_zero fun h0 => ?_
    obtain ⟨e, h1, h2⟩ := List.mem_map.mp h0
    exact he e (List.mem_of_mem_eraseIdx h1) h2
  have h1 : (coinsFor x j es ss b0 bs h mj).ej = es[j]?.getD 0 := rfl
  have h2 : (coinsFor x j es ss b0 bs h mj).common = product (es.eraseIdx j) := rfl
  rw [Coins.point_eq hj hn, startFor, smul_smul, h1, h2]
  congr 1
  field_simp
  ring

theorem coins_start (g : G) :
    (coinsFor x j es ss b0 bs h mj).point (powers x (startFor x j es h g) n) (coinsFor x j es ss b0 bs h mj).u
      (coinsFor x j es ss b0 bs h mj).v = g := by
  have e := coins_base (ss := ss) (b0 := b0) (bs := bs) (mj := mj) hz he hθ hj hn g 1 (coinsFor x j es ss b0 bs h mj).u
  rw [mul_one, one_smul] at e
  exact e

end

theorem start_smul (g : G) : x • startFor x j es h g = startFor x j es h (x • g) := smul_comm _ _ _

/-- The `s` of the signatures are those of the list. -/
theorem coins_s (hu : h.u0 ≠ 0) (hj : j < es.length) (hs : ss.length = es.length) (i : Nat) (ms : List F)
    (hm : i = j → ms = mj) : (coinsFor x j es ss b0 bs h mj).s i ms = ss[i]?.getD 0 := by
  have hsj : j < ss.length := by omega
  by_cases hij : i = j
  · rw [Coins.s, if_pos (show i = (coinsFor x j es ss b0 bs h mj).j from hij)]
    simp only [coinsFor, hm hij, hij]
    field_simp
    ring
  · rw [Coins.s, if_neg (show ¬ i = (coinsFor x j es ss b0 bs h mj).j from hij)]
    simp only [coinsFor]
    congr 1
    rcases Nat.lt_or_gt_of_ne hij with hlt | hgt
    · rw [List.getElem?_insertIdx_of_lt hlt, List.getElem?_eraseIdx_of_lt hlt]
    · rw [List.getElem?_insertIdx_of_gt hgt, List.getElem?_eraseIdx_of_ge (by omega)]
      congr 1
      omega

/-- Every choice of the coins comes up exactly once, whatever is signed. -/
theorem coins_unique (c : Coins F) (x : F) (ms : List F) (hz : x + c.ej ≠ 0) (hu : c.u0 ≠ 0) (hθ : c.u + c.v * (x + c.ej) ≠ 0)
    (hj : c.j < c.es.length) (hs : c.ss.length + 1 = c.es.length) (hl : c.vs.length = c.us.length) :
    ∃! p : F × F × List F × Hidden F, p.2.2.1.length = p.2.2.2.us.length ∧
      p.2.2.2.θ ≠ 0 ∧ coinsFor x c.j c.es (c.ss.insertIdx c.j p.1) p.2.1 p.2.2.1 p.2.2.2 ms = c := by
  have hjs : c.j ≤ c.ss.length := by omega
  have hz' : x + c.es[c.j]?.getD 0 ≠ 0 := hz
  refine ⟨⟨-(c.u + dot ms c.us) / c.u0, (c.u0 + c.v0 * (x + c.ej)) / (c.u + c.v * (x + c.ej)),
    List.zipWith (fun u v => (u + v * (x + c.ej)) / (c.u + c.v * (x + c.ej))) c.us c.vs,
    ⟨c.u + c.v * (x + c.ej), c.u0, c.us⟩⟩, ⟨by simp [hl], hθ, ?_⟩, ?_⟩
  · obtain ⟨j, es, ss, u, v, u0, v0, us, vs⟩ := c
    simp only [Coins.ej] at *
    have h1 : -(-(u + dot ms us) / u0 * u0 + dot ms us) = u := by field_simp; ring
    simp only [coinsFor, List.getElem?_insertIdx_self, hjs, if_true, Option.getD_some, List.eraseIdx_insertIdx_self, h1,
      Coins.mk.injEq, true_and]
    refine ⟨?_, ?_, ?_⟩
    · field_simp; ring
    · field_simp; ring
    · clear h1
      revert hθ
      generalize u + v * (x + es[j]?.getD 0) = θ
      intro hθ
      clear hs hu hjs hj
      induction us generalizing vs with
      | nil => cases vs with
        | nil => rfl
        | cons _ _ => simp at hl
      | cons a us ih => cases vs with
        | nil => simp at hl
        | cons b vs =>
          simp only [List.zipWith_cons_cons, ih vs (by simpa using hl), List.cons.injEq, and_true]
          field_simp
          ring
  · rintro ⟨s, b0, bs, θ, u0, us⟩ ⟨h1, h2, h3⟩
    obtain ⟨j, es, ss, u, v, u0', v0, us', vs⟩ := c
    simp only [Coins.ej] at *
    simp only [coinsFor, List.getElem?_insertIdx_self, hjs, if_true, Option.getD_some, List.eraseIdx_insertIdx_self,
      Coins.mk.injEq, true_and] at h3
    obtain ⟨e1, e2, e3, e4, rfl, e5⟩ := h3
    subst e3
    have hθ' : u + v * (x + es[j]?.getD 0) = θ := by
      rw [← e2, div_mul_cancel₀ _ hz', ← e1]; ring
    rw [hθ']
    simp only [Prod.mk.injEq, and_true]
    refine ⟨?_, ?_, ?_⟩
    · rw [← e1]; field_simp; ring
    · rw [← e4, div_mul_cancel₀ _ hz']; field_simp; ring
    · rw [← e5]
      clear e5 hθ' e4 e2 e1 hl hθ
      induction us generalizing bs with
      | nil => cases bs with
        | nil => rfl
        | cons _ _ => simp at h1
      | cons a us ih => cases bs with
        | nil => simp at h1
        | cons b bs =>
          simp only [List.zipWith_cons_cons, List.cons.injEq]
          refine ⟨?_, ih bs (by simpa using h1)⟩
          field_simp
          ring

/-- The remainder that decides whether there is a solution. -/
theorem coins_remainder (hz : x + es[j]?.getD 0 ≠ 0) (hl : h.us.length = bs.length) (e s : F) (ms : List F) :
    (divide e ((coinsFor x j es ss b0 bs h mj).poly ((coinsFor x j es ss b0 bs h mj).fst s ms)
      ((coinsFor x j es ss b0 bs h mj).snd s ms))).2 * (x + es[j]?.getD 0) =
      (((s - ss[j]?.getD 0) * h.u0 + (dot ms h.us - dot mj h.us)) * (x + e) +
        h.θ * (1 + s * b0 + dot ms bs) * (es[j]?.getD 0 - e)) * value (-e) (product (es.eraseIdx j)) := by
  have hs := coins_sum (ss := ss) (b0 := b0) (mj := mj) hz hl s ms
  have h1 : (coinsFor x j es ss b0 bs h mj).ej = es[j]?.getD 0 := rfl
  have h2 : (coinsFor x j es ss b0 bs h mj).common = product (es.eraseIdx j) := rfl
  have h3 : (coinsFor x j es ss b0 bs h mj).fst s ms = (s - ss[j]?.getD 0) * h.u0 + (dot ms h.us - dot mj h.us) := by
    simp only [Coins.fst, coinsFor]; ring
  rw [remainder, Coins.value_poly, h1, h2]
  rw [h1] at hs
  rw [← h3, ← hs]
  ring

/-! ## How often there is no solution -/

theorem dot_ofFn {k : Nat} (ms : List F) (hm : ms.length ≤ k) (us : Fin k → F) :
    dot ms (List.ofFn us) = ∑ i, ms[i]?.getD 0 * us i := by
  induction k generalizing ms with
  | zero =>
    obtain rfl : ms = [] := List.eq_nil_of_length_eq_zero (by omega)
    simp [dot]
  | succ k ih =>
    cases ms with
    | nil => simp [dot]
    | cons m ms =>
      have e := Fin.sum_univ_succ (n := k) fun i : Fin (k + 1) => (m :: ms)[i]?.getD 0 * us i
      rw [List.ofFn_succ, dot, ih ms (by simpa using hm) (fun i => us i.succ)]
      exact e.symm

/-- An equation that is not trivial has one solution in `|F|`. -/
theorem count_linear [Fintype F] {ι : Type} [Fintype ι] [DecidableEq ι] (d : ι → F) (t : F) (i : ι) (hd : d i ≠ 0)
    [DecidablePred fun us : ι → F => ∑ i, d i * us i = t] :
    Fintype.card F * (Finset.univ.filter fun us : ι → F => ∑ i, d i * us i = t).card ≤ Fintype.card (ι → F) := by
  rw [← Finset.card_univ, ← Finset.card_product, ← Finset.card_univ]
  refine Finset.card_le_card_of_injOn (fun p => p.2 + p.1 • Pi.single i (1 : F)) (fun _ _ => Finset.mem_univ _) ?_
  rintro ⟨a, us⟩ ha ⟨b, vs⟩ hb hab
  simp only [Finset.coe_product, Set.mem_prod, Finset.mem_coe, Finset.mem_filter, Finset.mem_univ, true_and] at ha hb
  have hsum : ∀ (c : F) (ws : ι → F), ∑ l, d l * (ws + c • (Pi.single i (1 : F) : ι → F)) l = ∑ l, d l * ws l + c * d i := by
    intro c ws
    simp only [Pi.add_apply, Pi.smul_apply, smul_eq_mul, mul_add, Finset.sum_add_distrib]
    congr 1
    rw [Finset.sum_eq_single i]
    · simp; ring
    · intro l _ hl; simp [Pi.single_eq_of_ne hl]
    · intro h; exact absurd (Finset.mem_univ _) h
  have e := congrArg (fun ws : ι → F => ∑ l, d l * ws l) hab
  simp only at e
  rw [hsum, hsum, ha, hb, add_right_inj] at e
  have hab' : a = b := mul_right_cancel₀ hd e
  subst hab'
  simp only [add_left_inj] at hab
  rw [hab]

/-- A signature on messages that are not those of the signature number `j` gives a solution for all but one in `|F|` choices of the
hidden scalars. -/
theorem unsolved_le [Fintype F] [DecidableEq F] {k : Nat} {θ u0 : F} (hz : x + es[j]?.getD 0 ≠ 0) (hb : bs.length = k)
    (P : List G) (A : G) {e s : F} {ms : List F} (he : x + e ≠ 0) (hm : ms.length ≤ k) (hmj : mj.length ≤ k)
    (new : ∃ i : Nat, ms[i]?.getD 0 ≠ mj[i]?.getD 0) (guess : e ∉ es.eraseIdx j)
    [DecidablePred fun us : Fin k → F => (coinsFor x j es ss b0 bs ⟨θ, u0, List.ofFn us⟩ mj).solve P A e s ms = none] :
    Fintype.card F * (Finset.univ.filter fun us : Fin k → F =>
      (coinsFor x j es ss b0 bs ⟨θ, u0, List.ofFn us⟩ mj).solve P A e s ms = none).card ≤ Fintype.card (Fin k → F) := by
  obtain ⟨i, hi⟩ := new
  have hik : i < k := by
    by_contra hge
    rw [List.getElem?_eq_none (by omega), List.getElem?_eq_none (by omega)] at hi
    exact hi rfl
  have hsub : (Finset.univ.filter fun us : Fin k → F =>
      (coinsFor x j es ss b0 bs ⟨θ, u0, List.ofFn us⟩ mj).solve P A e s ms = none) ⊆
      Finset.univ.filter fun us : Fin k → F => ∑ l, (ms[l]?.getD 0 - mj[l]?.getD 0) * us l =
        -(θ * (1 + s * b0 + dot ms bs) * (es[j]?.getD 0 - e) / (x + e)) - (s - ss[j]?.getD 0) * u0 := by
    intro us hus
    simp only [Finset.mem_filter, Finset.mem_univ, true_and] at hus ⊢
    have hrem := coins_remainder (b0 := b0) (bs := bs) (h := ⟨θ, u0, List.ofFn us⟩) (ss := ss) (mj := mj) hz (by simp [hb]) e s ms
    simp only [Coins.solve] at hus
    split at hus
    · rename_i h2
      rw [h2, zero_mul] at hrem
      have hne : value (-e) (product (es.eraseIdx j)) ≠ 0 :=
        Coins.common_ne (c := coinsFor x j es ss b0 bs ⟨θ, u0, List.ofFn us⟩ mj) guess
      have h3 := (mul_eq_zero.mp hrem.symm).resolve_right hne
      rw [dot_ofFn _ hm, dot_ofFn _ hmj] at h3
      simp only [sub_mul, Finset.sum_sub_distrib]
      field_simp
      linear_combination h3
    · cases hus
  refine le_trans (Nat.mul_le_mul_left _ (Finset.card_le_card hsub)) ?_
  exact count_linear _ _ ⟨i, hik⟩ (sub_ne_zero.mpr hi)

end Idemix.Forge
