import Verif.Forge.Core
import Verif.Bbs.PropsProof

/-!
# C96: signatures of the BBS+ library cannot be forged

As C87, for `Sign` and `Verify` of the library. Its generators depend on the number of messages, and someone who asks for signatures may
choose other numbers each time.
-/

namespace Idemix.ForgeBbs

open Idemix (Suite Res Bytes)
open Idemix.Bbs
open Idemix.Forge (Coins Hidden startFor powers dot value product remainder divide)

variable {S : Suite} (L : Lib S)

/-- What the reduction chooses: as `Forge.Coins`, with the scalars of the generators for each number of messages. -/
structure Plan (F : Type) where
  j : Nat
  es : List F
  ss : List F
  u : F
  v : F
  us : Nat → List F
  vs : Nat → List F

/-- The coins for `m` messages. -/
def Plan.at {F : Type} [Field F] (c : Plan F) (m : Nat) : Coins F :=
  ⟨c.j, c.es, c.ss, c.u, c.v, (c.us m).headD 0, (c.vs m).headD 0, (c.us m).tail, (c.vs m).tail⟩

namespace Spec

/-- A BBS+ signature with the scalars it is for. -/
structure Forgery (S : Suite) where
  sig : Sig S
  scalars : List S.F

/-- It is one for the public key `w`. -/
def Forgery.Valid (w : S.G2) (z : Forgery S) : Prop :=
  Bbs.Spec.Signature w (Bbs.Spec.generator w z.scalars.length 0) (Bbs.Spec.generators w z.scalars.length) z.sig.a z.sig.e z.sig.s
    z.scalars

/-- What to ask to be signed next, and what to come up with in the end. Both are chosen after seeing the public key, its generators
`h₀, h₁, …` for each number of messages, and the signatures so far. -/
structure Forger (S : Suite) where
  ask : S.G2 → (Nat → List S.G1) → List Bytes → List Bytes
  forge : S.G2 → (Nat → List S.G1) → List Bytes → Forgery S

/-- The signatures of a signer for whom `sig i` is the answer to the question number `i`. -/
def Forger.play (f : Forger S) (w : S.G2) (g : Nat → List S.G1) (sig : Nat → List Bytes → Res Bytes) : Nat → Res (List Bytes)
  | 0 => .ok []
  | n + 1 => do
    let sigs ← f.play w g sig n
    let σ ← sig n (f.ask w g sigs)
    pure (sigs ++ [σ])

/-- The generators of a public key. -/
def gens (w : S.G2) (n : Nat) : List S.G1 := Bbs.Spec.generator w n 0 :: Bbs.Spec.generators w n

/-- The signer: `Sign` with the secret key `x` and the random choices `es`, `ss`. -/
def signer (x : S.F) (es ss : List S.F) (i : Nat) (messages : List Bytes) : Res Bytes :=
  Bbs.sign L messages (S.zrBytes x) (es[i]?.getD 0) (ss[i]?.getD 0)

/-- The question number `i`. -/
def asked (f : Forger S) (x : S.F) (sigs : List Bytes) (i : Nat) : List Bytes :=
  f.ask (x • S.genG2) (gens (x • S.genG2)) (sigs.take i)

/-- What is forged. -/
def forged (f : Forger S) (x : S.F) (sigs : List Bytes) : Forgery S :=
  f.forge (x • S.genG2) (gens (x • S.genG2)) sigs

/-- The scalars of messages. -/
def scalars (messages : List Bytes) : List S.F := messages.map (frFromOKM L)

/-- The generators of the reduction, from the points `P = [y, x • y, …]`: the hash function that gives the generators is programmed to
give these, as usual for proofs in the random oracle model. -/
def simulatedGens (P : List S.G1) (c : Plan S.F) (n : Nat) : List S.G1 := List.zipWith ((c.at n).point P) (c.us n) (c.vs n)

/-- A signature of the reduction. -/
def simulatedSigner (P : List S.G1) (c : Plan S.F) (i : Nat) (messages : List Bytes) : Res Bytes :=
  let c' := c.at messages.length
  .ok (S.g1Comp (c'.sign P i (scalars L messages)) ++ S.zrBytes (c.es[i]?.getD 0) ++ S.zrBytes (c'.s i (scalars L messages)))

/-- The reduction, with `W = x • g₂` as the public key. If it meets an `e` with `x + e = 0` it knows `x`. -/
def reduction (f : Forger S) (W : S.G2) (P : List S.G1) (c : Plan S.F) : Res (Option (S.F × S.G1)) := do
  let g := simulatedGens P c
  let sigs ← f.play W g (simulatedSigner L P c) c.es.length
  let z := f.forge W g sigs
  pure (if z.sig.e • S.genG2 + W = 0 then some (1 + z.sig.e, P.headD 0)
    else (c.at z.scalars.length).solve P z.sig.a z.sig.e z.sig.s z.scalars)

/-- A solution of the strong Diffie–Hellman problem for the points `y, x • y, x² • y, …` and `x • g₂`: some `c` and
`(x + c)⁻¹ • y`. -/
def Solves (x : S.F) (y : S.G1) (z : S.F × S.G1) : Prop := (x + z.1) • z.2 = y

/-- A signer with the secret key `x` made, with the random choices `es` and `ss`, all the signatures that `f` asked it for; `b n` are the
discrete logarithms of the generators for `n` messages. -/
structure Signed (L : Lib S) (f : Forger S) (x : S.F) (b : Nat → List S.F) (es ss : List S.F) (sigs : List Bytes) : Prop where
  len : ss.length = es.length
  played : f.play (x • S.genG2) (gens (x • S.genG2)) (signer L x es ss) es.length = .ok sigs
  logs : ∀ n, gens (x • S.genG2) n = (b n).map (· • S.genG1)
  few : ∀ i < es.length, (asked f x sigs i).length < 2 ^ 32
  /-- `x + e` can be inverted. -/
  regular : ∀ e ∈ es, x + e ≠ 0

/-- The choices of the reduction for which it makes the signatures of a signer with the secret key `x`, the random choices `es`, `ss` and
the generators with the logarithms `b`; `ms` are the scalars of the messages in the question number `j`. The scalars `θ` and `h` are what
the generators and signatures do not show. -/
def planFor (x : S.F) (j : Nat) (es ss : List S.F) (b : Nat → List S.F) (θ : S.F) (h : Nat → List S.F) (ms : List S.F) : Plan S.F :=
  let z := x + es[j]?.getD 0
  let u := -dot (ss[j]?.getD 0 :: ms) (h ms.length)
  { j := j, es := es, ss := ss.eraseIdx j, u := u, v := (θ - u) / z, us := h
    vs := fun m => List.zipWith (fun b a => (θ * b - a) / z) (b m) (h m) }

def plan (f : Forger S) (x : S.F) (b : Nat → List S.F) (es ss : List S.F) (sigs : List Bytes) (j : Nat) (θ : S.F) (h : Nat → List S.F) :
    Plan S.F :=
  planFor x j es ss b θ h (scalars L (asked f x sigs j))

/-- The point `y` for which the reduction has the generator `g₁`. -/
def start (x : S.F) (j : Nat) (es : List S.F) (θ : S.F) : S.G1 := startFor x j es ⟨θ, 0, []⟩ S.genG1

/-- `y, x • y, x² • y, …` for this point. -/
def instanceFor (x : S.F) (j : Nat) (es : List S.F) (θ : S.F) : List S.G1 := powers x (start x j es θ) (es.length + 1)

/-- The reduction finds a solution. -/
def Solved (f : Forger S) (x : S.F) (b : Nat → List S.F) (es ss : List S.F) (sigs : List Bytes) (j : Nat) (θ : S.F)
    (h : Nat → List S.F) : Prop :=
  ∃ z, reduction L f (x • S.genG2) (instanceFor x j es θ) (plan L f x b es ss sigs j θ h) = .ok (some z) ∧
    Solves x (start x j es θ) z

/-- What is hidden in the generators for less than `N` messages: a scalar for each generator. -/
abbrev Secrets (S : Suite) (N : Nat) : Type := (Σ m : Fin N, Fin (m + 1)) → S.F

/-- The same as lists. -/
def Secrets.lists {N : Nat} (h : Secrets S N) (m : Nat) : List S.F :=
  if hm : m < N then List.ofFn fun i : Fin (m + 1) => h ⟨⟨m, hm⟩, i⟩ else List.replicate (m + 1) 0

end Spec

open Spec

variable {L}

/-! ## Plays -/

section

variable {f : Forger S} {w : S.G2} {g : Nat → List S.G1} {sig sig' : Nat → List Bytes → Res Bytes} {n : Nat} {sigs : List Bytes}

theorem play_length (h : f.play w g sig n = .ok sigs) : sigs.length = n := by
  induction n generalizing sigs with
  | zero => cases h; rfl
  | succ n ih =>
    simp only [Forger.play, Res.bind_eq_ok, Res.pure_def, Res.ok.injEq] at h
    obtain ⟨cs, hc, _, -, rfl⟩ := h
    simp [ih hc]

theorem play_take (h : f.play w g sig n = .ok sigs) {k : Nat} (hk : k ≤ n) : f.play w g sig k = .ok (sigs.take k) := by
  induction n generalizing sigs with
  | zero => obtain rfl : k = 0 := by omega
            cases h; rfl
  | succ n ih =>
    by_cases hkn : k = n + 1
    · subst hkn
      rw [List.take_of_length_le (by rw [play_length h]), h]
    · simp only [Forger.play, Res.bind_eq_ok, Res.pure_def, Res.ok.injEq] at h
      obtain ⟨cs, hc, _, -, rfl⟩ := h
      rw [ih hc (by omega), List.take_append_of_le_length (by rw [play_length hc]; omega)]

theorem play_sig (h : f.play w g sig n = .ok sigs) {k : Nat} (hk : k < n) : ∃ σ, sig k (f.ask w g (sigs.take k)) = .ok σ := by
  have h1 := play_take h (show k + 1 ≤ n by omega)
  simp only [Forger.play, play_take h (show k ≤ n by omega), Res.ok_bind, Res.bind_eq_ok] at h1
  obtain ⟨σ, hσ, -⟩ := h1
  exact ⟨σ, hσ⟩

theorem play_congr (h : f.play w g sig n = .ok sigs)
    (hi : ∀ k < n, sig' k (f.ask w g (sigs.take k)) = sig k (f.ask w g (sigs.take k))) : f.play w g sig' n = .ok sigs := by
  suffices H : ∀ k ≤ n, f.play w g sig' k = .ok (sigs.take k) by
    rw [H n le_rfl, List.take_of_length_le (by rw [play_length h])]
  intro k hk
  induction k with
  | zero => rfl
  | succ k ih =>
    have h1 := play_take h hk
    simp only [Forger.play, play_take h (show k ≤ n by omega), Res.ok_bind] at h1
    simp only [Forger.play, ih (by omega), Res.ok_bind, hi k (by omega)]
    exact h1

end

/-! ## The coins -/

theorem lin_gen (ms bs : List S.F) (g : S.G1) : S.lin ms (bs.map (· • g)) = dot ms bs • g := by
  induction ms generalizing bs with
  | nil => simp [dot]
  | cons m ms ih =>
    cases bs with
    | nil => simp [dot]
    | cons b bs => simp only [List.map_cons, Suite.lin_cons, ih, dot]; module

theorem zipWith_gen (point : S.F → S.F → S.G1) (θ z : S.F) (g : S.G1) (hp : ∀ b u, point u ((θ * b - u) / z) = b • g)
    (bs us : List S.F) (hll : us.length = bs.length) :
    List.zipWith point us (List.zipWith (fun b a => (θ * b - a) / z) bs us) = bs.map (· • g) := by
  induction bs generalizing us with
  | nil => simp
  | cons b bs ih => cases us with
    | nil => simp at hll
    | cons a us => simp only [List.zipWith_cons_cons, List.map_cons, hp, ih us (by simpa using hll)]

section

variable {x θ : S.F} {j : Nat} {es ss : List S.F} {b h : Nat → List S.F} {mj : List S.F}

theorem dot_split (s : S.F) (ms l : List S.F) (hl : l ≠ []) : s * l.headD 0 + dot ms l.tail = dot (s :: ms) l := by
  cases l with
  | nil => exact absurd rfl hl
  | cons a l => rfl

/-- The remainder of the signed scalar. -/
theorem plan_fst {m : Nat} (hm : (h m).length = m + 1) (s : S.F) (ms : List S.F) :
    ((planFor x j es ss b θ h mj).at m).fst s ms = dot (s :: ms) (h m) - dot (ss[j]?.getD 0 :: mj) (h mj.length) := by
  have := dot_split s ms (h m) (by intro h0; rw [h0] at hm; simp at hm)
  simp only [Coins.fst, Plan.at, planFor, add_assoc, this]
  ring

theorem plan_sum {m : Nat} (hz : x + es[j]?.getD 0 ≠ 0) (hm : (h m).length = m + 1) (hb : (b m).length = m + 1) (s : S.F)
    (ms : List S.F) :
    ((planFor x j es ss b θ h mj).at m).fst s ms + ((planFor x j es ss b θ h mj).at m).snd s ms * (x + es[j]?.getD 0) =
      θ * (1 + dot (s :: ms) (b m)) := by
  have h1 := dot_split s ms (h m) (by intro h0; rw [h0] at hm; simp at hm)
  have h2 := dot_split s ms (List.zipWith (fun b a => (θ * b - a) / (x + es[j]?.getD 0)) (b m) (h m))
    (by intro h0; have := congrArg List.length h0; simp [hm, hb] at this)
  have h3 := Forge.dot_zipWith θ _ hz (s :: ms) (b m) (h m) (by rw [hm, hb])
  simp only [Coins.fst, Coins.snd, Plan.at, planFor, add_assoc, h1, h2]
  rw [add_mul, h3]
  field_simp
  ring

variable (he : ∀ e ∈ es, x + e ≠ 0) (hj : j < es.length)
include he hj

theorem plan_num : x + es[j]?.getD 0 ≠ 0 := by
  rw [List.getElem?_eq_getElem hj]; exact he _ (List.getElem_mem hj)

variable (hθ : θ ≠ 0)
include hθ

theorem plan_scale (m : Nat) (a c : S.F) :
    ((planFor x j es ss b θ h mj).at m).point (instanceFor x j es θ) a c = ((a + c * (x + es[j]?.getD 0)) / θ) • S.genG1 := by
  have hc : value x (product (es.eraseIdx j)) ≠ 0 := by
    rw [Forge.value_product]
    refine List.prod_ne_zero fun h0 => ?_
    obtain ⟨e, h1, h2⟩ := List.mem_map.mp h0
    exact he e (List.mem_of_mem_eraseIdx h1) h2
  have h1 : ((planFor x j es ss b θ h mj).at m).ej = es[j]?.getD 0 := rfl
  have h2 : ((planFor x j es ss b θ h mj).at m).common = product (es.eraseIdx j) := rfl
  rw [instanceFor, Coins.point_eq (c := (planFor x j es ss b θ h mj).at m) (n := es.length + 1) hj le_rfl, start, startFor, smul_smul, h1, h2]
  congr 1
  field_simp

theorem plan_point {m : Nat} (hm : (h m).length = m + 1) (hb : (b m).length = m + 1) (s : S.F) (ms : List S.F) :
    ((planFor x j es ss b θ h mj).at m).point (instanceFor x j es θ) (((planFor x j es ss b θ h mj).at m).fst s ms)
      (((planFor x j es ss b θ h mj).at m).snd s ms) = (1 + dot (s :: ms) (b m)) • S.genG1 := by
  rw [plan_scale he hj hθ, plan_sum (plan_num he hj) hm hb, mul_div_cancel_left₀ _ hθ]

theorem plan_gens {m : Nat} (hm : (h m).length = m + 1) (hb : (b m).length = m + 1) :
    simulatedGens (instanceFor x j es θ) (planFor x j es ss b θ h mj) m = (b m).map (· • S.genG1) := by
  refine zipWith_gen _ θ (x + es[j]?.getD 0) S.genG1 (fun c u => ?_) _ _ (by rw [hb]; exact hm)
  rw [plan_scale he hj hθ]
  congr 1
  have := plan_num he hj
  field_simp
  ring

omit he hθ hj in
theorem plan_s {i m : Nat} {ms : List S.F} (hm : (h m).length = m + 1)
    (hi : i = j → ms = mj ∧ m = mj.length ∧ (h mj.length).headD 0 ≠ 0) :
    ((planFor x j es ss b θ h mj).at m).s i ms = ss[i]?.getD 0 := by
  by_cases hij : i = j
  · obtain ⟨rfl, rfl, hu⟩ := hi hij
    have h1 := dot_split (ss[j]?.getD 0) ms (h ms.length) (by intro h0; rw [h0] at hm; simp at hm)
    rw [Coins.s, if_pos (show i = ((planFor x j es ss b θ h ms).at ms.length).j from hij)]
    simp only [Plan.at, planFor, ← h1, hij]
    field_simp
    ring
  · rw [Coins.s, if_neg (show ¬ i = ((planFor x j es ss b θ h mj).at m).j from hij)]
    simp only [Plan.at, planFor]
    congr 1
    rcases Nat.lt_or_gt_of_ne hij with hlt | hgt
    · rw [List.getElem?_insertIdx_of_lt hlt, List.getElem?_eraseIdx_of_lt hlt]
    · rw [List.getElem?_insertIdx_of_gt hgt, List.getElem?_eraseIdx_of_ge (by omega)]
      congr 1
      omega

omit hθ in
/-- When there is no solution. -/
theorem plan_unsolved {m : Nat} (hm : (h m).length = m + 1) (hb : (b m).length = m + 1) {P : List S.G1} {A : S.G1} {e s : S.F}
    {ms : List S.F} (hx : x + e ≠ 0) (guess : e ∉ es.eraseIdx j)
    (hn : ((planFor x j es ss b θ h mj).at m).solve P A e s ms = none) :
    dot (s :: ms) (h m) - dot (ss[j]?.getD 0 :: mj) (h mj.length) =
      -(θ * (1 + dot (s :: ms) (b m)) * (es[j]?.getD 0 - e) / (x + e)) := by
  have hsum := plan_sum (ss := ss) (θ := θ) (mj := mj) (plan_num he hj) hm hb s ms
  have hf := plan_fst (x := x) (j := j) (es := es) (ss := ss) (b := b) (θ := θ) (mj := mj) hm s ms
  simp only [Coins.solve] at hn
  split at hn
  · rename_i h2
    have hne : value (-e) ((planFor x j es ss b θ h mj).at m).common ≠ 0 :=
      Coins.common_ne (c := (planFor x j es ss b θ h mj).at m) guess
    rw [remainder, Coins.value_poly] at h2
    have h3 := (mul_eq_zero.mp h2).resolve_right hne
    have h1 : ((planFor x j es ss b θ h mj).at m).ej = es[j]?.getD 0 := rfl
    rw [h1] at h3
    rw [← hf]
    field_simp
    linear_combination (x + es[j]?.getD 0) * h3 + (e - es[j]?.getD 0) * hsum
  · cases hn

end

/-! ## The view of the forger -/

section

variable {f : Forger S} {x : S.F} {b : Nat → List S.F} {es ss : List S.F} {sigs : List Bytes}

theorem Spec.Signed.logs_length (I : Signed L f x b es ss sigs) (n : Nat) : (b n).length = n + 1 := by
  have := congrArg List.length (I.logs n)
  simpa [gens, Bbs.Spec.generators] using this.symm

theorem gens_eq (w : S.G2) (n : Nat) : gens w n = (pkg w n).h0 :: (pkg w n).h := rfl

theorem bValue_eq (I : Signed L f x b es ss sigs) (n : Nat) (s : S.F) (ms : List S.F) :
    bValue (pkg (publicKey x) n) s ms = (1 + dot (s :: ms) (b n)) • S.genG1 := by
  have h1 : (pkg (publicKey x) n).h0 :: (pkg (publicKey x) n).h = (b n).map (· • S.genG1) := I.logs n
  rw [add_smul, ← lin_gen, ← h1, Suite.lin_cons, bValue, one_smul, add_assoc]

variable {j : Nat} {θ : S.F} {h : Nat → List S.F}

theorem simulated_signer (h32 : S.scalarLen = 32) (I : Signed L f x b es ss sigs) (hj : j < es.length) (hθ : θ ≠ 0)
    (hl : ∀ n, (h n).length = n + 1) (hu : (h (asked f x sigs j).length).headD 0 ≠ 0) {i : Nat} (hi : i < es.length) :
    simulatedSigner L (instanceFor x j es θ) (plan L f x b es ss sigs j θ h) i (asked f x sigs i) =
      signer L x es ss i (asked f x sigs i) := by
  obtain ⟨σ, hσ⟩ := play_sig I.played hi
  have hσ' : signer L x es ss i (asked f x sigs i) = .ok σ := hσ
  have hlen : (asked f x sigs i).length ≠ 0 := by
    intro h0
    simp [signer, Bbs.sign, unmarshalPrivateKey_bytes (show S.scalarLen = frLen from h32), h0, Res.guardErr] at hσ'
  have hfew := I.few i hi
  have hs := plan_s (x := x) (j := j) (es := es) (ss := ss) (θ := θ) (b := b) (h := h) (mj := scalars L (asked f x sigs j)) (i := i)
    (m := (asked f x sigs i).length) (ms := scalars L (asked f x sigs i)) (hl _)
    (by rintro rfl; exact ⟨rfl, by simp [scalars], by simpa [scalars] using hu⟩)
  have hei : es[i]? = some es[i] := List.getElem?_eq_getElem hi
  have hsg := Coins.sign_eq (c := (plan L f x b es ss sigs j θ h).at (asked f x sigs i).length) (x := x) (y := start x j es θ)
    (n := es.length + 1) hj le_rfl (i := i) (by rintro rfl; exact hu) hei (scalars L (asked f x sigs i))
  have hs' : ((plan L f x b es ss sigs j θ h).at (asked f x sigs i).length).s i (scalars L (asked f x sigs i)) = ss[i]?.getD 0 := hs
  have hp := plan_point (ss := ss) (mj := scalars L (asked f x sigs j)) I.regular hj hθ (hl (asked f x sigs i).length)
    (I.logs_length _) (ss[i]?.getD 0) (scalars L (asked f x sigs i))
  have hsg' : (x + es[i]) • ((plan L f x b es ss sigs j θ h).at (asked f x sigs i).length).sign (instanceFor x j es θ) i
      (scalars L (asked f x sigs i)) =
      (1 + dot (ss[i]?.getD 0 :: scalars L (asked f x sigs i)) (b (asked f x sigs i).length)) • S.genG1 := by
    rw [← hp]
    rw [hs'] at hsg
    exact hsg
  rw [← eq_inv_smul_iff₀ (I.regular _ (List.getElem_mem hi)), ← bValue_eq I] at hsg'
  have hes : (plan L f x b es ss sigs j θ h).es = es := rfl
  have hsn := signWithKeyFr_eq (show S.scalarLen = frLen from h32) L.zrOfInt_one _ (messagesToFr_inOrder L (asked f x sigs i))
    (by simp; omega) x (es[i]?.getD 0) (ss[i]?.getD 0)
  simp only [messagesToFr_length, messagesToFr_fr] at hsn
  rw [signer, Bbs.sign, unmarshalPrivateKey_bytes (show S.scalarLen = frLen from h32), Res.ok_bind]
  simp only [hlen, decide_false, Res.guardErr_false, Res.ok_bind, hsn]
  simp only [simulatedSigner, hs', hsg', hes, hei, Option.getD_some]
  rfl

/-- **C96.** The reduction shows a forger what the signer would: the same public key, the same generators and the same signatures. -/
theorem C96_same_view (h32 : S.scalarLen = 32) (I : Signed L f x b es ss sigs) (hj : j < es.length) (hθ : θ ≠ 0)
    (hl : ∀ n, (h n).length = n + 1) (hu : (h (asked f x sigs j).length).headD 0 ≠ 0) :
    simulatedGens (instanceFor x j es θ) (plan L f x b es ss sigs j θ h) = gens (x • S.genG2) ∧
      f.play (x • S.genG2) (gens (x • S.genG2)) (simulatedSigner L (instanceFor x j es θ) (plan L f x b es ss sigs j θ h)) es.length =
        .ok sigs :=
  ⟨funext fun n => (plan_gens I.regular hj hθ (hl n) (I.logs_length n)).trans (I.logs n).symm,
    play_congr I.played fun _ hk => simulated_signer h32 I hj hθ hl hu hk⟩

theorem valid_eq (I : Signed L f x b es ss sigs) {z : Forgery S} (hz : z.Valid (x • S.genG2)) :
    (x + z.sig.e) • z.sig.a = (1 + dot (z.sig.s :: z.scalars) (b z.scalars.length)) • S.genG1 := by
  refine S.pair_gen_inj ?_
  have h2 := hz.2
  have h4 : S.pair (x • S.genG2 + z.sig.e • S.genG2) z.sig.a =
      S.pair S.genG2 (bValue (pkg (publicKey x) z.scalars.length) z.sig.s z.scalars) := h2
  rw [← bValue_eq I, ← h4, ← add_smul]
  simp only [map_smul, LinearMap.smul_apply]

/-- **C96.** The reduction does not fail: what it gives is a solution of the problem whenever it gives something. -/
theorem C96_sound (h32 : S.scalarLen = 32) (I : Signed L f x b es ss sigs) (hj : j < es.length) (hθ : θ ≠ 0)
    (hl : ∀ n, (h n).length = n + 1) (hu : (h (asked f x sigs j).length).headD 0 ≠ 0)
    (hv : (forged f x sigs).Valid (x • S.genG2)) :
    ∃ r, reduction L f (x • S.genG2) (instanceFor x j es θ) (plan L f x b es ss sigs j θ h) = .ok r ∧
      ∀ z, r = some z → Solves x (start x j es θ) z := by
  obtain ⟨v1, v2⟩ := C96_same_view h32 I hj hθ hl hu
  have hes : (plan L f x b es ss sigs j θ h).es = es := rfl
  have hv := valid_eq I hv
  have hf : f.forge (x • S.genG2) (gens (x • S.genG2)) sigs = forged f x sigs := rfl
  simp only [reduction, v1, hes, v2, Res.ok_bind, Res.pure_def, hf]
  refine ⟨_, rfl, fun z hz => ?_⟩
  revert hv hz
  generalize forged f x sigs = w
  intro hv hz
  split at hz
  · rename_i h0
    cases hz
    have h1 : (w.sig.e + x) • S.genG2 = 0 := by rw [add_smul]; exact h0
    have h2 : w.sig.e + x = 0 := by
      by_contra hne
      exact S.genG2_ne ((smul_eq_zero.mp h1).resolve_left hne)
    have h3 : x + (1 + w.sig.e) = 1 := by linear_combination h2
    simp only [Solves, instanceFor, powers, List.headD_cons, h3, one_smul]
  · refine Coins.solve_sound (c := (plan L f x b es ss sigs j θ h).at w.scalars.length) (x := x) (y := start x j es θ)
      (n := es.length + 1) hj le_rfl ?_ hz
    rw [hv]
    exact (plan_point I.regular hj hθ (hl _) (I.logs_length _) w.sig.s _).symm

/-- When the reduction finds no solution. -/
theorem unsolved (h32 : S.scalarLen = 32) (I : Signed L f x b es ss sigs) (hj : j < es.length) (hθ : θ ≠ 0)
    (hl : ∀ n, (h n).length = n + 1) (hu : (h (asked f x sigs j).length).headD 0 ≠ 0)
    (hv : (forged f x sigs).Valid (x • S.genG2)) {z : Forgery S} (hz : forged f x sigs = z) (guess : z.sig.e ∉ es.eraseIdx j)
    (hns : ¬ Solved L f x b es ss sigs j θ h) :
    x + z.sig.e ≠ 0 ∧ dot (z.sig.s :: z.scalars) (h z.scalars.length) -
        dot (ss[j]?.getD 0 :: scalars L (asked f x sigs j)) (h (asked f x sigs j).length) =
      -(θ * (1 + dot (z.sig.s :: z.scalars) (b z.scalars.length)) * (es[j]?.getD 0 - z.sig.e) / (x + z.sig.e)) := by
  obtain ⟨r, hr, hsol⟩ := C96_sound h32 I hj hθ hl hu hv
  cases r with
  | some z => exact absurd ⟨z, hr, hsol z rfl⟩ hns
  | none =>
    obtain ⟨v1, v2⟩ := C96_same_view h32 I hj hθ hl hu
    have hes : (plan L f x b es ss sigs j θ h).es = es := rfl
    have hf : f.forge (x • S.genG2) (gens (x • S.genG2)) sigs = z := hz
    simp only [reduction, v1, hes, v2, Res.ok_bind, Res.pure_def, hf, Res.ok.injEq] at hr
    split at hr
    · cases hr
    · rename_i h0
      have hx : x + z.sig.e ≠ 0 := by
        intro he
        rw [← add_smul, add_comm, he, zero_smul] at h0
        exact h0 rfl
      have := plan_unsolved (mj := scalars L (asked f x sigs j)) I.regular hj (hl _) (I.logs_length _) hx guess hr
      rw [show (scalars L (asked f x sigs j)).length = (asked f x sigs j).length by simp [scalars]] at this
      exact ⟨hx, this⟩

/-! ## Counting -/

theorem lists_length {N : Nat} (h : Secrets S N) (n : Nat) : (h.lists n).length = n + 1 := by
  unfold Secrets.lists
  split <;> simp

theorem dot_lists [Fintype S.F] {N n : Nat} (h : Secrets S N) (hn : n < N) (ms : List S.F) (hm : ms.length ≤ n + 1) :
    dot ms (h.lists n) = ∑ p : (Σ m : Fin N, Fin (m + 1)), (if p.1.val = n then ms[p.2.val]?.getD 0 else 0) * h p := by
  rw [Secrets.lists, dif_pos hn, Forge.dot_ofFn ms hm, Fintype.sum_sigma, Finset.sum_eq_single (⟨n, hn⟩ : Fin N)]
  · simp
  · intro m _ hne
    have : m.val ≠ n := fun h => hne (Fin.ext h)
    simp [this]
  · intro h; exact absurd (Finset.mem_univ _) h

open scoped Classical in
/-- **C96.** Suppose that the forger comes up with a signature for other scalars, or with another `s`, than the signature number `j`, and
that its `e` is not that of another signature. Then the reduction finds a solution, for all but one in `|F|` choices of what is hidden
from the forger. -/
theorem C96_solved [Fintype S.F] (h32 : S.scalarLen = 32) (I : Signed L f x b es ss sigs) (hj : j < es.length) (hθ : θ ≠ 0)
    {z : Forgery S} (hz : forged f x sigs = z) (hv : z.Valid (x • S.genG2)) (guess : z.sig.e ∉ es.eraseIdx j) {N : Nat}
    (hN : z.scalars.length < N) (hNj : (asked f x sigs j).length < N)
    (new : if z.scalars.length = (asked f x sigs j).length
      then z.sig.s :: z.scalars ≠ ss[j]?.getD 0 :: scalars L (asked f x sigs j)
      else ∃ y ∈ z.sig.s :: ss[j]?.getD 0 :: (z.scalars ++ scalars L (asked f x sigs j)), y ≠ 0) :
    Fintype.card S.F * (Finset.univ.filter fun h : Secrets S N =>
      (h.lists (asked f x sigs j).length).headD 0 ≠ 0 ∧ ¬ Solved L f x b es ss sigs j θ h.lists).card ≤
      Fintype.card (Secrets S N) := by
  have l2 : (scalars L (asked f x sigs j)).length = (asked f x sigs j).length := by simp [scalars]
  have key : ∀ h : Secrets S N, (h.lists (asked f x sigs j).length).headD 0 ≠ 0 → ¬ Solved L f x b es ss sigs j θ h.lists →
      ∑ p : (Σ m : Fin N, Fin (m + 1)),
        ((if p.1.val = z.scalars.length then (z.sig.s :: z.scalars)[p.2.val]?.getD 0 else 0) -
          (if p.1.val = (asked f x sigs j).length then (ss[j]?.getD 0 :: scalars L (asked f x sigs j))[p.2.val]?.getD 0 else 0)) * h p =
      -(θ * (1 + dot (z.sig.s :: z.scalars) (b z.scalars.length)) * (es[j]?.getD 0 - z.sig.e) / (x + z.sig.e)) := by
    intro h hu hns
    rw [← (unsolved h32 I hj hθ (lists_length h) hu (hz ▸ hv) hz guess hns).2, dot_lists h hN _ (by simp),
      dot_lists h hNj _ (by simp [l2]), ← Finset.sum_sub_distrib]
    exact Finset.sum_congr rfl fun p _ => sub_mul _ _ _
  suffices hp : ∃ p : (Σ m : Fin N, Fin (m + 1)),
      ((if p.1.val = z.scalars.length then (z.sig.s :: z.scalars)[p.2.val]?.getD 0 else 0) -
        (if p.1.val = (asked f x sigs j).length then (ss[j]?.getD 0 :: scalars L (asked f x sigs j))[p.2.val]?.getD 0 else 0)) ≠ 0 by
    obtain ⟨p, hp⟩ := hp
    refine le_trans (Nat.mul_le_mul_left _ (Finset.card_le_card fun h hh => ?_)) (Forge.count_linear
      (fun p : (Σ m : Fin N, Fin (m + 1)) =>
        (if p.1.val = z.scalars.length then (z.sig.s :: z.scalars)[p.2.val]?.getD 0 else 0) -
          (if p.1.val = (asked f x sigs j).length then (ss[j]?.getD 0 :: scalars L (asked f x sigs j))[p.2.val]?.getD 0 else 0))
      (-(θ * (1 + dot (z.sig.s :: z.scalars) (b z.scalars.length)) * (es[j]?.getD 0 - z.sig.e) / (x + z.sig.e)))
      p hp)
    simp only [Finset.mem_filter, Finset.mem_univ, true_and] at hh ⊢
    exact key h hh.1 hh.2
  clear key hv hz guess
  obtain ⟨⟨_, _, s⟩, ms⟩ := z
  simp only at new hN ⊢
  revert new l2 hNj
  generalize (asked f x sigs j).length = k
  generalize scalars L (asked f x sigs j) = mj
  generalize ss[j]?.getD 0 = s'
  intro hNj l2 new
  split at new
  · rename_i hnk
    subst hnk
    by_contra hall
    push Not at hall
    refine new (List.ext_getElem (by simp [l2]) fun i h1 h2 => ?_)
    have hi : i < ms.length + 1 := by simpa using h1
    have := hall ⟨⟨ms.length, hN⟩, ⟨i, hi⟩⟩
    simp only [if_true, List.getElem?_eq_getElem h1, List.getElem?_eq_getElem h2, Option.getD_some] at this
    exact sub_eq_zero.mp this
  · rename_i hnk
    obtain ⟨y, hy, hy0⟩ := new
    have hy' : y ∈ s :: ms ∨ y ∈ s' :: mj := by
      simp only [List.mem_cons, List.mem_append] at hy ⊢
      tauto
    rcases hy' with hy' | hy'
    · obtain ⟨i, hi, rfl⟩ := List.mem_iff_getElem.mp hy'
      refine ⟨⟨⟨ms.length, hN⟩, ⟨i, by simpa using hi⟩⟩, ?_⟩
      simpa [hnk, List.getElem?_eq_getElem hi] using hy0
    · obtain ⟨i, hi, rfl⟩ := List.mem_iff_getElem.mp hy'
      refine ⟨⟨⟨k, hNj⟩, ⟨i, by simpa [l2] using hi⟩⟩, ?_⟩
      simpa [Ne.symm hnk, List.getElem?_eq_getElem hi] using hy0

/-- **C96 (also signatures).** A signature that differs from that number `j` only in `e` makes the reduction find a solution always,
unless its first component is zero. -/
theorem C96_same_messages (h32 : S.scalarLen = 32) (I : Signed L f x b es ss sigs) (hj : j < es.length) (hθ : θ ≠ 0)
    (hl : ∀ n, (h n).length = n + 1) (hu : (h (asked f x sigs j).length).headD 0 ≠ 0)
    {z : Forgery S} (hz : forged f x sigs = z) (hv : z.Valid (x • S.genG2)) (new : z.sig.e ∉ es)
    (same : z.scalars = scalars L (asked f x sigs j)) (hs : some z.sig.s = ss[j]?) (hA : z.sig.a ≠ 0) :
    Solved L f x b es ss sigs j θ h := by
  by_contra hns
  obtain ⟨hx, h1⟩ := unsolved h32 I hj hθ hl hu (hz ▸ hv) hz (fun h => new (List.mem_of_mem_eraseIdx h)) hns
  have hv := valid_eq I hv
  rw [← hs, show (asked f x sigs j).length = z.scalars.length by rw [same]; simp [scalars], ← same, Option.getD_some, sub_self, eq_comm,
    neg_eq_zero, div_eq_zero_iff] at h1
  have h2 := h1.resolve_right hx
  have h3 : es[j]?.getD 0 - z.sig.e ≠ 0 := by
    rw [List.getElem?_eq_getElem hj, Option.getD_some]
    intro h0
    exact new (by rw [← sub_eq_zero.mp h0]; exact List.getElem_mem hj)
  have h4 := ((mul_eq_zero.mp h2).resolve_right h3)
  have h5 := (mul_eq_zero.mp h4).resolve_left hθ
  rw [h5, zero_smul] at hv
  exact hA ((smul_eq_zero.mp hv).resolve_left hx)

/-! ## Forgeries -/

/-- C96. The signatures that `Verify` accepts are such forgeries. -/
theorem C96_signatures (w : S.G2) (messages : List Bytes) (raw : Bytes) (hn : messages.length < 2 ^ 32)
    (acc : Bbs.verify L messages raw (S.g2Comp w) = .ok ()) :
    ∃ σ, parseSignature S raw = .ok σ ∧ (⟨σ, scalars L messages⟩ : Forgery S).Valid w := by
  obtain ⟨σ, w', h1, h2, h3⟩ := (C24_verify_exact L _ _ _ hn).mp acc
  rw [unmarshalPublicKey_comp, Res.ok.injEq] at h2
  subst h2
  exact ⟨σ, h1, by simpa [Forgery.Valid, scalars] using h3⟩

/-- C96. So is what is computed from two proofs, as in C27. -/
theorem C96_proofs (L₁ L₂ : Lib S) (messages : List (SigMsg S)) (proof₁ proof₂ nonce₁ nonce₂ : Bytes)
    (n : Nat) (rs : List Nat) (p q : SigProof S) (w : S.G2)
    (h₁ : verifyProofFr L₁ messages proof₁ nonce₁ (S.g2Comp w) = .ok ())
    (h₂ : verifyProofFr L₂ messages proof₂ nonce₂ (S.g2Comp w) = .ok ())
    (hp : parsePoKPayload proof₁ = .ok (n, rs)) (hq : parsePoKPayload proof₂ = .ok (n, rs))
    (hp' : parseSignatureProof S (proof₁.drop (2 + n / 8 + 1)) = .ok p)
    (hq' : parseSignatureProof S (proof₂.drop (2 + n / 8 + 1)) = .ok q)
    (hs : Bbs.Spec.SameFirst p q) (wp : Bbs.Spec.WellFormed p rs n) (wq : Bbs.Spec.WellFormed q rs n)
    (hc : Bbs.Spec.challenge L₁ p rs w n nonce₁ ≠ Bbs.Spec.challenge L₂ q rs w n nonce₂) :
    let x := Bbs.Spec.extract p q (Bbs.Spec.challenge L₁ p rs w n nonce₁) (Bbs.Spec.challenge L₂ q rs w n nonce₂)
    ∃ ms, (⟨⟨x.A, x.e, x.s⟩, ms⟩ : Forgery S).Valid w ∧ ms.length = n ∧
      Bbs.Spec.shown rs ms = (messages.map (·.fr)).take (Bbs.Spec.shown rs ms).length ∧ Bbs.Spec.unshown rs ms = x.hidden := by
  obtain ⟨ms, h3, h4, h5⟩ := C27_extraction_partial L₁ L₂ messages proof₁ proof₂ nonce₁ nonce₂ (S.g2Comp w) n rs p q w h₁ h₂ hp hq hp' hq'
    (unmarshalPublicKey_comp w) hs wp wq hc
  have hl : ms.length = n := by rw [h3.1]; simp [Bbs.Spec.generators]
  exact ⟨ms, by rw [Forgery.Valid]; simp only [hl]; exact h3, hl, h4, h5⟩

open scoped Classical in
/-- **C96.** A signature for messages that the signer was not asked to sign, which `Verify` accepts. Two different messages have the same
scalar, or one of the messages the signer signed has the scalar 0; or the reduction finds a solution, for all but one in `|F|` choices of
what is hidden from the forger, if the number `j` was guessed right. -/
theorem C96_forgery [Fintype S.F] (h32 : S.scalarLen = 32) (I : Signed L f x b es ss sigs) (hj : j < es.length) (hθ : θ ≠ 0)
    (messages : List Bytes) (raw : Bytes) (hn : messages.length < 2 ^ 32)
    (acc : Bbs.verify L messages raw (S.g2Comp (x • S.genG2)) = .ok ())
    (comes : ∀ σ, parseSignature S raw = .ok σ → forged f x sigs = ⟨σ, scalars L messages⟩)
    (new : ∀ i < es.length, messages ≠ asked f x sigs i) :
    (∃ i < es.length, ∃ m ∈ messages, ∃ m' ∈ asked f x sigs i, m ≠ m' ∧ frFromOKM L m = frFromOKM L m') ∨
      (∃ i < es.length, ∃ m ∈ asked f x sigs i, frFromOKM L m = 0) ∨
      ((forged f x sigs).sig.e ∉ es.eraseIdx j → ∀ N, messages.length < N → (asked f x sigs j).length < N →
        Fintype.card S.F * (Finset.univ.filter fun h : Secrets S N =>
          (h.lists (asked f x sigs j).length).headD 0 ≠ 0 ∧ ¬ Solved L f x b es ss sigs j θ h.lists).card ≤
          Fintype.card (Secrets S N)) := by
  obtain ⟨σ, hσ, hv⟩ := C96_signatures _ _ _ hn acc
  have hz := comes σ hσ
  have hsl : (scalars L messages).length = messages.length := by simp [scalars]
  by_cases hzero : ∃ i < es.length, ∃ m ∈ asked f x sigs i, frFromOKM L m = 0
  · exact .inr (.inl hzero)
  by_cases hcol : ∃ i < es.length, ∃ m ∈ messages, ∃ m' ∈ asked f x sigs i, m ≠ m' ∧ frFromOKM L m = frFromOKM L m'
  · exact .inl hcol
  refine .inr (.inr fun guess N hN hNj => C96_solved h32 I hj hθ hz hv (by rw [hz] at guess; exact guess) (by rw [hsl]; exact hN) hNj ?_)
  split
  · intro heq
    rw [List.cons.injEq] at heq
    rcases map_eq_or _ heq.2 with e | ⟨m, hm, m', hm', hne, he⟩
    · exact new j hj e
    · exact hcol ⟨j, hj, m, hm, m', hm', hne, he⟩
  · obtain ⟨τ, hτ⟩ := play_sig I.played hj
    have hne : asked f x sigs j ≠ [] := by
      intro h0
      have hτ' : signer L x es ss j (asked f x sigs j) = .ok τ := hτ
      simp [signer, Bbs.sign, unmarshalPrivateKey_bytes (show S.scalarLen = frLen from h32), h0, Res.guardErr] at hτ'
    obtain ⟨m, l, hml⟩ := List.exists_cons_of_ne_nil hne
    have hm : m ∈ asked f x sigs j := by rw [hml]; exact List.mem_cons_self
    refine ⟨frFromOKM L m, ?_, fun h0 => hzero ⟨j, hj, m, hm, h0⟩⟩
    simp only [List.mem_cons, List.mem_append]
    exact .inr (.inr (.inr (List.mem_map_of_mem hm)))

/-- C96. Generators have discrete logarithms. -/
theorem C96_exponents (x : S.F) : ∃ b : Nat → List S.F, ∀ n, gens (x • S.genG2) n = (b n).map (· • S.genG1) := by
  have : ∀ l : List S.G1, ∃ bs : List S.F, l = bs.map (· • S.genG1) := by
    intro l
    induction l with
    | nil => exact ⟨[], rfl⟩
    | cons P l ih =>
      obtain ⟨b, rfl⟩ := S.g1_cyclic P
      obtain ⟨bs, rfl⟩ := ih
      exact ⟨b :: bs, rfl⟩
  exact ⟨fun n => (this (gens (x • S.genG2) n)).choose, fun n => (this (gens (x • S.genG2) n)).choose_spec⟩

/-- C96. If the `e` of the signer are different, one of the guesses `j` is right. -/
theorem C96_guess (hes : es.Nodup) (hq : es ≠ []) (e : S.F) : ∃ j < es.length, e ∉ es.eraseIdx j := by
  by_cases he : e ∈ es
  · obtain ⟨j, hj, rfl⟩ := List.mem_iff_getElem.mp he
    refine ⟨j, hj, ?_⟩
    rw [List.mem_eraseIdx_iff_getElem]
    rintro ⟨i, hi, hne, h⟩
    exact hne ((List.Nodup.getElem_inj_iff hes).mp h)
  · exact ⟨0, List.length_pos_iff.mpr hq, fun h => he (List.mem_of_mem_eraseIdx h)⟩

end

/-! ## An example -/

namespace Ex

open Idemix.Bbs.Ex

/-- The signature for the messages `[1], [2, 3]`, with the secret key 3. -/
def sig : Bytes := match Bbs.sign L32 [[1], [2, 3]] (Toy.enc32 3) (2 : Toy.K) (5 : Toy.K) with
  | .ok x => x
  | _ => []

/-- A forger that asks for this signature and shows one for `[4]`; the group of the example is the field. -/
def forger : Forger S32 :=
  ⟨fun _ _ _ => [[1], [2, 3]],
    fun _ g _ => ⟨⟨(2 : Toy.K) • (S32.genG1 + S32.lin (scalars L32 [[4]]) (g 1).tail), (1 : Toy.K), (0 : Toy.K)⟩, scalars L32 [[4]]⟩⟩

/-- The bytes of this signature. -/
def raw : Bytes := S32.g1Comp (forged forger (3 : Toy.K) [sig]).sig.a ++ Toy.enc32 1 ++ Toy.enc32 0

theorem smul_gen (l : List Toy.K) : l = l.map (· • S32.genG1) := by
  induction l with
  | nil => rfl
  | cons a l ih =>
    rw [List.map_cons, ← ih]
    congr 1
    exact (mul_one a).symm

set_option maxRecDepth 40000 in
theorem signed : Signed L32 forger (3 : Toy.K) (gens ((3 : Toy.K) • S32.genG2)) [(2 : Toy.K)] [(5 : Toy.K)] [sig] where
  len := rfl
  played := by decide
  logs := fun n => smul_gen _
  few := by decide
  regular := by decide

set_option maxRecDepth 40000 in
/-- The signature is accepted and it is what the forger comes up with, the messages are new, their scalars are not 0 and different, and
the guess is right. -/
example : Bbs.verify L32 [[4]] raw (S32.g2Comp ((3 : Toy.K) • S32.genG2)) = .ok () ∧
    (∀ σ, parseSignature S32 raw = .ok σ → forged forger (3 : Toy.K) [sig] = ⟨σ, scalars L32 [[4]]⟩) ∧
    [[4]] ≠ asked forger (3 : Toy.K) [sig] 0 ∧
    (scalars L32 [[1], [2, 3], [4]]).Nodup ∧ (0 : Toy.K) ∉ scalars L32 [[1], [2, 3], [4]] ∧
    (forged forger (3 : Toy.K) [sig]).sig.e ∉ [(2 : Toy.K)].eraseIdx 0 := by
  refine ⟨by decide, fun σ hσ => ?_, by decide, by decide, by decide, List.not_mem_nil⟩
  have h : parseSignature S32 raw = .ok (forged forger (3 : Toy.K) [sig]).sig := parseSignature_bytes rfl _ _ _
  rw [h, Res.ok.injEq] at hσ
  subst hσ
  rfl

set_option maxRecDepth 40000 in
/-- The reduction finds a solution: with `x = 3`, `y = 1`, `c = 1` it is `4⁻¹ = 2`. -/
example : reduction L32 forger ((3 : Toy.K) • S32.genG2) (instanceFor (3 : Toy.K) 0 [(2 : Toy.K)] (1 : Toy.K))
    (plan L32 forger (3 : Toy.K) (gens ((3 : Toy.K) • S32.genG2)) [(2 : Toy.K)] [(5 : Toy.K)] [sig] 0 (1 : Toy.K)
      (fun n => List.replicate (n + 1) (1 : Toy.K))) = .ok (some ((1 : Toy.K), (2 : Toy.K))) := by decide

end Ex

end Idemix.ForgeBbs
