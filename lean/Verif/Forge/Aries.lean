import Verif.Forge.Core
import Verif.Aries.PropsEscalate
import Verif.Aries.PropsExtract

/-!
# C88: what an issuer of the aries scheme certifies, if it knows what is in the requests

As C87, for issuers of the aries scheme. `Spec.Ask` has the opening of the commitment in the request: the code does not make sure that
the user knows it, and without it the property is false (`C88_violated`).
-/

namespace Idemix.ForgeAries

open Idemix (Suite Res Bytes Dyn IdemixAttribute)
open Idemix.Aries Idemix.Bbs
open Idemix.Forge (Coins Hidden coinsFor startFor powers dot coins_base coins_start coins_s coins_point unsolved_le)

variable {S : Suite} (L : Lib S)

namespace Spec

/-- What a user asks the issuer for: a request; attributes, with their values; and the secret key and the blinding in the commitment of
the request. -/
structure Ask (S : Suite) where
  request : Bytes
  attributes : List IdemixAttribute
  values : List S.F
  sk : S.F
  r : S.F

/-- A BBS+ signature with the messages it is for. -/
structure Forgery (S : Suite) where
  A : S.G1
  e : S.F
  s : S.F
  messages : List S.F

/-- What to ask for next, and what to come up with in the end, both from the public key and the credentials so far. -/
structure Forger (S : Suite) where
  ask : IPK S → List Bytes → Ask S
  forge : IPK S → List Bytes → Forgery S

/-- The credentials of an issuer for whom `issue i` is the answer to the question number `i`. -/
def Forger.play (f : Forger S) (ipk : IPK S) (issue : Nat → Ask S → Res Bytes) : Nat → Res (List Bytes)
  | 0 => .ok []
  | n + 1 => do
    let creds ← f.play ipk issue n
    let cred ← issue n (f.ask ipk creds)
    pure (creds ++ [cred])

/-- The issuer: `Cred.Sign` for the position `k` of the secret, with the random choices `es`, `ss`. -/
def issuer (isk : ISK S) (k : Nat) (es ss : List S.F) (i : Nat) (a : Ask S) : Res Bytes :=
  credSign L (.val isk) a.request a.attributes k (es[i]?.getD 0) (ss[i]?.getD 0)

/-- What is signed. -/
def Ask.messages (k : Nat) (a : Ask S) : List S.F := Aries.Spec.withSecret k a.sk a.values

/-- The question number `i`. -/
def asked (f : Forger S) (ipk : IPK S) (creds : List Bytes) (i : Nat) : Ask S := f.ask ipk (creds.take i)

/-- The public key of the reduction, from the points `P = [y, x • y, …]` and `W = x • g₂`: the hash function that gives the generators is
programmed to give those of the reduction, as usual for proofs in the random oracle model. -/
def simulatedKey (n : Nat) (W : S.G2) (P : List S.G1) (c : Coins S.F) : IPK S :=
  ⟨W, ⟨c.point P c.u0 c.v0, List.zipWith (c.point P) c.us c.vs, W, (n : Int) + 1⟩, n⟩

/-- A credential of the reduction. -/
def simulatedIssuer (k : Nat) (P : List S.G1) (c : Coins S.F) (i : Nat) (a : Ask S) : Res Bytes :=
  Aries.Wire.credCodec.marshal ⟨S.g1Comp (c.sign P i (a.messages k)) ++ S.zrBytes (c.es[i]?.getD 0) ++
    S.zrBytes (c.s i (a.messages k) - a.r), a.values.map S.zrBytes, 0⟩

/-- The reduction. If it meets an `e` with `x + e = 0` it knows `x`. -/
def reduction (n k : Nat) (f : Forger S) (W : S.G2) (P : List S.G1) (c : Coins S.F) : Res (Option (S.F × S.G1)) := do
  let ipk := simulatedKey n W P c
  let creds ← f.play ipk (simulatedIssuer k P c) c.es.length
  let z := f.forge ipk creds
  pure (if z.e • S.genG2 + W = 0 then some (1 + z.e, P.headD 0) else c.solve P z.A z.e z.s z.messages)

/-- A solution of the strong Diffie–Hellman problem for the points `y, x • y, x² • y, …` and `x • g₂`: some `c` and
`(x + c)⁻¹ • y`. -/
def Solves (x : S.F) (y : S.G1) (z : S.F × S.G1) : Prop := (x + z.1) • z.2 = y

/-- An issuer made, with the random choices `es` and `ss`, all the credentials that `f` asked it for. Its key is for `n` attributes; `b0`
and `bs` are the discrete logarithms of the generators. -/
structure Issued (L : Lib S) (f : Forger S) (isk : ISK S) (n k : Nat) (b0 : S.F) (bs es ss : List S.F) (creds : List Bytes) : Prop where
  key : Aries.Spec.IsKey isk.pk (isk.sk • S.genG2) n
  position : k ≤ n
  some_attribute : 0 < n
  few : n < 2 ^ 32 - 1
  len : ss.length = es.length
  played : f.play isk.pk (issuer L isk k es ss) es.length = .ok creds
  h0 : isk.pk.pkg.h0 = b0 • S.genG1
  h : isk.pk.pkg.h = bs.map (· • S.genG1)
  /-- There are as many attributes as in the key, and the values are theirs. -/
  count : ∀ i < es.length, (asked f isk.pk creds i).attributes.length = n
  encodes : ∀ i < es.length, List.Forall₂ (Aries.Spec.Encodes L) (asked f isk.pk creds i).attributes (asked f isk.pk creds i).values
  /-- The commitments in the requests are those to the secret keys. -/
  known : ∀ i < es.length, ∃ b, ∃ hk ∈ isk.pk.pkg.h[k]?, parseBlindedMessages S (asked f isk.pk creds i).request = .ok b ∧
    b.c = (asked f isk.pk creds i).r • isk.pk.pkg.h0 + (asked f isk.pk creds i).sk • hk
  /-- `isk + e` can be inverted. -/
  regular : ∀ e ∈ es, isk.sk + e ≠ 0

/-- `z` is a signature of the issuer. -/
def Forgery.Valid (ipk : IPK S) (z : Forgery S) : Prop :=
  Bbs.Spec.Signature ipk.w ipk.pkg.h0 ipk.pkg.h z.A z.e z.s z.messages

/-- The third components of the credentials, after unblinding. -/
def totals (f : Forger S) (ipk : IPK S) (creds : List Bytes) (ss : List S.F) : List S.F :=
  ss.mapIdx fun i s => s + (asked f ipk creds i).r

/-- The coins that correspond to the coins of the issuer. -/
def coins (f : Forger S) (isk : ISK S) (k : Nat) (b0 : S.F) (bs es ss : List S.F) (creds : List Bytes) (j : Nat) (h : Hidden S.F) :
    Coins S.F :=
  coinsFor isk.sk j es (totals f isk.pk creds ss) b0 bs h ((asked f isk.pk creds j).messages k)

/-- `y, x • y, x² • y, …` for the `y` of `startFor`. -/
def instanceFor (isk : ISK S) (j : Nat) (es : List S.F) (h : Hidden S.F) : List S.G1 :=
  powers isk.sk (startFor isk.sk j es h S.genG1) (es.length + 1)

/-- The reduction finds a solution. -/
def Solved (f : Forger S) (isk : ISK S) (n k : Nat) (b0 : S.F) (bs es ss : List S.F) (creds : List Bytes) (j : Nat) (h : Hidden S.F) :
    Prop :=
  ∃ z, reduction n k f (isk.sk • S.genG2) (instanceFor isk j es h) (coins f isk k b0 bs es ss creds j h) = .ok (some z) ∧
    Solves isk.sk (startFor isk.sk j es h S.genG1) z

end Spec

open Spec

variable {L}

/-! ## Plays -/

section

variable {f : Forger S} {ipk : IPK S} {issue issue' : Nat → Ask S → Res Bytes} {n : Nat} {creds : List Bytes}

theorem play_length (h : f.play ipk issue n = .ok creds) : creds.length = n := by
  induction n generalizing creds with
  | zero => cases h; rfl
  | succ n ih =>
    simp only [Forger.play, Res.bind_eq_ok, Res.pure_def, Res.ok.injEq] at h
    obtain ⟨cs, hc, cred, -, rfl⟩ := h
    simp [ih hc]

theorem play_take (h : f.play ipk issue n = .ok creds) {k : Nat} (hk : k ≤ n) : f.play ipk issue k = .ok (creds.take k) := by
  induction n generalizing creds with
  | zero => obtain rfl : k = 0 := by omega
            cases h; rfl
  | succ n ih =>
    by_cases hkn : k = n + 1
    · subst hkn
      rw [List.take_of_length_le (by rw [play_length h]), h]
    · simp only [Forger.play, Res.bind_eq_ok, Res.pure_def, Res.ok.injEq] at h
      obtain ⟨cs, hc, cred, -, rfl⟩ := h
      rw [ih hc (by omega), List.take_append_of_le_length (by rw [play_length hc]; omega)]

theorem play_congr (h : f.play ipk issue n = .ok creds)
    (hi : ∀ k < n, issue' k (asked f ipk creds k) = issue k (asked f ipk creds k)) : f.play ipk issue' n = .ok creds := by
  suffices H : ∀ k ≤ n, f.play ipk issue' k = .ok (creds.take k) by
    rw [H n le_rfl, List.take_of_length_le (by rw [play_length h])]
  intro k hk
  induction k with
  | zero => rfl
  | succ k ih =>
    have h1 := play_take h hk
    simp only [Forger.play, play_take h (show k ≤ n by omega), Res.ok_bind] at h1
    have h2 := hi k (by omega)
    simp only [asked] at h2
    simp only [Forger.play, ih (by omega), Res.ok_bind, h2]
    exact h1

end

/-! ## The view of the forger -/

theorem lin_gen (ms bs : List S.F) (g : S.G1) : S.lin ms (bs.map (· • g)) = dot ms bs • g := by
  induction ms generalizing bs with
  | nil => simp [dot]
  | cons m ms ih =>
    cases bs with
    | nil => simp [dot]
    | cons b bs => simp only [List.map_cons, Suite.lin_cons, ih, dot]; module

theorem zipWith_gen (point : S.F → S.F → S.G1) (θ z : S.F) (g : S.G1) (hp : ∀ b u, point u ((θ * b - u) / z) = b • g)
    (bs us : List S.F) (hll : us.length = bs.length) :
    List.zipWith point us (List.zipWith (fun b a => (θ * b - a) / z) bs us) = bs.map (· • g) := by
  induction bs generalizing us with
  | nil => simp
  | cons b bs ih => cases us with
    | nil => simp at hll
    | cons a us => simp only [List.zipWith_cons_cons, List.map_cons, hp, ih us (by simpa using hll)]

section

variable {f : Forger S} {isk : ISK S} {n k : Nat} {b0 : S.F} {bs es ss : List S.F} {creds : List Bytes}

theorem Spec.Issued.bases (I : Issued L f isk n k b0 bs es ss creds) : bs.length = n + 1 := by
  have h1 := congrArg List.length I.h
  rw [(isKey_iff _ _ _).mp I.key] at h1
  simpa [ipkFor] using h1.symm

theorem Spec.Issued.num (I : Issued L f isk n k b0 bs es ss creds) {j : Nat} (hj : j < es.length) : isk.sk + es[j]?.getD 0 ≠ 0 := by
  rw [List.getElem?_eq_getElem hj]; exact I.regular _ (List.getElem_mem hj)

theorem Spec.Issued.numValues (I : Issued L f isk n k b0 bs es ss creds) {i : Nat} (hi : i < es.length) :
    (asked f isk.pk creds i).values.length = n := by
  rw [← (I.encodes i hi).length_eq, I.count i hi]

variable {j : Nat} {h : Hidden S.F}

theorem simulated_key (I : Issued L f isk n k b0 bs es ss creds) (hj : j < es.length) (hθ : h.θ ≠ 0) (hl : h.us.length = n + 1) :
    simulatedKey n (isk.sk • S.genG2) (instanceFor isk j es h) (coins f isk k b0 bs es ss creds j h) = isk.pk := by
  have hb := coins_base (G := S.G1) (ss := totals f isk.pk creds ss) (b0 := b0) (bs := bs)
    (mj := (asked f isk.pk creds j).messages k) (I.num hj) I.regular hθ hj (le_refl (es.length + 1)) S.genG1
  have hk := (isKey_iff _ _ _).mp I.key
  have e2 : List.zipWith ((coins f isk k b0 bs es ss creds j h).point (instanceFor isk j es h)) h.us
      (List.zipWith (fun b a => (h.θ * b - a) / (isk.sk + es[j]?.getD 0)) bs h.us) = bs.map (· • S.genG1) :=
    zipWith_gen _ _ _ _ hb _ _ (by rw [hl, I.bases])
  have e1 : (coins f isk k b0 bs es ss creds j h).point (instanceFor isk j es h) h.u0
      ((h.θ * b0 - h.u0) / (isk.sk + es[j]?.getD 0)) = b0 • S.genG1 := hb b0 h.u0
  have h0 := I.h0
  have h1 := I.h
  rw [hk] at h0 h1
  have e3 : simulatedKey n (isk.sk • S.genG2) (instanceFor isk j es h) (coins f isk k b0 bs es ss creds j h) =
      ⟨isk.sk • S.genG2, ⟨b0 • S.genG1, bs.map (· • S.genG1), isk.sk • S.genG2, (n : Int) + 1⟩, n⟩ := by
    rw [simulatedKey]
    congr 2
  rw [e3, hk, ← h0, ← h1]
  rfl

theorem simulated_issuer (h32 : S.scalarLen = 32) (I : Issued L f isk n k b0 bs es ss creds) (hj : j < es.length) (hθ : h.θ ≠ 0)
    (hu : h.u0 ≠ 0) (hl : h.us.length = n + 1) {i : Nat} (hi : i < es.length) :
    simulatedIssuer k (instanceFor isk j es h) (coins f isk k b0 bs es ss creds j h) i (asked f isk.pk creds i) =
      issuer L isk k es ss i (asked f isk.pk creds i) := by
  obtain ⟨b, hk, hhk, hp, hc⟩ := I.known i hi
  have hcount := I.count i hi
  have henc := I.encodes i hi
  have hvl := I.numValues hi
  have htl : (totals f isk.pk creds ss).length = es.length := by simp [totals, I.len]
  have hm : i = j → (asked f isk.pk creds i).messages k = (asked f isk.pk creds j).messages k := by rintro rfl; rfl
  have hss := coins_s (x := isk.sk) (b0 := b0) (bs := bs) hu hj htl i ((asked f isk.pk creds i).messages k) hm
  have his : i < ss.length := by rw [I.len]; exact hi
  have htot : (totals f isk.pk creds ss)[i]?.getD 0 = ss[i]?.getD 0 + (asked f isk.pk creds i).r := by
    simp [totals, List.getElem?_mapIdx, List.getElem?_eq_getElem his]
  have hei : es[i]? = some es[i] := List.getElem?_eq_getElem hi
  have hsg := Coins.sign_eq (c := coinsFor isk.sk j es (totals f isk.pk creds ss) b0 bs h ((asked f isk.pk creds j).messages k))
    (x := isk.sk) (y := startFor isk.sk j es h S.genG1) (n := es.length + 1) hj le_rfl (fun _ => hu) hei ((asked f isk.pk creds i).messages k)
  rw [hss, htot, coins_point (I.num hj) (by rw [hl, I.bases]) I.regular hθ hj le_rfl,
    ← eq_inv_smul_iff₀ (I.regular _ (List.getElem_mem hi))] at hsg
  have hss' : (coins f isk k b0 bs es ss creds j h).s i ((asked f isk.pk creds i).messages k) =
      ss[i]?.getD 0 + (asked f isk.pk creds i).r := hss.trans htot
  have hsg' : (coins f isk k b0 bs es ss creds j h).sign (instanceFor isk j es h) i ((asked f isk.pk creds i).messages k) = _ := hsg
  have hes : (coins f isk k b0 bs es ss creds j h).es = es := rfl
  rw [simulatedIssuer, hss', hsg', hes, issuer]
  revert hp hc hcount henc hvl
  generalize asked f isk.pk creds i = a
  intro hp hc hcount henc hvl
  have hkey := (isKey_iff _ _ _).mp I.key
  have e0 := I.h0
  have e1 := I.h
  have hkn := I.position
  obtain ⟨pk, x⟩ := isk
  simp only at hkey e0 e1 hc hhk ⊢
  subst hkey
  have hs := credSign_any L h32 x n k I.some_attribute (by have := I.few; omega) I.position a.attributes a.values henc hcount
    a.request b hp (es[i]?.getD 0) (ss[i]?.getD 0)
  rw [show (⟨ipkFor (x • S.genG2) n, x⟩ : ISK S) = ⟨ipkFor (publicKey x) n, x⟩ from rfl, hs, Aries.Wire.credCodec_marshal]
  have hB : bValue (pkg (publicKey x) (n + 1)) (ss[i]?.getD 0) (Aries.Spec.withSecret k 0 a.values) + b.c =
      (1 + (ss[i]?.getD 0 + a.r) * b0 + dot (a.messages k) bs) • S.genG1 := by
    have hpl : (pkg (publicKey x) (n + 1)).h.length = n + 1 := by simp
    have hk' : k < (pkg (publicKey x) (n + 1)).h.length := by omega
    have hhk' : (pkg (publicKey x) (n + 1)).h[k] = hk := by
      have : (pkg (publicKey x) (n + 1)).h[k]? = some hk := hhk
      rwa [List.getElem?_eq_getElem hk', Option.some.injEq] at this
    have l1 := lin_withSecret k 0 a.values (pkg (publicKey x) (n + 1)).h (by omega) (by omega)
    have l2 := lin_withSecret k a.sk a.values (pkg (publicKey x) (n + 1)).h (by omega) (by omega)
    have l3 : S.lin (a.messages k) (pkg (publicKey x) (n + 1)).h = dot (a.messages k) bs • S.genG1 := by
      rw [show (pkg (publicKey x) (n + 1)).h = bs.map (· • S.genG1) from e1, lin_gen]
    rw [Ask.messages] at l3
    rw [hc, bValue, l1, Ask.messages]
    rw [l2] at l3
    have e0' : (pkg (publicKey x) (n + 1)).h0 = b0 • S.genG1 := e0
    have e0'' : (ipkFor (x • S.genG2) n).pkg.h0 = b0 • S.genG1 := e0
    rw [e0', e0'', add_smul, ← l3, hhk']
    module
  rw [hB, hei, Option.getD_some, add_sub_cancel_right]

/-- **C88 (partial).** The reduction shows a forger what the issuer would: the same public key and the same credentials. -/
theorem C88_same_view_partial (h32 : S.scalarLen = 32) (I : Issued L f isk n k b0 bs es ss creds) (hj : j < es.length)
    (hθ : h.θ ≠ 0) (hu : h.u0 ≠ 0) (hl : h.us.length = n + 1) :
    simulatedKey n (isk.sk • S.genG2) (instanceFor isk j es h) (coins f isk k b0 bs es ss creds j h) = isk.pk ∧
      f.play isk.pk (simulatedIssuer k (instanceFor isk j es h) (coins f isk k b0 bs es ss creds j h)) es.length = .ok creds :=
  ⟨simulated_key I hj hθ hl, play_congr I.played fun _ hk => simulated_issuer h32 I hj hθ hu hl hk⟩

theorem valid_eq (I : Issued L f isk n k b0 bs es ss creds) {z : Forgery S} (hz : z.Valid isk.pk) :
    (isk.sk + z.e) • z.A = (1 + z.s * b0 + dot z.messages bs) • S.genG1 := by
  have hw : isk.pk.w = isk.sk • S.genG2 := by rw [(isKey_iff _ _ _).mp I.key]; rfl
  refine S.pair_gen_inj ?_
  have h2 := hz.2
  rw [← lin_sum, I.h0, I.h, lin_gen, hw, ← add_smul] at h2
  simp only [map_smul, LinearMap.smul_apply] at h2
  rw [map_smul, h2]
  congr 1
  module

/-- **C88 (partial).** The reduction does not fail: what it gives is a solution of the problem whenever it gives something. -/
theorem C88_sound_partial (h32 : S.scalarLen = 32) (I : Issued L f isk n k b0 bs es ss creds) (hj : j < es.length)
    (hθ : h.θ ≠ 0) (hu : h.u0 ≠ 0) (hl : h.us.length = n + 1) (forged : (f.forge isk.pk creds).Valid isk.pk) :
    ∃ r, reduction n k f (isk.sk • S.genG2) (instanceFor isk j es h) (coins f isk k b0 bs es ss creds j h) = .ok r ∧
      ∀ z, r = some z → Solves isk.sk (startFor isk.sk j es h S.genG1) z := by
  obtain ⟨v1, v2⟩ := C88_same_view_partial h32 I hj hθ hu hl
  have hes : (coins f isk k b0 bs es ss creds j h).es = es := rfl
  simp only [reduction, v1, hes, v2, Res.ok_bind, Res.pure_def]
  refine ⟨_, rfl, fun z hz => ?_⟩
  have hv := valid_eq I forged
  revert hv hz
  generalize f.forge isk.pk creds = w
  intro hz hv
  split at hz
  · rename_i h0
    cases hz
    have h1 : (w.e + isk.sk) • S.genG2 = 0 := by rw [add_smul]; exact h0
    have h2 : w.e + isk.sk = 0 := by
      by_contra hne
      exact S.genG2_ne ((smul_eq_zero.mp h1).resolve_left hne)
    have h3 : isk.sk + (1 + w.e) = 1 := by linear_combination h2
    simp only [Solves, instanceFor, powers, List.headD_cons, h3, one_smul]
  · refine Coins.solve_sound (c := coinsFor isk.sk j es (totals f isk.pk creds ss) b0 bs h ((asked f isk.pk creds j).messages k))
      (x := isk.sk) (y := startFor isk.sk j es h S.genG1) (n := es.length + 1) hj le_rfl ?_ hz
    rw [coins_point (I.num hj) (by rw [hl, I.bases]) I.regular hθ hj le_rfl]
    exact hv

open scoped Classical in
/-- **C88 (partial).** A signature on messages that the issuer did not sign, when asked for the credential number `j`, makes the
reduction find a solution, for all but one in `|F|` choices of what its coins hide from the forger. What is missing: the issuer does not
make sure that the users know what is in their requests (`Spec.Issued.known`), and without this the property is false
(`C88_violated`). -/
theorem C88_solved_partial [Fintype S.F] (h32 : S.scalarLen = 32) (I : Issued L f isk n k b0 bs es ss creds) (hj : j < es.length)
    (θ u0 : S.F) (hθ : θ ≠ 0) (hu : u0 ≠ 0) (forged : (f.forge isk.pk creds).Valid isk.pk)
    (new : (f.forge isk.pk creds).messages ≠ (asked f isk.pk creds j).messages k)
    (guess : (f.forge isk.pk creds).e ∉ es.eraseIdx j) :
    Fintype.card S.F * (Finset.univ.filter fun us : Fin (n + 1) → S.F =>
      ¬ Solved f isk n k b0 bs es ss creds j ⟨θ, u0, List.ofFn us⟩).card ≤ Fintype.card (Fin (n + 1) → S.F) := by
  have hml : (f.forge isk.pk creds).messages.length = n + 1 := by
    rw [forged.1, I.h, List.length_map, I.bases]
  have hmj : ((asked f isk.pk creds j).messages k).length = n + 1 := by
    rw [Ask.messages, withSecret_length, I.numValues hj]
  have new' : ∃ i : Nat, (f.forge isk.pk creds).messages[i]?.getD 0 ≠ ((asked f isk.pk creds j).messages k)[i]?.getD 0 := by
    by_contra hall
    push Not at hall
    refine new (List.ext_getElem (by omega) fun i h1 h2 => ?_)
    have := hall i
    rwa [List.getElem?_eq_getElem h1, List.getElem?_eq_getElem h2] at this
  by_cases he : isk.sk + (f.forge isk.pk creds).e = 0
  · have : (Finset.univ.filter fun us : Fin (n + 1) → S.F =>
        ¬ Solved f isk n k b0 bs es ss creds j ⟨θ, u0, List.ofFn us⟩) = ∅ := by
      refine Finset.filter_eq_empty_iff.mpr fun us _ hns => hns ?_
      obtain ⟨r, hr, hsol⟩ := C88_sound_partial (h := ⟨θ, u0, List.ofFn us⟩) h32 I hj hθ hu (by simp) forged
      obtain ⟨v1, v2⟩ := C88_same_view_partial (h := ⟨θ, u0, List.ofFn us⟩) h32 I hj hθ hu (by simp)
      have hes : (coins f isk k b0 bs es ss creds j ⟨θ, u0, List.ofFn us⟩).es = es := rfl
      have h0 : (f.forge isk.pk creds).e • S.genG2 + isk.sk • S.genG2 = 0 := by rw [← add_smul, add_comm, he, zero_smul]
      have hr' := hr
      simp only [reduction, v1, hes, v2, Res.ok_bind, Res.pure_def, h0, if_true, Res.ok.injEq] at hr'
      subst hr'
      exact ⟨_, hr, hsol _ rfl⟩
    rw [this]
    simp
  · refine le_trans (Nat.mul_le_mul_left _ (Finset.card_le_card fun us hus => ?_))
      (unsolved_le (G := S.G1) (x := isk.sk) (j := j) (es := es) (ss := totals f isk.pk creds ss) (b0 := b0) (bs := bs)
        (θ := θ) (u0 := u0) (mj := (asked f isk.pk creds j).messages k) (I.num hj) I.bases
        (powers isk.sk (startFor isk.sk j es ⟨θ, u0, []⟩ S.genG1) (es.length + 1)) (f.forge isk.pk creds).A
        (s := (f.forge isk.pk creds).s) he hml.le hmj.le new' guess)
    simp only [Finset.mem_filter, Finset.mem_univ, true_and] at hus ⊢
    obtain ⟨r, hr, hsol⟩ := C88_sound_partial (h := ⟨θ, u0, List.ofFn us⟩) h32 I hj hθ hu (by simp) forged
    cases r with
    | some z => exact absurd ⟨z, hr, hsol z rfl⟩ hus
    | none =>
      obtain ⟨v1, v2⟩ := C88_same_view_partial (h := ⟨θ, u0, List.ofFn us⟩) h32 I hj hθ hu (by simp)
      have hes : (coins f isk k b0 bs es ss creds j ⟨θ, u0, List.ofFn us⟩).es = es := rfl
      have h0 : (f.forge isk.pk creds).e • S.genG2 + isk.sk • S.genG2 ≠ 0 := by
        rw [← add_smul, add_comm]
        exact fun h => S.genG2_ne ((smul_eq_zero.mp h).resolve_left he)
      simp only [reduction, v1, hes, v2, Res.ok_bind, Res.pure_def, h0, if_false, Res.ok.injEq] at hr
      exact hr

/-- C88. Generators have discrete logarithms. -/
theorem C88_exponents (ipk : IPK S) : ∃ (b0 : S.F) (bs : List S.F), ipk.pkg.h0 = b0 • S.genG1 ∧ ipk.pkg.h = bs.map (· • S.genG1) := by
  obtain ⟨b0, h0⟩ := S.g1_cyclic ipk.pkg.h0
  have : ∀ l : List S.G1, ∃ bs : List S.F, l = bs.map (· • S.genG1) := by
    intro l
    induction l with
    | nil => exact ⟨[], rfl⟩
    | cons P l ih =>
      obtain ⟨b, rfl⟩ := S.g1_cyclic P
      obtain ⟨bs, rfl⟩ := ih
      exact ⟨b :: bs, rfl⟩
  obtain ⟨bs, h⟩ := this ipk.pkg.h
  exact ⟨b0, bs, h0, h⟩

/-- C88. Requests that users make with `Blind` have known openings. -/
theorem C88_requests (h32 : S.scalarLen = 32) (ipk : IPK S) (w : S.G2) (hkey : Aries.Spec.IsKey ipk w n) (hn : n < 2 ^ 32 - 1)
    (hk : k ≤ n) (sk r : S.F) (nonce request blinding : Bytes) (ρ : Nat → S.F)
    (made : blind L sk (.val ipk) nonce k r ρ = .ok (request, blinding)) :
    ∃ b, ∃ h ∈ ipk.pkg.h[k]?, parseBlindedMessages S request = .ok b ∧ b.c = r • ipk.pkg.h0 + sk • h := by
  obtain rfl := (isKey_iff _ _ _).mp hkey
  have hk' : k < (pkg w (n + 1)).h.length := by simp; omega
  rw [blind_eq L w n k (by omega) hk, Res.ok.injEq, Prod.mk.injEq] at made
  obtain ⟨rfl, -⟩ := made
  exact ⟨_, _, List.getElem?_eq_getElem hk', parseBlinded_enc h32 _ (by simp [honestBlind]), rfl⟩

/-- C88. The credentials that users accept are such forgeries. -/
theorem C88_credentials (ipk : IPK S) (w : S.G2) (hkey : Aries.Spec.IsKey ipk w n) (sk : S.F) (cred : Bytes)
    (attributes : List IdemixAttribute) (hl : attributes.length = n)
    (acc : credVerify L sk (.val ipk) cred attributes = .ok ()) :
    ∃ c σ, ∃ pos : Nat, Aries.Wire.credCodec.unmarshal cred = .ok c ∧ parseSignature S c.cred = .ok σ ∧ c.skPos = pos ∧
      List.Forall₂ (Aries.Spec.Agrees L) attributes ((c.attrs.map S.zrOfBytes).take n) ∧
      (⟨σ.a, σ.e, σ.s, Aries.Spec.withSecret pos sk ((c.attrs.map S.zrOfBytes).take n)⟩ : Forgery S).Valid ipk := by
  obtain ⟨c, σ, pos, h1, h2, h3, -, -, h4, h5⟩ := (C38_verify_exact L sk ipk w n hkey cred attributes hl).mp acc
  exact ⟨c, σ, pos, h1, h2, h3, h4, h5⟩

/-- C88. So is what is computed from two signatures, as in C40. -/
theorem C88_signatures (L₁ L₂ : Lib S) (ipk : IPK S) (w : S.G2) (hkey : Aries.Spec.IsKey ipk w n)
    (attributes : List IdemixAttribute) (sig₁ sig₂ : Aries.Signature) (P₁ P₂ : Parsed S) (pn₁ pn₂ : ProofG1 S)
    (msg₁ msg₂ raw₁ raw₂ : Bytes) (eid rh : Int) (v : Dlog.VerType) (m : Nat) (md₁ md₂ : Option (Dlog.SignerMetadata S))
    (hv : Aries.Spec.NoCard v)
    (h₁ : Aries.verify L₁ (.val ipk) raw₁ msg₁ attributes rh eid k v md₁ = .ok ())
    (h₂ : Aries.verify L₂ (.val ipk) raw₂ msg₂ attributes rh eid k v md₂ = .ok ())
    (u₁ : Aries.Wire.sigCodec.unmarshal raw₁ = .ok sig₁) (u₂ : Aries.Wire.sigCodec.unmarshal raw₂ = .ok sig₂)
    (p₁ : parseParts S sig₁ v m = .ok P₁) (p₂ : parseParts S sig₂ v m = .ok P₂)
    (ht : Aries.Spec.TwoSignatures L₁ L₂ w n k attributes sig₁ sig₂ P₁ P₂ pn₁ pn₂ msg₁ msg₂) :
    let c₁ := Aries.Spec.signChallenge L₁ w n sig₁ P₁.sp P₁.rev pn₁.commitment (P₁.eid.map (·.1.commitment))
      (P₁.rh.map (·.1.commitment)) msg₁
    let c₂ := Aries.Spec.signChallenge L₂ w n sig₂ P₂.sp P₂.rev pn₂.commitment (P₂.eid.map (·.1.commitment))
      (P₂.rh.map (·.1.commitment)) msg₂
    let x := Bbs.Spec.extract P₁.sp P₂.sp c₁ c₂
    ∃ ms, (⟨x.A, x.e, x.s, ms⟩ : Forgery S).Valid ipk ∧ Bbs.Spec.unshown P₁.rev ms = x.hidden ∧
      ∀ (i : Nat) a, attributes[i]? = some a → a.type ≠ 0 →
        ∃ y, ms[Aries.Spec.slot k i]? = some y ∧ Aries.Spec.Encodes L₁ a y := by
  obtain ⟨ms, a1, a2, a3, -⟩ := C40_extraction_partial L₁ L₂ ipk w n k hkey attributes sig₁ sig₂ P₁ P₂ pn₁ pn₂ msg₁ msg₂ raw₁ raw₂
    eid rh v m md₁ md₂ hv h₁ h₂ u₁ u₂ p₁ p₂ ht
  have hw : ipk.w = w := by rw [(isKey_iff _ _ _).mp hkey]; rfl
  exact ⟨ms, by rw [Forgery.Valid, hw]; exact a1, a3, a2⟩

end

/-! ## An example -/

namespace Ex

open Idemix.Bbs.Ex Idemix.Aries.Ex

/-- The request of a user with the secret key 4 and the blinding 2. -/
def request : Bytes := match blind L32 (4 : Toy.K) (.val Aries.Ex.isk.pk) [1] 1 (2 : Toy.K) (fun _ => (1 : Toy.K)) with
  | .ok x => x.1
  | _ => []

/-- What the issuer answers. -/
def cred : Bytes := match credSign L32 (.val Aries.Ex.isk) request Aries.Ex.attrs 1 (2 : Toy.K) (3 : Toy.K) with
  | .ok x => x
  | _ => []

/-- The discrete logarithms of the generators; the group of the example is the field, and its generator is 1. -/
def b0 : Toy.K := Aries.Ex.isk.pk.pkg.h0
def bs : List Toy.K := Aries.Ex.isk.pk.pkg.h

/-- A forger that asks for this credential and shows a signature for the messages 0, 1, 0. -/
def forger : Forger S32 :=
  ⟨fun _ _ => ⟨request, Aries.Ex.attrs, Aries.Ex.vals, (4 : Toy.K), (2 : Toy.K)⟩,
    fun ipk _ => ⟨(2 : Toy.K) • (S32.genG1 + ipk.pkg.h[1]?.getD 0), (1 : Toy.K), (0 : Toy.K), [(0 : Toy.K), (1 : Toy.K), (0 : Toy.K)]⟩⟩

set_option maxRecDepth 40000 in
theorem issued : Issued L32 forger Aries.Ex.isk 2 1 b0 bs [(2 : Toy.K)] [(3 : Toy.K)] [cred] where
  key := (isKey_iff _ _ _).mpr rfl
  position := by decide
  some_attribute := by decide
  few := by decide
  len := rfl
  played := by decide
  h0 := by decide
  h := by decide
  count := by decide
  encodes := fun _ _ => Aries.Ex.attrs_vals
  known := fun i _ => C88_requests (L := L32) (n := 2) (k := 1) rfl Aries.Ex.isk.pk _ ((isKey_iff _ _ _).mpr rfl) (by decide)
    (by decide) (4 : Toy.K) (2 : Toy.K) [1] request (S32.zrBytes (2 : Toy.K)) (fun _ => (1 : Toy.K)) (by decide)
  regular := by decide

set_option maxRecDepth 40000 in
theorem forged : (forger.forge Aries.Ex.isk.pk [cred]).Valid Aries.Ex.isk.pk := by
  refine ⟨by decide, ?_⟩
  show (_ : Toy.K) = _
  decide

set_option maxRecDepth 40000 in
/-- The messages are new and the guess is right. -/
example : (forger.forge Aries.Ex.isk.pk [cred]).messages ≠ (asked forger Aries.Ex.isk.pk [cred] 0).messages 1 ∧
    (forger.forge Aries.Ex.isk.pk [cred]).e ∉ [(2 : Toy.K)].eraseIdx 0 := ⟨by decide, List.not_mem_nil⟩

set_option maxRecDepth 40000 in
/-- The reduction finds a solution: with `x = 3`, `y = 1`, `c = 1` it is `4⁻¹ = 2`. The examples beside C38 and C40 have a credential and
two signatures as in `C88_credentials` and `C88_signatures`. -/
example : reduction 2 1 forger ((3 : Toy.K) • S32.genG2)
    (instanceFor Aries.Ex.isk 0 [(2 : Toy.K)] ⟨(1 : Toy.K), (1 : Toy.K), [(1 : Toy.K), 0, 0]⟩)
    (coins forger Aries.Ex.isk 1 b0 bs [(2 : Toy.K)] [(3 : Toy.K)] [cred] 0 ⟨(1 : Toy.K), (1 : Toy.K), [(1 : Toy.K), 0, 0]⟩) =
    .ok (some ((1 : Toy.K), (2 : Toy.K))) := by decide

end Ex

end Idemix.ForgeAries

