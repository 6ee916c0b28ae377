import Verif.Forge.Dlog

/-!
# C87: credentials cannot be forged without a solution of the strong Diffie–Hellman problem
-/

namespace Idemix.Forge

open Idemix.Dlog
open Idemix (Suite Res Bytes)
open Spec

variable {S : Suite} {T : Translator S}

/-- An issuer made a key pair with `newIssuerKey` and, with the random choices `es` and `ss`, all the credentials that `f` asked it
for. -/
structure Spec.Issued (T : Translator S) (m : IpkMarshal) (names : List Bytes) (f : Forger S) (ρ : IssuerRand S) (key : IssuerKey)
    (es ss : List S.F) (creds : List Credential) : Prop where
  made : newIssuerKey T m names ρ = .ok key
  len : ss.length = es.length
  played : f.play key.ipk (issuer T key es ss) es.length = .ok creds
  /-- The secret keys are those of the requests. -/
  known : ∀ i < es.length, T.g1FromProto (f.ask key.ipk (creds.take i)).req.nym =
    .ok ((f.ask key.ipk (creds.take i)).sk • ρ.hSk • S.genG1)
  /-- `isk + e` can be inverted. -/
  regular : ∀ e ∈ es, ρ.isk + e ≠ 0

/-- The bases and the `W` of the key pair made with `ρ`. -/
def Spec.keyOf (ρ : IssuerRand S) : Dlog.Spec.Key S :=
  ⟨ρ.hSk • S.genG1, ρ.hRand • S.genG1, ρ.attrs.map (· • S.genG1), ρ.isk • S.genG2⟩

/-- `z` is a credential of the issuer that made its key pair with `ρ`. -/
def Spec.Forgery.Valid (ρ : IssuerRand S) (z : Forgery S) : Prop :=
  Dlog.Spec.IsCredential (keyOf ρ) z.A z.e z.s z.sk z.attrs

/-- The same messages, where a message that is missing counts as `0`: the issuer key has a base for every message, and what is signed
is the sum of the products. -/
def Spec.Same (ms ms' : List S.F) : Prop := ∀ i : Nat, ms[i]?.getD 0 = ms'[i]?.getD 0

/-- The messages of the question number `j`. -/
def Spec.asked (f : Forger S) (ipk : IssuerPublicKey) (creds : List Credential) (j : Nat) : List S.F :=
  (f.ask ipk (creds.take j)).messages

section

variable {m : IpkMarshal} {names : List Bytes} {f : Forger S} {ρ : IssuerRand S} {key : IssuerKey} {es ss : List S.F}
  {creds : List Credential} (I : Issued T m names f ρ key es ss creds) {j : Nat} (hj : j < es.length) {h : Hidden S.F}
  (hθ : h.θ ≠ 0) (hu : h.u0 ≠ 0) (hl : h.us.length = names.length + 1) {n : Nat} (hn : es.length + 2 ≤ n)

theorem valid_eq {z : Forgery S} (hz : z.Valid ρ) :
    (ρ.isk + z.e) • z.A = (1 + z.s * ρ.hRand + dot z.messages (ρ.hSk :: ρ.attrs)) • S.genG1 := by
  refine S.pair_gen_inj ?_
  simp only [Forgery.Valid, Dlog.Spec.IsCredential, Dlog.Spec.signed, keyOf, lin_multiples, ← add_smul, map_smul,
    LinearMap.smul_apply] at hz
  rw [map_smul, hz]
  congr 1
  simp only [Forgery.messages, dot]
  module

theorem zipWith_bases (T : Translator S) (point : S.F → S.F → S.G1) (θ z : S.F) (g : S.G1)
    (hp : ∀ b u, point u ((θ * b - u) / z) = b • g) (bs us : List S.F) (hll : us.length = bs.length) :
    List.zipWith (fun a b => some (T.g1ToProto (point a b))) us (List.zipWith (fun b a => (θ * b - a) / z) bs us) =
      bs.map (fun a => some (T.g1ToProto (a • g))) := by
  induction bs generalizing us with
  | nil => simp
  | cons b bs ih => cases us with
    | nil => simp at hll
    | cons a us => simp only [List.zipWith_cons_cons, List.map_cons, hp, ih us (by simpa using hll)]

include I hj hθ hl hn in
theorem simulated_key (mj : List S.F) :
    simulatedKey T m names (ρ.isk • S.genG2) (powers ρ.isk (startFor ρ.isk j es h S.genG1) n) (keyCoins ρ key.ipk j es ss h mj) =
      .ok key.ipk := by
  obtain ⟨c, ser, hs, hla, -, hipk, hc, -⟩ := newIssuerKey_parts I.made
  have hz : ρ.isk + es[j]?.getD 0 ≠ 0 := by
    rw [List.getElem?_eq_getElem hj]; exact I.regular _ (List.getElem_mem hj)
  obtain ⟨θ, u0, us⟩ := h
  cases us with
  | nil => simp at hl
  | cons u us =>
    simp only [List.length_cons, Nat.add_right_cancel_iff] at hl
    have hb := fun {k : Nat} (hk : es.length + 1 ≤ k) => coins_base (G := S.G1) (ss := ss) (b0 := ρ.hRand) (bs := ρ.hSk :: ρ.attrs) (mj := mj)
      (h := ⟨θ, u0, u :: us⟩) hz I.regular hθ hj hk
    have hg := fun {k : Nat} (hk : es.length + 1 ≤ k) => coins_start (G := S.G1) (ss := ss) (b0 := ρ.hRand) (bs := ρ.hSk :: ρ.attrs) (mj := mj)
      (h := ⟨θ, u0, u :: us⟩) hz I.regular hθ hj hk
    have ht : (powers ρ.isk (startFor ρ.isk j es ⟨θ, u0, u :: us⟩ S.genG1) n).tail =
        powers ρ.isk (startFor ρ.isk j es ⟨θ, u0, u :: us⟩ (ρ.isk • S.genG1)) (n - 1) := by
      obtain ⟨n, rfl⟩ : ∃ k, n = k + 1 := ⟨n - 1, by omega⟩
      simp only [powers, List.tail_cons, start_smul, Nat.add_sub_cancel]
    have e1 := hb (show es.length + 1 ≤ n by omega) S.genG1
    have e2 := hg (show es.length + 1 ≤ n by omega) S.genG1
    have e3 := hg (show es.length + 1 ≤ n - 1 by omega) (ρ.isk • S.genG1)
    have e4 : List.zipWith (fun a b => some (T.g1ToProto ((keyCoins ρ key.ipk j es ss ⟨θ, u0, u :: us⟩ mj).sig.point
        (powers ρ.isk (startFor ρ.isk j es ⟨θ, u0, u :: us⟩ S.genG1) n) a b))) us
        (List.zipWith (fun b a => (θ * b - a) / (ρ.isk + es[j]?.getD 0)) ρ.attrs us) =
        ρ.attrs.map (fun a => some (T.g1ToProto (a • S.genG1))) :=
      zipWith_bases _ _ _ _ _ e1 _ _ (by omega)
    have key : ∀ X : IssuerPublicKey, X = unhashedIpk T names ρ c →
        (do let ser ← m X; pure { X with hash := S.zrBytes (S.hashToZr ser) } : Res IssuerPublicKey) = .ok key.ipk := by
      rintro X rfl
      rw [hs, hipk]; rfl
    rw [simulatedKey]
    refine key _ ?_
    simp only [unhashedIpk, IssuerPublicKey.mk.injEq, true_and, Option.some.injEq]
    refine ⟨?_, ?_, e4, ?_, ?_, ?_, ?_, trivial⟩
    · congr 1; exact e1 ρ.hSk u
    · congr 1; exact e1 ρ.hRand u0
    · congr 1
      exact congrArg (ρ.barG1 • ·) e2
    · rw [ht]
      congr 1
      rw [smul_comm ρ.isk]
      exact congrArg (ρ.barG1 • ·) e3
    · simp [keyCoins, hc]
    · simp [keyCoins, hc]

include I hj hθ hu hl hn in
theorem simulated_issuer {i : Nat} (hi : i < es.length) :
    simulatedIssuer T key.ipk (powers ρ.isk (startFor ρ.isk j es h S.genG1) n)
      (keyCoins ρ key.ipk j es ss h (asked f key.ipk creds j)) i (f.ask key.ipk (creds.take i)) =
      issuer T key es ss i (f.ask key.ipk (creds.take i)) := by
  obtain ⟨c, ser, hs, hla, hisk, hipk, hc, hk⟩ := newIssuerKey_parts I.made
  have hz : ρ.isk + es[j]?.getD 0 ≠ 0 := by
    rw [List.getElem?_eq_getElem hj]; exact I.regular _ (List.getElem_mem hj)
  obtain ⟨cred, hcred⟩ := play_answer I.played hi
  have hnym := I.known i hi
  have hm : i = j → (f.ask key.ipk (creds.take i)).messages = asked f key.ipk creds j := by rintro rfl; rfl
  revert hcred hnym hm
  generalize f.ask key.ipk (creds.take i) = a
  intro hcred hnym hm
  have hss := coins_s (x := ρ.isk) (b0 := ρ.hRand) (bs := ρ.hSk :: ρ.attrs) hu hj I.len i a.messages hm
  have hb : h.us.length = (ρ.hSk :: ρ.attrs).length := by simp [hl, hla]
  have hei : es[i]? = some es[i] := List.getElem?_eq_getElem hi
  have hsg := Coins.sign_eq (c := coinsFor ρ.isk j es ss ρ.hRand (ρ.hSk :: ρ.attrs) h (asked f key.ipk creds j)) (x := ρ.isk)
    (y := startFor ρ.isk j es h S.genG1) (n := n) hj (by show es.length + 1 ≤ n; omega) (fun _ => hu) hei a.messages
  rw [hss, coins_point hz hb I.regular hθ hj (by omega)] at hsg
  have hne : ρ.isk + es[i] ≠ 0 := I.regular _ (List.getElem_mem hi)
  rw [← eq_inv_smul_iff₀ hne] at hsg
  rw [hcred]
  rw [issuer] at hcred
  obtain ⟨nym, hRand, hAttrs, h1, h2, h3, -, h4, a', h5⟩ := newCredential_isk (isk := []) hcred
  rw [hnym] at h1
  rw [hk.hRand] at h2
  rw [hk.hAttrs] at h3
  cases h1
  cases h2
  cases h3
  have hsg' : (keyCoins ρ key.ipk j es ss h (asked f key.ipk creds j)).sig.sign
      (powers ρ.isk (startFor ρ.isk j es h S.genG1) n) i a.messages = _ := hsg
  have hes : (keyCoins ρ key.ipk j es ss h (asked f key.ipk creds j)).sig.es = es := rfl
  have hss' : (keyCoins ρ key.ipk j es ss h (asked f key.ipk creds j)).sig.s i a.messages = _ := hss
  rw [simulatedIssuer, hss', hes, h5, Res.ok_bind, Res.pure_def, hsg']
  congr 1
  obtain ⟨ca, cb, ce, cs, cattrs⟩ := cred
  simp only [Credential.mk.injEq, and_true]
  simp only at h4
  rw [h4, hisk, hei, Option.getD_some, lin_multiples]
  congr 3
  simp only [Ask.messages, dot]
  module

/-- C87. The reduction shows a forger what the issuer would: the same public key and the same credentials. -/
theorem C87_same_view (I : Issued T m names f ρ key es ss creds) (hj : j < es.length)
    (hθ : h.θ ≠ 0) (hu : h.u0 ≠ 0) (hl : h.us.length = names.length + 1) (hn : es.length + 2 ≤ n) :
    let P := powers ρ.isk (startFor ρ.isk j es h S.genG1) n
    let c := keyCoins ρ key.ipk j es ss h (asked f key.ipk creds j)
    simulatedKey T m names (ρ.isk • S.genG2) P c = .ok key.ipk ∧
      f.play key.ipk (simulatedIssuer T key.ipk P c) es.length = .ok creds :=
  ⟨simulated_key I hj hθ hl hn _, play_congr I.played fun _ hk => simulated_issuer I hj hθ hu hl hn hk⟩

/-- `y, x • y, x² • y, …` for the `y` of `startFor`. -/
def Spec.instanceFor (ρ : IssuerRand S) (j : Nat) (es : List S.F) (h : Hidden S.F) : List S.G1 :=
  powers ρ.isk (startFor ρ.isk j es h S.genG1) (es.length + 2)

/-- The reduction finds a solution. -/
def Spec.Solved (T : Translator S) (m : IpkMarshal) (names : List Bytes) (f : Forger S) (ρ : IssuerRand S) (ipk : IssuerPublicKey)
    (es ss : List S.F) (creds : List Credential) (j : Nat) (h : Hidden S.F) : Prop :=
  ∃ z, reduction T m names f (ρ.isk • S.genG2) (instanceFor ρ j es h) (keyCoins ρ ipk j es ss h (asked f ipk creds j)) =
      .ok (some z) ∧
    Solves ρ.isk (startFor ρ.isk j es h S.genG1) z

/-- C87. The reduction does not fail: what it gives is a solution of the problem whenever it gives something. -/
theorem C87_sound (I : Issued T m names f ρ key es ss creds) (hj : j < es.length)
    (hθ : h.θ ≠ 0) (hu : h.u0 ≠ 0) (hl : h.us.length = names.length + 1)
    (forged : (f.forge key.ipk creds).Valid ρ) :
    ∃ r, reduction T m names f (ρ.isk • S.genG2) (instanceFor ρ j es h)
        (keyCoins ρ key.ipk j es ss h (asked f key.ipk creds j)) = .ok r ∧
      ∀ z, r = some z → Solves ρ.isk (startFor ρ.isk j es h S.genG1) z := by
  obtain ⟨v1, v2⟩ := C87_same_view (n := es.length + 2) I hj hθ hu hl le_rfl
  have hes : (keyCoins ρ key.ipk j es ss h (asked f key.ipk creds j)).sig.es = es := rfl
  rw [reduction, instanceFor, v1, Res.ok_bind, hes, v2, Res.ok_bind, Res.pure_def]
  refine ⟨_, rfl, fun z hz => ?_⟩
  have hz' : ρ.isk + es[j]?.getD 0 ≠ 0 := by
    rw [List.getElem?_eq_getElem hj]; exact I.regular _ (List.getElem_mem hj)
  obtain ⟨c, ser, hs, hla, -⟩ := newIssuerKey_parts I.made
  have hb : h.us.length = (ρ.hSk :: ρ.attrs).length := by simp [hl, hla]
  revert forged hz
  generalize f.forge key.ipk creds = w
  intro forged hz
  split at hz
  · rename_i h0
    cases hz
    have h1 : (w.e + ρ.isk) • S.genG2 = 0 := by rw [add_smul]; exact h0
    have h2 : w.e + ρ.isk = 0 := by
      by_contra hne
      exact S.genG2_ne ((smul_eq_zero.mp h1).resolve_left hne)
    have h3 : ρ.isk + (1 + w.e) = 1 := by linear_combination h2
    simp only [Solves, powers, List.headD_cons, h3, one_smul]
  · refine Coins.solve_sound (c := coinsFor ρ.isk j es ss ρ.hRand (ρ.hSk :: ρ.attrs) h (asked f key.ipk creds j)) (x := ρ.isk)
      (y := startFor ρ.isk j es h S.genG1) (n := es.length + 2) hj (by show es.length + 1 ≤ es.length + 2; omega) ?_ hz
    rw [coins_point hz' hb I.regular hθ hj (by omega)]
    exact valid_eq forged

end

/-! ## How often there is a solution -/

section

variable {m : IpkMarshal} {names : List Bytes} {f : Forger S} {ρ : IssuerRand S} {key : IssuerKey} {es ss : List S.F}
  {creds : List Credential} {j : Nat}

open scoped Classical in
/-- C87. A credential for messages that the issuer did not sign, when asked for the credential number `j`, makes the reduction find a
solution, for all but one in `|F|` choices of what its coins hide from the forger. -/
theorem C87_solved [Fintype S.F] (I : Issued T m names f ρ key es ss creds) (hj : j < es.length) (θ u0 : S.F)
    (hθ : θ ≠ 0) (hu : u0 ≠ 0)
    (forged : (f.forge key.ipk creds).Valid ρ)
    (hlen : (f.forge key.ipk creds).attrs.length ≤ names.length)
    (new : ¬ Same (f.forge key.ipk creds).messages (asked f key.ipk creds j))
    (guess : (f.forge key.ipk creds).e ∉ es.eraseIdx j) :
    Fintype.card S.F * (Finset.univ.filter fun us : Fin (names.length + 1) → S.F =>
      ¬ Solved T m names f ρ key.ipk es ss creds j ⟨θ, u0, List.ofFn us⟩).card ≤
      Fintype.card (Fin (names.length + 1) → S.F) := by
  have hz : ρ.isk + es[j]?.getD 0 ≠ 0 := by
    rw [List.getElem?_eq_getElem hj]; exact I.regular _ (List.getElem_mem hj)
  obtain ⟨c, ser, hs, hla, -, hipk, -⟩ := newIssuerKey_parts I.made
  have hmj : (asked f key.ipk creds j).length = names.length + 1 := by
    obtain ⟨cred, hcred⟩ := play_answer I.played hj
    obtain ⟨-, -, -, -, -, -, h1, -⟩ := newCredential_isk (isk := []) hcred
    rw [asked, Ask.messages, List.length_cons, h1, hipk]
    rfl
  simp only [Same, not_forall] at new
  obtain ⟨i, hi⟩ := new
  have hml : (f.forge key.ipk creds).messages.length ≤ names.length + 1 := by
    simpa [Forgery.messages] using hlen
  have hik : i < names.length + 1 := by
    by_contra hge
    rw [List.getElem?_eq_none (by omega), List.getElem?_eq_none (by omega)] at hi
    exact hi rfl
  have hsub : (Finset.univ.filter fun us : Fin (names.length + 1) → S.F =>
      ¬ Solved T m names f ρ key.ipk es ss creds j ⟨θ, u0, List.ofFn us⟩) ⊆
      Finset.univ.filter fun us : Fin (names.length + 1) → S.F =>
        ∑ l, ((f.forge key.ipk creds).messages[l]?.getD 0 - (asked f key.ipk creds j)[l]?.getD 0) * us l =
          -(θ * (1 + (f.forge key.ipk creds).s * ρ.hRand + dot (f.forge key.ipk creds).messages (ρ.hSk :: ρ.attrs)) *
            (es[j]?.getD 0 - (f.forge key.ipk creds).e) / (ρ.isk + (f.forge key.ipk creds).e)) -
          ((f.forge key.ipk creds).s - ss[j]?.getD 0) * u0 := by
    intro us hus
    simp only [Finset.mem_filter, Finset.mem_univ, true_and] at hus ⊢
    obtain ⟨r, hr, hsol⟩ := C87_sound (h := ⟨θ, u0, List.ofFn us⟩) I hj hθ hu (by simp) forged
    cases r with
    | some z => exact absurd ⟨z, hr, hsol z rfl⟩ hus
    | none =>
      obtain ⟨v1, v2⟩ := C87_same_view (n := es.length + 2) (h := ⟨θ, u0, List.ofFn us⟩) I hj hθ hu (by simp) le_rfl
      have hes : (keyCoins ρ key.ipk j es ss ⟨θ, u0, List.ofFn us⟩ (asked f key.ipk creds j)).sig.es = es := rfl
      rw [reduction, instanceFor, v1, Res.ok_bind, hes, v2, Res.ok_bind, Res.pure_def, Res.ok.injEq] at hr
      split at hr
      · cases hr
      · rename_i h0
        have he : ρ.isk + (f.forge key.ipk creds).e ≠ 0 := by
          intro h1
          refine h0 ?_
          rw [← add_smul, add_comm, h1, zero_smul]
        have hrem := coins_remainder (b0 := ρ.hRand) (bs := ρ.hSk :: ρ.attrs) (h := ⟨θ, u0, List.ofFn us⟩) (ss := ss)
          (mj := asked f key.ipk creds j) hz (by simp [hla]) (f.forge key.ipk creds).e (f.forge key.ipk creds).s
          (f.forge key.ipk creds).messages
        simp only [Coins.solve] at hr
        split at hr
        · rename_i h2
          have h2' : (divide (f.forge key.ipk creds).e ((coinsFor ρ.isk j es ss ρ.hRand (ρ.hSk :: ρ.attrs)
              ⟨θ, u0, List.ofFn us⟩ (asked f key.ipk creds j)).poly
              ((coinsFor ρ.isk j es ss ρ.hRand (ρ.hSk :: ρ.attrs) ⟨θ, u0, List.ofFn us⟩ (asked f key.ipk creds j)).fst
                (f.forge key.ipk creds).s (f.forge key.ipk creds).messages)
              ((coinsFor ρ.isk j es ss ρ.hRand (ρ.hSk :: ρ.attrs) ⟨θ, u0, List.ofFn us⟩ (asked f key.ipk creds j)).snd
                (f.forge key.ipk creds).s (f.forge key.ipk creds).messages))).2 = 0 := h2
          rw [h2', zero_mul] at hrem
          have hne : value (-(f.forge key.ipk creds).e) (product (es.eraseIdx j)) ≠ 0 :=
            Coins.common_ne (c := coinsFor ρ.isk j es ss ρ.hRand (ρ.hSk :: ρ.attrs) ⟨θ, u0, List.ofFn us⟩
              (asked f key.ipk creds j)) guess
          have h3 := (mul_eq_zero.mp hrem.symm).resolve_right hne
          rw [dot_ofFn _ hml, dot_ofFn _ hmj.le] at h3
          simp only [sub_mul, Finset.sum_sub_distrib]
          field_simp
          linear_combination h3
        · cases hr
  refine le_trans (Nat.mul_le_mul_left _ (Finset.card_le_card hsub)) ?_
  exact count_linear _ _ ⟨i, hik⟩ (sub_ne_zero.mpr hi)

/-- C87. If the `e` of the issuer are different, one of the guesses `j` is right. -/
theorem C87_guess (hes : es.Nodup) (hq : es ≠ []) (e : S.F) : ∃ j < es.length, e ∉ es.eraseIdx j := by
  by_cases he : e ∈ es
  · obtain ⟨j, hj, rfl⟩ := List.mem_iff_getElem.mp he
    refine ⟨j, hj, ?_⟩
    rw [List.mem_eraseIdx_iff_getElem]
    rintro ⟨i, hi, hne, h⟩
    exact hne ((List.Nodup.getElem_inj_iff hes).mp h)
  · exact ⟨0, List.length_pos_iff.mpr hq, fun h => he (List.mem_of_mem_eraseIdx h)⟩

/-- C87. Every choice of the coins of the reduction is that of `keyCoins` for exactly one choice of the issuer and of what is hidden:
if the reduction chooses at random, so does the issuer that the forger sees. -/
theorem C87_coins (c : Coins S.F) (x : S.F) (ms : List S.F) (hz : x + c.ej ≠ 0) (hu : c.u0 ≠ 0)
    (hθ : c.u + c.v * (x + c.ej) ≠ 0) (hj : c.j < c.es.length) (hs : c.ss.length + 1 = c.es.length)
    (hl : c.vs.length = c.us.length) :
    ∃! p : S.F × S.F × List S.F × Hidden S.F, p.2.2.1.length = p.2.2.2.us.length ∧ p.2.2.2.θ ≠ 0 ∧
      coinsFor x c.j c.es (c.ss.insertIdx c.j p.1) p.2.1 p.2.2.1 p.2.2.2 ms = c :=
  coins_unique c x ms hz hu hθ hj hs hl

/-! ## Forgeries -/

/-- A credential as a forgery. -/
def Spec.Forgery.ofCredential (cred : Credential) (A : S.G1) (sk : S.F) : Forgery S :=
  ⟨A, S.zrOfBytes cred.e, S.zrOfBytes cred.s, sk, cred.attrs.map S.zrOfBytes⟩

/-- C87. The credentials that users accept are such forgeries. -/
theorem C87_credentials (hmade : newIssuerKey T m names ρ = .ok key) (cred : Credential) (sk : S.F)
    (acc : cred.ver T sk key.ipk = .ok ()) :
    ∃ A, T.g1FromProto cred.a = .ok A ∧ (Forgery.ofCredential cred A sk).Valid ρ ∧
      (Forgery.ofCredential cred A sk).attrs.length ≤ names.length := by
  obtain ⟨-, -, -, hla, -, -, -, hk⟩ := newIssuerKey_parts hmade
  obtain ⟨k, A, B, hr, ha, hb, hle, -, hc⟩ := credVer_ok_iff.mp acc
  obtain rfl := hr.unique hk
  exact ⟨A, ha, hc, by simpa [Forgery.ofCredential, hla] using hle⟩

/-- C87. So is what is computed from two signatures, as in C10. -/
theorem C87_signatures (hmade : newIssuerKey T m names ρ = .ok key) (h₁ h₂ : Bytes → S.F) {RevPk : Type}
    (sig₁ sig₂ : Signature) (D msg₁ msg₂ : Bytes) (values : List (Option S.F)) (rhIndex eidIndex : Int)
    (revPk₁ revPk₂ : RevPk) (epoch₁ epoch₂ : Int) (vt : VerType)
    (md₁ : Option (SignerMetadata (S.withHash h₁))) (md₂ : Option (SignerMetadata (S.withHash h₂)))
    (acc₁ : sig₁.ver (T.withHash h₁) D (some key.ipk) msg₁ values rhIndex eidIndex revPk₁ epoch₁ vt md₁ = .ok ())
    (acc₂ : sig₂.ver (T.withHash h₂) D (some key.ipk) msg₂ values rhIndex eidIndex revPk₂ epoch₂ vt md₂ = .ok ())
    (v₁ v₂ : Dlog.Spec.Sig S) (hv₁ : Views T sig₁ vt v₁) (hv₂ : Views T sig₂ vt v₂) (hpat : Dlog.Spec.SamePattern vt v₁ v₂)
    (vs : List S.F) (hvs : vs.map some = dis D values) (q₁ q₂ : Bytes)
    (hq₁ : q₁ = v₁.transcript (sigLabelOf v₁) (keyOf ρ) key.ipk.hash D vs eidIndex.toNat rhIndex.toNat msg₁)
    (hq₂ : q₂ = v₂.transcript (sigLabelOf v₂) (keyOf ρ) key.ipk.hash D vs eidIndex.toNat rhIndex.toNat msg₂)
    (sameQuery : q₁ = q₂)
    (differentAnswers : h₁ (Dlog.Spec.second (S.withHash h₁) q₁ v₁.nonce) ≠
      h₂ (Dlog.Spec.second (S.withHash h₂) q₂ v₂.nonce)) :
    let x := v₁.extract v₂
    ∃ attrs : List S.F, Dlog.Spec.Discloses D values attrs ∧ hid D attrs = x.hidden ∧
      (⟨x.A, x.e, x.s, x.sk, attrs⟩ : Forgery S).Valid ρ ∧ attrs.length ≤ names.length := by
  obtain ⟨-, -, -, hla, -, -, -, hk⟩ := newIssuerKey_parts hmade
  obtain ⟨attrs, a1, a2, a3, -, -⟩ := C10_signature_extraction T h₁ h₂ key.ipk sig₁ sig₂ D msg₁ msg₂ values rhIndex eidIndex
    revPk₁ revPk₂ epoch₁ epoch₂ vt md₁ md₂ acc₁ acc₂ (keyOf ρ) hk v₁ v₂ hv₁ hv₂ hpat vs hvs q₁ q₂ hq₁ hq₂ sameQuery
    differentAnswers
  obtain ⟨k, -, -, hr, -, hle, -⟩ := ver_withHash acc₁
  obtain rfl := hr.unique hk
  refine ⟨attrs, a1, a2, a3, ?_⟩
  rw [a1.1, ← hla]
  simpa using hle

end

/-! ## An example -/

namespace Ex

open Idemix.Dlog.Ex

/-- A forger that asks for the credential of C06 and shows one for the secret key 1 and the attributes 0, 0, 0. -/
def forger : Forger Toy.suite :=
  ⟨fun _ _ => ⟨req, (4 : Toy.K), [(1 : Toy.K), 0, 6]⟩, fun _ _ => ⟨(1 : Toy.K), (1 : Toy.K), (0 : Toy.K), (1 : Toy.K), [(0 : Toy.K), 0, 0]⟩⟩

theorem issued : Issued Toy.tr mar names forger rnd key [(2 : Toy.K)] [(2 : Toy.K)] [cred] where
  made := key_eq
  len := rfl
  played := by decide
  known := by decide
  regular := by decide

theorem forged : (forger.forge key.ipk [cred]).Valid rnd := by
  show (_ : Toy.K) = _
  decide

example : ¬ Same (forger.forge key.ipk [cred]).messages (asked forger key.ipk [cred] 0) := fun h => by
  have := h 0
  revert this
  show ¬ (1 : Toy.K) = 4
  decide

/-- A guess is right. -/
example : (forger.forge key.ipk [cred]).e ∉ [(2 : Toy.K)].eraseIdx 0 := List.not_mem_nil

/-- The credential of C06 is accepted. The example of C10 has two signatures as in `C87_signatures` for this key. -/
example : cred.ver Toy.tr (4 : Toy.K) key.ipk = .ok () := by decide

/-- Coins as in `C87_coins`. -/
example : let c : Coins Toy.K := ⟨1, [2, 3], [5], 1, 2, 3, 4, [1, 0, 6], [2, 2, 5]⟩
    (3 : Toy.K) + c.ej ≠ 0 ∧ c.u0 ≠ 0 ∧ c.u + c.v * (3 + c.ej) ≠ 0 ∧ c.j < c.es.length ∧ c.ss.length + 1 = c.es.length ∧
      c.vs.length = c.us.length := by decide

/-- The reduction finds `2⁻¹ • y`. -/
example : reduction Toy.tr mar names forger ((3 : Toy.K) • Toy.suite.genG2)
    (instanceFor rnd 0 [(2 : Toy.K)] ⟨(1 : Toy.K), (1 : Toy.K), [(1 : Toy.K), 0, 0, 0]⟩)
    (keyCoins rnd key.ipk 0 [(2 : Toy.K)] [(2 : Toy.K)] ⟨(1 : Toy.K), (1 : Toy.K), [(1 : Toy.K), 0, 0, 0]⟩
      (asked forger key.ipk [cred] 0)) = .ok (some ((1 : Toy.K), (2 : Toy.K))) := by decide

end Ex

end Idemix.Forge
