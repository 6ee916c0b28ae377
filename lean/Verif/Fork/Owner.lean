import Verif.Fork.Props
import Verif.Dlog.PropsHide

/-!
# C91: only the owner of a pseudonym signs for it

Somebody sees as many signatures of the owner of a pseudonym as they like, on messages of their choice, and then tries to sign another
message. The owner signs with the code of `nymsignature.go`; the hash function is a random oracle. From a successful attacker the discrete
logarithm of the generator `HSk` to the base `HRand` of the issuer key is computed.
-/

namespace Idemix.Fork

open Idemix.Dlog
open Idemix (Suite Res Bytes)
open Spec

/-! ## Specification -/

/-- An attacker: it comes up with a signature and a message, or asks the hash function a question, or has the owner sign a message. -/
inductive Spec.Attack (F : Type) where
  | done (sig : NymSignature) (msg : Bytes)
  | ask (x : Bytes) (next : F → Attack F)
  | sign (msg : Bytes) (next : NymSignature → Attack F)

/-- It makes at most so many moves. -/
def Spec.Attack.Within {F : Type} : Attack F → Nat → Prop
  | .done _ _, _ => True
  | .ask _ _, 0 => False
  | .ask _ next, n + 1 => ∀ c, (next c).Within n
  | .sign _ _, 0 => False
  | .sign _ next, n + 1 => ∀ sig, (next sig).Within n

/-- What has been heard in the moves so far: the answer to a question, the challenge of a signature. -/
abbrev Spec.History (F : Type) (n : Nat) := Fin n → Option F

/-- The history of a list. -/
def Spec.history {F : Type} (n : Nat) (heard : List F) : History F n := fun i => heard[i.1]?

/-- The owner of a pseudonym: the user secret, the randomness of the pseudonym, and the random choices for a signature. That these are
indexed by what has been heard before says that the choices for two signatures are independent. -/
structure Spec.Owner (S : Suite) (n : Nat) where
  sk : S.F
  r : S.F
  tape : History S.F n → NymRand S

/-- What the owner remembers of a signature: the message, what had been heard before it, its challenge. -/
structure Spec.Signing (F : Type) where
  msg : Bytes
  heard : List F
  challenge : F

/-- What an attacker comes up with, and the signatures that it has seen. -/
structure Spec.Outcome (F : Type) where
  sig : NymSignature
  msg : Bytes
  log : List (Signing F)

variable {S : Suite} {n : Nat} (T : Translator S) (ipk : IssuerPublicKey) (hSk hRand : S.G1)

/-- The pseudonym (what `MakeNym` computes, see `C91_owner_pseudonym`). -/
def Spec.Owner.nym (o : Owner S n) : S.G1 := o.sk • hSk + o.r • hRand

/-- The first question of the owner to the hash function, when it signs `msg`. -/
def Spec.Owner.first (o : Owner S n) (msg : Bytes) (ρ : NymRand S) : Bytes :=
  Dlog.Spec.nymTranscript signLabel ⟨hSk, hRand, [], 0⟩ (o.nym hSk hRand) 0 ρ.rSk ρ.rRNym ipk.hash msg

/-- The signature, if the two answers of the hash function are `c₁` and `c₂`: the code of `nymsignature.go`, with a hash function
that gives these answers. That it asks for no other is `C91_owner_signs`. -/
def Spec.Owner.signature (o : Owner S n) (msg : Bytes) (ρ : NymRand S) (c₁ c₂ : S.F) : NymSignature :=
  match newNymSignature (T.withHash fun x => if x = o.first ipk hSk hRand msg ρ then c₁ else c₂) o.sk
      (Owner.nym (S := S) hSk hRand o) o.r ipk msg ⟨ρ.nonce, ρ.rSk, ρ.rRNym⟩ with
  | .ok sig => sig
  | _ => ⟨[], [], [], []⟩

/-- The attacker with the owner, as somebody who only asks the hash function: `heard` is what has been heard, `log` what has been signed. -/
def Spec.Attack.against (o : Owner S n) : Attack S.F → List S.F → List (Signing S.F) → Strategy S.F (Outcome S.F)
  | .done sig msg, _, log => .done ⟨sig, msg, log⟩
  | .ask x next, heard, log => .ask x fun c => (next c).against o (heard ++ [c]) log
  | .sign msg next, heard, log =>
    let ρ := o.tape (history n heard)
    .ask (o.first ipk hSk hRand msg ρ) fun c₁ => .ask (S.zrBytes c₁ ++ S.zrBytes ρ.nonce) fun c₂ =>
      (next (o.signature T ipk hSk hRand msg ρ c₁ c₂)).against o (heard ++ [c₂]) (log ++ [⟨msg, heard, c₂⟩])

/-- The attack succeeds if the signature is accepted and the owner has not signed the message. -/
def Spec.forgeries (attack : S.G1 → Attack S.F) (o : Owner S n) : Game S.F (Outcome S.F) where
  forger := (attack (o.nym hSk hRand)).against T ipk hSk hRand o [] []
  first a := nymQuestion T ipk (o.nym hSk hRand) a.sig a.msg
  second a c := S.zrBytes c ++ S.zrBytes (S.zrOfBytes a.sig.nonce)
  accepts h a := a.sig.ver (T.withHash h) (Owner.nym (S := S) hSk hRand o) ipk a.msg = .ok () ∧ ∀ s ∈ a.log, s.msg ≠ a.msg

/-- The opening of the pseudonym that is computed from two outcomes (C17), and the one of the owner, give a discrete logarithm. -/
def Spec.logarithm (o : Owner S n) (a a' : Outcome S.F) : S.F :=
  (o.sk - (openingOf S a.sig a'.sig).1)⁻¹ * ((openingOf S a.sig a'.sig).2 - o.r)

/-- The reduction: play the owner, and the attacker twice. -/
def Spec.solve (attack : S.G1 → Attack S.F) (o : Owner S n) {q : Nat} (ω ω' : Fin q → S.F) : S.F :=
  match (forgeries T ipk hSk hRand attack o).fork ω ω' with
  | some r => logarithm o r.1.1 r.2.1
  | none => 0

/-! ## The owner -/

variable {T ipk hSk hRand}

/-- The pseudonym of the owner is what the code computes from the secret and the randomness. -/
theorem C91_owner_pseudonym (hk : T.g1FromProto ipk.hSk = .ok hSk) (hr : T.g1FromProto ipk.hRand = .ok hRand) (o : Owner S n) :
    makeNym T o.sk ipk o.r = .ok (o.nym hSk hRand, o.r) := by
  simp [makeNym, hk, hr, Owner.nym]

theorem first_eq (o : Owner S n) (msg : Bytes) (ρ : NymRand S) : o.first ipk hSk hRand msg ρ =
    signLabel ++ S.g1Bytes (nymFirst hSk hRand ρ) ++ S.g1Bytes (o.nym hSk hRand) ++ Buf.padTo S.scalarLen ipk.hash ++ msg := by
  simp [Owner.first, Dlog.Spec.nymTranscript, nymFirst]

theorem transcript_length (k : Dlog.Spec.Key S) (nym : S.G1) (c s r : S.F) (hash msg : Bytes) :
    2 * S.scalarLen < (Dlog.Spec.nymTranscript signLabel k nym c s r hash msg).length := by
  have := S.scalarLen_le
  have := S.scalarLen_pos
  simp [Dlog.Spec.nymTranscript]
  omega

theorem second_ne (k : Dlog.Spec.Key S) (nym : S.G1) (c s r : S.F) (hash msg : Bytes) (c₁ m : S.F) :
    S.zrBytes c₁ ++ S.zrBytes m ≠ Dlog.Spec.nymTranscript signLabel k nym c s r hash msg := by
  intro h
  have := congrArg List.length h
  have := transcript_length k nym c s r hash msg
  simp at *
  omega

theorem second_ne_first (o : Owner S n) (msg : Bytes) (ρ : NymRand S) (c₁ m : S.F) :
    S.zrBytes c₁ ++ S.zrBytes m ≠ o.first ipk hSk hRand msg ρ := second_ne _ _ _ _ _ _ _ _ _

theorem newNym_withHash (hk : T.g1FromProto ipk.hSk = .ok hSk) (hr : T.g1FromProto ipk.hRand = .ok hRand) (o : Owner S n) (msg : Bytes)
    (ρ : NymRand S) (h : Bytes → S.F) : newNymSignature (T.withHash h) o.sk (Owner.nym (S := S) hSk hRand o) o.r ipk msg ⟨ρ.nonce, ρ.rSk, ρ.rRNym⟩ =
      let c := h (S.zrBytes (h (o.first ipk hSk hRand msg ρ)) ++ S.zrBytes ρ.nonce)
      .ok ⟨S.zrBytes c, S.zrBytes (ρ.rSk + c * o.sk), S.zrBytes (ρ.rRNym + c * o.r), S.zrBytes ρ.nonce⟩ := by
  rw [first_eq]
  exact newNymSignature_eq (T := T.withHash h) (hSk := hSk) (hRand := hRand) hk hr o.sk o.r (Owner.nym (S := S) hSk hRand o) msg
    ⟨ρ.nonce, ρ.rSk, ρ.rRNym⟩

/-- The owner signs as the code does: whatever the hash function, if its answers to the two questions are `c₁` and `c₂`. -/
theorem C91_owner_signs (hk : T.g1FromProto ipk.hSk = .ok hSk) (hr : T.g1FromProto ipk.hRand = .ok hRand) (o : Owner S n) (msg : Bytes)
    (ρ : NymRand S) (h : Bytes → S.F) (c₁ c₂ : S.F) (h₁ : h (o.first ipk hSk hRand msg ρ) = c₁)
    (h₂ : h (S.zrBytes c₁ ++ S.zrBytes ρ.nonce) = c₂) :
    newNymSignature (T.withHash h) o.sk (Owner.nym (S := S) hSk hRand o) o.r ipk msg ⟨ρ.nonce, ρ.rSk, ρ.rRNym⟩ = .ok (o.signature T ipk hSk hRand msg ρ c₁ c₂) := by
  rw [Owner.signature, newNym_withHash hk hr, newNym_withHash hk hr]
  simp only [if_true, h₁, h₂]
  rw [if_neg (second_ne_first o msg ρ _ _)]

theorem signature_eq (hk : T.g1FromProto ipk.hSk = .ok hSk) (hr : T.g1FromProto ipk.hRand = .ok hRand) (o : Owner S n) (msg : Bytes)
    (ρ : NymRand S) (c₁ c₂ : S.F) : o.signature T ipk hSk hRand msg ρ c₁ c₂ =
      ⟨S.zrBytes c₂, S.zrBytes (ρ.rSk + c₂ * o.sk), S.zrBytes (ρ.rRNym + c₂ * o.r), S.zrBytes ρ.nonce⟩ := by
  rw [Owner.signature, newNym_withHash hk hr]
  simp only [if_true]
  rw [if_neg (second_ne_first o msg ρ _ _)]

theorem first_msg {o : Owner S n} {msg : Bytes} {ρ : NymRand S} {c s r : S.F} {msg' : Bytes}
    (h : o.first ipk hSk hRand msg ρ = Dlog.Spec.nymTranscript signLabel ⟨hSk, hRand, [], 0⟩ (o.nym hSk hRand) c s r ipk.hash msg') :
    msg = msg' := by
  simp only [Owner.first, Dlog.Spec.nymTranscript, List.append_assoc] at h
  obtain ⟨-, h⟩ := List.append_inj (List.append_cancel_left h) (by simp)
  obtain ⟨-, h⟩ := List.append_inj h (by simp)
  exact (List.append_inj h (by simp)).2

/-! ## Plays -/

theorem ask_step {F α : Type} {x : Bytes} {next : F → Strategy F α} {tab : Table F} {ω : List F} {r : α × Table F}
    (h : (Strategy.ask x next).run tab ω = some r) :
    ∃ c tab₁ ω₁, (next c).run tab₁ ω₁ = some r ∧ ∀ next' : F → Strategy F α, (Strategy.ask x next').run tab ω = (next' c).run tab₁ ω₁ := by
  rw [run_ask] at h
  cases hl : tab.lookup x with
  | some c => rw [hl] at h; exact ⟨c, tab, ω, h, fun next' => by rw [run_ask, hl]⟩
  | none =>
    rw [hl] at h
    cases ω with
    | nil => cases h
    | cons c ω => exact ⟨c, _, ω, h, fun next' => by rw [run_ask, hl]⟩

variable (T ipk hSk hRand) in
/-- The attacker, the owner and the verifier. -/
def whole (o : Owner S n) (f : Outcome S.F → Bytes) (g : Outcome S.F → S.F → Bytes) (a : Attack S.F) (heard : List S.F)
    (log : List (Signing S.F)) : Strategy S.F (Outcome S.F) :=
  (a.against T ipk hSk hRand o heard log).checked f g

section

variable {o : Owner S n} {f : Outcome S.F → Bytes} {g : Outcome S.F → S.F → Bytes}

theorem whole_done (sig : NymSignature) (msg : Bytes) (heard : List S.F) (log : List (Signing S.F)) :
    whole T ipk hSk hRand o f g (.done sig msg) heard log =
      .ask (f ⟨sig, msg, log⟩) fun c => .ask (g ⟨sig, msg, log⟩ c) fun _ => .done ⟨sig, msg, log⟩ := rfl

theorem whole_ask (x : Bytes) (next : S.F → Attack S.F) (heard : List S.F) (log : List (Signing S.F)) :
    whole T ipk hSk hRand o f g (.ask x next) heard log =
      .ask x fun c => whole T ipk hSk hRand o f g (next c) (heard ++ [c]) log := rfl

theorem whole_sign (msg : Bytes) (next : NymSignature → Attack S.F) (heard : List S.F) (log : List (Signing S.F)) :
    whole T ipk hSk hRand o f g (.sign msg next) heard log =
      .ask (o.first ipk hSk hRand msg (o.tape (history n heard))) fun c₁ =>
        .ask (S.zrBytes c₁ ++ S.zrBytes (o.tape (history n heard)).nonce) fun c₂ =>
          whole T ipk hSk hRand o f g (next (o.signature T ipk hSk hRand msg (o.tape (history n heard)) c₁ c₂)) (heard ++ [c₂])
            (log ++ [⟨msg, heard, c₂⟩]) := rfl

/-- The log grows, with entries that know what was heard before. -/
theorem whole_log (a : Attack S.F) {k : Nat} (hw : a.Within k) {heard : List S.F} {log : List (Signing S.F)} {tab tab' : Table S.F}
    {ω : List S.F} {r : Outcome S.F} (h : (whole T ipk hSk hRand o f g a heard log).run tab ω = some (r, tab')) :
    ∃ new, r.log = log ++ new ∧
      (∀ s ∈ new, heard <+: s.heard ∧ s.heard.length < heard.length + k) ∧
      ∀ s ∈ new, ∀ s' ∈ new, s.heard = s'.heard → s.challenge = s'.challenge := by
  induction a generalizing k heard log tab ω with
  | done sig msg =>
    rw [whole_done] at h
    obtain ⟨c, tab₁, ω₁, h, -⟩ := ask_step h
    obtain ⟨c', tab₂, ω₂, h, -⟩ := ask_step h
    simp only [Strategy.run, Option.some.injEq, Prod.mk.injEq] at h
    exact ⟨[], by rw [← h.1]; simp, by simp, by simp⟩
  | ask x next ih =>
    cases k with
    | zero => exact hw.elim
    | succ k =>
      rw [whole_ask] at h
      obtain ⟨c, tab₁, ω₁, h, -⟩ := ask_step h
      obtain ⟨new, h1, h2, h3⟩ := ih c (hw c) h
      refine ⟨new, h1, fun s hs => ?_, h3⟩
      obtain ⟨p, l⟩ := h2 s hs
      exact ⟨(List.prefix_append _ _).trans p, by simp at l; omega⟩
  | sign msg next ih =>
    cases k with
    | zero => exact hw.elim
    | succ k =>
      rw [whole_sign] at h
      obtain ⟨c₁, tab₁, ω₁, h, -⟩ := ask_step h
      obtain ⟨c₂, tab₂, ω₂, h, -⟩ := ask_step h
      obtain ⟨new, h1, h2, h3⟩ := ih _ (hw _) h
      have later : ∀ s ∈ new, s.heard ≠ heard := by
        intro s hs e
        have := (h2 s hs).1.length_le
        rw [e] at this
        simp at this
      refine ⟨⟨msg, heard, c₂⟩ :: new, by simpa using h1, ?_, ?_⟩
      · intro s hs
        rcases List.mem_cons.mp hs with rfl | hs
        · exact ⟨List.prefix_rfl, by simp⟩
        · obtain ⟨p, l⟩ := h2 s hs
          exact ⟨(List.prefix_append _ _).trans p, by simp at l; omega⟩
      · intro s hs s' hs' e
        rcases List.mem_cons.mp hs with rfl | hs <;> rcases List.mem_cons.mp hs' with rfl | hs'
        · rfl
        · exact absurd e.symm (later _ hs')
        · exact absurd e (later _ hs)
        · exact h3 _ hs _ hs' e

/-- Owners of one pseudonym whose choices differ as their secrets require make the same signatures. -/
theorem whole_shift (hk : T.g1FromProto ipk.hSk = .ok hSk) (hr : T.g1FromProto ipk.hRand = .ok hRand) {o' : Owner S n}
    (hn : o'.nym hSk hRand = o.nym hSk hRand) (a : Attack S.F) {k : Nat} (hw : a.Within k) {heard : List S.F} {log : List (Signing S.F)}
    {tab tab' : Table S.F} {ω : List S.F} {r : Outcome S.F}
    (h : (whole T ipk hSk hRand o f g a heard log).run tab ω = some (r, tab'))
    (hs : ∀ s ∈ r.log, o'.tape (history n s.heard) =
      nymShift s.challenge (o.sk - o'.sk) (o.r - o'.r) (o.tape (history n s.heard))) :
    (whole T ipk hSk hRand o' f g a heard log).run tab ω = some (r, tab') := by
  induction a generalizing k heard log tab ω with
  | done sig msg => exact h
  | ask x next ih =>
    cases k with
    | zero => exact hw.elim
    | succ k =>
      rw [whole_ask] at h ⊢
      obtain ⟨c, tab₁, ω₁, h, e⟩ := ask_step h
      rw [e]
      exact ih c (hw c) h
  | sign msg next ih =>
    cases k with
    | zero => exact hw.elim
    | succ k =>
      rw [whole_sign] at h ⊢
      obtain ⟨c₁, tab₁, ω₁, h, e₁⟩ := ask_step h
      obtain ⟨c₂, tab₂, ω₂, h, e₂⟩ := ask_step h
      obtain ⟨new, hl, -⟩ := whole_log _ (hw _) h
      have ht := hs ⟨msg, heard, c₂⟩ (by rw [hl]; simp)
      simp only at ht
      have hz : (o.sk - o'.sk) • hSk + (o.r - o'.r) • hRand = 0 := by
        have : (o.sk - o'.sk) • hSk + (o.r - o'.r) • hRand = o.nym hSk hRand - o'.nym hSk hRand := by
          simp only [Owner.nym]; module
        rw [this, hn, sub_self]
      have hf : o'.first ipk hSk hRand msg (o'.tape (history n heard)) = o.first ipk hSk hRand msg (o.tape (history n heard)) := by
        rw [first_eq, first_eq, hn, ht, nymFirst_shift _ _ _ _ _ hz]
      have hm : (o'.tape (history n heard)).nonce = (o.tape (history n heard)).nonce := by rw [ht]; rfl
      have hsig : o'.signature T ipk hSk hRand msg (o'.tape (history n heard)) c₁ c₂ =
          o.signature T ipk hSk hRand msg (o.tape (history n heard)) c₁ c₂ := by
        rw [signature_eq hk hr, signature_eq hk hr, ht]
        simp only [nymShift]
        congr 2 <;> ring
      rw [hf, e₁, hm, e₂, hsig]
      exact ih _ (hw _) h

theorem ask_both {F α : Type} {z : Bytes} {next : F → Strategy F α} {tab : Table F} {pre rest₁ rest₂ : List F} {x y : F}
    {r₁ r₂ : α × Table F} (h₁ : (Strategy.ask z next).run tab (pre ++ x :: rest₁) = some r₁)
    (h₂ : (Strategy.ask z next).run tab (pre ++ y :: rest₂) = some r₂) :
    (∃ c tab' pre', (next c).run tab' (pre' ++ x :: rest₁) = some r₁ ∧ (next c).run tab' (pre' ++ y :: rest₂) = some r₂ ∧
      tab'.length + pre'.length = tab.length + pre.length) ∨
    ((next x).run (tab ++ [(z, x)]) rest₁ = some r₁ ∧ (next y).run (tab ++ [(z, y)]) rest₂ = some r₂ ∧
      (r₁.2.map Prod.fst)[tab.length + pre.length]? = some z) := by
  rw [run_ask] at h₁ h₂
  cases hl : tab.lookup z with
  | some c => rw [hl] at h₁ h₂; exact .inl ⟨c, tab, pre, h₁, h₂, rfl⟩
  | none =>
    rw [hl] at h₁ h₂
    cases pre with
    | nil =>
      refine .inr ⟨h₁, h₂, ?_⟩
      have := run_trace (a := r₁.1) (tab' := r₁.2) h₁
      rw [this]
      simp
    | cons p pre => exact .inl ⟨p, _, pre, h₁, h₂, by simp; omega⟩

/-- Two plays with answers that differ for the first time in the answer to a question that the owner does not ask: signatures before which
the same was heard have the same challenge. -/
theorem whole_diverge (a : Attack S.F) {k : Nat} (hw : a.Within k) {heard : List S.F} {log new₁ new₂ : List (Signing S.F)}
    {tab tab₁ tab₂ : Table S.F} {pre rest₁ rest₂ : List S.F} {x y : S.F} {r₁ r₂ : Outcome S.F} (hxy : x ≠ y)
    (h₁ : (whole T ipk hSk hRand o f g a heard log).run tab (pre ++ x :: rest₁) = some (r₁, tab₁))
    (h₂ : (whole T ipk hSk hRand o f g a heard log).run tab (pre ++ y :: rest₂) = some (r₂, tab₂))
    {X : Bytes} (hX : (tab₁.map Prod.fst)[tab.length + pre.length]? = some X)
    (hfirst : ∀ s ∈ r₁.log, ∀ ρ, o.first ipk hSk hRand s.msg ρ ≠ X) (hsecond : ∀ c m, S.zrBytes c ++ S.zrBytes m ≠ X)
    (hl₁ : r₁.log = log ++ new₁) (hl₂ : r₂.log = log ++ new₂) :
    ∀ s ∈ new₁, ∀ s' ∈ new₂, s.heard = s'.heard → s.challenge = s'.challenge := by
  induction a generalizing k heard log new₁ new₂ tab pre with
  | done sig msg =>
    obtain ⟨new, e, -⟩ := whole_log (k := 0) (.done sig msg) trivial h₁
    rw [whole_done] at h₁
    obtain ⟨c, tab', ω', h, -⟩ := ask_step h₁
    obtain ⟨c', tab'', ω'', h, -⟩ := ask_step h
    simp only [Strategy.run, Option.some.injEq, Prod.mk.injEq] at h
    rw [← h.1] at hl₁
    have : new₁ = [] := by simpa using hl₁
    simp [this]
  | ask z next ih =>
    cases k with
    | zero => exact hw.elim
    | succ k =>
      rw [whole_ask] at h₁ h₂
      rcases ask_both h₁ h₂ with ⟨c, tab', pre', g₁, g₂, e⟩ | ⟨g₁, g₂, -⟩
      · exact ih c (hw c) g₁ g₂ (by rw [e]; exact hX) hl₁ hl₂
      · obtain ⟨n₁, e₁, p₁, -⟩ := whole_log _ (hw _) g₁
        obtain ⟨n₂, e₂, p₂, -⟩ := whole_log _ (hw _) g₂
        rw [e₁] at hl₁
        rw [e₂] at hl₂
        rw [← List.append_cancel_left hl₁, ← List.append_cancel_left hl₂]
        intro s hs s' hs' e
        exfalso
        obtain ⟨t, ht⟩ := (p₁ s hs).1
        obtain ⟨t', ht'⟩ := (p₂ s' hs').1
        rw [e, ← ht'] at ht
        simp at ht
        exact hxy ht.1
  | sign msg next ih =>
    cases k with
    | zero => exact hw.elim
    | succ k =>
      rw [whole_sign] at h₁ h₂
      rcases ask_both h₁ h₂ with ⟨c₁, tab', pre', g₁, g₂, e⟩ | ⟨g₁, g₂, e⟩
      · rcases ask_both g₁ g₂ with ⟨c₂, tab'', pre'', g₁, g₂, e'⟩ | ⟨g₁, g₂, e'⟩
        · obtain ⟨n₁, e₁, p₁, -⟩ := whole_log _ (hw _) g₁
          obtain ⟨n₂, e₂, p₂, -⟩ := whole_log _ (hw _) g₂
          have := ih _ (hw _) g₁ g₂ (by rw [e', e]; exact hX) e₁ e₂
          rw [e₁, List.append_assoc] at hl₁
          rw [e₂, List.append_assoc] at hl₂
          rw [← List.append_cancel_left hl₁, ← List.append_cancel_left hl₂]
          have later : ∀ l, heard ++ [c₂] <+: l → l ≠ heard := by
            rintro l hp rfl
            have := hp.length_le
            simp at this
          intro s hs s' hs' e
          rcases List.mem_cons.mp hs with rfl | hs <;> rcases List.mem_cons.mp hs' with rfl | hs'
          · rfl
          · exact absurd e.symm (later _ (p₂ _ hs').1)
          · exact absurd e (later _ (p₁ _ hs).1)
          · exact this _ hs _ hs' e
        · exact absurd (Option.some.inj (e'.symm.trans (by rw [e]; exact hX))) (hsecond _ _)
      · obtain ⟨c₂, tab', ω', g₁, -⟩ := ask_step g₁
        obtain ⟨n₁, e₁, -⟩ := whole_log _ (hw _) g₁
        exact absurd (Option.some.inj (e.symm.trans hX)) (hfirst ⟨msg, heard, c₂⟩ (by rw [e₁]; simp) _)

end

/-! ## Pairs of plays -/

theorem fork_some {F α : Type} {G : Game F α} {q : Nat} {ω ω' : Fin q → F} {r : (α × Table F) × (α × Table F)}
    (h : G.fork ω ω' = some r) : G.play ω = some r.1 ∧
      ∃ hI : (r.1.2.map Prod.fst).idxOf (G.first r.1.1) < q, G.play (mix ⟨_, hI⟩ ω ω') = some r.2 := by
  unfold Game.fork at h
  cases hp : G.play ω with
  | none => rw [hp] at h; cases h
  | some r₁ =>
    obtain ⟨a, tab⟩ := r₁
    rw [hp] at h
    simp only at h
    split at h
    · next hI =>
      obtain ⟨r₂, h2, h3⟩ := Option.map_eq_some_iff.mp h
      subst h3
      exact ⟨rfl, hI, h2⟩
    · cases h

theorem some_fork {F α : Type} {G : Game F α} {q : Nat} {ω ω' : Fin q → F} {r : (α × Table F) × (α × Table F)}
    (h₁ : G.play ω = some r.1) (hI : (r.1.2.map Prod.fst).idxOf (G.first r.1.1) < q)
    (h₂ : G.play (mix ⟨_, hI⟩ ω ω') = some r.2) : G.fork ω ω' = some r := by
  obtain ⟨⟨a, tab⟩, r₂⟩ := r
  simp only at h₁ hI h₂
  simp only [Game.fork, h₁, dif_pos hI, h₂, Option.map_some]

/-- The second play of a fork gets another answer to the question at which it forks. -/
def Parts {F α : Type} (G : Game F α) {q : Nat} (ω ω' : Fin q → F) (r : (α × Table F) × (α × Table F)) : Prop :=
  ∃ hI : (r.1.2.map Prod.fst).idxOf (G.first r.1.1) < q, ω' ⟨_, hI⟩ ≠ ω ⟨_, hI⟩

theorem ofFn_split {F : Type} {q : Nat} (ω : Fin q → F) (I : Fin q) :
    List.ofFn ω = (List.ofFn ω).take I ++ ω I :: (List.ofFn ω).drop (I + 1) := by
  have h : I.1 < (List.ofFn ω).length := by simp
  have e := List.take_append_drop I.1 (List.ofFn ω)
  rw [List.drop_eq_getElem_cons h, List.getElem_ofFn] at e
  exact e.symm

theorem history_inj {F : Type} {l l' : List F} (h : l.length ≤ n) (h' : l'.length ≤ n) (e : history n l = history n l') : l = l' := by
  apply List.ext_getElem?
  intro i
  by_cases hi : i < n
  · exact congrFun e ⟨i, hi⟩
  · rw [List.getElem?_eq_none (by omega), List.getElem?_eq_none (by omega)]

/-- The choices of another owner, that make the signatures of `log` the same. -/
def shiftTape (log : List (Signing S.F)) (a b : S.F) (tape : History S.F n → NymRand S) : History S.F n → NymRand S := fun H =>
  match log.find? fun s => decide (history n s.heard = H) with
  | some s => nymShift s.challenge a b (tape H)
  | none => tape H

theorem shiftTape_inj {log : List (Signing S.F)} {a b : S.F} {tape tape' : History S.F n → NymRand S}
    (h : shiftTape log a b tape = shiftTape log a b tape') : tape = tape' := by
  funext H
  have := congrFun h H
  unfold shiftTape at this
  split at this
  · simp only [nymShift, NymRand.mk.injEq, add_left_inj] at this
    cases h1 : tape H
    cases h2 : tape' H
    rw [h1, h2] at this
    simp only at this
    obtain ⟨rfl, rfl, rfl⟩ := this
    rfl
  · exact this

theorem shiftTape_of {log : List (Signing S.F)} (hf : ∀ s ∈ log, ∀ s' ∈ log, s.heard = s'.heard → s.challenge = s'.challenge)
    (hl : ∀ s ∈ log, s.heard.length ≤ n) (a b : S.F) (tape : History S.F n → NymRand S) {s : Signing S.F} (hs : s ∈ log) :
    shiftTape log a b tape (history n s.heard) = nymShift s.challenge a b (tape (history n s.heard)) := by
  unfold shiftTape
  split
  · next s' h =>
    have h1 := List.mem_of_find?_eq_some h
    have h2 := List.find?_some h
    simp only [decide_eq_true_eq] at h2
    rw [hf s' h1 s hs (history_inj (hl _ h1) (hl _ hs) h2)]
  · next h =>
    have := List.find?_eq_none.mp h s hs
    simp at this

section

variable {attack : S.G1 → Attack S.F} {o : Owner S n} {q : Nat}

theorem play_whole (attack : S.G1 → Attack S.F) (o : Owner S n) (ω : Fin q → S.F) :
    (forgeries T ipk hSk hRand attack o).play ω =
      (whole T ipk hSk hRand o (forgeries T ipk hSk hRand attack o).first (forgeries T ipk hSk hRand attack o).second
        (attack (o.nym hSk hRand)) [] []).run [] (List.ofFn ω) := rfl

theorem pair_log (hk : T.g1FromProto ipk.hSk = .ok hSk) (hr : T.g1FromProto ipk.hRand = .ok hRand)
    (hw : ∀ nym, (attack nym).Within n) {ω ω' : Fin q → S.F} {r : (Outcome S.F × Table S.F) × (Outcome S.F × Table S.F)}
    (h : (forgeries T ipk hSk hRand attack o).fork ω ω' = some r) (hF : (forgeries T ipk hSk hRand attack o).Forked r)
    (hP : Parts (forgeries T ipk hSk hRand attack o) ω ω' r) :
    (∀ s ∈ r.1.1.log ++ r.2.1.log, ∀ s' ∈ r.1.1.log ++ r.2.1.log, s.heard = s'.heard → s.challenge = s'.challenge) ∧
      ∀ s ∈ r.1.1.log ++ r.2.1.log, s.heard.length ≤ n := by
  obtain ⟨h1, hI, h2⟩ := fork_some h
  obtain ⟨hI', hne⟩ := hP
  obtain ⟨⟨a, tab⟩, ⟨a', tab'⟩⟩ := r
  simp only at h1 hI h2 hne ⊢
  have hfirst := (lookup_idx (run_checked h1).choose_spec.choose_spec.1).1
  rw [play_whole] at h1 h2
  obtain ⟨new₁, e₁, p₁, f₁⟩ := whole_log _ (hw _) h1
  obtain ⟨new₂, e₂, p₂, f₂⟩ := whole_log _ (hw _) h2
  rw [ofFn_split ω ⟨_, hI⟩] at h1
  rw [ofFn_split (mix ⟨_, hI⟩ ω ω') ⟨_, hI⟩, mix_after _ _ le_rfl,
    ← take_ofFn (I := (tab.map Prod.fst).idxOf ((forgeries T ipk hSk hRand attack o).first a)) (ω := ω)
      fun i hi => (mix_before (I := ⟨_, hI⟩) ω ω' hi).symm] at h2
  have hd := whole_diverge _ (hw _) (Ne.symm hne) h1 h2
    (X := (forgeries T ipk hSk hRand attack o).first a) (by
      simpa [Nat.min_eq_left (Nat.le_of_lt hI)] using hfirst) (by
      intro s hs ρ e
      refine hF.1.2 s hs ?_
      have hq : (forgeries T ipk hSk hRand attack o).first a = Dlog.Spec.nymTranscript signLabel ⟨hSk, hRand, [], 0⟩ (o.nym hSk hRand)
          (S.zrOfBytes a.sig.proofC) (S.zrOfBytes a.sig.proofSSk) (S.zrOfBytes a.sig.proofSRNym) ipk.hash a.msg := by
        simp only [forgeries, nymQuestion, hk, hr]
      rw [hq] at e
      exact first_msg e) (by
      intro c m
      simp only [forgeries, nymQuestion, hk, hr]
      exact second_ne _ _ _ _ _ _ _ _ _) e₁ e₂
  simp only [List.nil_append] at e₁ e₂
  rw [e₁, e₂]
  constructor
  · intro s hs s' hs' e
    rcases List.mem_append.mp hs with hs | hs <;> rcases List.mem_append.mp hs' with hs' | hs'
    · exact f₁ _ hs _ hs' e
    · exact hd _ hs _ hs' e
    · exact (hd _ hs' _ hs e.symm).symm
    · exact f₂ _ hs _ hs' e
  · intro s hs
    rcases List.mem_append.mp hs with hs | hs
    · have := (p₁ s hs).2; simp at this; omega
    · have := (p₂ s hs).2; simp at this; omega

/-- The owner with the secret 0, and choices that make the same signatures in the two plays. -/
def flat (x : S.F) (o : Owner S n) (log : List (Signing S.F)) : Owner S n :=
  ⟨0, o.r + o.sk * x, shiftTape log (o.sk - 0) (o.r - (o.r + o.sk * x)) o.tape⟩

theorem flat_nym {x : S.F} (hx : hSk = x • hRand) (o : Owner S n) (log : List (Signing S.F)) :
    (flat x o log).nym hSk hRand = o.nym hSk hRand := by
  simp only [flat, Owner.nym]
  rw [hx]
  module

theorem fork_flat (hk : T.g1FromProto ipk.hSk = .ok hSk) (hr : T.g1FromProto ipk.hRand = .ok hRand) {x : S.F} (hx : hSk = x • hRand)
    (hw : ∀ nym, (attack nym).Within n) {ω ω' : Fin q → S.F} {r : (Outcome S.F × Table S.F) × (Outcome S.F × Table S.F)}
    (h : (forgeries T ipk hSk hRand attack o).fork ω ω' = some r) (hF : (forgeries T ipk hSk hRand attack o).Forked r)
    (hP : Parts (forgeries T ipk hSk hRand attack o) ω ω' r) :
    (forgeries T ipk hSk hRand attack (flat x o (r.1.1.log ++ r.2.1.log))).fork ω ω' = some r := by
  obtain ⟨c1, c2⟩ := pair_log hk hr hw h hF hP
  obtain ⟨h1, hI, h2⟩ := fork_some h
  have hn := flat_nym hx o (r.1.1.log ++ r.2.1.log)
  have ef : (forgeries T ipk hSk hRand attack (flat x o (r.1.1.log ++ r.2.1.log))).first =
      (forgeries T ipk hSk hRand attack o).first := by
    funext a
    simp only [forgeries, hn]
  have key : ∀ {ω : Fin q → S.F} {a : Outcome S.F × Table S.F}, (forgeries T ipk hSk hRand attack o).play ω = some a →
      (∀ s ∈ a.1.log, s ∈ r.1.1.log ++ r.2.1.log) →
      (forgeries T ipk hSk hRand attack (flat x o (r.1.1.log ++ r.2.1.log))).play ω = some a := by
    intro ω a h hs
    rw [play_whole] at h ⊢
    rw [ef, hn]
    exact whole_shift hk hr hn _ (hw _) h fun s hm => shiftTape_of c1 c2 _ _ _ (hs s hm)
  have hI' : (r.1.2.map Prod.fst).idxOf ((forgeries T ipk hSk hRand attack (flat x o (r.1.1.log ++ r.2.1.log))).first r.1.1) < q := by
    rw [ef]; exact hI
  refine some_fork (key h1 fun s hs => List.mem_append.mpr (.inl hs)) hI' ?_
  have : (⟨_, hI'⟩ : Fin q) = ⟨_, hI⟩ := Fin.ext (by simp only [ef])
  rw [this]
  exact key h2 fun s hs => List.mem_append.mpr (.inr hs)

end

/-! ## Counting -/

instance [Fintype S.F] : Fintype (NymRand S) :=
  Fintype.ofEquiv (S.F × S.F × S.F) ⟨fun p => ⟨p.1, p.2.1, p.2.2⟩, fun ρ => (ρ.nonce, ρ.rSk, ρ.rRNym), fun _ => rfl, fun _ => rfl⟩

/-- The choices of an owner. -/
def ownerEquiv (S : Suite) (n : Nat) : S.F × S.F × (History S.F n → NymRand S) ≃ Owner S n :=
  ⟨fun p => ⟨p.1, p.2.1, p.2.2⟩, fun o => (o.sk, o.r, o.tape), fun _ => rfl, fun _ => rfl⟩

instance [Fintype S.F] : Fintype (Owner S n) := Fintype.ofEquiv _ (ownerEquiv S n)

theorem card_owner [Fintype S.F] : Fintype.card (Owner S n) =
    Fintype.card S.F * (Fintype.card S.F * Fintype.card (History S.F n → NymRand S)) := by
  rw [← Fintype.card_congr (ownerEquiv S n), Fintype.card_prod, Fintype.card_prod]

theorem card_filter_prod {α β : Type} [Fintype α] [Fintype β] (P : α × β → Prop) [DecidablePred P] :
    (Finset.univ.filter P).card = ∑ a, (Finset.univ.filter fun b => P (a, b)).card := by
  simp only [Finset.card_filter, Fintype.sum_prod_type]

section

variable [Fintype S.F] {attack : S.G1 → Attack S.F} {q : Nat}

open scoped Classical in
/-- Forks that get the same answer again. -/
theorem card_same {α : Type} (G : Game S.F α) :
    Fintype.card S.F * (Finset.univ.filter fun p : (Fin q → S.F) × (Fin q → S.F) =>
      ∃ r, G.fork p.1 p.2 = some r ∧ G.Forked r ∧ ¬ Parts G p.1 p.2 r).card ≤
    (Finset.univ.filter fun ω : Fin q → S.F => ∃ a tab, G.Wins ω a tab).card * Fintype.card (Fin q → S.F) := by
  rw [card_filter_prod, Finset.mul_sum, Finset.card_filter, Finset.sum_mul]
  refine Finset.sum_le_sum fun ω _ => ?_
  by_cases hW : ∃ a tab, G.Wins ω a tab
  · rw [if_pos hW, one_mul]
    obtain ⟨a, tab, hp, -⟩ := hW
    obtain ⟨hI, -⟩ := play_first hp
    rw [mul_comm, ← one_mul (Fintype.card (Fin q → S.F)), ← Finset.card_singleton (ω ⟨_, hI⟩), ← card_answer ⟨_, hI⟩ {ω ⟨_, hI⟩}]
    refine Nat.mul_le_mul_right _ (Finset.card_le_card fun ω' h => ?_)
    simp only [Finset.mem_filter, Finset.mem_univ, true_and, Finset.mem_singleton] at h ⊢
    obtain ⟨r, h1, -, h2⟩ := h
    obtain ⟨h3, -⟩ := fork_some h1
    have : r.1 = (a, tab) := Option.some.inj (h3.symm.trans hp)
    by_contra hne
    refine h2 ⟨by rw [this]; exact hI, ?_⟩
    simp only [this]
    exact hne
  · rw [if_neg hW, zero_mul, Nat.le_zero, Nat.mul_eq_zero]
    right
    rw [Finset.card_eq_zero, Finset.filter_eq_empty_iff]
    rintro ω' - ⟨r, h1, h2, -⟩
    exact hW ⟨r.1.1, r.1.2, (fork_some h1).1, h2.1⟩

open scoped Classical in
/-- Forks from which the secret of the owner itself is computed. -/
theorem card_own (hk : T.g1FromProto ipk.hSk = .ok hSk) (hr : T.g1FromProto ipk.hRand = .ok hRand) {x : S.F} (hx : hSk = x • hRand)
    (hw : ∀ nym, (attack nym).Within n) :
    (Finset.univ.filter fun p : Owner S n × (Fin q → S.F) × (Fin q → S.F) =>
      ∃ r, (forgeries T ipk hSk hRand attack p.1).fork p.2.1 p.2.2 = some r ∧ (forgeries T ipk hSk hRand attack p.1).Forked r ∧
        Parts (forgeries T ipk hSk hRand attack p.1) p.2.1 p.2.2 r ∧ (openingOf S r.1.1.sig r.2.1.sig).1 = p.1.sk).card ≤
    Fintype.card S.F * Fintype.card (History S.F n → NymRand S) * Fintype.card (Fin q → S.F) ^ 2 := by
  let logs (p : Owner S n × (Fin q → S.F) × (Fin q → S.F)) : List (Signing S.F) :=
    match (forgeries T ipk hSk hRand attack p.1).fork p.2.1 p.2.2 with
    | some r => r.1.1.log ++ r.2.1.log
    | none => []
  let Φ (p : Owner S n × (Fin q → S.F) × (Fin q → S.F)) :
      (S.F × (History S.F n → NymRand S)) × (Fin q → S.F) × (Fin q → S.F) :=
    (((flat x p.1 (logs p)).r, (flat x p.1 (logs p)).tape), p.2)
  have hcard : Fintype.card ((S.F × (History S.F n → NymRand S)) × (Fin q → S.F) × (Fin q → S.F)) =
      Fintype.card S.F * Fintype.card (History S.F n → NymRand S) * Fintype.card (Fin q → S.F) ^ 2 := by
    rw [Fintype.card_prod, Fintype.card_prod, Fintype.card_prod, sq]
  rw [← hcard, ← Finset.card_univ]
  refine Finset.card_le_card_of_injOn Φ (fun _ _ => Finset.mem_coe.mpr (Finset.mem_univ _)) ?_
  rintro ⟨o₁, ω, ω'⟩ h₁ ⟨o₂, ω₂, ω₂'⟩ h₂ e
  simp only [Finset.coe_filter, Finset.mem_univ, true_and, Set.mem_ofPred_eq] at h₁ h₂
  obtain ⟨r₁, a1, a2, a3, a4⟩ := h₁
  obtain ⟨r₂, b1, b2, b3, b4⟩ := h₂
  have l₁ : logs (o₁, ω, ω') = r₁.1.1.log ++ r₁.2.1.log := by simp only [logs, a1]
  have l₂ : logs (o₂, ω₂, ω₂') = r₂.1.1.log ++ r₂.2.1.log := by simp only [logs, b1]
  simp only [Φ, l₁, l₂, Prod.mk.injEq] at e
  obtain ⟨⟨er, et⟩, rfl, rfl⟩ := e
  have ho : flat x o₁ (r₁.1.1.log ++ r₁.2.1.log) = flat x o₂ (r₂.1.1.log ++ r₂.2.1.log) := by
    simp only [flat] at er et ⊢
    rw [et, er]
  have f₁ := fork_flat hk hr hx hw a1 a2 a3
  have f₂ := fork_flat hk hr hx hw b1 b2 b3
  rw [ho] at f₁
  obtain rfl : r₁ = r₂ := Option.some.inj (f₁.symm.trans f₂)
  have hs : o₁.sk = o₂.sk := a4.symm.trans b4
  simp only [flat, hs, add_left_inj] at er
  simp only [flat, hs, er] at et
  have ht := shiftTape_inj et
  cases o₁
  cases o₂
  simp only at hs er ht
  subst hs er ht
  rfl

omit [Fintype S.F] in
/-- Two openings of a pseudonym with different secrets give the logarithm. -/
theorem logarithm_of {o : Owner S n} {a a' : Outcome S.F}
    (h : o.nym hSk hRand = (openingOf S a.sig a'.sig).1 • hSk + (openingOf S a.sig a'.sig).2 • hRand)
    (hne : (openingOf S a.sig a'.sig).1 ≠ o.sk) : hSk = logarithm o a a' • hRand := by
  have hd : o.sk - (openingOf S a.sig a'.sig).1 ≠ 0 := sub_ne_zero.mpr (Ne.symm hne)
  apply S.smul_right_inj hd
  rw [logarithm, smul_smul, ← mul_assoc, mul_inv_cancel₀ hd, one_mul, sub_smul, sub_smul]
  rw [Owner.nym] at h
  rw [sub_eq_sub_iff_add_eq_add, h, add_comm]

end

open scoped Classical in
theorem card_outcome_le [Fintype S.F] (hk : T.g1FromProto ipk.hSk = .ok hSk) (hr : T.g1FromProto ipk.hRand = .ok hRand) {x : S.F}
    (hx : hSk = x • hRand) {attack : S.G1 → Attack S.F} (hw : ∀ nym, (attack nym).Within n) {q : Nat} (sk₁ sk₂ : S.F) (ω : Fin q → S.F)
    (a : Outcome S.F) (tab : Table S.F) :
    (Finset.univ.filter fun p : S.F × (History S.F n → NymRand S) =>
        (forgeries T ipk hSk hRand attack ⟨sk₁, p.1, p.2⟩).play ω = some (a, tab)).card ≤
      (Finset.univ.filter fun p : S.F × (History S.F n → NymRand S) =>
        (forgeries T ipk hSk hRand attack ⟨sk₂, p.1, p.2⟩).play ω = some (a, tab)).card := by
  let φ (p : S.F × (History S.F n → NymRand S)) : S.F × (History S.F n → NymRand S) :=
    (p.1 + (sk₁ - sk₂) * x, shiftTape a.log (sk₁ - sk₂) (-((sk₁ - sk₂) * x)) p.2)
  refine Finset.card_le_card_of_injOn φ ?_ ?_
  · rintro ⟨r, tape⟩ h
    simp only [Finset.coe_filter, Finset.mem_univ, true_and, Set.mem_ofPred_eq, φ] at h ⊢
    rw [play_whole] at h
    obtain ⟨new, e, hl, hf⟩ := whole_log _ (hw _) h
    simp only [List.nil_append] at e
    have hn : (⟨sk₂, r + (sk₁ - sk₂) * x, shiftTape a.log (sk₁ - sk₂) (-((sk₁ - sk₂) * x)) tape⟩ : Owner S n).nym hSk hRand =
        (⟨sk₁, r, tape⟩ : Owner S n).nym hSk hRand := by
      simp only [Owner.nym]
      rw [hx]
      module
    have ef : (forgeries T ipk hSk hRand attack
        ⟨sk₂, r + (sk₁ - sk₂) * x, shiftTape a.log (sk₁ - sk₂) (-((sk₁ - sk₂) * x)) tape⟩).first =
        (forgeries T ipk hSk hRand attack ⟨sk₁, r, tape⟩).first := by
      funext a
      simp only [forgeries, hn]
    rw [play_whole, ef, hn]
    refine whole_shift hk hr hn _ (hw _) h fun s hs => ?_
    have hb : r - (r + (sk₁ - sk₂) * x) = -((sk₁ - sk₂) * x) := by ring
    simp only [hb]
    refine shiftTape_of ?_ ?_ _ _ _ hs
    · rw [e]; exact hf
    · intro s hs
      rw [e] at hs
      have := (hl s hs).2
      simp at this
      omega
  · rintro ⟨r, tape⟩ - ⟨r', tape'⟩ - h
    simp only [φ, Prod.mk.injEq, add_left_inj] at h
    rw [h.1, shiftTape_inj h.2]

open scoped Classical in
/-- C72, adaptively. Whatever somebody does who has the owner of a pseudonym sign messages of their choice, and asks the hash function: what
they find out is the same for as many choices of an owner with the secret `sk₁` as of an owner with the secret `sk₂`. -/
theorem C72_adaptive [Fintype S.F] (ipk : IssuerPublicKey) (hSk hRand : S.G1) (hk : T.g1FromProto ipk.hSk = .ok hSk)
    (hr : T.g1FromProto ipk.hRand = .ok hRand) (hne : hRand ≠ 0) (attack : S.G1 → Attack S.F) (n : Nat)
    (hw : ∀ nym, (attack nym).Within n) {q : Nat} (sk₁ sk₂ : S.F) (ω : Fin q → S.F) (a : Outcome S.F) (tab : Table S.F) :
    (Finset.univ.filter fun p : S.F × (History S.F n → NymRand S) =>
        (forgeries T ipk hSk hRand attack ⟨sk₁, p.1, p.2⟩).play ω = some (a, tab)).card =
      (Finset.univ.filter fun p : S.F × (History S.F n → NymRand S) =>
        (forgeries T ipk hSk hRand attack ⟨sk₂, p.1, p.2⟩).play ω = some (a, tab)).card := by
  obtain ⟨x, hx⟩ := S.g1_span hne hSk
  exact Nat.le_antisymm (card_outcome_le hk hr hx hw sk₁ sk₂ ω a tab) (card_outcome_le hk hr hx hw sk₂ sk₁ ω a tab)

open scoped Classical in
/-- C91. Take any attacker on pseudonyms that makes at most `n` moves, and any number `q` of hash questions. If it signs a message
that the owner of a pseudonym has not signed, for the fraction `ε` of all choices of the owner and all answers of the hash function, then the
reduction computes the discrete logarithm of `HSk` to the base `HRand` for at least the fraction `ε² / q - (1 + (1 + 2 q) ε) / |F|` of the
choices that it makes. -/
theorem C91_pseudonyms_unforgeable [Fintype S.F] (ipk : IssuerPublicKey) (hSk hRand : S.G1) (hk : T.g1FromProto ipk.hSk = .ok hSk)
    (hr : T.g1FromProto ipk.hRand = .ok hRand) (hne : hRand ≠ 0) (attack : S.G1 → Attack S.F) (n : Nat)
    (hw : ∀ nym, (attack nym).Within n) (q : Nat) :
    let V := Finset.univ.filter fun p : Owner S n × (Fin q → S.F) => ∃ a tab, (forgeries T ipk hSk hRand attack p.1).Wins p.2 a tab
    let D := Finset.univ.filter fun p : Owner S n × (Fin q → S.F) × (Fin q → S.F) =>
      hSk = solve T ipk hSk hRand attack p.1 p.2.1 p.2.2 • hRand
    let owners := Fintype.card (Owner S n)
    let answers := Fintype.card (Fin q → S.F)
    Fintype.card S.F * V.card ^ 2 ≤
      q * Fintype.card S.F * owners * D.card + q * owners ^ 2 * answers ^ 2 + (q + 2 * q ^ 2) * owners * V.card * answers := by
  intro V D owners answers
  obtain ⟨x, hx⟩ := S.g1_span hne hSk
  let G (o : Owner S n) := forgeries T ipk hSk hRand attack o
  let w (o : Owner S n) := (Finset.univ.filter fun ω : Fin q → S.F => ∃ a tab, (G o).Wins ω a tab).card
  let fk (o : Owner S n) := (Finset.univ.filter fun p : (Fin q → S.F) × (Fin q → S.F) => ∃ r, (G o).fork p.1 p.2 = some r ∧ (G o).Forked r).card
  have per : ∀ o, Fintype.card S.F * w o ^ 2 ≤ q * Fintype.card S.F * fk o + 2 * q ^ 2 * w o * answers := by
    intro o
    refine forks (G o) q (fun x => S.zrOfBytes (x.take S.scalarLen)) ?_
    intro a c
    show S.zrOfBytes ((S.zrBytes c ++ _).take S.scalarLen) = c
    rw [List.take_append_of_le_length (by simp), List.take_of_length_le (by simp), S.zrOfBytes_zrBytes]
  have hV : V.card = ∑ o, w o := card_filter_prod _
  let same (o : Owner S n) := (Finset.univ.filter fun p : (Fin q → S.F) × (Fin q → S.F) =>
      ∃ r, (G o).fork p.1 p.2 = some r ∧ (G o).Forked r ∧ ¬ Parts (G o) p.1 p.2 r)
  let own (o : Owner S n) := (Finset.univ.filter fun p : (Fin q → S.F) × (Fin q → S.F) =>
      ∃ r, (G o).fork p.1 p.2 = some r ∧ (G o).Forked r ∧ Parts (G o) p.1 p.2 r ∧ (openingOf S r.1.1.sig r.2.1.sig).1 = o.sk)
  let dl (o : Owner S n) := (Finset.univ.filter fun p : (Fin q → S.F) × (Fin q → S.F) =>
      hSk = solve T ipk hSk hRand attack o p.1 p.2 • hRand)
  have hD : D.card = ∑ o, (dl o).card := card_filter_prod _
  have hsplit : ∀ o, fk o ≤ (dl o).card + (own o).card + (same o).card := by
    intro o
    refine le_trans (Finset.card_le_card ?_) (le_trans (Finset.card_union_le _ _) (Nat.add_le_add_right (Finset.card_union_le _ _) _))
    rintro ⟨ω, ω'⟩ h
    simp only [Finset.mem_filter, Finset.mem_univ, true_and, Finset.mem_union, dl, own, same] at h ⊢
    obtain ⟨r, h1, h2⟩ := h
    by_cases hP : Parts (G o) ω ω' r
    · left
      by_cases hs : (openingOf S r.1.1.sig r.2.1.sig).1 = o.sk
      · exact .inr ⟨r, h1, h2, hP, hs⟩
      · left
        have hq : ∀ sig msg, nymQuestion T ipk (o.nym hSk hRand) sig msg =
            Dlog.Spec.nymTranscript signLabel ⟨hSk, hRand, [], 0⟩ (o.nym hSk hRand) (S.zrOfBytes sig.proofC)
              (S.zrOfBytes sig.proofSSk) (S.zrOfBytes sig.proofSRNym) ipk.hash msg := by
          intro sig msg
          rw [nymQuestion, hk, hr]
        have := C17_nym_signature_extraction T (oracle r.1.2) (oracle r.2.2) ipk (o.nym hSk hRand) r.1.1.sig r.2.1.sig r.1.1.msg
          r.2.1.msg ⟨hSk, hRand, [], 0⟩ hk hr h2.1.1 h2.2.1.1 (nymQuestion T ipk (o.nym hSk hRand)) hq h2.2.2.1 h2.2.2.2
        rw [solve, show (forgeries T ipk hSk hRand attack o).fork ω ω' = some r from h1]
        exact logarithm_of this hs
    · exact .inr ⟨r, h1, h2, hP⟩
  have hsame : ∀ o, Fintype.card S.F * (same o).card ≤ w o * answers := fun o => card_same (G o)
  have hown : Fintype.card S.F * ∑ o, (own o).card ≤ owners * answers ^ 2 := by
    have h1 := card_own (q := q) hk hr hx hw
    rw [card_filter_prod] at h1
    refine le_trans (Nat.mul_le_mul_left _ h1) (le_of_eq ?_)
    simp only [owners, answers, card_owner]
    ring
  have hfk : Fintype.card S.F * ∑ o, fk o ≤ Fintype.card S.F * D.card + owners * answers ^ 2 + V.card * answers := by
    calc Fintype.card S.F * ∑ o, fk o ≤ Fintype.card S.F * ∑ o, ((dl o).card + (own o).card + (same o).card) :=
          Nat.mul_le_mul_left _ (Finset.sum_le_sum fun o _ => hsplit o)
      _ = Fintype.card S.F * D.card + Fintype.card S.F * ∑ o, (own o).card + ∑ o, Fintype.card S.F * (same o).card := by
          rw [Finset.sum_add_distrib, Finset.sum_add_distrib, hD, mul_add, mul_add, Finset.mul_sum (f := fun o => (same o).card)]
      _ ≤ Fintype.card S.F * D.card + owners * answers ^ 2 + ∑ o, w o * answers :=
          Nat.add_le_add (Nat.add_le_add_left hown _) (Finset.sum_le_sum fun o _ => hsame o)
      _ = _ := by rw [← Finset.sum_mul, hV]
  calc Fintype.card S.F * V.card ^ 2 ≤ Fintype.card S.F * (owners * ∑ o, w o ^ 2) := by
        rw [hV]
        refine Nat.mul_le_mul_left _ (le_trans (sq_sum_le_card_mul_sum_sq (s := Finset.univ) (f := w)) (le_of_eq ?_))
        rw [Finset.card_univ, Nat.cast_id]
    _ = owners * ∑ o, Fintype.card S.F * w o ^ 2 := by rw [← Finset.mul_sum]; ring
    _ ≤ owners * ∑ o, (q * Fintype.card S.F * fk o + 2 * q ^ 2 * w o * answers) :=
        Nat.mul_le_mul_left _ (Finset.sum_le_sum fun o _ => per o)
    _ = owners * (q * (Fintype.card S.F * ∑ o, fk o) + 2 * q ^ 2 * V.card * answers) := by
        rw [Finset.sum_add_distrib, ← Finset.mul_sum, ← Finset.sum_mul, ← Finset.mul_sum, hV]; ring
    _ ≤ owners * (q * (Fintype.card S.F * D.card + owners * answers ^ 2 + V.card * answers) + 2 * q ^ 2 * V.card * answers) :=
        Nat.mul_le_mul_left _ (Nat.add_le_add_right (Nat.mul_le_mul_left _ hfk) _)
    _ = _ := by ring

end Idemix.Fork
