import Verif.Fork.Owner

/-!
# Visitors of a service

Somebody who has a party with a secret answer requests of their choice, as many as they like, and asks the hash function. The party asks the
hash function two questions for each request, and uses random choices of its own. Nothing here is about a particular scheme: the service is
the owner of a pseudonym and a credential in C93, and a group of holders of credentials in C12.
-/

namespace Idemix.Fork

open Idemix (Bytes)
open Spec

/-! ## Specification -/

/-- Somebody who comes up with `b`, or asks the hash function a question, or makes a request and sees the reply. -/
inductive Spec.Visitor (F Req Rep β : Type) where
  | done (b : β)
  | ask (x : Bytes) (next : F → Visitor F Req Rep β)
  | call (r : Req) (next : Rep → Visitor F Req Rep β)

/-- They make at most so many moves. -/
def Spec.Visitor.Within {F Req Rep β : Type} : Visitor F Req Rep β → Nat → Prop
  | .done _, _ => True
  | .ask _ _, 0 => False
  | .ask _ next, n + 1 => ∀ c, (next c).Within n
  | .call _ _, 0 => False
  | .call _ next, n + 1 => ∀ p, (next p).Within n

/-- What a party does with a request, and its random choices `R`: the first question to the hash function, the second (after the answer to
the first), and the reply (after both answers). -/
structure Spec.Service (F R Req Rep : Type) where
  first : Req → R → Bytes
  second : Req → R → F → Bytes
  reply : Req → R → F → F → Rep

/-- What is remembered of a request: what had been heard before it, and the second answer of the hash function. -/
structure Spec.Session (F Req : Type) where
  req : Req
  heard : List F
  challenge : F

/-- What a visitor came up with, and the requests that were answered. -/
structure Spec.Visit (F Req β : Type) where
  result : β
  log : List (Session F Req)

/-- The visitor with the service, as somebody who only asks the hash function. The service may depend on what has been heard before. -/
def Spec.Visitor.against {F R Req Rep β : Type} {n : Nat} (σ : List F → Service F R Req Rep) (tape : History F n → R) :
    Visitor F Req Rep β → List F → List (Session F Req) → Strategy F (Visit F Req β)
  | .done b, _, log => .done ⟨b, log⟩
  | .ask x next, heard, log => .ask x fun c => (next c).against σ tape (heard ++ [c]) log
  | .call r next, heard, log =>
    let ρ := tape (history n heard)
    .ask ((σ heard).first r ρ) fun c₁ => .ask ((σ heard).second r ρ c₁) fun c₂ =>
      (next ((σ heard).reply r ρ c₁ c₂)).against σ tape (heard ++ [c₂]) (log ++ [⟨r, heard, c₂⟩])

/-! ## Plays -/

variable {F R Req Rep β : Type} {n : Nat} {σ σ' : List F → Service F R Req Rep} {tape tape' : History F n → R}
  {f : Visit F Req β → Bytes} {g : Visit F Req β → F → Bytes}

/-- The visitor, the service and the verifier. -/
def visit (σ : List F → Service F R Req Rep) (tape : History F n → R) (f : Visit F Req β → Bytes) (g : Visit F Req β → F → Bytes)
    (v : Visitor F Req Rep β) (heard : List F) (log : List (Session F Req)) : Strategy F (Visit F Req β) :=
  (v.against σ tape heard log).checked f g

theorem visit_done (b : β) (heard : List F) (log : List (Session F Req)) : visit σ tape f g (.done b) heard log =
    .ask (f ⟨b, log⟩) fun c => .ask (g ⟨b, log⟩ c) fun _ => .done ⟨b, log⟩ := rfl

theorem visit_ask (x : Bytes) (next : F → Visitor F Req Rep β) (heard : List F) (log : List (Session F Req)) :
    visit σ tape f g (.ask x next) heard log = .ask x fun c => visit σ tape f g (next c) (heard ++ [c]) log := rfl

theorem visit_call (r : Req) (next : Rep → Visitor F Req Rep β) (heard : List F) (log : List (Session F Req)) :
    visit σ tape f g (.call r next) heard log =
      .ask ((σ heard).first r (tape (history n heard))) fun c₁ =>
        .ask ((σ heard).second r (tape (history n heard)) c₁) fun c₂ =>
          visit σ tape f g (next ((σ heard).reply r (tape (history n heard)) c₁ c₂)) (heard ++ [c₂]) (log ++ [⟨r, heard, c₂⟩]) := rfl

/-- The log grows, with entries that know what was heard before. -/
theorem visit_log (v : Visitor F Req Rep β) {k : Nat} (hw : v.Within k) {heard : List F} {log : List (Session F Req)} {tab tab' : Table F}
    {ω : List F} {r : Visit F Req β} (h : (visit σ tape f g v heard log).run tab ω = some (r, tab')) :
    ∃ new, r.log = log ++ new ∧ new.length ≤ k ∧ (∀ s ∈ new, heard <+: s.heard ∧ s.heard.length < heard.length + k) ∧
      ∀ s ∈ new, ∀ s' ∈ new, s.heard = s'.heard → s = s' := by
  induction v generalizing k heard log tab ω with
  | done b =>
    rw [visit_done] at h
    obtain ⟨c, tab₁, ω₁, h, -⟩ := ask_step h
    obtain ⟨c', tab₂, ω₂, h, -⟩ := ask_step h
    simp only [Strategy.run, Option.some.injEq, Prod.mk.injEq] at h
    exact ⟨[], by rw [← h.1]; simp, by simp, by simp, by simp⟩
  | ask x next ih =>
    cases k with
    | zero => exact hw.elim
    | succ k =>
      rw [visit_ask] at h
      obtain ⟨c, tab₁, ω₁, h, -⟩ := ask_step h
      obtain ⟨new, h1, h0, h2, h3⟩ := ih c (hw c) h
      refine ⟨new, h1, Nat.le_succ_of_le h0, fun s hs => ?_, h3⟩
      obtain ⟨p, l⟩ := h2 s hs
      exact ⟨(List.prefix_append _ _).trans p, by simp at l; omega⟩
  | call req next ih =>
    cases k with
    | zero => exact hw.elim
    | succ k =>
      rw [visit_call] at h
      obtain ⟨c₁, tab₁, ω₁, h, -⟩ := ask_step h
      obtain ⟨c₂, tab₂, ω₂, h, -⟩ := ask_step h
      obtain ⟨new, h1, h0, h2, h3⟩ := ih _ (hw _) h
      have later : ∀ s ∈ new, s.heard ≠ heard := by
        intro s hs e
        have := (h2 s hs).1.length_le
        rw [e] at this
        simp at this
      refine ⟨⟨req, heard, c₂⟩ :: new, by simpa using h1, by simpa using h0, ?_, ?_⟩
      · intro s hs
        rcases List.mem_cons.mp hs with rfl | hs
        · exact ⟨List.prefix_rfl, by simp⟩
        · obtain ⟨p, l⟩ := h2 s hs
          exact ⟨(List.prefix_append _ _).trans p, by simp at l; omega⟩
      · intro s hs s' hs' e
        rcases List.mem_cons.mp hs with rfl | hs <;> rcases List.mem_cons.mp hs' with rfl | hs'
        · rfl
        · exact absurd e.symm (later _ hs')
        · exact absurd e (later _ hs)
        · exact h3 _ hs _ hs' e

/-- For a request and a second answer, the service `σ'` does with the choices `ρ'` what `σ` does with `ρ`. -/
def Alike (σ σ' : Service F R Req Rep) (r : Req) (c₂ : F) (ρ ρ' : R) : Prop :=
  σ'.first r ρ' = σ.first r ρ ∧ ∀ c₁, σ'.second r ρ' c₁ = σ.second r ρ c₁ ∧ σ'.reply r ρ' c₁ c₂ = σ.reply r ρ c₁ c₂

/-- Services that answer the requests of a play alike: the play is the same. -/
theorem visit_alike (v : Visitor F Req Rep β) {k : Nat} (hw : v.Within k) {heard : List F} {log : List (Session F Req)}
    {tab tab' : Table F} {ω : List F} {r : Visit F Req β} (h : (visit σ tape f g v heard log).run tab ω = some (r, tab'))
    (hs : ∀ s ∈ r.log, Alike (σ s.heard) (σ' s.heard) s.req s.challenge (tape (history n s.heard)) (tape' (history n s.heard))) :
    (visit σ' tape' f g v heard log).run tab ω = some (r, tab') := by
  induction v generalizing k heard log tab ω with
  | done b => exact h
  | ask x next ih =>
    cases k with
    | zero => exact hw.elim
    | succ k =>
      rw [visit_ask] at h ⊢
      obtain ⟨c, tab₁, ω₁, h, e⟩ := ask_step h
      rw [e]
      exact ih c (hw c) h
  | call req next ih =>
    cases k with
    | zero => exact hw.elim
    | succ k =>
      rw [visit_call] at h ⊢
      obtain ⟨c₁, tab₁, ω₁, h, e₁⟩ := ask_step h
      obtain ⟨c₂, tab₂, ω₂, h, e₂⟩ := ask_step h
      obtain ⟨new, hl, -⟩ := visit_log _ (hw _) h
      obtain ⟨hf, ht⟩ := hs ⟨req, heard, c₂⟩ (by rw [hl]; simp)
      obtain ⟨hc, hp⟩ := ht c₁
      simp only at hf hc hp
      rw [hf, e₁, hc, e₂, hp]
      exact ih _ (hw _) h

/-- Two plays with answers that differ for the first time in the answer to a question that the service does not ask: requests before which
the same was heard are the same. -/
theorem visit_diverge (v : Visitor F Req Rep β) {k : Nat} (hw : v.Within k) {heard : List F} {log new₁ new₂ : List (Session F Req)}
    {tab tab₁ tab₂ : Table F} {pre rest₁ rest₂ : List F} {x y : F} {r₁ r₂ : Visit F Req β} (hxy : x ≠ y)
    (h₁ : (visit σ tape f g v heard log).run tab (pre ++ x :: rest₁) = some (r₁, tab₁))
    (h₂ : (visit σ tape f g v heard log).run tab (pre ++ y :: rest₂) = some (r₂, tab₂))
    {X : Bytes} (hX : (tab₁.map Prod.fst)[tab.length + pre.length]? = some X)
    (hfirst : ∀ s ∈ r₁.log, (σ s.heard).first s.req (tape (history n s.heard)) ≠ X)
    (hsecond : ∀ heard r ρ c, (σ heard).second r ρ c ≠ X)
    (hl₁ : r₁.log = log ++ new₁) (hl₂ : r₂.log = log ++ new₂) :
    ∀ s ∈ new₁, ∀ s' ∈ new₂, s.heard = s'.heard → s = s' := by
  induction v generalizing k heard log new₁ new₂ tab pre with
  | done b =>
    rw [visit_done] at h₁
    obtain ⟨c, tab', ω', h, -⟩ := ask_step h₁
    obtain ⟨c', tab'', ω'', h, -⟩ := ask_step h
    simp only [Strategy.run, Option.some.injEq, Prod.mk.injEq] at h
    rw [← h.1] at hl₁
    have : new₁ = [] := by simpa using hl₁
    simp [this]
  | ask z next ih =>
    cases k with
    | zero => exact hw.elim
    | succ k =>
      rw [visit_ask] at h₁ h₂
      rcases ask_both h₁ h₂ with ⟨c, tab', pre', g₁, g₂, e⟩ | ⟨g₁, g₂, -⟩
      · exact ih c (hw c) g₁ g₂ (by rw [e]; exact hX) hl₁ hl₂
      · obtain ⟨n₁, e₁, -, p₁, -⟩ := visit_log _ (hw _) g₁
        obtain ⟨n₂, e₂, -, p₂, -⟩ := visit_log _ (hw _) g₂
        rw [e₁] at hl₁
        rw [e₂] at hl₂
        rw [← List.append_cancel_left hl₁, ← List.append_cancel_left hl₂]
        intro s hs s' hs' e
        exfalso
        obtain ⟨t, ht⟩ := (p₁ s hs).1
        obtain ⟨t', ht'⟩ := (p₂ s' hs').1
        rw [e, ← ht'] at ht
        simp at ht
        exact hxy ht.1
  | call req next ih =>
    cases k with
    | zero => exact hw.elim
    | succ k =>
      rw [visit_call] at h₁ h₂
      rcases ask_both h₁ h₂ with ⟨c₁, tab', pre', g₁, g₂, e⟩ | ⟨g₁, g₂, e⟩
      · rcases ask_both g₁ g₂ with ⟨c₂, tab'', pre'', g₁, g₂, e'⟩ | ⟨g₁, g₂, e'⟩
        · obtain ⟨n₁, e₁, -, p₁, -⟩ := visit_log _ (hw _) g₁
          obtain ⟨n₂, e₂, -, p₂, -⟩ := visit_log _ (hw _) g₂
          have := ih _ (hw _) g₁ g₂ (by rw [e', e]; exact hX) e₁ e₂
          rw [e₁, List.append_assoc] at hl₁
          rw [e₂, List.append_assoc] at hl₂
          rw [← List.append_cancel_left hl₁, ← List.append_cancel_left hl₂]
          have later : ∀ l, heard ++ [c₂] <+: l → l ≠ heard := by
            rintro l hp rfl
            have := hp.length_le
            simp at this
          intro s hs s' hs' e
          rcases List.mem_cons.mp hs with rfl | hs <;> rcases List.mem_cons.mp hs' with rfl | hs'
          · rfl
          · exact absurd e.symm (later _ (p₂ _ hs').1)
          · exact absurd e (later _ (p₁ _ hs).1)
          · exact this _ hs _ hs' e
        · exact absurd (Option.some.inj (e'.symm.trans (by rw [e]; exact hX))) (hsecond _ _ _ _)
      · obtain ⟨c₂, tab', ω', g₁, -⟩ := ask_step g₁
        obtain ⟨n₁, e₁, -⟩ := visit_log _ (hw _) g₁
        exact absurd (Option.some.inj (e.symm.trans hX)) (hfirst ⟨req, heard, c₂⟩ (by rw [e₁]; simp))

/-! ## Pairs of plays -/

section

variable {v : Visitor F Req Rep β} {G : Game F (Visit F Req β)} {q : Nat}

theorem play_visit (hG : G.forger = v.against σ tape [] []) (ω : Fin q → F) :
    G.play ω = (visit σ tape G.first G.second v [] []).run [] (List.ofFn ω) := by
  rw [Game.play, hG, visit]

/-- The log of a play is a function of what was heard. -/
theorem single_log (hG : G.forger = v.against σ tape [] []) (hw : v.Within n) {ω : Fin q → F} {a : Visit F Req β} {tab : Table F}
    (h : G.play ω = some (a, tab)) : a.log.length ≤ n ∧ (∀ s ∈ a.log, ∀ s' ∈ a.log, s.heard = s'.heard → s = s') ∧
      ∀ s ∈ a.log, s.heard.length ≤ n := by
  rw [play_visit hG] at h
  obtain ⟨new, e, hk, hl, hf⟩ := visit_log _ hw h
  simp only [List.nil_append] at e
  rw [e]
  refine ⟨hk, hf, fun s hs => ?_⟩
  have := (hl s hs).2
  simp at this
  omega

/-- So are the logs of the two plays of a fork, if the service did not ask the question at which they part. -/
theorem both_log (hG : G.forger = v.against σ tape [] []) (hw : v.Within n) {ω ω' : Fin q → F}
    {r : (Visit F Req β × Table F) × (Visit F Req β × Table F)} (h : G.fork ω ω' = some r) (hP : Parts G ω ω' r)
    (hfirst : ∀ s ∈ r.1.1.log, (σ s.heard).first s.req (tape (history n s.heard)) ≠ G.first r.1.1)
    (hsecond : ∀ heard req ρ c, (σ heard).second req ρ c ≠ G.first r.1.1) :
    (∀ s ∈ r.1.1.log ++ r.2.1.log, ∀ s' ∈ r.1.1.log ++ r.2.1.log, s.heard = s'.heard → s = s') ∧
      ∀ s ∈ r.1.1.log ++ r.2.1.log, s.heard.length ≤ n := by
  obtain ⟨h1, hI, h2⟩ := fork_some h
  obtain ⟨hI', hne⟩ := hP
  obtain ⟨⟨a, tab⟩, ⟨a', tab'⟩⟩ := r
  simp only at h1 hI h2 hne hfirst hsecond ⊢
  have hX := (lookup_idx (run_checked h1).choose_spec.choose_spec.1).1
  obtain ⟨-, f₁, l₁⟩ := single_log hG hw h1
  obtain ⟨-, f₂, l₂⟩ := single_log hG hw h2
  rw [play_visit hG] at h1 h2
  rw [ofFn_split ω ⟨_, hI⟩] at h1
  rw [ofFn_split (mix ⟨_, hI⟩ ω ω') ⟨_, hI⟩, mix_after _ _ le_rfl,
    ← take_ofFn (I := (tab.map Prod.fst).idxOf (G.first a)) (ω := ω) fun i hi => (mix_before (I := ⟨_, hI⟩) ω ω' hi).symm] at h2
  have hd := visit_diverge _ hw (Ne.symm hne) h1 h2 (X := G.first a) (by
      simpa [Nat.min_eq_left (Nat.le_of_lt hI)] using hX) hfirst hsecond (List.nil_append _).symm (List.nil_append _).symm
  constructor
  · intro s hs s' hs' e
    rcases List.mem_append.mp hs with hs | hs <;> rcases List.mem_append.mp hs' with hs' | hs'
    · exact f₁ _ hs _ hs' e
    · exact hd _ hs _ hs' e
    · exact (hd _ hs' _ hs e.symm).symm
    · exact f₂ _ hs _ hs' e
  · intro s hs
    rcases List.mem_append.mp hs with hs | hs
    · exact l₁ s hs
    · exact l₂ s hs

end

/-! ## Other choices with the same replies -/

/-- The choices of another service, changed as `tw` says for the requests of `log`. -/
def twist [DecidableEq F] (log : List (Session F Req)) (tw : Session F Req → R → R) (tape : History F n → R) : History F n → R := fun H =>
  match log.find? fun s => decide (history n s.heard = H) with
  | some s => tw s (tape H)
  | none => tape H

section

variable [DecidableEq F]

theorem twist_inj {log : List (Session F Req)} {tw : Session F Req → R → R} (hi : ∀ s ∈ log, Function.Injective (tw s))
    {tape tape' : History F n → R} (h : twist log tw tape = twist log tw tape') : tape = tape' := by
  funext H
  have := congrFun h H
  unfold twist at this
  split at this
  · next s hs => exact hi s (List.mem_of_find?_eq_some hs) this
  · exact this

theorem twist_of {log : List (Session F Req)} (hf : ∀ s ∈ log, ∀ s' ∈ log, s.heard = s'.heard → s = s')
    (hl : ∀ s ∈ log, s.heard.length ≤ n) (tw : Session F Req → R → R) (tape : History F n → R) {s : Session F Req} (hs : s ∈ log) :
    twist log tw tape (history n s.heard) = tw s (tape (history n s.heard)) := by
  unfold twist
  split
  · next s' h =>
    have h1 := List.mem_of_find?_eq_some h
    have h2 := List.find?_some h
    simp only [decide_eq_true_eq] at h2
    rw [hf s' h1 s hs (history_inj (hl _ h1) (hl _ hs) h2)]
  · next h =>
    have := List.find?_eq_none.mp h s hs
    simp at this

variable {v : Visitor F Req Rep β} {G G' : Game F (Visit F Req β)} {q : Nat}

theorem play_twist (hG : G.forger = v.against σ tape [] []) (hw : v.Within n) {tw : Session F Req → R → R} {log : List (Session F Req)}
    (hG' : G'.forger = v.against σ' (twist log tw tape) [] []) (e1 : G'.first = G.first) (e2 : G'.second = G.second)
    (hf : ∀ s ∈ log, ∀ s' ∈ log, s.heard = s'.heard → s = s') (hl : ∀ s ∈ log, s.heard.length ≤ n)
    (htw : ∀ s ∈ log, ∀ ρ, Alike (σ s.heard) (σ' s.heard) s.req s.challenge ρ (tw s ρ))
    {ω : Fin q → F} {a : Visit F Req β × Table F} (h : G.play ω = some a) (hs : ∀ s ∈ a.1.log, s ∈ log) : G'.play ω = some a := by
  rw [play_visit hG] at h
  rw [play_visit hG', e1, e2]
  refine visit_alike _ hw h fun s hm => ?_
  rw [twist_of hf hl tw tape (hs s hm)]
  exact htw s (hs s hm) _

theorem fork_twist (hG : G.forger = v.against σ tape [] []) (hw : v.Within n) {tw : Session F Req → R → R}
    {r : (Visit F Req β × Table F) × (Visit F Req β × Table F)}
    (hG' : G'.forger = v.against σ' (twist (r.1.1.log ++ r.2.1.log) tw tape) [] []) (e1 : G'.first = G.first) (e2 : G'.second = G.second)
    {ω ω' : Fin q → F} (h : G.fork ω ω' = some r) (hP : Parts G ω ω' r)
    (hfirst : ∀ s ∈ r.1.1.log, (σ s.heard).first s.req (tape (history n s.heard)) ≠ G.first r.1.1)
    (hsecond : ∀ heard req ρ c, (σ heard).second req ρ c ≠ G.first r.1.1)
    (htw : ∀ s ∈ r.1.1.log ++ r.2.1.log, ∀ ρ, Alike (σ s.heard) (σ' s.heard) s.req s.challenge ρ (tw s ρ)) :
    G'.fork ω ω' = some r := by
  obtain ⟨c1, c2⟩ := both_log hG hw h hP hfirst hsecond
  obtain ⟨h1, hI, h2⟩ := fork_some h
  have hI' : (r.1.2.map Prod.fst).idxOf (G'.first r.1.1) < q := by rw [e1]; exact hI
  refine some_fork (play_twist hG hw hG' e1 e2 c1 c2 htw h1 fun s hs => List.mem_append.mpr (.inl hs)) hI' ?_
  have : (⟨_, hI'⟩ : Fin q) = ⟨_, hI⟩ := Fin.ext (by simp only [e1])
  rw [this]
  exact play_twist hG hw hG' e1 e2 c1 c2 htw h2 fun s hs => List.mem_append.mpr (.inr hs)

open scoped Classical in
/-- Two services, with a way to change the choices for each request so that the second replies as the first: any play is the play of
at most as many choices for the first as for the second. -/
theorem card_play_le [Fintype (History F n → R)] {G G' : (History F n → R) → Game F (Visit F Req β)}
    (hG : ∀ tape, (G tape).forger = v.against σ tape [] []) (hG' : ∀ tape, (G' tape).forger = v.against σ' tape [] [])
    (e1 : ∀ tape tape', (G' tape').first = (G tape).first) (e2 : ∀ tape tape', (G' tape').second = (G tape).second)
    (hw : v.Within n) (tw : Session F Req → R → R)
    (htw : ∀ s ρ, Alike (σ s.heard) (σ' s.heard) s.req s.challenge ρ (tw s ρ)) (hi : ∀ s, Function.Injective (tw s))
    (ω : Fin q → F) (a : Visit F Req β) (tab : Table F) :
    (Finset.univ.filter fun tape : History F n → R => (G tape).play ω = some (a, tab)).card ≤
      (Finset.univ.filter fun tape : History F n → R => (G' tape).play ω = some (a, tab)).card := by
  refine Finset.card_le_card_of_injOn (twist a.log tw) ?_ ?_
  · intro tape h
    simp only [Finset.coe_filter, Finset.mem_univ, true_and, Set.mem_ofPred_eq] at h ⊢
    obtain ⟨-, hf, hl⟩ := single_log (hG tape) hw h
    exact play_twist (hG tape) hw (hG' _) (e1 _ _) (e2 _ _) hf hl (fun s _ => htw s) h fun s hs => hs
  · intro tape _ tape' _ h
    exact twist_inj (fun s _ => hi s) h

end

/-! ## Requests for which the choices are unlucky -/

/-- The answer to a question, and what comes after it. -/
def answered (x : Bytes) (tab : Table F) (ω : List F) : Option (F × Table F × List F) :=
  match tab.lookup x with
  | some c => some (c, tab, ω)
  | none =>
    match ω with
    | [] => none
    | c :: ω => some (c, tab ++ [(x, c)], ω)

/-- The requests that are made, with what had been heard before, whether or not there are enough answers to finish the play. -/
def calls (σ : List F → Service F R Req Rep) (tape : History F n → R) :
    Visitor F Req Rep β → List F → Table F → List F → List (Req × List F)
  | .done _, _, _, _ => []
  | .ask x next, heard, tab, ω =>
    match answered x tab ω with
    | none => []
    | some (c, tab, ω) => calls σ tape (next c) (heard ++ [c]) tab ω
  | .call r next, heard, tab, ω =>
    (r, heard) ::
      match answered ((σ heard).first r (tape (history n heard))) tab ω with
      | none => []
      | some (c₁, tab, ω) =>
        match answered ((σ heard).second r (tape (history n heard)) c₁) tab ω with
        | none => []
        | some (c₂, tab, ω) => calls σ tape (next ((σ heard).reply r (tape (history n heard)) c₁ c₂)) (heard ++ [c₂]) tab ω

theorem run_answered {α : Type} (x : Bytes) (next : F → Strategy F α) (tab : Table F) (ω : List F) :
    (Strategy.ask x next).run tab ω =
      match answered x tab ω with
      | none => none
      | some (c, tab, ω) => (next c).run tab ω := by
  rw [run_ask]
  unfold answered
  cases tab.lookup x with
  | some c => rfl
  | none =>
    cases ω with
    | nil => rfl
    | cons c ω => rfl

theorem log_calls (v : Visitor F Req Rep β) {heard : List F} {log : List (Session F Req)} {tab tab' : Table F}
    {ω : List F} {r : Visit F Req β} (h : (visit σ tape f g v heard log).run tab ω = some (r, tab')) :
    ∃ new, r.log = log ++ new ∧ new.map (fun s => (s.req, s.heard)) = calls σ tape v heard tab ω := by
  induction v generalizing heard log tab ω with
  | done b =>
    rw [visit_done] at h
    obtain ⟨c, tab₁, ω₁, h, -⟩ := ask_step h
    obtain ⟨c', tab₂, ω₂, h, -⟩ := ask_step h
    simp only [Strategy.run, Option.some.injEq, Prod.mk.injEq] at h
    exact ⟨[], by rw [← h.1]; simp, by rw [calls]; rfl⟩
  | ask x next ih =>
    rw [visit_ask, run_answered] at h
    rw [calls]
    cases ha : answered x tab ω with
    | none => rw [ha] at h; cases h
    | some p => rw [ha] at h; exact ih _ h
  | call req next ih =>
    rw [visit_call, run_answered] at h
    rw [calls]
    cases ha : answered ((σ heard).first req (tape (history n heard))) tab ω with
    | none => rw [ha] at h; cases h
    | some p =>
      rw [ha] at h
      simp only [run_answered] at h ⊢
      cases hb : answered ((σ heard).second req (tape (history n heard)) p.1) p.2.1 p.2.2 with
      | none => rw [hb] at h; cases h
      | some p' =>
        rw [hb] at h
        simp only at h ⊢
        obtain ⟨new, h1, h2⟩ := ih _ h
        exact ⟨⟨req, heard, p'.1⟩ :: new, by rw [h1, List.append_assoc]; rfl, by rw [List.map_cons, h2]⟩

theorem calls_heard (v : Visitor F Req Rep β) {k : Nat} (hw : v.Within k) {heard : List F} {tab : Table F} {ω : List F} :
    (calls σ tape v heard tab ω).length ≤ k ∧
      (∀ p ∈ calls σ tape v heard tab ω, heard <+: p.2 ∧ p.2.length < heard.length + k) ∧
      ((calls σ tape v heard tab ω).map Prod.snd).Nodup := by
  induction v generalizing k heard tab ω with
  | done b => simp [calls]
  | ask x next ih =>
    cases k with
    | zero => exact hw.elim
    | succ k =>
      rw [calls]
      cases ha : answered x tab ω with
      | none => simp
      | some p =>
        obtain ⟨h1, h2, h3⟩ := ih p.1 (hw _) (heard := heard ++ [p.1]) (tab := p.2.1) (ω := p.2.2)
        refine ⟨Nat.le_succ_of_le h1, fun p' hp => ?_, h3⟩
        obtain ⟨a, b⟩ := h2 p' hp
        exact ⟨(List.prefix_append _ _).trans a, by simp at b; omega⟩
  | call req next ih =>
    cases k with
    | zero => exact hw.elim
    | succ k =>
      rw [calls]
      have one : ∀ l : List (Req × List F), l = [] → ((req, heard) :: l).length ≤ k + 1 ∧
          (∀ p ∈ (req, heard) :: l, heard <+: p.2 ∧ p.2.length < heard.length + (k + 1)) ∧
          (((req, heard) :: l).map Prod.snd).Nodup := by
        rintro l rfl
        simp
      cases ha : answered ((σ heard).first req (tape (history n heard))) tab ω with
      | none => exact one _ rfl
      | some p =>
        simp only
        cases hb : answered ((σ heard).second req (tape (history n heard)) p.1) p.2.1 p.2.2 with
        | none => exact one _ rfl
        | some p' =>
          simp only
          obtain ⟨h1, h2, h3⟩ := ih _ (hw ((σ heard).reply req (tape (history n heard)) p.1 p'.1)) (heard := heard ++ [p'.1])
            (tab := p'.2.1) (ω := p'.2.2)
          refine ⟨by simpa using h1, fun p'' hp => ?_, ?_⟩
          · rcases List.mem_cons.mp hp with rfl | hp
            · exact ⟨List.prefix_rfl, by simp⟩
            · obtain ⟨a, b⟩ := h2 _ hp
              exact ⟨(List.prefix_append _ _).trans a, by simp at b; omega⟩
          · rw [List.map_cons, List.nodup_cons]
            refine ⟨fun hm => ?_, h3⟩
            obtain ⟨p'', hp, e⟩ := List.mem_map.mp hm
            have := (h2 _ hp).1.length_le
            rw [e] at this
            simp at this

/-- Whether a request is made does not depend on the choices that are used for it. -/
theorem calls_local (v : Visitor F Req Rep β) {k : Nat} (hw : v.Within k) {heard h₀ : List F} (hk : heard.length + k ≤ n)
    (h₀n : h₀.length ≤ n) {tab : Table F} {ω : List F} (ht : ∀ H, H ≠ history n h₀ → tape' H = tape H) {req : Req}
    (hm : (req, h₀) ∈ calls σ tape v heard tab ω) : (req, h₀) ∈ calls σ tape' v heard tab ω := by
  induction v generalizing k heard tab ω with
  | done b => simp [calls] at hm
  | ask x next ih =>
    cases k with
    | zero => exact hw.elim
    | succ k =>
      rw [calls] at hm ⊢
      cases ha : answered x tab ω with
      | none => rw [ha] at hm; cases hm
      | some p => rw [ha] at hm; exact ih _ (hw _) (by simp; omega) hm
  | call r next ih =>
    cases k with
    | zero => exact hw.elim
    | succ k =>
      by_cases hh : heard = h₀
      · subst hh
        have : req = r := by
          rw [calls] at hm
          rcases List.mem_cons.mp hm with h | h
          · exact (Prod.mk.inj h).1
          · exfalso
            split at h
            · cases h
            · split at h
              · cases h
              · have := ((calls_heard _ (hw _)).2.1 _ h).1.length_le
                simp at this
        subst this
        rw [calls]
        exact List.mem_cons_self
      · have hH : tape' (history n heard) = tape (history n heard) :=
          ht _ fun e => hh (history_inj (by omega) h₀n e)
        rw [calls] at hm ⊢
        rw [hH]
        rcases List.mem_cons.mp hm with h | h
        · exact absurd (Prod.mk.inj h).2.symm hh
        refine List.mem_cons_of_mem _ ?_
        split at h
        · cases h
        · split at h
          · cases h
          · exact ih _ (hw _) (by simp; omega) h

open scoped Classical in
/-- If each request is answered with unlucky choices for at most one in `card δ` of its choices, then somebody who makes at most `n` moves
meets unlucky choices in at most `n` of `card δ` plays. -/
theorem card_unlucky {v : Visitor F Req Rep β} (hw : v.Within n) [Fintype F] [Fintype (History F n → R)] {δ : Type} [Fintype δ] (move : δ → R → R)
    (bad : Req → R → Prop)
    (hbad : ∀ r ρ₁ ρ₂ d₁ d₂, bad r ρ₁ → bad r ρ₂ → move d₁ ρ₁ = move d₂ ρ₂ → d₁ = d₂ ∧ ρ₁ = ρ₂) (ω : List F) :
    Fintype.card δ * (Finset.univ.filter fun tape : History F n → R =>
      ∃ p ∈ calls σ tape v [] [] ω, bad p.1 (tape (history n p.2))).card ≤ n * Fintype.card (History F n → R) := by
  let occ (H : History F n) (tape : History F n → R) : Prop := ∃ p ∈ calls σ tape v [] [] ω, history n p.2 = H
  let hit (H : History F n) (tape : History F n → R) : Prop :=
    ∃ p ∈ calls σ tape v [] [] ω, history n p.2 = H ∧ bad p.1 (tape H)
  have len : ∀ (tape : History F n → R), ∀ p ∈ calls σ tape v [] [] ω, p.2.length ≤ n := by
    intro tape p hp
    have := ((calls_heard _ hw).2.1 p hp).2
    simp at this
    omega
  have one : ∀ H, Fintype.card δ * (Finset.univ.filter (hit H)).card ≤ (Finset.univ.filter (occ H)).card := by
    intro H
    rw [← Finset.card_univ, ← Finset.card_product]
    refine Finset.card_le_card_of_injOn (fun q => Function.update q.2 H (move q.1 (q.2 H))) ?_ ?_
    · rintro ⟨d, tape⟩ h
      simp only [Finset.coe_product, Finset.coe_univ, Finset.coe_filter, Finset.mem_univ, true_and, Set.mem_prod, Set.mem_univ,
        Set.mem_ofPred_eq] at h ⊢
      obtain ⟨p, hp, rfl, -⟩ := h
      exact ⟨p, calls_local v hw (by simp) (len _ p hp) (fun H' hH => Function.update_of_ne hH _ _) hp, rfl⟩
    · rintro ⟨d₁, t₁⟩ h₁ ⟨d₂, t₂⟩ h₂ e
      simp only [Finset.coe_product, Finset.coe_univ, Finset.coe_filter, Finset.mem_univ, true_and, Set.mem_prod, Set.mem_univ,
        Set.mem_ofPred_eq] at h₁ h₂ e
      obtain ⟨p₁, m₁, e₁, b₁⟩ := h₁
      obtain ⟨p₂, m₂, e₂, b₂⟩ := h₂
      have away : ∀ H', H' ≠ H → t₁ H' = t₂ H' := by
        intro H' hH
        have := congrFun e H'
        rwa [Function.update_of_ne hH, Function.update_of_ne hH] at this
      have hp : p₁.2 = p₂.2 := history_inj (len _ _ m₁) (len _ _ m₂) (e₁.trans e₂.symm)
      have m₁' : p₁ ∈ calls σ t₂ v [] [] ω :=
        calls_local v hw (by simp) (len _ _ m₁) (fun H' hH => (away H' (by rw [← e₁]; exact hH)).symm) m₁
      have hpp : p₁ = p₂ := by
        have nd := (calls_heard v hw (σ := σ) (tape := t₂) (heard := []) (tab := []) (ω := ω)).2.2
        exact List.inj_on_of_nodup_map nd m₁' m₂ hp
      subst hpp
      have hmv := congrFun e H
      simp only [Function.update_self] at hmv
      obtain ⟨rfl, hρ⟩ := hbad _ _ _ _ _ b₁ b₂ hmv
      refine Prod.ext rfl (funext fun H' => ?_)
      by_cases hH : H' = H
      · rw [hH]; exact hρ
      · exact away H' hH
  calc Fintype.card δ * (Finset.univ.filter fun tape : History F n → R =>
        ∃ p ∈ calls σ tape v [] [] ω, bad p.1 (tape (history n p.2))).card
      ≤ Fintype.card δ * ∑ H, (Finset.univ.filter (hit H)).card := by
        refine Nat.mul_le_mul_left _ (le_trans (Finset.card_le_card ?_) Finset.card_biUnion_le)
        intro tape h
        simp only [Finset.mem_filter, Finset.mem_univ, true_and, Finset.mem_biUnion] at h ⊢
        obtain ⟨p, hp, hb⟩ := h
        exact ⟨history n p.2, p, hp, rfl, hb⟩
    _ = ∑ H, Fintype.card δ * (Finset.univ.filter (hit H)).card := Finset.mul_sum _ _ _
    _ ≤ ∑ H, (Finset.univ.filter (occ H)).card := Finset.sum_le_sum fun H _ => one H
    _ = ∑ tape : History F n → R, (Finset.univ.filter fun H => occ H tape).card := by
        simp only [Finset.card_filter]
        exact Finset.sum_comm
    _ ≤ ∑ _tape : History F n → R, n := by
        refine Finset.sum_le_sum fun tape _ => ?_
        refine le_trans (Finset.card_le_card (t := ((calls σ tape v [] [] ω).map fun p => history n p.2).toFinset) ?_)
          (le_trans (List.toFinset_card_le _) ?_)
        · intro H h
          simp only [Finset.mem_filter, Finset.mem_univ, true_and] at h
          obtain ⟨p, hp, e⟩ := h
          exact List.mem_toFinset.mpr (List.mem_map.mpr ⟨p, hp, e⟩)
        · rw [List.length_map]
          exact (calls_heard _ hw).1
    _ = n * Fintype.card (History F n → R) := by rw [Finset.sum_const, Finset.card_univ, smul_eq_mul, mul_comm]

/-! ## Visitors without a verifier -/

theorem against_log (v : Visitor F Req Rep β) {k : Nat} (hw : v.Within k) {heard : List F} {log : List (Session F Req)} {tab tab' : Table F}
    {ω : List F} {r : Visit F Req β} (h : (v.against σ tape heard log).run tab ω = some (r, tab')) :
    ∃ new, r.log = log ++ new ∧ (∀ s ∈ new, heard <+: s.heard ∧ s.heard.length < heard.length + k) ∧
      (∀ s ∈ new, ∀ s' ∈ new, s.heard = s'.heard → s = s') ∧
      new.map (fun s => (s.req, s.heard)) = calls σ tape v heard tab ω := by
  induction v generalizing k heard log tab ω with
  | done b =>
    simp only [Visitor.against, Strategy.run, Option.some.injEq, Prod.mk.injEq] at h
    exact ⟨[], by rw [← h.1]; simp, by simp, by simp, by rw [calls]; rfl⟩
  | ask x next ih =>
    cases k with
    | zero => exact hw.elim
    | succ k =>
      rw [Visitor.against, run_answered] at h
      rw [calls]
      cases ha : answered x tab ω with
      | none => rw [ha] at h; cases h
      | some p =>
        rw [ha] at h
        obtain ⟨new, h1, h2, h3, h4⟩ := ih _ (hw _) h
        refine ⟨new, h1, fun s hs => ?_, h3, h4⟩
        obtain ⟨p, l⟩ := h2 s hs
        exact ⟨(List.prefix_append _ _).trans p, by simp at l; omega⟩
  | call req next ih =>
    cases k with
    | zero => exact hw.elim
    | succ k =>
      rw [Visitor.against, run_answered] at h
      rw [calls]
      cases ha : answered ((σ heard).first req (tape (history n heard))) tab ω with
      | none => rw [ha] at h; cases h
      | some p =>
        rw [ha] at h
        simp only [run_answered] at h ⊢
        cases hb : answered ((σ heard).second req (tape (history n heard)) p.1) p.2.1 p.2.2 with
        | none => rw [hb] at h; cases h
        | some p' =>
          rw [hb] at h
          simp only at h ⊢
          obtain ⟨new, h1, h2, h3, h4⟩ := ih _ (hw _) h
          have later : ∀ s ∈ new, s.heard ≠ heard := by
            intro s hs e
            have := (h2 s hs).1.length_le
            rw [e] at this
            simp at this
          refine ⟨⟨req, heard, p'.1⟩ :: new, by simpa using h1, ?_, ?_, by rw [List.map_cons, h4]⟩
          · intro s hs
            rcases List.mem_cons.mp hs with rfl | hs
            · exact ⟨List.prefix_rfl, by simp⟩
            · obtain ⟨p, l⟩ := h2 s hs
              exact ⟨(List.prefix_append _ _).trans p, by simp at l; omega⟩
          · intro s hs s' hs' e
            rcases List.mem_cons.mp hs with rfl | hs <;> rcases List.mem_cons.mp hs' with rfl | hs'
            · rfl
            · exact absurd e.symm (later _ hs')
            · exact absurd e (later _ hs)
            · exact h3 _ hs _ hs' e

theorem against_alike (v : Visitor F Req Rep β) {k : Nat} (hw : v.Within k) {heard : List F} {log : List (Session F Req)}
    {tab tab' : Table F} {ω : List F} {r : Visit F Req β} (h : (v.against σ tape heard log).run tab ω = some (r, tab'))
    (hs : ∀ s ∈ r.log, Alike (σ s.heard) (σ' s.heard) s.req s.challenge (tape (history n s.heard)) (tape' (history n s.heard))) :
    (v.against σ' tape' heard log).run tab ω = some (r, tab') := by
  induction v generalizing k heard log tab ω with
  | done b => exact h
  | ask x next ih =>
    cases k with
    | zero => exact hw.elim
    | succ k =>
      rw [Visitor.against] at h ⊢
      obtain ⟨c, tab₁, ω₁, h, e⟩ := ask_step h
      rw [e]
      exact ih c (hw c) h
  | call req next ih =>
    cases k with
    | zero => exact hw.elim
    | succ k =>
      rw [Visitor.against] at h ⊢
      obtain ⟨c₁, tab₁, ω₁, h, e₁⟩ := ask_step h
      obtain ⟨c₂, tab₂, ω₂, h, e₂⟩ := ask_step h
      obtain ⟨new, hl, -⟩ := against_log _ (hw _) h
      obtain ⟨hf, ht⟩ := hs ⟨req, heard, c₂⟩ (by rw [hl]; simp)
      obtain ⟨hc, hp⟩ := ht c₁
      simp only at hf hc hp
      rw [hf, e₁, hc, e₂, hp]
      exact ih _ (hw _) h

open scoped Classical in
/-- Two services, with a way to change the choices for each request, unless they are unlucky, so that the second replies as the first: what a
visitor comes up with differs only as often as it meets unlucky choices. -/
theorem card_against_le [DecidableEq F] [Fintype (History F n → R)] {v : Visitor F Req Rep β} (hw : v.Within n) (bad : Req → R → Prop)
    (tw : Session F Req → R → R)
    (htw : ∀ s ρ, ¬ bad s.req ρ → Alike (σ s.heard) (σ' s.heard) s.req s.challenge ρ (tw s ρ)) (hi : ∀ s, Function.Injective (tw s))
    (ω : List F) (P : Visit F Req β → Table F → Prop) :
    (Finset.univ.filter fun tape : History F n → R => ∃ a tab, (v.against σ tape [] []).run [] ω = some (a, tab) ∧ P a tab).card ≤
      (Finset.univ.filter fun tape : History F n → R => ∃ a tab, (v.against σ' tape [] []).run [] ω = some (a, tab) ∧ P a tab).card +
      (Finset.univ.filter fun tape : History F n → R => ∃ p ∈ calls σ tape v [] [] ω, bad p.1 (tape (history n p.2))).card := by
  let lucky (tape : History F n → R) : Prop := ∀ p ∈ calls σ tape v [] [] ω, ¬ bad p.1 (tape (history n p.2))
  let logOf (tape : History F n → R) : List (Session F Req) :=
    match (v.against σ tape [] []).run [] ω with
    | some r => r.1.log
    | none => []
  have key : ∀ tape a tab, lucky tape → (v.against σ tape [] []).run [] ω = some (a, tab) →
      (v.against σ' (twist a.log tw tape) [] []).run [] ω = some (a, tab) := by
    intro tape a tab hl h
    obtain ⟨new, e, hn, hf, hc⟩ := against_log _ hw h
    simp only [List.nil_append] at e
    rw [← e] at hn hf hc
    have len : ∀ s ∈ a.log, s.heard.length ≤ n := fun s hs => by
      have := (hn s hs).2
      simp at this
      omega
    refine against_alike _ hw h fun s hs => ?_
    rw [twist_of hf len tw tape hs]
    exact htw s _ (hl (s.req, s.heard) (by rw [← hc]; exact List.mem_map.mpr ⟨s, hs, rfl⟩))
  have split : (Finset.univ.filter fun tape : History F n → R => ∃ a tab, (v.against σ tape [] []).run [] ω = some (a, tab) ∧ P a tab) ⊆
      (Finset.univ.filter fun tape : History F n → R => lucky tape ∧ ∃ a tab, (v.against σ tape [] []).run [] ω = some (a, tab) ∧ P a tab) ∪
      (Finset.univ.filter fun tape : History F n → R => ∃ p ∈ calls σ tape v [] [] ω, bad p.1 (tape (history n p.2))) := by
    intro tape h
    simp only [Finset.mem_filter, Finset.mem_univ, true_and, Finset.mem_union] at h ⊢
    by_cases hl : lucky tape
    · exact .inl ⟨hl, h⟩
    · right
      simpa [lucky] using hl
  refine le_trans (Finset.card_le_card split) (le_trans (Finset.card_union_le _ _) (Nat.add_le_add_right ?_ _))
  refine Finset.card_le_card_of_injOn (fun tape => twist (logOf tape) tw tape) ?_ ?_
  · intro tape h
    simp only [Finset.coe_filter, Finset.mem_univ, true_and, Set.mem_ofPred_eq] at h ⊢
    obtain ⟨hl, a, tab, h, hP⟩ := h
    refine ⟨a, tab, ?_, hP⟩
    simp only [logOf, h]
    exact key tape a tab hl h
  · intro tape h tape' h' e
    simp only [Finset.coe_filter, Finset.mem_univ, true_and, Set.mem_ofPred_eq] at h h' e
    obtain ⟨hl, a, tab, h, -⟩ := h
    obtain ⟨hl', a', tab', h', -⟩ := h'
    simp only [logOf, h, h'] at e
    have k1 := key tape a tab hl h
    have k2 := key tape' a' tab' hl' h'
    rw [e] at k1
    obtain ⟨rfl, rfl⟩ := Prod.mk.inj (Option.some.inj (k1.symm.trans k2))
    exact twist_inj (fun s _ => hi s) e

end Idemix.Fork
