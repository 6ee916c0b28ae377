import Verif.Mem.BbsVerifyRefine
import Verif.Mem.Interleave

/-!
# Calls of the BBS+ API, with arguments in memory
-/

namespace Idemix.Mem.Bbs

open Idemix.Bbs (Lib PKG Sig SigMsg PoK PoKRand Committed ProofG1 SigProof Payload)

variable {S : Suite} (L : Lib S) (c : Consts)

/-- Calls of the API. Keys, messages and points that the API takes as pointers are pointers here, which calls may share in any
way. Random choices of the call are arguments. A library value is named by its cache of generators. -/
inductive Call (S : Suite) where
  /-- `BBSG2Pub.Sign` (`bbs12381g2pub.go:98-109`) -/
  | sign (lib : Option Nat) (messages : List Bytes) (rawSk : Bytes) (e s : S.F)
  /-- `BBSG2Pub.SignWithKeyFr` (`bbs12381g2pub.go:231-252`) -/
  | signFr (lib : Option Nat) (messages : List MsgPtr) (count : Int) (sk : Ptr .zr) (e s : S.F)
  /-- `BBSG2Pub.SignWithKeyB` (`bbs12381g2pub.go:259-287`) -/
  | signB (lib : Option Nat) (b : Ptr .g1) (count : Int) (sk : Ptr .zr) (e s : S.F)
  /-- `BBSG2Pub.Verify` (`bbs12381g2pub.go:74-95`) -/
  | verify (lib : Option Nat) (messages : List Bytes) (rawSig rawPk : Bytes)
  /-- `BBSG2Pub.DeriveProof` (`bbs12381g2pub.go:160-163`) -/
  | derive (lib : Option Nat) (messages : List Bytes) (rawSig nonce rawPk : Bytes) (revealed : List (Ptr .int))
      (ρ : PoKRand S)
  /-- `BBSG2Pub.DeriveProofZr` (`bbs12381g2pub.go:167-217`) -/
  | deriveZr (lib : Option Nat) (messages : List MsgPtr) (rawSig nonce rawPk : Bytes) (revealed : List (Ptr .int))
      (ρ : PoKRand S)
  /-- the same with indices that are given in the call itself: the caller makes a slice for them -/
  | deriveNew (lib : Option Nat) (messages : List MsgPtr) (rawSig nonce rawPk : Bytes) (revealed : List Int)
      (ρ : PoKRand S)
  /-- `BBSG2Pub.VerifyProof` (`bbs12381g2pub.go:112-116`) -/
  | verifyProof (lib : Option Nat) (messages : List Bytes) (proof nonce rawPk : Bytes)
  /-- `BBSG2Pub.VerifyProofFr` (`bbs12381g2pub.go:120-157`) -/
  | verifyProofFr (lib : Option Nat) (messages : List MsgPtr) (proof nonce rawPk : Bytes)

namespace Call

/-- A new slice. -/
def newInts : List Int → Prog S (List (Ptr .int))
  | [] => pure []
  | i :: is => do
    let p ← new .int i
    let ps ← newInts is
    pure (p :: ps)

/-- No bytes are returned. -/
def noBytes (p : Prog S Unit) : Prog S Bytes := p.bind fun _ => pure []

/-- What runs. -/
def prog : Call S → Prog S Bytes
  | sign lib messages rawSk e s => Bbs.sign L c lib messages rawSk e s
  | signFr lib messages count sk e s => signWithKeyFr c lib messages count sk e s
  | signB lib b count sk e s => signWithKeyB c lib b count sk e s
  | verify lib messages rawSig rawPk => noBytes (Bbs.verify L c lib messages rawSig rawPk)
  | derive lib messages rawSig nonce rawPk revealed ρ => deriveProof L c lib messages rawSig nonce rawPk revealed ρ
  | deriveZr lib messages rawSig nonce rawPk revealed ρ => deriveProofZr L c lib messages rawSig nonce rawPk revealed ρ
  | deriveNew lib messages rawSig nonce rawPk revealed ρ => do
    let ps ← newInts revealed
    deriveProofZr L c lib messages rawSig nonce rawPk ps ρ
  | verifyProof lib messages proof nonce rawPk => noBytes (Bbs.verifyProof L c lib messages proof nonce rawPk)
  | verifyProofFr lib messages proof nonce rawPk => noBytes (Bbs.verifyProofFr L c lib messages proof nonce rawPk)

/-- The messages that pointers stand for. -/
def messageVals (h : Heap S) (ms : List MsgPtr) : Option (List (SigMsg S)) :=
  ms.mapM fun m => (h.get m.fr).map fun x => ⟨x, m.idx⟩

/-- The elements of a slice. -/
def sliceVals (h : Heap S) (ps : List (Ptr .int)) : Option (List Int) := ps.mapM fun p => h.get p

/-- What the call should return, given the values of its arguments before it: the outcome of the model without memory.
`none` if an argument points nowhere. -/
def expected (h : Heap S) : Call S → Option (Res Bytes)
  | sign _ messages rawSk e s => some (Idemix.Bbs.sign L messages rawSk e s)
  | signFr _ messages count sk e s => do
    let ms ← messageVals h messages
    let x ← h.get sk
    pure (Idemix.Bbs.signWithKeyFr ms count x e s)
  | signB _ b count sk e s => do
    let v ← h.get b
    let x ← h.get sk
    pure (Idemix.Bbs.signWithKeyB v count x e s)
  | verify _ messages rawSig rawPk => some ((Idemix.Bbs.verify L messages rawSig rawPk).bind fun _ => .ok [])
  | derive _ messages rawSig nonce rawPk revealed ρ => do
    let is ← sliceVals h revealed
    pure (Idemix.Bbs.deriveProof L messages rawSig nonce rawPk is ρ)
  | deriveZr _ messages rawSig nonce rawPk revealed ρ => do
    let ms ← messageVals h messages
    let is ← sliceVals h revealed
    pure (Idemix.Bbs.deriveProofZr L ms rawSig nonce rawPk is ρ)
  | deriveNew _ messages rawSig nonce rawPk revealed ρ => do
    let ms ← messageVals h messages
    pure (Idemix.Bbs.deriveProofZr L ms rawSig nonce rawPk revealed ρ)
  | verifyProof _ messages proof nonce rawPk =>
    some ((Idemix.Bbs.verifyProof L messages proof nonce rawPk).bind fun _ => .ok [])
  | verifyProofFr _ messages proof nonce rawPk => do
    let ms ← messageVals h messages
    pure ((Idemix.Bbs.verifyProofFr L ms proof nonce rawPk).bind fun _ => .ok [])

/-- The objects that a call is given: the parts of the memory that they are in. -/
def regions : Call S → List Nat
  | signFr _ messages _ sk _ _ => sk.region :: messages.map (·.fr.region)
  | signB _ b _ sk _ _ => [b.region, sk.region]
  | derive _ _ _ _ _ revealed _ => revealed.map (·.region)
  | deriveZr _ messages _ _ _ revealed _ => messages.map (·.fr.region) ++ revealed.map (·.region)
  | deriveNew _ messages _ _ _ _ _ => messages.map (·.fr.region)
  | verifyProofFr _ messages _ _ _ => messages.map (·.fr.region)
  | _ => []

/-- The slice of indices that a call is given. -/
def slice : Call S → List (Ptr .int)
  | derive _ _ _ _ _ revealed _ => revealed
  | deriveZr _ _ _ _ _ revealed _ => revealed
  | _ => []

end Call

/-! ## Proofs -/

variable {L c} {r : Nat} {h h₀ : Heap S}

namespace Call

theorem msgs_at {ms : List MsgPtr} {vs : List (SigMsg S)} (hv : messageVals h ms = some vs)
    (hr : ∀ i ∈ ms.map (·.fr.region), i = r ∨ i = 0) : MsgsAt r h ms vs := by
  induction ms generalizing vs with
  | nil => simp only [messageVals, List.mapM_nil, Option.pure_def, Option.some.injEq] at hv; subst hv; exact .nil
  | cons m ms ih =>
    simp only [messageVals, List.mapM_cons, Option.bind_eq_bind, Option.bind_eq_some_iff, Option.map_eq_some_iff,
      Option.pure_def, Option.some.injEq] at hv
    obtain ⟨v, ⟨x, hx, rfl⟩, vs', hvs, rfl⟩ := hv
    exact .cons ⟨⟨hr _ (by simp), hx⟩, rfl⟩ (ih hvs fun i hi => hr i (by simp only [List.map_cons, List.mem_cons]; exact .inr hi))

theorem slice_at {ps : List (Ptr .int)} {vs : List Int} (hv : sliceVals h ps = some vs)
    (hr : ∀ i ∈ ps.map (·.region), i = r ∨ i = 0) : AtAll (k := .int) r h ps vs := by
  induction ps generalizing vs with
  | nil => simp only [sliceVals, List.mapM_nil, Option.pure_def, Option.some.injEq] at hv; subst hv; exact .nil
  | cons p ps ih =>
    simp only [sliceVals, List.mapM_cons, Option.bind_eq_bind, Option.bind_eq_some_iff,
      Option.pure_def, Option.some.injEq] at hv
    obtain ⟨v, hx, vs', hvs, rfl⟩ := hv
    exact .cons ⟨hr _ (by simp), hx⟩ (ih hvs fun i hi => hr i (by simp only [List.map_cons, List.mem_cons]; exact .inr hi))

theorem gives_newInts (f : From r h h) (vs : List Int) : Gives r h h (newInts vs) (.ok vs)
    fun h' ps vs => NewAll (k := .int) r h h' ps vs ∧ ps.Nodup := by
  induction vs generalizing h with
  | nil => exact Gives.done fun _ _ => ⟨.nil, .nil⟩
  | cons v vs ih =>
    refine Gives.seq f (gives_new (k := .int) f v) fun q h₁ f₁ a => ?_
    refine Gives.seq f₁.self (ih f₁.self) fun ps h₂ f₂ b => ?_
    refine Gives.done fun h₃ e₃ => ⟨.cons (a.mono (f₂.ext.trans e₃))
      (List.Forall₂.imp (fun _ _ x => x.base f₁.ext) (b.1.mono e₃)), List.nodup_cons.mpr ⟨fun hq => ?_, b.2⟩⟩
    obtain ⟨i, hi, e⟩ := List.mem_iff_getElem.mp hq
    have := List.Forall₂.get b.1 hi (by rw [← List.Forall₂.length_eq b.1]; exact hi)
    simp only [List.get_eq_getElem, e] at this
    exact At.ne a.1 this.2 rfl

theorem gives_noBytes (f : From r h h) {p : Prog S Unit} {x : Res Unit} (a : Gives r h h p x fun _ a b => a = b) :
    Gives r h h (noBytes p) (x.bind fun _ => .ok []) fun _ (a : Bytes) b => a = b :=
  Gives.bind f a fun _ _ _ _ _ _ => Gives.done fun _ _ => rfl

/-- The calls on the heap, except those that are given an unsorted slice. -/
theorem gives (f : From r h h) (hc : ConstsAt r h c) (call : Call S) {x : Res Bytes} (hx : call.expected L h = some x)
    (hr : ∀ i ∈ call.regions, i = r ∨ i = 0)
    (hs : ∀ is, sliceVals h call.slice = some is → is.Pairwise (· ≤ ·)) :
    Gives r h h (call.prog L c) x fun _ a b => a = b := by
  cases call with
  | sign lib messages rawSk e s => cases hx; exact gives_sign f hc lib messages rawSk e s
  | signFr lib messages count sk e s =>
    simp only [expected, Option.bind_eq_bind, Option.bind_eq_some_iff, Option.pure_def, Option.some.injEq] at hx
    obtain ⟨ms, hm, k, hk, rfl⟩ := hx
    exact gives_signWithKeyFr f hc lib (msgs_at hm fun i hi => hr i (List.mem_cons_of_mem _ hi)) count
      ⟨hr _ List.mem_cons_self, hk⟩ e s
  | signB lib b count sk e s =>
    simp only [expected, Option.bind_eq_bind, Option.bind_eq_some_iff, Option.pure_def, Option.some.injEq] at hx
    obtain ⟨v, hv, k, hk, rfl⟩ := hx
    exact gives_signWithKeyB f hc lib ⟨hr _ (by simp [regions]), hv⟩ count ⟨hr _ (by simp [regions]), hk⟩ e s
  | verify lib messages rawSig rawPk => cases hx; exact gives_noBytes f (gives_verify f hc lib messages rawSig rawPk)
  | derive lib messages rawSig nonce rawPk revealed ρ =>
    simp only [expected, Option.bind_eq_bind, Option.bind_eq_some_iff, Option.pure_def, Option.some.injEq] at hx
    obtain ⟨is, hi, rfl⟩ := hx
    exact gives_deriveProof_sorted f hc lib messages rawSig nonce rawPk (slice_at hi hr) (hs is hi) ρ
  | deriveZr lib messages rawSig nonce rawPk revealed ρ =>
    simp only [expected, Option.bind_eq_bind, Option.bind_eq_some_iff, Option.pure_def, Option.some.injEq] at hx
    obtain ⟨ms, hm, is, hi, rfl⟩ := hx
    exact gives_deriveProofZr_sorted f hc lib (msgs_at hm fun i a => hr i (List.mem_append_left _ a)) rawSig nonce rawPk
      (slice_at hi fun i a => hr i (List.mem_append_right _ a)) (hs is hi) ρ
  | deriveNew lib messages rawSig nonce rawPk revealed ρ =>
    simp only [expected, Option.bind_eq_bind, Option.bind_eq_some_iff, Option.pure_def, Option.some.injEq] at hx
    obtain ⟨ms, hm, rfl⟩ := hx
    refine Gives.seq₀ f (gives_newInts f revealed) fun ps h₁ f₁ a => ?_
    exact gives_deriveProofZr_own f₁ (hc.mono f₁.ext) lib ((msgs_at hm hr).mono f₁.ext) rawSig nonce rawPk a.1 a.2 ρ
  | verifyProof lib messages proof nonce rawPk =>
    cases hx; exact gives_noBytes f (gives_verifyProof f hc lib messages proof nonce rawPk)
  | verifyProofFr lib messages proof nonce rawPk =>
    simp only [expected, Option.bind_eq_bind, Option.bind_eq_some_iff, Option.pure_def, Option.some.injEq] at hx
    obtain ⟨ms, hm, rfl⟩ := hx
    exact gives_noBytes f (gives_verifyProofFr f hc lib (msgs_at hm hr) proof nonce rawPk)

end Call

end Idemix.Mem.Bbs
