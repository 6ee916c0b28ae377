import Verif.Base.ProtoFields

/-!
# Messages with undeclared fields

`Spec.Widened`: one encoding is another one with undeclared fields added somewhere, at any depth. The rest of the file
shows that the getters of the model read the same from both.
-/

namespace Idemix.Proto

namespace Spec

/-- What a `.proto` file says about a field, as far as the encoding is concerned. `K` has the names of the messages. -/
inductive FieldType (K : Type)
  /-- `bytes` and lists of these. -/
  | bytes
  /-- `string` and lists of these. -/
  | text
  /-- `int32`, `int64`, and enumerations. -/
  | int
  /-- Messages and lists of these. -/
  | msg (name : K)

/-- The wire type of a field. -/
def FieldType.wire {K : Type} : FieldType K → Nat
  | .bytes => 2
  | .text => 2
  | .int => 0
  | .msg _ => 2

/-- The messages declared in a `.proto` file. -/
abbrev Schema (K : Type) := K → List (Nat × FieldType K)

/-- The declared numbers and wire types of a message. -/
def Schema.declared {K : Type} (σ : Schema K) (k : K) : List (Nat × Nat) := (σ k).map fun f => (f.1, f.2.wire)

/-- `Widened σ k b b'`: `b'` is `b`, supposed to be the message `k`, with undeclared fields added between its fields or
those of the messages in it. The bytes after the place in question need not be fields. -/
inductive Widened {K : Type} (σ : Schema K) : K → Bytes → Bytes → Prop
  | refl (k b) : Widened σ k b b
  | insert {k} {b₁ e : Bytes} (b₂ : Bytes) : Message b₁ → Undeclared (σ.declared k) e →
      Widened σ k (b₁ ++ b₂) (b₁ ++ (e ++ b₂))
  | inner {k c n} {b₁ t v v' x x' : Bytes} (b₂ : Bytes) : Message b₁ → (n, .msg c) ∈ σ k → Tag n 2 t →
      Varint x.length v → Varint x'.length v' → Widened σ c x x' →
      Widened σ k (b₁ ++ (t ++ (v ++ (x ++ b₂)))) (b₁ ++ (t ++ (v' ++ (x' ++ b₂))))
  | trans {k} {b b' b'' : Bytes} : Widened σ k b b' → Widened σ k b' b'' → Widened σ k b b''

end Spec

open Spec

variable {K : Type} {σ : Schema K}

/-- `Widened` for parsed messages. -/
inductive Sim (σ : Schema K) : K → Msg → Msg → Prop
  | refl (k m) : Sim σ k m m
  | insert {k} {u : Msg} (m₁ m₂ : Msg) : (∀ t ∈ u, (t.1, t.2.wireType) ∉ σ.declared k) →
      Sim σ k (m₁ ++ m₂) (m₁ ++ (u ++ m₂))
  | inner {k c n} {x x' : Bytes} {f f' : Msg} (m₁ m₂ : Msg) : (n, .msg c) ∈ σ k → decode x = some f → decode x' = some f' →
      Sim σ c f f' → Sim σ k (m₁ ++ (n, .len x) :: m₂) (m₁ ++ (n, .len x') :: m₂)
  | bad {k c n} {x x' : Bytes} (m₁ m₂ : Msg) : (n, .msg c) ∈ σ k → decode x = none → decode x' = none →
      Sim σ k (m₁ ++ (n, .len x) :: m₂) (m₁ ++ (n, .len x') :: m₂)
  | trans {k} {m m' m'' : Msg} : Sim σ k m m' → Sim σ k m' m'' → Sim σ k m m''

/-- Both fail, or both succeed with related results. -/
inductive Both {α : Type} (R : α → α → Prop) : Option α → Option α → Prop
  | none : Both R none none
  | some {a b} : R a b → Both R (some a) (some b)

theorem decode_len {n : Nat} {t v x : Bytes} (ht : Tag n 2 t) (hv : Varint x.length v) :
    decode (t ++ (v ++ x)) = some [(n, .len x)] := by
  have h := Reads.simple (d := 10001) (ok := fun _ _ => True) (v := v ++ x) (r := []) (val := .len x) ht (by decide)
    (fun s => by simp [getVal, List.append_assoc, getLen_varint hv, takeExact_append]) trivial rfl (by simp) (by simp)
    (l := []) (m := []) ⟨rfl, fun _ _ _ _ => rfl, (fun _ l' => by cases h : stripGroups [] l' <;> simp [h]),
      fun _ h => absurd h List.not_mem_nil, fun _ _ _ => rfl, fun _ _ _ => rfl⟩
  have := h.outer (Nat.le_refl _) []
  simp only [List.append_nil, stripGroups, Option.map_some] at this
  have hr := h.raw
  simp only [List.append_nil] at hr
  rw [decode_eq, hr, Option.bind_some, this]

theorem widened_sim {k : K} {b b' : Bytes} (h : Widened σ k b b') : Both (Sim σ k) (decode b) (decode b') := by
  induction h with
  | refl k b => cases decode b with
    | none => exact .none
    | some m => exact .some (.refl k m)
  | @insert k b₁ e b₂ h₁ he =>
    obtain ⟨m₁, d₁, -⟩ := FieldsIn.decodes h₁
    obtain ⟨u, du, hu⟩ := FieldsIn.decodes he
    rw [decode_append d₁, decode_append d₁, decode_append du]
    cases decode b₂ with
    | none => exact .none
    | some m₂ => exact .some (.insert m₁ m₂ hu)
  | @inner k c n b₁ t v v' x x' b₂ h₁ hm ht hv hv' _ ih =>
    obtain ⟨m₁, d₁, -⟩ := FieldsIn.decodes h₁
    have e : ∀ v x, t ++ (v ++ (x ++ b₂)) = (t ++ (v ++ x)) ++ b₂ := by intro v x; simp only [List.append_assoc]
    rw [decode_append d₁, decode_append d₁, e v x, e v' x', decode_append (decode_len ht hv),
      decode_append (decode_len ht hv')]
    cases decode b₂ with
    | none => exact .none
    | some m₂ =>
      refine .some ?_
      show Sim σ k (m₁ ++ (n, .len x) :: m₂) (m₁ ++ (n, .len x') :: m₂)
      generalize hx : decode x = o, hx' : decode x' = o' at ih
      cases ih with
      | none => exact .bad m₁ m₂ hm hx hx'
      | some hs => exact .inner m₁ m₂ hm hx hx' hs
  | @trans k b b' b'' _ _ ih₁ ih₂ =>
    generalize decode b = o, decode b' = o', decode b'' = o'' at ih₁ ih₂
    cases ih₁ with
    | none => cases ih₂; exact .none
    | some h₁ => cases ih₂ with
      | some h₂ => exact .some (h₁.trans h₂)

theorem Sim.append {k : K} {m m' : Msg} (h : Sim σ k m m') (p s : Msg) : Sim σ k (p ++ (m ++ s)) (p ++ (m' ++ s)) := by
  induction h with
  | refl k m => exact .refl _ _
  | insert m₁ m₂ hu =>
    have := Sim.insert (σ := σ) (p ++ m₁) (m₂ ++ s) hu
    simpa only [List.append_assoc] using this
  | inner m₁ m₂ hm hx hx' hs _ =>
    have := Sim.inner (σ := σ) (p ++ m₁) (m₂ ++ s) hm hx hx' hs
    simpa only [List.append_assoc, List.cons_append] using this
  | bad m₁ m₂ hm hx hx' =>
    have := Sim.bad (σ := σ) (p ++ m₁) (m₂ ++ s) hm hx hx'
    simpa only [List.append_assoc, List.cons_append] using this
  | trans _ _ ih₁ ih₂ => exact ih₁.trans ih₂

theorem lens_cons_ne {j n : Nat} (h : n ≠ j) (x : Bytes) (m : Msg) : lens j ((n, .len x) :: m) = lens j m := by
  simp [lens, h]

theorem lens_cons_eq (j : Nat) (x : Bytes) (m : Msg) : lens j ((j, .len x) :: m) = x :: lens j m := by
  simp [lens]

theorem varints_cons_len (j n : Nat) (x : Bytes) (m : Msg) : varints j ((n, .len x) :: m) = varints j m := by
  simp [varints]

/-- Fields that are no messages. -/
theorem Sim.lens {k : K} {m m' : Msg} (h : Sim σ k m m') {j : Nat} (hj : (j, 2) ∈ σ.declared k)
    (hn : ∀ c, (j, .msg c) ∉ σ k) : lens j m' = lens j m := by
  induction h with
  | refl => rfl
  | insert m₁ m₂ hu => exact lens_insert hu m₁ m₂ hj
  | inner m₁ m₂ hm _ _ _ | bad m₁ m₂ hm _ _ =>
    rw [lens_append, lens_append, lens_cons_ne (fun e => hn _ (e ▸ hm)), lens_cons_ne (fun e => hn _ (e ▸ hm))]
  | trans _ _ ih₁ ih₂ => rw [ih₂ hj hn, ih₁ hj hn]

/-- Integers. -/
theorem Sim.varints {k : K} {m m' : Msg} (h : Sim σ k m m') {j : Nat} (hj : (j, 0) ∈ σ.declared k) :
    varints j m' = varints j m := by
  induction h with
  | refl => rfl
  | insert m₁ m₂ hu => exact varints_insert hu m₁ m₂ hj
  | inner m₁ m₂ hm _ _ _ | bad m₁ m₂ hm _ _ => rw [varints_append, varints_append, varints_cons_len, varints_cons_len]
  | trans _ _ ih₁ ih₂ => rw [ih₂ hj, ih₁ hj]

theorem mapM_decode_append (a b : List Bytes) :
    (a ++ b).mapM decode = (a.mapM decode).bind fun x => (b.mapM decode).map fun y => x ++ y := by
  rw [List.mapM_append]
  cases a.mapM decode with
  | none => rfl
  | some x => cases b.mapM decode <;> rfl

theorem mapM_decode_cons (a : Bytes) (b : List Bytes) :
    (a :: b).mapM decode = (decode a).bind fun x => (b.mapM decode).map fun y => x :: y := by
  rw [List.mapM_cons]
  cases decode a with
  | none => rfl
  | some x => cases b.mapM decode <;> rfl

theorem forall₂_refl (c : K) (l : List Msg) : List.Forall₂ (Sim σ c) l l := by
  induction l with
  | nil => exact .nil
  | cons m l ih => exact .cons (.refl c m) ih

theorem forall₂_trans {c : K} {l l' l'' : List Msg} (h : List.Forall₂ (Sim σ c) l l') (h' : List.Forall₂ (Sim σ c) l' l'') :
    List.Forall₂ (Sim σ c) l l'' := by
  induction h generalizing l'' with
  | nil => exact h'
  | cons hd _ ih => cases h' with
    | cons hd' tl' => exact .cons (hd.trans hd') (ih tl')

/-- Fields that are messages. -/
theorem Sim.msgs {k c : K} {m m' : Msg} (h : Sim σ k m m') {j : Nat} (hj : (j, .msg c) ∈ σ k)
    (hu : ∀ c', (j, .msg c') ∈ σ k → c' = c) :
    (Proto.lens j m = [] ↔ Proto.lens j m' = []) ∧
      Both (List.Forall₂ (Sim σ c)) ((Proto.lens j m).mapM decode) ((Proto.lens j m').mapM decode) := by
  have same : ∀ l : List Bytes, Both (List.Forall₂ (Sim σ c)) (l.mapM decode) (l.mapM decode) := by
    intro l
    cases l.mapM decode with
    | none => exact .none
    | some x => exact .some (forall₂_refl c x)
  induction h with
  | refl => exact ⟨Iff.rfl, same _⟩
  | @insert k u m₁ m₂ hun =>
    have hd : (j, 2) ∈ σ.declared k := List.mem_map.mpr ⟨_, hj, rfl⟩
    rw [lens_insert hun m₁ m₂ hd]
    exact ⟨Iff.rfl, same _⟩
  | @inner k c' n x x' f f' m₁ m₂ hm hx hx' hs _ =>
    by_cases hne : n = j
    · subst hne
      obtain rfl := hu _ hm
      rw [lens_append, lens_append, lens_cons_eq, lens_cons_eq]
      refine ⟨by simp, ?_⟩
      simp only [mapM_decode_append, mapM_decode_cons, hx, hx', Option.bind_some]
      cases (Proto.lens n m₁).mapM decode with
      | none => exact .none
      | some l₁ => cases (Proto.lens n m₂).mapM decode with
        | none => exact .none
        | some l₂ =>
          refine .some ?_
          induction l₁ with
          | nil => exact .cons hs (forall₂_refl c' l₂)
          | cons a l ih => exact .cons (.refl c' a) ih
    · rw [lens_append, lens_append, lens_cons_ne hne, lens_cons_ne hne, ← lens_append]
      exact ⟨Iff.rfl, same _⟩
  | @bad k c' n x x' m₁ m₂ hm hx hx' =>
    by_cases hne : n = j
    · subst hne
      rw [lens_append, lens_append, lens_cons_eq, lens_cons_eq]
      refine ⟨by simp, ?_⟩
      simp only [mapM_decode_append, mapM_decode_cons, hx, hx', Option.bind_none]
      cases (Proto.lens n m₁).mapM decode <;> exact .none
    · rw [lens_append, lens_append, lens_cons_ne hne, lens_cons_ne hne, ← lens_append]
      exact ⟨Iff.rfl, same _⟩
  | @trans k m m' m'' _ _ ih₁ ih₂ =>
    obtain ⟨a₁, b₁⟩ := ih₁ hj hu
    obtain ⟨a₂, b₂⟩ := ih₂ hj hu
    refine ⟨a₁.trans a₂, ?_⟩
    generalize (Proto.lens j m).mapM decode = o, (Proto.lens j m').mapM decode = o', (Proto.lens j m'').mapM decode = o'' at b₁ b₂
    cases b₁ with
    | none => cases b₂; exact .none
    | some h₁ => cases b₂ with
      | some h₂ => exact .some (forall₂_trans h₁ h₂)

theorem Sim.flatten {c : K} {l l' : List Msg} (h : List.Forall₂ (Sim σ c) l l') : Sim σ c l.flatten l'.flatten := by
  induction h with
  | nil => exact .refl _ _
  | @cons a b l l' hd _ ih =>
    simp only [List.flatten_cons]
    have h1 := hd.append [] l.flatten
    have h2 := ih.append b []
    simp only [List.nil_append, List.append_nil] at h1 h2
    exact h1.trans h2

theorem Sim.getMsg {k c : K} {m m' : Msg} (h : Sim σ k m m') {j : Nat} (hj : (j, .msg c) ∈ σ k)
    (hu : ∀ c', (j, .msg c') ∈ σ k → c' = c) :
    Both (Both (Sim σ c)) (Proto.getMsg j m) (Proto.getMsg j m') := by
  obtain ⟨h1, h2⟩ := h.msgs hj hu
  unfold Proto.getMsg
  generalize hl : Proto.lens j m = l, hl' : Proto.lens j m' = l' at h1 h2
  cases l with
  | nil =>
    obtain rfl := h1.mp rfl
    exact .some .none
  | cons a l => cases l' with
    | nil => exact absurd (h1.mpr rfl) (by simp)
    | cons a' l' =>
      simp only
      generalize (a :: l).mapM decode = o, (a' :: l').mapM decode = o' at h2
      cases h2 with
      | none => exact .none
      | some h2 => exact .some (.some (Sim.flatten h2))

theorem Sim.bytes {k : K} {m m' : Msg} (h : Sim σ k m m') {j : Nat} (hj : (j, 2) ∈ σ.declared k)
    (hn : ∀ c, (j, .msg c) ∉ σ k) : Proto.getBytes j m' = Proto.getBytes j m := by
  simp only [Proto.getBytes, h.lens hj hn]

theorem Sim.bytes? {k : K} {m m' : Msg} (h : Sim σ k m m') {j : Nat} (hj : (j, 2) ∈ σ.declared k)
    (hn : ∀ c, (j, .msg c) ∉ σ k) : Proto.getBytes? j m' = Proto.getBytes? j m := by
  simp only [Proto.getBytes?, h.lens hj hn]

theorem Sim.int64 {k : K} {m m' : Msg} (h : Sim σ k m m') {j : Nat} (hj : (j, 0) ∈ σ.declared k) :
    Proto.getInt64 j m' = Proto.getInt64 j m := by
  simp only [Proto.getInt64, h.varints hj]

theorem Sim.int32 {k : K} {m m' : Msg} (h : Sim σ k m m') {j : Nat} (hj : (j, 0) ∈ σ.declared k) :
    Proto.getInt32 j m' = Proto.getInt32 j m := by
  simp only [Proto.getInt32, h.varints hj]

/-- A message field of which the parser sees declared fields only. -/
theorem Sim.sub {k c : K} {m m' : Msg} (h : Sim σ k m m') {j : Nat} (hj : (j, .msg c) ∈ σ k)
    (hu : ∀ c', (j, .msg c') ∈ σ k → c' = c) {α : Type} {parse : Msg → α}
    (hp : ∀ f f', Sim σ c f f' → parse f' = parse f) :
    ((Proto.getMsg j m').map fun o => o.map parse) = (Proto.getMsg j m).map fun o => o.map parse := by
  have := h.getMsg hj hu
  generalize Proto.getMsg j m = o, Proto.getMsg j m' = o' at this
  cases this with
  | none => rfl
  | some h => cases h with
    | none => rfl
    | some h => simp [hp _ _ h]

/-- Parsers that see declared fields only. -/
theorem parse_widened {k : K} {α : Type} {parse : Msg → Option α} (hp : ∀ m m', Sim σ k m m' → parse m' = parse m)
    {b b' : Bytes} (h : Widened σ k b b') : (decode b').bind parse = (decode b).bind parse := by
  have := widened_sim h
  generalize decode b = o, decode b' = o' at this
  cases this with
  | none => rfl
  | some h => exact hp _ _ h

end Idemix.Proto
