import Verif.Tools.PropsGenAries

/-!
# The generator's files: C59, C62

Concrete cases that meet the hypotheses of the theorems are in `Verif/Tools/Examples.lean`.
-/

namespace Idemix.Gen

open Msp (CurveId CspId World IMsp Ref Heap SetupRnd Platform SigningIdentity)
open Proto (utf8Valid)

namespace Spec

/-- Files and directories lie in directories; no path is both. -/
structure WellFormed (fs : FS) : Prop where
  files : ∀ p b, fs.file p = some b → fs.dir p.dropLast = true
  dirs : ∀ p, fs.dir p = true → fs.dir p.dropLast = true
  apart : ∀ p, fs.dir p = true → fs.file p = none

/-- What a run of a command can leave behind, from files `fs`: a command that refuses changes nothing; otherwise its
calls are made one after the other, to the end or until the run is stopped. -/
inductive Leaves : Res (List Op) → FS → FS → Prop where
  | refused (r : Res (List Op)) (fs : FS) (h : ∀ l, r ≠ .ok l) : Leaves r fs fs
  | stopped (l : List Op) (fs fs' : FS) (h : Stopped l fs fs') : Leaves (.ok l) fs fs'

/-- The file is missing or has a first part of the contents. -/
def PartOf (fs : FS) (p : Path) (b : Bytes) : Prop := fs.file p = none ∨ ∃ k, fs.file p = some (b.take k)

end Spec

open Spec

variable (T : Tool)

/-! ## Frame -/

theorem set_file_ne {fs : FS} {p q : Path} {b : Bytes} (h : q ≠ p) : (fs.set p b).file q = fs.file q := by
  simp [FS.set, h]

theorem set_file {fs : FS} {p : Path} {b : Bytes} : (fs.set p b).file p = some b := by simp [FS.set]

theorem apply_mkdir {fs fs' : FS} {p : Path} (h : Op.apply fs (.mkdirAll p) = some fs') : fs'.file = fs.file := by
  simp only [Op.apply] at h
  split at h
  · cases h
  · cases h; rfl

theorem apply_write {fs fs' : FS} {p : Path} {b : Bytes} (h : Op.apply fs (.write p b) = some fs') :
    fs' = fs.set p b := by
  simp only [Op.apply] at h
  split at h
  · cases h
  · cases h; rfl

/-- The paths written. -/
def written : List Op → List Path
  | [] => []
  | .mkdirAll _ :: l => written l
  | .write p _ :: l => p :: written l

theorem stopped_frame {l : List Op} {fs fs' : FS} (h : Stopped l fs fs') (p : Path) (hp : p ∉ written l) :
    fs'.file p = fs.file p := by
  induction h with
  | here => rfl
  | torn q b l fs fs' k h =>
    rw [apply_write h, set_file_ne (by rintro rfl; simp [written] at hp)]
  | next o l fs fs₁ fs' h hs ih =>
    cases o with
    | mkdirAll q => rw [ih (by simpa [written] using hp), apply_mkdir h]
    | write q b =>
      simp only [written, List.mem_cons, not_or] at hp
      rw [ih hp.2, apply_write h, set_file_ne hp.1]

theorem keygen_ok {f : Flags} {fs : FS} {ρ : KeygenRnd (T.P.S f.curve) (T.P.env f.curve).dsa} {l : List Op}
    (h : T.keygen f fs ρ = .ok l) :
    ∃ k, T.newKeys f ρ = .ok k ∧ fs.stat (T.clean f.output ++ [dirCa]) = false ∧
      fs.stat (T.clean f.output ++ [dirMsp]) = false ∧ l = keygenOps (T.clean f.output) k := by
  simp only [Tool.keygen, Res.bind_eq_ok, Res.guardErr_eq_ok, Res.pure_def, Res.ok.injEq] at h
  obtain ⟨k, h1, _, h2, _, h3, rfl⟩ := h
  exact ⟨k, h1, h2, h3, rfl⟩

theorem absent {fs : FS} (hw : WellFormed fs) {d : Path} (h : fs.stat d = false) (n : Bytes) :
    fs.file (d ++ [n]) = none := by
  by_contra hc
  obtain ⟨b, hb⟩ := Option.ne_none_iff_exists'.mp hc
  have := hw.files _ _ hb
  simp only [List.dropLast_concat] at this
  simp [FS.stat, this] at h

/-- C59. `ca-keygen` changes nothing if there is a `ca` or an `msp` in the output directory. -/
theorem C59_keygen_refuses (f : Flags) (fs fs' : FS) (ρ : KeygenRnd (T.P.S f.curve) (T.P.env f.curve).dsa)
    (h : fs.stat (T.clean f.output ++ [ascii "ca"]) = true ∨ fs.stat (T.clean f.output ++ [ascii "msp"]) = true)
    (hl : Leaves (T.keygen f fs ρ) fs fs') : (∀ l, T.keygen f fs ρ ≠ .ok l) ∧ fs' = fs := by
  have hn : ∀ l, T.keygen f fs ρ ≠ .ok l := by
    intro l hk
    obtain ⟨k, -, h1, h2, -⟩ := keygen_ok T hk
    rcases h with h | h
    · exact absurd (h.symm.trans h1) (by simp)
    · exact absurd (h.symm.trans h2) (by simp)
  refine ⟨hn, ?_⟩
  generalize hr : T.keygen f fs ρ = r at hl hn
  cases hl with
  | refused => rfl
  | stopped l => exact absurd rfl (hn l)

theorem path2 (out : Path) (d n : Bytes) : out ++ [d, n] = (out ++ [d]) ++ [n] := by simp

/-- C59. Whatever happens during `ca-keygen`, every file that was there stays as it was. -/
theorem C59_keygen_keeps (f : Flags) (fs fs' : FS) (hw : WellFormed fs)
    (ρ : KeygenRnd (T.P.S f.curve) (T.P.env f.curve).dsa) (hl : Leaves (T.keygen f fs ρ) fs fs') (p : Path) (b : Bytes)
    (hp : fs.file p = some b) : fs'.file p = some b := by
  generalize hr : T.keygen f fs ρ = r at hl
  cases hl with
  | refused => exact hp
  | stopped l _ _ hs =>
    obtain ⟨k, -, h1, h2, rfl⟩ := keygen_ok T hr
    rw [stopped_frame hs p ?_, hp]
    intro hm
    simp only [keygenOps, written, List.mem_cons, List.not_mem_nil, or_false] at hm
    have a1 := absent hw h1
    have a2 := absent hw h2
    simp only [path2] at hm
    rcases hm with rfl | rfl | rfl | rfl | rfl
    · rw [a1] at hp; cases hp
    · rw [a1] at hp; cases hp
    · rw [a1] at hp; cases hp
    · rw [a2] at hp; cases hp
    · rw [a2] at hp; cases hp

/-- The directory with the keys of the authority. -/
def Spec.caDir (f : Flags) : Bytes := if f.caInput = [] then f.output else f.caInput

theorem signer_ok {f : Flags} {fs : FS} {ρ : UserRnd (T.P.S f.curve) (T.P.env f.curve).dsa} {l : List Op}
    (h : T.signer f fs ρ = .ok l) :
    ∃ isk ipk rawRev rev rpk config, fs.file (T.clean (caDir f) ++ [dirCa, fileIsk]) = some isk ∧
      fs.file (T.clean (caDir f) ++ [dirCa, fileIpk]) = some ipk ∧
      fs.file (T.clean (caDir f) ++ [dirCa, fileRev]) = some rawRev ∧ T.readRevocationKey f.curve rawRev = .ok rev ∧
      fs.file (T.clean (caDir f) ++ [dirMsp, fileRevPk]) = some rpk ∧
      T.signerConfig f isk ipk rev ρ = .ok config ∧
      fs.stat (T.clean f.output ++ [dirUser]) = false ∧
      l = signerOps (T.clean f.output) (decide (caDir f ≠ f.output)) config rpk ipk := by
  simp only [Tool.signer, FS.read, Res.bind_eq_ok, Res.ofOption_eq_ok, Res.guardErr_eq_ok, Res.pure_def,
    Res.ok.injEq] at h
  obtain ⟨isk, h1, ipk, h2, raw, h3, rev, h4, rpk, h5, config, h6, _, h7, rfl⟩ := h
  exact ⟨isk, ipk, raw, rev, rpk, config, h1, h2, h3, h4, h5, h6, h7, rfl⟩

/-- C59. `signerconfig` changes nothing if there is a `user` in the output directory. -/
theorem C59_signer_refuses (f : Flags) (fs fs' : FS) (ρ : UserRnd (T.P.S f.curve) (T.P.env f.curve).dsa)
    (h : fs.stat (T.clean f.output ++ [ascii "user"]) = true) (hl : Leaves (T.signer f fs ρ) fs fs') :
    (∀ l, T.signer f fs ρ ≠ .ok l) ∧ fs' = fs := by
  have hn : ∀ l, T.signer f fs ρ ≠ .ok l := by
    intro l hk
    obtain ⟨_, _, _, _, _, _, -, -, -, -, -, -, h1, -⟩ := signer_ok T hk
    exact absurd (h.symm.trans h1) (by simp)
  refine ⟨hn, ?_⟩
  generalize hr : T.signer f fs ρ = r at hl hn
  cases hl with
  | refused => rfl
  | stopped l => exact absurd rfl (hn l)

/-- C59. Whatever happens during `signerconfig`, every file that was there stays as it was; only the two public keys in the
`msp` directory of the output can be replaced, and only if the keys of the authority are read from another directory. -/
theorem C59_signer_keeps (f : Flags) (fs fs' : FS) (hw : WellFormed fs)
    (ρ : UserRnd (T.P.S f.curve) (T.P.env f.curve).dsa) (hl : Leaves (T.signer f fs ρ) fs fs') (p : Path) (b : Bytes)
    (hp : fs.file p = some b)
    (hne : f.caInput = [] ∨ f.caInput = f.output ∨ p ≠ T.clean f.output ++ [ascii "msp", ascii "RevocationPublicKey"] ∧
      p ≠ T.clean f.output ++ [ascii "msp", ascii "IssuerPublicKey"]) : fs'.file p = some b := by
  generalize hr : T.signer f fs ρ = r at hl
  cases hl with
  | refused => exact hp
  | stopped l _ _ hs =>
    obtain ⟨isk, ipk, raw, rev, rpk, config, -, -, -, -, -, -, h7, rfl⟩ := signer_ok T hr
    rw [stopped_frame hs p ?_, hp]
    have a1 := absent hw h7
    have hu : p ≠ T.clean f.output ++ [dirUser, fileSigner] := by
      rintro rfl
      rw [path2, a1] at hp
      cases hp
    by_cases hc : caDir f = f.output
    · simp [signerOps, written, hc, hu]
    · have : p ≠ T.clean f.output ++ [dirMsp, fileRevPk] ∧ p ≠ T.clean f.output ++ [dirMsp, fileIpk] := by
        rcases hne with h | h | h
        · exact absurd (by simp [caDir, h]) hc
        · exact absurd (by simp [caDir, h]) hc
        · exact h
      simp [signerOps, written, hc, hu, this]

/-! ## Runs to the end -/

theorem absent_dir {fs : FS} (hw : WellFormed fs) {d : Path} (h : fs.stat d = false) (n : Bytes) :
    fs.dir (d ++ [n]) = false := by
  by_contra hc
  have := hw.dirs _ (by simpa using hc)
  simp only [List.dropLast_concat] at this
  simp [FS.stat, this] at h

/-- A directory can be made at the path. -/
def Spec.Free (fs : FS) (p : Path) : Prop := ∀ q, q <+: p → fs.file q = none

theorem run_mkdir {fs : FS} {p : Path} (h : Spec.Free fs p) (l : List Op) :
    run (.mkdirAll p :: l) fs = run l { fs with dir := fun q => fs.dir q || decide (q <+: p) } := by
  have : (p.inits.any fun q => (fs.file q).isSome) = false := by
    rw [List.any_eq_false]
    intro q hq
    rw [h q ((List.mem_inits _ _).mp hq)]
    simp
  simp [run, Op.apply, this]

theorem run_write {fs : FS} {p : Path} {b : Bytes} (h1 : fs.dir p.dropLast = true) (h2 : fs.dir p = false) (l : List Op) :
    run (.write p b :: l) fs = run l (fs.set p b) := by
  simp [run, Op.apply, h1, h2]

theorem not_prefix (out : Path) (d d' n : Bytes) : ¬ (out ++ [d, n]) <+: (out ++ [d']) := by
  intro h
  have := h.length_le
  simp at this

theorem run_append {l₁ l₂ : List Op} {fs fs₁ : FS} (h : run l₁ fs = (fs₁, true)) : run (l₁ ++ l₂) fs = run l₂ fs₁ := by
  induction l₁ generalizing fs with
  | nil => simp only [run, Prod.mk.injEq] at h; simp [h.1]
  | cons o l₁ ih =>
    simp only [run, List.cons_append] at h ⊢
    split at h
    · cases h
    · exact ih h

/-- After a run to the end, a path has what was written to it last. -/
theorem run_file {l₁ l₂ : List Op} {p : Path} {b : Bytes} {fs fs' : FS}
    (h : run (l₁ ++ .write p b :: l₂) fs = (fs', true)) (hp : p ∉ written l₂) : fs'.file p = some b := by
  induction l₁ generalizing fs with
  | nil =>
    simp only [List.nil_append, run] at h
    split at h
    · cases h
    · next fs₁ h1 =>
      have : Stopped l₂ fs₁ fs' := by
        clear h1 hp
        induction l₂ generalizing fs₁ with
        | nil => simp only [run, Prod.mk.injEq] at h; rw [h.1]; exact .here _ _
        | cons o l₂ ih =>
          simp only [run] at h
          split at h
          · cases h
          · next h2 => exact .next _ _ _ _ _ h2 (ih _ h)
      rw [stopped_frame this p hp, apply_write h1, set_file]
  | cons o l₁ ih =>
    simp only [List.cons_append, run] at h
    split at h
    · cases h
    · exact ih h

theorem stopped_of_run {l : List Op} {fs fs' : FS} (h : run l fs = (fs', true)) : Stopped l fs fs' := by
  induction l generalizing fs with
  | nil => simp only [run, Prod.mk.injEq] at h; rw [h.1]; exact .here _ _
  | cons o l ih =>
    simp only [run] at h
    split at h
    · cases h
    · next h2 => exact .next _ _ _ _ _ h2 (ih h)

/-- Key generation runs to the end wherever the directories can be made. -/
theorem run_keygen {fs : FS} {out : Path} (k : Keys) (h1 : Spec.Free fs (out ++ [dirCa])) (h2 : Spec.Free fs (out ++ [dirMsp]))
    (h3 : ∀ n, fs.dir (out ++ [dirCa] ++ [n]) = false) (h4 : ∀ n, fs.dir (out ++ [dirMsp] ++ [n]) = false) :
    (run (keygenOps out k) fs).2 = true ∧
      ∀ q, (run (keygenOps out k) fs).1.dir q =
        (fs.dir q || decide (q <+: out ++ [dirCa]) || decide (q <+: out ++ [dirMsp])) := by
  have c1 : ∀ n, ¬ (out ++ [dirCa] ++ [n]) <+: (out ++ [dirCa]) := fun n h => by simpa using h.length_le
  have c2 : ∀ n, ¬ (out ++ [dirCa] ++ [n]) <+: (out ++ [dirMsp]) := fun n h => by simpa using h.length_le
  have c3 : ∀ n, ¬ (out ++ [dirMsp] ++ [n]) <+: (out ++ [dirCa]) := fun n h => by simpa using h.length_le
  have c4 : ∀ n, ¬ (out ++ [dirMsp] ++ [n]) <+: (out ++ [dirMsp]) := fun n h => by simpa using h.length_le
  simp only [keygenOps, path2]
  rw [run_mkdir h1, run_mkdir (by exact h2), run_write, run_write, run_write, run_write, run_write]
  · simp [run, FS.set]
  all_goals simp only [FS.set, List.dropLast_concat, h3, h4, c1, c2, c3, c4, decide_false, List.prefix_refl, decide_true,
    Bool.or_true, Bool.or_false, Bool.true_or]

theorem free_of {fs : FS} {out : Path} (h : Spec.Free fs out) {d : Bytes} (hs : fs.stat (out ++ [d]) = false) :
    Spec.Free fs (out ++ [d]) := by
  intro q hq
  rcases List.prefix_concat_iff.mp hq with rfl | hq
  · simp only [FS.stat, Bool.or_eq_false_iff, Option.isSome_eq_false_iff, Option.isNone_iff_eq_none] at hs
    exact hs.2
  · exact h q hq

/-- The five files of an authority. -/
structure Spec.Holds (fs : FS) (out : Path) (k : Keys) : Prop where
  isk : fs.file (out ++ [ascii "ca", ascii "IssuerSecretKey"]) = some k.isk
  rev : fs.file (out ++ [ascii "ca", ascii "RevocationKey"]) = some k.rev
  ipk : fs.file (out ++ [ascii "ca", ascii "IssuerPublicKey"]) = some k.ipk
  revPk : fs.file (out ++ [ascii "msp", ascii "RevocationPublicKey"]) = some k.revPk
  mspIpk : fs.file (out ++ [ascii "msp", ascii "IssuerPublicKey"]) = some k.ipk

theorem holds_of_run {fs fs' : FS} {out : Path} {k : Keys} (h : run (keygenOps out k) fs = (fs', true)) :
    Spec.Holds fs' out k := by
  have n1 : dirCa ≠ dirMsp := by decide
  have n2 : fileIsk ≠ fileRev := by decide
  have n3 : fileIsk ≠ fileIpk := by decide
  have n4 : fileRev ≠ fileIpk := by decide
  have n5 : fileRevPk ≠ fileIpk := by decide
  refine ⟨run_file (l₁ := [_, _]) (p := out ++ [dirCa, fileIsk]) h ?_,
    run_file (l₁ := [_, _, _]) (p := out ++ [dirCa, fileRev]) h ?_,
    run_file (l₁ := [_, _, _, _]) (p := out ++ [dirCa, fileIpk]) h ?_,
    run_file (l₁ := [_, _, _, _, _]) (p := out ++ [dirMsp, fileRevPk]) h ?_,
    run_file (l₁ := [_, _, _, _, _, _]) (p := out ++ [dirMsp, fileIpk]) h ?_⟩ <;>
  simp [written, n1, n2, n3, n4, n5]

/-- C59. Where nothing is in the way, key generation runs to the end and leaves the five files. -/
theorem C59_keygen_writes (f : Flags) (fs : FS) (hw : WellFormed fs) (hfree : Spec.Free fs (T.clean f.output))
    (ρ : KeygenRnd (T.P.S f.curve) (T.P.env f.curve).dsa) (k : Keys) (hk : T.newKeys f ρ = .ok k)
    (h1 : fs.stat (T.clean f.output ++ [ascii "ca"]) = false) (h2 : fs.stat (T.clean f.output ++ [ascii "msp"]) = false) :
    ∃ l fs', T.keygen f fs ρ = .ok l ∧ run l fs = (fs', true) ∧ Spec.Holds fs' (T.clean f.output) k := by
  have hr := run_keygen k (free_of hfree h1) (free_of hfree h2) (absent_dir hw h1) (absent_dir hw h2)
  have hk' : T.keygen f fs ρ = .ok (keygenOps (T.clean f.output) k) := by
    have e1 : fs.stat (T.clean f.output ++ [dirCa]) = false := h1
    have e2 : fs.stat (T.clean f.output ++ [dirMsp]) = false := h2
    simp [Tool.keygen, hk, e1, e2]
  have hrun : run (keygenOps (T.clean f.output) k) fs = ((run (keygenOps (T.clean f.output) k) fs).1, true) := by
    rw [← hr.1]
  exact ⟨_, _, hk', hrun, holds_of_run hrun⟩

/-- C59 is violated by runs at the same time: the check and the writes are not one step. Two runs that both have looked
before either wrote anything both succeed, and the second replaces all keys of the authority that the first one made. -/
theorem C59_race_violated (f : Flags) (fs : FS) (hw : WellFormed fs) (hfree : Spec.Free fs (T.clean f.output))
    (ρ₁ ρ₂ : KeygenRnd (T.P.S f.curve) (T.P.env f.curve).dsa) (k₁ k₂ : Keys) (hk₁ : T.newKeys f ρ₁ = .ok k₁)
    (hk₂ : T.newKeys f ρ₂ = .ok k₂) (h1 : fs.stat (T.clean f.output ++ [ascii "ca"]) = false)
    (h2 : fs.stat (T.clean f.output ++ [ascii "msp"]) = false) :
    ∃ l₁ l₂ fs₁ fs₂, T.keygen f fs ρ₁ = .ok l₁ ∧ T.keygen f fs ρ₂ = .ok l₂ ∧ run l₁ fs = (fs₁, true) ∧
      Spec.Holds fs₁ (T.clean f.output) k₁ ∧ run l₂ fs₁ = (fs₂, true) ∧ Spec.Holds fs₂ (T.clean f.output) k₂ := by
  obtain ⟨l₁, fs₁, e1, e2, e3⟩ := C59_keygen_writes T f fs hw hfree ρ₁ k₁ hk₁ h1 h2
  obtain ⟨l₂, -, e4, -, -⟩ := C59_keygen_writes T f fs hw hfree ρ₂ k₂ hk₂ h1 h2
  obtain ⟨k, hk, -, -, rfl⟩ := keygen_ok T e4
  rw [hk₂] at hk
  cases hk
  obtain ⟨k, hk, -, -, rfl⟩ := keygen_ok T e1
  rw [hk₁] at hk
  cases hk
  have hframe : ∀ p, p ∉ written (keygenOps (T.clean f.output) k₁) → fs₁.file p = fs.file p :=
    stopped_frame (stopped_of_run e2)
  have hr := run_keygen k₁ (free_of hfree h1) (free_of hfree h2) (absent_dir hw h1) (absent_dir hw h2)
  have hdir : ∀ q, fs₁.dir q = (fs.dir q || decide (q <+: T.clean f.output ++ [dirCa]) ||
      decide (q <+: T.clean f.output ++ [dirMsp])) := by
    have := hr.2
    rw [e2] at this
    exact this
  have hlen : ∀ d q, q <+: T.clean f.output ++ [d] → q ∉ written (keygenOps (T.clean f.output) k₁) := by
    intro d q hq hm
    have := hq.length_le
    simp only [keygenOps, written, List.mem_cons, List.not_mem_nil, or_false] at hm
    rcases hm with rfl | rfl | rfl | rfl | rfl <;> simp at this
  have hfree' : ∀ d, fs.stat (T.clean f.output ++ [d]) = false → Spec.Free fs₁ (T.clean f.output ++ [d]) :=
    fun d hd q hq => by rw [hframe q (hlen d q hq)]; exact free_of hfree hd q hq
  have hnd : ∀ d n, fs.stat (T.clean f.output ++ [d]) = false → fs₁.dir (T.clean f.output ++ [d] ++ [n]) = false := by
    intro d n hd
    rw [hdir, absent_dir hw hd]
    have c : ∀ d', ¬ (T.clean f.output ++ [d] ++ [n]) <+: (T.clean f.output ++ [d']) := fun d' h => by simpa using h.length_le
    simp only [c, decide_false, Bool.or_self]
  have hr₂ := run_keygen k₂ (hfree' _ h1) (hfree' _ h2) (fun n => hnd _ n h1) (fun n => hnd _ n h2)
  have hrun : run (keygenOps (T.clean f.output) k₂) fs₁ = ((run (keygenOps (T.clean f.output) k₂) fs₁).1, true) := by
    rw [← hr₂.1]
  exact ⟨_, _, fs₁, _, e1, e4, e2, e3, hrun, holds_of_run hrun⟩

/-! ## Interrupted runs -/

theorem stopped_part {l : List Op} {fs fs' : FS} (h : Stopped l fs fs') (p : Path) (c : Bytes)
    (hl : ∀ b, Op.write p b ∈ l → b = c) (hp : PartOf fs p c) : PartOf fs' p c := by
  induction h with
  | here => exact hp
  | torn q b l fs fs' k h =>
    rw [apply_write h]
    by_cases e : p = q
    · subst e
      rw [hl b (by simp)]
      exact .inr ⟨k, set_file⟩
    · unfold PartOf
      rw [set_file_ne e]
      exact hp
  | next o l fs fs₁ fs' h hs ih =>
    refine ih (fun b hb => hl b (by simp [hb])) ?_
    cases o with
    | mkdirAll q => unfold PartOf; rw [apply_mkdir h]; exact hp
    | write q b =>
      rw [apply_write h]
      by_cases e : p = q
      · subst e
        rw [hl b (by simp)]
        exact .inr ⟨c.length, by rw [set_file, List.take_length]⟩
      · unfold PartOf
        rw [set_file_ne e]
        exact hp

theorem stopped_append {l₁ l₂ : List Op} {fs fs' : FS} (h : Stopped (l₁ ++ l₂) fs fs') :
    Stopped l₁ fs fs' ∨ ∃ fs₁, run l₁ fs = (fs₁, true) ∧ Stopped l₂ fs₁ fs' := by
  induction l₁ generalizing fs with
  | nil => exact .inr ⟨fs, rfl, h⟩
  | cons o l₁ ih =>
    cases h with
    | here => exact .inl (.here _ _)
    | torn p b _ _ _ k h => exact .inl (.torn _ _ _ _ _ k h)
    | next _ _ _ fs₁ _ h hs =>
      rcases ih hs with h' | ⟨fs₂, h1, h2⟩
      · exact .inl (.next _ _ _ _ _ h h')
      · exact .inr ⟨fs₂, by simp [run, h, h1], h2⟩

/-- C62. Wherever key generation stops, each of its files is missing or has a first part of the contents; nothing else
has changed; and if the revocation public key is there, even in part, then the three files of the authority are
complete. -/
theorem C62_interrupted_keygen (f : Flags) (fs fs' : FS) (hw : WellFormed fs)
    (ρ : KeygenRnd (T.P.S f.curve) (T.P.env f.curve).dsa) (l : List Op) (hl : T.keygen f fs ρ = .ok l)
    (hs : Stopped l fs fs') :
    ∃ k, T.newKeys f ρ = .ok k ∧
      PartOf fs' (T.clean f.output ++ [ascii "ca", ascii "IssuerSecretKey"]) k.isk ∧
      PartOf fs' (T.clean f.output ++ [ascii "ca", ascii "RevocationKey"]) k.rev ∧
      PartOf fs' (T.clean f.output ++ [ascii "ca", ascii "IssuerPublicKey"]) k.ipk ∧
      PartOf fs' (T.clean f.output ++ [ascii "msp", ascii "RevocationPublicKey"]) k.revPk ∧
      PartOf fs' (T.clean f.output ++ [ascii "msp", ascii "IssuerPublicKey"]) k.ipk ∧
      (fs'.file (T.clean f.output ++ [ascii "msp", ascii "RevocationPublicKey"]) ≠ none →
        fs'.file (T.clean f.output ++ [ascii "ca", ascii "IssuerSecretKey"]) = some k.isk ∧
        fs'.file (T.clean f.output ++ [ascii "ca", ascii "RevocationKey"]) = some k.rev ∧
        fs'.file (T.clean f.output ++ [ascii "ca", ascii "IssuerPublicKey"]) = some k.ipk) := by
  obtain ⟨k, hk, h1, h2, rfl⟩ := keygen_ok T hl
  set out := T.clean f.output
  have n1 : dirCa ≠ dirMsp := by decide
  have n1' : dirMsp ≠ dirCa := by decide
  have n2 : fileIsk ≠ fileRev := by decide
  have n3 : fileIsk ≠ fileIpk := by decide
  have n4 : fileRev ≠ fileIpk := by decide
  have n5 : fileRevPk ≠ fileIpk := by decide
  have a1 := fun n => absent hw h1 n
  have a2 := fun n => absent hw h2 n
  refine ⟨k, hk, stopped_part hs (out ++ [dirCa, fileIsk]) _ ?_ (.inl (by rw [path2, a1])),
    stopped_part hs (out ++ [dirCa, fileRev]) _ ?_ (.inl (by rw [path2, a1])),
    stopped_part hs (out ++ [dirCa, fileIpk]) _ ?_ (.inl (by rw [path2, a1])),
    stopped_part hs (out ++ [dirMsp, fileRevPk]) _ ?_ (.inl (by rw [path2, a2])),
    stopped_part hs (out ++ [dirMsp, fileIpk]) _ ?_ (.inl (by rw [path2, a2])), ?_⟩
  · simp [keygenOps, n1, n2, n3, n4, n5]
  · simp [keygenOps, n1, n2.symm, n3, n4, n5]
  · simp [keygenOps, n1, n2, n3.symm, n4.symm, n5]
  · simp [keygenOps, n1', n2, n3, n4, n5]
  · simp [keygenOps, n1', n2, n3, n4, n5.symm]
  · intro hne
    have hs' : Stopped ([.mkdirAll (out ++ [dirCa]), .mkdirAll (out ++ [dirMsp]), .write (out ++ [dirCa, fileIsk]) k.isk,
        .write (out ++ [dirCa, fileRev]) k.rev, .write (out ++ [dirCa, fileIpk]) k.ipk] ++
        [.write (out ++ [dirMsp, fileRevPk]) k.revPk, .write (out ++ [dirMsp, fileIpk]) k.ipk]) fs fs' := hs
    rcases stopped_append hs' with h | ⟨fs₁, h, h'⟩
    · refine absurd ?_ hne
      have := stopped_frame h (out ++ [dirMsp, fileRevPk]) (by simp [written, n1'])
      exact this.trans (by rw [path2, a2])
    · refine ⟨?_, ?_, ?_⟩
      · refine (stopped_frame h' (out ++ [dirCa, fileIsk]) (by simp [written, n1])).trans ?_
        exact run_file (l₁ := [_, _]) h (by simp [written, n2, n3])
      · refine (stopped_frame h' (out ++ [dirCa, fileRev]) (by simp [written, n1])).trans ?_
        exact run_file (l₁ := [_, _, _]) h (by simp [written, n4])
      · refine (stopped_frame h' (out ++ [dirCa, fileIpk]) (by simp [written, n1])).trans ?_
        exact run_file (l₁ := [_, _, _, _]) h (by simp [written])

theorem stopped_dir {l : List Op} {fs fs' : FS} (h : Stopped l fs fs') (p : Path) (hp : fs.dir p = true) :
    fs'.dir p = true := by
  induction h with
  | here => exact hp
  | torn q b l fs fs' k h => rw [apply_write h]; exact hp
  | next o l fs fs₁ fs' h hs ih =>
    apply ih
    cases o with
    | mkdirAll q =>
      simp only [Op.apply] at h
      split at h
      · cases h
      · cases h; simp [hp]
    | write q b => rw [apply_write h]; exact hp

/-- C62. A signer that is made after an interrupted key generation, in this directory or in another one, is made with the
complete keys of that key generation. -/
theorem C62_signer_after (f g : Flags) (fs fs' : FS) (hw : WellFormed fs)
    (ρ : KeygenRnd (T.P.S f.curve) (T.P.env f.curve).dsa) (hl : Leaves (T.keygen f fs ρ) fs fs')
    (hca : fs.stat (T.clean f.output ++ [ascii "ca"]) = false) (hg : T.clean (caDir g) = T.clean f.output)
    (τ : UserRnd (T.P.S g.curve) (T.P.env g.curve).dsa) (l : List Op) (hs : T.signer g fs' τ = .ok l) :
    ∃ k rev config, T.newKeys f ρ = .ok k ∧ T.readRevocationKey g.curve k.rev = .ok rev ∧
      T.signerConfig g k.isk k.ipk rev τ = .ok config ∧
      Op.write (T.clean g.output ++ [ascii "user", ascii "SignerConfig"]) config ∈ l := by
  obtain ⟨isk, ipk, raw, rev, rpk, config, h1, h2, h3, h4, h5, h6, -, rfl⟩ := signer_ok T hs
  rw [hg] at h1 h2 h3 h5
  generalize hr : T.keygen f fs ρ = r at hl
  cases hl with
  | refused =>
    rw [path2, absent hw (show fs.stat (T.clean f.output ++ [dirCa]) = false from hca)] at h1
    cases h1
  | stopped l _ _ hst =>
    obtain ⟨k, hk, -, -, -, -, -, hc⟩ := C62_interrupted_keygen T f fs fs' hw ρ l hr hst
    obtain ⟨c1, c2, c3⟩ := hc (by intro h; cases h5.symm.trans h)
    cases h1.symm.trans c1
    cases h2.symm.trans c3
    cases h3.symm.trans c2
    exact ⟨k, rev, config, hk, h4, h6, by simp [signerOps, dirUser, fileSigner]⟩

/-- C62. After an interruption anywhere but at the start, key generation cannot be repeated: it refuses. -/
theorem C62_no_repetition (f : Flags) (fs fs' : FS) (ρ ρ' : KeygenRnd (T.P.S f.curve) (T.P.env f.curve).dsa)
    (hl : Leaves (T.keygen f fs ρ) fs fs') : fs' = fs ∨ ∀ l, T.keygen f fs' ρ' ≠ .ok l := by
  generalize hr : T.keygen f fs ρ = r at hl
  cases hl with
  | refused => exact .inl rfl
  | stopped l _ _ hst =>
    obtain ⟨k, -, -, -, rfl⟩ := keygen_ok T hr
    cases hst with
    | here => exact .inl rfl
    | next _ _ _ fs₁ _ h hs =>
      right
      intro l hk
      obtain ⟨_, -, h1, -, -⟩ := keygen_ok T hk
      have : fs₁.dir (T.clean f.output ++ [dirCa]) = true := by
        simp only [Op.apply] at h
        split at h
        · cases h
        · cases h; simp
      simp [FS.stat, stopped_dir hs _ this] at h1

theorem run_split {l₁ l₂ : List Op} {fs fs' : FS} (h : run (l₁ ++ l₂) fs = (fs', true)) :
    ∃ fs₁, run l₁ fs = (fs₁, true) ∧ run l₂ fs₁ = (fs', true) := by
  induction l₁ generalizing fs with
  | nil => exact ⟨fs, rfl, h⟩
  | cons o l₁ ih =>
    simp only [List.cons_append, run] at h ⊢
    split at h
    · cases h
    · next h1 => simpa only [h1] using ih h

theorem stopped_after {l₁ l₂ : List Op} {fs fs₁ fs' : FS} (h : run l₁ fs = (fs₁, true)) (hs : Stopped l₂ fs₁ fs') :
    Stopped (l₁ ++ l₂) fs fs' := by
  induction l₁ generalizing fs with
  | nil => simp only [run, Prod.mk.injEq] at h; rw [h.1]; exact hs
  | cons o l₁ ih =>
    simp only [run] at h
    split at h
    · cases h
    · next h1 => exact .next _ _ _ _ _ h1 (ih h)

/-- C62 is violated: an authority whose public keys for MSPs are incomplete goes unnoticed. Key generation can stop in such
a way that the revocation public key is empty and the issuer public key for MSPs is missing, and yet `signerconfig` works
just as if it had not been interrupted. -/
theorem C62_unnoticed_violated (f : Flags) (fs : FS) (hw : WellFormed fs) (hfree : Spec.Free fs (T.clean f.output))
    (ρ : KeygenRnd (T.P.S f.curve) (T.P.env f.curve).dsa) (k : Keys) (hk : T.newKeys f ρ = .ok k)
    (h1 : fs.stat (T.clean f.output ++ [ascii "ca"]) = false) (h2 : fs.stat (T.clean f.output ++ [ascii "msp"]) = false) :
    ∃ l fs₁ fs₂, T.keygen f fs ρ = .ok l ∧ run l fs = (fs₁, true) ∧ Stopped l fs fs₂ ∧
      fs₂.file (T.clean f.output ++ [ascii "msp", ascii "RevocationPublicKey"]) = some [] ∧
      fs₂.file (T.clean f.output ++ [ascii "msp", ascii "IssuerPublicKey"]) = none ∧
      ∀ (g : Flags) τ, g.caInput = [] → g.output = f.output → T.signer g fs₂ τ = T.signer g fs₁ τ := by
  obtain ⟨l, fs₁, e1, e2, e3⟩ := C59_keygen_writes T f fs hw hfree ρ k hk h1 h2
  obtain ⟨k', hk', -, -, rfl⟩ := keygen_ok T e1
  rw [hk] at hk'
  cases hk'
  set out := T.clean f.output
  have n1 : dirCa ≠ dirMsp := by decide
  have n1' : dirMsp ≠ dirCa := by decide
  have n2 : fileIsk ≠ fileRev := by decide
  have n3 : fileIsk ≠ fileIpk := by decide
  have n4 : fileRev ≠ fileIpk := by decide
  have n5 : fileIpk ≠ fileRevPk := by decide
  have e2' : run ([.mkdirAll (out ++ [dirCa]), .mkdirAll (out ++ [dirMsp]), .write (out ++ [dirCa, fileIsk]) k.isk,
      .write (out ++ [dirCa, fileRev]) k.rev, .write (out ++ [dirCa, fileIpk]) k.ipk] ++
      [.write (out ++ [dirMsp, fileRevPk]) k.revPk, .write (out ++ [dirMsp, fileIpk]) k.ipk]) fs = (fs₁, true) := e2
  obtain ⟨fs₀, r1, r2⟩ := run_split e2'
  have hsome : Op.apply fs₀ (.write (out ++ [dirMsp, fileRevPk]) (k.revPk.take 0)) =
      some (fs₀.set (out ++ [dirMsp, fileRevPk]) []) := by
    simp only [run, Op.apply] at r2 ⊢
    split at r2
    · cases r2
    · next h =>
      split at h
      · cases h
      · next h' => rw [if_neg h', List.take_zero]
  have hst := stopped_after r1 (.torn (out ++ [dirMsp, fileRevPk]) k.revPk [.write (out ++ [dirMsp, fileIpk]) k.ipk] _ _ 0 hsome)
  refine ⟨_, fs₁, _, e1, e2, hst, set_file, ?_, ?_⟩
  · refine (set_file_ne (q := out ++ [dirMsp, fileIpk]) (by simp [n5])).trans
      ((stopped_frame (stopped_of_run r1) _ (by simp [written, n1'])).trans ?_)
    rw [path2]
    exact absent hw h2 _
  · intro g τ hg1 hg2
    have q1 : (fs₀.set (out ++ [dirMsp, fileRevPk]) []).file (out ++ [dirCa, fileIsk]) = some k.isk :=
      (set_file_ne (by simp [n1])).trans (run_file (l₁ := [_, _]) r1 (by simp [written, n2, n3]))
    have q2 : (fs₀.set (out ++ [dirMsp, fileRevPk]) []).file (out ++ [dirCa, fileRev]) = some k.rev :=
      (set_file_ne (by simp [n1])).trans (run_file (l₁ := [_, _, _]) r1 (by simp [written, n4]))
    have q3 : (fs₀.set (out ++ [dirMsp, fileRevPk]) []).file (out ++ [dirCa, fileIpk]) = some k.ipk :=
      (set_file_ne (by simp [n1])).trans (run_file (l₁ := [_, _, _, _]) r1 (by simp [written]))
    have q4 : (fs₀.set (out ++ [dirMsp, fileRevPk]) []).file (out ++ [dirMsp, fileRevPk]) = some [] := set_file
    have p1 : fs₁.file (out ++ [dirCa, fileIsk]) = some k.isk := e3.isk
    have p2 : fs₁.file (out ++ [dirCa, fileRev]) = some k.rev := e3.rev
    have p3 : fs₁.file (out ++ [dirCa, fileIpk]) = some k.ipk := e3.ipk
    have p4 : fs₁.file (out ++ [dirMsp, fileRevPk]) = some k.revPk := e3.revPk
    have hstat : (fs₀.set (out ++ [dirMsp, fileRevPk]) []).stat (out ++ [dirUser]) = fs₁.stat (out ++ [dirUser]) := by
      have d1 : fs₁ = (fs₀.set (out ++ [dirMsp, fileRevPk]) k.revPk).set (out ++ [dirMsp, fileIpk]) k.ipk := by
        simp only [run] at r2
        split at r2
        · cases r2
        · next h =>
          split at r2
          · cases r2
          · next h' =>
            simp only [Prod.mk.injEq] at r2
            rw [← r2.1, apply_write h', apply_write h]
      rw [d1]
      simp [FS.stat, FS.set]
    simp only [Tool.signer, hg1, if_true, hg2, FS.read, out, p1, p2, p3, p4, q1, q2, q3, q4, hstat, Res.ofOption_some,
      Res.ok_bind, signerOps]
    simp

/-! ## From the files to the MSP -/

theorem strOk_getBytes {k : Nat} {m : Proto.Msg} (h : Msp.Wire.strOk k m = true) : utf8Valid (Proto.getBytes k m) = true := by
  simp only [Msp.Wire.strOk, List.all_eq_true] at h
  simp only [Proto.getBytes]
  cases hl : (Proto.lens k m).getLast? with
  | none => rfl
  | some b => exact h b (List.mem_of_getLast? hl)

theorem signer_wire {raw : Bytes} {s : Msp.SignerConfig} (h : Msp.Wire.signerCodec.unmarshal raw = .ok s) :
    s.Wire ∧ Msp.Wire.signerOk s = true := by
  simp only [Msp.Wire.signerCodec, Proto.codec, Res.ofOption_eq_ok, Option.bind_eq_some_iff, Msp.Wire.signerOf,
    Option.ite_none_right_eq_some, Option.some.injEq, Bool.and_eq_true] at h
  obtain ⟨m, _, ⟨⟨⟨⟨a1, a2⟩, a3⟩, a4⟩, a5⟩, rfl⟩ := h
  constructor
  · simp only [Msp.SignerConfig.Wire, Proto.getInt32, Proto.signed32, Proto.Int32]; split <;> omega
  · simp [Msp.Wire.signerOk, strOk_getBytes a1, strOk_getBytes a2, strOk_getBytes a3, strOk_getBytes a4, strOk_getBytes a5]

theorem toInt32_of {t : Int} (h : 0 ≤ t) (h' : t < 2147483648) : Msp.toInt32 t = t := by
  simp only [Msp.toInt32]
  omega

/-- Reading the configuration of an MSP from a directory with the three files. -/
theorem getConfig_files (fs : FS) (dir : Path) (id ipk rpk config : Bytes) (s : Msp.SignerConfig) (mspType : Int)
    (ht : 0 ≤ mspType) (ht' : mspType < 2147483648) (hid : utf8Valid id = true) (h1 : fs.file (dir ++ [dirMsp, fileIpk]) = some ipk)
    (h2 : fs.file (dir ++ [dirMsp, fileRevPk]) = some rpk) (h3 : fs.file (dir ++ [dirUser, fileSigner]) = some config)
    (hs : Msp.Wire.signerCodec.unmarshal config = .ok s) :
    ∃ raw, Msp.getConfig (fun p => fs.read (dir ++ p)) id mspType = .ok ⟨mspType, raw⟩ ∧
      Msp.Wire.configCodec.unmarshal raw = .ok ⟨id, ipk, some s, rpk, 0, [], []⟩ := by
  have r1 : fs.read (dir ++ [ascii "msp", ascii "IssuerPublicKey"]) = .ok ipk := by
    change Res.ofOption _ (fs.file (dir ++ [dirMsp, fileIpk])) = _
    rw [h1]; rfl
  have r2 : fs.read (dir ++ [ascii "msp", ascii "RevocationPublicKey"]) = .ok rpk := by
    change Res.ofOption _ (fs.file (dir ++ [dirMsp, fileRevPk])) = _
    rw [h2]; rfl
  have r3 : fs.read (dir ++ [ascii "user", ascii "SignerConfig"]) = .ok config := by
    change Res.ofOption _ (fs.file (dir ++ [dirUser, fileSigner])) = _
    rw [h3]; rfl
  obtain ⟨w1, w2⟩ := signer_wire hs
  obtain ⟨raw, hm⟩ : ∃ raw, Msp.Wire.configCodec.marshal ⟨id, ipk, some s, rpk, 0, [], []⟩ = .ok raw := by
    simp [Msp.Wire.configCodec, Proto.codec, Msp.Wire.configOk, hid, w2, show utf8Valid [] = true from rfl]
  refine ⟨raw, ?_, Msp.Wire.configCodec.rt _ _ ⟨by simp [Proto.Int64], by simpa using w1⟩ hm⟩
  have : (decide (mspType < 0)) = false := by simpa using ht
  simp [Msp.getConfig, this, r1, r2, r3, hs, hm, toInt32_of ht ht']

/-- Making a signer runs to the end wherever the directory can be made. -/
theorem run_signer {fs : FS} {out : Path} (config rpk ipk : Bytes) (h1 : Spec.Free fs (out ++ [dirUser]))
    (h2 : ∀ n, fs.dir (out ++ [dirUser] ++ [n]) = false) :
    ∃ fs', run (signerOps out false config rpk ipk) fs = (fs', true) := by
  have c1 : ∀ n, ¬ (out ++ [dirUser] ++ [n]) <+: (out ++ [dirUser]) := fun n h => by simpa using h.length_le
  simp only [signerOps, path2, List.cons_append, List.nil_append]
  rw [run_mkdir h1, run_write]
  · exact ⟨_, rfl⟩
  all_goals simp only [List.dropLast_concat, h2, c1, decide_false, List.prefix_refl, decide_true, Bool.or_true, Bool.or_false]

/-- What both schemes have to provide for the whole way from the tool to the MSP. -/
theorem end_to_end (f : Flags) (fs : FS) (hw : WellFormed fs) (hfree : Spec.Free fs (T.clean f.output))
    (hca : fs.stat (T.clean f.output ++ [ascii "ca"]) = false) (hmsp : fs.stat (T.clean f.output ++ [ascii "msp"]) = false)
    (huser : fs.stat (T.clean f.output ++ [ascii "user"]) = false) (hin : f.caInput = [])
    (ρ : KeygenRnd (T.P.S f.curve) (T.P.env f.curve).dsa) (τ : UserRnd (T.P.S f.curve) (T.P.env f.curve).dsa)
    (isk ipk config sk pkix : Bytes) (rev : (T.P.env f.curve).dsa.Sk) (hkey : T.issuerKey f ρ = .ok (isk, ipk))
    (hrev : (T.P.ec f.curve).gen ρ.dsa = .ok rev) (hsk : (T.secrets f.curve).marshal rev = .ok sk)
    (hpkix : (T.P.ec f.curve).pkix ((T.P.env f.curve).dsa.pub rev) = .ok pkix)
    (hconfig : T.signerConfig f isk ipk rev τ = .ok config) (s : Msp.SignerConfig)
    (hs : Msp.Wire.signerCodec.unmarshal config = .ok s) :
    ∃ l₁ fs₁ l₂ fs₂, T.keygen f fs ρ = .ok l₁ ∧ run l₁ fs = (fs₁, true) ∧ T.signer f fs₁ τ = .ok l₂ ∧
      run l₂ fs₁ = (fs₂, true) ∧ ∀ id, utf8Valid id = true → ∀ mspType, 0 ≤ mspType → mspType < 2147483648 → ∃ raw,
        Msp.getConfig (fun p => fs₂.read (T.clean f.output ++ p)) id mspType = .ok ⟨mspType, raw⟩ ∧
        Msp.Wire.configCodec.unmarshal raw = .ok ⟨id, ipk, some s, (T.P.ec f.curve).pemEncode pkix, 0, [], []⟩ := by
  have hk : T.newKeys f ρ = .ok ⟨isk, ipk, (T.P.ec f.curve).pemEncode sk, (T.P.ec f.curve).pemEncode pkix⟩ := by
    simp [Tool.newKeys, hkey, hrev, hsk, hpkix]
  obtain ⟨l₁, fs₁, e1, e2, e3⟩ := C59_keygen_writes T f fs hw hfree ρ _ hk hca hmsp
  obtain ⟨k, hk', -, -, rfl⟩ := keygen_ok T e1
  rw [hk] at hk'
  cases hk'
  set out := T.clean f.output
  set k : Keys := ⟨isk, ipk, (T.P.ec f.curve).pemEncode sk, (T.P.ec f.curve).pemEncode pkix⟩
  have hr := run_keygen k (free_of hfree hca) (free_of hfree hmsp) (absent_dir hw hca) (absent_dir hw hmsp)
  have u1 : dirUser ≠ dirCa := by decide
  have u2 : dirUser ≠ dirMsp := by decide
  have hdir : ∀ q, fs₁.dir q = (fs.dir q || decide (q <+: out ++ [dirCa]) || decide (q <+: out ++ [dirMsp])) := by
    have := hr.2
    rw [e2] at this
    exact this
  have hframe := stopped_frame (stopped_of_run e2)
  have hlen : ∀ q, q.length ≤ out.length + 1 → q ∉ written (keygenOps out k) := by
    intro q hq hm
    simp only [keygenOps, written, List.mem_cons, List.not_mem_nil, or_false] at hm
    rcases hm with rfl | rfl | rfl | rfl | rfl <;> simp at hq
  have hnp : ∀ d q, dirUser ≠ d → out ++ [dirUser] <+: q → ¬ q <+: out ++ [d] := by
    intro d q hd h1 h2
    have h3 := h1.trans h2
    rw [List.prefix_append_right_inj, List.cons_prefix_cons] at h3
    exact hd h3.1
  have hstat : fs₁.stat (out ++ [dirUser]) = false := by
    have h0 : fs.stat (out ++ [dirUser]) = false := huser
    simp only [FS.stat, Bool.or_eq_false_iff] at h0 ⊢
    rw [hdir, hframe _ (hlen _ (by simp)), h0.1, decide_eq_false (hnp _ _ u1 (List.prefix_refl _)),
      decide_eq_false (hnp _ _ u2 (List.prefix_refl _))]
    exact ⟨rfl, h0.2⟩
  have hsigner : T.signer f fs₁ τ = .ok (signerOps out false config ((T.P.ec f.curve).pemEncode pkix) ipk) := by
    have p1 : fs₁.file (out ++ [dirCa, fileIsk]) = some isk := e3.isk
    have p2 : fs₁.file (out ++ [dirCa, fileRev]) = some ((T.P.ec f.curve).pemEncode sk) := e3.rev
    have p3 : fs₁.file (out ++ [dirCa, fileIpk]) = some ipk := e3.ipk
    have p4 : fs₁.file (out ++ [dirMsp, fileRevPk]) = some ((T.P.ec f.curve).pemEncode pkix) := e3.revPk
    have p5 : T.readRevocationKey f.curve ((T.P.ec f.curve).pemEncode sk) = .ok rev := by
      simp [Tool.readRevocationKey, (T.P.ec f.curve).decode_encode, (T.secrets f.curve).rt _ _ hsk]
    simp [Tool.signer, hin, FS.read, out, p1, p2, p3, p4, p5, hconfig, hstat]
  obtain ⟨fs₂, e4⟩ := run_signer (fs := fs₁) config ((T.P.ec f.curve).pemEncode pkix) ipk
    (fun q hq => by rw [hframe q (hlen q (by simpa using hq.length_le))]; exact free_of hfree huser q hq)
    (fun n => by
      rw [hdir, absent_dir hw (show fs.stat (out ++ [dirUser]) = false from huser),
        decide_eq_false (hnp _ _ u1 (List.prefix_append _ _)), decide_eq_false (hnp _ _ u2 (List.prefix_append _ _))]
      rfl)
  refine ⟨_, fs₁, _, fs₂, e1, e2, hsigner, e4, fun id hid mspType ht ht' => ?_⟩
  have hfr2 := stopped_frame (stopped_of_run e4)
  refine getConfig_files fs₂ out id ipk _ config s mspType ht ht' hid ?_ ?_ (run_file (l₁ := [_]) e4 (by simp [written])) hs
  · rw [hfr2 _ (by simp [signerOps, written, u2.symm])]; exact e3.mspIpk
  · rw [hfr2 _ (by simp [signerOps, written, u2.symm])]; exact e3.revPk

/-- C59, from the tool to the MSP, dlog scheme: on the default curve, `ca-keygen` and then `signerconfig`, run in a directory
without `ca`, `msp` and `user`, leave files from which every MSP of the scheme is set up, with the unit, the enrolment id
and the role given on the command line. -/
theorem C59_dlog_end_to_end (f : Flags) (hf : f.aries = false) (hcurve : f.curve = .fp256bnAmcl) (hin : f.caInput = [])
    (hou : f.ou ≠ []) (heid : f.eid ≠ []) (u1 : utf8Valid f.ou = true) (u2 : utf8Valid f.eid = true)
    (u3 : utf8Valid f.rh = true) (fs : FS) (hw : WellFormed fs) (hfree : Spec.Free fs (T.clean f.output))
    (hca : fs.stat (T.clean f.output ++ [ascii "ca"]) = false) (hmsp : fs.stat (T.clean f.output ++ [ascii "msp"]) = false)
    (huser : fs.stat (T.clean f.output ++ [ascii "user"]) = false)
    (ρ : KeygenRnd (T.P.S f.curve) (T.P.env f.curve).dsa) (τ : UserRnd (T.P.S f.curve) (T.P.env f.curve).dsa)
    (hρ : Spec.Samples ρ.issuer τ.dlog.sk τ.dlog.e τ.dlog.s (Spec.values (T.P.S f.curve) (roleMask f.admin) f.ou f.eid f.rh))
    (rev : (T.P.env f.curve).dsa.Sk) (sk pkix : Bytes) (hrev : (T.P.ec f.curve).gen ρ.dsa = .ok rev)
    (hsk : (T.secrets f.curve).marshal rev = .ok sk)
    (hpkix : (T.P.ec f.curve).pkix ((T.P.env f.curve).dsa.pub rev) = .ok pkix)
    (hsign : ∀ d, ∃ sig, (T.P.env f.curve).dsa.sign rev τ.dlog.dsa d = .ok sig) :
    ∃ l₁ fs₁ l₂ fs₂, T.keygen f fs ρ = .ok l₁ ∧ run l₁ fs = (fs₁, true) ∧ T.signer f fs₁ τ = .ok l₂ ∧
      run l₂ fs₁ = (fs₂, true) ∧ ∀ id, utf8Valid id = true → ∃ conf,
        Msp.getConfig (fun p => fs₂.read (T.clean f.output ++ p)) id 1 = .ok conf ∧
        ∀ (m : IMsp T.P.world) (me : Ref) (σ : SetupRnd T.P.world), m.aries = false →
          ((σ ⟨false, f.curve⟩).2 : Provider.DlogRnd (T.P.S f.curve) (T.P.env f.curve).dsa).sig.rAttrs.length = 2 →
          ((σ ⟨false, f.curve⟩).2 : Provider.DlogRnd (T.P.S f.curve) (T.P.env f.curve).dsa).sig.r1 ≠ 0 →
          Spec.SetsUp m me σ conf id f.ou f.eid f.admin := by
  obtain ⟨isk, ipk, config, g1, g2, g3⟩ := C59_dlog_accepted T.P f.curve ρ.issuer τ.dlog f.admin f.ou f.eid f.rh hou heid u1 u2
    u3 hρ rev hsign pkix hpkix
  obtain ⟨s, hs⟩ : ∃ s, Msp.Wire.signerCodec.unmarshal config = .ok s := by
    obtain ⟨_, _, config', _, _, _, s, g1', g2', -, -, -, g6, -⟩ := dlog_generated (T.P.env f.curve) ρ.issuer τ.dlog f.admin f.ou f.eid f.rh hou
      heid u1 u2 u3 hρ rev hsign
    rw [g1] at g1'
    cases g1'
    rw [g2] at g2'
    cases g2'
    exact ⟨s, g6⟩
  obtain ⟨l₁, fs₁, l₂, fs₂, e1, e2, e3, e4, e5⟩ := end_to_end T f fs hw hfree hca hmsp huser hin ρ τ isk ipk config sk pkix rev
    (by simp [Tool.issuerKey, hf, g1]) hrev hsk hpkix (by simp [Tool.signerConfig, hf, g2]) s hs
  refine ⟨l₁, fs₁, l₂, fs₂, e1, e2, e3, e4, fun id hid => ?_⟩
  obtain ⟨raw, r1, r2⟩ := e5 id hid 1 (by omega) (by omega)
  refine ⟨_, r1, fun m me σ hm h1 h2 => ?_⟩
  obtain ⟨s', hs', ha⟩ := g3 m me σ hm h1 h2 [] (.inr ⟨rfl, hcurve⟩)
  rw [hs] at hs'
  cases hs'
  have := ha raw _ r2 rfl rfl rfl rfl
  rw [hm] at this
  exact this

/-- C59, from the tool to the MSP, aries scheme: see `C59_dlog_end_to_end`. -/
theorem C59_aries_end_to_end (f : Flags) (hf : f.aries = true) (hcurve : f.curve = .bls12_381Bbs)
    (h32 : (T.P.S f.curve).scalarLen = 32) (hg : (T.P.S f.curve).g1CompLen < 2 ^ 31) (hg1 : 0 < (T.P.S f.curve).g1Len)
    (hin : f.caInput = []) (hou : f.ou ≠ []) (heid : f.eid ≠ []) (u1 : utf8Valid f.ou = true) (u2 : utf8Valid f.eid = true)
    (u3 : utf8Valid f.rh = true) (fs : FS) (hw : WellFormed fs) (hfree : Spec.Free fs (T.clean f.output))
    (hca : fs.stat (T.clean f.output ++ [ascii "ca"]) = false) (hmsp : fs.stat (T.clean f.output ++ [ascii "msp"]) = false)
    (huser : fs.stat (T.clean f.output ++ [ascii "user"]) = false)
    (ρ : KeygenRnd (T.P.S f.curve) (T.P.env f.curve).dsa) (τ : UserRnd (T.P.S f.curve) (T.P.env f.curve).dsa) (okm : Bytes)
    (hseed : ρ.seed.length = 32) (hokm : (T.P.lib f.curve).hkdf (ρ.seed ++ [0]) (T.P.S f.curve).scalarLen = .ok okm)
    (hx : Bbs.frFromOKM (T.P.lib f.curve) okm + τ.aries.e ≠ 0)
    (rev : (T.P.env f.curve).dsa.Sk) (sk pkix : Bytes) (hrev : (T.P.ec f.curve).gen ρ.dsa = .ok rev)
    (hsk : (T.secrets f.curve).marshal rev = .ok sk)
    (hpkix : (T.P.ec f.curve).pkix ((T.P.env f.curve).dsa.pub rev) = .ok pkix)
    (hsign : ∀ d, ∃ sig, (T.P.env f.curve).dsa.sign rev τ.aries.dsa d = .ok sig) :
    ∃ l₁ fs₁ l₂ fs₂, T.keygen f fs ρ = .ok l₁ ∧ run l₁ fs = (fs₁, true) ∧ T.signer f fs₁ τ = .ok l₂ ∧
      run l₂ fs₁ = (fs₂, true) ∧ ∀ id, utf8Valid id = true → ∃ conf,
        Msp.getConfig (fun p => fs₂.read (T.clean f.output ++ p)) id 2 = .ok conf ∧
        ∀ (m : IMsp T.P.world) (me : Ref) (σ : SetupRnd T.P.world), m.aries = true →
          ((σ ⟨true, f.curve⟩).2 : Provider.AriesRnd (T.P.S f.curve) (T.P.env f.curve).dsa).sig.pok.r1 ≠ 0 →
          Spec.SetsUp m me σ conf id f.ou f.eid f.admin := by
  obtain ⟨isk, ipk, config, g1, g2, g3⟩ := C59_aries_accepted T.P f.curve (.inl hcurve) h32 hg hg1 ρ.seed okm hseed hokm τ.aries
    f.admin f.ou f.eid f.rh hou heid u1 u2 u3 hx rev hsign pkix hpkix
  obtain ⟨s, hs⟩ : ∃ s, Msp.Wire.signerCodec.unmarshal config = .ok s := by
    obtain ⟨_, _, config', _, s, g1', g2', -, -, g6, -⟩ := aries_generated (T.P.lib f.curve) h32 (T.P.env f.curve).dsa ρ.seed okm
      hseed hokm τ.aries f.admin f.ou f.eid f.rh hou heid u1 u2 u3 hx rev hsign
    rw [g1] at g1'
    cases g1'
    rw [g2] at g2'
    cases g2'
    exact ⟨s, g6⟩
  obtain ⟨l₁, fs₁, l₂, fs₂, e1, e2, e3, e4, e5⟩ := end_to_end T f fs hw hfree hca hmsp huser hin ρ τ isk ipk config sk pkix rev
    (by simp [Tool.issuerKey, hf, g1]) hrev hsk hpkix (by simp [Tool.signerConfig, hf, g2]) s hs
  refine ⟨l₁, fs₁, l₂, fs₂, e1, e2, e3, e4, fun id hid => ?_⟩
  obtain ⟨raw, r1, r2⟩ := e5 id hid 2 (by omega) (by omega)
  refine ⟨_, r1, fun m me σ hm h1 => ?_⟩
  obtain ⟨s', hs', ha⟩ := g3 m me σ hm h1 [] (.inr ⟨rfl, hcurve⟩)
  rw [hs] at hs'
  cases hs'
  have := ha raw _ r2 rfl rfl rfl rfl
  rw [hm] at this
  exact this

end Idemix.Gen
