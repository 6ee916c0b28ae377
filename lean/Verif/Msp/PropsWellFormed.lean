import Verif.Msp.PropsIdentity

/-!
# What `IsWellFormed` says about an identity: C92

Concrete cases that meet the hypotheses of the theorems are in `Verif/Tools/ExamplesReports.lean`.
-/

namespace Idemix.Msp

variable {W : World}

namespace Spec

/-- Some MSP, whatever its configuration, reads the identity. -/
def Readable (W : World) (s : SerializedIdentity) : Prop :=
  ∃ (h : Heap W) (me : Ref) (i : Identity W), deserializeInternal h me s.idBytes = .ok i

end Spec

open Spec

theorem isWellFormed_some (m : IMsp W) (s : SerializedIdentity) :
    m.isWellFormed (some s) = .ok () ↔ ∃ x, Wire.identCodec.unmarshal s.idBytes = .ok x := by
  simp [IMsp.isWellFormed, Res.bind_eq_ok]

/-- C92. What one MSP reads as an identity, every MSP says is well formed. -/
theorem C92_read_partial (h : Heap W) (me : Ref) (b : Bytes) (i : Identity W) (hd : deserializeIdentity h me b = .ok i)
    (s : SerializedIdentity) (hs : Wire.serialCodec.unmarshal b = .ok s) (m : IMsp W) :
    m.isWellFormed (some s) = .ok () := by
  simp only [deserializeIdentity, Res.bind_eq_ok, deserializeInternal, hs] at hd
  obtain ⟨s', e, -, -, x, hx, -⟩ := hd
  cases e
  exact (isWellFormed_some m s).mpr ⟨x, hx⟩

/-- C92. What `Serialize` writes, every MSP says is well formed. The pseudonym has at least two bytes, one for each
coordinate. -/
theorem C92_serialized_partial (h : Heap W) (i : Identity W) (b raw : Bytes) (hb : i.serialize h = .ok b)
    (hraw : i.nym.key.bytes = .ok raw) (h2 : 2 ≤ raw.length) :
    ∃ s, Wire.serialCodec.unmarshal b = .ok s ∧ s.mspid = (h i.msp).name ∧
      ∀ m : IMsp W, m.isWellFormed (some s) = .ok () := by
  obtain ⟨raw', ou, role, inner, h1, -, -, h4, h5⟩ := serialize_ok hb
  rw [hraw] at h1; cases h1
  have e4 := Wire.identCodec.rt _ _ ⟨by
    simp only [ne_eq, Option.some.injEq, List.take_eq_nil_iff, not_or]
    exact ⟨by omega, by rintro rfl; simp at h2⟩, by
    simp only [ne_eq, Option.some.injEq, List.drop_eq_nil_iff]
    omega⟩ h4
  exact ⟨_, Wire.serialCodec.rt _ _ trivial h5, rfl, fun m => (isWellFormed_some m _).mpr ⟨_, e4⟩⟩

/-- C92. The answer depends on the identity only: not on the MSP that is asked, and not on the MSP that the identity
names. -/
theorem C92_same_everywhere (m m' : IMsp W) (s s' : SerializedIdentity) (hs : s.idBytes = s'.idBytes) :
    m.isWellFormed (some s) = m'.isWellFormed (some s') := by
  simp only [IMsp.isWellFormed, hs]

/-- C92 is violated: an identity without content, of any MSP, is well formed, but no MSP, whatever its configuration,
reads it. Nil instead of an identity panics. -/
theorem C92_violated (m : IMsp W) (name : Bytes) :
    m.isWellFormed (some ⟨name, []⟩) = .ok () ∧ ¬ Readable W ⟨name, []⟩ ∧ m.isWellFormed none = .panic := by
  have e : Wire.identCodec.unmarshal [] = .ok ⟨none, none, [], [], [], []⟩ := rfl
  refine ⟨(isWellFormed_some m _).mpr ⟨_, e⟩, ?_, rfl⟩
  rintro ⟨h, me, i, hd⟩
  simp only [deserializeInternal, e, Res.ok_bind] at hd
  cases hd

end Idemix.Msp
