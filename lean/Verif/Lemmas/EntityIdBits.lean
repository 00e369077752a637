import Verif.Model.EntityIdBits
import Verif.Model.EntityId

/-! Arithmetic reading of the bit operations of `Verif/Model/EntityIdBits.lean`. -/
namespace Verif.Bits

theorem INDEX_MASK_toNat : INDEX_MASK.toNat = 2 ^ 48 - 1 := by decide
theorem GEN_MASK_toNat : GEN_MASK.toNat = (2 ^ 16 - 1) <<< 48 := by decide
theorem not_INDEX_MASK : ~~~INDEX_MASK = GEN_MASK := by decide
theorem not_GEN_MASK : ~~~GEN_MASK = INDEX_MASK := by decide

theorem and_INDEX_MASK (w : Word) : (w &&& INDEX_MASK).toNat = w.toNat % 2 ^ 48 := by
  rw [BitVec.toNat_and, INDEX_MASK_toNat, Nat.and_two_pow_sub_one_eq_mod]

theorem and_GEN_MASK (w : Word) : (w &&& GEN_MASK).toNat = (w.toNat / 2 ^ 48) * 2 ^ 48 := by
  rw [BitVec.toNat_and, GEN_MASK_toNat, ← Nat.shiftLeft_eq, ← Nat.shiftRight_eq_div_pow]
  apply Nat.eq_of_testBit_eq
  intro i
  simp only [Nat.testBit_and, Nat.testBit_shiftLeft, Nat.testBit_shiftRight,
    Nat.testBit_two_pow_sub_one]
  by_cases h : 48 ≤ i
  · by_cases h2 : i < 64
    · have : i - 48 < 16 := by omega
      simp [h, this, show 48 + (i - 48) = i by omega]
    · have : w.toNat.testBit i = false := by
        apply Nat.testBit_lt_two_pow
        exact Nat.lt_of_lt_of_le w.isLt (Nat.pow_le_pow_right (by decide) (by omega))
      simp [h, this, show 48 + (i - 48) = i by omega]
  · simp [h]

theorem gen_toNat (w : Word) : (gen w).toNat = w.toNat / 2 ^ 48 := by
  unfold gen
  rw [BitVec.toNat_setWidth, BitVec.toNat_ushiftRight, and_GEN_MASK]
  rw [show INDEX_LEN = 48 from rfl, Nat.shiftRight_eq_div_pow]
  have := w.isLt
  omega

theorem index_toNat (w : Word) (h : w.toNat % 2 ^ 48 ≠ 0) :
    (index w).toNat = w.toNat % 2 ^ 48 - 1 := by
  unfold index
  rw [BitVec.toNat_sub, and_INDEX_MASK]
  have : (1 : Word).toNat = 1 := rfl
  rw [this]; omega

theorem or_add (a g : Nat) (ha : a < 2 ^ 48) : a ||| (g <<< 48) = g * 2 ^ 48 + a := by
  rw [Nat.or_comm, ← Nat.shiftLeft_add_eq_or_of_lt ha, Nat.shiftLeft_eq]

theorem newFromParts_toNat {i : BitVec 64} {g : BitVec 16} {w : Word}
    (h : newFromParts i g = some w) :
    i.toNat < 2 ^ 48 - 1 ∧ w.toNat = g.toNat * 2 ^ 48 + (i.toNat + 1) := by
  unfold newFromParts at h
  split at h
  · rename_i hi
    have hi' : i.toNat < 2 ^ 48 - 1 := by
      have := BitVec.lt_def.1 hi; rw [INDEX_MASK_toNat] at this; exact this
    refine ⟨hi', ?_⟩
    cases h
    rw [BitVec.toNat_or, BitVec.toNat_add, BitVec.toNat_shiftLeft, BitVec.toNat_setWidth]
    have h1 : (1 : BitVec 64).toNat = 1 := rfl
    have hg := g.isLt
    rw [h1, show INDEX_LEN = 48 from rfl, Nat.mod_eq_of_lt (show i.toNat + 1 < 2 ^ 64 by omega),
      Nat.mod_eq_of_lt (show g.toNat < 2 ^ 64 by omega)]
    rw [Nat.mod_eq_of_lt, or_add _ _ (by omega)]
    rw [Nat.shiftLeft_eq]; omega
  · cases h

/-- The words that stand for ids: the 48 low bits are not all zero. -/
def Valid (w : Word) : Prop := w.toNat % 2 ^ 48 ≠ 0

instance (w : Word) : Decidable (Valid w) := inferInstanceAs (Decidable (_ ≠ _))

/-- Reading a word as an (index, generation) pair. -/
def unpack (w : Word) : EId := ⟨(index w).toNat, (gen w).toNat⟩

theorem unpack_eq (w : Word) (h : Valid w) :
    unpack w = ⟨w.toNat % 2 ^ 48 - 1, w.toNat / 2 ^ 48⟩ := by
  unfold unpack; rw [index_toNat w h, gen_toNat]

theorem eq_of_div_mod {a b : Word} (h1 : a.toNat / 2 ^ 48 = b.toNat / 2 ^ 48)
    (h2 : a.toNat % 2 ^ 48 = b.toNat % 2 ^ 48) : a = b := by
  apply BitVec.eq_of_toNat_eq; omega

end Verif.Bits
