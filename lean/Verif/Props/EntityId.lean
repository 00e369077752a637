import Verif.Lemmas.EntityIdBits

/-!
# C01, C02: entity ids

`EntityId` is a 64-bit word; the statements below are about the words the code computes.
-/
namespace Verif.Bits

/-- **C01** (construction and reading). For every index below `2^48 - 1` and every generation the
constructor succeeds, the id reads back as that index and generation, its word is non-zero, and
`from_inner(inner())` is the identity on it. For larger indices the constructor panics. -/
theorem C01_roundtrip (i : BitVec 64) (g : BitVec 16) :
    (i.toNat < 2 ^ 48 - 1 →
      ∃ w, newFromParts i g = some w ∧ index w = i ∧ gen w = g ∧ inner w ≠ 0 ∧
        fromInner (inner w) = some w) ∧
    (2 ^ 48 - 1 ≤ i.toNat → newFromParts i g = none) := by
  constructor
  · intro hi
    have hlt : i < INDEX_MASK := by rw [BitVec.lt_def, INDEX_MASK_toNat]; exact hi
    obtain ⟨w, hw⟩ : ∃ w, newFromParts i g = some w := ⟨_, by unfold newFromParts; rw [if_pos hlt]⟩
    have hn := (newFromParts_toNat hw).2
    have hg := g.isLt
    have hv : w.toNat % 2 ^ 48 ≠ 0 := by omega
    have h0 : w ≠ 0 := by
      intro h; rw [h] at hv; exact hv rfl
    refine ⟨w, hw, ?_, ?_, h0, ?_⟩
    · apply BitVec.eq_of_toNat_eq; rw [index_toNat w hv]; omega
    · apply BitVec.eq_of_toNat_eq; rw [gen_toNat]; omega
    · unfold fromInner inner; rw [if_neg h0]
  · intro hi
    have : ¬ i < INDEX_MASK := by rw [BitVec.lt_def, INDEX_MASK_toNat]; omega
    simp [newFromParts, this]

example : ∃ w, newFromParts 701 3 = some w ∧ index w = 701 ∧ gen w = 3 := ⟨_, rfl, by decide, by decide⟩

/-- **C01** (injectivity). Ids built from parts are equal iff their parts are. -/
theorem C01_injective (i i' : BitVec 64) (g g' : BitVec 16) (w w' : Word)
    (h : newFromParts i g = some w) (h' : newFromParts i' g' = some w') :
    w = w' ↔ i = i' ∧ g = g' := by
  have a := newFromParts_toNat h
  have b := newFromParts_toNat h'
  constructor
  · intro e
    subst e
    exact ⟨BitVec.eq_of_toNat_eq (by omega), BitVec.eq_of_toNat_eq (by omega)⟩
  · rintro ⟨rfl, rfl⟩
    rw [h] at h'; exact Option.some.inj h'

example : newFromParts 5 2 = some 0x0002000000000006 ∧ newFromParts 6 2 = some 0x0002000000000007 := by
  decide

/-- **C01** (equality of ids is equality of index and generation, for every id that is in range). -/
theorem C01_eq_iff (a b : Word) (ha : Valid a) (hb : Valid b) :
    a = b ↔ index a = index b ∧ gen a = gen b := by
  constructor
  · rintro rfl; exact ⟨rfl, rfl⟩
  · rintro ⟨h1, h2⟩
    have e1 := congrArg BitVec.toNat h1
    have e2 := congrArg BitVec.toNat h2
    rw [index_toNat a ha, index_toNat b hb] at e1
    rw [gen_toNat, gen_toNat] at e2
    exact eq_of_div_mod e2 (by unfold Valid at *; omega)

example : Valid dead ∧ Valid 1 ∧ dead ≠ 1 := by decide

/-- **C02** (human readable form): reading back the serialized form of any id gives that id. -/
theorem C02_human_roundtrip (w : Word) (h : Valid w) : deHuman (serHuman w) = some w := by
  have hlt : index w < INDEX_MASK := by
    rw [BitVec.lt_def, INDEX_MASK_toNat, index_toNat w h]; omega
  unfold deHuman serHuman
  obtain ⟨w', hw'⟩ : ∃ w', newFromParts (index w) (gen w) = some w' :=
    ⟨_, by unfold newFromParts; rw [if_pos hlt]⟩
  rw [hw']
  have := (newFromParts_toNat hw').2
  rw [index_toNat w h, gen_toNat] at this
  have hw := w.isLt
  congr 1
  apply BitVec.eq_of_toNat_eq
  rw [this]; unfold Valid at h; omega

/-- **C02** (binary form): reading back the serialized form of any id gives that id, as a non-zero
word. -/
theorem C02_binary_roundtrip (w : Word) (h : Valid w) :
    deBinary (serBinary w) = w ∧ deBinary (serBinary w) ≠ 0 := by
  have e : deBinary (serBinary w) = w := by
    unfold deBinary serBinary; exact BitVec.sub_add_cancel w 1
  refine ⟨e, ?_⟩
  rw [e]; rintro rfl; exact h rfl

/-- **C02** (no two ids share an encoding). -/
theorem C02_injective (a b : Word) (ha : Valid a) (hb : Valid b) :
    (serHuman a = serHuman b ↔ a = b) ∧ (serBinary a = serBinary b ↔ a = b) := by
  constructor
  · constructor
    · intro h
      have := C02_human_roundtrip a ha
      rw [h, C02_human_roundtrip b hb] at this
      exact (Option.some.inj this).symm
    · rintro rfl; rfl
  · constructor
    · intro h
      have := (C02_binary_roundtrip a ha).1
      rw [h, (C02_binary_roundtrip b hb).1] at this
      exact this.symm
    · rintro rfl; rfl

example : Valid 0x000200000000000B ∧ serBinary 0x000200000000000B = 0x000200000000000A := by decide

/-- The binary decoder performs no validation: the input `u64::MAX` decodes to the zero word, which a
`NonZeroU64` must never hold, and the input `2^48 - 1` (never produced by the encoder for an id in
range) to an id with no index. -/
theorem C02_binary_decoder_unvalidated_fails :
    deBinary (~~~0) = 0 ∧ ¬ Valid (deBinary (2 ^ 48 - 1)) := by decide

/-- `from_inner` accepts words without an index: `from_inner(1 << 48)` is an id whose `index()`
wraps around to `u64::MAX` (a panic in debug builds). -/
theorem C01_from_inner_unvalidated_fails :
    ∃ w, fromInner (1 <<< 48) = some w ∧ ¬ Valid w ∧ index w = ~~~0 := by
  exact ⟨_, rfl, by decide, by decide⟩

/-! ## The pair model is the word model

Every operation of `Verif.EId`, on which the rest of the development is built, agrees with the word
operation under `unpack`. -/

theorem newFromParts_unpack (i : BitVec 64) (g : BitVec 16) (w : Word)
    (h : newFromParts i g = some w) : Valid w ∧ unpack w = ⟨i.toNat, g.toNat⟩ ∧ (unpack w).WF := by
  have hn := newFromParts_toNat h
  have hg := g.isLt
  have hv : Valid w := by unfold Valid; omega
  have he : unpack w = ⟨i.toNat, g.toNat⟩ := by
    rw [unpack_eq w hv]; congr 1 <;> omega
  refine ⟨hv, he, ?_⟩
  rw [he]; exact ⟨hn.1, hg⟩

theorem unpack_WF (w : Word) (h : Valid w) : (unpack w).WF := by
  rw [unpack_eq w h]
  have := w.isLt
  unfold EId.WF EId.INDEX_MASK; constructor <;> simp only <;> omega

theorem unpack_injective (a b : Word) (ha : Valid a) (hb : Valid b) :
    unpack a = unpack b ↔ a = b := by
  constructor
  · intro h
    have h1 := congrArg EId.idx h
    have h2 := congrArg EId.gen h
    exact (C01_eq_iff a b ha hb).2 ⟨BitVec.eq_of_toNat_eq h1, BitVec.eq_of_toNat_eq h2⟩
  · rintro rfl; rfl

theorem unpack_surjective (e : EId) (h : e.WF) : ∃ w, Valid w ∧ unpack w = e := by
  obtain ⟨h1, h2⟩ := h
  unfold EId.INDEX_MASK at h1
  have := (C01_roundtrip (BitVec.ofNat 64 e.idx) (BitVec.ofNat 16 e.gen)).1
    (by rw [BitVec.toNat_ofNat]; omega)
  obtain ⟨w, hw, _⟩ := this
  obtain ⟨hv, he, _⟩ := newFromParts_unpack _ _ _ hw
  refine ⟨w, hv, ?_⟩
  rw [he, BitVec.toNat_ofNat, BitVec.toNat_ofNat]
  cases e; simp only at *; congr 1 <;> omega

theorem new_unpack (i : BitVec 64) (w : Word) (h : new i = some w) :
    Valid w ∧ EId.new i.toNat = .ok (unpack w) := by
  have hz : newFromParts i 0 = some w := by
    unfold newFromParts; unfold new at h
    split at h
    · rename_i hi; rw [if_pos hi]; rw [← h]; simp
    · cases h
  obtain ⟨hv, he, hwf⟩ := newFromParts_unpack _ _ _ hz
  refine ⟨hv, ?_⟩
  rw [he]; rw [he] at hwf
  unfold EId.new; rw [if_pos hwf.1]; rfl

theorem new_none (i : BitVec 64) : new i = none ↔ EId.new i.toNat = .error .panic := by
  unfold new EId.new EId.INDEX_MASK
  have : (i < INDEX_MASK) ↔ i.toNat < 2 ^ 48 - 1 := by rw [BitVec.lt_def, INDEX_MASK_toNat]
  simp only [this]; split <;> simp

theorem setIndex_unpack (w : Word) (hw : Valid w) (i : BitVec 64) (w' : Word)
    (h : setIndex w i = some w') :
    Valid w' ∧ (unpack w).setIndex i.toNat = .ok (unpack w') := by
  unfold setIndex at h
  split at h
  · rename_i hi
    rw [BitVec.lt_def, INDEX_MASK_toNat] at hi
    have e : w'.toNat = (w.toNat / 2 ^ 48) * 2 ^ 48 + (i.toNat + 1) := by
      rw [← Option.some.inj h, BitVec.toNat_or, not_INDEX_MASK, and_GEN_MASK, BitVec.toNat_add]
      have h1 : (1 : BitVec 64).toNat = 1 := rfl
      rw [h1, Nat.mod_eq_of_lt (show i.toNat + 1 < 2 ^ 64 by omega), ← Nat.shiftLeft_eq,
        or_add _ _ (by omega), Nat.shiftLeft_eq]
    have hv : Valid w' := by unfold Valid; omega
    refine ⟨hv, ?_⟩
    rw [unpack_eq w' hv, unpack_eq w hw]
    unfold EId.setIndex EId.INDEX_MASK
    rw [if_pos hi]
    simp only [e, Except.ok.injEq, EId.mk.injEq]
    omega
  · cases h

theorem setIndex_none (w : Word) (i : BitVec 64) :
    setIndex w i = none ↔ (unpack w).setIndex i.toNat = .error .panic := by
  unfold setIndex EId.setIndex EId.INDEX_MASK
  have : (i < INDEX_MASK) ↔ i.toNat < 2 ^ 48 - 1 := by rw [BitVec.lt_def, INDEX_MASK_toNat]
  simp only [this]; split <;> simp

theorem bumpGen_unpack (w : Word) (hw : Valid w) :
    (bumpGen w).map unpack = (unpack w).bumpGen ∧ ∀ w', bumpGen w = some w' → Valid w' := by
  have hu := unpack_eq w hw
  unfold bumpGen EId.bumpGen
  rw [show (unpack w).gen = (gen w).toNat from rfl]
  by_cases hg : (gen w).toNat < MAX_GEN - 1
  · rw [if_pos hg, if_pos (show _ < EId.MAX_GEN - 1 from hg)]
    have hg' := gen_toNat w
    have hlt : (gen w).toNat < 65533 := hg
    have e : ((w &&& ~~~GEN_MASK) ||| (((gen w + 1).setWidth 64) <<< INDEX_LEN)).toNat =
        (w.toNat / 2 ^ 48 + 1) * 2 ^ 48 + w.toNat % 2 ^ 48 := by
      rw [BitVec.toNat_or, not_GEN_MASK, and_INDEX_MASK, BitVec.toNat_shiftLeft,
        BitVec.toNat_setWidth, BitVec.toNat_add]
      have h1 : (1 : BitVec 16).toNat = 1 := rfl
      rw [h1, show INDEX_LEN = 48 from rfl,
        Nat.mod_eq_of_lt (show (gen w).toNat + 1 < 2 ^ 16 by omega),
        Nat.mod_eq_of_lt (show (gen w).toNat + 1 < 2 ^ 64 by omega),
        Nat.mod_eq_of_lt (show ((gen w).toNat + 1) <<< 48 < 2 ^ 64 by
          rw [Nat.shiftLeft_eq]; omega),
        or_add _ _ (by omega), hg']
    have hv : Valid ((w &&& ~~~GEN_MASK) ||| (((gen w + 1).setWidth 64) <<< INDEX_LEN)) := by
      unfold Valid at *; omega
    constructor
    · simp only [Option.map_some]
      rw [unpack_eq _ hv, e, hu]
      simp only [Option.some.injEq, EId.mk.injEq]
      omega
    · intro w' h; rw [← Option.some.inj h]; exact hv
  · rw [if_neg hg, if_neg (show ¬ _ < EId.MAX_GEN - 1 from hg)]
    exact ⟨rfl, by intro _ h; cases h⟩

theorem dead_unpack : Valid dead ∧ unpack dead = EId.dead := by decide

theorem maxIndex_unpack : maxIndex.toNat = EId.maxIndex := by decide

theorem isDead_unpack (w : Word) : isDead w = (unpack w).isDead := by
  unfold isDead EId.isDead unpack
  simp only
  rw [gen_toNat, Bool.eq_iff_iff, beq_iff_eq, beq_iff_eq]
  constructor
  · intro h
    have := congrArg BitVec.toNat h
    rw [and_GEN_MASK, GEN_MASK_toNat] at this
    rw [Nat.shiftLeft_eq] at this; omega
  · intro h
    apply BitVec.eq_of_toNat_eq
    rw [and_GEN_MASK, GEN_MASK_toNat, Nat.shiftLeft_eq, h]

theorem copyIndex_unpack (w o : Word) (hw : Valid w) (ho : Valid o) :
    Valid (copyIndex w o) ∧ unpack (copyIndex w o) = (unpack w).copyIndex (unpack o) := by
  have e : (copyIndex w o).toNat = (w.toNat / 2 ^ 48) * 2 ^ 48 + o.toNat % 2 ^ 48 := by
    unfold copyIndex
    rw [BitVec.toNat_or, not_INDEX_MASK, and_GEN_MASK, and_INDEX_MASK, Nat.or_comm,
      ← Nat.shiftLeft_eq, or_add _ _ (by omega), Nat.shiftLeft_eq]
  have hv : Valid (copyIndex w o) := by unfold Valid at *; omega
  refine ⟨hv, ?_⟩
  rw [unpack_eq _ hv, unpack_eq w hw, unpack_eq o ho]
  simp only [EId.copyIndex, EId.mk.injEq]; omega

theorem copyGen_unpack (w o : Word) (hw : Valid w) (ho : Valid o) :
    Valid (copyGen w o) ∧ unpack (copyGen w o) = (unpack w).copyGen (unpack o) := by
  have e : (copyGen w o).toNat = (o.toNat / 2 ^ 48) * 2 ^ 48 + w.toNat % 2 ^ 48 := by
    unfold copyGen
    rw [BitVec.toNat_or, not_GEN_MASK, and_GEN_MASK, and_INDEX_MASK,
      ← Nat.shiftLeft_eq, or_add _ _ (by omega), Nat.shiftLeft_eq]
  have hv : Valid (copyGen w o) := by unfold Valid at *; omega
  refine ⟨hv, ?_⟩
  rw [unpack_eq _ hv, unpack_eq w hw, unpack_eq o ho]
  simp only [EId.copyGen, EId.mk.injEq]; omega

theorem copyIndexGen_unpack (w o : Word) (hw : Valid w) (ho : Valid o) :
    Valid (copyIndexGen w o) ∧
      unpack (copyIndexGen w o) = (unpack w).copyIndexGen (unpack o) := by
  have e1 : (copyIndexGen w o).toNat % 2 ^ 48 = (w.toNat % 2 ^ 48) ||| (o.toNat % 2 ^ 48) := by
    unfold copyIndexGen; rw [BitVec.toNat_or, Nat.or_mod_two_pow]
  have e2 : (copyIndexGen w o).toNat / 2 ^ 48 = (w.toNat / 2 ^ 48) ||| (o.toNat / 2 ^ 48) := by
    unfold copyIndexGen
    rw [BitVec.toNat_or, ← Nat.shiftRight_eq_div_pow, ← Nat.shiftRight_eq_div_pow,
      ← Nat.shiftRight_eq_div_pow, Nat.shiftRight_or_distrib]
  have hv : Valid (copyIndexGen w o) := by
    unfold Valid at *; rw [e1]
    have := Nat.left_le_or (n := w.toNat % 2 ^ 48) (m := o.toNat % 2 ^ 48)
    omega
  refine ⟨hv, ?_⟩
  rw [unpack_eq _ hv, unpack_eq w hw, unpack_eq o ho, e1, e2]
  unfold Valid at hw ho
  simp only [EId.copyIndexGen, EId.mk.injEq, and_true]
  rw [Nat.sub_add_cancel (by omega), Nat.sub_add_cancel (by omega)]

/-- **C01 (pair model)** All operations of the pair model at once. -/
theorem C01_pair_model_refines_words (w o : Word) (hw : Valid w) (ho : Valid o) :
    (unpack w = unpack o ↔ w = o) ∧
    (bumpGen w).map unpack = (unpack w).bumpGen ∧
    isDead w = (unpack w).isDead ∧
    unpack (copyIndex w o) = (unpack w).copyIndex (unpack o) ∧
    unpack (copyGen w o) = (unpack w).copyGen (unpack o) ∧
    unpack (copyIndexGen w o) = (unpack w).copyIndexGen (unpack o) :=
  ⟨unpack_injective w o hw ho, (bumpGen_unpack w hw).1, isDead_unpack w,
    (copyIndex_unpack w o hw ho).2, (copyGen_unpack w o hw ho).2,
    (copyIndexGen_unpack w o hw ho).2⟩

example : Valid 0x0001000000000003 ∧ unpack 0x0001000000000003 = ⟨2, 1⟩ := by decide

/-- **C01 (pair model)** The operations that make ids or refuse an index: the same result in both models, the same panics. -/
theorem C01_constructors_refine (w : Word) (hw : Valid w) (i : BitVec 64) :
    (∀ w', new i = some w' → Valid w' ∧ EId.new i.toNat = .ok (unpack w')) ∧
    (new i = none ↔ EId.new i.toNat = .error .panic) ∧
    (∀ w', setIndex w i = some w' → Valid w' ∧ (unpack w).setIndex i.toNat = .ok (unpack w')) ∧
    (setIndex w i = none ↔ (unpack w).setIndex i.toNat = .error .panic) ∧
    Valid dead ∧ unpack dead = EId.dead ∧ maxIndex.toNat = EId.maxIndex :=
  ⟨fun w' h => new_unpack i w' h, new_none i, fun w' h => setIndex_unpack w hw i w' h, setIndex_none w i,
    dead_unpack.1, dead_unpack.2, maxIndex_unpack⟩

example : new 5 = some 6 ∧ new 0x0000fffffffffffe = some 0x0000ffffffffffff ∧ new 0x0000ffffffffffff = none := by decide

end Verif.Bits
