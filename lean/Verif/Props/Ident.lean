import Verif.Model.Ident

/-!
# C81: identifiers of storages and descriptions of borrows can be keys

A type used as a key of an ordered or hashed map must have `==`, `cmp` and `Hash` agree, and `cmp` be a total order.
`LawfulKey` says this, for any type.
-/
namespace Verif.Ident

/-- What the documentation of `Eq`, `Ord` and `Hash` asks of a key. -/
structure LawfulKey {α : Type} (eq : α → α → Bool) (cmp : α → α → Ordering) (hash : α → List Nat) : Prop where
  refl : ∀ a, eq a a = true
  symm : ∀ a b, eq a b = true → eq b a = true
  trans : ∀ a b c, eq a b = true → eq b c = true → eq a c = true
  cmp_eq : ∀ a b, cmp a b = .eq ↔ eq a b = true
  cmp_swap : ∀ a b, cmp a b = .lt ↔ cmp b a = .gt
  cmp_trans : ∀ a b c, cmp a b = .lt → cmp b c = .lt → cmp a c = .lt
  cmp_left : ∀ a b c, eq a b = true → cmp a c = cmp b c
  cmp_right : ∀ a b c, eq a b = true → cmp c a = cmp c b
  hash_eq : ∀ a b, eq a b = true → hash a = hash b

theorem StorageId.cmp_eq (a b : StorageId) : a.cmp b = .eq ↔ a = b := by
  cases a <;> cases b <;> simp [StorageId.cmp]

theorem StorageId.cmp_swap (a b : StorageId) : a.cmp b = .lt ↔ b.cmp a = .gt := by
  cases a <;> cases b <;> simp [StorageId.cmp, Nat.compare_eq_lt, Nat.compare_eq_gt]

theorem StorageId.cmp_trans (a b c : StorageId) : a.cmp b = .lt → b.cmp c = .lt → a.cmp c = .lt := by
  cases a <;> cases b <;> cases c <;> simp [StorageId.cmp, Nat.compare_eq_lt] <;> omega

/-- C81. Identifiers of storages can be keys. -/
theorem C81_storage : LawfulKey (fun a b : StorageId => decide (a = b)) StorageId.cmp StorageId.hash where
  refl a := by simp
  symm a b h := by simp at h ⊢; exact h.symm
  trans a b c h h' := by simp at h h' ⊢; exact h.trans h'
  cmp_eq a b := by rw [StorageId.cmp_eq]; simp
  cmp_swap := StorageId.cmp_swap
  cmp_trans := StorageId.cmp_trans
  cmp_left a b c h := by simp at h; rw [h]
  cmp_right a b c h := by simp at h; rw [h]
  hash_eq a b h := by simp at h; rw [h]

theorem TypeInfo.eq_iff (a b : TypeInfo) : a.eq b = true ↔ a.storageId = b.storageId ∧ a.mutability = b.mutability := by
  unfold TypeInfo.eq
  simp

theorem TypeInfo.cmp_eq_iff (a b : TypeInfo) : a.cmp b = .eq ↔ a.storageId = b.storageId ∧ a.mutability = b.mutability := by
  unfold TypeInfo.cmp
  have h := StorageId.cmp_eq a.storageId b.storageId
  cases hc : a.storageId.cmp b.storageId
  · rw [hc] at h
    constructor
    · intro h; cases h
    · intro he; exact absurd (h.mpr he.1) (by decide)
  · rw [hc] at h
    dsimp only
    cases a.mutability <;> cases b.mutability <;> simp [Mutability.cmp, h.mp rfl]
  · rw [hc] at h
    constructor
    · intro h; cases h
    · intro he; exact absurd (h.mpr he.1) (by decide)

theorem TypeInfo.cmp_lt_iff (a b : TypeInfo) : a.cmp b = .lt ↔ a.storageId.cmp b.storageId = .lt ∨
    (a.storageId = b.storageId ∧ a.mutability = .shared ∧ b.mutability = .exclusive) := by
  unfold TypeInfo.cmp
  have h := StorageId.cmp_eq a.storageId b.storageId
  cases hc : a.storageId.cmp b.storageId
  · simp
  · rw [hc] at h
    dsimp only
    cases a.mutability <;> cases b.mutability <;> simp [Mutability.cmp, h.mp rfl]
  · rw [hc] at h
    constructor
    · intro h; cases h
    · rintro (h' | h')
      · cases h'
      · exact absurd (h.mpr h'.1) (by decide)

theorem TypeInfo.cmp_gt_iff (a b : TypeInfo) : a.cmp b = .gt ↔ a.storageId.cmp b.storageId = .gt ∨
    (a.storageId = b.storageId ∧ a.mutability = .exclusive ∧ b.mutability = .shared) := by
  unfold TypeInfo.cmp
  have h := StorageId.cmp_eq a.storageId b.storageId
  cases hc : a.storageId.cmp b.storageId
  · rw [hc] at h
    constructor
    · intro h; cases h
    · rintro (h' | h')
      · cases h'
      · exact absurd (h.mpr h'.1) (by decide)
  · rw [hc] at h
    dsimp only
    cases a.mutability <;> cases b.mutability <;> simp [Mutability.cmp, h.mp rfl]
  · simp

/-- C81. Descriptions of borrows can be keys. -/
theorem C81_info : LawfulKey TypeInfo.eq TypeInfo.cmp TypeInfo.hash where
  refl a := by simp [TypeInfo.eq]
  symm a b h := by rw [TypeInfo.eq_iff] at h ⊢; exact ⟨h.1.symm, h.2.symm⟩
  trans a b c h h' := by rw [TypeInfo.eq_iff] at h h' ⊢; exact ⟨h.1.trans h'.1, h.2.trans h'.2⟩
  cmp_eq a b := by rw [TypeInfo.cmp_eq_iff, TypeInfo.eq_iff]
  cmp_swap a b := by
    rw [TypeInfo.cmp_lt_iff, TypeInfo.cmp_gt_iff, StorageId.cmp_swap]
    constructor
    · rintro (h | h)
      · exact .inl h
      · exact .inr ⟨h.1.symm, h.2.2, h.2.1⟩
    · rintro (h | h)
      · exact .inl h
      · exact .inr ⟨h.1.symm, h.2.2, h.2.1⟩
  cmp_trans a b c h h' := by
    rw [TypeInfo.cmp_lt_iff] at h h' ⊢
    rcases h with h | ⟨h, h1, h2⟩ <;> rcases h' with h' | ⟨h', h3, h4⟩
    · exact .inl (StorageId.cmp_trans _ _ _ h h')
    · rw [← h']; exact .inl h
    · rw [h]; exact .inl h'
    · rw [h2] at h3; cases h3
  cmp_left a b c h := by
    rw [TypeInfo.eq_iff] at h
    unfold TypeInfo.cmp
    rw [h.1, h.2]
  cmp_right a b c h := by
    rw [TypeInfo.eq_iff] at h
    unfold TypeInfo.cmp
    rw [h.1, h.2]
  hash_eq a b h := by
    rw [TypeInfo.eq_iff] at h
    unfold TypeInfo.hash
    rw [h.1, h.2]

/-- C81. Comparing with a `TypeId` is comparing with the identifier made from it, as far as `==` goes; and, for identifiers of
Rust types, as far as the order goes. -/
theorem C81_typeId_partial (s : StorageId) (t : Nat) :
    (s.eqTypeId t = true ↔ s = .typeId t) ∧ ((∃ u, s = .typeId u) → s.cmpTypeId t = some (s.cmp (.typeId t))) := by
  constructor
  · cases s <;> simp [StorageId.eqTypeId]
  · rintro ⟨u, rfl⟩
    rfl

/-- C81. A description compared with a pair is compared with the description the pair gives. -/
theorem C81_pair (a : TypeInfo) (t : Nat) (m : Mutability) (name : Nat) (safe : Bool) :
    a.eqPair t m = a.eq ⟨name, m, .typeId t, safe⟩ := by
  unfold TypeInfo.eqPair TypeInfo.eq
  cases h : a.storageId <;> simp [StorageId.eqTypeId]

/-- C81. Two descriptions of borrows of one storage are equal when they borrow the same way, whatever their names. -/
theorem C81_meaning (a b : TypeInfo) : a.eq b = true ↔ a.storageId = b.storageId ∧ a.mutability = b.mutability :=
  TypeInfo.eq_iff a b

/-- C81. Different keys give different input to the hasher: what collides does so in the hasher only. -/
theorem C81_hash_distinct : (∀ a b : StorageId, a.hash = b.hash → a = b) ∧ ∀ a b : TypeInfo, a.hash = b.hash → a.eq b = true := by
  have h1 : ∀ a b : StorageId, a.hash = b.hash → a = b := by
    intro a b h
    cases a <;> cases b <;> simp_all [StorageId.hash]
  refine ⟨h1, fun a b h => ?_⟩
  rw [TypeInfo.eq_iff]
  obtain ⟨n, m, s, x⟩ := a
  obtain ⟨n', m', s', x'⟩ := b
  cases m <;> cases m' <;> cases s <;> cases s' <;> simp_all [TypeInfo.hash, StorageId.hash, Mutability.num]

/-! ## What does not hold -/

/-- Comparing any custom identifier with a `TypeId` says the contrary of comparing it with the identifier made from it. -/
theorem C81_order_fails (n t : Nat) :
    (StorageId.custom n).cmpTypeId t = some .lt ∧ (StorageId.custom n).cmp (.typeId t) = .gt := ⟨rfl, rfl⟩

/-- Descriptions of borrows of different storages that were written and read are equal as soon as they borrow the same way. -/
theorem C81_read_fails (a b : TypeInfo) (h : a.mutability = b.mutability) : (a.write.read).eq b.write.read = true := by
  rw [TypeInfo.eq_iff]
  exact ⟨rfl, h⟩

/-- So a written and read description is not the one that was written. -/
theorem C81_written_fails (a : TypeInfo) (h : a.storageId ≠ .default) : (a.write.read).eq a = false := by
  cases hx : (a.write.read).eq a with
  | false => rfl
  | true => exact absurd ((TypeInfo.eq_iff _ _).mp hx).1.symm h

/-- What was written and read describes a borrow of no storage identified by a type, and, of those identified by a number, of the one
with the largest number of 64 bits only. -/
theorem C81_read_back (a : TypeInfo) : (∀ t, (a.write.read).storageId ≠ .typeId t) ∧
    ∀ n, (a.write.read).storageId = .custom n ↔ n = 18446744073709551615 := by
  refine ⟨(fun t h => by cases h), fun n => ⟨fun h => ?_, fun h => ?_⟩⟩
  · have h : StorageId.default = .custom n := h
    unfold StorageId.default at h
    injection h with h
    omega
  · subst h
    show StorageId.default = _
    unfold StorageId.default
    congr 1

/-- A description that is thread safe can be equal to one that is not. -/
theorem C81_threadSafe_fails : ∃ a b : TypeInfo, a.eq b = true ∧ a.threadSafe ≠ b.threadSafe ∧ a.name ≠ b.name :=
  ⟨⟨0, .shared, .custom 1, true⟩, ⟨1, .shared, .custom 1, false⟩, rfl, by decide, by decide⟩

example : (⟨0, .shared, .typeId 1, true⟩ : TypeInfo).cmp ⟨0, .exclusive, .typeId 1, true⟩ = .lt := rfl
example : (StorageId.typeId 9).cmp (.custom 1) = .lt := rfl
example : (⟨0, .shared, .typeId 1, true⟩ : TypeInfo).storageId ≠ StorageId.default := by intro h; cases h

end Verif.Ident
