import Verif.Lemmas.SparseArray

/-! # C14: the paged sparse array is a plain index lookup -/
namespace Verif.SparseArray
open EId (BUCKET_SIZE)

/-- Calls made on the array. -/
inductive Op where
  | allocate (e : EId)
  | bulk (first last : EId)
  | write (e v : EId)

/-- The array after a call. -/
def Op.run (a : SparseArray) : Op → Res SparseArray
  | .allocate e => a.allocateAt e
  | .bulk s e => a.bulkAllocate s e
  | .write e v => a.setU e v

/-- The flat table: nothing anywhere but where it was last written. Allocation is invisible. -/
def flat (t : Nat → EId) : Op → Nat → EId
  | .allocate _ | .bulk _ _ => t
  | .write e v => fun i => if i = e.idx then v else t i

def flatRun (h : List Op) : Nat → EId := h.foldl flat (fun _ => EId.dead)

/-- Executions where ids given to `allocate_at` are not dead, bulk ranges are not reversed and writes
go to indices allocated before: what the storages do. -/
inductive Run : List Op → SparseArray → Prop where
  | nil : Run [] new
  | allocate {h a e a'} : Run h a → e.isDead = false → a.allocateAt e = .ok a' →
      Run (h ++ [.allocate e]) a'
  | bulk {h a s e a'} : Run h a → s.idx ≤ e.idx → a.bulkAllocate s e = .ok a' →
      Run (h ++ [.bulk s e]) a'
  | write {h a e v a'} : Run h a → a.setU e v = .ok a' → Run (h ++ [.write e v]) a'

/-- Was the page of index `i` allocated by the history? -/
def Allocated (h : List Op) (i : Nat) : Prop :=
  ∃ op ∈ h, match op with
    | .allocate e => e.idx / BUCKET_SIZE = i / BUCKET_SIZE
    | .bulk s e => s.idx / BUCKET_SIZE ≤ i / BUCKET_SIZE ∧ i / BUCKET_SIZE ≤ e.idx / BUCKET_SIZE
    | .write _ _ => False

theorem allocated_snoc (h : List Op) (op : Op) (i : Nat) : Allocated (h ++ [op]) i ↔
    Allocated h i ∨ Allocated [op] i := by
  unfold Allocated
  simp only [List.mem_append, or_and_right, exists_or]

theorem setU_inv {a a' : SparseArray} {e v : EId} (h : a.setU e v = .ok a') :
    has a (e.idx / BUCKET_SIZE) := by
  unfold setU at h
  split at h
  · cases h
  · cases h
  · rename_i p hp; exact ⟨p, hp⟩

theorem run_inv {h : List Op} {a : SparseArray} (hr : Run h a) :
    WFA a ∧ (∀ i, look a i = flatRun h i) ∧ (∀ i, has a (i / BUCKET_SIZE) ↔ Allocated h i) := by
  induction hr with
  | nil =>
    refine ⟨wfa_new, fun i => by simp [look, slot, new, flatRun], fun i => ?_⟩
    constructor
    · rintro ⟨p, hp⟩; simp [new] at hp
    · rintro ⟨op, hop, _⟩; cases hop
  | @allocate h a e a' _ hd hs ih =>
    obtain ⟨h1, h2, h3⟩ := ih
    obtain ⟨a1, g1, g2, g3, g4⟩ := allocateAt_look h1 hd
    rw [g1] at hs; cases hs
    refine ⟨g2, fun i => ?_, fun i => ?_⟩
    · rw [g3, h2]; unfold flatRun; rw [List.foldl_append]; rfl
    · rw [g4, h3, allocated_snoc]
      unfold Allocated
      simp [eq_comm]
  | @bulk h a s e a' _ hle hs ih =>
    obtain ⟨h1, h2, h3⟩ := ih
    obtain ⟨a1, g1, g2, g3, g4⟩ := bulkAllocate_look h1 hle
    rw [g1] at hs; cases hs
    refine ⟨g2, fun i => ?_, fun i => ?_⟩
    · rw [g3, h2]; unfold flatRun; rw [List.foldl_append]; rfl
    · rw [g4, h3, allocated_snoc]
      unfold Allocated
      simp
  | @write h a e v a' _ hs ih =>
    obtain ⟨h1, h2, h3⟩ := ih
    obtain ⟨a1, g1, g2, g3, g4⟩ := setU_look h1 (setU_inv hs) v
    rw [g1] at hs; cases hs
    refine ⟨g2, fun i => ?_, fun i => ?_⟩
    · rw [g3, h2]; unfold flatRun; rw [List.foldl_append]; rfl
    · rw [g4, h3, allocated_snoc]
      unfold Allocated
      simp

/-- C14. After any sequence of allocations and writes, `get` of an index whose page was allocated is
what was last written at exactly that index (dead when never written), and `None` elsewhere; it never
reads out of bounds. -/
theorem C14_flat_lookup {h : List Op} {a : SparseArray} (hr : Run h a) (e : EId) :
    (Allocated h e.idx → a.get e = .ok (some (flatRun h e.idx))) ∧
    (¬ Allocated h e.idx → a.get e = .ok none ∧ flatRun h e.idx = EId.dead) := by
  obtain ⟨h1, h2, h3⟩ := run_inv hr
  rw [← h3, ← h2]
  rcases slot_eq h1 e.idx with ⟨g1, g2, g3⟩ | ⟨g1, g2⟩
  · refine ⟨fun hh => absurd hh g1, fun _ => ⟨?_, g3⟩⟩
    rw [get_eq h1, g2]
  · refine ⟨fun _ => ?_, fun hh => absurd g1 hh⟩
    rw [get_eq h1, g2]

/-- C14. Writing at an allocated index and allocating any index never fail, and a write is seen at that
index and at no other. -/
theorem C14_write_local {h : List Op} {a : SparseArray} (hr : Run h a) (e v : EId)
    (he : Allocated h e.idx) : ∃ a', a.setU e v = .ok a' ∧ a'.get e = .ok (some v) ∧
      ∀ e' : EId, e'.idx ≠ e.idx → a'.get e' = a.get e' := by
  obtain ⟨h1, h2, h3⟩ := run_inv hr
  obtain ⟨a', g1, g2, g3, g4⟩ := setU_look h1 ((h3 _).2 he) v
  have hr' := Run.write hr g1
  refine ⟨a', g1, ?_, ?_⟩
  · rw [((C14_flat_lookup hr' e).1 ((allocated_snoc _ _ _).2 (.inl he)))]
    unfold flatRun; rw [List.foldl_append]; simp [flat]
  · intro e' hne
    have hal : Allocated (h ++ [.write e v]) e'.idx ↔ Allocated h e'.idx := by
      rw [allocated_snoc]; unfold Allocated; simp
    by_cases hA : Allocated h e'.idx
    · rw [(C14_flat_lookup hr' e').1 (hal.2 hA), (C14_flat_lookup hr e').1 hA]
      unfold flatRun; rw [List.foldl_append]; simp [flat, hne]
    · rw [((C14_flat_lookup hr' e').2 (fun hh => hA (hal.1 hh))).1, ((C14_flat_lookup hr e').2 hA).1]

theorem C14_allocate_total {h : List Op} {a : SparseArray} (hr : Run h a) (e : EId)
    (he : e.isDead = false) : ∃ a', a.allocateAt e = .ok a' ∧ ∀ e' : EId,
      e'.idx / BUCKET_SIZE ≠ e.idx / BUCKET_SIZE → a'.get e' = a.get e' := by
  obtain ⟨h1, _, _⟩ := run_inv hr
  obtain ⟨a', g1, _⟩ := allocateAt_look h1 he
  have hr' := Run.allocate hr he g1
  refine ⟨a', g1, ?_⟩
  intro e' hne
  have hal : Allocated (h ++ [.allocate e]) e'.idx ↔ Allocated h e'.idx := by
    rw [allocated_snoc]; unfold Allocated
    simp only [List.mem_singleton, exists_eq_left]
    exact ⟨fun hh => hh.elim id (fun hh => absurd hh.symm hne), .inl⟩
  by_cases hA : Allocated h e'.idx
  · rw [(C14_flat_lookup hr' e').1 (hal.2 hA), (C14_flat_lookup hr e').1 hA]
    unfold flatRun; rw [List.foldl_append]; rfl
  · rw [((C14_flat_lookup hr' e').2 (fun hh => hA (hal.1 hh))).1, ((C14_flat_lookup hr e').2 hA).1]

/-- Two entities in different pages, one written: the hypotheses are met and the flat table is not
trivial. -/
example : ∃ a, Run [.allocate ⟨1000, 3⟩, .allocate ⟨2, 0⟩, .write ⟨1000, 3⟩ ⟨7, 3⟩] a ∧
    a.get ⟨1000, 0⟩ = .ok (some ⟨7, 3⟩) ∧ a.get ⟨2, 0⟩ = .ok (some EId.dead) ∧
    a.get ⟨500, 0⟩ = .ok none := by
  obtain ⟨a1, h1, _⟩ := C14_allocate_total .nil ⟨1000, 3⟩ (by decide)
  have r1 := Run.allocate .nil (by decide) h1
  obtain ⟨a2, h2, _⟩ := C14_allocate_total r1 ⟨2, 0⟩ (by decide)
  have r2 := Run.allocate r1 (by decide) h2
  obtain ⟨a3, h3, _⟩ := C14_write_local r2 ⟨1000, 3⟩ ⟨7, 3⟩ ⟨.allocate ⟨1000, 3⟩, by simp, rfl⟩
  have r3 := Run.write r2 h3
  refine ⟨a3, r3, ?_, ?_, ?_⟩
  · exact (C14_flat_lookup r3 ⟨1000, 0⟩).1 ⟨.allocate ⟨1000, 3⟩, by simp, rfl⟩
  · exact (C14_flat_lookup r3 ⟨2, 0⟩).1 ⟨.allocate ⟨2, 0⟩, by simp, rfl⟩
  · refine ((C14_flat_lookup r3 ⟨500, 0⟩).2 ?_).1
    rintro ⟨op, hop, hh⟩
    simp only [List.cons_append, List.nil_append, List.mem_cons, List.not_mem_nil, or_false] at hop
    rcases hop with rfl | rfl | rfl
    · revert hh; decide
    · revert hh; decide
    · exact hh

end Verif.SparseArray
