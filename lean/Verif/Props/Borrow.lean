import Verif.Lemmas.Borrow

/-!
# C37, C38: runtime borrows of one storage
-/
namespace Verif.Borrow

/-- C37: in every interleaving, an exclusive guard is the only one, except for the shared guards reborrowed from it (`as_view`), whose
lifetime is inside a borrow of the exclusive guard. -/
theorem C37_exclusive {h : List (Ev × Got)} {c : Cell} (hr : Reach h c) :
    c.exclusive ≤ 1 ∧ (c.exclusive = 1 → c.shared = 0) ∧ (0 < c.reborrowed → c.exclusive = 1) := by
  rcases hr.inv.mode with ⟨h1, h2, _⟩ | ⟨h1, h2, _⟩ <;> omega

theorem opened_append (h : List (Ev × Got)) (x : Ev × Got) (o : List Ev) (c : Ev) :
    opened (h ++ [x]) o c = opened h o c + (if x.1 ∈ o ∧ x.2 = .guard then 1 else 0) - (if x.1 = c then 1 else 0) := by
  unfold opened
  rw [List.countP_append, List.countP_append, List.countP_singleton, List.countP_singleton]
  obtain ⟨e, g⟩ := x
  dsimp only
  rcases Decidable.em (e = c) with rfl | h3 <;> by_cases h1 : e ∈ o <;> by_cases h2 : g = .guard <;> simp only [*, decide_true, decide_false,
    Bool.and_true, Bool.and_false, if_true, if_false, and_self, and_true, and_false, Bool.false_eq_true] <;> omega

/-- C37: the counts of the model are the guards handed out and not dropped yet. -/
theorem C37_counts {h : List (Ev × Got)} {c : Cell} (hr : Reach h c) :
    (c.shared : Int) = opened h [.read, .exclusiveRead, .clone] .dropShared
    ∧ (c.reborrowed : Int) = opened h [.reborrow, .cloneReborrow] .dropReborrow
    ∧ (c.exclusive : Int) = opened h [.write] .dropExclusive := by
  induction hr with
  | new => exact ⟨rfl, rfl, rfl⟩
  | @step h c e c' g _ _ hc ih =>
    obtain ⟨i1, i2, i3⟩ := ih
    simp only [opened_append, ← i1, ← i2, ← i3]
    cases e
    case dropShared =>
      simp only [Cell.step] at hc
      split at hc
      · cases hc
      · simp only [Option.some.injEq, Prod.mk.injEq] at hc
        obtain ⟨rfl, rfl⟩ := hc
        simp
        omega
    case dropReborrow =>
      simp only [Cell.step] at hc
      split at hc
      · cases hc
      · simp only [Option.some.injEq, Prod.mk.injEq] at hc
        obtain ⟨rfl, rfl⟩ := hc
        simp
        omega
    case dropExclusive =>
      simp only [Cell.step] at hc
      split at hc
      · cases hc
      · simp only [Option.some.injEq, Prod.mk.injEq] at hc
        obtain ⟨rfl, rfl⟩ := hc
        simp
        omega
    case undo =>
      simp only [Cell.step] at hc
      split at hc
      · cases hc
      · simp only [Option.some.injEq, Prod.mk.injEq] at hc
        obtain ⟨rfl, rfl⟩ := hc
        simp
    all_goals
      simp only [Cell.step, Option.ite_none_left_eq_some, Option.some.injEq] at hc
      try replace hc := hc.2
      unfold Cell.record at hc
      dsimp only at hc
      split at hc <;> cases hc <;> simp [Cell.addShared, Cell.addReborrowed, Cell.addExclusive]

/-- Two threads race for a write, one gets it; the other's read fails; after the drop a read succeeds. -/
example : ∃ c, Reach [(.write, .guard), (.write, .error), (.read, .error), (.reborrow, .guard), (.dropReborrow, .guard),
    (.dropExclusive, .guard), (.read, .guard)] c ∧ c.shared = 1 :=
  ⟨{ word := 1, shared := 1, reborrowed := 0, exclusive := 0, undoing := 0, dying := 0 },
    .step (.step (.step (.step (.step (.step (.step .new (by unfold Small; decide) rfl) (by unfold Small; decide) rfl)
      (by unfold Small; decide) rfl) (by unfold Small; decide) rfl) (by unfold Small; decide) rfl) (by unfold Small; decide) rfl)
      (by unfold Small; decide) rfl, rfl⟩

/-- C38: a borrow that fails (or panics) hands out no guard and takes none away. -/
theorem C38_no_guard {c c' : Cell} {e : Ev} {g : Got} (hc : c.step e = some (c', g)) (hg : g ≠ .guard) :
    c'.shared = c.shared ∧ c'.reborrowed = c.reborrowed ∧ c'.exclusive = c.exclusive := by
  cases e
  case dropShared =>
    simp only [Cell.step] at hc
    split at hc
    · cases hc
    · simp only [Option.some.injEq, Prod.mk.injEq] at hc
      exact absurd hc.2.symm hg
  case dropReborrow =>
    simp only [Cell.step] at hc
    split at hc
    · cases hc
    · simp only [Option.some.injEq, Prod.mk.injEq] at hc
      exact absurd hc.2.symm hg
  case dropExclusive =>
    simp only [Cell.step] at hc
    split at hc
    · cases hc
    · simp only [Option.some.injEq, Prod.mk.injEq] at hc
      exact absurd hc.2.symm hg
  case undo =>
    simp only [Cell.step] at hc
    split at hc
    · cases hc
    · simp only [Option.some.injEq, Prod.mk.injEq] at hc
      obtain ⟨rfl, rfl⟩ := hc
      exact ⟨rfl, rfl, rfl⟩
  all_goals
    simp only [Cell.step, Option.ite_none_left_eq_some, Option.some.injEq] at hc
    try replace hc := hc.2
    unfold Cell.record at hc
    dsimp only at hc
    split at hc <;> cases hc <;> first | exact absurd rfl hg | exact ⟨rfl, rfl, rfl⟩

/-- C38: in every reachable state a shared borrow succeeds when there is no exclusive guard, and only then. -/
theorem C38_read {h : List (Ev × Got)} {c : Cell} (hr : Reach h c) (hs : Small c) :
    ∃ c' g, c.step .read = some (c', g) ∧ (g = .guard ↔ c.exclusive = 0) ∧ (g = .guard → c'.shared = c.shared + 1) := by
  by_cases he : c.exclusive = 0
  · exact ⟨_, _, step_read hr.inv hs he, by simp [he], fun _ => rfl⟩
  · rcases step_read_held hr.inv hs he with ⟨h1, _⟩ | h1
    · exact ⟨_, _, h1, by simp [he], fun h => by cases h⟩
    · exact ⟨_, _, h1, by simp [he], fun h => by cases h⟩

/-- C38: an exclusive borrow (and the exclusive read used for non-`Sync` components) succeeds when there is no guard, and only then. -/
theorem C38_write {h : List (Ev × Got)} {c : Cell} (hr : Reach h c) :
    (∃ c' g, c.step .write = some (c', g) ∧ (g = .guard ↔ c.guards = 0) ∧ (g = .guard → c'.exclusive = 1))
    ∧ ∃ c' g, c.step .exclusiveRead = some (c', g) ∧ (g = .guard ↔ c.guards = 0) ∧ (g = .guard → c'.shared = 1) := by
  by_cases hg : c.guards = 0
  · have hg' := hg
    unfold Cell.guards at hg'
    exact ⟨⟨_, _, step_write hr.inv hg, by simp [hg], fun _ => by show c.exclusive + 1 = 1; omega⟩,
      ⟨_, _, step_exclusiveRead hr.inv hg, by simp [hg], fun _ => by show c.shared + 1 = 1; omega⟩⟩
  · exact ⟨⟨_, _, step_write_held hr.inv hg, by simp [hg], fun h => by cases h⟩,
      ⟨_, _, step_exclusiveRead_held hr.inv hg, by simp [hg], fun h => by cases h⟩⟩

/-- C38: once every guard has been dropped, whatever failed before, both kinds of borrow succeed. -/
theorem C38_idle {h : List (Ev × Got)} {c : Cell} (hr : Reach h c) (hd : c.dying < HIGH / 2) (hg : c.guards = 0) :
    c.word = 0 ∧ (∃ c', c.step .read = some (c', .guard)) ∧ (∃ c', c.step .write = some (c', .guard))
    ∧ ∃ c', c.step .exclusiveRead = some (c', .guard) := by
  have hm := hr.inv.mode
  have hhigh := high
  have hg' := hg
  unfold Cell.guards at hg'
  have hs : Small c := ⟨by omega, hd⟩
  obtain ⟨c1, g1, e1, i1, _⟩ := C38_read hr hs
  obtain ⟨⟨c2, g2, e2, i2, _⟩, ⟨c3, g3, e3, i3, _⟩⟩ := C38_write hr
  have : g1 = .guard := i1.mpr (by omega)
  have : g2 = .guard := i2.mpr hg
  have : g3 = .guard := i3.mpr hg
  subst_vars
  exact ⟨by omega, ⟨c1, e1⟩, ⟨c2, e2⟩, ⟨c3, e3⟩⟩

/-- C38: no borrow ever takes the panicking path of `check_overflow`. -/
theorem C38_no_panic {h : List (Ev × Got)} {c : Cell} (hr : Reach h c) : c.undoing = 0 := hr.inv.undoing

theorem word_bound {h : List (Ev × Got)} {c : Cell} (hr : Reach h c) :
    (c.exclusive = 0 → c.word ≤ h.length) ∧ c.word ≤ HIGH + h.length := by
  induction hr with
  | new => exact ⟨fun _ => Nat.le_refl _, Nat.zero_le _⟩
  | @step h c e c' g hr hs hc ih =>
    have hi := hr.inv
    have hi' := hi.step hs hc
    have hm := hi.mode
    have hm' := hi'.mode
    have hhigh := high
    have hword := word
    have hmax := maxFailed
    obtain ⟨hs1, hs2⟩ := hs
    rw [List.length_append, List.length_singleton]
    have hfa : c.word + 1 < WORD := by omega
    have hr1 : (read c.word).1 = c.word + 1 := by
      unfold read
      dsimp only
      split <;> exact fetchAdd_eq hfa
    have hr2 : (readReborrow c.word).1 = c.word + 1 := fetchAdd_eq hfa
    have hfs : 0 < c.word → fetchSub c.word = c.word - 1 := fun h0 => fetchSub_eq h0 (by omega)
    have hw1 : (write c.word).1 = HIGH ∨ (write c.word).1 = c.word := by unfold write; split <;> simp
    have hx1 : (exclusiveRead c.word).1 ≤ c.word + 1 := by unfold exclusiveRead; split <;> simp
    cases e
    all_goals
      simp only [Cell.step, Option.ite_none_left_eq_some, Option.some.injEq, Prod.mk.injEq] at hc
    all_goals first
      | (obtain ⟨_, rfl, rfl⟩ := hc; simp [dropShared, dropExclusive] at * <;> omega)
      | skip
    all_goals
      try replace hc := hc.2
      unfold Cell.record at hc
      try dsimp only at hc
      split at hc <;> cases hc <;> simp only [Cell.addShared, Cell.addReborrowed, Cell.addExclusive, hr1, hr2] at * <;> omega


theorem record_snd (c : Cell) (r : Nat × Got) (f : Cell → Cell) : (c.record r f).2 = r.2 := by
  unfold Cell.record
  dsimp only
  split <;> simp_all

theorem checkOverflow_abort {n : Nat} {g : Got} (h : checkOverflow n g = .abort) (hg : g ≠ .abort) : MAXFAILED ≤ n := by
  unfold checkOverflow at h
  by_cases h1 : n = HIGH
  · rw [if_pos h1] at h; cases h
  · rw [if_neg h1] at h
    by_cases h2 : MAXFAILED ≤ n
    · exact h2
    · rw [if_neg h2] at h; exact absurd h hg

/-- C38: the abort of `check_overflow` needs more than 2^62 - 2 borrows. -/
theorem C38_abort {h : List (Ev × Got)} {c c' : Cell} {e : Ev} (hr : Reach h c) (hs : Small c)
    (hc : c.step e = some (c', .abort)) : HIGH / 2 ≤ h.length + 1 := by
  have hb := word_bound hr
  have hi := hr.inv
  have hm := hi.mode
  have hhigh := high
  have hmax := maxFailed
  have hword := word
  have hfa : fetchAdd c.word = c.word + 1 := fetchAdd_eq (by obtain ⟨h1, h2⟩ := hs; omega)
  have hrr : (readReborrow c.word).2 = .abort → MAXFAILED ≤ c.word + 1 := by
    intro h
    exact hfa ▸ checkOverflow_abort h (by simp)
  have key : MAXFAILED ≤ c.word + 1 := by
    cases e
    all_goals simp only [Cell.step, Option.ite_none_left_eq_some, Option.some.injEq, Prod.mk.injEq, reduceCtorEq, and_false] at hc
    all_goals
      try replace hc := hc.2
      have h2 := congrArg Prod.snd hc
      rw [record_snd] at h2
      dsimp only at h2
    case read =>
      unfold read at h2
      dsimp only at h2
      split at h2
      · exact hfa ▸ checkOverflow_abort h2 (by simp)
      · cases h2
    case exclusiveRead => unfold exclusiveRead at h2; split at h2 <;> cases h2
    case write => unfold write at h2; split at h2 <;> cases h2
    all_goals exact hrr h2
  omega

end Verif.Borrow
