import Verif.Spec.Borrow

/-!
# Invariant of a cell
-/
namespace Verif.Borrow

/-- The word says which guards exist. -/
structure Inv (c : Cell) : Prop where
  undoing : c.undoing = 0
  mode : (c.exclusive = 0 ∧ c.reborrowed = 0 ∧ c.word = c.shared)
    ∨ (c.exclusive = 1 ∧ c.shared = 0 ∧ HIGH + c.reborrowed ≤ c.word ∧ c.word < MAXFAILED + c.dying)

theorem high : HIGH = 9223372036854775808 := by decide
theorem word : WORD = 18446744073709551616 := by decide
theorem maxFailed : MAXFAILED = 13835058055282163712 := by decide

theorem testBit63 {n : Nat} (h : n < WORD) : n.testBit 63 = decide (HIGH ≤ n) := by
  rw [Nat.testBit_eq_decide_div_mod_eq]
  rw [word] at h
  rw [high]
  have : (n / 2 ^ 63 % 2 = 1) ↔ 9223372036854775808 ≤ n := by
    have e : (2 : Nat) ^ 63 = 9223372036854775808 := by decide
    rw [e]
    omega
  simp only [this]

theorem fetchAdd_eq {n : Nat} (h : n + 1 < WORD) : fetchAdd n = n + 1 := Nat.mod_eq_of_lt h

theorem fetchSub_eq {n : Nat} (h0 : 0 < n) (h : n < WORD) : fetchSub n = n - 1 := by
  unfold fetchSub
  rw [word] at *
  omega

theorem Inv.new : Inv Cell.new := ⟨rfl, .inl ⟨rfl, rfl, rfl⟩⟩

theorem read_free {c : Cell} (h : Inv c) (hs : Small c) (he : c.exclusive = 0) : read c.word = (c.word + 1, .guard) := by
  obtain ⟨_, ⟨_, _, hw⟩ | ⟨h1, _⟩⟩ := h
  · have hs := hs.1
    rw [high] at hs
    have h1 : c.word + 1 < WORD := by rw [word]; omega
    unfold read
    rw [fetchAdd_eq h1]
    dsimp only
    rw [testBit63 h1, if_neg]
    rw [high]
    simp
    omega
  · omega

theorem read_held {c : Cell} (h : Inv c) (hs : Small c) (he : c.exclusive ≠ 0) :
    read c.word = (c.word + 1, .error) ∧ c.word + 1 < MAXFAILED ∨ read c.word = (c.word + 1, .abort) := by
  obtain ⟨_, ⟨h1, _⟩ | ⟨_, _, h3, h4⟩⟩ := h
  · exact absurd h1 he
  · have hs := hs.2
    rw [high] at hs h3
    rw [maxFailed] at h4
    have h1 : c.word + 1 < WORD := by rw [word]; omega
    unfold read
    rw [fetchAdd_eq h1]
    dsimp only
    rw [testBit63 h1, if_pos (by rw [high]; simp; omega)]
    unfold checkOverflow
    rw [if_neg (by rw [high]; omega)]
    by_cases hm : MAXFAILED ≤ c.word + 1
    · rw [if_pos hm]; exact .inr rfl
    · rw [if_neg hm]; exact .inl ⟨rfl, by omega⟩

theorem reborrow_shared {c : Cell} (h : Inv c) (hs : Small c) (he : c.exclusive = 0) :
    readReborrow c.word = (c.word + 1, .guard) := by
  obtain ⟨_, ⟨_, _, hw⟩ | ⟨h1, _⟩⟩ := h
  · have hs := hs.1
    rw [high] at hs
    have h1 : c.word + 1 < WORD := by rw [word]; omega
    unfold readReborrow checkOverflow
    rw [fetchAdd_eq h1]
    dsimp only
    rw [if_neg (by rw [high]; omega), if_neg (by rw [maxFailed]; omega)]
  · omega

theorem reborrow_held {c : Cell} (h : Inv c) (hs : Small c) (he : c.exclusive ≠ 0) :
    readReborrow c.word = (c.word + 1, .guard) ∧ c.word + 1 < MAXFAILED ∨ readReborrow c.word = (c.word + 1, .abort) := by
  obtain ⟨_, ⟨h1, _⟩ | ⟨_, _, h3, h4⟩⟩ := h
  · exact absurd h1 he
  · have hs := hs.2
    rw [high] at hs h3
    rw [maxFailed] at h4
    have h1 : c.word + 1 < WORD := by rw [word]; omega
    unfold readReborrow checkOverflow
    rw [fetchAdd_eq h1]
    dsimp only
    rw [if_neg (by rw [high]; omega)]
    by_cases hm : MAXFAILED ≤ c.word + 1
    · rw [if_pos hm]; exact .inr rfl
    · rw [if_neg hm]; exact .inl ⟨rfl, by omega⟩

/-- Every step keeps the invariant. -/
theorem Inv.step {c c' : Cell} {e : Ev} {g : Got} (h : Inv c) (hs : Small c) (hc : c.step e = some (c', g)) : Inv c' := by
  have hu := h.undoing
  have hm := h.mode
  have hs' := hs
  obtain ⟨hs1, hs2⟩ := hs'
  have hhigh := high
  have hword := word
  have hmax := maxFailed
  cases e with
  | read =>
    unfold Cell.step at hc
    by_cases he : c.exclusive = 0
    · rw [read_free h hs he] at hc
      cases hc
      exact ⟨hu, .inl ⟨he, by show c.reborrowed = 0; omega, by show c.word + 1 = c.shared + 1; omega⟩⟩
    · rcases read_held h hs he with ⟨hr, hlt⟩ | hr
      · rw [hr] at hc
        cases hc
        refine ⟨hu, .inr ⟨by show c.exclusive = 1; omega, by show c.shared = 0; omega, ?_, ?_⟩⟩
        · show HIGH + c.reborrowed ≤ c.word + 1; omega
        · show c.word + 1 < MAXFAILED + c.dying; omega
      · rw [hr] at hc
        cases hc
        refine ⟨hu, .inr ⟨by show c.exclusive = 1; omega, by show c.shared = 0; omega, ?_, ?_⟩⟩
        · show HIGH + c.reborrowed ≤ c.word + 1; omega
        · show c.word + 1 < MAXFAILED + (c.dying + 1); omega
  | exclusiveRead =>
    unfold Cell.step exclusiveRead at hc
    by_cases hw : c.word = 0
    · rw [if_pos hw] at hc
      cases hc
      exact ⟨hu, .inl ⟨by show c.exclusive = 0; omega, by show c.reborrowed = 0; omega, by show 1 = c.shared + 1; omega⟩⟩
    · rw [if_neg hw] at hc
      cases hc
      exact h
  | write =>
    unfold Cell.step write at hc
    by_cases hw : c.word = 0
    · rw [if_pos hw] at hc
      cases hc
      refine ⟨hu, .inr ⟨by show c.exclusive + 1 = 1; omega, by show c.shared = 0; omega, ?_, ?_⟩⟩
      · show HIGH + c.reborrowed ≤ HIGH; omega
      · show HIGH < MAXFAILED + c.dying; omega
    · rw [if_neg hw] at hc
      cases hc
      exact h
  | clone =>
    unfold Cell.step at hc
    by_cases hsh : c.shared = 0
    · simp [hsh] at hc
    · have he : c.exclusive = 0 := by omega
      rw [if_neg hsh, reborrow_shared h hs he] at hc
      cases hc
      exact ⟨hu, .inl ⟨he, by show c.reborrowed = 0; omega, by show c.word + 1 = c.shared + 1; omega⟩⟩
  | reborrow =>
    unfold Cell.step at hc
    by_cases he : c.exclusive = 0
    · simp [he] at hc
    · rw [if_neg he] at hc
      rcases reborrow_held h hs he with ⟨hr, hlt⟩ | hr
      · rw [hr] at hc
        cases hc
        refine ⟨hu, .inr ⟨by show c.exclusive = 1; omega, by show c.shared = 0; omega, ?_, ?_⟩⟩
        · show HIGH + (c.reborrowed + 1) ≤ c.word + 1; omega
        · show c.word + 1 < MAXFAILED + c.dying; omega
      · rw [hr] at hc
        cases hc
        refine ⟨hu, .inr ⟨by show c.exclusive = 1; omega, by show c.shared = 0; omega, ?_, ?_⟩⟩
        · show HIGH + c.reborrowed ≤ c.word + 1; omega
        · show c.word + 1 < MAXFAILED + (c.dying + 1); omega
  | cloneReborrow =>
    unfold Cell.step at hc
    by_cases hrb : c.reborrowed = 0
    · simp [hrb] at hc
    · have he : c.exclusive ≠ 0 := by omega
      rw [if_neg hrb] at hc
      rcases reborrow_held h hs he with ⟨hr, hlt⟩ | hr
      · rw [hr] at hc
        cases hc
        refine ⟨hu, .inr ⟨by show c.exclusive = 1; omega, by show c.shared = 0; omega, ?_, ?_⟩⟩
        · show HIGH + (c.reborrowed + 1) ≤ c.word + 1; omega
        · show c.word + 1 < MAXFAILED + c.dying; omega
      · rw [hr] at hc
        cases hc
        refine ⟨hu, .inr ⟨by show c.exclusive = 1; omega, by show c.shared = 0; omega, ?_, ?_⟩⟩
        · show HIGH + c.reborrowed ≤ c.word + 1; omega
        · show c.word + 1 < MAXFAILED + (c.dying + 1); omega
  | dropShared =>
    unfold Cell.step at hc
    by_cases hsh : c.shared = 0
    · simp [hsh] at hc
    · simp only [hsh, if_false, Option.some.injEq, Prod.mk.injEq] at hc
      obtain ⟨rfl, rfl⟩ := hc
      refine ⟨hu, .inl ⟨by show c.exclusive = 0; omega, by show c.reborrowed = 0; omega, ?_⟩⟩
      show fetchSub c.word = c.shared - 1
      rw [fetchSub_eq (by omega) (by omega)]
      omega
  | dropReborrow =>
    unfold Cell.step at hc
    by_cases hrb : c.reborrowed = 0
    · simp [hrb] at hc
    · simp only [hrb, if_false, Option.some.injEq, Prod.mk.injEq] at hc
      obtain ⟨rfl, rfl⟩ := hc
      have hf : fetchSub c.word = c.word - 1 := fetchSub_eq (by omega) (by omega)
      refine ⟨hu, .inr ⟨by show c.exclusive = 1; omega, by show c.shared = 0; omega, ?_, ?_⟩⟩
      · show HIGH + (c.reborrowed - 1) ≤ fetchSub c.word; omega
      · show fetchSub c.word < MAXFAILED + c.dying; omega
  | dropExclusive =>
    unfold Cell.step at hc
    by_cases hx : c.exclusive = 0 ∨ c.reborrowed ≠ 0
    · rw [if_pos hx] at hc; cases hc
    · rw [if_neg hx] at hc
      cases hc
      exact ⟨hu, .inl ⟨by show c.exclusive - 1 = 0; omega, by show c.reborrowed = 0; omega, by show 0 = c.shared; omega⟩⟩
  | undo =>
    unfold Cell.step at hc
    rw [if_pos hu] at hc
    cases hc

theorem step_read {c : Cell} (h : Inv c) (hs : Small c) (he : c.exclusive = 0) :
    c.step .read = some ({ c with word := c.word + 1, shared := c.shared + 1 }, .guard) := by
  unfold Cell.step
  rw [read_free h hs he]
  rfl

theorem step_read_held {c : Cell} (h : Inv c) (hs : Small c) (he : c.exclusive ≠ 0) :
    c.step .read = some ({ c with word := c.word + 1 }, .error) ∧ c.word + 1 < MAXFAILED
    ∨ c.step .read = some ({ c with word := c.word + 1, dying := c.dying + 1 }, .abort) := by
  unfold Cell.step
  rcases read_held h hs he with ⟨h1, h2⟩ | h1
  · rw [h1]; exact .inl ⟨rfl, h2⟩
  · rw [h1]; exact .inr rfl

theorem Inv.word_zero {c : Cell} (h : Inv c) : c.word = 0 ↔ c.guards = 0 := by
  have hm := h.mode
  have hh := high
  unfold Cell.guards
  omega

theorem step_write {c : Cell} (h : Inv c) (hg : c.guards = 0) :
    c.step .write = some ({ c with word := HIGH, exclusive := c.exclusive + 1 }, .guard) := by
  unfold Cell.step write
  rw [if_pos (h.word_zero.mpr hg)]
  rfl

theorem step_write_held {c : Cell} (h : Inv c) (hg : c.guards ≠ 0) : c.step .write = some (c, .error) := by
  unfold Cell.step write
  rw [if_neg (mt h.word_zero.mp hg)]
  rfl

theorem step_exclusiveRead {c : Cell} (h : Inv c) (hg : c.guards = 0) :
    c.step .exclusiveRead = some ({ c with word := 1, shared := c.shared + 1 }, .guard) := by
  unfold Cell.step exclusiveRead
  rw [if_pos (h.word_zero.mpr hg)]
  rfl

theorem step_exclusiveRead_held {c : Cell} (h : Inv c) (hg : c.guards ≠ 0) : c.step .exclusiveRead = some (c, .error) := by
  unfold Cell.step exclusiveRead
  rw [if_neg (mt h.word_zero.mp hg)]
  rfl

theorem Reach.inv {h : List (Ev × Got)} {c : Cell} (hr : Reach h c) : Inv c := by
  induction hr with
  | new => exact Inv.new
  | step _ hs hc ih => exact ih.step hs hc

end Verif.Borrow
